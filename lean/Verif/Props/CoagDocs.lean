import Verif.Props.Kernels
import Verif.Props.Logn
import Mathlib.Analysis.Real.Pi.Bounds

/-!
# C89: coagulation against the documentation

The specification is the coagulation part of `/repo/docs/models/1_chemistry.md` (lines 176-277) and `/repo/docs/models/3_logn.md`, transcribed
below with the masses, the gas temperature, the viscosity and the mean free path as independent variables.  Three printed formulas are misprints: the
theorems give the formula the program evaluates, the exact relation to the printed one, and that the printed one differs.
-/

namespace Soot

open Res Real
open scoped Classical

namespace CoagDoc

/-! ## Transcription -/

/-- 1_chemistry.md, free-molecular coefficient, with `p` the power of `π k_B T / 2` (printed without a power) -/
noncomputable def betaFM (p e T m μ : ℝ) : ℝ :=
  e * (π * kb * T / 2) ^ p * (6 / (π * rhoSoot)) ^ ((2 : ℝ) / 3) * (1 / m + 1 / μ) ^ ((1 : ℝ) / 2) * (m ^ ((1 : ℝ) / 3) + μ ^ ((1 : ℝ) / 3)) ^ 2
/-- diameter of a particle (2_mono.md) -/
noncomputable def dia (m : ℝ) : ℝ := (6 * m / (π * rhoSoot)) ^ ((1 : ℝ) / 3)
/-- `C_m = 1 + 1.657 Kn_m`, `Kn_m = 2 λ/d_m` -/
noncomputable def slip (l m : ℝ) : ℝ := 1 + 1.657 * (2 * l / dia m)
/-- continuum coefficient as printed, with the product of the two mobilities -/
noncomputable def betaCPrinted (T v l m μ : ℝ) : ℝ :=
  2 * kb * T / (3 * v) * (slip l m / m ^ ((1 : ℝ) / 3) * (slip l μ / μ ^ ((1 : ℝ) / 3))) * (m ^ ((1 : ℝ) / 3) + μ ^ ((1 : ℝ) / 3))
/-- the same with their sum -/
noncomputable def betaC (T v l m μ : ℝ) : ℝ :=
  2 * kb * T / (3 * v) * (slip l m / m ^ ((1 : ℝ) / 3) + slip l μ / μ ^ ((1 : ℝ) / 3)) * (m ^ ((1 : ℝ) / 3) + μ ^ ((1 : ℝ) / 3))
/-- `λ_g = ν (π M / 2RT)^(1/2)` -/
noncomputable def lambda (s : State) : ℝ := s.muGas / s.rhoGas * (π * s.MWGas / (2 * Rg * s.T)) ^ ((1 : ℝ) / 2)
/-- Fuchs: diffusivity with slip correction `C` -/
noncomputable def D (T v C m : ℝ) : ℝ := kb * T * C / (3 * π * v * dia m)
noncomputable def cbar (T m : ℝ) : ℝ := (8 * kb * T / (π * m)) ^ ((1 : ℝ) / 2)
noncomputable def len (T D m : ℝ) : ℝ := 8 * D / (π * cbar T m)
noncomputable def g (l m : ℝ) : ℝ :=
  sqrt 2 / (3 * dia m * l) * ((dia m + l) ^ 3 - (dia m ^ 2 + l ^ 2) ^ ((3 : ℝ) / 2)) - sqrt 2 * dia m
noncomputable def betaF (e T D1 D2 m μ : ℝ) : ℝ :=
  2 * π * (D1 + D2) * (dia m + dia μ) *
    ((dia m + dia μ) / (dia m + dia μ + 2 * (g (len T D1 m) m ^ 2 + g (len T D2 μ) μ ^ 2) ^ ((1 : ℝ) / 2)) +
      8 * (D1 + D2) / e / ((cbar T m ^ 2 + cbar T μ ^ 2) ^ ((1 : ℝ) / 2) * (dia m + dia μ)))⁻¹

/-- 3_logn.md: the fractional moments -/
noncomputable def M (M0 M1 M2 r : ℝ) : ℝ := M0 ^ (1 - 3 * r / 2 + r ^ 2 / 2) * M1 ^ (2 * r - r ^ 2) * M2 ^ (r ^ 2 / 2 - r / 2)
noncomputable def KC (T v : ℝ) : ℝ := 2 * kb * T / (3 * v)
/-- printed with `a = 1.675` -/
noncomputable def KC' (a l : ℝ) : ℝ := 2 * a * l * (π * rhoSoot / 6) ^ ((1 : ℝ) / 3)
noncomputable def KFM (e T : ℝ) : ℝ := e * (π * kb * T / 2) ^ ((1 : ℝ) / 2) * (6 / (π * rhoSoot)) ^ ((2 : ℝ) / 3)
noncomputable def R0C (K K' : ℝ) (M : ℝ → ℝ) : ℝ :=
  -(K * (M 0 ^ 2 + M (2 / 6) * M (-2 / 6) + K' * (M 0 * M (-2 / 6) + M (2 / 6) * M (-4 / 6))))
noncomputable def R2C (K K' : ℝ) (M : ℝ → ℝ) : ℝ :=
  2 * K * (M 1 ^ 2 + M (4 / 6) * M (8 / 6) + K' * (M 1 * M (4 / 6) + M (2 / 6) * M (8 / 6)))
noncomputable def R0FM (K b : ℝ) (M : ℝ → ℝ) : ℝ := -(K * b * (M 0 * M (1 / 6) + 2 * M (2 / 6) * M (-1 / 6) + M (4 / 6) * M (-3 / 6)))
noncomputable def R2FM (K b : ℝ) (M : ℝ → ℝ) : ℝ := 2 * K * b * (M 1 * M (7 / 6) + 2 * M (8 / 6) * M (5 / 6) + M (10 / 6) * M (3 / 6))

/-! ## Bridging -/

theorem dia_eq (m : ℝ) : dia m = diam m := by rw [dia, diam, onethird]
theorem lambda_eq (s : State) : lambda s = s.mfpVal := by rw [lambda, State.mfpVal, sqrt_eq_rpow]

theorem dia_cube {m : ℝ} (hm : 0 < m) : dia m = (6 / (π * rhoSoot)) ^ ((1 : ℝ) / 3) * m ^ ((1 : ℝ) / 3) := by
  have := rhoSoot_pos
  rw [dia, ← mul_rpow (by positivity) hm.le]; congr 1; ring

theorem dia_pos {m : ℝ} (hm : 0 < m) : 0 < dia m := by have := rhoSoot_pos; unfold dia; positivity

theorem fm_eq {c : Coag} {s : State} (h : s.Phys) (m μ : ℝ) (hm : 0 < m) (hμ : 0 < μ) :
    fmVal c s m μ = betaFM (1 / 2) (c.fmMult * 2.2) s.T m μ := by
  rw [fmVal, Coag.kfmVal, betaFM, epsC, ← sqrt_eq_rpow, ← sqrt_eq_rpow, twothird, onethird]
  have : (0.5 : ℝ) * π * kb * s.T = π * kb * s.T / 2 := by ring
  rw [this]; ring

theorem c_eq {s : State} (m μ : ℝ) (hm : 0 < m) (hμ : 0 < μ) : contVal s m μ = betaC s.T s.muGas (lambda s) m μ := by
  have hr := rhoSoot_pos
  have hk : 0 < (6 / (π * rhoSoot)) ^ ((1 : ℝ) / 3) := by positivity
  have h1 : 0 < m ^ ((1 : ℝ) / 3) := by positivity
  have h2 : 0 < μ ^ ((1 : ℝ) / 3) := by positivity
  rw [contVal, betaC, kcVal, lambda_eq, slip, slip, ← dia_eq, ← dia_eq, dia_cube hm, dia_cube hμ]
  set k := (6 / (π * rhoSoot)) ^ ((1 : ℝ) / 3)
  set a := m ^ ((1 : ℝ) / 3)
  set b := μ ^ ((1 : ℝ) / 3)
  rcases eq_or_ne s.muGas 0 with h0 | h0
  · simp [h0]
  · field_simp

theorem M_pos {M0 M1 M2 : ℝ} (h0 : 0 < M0) (h1 : 0 < M1) (h2 : 0 < M2) (r : ℝ) : 0 < M M0 M1 M2 r := by unfold M; positivity

theorem M_eq {M0 M1 M2 : ℝ} (h0 : 0 < M0) (h1 : 0 < M1) (h2 : 0 < M2) (r : ℝ) : lognM M0 M1 M2 r = M M0 M1 M2 r := by
  unfold lognM M
  split_ifs with e e'
  · subst e; norm_num
  · subst e'; norm_num
  · rw [lognMrVal_pos h0 h1 h2]
    have a : 1 + 0.5 * r * (r - 3) = 1 - 3 * r / 2 + r ^ 2 / 2 := by norm_num; ring
    have b : r * (2 - r) = 2 * r - r ^ 2 := by ring
    have c : 0.5 * r * (r - 1) = r ^ 2 / 2 - r / 2 := by norm_num; ring
    rw [a, b, c]

end CoagDoc

open CoagDoc

/-! ## C89 -/

/-- **C89 (kernels, what holds).** On every accepted state and for particles above the mass cutoff: the free-molecular mechanism evaluates the
documented coefficient with the power 1/2 on `π k_B T/2` that K_FM carries elsewhere in the documentation, times the adjustable
multiplier; the continuum mechanism the documented one with the sum of the two mobilities; Fuchs the documented one, with the full
Cunningham factor for `C_c`.
(Missing to the full claim: the first two as printed, see `C89_docs_false`; and the harmonic mean of the documented
coefficients, see `C89_harmonic_partial`.) -/
theorem C89_kernels_partial (s : State) (hs : Accepted s) (c : ℝ) (hc : 0 < c) (m μ : ℝ) (hm : mmin < m) (hμ : mmin < μ) :
    let Cc := fun m => 1 + 2 * lambda s / dia m * (1.257 + 0.4 * exp (-1.1 / (2 * lambda s / dia m)))
    (⟨.FM, c⟩ : Coag).rate s m μ = ok (betaFM (1 / 2) (c * 2.2) s.T m μ) ∧
    (⟨.CONTINUUM, c⟩ : Coag).rate s m μ = ok (betaC s.T s.muGas (lambda s) m μ) ∧
    (⟨.FUCHS, c⟩ : Coag).rate s m μ = ok (betaF (c * 2.2) s.T (D s.T s.muGas (Cc m) m) (D s.T s.muGas (Cc μ) μ) m μ) := by
  intro Cc
  have h := hs.phys
  have p1 := mmin_pos.trans hm
  have p2 := mmin_pos.trans hμ
  have hcut : ¬ (m ≤ mmin ∨ μ ≤ mmin) := by push Not; exact ⟨hm, hμ⟩
  refine ⟨?_, ?_, ?_⟩
  · rw [Coag.rate_ok h hc, Coag.val, if_neg hcut]
    exact congrArg ok (fm_eq (c := ⟨.FM, c⟩) h m μ p1 p2)
  · rw [Coag.rate_ok h hc, Coag.val, if_neg hcut]
    exact congrArg ok (c_eq m μ p1 p2)
  · rw [Coag.rate_ok h hc, Coag.val, if_neg hcut]
    refine congrArg ok ?_
    have hmu := h.mu
    have hl : 0 < lambda s := by rw [lambda_eq]; exact h.mfpVal_pos
    have hCc : ∀ x, 0 < x → cunningham (2 * s.mfpVal / diam x) = Cc x := fun x hx => by
      have := dia_pos hx
      rw [← dia_eq, ← lambda_eq, cunningham, if_neg (by positivity)]
    have hD : ∀ x, 0 < x → fuchsD s x = D s.T s.muGas (Cc x) x := fun x hx => by
      have := dia_pos hx
      rw [fuchsD, hCc x hx, ← dia_eq, D]; field_simp
    have hcb : ∀ x, fuchsC s x = cbar s.T x := fun x => by rw [fuchsC, cbar, sqrt_eq_rpow]
    have hG : ∀ x, 0 < x → fuchsG s x = g (len s.T (D s.T s.muGas (Cc x) x) x) x := fun x hx => by
      have e : fuchsL s x = len s.T (D s.T s.muGas (Cc x) x) x := by rw [fuchsL, hD x hx, hcb, len]
      rw [fuchsG, e, ← dia_eq, g, root2, ← sq, ← sq]; norm_num
    rw [fuchsVal, betaF, hD m p1, hD μ p2, hG m p1, hG μ p2, hcb, hcb, ← dia_eq, ← dia_eq, div_eq_mul_inv, ← sqrt_eq_rpow, ← sqrt_eq_rpow]
    simp only [sq, epsC]
    congr 3
    rw [mul_comm c 2.2]; ring

/-- **C89 (harmonic mean).** HM is the harmonic mean of the free-molecular coefficient and of the continuum coefficient with the full Cunningham
factor; it is therefore strictly below the documented harmonic mean, which uses `C_m = 1 + 1.657 Kn_m`. -/
theorem C89_harmonic_partial (s : State) (hs : Accepted s) (c : ℝ) (hc : 0 < c) (m μ : ℝ) (hm : mmin < m) (hμ : mmin < μ) :
    let Cc := fun m => 1 + 2 * lambda s / dia m * (1.257 + 0.4 * exp (-1.1 / (2 * lambda s / dia m)))
    let F := betaFM (1 / 2) (c * 2.2) s.T m μ
    let C := 2 * kb * s.T / (3 * s.muGas) * (Cc m / m ^ ((1 : ℝ) / 3) + Cc μ / μ ^ ((1 : ℝ) / 3)) * (m ^ ((1 : ℝ) / 3) + μ ^ ((1 : ℝ) / 3))
    let B := betaC s.T s.muGas (lambda s) m μ
    (⟨.HM, c⟩ : Coag).rate s m μ = ok (F * C / (F + C)) ∧ F * C / (F + C) < F * B / (F + B) := by
  intro Cc F C B
  have h := hs.phys
  have hT := h.T; have hk := kb_pos; have hr := rhoSoot_pos; have hmu := h.mu
  have p1 := mmin_pos.trans hm
  have p2 := mmin_pos.trans hμ
  have hl : 0 < lambda s := by rw [lambda_eq]; exact h.mfpVal_pos
  have hcut : ¬ (m ≤ mmin ∨ μ ≤ mmin) := by push Not; exact ⟨hm, hμ⟩
  have hkk : 0 < (6 / (π * rhoSoot)) ^ ((1 : ℝ) / 3) := by positivity
  have h1 : 0 < m ^ ((1 : ℝ) / 3) := by positivity
  have h2 : 0 < μ ^ ((1 : ℝ) / 3) := by positivity
  have hCc : ∀ x, 0 < x → cunningham (2 * s.mfpVal / diam x) = Cc x := fun x hx => by
    have := dia_pos hx
    rw [← dia_eq, ← lambda_eq, cunningham, if_neg (by positivity)]
  have hC : hmContVal s m μ = C := by
    rw [hmContVal, hCc m p1, hCc μ p2, ← dia_eq, ← dia_eq, dia_cube p1, dia_cube p2, twothird]
    show _ = 2 * kb * s.T / (3 * s.muGas) * (Cc m / m ^ ((1 : ℝ) / 3) + Cc μ / μ ^ ((1 : ℝ) / 3)) * (m ^ ((1 : ℝ) / 3) + μ ^ ((1 : ℝ) / 3))
    generalize (6 / (π * rhoSoot)) ^ ((1 : ℝ) / 3) = k at *
    generalize m ^ ((1 : ℝ) / 3) = a at *
    generalize μ ^ ((1 : ℝ) / 3) = b at *
    field_simp
  have hF : fmVal ⟨.HM, c⟩ s m μ = F := fm_eq (c := ⟨.HM, c⟩) h m μ p1 p2
  have hF0 : 0 < F := by show 0 < betaFM _ _ _ _ _; unfold betaFM; positivity
  have hlt : ∀ x, 0 < x → 0 < Cc x ∧ Cc x < slip (lambda s) x := fun x hx => by
    have hd := dia_pos hx
    have hK : 0 < 2 * lambda s / dia x := by positivity
    refine ⟨by show 0 < 1 + _; positivity, ?_⟩
    have he : exp (-1.1 / (2 * lambda s / dia x)) < 1 := by
      rw [exp_lt_one_iff]; exact div_neg_of_neg_of_pos (by norm_num) hK
    show 1 + _ < 1 + _
    nlinarith
  have hC0 : 0 < C := by
    have := (hlt m p1).1; have := (hlt μ p2).1
    show 0 < 2 * kb * s.T / (3 * s.muGas) * (Cc m / m ^ ((1 : ℝ) / 3) + Cc μ / μ ^ ((1 : ℝ) / 3)) * (m ^ ((1 : ℝ) / 3) + μ ^ ((1 : ℝ) / 3))
    positivity
  have hCB : C < B := by
    show 2 * kb * s.T / (3 * s.muGas) * (Cc m / m ^ ((1 : ℝ) / 3) + Cc μ / μ ^ ((1 : ℝ) / 3)) * (m ^ ((1 : ℝ) / 3) + μ ^ ((1 : ℝ) / 3)) <
      2 * kb * s.T / (3 * s.muGas) * (slip (lambda s) m / m ^ ((1 : ℝ) / 3) + slip (lambda s) μ / μ ^ ((1 : ℝ) / 3)) * (m ^ ((1 : ℝ) / 3) + μ ^ ((1 : ℝ) / 3))
    apply mul_lt_mul_of_pos_right _ (by positivity)
    apply mul_lt_mul_of_pos_left _ (by positivity)
    have := div_lt_div_of_pos_right (hlt m p1).2 h1
    have := div_lt_div_of_pos_right (hlt μ p2).2 h2
    linarith
  refine ⟨?_, ?_⟩
  · rw [Coag.rate_ok h hc, Coag.val, if_neg hcut]
    simp only
    rw [hF, hC]
  · rw [div_lt_div_iff₀ (by linarith) (by linarith)]
    have : F * C * F < F * B * F := by
      apply mul_lt_mul_of_pos_right _ hF0
      exact mul_lt_mul_of_pos_left hCB hF0
    nlinarith

/-- **C89 (LOGN, what holds).** Coagulation alone in the lognormal model: the sources of the three moments are the documented
expressions of 3_logn.md, with 1.657 (as in 1_chemistry.md) for the printed 1.675, with 0.8536 for the average `b` of `1/√2` and 1 (a
difference below 0.00005) and with the adjustable multiplier on `K_FM`.
(Missing to the full claim: the printed constant 1.675, see `C89_docs_false`.) -/
theorem C89_logn_partial (m : Model) (s : State) (M0 M1 M2 : ℝ) (h : LognReady m s M0 M1 M2) (h0 : 0 < M0) (h1 : 0 < M1) (h2 : 0 < M2)
    (hn : m.nucl.mech = .NONE) (hg : m.grow.mech = .NONE) (ho : m.oxid.cls = .NONE) :
    ∃ m' s' b, |b - (1 / sqrt 2 + 1) / 2| < 0.00005 ∧ lognSources m s = ok (m', s') ∧
      (m.coag.mech = .FM → m'.sources.soot = [R0FM (KFM (m.coag.fmMult * 2.2) s.T) b (M M0 M1 M2), 0,
        R2FM (KFM (m.coag.fmMult * 2.2) s.T) b (M M0 M1 M2)]) ∧
      (m.coag.mech = .CONTINUUM → m'.sources.soot = [R0C (KC s.T s.muGas) (KC' 1.657 (lambda s)) (M M0 M1 M2), 0,
        R2C (KC s.T s.muGas) (KC' 1.657 (lambda s)) (M M0 M1 M2)]) := by
  obtain ⟨m', s', J, n', kG, kO, e1, -, -, -, eG, eO, -, -, -, hJ, -, -, hS⟩ := logn_eval h (by intro hp; rw [hn] at hp; cases hp)
  have hJ0 := hJ hn
  have hkG : kG = 0 := by
    have : m.grow.rate m.ctx s' = ok 0 := by simp [Grow.rate, hg]
    have := eG.symm.trans this; simpa using this
  have hkO : kO = 0 := by
    have : m.oxid.rate m.ctx s' = ok 0 := by simp [Oxid.rate, ho]
    have := eO.symm.trans this; simpa using this
  have hM : lognM M0 M1 M2 = M M0 M1 M2 := funext fun r => M_eq h0 h1 h2 r
  rw [hJ0, hkG, hkO, hn, hM] at hS
  refine ⟨m', s', bCoag, ?_, e1, fun hc => ?_, fun hc => ?_⟩
  · have hs2 : sqrt 2 * sqrt 2 = 2 := mul_self_sqrt (by norm_num)
    have hp : 0 < sqrt 2 := by positivity
    have hi : 1 / sqrt 2 = sqrt 2 / 2 := by field_simp; linarith [hs2]
    have l1 : (1.4142 : ℝ) < sqrt 2 := by rw [lt_sqrt (by norm_num)]; norm_num
    have l2 : sqrt 2 < (1.41424 : ℝ) := by rw [sqrt_lt' (by norm_num)]; norm_num
    rw [hi, bCoag, abs_lt]; constructor <;> linarith
  · rw [hS]
    have hK : m.coag.kfmVal s = KFM (m.coag.fmMult * 2.2) s.T := by
      rw [Coag.kfmVal, KFM, epsC, ← sqrt_eq_rpow, twothird]
      have : (0.5 : ℝ) * π * kb * s.T = π * kb * s.T / 2 := by ring
      rw [this]
    simp [lognCoagVal, hc, lognCoa0Fm, lognCoa2Fm, R0FM, R2FM, hK]
  · rw [hS]
    have hK : kcpVal s = KC' 1.657 (lambda s) := by rw [kcpVal, KC', lambda_eq, onethird]
    have hK' : kcVal s = KC s.T s.muGas := rfl
    simp [lognCoagVal, hc, lognCoa0C, lognCoa2C, R0C, R2C, hK, hK', sq]

/-- **C89 (the misprints).** The printed free-molecular coefficient is the evaluated one times `(π k_B T/2)^(1/2)`, so it differs on every
accepted state below 10^22 K; the printed continuum coefficient is larger than the evaluated one for all particles lighter than 0.1 kg; and
with the printed 1.675 the documented continuum loss of particles in the lognormal model is larger than with the evaluated 1.657. -/
theorem C89_docs_false (s : State) (hs : Accepted s) (m μ : ℝ) (hm : mmin < m) (hμ : mmin < μ) :
    (∀ c, 0 < c → ∃ k, (⟨.FM, c⟩ : Coag).rate s m μ = ok k ∧ betaFM 1 (c * 2.2) s.T m μ = (π * kb * s.T / 2) ^ ((1 : ℝ) / 2) * k ∧
      (s.T < 10 ^ 22 → betaFM 1 (c * 2.2) s.T m μ < k)) ∧
    (∀ c, 0 < c → m < 0.1 → μ < 0.1 → ∃ k, (⟨.CONTINUUM, c⟩ : Coag).rate s m μ = ok k ∧ k < betaCPrinted s.T s.muGas (lambda s) m μ) ∧
    (∀ M0 M1 M2, 0 < M0 → 0 < M1 → 0 < M2 → R0C (KC s.T s.muGas) (KC' 1.675 (lambda s)) (M M0 M1 M2) <
      R0C (KC s.T s.muGas) (KC' 1.657 (lambda s)) (M M0 M1 M2)) := by
  have h := hs.phys
  have hT := h.T; have hk := kb_pos; have hr := rhoSoot_pos; have hmu := h.mu
  have p1 := mmin_pos.trans hm
  have p2 := mmin_pos.trans hμ
  have hl : 0 < lambda s := by rw [lambda_eq]; exact h.mfpVal_pos
  refine ⟨fun c hc => ?_, fun c hc q1 q2 => ?_, fun M0 M1 M2 h0 h1 h2 => ?_⟩
  · obtain ⟨e, -, -⟩ := C89_kernels_partial s hs c hc m μ hm hμ
    have hx : 0 < π * kb * s.T / 2 := by positivity
    have e1 : betaFM 1 (c * 2.2) s.T m μ = (π * kb * s.T / 2) ^ ((1 : ℝ) / 2) * betaFM (1 / 2) (c * 2.2) s.T m μ := by
      have : (π * kb * s.T / 2) ^ (1 : ℝ) = (π * kb * s.T / 2) ^ ((1 : ℝ) / 2) * (π * kb * s.T / 2) ^ ((1 : ℝ) / 2) := by
        rw [← rpow_add hx]; norm_num
      rw [betaFM, betaFM, this]; ring
    refine ⟨_, e, e1, fun hT' => ?_⟩
    have hpos : 0 < betaFM (1 / 2) (c * 2.2) s.T m μ := by unfold betaFM; positivity
    have hlt : (π * kb * s.T / 2) ^ ((1 : ℝ) / 2) < 1 := by
      apply rpow_lt_one hx.le _ (by norm_num)
      have hp := pi_lt_four
      have : π * kb * s.T / 2 < 4 * kb * 10 ^ 22 / 2 := by gcongr
      have : 4 * kb * 10 ^ 22 / 2 < 1 := by norm_num [kb]
      linarith
    rw [e1]; nlinarith
  · obtain ⟨-, e, -⟩ := C89_kernels_partial s hs c hc m μ hm hμ
    refine ⟨_, e, ?_⟩
    have big : ∀ x, 0 < x → x < 0.1 → 2 < slip (lambda s) x / x ^ ((1 : ℝ) / 3) := fun x hx hx1 => by
      have hd := dia_pos hx
      have hs1 : 1 < slip (lambda s) x := by unfold slip; have : 0 < 1.657 * (2 * lambda s / dia x) := by positivity
                                             linarith
      have hx3 : x ^ ((1 : ℝ) / 3) < 1 / 2 := by
        have : x ^ ((1 : ℝ) / 3) < (1 / 8 : ℝ) ^ ((1 : ℝ) / 3) := rpow_lt_rpow hx.le (by linarith) (by norm_num)
        rw [show (1 / 8 : ℝ) = (1 / 2) ^ (3 : ℝ) by norm_num, ← rpow_mul (by norm_num)] at this
        norm_num at this ⊢; exact this
      have : 0 < x ^ ((1 : ℝ) / 3) := by positivity
      rw [lt_div_iff₀ this]; linarith
    have b1 := big m p1 q1
    have b2 := big μ p2 q2
    rw [betaC, betaCPrinted]
    have hs3 : 0 < m ^ ((1 : ℝ) / 3) + μ ^ ((1 : ℝ) / 3) := by positivity
    apply mul_lt_mul_of_pos_right _ hs3
    apply mul_lt_mul_of_pos_left _ (by positivity)
    nlinarith
  · have hM := M_pos h0 h1 h2
    have a1 := hM 0; have a2 := hM (-2 / 6); have a3 := hM (2 / 6); have a4 := hM (-4 / 6)
    have hK : 0 < KC s.T s.muGas := by unfold KC; positivity
    have hK' : KC' 1.657 (lambda s) < KC' 1.675 (lambda s) := by
      have : 0 < (π * rhoSoot / 6) ^ ((1 : ℝ) / 3) := by positivity
      unfold KC'
      apply mul_lt_mul_of_pos_right _ this
      apply mul_lt_mul_of_pos_right _ hl
      norm_num
    unfold R0C
    have hq : 0 < M M0 M1 M2 0 * M M0 M1 M2 (-2 / 6) + M M0 M1 M2 (2 / 6) * M M0 M1 M2 (-4 / 6) := by positivity
    have := mul_lt_mul_of_pos_right hK' hq
    apply neg_lt_neg
    apply mul_lt_mul_of_pos_left _ hK
    linarith

/-! ## The hypotheses are satisfiable -/

/-- Coagulation alone of a lognormal population in the example gas. -/
example : ∃ m' s' b, |b - (1 / sqrt 2 + 1) / 2| < 0.00005 ∧
    lognSources (exModel .LOGN 3 .NONE .NONE .NONE .CONTINUUM) (exSt [1E15, 1E-6, 1E-26] false) = ok (m', s') ∧
    m'.sources.soot.getD 1 0 = 0 := by
  obtain ⟨m', s', b, hb, e, -, h2⟩ := C89_logn_partial _ _ 1E15 1E-6 1E-26
    (exLognReady .NONE (by simp) (by simp) .NONE .NONE .CONTINUUM (by simp) (by norm_num) (by norm_num) (by norm_num) false)
    (by norm_num) (by norm_num) (by norm_num) rfl rfl rfl
  exact ⟨m', s', b, hb, e, by rw [h2 rfl]; rfl⟩

/-- Accepted states below 10^22 K and such particles exist. -/
example : ∃ s : State, Accepted s ∧ s.T < 10 ^ 22 ∧ mmin < (1E-21 : ℝ) ∧ (1E-21 : ℝ) < 0.1 :=
  ⟨exSt [1E15, 1E-6, 1E-26] false, (exReady .LOGN 3 .NONE (by simp) (by simp) .NONE .NONE .CONTINUUM [1E15, 1E-6, 1E-26] false rfl (by norm_num)
    (by norm_num)).gas.acc, by norm_num [exSt_eq, stateAfter, exArgs, State.withScalars, argsEx2, argsEx], by norm_num [mmin], by norm_num⟩

end Soot
