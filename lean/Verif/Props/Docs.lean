import Verif.Props.Orders
import Mathlib.Analysis.Real.Pi.Bounds

/-!
# C67: the rate expressions against the documented ones

The specification is `/repo/docs/models/1_chemistry.md`, transcribed below as functions of temperature, concentrations (kmol/m3) and partial
pressures.  Where code and documentation disagree the exact quotient is proved.
-/

namespace Soot

open Res Real
open scoped Classical

namespace Doc

/-! ## Transcription of docs/models/1_chemistry.md (line numbers in that file) -/

/-- :26 -/
noncomputable def nuclLL (T c cmin : ℝ) : ℝ := 0.1 * 10 ^ 5 * exp (-21100 / T) * c * (2 * Na / cmin)
/-- :30 -/
noncomputable def nuclLIN (T c cmin : ℝ) : ℝ := 0.64 * 10 ^ 4 * exp (-21100 / T) * c * (2 * Na / cmin)
/-- :34 -/
noncomputable def nuclLINA1 (T c cmin : ℝ) : ℝ := 0.75 * 10 ^ 5 * exp (-21000 / T) * c * (6 * Na / cmin)
/-- :40, collision coefficient of PAH molecules of mass `m` -/
noncomputable def pahBeta (T m : ℝ) : ℝ := 4 * (π * kb * T / m) ^ ((1 : ℝ) / 2) * (6 * m / (π * rhoSoot)) ^ ((2 : ℝ) / 3)
/-- :42-51, sticking coefficients -/
noncomputable def pahGamma : PahSp → ℝ
  | .C10H8 => 0.0010 | .C12H8 => 0.0030 | .C12H10 => 0.0085 | .C14H10 => 0.0150 | .C16H10 => 0.0250 | .C18H10 => 0.0390
/-- LL growth: `f(A_s)` in terms of soot mass `M = ρ Y_s` and number `N` per volume (the documented `ρ N`) -/
noncomputable def fA (N M : ℝ) : ℝ :=
  sqrt (π * (6 * gasMW .C / (π * rhoSoot)) ^ ((2 : ℝ) / 3)) * (M / gasMW .C) ^ ((1 : ℝ) / 3) * N ^ ((1 : ℝ) / 6)
/-- LL growth, kmol of acetylene per m3 and s -/
noncomputable def growLL (T c N M : ℝ) : ℝ := 0.6 * 10 ^ 4 * exp (-21100 / T) * fA N M * c
/-- LIN growth, kg per m3 and s: proportional to the number of particles -/
noncomputable def growLIN (T c N : ℝ) : ℝ := 750 * exp (-12100 / T) * c * (2 * N * gasMW .C)
/-- HACA rate constants, with `RT` in kcal/mol -/
noncomputable def k1 (RT : ℝ) : ℝ := 4.2 * 10 ^ 13 * exp (-13 / RT)
noncomputable def kr1 (RT : ℝ) : ℝ := 3.9 * 10 ^ 12 * exp (-11 / RT)
noncomputable def k2 (T RT : ℝ) : ℝ := 1.0 * 10 ^ 10 * T ^ (0.734 : ℝ) * exp (-1.43 / RT)
noncomputable def kr2 (T RT : ℝ) : ℝ := 3.68 * 10 ^ 8 * T ^ (1.139 : ℝ) * exp (-17.1 / RT)
noncomputable def k3 : ℝ := 2.0 * 10 ^ 13
noncomputable def k4 (T RT : ℝ) : ℝ := 8.0 * 10 ^ 7 * T ^ (1.56 : ℝ) * exp (-3.8 / RT)
noncomputable def k5 (RT : ℝ) : ℝ := 2.2 * 10 ^ 12 * exp (-7.5 / RT)
noncomputable def chiCH : ℝ := 2.3 * 10 ^ 15
/-- radical sites per area -/
noncomputable def chiC (T RT H OH H2 H2O C2H2 O2 : ℝ) : ℝ :=
  (k1 RT * H + k2 T RT * OH) / (kr1 RT * H2 + kr2 T RT * H2O + k3 * H + k4 T RT * C2H2 + k5 RT * O2) * chiCH
/-- Lee et al., `P` in atm; g/cm2/s in the reference -/
noncomputable def oxidLee (T P : ℝ) : ℝ := 1.085 * 10 ^ 4 * P * T ^ (-(1 : ℝ) / 2) * exp (-(1.977 * 10 ^ 4) / T)
/-- Nagle and Strickland-Constable, divided by `rho_s`; `P` in atm -/
noncomputable def kA (T : ℝ) : ℝ := 20 * exp (-15098 / T)
noncomputable def kB (T : ℝ) : ℝ := 4.46 * 10 ^ (-3 : ℤ) * exp (-7650 / T)
noncomputable def kT (T : ℝ) : ℝ := 1.51 * 10 ^ 5 * exp (-48817 / T)
noncomputable def kZ (T : ℝ) : ℝ := 21.3 * exp (2063 / T)
noncomputable def nscX (T P : ℝ) : ℝ := 1 / (1 + kT T / (kB T * P))
noncomputable def oxidNSC (T P : ℝ) : ℝ :=
  rhoSoot * (kA T * P * (nscX T P / (1 + kZ T * P)) + kB T * P * (1 - nscX T P))
/-- Neoh et al. with collision efficiency `g`, `P` in atm -/
noncomputable def oxidNeoh (g T P : ℝ) : ℝ := g * 1290 * P * T ^ (-(1 : ℝ) / 2)
/-- LL -/
noncomputable def oxidLL (T c : ℝ) : ℝ := 0.1 * 10 ^ 5 * T ^ ((1 : ℝ) / 2) * exp (-19680 / T) * c
/-- O2 term of OPTG, OPTJ, `P` in Pa -/
noncomputable def oxidO2G (T P : ℝ) : ℝ := 15.8 * P * T ^ ((1 : ℝ) / 2) * exp (-23450 / T) / 1000
noncomputable def oxidO2J (T P : ℝ) : ℝ := 0.798 * P * T ^ ((1 : ℝ) / 2) * exp (-21294 / T) / 1000

end Doc

/-! ## Nucleation -/

/-- **C67, nucleation.** LL is as documented; LIN is 63/64 of the documented rate; LINA1 has an activation temperature of 21100 K instead of
the documented 21000 K. -/
theorem C67_nucl_partial (ib : State → ℝ → Res ℝ) (s : State) (h : GasOk s) :
    (Nucl.new .LL).rate ib s = ok (Doc.nuclLL s.T (cVal s .C2H2) s.cMin, Nucl.new .LL, s) ∧
    (Nucl.new .LIN).rate ib s = ok (63 / 64 * Doc.nuclLIN s.T (cVal s .C2H2) s.cMin, Nucl.new .LIN, s) ∧
    (Nucl.new .LINA1).rate ib s = ok (exp (-100 / s.T) * Doc.nuclLINA1 s.T (cVal s .C6H6) s.cMin, Nucl.new .LINA1, s) := by
  have T0 := h.acc.phys.T
  have c0 := h.acc.phys.cMin
  have e : exp (-21100 / s.T) = exp (-100 / s.T) * exp (-21000 / s.T) := by rw [← exp_add]; congr 1; ring
  refine ⟨?_, ?_, ?_⟩
  · simp only [Nucl.new, Nucl.rate, cexpDiv_ok T0.ne', h.gasC, ok_bind, cdiv_ok c0.ne', Doc.nuclLL]
    congr 2; ring
  · simp only [Nucl.new, Nucl.rate, cexpDiv_ok T0.ne', h.gasC, ok_bind, cdiv_ok c0.ne', Doc.nuclLIN]
    congr 2; ring
  · simp only [Nucl.new, Nucl.rate, cexpDiv_ok T0.ne', h.gasC, ok_bind, cdiv_ok c0.ne', Doc.nuclLINA1, e]
    congr 2; ring

/-- **C67, PAH nucleation.** Dimers form at the documented rate (with the code's sticking coefficients), and nuclei at half the documented
dimer collision rate. -/
theorem C67_pah (s : State) (hs : Accepted s) (hl : s.yPah.length = nPah) (n : Nucl) (hn : n.mech = .PAH)
    (ib : State → ℝ → Res ℝ) (I : ℝ) (hI : 0 ≤ I) (hib : ib { s with cMin := cMinAfter s } (mDimerAfter s) = ok I)
    (hy : ∃ y ∈ s.yPah, y ≠ 0) :
    ∃ J n' s', n.rate ib s = ok (J, n', s') ∧
      n'.dimer.nDotD = ∑ sp, pahGamma sp * (1 / 2) * Doc.pahBeta s.T (pahMW sp / Na) *
        (s.rhoGas * s.yPah.getD sp.toNat 0 / (pahMW sp / Na)) ^ 2 ∧
      n'.dimer.nDotD = Doc.pahBeta s.T n'.dimer.mDimer * n'.dimer.nDimer ^ 2 + I * n'.dimer.nDimer ∧
      J = 1 / 2 * Doc.pahBeta s.T n'.dimer.mDimer * n'.dimer.nDimer ^ 2 := by
  have h := hs.phys
  have T0 := h.T
  have hk := kb_pos
  have hr := rhoSoot_pos
  have hN := Na_pos
  have hb : ∀ m : ℝ, 0 < m → Doc.pahBeta s.T m = betaDD s m := by
    intro m hm
    rw [Doc.pahBeta, betaDD, pahPre, ← sqrt_eq_rpow, sqrt_div (by positivity), mul_div_right_comm, mul_rpow (by positivity) hm.le]
    have : m ^ ((2 : ℝ) / 3) / sqrt m = m ^ ((1 : ℝ) / 6) := by
      rw [sqrt_eq_rpow, ← rpow_sub hm]; norm_num
    rw [← this]; simp only [twothird]; ring
  obtain ⟨J, n', s', h1, h2, h3, _⟩ := C19_dimer_root s hs hl n hn ib I hI hib
  obtain ⟨_, h5, h6, h7, h8⟩ := h3 hy
  refine ⟨J, n', s', h1, ?_, ?_, ?_⟩
  · rw [h2, Finset.sum_div]
    refine Finset.sum_congr rfl fun sp _ => ?_
    have := pahMW_pos sp
    rw [hb _ (by positivity)]
    simp only [pahNdot, pahN, betaDD]
    field_simp
  · rw [hb _ h5]; exact ((h6 _ h7.le).mpr rfl).symm
  · rw [hb _ h5, h8]; ring

/-- The sticking coefficients of naphthalene and acenaphthylene differ from the documented ones; the others agree. -/
theorem C67_gamma_partial (sp : PahSp) : pahGamma sp = Doc.pahGamma sp ↔ sp ≠ .C10H8 ∧ sp ≠ .C12H8 := by
  cases sp <;> simp [pahGamma, Doc.pahGamma] <;> norm_num

/-! ## Growth -/

/-- The documented `f(A_s)` is the square root of the surface area per volume. -/
theorem Doc.fA_eq {N M : ℝ} (hN : 0 < N) (hM : 0 < M) : Doc.fA N M = sqrt (sphereArea N M) := by
  have hr := rhoSoot_pos
  have hW := gasMW_pos .C
  have e : sphereArea N M = π * (6 * gasMW .C / (π * rhoSoot)) ^ ((2 : ℝ) / 3) * ((M / gasMW .C) ^ ((1 : ℝ) / 3) * N ^ ((1 : ℝ) / 6)) ^ 2 := by
    have e1 : ((M / gasMW .C) ^ ((1 : ℝ) / 3)) ^ 2 = (M / gasMW .C) ^ ((2 : ℝ) / 3) := by
      rw [← rpow_natCast, ← rpow_mul (by positivity)]; norm_num
    have e2 : (N ^ ((1 : ℝ) / 6)) ^ 2 = N ^ ((1 : ℝ) / 3) := by
      rw [← rpow_natCast, ← rpow_mul (by positivity)]; norm_num
    have e3 : N ^ ((1 : ℝ) / 3) = N / N ^ ((2 : ℝ) / 3) := by
      rw [eq_div_iff (by positivity), ← rpow_add hN]; norm_num
    rw [mul_pow, e1, e2, e3, sphereArea]
    have e4 : 6 / (π * rhoSoot) * M / N = 6 * gasMW .C / (π * rhoSoot) * (M / gasMW .C) / N := by field_simp
    rw [e4, div_rpow (by positivity) hN.le, mul_rpow (by positivity) (by positivity)]
    ring
  rw [e, sqrt_mul (by positivity), sqrt_sq (by positivity), Doc.fA]
  ring

/-- **C67, growth.** Per volume, LL growth is `exp(9000/T)/10` times the documented rate (pre-exponential factor 600 instead of 6000,
activation temperature 12100 K instead of 21100 K), and LIN growth is proportional to the surface area instead of the documented number of
particles: it is the documented rate times the surface area per particle. -/
theorem C67_grow_partial (x : Ctx) (s : State) (h : GasOk s) (hx : Sized x s) (hN : 0 < numOf x s) (hM : 0 < massOf x s) :
    (∃ r, (Grow.new .LL).rate x s = ok r ∧ r * sphereArea (numOf x s) (massOf x s) =
      exp (9000 / s.T) / 10 * (Doc.growLL s.T (cVal s .C2H2) (numOf x s) (massOf x s) * 2 * gasMW .C)) ∧
    (∃ r, (Grow.new .LIN).rate x s = ok r ∧ r * sphereArea (numOf x s) (massOf x s) =
      sphereArea (numOf x s) (massOf x s) / numOf x s * Doc.growLIN s.T (cVal s .C2H2) (numOf x s)) := by
  have T0 := h.acc.phys.T
  obtain ⟨a1, a2⟩ := areaMono_pos_ok hN hM
  have e : exp (-12100 / s.T) = exp (9000 / s.T) * exp (-21100 / s.T) := by rw [← exp_add]; congr 1; ring
  constructor
  · simp only [Grow.new, Grow.rate, moments01_ok hx, ok_bind, a1, if_pos a2, cexpDiv_ok T0.ne', h.gasC]
    refine ⟨_, rfl, ?_⟩
    rw [Doc.growLL, Doc.fA_eq hN hM, e]
    have s1 : sqrt (sphereArea (numOf x s) (massOf x s)) ≠ 0 := by positivity
    have s2 : sphereArea (numOf x s) (massOf x s) = sqrt (sphereArea (numOf x s) (massOf x s)) ^ 2 := (sq_sqrt a2.le).symm
    generalize sqrt (sphereArea (numOf x s) (massOf x s)) = q at *
    rw [s2]
    field_simp
    ring
  · simp only [Grow.new, Grow.rate, ok_bind, cexpDiv_ok T0.ne', h.gasC]
    refine ⟨_, rfl, ?_⟩
    rw [Doc.growLIN]
    field_simp

theorem Doc.hacaRates_eq {s : State} (h : GasOk s) :
    (let RT := 1.9872036E-3 * s.T
     let c := fun sp => cVal s sp / 1000
     hacaRates s = ok ⟨Doc.k4 s.T RT * c .C2H2, Doc.k5 RT * c .O2,
       2 * Doc.chiC s.T RT (c .H) (c .OH) (c .H2) (c .H2O) (c .C2H2) (c .O2)⟩) := by
  have T0 := h.acc.phys.T
  have hRT : (1.9872036E-3 : ℝ) * s.T ≠ 0 := by positivity
  simp only [hacaRates, cexpDiv_ok hRT, ok_bind, h.gasC, cpow_ok T0]
  have n1 : (4.2 * 10 ^ 13 : ℝ) = 4.2E13 := by norm_num
  have n2 : (3.9 * 10 ^ 12 : ℝ) = 3.9E12 := by norm_num
  have n3 : (1.0 * 10 ^ 10 : ℝ) = 1E10 := by norm_num
  have n4 : (3.68 * 10 ^ 8 : ℝ) = 3.68E8 := by norm_num
  have n5 : (2.0 * 10 ^ 13 : ℝ) = 2E13 := by norm_num
  have n6 : (8.0 * 10 ^ 7 : ℝ) = 8E7 := by norm_num
  have n7 : (2.2 * 10 ^ 12 : ℝ) = 2.2E12 := by norm_num
  have n8 : (2.3 * 10 ^ 15 : ℝ) = 2.3E15 := by norm_num
  simp only [Doc.chiC, Doc.chiCH, Doc.k1, Doc.kr1, Doc.k2, Doc.kr2, Doc.k3, Doc.k4, Doc.k5, n1, n2, n3, n4, n5, n6, n7, n8, mul_div_assoc]
  congr 2
  split_ifs with hd
  · rw [hd]; simp
  · ring

/-- **C67, HACA.** Twice the documented number of radical sites is used, together with an undocumented steric factor `α ∈ [0,1]`; otherwise
the growth rate (carbon mass of two atoms per documented reaction event) and the O2 term of the oxidation rate are as documented. -/
theorem C67_haca_partial (x : Ctx) (s : State) (h : GasOk s) (hx : Sized x s)
    (hs : ¬ (0 < numOf x s ∧ massOf x s = numOf x s ∧ 33.167 - 0.0154 * s.T = 0)) :
    ∃ α r q, 0 ≤ α ∧ α ≤ 1 ∧ (Grow.new .HACA).rate x s = ok r ∧ (Oxid.new .HACA).rate x s = ok q ∧
      (let RT := 1.9872036E-3 * s.T
       let c := fun sp => cVal s sp / 1000   -- mol/cm3
       let χ := Doc.chiC s.T RT (c .H) (c .OH) (c .H2) (c .H2O) (c .C2H2) (c .O2)
       r = 2 * α * (Doc.k4 s.T RT * χ * c .C2H2) * 10 ^ 4 * (2 * gasMW .C / Na) ∧
       q = 2 * α * (Doc.k5 RT * χ * c .O2) * 10 ^ 4 * (2 * gasMW .C / Na) +
         0.13 * cVal s .OH * sqrt (Rg * s.T / (2 * π * gasMW .OH)) * gasMW .C) := by
  have T0 := h.acc.phys.T
  have hRT : (1.9872036E-3 : ℝ) * s.T ≠ 0 := by positivity
  have hR := Rg_pos
  have := gasMW_pos .OH
  have hq : 0 ≤ Rg * s.T / (2 * π * gasMW .OH) := by positivity
  obtain ⟨α, e, a0, a1⟩ := hacaAlpha_cases s.T (numOf_nonneg h.acc (x := x)) (massOf_nonneg h.acc hx) hs
  have k := Doc.hacaRates_eq h
  dsimp only at k ⊢
  refine ⟨α, _, _, a0, a1, by
      simp only [Grow.new, Grow.rate, hacaMoments_ok hx, ok_bind, e, k]; rfl, by
      simp only [Oxid.new, Oxid.rate, moments01_ok hx, ok_bind, e, k, h.gasC, ohRate, csqrt_ok hq]; rfl, ?_, ?_⟩
  · ring
  · ring

/-! ## Oxidation -/

theorem rpow_neg_half {T : ℝ} (h : 0 < T) : T ^ (-(1 : ℝ) / 2) = 1 / sqrt T := by
  rw [neg_div, rpow_neg h.le, sqrt_eq_rpow]
  exact (one_div _).symm

/-- Kinetic-theory rate of OH collisions in the code's form, and Neoh's `1290 P_OH T^{-1/2}` (`P` in atm): the code's factor is 1290 up to
0.2 %. -/
theorem Doc.oh_factor : ∃ κ : ℝ, |κ - 1290| ≤ 2 ∧ ∀ (s : State), GasOk s → ∀ g : ℝ,
    ohRate g s = ok (g * κ * (pVal s .OH / 101325) * s.T ^ (-(1 : ℝ) / 2)) := by
  have hR := Rg_pos
  have hW : 0 < gasMW .OH := gasMW_pos .OH
  refine ⟨101325 * gasMW .C / sqrt (2 * π * gasMW .OH * Rg), ?_, fun s h g => ?_⟩
  · have hs : 0 < sqrt (2 * π * gasMW .OH * Rg) := by positivity
    have p1 := pi_gt_d4
    have p2 := pi_lt_d4
    have lo : 942 ≤ sqrt (2 * π * gasMW .OH * Rg) := by
      apply le_sqrt_of_sq_le
      simp only [gasMW, Rg, Na, kb]
      norm_num
      nlinarith
    have hi : sqrt (2 * π * gasMW .OH * Rg) ≤ 943 := by
      rw [sqrt_le_left (by norm_num)]
      simp only [gasMW, Rg, Na, kb]
      norm_num
      nlinarith
    have : gasMW .C = 12.011 := by simp [gasMW]
    rw [abs_le, this]
    constructor
    · rw [neg_le_sub_iff_le_add, ← sub_le_iff_le_add, le_div_iff₀ hs]; linarith
    · rw [sub_le_iff_le_add, div_le_iff₀ hs]; linarith
  · have T0 := h.acc.phys.T
    have hq : 0 ≤ Rg * s.T / (2 * π * gasMW .OH) := by positivity
    rw [ohRate, h.gasC, ok_bind, csqrt_ok hq, ok_bind, rpow_neg_half T0, h.pVal_eq]
    congr 1
    have e : sqrt (Rg * s.T / (2 * π * gasMW .OH)) = Rg * sqrt s.T / sqrt (2 * π * gasMW .OH * Rg) := by
      rw [eq_div_iff (by positivity), ← sqrt_mul hq]
      have : Rg * s.T / (2 * π * gasMW .OH) * (2 * π * gasMW .OH * Rg) = Rg ^ 2 * s.T := by field_simp
      rw [this, sqrt_mul (by positivity), sqrt_sq hR.le]
    rw [e]
    have s1 : sqrt s.T ≠ 0 := by positivity
    have s2 : s.T = sqrt s.T ^ 2 := (sq_sqrt T0.le).symm
    have s3 : sqrt (2 * π * gasMW .OH * Rg) ≠ 0 := by positivity
    generalize sqrt s.T = r at *
    rw [s2]
    field_simp

/-- **C67, oxidation.** LL (times the molar mass of carbon) and NSC_NEOH are as documented.  LEE_NEOH, OPTG and OPTJ use for OH the
kinetic-theory factor `κ`, equal to the documented 1290 within 0.2 %.  LEE_NEOH has activation temperature 19778.24 K (documented: 19770 K).
OPTG and OPTJ have `T^{-1/2}` where `T^{1/2}` is documented: their O2 terms are `1/T` times the documented ones. -/
theorem C67_oxid_partial : ∃ κ : ℝ, |κ - 1290| ≤ 2 ∧ ∀ (x : Ctx) (s : State), GasOk s →
    (let T := s.T
     let P := fun sp => pVal s sp / 101325
     (Oxid.new .LL).rate x s = ok (Doc.oxidLL T (cVal s .O2) * gasMW .C) ∧
     (0 < pVal s .O2 → (Oxid.new .NSC_NEOH).rate x s = ok (Doc.oxidNSC T (P .O2) + Doc.oxidNeoh 0.13 T (P .OH))) ∧
     (Oxid.new .LEE_NEOH).rate x s = ok (exp (-8.24 / T) * Doc.oxidLee T (P .O2) / 1000 + κ / 1290 * Doc.oxidNeoh 0.13 T (P .OH)) ∧
     (Oxid.new .OPTG).rate x s = ok (Doc.oxidO2G T (pVal s .O2) / T + κ / 1290 * Doc.oxidNeoh 0.1 T (P .OH)) ∧
     (Oxid.new .OPTJ).rate x s = ok (Doc.oxidO2J T (pVal s .O2) / T + κ / 1290 * Doc.oxidNeoh 0.15 T (P .OH))) := by
  obtain ⟨κ, hκ, hoh⟩ := Doc.oh_factor
  refine ⟨κ, hκ, fun x s h => ?_⟩
  have T0 := h.acc.phys.T
  have hsq : sqrt s.T ≠ 0 := by positivity
  have hT2 : sqrt s.T / s.T = 1 / sqrt s.T := by
    rw [div_eq_div_iff T0.ne' hsq, one_mul, mul_self_sqrt T0.le]
  dsimp only
  refine ⟨?_, fun hp => ?_, ?_, ?_, ?_⟩
  · simp only [Oxid.new, Oxid.rate, csqrt_ok T0.le, cexpDiv_ok T0.ne', h.gasC, ok_bind, Doc.oxidLL, ← sqrt_eq_rpow]
    congr 1; ring
  · have hP : 0 < pVal s .O2 / 101325 := by positivity
    have hB : 0 < 4.46E-3 * exp (-7650 / s.T) * (pVal s .O2 / 101325) := by positivity
    have h1 : 1 + 1.51E5 * exp (-48817 / s.T) / (4.46E-3 * exp (-7650 / s.T) * (pVal s .O2 / 101325)) ≠ 0 := by positivity
    have h2 : 1 + 21.3 * exp (2063 / s.T) * (pVal s .O2 / 101325) ≠ 0 := by positivity
    simp only [Oxid.new, Oxid.rate, csqrt_ok T0.le, cexpDiv_ok T0.ne', h.gasP, ok_bind, nscX, if_neg hB.ne', cdiv_ok h1, cdiv_ok h2,
      cdiv_ok hsq, Doc.oxidNSC, Doc.nscX, Doc.kA, Doc.kB, Doc.kT, Doc.kZ, Doc.oxidNeoh, rpow_neg_half T0]
    have n1 : (4.46 * 10 ^ (-3 : ℤ) : ℝ) = 4.46E-3 := by norm_num
    have n2 : (1.51 * 10 ^ 5 : ℝ) = 1.51E5 := by norm_num
    rw [n1, n2]
    congr 1; ring
  · simp only [Oxid.new, Oxid.rate, csqrt_ok T0.le, cexpDiv_ok T0.ne', h.gasP, ok_bind, cdiv_ok hsq, hoh s h, Doc.oxidLee, Doc.oxidNeoh,
      rpow_neg_half T0]
    have e : exp (-1.977824E4 / s.T) = exp (-8.24 / s.T) * exp (-(1.977 * 10 ^ 4) / s.T) := by
      rw [← exp_add]; congr 1; ring
    rw [e]
    congr 1; ring
  · simp only [Oxid.new, Oxid.rate, csqrt_ok T0.le, cexpDiv_ok T0.ne', h.gasP, ok_bind, cdiv_ok hsq, hoh s h, Doc.oxidO2G, Doc.oxidNeoh,
      rpow_neg_half T0, ← sqrt_eq_rpow]
    have e : (-2.345E4 : ℝ) = -23450 := by norm_num
    rw [e]
    congr 1
    linear_combination -(15.8 * pVal s .O2 * exp (-23450 / s.T) / 1000) * hT2
  · simp only [Oxid.new, Oxid.rate, csqrt_ok T0.le, cexpDiv_ok T0.ne', h.gasP, ok_bind, cdiv_ok hsq, hoh s h, Doc.oxidO2J, Doc.oxidNeoh,
      rpow_neg_half T0, ← sqrt_eq_rpow]
    have e : (-2.1294E4 : ℝ) = -21294 := by norm_num
    rw [e]
    congr 1
    linear_combination -(0.798 * pVal s .O2 * exp (-21294 / s.T) / 1000) * hT2

/-- **C67 refuted**: on a concrete state LIN and LINA1 nucleation, LL growth and OPTG oxidation are not as documented. -/
theorem C67_docs_false : ¬ ∀ (ib : State → ℝ → Res ℝ) (s : State), GasOk s →
    (Nucl.new .LIN).rate ib s = ok (Doc.nuclLIN s.T (cVal s .C2H2) s.cMin, Nucl.new .LIN, s) := by
  intro hall
  have h := stTR_gasOk (T := 2000) (ρ := 0.1) (by norm_num) (by norm_num)
  have h1 := hall (fun _ _ => ok 0) _ h
  rw [(C67_nucl_partial _ _ h).2.1] at h1
  simp only [ok.injEq, Prod.mk.injEq, and_true] at h1
  have hc : 0 < cVal (stTR 2000 0.1) .C2H2 := by rw [stTR_cVal]; simp [argsEx2, GasSp.toNat, gasMW]; norm_num
  have c0 := h.acc.phys.cMin
  have hN := Na_pos
  have : 0 < Doc.nuclLIN (stTR 2000 0.1).T (cVal (stTR 2000 0.1) .C2H2) (stTR 2000 0.1).cMin := by unfold Doc.nuclLIN; positivity
  linarith

/-- C67 on a concrete state with soot. -/
example : ∃ r, (Grow.new .LIN).rate ⟨.MONO, 2, []⟩ (stTR 2000 0.1) = ok r ∧ 0 < r := by
  have h := stTR_gasOk (T := 2000) (ρ := 0.1) (by norm_num) (by norm_num)
  have p : 0 < numOf ⟨.MONO, 2, []⟩ (stTR 2000 0.1) ∧ 0 < massOf ⟨.MONO, 2, []⟩ (stTR 2000 0.1) := by
    simp [numOf, massOf, stTR, stateAfter, argsTR, argsEx2]; norm_num
  obtain ⟨r, h1, h2⟩ := (C67_grow_partial ⟨.MONO, 2, []⟩ _ h (stTR_sized _ _) p.1 p.2).2
  refine ⟨r, h1, ?_⟩
  have hA := (areaMono_pos_ok p.1 p.2).2
  have hc : 0 < cVal (stTR 2000 0.1) .C2H2 := by rw [stTR_cVal]; simp [argsEx2, GasSp.toNat, gasMW]; norm_num
  have hW := gasMW_pos .C
  have p1 := p.1
  have : 0 < r * sphereArea (numOf ⟨.MONO, 2, []⟩ (stTR 2000 0.1)) (massOf ⟨.MONO, 2, []⟩ (stTR 2000 0.1)) := by
    rw [h2]; unfold Doc.growLIN; positivity
  exact (pos_iff_pos_of_mul_pos this).mpr hA

end Soot
