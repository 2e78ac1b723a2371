import Verif.Props.MonoTar
import Verif.Props.Kernels
import Verif.Props.Docs

/-!
# C82: collisions of tar molecules; C66: rate laws of the mechanisms without documentation

Specification of C82: `specFM` (the textbook free-molecular collision rate, C64) and the diameter of a flat aromatic molecule.
-/

namespace Soot

open Res Real
open scoped Classical

/-- Diameter of an aromatic molecule of molar mass `W` (kg/kmol) with rings of diameter `1.395E-10 √3` m (nucleationModel_AJ_RED.cc:37-39). -/
noncomputable def aromaticDiam (W : ℝ) : ℝ := 1.395E-10 * sqrt 3 * sqrt (2 * W / (3 * 12.011))

/-- **C82 (nucleation).** The AJ_RED nucleation rate is `2/cMin` particles per collision of two tar molecules of mass `mtar / Na`, at `√2` times the
free-molecular rate of collisions (every pair counted once) with the van der Waals factor 2.2. -/
theorem C82_nucleation (ib : State → ℝ → Res ℝ) (s : State) (h : Accepted s) (hm : 0 < s.mtar) {t : ℝ} (ht : s.tarVar[0]? = some t) :
    (Nucl.new .AJ_RED).rate ib s = ok (sqrt 2 * (1 / 2 * specFM 2.2 s.T (s.mtar / Na) (s.mtar / Na) (aromaticDiam s.mtar) (aromaticDiam s.mtar) * t ^ 2) *
      (2 / s.cMin), Nucl.new .AJ_RED, s) := by
  have T0 := h.phys.T
  have c0 := h.phys.cMin
  have := kb_pos
  have hN := Na_pos
  have i0 : idx s.tarVar 0 = ok t := by rw [idx, ht]
  have e : sqrt (8 * π * kb * s.T / s.mtar / Na) = sqrt 2 * 2 / Na * sqrt (π * kb * s.T / 2 * (1 / (s.mtar / Na) + 1 / (s.mtar / Na))) := by
    have e1 : 8 * π * kb * s.T / s.mtar / Na = 2 * (2 / Na) ^ 2 * (π * kb * s.T / 2 * (1 / (s.mtar / Na) + 1 / (s.mtar / Na))) := by
      field_simp; ring
    rw [e1, sqrt_mul (by positivity), sqrt_mul (by norm_num), sqrt_sq (by positivity)]
    ring
  simp only [Nucl.new, Nucl.rate, csqrt_ok (show 0 ≤ 2 * s.mtar / (3 * 12.011) by positivity), ok_bind, cdiv_ok hm.ne',
    csqrt_ok (show 0 ≤ 8 * π * kb * s.T / s.mtar / Na by positivity), i0, cdiv_ok c0.ne', e]
  congr 2
  simp only [specFM, aromaticDiam]
  field_simp
  ring

/-- **C82 (deposition, what it is).** The AJ_RED deposition rate is the free-molecular rate of collisions between the tar molecules and the soot
particles, factor 2.2, but with a tar diameter that is `1/√(1.395E-10)` times the one of nucleation. -/
theorem C82_deposition_partial (s : State) (h : Accepted s) (hm : 0 < s.mtar) {t M0 M1 : ℝ} (ht : s.tarVar[0]? = some t) (hs : s.sootVar = [M0, M1])
    (h0 : 0 < M0) (h1 : 0 < M1) :
    ajDeposition s = ok (specFM 2.2 s.T (s.mtar / Na) (M1 / M0) (aromaticDiam s.mtar / sqrt 1.395E-10) (diam (M1 / M0)) * t * M0) := by
  have T0 := h.phys.T
  have := kb_pos
  have hN := Na_pos
  have := rhoSoot_pos
  have i0 : idx s.tarVar 0 = ok t := by rw [idx, ht]
  have j0 : idx s.sootVar 0 = ok M0 := by rw [hs]; rfl
  have j1 : idx s.sootVar 1 = ok M1 := by rw [hs]; rfl
  have hq : 0 < M1 / M0 := by positivity
  have e1 : sqrt (1.395E-10 * 3) = 1.395E-10 * sqrt 3 / sqrt 1.395E-10 := by
    rw [sqrt_mul (by norm_num), eq_div_iff (by positivity)]
    have := mul_self_sqrt (show (0 : ℝ) ≤ 1.395E-10 by norm_num)
    linear_combination sqrt 3 * this
  rw [ajDeposition, i0, ok_bind, j1, ok_bind, j0, ok_bind, if_pos h1, cdiv_ok h0.ne', ok_bind, cpow_ok (by positivity), ok_bind,
    csqrt_ok (by positivity), ok_bind, cdiv_ok (by positivity), ok_bind, cdiv_ok (by positivity), ok_bind, csqrt_ok (by positivity), ok_bind, e1]
  congr 1
  have e2 : π * kb * s.T / (2 * (s.mtar / Na * (M1 / M0) / (s.mtar / Na + M1 / M0))) = π * kb * s.T / 2 * (1 / (s.mtar / Na) + 1 / (M1 / M0)) := by
    field_simp; ring
  rw [e2]
  simp only [specFM, aromaticDiam, diam]
  ring

/-- **C82 (deposition, refutation).** The tar diameter of deposition is more than 84000 times that of nucleation, so for every amount of tar and soot
deposition is not the collision rate of molecules of the size used in nucleation. -/
theorem C82_deposition_false (s : State) (h : Accepted s) (hm : 0 < s.mtar) {t M0 M1 : ℝ} (ht : s.tarVar[0]? = some t) (h0' : 0 < t)
    (hs : s.sootVar = [M0, M1]) (h0 : 0 < M0) (h1 : 0 < M1) :
    84000 * aromaticDiam s.mtar < aromaticDiam s.mtar / sqrt 1.395E-10 ∧
    ajDeposition s ≠ ok (specFM 2.2 s.T (s.mtar / Na) (M1 / M0) (aromaticDiam s.mtar) (diam (M1 / M0)) * t * M0) := by
  have T0 := h.phys.T
  have := kb_pos
  have hN := Na_pos
  have := rhoSoot_pos
  have hq : 0 < M1 / M0 := by positivity
  have hd : 0 < aromaticDiam s.mtar := by unfold aromaticDiam; positivity
  have hr : sqrt 1.395E-10 < 1 / 84000 := by
    rw [sqrt_lt' (by norm_num)]; norm_num
  have hr0 : 0 < sqrt (1.395E-10 : ℝ) := by positivity
  have hlt : 84000 * aromaticDiam s.mtar < aromaticDiam s.mtar / sqrt 1.395E-10 := by
    rw [lt_div_iff₀ hr0]; nlinarith
  refine ⟨hlt, ?_⟩
  rw [C82_deposition_partial s h hm ht hs h0 h1]
  intro he
  rw [ok.injEq] at he
  have hs0 : 0 < sqrt (π * kb * s.T / 2 * (1 / (s.mtar / Na) + 1 / (M1 / M0))) := by positivity
  have hds : 0 < diam (M1 / M0) := by unfold diam; positivity
  have e2 := mul_right_cancel₀ h0'.ne' (mul_right_cancel₀ h0.ne' he)
  simp only [specFM] at e2
  have e3 := mul_left_cancel₀ (by positivity) e2
  rw [pow_left_inj₀ (by positivity) (by positivity) two_ne_zero] at e3
  linarith

/-- **C82 (mass).** Of the tar molecules that leave through deposition and nucleation, `L` per volume and time, soot gains `Na` times the mass:
the molar mass is used as the mass of a molecule. -/
theorem C82_mass_false (m : Model) (s : State) (M0 M1 w a : ℝ) (h : TarReady m s M0 M1 w a) (hb : m.tar = .AJ_RED) (hm : 0 < s.mtar)
    (h01 : 0 < M1 → 0 < M0) (hp : m.nucl.mech ≠ .PAH) (hg : m.grow.mech = .NONE) (ho : m.oxid.mechType = .NONE) :
    ∃ m' s' L crack gasify A M1dot, monoSources m s = ok (m', s') ∧ ajCracking s' = ok crack ∧ ajSurface s' = ok gasify ∧ IsArea M0 M1 A ∧
      m'.sources.tar[0]? = some (-L - crack - 2508 * s.tarVar.getD 0 0 * gasify) ∧ m'.sources.soot[1]? = some M1dot ∧
      M1dot = Na * (s.mtar / Na * L) - A * gasify ∧ 0 ≤ L ∧ (0 < L → s.mtar / Na * L < Na * (s.mtar / Na * L)) := by
  obtain ⟨m', s', J, n', kG, kO, A, depo, gasify, crack, Cnd, e, hJ, hs', hc', hG, hO, hA, hA0, hJ0, hG0, hO0, e3, e2, e1, hd0, _, hC, hF, hS, hT⟩ :=
    C62_ajred_equations m s M0 M1 w a h hb hm h01
  have hr2 : Ready m s' := by rw [hs']; exact h.toReady.upd hc' _ _
  obtain ⟨kG', hG', _, hGN, _⟩ := hr2.grow
  obtain ⟨kO', hO', _, hON⟩ := hr2.oxid
  have z1 : kG = 0 := by rw [hG, ok.injEq] at hG'; rw [hG']; exact hGN hg
  have z2 : kO = 0 := by rw [hO, ok.injEq] at hO'; rw [hO']; exact hON ho
  have hN : 1 < Na := by norm_num [Na]
  refine ⟨m', s', depo + 2 * J, crack, gasify, A, _, e, e1, e2, hA, ?_, by rw [hS]; rfl, ?_, by positivity, fun hL => ?_⟩
  · rw [hT, List.getElem?_set_self h.tlen, z1, z2]
    congr 1; ring
  · rw [z1, z2, hC hp]
    field_simp
    ring
  · exact lt_mul_of_one_lt_left (by positivity) hN

/-- The hypotheses of the collision theorems hold on a concrete state with tar and soot. -/
example : (∃ r, (Nucl.new .AJ_RED).rate (fun _ _ => ok 0) tarSt = ok r) ∧
    (∃ M0 M1, ajDeposition tarSt ≠ ok (specFM 2.2 tarSt.T (tarSt.mtar / Na) (M1 / M0) (aromaticDiam tarSt.mtar) (diam (M1 / M0)) *
      tarSt.tarVar.getD 0 0 * M0)) := by
  have R := tarReadyEx .AJ_RED .AJ_RED .HACA .AJ_RED .FM
  have hm : 0 < tarSt.mtar := by norm_num [tarSt_eq, stateAfter, tarArgs]
  have ht : tarSt.tarVar[0]? = some (tarSt.tarVar.getD 0 0) := by simp [tarSt_eq, stateAfter, tarArgs]
  refine ⟨⟨_, C82_nucleation _ _ R.gas.acc hm ht⟩, _, _, (C82_deposition_false _ R.gas.acc hm ht ?_ R.soot ?_ ?_).2⟩
  all_goals norm_num [tarSt_eq, stateAfter, tarArgs]

/-- The mass equation on a concrete model. -/
example : ∃ m' s', monoSources (tarModel .AJ_RED .AJ_RED .NONE .NONE .FM) tarSt = ok (m', s') := by
  obtain ⟨m', s', _, _, _, _, _, e, _⟩ := C82_mass_false _ _ _ _ _ _ (tarReadyEx .AJ_RED .AJ_RED .NONE .NONE .FM) rfl
    (by norm_num [tarSt_eq, stateAfter]) (by norm_num) (by rintro ⟨⟩) rfl rfl
  exact ⟨m', s', e⟩

/-! ## C66: rate laws -/

/-- Modified Arrhenius factor `A T^n exp (-E / T)`. -/
noncomputable def arrhenius (A n E T : ℝ) : ℝ := A * T ^ n * exp (-E / T)

/-- **C66 (rate laws).** The mechanisms that docs/models/1_chemistry.md does not describe: each rate is a sum of modified Arrhenius factors times
powers of the concentrations (kmol/m3), partial pressures (Pa) or tar content.  The table lists pre-exponential factor, temperature
exponent, activation temperature and order. -/
theorem C66_rate_laws (s : State) (h : GasOk s) {t : ℝ} (ht : s.tarVar[0]? = some t) :
    (∀ ib, (Nucl.new .MB).rate ib s = ok (arrhenius (54 * Na) 0 21000 s.T * cVal s .C2H2, Nucl.new .MB, s)) ∧
    (∀ ib, (Nucl.new .FAIR).rate ib s = ok (arrhenius (1.35E6 * 2 * Na) 0 (41000 / 1.987) s.T * cVal s .C2H2 / s.cMin, Nucl.new .FAIR, s)) ∧
    (∀ ib, (Nucl.new .BROWN).rate ib s = ok (arrhenius (5.02E8 * Na / gasMW .C) 0 (1.989E8 / Rg) s.T * t / s.cMin, Nucl.new .BROWN, s)) ∧
    (∀ x, Sized x s → 0 < numOf x s → 0 < massOf x s →
      (Grow.new .FAIR).rate x s = ok (arrhenius (500 * gasMW .C) 0 (24000 / 1.987) s.T * cVal s .C2H2) ∧
      (Grow.new .MB).rate x s = ok (arrhenius 430 0 12100 s.T * cVal s .C2H2 ^ ((2 : ℝ) / 3))) ∧
    (∀ x, (Oxid.new .FAIR).rate x s = ok (arrhenius 1.78E4 (1 / 2) (-(39000 / 1.987)) s.T * cVal s .O2)) ∧
    (∀ x, Sized x s → (Oxid.new .MB).rate x s = ok (arrhenius 4.2325 (1 / 2) 0 s.T * cVal s .OH)) ∧
    (∀ x, (Oxid.new .BROWN).rate x s = ok (arrhenius (1.09E5 / 101325) (-1 / 2) (1.645E8 / Rg) s.T * pVal s .O2)) ∧
    (∀ x, (Oxid.new .AJ_RED).rate x s =
      ok (arrhenius 1.92E-3 (-1 / 2) (1.16E5 / Rg) s.T * pVal s .O2 + arrhenius 2.93E-3 (-1 / 2) 0 s.T * pVal s .OH)) ∧
    ajSurface s = ok (arrhenius 1.92E-3 2 (5.55E6 / Rg) s.T * pVal s .CO2 ^ ((1 : ℝ) / 2) +
      arrhenius 1.92E-3 (-1 / 2) (4.17E8 / Rg) s.T * pVal s .H2O ^ (1.21 : ℝ)) ∧
    brownCracking s = ok (arrhenius 6.77E5 0 (5.23E7 / Rg) s.T * (cVal s .O2 * gasMW .O2) * t) ∧
    brownSurface s = ok (arrhenius 9.77E10 0 (2.869E8 / Rg) s.T * t) := by
  have T0 := h.acc.phys.T
  have c0 := h.acc.phys.cMin
  have hR := Rg_pos
  have hRT : Rg * s.T ≠ 0 := by positivity
  have hCT : s.T * (1.987 : ℝ) ≠ 0 := by positivity
  have hW := gasMW_pos .C
  have i0 : idx s.tarVar 0 = ok t := by rw [idx, ht]
  have ex : ∀ E : ℝ, exp (-E / (Rg * s.T)) = exp (-(E / Rg) / s.T) := fun E => by congr 1; field_simp
  have ey : ∀ E : ℝ, exp (-E / (s.T * 1.987)) = exp (-(E / 1.987) / s.T) := fun E => by congr 1; field_simp
  have hs : sqrt s.T = s.T ^ ((1 : ℝ) / 2) := sqrt_eq_rpow _
  have hsi : s.T ^ ((-1 : ℝ) / 2) = 1 / sqrt s.T := by
    rw [hs, neg_div, rpow_neg T0.le, one_div, one_div]
  have hsp : 0 < sqrt s.T := by positivity
  have pn := h.pVal_nonneg
  have cn := h.cVal_nonneg
  refine ⟨fun ib => ?_, fun ib => ?_, fun ib => ?_, fun x hx hN hM => ?_, fun x => ?_, fun x hx => ?_, fun x => ?_, fun x => ?_, ?_, ?_, ?_⟩
  · simp only [Nucl.new, Nucl.rate, cexpDiv_ok T0.ne', h.gasC, ok_bind, arrhenius, rpow_zero]
    congr 2; ring
  · simp only [Nucl.new, Nucl.rate, cexpDiv_ok hCT, h.gasC, ok_bind, cdiv_ok c0.ne', arrhenius, rpow_zero, ey]
    congr 2; norm_num; ring
  · simp only [Nucl.new, Nucl.rate, i0, cexpDiv_ok hRT, ok_bind, cdiv_ok c0.ne', arrhenius, rpow_zero, ex]
    congr 2; ring
  · obtain ⟨a1, a2⟩ := areaMono_pos_ok hN hM
    simp only [Grow.new, Grow.rate, moments01_ok hx, ok_bind, a1, if_pos a2, cexpDiv_ok T0.ne', cexpDiv_ok hCT, h.gasC,
      cpow_ok' (cn .C2H2) (show (0 : ℝ) ≤ 2 / 3 by norm_num), arrhenius, rpow_zero, ey]
    constructor <;> congr 1
    · norm_num; ring
    · ring
  · simp only [Oxid.new, Oxid.rate, csqrt_ok T0.le, ok_bind, cexpDiv_ok hCT, h.gasC, arrhenius, hs]
    congr 1
    have : exp (39E3 / (s.T * 1.987)) = exp (- -(39000 / 1.987) / s.T) := by congr 1; field_simp; norm_num
    rw [this]
  · simp only [Oxid.new, Oxid.rate, moments01_ok hx, csqrt_ok T0.le, ok_bind, h.gasC, arrhenius, hs]
    simp
    ring
  · simp only [Oxid.new, Oxid.rate, csqrt_ok T0.le, ok_bind, cexpDiv_ok hRT, h.gasP, cdiv_ok hsp.ne', arrhenius, hsi, ex]
    congr 1; ring
  · simp only [Oxid.new, Oxid.rate, csqrt_ok T0.le, ok_bind, cexpDiv_ok hRT, h.gasP, cdiv_ok hsp.ne', arrhenius, hsi, ex]
    simp
    ring
  · simp only [ajSurface, h.gasP, ok_bind, csqrt_ok (pn .CO2), csqrt_ok T0.le, cexpDiv_ok hRT, cpow_ok' (pn .H2O) (show (0 : ℝ) ≤ 1.21 by norm_num),
      cdiv_ok hsp.ne', arrhenius, hsi, ex, sqrt_eq_rpow (pVal s .CO2), rpow_two]
    congr 1; ring
  · simp only [brownCracking, h.gasC, i0, ok_bind, cexpDiv_ok hRT, arrhenius, rpow_zero, ex]
    congr 1; ring
  · simp only [brownSurface, i0, ok_bind, cexpDiv_ok hRT, arrhenius, rpow_zero, ex]
    congr 1; ring

/-- The rate laws on a concrete state with tar. -/
example : ∃ r, ajSurface tarSt = ok r ∧ 0 ≤ r := by
  have R := tarReadyEx .AJ_RED .AJ_RED .HACA .AJ_RED .FM
  have ht : tarSt.tarVar[0]? = some (tarSt.tarVar.getD 0 0) := by simp [tarSt_eq, stateAfter, tarArgs]
  obtain ⟨_, _, _, _, _, _, _, _, e, _⟩ := C66_rate_laws tarSt R.gas ht
  refine ⟨_, e, ?_⟩
  have T0 := R.gas.acc.phys.T
  have p0 := R.gas.acc.phys.P
  have := R.gas.pVal_nonneg .CO2
  have := R.gas.pVal_nonneg .H2O
  unfold arrhenius
  positivity

end Soot
