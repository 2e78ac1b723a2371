import Verif.Props.Rates

/-!
# C66: reaction orders and temperature dependence of the rates

All statements compare two accepted states.  Whatever is not mentioned in a hypothesis (pressure, density, other species, transport data,
soot variables) may differ between them.
-/

namespace Soot

open Res Real
open scoped Classical

/-! ## Nucleation -/

/-- **C66, nucleation order.** The rate is first order in the consumed species and depends on nothing else but `T` and `cMin`. -/
theorem C66_nucl_order (m : NuclMech) {sp : GasSp} (hm : nuclNeeds m = some sp) (ib ib' : State → ℝ → Res ℝ) (s s' : State) (h : GasOk s)
    (h' : GasOk s') (hT : s'.T = s.T) (hc : s'.cMin = s.cMin) (z : ℝ) (hz : cVal s' sp = z * cVal s sp) :
    ∃ r, (Nucl.new m).rate ib s = ok (r, Nucl.new m, s) ∧ (Nucl.new m).rate ib' s' = ok (z * r, Nucl.new m, s') := by
  have T0 := h.acc.phys.T
  have c0 := h.acc.phys.cMin
  have h2 : s.T * (1.987 : ℝ) ≠ 0 := by positivity
  cases m <;> simp only [nuclNeeds, Option.some.injEq, reduceCtorEq] at hm <;> subst hm <;>
    simp only [Nucl.new, Nucl.rate, hT, hc, cexpDiv_ok T0.ne', cexpDiv_ok h2, h.gasC, h'.gasC, hz, ok_bind, cdiv_ok c0.ne'] <;>
    refine ⟨_, rfl, ?_⟩ <;> congr 2 <;> ring

/-- **C66, size of the nucleus.** The nucleated carbon per time does not depend on the assumed nucleus size, except for MB, where the number
of nuclei does not. -/
theorem C66_nucl_size (m : NuclMech) {sp : GasSp} (hm : nuclNeeds m = some sp) (ib ib' : State → ℝ → Res ℝ) (s s' : State) (h : GasOk s)
    (h' : GasOk s') (hT : s'.T = s.T) (hz : cVal s' sp = cVal s sp) :
    ∃ r r', (Nucl.new m).rate ib s = ok (r, Nucl.new m, s) ∧ (Nucl.new m).rate ib' s' = ok (r', Nucl.new m, s') ∧
      (m ≠ .MB → r * s.cMin = r' * s'.cMin) ∧ (m = .MB → r = r') := by
  have T0 := h.acc.phys.T
  have c0 := h.acc.phys.cMin
  have c0' := h'.acc.phys.cMin
  have h2 : s.T * (1.987 : ℝ) ≠ 0 := by positivity
  cases m <;> simp only [nuclNeeds, Option.some.injEq, reduceCtorEq] at hm <;> subst hm <;>
    simp only [Nucl.new, Nucl.rate, hT, cexpDiv_ok T0.ne', cexpDiv_ok h2, h.gasC, h'.gasC, hz, ok_bind, cdiv_ok c0.ne', cdiv_ok c0'.ne'] <;>
    refine ⟨_, _, rfl, rfl, ?_, ?_⟩ <;> intro hx <;> first | exact absurd rfl hx | rfl | (cases hx; done) | field_simp

theorem exp_neg_div_mono {a T T' : ℝ} (ha : 0 < a) (h0 : 0 < T) (h : T ≤ T') : exp (-a / T) ≤ exp (-a / T') := by
  apply exp_le_exp.mpr
  rw [neg_div, neg_div]
  exact neg_le_neg (div_le_div_of_nonneg_left ha.le h0 h)

theorem exp_neg_div_strict {a T T' : ℝ} (ha : 0 < a) (h0 : 0 < T) (h : T < T') : exp (-a / T) < exp (-a / T') := by
  apply exp_lt_exp.mpr
  rw [neg_div, neg_div]
  exact neg_lt_neg (div_lt_div_of_pos_left ha h0 h)

/-- **C66, nucleation and temperature.** At fixed concentration of the consumed species the rate increases strictly with temperature. -/
theorem C66_nucl_temperature (m : NuclMech) {sp : GasSp} (hm : nuclNeeds m = some sp) (ib ib' : State → ℝ → Res ℝ) (s s' : State)
    (h : GasOk s) (h' : GasOk s') (hT : s.T < s'.T) (hc : s'.cMin = s.cMin) (hz : cVal s' sp = cVal s sp) (hp : 0 < cVal s sp) :
    ∃ r r', (Nucl.new m).rate ib s = ok (r, Nucl.new m, s) ∧ (Nucl.new m).rate ib' s' = ok (r', Nucl.new m, s') ∧ r < r' := by
  have T0 := h.acc.phys.T
  have T0' := h'.acc.phys.T
  have c0 := h.acc.phys.cMin
  have hN := Na_pos
  have h2 : 0 < s.T * (1.987 : ℝ) := by positivity
  have h2' : 0 < s'.T * (1.987 : ℝ) := by positivity
  have h3 : s.T * (1.987 : ℝ) < s'.T * 1.987 := by linarith
  cases m <;> simp only [nuclNeeds, Option.some.injEq, reduceCtorEq] at hm <;> subst hm <;>
    simp only [Nucl.new, Nucl.rate, hc, cexpDiv_ok T0.ne', cexpDiv_ok T0'.ne', cexpDiv_ok h2.ne', cexpDiv_ok h2'.ne', h.gasC, h'.gasC, hz,
      ok_bind, cdiv_ok c0.ne'] <;>
    refine ⟨_, _, rfl, rfl, ?_⟩
  all_goals
    first
    | (have e := exp_neg_div_strict (a := 21100) (by norm_num) T0 hT; gcongr; done)
    | (have e := exp_neg_div_strict (a := 21000) (by norm_num) T0 hT; gcongr; done)
    | (have e := exp_neg_div_strict (a := 41E3) (by norm_num) h2 h3; gcongr; done)

/-- **C66, tar nucleation.** BROWN nucleation is first order and AJ_RED nucleation second order in tar, and both rise with temperature at
fixed tar (AJ_RED: at fixed tar molecular mass). -/
theorem C66_tar_order (m : NuclMech) (hm : m = .BROWN ∨ m = .AJ_RED) (ib ib' : State → ℝ → Res ℝ) (s s' : State) (h : Accepted s) (h' : Accepted s')
    {t t' : ℝ} (l : s.tarVar = [t]) (l' : s'.tarVar = [t']) (hT : s.T ≤ s'.T) (hc : s'.cMin = s.cMin) (hm0 : 0 < s.mtar)
    (hmt : s'.mtar = s.mtar) (z : ℝ) (z0 : 0 ≤ z) (hz : t' = z * t) (t0 : 0 ≤ t) :
    ∃ r r', (Nucl.new m).rate ib s = ok (r, Nucl.new m, s) ∧ (Nucl.new m).rate ib' s' = ok (r', Nucl.new m, s') ∧
      (s'.T = s.T → r' = z ^ (if m = .AJ_RED then 2 else 1) * r) ∧ (z = 1 → r ≤ r') := by
  have T0 := h.phys.T
  have T0' := h'.phys.T
  have c0 := h.phys.cMin
  have hN := Na_pos
  have hk := kb_pos
  have hR := Rg_pos
  have hWC := gasMW_pos .C
  have hRT : 0 < Rg * s.T := by positivity
  have hRT' : 0 < Rg * s'.T := by positivity
  have hRR : Rg * s.T ≤ Rg * s'.T := by gcongr
  subst hz
  rcases hm with rfl | rfl
  · simp only [Nucl.new, Nucl.rate, l, l', idx, List.getElem?_cons_zero, ok_bind, cexpDiv_ok hRT.ne', cexpDiv_ok hRT'.ne', hc,
      cdiv_ok c0.ne']
    refine ⟨_, _, rfl, rfl, ?_, ?_⟩
    · intro e; rw [e, if_neg (by simp)]; ring
    · rintro rfl
      have e := exp_neg_div_mono (a := 1.989E8) (by norm_num) hRT hRR
      rw [one_mul]
      gcongr
  · have q0 : 0 ≤ 2 * s.mtar / (3 * 12.011) := by positivity
    have q1 : 0 ≤ 8 * π * kb * s.T / s.mtar / Na := by positivity
    have q2 : 0 ≤ 8 * π * kb * s'.T / s.mtar / Na := by positivity
    simp only [Nucl.new, Nucl.rate, l, l', idx, List.getElem?_cons_zero, ok_bind, csqrt_ok q0, csqrt_ok q1, csqrt_ok q2, hc, hmt,
      cdiv_ok hm0.ne', cdiv_ok c0.ne']
    refine ⟨_, _, rfl, rfl, ?_, ?_⟩
    · intro e; rw [e]; simp only [if_true]; ring
    · rintro rfl
      have e : sqrt (8 * π * kb * s.T / s.mtar / Na) ≤ sqrt (8 * π * kb * s'.T / s.mtar / Na) := sqrt_le_sqrt (by gcongr)
      rw [one_mul]
      gcongr

/-! ## Growth -/

/-- Reaction order in acetylene (specification). -/
noncomputable def growOrder : GrowMech → Option ℝ
  | .LL | .FAIR | .LIN => some 1
  | .MB => some (2 / 3)
  | _ => none

/-- Surface area of `N` equal spheres of total mass `M`. -/
noncomputable def sphereArea (N M : ℝ) : ℝ := π * (6 / (π * rhoSoot) * M / N) ^ ((2 : ℝ) / 3) * N

theorem areaMono_pos_ok {N M : ℝ} (hN : 0 < N) (hM : 0 < M) : areaMono N M = ok (sphereArea N M) ∧ 0 < sphereArea N M := by
  have hr := rhoSoot_pos
  refine ⟨?_, by unfold sphereArea; positivity⟩
  rw [areaMono_ok hM.le, if_pos hN]; rfl

/-- **C66, growth.** With particles present, the rate has the stated order in acetylene; given temperature and acetylene it does not depend
on the soot, except for LL, where it is inversely proportional to the square root of the surface area. -/
theorem C66_grow_order (m : GrowMech) {q : ℝ} (hm : growOrder m = some q) (x x' : Ctx) (s s' : State) (h : GasOk s) (h' : GasOk s')
    (hx : Sized x s) (hx' : Sized x' s') (hT : s'.T = s.T) (z : ℝ) (z0 : 0 ≤ z) (hz : cVal s' .C2H2 = z * cVal s .C2H2)
    (hN : 0 < numOf x s) (hM : 0 < massOf x s) (hN' : 0 < numOf x' s') (hM' : 0 < massOf x' s') :
    ∃ r r', (Grow.new m).rate x s = ok r ∧ (Grow.new m).rate x' s' = ok r' ∧
      (m ≠ .LL → r' = z ^ q * r) ∧
      (m = .LL → r' * sqrt (sphereArea (numOf x' s') (massOf x' s')) = z ^ q * (r * sqrt (sphereArea (numOf x s) (massOf x s)))) := by
  have T0 := h.acc.phys.T
  obtain ⟨a1, a2⟩ := areaMono_pos_ok hN hM
  obtain ⟨b1, b2⟩ := areaMono_pos_ok hN' hM'
  have h2 : s.T * (1.987 : ℝ) ≠ 0 := by positivity
  have h3 : (0 : ℝ) ≤ 2 / 3 := by norm_num
  have c0 := h.cVal_nonneg .C2H2
  have c0' : 0 ≤ z * cVal s .C2H2 := by positivity
  have s1 : sqrt (sphereArea (numOf x s) (massOf x s)) ≠ 0 := by positivity
  have s2 : sqrt (sphereArea (numOf x' s') (massOf x' s')) ≠ 0 := by positivity
  cases m <;> simp only [growOrder, Option.some.injEq, reduceCtorEq] at hm <;> subst hm <;>
    simp only [Grow.new, Grow.rate, moments01_ok hx, moments01_ok hx', ok_bind, a1, b1, if_pos a2, if_pos b2, hT, cexpDiv_ok T0.ne',
      cexpDiv_ok h2, h.gasC, h'.gasC, hz, cpow_ok' c0 h3, cpow_ok' c0' h3, mul_rpow z0 c0, rpow_one]
  all_goals refine ⟨_, _, rfl, rfl, ?_, ?_⟩ <;> intro hx <;> first | exact absurd rfl hx | cases hx | skip
  all_goals first | ring1 | (field_simp; done) | (field_simp; ring1)

/-- **C66, growth and temperature.** -/
theorem C66_grow_temperature (m : GrowMech) {q : ℝ} (hm : growOrder m = some q) (x x' : Ctx) (s s' : State) (h : GasOk s) (h' : GasOk s')
    (hx : Sized x s) (hx' : Sized x' s') (hT : s.T < s'.T) (hz : cVal s' .C2H2 = cVal s .C2H2) (hp : 0 < cVal s .C2H2)
    (hN : 0 < numOf x s) (hM : 0 < massOf x s) (eN : numOf x' s' = numOf x s) (eM : massOf x' s' = massOf x s) :
    ∃ r r', (Grow.new m).rate x s = ok r ∧ (Grow.new m).rate x' s' = ok r' ∧ r < r' := by
  have T0 := h.acc.phys.T
  have T0' := h'.acc.phys.T
  obtain ⟨a1, a2⟩ := areaMono_pos_ok hN hM
  have h2 : 0 < s.T * (1.987 : ℝ) := by positivity
  have h2' : 0 < s'.T * (1.987 : ℝ) := by positivity
  have h3 : s.T * (1.987 : ℝ) < s'.T * 1.987 := by linarith
  have h4 : (0 : ℝ) ≤ 2 / 3 := by norm_num
  have c0 := h.cVal_nonneg .C2H2
  have hW := gasMW_pos .C
  have hA : 0 < sqrt (sphereArea (numOf x s) (massOf x s)) := by positivity
  cases m <;> simp only [growOrder, Option.some.injEq, reduceCtorEq] at hm <;>
    simp only [Grow.new, Grow.rate, moments01_ok hx, moments01_ok hx', eN, eM, ok_bind, a1, if_pos a2, cexpDiv_ok T0.ne',
      cexpDiv_ok T0'.ne', cexpDiv_ok h2.ne', cexpDiv_ok h2'.ne', h.gasC, h'.gasC, hz, cpow_ok' c0 h4] <;>
    refine ⟨_, _, rfl, rfl, ?_⟩
  all_goals
    first
    | (have e := exp_neg_div_strict (a := 12100) (by norm_num) T0 hT; gcongr; done)
    | (have e := exp_neg_div_strict (a := 24E3) (by norm_num) h2 h3; gcongr; done)

/-! ## Oxidation -/

theorem GasOk.pVal_eq {s : State} (h : GasOk s) (sp : GasSp) : pVal s sp = cVal s sp * Rg * s.T := by
  have hp := h.acc.phys
  have := hp.P; have := gasMW_pos sp
  rw [pVal, cVal, hp.mw]
  field_simp

/-- Oxidation mechanisms of first order in the oxidisers. -/
def oxidFirst : OxidMech → Prop
  | .LL | .FAIR | .LEE_NEOH | .OPTJ | .OPTG | .MB | .BROWN | .AJ_RED => True
  | _ => False

/-- Does the mechanism involve O2 / OH (specification). -/
def usesO2 : OxidMech → Prop
  | .MB => False
  | _ => True
def usesOH : OxidMech → Prop
  | .LL | .FAIR | .BROWN => False
  | _ => True

/-- **C66, oxidation order.** The rate is jointly first order in the oxidisers the mechanism involves and depends on nothing else but `T`. -/
theorem C66_oxid_order (m : OxidMech) (hm : oxidFirst m) (x x' : Ctx) (s s' : State) (h : GasOk s) (h' : GasOk s')
    (hx : Sized x s) (hx' : Sized x' s') (hT : s'.T = s.T) (z : ℝ) (h1 : usesO2 m → cVal s' .O2 = z * cVal s .O2)
    (h2 : usesOH m → cVal s' .OH = z * cVal s .OH) :
    ∃ r, (Oxid.new m).rate x s = ok r ∧ (Oxid.new m).rate x' s' = ok (z * r) := by
  have T0 := h.acc.phys.T
  have hR := Rg_pos
  have := gasMW_pos .OH
  have hq : 0 ≤ Rg * s.T / (2 * π * gasMW .OH) := by positivity
  have hsq : sqrt s.T ≠ 0 := by positivity
  have hRT : Rg * s.T ≠ 0 := by positivity
  have h3 : s.T * (1.987 : ℝ) ≠ 0 := by positivity
  cases m <;> simp only [oxidFirst] at hm <;> simp only [usesO2, usesOH, true_imp_iff, false_imp_iff] at h1 h2 <;>
    simp only [Oxid.new, Oxid.rate, moments01_ok hx, moments01_ok hx', hT, ok_bind, csqrt_ok T0.le, cexpDiv_ok T0.ne',
      cexpDiv_ok hRT, cexpDiv_ok h3, h.gasC, h.gasP, h'.gasC, h'.gasP, cdiv_ok hsq, ohRate, csqrt_ok hq, h.pVal_eq, h'.pVal_eq, h1, h2] <;>
    refine ⟨_, rfl, ?_⟩ <;> congr 1 <;> ring

/-- Oxidation mechanisms whose rate rises with temperature. -/
def oxidRising : OxidMech → Prop
  | .LL | .LEE_NEOH | .OPTJ | .OPTG | .MB | .BROWN | .AJ_RED => True
  | _ => False

theorem mul_div_sqrt {a T : ℝ} (h : 0 < T) : a * T / sqrt T = a * sqrt T := by
  rw [mul_div_assoc, div_sqrt]

/-- **C66, oxidation and temperature (FAIR excluded).** At fixed concentrations of the oxidisers the rate does not fall with
temperature. -/
theorem C66_oxid_temperature_partial (m : OxidMech) (hm : oxidRising m) (x x' : Ctx) (s s' : State) (h : GasOk s) (h' : GasOk s')
    (hx : Sized x s) (hx' : Sized x' s') (hT : s.T ≤ s'.T) (h1 : cVal s' .O2 = cVal s .O2) (h2 : cVal s' .OH = cVal s .OH) :
    ∃ r r', (Oxid.new m).rate x s = ok r ∧ (Oxid.new m).rate x' s' = ok r' ∧ r ≤ r' := by
  have T0 := h.acc.phys.T
  have T0' := h'.acc.phys.T
  have hR := Rg_pos
  have hW := gasMW_pos .OH
  have hWC := gasMW_pos .C
  have c1 := h.cVal_nonneg .O2
  have c2 := h.cVal_nonneg .OH
  have hq : 0 ≤ Rg * s.T / (2 * π * gasMW .OH) := by positivity
  have hq' : 0 ≤ Rg * s'.T / (2 * π * gasMW .OH) := by positivity
  have hsq : sqrt s.T ≠ 0 := by positivity
  have hsq' : sqrt s'.T ≠ 0 := by positivity
  have hRT : 0 < Rg * s.T := by positivity
  have hRT' : 0 < Rg * s'.T := by positivity
  have hRR : Rg * s.T ≤ Rg * s'.T := by gcongr
  have hs : sqrt s.T ≤ sqrt s'.T := sqrt_le_sqrt hT
  have hoh : sqrt (Rg * s.T / (2 * π * gasMW .OH)) ≤ sqrt (Rg * s'.T / (2 * π * gasMW .OH)) := sqrt_le_sqrt (by gcongr)
  have e : ∀ {a : ℝ}, 0 < a → exp (-a / s.T) ≤ exp (-a / s'.T) := fun ha => exp_neg_div_mono ha T0 hT
  have eR : ∀ {a : ℝ}, 0 < a → exp (-a / (Rg * s.T)) ≤ exp (-a / (Rg * s'.T)) := fun ha => exp_neg_div_mono ha hRT hRR
  have d : ∀ {k c E E' : ℝ}, 0 ≤ k → 0 ≤ c → 0 ≤ E → E ≤ E' → k * (c * Rg * s.T) / sqrt s.T * E ≤ k * (c * Rg * s'.T) / sqrt s'.T * E' := by
    intro k c E E' hk hc hE hEE
    have q1 : k * (c * Rg * s.T) / sqrt s.T = k * c * Rg * sqrt s.T := by rw [← mul_div_sqrt T0]; ring
    have q2 : k * (c * Rg * s'.T) / sqrt s'.T = k * c * Rg * sqrt s'.T := by rw [← mul_div_sqrt T0']; ring
    rw [q1, q2]; gcongr
  cases m <;> simp only [oxidRising] at hm <;>
    simp only [Oxid.new, Oxid.rate, moments01_ok hx, moments01_ok hx', ok_bind, csqrt_ok T0.le, cexpDiv_ok T0.ne', csqrt_ok T0'.le,
      cexpDiv_ok T0'.ne', cexpDiv_ok hRT.ne', cexpDiv_ok hRT'.ne', h.gasC, h.gasP, h'.gasC, h'.gasP, cdiv_ok hsq, cdiv_ok hsq', ohRate,
      csqrt_ok hq, csqrt_ok hq', h.pVal_eq, h'.pVal_eq, h1, h2] <;>
    refine ⟨_, _, rfl, rfl, ?_⟩
  case LL => have := e (a := 19680) (by norm_num); gcongr
  case LEE_NEOH =>
    have q := d (k := 1.085E4 / 101325) (by norm_num) c1 (exp_pos _).le (e (a := 1.977824E4) (by norm_num))
    have q1 : ∀ t r : ℝ, 1.085E4 * (cVal s .O2 * Rg * t / 101325) / r = 1.085E4 / 101325 * (cVal s .O2 * Rg * t) / r := by intros; ring
    rw [q1, q1]
    gcongr
  case OPTJ =>
    have q := d (k := 0.798) (by norm_num) c1 (exp_pos _).le (e (a := 2.1294E4) (by norm_num))
    gcongr
  case OPTG =>
    have q := d (k := 15.8) (by norm_num) c1 (exp_pos _).le (e (a := 2.345E4) (by norm_num))
    gcongr
  case MB => gcongr
  case BROWN =>
    have q := d (k := 1) (by norm_num) c1 (exp_pos _).le (eR (a := 1.645E8) (by norm_num))
    rw [one_mul, one_mul] at q
    have : ∀ a b : ℝ, a * (1.09E5 / 101325) * b = (1.09E5 / 101325) * (a * b) := by intros; ring
    rw [this, this]
    gcongr
  case AJ_RED =>
    have q := d (k := 1.92E-3) (by norm_num) c1 (exp_pos _).le (eR (a := 1.16E5) (by norm_num))
    have q2 := d (k := 2.93E-3) (E := 1) (E' := 1) (by norm_num) c2 zero_le_one le_rfl
    have w : ∀ t r b E : ℝ, 1 / r * (1.92E-3 * (cVal s .O2 * Rg * t) * E + 2.93E-3 * b) =
        1.92E-3 * (cVal s .O2 * Rg * t) / r * E + 2.93E-3 * b / r * 1 := by intros; ring
    rw [w, w]
    gcongr

/-- **C66 refuted for FAIR oxidation.** Its activation energy has the wrong sign: at fixed oxygen concentration the rate strictly falls with
temperature (below 39000 K). -/
theorem C66_fair_falls (x x' : Ctx) (s s' : State) (h : GasOk s) (h' : GasOk s') (hT : s.T < s'.T) (hmax : s'.T ≤ 39000)
    (h1 : cVal s' .O2 = cVal s .O2) (hp : 0 < cVal s .O2) :
    ∃ r r', (Oxid.new .FAIR).rate x s = ok r ∧ (Oxid.new .FAIR).rate x' s' = ok r' ∧ r' < r := by
  have T0 := h.acc.phys.T
  have T0' := h'.acc.phys.T
  have h2 : s.T * (1.987 : ℝ) ≠ 0 := by positivity
  have h2' : s'.T * (1.987 : ℝ) ≠ 0 := by positivity
  simp only [Oxid.new, Oxid.rate, ok_bind, csqrt_ok T0.le, csqrt_ok T0'.le, cexpDiv_ok h2, cexpDiv_ok h2', h.gasC, h'.gasC, h1]
  refine ⟨_, _, rfl, rfl, ?_⟩
  set T := s.T
  set T' := s'.T
  have hx1 : 1 < T' / T := (one_lt_div T0).mpr hT
  have hl : log (T' / T) < T' / T - 1 := log_lt_sub_one_of_pos (by positivity) hx1.ne'
  have hsplit : sqrt T' = sqrt T * exp (log (T' / T) / 2) := by
    have : exp (log (T' / T) / 2) = sqrt (T' / T) := by
      rw [exp_half, exp_log (by positivity)]
    rw [this, ← sqrt_mul T0.le, mul_div_cancel₀ _ T0.ne']
  have key : log (T' / T) / 2 + 39E3 / (T' * 1.987) < 39E3 / (T * 1.987) := by
    have e : 39E3 / (T * 1.987) - 39E3 / (T' * 1.987) = 39E3 / (T' * 1.987) * (T' / T - 1) := by field_simp
    have g : (1 : ℝ) / 2 ≤ 39E3 / (T' * 1.987) := by
      rw [div_le_div_iff₀ (by norm_num) (by positivity)]
      linarith
    have : 0 < T' / T - 1 := by linarith
    nlinarith
  have : sqrt T' * exp (39E3 / (T' * 1.987)) < sqrt T * exp (39E3 / (T * 1.987)) := by
    rw [hsplit, mul_assoc, ← exp_add]
    exact mul_lt_mul_of_pos_left (exp_lt_exp.mpr key) (by positivity)
  calc 1.78E4 * sqrt T' * exp (39E3 / (T' * 1.987)) * cVal s .O2 = 1.78E4 * cVal s .O2 * (sqrt T' * exp (39E3 / (T' * 1.987))) := by ring
    _ < 1.78E4 * cVal s .O2 * (sqrt T * exp (39E3 / (T * 1.987))) := by gcongr
    _ = _ := by ring

/-! ## Concrete states: `argsEx2` at other temperatures and densities -/

noncomputable def argsTR (T ρ : ℝ) : SetArgs := { argsEx2 with T := T, rhoGas := ρ }
noncomputable def stTR (T ρ : ℝ) : State := stateAfter (State.mk' 2 0) (argsTR T ρ)

theorem stTR_gasOk {T ρ : ℝ} (hT : 0 < T) (hρ : 0 < ρ) : GasOk (stTR T ρ) where
  acc := by
    have e := argsEx2_admissible
    have : Admissible 2 0 6 (argsTR T ρ) := ⟨hT, e.P, hρ, e.mu, e.cMin, e.soot, e.tar, e.gas, e.pahSize, e.pah, e.pahSum⟩
    have := C01_setState_accepts (State.mk' 2 0) (argsTR T ρ) (by simp [State.mk', argsTR, argsEx2]) (by simp [State.mk'])
      (by simpa [State.mk', nPah] using this)
    exact ⟨_, _, by rw [this], by rw [this]; rfl⟩
  len := by simp [stTR, stateAfter, argsTR, argsEx2, nGas]
  nonneg := by
    intro y hy; simp [stTR, stateAfter, argsTR, argsEx2] at hy
    rcases hy with h|h|h|h|h|h|h|h|h|h|h <;> subst h <;> norm_num

theorem stTR_cVal (T ρ : ℝ) (sp : GasSp) : cVal (stTR T ρ) sp = ρ * argsEx2.yGas.getD sp.toNat 0 / gasMW sp := rfl

/-- Doubling the gas density doubles the Leung–Lindstedt nucleation rate; heating the gas at constant density raises it. -/
example : (∃ r, (Nucl.new .LL).rate (fun _ _ => ok 0) (stTR 2000 0.1) = ok (r, Nucl.new .LL, stTR 2000 0.1) ∧
      (Nucl.new .LL).rate (fun _ _ => ok 0) (stTR 2000 0.2) = ok (2 * r, Nucl.new .LL, stTR 2000 0.2)) ∧
    (∃ r r', (Nucl.new .LL).rate (fun _ _ => ok 0) (stTR 2000 0.1) = ok (r, Nucl.new .LL, stTR 2000 0.1) ∧
      (Nucl.new .LL).rate (fun _ _ => ok 0) (stTR 2100 0.1) = ok (r', Nucl.new .LL, stTR 2100 0.1) ∧ r < r') := by
  refine ⟨C66_nucl_order .LL rfl _ _ (stTR 2000 0.1) (stTR 2000 0.2) (stTR_gasOk (by norm_num) (by norm_num)) (stTR_gasOk (by norm_num) (by norm_num)) rfl rfl 2 ?_,
    C66_nucl_temperature .LL rfl _ _ (stTR 2000 0.1) (stTR 2100 0.1) (stTR_gasOk (by norm_num) (by norm_num)) (stTR_gasOk (by norm_num) (by norm_num)) ?_ rfl rfl ?_⟩
  · rw [stTR_cVal, stTR_cVal]; ring
  · simp [stTR, stateAfter, argsTR]; norm_num
  · rw [stTR_cVal]; simp [argsEx2, GasSp.toNat, gasMW]; norm_num

/-- Fairweather oxidation is slower at 2100 K than at 2000 K with the same oxygen. -/
example : ∃ r r', (Oxid.new .FAIR).rate ⟨.MONO, 2, []⟩ (stTR 2000 0.1) = ok r ∧
    (Oxid.new .FAIR).rate ⟨.MONO, 2, []⟩ (stTR 2100 0.1) = ok r' ∧ r' < r := by
  refine C66_fair_falls _ _ (stTR 2000 0.1) (stTR 2100 0.1) (stTR_gasOk (by norm_num) (by norm_num)) (stTR_gasOk (by norm_num) (by norm_num)) ?_ ?_ rfl ?_
  · simp [stTR, stateAfter, argsTR]; norm_num
  · simp [stTR, stateAfter, argsTR]; norm_num
  · rw [stTR_cVal]; simp [argsEx2, GasSp.toNat, gasMW]; norm_num

theorem stTR_sized (T ρ : ℝ) : Sized ⟨.MONO, 2, []⟩ (stTR T ρ) where
  two := by simp [stTR, stateAfter, argsTR, argsEx2]
  sect := by simp
  bins := by simp

/-- MB growth and OPTJ oxidation on concrete states. -/
example : (∃ r r', (Grow.new .MB).rate ⟨.MONO, 2, []⟩ (stTR 2000 0.1) = ok r ∧ (Grow.new .MB).rate ⟨.MONO, 2, []⟩ (stTR 2000 0.8) = ok r' ∧
      r' = 8 ^ ((2 : ℝ) / 3) * r) ∧
    (∃ r, (Oxid.new .OPTJ).rate ⟨.MONO, 2, []⟩ (stTR 2000 0.1) = ok r ∧
      (Oxid.new .OPTJ).rate ⟨.MONO, 2, []⟩ (stTR 2000 0.8) = ok (8 * r)) := by
  have p : ∀ T ρ, 0 < numOf ⟨.MONO, 2, []⟩ (stTR T ρ) ∧ 0 < massOf ⟨.MONO, 2, []⟩ (stTR T ρ) := by
    intro T ρ; simp [numOf, massOf, stTR, stateAfter, argsTR, argsEx2]; norm_num
  constructor
  · obtain ⟨r, r', h1, h2, h3, _⟩ := C66_grow_order .MB rfl ⟨.MONO, 2, []⟩ ⟨.MONO, 2, []⟩ (stTR 2000 0.1) (stTR 2000 0.8)
      (stTR_gasOk (by norm_num) (by norm_num)) (stTR_gasOk (by norm_num) (by norm_num)) (stTR_sized _ _) (stTR_sized _ _) rfl 8 (by norm_num)
      (by rw [stTR_cVal, stTR_cVal]; ring) (p _ _).1 (p _ _).2 (p _ _).1 (p _ _).2
    exact ⟨r, r', h1, h2, h3 (by simp)⟩
  · exact C66_oxid_order .OPTJ trivial _ _ (stTR 2000 0.1) (stTR 2000 0.8) (stTR_gasOk (by norm_num) (by norm_num)) (stTR_gasOk (by norm_num) (by norm_num))
      (stTR_sized _ _) (stTR_sized _ _) rfl 8 (fun _ => by rw [stTR_cVal, stTR_cVal]; ring) (fun _ => by rw [stTR_cVal, stTR_cVal]; ring)

end Soot
