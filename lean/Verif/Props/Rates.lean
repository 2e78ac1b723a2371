import Verif.Props.Mech
import Mathlib.Tactic.IntervalCases

/-!
# Properties C19, C47, C48, C50 (rates)
-/

namespace Soot

open Res Real
open scoped Classical

/-! ## HACA -/

/-- The steric factor is undefined only for `0/0`: one kilogram per particle at exactly the temperature
where `a_param` vanishes. -/
theorem hacaAlpha_cases (T : ℝ) {M0 M1 : ℝ} (h0 : 0 ≤ M0) (h1 : 0 ≤ M1)
    (hs : ¬ (0 < M0 ∧ M1 = M0 ∧ 33.167 - 0.0154 * T = 0)) :
    ∃ al, hacaAlpha T M0 M1 = ok al ∧ 0 ≤ al ∧ al ≤ 1 := by
  have key : ∀ x : ℝ, -1 ≤ x → x ≤ 1 → 0 ≤ (if x < 0 then (1 : ℝ) else x) ∧ (if x < 0 then (1 : ℝ) else x) ≤ 1 := by
    intro x h1 h2; split_ifs with h <;> [norm_num; exact ⟨not_lt.mp h, h2⟩]
  unfold hacaAlpha
  by_cases hM : M0 > 0
  · simp only [if_pos hM]
    have hq : 0 ≤ M1 / M0 := by positivity
    have hne : M1 / M0 = 1 ↔ M1 = M0 := by rw [div_eq_one_iff_eq hM.ne']
    unfold hacaTanh
    rw [if_neg (not_lt.mpr hq)]
    by_cases hz : M1 / M0 = 0
    · rw [if_pos hz, ok_bind]
      exact ⟨_, rfl, key _ (neg_one_lt_tanh _).le (tanh_lt_one _).le⟩
    rw [if_neg hz]
    by_cases ho : M1 / M0 = 1
    · rw [if_pos ho]
      have ha : 33.167 - 0.0154 * T ≠ 0 := fun ha => hs ⟨hM, hne.mp ho, ha⟩
      rcases lt_or_gt_of_ne ha with ha | ha
      · rw [if_neg (not_lt.mpr ha.le), if_pos ha, ok_bind]
        exact ⟨_, rfl, key _ (by norm_num) (by norm_num)⟩
      · rw [if_pos ha, ok_bind]
        exact ⟨_, rfl, key _ (by norm_num) (by norm_num)⟩
    · rw [if_neg ho, ok_bind]
      exact ⟨_, rfl, key _ (neg_one_lt_tanh _).le (tanh_lt_one _).le⟩
  · simp only [if_neg hM, ok_bind]
    exact ⟨_, rfl, key _ (by norm_num) (by norm_num)⟩

theorem hacaRates_ok {s : State} (h : GasOk s) :
    ∃ r, hacaRates s = ok r ∧ 0 ≤ r.fR4 ∧ 0 ≤ r.fR5 ∧ 0 ≤ r.chiS ∧
      (Absent s .C2H2 → r.fR4 = 0) ∧ (Absent s .O2 → r.fR5 = 0) := by
  have hT := h.acc.phys.T
  have hRT : (1.9872036E-3 : ℝ) * s.T ≠ 0 := by positivity
  simp only [hacaRates, cexpDiv_ok hRT, ok_bind, h.gasC, cpow_ok hT]
  have := h.cVal_nonneg .H; have := h.cVal_nonneg .H2; have := h.cVal_nonneg .OH
  have := h.cVal_nonneg .H2O; have := h.cVal_nonneg .C2H2; have := h.cVal_nonneg .O2
  refine ⟨_, rfl, by positivity, by positivity, ?_, fun hx => by simp [hx.cVal], fun hx => by simp [hx.cVal]⟩
  dsimp only
  split_ifs <;> positivity

/-! ## Moments seen by the mechanisms -/

/-- Sizes under which the mechanisms' soot reads are in range: the state carries the variables the model
was built for, and (sectional) the model has that many non-negative bin masses. -/
structure Sized (x : Ctx) (s : State) : Prop where
  two : 2 ≤ s.sootVar.length
  sect : x.psd = .SECT → x.nsoot ≤ s.sootVar.length ∧ x.nsoot ≤ x.mBins.length ∧ s.nsoot = x.nsoot
  bins : ∀ m ∈ x.mBins, 0 ≤ m

/-- Independent specification of total particle number seen by a mechanism. -/
noncomputable def numOf (x : Ctx) (s : State) : ℝ :=
  if x.psd = .SECT then ∑ k ∈ Finset.range x.nsoot, s.sootVar.getD k 0 else s.sootVar.getD 0 0
/-- Independent specification of total soot mass seen by a mechanism. -/
noncomputable def massOf (x : Ctx) (s : State) : ℝ :=
  if x.psd = .SECT then ∑ k ∈ Finset.range x.nsoot, s.sootVar.getD k 0 * x.mBins.getD k 0
  else s.sootVar.getD 1 0

theorem idx_getD {l : List ℝ} {i : ℕ} (h : i < l.length) : idx l i = ok (l.getD i 0) := by
  rw [idx_ok h, getD_of_lt h]

theorem getD_nonneg {l : List ℝ} (h : ∀ x ∈ l, 0 ≤ x) (i : ℕ) : 0 ≤ l.getD i 0 := by
  by_cases hi : i < l.length
  · rw [getD_of_lt hi]; exact h _ (List.getElem_mem _)
  · simp [List.getD_eq_getElem?_getD, not_lt.mp hi]

theorem m0Sectional_ok {x : Ctx} {s : State} (h : x.nsoot ≤ s.sootVar.length) :
    m0Sectional x s = ok (∑ k ∈ Finset.range x.nsoot, s.sootVar.getD k 0) :=
  sumLoop_ok fun _ hk => idx_getD (hk.trans_le h)

theorem m1Sectional_ok {x : Ctx} {s : State} (h : x.nsoot ≤ s.sootVar.length) (h' : x.nsoot ≤ x.mBins.length) :
    m1Sectional x s = ok (∑ k ∈ Finset.range x.nsoot, s.sootVar.getD k 0 * x.mBins.getD k 0) :=
  sumLoop_ok fun _ hk => by rw [idx_getD (hk.trans_le h), ok_bind, idx_getD (hk.trans_le h'), ok_bind]

theorem moments01_ok {x : Ctx} {s : State} (h : Sized x s) : moments01 x s = ok (numOf x s, massOf x s) := by
  unfold moments01 numOf massOf
  split_ifs with hx
  · obtain ⟨h1, h2, _⟩ := h.sect hx
    rw [m0Sectional_ok h1, m1Sectional_ok h1 h2]; rfl
  · have := h.two
    rw [idx_getD (by omega), idx_getD (by omega)]; rfl

theorem hacaMoments_ok {x : Ctx} {s : State} (h : Sized x s) : hacaMoments x s = ok (numOf x s, massOf x s) := by
  unfold hacaMoments numOf massOf
  have := h.two
  rw [idx_getD (by omega), idx_getD (by omega), ok_bind, ok_bind]
  split_ifs with hx hn
  · obtain ⟨_, _, h3⟩ := h.sect hx; omega
  · obtain ⟨h1, h2, h3⟩ := h.sect hx
    have e : s.nsoot.toNat = x.nsoot := by omega
    have e0 := m0Sectional_ok h1
    have e1 := m1Sectional_ok h1 h2
    rw [m0Sectional] at e0; rw [m1Sectional] at e1
    rw [e, e0, e1]; rfl
  · rfl

theorem numOf_nonneg {x : Ctx} {s : State} (h : Accepted s) : 0 ≤ numOf x s := by
  have := getD_nonneg h.sootVar_nonneg
  unfold numOf; split_ifs
  · exact Finset.sum_nonneg fun _ _ => this _
  · exact this _

theorem massOf_nonneg {x : Ctx} {s : State} (h : Accepted s) (hx : Sized x s) : 0 ≤ massOf x s := by
  have := getD_nonneg h.sootVar_nonneg
  have := getD_nonneg hx.bins
  unfold massOf; split_ifs
  · exact Finset.sum_nonneg fun _ _ => by apply mul_nonneg <;> apply_assumption
  · apply_assumption

theorem areaMono_ok {M0 M1 : ℝ} (h1 : 0 ≤ M1) :
    areaMono M0 M1 = ok (if M0 > 0 then π * (6 / (π * rhoSoot) * M1 / M0) ^ twothird * M0 else 0) := by
  unfold areaMono
  split_ifs with h
  · have := rhoSoot_pos
    rw [cpow_ok' (by positivity) (by norm_num [twothird])]; rfl
  · rfl

/-! ## C47 -/

/-- **C47.** For every accepted state with non-negative gas fractions and every model whose soot vector is
in range, the HACA site fraction lies in [0,1] and the HACA growth and oxidation rates are finite and
non-negative, except at the single removable 0/0 point excluded by `hs`. -/
theorem C47_haca (x : Ctx) (s : State) (h : GasOk s) (hx : Sized x s)
    (hs : ¬ (0 < numOf x s ∧ massOf x s = numOf x s ∧ 33.167 - 0.0154 * s.T = 0)) :
    (∃ al, hacaAlpha s.T (numOf x s) (massOf x s) = ok al ∧ 0 ≤ al ∧ al ≤ 1) ∧
    (∃ r, (Grow.new .HACA).rate x s = ok r ∧ 0 ≤ r) ∧
    (∃ r, (Oxid.new .HACA).rate x s = ok r ∧ 0 ≤ r) := by
  obtain ⟨al, hal, h0, h1⟩ := hacaAlpha_cases s.T (numOf_nonneg h.acc) (massOf_nonneg h.acc hx) hs
  obtain ⟨r, hr, hr4, hr5, hrc, _⟩ := hacaRates_ok h
  have hT := h.acc.phys.T
  have := Na_pos; have := gasMW_pos .C; have := gasMW_pos .OH; have := Rg_pos
  have := h.cVal_nonneg .OH
  refine ⟨⟨al, hal, h0, h1⟩, ?_, ?_⟩
  · simp only [Grow.rate, Grow.new, hacaMoments_ok hx, hr, hal, ok_bind]
    exact ⟨_, rfl, by positivity⟩
  · have hq : 0 ≤ Rg * s.T / (2 * π * gasMW .OH) := by positivity
    simp only [Oxid.rate, Oxid.new, moments01_ok hx, hr, hal, ok_bind, ohRate, h.gasC, csqrt_ok hq]
    exact ⟨_, rfl, by positivity⟩

theorem stEx2_sized (x : Ctx) (hx : x.psd = .MONO) (hb : x.mBins = []) : Sized x stEx2 where
  two := by simp [stEx2_sootVar]
  sect := by simp [hx]
  bins := by simp [hb]

/-- C47 on the concrete state `stEx2` (2100 K, 1E15 particles, 1E-8 kg). -/
example : ∃ r, (Grow.new .HACA).rate ⟨.MONO, 2, []⟩ stEx2 = ok r ∧ 0 ≤ r := by
  refine (C47_haca ⟨.MONO, 2, []⟩ stEx2 stEx2_gasOk (stEx2_sized _ rfl rfl) ?_).2.1
  rintro ⟨_, h, _⟩
  simp [massOf, numOf, stEx2_sootVar] at h
  norm_num at h

/-- The excluded point of C47 is a real hole: there the computed factor is `0/0`. -/
theorem C47_singular (T : ℝ) (h : 33.167 - 0.0154 * T = 0) : hacaAlpha T 1 1 = nonfin := by
  simp only [hacaAlpha, hacaTanh, h]; norm_num

/-! ## C48 -/

/-- The species a mechanism consumes from the gas (specification). -/
def nuclNeeds : NuclMech → Option GasSp
  | .LL | .LIN | .MB | .FAIR => some .C2H2
  | .LINA1 => some .C6H6
  | _ => none

/-- **C48** (nucleation). Every nucleation rate other than PAH's is finite and non-negative, and leaves
mechanism and state unchanged; it is zero if the consumed species is absent (tar mechanisms: if there is no
tar). -/
theorem C48_nucl (m : NuclMech) (hm : m ≠ .PAH) (ib : State → ℝ → Res ℝ) (s : State) (h : GasOk s)
    (htar : m = .AJ_RED ∨ m = .BROWN → 0 < s.tarVar.length) (hmtar : m = .AJ_RED → 0 < s.mtar) :
    ∃ r, (Nucl.new m).rate ib s = ok (r, Nucl.new m, s) ∧ 0 ≤ r ∧
      (m = .NONE → r = 0) ∧
      (∀ sp, nuclNeeds m = some sp → Absent s sp → r = 0) ∧
      (m = .AJ_RED ∨ m = .BROWN → s.tarVar.getD 0 0 = 0 → r = 0) := by
  have hT := h.acc.phys.T
  have hc := h.acc.phys.cMin
  have hR := Rg_pos
  have := Na_pos; have := kb_pos; have := gasMW_pos .C
  have := h.cVal_nonneg .C2H2; have := h.cVal_nonneg .C6H6
  have := getD_nonneg h.acc.tarVar_nonneg 0
  cases m <;> simp only [Nucl.new, Nucl.rate, nuclNeeds, reduceCtorEq, Option.some.injEq, or_false, or_true, false_or, or_self, true_imp_iff, false_imp_iff, forall_true_left, IsEmpty.forall_iff, and_true, true_and] at *
  case NONE => exact ⟨0, rfl, le_rfl, by simp⟩
  case LL =>
    simp only [cexpDiv_ok hT.ne', h.gasC, ok_bind, cdiv_ok hc.ne']
    exact ⟨_, rfl, by positivity, by rintro _ rfl hx; simp [hx.cVal]⟩
  case LIN =>
    simp only [cexpDiv_ok hT.ne', h.gasC, ok_bind, cdiv_ok hc.ne']
    exact ⟨_, rfl, by positivity, by rintro _ rfl hx; simp [hx.cVal]⟩
  case LINA1 =>
    simp only [cexpDiv_ok hT.ne', h.gasC, ok_bind, cdiv_ok hc.ne']
    exact ⟨_, rfl, by positivity, by rintro _ rfl hx; simp [hx.cVal]⟩
  case MB =>
    simp only [cexpDiv_ok hT.ne', h.gasC, ok_bind]
    exact ⟨_, rfl, by positivity, by rintro _ rfl hx; simp [hx.cVal]⟩
  case FAIR =>
    have h2 : s.T * (1.987 : ℝ) ≠ 0 := by positivity
    simp only [cexpDiv_ok h2, h.gasC, ok_bind, cdiv_ok hc.ne']
    exact ⟨_, rfl, by positivity, by rintro _ rfl hx; simp [hx.cVal]⟩
  case AJ_RED =>
    have h1 : 0 ≤ 2 * s.mtar / (3 * 12.011) := by positivity
    have h2 : 0 ≤ 8 * π * kb * s.T / s.mtar / Na := by positivity
    simp only [csqrt_ok h1, ok_bind, cdiv_ok hmtar.ne', csqrt_ok h2, idx_getD htar, cdiv_ok hc.ne']
    exact ⟨_, rfl, by positivity, by simp, fun hz => by rw [hz]; simp⟩
  case BROWN =>
    have h1 : Rg * s.T ≠ 0 := by positivity
    simp only [cexpDiv_ok h1, ok_bind, idx_getD htar, cdiv_ok hc.ne']
    exact ⟨_, rfl, by positivity, by simp, fun hz => by rw [hz]; simp⟩
  case PAH => exact absurd rfl hm

/-- The 0/0 point of the HACA steric factor (see `C47_singular`). -/
def HacaSingular (x : Ctx) (s : State) : Prop :=
  0 < numOf x s ∧ massOf x s = numOf x s ∧ 33.167 - 0.0154 * s.T = 0

/-- **C48** (growth). Every growth rate is finite and non-negative, and zero without acetylene. -/
theorem C48_grow (m : GrowMech) (x : Ctx) (s : State) (h : GasOk s) (hx : Sized x s)
    (hs : m = .HACA → ¬ HacaSingular x s) :
    ∃ r, (Grow.new m).rate x s = ok r ∧ 0 ≤ r ∧ (m = .NONE → r = 0) ∧ (Absent s .C2H2 → r = 0) := by
  have hT := h.acc.phys.T
  have := Na_pos; have := gasMW_pos .C
  have hc := h.cVal_nonneg .C2H2
  have hm1 := massOf_nonneg h.acc hx
  have hA := areaMono_ok (M0 := numOf x s) hm1
  generalize (if numOf x s > 0 then π * (6 / (π * rhoSoot) * massOf x s / numOf x s) ^ twothird * numOf x s
    else 0) = A at hA
  cases m <;> simp only [Grow.new, Grow.rate, moments01_ok hx, ok_bind, hA]
  case NONE => exact ⟨0, rfl, le_rfl, by simp, by simp⟩
  case LIN =>
    simp only [cexpDiv_ok hT.ne', h.gasC, ok_bind]
    exact ⟨_, rfl, by positivity, by simp, fun hx => by simp [hx.cVal]⟩
  case HACA =>
    obtain ⟨al, hal, h0, h1⟩ := hacaAlpha_cases s.T (numOf_nonneg h.acc) hm1 (hs rfl)
    obtain ⟨r, hr, hr4, hr5, hrc, hz, _⟩ := hacaRates_ok h
    simp only [hacaMoments_ok hx, hr, hal, ok_bind]
    exact ⟨_, rfl, by positivity, by simp, fun hx => by simp [hz hx]⟩
  all_goals
    split_ifs with h1
    · have h2 : s.T * (1.987 : ℝ) ≠ 0 := by positivity
      have h3 : (0 : ℝ) ≤ 2 / 3 := by norm_num
      simp only [cexpDiv_ok hT.ne', cexpDiv_ok h2, h.gasC, ok_bind, cpow_ok' hc h3]
      refine ⟨_, rfl, by positivity, by simp, fun hx => ?_⟩
      rw [hx.cVal]; simp
    · exact ⟨0, rfl, le_rfl, by simp, by simp⟩

/-- **C48** (oxidation). Every oxidation rate is finite and non-negative, and zero without O2 and OH. -/
theorem C48_oxid (m : OxidMech) (x : Ctx) (s : State) (h : GasOk s) (hx : Sized x s)
    (hs : m = .HACA → ¬ HacaSingular x s) :
    ∃ r, (Oxid.new m).rate x s = ok r ∧ 0 ≤ r ∧ (m = .NONE → r = 0) ∧
      (Absent s .O2 → Absent s .OH → r = 0) := by
  have hT := h.acc.phys.T
  have hR := Rg_pos
  have := Na_pos; have := gasMW_pos .C; have := gasMW_pos .OH
  have := h.cVal_nonneg .O2; have := h.cVal_nonneg .OH
  have := h.pVal_nonneg .O2; have := h.pVal_nonneg .OH
  have hq : 0 ≤ Rg * s.T / (2 * π * gasMW .OH) := by positivity
  have hsq : sqrt s.T ≠ 0 := by positivity
  have hRT : Rg * s.T ≠ 0 := by positivity
  have h2 : s.T * (1.987 : ℝ) ≠ 0 := by positivity
  have hrho := rhoSoot_pos
  cases m <;> simp only [Oxid.new, Oxid.rate, moments01_ok hx, ok_bind, csqrt_ok hT.le, cexpDiv_ok hT.ne',
    cexpDiv_ok hRT, cexpDiv_ok h2, h.gasC, h.gasP, cdiv_ok hsq, ohRate, csqrt_ok hq]
  case NONE => exact ⟨0, rfl, le_rfl, by simp, by simp⟩
  case NSC_NEOH =>
    have hx : ∀ kT kBp : ℝ, 0 < kT → 0 ≤ kBp → ∃ q, nscX kT kBp = ok q ∧ 0 ≤ q ∧ q ≤ 1 := by
      intro kT kBp h1 h2
      unfold nscX
      split_ifs with hz
      · exact ⟨0, rfl, le_rfl, by norm_num⟩
      · have h3 : 0 < 1 + kT / kBp := by positivity
        rw [cdiv_ok h3.ne']
        refine ⟨_, rfl, by positivity, ?_⟩
        rw [div_le_one h3]
        have : 0 ≤ kT / kBp := by positivity
        linarith
    obtain ⟨q, hq, hq0, hq1⟩ := hx (1.51E5 * exp (-48817 / s.T)) (4.46E-3 * exp (-7650 / s.T) * (pVal s .O2 / 101325))
      (by positivity) (by positivity)
    have hd : 0 < 1 + 21.3 * exp (2063 / s.T) * (pVal s .O2 / 101325) := by positivity
    simp only [hq, ok_bind, cdiv_ok hd.ne']
    have hq1' : 0 ≤ 1 - q := by linarith
    exact ⟨_, rfl, by positivity, by simp, fun h1 h2 => by simp [h1.pVal, h2.pVal]⟩
  case HACA =>
    obtain ⟨al, hal, h0, h1⟩ := hacaAlpha_cases s.T (numOf_nonneg h.acc) (massOf_nonneg h.acc hx) (hs rfl)
    obtain ⟨r, hr, hr4, hr5, hrc, _, hz⟩ := hacaRates_ok h
    simp only [hr, hal, ok_bind]
    exact ⟨_, rfl, by positivity, by simp, fun hx hy => by simp [hz hx, hy.cVal]⟩
  all_goals
    exact ⟨_, rfl, by positivity, by simp, fun h1 h2 => by simp [h1.cVal, h2.cVal, h1.pVal, h2.pVal]⟩

/-- C48 on `stEx2`: Leung–Lindstedt growth and NSC oxidation. -/
example : (∃ r, (Grow.new .LL).rate ⟨.MONO, 2, []⟩ stEx2 = ok r ∧ 0 ≤ r) ∧
    (∃ r, (Oxid.new .NSC_NEOH).rate ⟨.MONO, 2, []⟩ stEx2 = ok r ∧ 0 ≤ r) := by
  obtain ⟨r, h, h0, _⟩ := C48_grow .LL ⟨.MONO, 2, []⟩ stEx2 stEx2_gasOk (stEx2_sized _ rfl rfl) (by simp)
  obtain ⟨q, h', h0', _⟩ := C48_oxid .NSC_NEOH ⟨.MONO, 2, []⟩ stEx2 stEx2_gasOk (stEx2_sized _ rfl rfl) (by simp)
  exact ⟨⟨r, h, h0⟩, ⟨q, h', h0'⟩⟩

/-! ## C50 -/

/-- **C50** refuted: the AJ_RED cracking rate does not depend on hydrogen at all. Any two states with the
same temperature and tar, and non-negative hydrogen, have the same rate. -/
theorem C50_cracking_ignores_H2 (s s' : State) (hT : s.T = s'.T) (ht : s.tarVar = s'.tarVar) (h h' : ℝ)
    (h1 : s.gasC .H2 = ok h) (h2 : s'.gasC .H2 = ok h') (h0 : 0 ≤ h) (h0' : 0 ≤ h') :
    ajCracking s = ajCracking s' := by
  have e : ∀ {x p : ℝ}, 0 ≤ x → 0 < p → cpow x p = ok (x ^ p) := fun hx hp => cpow_ok' hx hp.le
  have z1 : ((50 / 128 : ℤ) : ℝ) = 0 := by norm_num
  have z2 : ((14 / 92 : ℤ) : ℝ) = 0 := by norm_num
  simp only [ajCracking, hT, ht, h1, h2, ok_bind, e h0 (show (0 : ℝ) < 0.4 by norm_num),
    e h0 (show (0 : ℝ) < 0.5 by norm_num), e h0' (show (0 : ℝ) < 0.4 by norm_num),
    e h0' (show (0 : ℝ) < 0.5 by norm_num), z1, z2, zero_mul]

/-- What the cracking rate is: only the phenol and benzene channels survive, and the phenol fraction has
lost its `tanh` term (missing for C50: the naphthalene and toluene channels). -/
theorem C50_cracking_partial (s : State) (hT : 0 < s.T) (N h : ℝ) (ht : s.tarVar[0]? = some N) (hN : 0 < N)
    (h1 : s.gasC .H2 = ok h) (h0 : 0 ≤ h) :
    let C := logb 10 N
    let xphe := -0.218 + 0.0277 * C
    let xnap := 0.5 * tanh (-1.98 + 6.18E-4 * s.T + 0.124 * C - 0.00285 * C ^ 2 + 4.14E-7 * s.T ^ 2
      - 4.97E-5 * s.T * C) - 0.576 + 0.000233 * s.T - 1.69E-7 * s.T ^ 2
    let xtol := 2.65E-4 * s.T + C * (-1.11E-4 * C - 9.32E-6 * s.T)
    ajCracking s = ok (N * ((31.1 / 94 * 1E7 + 1E8) * exp (-1E8 / (Rg * s.T)) * xphe +
        4.4E8 * exp (-2.2E8 / (Rg * s.T)) * (1 - xphe - xnap - xtol))) := by
  have e : ∀ {x p : ℝ}, 0 ≤ x → 0 < p → cpow x p = ok (x ^ p) := fun hx hp => cpow_ok' hx hp.le
  have z1 : ((50 / 128 : ℤ) : ℝ) = 0 := by norm_num
  have z2 : ((14 / 92 : ℤ) : ℝ) = 0 := by norm_num
  have z3 : ((1 / 6 : ℤ) : ℝ) = 0 := by norm_num
  have z4 : ((1 / 3 : ℤ) : ℝ) = 0 := by norm_num
  have hR : Rg * s.T ≠ 0 := by have := Rg_pos; positivity
  simp only [ajCracking, idx_eq_ok.mpr ht, ok_bind, if_pos hN, cexpDiv_ok hR, h1,
    e h0 (show (0 : ℝ) < 0.4 by norm_num), e h0 (show (0 : ℝ) < 0.5 by norm_num), z1, z2, z3, z4, zero_mul]
  congr 1
  ring_nf

/-! ## C19: the PAH dimer balance -/

/-- Number density of PAH `sp` (specification). -/
noncomputable def pahN (s : State) (sp : PahSp) : ℝ := s.rhoGas * s.yPah.getD sp.toNat 0 / pahMW sp * Na
/-- Free-molecular prefactor for equal masses without enhancement factor (specification). -/
noncomputable def pahPre (s : State) : ℝ := 4 * sqrt (π * kb * s.T) * (6 / (π * rhoSoot)) ^ twothird
/-- Self-collision rate of PAH `sp` (specification). -/
noncomputable def pahNdot (s : State) (sp : PahSp) : ℝ :=
  pahGamma sp * pahPre s * (pahMW sp / Na) ^ ((1 : ℝ) / 6) * pahN s sp * pahN s sp
/-- Total PAH molecule self-collision rate; dimers form at half of it (specification). -/
noncomputable def pahTot (s : State) : ℝ := ∑ sp, pahNdot s sp
/-- Mass of a dimer constituent set: mean carbon mass per colliding PAH (specification of `mDimer`). -/
noncomputable def dimerMass (s : State) : ℝ :=
  (∑ sp, pahNdot s sp * pahNC sp * gasMW .C / Na) / pahTot s
/-- Dimer self-collision coefficient (specification). -/
noncomputable def betaDD (s : State) (m : ℝ) : ℝ := pahPre s * m ^ ((1 : ℝ) / 6)

theorem pahPreFac_ok {s : State} (h : s.Phys) : pahPreFac s = ok (pahPre s) := by
  have := h.T; have := kb_pos
  rw [pahPreFac, csqrt_ok (by positivity)]; rfl

theorem pahPre_pos {s : State} (h : s.Phys) : 0 < pahPre s := by
  have := h.T; have := kb_pos; have := rhoSoot_pos
  unfold pahPre; positivity

theorem pahNdot_nonneg {s : State} (h : s.Phys) (sp : PahSp) : 0 ≤ pahNdot s sp := by
  have := pahPre_pos h; have := pahGamma_pos sp; have := pahMW_pos sp; have := Na_pos
  unfold pahNdot; rw [mul_assoc]
  have := mul_self_nonneg (pahN s sp)
  positivity

theorem pahLoop_ok {s : State} (hl : s.yPah.length = nPah) (l : List PahSp) (a : PahAcc) :
    pahLoop s (pahPre s) l a = ok
      { nDotD := a.nDotD + 0.5 * (l.map (pahNdot s)).sum
        mDimer := a.mDimer + (l.map fun sp => pahNdot s sp * pahNC sp * gasMW .C / Na).sum
        cMin := a.cMin + (l.map fun sp => pahNdot s sp * 2 * pahNC sp).sum
        hMin := a.hMin + (l.map fun sp => pahNdot s sp * 2 * pahNH sp).sum
        rates := fun sp => if sp ∈ l then -pahNdot s sp * pahMW sp / Na else a.rates sp } := by
  induction l generalizing a with
  | nil => simp [pahLoop]
  | cons sp t ih =>
    have hi : idx s.yPah sp.toNat = ok (s.yPah.getD sp.toNat 0) := idx_getD (hl ▸ sp.toNat_lt)
    rw [pahLoop, hi, ok_bind]
    have e : pahGamma sp * pahPre s * (pahMW sp / Na) ^ ((1 : ℝ) / 6) *
        (s.rhoGas * s.yPah.getD sp.toNat 0 / pahMW sp * Na) *
        (s.rhoGas * s.yPah.getD sp.toNat 0 / pahMW sp * Na) = pahNdot s sp := rfl
    simp only [e]
    rw [ih]
    simp only [List.map_cons, List.sum_cons, ok.injEq, PahAcc.mk.injEq]
    refine ⟨by ring, by ring, by ring, by ring, ?_⟩
    funext q
    by_cases hq : q ∈ t
    · simp [hq]
    · by_cases hqs : q = sp
      · subst hqs; simp [hq]
      · simp [hq, hqs]

theorem sum_pahAll (f : PahSp → ℝ) : (pahAll.map f).sum = ∑ sp, f sp := by
  rw [sum_pahSp]; simp [pahAll]

theorem mem_pahAll (sp : PahSp) : sp ∈ pahAll := by cases sp <;> simp [pahAll]

/-- The accumulators after the PAH loop and the normalisation, in closed form. -/
theorem pahAcc_ok {s : State} (hl : s.yPah.length = nPah) (r : PahSp → ℝ) :
    pahLoop s (pahPre s) pahAll ⟨0, 0, s.cMin, 0, r⟩ = ok
      ⟨0.5 * pahTot s, ∑ sp, pahNdot s sp * pahNC sp * gasMW .C / Na,
       s.cMin + ∑ sp, pahNdot s sp * 2 * pahNC sp, ∑ sp, pahNdot s sp * 2 * pahNH sp,
       fun sp => -pahNdot s sp * pahMW sp / Na⟩ := by
  rw [pahLoop_ok hl]
  simp only [sum_pahAll, mem_pahAll, if_true, zero_add, pahTot]

/-- Carbon atoms of a nucleated particle after the call (specification): the stored value leaks in. -/
noncomputable def cMinAfter (s : State) : ℝ :=
  if 0 < pahTot s then (s.cMin + ∑ sp, pahNdot s sp * 2 * pahNC sp) / pahTot s else s.cMin

/-- Dimer mass after the call (specification). -/
noncomputable def mDimerAfter (s : State) : ℝ := if 0 < pahTot s then dimerMass s else 0

/-- Dimer concentration after the call for a soot collision rate `I` (specification: root formula). -/
noncomputable def nDimerAfter (s : State) (I : ℝ) : ℝ :=
  if 0 < pahTot s then pahTot s / (I + sqrt (I * I + 4 * betaDD s (dimerMass s) * (0.5 * pahTot s))) else 0

theorem pahTot_nonneg {s : State} (h : s.Phys) : 0 ≤ pahTot s := Finset.sum_nonneg fun _ _ => pahNdot_nonneg h _

theorem dimerMass_pos {s : State} (h : s.Phys) (ht : 0 < pahTot s) : 0 < dimerMass s := by
  have hC := gasMW_pos .C; have hN := Na_pos
  refine div_pos ?_ ht
  obtain ⟨sp, _, hsp⟩ : ∃ sp ∈ Finset.univ, 0 < pahNdot s sp := by
    by_contra hc; push Not at hc
    exact absurd (Finset.sum_nonpos hc) (not_le.mpr ht)
  refine Finset.sum_pos' (fun q _ => ?_) ⟨sp, Finset.mem_univ _, ?_⟩
  · have := pahNdot_nonneg h q; positivity
  · have : (0 : ℝ) < pahNC sp := by exact_mod_cast pahNC_pos sp
    positivity

theorem cMinAfter_pos {s : State} (h : s.Phys) : 0 < cMinAfter s := by
  have := h.cMin
  unfold cMinAfter
  split_ifs with ht
  · have : 0 ≤ ∑ sp, pahNdot s sp * 2 * pahNC sp :=
      Finset.sum_nonneg fun q _ => by have := pahNdot_nonneg h q; positivity
    positivity
  · exact this

/-- H2 molecules released per soot carbon atom after the call (specification). -/
noncomputable def h2Ratio (s : State) : ℝ :=
  (if 0 < pahTot s then (∑ sp, pahNdot s sp * 2 * pahNH sp) / pahTot s else 0) / 2 / cMinAfter s

theorem nuclPAH_ok {s : State} (h : s.Phys) (hl : s.yPah.length = nPah) (n : Nucl)
    (ib : State → ℝ → Res ℝ) (I : ℝ) (hI : 0 ≤ I)
    (hib : ib { s with cMin := cMinAfter s } (mDimerAfter s) = ok I) :
    nuclPAH n ib s = ok (0.5 * betaDD s (mDimerAfter s) * nDimerAfter s I * nDimerAfter s I,
      { n with
        ratio := Function.update (Function.update n.ratio .C 1) .H2 (h2Ratio s)
        pahRates := fun sp => -pahNdot s sp * pahMW sp / Na
        dimer := ⟨mDimerAfter s, nDimerAfter s I, 0.5 * pahTot s⟩ },
      { s with cMin := cMinAfter s }) := by
  have hn : ∀ sp, 0 ≤ pahNdot s sp := pahNdot_nonneg h
  rw [nuclPAH, pahPreFac_ok h, ok_bind, pahAcc_ok hl, ok_bind]
  by_cases ht : 0 < pahTot s
  · have ht' : (0.5 : ℝ) * pahTot s > 0 := by positivity
    have e2 : (2 : ℝ) * (0.5 * pahTot s) = pahTot s := by ring
    have hc := cMinAfter_pos h
    have hm := dimerMass_pos h ht
    have hb : 0 < betaDD s (dimerMass s) := mul_pos (pahPre_pos h) (by positivity)
    simp only [cMinAfter, mDimerAfter, if_pos ht] at hc hib
    simp only [pahNormalize, if_pos ht', e2, cMinAfter, mDimerAfter, nDimerAfter, if_pos ht, h2Ratio, cdiv_ok hc.ne', ok_bind]
    have e1 : (∑ sp, pahNdot s sp * pahNC sp * gasMW .C / Na) / pahTot s = dimerMass s := rfl
    have e3 : pahPre s * dimerMass s ^ ((1 : ℝ) / 6) = betaDD s (dimerMass s) := rfl
    simp only [e1, cpow_ok hm, ok_bind, hib, if_pos (And.intro ht' hm), e3]
    have hq : 0 < I * I + 4 * betaDD s (dimerMass s) * (0.5 * pahTot s) := by
      have := mul_self_nonneg I; positivity
    have hd : 0 < I + sqrt (I * I + 4 * betaDD s (dimerMass s) * (0.5 * pahTot s)) := by
      have := sqrt_pos.mpr hq; linarith
    rw [csqrt_ok hq.le, ok_bind, cdiv_ok hd.ne', ok_bind]
  · have h0 : pahTot s = 0 := le_antisymm (not_lt.mp ht) (pahTot_nonneg h)
    have hz : ∀ sp, pahNdot s sp = 0 := by
      intro sp
      exact (Finset.sum_eq_zero_iff_of_nonneg (fun q _ => hn q)).mp h0 sp (Finset.mem_univ _)
    have hc := h.cMin
    simp only [cMinAfter, mDimerAfter, if_neg ht] at hib
    simp only [pahNormalize, h0, mul_zero, gt_iff_lt, lt_irrefl, if_false, hz, zero_mul, Finset.sum_const_zero,
      add_zero, zero_div, cdiv_ok hc.ne', ok_bind, cMinAfter, mDimerAfter, nDimerAfter, h2Ratio, hib, false_and,
      cpow_ok' le_rfl (show (0 : ℝ) ≤ 1 / 6 by norm_num), neg_zero]

/-- **C19.** On every accepted state with its six PAH fractions, for every non-negative dimer–soot
collision rate `I`, the PAH nucleation call finishes; if any PAH is present the dimer concentration is the
unique non-negative root of `betaDD n² + I n = nDotD`, and the nucleation rate is half the dimer
self-collision rate; if none is present both are zero and the state is unchanged. -/
theorem C19_dimer_root (s : State) (hs : Accepted s) (hl : s.yPah.length = nPah) (n : Nucl) (hn : n.mech = .PAH)
    (ib : State → ℝ → Res ℝ) (I : ℝ) (hI : 0 ≤ I)
    (hib : ib { s with cMin := cMinAfter s } (mDimerAfter s) = ok I) :
    ∃ J n' s', n.rate ib s = ok (J, n', s') ∧
      n'.dimer.nDotD = (∑ sp, pahNdot s sp) / 2 ∧
      ((∃ y ∈ s.yPah, y ≠ 0) →
        0 < n'.dimer.nDotD ∧ 0 < n'.dimer.mDimer ∧
        (∀ x : ℝ, 0 ≤ x → (betaDD s n'.dimer.mDimer * x ^ 2 + I * x = n'.dimer.nDotD ↔ x = n'.dimer.nDimer)) ∧
        0 < n'.dimer.nDimer ∧
        J = betaDD s n'.dimer.mDimer * n'.dimer.nDimer ^ 2 / 2) ∧
      ((∀ y ∈ s.yPah, y = 0) → J = 0 ∧ n'.dimer.nDimer = 0 ∧ s' = s) := by
  have h := hs.phys
  have e : n.rate ib s = nuclPAH n ib s := by rw [Nucl.rate, hn]
  refine ⟨_, _, _, e.trans (nuclPAH_ok h hl n ib I hI hib), ?_, fun ⟨y, hy, hy0⟩ => ?_, fun hz => ?_⟩
  · simp only [pahTot]; ring
  · have ht : 0 < pahTot s := by
      obtain ⟨i, hi, rfl⟩ := List.getElem_of_mem hy
      obtain ⟨sp, rfl⟩ : ∃ sp : PahSp, sp.toNat = i := by
        rw [hl] at hi
        have hi : i < 6 := hi
        interval_cases i
        exacts [⟨.C10H8, rfl⟩, ⟨.C12H8, rfl⟩, ⟨.C12H10, rfl⟩, ⟨.C14H10, rfl⟩, ⟨.C16H10, rfl⟩, ⟨.C18H10, rfl⟩]
      refine Finset.sum_pos' (fun q _ => pahNdot_nonneg h q) ⟨sp, Finset.mem_univ _, ?_⟩
      have hp := pahPre_pos h; have := pahGamma_pos sp; have := pahMW_pos sp; have := Na_pos; have := h.rho
      have hN : pahN s sp ≠ 0 := by
        rw [pahN, getD_of_lt hi]; positivity
      have := mul_self_pos.mpr hN
      rw [pahNdot, mul_assoc]; positivity
    have hm := dimerMass_pos h ht
    have hb : 0 < betaDD s (dimerMass s) := mul_pos (pahPre_pos h) (by positivity)
    simp only [mDimerAfter, nDimerAfter, if_pos ht]
    generalize betaDD s (dimerMass s) = b at hb
    set t := pahTot s with htdef
    have hq : 0 < I * I + 4 * b * (0.5 * t) := by
      have := mul_self_nonneg I; positivity
    set r := sqrt (I * I + 4 * b * (0.5 * t)) with hr
    have hr2 : r * r = I * I + 4 * b * (0.5 * t) := mul_self_sqrt hq.le
    have hrp : 0 < r := sqrt_pos.mpr hq
    have hd : 0 < I + r := by linarith
    have hroot : b * (t / (I + r)) ^ 2 + I * (t / (I + r)) = 0.5 * t := by
      field_simp
      nlinarith [hr2]
    have hnp : 0 < t / (I + r) := by positivity
    refine ⟨by positivity, hm, fun x hx => ⟨fun hxe => ?_, fun hxe => by rw [hxe]; exact hroot⟩, hnp, by ring⟩
    have : (x - t / (I + r)) * (b * (x + t / (I + r)) + I) = 0 := by linear_combination hxe - hroot
    rcases mul_eq_zero.mp this with h1 | h1
    · linarith
    · exfalso
      have : 0 < b * (x + t / (I + r)) := by positivity
      linarith
  · have h0 : pahTot s = 0 := Finset.sum_eq_zero fun sp _ => by
      have : s.yPah.getD sp.toNat 0 = 0 := by
        rw [getD_of_lt (hl ▸ sp.toNat_lt)]; exact hz _ (List.getElem_mem _)
      rw [pahNdot, pahN, this]; simp
    have hlt : ¬ 0 < pahTot s := by simp [h0]
    simp [nDimerAfter, cMinAfter, hlt]

/-- C19 applies to `stEx2` (which contains biphenyl) with a vanishing soot collision rate. -/
example : ∃ J n' s', (Nucl.new .PAH).rate (fun _ _ => ok 0) stEx2 = ok (J, n', s') ∧ 0 < n'.dimer.nDimer := by
  obtain ⟨J, n', s', h1, _, h2, _⟩ := C19_dimer_root stEx2 stEx2_accepted
    (by simp [stEx2_eq', stateAfter, argsEx2, argsEx, nPah]) (Nucl.new .PAH) rfl (fun _ _ => ok 0) 0 le_rfl rfl
  exact ⟨J, n', s', h1, (h2 ⟨0.001, by simp [stEx2_eq', stateAfter, argsEx2, argsEx], by norm_num⟩).2.2.2.1⟩

end Soot
