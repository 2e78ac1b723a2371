import Verif.Props.Fp

/-!
# Property C78: the coagulation kernels in floating point
-/

namespace Soot

open Res
open scoped Classical

namespace FpState

theorem add_comm' (F : Fp) (x y : Dbl) : F.add x y = F.add y x := by
  cases x <;> cases y <;> simp [Fp.add, add_comm]

theorem mul_comm' (F : Fp) (x y : Dbl) : F.mul x y = F.mul y x := by
  cases x <;> cases y <;> simp [Fp.mul, mul_comm]

@[simp] theorem exact_sqrt {x : ℝ} (h : 0 ≤ x) : Fp.exact.sqrt (.fin x) = .fin (Real.sqrt x) := by simp [Fp.exact, h]
@[simp] theorem exact_exp (x : ℝ) : Fp.exact.exp (.fin x) = .fin (Real.exp x) := rfl
@[simp] theorem exact_pow {x : ℝ} (h : 0 < x) (y : ℝ) : Fp.exact.pow (.fin x) (.fin y) = .fin (x ^ y) := by simp [Fp.exact, h]

theorem exact_third : Fp.exact.third = .fin onethird := by rw [Fp.third, exact_rnd, exact_rnd, exact_div (by norm_num), onethird]
theorem exact_twoThird : Fp.exact.twoThird = .fin twothird := by rw [Fp.twoThird, exact_rnd, exact_rnd, exact_div (by norm_num), twothird]
theorem exact_root2 : Fp.exact.root2 = .fin root2 := by rw [Fp.root2, exact_rnd, exact_sqrt (by norm_num), root2]

theorem exact_diam {m : ℝ} (h : 0 < m) : diamD .exact (.fin m) = .fin (diam m) := by
  have := rhoSoot_pos
  have := Real.pi_pos
  simp only [diamD, exact_rnd, exact_mul, exact_third, exact_div (show Real.pi * rhoSoot ≠ 0 by positivity),
    exact_pow (show 0 < 6 * m / (Real.pi * rhoSoot) by positivity), diam]

theorem exact_mfp {s : State} (h : s.Phys) : s.toD.mfp .exact = .fin s.mfpVal := by
  have hT := h.T; have := h.mw_pos; have hR := Rg_pos
  have hpi := Real.pi_pos
  have e : (2 : ℝ) * (Na * kb) * s.T ≠ 0 := by have : 0 < Na * kb := hR; positivity
  have e0 : 0 ≤ Real.pi * s.MWGas / (2 * (Na * kb) * s.T) := by have : 0 < Na * kb := hR; positivity
  simp only [DState.mfp, State.toD, exact_rnd, exact_mul, exact_div h.rho.ne', exact_div e, exact_sqrt e0, State.mfpVal, Rg]

theorem exact_cunningham {k : ℝ} (h : 0 < k) : cunninghamD .exact (.fin k) = .fin (cunningham k) := by
  simp only [cunninghamD, exact_rnd, exact_div h.ne', exact_exp, exact_mul, exact_add, cunningham, h.ne', if_false]

theorem exact_kfm {c : Coag} {s : State} (h : s.Phys) : kfmD .exact s.toD (.fin c.fmMult) = .fin (c.kfmVal s) := by
  have hT := h.T; have := kb_pos; have := rhoSoot_pos; have := Real.pi_pos
  simp only [kfmD, State.toD, exact_rnd, exact_mul, exact_twoThird, exact_div (show Real.pi * rhoSoot ≠ 0 by positivity),
    exact_pow (show 0 < 6 / (Real.pi * rhoSoot) by positivity), exact_sqrt (show 0 ≤ 0.5 * Real.pi * kb * s.T by positivity), Coag.kfmVal]

theorem exact_kc {s : State} (h : s.Phys) : kcD .exact s.toD = .fin (kcVal s) := by
  have := h.mu
  simp only [kcD, State.toD, exact_rnd, exact_mul, exact_div (show 3 * s.muGas ≠ 0 by positivity), kcVal]

theorem exact_fm {c : Coag} {s : State} (h : s.Phys) {m1 m2 : ℝ} (h1 : 0 < m1) (h2 : 0 < m2) :
    rateFMD .exact s.toD (.fin c.fmMult) (.fin m1) (.fin m2) = .fin (fmVal c s m1 m2) := by
  simp only [rateFMD, exact_kfm h, exact_third, exact_pow h1, exact_pow h2, exact_rnd, exact_div h1.ne', exact_div h2.ne', exact_add, exact_mul,
    exact_sqrt (show 0 ≤ 1 / m1 + 1 / m2 by positivity), fmVal]

theorem exact_cont {s : State} (h : s.Phys) {m1 m2 : ℝ} (h1 : 0 < m1) (h2 : 0 < m2) :
    rateCONTD .exact s.toD (.fin m1) (.fin m2) = .fin (contVal s m1 m2) := by
  have d1 := diam_pos h1; have d2 := diam_pos h2
  simp only [rateCONTD, exact_diam h1, exact_diam h2, exact_mfp h, exact_kc h, exact_rnd, exact_mul, exact_add, exact_div d1.ne', exact_div d2.ne',
    contVal]

theorem exact_hm {c : Coag} {s : State} (h : s.Phys) (hc : 0 < c.fmMult) {m1 m2 : ℝ} (h1 : 0 < m1) (h2 : 0 < m2) :
    rateHMD .exact s.toD (.fin c.fmMult) (.fin m1) (.fin m2) = .fin (fmVal c s m1 m2 * hmContVal s m1 m2 / (fmVal c s m1 m2 + hmContVal s m1 m2)) := by
  have d1 := diam_pos h1; have d2 := diam_pos h2
  have hT := h.T; have := kb_pos; have hpi := Real.pi_pos; have hl := h.mfpVal_pos
  have hm : (m1 + m2) ≠ 0 := by positivity
  have hR : m1 * m2 / (m1 + m2) ≠ 0 := by positivity
  have hs : 0 ≤ Real.pi * kb * s.T * 0.5 / (m1 * m2 / (m1 + m2)) := by positivity
  have hf := fmVal_pos h hc h1 h2
  have hk := hmContVal_pos h h1 h2
  have e1 : s.toD.T = .fin s.T := rfl
  have e2 : s.toD.muGas = .fin s.muGas := rfl
  rw [← hmFmVal_eq c s h1 h2] at hf ⊢
  have hne : hmFmVal c s m1 m2 + hmContVal s m1 m2 ≠ 0 := by positivity
  simp only [rateHMD, exact_diam h1, exact_diam h2, exact_mfp h, exact_rnd, exact_mul, exact_add, exact_twoThird, exact_div hm, exact_div hR,
    exact_sqrt hs, e1, e2, exact_div h.mu.ne', exact_div d1.ne', exact_div d2.ne',
    exact_cunningham (show 0 < 2 * s.mfpVal / diam m1 by positivity), exact_cunningham (show 0 < 2 * s.mfpVal / diam m2 by positivity)]
  exact exact_div hne _

theorem exact_part {s : State} (h : s.Phys) {m : ℝ} (hm : 0 < m) :
    fuchsPartD .exact s.toD (.fin m) = (.fin (diam m), .fin (fuchsD s m), .fin (fuchsC s m), .fin (fuchsG s m)) := by
  have d := diam_pos hm
  have hT := h.T; have := kb_pos; have hpi := Real.pi_pos; have hl := h.mfpVal_pos; have hmu := h.mu
  have e1 : s.toD.T = .fin s.T := rfl
  have e2 : s.toD.muGas = .fin s.muGas := rfl
  have p1 := fuchsD_pos h hm; have p2 := fuchsC_pos h hm; have p3 := fuchsL_pos h hm
  have c1 : 3 * Real.pi * s.muGas ≠ 0 := by positivity
  have c2 : Real.pi * m ≠ 0 := by positivity
  have c3 : 0 ≤ 8 * kb * s.T / (Real.pi * m) := by positivity
  have c4 : Real.pi * Real.sqrt (8 * kb * s.T / (Real.pi * m)) ≠ 0 := by
    have : 0 < Real.sqrt (8 * kb * s.T / (Real.pi * m)) := p2
    positivity
  have c5 : 3 * diam m * fuchsL s m ≠ 0 := by positivity
  have c6 : 0 < diam m + fuchsL s m := by positivity
  have c7 : 0 < diam m * diam m + fuchsL s m * fuchsL s m := by positivity
  have eD : Fp.exact.div (Fp.exact.mul (Fp.exact.div (Fp.exact.mul (Fp.exact.rnd kb) s.toD.T) (Fp.exact.mul (Fp.exact.mul (Fp.exact.rnd 3)
      (Fp.exact.rnd Real.pi)) s.toD.muGas)) (cunninghamD .exact (Fp.exact.div (Fp.exact.mul (Fp.exact.rnd 2) (s.toD.mfp .exact)) (.fin (diam m)))))
      (.fin (diam m)) = .fin (fuchsD s m) := by
    simp only [exact_mfp h, exact_rnd, exact_mul, e1, e2, exact_div c1, exact_div d.ne',
      exact_cunningham (show 0 < 2 * s.mfpVal / diam m by positivity), fuchsD]
  have eC : Fp.exact.sqrt (Fp.exact.div (Fp.exact.mul (Fp.exact.mul (Fp.exact.rnd 8) (Fp.exact.rnd kb)) s.toD.T) (Fp.exact.mul (Fp.exact.rnd Real.pi)
      (.fin m))) = .fin (fuchsC s m) := by
    simp only [exact_rnd, exact_mul, e1, exact_div c2, exact_sqrt c3, fuchsC]
  have eL : Fp.exact.div (Fp.exact.mul (Fp.exact.rnd 8) (.fin (fuchsD s m))) (Fp.exact.mul (Fp.exact.rnd Real.pi) (.fin (fuchsC s m))) =
      .fin (fuchsL s m) := by
    rw [exact_rnd, exact_rnd, exact_mul, exact_mul, exact_div (by positivity), fuchsL]
  simp only [fuchsPartD, exact_diam hm, eD, eC, eL]
  simp only [exact_rnd, exact_root2, exact_mul, exact_add, exact_sub, exact_div c5, exact_pow c6, exact_pow c7, fuchsG]
  have : (diam m + fuchsL s m) ^ (3 : ℝ) = (diam m + fuchsL s m) ^ 3 := by
    rw [← Real.rpow_natCast]; norm_num
  rw [this]

theorem exact_fuchs {c : Coag} {s : State} (h : s.Phys) (hc : 0 < c.fmMult) {m1 m2 : ℝ} (h1 : 0 < m1) (h2 : 0 < m2) :
    fuchsCombD .exact (.fin c.fmMult) (fuchsPartD .exact s.toD (.fin m1)) (fuchsPartD .exact s.toD (.fin m2)) = .fin (fuchsVal c s m1 m2) := by
  have := fuchsD_pos h h1; have := fuchsD_pos h h2; have c1 := fuchsC_pos h h1
  have c2 := fuchsC_pos h h2; have := diam_pos h1; have := diam_pos h2; have := epsC_pos
  have a1 : epsC * c.fmMult ≠ 0 := by positivity
  have a2 : Real.sqrt (fuchsC s m1 * fuchsC s m1 + fuchsC s m2 * fuchsC s m2) * (diam m1 + diam m2) ≠ 0 := by positivity
  have a3 : 0 ≤ fuchsG s m1 * fuchsG s m1 + fuchsG s m2 * fuchsG s m2 := add_nonneg (mul_self_nonneg _) (mul_self_nonneg _)
  have a4 : 0 ≤ fuchsC s m1 * fuchsC s m1 + fuchsC s m2 * fuchsC s m2 := by positivity
  have a5 : diam m1 + diam m2 + 2 * Real.sqrt (fuchsG s m1 * fuchsG s m1 + fuchsG s m2 * fuchsG s m2) ≠ 0 := by positivity
  rw [exact_part h h1, exact_part h h2]
  simp only [fuchsCombD, exact_rnd, exact_mul, exact_add, exact_div a1, exact_div a2, exact_div a5, exact_sqrt a3, exact_sqrt a4]
  exact exact_div (fuchsVal_den_pos h h1 h2 hc).ne' _

end FpState

open FpState

/-- **C78 (bitwise symmetry).** Whatever the rounding mode and the mathematical library, and also for infinite and NaN operands, every kernel
returns the same double for (m1, m2) and (m2, m1). -/
theorem C78_symmetric (F : Fp) (s : DState) (fm : Dbl) (mech : CoagMech) (m1 m2 : Dbl) :
    coagRateD F s fm mech m1 m2 = coagRateD F s fm mech m2 m1 := by
  unfold coagRateD
  by_cases h0 : mech = .NONE
  · simp only [h0, if_true]
  simp only [h0, if_false]
  by_cases hm : m1.le (F.rnd mmin) ∨ m2.le (F.rnd mmin)
  · rw [if_pos hm, if_pos hm.symm]
  rw [if_neg hm, if_neg fun h => hm h.symm]
  cases mech with
  | NONE => rfl
  | FM => simp only [rateFMD]; rw [add_comm' F (F.pow m1 _), add_comm' F (F.div _ m1)]
  | CONTINUUM => simp only [rateCONTD]; rw [add_comm' F (diamD F m1), add_comm' F (F.div _ (diamD F m1))]
  | HM =>
    simp only [rateHMD]
    rw [add_comm' F (diamD F m1), add_comm' F (F.div _ (diamD F m1)), mul_comm' F m1, add_comm' F m1]
  | FUCHS =>
    obtain ⟨d1, D1, c1, g1⟩ := fuchsPartD F s m1
    obtain ⟨d2, D2, c2, g2⟩ := fuchsPartD F s m2
    simp only [fuchsCombD]
    rw [add_comm' F d1, add_comm' F D1, add_comm' F (F.mul g1 g1), add_comm' F (F.mul c1 c1)]

/-- **C78 (cutoff).** A particle not above the cutoff mass gives rate zero, even if everything else is NaN; a NaN mass does not count as below. -/
theorem C78_cutoff (F : Fp) (s : DState) (fm : Dbl) (mech : CoagMech) (m1 m2 : Dbl) (h : m1.le (F.rnd mmin) ∨ m2.le (F.rnd mmin)) :
    coagRateD F s fm mech m1 m2 = F.rnd 0 ∧ ¬ Dbl.nan.le (F.rnd mmin) := by
  refine ⟨?_, fun h => by cases hx : F.rnd mmin <;> rw [hx] at h <;> exact h⟩
  unfold coagRateD
  split_ifs <;> rfl

/-- **C78 (agreement).** With exact arithmetic on a physical state the kernel is the real one of C12-C15 and C64. -/
theorem C78_agrees (c : Coag) (s : State) (h : s.Phys) (hc : 0 < c.fmMult) (m1 m2 : ℝ) :
    ∃ v, c.rate s m1 m2 = ok v ∧ coagRateD .exact s.toD (.fin c.fmMult) c.mech (.fin m1) (.fin m2) = .fin v := by
  refine ⟨_, Coag.rate_ok h hc m1 m2, ?_⟩
  unfold coagRateD Coag.val
  simp only [exact_rnd, le_fin]
  by_cases hm : m1 ≤ mmin ∨ m2 ≤ mmin
  · simp [hm]
  · simp only [hm, if_false]
    push Not at hm
    have h1 := mmin_pos.trans hm.1
    have h2 := mmin_pos.trans hm.2
    rcases hx : c.mech <;> simp only [reduceCtorEq, if_false, if_true]
    · exact exact_fm h h1 h2
    · exact exact_cont h h1 h2
    · exact exact_hm h hc h1 h2
    · exact exact_fuchs h hc h1 h2

/-- A state and two masses above the cutoff. -/
example : ∃ s : State, s.Phys ∧ ¬ ((1E-24 : ℝ) ≤ mmin ∨ (1E-23 : ℝ) ≤ mmin) :=
  ⟨{ State.mk' 2 0 with T := 2000, P := 101325, rhoGas := 0.2, muGas := 1E-5, cMin := 100, MWGas := 0.2 * Rg * 2000 / 101325 },
    ⟨by norm_num, by norm_num, by norm_num, by norm_num, by norm_num, rfl⟩, by unfold mmin; norm_num⟩

end Soot
