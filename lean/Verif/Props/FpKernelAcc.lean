import Verif.Props.FpFuchs
import Verif.Props.FpCoag
import Verif.Props.FpSect

/-!
# C99: the coagulation kernels are accurate in floating point

Specification: every operation and library function of the processor has a relative error of at most `ε` (`Fp.Accurate`).  The theorems bound
the relative error of the kernels that the program computes against the kernels in exact arithmetic (which C64 identifies with the textbook
formulas), for gas states and particles of ordinary size (`Usual`).
-/

namespace Soot

open Dbl
open scoped Classical

/-- Arguments of `setState` of ordinary size: 1 to 10⁵ K, 0.01 to 10¹⁰ Pa, densities from 10⁻⁶ to 10³ and viscosities from 10⁻⁸ to 10². -/
structure Usual (a : SetArgs) : Prop where
  T0 : 1 ≤ a.T
  T1 : a.T ≤ 10 ^ 5
  P0 : 1 / 10 ^ 2 ≤ a.P
  P1 : a.P ≤ 10 ^ 10
  rho0 : 1 / 10 ^ 6 ≤ a.rhoGas
  rho1 : a.rhoGas ≤ 10 ^ 3
  mu0 : 1 / 10 ^ 8 ≤ a.muGas
  mu1 : a.muGas ≤ 10 ^ 2

/-- A particle mass clearly above the cutoff of the kernels, and at most a ton. -/
structure UsualMass (ε m : ℝ) : Prop where
  lo : mmin * (1 + ε) < m
  hi : m ≤ 10 ^ 3

namespace FpK

variable {F : Fp} {ε : ℝ}

theorem vec_scalars (F : Fp) (s : DState) (a : DArgs) : (setStateVecD F s a).1.T = s.T ∧ (setStateVecD F s a).1.rhoGas = s.rhoGas ∧
    (setStateVecD F s a).1.muGas = s.muGas ∧ (setStateVecD F s a).1.MWGas = s.MWGas := by
  unfold setStateVecD
  dsimp only
  refine ⟨?_, ?_, ?_, ?_⟩ <;> (repeat' split) <;> rfl

theorem setStateD_scalars {F : Fp} {s : DState} {a : DArgs} (h : (setStateD F s a).2 = Res.ok ()) : (setStateD F s a).1.T = a.T ∧
    (setStateD F s a).1.rhoGas = a.rhoGas ∧ (setStateD F s a).1.muGas = a.muGas ∧
    (setStateD F s a).1.MWGas = F.div (F.mul (F.mul a.rhoGas (F.mul (F.rnd Na) (F.rnd kb))) a.T) a.P := by
  unfold setStateD at h ⊢
  split_ifs at h ⊢
  exact vec_scalars F _ a

/-- The same arguments give a pair of states. -/
theorem pair_of (hF : F.Accurate ε) (hε : Sm ε) {s₀ : State} {D₀ : DState} {a : SetArgs} (hs : (setState s₀ a).2 = Res.ok ())
    (hD : (setStateD F D₀ a.toD).2 = Res.ok ()) (hu : Usual a) : Pair ε (setState s₀ a).1 (setStateD F D₀ a.toD).1 := by
  obtain ⟨⟨e1, e2, e3, e4, -⟩, hph, -⟩ := C02_setState_valid s₀ a hs
  obtain ⟨f1, f2, f3, f4⟩ := setStateD_scalars hD
  have T0 : (10 : ℝ) ^ (0 : ℤ) ≤ a.T := by have := hu.T0; norm_num; linarith
  have T1 : a.T ≤ (10 : ℝ) ^ (5 : ℤ) := by have := hu.T1; norm_num at this ⊢; linarith
  have r0 : (10 : ℝ) ^ (-6 : ℤ) ≤ a.rhoGas := by have := hu.rho0; norm_num at this ⊢; linarith
  have r1 : a.rhoGas ≤ (10 : ℝ) ^ (3 : ℤ) := by have := hu.rho1; norm_num at this ⊢; linarith
  have m0 : (10 : ℝ) ^ (-8 : ℤ) ≤ a.muGas := by have := hu.mu0; norm_num at this ⊢; linarith
  have m1 : a.muGas ≤ (10 : ℝ) ^ (2 : ℤ) := by have := hu.mu1; norm_num at this ⊢; linarith
  have P0 : (10 : ℝ) ^ (-2 : ℤ) ≤ a.P := by have := hu.P0; norm_num at this ⊢; linarith
  have P1 : a.P ≤ (10 : ℝ) ^ (10 : ℤ) := by have := hu.P1; norm_num at this ⊢; linarith
  have a1 : Acc ε 4 (-3) 8 (a.rhoGas * Rg) _ := (Acc.exact r0 r1).mul hF hε (acc_Rg hF hε) (by norm_num) (by norm_num) (by norm_num)
  have a2 : Acc ε 5 (-3) 13 (a.rhoGas * Rg * a.T) _ := a1.mul hF hε (.exact T0 T1) (by norm_num) (by norm_num) (by norm_num)
  have a3 : Acc ε 6 (-13) 15 (a.rhoGas * Rg * a.T / a.P) _ := a2.div hF hε (.exact P0 P1) (by norm_num) (by norm_num) (by norm_num)
  have em : (setState s₀ a).1.MWGas = a.rhoGas * Rg * a.T / a.P := by
    have := hph.mw
    rw [this, e1, e2, e3]
  refine ⟨by rw [f1, e1]; rfl, by rw [f2, e3]; rfl, by rw [f3, e4]; rfl, ?_, by rwa [e1], by rwa [e1], by rwa [e3], by rwa [e3], by rwa [e4],
    by rwa [e4]⟩
  rw [f4, em]
  exact a3

theorem cut_acc (hF : F.Accurate ε) : ∃ x, F.rnd mmin = fin x ∧ |x - mmin| ≤ ε * mmin := by
  have : (10 : ℝ) ^ (-26 : ℤ) ≤ mmin := by norm_num [mmin]
  obtain ⟨x, hx, e⟩ := hF.rnd mmin (by rw [abs_of_pos mmin_pos]; exact (zpow_le_zpow_right₀ (by norm_num) (by norm_num)).trans this) (by
    rw [abs_of_pos mmin_pos]
    have : mmin ≤ (10 : ℝ) ^ (0 : ℤ) := by norm_num [mmin]
    exact this.trans (zpow_le_zpow_right₀ (by norm_num) (by norm_num)))
  rw [abs_of_pos mmin_pos] at e
  exact ⟨x, hx, e⟩

theorem above (hF : F.Accurate ε) {m : ℝ} (h : UsualMass ε m) : ¬ (fin m).le (F.rnd mmin) := by
  obtain ⟨x, hx, e⟩ := cut_acc hF
  rw [hx]
  rw [abs_le] at e
  have := h.lo
  show ¬ m ≤ x
  linarith

theorem Acc.final (hε : Sm ε) {n N : ℕ} {a b : ℤ} {x : ℝ} {d : Dbl} (h : Acc ε n a b x d) (hn : n ≤ 10000) (hN : 1.001 * n ≤ (N : ℝ)) :
    ∃ y, d = fin y ∧ |y - x| ≤ N * ε * x := by
  obtain ⟨y, hy, h1, h2⟩ := h.val
  refine ⟨y, hy, (rel_err hε hn h.pos h1 h2).trans ?_⟩
  exact mul_le_mul_of_nonneg_right (mul_le_mul_of_nonneg_right hN hε.pos) h.pos.le

end FpK

open FpK

/-- **C99.** The free-molecular, continuum and harmonic-mean kernels as the program computes them differ from the exact ones by at most `191 ε`,
`290 ε` and `985 ε` of their size, on every accepted gas state and for all particles of ordinary size. -/
theorem C99_kernel_accuracy (F : Fp) (ε : ℝ) (hF : F.Accurate ε) (ε0 : 0 ≤ ε) (ε1 : ε ≤ 1 / 10 ^ 8) (s₀ : State) (D₀ : DState) (a : SetArgs)
    (hs : (setState s₀ a).2 = Res.ok ()) (hD : (setStateD F D₀ a.toD).2 = Res.ok ()) (hu : Usual a) (c : ℝ) (c0 : 1 / 10 ^ 6 ≤ c) (c1 : c ≤ 10 ^ 6)
    (m1 m2 : ℝ) (h1 : UsualMass ε m1) (h2 : UsualMass ε m2) :
    ∃ x y z x' y' z' : ℝ,
      ((⟨.FM, c⟩ : Coag).rate (setState s₀ a).1 m1 m2 = Res.ok x ∧
        coagRateD F (setStateD F D₀ a.toD).1 (fin c) .FM (fin m1) (fin m2) = fin x' ∧ |x' - x| ≤ 191 * ε * x) ∧
      ((⟨.CONTINUUM, c⟩ : Coag).rate (setState s₀ a).1 m1 m2 = Res.ok y ∧
        coagRateD F (setStateD F D₀ a.toD).1 (fin c) .CONTINUUM (fin m1) (fin m2) = fin y' ∧ |y' - y| ≤ 290 * ε * y) ∧
      (⟨.HM, c⟩ : Coag).rate (setState s₀ a).1 m1 m2 = Res.ok z ∧
        coagRateD F (setStateD F D₀ a.toD).1 (fin c) .HM (fin m1) (fin m2) = fin z' ∧ |z' - z| ≤ 985 * ε * z := by
  have hε : Sm ε := ⟨ε0, ε1⟩
  have hp := pair_of hF hε hs hD hu
  obtain ⟨-, hph, -⟩ := C02_setState_valid s₀ a hs
  have cp : 0 < c := lt_of_lt_of_le (by norm_num) c0
  have me : 0 ≤ mmin * ε := mul_nonneg mmin_pos.le ε0
  have g1 : mmin < m1 := by linarith [h1.lo]
  have g2 : mmin < m2 := by linarith [h2.lo]
  have lm : (10 : ℝ) ^ (-26 : ℤ) ≤ mmin := by norm_num [mmin]
  have hi : ∀ {m : ℝ}, m ≤ 10 ^ 3 → m ≤ (10 : ℝ) ^ (3 : ℤ) := fun h => by norm_num at h ⊢; exact h
  have hm : ¬ (m1 ≤ mmin ∨ m2 ≤ mmin) := by push Not; exact ⟨g1, g2⟩
  have hmD : ¬ ((fin m1).le (F.rnd mmin) ∨ (fin m2).le (F.rnd mmin)) := not_or.2 ⟨above hF h1, above hF h2⟩
  have c0' : (10 : ℝ) ^ (-6 : ℤ) ≤ c := by norm_num at c0 ⊢; linarith
  have c1' : c ≤ (10 : ℝ) ^ (6 : ℤ) := by norm_num at c1 ⊢; linarith
  have q1 := (Acc.exact (ε := ε) (lm.trans g1.le) (hi h1.hi)).mono hε (Nat.zero_le 1) le_rfl le_rfl
  have q2 := (Acc.exact (ε := ε) (lm.trans g2.le) (hi h2.hi)).mono hε (Nat.zero_le 1) le_rfl le_rfl
  obtain ⟨x', ex, bx⟩ := (acc_FM hF hε hp q1 q2 c0' c1' .FM).final hε (N := 191) (by norm_num) (by norm_num)
  obtain ⟨y', ey, bY⟩ := (acc_CONT hF hε hp q1 q2).final hε (N := 290) (by norm_num) (by norm_num)
  obtain ⟨z', ez, bz⟩ := (acc_HM hF hε hp q1 q2 c0' c1' .HM).final hε (N := 985) (by norm_num) (by norm_num)
  refine ⟨_, _, _, x', y', z', ⟨Coag.rate_ok hph cp m1 m2, ?_, ?_⟩, ⟨Coag.rate_ok hph cp m1 m2, ?_, ?_⟩, Coag.rate_ok hph cp m1 m2, ?_, ?_⟩
  · rw [coagRateD, if_neg (by simp), if_neg hmD]; exact ex
  · rw [Coag.val, if_neg hm]; exact_mod_cast bx
  · rw [coagRateD, if_neg (by simp), if_neg hmD]; exact ey
  · rw [Coag.val, if_neg hm]; exact_mod_cast bY
  · rw [coagRateD, if_neg (by simp), if_neg hmD]; exact ez
  · rw [Coag.val, if_neg hm]; exact_mod_cast bz

/-- Stopping length of a sphere of mass `m` and diameter `d`, by the textbook formulas of C64. -/
noncomputable def specStop (s : State) (m d : ℝ) : ℝ := 8 * specD s.T s.muGas (specSlip (meanFreePath s) d) d / (Real.pi * specSpeed s.T m)

theorem specStop_eq {s : State} (h : s.Phys) {m d : ℝ} (h1 : IsSphere m d) : fuchsL s m = specStop s m d := by
  have hl := h.mfpVal_pos
  have hmu := h.mu; have e1 := h1.1
  have hD : fuchsD s m = specD s.T s.muGas (specSlip (meanFreePath s) d) d := by
    rw [fuchsD, diam_of_sphere h1, cunningham_spec hl h1.1, ← meanFreePath_eq, specD]; field_simp
  rw [fuchsL, hD]; rfl

/-- **C99, Fuchs.** The Fuchs kernel subtracts nearly equal cubes when the stopping length and the diameter of a particle are very different.  If
each is at most `r` times the other, the computed kernel differs from the exact one by at most `2800 r ε` of its size. -/
theorem C99_fuchs_accuracy (F : Fp) (ε : ℝ) (hF : F.Accurate ε) (ε0 : 0 ≤ ε) (h3 : F.rnd 3 = fin 3) (h15 : F.rnd 1.5 = fin 1.5) (s₀ : State)
    (D₀ : DState) (a : SetArgs) (hs : (setState s₀ a).2 = Res.ok ()) (hD : (setStateD F D₀ a.toD).2 = Res.ok ()) (hu : Usual a) (c : ℝ)
    (c0 : 1 / 10 ^ 6 ≤ c) (c1 : c ≤ 10 ^ 6) (m1 m2 d1 d2 r : ℝ) (h1 : UsualMass ε m1) (h2 : UsualMass ε m2) (s1 : IsSphere m1 d1) (s2 : IsSphere m2 d2)
    (r1 : d1 ≤ r * specStop (setState s₀ a).1 m1 d1 ∧ specStop (setState s₀ a).1 m1 d1 ≤ r * d1)
    (r2 : d2 ≤ r * specStop (setState s₀ a).1 m2 d2 ∧ specStop (setState s₀ a).1 m2 d2 ≤ r * d2) (hr : 4 * r ^ 2 * ε ≤ 1 / 10 ^ 9) :
    ∃ x x' : ℝ, (⟨.FUCHS, c⟩ : Coag).rate (setState s₀ a).1 m1 m2 = Res.ok x ∧
      coagRateD F (setStateD F D₀ a.toD).1 (fin c) .FUCHS (fin m1) (fin m2) = fin x' ∧ |x' - x| ≤ 2800 * r * ε * x := by
  obtain ⟨-, hph, -⟩ := C02_setState_valid s₀ a hs
  have me : 0 ≤ mmin * ε := mul_nonneg mmin_pos.le ε0
  have g1 : mmin < m1 := by linarith [h1.lo]
  have g2 : mmin < m2 := by linarith [h2.lo]
  have p1 := mmin_pos.trans g1
  have p2 := mmin_pos.trans g2
  have L1 := fuchsL_pos hph p1
  have L2 := fuchsL_pos hph p2
  have dp1 := s1.1
  have dp2 := s2.1
  rw [← specStop_eq hph s1] at r1
  rw [← specStop_eq hph s2] at r2
  have rone : 1 ≤ r := by
    rcases le_total d1 (fuchsL (setState s₀ a).1 m1) with h | h
    · exact le_of_mul_le_mul_right (by linarith [r1.2]) dp1
    · exact le_of_mul_le_mul_right (by linarith [r1.1]) L1
  have ε1 : ε ≤ 1 / 10 ^ 8 := by
    have : 1 * ε ≤ 4 * r ^ 2 * ε := mul_le_mul_of_nonneg_right (by nlinarith) ε0
    have e : (1 : ℝ) / 10 ^ 9 ≤ 1 / 10 ^ 8 := by norm_num
    linarith
  have hε : Sm ε := ⟨ε0, ε1⟩
  have hp := pair_of hF hε hs hD hu
  have cp : 0 < c := lt_of_lt_of_le (by norm_num) c0
  have lm : (10 : ℝ) ^ (-26 : ℤ) ≤ mmin := by norm_num [mmin]
  have hi : ∀ {m : ℝ}, m ≤ 10 ^ 3 → m ≤ (10 : ℝ) ^ (3 : ℤ) := fun h => by norm_num at h ⊢; exact h
  have hm : ¬ (m1 ≤ mmin ∨ m2 ≤ mmin) := by push Not; exact ⟨g1, g2⟩
  have hmD : ¬ ((fin m1).le (F.rnd mmin) ∨ (fin m2).le (F.rnd mmin)) := not_or.2 ⟨above hF h1, above hF h2⟩
  have c0' : (10 : ℝ) ^ (-6 : ℤ) ≤ c := by norm_num at c0 ⊢; linarith
  have c1' : c ≤ (10 : ℝ) ^ (6 : ℤ) := by norm_num at c1 ⊢; linarith
  have cond : ∀ {d l : ℝ}, 0 < d → 0 < l → d ≤ r * l ∧ l ≤ r * d → (d + l) ^ 2 ≤ 2 * (2 * r) * (d * l) := by
    intro d l hd hl ⟨q1, q2⟩
    have f1 : d * l ≤ r * (d * l) := le_mul_of_one_le_left (mul_pos hd hl).le rone
    rcases le_total d l with h | h
    · have e1 := mul_le_mul_of_nonneg_left q2 hl.le
      have e2 := mul_le_mul_of_nonneg_left h hd.le
      nlinarith
    · have e1 := mul_le_mul_of_nonneg_left q1 hd.le
      have e2 := mul_le_mul_of_nonneg_left h hl.le
      nlinarith
  have q1 := (Acc.exact (ε := ε) (lm.trans g1.le) (hi h1.hi)).mono hε (Nat.zero_le 1) le_rfl le_rfl
  have q2 := (Acc.exact (ε := ε) (lm.trans g2.le) (hi h2.hi)).mono hε (Nat.zero_le 1) le_rfl le_rfl
  have w := acc_FUCHS (R := 2 * r) hF hε hp h3 h15 q1 q2 c0' c1' .FUCHS
    (by rw [diam_of_sphere s1]; exact cond dp1 L1 r1) (by rw [diam_of_sphere s2]; exact cond dp2 L2 r2) (by rw [mul_pow]; norm_num at hr ⊢; exact hr)
  have hε' : Sm (2 * r * ε) := by
    refine ⟨by positivity, ?_⟩
    have : 2 * r * ε ≤ 4 * r ^ 2 * ε := mul_le_mul_of_nonneg_right (by nlinarith) ε0
    have e : (1 : ℝ) / 10 ^ 9 ≤ 1 / 10 ^ 8 := by norm_num
    linarith
  obtain ⟨x', ex, bx⟩ := w.final hε' (N := 1400) (by norm_num) (by norm_num)
  refine ⟨_, x', Coag.rate_ok hph cp m1 m2, ?_, ?_⟩
  · rw [coagRateD, if_neg (by simp), if_neg hmD]; exact ex
  · rw [Coag.val, if_neg hm]
    refine bx.trans (le_of_eq ?_)
    push_cast
    ring

/-- **C99, cutoff.** Below the cutoff (and for mechanism NONE) the computed kernel is zero, as the exact one; masses within `ε` of the cutoff may be
decided either way. -/
theorem C99_cutoff (F : Fp) (ε : ℝ) (hF : F.Accurate ε) (h0 : F.rnd 0 = fin 0) (s : State) (hph : s.Phys) (D : DState) (c : ℝ) (hc : 0 < c) (mech : CoagMech)
    (m1 m2 : ℝ) (h : mech = .NONE ∨ m1 ≤ mmin * (1 - ε) ∨ m2 ≤ mmin * (1 - ε)) (ε0 : 0 ≤ ε) :
    (⟨mech, c⟩ : Coag).rate s m1 m2 = Res.ok 0 ∧ coagRateD F D (fin c) mech (fin m1) (fin m2) = fin 0 := by
  obtain ⟨x, hx, e⟩ := cut_acc hF
  rw [abs_le] at e
  have me : 0 ≤ mmin * ε := mul_nonneg mmin_pos.le ε0
  by_cases hn : mech = .NONE
  · subst hn
    exact ⟨by simp [Coag.rate], by simp [coagRateD, h0]⟩
  · have h' := h.resolve_left hn
    constructor
    · rw [Coag.rate_ok hph hc, Coag.val, if_pos (by rcases h' with h | h; exacts [.inl (by linarith), .inr (by linarith)])]
    · unfold coagRateD
      rw [if_neg hn, if_pos, h0]
      rw [hx]
      rcases h' with h | h
      · left; show m1 ≤ x; linarith
      · right; show m2 ≤ x; linarith

/-! ## The assumption holds for IEEE binary64 -/

theorem ten300 : (10 : ℝ) ^ (300 : ℤ) ≤ 2 ^ (1000 : ℤ) := by
  have e1 : (10 : ℝ) ^ (300 : ℤ) = ((10 : ℝ) ^ (3 : ℤ)) ^ (100 : ℤ) := by rw [← zpow_mul]; norm_num
  have e2 : (2 : ℝ) ^ (1000 : ℤ) = ((2 : ℝ) ^ (10 : ℤ)) ^ (100 : ℤ) := by rw [← zpow_mul]; norm_num
  rw [e1, e2]
  exact zpow_le_zpow_left₀ (by norm_num) (by positivity) (by norm_num)

theorem ten300_max : (10 : ℝ) ^ (300 : ℤ) ≤ maxDbl := by
  refine ten300.trans ?_
  unfold maxDbl
  have e : (2 : ℝ) ^ (1000 : ℤ) = 2 ^ 29 * 2 ^ (971 : ℤ) := by rw [← zpow_natCast, ← zpow_add₀ (by norm_num)]; norm_num
  rw [e]
  exact mul_le_mul_of_nonneg_right (by norm_num) (by positivity)

/-- **C99, binary64.** Rounding to nearest in binary64 with correctly rounded (here: exact) library functions meets the assumption with `ε = 2⁻⁵²`. -/
theorem C99_binary64 : binary64.Accurate (2 ^ (-52 : ℤ)) ∧ binary64.rnd 3 = fin 3 ∧ binary64.rnd 1.5 = fin 1.5 := by
  obtain ⟨st, -⟩ := C91_binary64
  have two : (2 : ℝ) ^ (-52 : ℤ) = 2 * 2 ^ (-53 : ℤ) := by rw [show (-52 : ℤ) = 1 + -53 by norm_num, zpow_add₀ (by norm_num)]; norm_num
  have p53 : (0 : ℝ) < 2 ^ (-53 : ℤ) := by positivity
  have ex : ∀ x : ℝ, Int.log 2 |x| ≤ 1 → -1 ≤ Int.log 2 |x| → (∃ k : ℤ, x = k * 2 ^ (-1 : ℤ)) → |x| ≤ 10 → binary64.rnd x = fin x := by
    rintro x h1 h2 ⟨k, hk⟩ hb
    have hu : ulp x = 2 ^ (Int.log 2 |x| - 52) := by
      unfold ulp; rw [max_eq_left (by omega)]
    have hq : x / ulp x = ((k * 2 ^ (51 - Int.log 2 |x|).toNat : ℤ) : ℝ) := by
      rw [hu]
      rw [div_eq_iff (by positivity)]
      push_cast
      rw [← zpow_natCast, Int.toNat_of_nonneg (by omega), mul_assoc, ← zpow_add₀ (by norm_num)]
      conv_lhs => rw [hk]
      congr 2
      omega
    have hr : (round (x / ulp x) : ℝ) * ulp x = x := by
      rw [hq, round_intCast, ← hq]
      have : ulp x ≠ 0 := by rw [hu]; positivity
      field_simp
    show (if |(round (x / ulp x) : ℝ) * ulp x| ≤ maxDbl then fin (round (x / ulp x) * ulp x) else _) = _
    rw [hr, if_pos]
    have h10 : (10 : ℝ) ≤ 10 ^ (300 : ℤ) := by
      calc (10 : ℝ) = 10 ^ (1 : ℤ) := by norm_num
        _ ≤ _ := zpow_le_zpow_right₀ (by norm_num) (by norm_num)
    exact hb.trans (h10.trans ten300_max)
  refine ⟨⟨?_, ?_, ?_, ?_, ?_⟩, ?_, ?_⟩
  · intro x h1 h2
    obtain ⟨y, hy, e⟩ := st x (h2.trans ten300_max)
    refine ⟨y, hy, e.trans ?_⟩
    have : (2 : ℝ) ^ (-1075 : ℤ) ≤ 2 ^ (-53 : ℤ) * |x| := by
      have k : (2 : ℝ) ^ (-1000 : ℤ) ≤ |x| := by
        refine le_trans ?_ h1
        rw [zpow_neg, zpow_neg]
        exact inv_anti₀ (by positivity) ten300
      calc (2 : ℝ) ^ (-1075 : ℤ) ≤ 2 ^ (-53 : ℤ) * 2 ^ (-1000 : ℤ) := by
            rw [← zpow_add₀ (by norm_num)]; exact zpow_le_zpow_right₀ (by norm_num) (by norm_num)
        _ ≤ _ := mul_le_mul_of_nonneg_left k p53.le
    rw [two]; linarith
  · intro x h1
    have h10 : (1 : ℝ) ≤ 10 ^ (300 : ℤ) := one_le_zpow₀ (by norm_num) (by norm_num)
    obtain ⟨y, hy, e⟩ := st x (h1.trans (h10.trans ten300_max))
    refine ⟨y, hy, e.trans ?_⟩
    have k1 : (2 : ℝ) ^ (-53 : ℤ) * |x| ≤ 2 ^ (-53 : ℤ) * 1 := mul_le_mul_of_nonneg_left h1 p53.le
    have k2 : (2 : ℝ) ^ (-1075 : ℤ) ≤ 2 ^ (-53 : ℤ) := zpow_le_zpow_right₀ (by norm_num) (by norm_num)
    rw [two]; linarith
  · intro x h1 h2
    have x0 : 0 ≤ x := le_trans (by positivity) h1
    refine ⟨Real.sqrt x, ?_, by rw [sub_self, abs_zero]; positivity⟩
    show Fp.exact.sqrt (fin x) = _
    exact FpState.exact_sqrt x0
  · intro x p x0 h1 h2
    refine ⟨x ^ p, ?_, by rw [sub_self, abs_zero]; positivity⟩
    show Fp.exact.pow (fin x) (fin p) = _
    exact FpState.exact_pow x0 p
  · intro x hx
    exact ⟨Real.exp x, rfl, by rw [sub_self, abs_zero]; positivity⟩
  · have l : Int.log 2 |(3 : ℝ)| = 1 := by
      rw [abs_of_pos (by norm_num), show (3 : ℝ) = ((3 : ℕ) : ℝ) by norm_num, Int.log_natCast]; rfl
    exact ex 3 (by rw [l]) (by rw [l]; norm_num) ⟨6, by norm_num⟩ (by norm_num)
  · have l : Int.log 2 |(1.5 : ℝ)| = 0 := by
      rw [abs_of_pos (by norm_num), Int.log_of_one_le_right _ (by norm_num)]
      have : ⌊(1.5 : ℝ)⌋₊ = 1 := (Nat.floor_eq_iff (by norm_num)).2 (by norm_num)
      rw [this]; rfl
    exact ex 1.5 (by rw [l]; norm_num) (by rw [l]; norm_num) ⟨3, by norm_num⟩ (by norm_num)

/-- **C99, digits.** In binary64 these three kernels have a relative error below 10⁻¹². -/
theorem C99_digits (s₀ : State) (D₀ : DState) (a : SetArgs) (hs : (setState s₀ a).2 = Res.ok ()) (hD : (setStateD binary64 D₀ a.toD).2 = Res.ok ())
    (hu : Usual a) (c : ℝ) (c0 : 1 / 10 ^ 6 ≤ c) (c1 : c ≤ 10 ^ 6) (mech : CoagMech) (hm : mech = .FM ∨ mech = .CONTINUUM ∨ mech = .HM) (m1 m2 : ℝ)
    (h1 : mmin * (1 + 1 / 10 ^ 15) ≤ m1) (h1' : m1 ≤ 10 ^ 3) (h2 : mmin * (1 + 1 / 10 ^ 15) ≤ m2) (h2' : m2 ≤ 10 ^ 3) :
    ∃ x x' : ℝ, (⟨mech, c⟩ : Coag).rate (setState s₀ a).1 m1 m2 = Res.ok x ∧ 0 < x ∧
      coagRateD binary64 (setStateD binary64 D₀ a.toD).1 (fin c) mech (fin m1) (fin m2) = fin x' ∧ |x' - x| ≤ 1 / 10 ^ 12 * x := by
  have e : mmin * (1 + 2 ^ (-52 : ℤ)) < mmin * (1 + 1 / 10 ^ 15) := mul_lt_mul_of_pos_left (by norm_num) mmin_pos
  have g : ∀ {m : ℝ}, mmin * (1 + 1 / 10 ^ 15) ≤ m → mmin < m := fun h => by
    have : mmin * 1 < mmin * (1 + 1 / 10 ^ 15) := mul_lt_mul_of_pos_left (by norm_num) mmin_pos
    linarith
  obtain ⟨x, y, z, x', y', z', ⟨a1, a2, a3⟩, ⟨b1, b2, b3⟩, d1, d2, d3⟩ := C99_kernel_accuracy binary64 _ C99_binary64.1 (by positivity) (by norm_num)
    s₀ D₀ a hs hD hu c c0 c1 m1 m2 ⟨e.trans_le h1, h1'⟩ ⟨e.trans_le h2, h2'⟩
  obtain ⟨-, hph, -⟩ := C02_setState_valid s₀ a hs
  have cp : 0 < c := lt_of_lt_of_le (by norm_num) c0
  have pos : ∀ {k : CoagMech} {v : ℝ}, k ≠ .NONE → (⟨k, c⟩ : Coag).rate (setState s₀ a).1 m1 m2 = Res.ok v → 0 < v := by
    intro k v hk hv
    obtain ⟨w, hw, -, -, hw0⟩ := C13_kernel_positive ⟨k, c⟩ _ ⟨s₀, a, hs, rfl⟩ cp m1 m2
    cases hv.symm.trans hw
    exact hw0 hk (g h1) (g h2)
  have fin' : ∀ {v v' N : ℝ}, 0 < v → N ≤ 1000 → |v' - v| ≤ N * 2 ^ (-52 : ℤ) * v → |v' - v| ≤ 1 / 10 ^ 12 * v := by
    intro v v' N v0 hN h
    refine h.trans (mul_le_mul_of_nonneg_right ?_ v0.le)
    refine (mul_le_mul_of_nonneg_right hN (by positivity)).trans (by norm_num)
  rcases hm with rfl | rfl | rfl
  · exact ⟨x, x', a1, pos (by simp) a1, a2, fin' (pos (by simp) a1) (by norm_num) a3⟩
  · exact ⟨y, y', b1, pos (by simp) b1, b2, fin' (pos (by simp) b1) (by norm_num) b3⟩
  · exact ⟨z, z', d1, pos (by simp) d1, d2, fin' (pos (by simp) d1) (by norm_num) d3⟩

/-! ## A concrete call -/

/-- Hot combustion products without soot. -/
noncomputable def argsHot : SetArgs := { argsEx with yPah := List.replicate 6 0, sootVar := [], nsoot := 0 }

theorem argsHot_ok : (setState (State.mk' 0 0) argsHot).2 = Res.ok () ∧ (setStateD binary64 (State.mk' 0 0).toD argsHot.toD).2 = Res.ok () := by
  have adm : Admissible 0 0 6 argsHot := ⟨argsEx_admissible.T, argsEx_admissible.P, argsEx_admissible.rho, argsEx_admissible.mu, argsEx_admissible.cMin,
    by intro i h; simp [argsHot] at h, argsEx_admissible.tar, argsEx_admissible.gas, by simp [argsHot], by simp [argsHot], by simp [argsHot]⟩
  have h1 : (setState (State.mk' 0 0) argsHot).2 = Res.ok () := by
    rw [C01_setState_accepts _ _ (by simp [State.mk']) (by simp [State.mk']) (by simpa [State.mk', nPah] using adm)]
  refine ⟨h1, ?_⟩
  have hs : (State.mk' 0 0).toD.nsoot.toNat ≤ argsHot.toD.sootVar.length := by simp [State.mk', State.toD]
  have ht : (State.mk' 0 0).toD.Ntar.toNat ≤ argsHot.toD.tarVar.length := by simp [State.mk', State.toD]
  have q := (C77_accepts_iff .exact (State.mk' 0 0).toD argsHot.toD hs ht).1.1 (by rw [C77_agrees_partial]; exact h1)
  refine (C77_accepts_iff binary64 (State.mk' 0 0).toD argsHot.toD hs ht).1.2
    ⟨q.T, q.P, q.rho, q.mu, q.cMin, q.soot, q.tar, q.gas, q.pahSize, q.pah, ?_⟩
  have z : binary64.add (fin 0) (fin 0) = fin 0 := by show binary64.rnd (0 + 0) = _; rw [add_zero, binary64_zero]
  have e : argsHot.toD.yPah.foldl binary64.add (fin 0) = fin 0 := by
    simp [SetArgs.toD, argsHot, List.replicate, z]
  rw [e]
  show ¬ (1 : ℝ) < 0
  norm_num

theorem argsHot_usual : Usual argsHot := by constructor <;> norm_num [argsHot, argsEx]

/-- Two soot particles in these products: the harmonic-mean kernel is right to twelve digits. -/
example : ∃ x x' : ℝ, (⟨.HM, 9 / 2.2⟩ : Coag).rate (setState (State.mk' 0 0) argsHot).1 1E-20 3E-22 = Res.ok x ∧ 0 < x ∧
    coagRateD binary64 (setStateD binary64 (State.mk' 0 0).toD argsHot.toD).1 (fin (9 / 2.2)) .HM (fin 1E-20) (fin 3E-22) = fin x' ∧
    |x' - x| ≤ 1 / 10 ^ 12 * x :=
  C99_digits _ _ _ argsHot_ok.1 argsHot_ok.2 argsHot_usual _ (by norm_num) (by norm_num) .HM (by simp) _ _ (by norm_num [mmin]) (by norm_num)
    (by norm_num [mmin]) (by norm_num)

/-- A sphere of 20 nm. -/
noncomputable def massHot : ℝ := rhoSoot * (Real.pi / 6 * (2E-8 : ℝ) ^ 3)

theorem massHot_bounds : 5E-21 ≤ massHot ∧ massHot ≤ 1.2E-20 := by
  have p3 := Real.pi_gt_three
  have p4 := Real.pi_lt_four
  unfold massHot rhoSoot
  norm_num
  constructor <;> linarith

/-- Its diameter and its stopping length are within a factor of 1000 (in fact about 12). -/
theorem argsHot_ratio : (2E-8 : ℝ) ≤ 1000 * specStop (setState (State.mk' 0 0) argsHot).1 massHot 2E-8 ∧
    specStop (setState (State.mk' 0 0) argsHot).1 massHot 2E-8 ≤ 1000 * 2E-8 := by
  obtain ⟨⟨e1, e2, e3, e4, -⟩, hph, -⟩ := C02_setState_valid _ _ argsHot_ok.1
  obtain ⟨b1, b2⟩ := massHot_bounds
  have p3 := Real.pi_gt_three
  have p4 := Real.pi_lt_four
  have em : (setState (State.mk' 0 0) argsHot).1.MWGas = 0.1 * Rg * 2100 / 101325 := by
    rw [hph.mw, e1, e2, e3]; rfl
  have mf : meanFreePath (setState (State.mk' 0 0) argsHot).1 = 1E-4 * Real.sqrt (Real.pi * 0.1 / (2 * 101325)) := by
    rw [meanFreePath, em, e1, e3, e4]
    have : Real.pi * (0.1 * Rg * 2100 / 101325) / (2 * (Na * kb) * argsHot.T) = Real.pi * 0.1 / (2 * 101325) := by
      have : argsHot.T = 2100 := rfl
      rw [this, Rg]
      have := kb_pos
      have : 0 < Na := by norm_num [Na]
      field_simp
    rw [this, show argsHot.muGas = 1E-5 from rfl, show argsHot.rhoGas = 0.1 from rfl]
    norm_num
  have m1 : 1E-7 ≤ meanFreePath (setState (State.mk' 0 0) argsHot).1 := by
    rw [mf]
    have : 1E-3 ≤ Real.sqrt (Real.pi * 0.1 / (2 * 101325)) := Real.le_sqrt_of_sq_le (by rw [le_div_iff₀ (by norm_num)]; norm_num; linarith)
    norm_num at this ⊢
    linarith
  have m2 : meanFreePath (setState (State.mk' 0 0) argsHot).1 ≤ 2E-7 := by
    rw [mf]
    have : Real.sqrt (Real.pi * 0.1 / (2 * 101325)) ≤ 2E-3 := Real.sqrt_le_iff.2 ⟨by norm_num, by rw [div_le_iff₀ (by norm_num)]; norm_num; linarith⟩
    norm_num at this ⊢
    linarith
  unfold specStop
  generalize meanFreePath (setState (State.mk' 0 0) argsHot).1 = l at *
  have l0 : 0 < l := lt_of_lt_of_le (by norm_num) m1
  have ex0 := Real.exp_pos (-(0.55 * 2E-8 / l))
  have ex1 : Real.exp (-(0.55 * 2E-8 / l)) ≤ 1 := Real.exp_le_one_iff.2 (neg_nonpos.2 (by positivity))
  have C1 : 1 ≤ specSlip l 2E-8 := by unfold specSlip; norm_num at ex0 ⊢; positivity
  have C2 : specSlip l 2E-8 ≤ 35 := by
    unfold specSlip
    have k1 : 2 * l / 2E-8 ≤ 20 := by rw [div_le_iff₀ (by norm_num)]; norm_num at m2 ⊢; linarith
    have k2 : 1.257 + 0.4 * Real.exp (-(0.55 * 2E-8 / l)) ≤ 1.657 := by
      generalize Real.exp (-(0.55 * 2E-8 / l)) = E at *
      norm_num
      linarith
    have := mul_le_mul k1 k2 (by positivity) (by norm_num)
    refine le_trans (add_le_add_right this 1) (by norm_num)
  rw [e1, e4, show argsHot.T = 2100 from rfl, show argsHot.muGas = 1E-5 from rfl]
  generalize specSlip l 2E-8 = C at *
  have D1 : 1E-8 ≤ specD 2100 1E-5 C 2E-8 := by
    unfold specD kb
    rw [le_div_iff₀ (by positivity)]
    norm_num
    linarith
  have D2 : specD 2100 1E-5 C 2E-8 ≤ 1E-6 := by
    unfold specD kb
    rw [div_le_iff₀ (by positivity)]
    norm_num
    linarith
  have mp : 0 < massHot := lt_of_lt_of_le (by norm_num) b1
  have s1 : 1 ≤ specSpeed 2100 massHot := by
    unfold specSpeed kb
    apply Real.le_sqrt_of_sq_le
    rw [le_div_iff₀ (by positivity)]
    have := mul_le_mul p4.le b2 mp.le (by norm_num)
    norm_num at this ⊢
    linarith
  have s2 : specSpeed 2100 massHot ≤ 10 := by
    unfold specSpeed kb
    apply Real.sqrt_le_iff.2
    refine ⟨by norm_num, ?_⟩
    rw [div_le_iff₀ (by positivity)]
    have := mul_le_mul p3.le b1 (by norm_num) (by positivity)
    norm_num at this ⊢
    linarith
  generalize specD 2100 1E-5 C 2E-8 = D at *
  generalize specSpeed 2100 massHot = v at *
  have v0 : 0 < v := lt_of_lt_of_le (by norm_num) s1
  have q1 : 3 * 1 ≤ Real.pi * v := mul_le_mul p3.le s1 (by norm_num) (by positivity)
  have q2 : Real.pi * v ≤ 4 * 10 := mul_le_mul p4.le s2 v0.le (by norm_num)
  have w : 0 < Real.pi * v := by positivity
  constructor
  · rw [← mul_div_assoc, le_div_iff₀ w]
    norm_num at D1 ⊢
    linarith
  · rw [div_le_iff₀ w]
    norm_num at D2 q1 ⊢
    linarith

/-- The Fuchs kernel of two such particles is right to nine digits. -/
example : ∃ x x' : ℝ, (⟨.FUCHS, 9 / 2.2⟩ : Coag).rate (setState (State.mk' 0 0) argsHot).1 massHot massHot = Res.ok x ∧
    coagRateD binary64 (setStateD binary64 (State.mk' 0 0).toD argsHot.toD).1 (fin (9 / 2.2)) .FUCHS (fin massHot) (fin massHot) = fin x' ∧
    |x' - x| ≤ 1 / 10 ^ 9 * x := by
  have b := massHot_bounds
  have um : UsualMass (2 ^ (-52 : ℤ)) massHot := ⟨lt_of_lt_of_le (by norm_num [mmin]) b.1, b.2.trans (by norm_num)⟩
  have sp : IsSphere massHot 2E-8 := ⟨by norm_num, rfl⟩
  obtain ⟨x, x', h1, h2, h3⟩ := C99_fuchs_accuracy binary64 _ C99_binary64.1 (by positivity) C99_binary64.2.1 C99_binary64.2.2 _ _ _ argsHot_ok.1
    argsHot_ok.2 argsHot_usual (9 / 2.2) (by norm_num) (by norm_num) massHot massHot 2E-8 2E-8 1000 um um sp sp argsHot_ratio argsHot_ratio (by norm_num)
  obtain ⟨w, hw, -, -, hw0⟩ := C13_kernel_positive ⟨.FUCHS, 9 / 2.2⟩ _ ⟨_, _, argsHot_ok.1, rfl⟩ (by norm_num) massHot massHot
  cases h1.symm.trans hw
  have x0 := hw0 (by simp) (lt_of_lt_of_le (by norm_num [mmin]) b.1) (lt_of_lt_of_le (by norm_num [mmin]) b.1)
  exact ⟨x, x', h1, h2, h3.trans (mul_le_mul_of_nonneg_right (by norm_num) x0.le)⟩

end Soot
