import Verif.FpMass
import Verif.Props.Mech
import Mathlib.Data.Int.Log
import Mathlib.Algebra.Order.Round

/-!
# C91: mass balance in floating point

Specification: rounding changes a number of at most `Ω` by at most `u` of its size plus `η`.  For IEEE binary64 with
rounding to nearest, `u = 2⁻⁵³`, `η = 2⁻¹⁰⁷⁵` and `Ω` is the largest double (`binary64_std`).
-/

namespace Soot

open Dbl
open scoped Classical

/-- Numbers up to `Ω` are rounded to a finite number with relative error `u` and absolute error `η`. -/
def Fp.Std (F : Fp) (u η Ω : ℝ) : Prop := ∀ x, |x| ≤ Ω → ∃ y, F.rnd x = fin y ∧ |y - x| ≤ u * |x| + η

namespace FpMass

/-- `y` approximates `x`. -/
def Near (x y a b : ℝ) : Prop := |y - x| ≤ a * |x| + b

theorem Near.mono {x y a b a' b' : ℝ} (h : Near x y a b) (ha : a ≤ a') (hb : b ≤ b') : Near x y a' b' := by
  have := abs_nonneg x
  unfold Near at *
  nlinarith

theorem Near.abs {x y a b : ℝ} (h : Near x y a b) : |y| ≤ (1 + a) * |x| + b := by
  have : |y| ≤ |x| + |y - x| := by
    calc |y| = |x + (y - x)| := by ring_nf
      _ ≤ _ := abs_add_le _ _
  unfold Near at h
  linarith

theorem Near.rnd {x y z a b u η : ℝ} (h : Near x y a b) (hu : 0 ≤ u) (hz : |z - y| ≤ u * |y| + η) :
    Near x z (a + u + a * u) (b + u * b + η) := by
  have h1 := h.abs
  have h2 : |z - x| ≤ |z - y| + |y - x| := by
    calc |z - x| = |(z - y) + (y - x)| := by ring_nf
      _ ≤ _ := abs_add_le _ _
  unfold Near at *
  have := mul_le_mul_of_nonneg_left h1 hu
  linarith

theorem Near.mul {x x' y y' a b c : ℝ} (h : Near x x' a b) (h' : Near y y' c 0) (hc : 0 ≤ c) :
    Near (x * y) (x' * y') (a + c + a * c) (b * ((1 + c) * |y|)) := by
  have h2 := h'.abs
  have e : x' * y' - x * y = (x' - x) * y' + x * (y' - y) := by ring
  unfold Near at *
  rw [e, abs_mul x y]
  have t : |(x' - x) * y' + x * (y' - y)| ≤ |x' - x| * |y'| + |x| * |y' - y| := by
    rw [← abs_mul, ← abs_mul]; exact abs_add_le _ _
  have n1 := abs_nonneg (x' - x)
  have n2 := abs_nonneg x
  have n3 := abs_nonneg y
  have t1 : |x' - x| * |y'| ≤ (a * |x| + b) * ((1 + c) * |y|) := by
    apply mul_le_mul h (by linarith) (abs_nonneg _) (le_trans n1 h)
  have t2 : |x| * |y' - y| ≤ |x| * (c * |y|) := mul_le_mul_of_nonneg_left (by linarith) n2
  nlinarith

theorem Near.inv {d d' c : ℝ} (h : Near d d' c 0) (hd : d ≠ 0) (hc : 0 ≤ c) (hc1 : c < 1) :
    d' ≠ 0 ∧ Near d⁻¹ d'⁻¹ (c / (1 - c)) 0 := by
  have hp : 0 < |d| := abs_pos.2 hd
  have hlow : (1 - c) * |d| ≤ |d'| := by
    have : |d| ≤ |d'| + |d' - d| := by
      calc |d| = |d' + (d - d')| := by ring_nf
        _ ≤ |d'| + |d - d'| := abs_add_le _ _
        _ = _ := by rw [abs_sub_comm d d']
    unfold Near at h
    linarith
  have hp' : 0 < |d'| := lt_of_lt_of_le (by nlinarith) hlow
  have hd' : d' ≠ 0 := abs_pos.1 hp'
  refine ⟨hd', ?_⟩
  unfold Near at *
  have e : d'⁻¹ - d⁻¹ = (d - d') * (d'⁻¹ * d⁻¹) := by field_simp
  rw [e, abs_mul, abs_mul, abs_inv, abs_inv, abs_sub_comm, add_zero]
  have h1c : 0 < 1 - c := by linarith
  have : |d' - d| * (|d'|⁻¹ * |d|⁻¹) ≤ (c * |d|) * (((1 - c) * |d|)⁻¹ * |d|⁻¹) := by
    apply mul_le_mul (by linarith) _ (by positivity) (by positivity)
    apply mul_le_mul_of_nonneg_right _ (by positivity)
    exact inv_anti₀ (by positivity) hlow
  refine this.trans (le_of_eq ?_)
  field_simp

theorem Near.add {x x' y y' a b c d : ℝ} (h : Near x x' a b) (h' : Near y y' c d) :
    |x' + y' - (x + y)| ≤ a * |x| + c * |y| + (b + d) := by
  have e : x' + y' - (x + y) = (x' - x) + (y' - y) := by ring
  rw [e]
  unfold Near at *
  have := abs_add_le (x' - x) (y' - y)
  linarith

theorem Near.refl (x : ℝ) : Near x x 0 0 := by simp [Near]

/-- Stoichiometric data of one mechanism: ratios up to 6, one half times a whole number for carbon at least. -/
structure Stoich (r : GasSp → ℝ) : Prop where
  le : ∀ sp, |r sp| ≤ 6
  one : 1 ≤ |r .C|

theorem mw_bounds (sp : GasSp) : 1 ≤ gasMW sp ∧ gasMW sp ≤ 79 := by cases sp <;> simp [gasMW] <;> norm_num

/-- The bounds under which everything below holds. -/
structure Ok (u η Ω : ℝ) : Prop where
  u0 : 0 ≤ u
  η0 : 0 ≤ η
  u1 : u ≤ 1 / 1000
  ηu : η ≤ u
  Ω1 : 1000 ≤ Ω

/-- The exact gas rate of one species. -/
noncomputable def term (r : GasSp → ℝ) (m : ℝ) (sp : GasSp) : ℝ :=
  if sp = .C then 0 else m * r sp * gasMW sp / (r .C * gasMW .C)

theorem lit {F : Fp} {u η Ω : ℝ} (hF : F.Std u η Ω) (ho : Ok u η Ω) {x : ℝ} (h1 : 1 ≤ x) (h2 : x ≤ 1000) :
    ∃ y, F.rnd x = fin y ∧ Near x y (2 * u) 0 := by
  obtain ⟨y, hy, he⟩ := hF x (by rw [abs_of_nonneg (by linarith)]; linarith [ho.Ω1])
  refine ⟨y, hy, ?_⟩
  have := ho.u0; have := ho.ηu
  unfold Near
  rw [abs_of_nonneg (by linarith : 0 ≤ x)] at *
  nlinarith

/-- Numerator of the rate formula. -/
theorem num_near {F : Fp} {u η Ω : ℝ} (hF : F.Std u η Ω) (ho : Ok u η Ω) {r w m : ℝ} (hr : |r| ≤ 6) (hw1 : 1 ≤ w)
    (hw2 : w ≤ 79) (hm : |m| ≤ Ω / 1000) : |m * r * w| ≤ 6 * (Ω / 1000) * 79 ∧
      ∃ B, F.mul (F.mul (fin m) (fin r)) (F.rnd w) = fin B ∧ Near (m * r * w) B (4.01 * u) (80.4 * η) := by
  obtain ⟨u0, η0, u1, ηu, hΩ⟩ := ho
  have hm0 := abs_nonneg m
  have hr0 := abs_nonneg r
  obtain ⟨w', hw, nw⟩ := lit hF ⟨u0, η0, u1, ηu, hΩ⟩ hw1 (by linarith)
  have b1 : |m * r| ≤ 6 * (Ω / 1000) := by rw [abs_mul]; nlinarith
  obtain ⟨A, hA, eA⟩ := hF (m * r) (by linarith)
  have nA : Near (m * r) A u η := eA
  have nB0 := (nA.mul nw (by linarith : 0 ≤ 2 * u)).mono
    (show u + 2 * u + u * (2 * u) ≤ 3.002 * u by nlinarith) (show η * ((1 + 2 * u) * |w|) ≤ 79.2 * η by
      rw [abs_of_nonneg (by linarith : 0 ≤ w)]
      have : (1 + 2 * u) * w ≤ 79.2 := by nlinarith
      nlinarith)
  have h2 : |m * r * w| ≤ 6 * (Ω / 1000) * 79 := by
    rw [abs_mul (m * r), abs_of_nonneg (by linarith : 0 ≤ w)]
    exact mul_le_mul b1 hw2 (by linarith) (by positivity)
  have bB : |A * w'| ≤ Ω := by
    have h := nB0.abs
    have h3 := abs_nonneg (m * r * w)
    nlinarith
  obtain ⟨B, hB, eB⟩ := hF (A * w') bB
  refine ⟨h2, B, ?_, (nB0.rnd u0 eB).mono (by nlinarith) (by nlinarith)⟩
  rw [hw]
  simp only [Fp.mul, hA, hB]

/-- Denominator of the rate formula. -/
theorem den_near {F : Fp} {u η Ω : ℝ} (hF : F.Std u η Ω) (ho : Ok u η Ω) {r : ℝ} (hr : |r| ≤ 6) (h1 : 1 ≤ |r|) :
    ∃ D, F.mul (fin r) (F.rnd (gasMW .C)) = fin D ∧ D ≠ 0 ∧ Near (r * gasMW .C)⁻¹ D⁻¹ (3.2 * u) 0 ∧
      |(r * gasMW .C)⁻¹| ≤ 0.0833 := by
  have ho' := ho
  obtain ⟨u0, η0, u1, ηu, hΩ⟩ := ho
  obtain ⟨c, hc, nc⟩ := lit hF ho' (mw_bounds .C).1 (by linarith [(mw_bounds .C).2])
  have nD0 := ((Near.refl r).mul nc (by linarith : 0 ≤ 2 * u)).mono (show _ ≤ 2 * u by linarith)
    (show _ ≤ (0 : ℝ) by simp)
  have dabs : |r * gasMW .C| = |r| * 12.011 := by
    rw [abs_mul, abs_of_nonneg (show (0 : ℝ) ≤ gasMW .C by simp [gasMW]; norm_num)]; simp [gasMW]
  have bD : |r * c| ≤ Ω := by
    have h := nD0.abs
    rw [dabs] at h
    nlinarith
  obtain ⟨D, hD, eD⟩ := hF (r * c) bD
  have nD1 := nD0.rnd u0 eD
  have nD : Near (r * gasMW .C) D (3.1 * u) 0 := by
    unfold Near at *
    rw [dabs] at *
    have : η ≤ u * (|r| * 12.011) / 12 := by nlinarith
    nlinarith
  have d0 : r * gasMW .C ≠ 0 := by
    apply abs_pos.1; rw [dabs]; linarith
  obtain ⟨D0, nI⟩ := nD.inv d0 (by linarith) (by linarith)
  refine ⟨D, ?_, D0, nI.mono ?_ le_rfl, ?_⟩
  · rw [hc]; simp only [Fp.mul, hD]
  · rw [div_le_iff₀ (by linarith)]; nlinarith
  · rw [abs_inv, dabs, inv_le_comm₀ (by linarith) (by norm_num)]
    have : (0.0833 : ℝ)⁻¹ ≤ 12.011 := by norm_num
    linarith

/-- Quotient, and the addition to zero. -/
theorem quot_near {F : Fp} {u η Ω : ℝ} (hF : F.Std u η Ω) (ho : Ok u η Ω) {x B d D : ℝ} (hx : |x| ≤ 6 * (Ω / 1000) * 79)
    (nB : Near x B (4.01 * u) (80.4 * η)) (D0 : D ≠ 0) (nI : Near d⁻¹ D⁻¹ (3.2 * u) 0) (hd : |d⁻¹| ≤ 0.0833) :
    |x / d| ≤ Ω / 20 ∧ ∃ R, F.add (fin 0) (F.div (fin B) (fin D)) = fin R ∧ Near (x / d) R (13 * u) (12 * η) := by
  obtain ⟨u0, η0, u1, ηu, hΩ⟩ := ho
  have i0 := abs_nonneg d⁻¹
  have nQ0 := (nB.mul nI (by linarith : 0 ≤ 3.2 * u)).mono (show _ ≤ 7.3 * u by nlinarith)
    (show _ ≤ 6.8 * η by
      have : (1 + 3.2 * u) * |d⁻¹| ≤ 0.0836 := by nlinarith
      nlinarith)
  rw [← div_eq_mul_inv, ← div_eq_mul_inv] at nQ0
  have tabs : |x / d| ≤ Ω / 20 := by
    rw [div_eq_mul_inv, abs_mul]
    have := mul_le_mul hx hd i0 (by positivity)
    linarith
  have t0 := abs_nonneg (x / d)
  have ut : u * |x / d| ≤ 1 / 1000 * |x / d| := mul_le_mul_of_nonneg_right u1 t0
  have bQ : |B / D| ≤ Ω := by
    have h := nQ0.abs
    linarith
  obtain ⟨Q, hQ, eQ⟩ := hF (B / D) bQ
  have nQ := (nQ0.rnd u0 eQ).mono (show _ ≤ 8.4 * u by nlinarith) (show _ ≤ 7.9 * η by nlinarith)
  have bR : |0 + Q| ≤ Ω := by
    have h := nQ.abs
    rw [zero_add]
    linarith
  obtain ⟨R, hR, eR⟩ := hF (0 + Q) bR
  rw [zero_add] at eR
  refine ⟨tabs, R, ?_, (nQ.rnd u0 eR).mono (by nlinarith) (by nlinarith)⟩
  simp only [Fp.div, if_neg D0, hQ, Fp.add, hR]

/-- One species: the computed rate is finite and close to the exact one. -/
theorem term_near {F : Fp} {u η Ω : ℝ} (hF : F.Std u η Ω) (ho : Ok u η Ω) {r : GasSp → ℝ} (hr : Stoich r) {m : ℝ}
    (hm : |m| ≤ Ω / 1000) (sp : GasSp) : |term r m sp| ≤ Ω / 20 ∧
    ∃ y, gasRatesD F r (fin m) sp = fin y ∧ Near (term r m sp) y (13 * u) (12 * η) := by
  by_cases hC : sp = .C
  · rw [term, if_pos hC]
    refine ⟨by rw [abs_zero]; linarith [ho.Ω1], 0, by rw [gasRatesD, if_pos hC], ?_⟩
    simp only [Near, sub_zero, abs_zero, mul_zero, zero_add]
    linarith [ho.η0]
  rw [gasRatesD, if_neg hC, term, if_neg hC]
  obtain ⟨hx, B, hB, nB⟩ := num_near hF ho (hr.le sp) (mw_bounds sp).1 (mw_bounds sp).2 hm
  obtain ⟨D, hD, D0, nI, hd⟩ := den_near hF ho (hr.le .C) hr.one
  obtain ⟨ht, R, hR, nR⟩ := quot_near hF ho hx nB D0 nI hd
  exact ⟨ht, R, by rw [hB, hD, hR], nR⟩

/-- Adding two approximations. -/
theorem add_near {F : Fp} {u η Ω : ℝ} (hF : F.Std u η Ω) (ho : Ok u η Ω) {x x' y y' s a b : ℝ}
    (hx : |x' - x| ≤ a) (hy : |y' - y| ≤ b) (hs : |x| + |y| ≤ s) (hb : s + a + b ≤ Ω) :
    ∃ z, F.add (fin x') (fin y') = fin z ∧ |z - (x + y)| ≤ (1 + u) * (a + b) + u * s + η := by
  obtain ⟨u0, η0, u1, ηu, hΩ⟩ := ho
  have e : |x' + y' - (x + y)| ≤ a + b := by
    have := abs_add_le (x' - x) (y' - y)
    rw [show x' + y' - (x + y) = (x' - x) + (y' - y) by ring]; linarith
  have h1 : |x' + y'| ≤ s + a + b := by
    have h2 := abs_add_le (x' + y' - (x + y)) (x + y)
    rw [sub_add_cancel] at h2
    have := abs_add_le x y
    linarith
  obtain ⟨z, hz, ez⟩ := hF (x' + y') (by linarith)
  refine ⟨z, by simp only [Fp.add, hz], ?_⟩
  have h3 := abs_add_le (z - (x' + y')) (x' + y' - (x + y))
  rw [sub_add_sub_cancel] at h3
  have := mul_le_mul_of_nonneg_left h1 u0
  nlinarith

/-- One species of `gasSources`. -/
theorem gas_near {F : Fp} {u η Ω : ℝ} (hF : F.Std u η Ω) (ho : Ok u η Ω) {rN rG rX : GasSp → ℝ} (hN : Stoich rN)
    (hG : Stoich rG) (hX : Stoich rX) {n g x : ℝ} (hn : |n| ≤ Ω / 1000) (hg : |g| ≤ Ω / 1000) (hx : |x| ≤ Ω / 1000)
    (sp : GasSp) : ∃ y, gasSourcesD F rN rG rX (fin n) (fin g) (fin x) sp = fin y ∧
      |y - (term rN n sp + term rG g sp + term rX x sp)| ≤
        16 * u * (|term rN n sp| + |term rG g sp| + |term rX x sp|) + 39 * η := by
  obtain ⟨bn, a, ha, na⟩ := term_near hF ho hN hn sp
  obtain ⟨bg, b, hb, nb⟩ := term_near hF ho hG hg sp
  obtain ⟨bx, c, hc, nc⟩ := term_near hF ho hX hx sp
  have ho' := ho
  obtain ⟨u0, η0, u1, ηu, hΩ⟩ := ho
  unfold Near at na nb nc
  have n0 := abs_nonneg (term rN n sp)
  have g0 := abs_nonneg (term rG g sp)
  have x0 := abs_nonneg (term rX x sp)
  have un : u * |term rN n sp| ≤ 1 / 1000 * |term rN n sp| := mul_le_mul_of_nonneg_right u1 n0
  have ug : u * |term rG g sp| ≤ 1 / 1000 * |term rG g sp| := mul_le_mul_of_nonneg_right u1 g0
  have ux : u * |term rX x sp| ≤ 1 / 1000 * |term rX x sp| := mul_le_mul_of_nonneg_right u1 x0
  have uun := mul_le_mul_of_nonneg_left un u0
  have uug := mul_le_mul_of_nonneg_left ug u0
  have uux := mul_le_mul_of_nonneg_left ux u0
  have un0 := mul_nonneg u0 n0
  have ug0 := mul_nonneg u0 g0
  have ux0 := mul_nonneg u0 x0
  have uη : u * η ≤ 1 / 1000 * η := mul_le_mul_of_nonneg_right u1 η0
  have uuη := mul_le_mul_of_nonneg_left uη u0
  obtain ⟨d, hd, ed⟩ := add_near hF ho' na nb le_rfl (by linarith)
  have ed' : |d - (term rN n sp + term rG g sp)| ≤ 14.1 * u * (|term rN n sp| + |term rG g sp|) + 25.1 * η := by
    refine ed.trans ?_
    nlinarith
  obtain ⟨y, hy, ey⟩ := add_near hF ho' ed' nc (add_le_add_left (abs_add_le _ _) _) (by linarith)
  refine ⟨y, by rw [gasSourcesD, ha, hb, hc, hd, hy], ey.trans ?_⟩
  nlinarith

theorem nucl_stoich {m : NuclMech} (h : m ≠ .PAH) : Stoich (Nucl.new m).ratio := by
  refine ⟨fun sp => ?_, ?_⟩
  · cases m <;> cases sp <;> first | exact absurd rfl h | (simp [Nucl.new, nuclRatio] <;> norm_num)
  · cases m <;> first | exact absurd rfl h | (simp [Nucl.new, nuclRatio] <;> norm_num)

theorem grow_stoich (m : GrowMech) : Stoich (Grow.new m).ratio := by
  refine ⟨fun sp => ?_, ?_⟩
  · cases m <;> cases sp <;> simp [Grow.new, growRatio] <;> norm_num
  · cases m <;> simp [Grow.new, growRatio] <;> norm_num

theorem oxid_stoich (m : OxidMech) : Stoich (Oxid.new m).ratio := by
  refine ⟨fun sp => ?_, ?_⟩
  · cases m <;> cases sp <;> simp [Oxid.new, oxidRatio] <;> norm_num
  · cases m <;> simp [Oxid.new, oxidRatio] <;> norm_num

theorem term_abs (r : GasSp → ℝ) (m : ℝ) (sp : GasSp) : |term r m sp| = |m| * |term r 1 sp| := by
  rw [← abs_mul]; congr 1
  unfold term
  split_ifs
  · simp
  · ring

/-- What the theorem needs to know about one mechanism: the rates sum up to minus the soot rate, and to at most four times
its size. -/
structure Balanced (r : GasSp → ℝ) (m : ℝ) : Prop where
  sum : ∑ sp, term r m sp = -m
  abs : ∑ sp, |term r m sp| ≤ 4 * |m|

theorem Balanced.of_one {r : GasSp → ℝ} (h : ∑ sp, |term r 1 sp| ≤ 4) {m : ℝ} (hs : ∑ sp, term r m sp = -m) :
    Balanced r m := by
  refine ⟨hs, ?_⟩
  rw [Finset.sum_congr rfl fun sp _ => term_abs r m sp, ← Finset.mul_sum]
  have := abs_nonneg m
  nlinarith

theorem Balanced.zero (r : GasSp → ℝ) : Balanced r 0 := by
  have : ∀ sp, term r 0 sp = 0 := fun sp => by unfold term; split_ifs <;> simp
  constructor <;> simp [this]

theorem gasSum (f : GasSp → ℝ) : ∑ sp, f sp = f .O2 + f .O + f .H2 + f .H + f .OH + f .H2O + f .CO + f .C2H2 + f .C6H6 + f .C +
    f .CO2 := by
  change ∑ sp ∈ ({.O2, .O, .H2, .H, .OH, .H2O, .CO, .C2H2, .C6H6, .C, .CO2} : Finset GasSp), f sp = _
  simp only [Finset.sum_insert, Finset.mem_insert, Finset.mem_singleton, reduceCtorEq, or_self, not_false_eq_true,
    Finset.sum_singleton]
  ring

theorem nucl_balanced {m : NuclMech} (h : m ≠ .PAH) {x : ℝ} (h0 : m = .NONE → x = 0) :
    Balanced (Nucl.new m).ratio x := by
  by_cases hn : m = .NONE
  · rw [h0 hn]; exact .zero _
  · refine .of_one ?_ ?_
    · rw [gasSum]
      cases m <;> first | exact absurd rfl h | exact absurd rfl hn | (simp [term, Nucl.new, nuclRatio, gasMW]; norm_num [abs_of_nonneg, abs_of_neg])
    · obtain ⟨g, hg, hs⟩ := (C08_mass_conserved x).1 m hn h
      rw [gasRates_nucl m h x] at hg
      rw [Res.ok.injEq] at hg
      rw [← hs, ← hg]; rfl

theorem grow_balanced {m : GrowMech} {x : ℝ} (h0 : m = .NONE → x = 0) : Balanced (Grow.new m).ratio x := by
  by_cases hn : m = .NONE
  · rw [h0 hn]; exact .zero _
  · refine .of_one ?_ ?_
    · rw [gasSum]
      cases m <;> first | exact absurd rfl hn | (simp [term, Grow.new, growRatio, gasMW]; norm_num [abs_of_nonneg, abs_of_neg])
    · obtain ⟨g, hg, hs⟩ := (C08_mass_conserved x).2.1 m hn
      rw [gasRates_grow m x] at hg
      rw [Res.ok.injEq] at hg
      rw [← hs, ← hg]; rfl

theorem oxid_balanced {m : OxidMech} {x : ℝ} (h0 : m = .NONE → x = 0) : Balanced (Oxid.new m).ratio x := by
  by_cases hn : m = .NONE
  · rw [h0 hn]; exact .zero _
  · refine .of_one ?_ ?_
    · rw [gasSum]
      cases m <;> first | exact absurd rfl hn | (simp [term, Oxid.new, oxidRatio, gasMW]; norm_num [abs_of_nonneg, abs_of_neg])
    · obtain ⟨g, hg, hs⟩ := (C08_mass_conserved x).2.2 m hn
      rw [gasRates_oxid m x] at hg
      rw [Res.ok.injEq] at hg
      rw [← hs, ← hg]; rfl

/-- The five-term sum, in any order of the first four. -/
theorem sum_near {F : Fp} {u η Ω : ℝ} (hF : F.Std u η Ω) (ho : Ok u η Ω) {a b c d : ℝ} (ha : |a| ≤ Ω / 1000)
    (hb : |b| ≤ Ω / 1000) (hc : |c| ≤ Ω / 1000) (hd : |d| ≤ Ω / 1000) :
    ∃ z, F.add (F.add (F.add (F.add (fin a) (fin b)) (fin c)) (fin d)) (fin 0) = fin z ∧
      |z - (a + b + c + d)| ≤ 4.1 * u * (|a| + |b| + |c| + |d|) + 4.1 * η := by
  have ho' := ho
  obtain ⟨u0, η0, u1, ηu, hΩ⟩ := ho
  have a0 := abs_nonneg a
  have b0 := abs_nonneg b
  have c0 := abs_nonneg c
  have d0 := abs_nonneg d
  have z (x : ℝ) : |x - x| ≤ 0 := by simp
  have k (x : ℝ) (hx : 0 ≤ x) : u * x ≤ 1 / 1000 * x := mul_le_mul_of_nonneg_right u1 hx
  have ka := k _ a0
  have kb := k _ b0
  have kc := k _ c0
  have kd := k _ d0
  have kη := k _ η0
  have pa := mul_nonneg u0 a0
  have pb := mul_nonneg u0 b0
  have pc := mul_nonneg u0 c0
  have pd := mul_nonneg u0 d0
  have qa := k _ pa
  have qb := k _ pb
  have qc := k _ pc
  have qd := k _ pd
  obtain ⟨s1, h1, e1⟩ := add_near hF ho' (z a) (z b) le_rfl (by linarith)
  have e1' : |s1 - (a + b)| ≤ u * (|a| + |b|) + η := by linarith
  obtain ⟨s2, h2, e2⟩ := add_near hF ho' e1' (z c) (add_le_add_left (abs_add_le a b) _) (by linarith)
  have e2' : |s2 - (a + b + c)| ≤ 2.01 * u * (|a| + |b| + |c|) + 2.01 * η := by nlinarith
  have t2 : |a + b + c| ≤ |a| + |b| + |c| := (abs_add_le _ _).trans (add_le_add_left (abs_add_le a b) _)
  obtain ⟨s3, h3, e3⟩ := add_near hF ho' e2' (z d) (add_le_add_left t2 _) (by linarith)
  have e3' : |s3 - (a + b + c + d)| ≤ 3.03 * u * (|a| + |b| + |c| + |d|) + 3.03 * η := by nlinarith
  have t3 : |a + b + c + d| ≤ |a| + |b| + |c| + |d| := (abs_add_le _ _).trans (add_le_add_left t2 _)
  obtain ⟨s4, h4, e4⟩ := add_near hF ho' e3' (z 0) (add_le_add_left t3 _) (by rw [abs_zero]; linarith)
  refine ⟨s4, by rw [h1, h2, h3, h4], ?_⟩
  rw [add_zero, abs_zero] at e4
  nlinarith

end FpMass

open FpMass in
/-- **C91.** With every operation rounded, the soot mass source and the gas sources of the moment models are finite and
their sum is zero up to rounding: at most 70 rounding units of the mass rates, plus 440 times the absolute rounding error
at underflow.  Any nucleation (except PAH, which takes nothing from the gas species), growth and oxidation mechanism; a
mechanism NONE contributes the rate zero. -/
theorem C91_mass (F : Fp) (u η Ω : ℝ) (hF : F.Std u η Ω) (hu0 : 0 ≤ u) (hη0 : 0 ≤ η) (hu : u ≤ 1 / 1000) (hη : η ≤ u)
    (hΩ : 1000 ≤ Ω) (N : NuclMech) (G : GrowMech) (X : OxidMech) (hN : N ≠ .PAH) (n g x : ℝ) (hn0 : N = .NONE → n = 0)
    (hg0 : G = .NONE → g = 0) (hx0 : X = .NONE → x = 0) (hn : |n| ≤ Ω / 1000) (hg : |g| ≤ Ω / 1000) (hx : |x| ≤ Ω / 1000) :
    ∃ (soot soot' : ℝ) (gas : GasSp → ℝ), sootMassD F (fin n) (fin 0) (fin g) (fin x) = fin soot ∧
      sootMassLognD F (fin n) (fin 0) (fin g) (fin x) = fin soot' ∧
      (∀ sp, gasSourcesD F (Nucl.new N).ratio (Grow.new G).ratio (Oxid.new X).ratio (fin n) (fin g) (fin x) sp =
        fin (gas sp)) ∧
      |soot + ∑ sp, gas sp| ≤ 70 * u * (|n| + |g| + |x|) + 440 * η ∧
      |soot' + ∑ sp, gas sp| ≤ 70 * u * (|n| + |g| + |x|) + 440 * η := by
  have ho : FpMass.Ok u η Ω := ⟨hu0, hη0, hu, hη, hΩ⟩
  have hz : |(0 : ℝ)| ≤ Ω / 1000 := by rw [abs_zero]; linarith
  choose gas hgas egas using gas_near hF ho (nucl_stoich hN) (grow_stoich G) (oxid_stoich X) hn hg hx
  obtain ⟨s, hs, es⟩ := sum_near hF ho hn hz hg hx
  obtain ⟨s', hs', es'⟩ := sum_near hF ho hn hg hz hx
  have bN := nucl_balanced hN hn0
  have bG := grow_balanced (m := G) hg0
  have bX := oxid_balanced (m := X) hx0
  have hsum : |∑ sp, gas sp + (n + g + x)| ≤ 64 * u * (|n| + |g| + |x|) + 429 * η := by
    have e : ∑ sp, gas sp + (n + g + x) = ∑ sp, (gas sp - (term (Nucl.new N).ratio n sp + term (Grow.new G).ratio g sp +
        term (Oxid.new X).ratio x sp)) := by
      rw [Finset.sum_sub_distrib, Finset.sum_add_distrib, Finset.sum_add_distrib, bN.sum, bG.sum, bX.sum]; ring
    rw [e]
    refine (Finset.abs_sum_le_sum_abs _ _).trans ((Finset.sum_le_sum fun sp _ => egas sp).trans ?_)
    rw [Finset.sum_add_distrib, ← Finset.mul_sum, Finset.sum_add_distrib, Finset.sum_add_distrib]
    have hc : ∑ _sp : GasSp, 39 * η = 429 * η := by
      rw [Finset.sum_const, show (Finset.univ : Finset GasSp).card = 11 from rfl, nsmul_eq_mul]; push_cast; ring
    rw [hc]
    have := mul_le_mul_of_nonneg_left (add_le_add (add_le_add bN.abs bG.abs) bX.abs) (show 0 ≤ 16 * u by linarith)
    linarith
  have fin' : ∀ z, |z - (n + g + x)| ≤ 4.1 * u * (|n| + |g| + |x|) + 4.1 * η →
      |z + ∑ sp, gas sp| ≤ 70 * u * (|n| + |g| + |x|) + 440 * η := by
    intro z hz
    have h := abs_add_le (z - (n + g + x)) (∑ sp, gas sp + (n + g + x))
    rw [show z - (n + g + x) + (∑ sp, gas sp + (n + g + x)) = z + ∑ sp, gas sp by ring] at h
    have : 0 ≤ u * (|n| + |g| + |x|) := by positivity
    linarith
  refine ⟨s, s', gas, hs, hs', hgas, fin' s ?_, fin' s' ?_⟩
  · rw [abs_zero] at es; simpa using es
  · rw [abs_zero] at es'; simpa using es'

open FpMass in
/-- **C91.** With condensation the soot mass source is the sum of the four mass rates up to 4.1 rounding units, in either
order of summation. -/
theorem C91_soot (F : Fp) (u η Ω : ℝ) (hF : F.Std u η Ω) (hu0 : 0 ≤ u) (hη0 : 0 ≤ η) (hu : u ≤ 1 / 1000) (hη : η ≤ u)
    (hΩ : 1000 ≤ Ω) (n c g x : ℝ) (hn : |n| ≤ Ω / 1000) (hc : |c| ≤ Ω / 1000) (hg : |g| ≤ Ω / 1000)
    (hx : |x| ≤ Ω / 1000) :
    ∃ soot soot' : ℝ, sootMassD F (fin n) (fin c) (fin g) (fin x) = fin soot ∧
      sootMassLognD F (fin n) (fin c) (fin g) (fin x) = fin soot' ∧
      |soot - (n + c + g + x)| ≤ 4.1 * u * (|n| + |c| + |g| + |x|) + 4.1 * η ∧
      |soot' - (n + c + g + x)| ≤ 4.1 * u * (|n| + |c| + |g| + |x|) + 4.1 * η := by
  have ho : FpMass.Ok u η Ω := ⟨hu0, hη0, hu, hη, hΩ⟩
  obtain ⟨s, hs, es⟩ := sum_near hF ho hn hc hg hx
  obtain ⟨s', hs', es'⟩ := sum_near hF ho hn hg hc hx
  refine ⟨s, s', hs, hs', es, ?_⟩
  rw [show n + c + g + x = n + g + c + x by ring, show |n| + |c| + |g| + |x| = |n| + |g| + |c| + |x| by ring]
  exact es'

/-! ## The assumption holds for IEEE binary64 -/

/-- The largest double, `(2^53 - 1) 2^971`. -/
noncomputable def maxDbl : ℝ := (2 ^ 53 - 1) * 2 ^ (971 : ℤ)

/-- Spacing of the doubles near `x`: 53 significant bits, but not below `2^-1074`. -/
noncomputable def ulp (x : ℝ) : ℝ := 2 ^ max (Int.log 2 |x| - 52) (-1074)

/-- Rounding to nearest (ties upwards), to an infinity beyond the largest double.  The library functions play no role here
and are the exact ones. -/
noncomputable def binary64 : Fp where
  rnd x := if |(round (x / ulp x) : ℝ) * ulp x| ≤ maxDbl then fin (round (x / ulp x) * ulp x) else
    if 0 < x then pinf else ninf
  sqrt := Fp.exact.sqrt
  exp := Fp.exact.exp
  pow := Fp.exact.pow

/-- **C91.** Rounding to nearest in binary64 satisfies the assumption of the theorems above. -/
theorem C91_binary64 : binary64.Std (2 ^ (-53 : ℤ)) (2 ^ (-1075 : ℤ)) maxDbl ∧ 0 ≤ (2 : ℝ) ^ (-53 : ℤ) ∧
    0 ≤ (2 : ℝ) ^ (-1075 : ℤ) ∧ (2 : ℝ) ^ (-53 : ℤ) ≤ 1 / 1000 ∧ (2 : ℝ) ^ (-1075 : ℤ) ≤ 2 ^ (-53 : ℤ) ∧ 1000 ≤ maxDbl := by
  refine ⟨fun x hx => ?_, by positivity, by positivity, by norm_num, zpow_le_zpow_right₀ (by norm_num) (by norm_num), ?_⟩
  swap
  · unfold maxDbl
    have : (1 : ℝ) ≤ 2 ^ (971 : ℤ) := one_le_zpow₀ (by norm_num) (by norm_num)
    have h53 : (1000 : ℝ) ≤ 2 ^ 53 - 1 := by norm_num
    calc (1000 : ℝ) ≤ (2 ^ 53 - 1) * 1 := by linarith
      _ ≤ _ := mul_le_mul_of_nonneg_left this (by linarith)
  have hs : 0 < ulp x := by unfold ulp; positivity
  have herr : |(round (x / ulp x) : ℝ) * ulp x - x| ≤ ulp x / 2 := by
    have h := abs_sub_round (x / ulp x)
    have e : (round (x / ulp x) : ℝ) * ulp x - x = -(x / ulp x - round (x / ulp x)) * ulp x := by
      field_simp; ring
    rw [e, abs_mul, abs_neg, abs_of_pos hs]
    nlinarith
  have hexp : max (Int.log 2 |x| - 52) (-1074) ≤ 971 := by
    rcases eq_or_ne x 0 with rfl | h0
    · simp
    · have hp : 0 < |x| := abs_pos.2 h0
      have h1 := Int.zpow_log_le_self (b := 2) (by norm_num) hp
      have h2 : ((2 : ℕ) : ℝ) ^ Int.log 2 |x| < 2 ^ (1024 : ℤ) := by
        refine lt_of_le_of_lt (h1.trans hx) ?_
        unfold maxDbl
        rw [show (1024 : ℤ) = 53 + 971 by norm_num, zpow_add₀ (by norm_num)]
        have : (0 : ℝ) < 2 ^ (971 : ℤ) := by positivity
        norm_num
      have h3 := (zpow_lt_zpow_iff_right₀ (by norm_num : (1 : ℝ) < ((2 : ℕ) : ℝ))).1
        (show ((2 : ℕ) : ℝ) ^ Int.log 2 |x| < ((2 : ℕ) : ℝ) ^ (1024 : ℤ) by rw [Nat.cast_ofNat] at h2 ⊢; exact h2)
      omega
  obtain ⟨k, hk⟩ : ∃ k : ℕ, (k : ℤ) = 971 - max (Int.log 2 |x| - 52) (-1074) := ⟨_, Int.toNat_of_nonneg (by omega)⟩
  have hmax : maxDbl = (((2 ^ 53 - 1) * 2 ^ k : ℤ) : ℝ) * ulp x := by
    unfold maxDbl ulp
    push_cast
    rw [mul_assoc, ← zpow_natCast (2 : ℝ) k, ← zpow_add₀ (by norm_num), hk]
    rw [sub_add_cancel]; congr 1; norm_num
  have hle : |(round (x / ulp x) : ℝ) * ulp x| ≤ maxDbl := by
    rw [hmax, abs_mul, abs_of_pos hs]
    refine mul_le_mul_of_nonneg_right ?_ hs.le
    have hq : |x / ulp x| ≤ (((2 ^ 53 - 1) * 2 ^ k : ℤ) : ℝ) := by
      rw [abs_div, abs_of_pos hs, div_le_iff₀ hs, ← hmax]; exact hx
    rw [abs_le] at hq ⊢
    constructor
    · have : -((2 ^ 53 - 1) * 2 ^ k : ℤ) ≤ round (x / ulp x) := by
        rw [← round_intCast (α := ℝ) (-((2 ^ 53 - 1) * 2 ^ k : ℤ))]
        rw [round_eq, round_eq]
        exact Int.floor_mono (by rw [Int.cast_neg]; linarith [hq.1])
      exact_mod_cast this
    · have : round (x / ulp x) ≤ ((2 ^ 53 - 1) * 2 ^ k : ℤ) := by
        rw [← round_intCast (α := ℝ) ((2 ^ 53 - 1) * 2 ^ k : ℤ)]
        rw [round_eq, round_eq]
        exact Int.floor_mono (by linarith [hq.2])
      exact_mod_cast this
  refine ⟨_, if_pos hle, ?_⟩
  rcases eq_or_ne x 0 with h0 | h0
  · rw [h0]; simp
  refine herr.trans ?_
  unfold ulp
  rcases le_total (Int.log 2 |x| - 52) (-1074) with h | h
  · rw [max_eq_right h]
    have e : (2 : ℝ) ^ (-1074 : ℤ) / 2 = 2 ^ (-1075 : ℤ) := by
      rw [show (-1075 : ℤ) = -1074 - 1 by norm_num, zpow_sub_one₀ (by norm_num)]; rfl
    rw [e]
    have : 0 ≤ (2 : ℝ) ^ (-53 : ℤ) * |x| := by positivity
    linarith
  · rw [max_eq_left h]
    have h1 := Int.zpow_log_le_self (b := 2) (by norm_num) (abs_pos.2 h0)
    have e : (2 : ℝ) ^ (Int.log 2 |x| - 52) / 2 = 2 ^ (-53 : ℤ) * 2 ^ Int.log 2 |x| := by
      rw [← zpow_add₀ (by norm_num), show (-53 : ℤ) + Int.log 2 |x| = Int.log 2 |x| - 52 - 1 by ring,
        zpow_sub_one₀ (by norm_num)]; rfl
    rw [e]
    have h2 : (2 : ℝ) ^ Int.log 2 |x| ≤ |x| := by exact_mod_cast h1
    have := mul_le_mul_of_nonneg_left h2 (show (0 : ℝ) ≤ 2 ^ (-53 : ℤ) by positivity)
    have h4 : (0 : ℝ) ≤ 2 ^ (-1075 : ℤ) := by positivity
    linarith

/-- **C91.** With exact arithmetic the rates over doubles are those of the model over the reals. -/
theorem C91_agrees (r : GasSp → ℝ) (m : ℝ) (g : GasSp → ℝ) (h : gasRates r m = Res.ok g) (sp : GasSp) :
    gasRatesD .exact r (fin m) sp = fin (g sp) := by
  unfold gasRates at h
  by_cases h0 : r .C * gasMW .C = 0
  · rw [if_pos h0] at h; cases h
  · rw [if_neg h0, Res.ok.injEq] at h
    rw [← h, gasRatesD]
    beta_reduce
    by_cases hC : sp = .C
    · rw [if_pos hC, if_pos hC]
    · rw [if_neg hC, if_neg hC]
      simp only [Fp.exact, Fp.mul, Fp.div, if_neg h0, Fp.add, zero_add]

/-- LL nucleation, growth and oxidation at typical mass rates, in binary64. -/
example : ∃ (soot : ℝ) (gas : GasSp → ℝ), sootMassD binary64 (fin 1E-3) (fin 0) (fin 2E-2) (fin (-5E-3)) = fin soot ∧
    (∀ sp, gasSourcesD binary64 (Nucl.new .LL).ratio (Grow.new .LL).ratio (Oxid.new .LL).ratio (fin 1E-3) (fin 2E-2)
      (fin (-5E-3)) sp = fin (gas sp)) ∧ |soot + ∑ sp, gas sp| ≤ 1E-15 := by
  obtain ⟨h, h1, h2, h3, h4, h5⟩ := C91_binary64
  obtain ⟨s, -, g, hs, -, hg, hb, -⟩ := C91_mass binary64 _ _ _ h h1 h2 h3 h4 h5 .LL .LL .LL (by simp) 1E-3 2E-2 (-5E-3)
    (by simp) (by simp) (by simp) (by norm_num; linarith) (by norm_num; linarith) (by norm_num [abs_of_neg]; linarith)
  refine ⟨s, g, hs, hg, hb.trans ?_⟩
  have e : (2 : ℝ) ^ (-1075 : ℤ) ≤ 2 ^ (-100 : ℤ) := zpow_le_zpow_right₀ (by norm_num) (by norm_num)
  have : |(-5E-3 : ℝ)| = 5E-3 := by norm_num [abs_of_neg]
  rw [this, abs_of_nonneg (by norm_num), abs_of_nonneg (by norm_num)]
  have e2 : (2 : ℝ) ^ (-100 : ℤ) ≤ 1E-30 := by norm_num
  have e3 : (2 : ℝ) ^ (-53 : ℤ) ≤ 1.2E-16 := by norm_num
  norm_num at *
  linarith

end Soot
