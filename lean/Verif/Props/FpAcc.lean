import Verif.Fp
import Mathlib.Analysis.SpecialFunctions.Pow.Real
import Mathlib.Analysis.Complex.ExponentialBounds

/-!
# Accuracy of floating-point expressions (for C99)

In the range `[10⁻³⁰⁰, 10³⁰⁰]` every operation and library function has a relative error of at most `ε`; exponentials of negative
numbers have an absolute error of at most `ε` (`Fp.Accurate`).  `Acc` follows the error and the size of a positive number
through an expression.
-/

namespace Soot

open Dbl
open scoped Classical

/-- Relative error `ε` for numbers of ordinary size; the same for the library functions. -/
structure Fp.Accurate (F : Fp) (ε : ℝ) : Prop where
  rnd : ∀ x, 10 ^ (-300 : ℤ) ≤ |x| → |x| ≤ 10 ^ (300 : ℤ) → ∃ y, F.rnd x = fin y ∧ |y - x| ≤ ε * |x|
  small : ∀ x, |x| ≤ 1 → ∃ y, F.rnd x = fin y ∧ |y - x| ≤ ε
  sqrt : ∀ x, 10 ^ (-300 : ℤ) ≤ x → x ≤ 10 ^ (300 : ℤ) → ∃ y, F.sqrt (fin x) = fin y ∧ |y - Real.sqrt x| ≤ ε * Real.sqrt x
  pow : ∀ x p, 0 < x → 10 ^ (-300 : ℤ) ≤ x ^ p → x ^ p ≤ 10 ^ (300 : ℤ) → ∃ y, F.pow (fin x) (fin p) = fin y ∧ |y - x ^ p| ≤ ε * x ^ p
  exp : ∀ x, x ≤ 0 → ∃ y, F.exp (fin x) = fin y ∧ |y - Real.exp x| ≤ ε

namespace FpK

/-- `d` is a double that agrees with `x` up to `n` errors of relative size `ε`, and `x` lies between `10^a` and `10^b`. -/
structure Acc (ε : ℝ) (n : ℕ) (a b : ℤ) (x : ℝ) (d : Dbl) : Prop where
  lo : (10 : ℝ) ^ a ≤ x
  hi : x ≤ (10 : ℝ) ^ b
  val : ∃ y, d = fin y ∧ x * (1 - ε) ^ n ≤ y ∧ y * (1 - ε) ^ n ≤ x

section

variable {F : Fp} {ε : ℝ}

/-- The size of `ε` assumed throughout. -/
structure Sm (ε : ℝ) : Prop where
  pos : 0 ≤ ε
  le : ε ≤ 1 / 10 ^ 8

theorem Sm.one (h : Sm ε) : 0 < 1 - ε := by have := h.le; norm_num at this; linarith
theorem Sm.pw (h : Sm ε) (n : ℕ) : 0 < (1 - ε) ^ n := pow_pos h.one n
theorem Sm.pw_le (h : Sm ε) (n : ℕ) : (1 - ε) ^ n ≤ 1 := pow_le_one₀ h.one.le (by linarith [h.pos])

/-- Bernoulli. -/
theorem Sm.bern (h : Sm ε) (n : ℕ) : 1 - n * ε ≤ (1 - ε) ^ n := by
  have := one_add_mul_le_pow (a := -ε) (by have := h.le; norm_num at this; linarith) n
  have e : (1 + -ε) = 1 - ε := by ring
  rw [e] at this
  linarith

theorem Sm.half (h : Sm ε) {n : ℕ} (hn : n ≤ 10000) : 0.9999 ≤ (1 - ε) ^ n := by
  have h1 := h.bern n
  have h2 : (n : ℝ) ≤ 10000 := by exact_mod_cast hn
  have h3 := h.le
  have h4 := h.pos
  have h5 : (n : ℝ) * ε ≤ 10000 * (1 / 10 ^ 8) := mul_le_mul h2 h3 h4 (by norm_num)
  norm_num at h5 ⊢
  linarith

theorem Acc.pos {n : ℕ} {a b : ℤ} {x : ℝ} {d : Dbl} (h : Acc ε n a b x d) : 0 < x := lt_of_lt_of_le (by positivity) h.lo

theorem Acc.mono {n n' : ℕ} {a b a' b' : ℤ} {x : ℝ} {d : Dbl} (hε : Sm ε) (h : Acc ε n a b x d) (hn : n ≤ n') (ha : a' ≤ a) (hb : b ≤ b') :
    Acc ε n' a' b' x d := by
  obtain ⟨y, hy, h1, h2⟩ := h.val
  have hp : (1 - ε) ^ n' ≤ (1 - ε) ^ n := pow_le_pow_of_le_one hε.one.le (by linarith [hε.pos]) hn
  have y0 : 0 ≤ y := le_trans (mul_nonneg h.pos.le (hε.pw n).le) h1
  exact ⟨(zpow_le_zpow_right₀ (by norm_num) ha).trans h.lo, h.hi.trans (zpow_le_zpow_right₀ (by norm_num) hb),
    y, hy, (mul_le_mul_of_nonneg_left hp h.pos.le).trans h1, (mul_le_mul_of_nonneg_left hp y0).trans h2⟩

/-- A better range for the same number. -/
theorem Acc.range {n : ℕ} {a b a' b' : ℤ} {x : ℝ} {d : Dbl} (h : Acc ε n a b x d) (ha : (10 : ℝ) ^ a' ≤ x) (hb : x ≤ (10 : ℝ) ^ b') :
    Acc ε n a' b' x d := ⟨ha, hb, h.val⟩

theorem Acc.of_eq {n : ℕ} {a b : ℤ} {x x' : ℝ} {d : Dbl} (h : Acc ε n a b x d) (e : x' = x) : Acc ε n a b x' d := e ▸ h

/-- A double that is exactly right. -/
theorem Acc.exact {a b : ℤ} {x : ℝ} (ha : (10 : ℝ) ^ a ≤ x) (hb : x ≤ (10 : ℝ) ^ b) : Acc ε 0 a b x (fin x) :=
  ⟨ha, hb, x, rfl, by simp, by simp⟩

/-- One more rounding. -/
theorem rel_step (hε : Sm ε) {n : ℕ} {x y z : ℝ} (hx : 0 < x) (h1 : x * (1 - ε) ^ n ≤ y) (h2 : y * (1 - ε) ^ n ≤ x) (hz : |z - y| ≤ ε * |y|) :
    x * (1 - ε) ^ (n + 1) ≤ z ∧ z * (1 - ε) ^ (n + 1) ≤ x := by
  have y0 : 0 < y := lt_of_lt_of_le (mul_pos hx (hε.pw n)) h1
  rw [abs_of_pos y0, abs_le] at hz
  have o := hε.one
  have p := hε.pw n
  constructor
  · calc x * (1 - ε) ^ (n + 1) = x * (1 - ε) ^ n * (1 - ε) := by ring
      _ ≤ y * (1 - ε) := mul_le_mul_of_nonneg_right h1 o.le
      _ ≤ z := by linarith [hz.1]
  · have : z * (1 - ε) ≤ y := by
      have : z ≤ y * (1 + ε) := by linarith [hz.2]
      have := mul_le_mul_of_nonneg_right this o.le
      nlinarith [hε.pos, mul_nonneg y0.le (mul_nonneg hε.pos hε.pos)]
    calc z * (1 - ε) ^ (n + 1) = z * (1 - ε) * (1 - ε) ^ n := by ring
      _ ≤ y * (1 - ε) ^ n := mul_le_mul_of_nonneg_right this p.le
      _ ≤ x := h2

/-- The computed number stays within a factor ten. -/
theorem near_range (hε : Sm ε) {n : ℕ} (hn : n ≤ 10000) {a b : ℤ} {x y : ℝ} (ha : (10 : ℝ) ^ a ≤ x) (hb : x ≤ (10 : ℝ) ^ b)
    (h1 : x * (1 - ε) ^ n ≤ y) (h2 : y * (1 - ε) ^ n ≤ x) (la : -299 ≤ a) (lb : b ≤ 299) : 10 ^ (-300 : ℤ) ≤ y ∧ y ≤ 10 ^ (300 : ℤ) ∧ 0 < y := by
  have x0 : 0 < x := lt_of_lt_of_le (by positivity) ha
  have hh := hε.half hn
  have y0 : 0 < y := lt_of_lt_of_le (mul_pos x0 (hε.pw n)) h1
  refine ⟨?_, ?_, y0⟩
  · have e : (10 : ℝ) ^ (-299 : ℤ) ≤ x := (zpow_le_zpow_right₀ (by norm_num) la).trans ha
    have e2 : (10 : ℝ) ^ (-300 : ℤ) = 10 ^ (-299 : ℤ) * (1 / 10) := by rw [show (-300 : ℤ) = -299 - 1 by norm_num, zpow_sub_one₀ (by norm_num), one_div]
    rw [e2]
    have : x * (1 / 10) ≤ x * (1 - ε) ^ n := mul_le_mul_of_nonneg_left (by norm_num at hh ⊢; linarith) x0.le
    linarith
  · have e : x ≤ (10 : ℝ) ^ (299 : ℤ) := hb.trans (zpow_le_zpow_right₀ (by norm_num) lb)
    have e2 : (10 : ℝ) ^ (300 : ℤ) = 10 ^ (299 : ℤ) * 10 := by rw [show (300 : ℤ) = 299 + 1 by norm_num, zpow_add_one₀ (by norm_num)]
    rw [e2]
    have : y * (1 / 10) ≤ y * (1 - ε) ^ n := mul_le_mul_of_nonneg_left (by norm_num at hh ⊢; linarith) y0.le
    linarith

theorem rnd_acc (hF : F.Accurate ε) (hε : Sm ε) {n : ℕ} (hn : n ≤ 10000) {a b : ℤ} {x y : ℝ} (ha : (10 : ℝ) ^ a ≤ x) (hb : x ≤ (10 : ℝ) ^ b)
    (h1 : x * (1 - ε) ^ n ≤ y) (h2 : y * (1 - ε) ^ n ≤ x) (la : -299 ≤ a) (lb : b ≤ 299) : Acc ε (n + 1) a b x (F.rnd y) := by
  obtain ⟨r1, r2, y0⟩ := near_range hε hn ha hb h1 h2 la lb
  obtain ⟨z, hz, e⟩ := hF.rnd y (by rwa [abs_of_pos y0]) (by rwa [abs_of_pos y0])
  exact ⟨ha, hb, z, hz, rel_step hε (lt_of_lt_of_le (by positivity) ha) h1 h2 e⟩

/-- A literal. -/
theorem Acc.lit (hF : F.Accurate ε) (hε : Sm ε) {a b : ℤ} {x : ℝ} (ha : (10 : ℝ) ^ a ≤ x) (hb : x ≤ (10 : ℝ) ^ b) (la : -299 ≤ a) (lb : b ≤ 299) :
    Acc ε 1 a b x (F.rnd x) := rnd_acc hF hε (Nat.zero_le _) ha hb (by simp) (by simp) la lb

theorem mul_rel (hε : Sm ε) {m n : ℕ} {x y x' y' : ℝ} (hx : 0 < x) (hy : 0 < y) (h1 : x * (1 - ε) ^ m ≤ x') (h2 : x' * (1 - ε) ^ m ≤ x)
    (h3 : y * (1 - ε) ^ n ≤ y') (h4 : y' * (1 - ε) ^ n ≤ y) :
    x * y * (1 - ε) ^ (m + n) ≤ x' * y' ∧ x' * y' * (1 - ε) ^ (m + n) ≤ x * y := by
  have p := hε.pw m
  have q := hε.pw n
  have x0 : 0 < x' := lt_of_lt_of_le (mul_pos hx p) h1
  have y0 : 0 < y' := lt_of_lt_of_le (mul_pos hy q) h3
  constructor
  · calc x * y * (1 - ε) ^ (m + n) = (x * (1 - ε) ^ m) * (y * (1 - ε) ^ n) := by ring
      _ ≤ x' * y' := mul_le_mul h1 h3 (by positivity) x0.le
  · calc x' * y' * (1 - ε) ^ (m + n) = (x' * (1 - ε) ^ m) * (y' * (1 - ε) ^ n) := by ring
      _ ≤ x * y := mul_le_mul h2 h4 (by positivity) hx.le

theorem inv_rel (hε : Sm ε) {n : ℕ} {y y' : ℝ} (hy : 0 < y) (h3 : y * (1 - ε) ^ n ≤ y') (h4 : y' * (1 - ε) ^ n ≤ y) :
    y⁻¹ * (1 - ε) ^ n ≤ y'⁻¹ ∧ y'⁻¹ * (1 - ε) ^ n ≤ y⁻¹ := by
  have q := hε.pw n
  have y0 : 0 < y' := lt_of_lt_of_le (mul_pos hy q) h3
  constructor
  · rw [inv_mul_le_iff₀ hy, ← div_eq_mul_inv, le_div_iff₀ y0]; linarith
  · rw [inv_mul_le_iff₀ y0, ← div_eq_mul_inv, le_div_iff₀ hy]; linarith

theorem Acc.mul (hF : F.Accurate ε) (hε : Sm ε) {m n : ℕ} {a b c d : ℤ} {x y : ℝ} {X Y : Dbl} (hx : Acc ε m a b x X) (hy : Acc ε n c d y Y)
    (hn : m + n ≤ 10000) (la : -299 ≤ a + c) (lb : b + d ≤ 299) : Acc ε (m + n + 1) (a + c) (b + d) (x * y) (F.mul X Y) := by
  obtain ⟨x', rfl, h1, h2⟩ := hx.val
  obtain ⟨y', rfl, h3, h4⟩ := hy.val
  obtain ⟨h5, h6⟩ := mul_rel hε hx.pos hy.pos h1 h2 h3 h4
  have x0 := hx.pos
  have y0 := hy.pos
  refine rnd_acc hF hε hn ?_ ?_ h5 h6 la lb
  · rw [zpow_add₀ (by norm_num)]; exact mul_le_mul hx.lo hy.lo (by positivity) x0.le
  · rw [zpow_add₀ (by norm_num)]; exact mul_le_mul hx.hi hy.hi y0.le (by positivity)

theorem Acc.div (hF : F.Accurate ε) (hε : Sm ε) {m n : ℕ} {a b c d : ℤ} {x y : ℝ} {X Y : Dbl} (hx : Acc ε m a b x X) (hy : Acc ε n c d y Y)
    (hn : m + n ≤ 10000) (la : -299 ≤ a - d) (lb : b - c ≤ 299) : Acc ε (m + n + 1) (a - d) (b - c) (x / y) (F.div X Y) := by
  obtain ⟨x', rfl, h1, h2⟩ := hx.val
  obtain ⟨y', rfl, h3, h4⟩ := hy.val
  obtain ⟨i1, i2⟩ := inv_rel hε hy.pos h3 h4
  obtain ⟨h5, h6⟩ := mul_rel hε hx.pos (inv_pos.2 hy.pos) h1 h2 i1 i2
  have x0 := hx.pos
  have y0 := hy.pos
  have y1 : 0 < y' := lt_of_lt_of_le (mul_pos y0 (hε.pw n)) h3
  rw [← div_eq_mul_inv, ← div_eq_mul_inv] at h5 h6
  rw [show F.div (fin x') (fin y') = F.rnd (x' / y') by simp [Fp.div, y1.ne']]
  refine rnd_acc hF hε hn ?_ ?_ h5 h6 la lb
  · rw [zpow_sub₀ (by norm_num)]; exact div_le_div₀ x0.le hx.lo y0 hy.hi
  · rw [zpow_sub₀ (by norm_num)]; exact div_le_div₀ (by positivity) hx.hi (by positivity) hy.lo

theorem add_rel {k : ℕ} {x y x' y' : ℝ} (h1 : x * (1 - ε) ^ k ≤ x') (h2 : x' * (1 - ε) ^ k ≤ x)
    (h3 : y * (1 - ε) ^ k ≤ y') (h4 : y' * (1 - ε) ^ k ≤ y) :
    (x + y) * (1 - ε) ^ k ≤ x' + y' ∧ (x' + y') * (1 - ε) ^ k ≤ x + y := ⟨by linarith, by linarith⟩

theorem Acc.add (hF : F.Accurate ε) (hε : Sm ε) {m n : ℕ} {a b c d : ℤ} {x y : ℝ} {X Y : Dbl} (hx : Acc ε m a b x X) (hy : Acc ε n c d y Y)
    (k : ℕ) (e f : ℤ) (hm : m ≤ k) (hn : n ≤ k) (hk : k ≤ 10000) (he : e ≤ a ∨ e ≤ c) (hb : b < f) (hd : d < f) (la : -299 ≤ e) (lb : f ≤ 299) :
    Acc ε (k + 1) e f (x + y) (F.add X Y) := by
  have hx' := hx.mono hε hm (le_refl a) (le_refl b)
  have hy' := hy.mono hε hn (le_refl c) (le_refl d)
  obtain ⟨x', rfl, h1, h2⟩ := hx'.val
  obtain ⟨y', rfl, h3, h4⟩ := hy'.val
  obtain ⟨h5, h6⟩ := add_rel h1 h2 h3 h4
  have x0 := hx.pos
  have y0 := hy.pos
  refine rnd_acc hF hε hk ?_ ?_ h5 h6 la lb
  · rcases he with he | he
    · have := (zpow_le_zpow_right₀ (by norm_num : (1 : ℝ) ≤ 10) he).trans hx.lo
      linarith
    · have := (zpow_le_zpow_right₀ (by norm_num : (1 : ℝ) ≤ 10) he).trans hy.lo
      linarith
  · have h7 : (10 : ℝ) ^ b ≤ 10 ^ (f - 1) := zpow_le_zpow_right₀ (by norm_num) (by omega)
    have h8 : (10 : ℝ) ^ d ≤ 10 ^ (f - 1) := zpow_le_zpow_right₀ (by norm_num) (by omega)
    have h9 : (10 : ℝ) ^ f = 10 ^ (f - 1) * 10 := by rw [← zpow_add_one₀ (by norm_num)]; congr 1; ring
    have h10 : (0 : ℝ) < 10 ^ (f - 1) := by positivity
    have := hx.hi
    have := hy.hi
    linarith

theorem sqrt_rel (hε : Sm ε) {n : ℕ} {x x' : ℝ} (hx : 0 < x) (h1 : x * (1 - ε) ^ n ≤ x') (h2 : x' * (1 - ε) ^ n ≤ x) :
    Real.sqrt x * (1 - ε) ^ n ≤ Real.sqrt x' ∧ Real.sqrt x' * (1 - ε) ^ n ≤ Real.sqrt x := by
  have p := hε.pw n
  have p1 := hε.pw_le n
  have key : ∀ u v : ℝ, u * (1 - ε) ^ n ≤ v → 0 ≤ u → Real.sqrt u * (1 - ε) ^ n ≤ Real.sqrt v := by
    intro u v huv hu
    apply Real.le_sqrt_of_sq_le
    rw [mul_pow, Real.sq_sqrt hu]
    have : ((1 - ε) ^ n) ^ 2 ≤ (1 - ε) ^ n := by nlinarith
    exact (mul_le_mul_of_nonneg_left this hu).trans huv
  have x0 : 0 < x' := lt_of_lt_of_le (mul_pos hx p) h1
  exact ⟨key _ _ h1 hx.le, key _ _ h2 x0.le⟩

theorem Acc.sqrt (hF : F.Accurate ε) (hε : Sm ε) {n : ℕ} {a b : ℤ} {x : ℝ} {X : Dbl} (hx : Acc ε n a b x X) (e f : ℤ) (hn : n ≤ 10000)
    (la : -299 ≤ a) (lb : b ≤ 299) (he : 2 * e ≤ a) (hf : b ≤ 2 * f) : Acc ε (n + 1) e f (Real.sqrt x) (F.sqrt X) := by
  obtain ⟨x', rfl, h1, h2⟩ := hx.val
  obtain ⟨r1, r2, x0⟩ := near_range hε hn hx.lo hx.hi h1 h2 la lb
  obtain ⟨z, hz, e'⟩ := hF.sqrt x' r1 r2
  obtain ⟨h5, h6⟩ := sqrt_rel hε hx.pos h1 h2
  have hs := Real.sqrt_pos.2 hx.pos
  refine ⟨?_, ?_, z, hz, rel_step hε hs h5 h6 (by rwa [abs_of_nonneg (Real.sqrt_nonneg x')])⟩
  · apply Real.le_sqrt_of_sq_le
    rw [← zpow_natCast, ← zpow_mul]
    exact (zpow_le_zpow_right₀ (by norm_num) (by push_cast; omega)).trans hx.lo
  · apply Real.sqrt_le_iff.2 ⟨by positivity, ?_⟩
    rw [← zpow_natCast, ← zpow_mul]
    exact hx.hi.trans (zpow_le_zpow_right₀ (by norm_num) (by push_cast; omega))

/-- The logarithm of a number between powers of ten. -/
theorem log_bound {a b : ℤ} {x : ℝ} (ha : (10 : ℝ) ^ a ≤ x) (hb : x ≤ (10 : ℝ) ^ b) {M : ℝ} (h1 : -M ≤ a) (h2 : (b : ℝ) ≤ M) :
    |Real.log x| ≤ 2.4 * M := by
  have x0 : 0 < x := lt_of_lt_of_le (by positivity) ha
  have l10 : Real.log 10 ≤ 2.4 := by
    have e : (10 : ℝ) = 2 ^ 3 * (5 / 4) := by norm_num
    have h2 := Real.log_two_lt_d9
    have h3 : Real.log (5 / 4) ≤ 5 / 4 - 1 := Real.log_le_sub_one_of_pos (by norm_num)
    rw [e, Real.log_mul (by norm_num) (by norm_num), Real.log_pow]
    push_cast
    linarith
  have l0 : 0 ≤ Real.log 10 := Real.log_nonneg (by norm_num)
  have e1 := Real.log_le_log (by positivity) ha
  have e2 := Real.log_le_log x0 hb
  rw [Real.log_zpow] at e1 e2
  have M0 : -M ≤ M := by
    have : (a : ℝ) ≤ b := by
      have := (zpow_le_zpow_iff_right₀ (by norm_num : (1 : ℝ) < 10)).1 (ha.trans hb)
      exact_mod_cast this
    linarith
  rw [abs_le]
  constructor <;> nlinarith


/-- Relative closeness in terms of logarithms. -/
theorem rel_log (hε : Sm ε) {n : ℕ} {x y : ℝ} (hx : 0 < x) (hy : 0 < y) :
    x * (1 - ε) ^ n ≤ y ↔ Real.log x + n * Real.log (1 - ε) ≤ Real.log y := by
  rw [← Real.log_le_log_iff (mul_pos hx (hε.pw n)) hy, Real.log_mul hx.ne' (hε.pw n).ne', Real.log_pow]

theorem log_one (hε : Sm ε) : Real.log (1 - ε) ≤ -ε := by
  have := Real.log_le_sub_one_of_pos hε.one
  linarith

/-- A power whose exponent is a computed fraction. -/
theorem Acc.pow (hF : F.Accurate ε) (hε : Sm ε) {n : ℕ} {a b c d : ℤ} {x p : ℝ} {X P : Dbl} (hx : Acc ε n a b x X) (hp : Acc ε 3 c d p P) (k : ℕ)
    (e f : ℤ) (M : ℝ) (h1 : -M ≤ a) (h2 : (b : ℝ) ≤ M) (hk : 1.001 * p * n + 7.7 * p * M ≤ k) (hk1 : k ≤ 10000) (he : (e : ℝ) ≤ a * p)
    (hf : b * p ≤ (f : ℝ)) (la : -299 ≤ e) (lb : f ≤ 299) : Acc ε (k + 1) e f (x ^ p) (F.pow X P) := by
  obtain ⟨x', rfl, hx1, hx2⟩ := hx.val
  obtain ⟨p', rfl, hp1, hp2⟩ := hp.val
  have x0 := hx.pos
  have p0 := hp.pos
  have x0' : 0 < x' := lt_of_lt_of_le (mul_pos x0 (hε.pw n)) hx1
  have p0' : 0 < p' := lt_of_lt_of_le (mul_pos p0 (hε.pw 3)) hp1
  have L := log_bound hx.lo hx.hi h1 h2
  have l1 := (rel_log hε x0 x0').1 hx1
  have l2 := (rel_log hε x0' x0).1 hx2
  have lo := log_one hε
  have ε0 := hε.pos
  have ε1 : ε ≤ 1e-7 := by have := hε.le; norm_num at this ⊢; linarith
  have b3 := hε.bern 3
  push_cast at b3
  -- the exponent
  have q1 : p - p' ≤ 3 * ε * p := by nlinarith [mul_le_mul_of_nonneg_left b3 p0.le]
  have q2 : p' ≤ 1.001 * p := by
    have : p' * (1 - 3 * ε) ≤ p := (mul_le_mul_of_nonneg_left b3 p0'.le).trans hp2
    have h3 : p' * 0.9999 ≤ p' * (1 - 3 * ε) := mul_le_mul_of_nonneg_left (by norm_num at ε1 ⊢; linarith) p0'.le
    norm_num at h3 ⊢
    linarith
  have q3 : p' - p ≤ 3.01 * ε * p := by
    have : p' * (1 - 3 * ε) ≤ p := (mul_le_mul_of_nonneg_left b3 p0'.le).trans hp2
    have h3 := mul_le_mul_of_nonneg_left q2 ε0
    have : p' - p ≤ 3 * (ε * p') := by linarith
    have : (0 : ℝ) ≤ ε * p := by positivity
    norm_num at h3 ⊢
    linarith
  have q4 : |p' - p| ≤ 3.01 * ε * p := by
    rw [abs_le]
    have : (0 : ℝ) ≤ ε * p := by positivity
    constructor
    · norm_num at *; linarith
    · exact q3
  -- the logarithm of the result
  set lam := -Real.log (1 - ε) with hlam
  have lam0 : 0 ≤ lam := by linarith
  have lam1 : ε ≤ lam := by linarith
  have hl : |Real.log x' - Real.log x| ≤ n * lam := by
    have hnl : (n : ℝ) * lam = -(n * Real.log (1 - ε)) := by rw [hlam]; ring
    rw [abs_le]; constructor <;> linarith
  have key : |p' * Real.log x' - p * Real.log x| ≤ k * lam := by
    have e0 : p' * Real.log x' - p * Real.log x = p' * (Real.log x' - Real.log x) + (p' - p) * Real.log x := by ring
    have e1 : |p' * (Real.log x' - Real.log x)| ≤ 1.001 * p * (n * lam) := by
      rw [abs_mul, abs_of_pos p0']
      exact mul_le_mul q2 hl (abs_nonneg _) (by positivity)
    have e2 : |(p' - p) * Real.log x| ≤ 3.01 * ε * p * (2.4 * M) := by
      rw [abs_mul]
      exact mul_le_mul q4 L (abs_nonneg _) (by positivity)
    have M0 : 0 ≤ M := by have := (abs_nonneg _).trans L; norm_num at this; linarith
    have e3 : 3.01 * ε * p * (2.4 * M) ≤ 7.7 * p * M * lam := by
      have : ε * (p * M) ≤ lam * (p * M) := mul_le_mul_of_nonneg_right lam1 (by positivity)
      have h0 : 0 ≤ lam * (p * M) := by positivity
      have e5 : 3.01 * ε * p * (2.4 * M) = 7.224 * (ε * (p * M)) := by norm_num; ring
      have e6 : 7.7 * p * M * lam = 7.7 * (lam * (p * M)) := by ring
      rw [e5, e6]
      norm_num
      linarith
    have e4 := mul_le_mul_of_nonneg_right hk lam0
    rw [e0]
    refine (abs_add_le _ _).trans ?_
    have e5 : (1.001 * p * n + 7.7 * p * M) * lam = 1.001 * p * (n * lam) + 7.7 * p * M * lam := by ring
    linarith
  rw [abs_le] at key
  have y0 : 0 < x' ^ p' := Real.rpow_pos_of_pos x0' _
  have z0 : 0 < x ^ p := Real.rpow_pos_of_pos x0 _
  have hkl : (k : ℝ) * lam = -(k * Real.log (1 - ε)) := by rw [hlam]; ring
  have g1 : x ^ p * (1 - ε) ^ k ≤ x' ^ p' := by
    rw [rel_log hε z0 y0, Real.log_rpow x0, Real.log_rpow x0']; linarith [key.1]
  have g2 : x' ^ p' * (1 - ε) ^ k ≤ x ^ p := by
    rw [rel_log hε y0 z0, Real.log_rpow x0, Real.log_rpow x0']; linarith [key.2]
  have ten : ∀ z : ℤ, (10 : ℝ) ^ z = (10 : ℝ) ^ (z : ℝ) := fun z => (Real.rpow_intCast 10 z).symm
  have r1 : (10 : ℝ) ^ e ≤ x ^ p := by
    calc (10 : ℝ) ^ e ≤ (10 : ℝ) ^ ((a : ℝ) * p) := by
          rw [ten]; exact Real.rpow_le_rpow_of_exponent_le (by norm_num) he
      _ = ((10 : ℝ) ^ a) ^ p := by rw [ten, ← Real.rpow_mul (by norm_num)]
      _ ≤ x ^ p := Real.rpow_le_rpow (by positivity) hx.lo p0.le
  have r2 : x ^ p ≤ (10 : ℝ) ^ f := by
    calc x ^ p ≤ ((10 : ℝ) ^ b) ^ p := Real.rpow_le_rpow x0.le hx.hi p0.le
      _ = (10 : ℝ) ^ ((b : ℝ) * p) := by rw [ten, ← Real.rpow_mul (by norm_num)]
      _ ≤ (10 : ℝ) ^ f := by rw [ten f]; exact Real.rpow_le_rpow_of_exponent_le (by norm_num) hf
  obtain ⟨s1, s2, -⟩ := near_range hε hk1 r1 r2 g1 g2 la lb
  obtain ⟨z, hz, ez⟩ := hF.pow x' p' x0' s1 s2
  exact ⟨r1, r2, z, hz, rel_step hε z0 g1 g2 (by rwa [abs_of_pos y0])⟩

/-- Exponentials of close exponents are close. -/
theorem exp_close {s t q : ℝ} (hs : 0 < s) (hst : s ≤ t) (hq : 0.9999 ≤ q) (hq1 : q ≤ 1) (h : t * q ≤ s) :
    0 ≤ Real.exp (-s) - Real.exp (-t) ∧ Real.exp (-s) - Real.exp (-t) ≤ 1.001 * (1 - q) := by
  constructor
  · have := Real.exp_le_exp.2 (show -t ≤ -s by linarith)
    linarith
  · have h1 : Real.exp (-t) = Real.exp (-s) * Real.exp (-(t - s)) := by rw [← Real.exp_add]; congr 1; ring
    have h2 := Real.add_one_le_exp (-(t - s))
    have h3 := Real.add_one_le_exp s
    have h4 : s * Real.exp (-s) ≤ 1 := by
      have : Real.exp s * Real.exp (-s) = 1 := by rw [← Real.exp_add]; simp
      have := mul_le_mul_of_nonneg_right (show s ≤ Real.exp s by linarith) (Real.exp_pos (-s)).le
      linarith
    have h5 : t - s ≤ 1.001 * (1 - q) * s := by
      have q0 : 0 < q := by norm_num at hq; linarith
      have ht : t ≤ s / q := by rwa [le_div_iff₀ q0]
      have : s / q ≤ s * (1 + 1.001 * (1 - q)) := by
        rw [div_le_iff₀ q0]
        norm_num at hq ⊢
        nlinarith [mul_nonneg hs.le (show 0 ≤ 1 - q by linarith)]
      linarith
    have e0 := Real.exp_pos (-s)
    have d0 : 0 ≤ 1.001 * (1 - q) := by norm_num; linarith
    rw [h1]
    have h6 : Real.exp (-s) * (t - s) ≤ Real.exp (-s) * (1.001 * (1 - q) * s) := mul_le_mul_of_nonneg_left h5 e0.le
    nlinarith

/-- From an absolute to a relative error. -/
theorem abs_rel (hε : Sm ε) {J : ℕ} (hJ : J ≤ 10000) {j S S' : ℝ} (j0 : 0 ≤ j) (hS : 0 < S) (hj : 1.001 * j ≤ S * J) (h : |S' - S| ≤ j * ε) :
    S * (1 - ε) ^ J ≤ S' ∧ S' * (1 - ε) ^ J ≤ S := by
  have ε0 := hε.pos
  have p := hε.pw J
  have bb := one_add_mul_le_pow (a := ε) (by linarith) J
  have prod : (1 - ε) ^ J * (1 + ε) ^ J ≤ 1 := by
    rw [← mul_pow]; exact pow_le_one₀ (by nlinarith [hε.one]) (by nlinarith)
  have h1 : (1 - ε) ^ J * (1 + J * ε) ≤ 1 := (mul_le_mul_of_nonneg_left bb p.le).trans prod
  have Je : (J : ℝ) * ε ≤ 0.001 := by
    have h2 : (J : ℝ) ≤ 10000 := by exact_mod_cast hJ
    have := mul_le_mul h2 hε.le ε0 (by norm_num)
    norm_num at this ⊢
    linarith
  rw [abs_le] at h
  have J0 : (0 : ℝ) ≤ J * ε := by positivity
  constructor
  · have h2 : S * ((1 - ε) ^ J * (1 + J * ε)) ≤ S * 1 := mul_le_mul_of_nonneg_left h1 hS.le
    have h3 : S ≤ (S - j * ε) * (1 + J * ε) := by
      have a1 : 0 ≤ j * ε := by positivity
      have a2 := mul_le_mul_of_nonneg_right hj ε0
      have a3 : j * ε * (J * ε) ≤ j * ε * 0.001 := mul_le_mul_of_nonneg_left Je a1
      norm_num at a2 a3 ⊢
      nlinarith
    have h4 : S * (1 - ε) ^ J * (1 + J * ε) ≤ (S - j * ε) * (1 + J * ε) := by linarith
    have := le_of_mul_le_mul_right h4 (by linarith)
    linarith
  · have h3 : S + j * ε ≤ S * (1 + J * ε) := by
      have a2 := mul_le_mul_of_nonneg_right hj ε0
      have : j * ε ≤ 1.001 * j * ε := by norm_num; nlinarith [mul_nonneg j0 ε0]
      nlinarith
    have h4 : S' * (1 - ε) ^ J ≤ S * (1 + J * ε) * (1 - ε) ^ J := mul_le_mul_of_nonneg_right (by linarith) p.le
    have h2 : S * ((1 - ε) ^ J * (1 + J * ε)) ≤ S * 1 := mul_le_mul_of_nonneg_left h1 hS.le
    linarith

/-- A power with an exact exponent. -/
theorem Acc.powE (hF : F.Accurate ε) (hε : Sm ε) {n : ℕ} {a b : ℤ} {x : ℝ} {X : Dbl} (hx : Acc ε n a b x X) (p : ℝ) (p0 : 0 < p) (k : ℕ) (e f : ℤ)
    (hk : p * n ≤ k) (hk1 : k ≤ 10000) (he : (e : ℝ) ≤ a * p) (hf : b * p ≤ (f : ℝ)) (la : -299 ≤ e) (lb : f ≤ 299) :
    Acc ε (k + 1) e f (x ^ p) (F.pow X (fin p)) := by
  obtain ⟨x', rfl, hx1, hx2⟩ := hx.val
  have x0 := hx.pos
  have x0' : 0 < x' := lt_of_lt_of_le (mul_pos x0 (hε.pw n)) hx1
  have l1 := (rel_log hε x0 x0').1 hx1
  have l2 := (rel_log hε x0' x0).1 hx2
  have lo : Real.log (1 - ε) ≤ 0 := by have := log_one hε; linarith [hε.pos]
  have hkl := mul_le_mul_of_nonpos_right hk lo
  have y0 : 0 < x' ^ p := Real.rpow_pos_of_pos x0' _
  have z0 : 0 < x ^ p := Real.rpow_pos_of_pos x0 _
  have m1 := mul_le_mul_of_nonneg_left l1 p0.le
  have m2 := mul_le_mul_of_nonneg_left l2 p0.le
  have g1 : x ^ p * (1 - ε) ^ k ≤ x' ^ p := by
    rw [rel_log hε z0 y0, Real.log_rpow x0, Real.log_rpow x0']; linarith
  have g2 : x' ^ p * (1 - ε) ^ k ≤ x ^ p := by
    rw [rel_log hε y0 z0, Real.log_rpow x0, Real.log_rpow x0']; linarith
  have ten : ∀ z : ℤ, (10 : ℝ) ^ z = (10 : ℝ) ^ (z : ℝ) := fun z => (Real.rpow_intCast 10 z).symm
  have r1 : (10 : ℝ) ^ e ≤ x ^ p := by
    calc (10 : ℝ) ^ e ≤ (10 : ℝ) ^ ((a : ℝ) * p) := by
          rw [ten]; exact Real.rpow_le_rpow_of_exponent_le (by norm_num) he
      _ = ((10 : ℝ) ^ a) ^ p := by rw [ten, ← Real.rpow_mul (by norm_num)]
      _ ≤ x ^ p := Real.rpow_le_rpow (by positivity) hx.lo p0.le
  have r2 : x ^ p ≤ (10 : ℝ) ^ f := by
    calc x ^ p ≤ ((10 : ℝ) ^ b) ^ p := Real.rpow_le_rpow x0.le hx.hi p0.le
      _ = (10 : ℝ) ^ ((b : ℝ) * p) := by rw [ten, ← Real.rpow_mul (by norm_num)]
      _ ≤ (10 : ℝ) ^ f := by rw [ten f]; exact Real.rpow_le_rpow_of_exponent_le (by norm_num) hf
  obtain ⟨s1, s2, -⟩ := near_range hε hk1 r1 r2 g1 g2 la lb
  obtain ⟨z, hz, ez⟩ := hF.pow x' p x0' s1 s2
  exact ⟨r1, r2, z, hz, rel_step hε z0 g1 g2 (by rwa [abs_of_pos y0])⟩

/-- The error as a number. -/
theorem rel_err (hε : Sm ε) {n : ℕ} (hn : n ≤ 10000) {x y : ℝ} (hx : 0 < x) (h1 : x * (1 - ε) ^ n ≤ y) (h2 : y * (1 - ε) ^ n ≤ x) :
    |y - x| ≤ 1.001 * n * ε * x := by
  have hb := hε.bern n
  have hh := hε.half hn
  have p := hε.pw n
  have y0 : 0 < y := lt_of_lt_of_le (mul_pos hx p) h1
  have nε : 0 ≤ n * ε := mul_nonneg (Nat.cast_nonneg n) hε.pos
  rw [abs_le]
  constructor
  · have := mul_le_mul_of_nonneg_left hb hx.le
    have : 0 ≤ n * ε * x := by positivity
    norm_num
    linarith
  · have e1 : y * (1 - n * ε) ≤ x := (mul_le_mul_of_nonneg_left hb y0.le).trans h2
    have e2 : y * 0.9999 ≤ x := (mul_le_mul_of_nonneg_left hh y0.le).trans h2
    have e3 : y ≤ 1.001 * x := by norm_num at e2 ⊢; linarith
    have e4 := mul_le_mul_of_nonneg_left e3 nε
    linarith

/-- Assuming larger errors. -/
theorem accurate_mono {ε' : ℝ} (h : ε ≤ ε') (hF : F.Accurate ε) : F.Accurate ε' where
  rnd x h1 h2 := by
    obtain ⟨y, hy, e⟩ := hF.rnd x h1 h2
    exact ⟨y, hy, e.trans (mul_le_mul_of_nonneg_right h (abs_nonneg _))⟩
  small x h1 := by
    obtain ⟨y, hy, e⟩ := hF.small x h1
    exact ⟨y, hy, e.trans h⟩
  sqrt x h1 h2 := by
    obtain ⟨y, hy, e⟩ := hF.sqrt x h1 h2
    exact ⟨y, hy, e.trans (mul_le_mul_of_nonneg_right h (Real.sqrt_nonneg _))⟩
  pow x p h1 h2 h3 := by
    obtain ⟨y, hy, e⟩ := hF.pow x p h1 h2 h3
    exact ⟨y, hy, e.trans (mul_le_mul_of_nonneg_right h (Real.rpow_nonneg h1.le _))⟩
  exp x h1 := by
    obtain ⟨y, hy, e⟩ := hF.exp x h1
    exact ⟨y, hy, e.trans h⟩

/-- Fewer errors of twice the size. -/
theorem Acc.coarse {ε' : ℝ} (hε : Sm ε) (hε' : Sm ε') (h : 2 * ε ≤ ε') {n m : ℕ} (hn : n ≤ 2 * m) {a b : ℤ} {x : ℝ} {d : Dbl} (hx : Acc ε n a b x d) :
    Acc ε' m a b x d := by
  have hp : (1 - ε') ^ m ≤ (1 - ε) ^ n := by
    calc (1 - ε') ^ m ≤ ((1 - ε) ^ 2) ^ m := pow_le_pow_left₀ hε'.one.le (by nlinarith [sq_nonneg ε]) m
      _ = (1 - ε) ^ (2 * m) := by rw [← pow_mul]
      _ ≤ (1 - ε) ^ n := pow_le_pow_of_le_one hε.one.le (by linarith [hε.pos]) hn
  obtain ⟨y, hy, h1, h2⟩ := hx.val
  have y0 : 0 ≤ y := le_trans (mul_nonneg hx.pos.le (hε.pw n).le) h1
  exact ⟨hx.lo, hx.hi, y, hy, (mul_le_mul_of_nonneg_left hp hx.pos.le).trans h1, (mul_le_mul_of_nonneg_left hp y0).trans h2⟩

/-! ## The slip correction -/

theorem slip_prod {n : ℕ} {E e' f : ℝ} (ε0 : 0 ≤ ε) (ε1 : ε ≤ 1e-7) (E0 : 0 ≤ E) (E1 : E ≤ 1) (e1 : |e' - E| ≤ (1.01 * n + 3.1) * ε)
    (e2 : |e' - E| ≤ 0.001) (ef : |f - 0.4| ≤ ε) : |f * e'| ≤ 0.42 ∧ |f * e' - 0.4 * E| ≤ (0.42 * n + 2.4) * ε := by
  have n0 : (0 : ℝ) ≤ n := Nat.cast_nonneg n
  have nε0 : 0 ≤ (n : ℝ) * ε := by positivity
  have a1 : |e'| ≤ 1.001 := by
    rw [abs_le] at e2 ⊢
    norm_num at e2 ⊢
    constructor <;> linarith [e2.1, e2.2]
  have f1 : |f| ≤ 0.4001 := by
    rw [abs_le] at ef ⊢
    norm_num at ef ε1 ⊢
    constructor <;> linarith [ef.1, ef.2]
  constructor
  · rw [abs_mul]
    exact (mul_le_mul f1 a1 (abs_nonneg _) (by norm_num)).trans (by norm_num)
  · have h0 : f * e' - 0.4 * E = f * (e' - E) + (f - 0.4) * E := by ring
    have h1 : |f * (e' - E)| ≤ 0.4001 * ((1.01 * n + 3.1) * ε) := by
      rw [abs_mul]; exact mul_le_mul f1 e1 (abs_nonneg _) (by norm_num)
    have h2 : |(f - 0.4) * E| ≤ ε * 1 := by
      rw [abs_mul, abs_of_nonneg E0]; exact mul_le_mul ef E1 E0 ε0
    rw [h0]
    refine (abs_add_le _ _).trans ((add_le_add h1 h2).trans ?_)
    norm_num
    linarith

theorem slip_sum {n : ℕ} {E p g h : ℝ} (ε0 : 0 ≤ ε) (ε1 : ε ≤ 1e-7) (nε : (n : ℝ) * ε ≤ 1e-4) (E0 : 0 ≤ E) (E1 : E ≤ 1)
    (e3 : |p - 0.4 * E| ≤ (0.42 * n + 2.4) * ε) (eg : |g - p| ≤ ε) (eh : |h - 1.257| ≤ ε * 1.257) :
    |h + g - (1.257 + 0.4 * E)| ≤ (0.42 * n + 4.7) * ε ∧ |h + g| ≤ 1.8 ∧ 1.2 ≤ |h + g| := by
  have nε0 : 0 ≤ (n : ℝ) * ε := mul_nonneg (Nat.cast_nonneg n) ε0
  have e5 : |h + g - (1.257 + 0.4 * E)| ≤ (0.42 * n + 4.7) * ε := by
    have h0 : h + g - (1.257 + 0.4 * E) = (h - 1.257) + ((g - p) + (p - 0.4 * E)) := by ring
    rw [h0]
    refine (abs_add_le _ _).trans ((add_le_add eh ((abs_add_le _ _).trans (add_le_add eg e3))).trans ?_)
    norm_num
    linarith
  have h7 : (0.42 * n + 4.7) * ε ≤ 0.01 := by norm_num at ε1 nε ⊢; linarith
  have := abs_le.1 (e5.trans h7)
  norm_num at this
  have pos : 0 < h + g := by linarith [this.1]
  rw [abs_of_pos pos]
  refine ⟨e5, ?_, ?_⟩
  · norm_num; linarith [this.2]
  · norm_num; linarith [this.1]

set_option maxHeartbeats 800000 in
theorem slip_inner (hF : F.Accurate ε) (hε : Sm ε) {n : ℕ} {a b : ℤ} {Kn : ℝ} {X : Dbl} (hK : Acc ε n a b Kn X) (hn : n ≤ 9000) (la : b ≤ 299)
    (lb : -298 ≤ a) : Acc ε (n + 8) 0 1 (1.257 + 0.4 * Real.exp (-1.1 / Kn))
      (F.add (F.rnd 1.257) (F.mul (F.rnd 0.4) (F.exp (F.div (F.rnd (-1.1)) X)))) := by
  have ε0 := hε.pos
  have ε1 : ε ≤ 1e-7 := by have := hε.le; norm_num at this ⊢; linarith
  obtain ⟨K', rfl, k1, k2⟩ := hK.val
  have K0 := hK.pos
  have K0' : 0 < K' := lt_of_lt_of_le (mul_pos K0 (hε.pw n)) k1
  -- the exponent
  obtain ⟨c, hc, ec⟩ := hF.rnd (-1.1) (by rw [abs_of_neg (by norm_num)]; refine le_trans (zpow_le_one_of_nonpos₀ (by norm_num) (by norm_num)) (by norm_num))
    (by rw [abs_of_neg (by norm_num)]; refine le_trans ?_ (zpow_le_zpow_right₀ (by norm_num) (show (1 : ℤ) ≤ 300 by norm_num)); norm_num)
  have ec' : |(-c) - 1.1| ≤ ε * |1.1| := by
    have e : |(-c) - 1.1| = |c - -1.1| := by rw [← abs_neg]; congr 1; ring
    rw [e]
    rwa [abs_neg] at ec
  obtain ⟨c1, c2⟩ := rel_step (n := 0) hε (show (0 : ℝ) < 1.1 by norm_num) (by simp) (by simp) ec'
  obtain ⟨i1, i2⟩ := inv_rel hε K0 k1 k2
  obtain ⟨z1, z2⟩ := mul_rel hε (show (0 : ℝ) < 1.1 by norm_num) (inv_pos.2 K0) c1 c2 i1 i2
  rw [← div_eq_mul_inv, ← div_eq_mul_inv] at z1 z2
  have rlo : (10 : ℝ) ^ (0 - b) ≤ 1.1 / Kn := by
    rw [zpow_sub₀ (by norm_num)]
    exact div_le_div₀ (by norm_num) (by norm_num) K0 hK.hi
  have rhi : 1.1 / Kn ≤ (10 : ℝ) ^ (1 - a) := by
    rw [zpow_sub₀ (by norm_num)]
    exact div_le_div₀ (by norm_num) (by norm_num) (by positivity) hK.lo
  obtain ⟨r1, r2, r0⟩ := near_range hε (show 0 + 1 + n ≤ 10000 by omega) rlo rhi z1 z2 (by omega) (by omega)
  obtain ⟨w, hw, ew⟩ := hF.rnd (c / K') (by rw [show c / K' = -(-c / K') by ring, abs_neg, abs_of_pos r0]; exact r1)
    (by rw [show c / K' = -(-c / K') by ring, abs_neg, abs_of_pos r0]; exact r2)
  have ew' : |(-w) - -c / K'| ≤ ε * |(-c / K')| := by
    have e : |(-w) - -c / K'| = |w - c / K'| := by rw [← abs_neg]; congr 1; ring
    rw [e, show -c / K' = -(c / K') by ring, abs_neg]
    exact ew
  obtain ⟨w1, w2⟩ := rel_step hε (show (0 : ℝ) < 1.1 / Kn by positivity) z1 z2 ew'
  set z := 1.1 / Kn with hz
  have z0 : 0 < z := by positivity
  have nw0 : 0 < -w := lt_of_lt_of_le (mul_pos z0 (hε.pw _)) w1
  -- the exponential
  obtain ⟨e', he', ee⟩ := hF.exp w (by linarith)
  have q1 := hε.half (show 0 + 1 + n + 1 ≤ 10000 by omega)
  have q2 := hε.pw_le (0 + 1 + n + 1)
  have q3 := hε.bern (0 + 1 + n + 1)
  set q := (1 - ε) ^ (0 + 1 + n + 1) with hq
  have q4 : 1 - q ≤ (n + 2) * ε := by push_cast at q3; linarith
  have hexp : |Real.exp w - Real.exp (-z)| ≤ 1.001 * ((n + 2) * ε) := by
    have := mul_le_mul_of_nonneg_left q4 (show (0 : ℝ) ≤ 1.001 by norm_num)
    rcases le_total z (-w) with h | h
    · obtain ⟨x1, x2⟩ := exp_close z0 h q1 q2 w2
      rw [neg_neg] at x1 x2
      rw [abs_le]; constructor <;> linarith
    · obtain ⟨x1, x2⟩ := exp_close nw0 h q1 q2 w1
      rw [neg_neg] at x1 x2
      rw [abs_le]; constructor <;> linarith
  have ez0 := Real.exp_pos (-z)
  have ez1 : Real.exp (-z) ≤ 1 := Real.exp_le_one_iff.2 (by linarith)
  have n0 : (0 : ℝ) ≤ n := Nat.cast_nonneg n
  have nε : (n : ℝ) * ε ≤ 1e-4 := by
    have h2 : (n : ℝ) ≤ 9000 := by exact_mod_cast hn
    have := mul_le_mul h2 hε.le ε0 (by norm_num)
    norm_num at this ⊢
    linarith
  have nε0 : 0 ≤ (n : ℝ) * ε := by positivity
  have e1 : |e' - Real.exp (-z)| ≤ (1.01 * n + 3.1) * ε := by
    have : |e' - Real.exp (-z)| ≤ |e' - Real.exp w| + |Real.exp w - Real.exp (-z)| := by
      calc _ = |(e' - Real.exp w) + (Real.exp w - Real.exp (-z))| := by congr 1; ring
        _ ≤ _ := abs_add_le _ _
    have h3 := this.trans (add_le_add ee hexp)
    refine h3.trans ?_
    norm_num
    linarith
  have e2 := e1.trans (show _ ≤ (0.001 : ℝ) by
    have := mul_nonneg n0 ε0
    norm_num at ε1 nε ⊢; linarith)
  obtain ⟨f, hf, ef⟩ := hF.small 0.4 (by rw [abs_of_pos (by norm_num)]; norm_num)
  obtain ⟨h, hh, eh⟩ := hF.rnd 1.257 (by rw [abs_of_pos (by norm_num)]; refine le_trans (zpow_le_one_of_nonpos₀ (by norm_num) (by norm_num)) (by norm_num))
    (by rw [abs_of_pos (by norm_num)]; refine le_trans ?_ (zpow_le_zpow_right₀ (by norm_num) (show (1 : ℤ) ≤ 300 by norm_num)); norm_num)
  obtain ⟨fe, e3⟩ := slip_prod ε0 ε1 ez0.le ez1 e1 e2 ef
  obtain ⟨g, hg, eg⟩ := hF.small (f * e') (fe.trans (by norm_num))
  rw [abs_of_pos (by norm_num : (0 : ℝ) < 1.257)] at eh
  obtain ⟨e5, e6, e6'⟩ := slip_sum ε0 ε1 nε ez0.le ez1 e3 eg eh
  set S := 1.257 + 0.4 * Real.exp (-z) with hS
  have S1 : 1.257 ≤ S := by have := mul_pos (show (0 : ℝ) < 0.4 by norm_num) ez0; linarith
  have S2 : S ≤ 1.7 := by
    have := mul_le_mul_of_nonneg_left ez1 (show (0 : ℝ) ≤ 0.4 by norm_num)
    rw [hS]; norm_num at this ⊢; linarith
  obtain ⟨v, hv, ev⟩ := hF.rnd (h + g)
    (by refine le_trans (zpow_le_one_of_nonpos₀ (by norm_num) (by norm_num)) (le_trans (by norm_num) e6'))
    (by refine le_trans (e6.trans ?_) (zpow_le_zpow_right₀ (by norm_num) (show (1 : ℤ) ≤ 300 by norm_num)); norm_num)
  have e7 : |v - S| ≤ (0.42 * n + 6.5) * ε := by
    have h1 : |v - S| ≤ |v - (h + g)| + |h + g - S| := by
      calc _ = |(v - (h + g)) + (h + g - S)| := by congr 1; ring
        _ ≤ _ := abs_add_le _ _
    have h2 := mul_le_mul_of_nonneg_left e6 ε0
    have h3 : (0.42 * n + 6.5) * ε = ε * 1.8 + (0.42 * n + 4.7) * ε := by ring
    rw [h3]
    linarith
  have fin1 := abs_rel hε (J := n + 8) (by omega) (j := 0.42 * n + 6.5) (by positivity) (by norm_num at S1; linarith)
    (by push_cast; norm_num at S1 ⊢; nlinarith) e7
  have ex : Real.exp (-1.1 / Kn) = Real.exp (-z) := by congr 1; rw [hz]; ring
  rw [ex]
  refine ⟨by norm_num at S1 ⊢; linarith, by norm_num at S2 ⊢; linarith, v, ?_, fin1⟩
  have hd : F.div (fin c) (fin K') = fin w := by simp only [Fp.div, K0'.ne', if_false, hw]
  rw [hc, hd, he', hf, hh]
  simp only [Fp.mul, hg, Fp.add, hv]

end

end FpK

end Soot
