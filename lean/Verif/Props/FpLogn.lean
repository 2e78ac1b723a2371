import Verif.FpLogn
import Verif.Props.MonoAccuracy
import Verif.Props.LognRun

/-!
# C113: tools for the accuracy of the lognormal model

The exponents of `Mr` are computed, so they carry an absolute error (`AbsE`), which `pow` turns into a relative error proportional to the logarithm of the
moment.  The harmonic mean is homogeneous, so it does not double the error of its arguments.
-/

namespace Soot

open Dbl Res
open scoped Classical

namespace FpK

variable {F : Fp} {ε : ℝ}

/-- `d` is a double within `c ε` of `x`. -/
def AbsE (ε c x : ℝ) (d : Dbl) : Prop := ∃ y, d = fin y ∧ |y - x| ≤ c * ε

theorem AbsE.exact (x : ℝ) : AbsE ε 0 x (fin x) := ⟨x, rfl, by simp⟩

theorem rnd_abs (hF : F.Accurate ε) (hε : Sm ε) {x K : ℝ} (hx : |x| ≤ K) (K1 : 1 ≤ K) (K2 : K ≤ 100) : ∃ y, F.rnd x = fin y ∧ |y - x| ≤ K * ε := by
  rcases le_total |x| 1 with h | h
  · obtain ⟨y, hy, e⟩ := hF.small x h
    exact ⟨y, hy, e.trans (le_mul_of_one_le_left hε.pos K1)⟩
  · have l : (10 : ℝ) ^ (-300 : ℤ) ≤ 1 := zpow_le_one_of_nonpos₀ (by norm_num) (by norm_num)
    have u : (100 : ℝ) ≤ 10 ^ (300 : ℤ) := by
      calc (100 : ℝ) = 10 ^ (2 : ℤ) := by norm_num
        _ ≤ _ := zpow_le_zpow_right₀ (by norm_num) (by norm_num)
    obtain ⟨y, hy, e⟩ := hF.rnd x (l.trans h) ((hx.trans K2).trans u)
    refine ⟨y, hy, e.trans ?_⟩
    rw [mul_comm]
    exact mul_le_mul_of_nonneg_right hx hε.pos

theorem AbsE.mono {c c' x : ℝ} {d : Dbl} (hε : Sm ε) (h : AbsE ε c x d) (hc : c ≤ c') : AbsE ε c' x d := by
  obtain ⟨y, hy, e⟩ := h
  exact ⟨y, hy, e.trans (mul_le_mul_of_nonneg_right hc hε.pos)⟩

theorem AbsE.neg {c x : ℝ} {d : Dbl} (h : AbsE ε c x d) : AbsE ε c (-x) (neg d) := by
  obtain ⟨y, rfl, e⟩ := h
  exact ⟨-y, rfl, by rw [show -y - -x = -(y - x) by ring, abs_neg]; exact e⟩

theorem AbsE.add (hF : F.Accurate ε) (hε : Sm ε) {c d x y A K : ℝ} {X Y : Dbl} (hx : AbsE ε c x X) (hy : AbsE ε d y Y) (hA : |x + y| ≤ A)
    (hcd : c + d ≤ 100) (hK : A + 0.001 ≤ K) (K1 : 1 ≤ K) (K2 : K ≤ 100) : AbsE ε (c + d + K) (x + y) (F.add X Y) := by
  obtain ⟨x', rfl, ex⟩ := hx
  obtain ⟨y', rfl, ey⟩ := hy
  have e1 := hε.le
  have e0 := hε.pos
  have s : |x' + y' - (x + y)| ≤ (c + d) * ε := by
    have := abs_add_le (x' - x) (y' - y)
    rw [show x' - x + (y' - y) = x' + y' - (x + y) by ring] at this
    linarith
  have t : (c + d) * ε ≤ 0.001 := by
    have := mul_le_mul_of_nonneg_right hcd e0
    norm_num at e1 ⊢; linarith
  have b : |x' + y'| ≤ K := by have := abs_sub_abs_le_abs_sub (x' + y') (x + y); linarith
  obtain ⟨z, hz, ez⟩ := rnd_abs hF hε b K1 K2
  refine ⟨z, hz, ?_⟩
  have := abs_add_le (z - (x' + y')) (x' + y' - (x + y))
  rw [show z - (x' + y') + (x' + y' - (x + y)) = z - (x + y) by ring] at this
  linarith

theorem AbsE.mul (hF : F.Accurate ε) (hε : Sm ε) {c d x y A B K : ℝ} {X Y : Dbl} (hx : AbsE ε c x X) (hy : AbsE ε d y Y) (hA : |x| ≤ A) (hB : |y| ≤ B)
    (A1 : A ≤ 10) (B1 : B ≤ 10) (c0 : 0 ≤ c) (d0 : 0 ≤ d) (c1 : c ≤ 100) (d1 : d ≤ 100) (hK : A * B + 0.001 ≤ K) (K1 : 1 ≤ K) (K2 : K ≤ 100) :
    AbsE ε (A * d + B * c + 0.001 + K) (x * y) (F.mul X Y) := by
  obtain ⟨x', rfl, ex⟩ := hx
  obtain ⟨y', rfl, ey⟩ := hy
  have e1 := hε.le
  have e0 := hε.pos
  have A0 : 0 ≤ A := (abs_nonneg x).trans hA
  have B0 : 0 ≤ B := (abs_nonneg y).trans hB
  have s : |x' * y' - x * y| ≤ (A * d + B * c + 0.001) * ε := by
    have h1 : |x * (y' - y)| ≤ A * (d * ε) := by rw [abs_mul]; exact mul_le_mul hA ey (abs_nonneg _) A0
    have h2 : |y * (x' - x)| ≤ B * (c * ε) := by rw [abs_mul]; exact mul_le_mul hB ex (abs_nonneg _) B0
    have h3 : |(x' - x) * (y' - y)| ≤ c * ε * (d * ε) := by rw [abs_mul]; exact mul_le_mul ex ey (abs_nonneg _) (by positivity)
    have h4 : c * ε * (d * ε) ≤ 0.001 * ε := by
      have : c * ε * d ≤ 100 * (1 / 10 ^ 8) * 100 := by gcongr
      calc c * ε * (d * ε) = c * ε * d * ε := by ring
        _ ≤ 100 * (1 / 10 ^ 8) * 100 * ε := mul_le_mul_of_nonneg_right this e0
        _ ≤ _ := mul_le_mul_of_nonneg_right (by norm_num) e0
    have := abs_add_le (x * (y' - y)) (y * (x' - x))
    have := abs_add_le (x * (y' - y) + y * (x' - x)) ((x' - x) * (y' - y))
    rw [show x * (y' - y) + y * (x' - x) + (x' - x) * (y' - y) = x' * y' - x * y by ring] at this
    linarith
  have t : (A * d + B * c + 0.001) * ε ≤ 0.001 := by
    have h1 : A * d ≤ 10 * 100 := mul_le_mul A1 d1 d0 (by norm_num)
    have h2 : B * c ≤ 10 * 100 := mul_le_mul B1 c1 c0 (by norm_num)
    have := mul_le_mul_of_nonneg_right (show A * d + B * c + 0.001 ≤ 2001 by norm_num at *; linarith) e0
    norm_num at e1 ⊢; linarith
  have p : |x * y| ≤ A * B := by rw [abs_mul]; exact mul_le_mul hA hB (abs_nonneg _) A0
  have b : |x' * y'| ≤ K := by have := abs_sub_abs_le_abs_sub (x' * y') (x * y); linarith
  obtain ⟨z, hz, ez⟩ := rnd_abs hF hε b K1 K2
  refine ⟨z, hz, ?_⟩
  have := abs_add_le (z - x' * y') (x' * y' - x * y)
  rw [show z - x' * y' + (x' * y' - x * y) = z - x * y by ring] at this
  linarith

/-- A power of a number between powers of ten. -/
theorem pow_range {x p P : ℝ} {M Q : ℕ} (h1 : (10 : ℝ) ^ (-(M : ℤ)) ≤ x) (h2 : x ≤ (10 : ℝ) ^ (M : ℤ)) (hp : |p| ≤ P) (hQ : M * P ≤ Q) :
    (10 : ℝ) ^ (-(Q : ℤ)) ≤ x ^ p ∧ x ^ p ≤ (10 : ℝ) ^ (Q : ℤ) := by
  have x0 : 0 < x := lt_of_lt_of_le (by positivity) h1
  have l10 : 0 < Real.log 10 := Real.log_pos (by norm_num)
  have e1 := Real.log_le_log (by positivity) h1
  have e2 := Real.log_le_log x0 h2
  rw [Real.log_zpow] at e1 e2
  push_cast at e1 e2
  have hl : |Real.log x| ≤ M * Real.log 10 := by rw [abs_le]; constructor <;> linarith
  have k : |p * Real.log x| ≤ Q * Real.log 10 := by
    rw [abs_mul]
    calc |p| * |Real.log x| ≤ P * (M * Real.log 10) := mul_le_mul hp hl (abs_nonneg _) ((abs_nonneg p).trans hp)
      _ = M * P * Real.log 10 := by ring
      _ ≤ _ := mul_le_mul_of_nonneg_right hQ l10.le
  rw [abs_le] at k
  have px : 0 < x ^ p := Real.rpow_pos_of_pos x0 p
  constructor
  · rw [← Real.log_le_log_iff (by positivity) px, Real.log_zpow, Real.log_rpow x0]; push_cast; linarith
  · rw [← Real.log_le_log_iff px (by positivity), Real.log_zpow, Real.log_rpow x0]; push_cast; linarith

/-- A power with a computed exponent. -/
theorem pow_abs (hF : F.Accurate ε) (hε : Sm ε) {x p P c : ℝ} {D : Dbl} {M Q : ℕ} (h1 : (10 : ℝ) ^ (-(M : ℤ)) ≤ x) (h2 : x ≤ (10 : ℝ) ^ (M : ℤ)) (hp : |p| ≤ P)
    (hQ : M * P ≤ Q) (Q1 : Q ≤ 299) (hd : AbsE ε c p D) (k : ℕ) (hk : 2.4 * M * c ≤ k) (hk1 : k ≤ 10000) :
    Acc ε (k + 1) (-(Q : ℤ)) Q (x ^ p) (F.pow (fin x) D) := by
  obtain ⟨p', rfl, e⟩ := hd
  have x0 : 0 < x := lt_of_lt_of_le (by positivity) h1
  obtain ⟨r1, r2⟩ := pow_range h1 h2 hp hQ
  have ε0 := hε.pos
  have L := log_bound h1 h2 (M := M) (by push_cast; linarith) (by push_cast; linarith)
  have lo := log_one hε
  have px : 0 < x ^ p := Real.rpow_pos_of_pos x0 p
  have px' : 0 < x ^ p' := Real.rpow_pos_of_pos x0 p'
  have q : |(p' - p) * Real.log x| ≤ k * ε := by
    rw [abs_mul]
    calc |p' - p| * |Real.log x| ≤ c * ε * (2.4 * M) := mul_le_mul e L (abs_nonneg _) ((abs_nonneg _).trans e)
      _ = 2.4 * M * c * ε := by ring
      _ ≤ _ := mul_le_mul_of_nonneg_right hk ε0
  rw [abs_le] at q
  have kl : (k : ℝ) * Real.log (1 - ε) ≤ k * -ε := mul_le_mul_of_nonneg_left lo (Nat.cast_nonneg k)
  have s1 : x ^ p * (1 - ε) ^ k ≤ x ^ p' := (rel_log hε px px').2 (by rw [Real.log_rpow x0, Real.log_rpow x0]; linarith)
  have s2 : x ^ p' * (1 - ε) ^ k ≤ x ^ p := (rel_log hε px' px).2 (by rw [Real.log_rpow x0, Real.log_rpow x0]; linarith)
  obtain ⟨n1, n2, -⟩ := near_range hε hk1 r1 r2 s1 s2 (by omega) (by omega)
  obtain ⟨y, hy, ey⟩ := hF.pow x p' x0 n1 n2
  exact ⟨r1, r2, y, hy, rel_step hε px s1 s2 (by rwa [abs_of_pos px'])⟩

/-- Errors add up. -/
theorem Acc.trans (hε : Sm ε) {m n : ℕ} {a b : ℤ} {x y : ℝ} {d : Dbl} (h1 : x * (1 - ε) ^ m ≤ y) (h2 : y * (1 - ε) ^ m ≤ x) (hy : Acc ε n a b y d) {a' b' : ℤ}
    (ha : (10 : ℝ) ^ a' ≤ x) (hb : x ≤ (10 : ℝ) ^ b') : Acc ε (m + n) a' b' x d := by
  obtain ⟨z, hz, e1, e2⟩ := hy.val
  have p := hε.pw n
  refine ⟨ha, hb, z, hz, ?_, ?_⟩
  · rw [pow_add, ← mul_assoc]
    exact (mul_le_mul_of_nonneg_right h1 p.le).trans e1
  · rw [pow_add, mul_comm ((1 - ε) ^ m), ← mul_assoc]
    exact (mul_le_mul_of_nonneg_right e2 (hε.pw m).le).trans h2

theorem hm_mono {x y x' y' q : ℝ} (hx : 0 < x) (hy : 0 < y) (hq : 0 < q) (h1 : x * q ≤ x') (h2 : y * q ≤ y') :
    x * y / (x + y) * q ≤ x' * y' / (x' + y') := by
  have a : 0 < x * q := mul_pos hx hq
  have b : 0 < y * q := mul_pos hy hq
  have a' : 0 < x' := a.trans_le h1
  have b' : 0 < y' := b.trans_le h2
  have e : x * y / (x + y) * q = (x * q) * (y * q) / (x * q + y * q) := by field_simp
  rw [e, div_le_div_iff₀ (by positivity) (by positivity)]
  have k1 : x * q * (y * q) * x' ≤ x' * y' * (x * q) := by
    have := mul_le_mul_of_nonneg_left h2 (mul_pos a a').le
    linarith
  have k2 : x * q * (y * q) * y' ≤ x' * y' * (y * q) := by
    have := mul_le_mul_of_nonneg_left h1 (mul_pos b b').le
    linarith
  linarith

/-- The harmonic mean. -/
theorem Acc.hm (hF : F.Accurate ε) (hε : Sm ε) {n : ℕ} {a b c d : ℤ} {x y : ℝ} {X Y : Dbl} (hx : Acc ε n a b x X) (hy : Acc ε n c d y Y) (hn : n ≤ 9000)
    {f : ℤ} (l1 : -280 ≤ a + c) (l2 : b + d ≤ 280) (l3 : -280 ≤ a) (f1 : b + 2 < f) (f2 : d + 2 < f) (f3 : f ≤ 280)
    (l5 : -290 ≤ a + c - f) (l6 : b + d - a ≤ 290) :
    Acc ε (n + 3) (a + c - f) (b + d - a) (x * y / (x + y)) (F.div (F.mul X Y) (F.add X Y)) := by
  obtain ⟨x', rfl, x1, x2⟩ := hx.val
  obtain ⟨y', rfl, y1, y2⟩ := hy.val
  have q := hε.pw n
  have x0' : 0 < x' := (mul_pos hx.pos q).trans_le x1
  have y0' : 0 < y' := (mul_pos hy.pos q).trans_le y1
  have g1 := hm_mono hx.pos hy.pos q x1 y1
  have g2 := hm_mono x0' y0' q x2 y2
  have wide : ∀ {a b : ℤ} {x x' : ℝ}, (10 : ℝ) ^ a ≤ x → x ≤ (10 : ℝ) ^ b → x * (1 - ε) ^ n ≤ x' → x' * (1 - ε) ^ n ≤ x → 0 < x' →
      (10 : ℝ) ^ (a - 1) ≤ x' ∧ x' ≤ (10 : ℝ) ^ (b + 1) := by
    intro a b x x' ha hb h1 h2 p
    have hh := hε.half (n := n) (by omega)
    have xp : 0 < x := lt_of_lt_of_le (by positivity) ha
    constructor
    · rw [zpow_sub_one₀ (by norm_num)]
      have := mul_le_mul_of_nonneg_left hh xp.le
      norm_num at this ⊢; linarith
    · rw [zpow_add_one₀ (by norm_num)]
      have := mul_le_mul_of_nonneg_left hh p.le
      norm_num at this ⊢; linarith
  obtain ⟨wx1, wx2⟩ := wide hx.lo hx.hi x1 x2 x0'
  obtain ⟨wy1, wy2⟩ := wide hy.lo hy.hi y1 y2 y0'
  have m := (Acc.exact (ε := ε) wx1 wx2).mul hF hε (.exact wy1 wy2) (by norm_num) (by omega) (by omega)
  have s := (Acc.exact (ε := ε) wx1 wx2).add hF hε (.exact wy1 wy2) 0 (a - 1) f (by norm_num) (by norm_num) (by norm_num) (.inl le_rfl) (by omega) (by omega)
    (by omega) (by omega)
  have r := m.div hF hε s (by norm_num) (by omega) (by omega)
  refine Acc.trans hε (m := n) (n := 3) g1 g2 r ?_ ?_
  · rw [le_div_iff₀ (add_pos hx.pos hy.pos)]
    have h1 : x + y ≤ 10 ^ f := by
      have k1 : x ≤ 10 ^ (f - 1) := hx.hi.trans (zpow_le_zpow_right₀ (by norm_num) (by omega))
      have k2 : y ≤ 10 ^ (f - 1) := hy.hi.trans (zpow_le_zpow_right₀ (by norm_num) (by omega))
      have k3 : (10 : ℝ) ^ f = 10 ^ (f - 1) * 10 := by rw [← zpow_add_one₀ (by norm_num)]; congr 1; ring
      have k4 : (0 : ℝ) < 10 ^ (f - 1) := by positivity
      linarith
    calc (10 : ℝ) ^ (a + c - f) * (x + y) ≤ 10 ^ (a + c - f) * 10 ^ f := mul_le_mul_of_nonneg_left h1 (by positivity)
      _ = 10 ^ a * 10 ^ c := by rw [← zpow_add₀ (by norm_num), ← zpow_add₀ (by norm_num)]; congr 1; ring
      _ ≤ _ := mul_le_mul hx.lo hy.lo (by positivity) hx.pos.le
  · rw [div_le_iff₀ (add_pos hx.pos hy.pos)]
    calc x * y ≤ 10 ^ b * 10 ^ d := mul_le_mul hx.hi hy.hi hy.pos.le (by positivity)
      _ = 10 ^ (b + d - a) * 10 ^ a := by rw [← zpow_add₀ (by norm_num), ← zpow_add₀ (by norm_num)]; congr 1; ring
      _ ≤ _ := mul_le_mul_of_nonneg_left (by linarith [hx.lo, hy.pos]) (by positivity)

/-! ## The moments -/

/-- The literals of the program that are small integers or one half are exact. -/
structure SmallExact (F : Fp) : Prop where
  int : ∀ k : ℕ, k ≤ 10 → F.rnd (k : ℝ) = fin k
  half : F.rnd 0.5 = fin 0.5

theorem sixth_acc (hF : F.Accurate ε) (hε : Sm ε) (hi : SmallExact F) {k : ℤ} (k0 : -4 ≤ k) (k1 : k ≤ 10) : AbsE ε 1.67 ((k : ℝ) / 6) (sixthD F k) := by
  have six : F.rnd 6 = fin 6 := by exact_mod_cast hi.int 6 (by norm_num)
  have num : (if k < 0 then Dbl.neg (F.rnd ((-k : ℤ) : ℝ)) else F.rnd (k : ℝ)) = fin (k : ℝ) := by
    split_ifs with h
    · obtain ⟨n, hn⟩ := Int.eq_ofNat_of_zero_le (show 0 ≤ -k by omega)
      rw [hn]
      push_cast
      rw [hi.int n (by omega)]
      show fin (-(n : ℝ)) = _
      congr 1
      have : k = -(n : ℤ) := by omega
      rw [this]; push_cast; ring
    · obtain ⟨n, rfl⟩ := Int.eq_ofNat_of_zero_le (show 0 ≤ k by omega)
      push_cast
      exact hi.int n (by omega)
  have b0 : (-4 : ℝ) ≤ k := by exact_mod_cast k0
  have b1 : (k : ℝ) ≤ 10 := by exact_mod_cast k1
  obtain ⟨y, hy, e⟩ := rnd_abs hF hε (x := (k : ℝ) / 6) (K := 1.67) (by rw [abs_le]; constructor <;> norm_num <;> linarith) (by norm_num) (by norm_num)
  refine ⟨y, ?_, e⟩
  unfold sixthD
  rw [num, six]
  simp only [Fp.div]
  rw [if_neg (by norm_num), hy]

/-- The exponents of `Mr`. -/
theorem exps_acc (hF : F.Accurate ε) (hε : Sm ε) (hi : SmallExact F) {r : ℝ} (r0 : -(2 / 3) ≤ r) (r1 : r ≤ 5 / 3) {R : Dbl} (hR : AbsE ε 1.67 r R) :
    AbsE ε 16.6 (1 + 0.5 * r * (r - 3)) (F.add (F.rnd 1) (F.mul (F.mul (F.rnd 0.5) R) (F.sub R (F.rnd 3)))) ∧
    AbsE ε 16.3 (r * (2 - r)) (F.mul R (F.sub (F.rnd 2) R)) ∧
    AbsE ε 7.4 (0.5 * r * (r - 1)) (F.mul (F.mul (F.rnd 0.5) R) (F.sub R (F.rnd 1))) := by
  have one : F.rnd 1 = fin 1 := by exact_mod_cast hi.int 1 (by norm_num)
  have two : F.rnd 2 = fin 2 := by exact_mod_cast hi.int 2 (by norm_num)
  have three : F.rnd 3 = fin 3 := by exact_mod_cast hi.int 3 (by norm_num)
  rw [one, two, three, hi.half]
  have br : |r| ≤ 5 / 3 := by rw [abs_le]; constructor <;> linarith
  have H := (AbsE.exact (ε := ε) 0.5).mul hF hε hR (A := 0.5) (B := 5 / 3) (K := 1) (by norm_num [abs_le]) br (by norm_num) (by norm_num) (by norm_num) (by norm_num)
    (by norm_num) (by norm_num) (by norm_num) (by norm_num) (by norm_num)
  have H' : AbsE ε 1.84 (0.5 * r) (F.mul (fin 0.5) R) := H.mono hε (by norm_num)
  have bh : |0.5 * r| ≤ 5 / 6 := by rw [abs_le]; constructor <;> norm_num <;> linarith
  have s3 : AbsE ε 5.35 (r - 3) (F.sub R (fin 3)) := by
    have := hR.add hF hε (AbsE.exact (-3)) (A := 11 / 3) (K := 3.67) (by rw [abs_le]; constructor <;> linarith) (by norm_num) (by norm_num) (by norm_num) (by norm_num)
    exact this.mono hε (by norm_num)
  have s2 : AbsE ε 4.35 (2 - r) (F.sub (fin 2) R) := by
    have := (AbsE.exact 2).add hF hε hR.neg (A := 8 / 3) (K := 2.67) (by rw [abs_le]; constructor <;> linarith) (by norm_num) (by norm_num) (by norm_num) (by norm_num)
    exact this.mono hε (by norm_num)
  have s1 : AbsE ε 3.35 (r - 1) (F.sub R (fin 1)) := by
    have := hR.add hF hε (AbsE.exact (-1)) (A := 5 / 3) (K := 1.67) (by rw [abs_le]; constructor <;> linarith) (by norm_num) (by norm_num) (by norm_num) (by norm_num)
    exact this.mono hε (by norm_num)
  refine ⟨?_, ?_, ?_⟩
  · have p := H'.mul hF hε s3 (A := 5 / 6) (B := 11 / 3) (K := 3.07) bh (by rw [abs_le]; constructor <;> linarith) (by norm_num) (by norm_num) (by norm_num) (by norm_num)
      (by norm_num) (by norm_num) (by norm_num) (by norm_num) (by norm_num)
    have := (AbsE.exact 1).add hF hε p (A := 2.23) (K := 2.24) (by
      rw [abs_le]
      constructor
      · nlinarith [sq_nonneg (r - 3 / 2)]
      · nlinarith [mul_nonneg (by linarith : 0 ≤ r + 2 / 3) (by linarith : 0 ≤ 5 / 3 - r)]) (by norm_num) (by norm_num) (by norm_num) (by norm_num)
    exact this.mono hε (by norm_num)
  · have := hR.mul hF hε s2 (A := 5 / 3) (B := 8 / 3) (K := 4.46) br (by rw [abs_le]; constructor <;> linarith) (by norm_num) (by norm_num) (by norm_num) (by norm_num)
      (by norm_num) (by norm_num) (by norm_num) (by norm_num) (by norm_num)
    exact this.mono hε (by norm_num)
  · have := H'.mul hF hε s1 (A := 5 / 6) (B := 5 / 3) (K := 1.4) bh (by rw [abs_le]; constructor <;> linarith) (by norm_num) (by norm_num) (by norm_num) (by norm_num)
      (by norm_num) (by norm_num) (by norm_num) (by norm_num) (by norm_num)
    exact this.mono hε (by norm_num)

/-- Moments of a usual size: up to 10²⁰ particles per cubic metre with a mean mass up to 1 kg, and a spread between 10⁻³ and 10⁶. -/
structure UsualLogn (M0 M1 M2 : ℝ) : Prop where
  n0 : 1 ≤ M0
  n1 : M0 ≤ 10 ^ 20
  m0 : (10 : ℝ) ^ (-27 : ℤ) ≤ M1 / M0
  m1 : M1 / M0 ≤ 1
  m2 : M1 ≤ 10 ^ 3
  q0 : 1 / 10 ^ 3 ≤ M0 * M2 / M1 ^ 2
  q1 : M0 * M2 / M1 ^ 2 ≤ 10 ^ 6

section

variable {M0 M1 M2 : ℝ} (hu : UsualLogn M0 M1 M2)
include hu

theorem UsualLogn.p0 : 0 < M0 := by have := hu.n0; linarith

theorem UsualLogn.lo1 : (10 : ℝ) ^ (-27 : ℤ) ≤ M1 := by
  have := (le_div_iff₀ hu.p0).1 hu.m0
  have p : (0 : ℝ) < 10 ^ (-27 : ℤ) := by positivity
  have := mul_le_mul_of_nonneg_left hu.n0 p.le
  linarith

theorem UsualLogn.p1 : 0 < M1 := lt_of_lt_of_le (by positivity) hu.lo1

theorem UsualLogn.lo2 : (10 : ℝ) ^ (-57 : ℤ) ≤ M2 := by
  have a0 := hu.p0
  have a1 := hu.p1
  have h := (le_div_iff₀ (by positivity)).1 hu.q0
  have h2 := (le_div_iff₀ a0).1 hu.m0
  have p : (0 : ℝ) < 10 ^ (-27 : ℤ) := by positivity
  have sq : (10 ^ (-27 : ℤ) * M0) ^ 2 ≤ M1 ^ 2 := pow_le_pow_left₀ (by positivity) h2 2
  have e : (10 : ℝ) ^ (-57 : ℤ) = 1 / 10 ^ 3 * (10 ^ (-27 : ℤ)) ^ 2 := by norm_num
  have k : (10 : ℝ) ^ (-57 : ℤ) * (M0 * M0) ≤ M2 * M0 := by
    rw [e]
    have := mul_le_mul_of_nonneg_left sq (by norm_num : (0 : ℝ) ≤ 1 / 10 ^ 3)
    calc 1 / 10 ^ 3 * (10 ^ (-27 : ℤ)) ^ 2 * (M0 * M0) = 1 / 10 ^ 3 * (10 ^ (-27 : ℤ) * M0) ^ 2 := by ring
      _ ≤ 1 / 10 ^ 3 * M1 ^ 2 := this
      _ ≤ M0 * M2 := h
      _ = _ := by ring
  have k2 : (10 : ℝ) ^ (-57 : ℤ) * M0 ≤ M2 := by
    rw [← mul_assoc] at k
    exact le_of_mul_le_mul_right k a0
  have := mul_le_mul_of_nonneg_left hu.n0 (by positivity : (0 : ℝ) ≤ 10 ^ (-57 : ℤ))
  linarith

theorem UsualLogn.p2 : 0 < M2 := lt_of_lt_of_le (by positivity) hu.lo2

theorem UsualLogn.hi2 : M2 ≤ (10 : ℝ) ^ (57 : ℤ) := by
  have a0 := hu.p0
  have a1 := hu.p1
  have h := (div_le_iff₀ (by positivity)).1 hu.q1
  have h2 : M1 ≤ M0 := by have := (div_le_iff₀ a0).1 hu.m1; linarith
  have k : M0 * M2 ≤ M0 * (10 ^ 6 * M1) := by
    refine h.trans ?_
    have := mul_le_mul_of_nonneg_right h2 a1.le
    nlinarith
  have k2 := le_of_mul_le_mul_left k a0
  have := hu.m2
  norm_num at this k2 ⊢
  linarith

/-- The size of the fractional moments. -/
theorem UsualLogn.range {r : ℝ} (r0 : -(2 / 3) ≤ r) (r1 : r ≤ 5 / 3) :
    (10 : ℝ) ^ (-49 : ℤ) ≤ lognM M0 M1 M2 r ∧ lognM M0 M1 M2 r ≤ (10 : ℝ) ^ (42 : ℤ) := by
  have a0 := hu.p0
  have a1 := hu.p1
  have a2 := hu.p2
  rw [lognM_spread a0 a1 a2]
  have hm1 := hu.m1
  have hm0 := hu.m0
  have mp : 0 < M1 / M0 := by positivity
  obtain ⟨l1, -⟩ := pow_range (x := M1 / M0) (p := r) (P := 5 / 3) (M := 27) (Q := 45) (by exact_mod_cast hm0)
    (hm1.trans (one_le_zpow₀ (by norm_num) (by norm_num))) (by rw [abs_le]; constructor <;> linarith) (by norm_num)
  have u1 : (M1 / M0) ^ r ≤ (10 : ℝ) ^ (18 : ℤ) := by
    refine (Real.rpow_le_rpow_of_exponent_ge mp hm1 r0).trans ?_
    exact (pow_range (x := M1 / M0) (p := -(2 / 3)) (P := 2 / 3) (M := 27) (Q := 18) (by exact_mod_cast hm0)
      (hm1.trans (one_le_zpow₀ (by norm_num) (by norm_num))) (by norm_num [abs_of_neg]) (by norm_num)).2
  have q0 := hu.q0
  have q1 := hu.q1
  obtain ⟨l2, u2⟩ := pow_range (x := M0 * M2 / M1 ^ 2) (p := r * (r - 1) / 2) (P := 5 / 9) (M := 6) (Q := 4) (by norm_num at q0 ⊢; linarith)
    (by norm_num at q1 ⊢; linarith) (by
      rw [abs_le]
      constructor
      · nlinarith [sq_nonneg (r - 1 / 2)]
      · nlinarith [mul_nonneg (by linarith : 0 ≤ r + 2 / 3) (by linarith : 0 ≤ 5 / 3 - r)]) (by norm_num)
  have n0 := hu.n0
  have n1 := hu.n1
  have p1 : 0 < (M1 / M0) ^ r := Real.rpow_pos_of_pos mp r
  have p2 : 0 < (M0 * M2 / M1 ^ 2) ^ (r * (r - 1) / 2) := lt_of_lt_of_le (by positivity) l2
  constructor
  · calc (10 : ℝ) ^ (-49 : ℤ) = 1 * 10 ^ (-45 : ℤ) * 10 ^ (-4 : ℤ) := by norm_num
      _ ≤ _ := mul_le_mul (mul_le_mul n0 (by exact_mod_cast l1) (by positivity) a0.le) (by exact_mod_cast l2) (by positivity) (by positivity)
  · calc _ ≤ (10 : ℝ) ^ 20 * 10 ^ (18 : ℤ) * 10 ^ (4 : ℤ) :=
          mul_le_mul (mul_le_mul n1 u1 p1.le (by positivity)) (by exact_mod_cast u2) p2.le (by positivity)
      _ = _ := by norm_num

theorem mr_acc (hF : F.Accurate ε) (hε : Sm ε) (hi : SmallExact F) {k : ℤ} (k0 : -4 ≤ k) (k1 : k ≤ 10) (h0 : k ≠ 0) (h6 : k ≠ 6) :
    Acc ε 2875 (-49) 42 (lognM M0 M1 M2 ((k : ℝ) / 6)) (lognMrD F (sixthD F k) (fin M0) (fin M1) (fin M2)) := by
  have b0 : (-4 : ℝ) ≤ k := by exact_mod_cast k0
  have b1 : (k : ℝ) ≤ 10 := by exact_mod_cast k1
  have r0 : -(2 / 3) ≤ (k : ℝ) / 6 := by linarith
  have r1 : (k : ℝ) / 6 ≤ 5 / 3 := by linarith
  have a0 := hu.p0
  have a1 := hu.p1
  have a2 := hu.p2
  obtain ⟨l, u⟩ := hu.range r0 r1
  obtain ⟨x0, x1, x2⟩ := exps_acc hF hε hi r0 r1 (sixth_acc hF hε hi k0 k1)
  have ne0 : (k : ℝ) / 6 ≠ 0 := by
    intro h; apply h0
    have : (k : ℝ) = 0 := by linarith
    exact_mod_cast this
  have ne1 : (k : ℝ) / 6 ≠ 1 := by
    intro h; apply h6
    have : (k : ℝ) = 6 := by linarith
    exact_mod_cast this
  generalize (k : ℝ) / 6 = r at *
  rw [lognM_frac _ _ _ ne0 ne1, lognMrVal_pos a0 a1 a2] at l u ⊢
  have n0 := hu.n0
  have n1 := hu.n1
  have m2 := hu.m2
  have p0 := pow_abs hF hε (M := 20) (Q := 45) (k := 797) (P := 2.23) ((zpow_le_one_of_nonpos₀ (by norm_num) (by norm_num)).trans n0) (by exact_mod_cast n1)
    (p := 1 + 0.5 * r * (r - 3)) (by
      rw [abs_le]
      constructor
      · nlinarith [sq_nonneg (r - 3 / 2)]
      · nlinarith [mul_nonneg (by linarith : 0 ≤ r + 2 / 3) (by linarith : 0 ≤ 5 / 3 - r)]) (by norm_num) (by norm_num) x0 (by norm_num) (by norm_num)
  have p1 := pow_abs hF hε (M := 27) (Q := 49) (k := 1057) (P := 1.8) (by exact_mod_cast hu.lo1) (by norm_num at m2 ⊢; linarith)
    (p := r * (2 - r)) (by
      rw [abs_le]
      constructor
      · nlinarith [mul_nonneg (by linarith : 0 ≤ r + 2 / 3) (by linarith : 0 ≤ 5 / 3 - r)]
      · nlinarith [sq_nonneg (r - 1)]) (by norm_num) (by norm_num) x1 (by norm_num) (by norm_num)
  have p2 := pow_abs hF hε (M := 57) (Q := 32) (k := 1013) (P := 0.56) (by exact_mod_cast hu.lo2) (by exact_mod_cast hu.hi2)
    (p := 0.5 * r * (r - 1)) (by
      rw [abs_le]
      constructor
      · nlinarith [sq_nonneg (r - 1 / 2)]
      · nlinarith [mul_nonneg (by linarith : 0 ≤ r + 2 / 3) (by linarith : 0 ≤ 5 / 3 - r)]) (by norm_num) (by norm_num) x2 (by norm_num) (by norm_num)
  have t := ((p0.mul hF hε p1 (by norm_num) (by norm_num) (by norm_num)).mul hF hε p2 (by norm_num) (by norm_num) (by norm_num)).range l u
  have c0 : ¬ (fin M0).le (fin 0) := not_le.2 a0
  have c1 : ¬ (fin M1).le (fin 0) := not_le.2 a1
  have c2 : ¬ (fin M2).le (fin 0) := not_le.2 a2
  unfold lognMrD
  simp only [c0, c1, c2, if_false, false_and, or_self]
  exact t.mono hε (by norm_num) le_rfl le_rfl

end

/-! ## Coagulation -/

section

variable (hF : F.Accurate ε) (hε : Sm ε) {s : State} {D : DState} (hp : Pair ε s D)
include hF hε hp

theorem kc_acc : Acc ε 7 (-26) (-8) (kcVal s) (kcD F D) := by
  have hT := acc_T hF hε hp
  have a1 : Acc ε 3 (-23) (-21) (2 * kb) _ := .mul hF hε (lit_two hF hε) (lit_kb hF hε) (by norm_num) (by norm_num) (by norm_num)
  have a2 : Acc ε 4 (-23) (-16) (2 * kb * s.T) _ := .mul hF hε a1 hT (by norm_num) (by norm_num) (by norm_num)
  have a3 : Acc ε 2 (-8) 3 (3 * s.muGas) _ := .mul hF hε (lit_three hF hε) (acc_mu hF hε hp) (by norm_num) (by norm_num) (by norm_num)
  exact .div hF hε a2 a3 (by norm_num) (by norm_num) (by norm_num)

theorem kcp_acc : Acc ε 39 (-23) 19 (kcpVal s) (kcpD F D) := by
  have a1 : Acc ε 3 0 2 (2 * 1.657) _ := .mul hF hε (lit_two hF hε) (lit_slip hF hε) (by norm_num) (by norm_num) (by norm_num)
  have a2 : Acc ε 22 (-23) 17 (2 * 1.657 * s.mfpVal) _ := .mul hF hε a1 (acc_mfp hF hε hp) (by norm_num) (by norm_num) (by norm_num)
  have a3 : Acc ε 5 2 5 (Real.pi * rhoSoot / 6) _ := .div hF hε (acc_pirho hF hε) (lit_six hF hε) (by norm_num) (by norm_num) (by norm_num)
  have a4 : Acc ε 16 0 2 ((Real.pi * rhoSoot / 6) ^ onethird) _ := a3.pow hF hε (acc_third hF hε) 15 0 2 5 (by norm_num) (by norm_num) (by norm_num [onethird])
    (by norm_num) (by norm_num [onethird]) (by norm_num [onethird]) (by norm_num) (by norm_num)
  exact a2.mul hF hε a4 (by norm_num) (by norm_num) (by norm_num)

theorem kfm_acc {c : ℝ} (c0 : (10 : ℝ) ^ (-6 : ℤ) ≤ c) (c1 : c ≤ (10 : ℝ) ^ (6 : ℤ)) (k : CoagMech) :
    Acc ε 42 (-22) (-2) (Coag.kfmVal ⟨k, c⟩ s) (kfmD F D (fin c)) := by
  have hT := acc_T hF hε hp
  have a1 : Acc ε 2 (-6) 7 (c * epsC) _ := .mul hF hε (.exact c0 c1) (lit_eps hF hε) (by norm_num) (by norm_num) (by norm_num)
  have a2 : Acc ε 3 (-1) 1 (0.5 * Real.pi) _ := .mul hF hε (lit_half hF hε) (lit_pi hF hε) (by norm_num) (by norm_num) (by norm_num)
  have a3 : Acc ε 5 (-24) (-21) (0.5 * Real.pi * kb) _ := .mul hF hε a2 (lit_kb hF hε) (by norm_num) (by norm_num) (by norm_num)
  have a4 : Acc ε 6 (-24) (-16) (0.5 * Real.pi * kb * s.T) _ := .mul hF hε a3 hT (by norm_num) (by norm_num) (by norm_num)
  have a5 : Acc ε 7 (-12) (-8) _ _ := a4.sqrt hF hε (-12) (-8) (by norm_num) (by norm_num) (by norm_num) (by norm_num) (by norm_num)
  have a6 : Acc ε 10 (-18) (-1) _ _ := a1.mul hF hε a5 (by norm_num) (by norm_num) (by norm_num)
  have a7 : Acc ε 5 (-5) (-2) (6 / (Real.pi * rhoSoot)) _ := .div hF hε (lit_six hF hε) (acc_pirho hF hε) (by norm_num) (by norm_num) (by norm_num)
  have a8 : Acc ε 31 (-4) (-1) ((6 / (Real.pi * rhoSoot)) ^ twothird) _ := a7.pow hF hε (acc_twothird hF hε) 30 (-4) (-1) 5 (by norm_num) (by norm_num)
    (by norm_num [twothird]) (by norm_num) (by norm_num [twothird]) (by norm_num [twothird]) (by norm_num) (by norm_num)
  exact a6.mul hF hε a8 (by norm_num) (by norm_num) (by norm_num)

variable {M0 M1 M2 : ℝ} (hu : UsualLogn M0 M1 M2) {M : ℤ → Dbl} (hM : ∀ k : ℤ, -4 ≤ k → k ≤ 10 → k ≠ 0 → k ≠ 6 → Acc ε 2875 (-49) 42 (lognM M0 M1 M2 ((k : ℝ) / 6)) (M k))
include hu hM

omit hp hu in
theorem two_prod (j k : ℤ) (j0 : -4 ≤ j := by norm_num) (j1 : j ≤ 10 := by norm_num) (j2 : j ≠ 0 := by norm_num) (j3 : j ≠ 6 := by norm_num)
    (k0 : -4 ≤ k := by norm_num) (k1 : k ≤ 10 := by norm_num) (k2 : k ≠ 0 := by norm_num) (k3 : k ≠ 6 := by norm_num) :
    Acc ε 5751 (-98) 84 (lognM M0 M1 M2 ((j : ℝ) / 6) * lognM M0 M1 M2 ((k : ℝ) / 6)) (F.mul (M j) (M k)) :=
  (hM j j0 j1 j2 j3).mul hF hε (hM k k0 k1 k2 k3) (by norm_num) (by norm_num) (by norm_num)

omit hp hu in
theorem two_prod2 (j k : ℤ) (j0 : -4 ≤ j := by norm_num) (j1 : j ≤ 10 := by norm_num) (j2 : j ≠ 0 := by norm_num) (j3 : j ≠ 6 := by norm_num)
    (k0 : -4 ≤ k := by norm_num) (k1 : k ≤ 10 := by norm_num) (k2 : k ≠ 0 := by norm_num) (k3 : k ≠ 6 := by norm_num) :
    Acc ε 5753 (-98) 85 (2 * lognM M0 M1 M2 ((j : ℝ) / 6) * lognM M0 M1 M2 ((k : ℝ) / 6)) (F.mul (F.mul (F.rnd 2) (M j)) (M k)) :=
  ((lit_two hF hε).mul hF hε (hM j j0 j1 j2 j3) (by norm_num) (by norm_num) (by norm_num)).mul hF hε (hM k k0 k1 k2 k3) (by norm_num) (by norm_num) (by norm_num)

omit hF hε hp hM in
theorem acc_M0 : Acc ε 0 0 20 M0 (fin M0) := .exact (by simpa using hu.n0) (by exact_mod_cast hu.n1)
omit hF hε hp hM in
theorem acc_M1 : Acc ε 0 (-27) 3 M1 (fin M1) := .exact hu.lo1 (by exact_mod_cast hu.m2)

theorem c0fm_acc {c : ℝ} (c0 : (10 : ℝ) ^ (-6 : ℤ) ≤ c) (c1 : c ≤ (10 : ℝ) ^ (6 : ℤ)) (k : CoagMech) :
    Acc ε 5800 (-72) 85 (lognCoa0Fm ⟨k, c⟩ s (lognM M0 M1 M2)) (neg (lognC0fmD F D (fin c) M (fin M0))) := by
  have t1 : Acc ε 2876 (-49) 62 (M0 * lognM M0 M1 M2 (((1 : ℤ) : ℝ) / 6)) (F.mul (fin M0) (M 1)) :=
    (acc_M0 hu).mul hF hε (hM 1 (by norm_num) (by norm_num) (by norm_num) (by norm_num)) (by norm_num) (by norm_num) (by norm_num)
  have t2 := two_prod2 hF hε hM 2 (-1)
  have t3 := two_prod hF hε hM 4 (-3)
  have s1 : Acc ε 5754 (-49) 86 _ _ := t1.add hF hε t2 5753 (-49) 86 (by norm_num) (by norm_num) (by norm_num) (by norm_num) (by norm_num) (by norm_num) (by norm_num) (by norm_num)
  have s2 : Acc ε 5755 (-49) 87 _ _ := s1.add hF hε t3 5754 (-49) 87 (by norm_num) (by norm_num) (by norm_num) (by norm_num) (by norm_num) (by norm_num) (by norm_num) (by norm_num)
  have kk : Acc ε 42 (-22) (-2) (Coag.kfmVal ⟨k, c⟩ s) (neg (neg (kfmD F D (fin c)))) := by
    have h := kfm_acc hF hε hp c0 c1 k
    obtain ⟨x, hx, -⟩ := h.val
    rw [hx] at h ⊢
    simpa [neg] using h
  have hb : Acc ε 1 (-1) 0 bCoag (F.rnd bCoag) := .lit hF hε (by norm_num [bCoag]) (by norm_num [bCoag]) (by norm_num) (by norm_num)
  have kb' : Acc ε 44 (-23) (-2) _ _ := kk.mulN hF hε hb (by norm_num) (by norm_num) (by norm_num)
  have r : Acc ε 5800 (-72) 85 _ _ := kb'.mulN hF hε s2 (by norm_num) (by norm_num) (by norm_num)
  refine r.of_eq ?_
  simp only [lognCoa0Fm, lognM_zero]
  norm_num

theorem c2fm_acc {c : ℝ} (c0 : (10 : ℝ) ^ (-6 : ℤ) ≤ c) (c1 : c ≤ (10 : ℝ) ^ (6 : ℤ)) (k : CoagMech) :
    Acc ε 5802 (-99) 86 (lognCoa2Fm ⟨k, c⟩ s (lognM M0 M1 M2)) (lognC2fmD F D (fin c) M (fin M1)) := by
  have t1 : Acc ε 2876 (-76) 45 (M1 * lognM M0 M1 M2 (((7 : ℤ) : ℝ) / 6)) (F.mul (fin M1) (M 7)) :=
    (acc_M1 hu).mul hF hε (hM 7 (by norm_num) (by norm_num) (by norm_num) (by norm_num)) (by norm_num) (by norm_num) (by norm_num)
  have t2 := two_prod2 hF hε hM 8 5
  have t3 := two_prod hF hε hM 10 3
  have s1 : Acc ε 5754 (-76) 86 _ _ := t1.add hF hε t2 5753 (-76) 86 (by norm_num) (by norm_num) (by norm_num) (by norm_num) (by norm_num) (by norm_num) (by norm_num) (by norm_num)
  have s2 : Acc ε 5755 (-76) 87 _ _ := s1.add hF hε t3 5754 (-76) 87 (by norm_num) (by norm_num) (by norm_num) (by norm_num) (by norm_num) (by norm_num) (by norm_num) (by norm_num)
  have hb : Acc ε 1 (-1) 0 bCoag (F.rnd bCoag) := .lit hF hε (by norm_num [bCoag]) (by norm_num [bCoag]) (by norm_num) (by norm_num)
  have k2 : Acc ε 44 (-22) (-1) (2 * Coag.kfmVal ⟨k, c⟩ s) _ := (lit_two hF hε).mul hF hε (kfm_acc hF hε hp c0 c1 k) (by norm_num) (by norm_num) (by norm_num)
  have kb' : Acc ε 46 (-23) (-1) _ _ := k2.mul hF hε hb (by norm_num) (by norm_num) (by norm_num)
  have r : Acc ε 5802 (-99) 86 _ _ := kb'.mul hF hε s2 (by norm_num) (by norm_num) (by norm_num)
  refine r.of_eq ?_
  simp only [lognCoa2Fm, lognM_one]
  norm_num

theorem c0c_acc : Acc ε 5801 (-26) 97 (lognCoa0C s (lognM M0 M1 M2)) (neg (lognC0cD F D M (fin M0))) := by
  have t1 : Acc ε 1 0 40 (M0 * M0) _ := (acc_M0 hu).mul hF hε (acc_M0 hu) (by norm_num) (by norm_num) (by norm_num)
  have t2 := two_prod hF hε hM 2 (-2)
  have t3 : Acc ε 2876 (-49) 62 (M0 * lognM M0 M1 M2 (((-2 : ℤ) : ℝ) / 6)) (F.mul (fin M0) (M (-2))) :=
    (acc_M0 hu).mul hF hε (hM (-2) (by norm_num) (by norm_num) (by norm_num) (by norm_num)) (by norm_num) (by norm_num) (by norm_num)
  have t4 := two_prod hF hε hM 2 (-4)
  have s1 : Acc ε 5752 0 85 _ _ := t1.add hF hε t2 5751 0 85 (by norm_num) (by norm_num) (by norm_num) (by norm_num) (by norm_num) (by norm_num) (by norm_num) (by norm_num)
  have s2 : Acc ε 5752 (-49) 85 _ _ := t3.add hF hε t4 5751 (-49) 85 (by norm_num) (by norm_num) (by norm_num) (by norm_num) (by norm_num) (by norm_num) (by norm_num) (by norm_num)
  have s3 : Acc ε 5792 (-72) 104 _ _ := (kcp_acc hF hε hp).mul hF hε s2 (by norm_num) (by norm_num) (by norm_num)
  have s4 : Acc ε 5793 0 105 _ _ := s1.add hF hε s3 5792 0 105 (by norm_num) (by norm_num) (by norm_num) (by norm_num) (by norm_num) (by norm_num) (by norm_num) (by norm_num)
  have kk : Acc ε 7 (-26) (-8) (kcVal s) (neg (neg (kcD F D))) := by
    have h := kc_acc hF hε hp
    obtain ⟨x, hx, -⟩ := h.val
    rw [hx] at h ⊢
    simpa [neg] using h
  have r : Acc ε 5801 (-26) 97 _ _ := kk.mulN hF hε s4 (by norm_num) (by norm_num) (by norm_num)
  refine r.of_eq ?_
  simp only [lognCoa0C, lognM_zero]
  norm_num

theorem c2c_acc : Acc ε 5803 (-80) 98 (lognCoa2C s (lognM M0 M1 M2)) (lognC2cD F D M (fin M1)) := by
  have t1 : Acc ε 1 (-54) 6 (M1 * M1) _ := (acc_M1 hu).mul hF hε (acc_M1 hu) (by norm_num) (by norm_num) (by norm_num)
  have t2 := two_prod hF hε hM 4 8
  have t3 : Acc ε 2876 (-76) 45 (M1 * lognM M0 M1 M2 (((4 : ℤ) : ℝ) / 6)) (F.mul (fin M1) (M 4)) :=
    (acc_M1 hu).mul hF hε (hM 4 (by norm_num) (by norm_num) (by norm_num) (by norm_num)) (by norm_num) (by norm_num) (by norm_num)
  have t4 := two_prod hF hε hM 2 8
  have s1 : Acc ε 5752 (-54) 85 _ _ := t1.add hF hε t2 5751 (-54) 85 (by norm_num) (by norm_num) (by norm_num) (by norm_num) (by norm_num) (by norm_num) (by norm_num) (by norm_num)
  have s2 : Acc ε 5752 (-76) 85 _ _ := t3.add hF hε t4 5751 (-76) 85 (by norm_num) (by norm_num) (by norm_num) (by norm_num) (by norm_num) (by norm_num) (by norm_num) (by norm_num)
  have s3 : Acc ε 5792 (-99) 104 _ _ := (kcp_acc hF hε hp).mul hF hε s2 (by norm_num) (by norm_num) (by norm_num)
  have s4 : Acc ε 5793 (-54) 105 _ _ := s1.add hF hε s3 5792 (-54) 105 (by norm_num) (by norm_num) (by norm_num) (by norm_num) (by norm_num) (by norm_num) (by norm_num) (by norm_num)
  have k2 : Acc ε 9 (-26) (-7) (2 * kcVal s) _ := (lit_two hF hε).mul hF hε (kc_acc hF hε hp) (by norm_num) (by norm_num) (by norm_num)
  have r : Acc ε 5803 (-80) 98 _ _ := k2.mul hF hε s4 (by norm_num) (by norm_num) (by norm_num)
  refine r.of_eq ?_
  simp only [lognCoa2C, lognM_one]
  norm_num

/-- Both coagulation terms. -/
theorem lcoag_acc {c : ℝ} (c0 : (10 : ℝ) ^ (-6 : ℤ) ≤ c) (c1 : c ≤ (10 : ℝ) ^ (6 : ℤ)) (k : CoagMech) (hk : k = .FM ∨ k = .CONTINUUM ∨ k = .HM) :
    ∃ (C0 C2 : ℝ) (X Y : Dbl), lognCoagVal ⟨k, c⟩ s (lognM M0 M1 M2) = (-C0, C2) ∧ lognCoagD F D (fin c) k M (fin M0) (fin M1) = Res.ok (X, Y) ∧
      AccZ ε 5806 (-280) 283 C0 (neg X) ∧ AccZ ε 5806 (-280) 283 C2 Y := by
  have a0 := c0fm_acc hF hε hp hu hM c0 c1 k
  have a2 := c2fm_acc hF hε hp hu hM c0 c1 k
  have b0 := c0c_acc hF hε hp hu hM
  have b2 := c2c_acc hF hε hp hu hM
  rcases hk with rfl | rfl | rfl
  · exact ⟨_, _, _, _, rfl, rfl, (a0.mono hε (by norm_num) (by norm_num) (by norm_num)).z, (a2.mono hε (by norm_num) (by norm_num) (by norm_num)).z⟩
  · exact ⟨_, _, _, _, rfl, rfl, (b0.mono hε (by norm_num) (by norm_num) (by norm_num)).z, (b2.mono hε (by norm_num) (by norm_num) (by norm_num)).z⟩
  · have a2' := a2.mono hε (show 5802 ≤ 5803 by norm_num) le_rfl le_rfl
    have h := Acc.hm hF hε a2' b2 (f := 101) (by norm_num) (by norm_num) (by norm_num) (by norm_num) (by norm_num) (by norm_num) (by norm_num) (by norm_num) (by norm_num)
    have sgn : ∀ {n : ℕ} {a b : ℤ} {x : ℝ} {d : Dbl}, Acc ε n a b x (neg d) → ¬ (fin 0).lt d := by
      intro n a b x d h
      obtain ⟨y, hy, h1, -⟩ := h.val
      have y0 : 0 < y := (mul_pos h.pos (hε.pw n)).trans_le h1
      rcases d with d | _ | _ | _ <;> simp only [neg, reduceCtorEq, fin.injEq] at hy
      show ¬ 0 < d
      linarith
    have pos : (fin 0).lt (lognC2fmD F D (fin c) M (fin M1)) := by
      obtain ⟨y, hy, h1, -⟩ := a2.val
      have y0 : 0 < y := (mul_pos a2.pos (hε.pw _)).trans_le h1
      rw [hy]; exact y0
    refine ⟨0, _, fin 0, F.div (F.mul (lognC2fmD F D (fin c) M (fin M1)) (lognC2cD F D M (fin M1)))
      (F.add (lognC2fmD F D (fin c) M (fin M1)) (lognC2cD F D M (fin M1))), ?_, ?_, .inr ⟨rfl, by simp [neg]⟩,
      (h.mono hε (by norm_num) (by norm_num) (by norm_num)).z⟩
    · simp only [lognCoagVal, neg_zero]
    · simp only [lognCoagD, lognHmD]
      rw [if_neg (not_or.2 ⟨sgn a0, sgn b0⟩), if_pos (.inl pos)]

end

/-! ## Sums -/

/-- Five terms, added from the left. -/
theorem sum5 {η Ω : ℝ} (hS : F.Std ε η Ω) (ho : FpMass.Ok ε η Ω) {a b c d e : ℝ} (ha : |a| ≤ Ω / 1000) (hb : |b| ≤ Ω / 1000) (hc : |c| ≤ Ω / 1000)
    (hd : |d| ≤ Ω / 1000) (he : |e| ≤ Ω / 1000) :
    ∃ z, F.add (F.add (F.add (F.add (fin a) (fin b)) (fin c)) (fin d)) (fin e) = fin z ∧
      |z - (a + b + c + d + e)| ≤ 4.1 * ε * (|a| + |b| + |c| + |d| + |e|) + 4.1 * η := by
  obtain ⟨u0, η0, u1, ηu, hΩ⟩ := ho
  have a0 := abs_nonneg a
  have b0 := abs_nonneg b
  have c0 := abs_nonneg c
  have d0 := abs_nonneg d
  have e0 := abs_nonneg e
  have q2 : η ≤ 1 / 1000 := ηu.trans u1
  have q4 : ε * η ≤ 1 / 1000 * η := mul_le_mul_of_nonneg_right u1 η0
  set S := |a| + |b| + |c| + |d| + |e| with hSS
  have S0 : 0 ≤ S := by positivity
  have εS : ε * S ≤ 1 / 1000 * S := mul_le_mul_of_nonneg_right u1 S0
  have εS0 : 0 ≤ ε * S := mul_nonneg u0 S0
  have step : ∀ {x y X B E : ℝ}, |x - X| ≤ E → |X + y| ≤ S → E ≤ B * (ε * S) + B * η → B ≤ 4 → 0 ≤ B →
      ∃ z, F.rnd (x + y) = fin z ∧ |z - (X + y)| ≤ E + 1.01 * (ε * S) + 1.01 * η := by
    intro x y X B E h1 h2 h3 h4 h5
    have k1 : |x + y| ≤ S + E := by
      have := abs_add_le (x - X) (X + y)
      rw [show x - X + (X + y) = x + y by ring] at this
      linarith
    have k2 : B * (ε * S) ≤ 4 * (ε * S) := mul_le_mul_of_nonneg_right h4 εS0
    have k3 : B * η ≤ 4 * η := mul_le_mul_of_nonneg_right h4 η0
    obtain ⟨z, hz, ez⟩ := hS (x + y) (by linarith)
    refine ⟨z, hz, ?_⟩
    have k4 : ε * |x + y| ≤ ε * (S + (0.004 * S + 4 * η)) := mul_le_mul_of_nonneg_left (by linarith) u0
    have := abs_add_le (z - (x + y)) (x - X)
    rw [show z - (x + y) + (x - X) = z - (X + y) by ring] at this
    linarith
  have t1 : |a + b| ≤ S := by have := abs_add_le a b; linarith
  have t2 : |a + b + c| ≤ S := by have := abs_add_le a b; have := abs_add_le (a + b) c; linarith
  have t3 : |a + b + c + d| ≤ S := by have := abs_add_le a b; have := abs_add_le (a + b) c; have := abs_add_le (a + b + c) d; linarith
  have t4 : |a + b + c + d + e| ≤ S := by
    have := abs_add_le a b; have := abs_add_le (a + b) c; have := abs_add_le (a + b + c) d; have := abs_add_le (a + b + c + d) e; linarith
  obtain ⟨z1, h1, e1⟩ := step (x := a) (y := b) (X := a) (B := 0) (E := 0) (by simp) t1 (by simp) (by norm_num) le_rfl
  obtain ⟨z2, h2, e2⟩ := step (B := 1.01) e1 t2 (by linarith) (by norm_num) (by norm_num)
  obtain ⟨z3, h3, e3⟩ := step (B := 2.02) e2 t3 (by linarith) (by norm_num) (by norm_num)
  obtain ⟨z4, h4, e4⟩ := step (B := 3.03) e3 t4 (by linarith) (by norm_num) (by norm_num)
  refine ⟨z4, ?_, by linarith⟩
  show F.add (F.add (F.add (F.rnd (a + b)) (fin c)) (fin d)) (fin e) = _
  rw [h1]
  show F.add (F.add (F.rnd (z1 + c)) (fin d)) (fin e) = _
  rw [h2]
  show F.add (F.rnd (z2 + d)) (fin e) = _
  rw [h3]
  exact h4

/-- Five terms, each with its own relative error. -/
theorem sum5_rel {η Ω : ℝ} (hS : F.Std ε η Ω) (ho : FpMass.Ok ε η Ω) (hε : Sm ε) {a b c d e A B C D E δa δb δc δd δe : ℝ}
    (ha : |a - A| ≤ δa * |A|) (hb : |b - B| ≤ δb * |B|) (hc : |c - C| ≤ δc * |C|) (hd : |d - D| ≤ δd * |D|) (he : |e - E| ≤ δe * |E|)
    (da : δa ≤ 1 / 100) (db : δb ≤ 1 / 100) (dc : δc ≤ 1 / 100) (dd : δd ≤ 1 / 100) (de : δe ≤ 1 / 100)
    (bA : |A| ≤ Ω / 2000) (bB : |B| ≤ Ω / 2000) (bC : |C| ≤ Ω / 2000) (bD : |D| ≤ Ω / 2000) (bE : |E| ≤ Ω / 2000) :
    ∃ z, F.add (F.add (F.add (F.add (fin a) (fin b)) (fin c)) (fin d)) (fin e) = fin z ∧
      |z - (A + B + C + D + E)| ≤ (δa + 5 * ε) * |A| + (δb + 5 * ε) * |B| + (δc + 5 * ε) * |C| + (δd + 5 * ε) * |D| + (δe + 5 * ε) * |E| + 5 * η := by
  have e0 := hε.pos
  have η0 := ho.η0
  have Ω0 := ho.Ω1
  have up : ∀ {q Q δ : ℝ}, |q - Q| ≤ δ * |Q| → δ ≤ 1 / 100 → |q| ≤ 1.01 * |Q| := by
    intro q Q δ h hd
    have := abs_sub_abs_le_abs_sub q Q
    have := mul_le_mul_of_nonneg_right hd (abs_nonneg Q)
    norm_num at *; linarith
  have ua := up ha da
  have ub := up hb db
  have uc := up hc dc
  have ud := up hd dd
  have ue := up he de
  obtain ⟨z, hz, ez⟩ := sum5 hS ho (a := a) (b := b) (c := c) (d := d) (e := e) (by linarith) (by linarith) (by linarith) (by linarith) (by linarith)
  refine ⟨z, hz, ?_⟩
  have ga := mul_le_mul_of_nonneg_left ua e0
  have gb := mul_le_mul_of_nonneg_left ub e0
  have gc := mul_le_mul_of_nonneg_left uc e0
  have gd := mul_le_mul_of_nonneg_left ud e0
  have ge := mul_le_mul_of_nonneg_left ue e0
  have pa := mul_nonneg e0 (abs_nonneg A)
  have pb := mul_nonneg e0 (abs_nonneg B)
  have pc := mul_nonneg e0 (abs_nonneg C)
  have pd := mul_nonneg e0 (abs_nonneg D)
  have pe := mul_nonneg e0 (abs_nonneg E)
  have tri : |z - (A + B + C + D + E)| ≤ |z - (a + b + c + d + e)| + |a - A| + |b - B| + |c - C| + |d - D| + |e - E| := by
    have h1 := abs_add_le (z - (a + b + c + d + e)) (a - A)
    have h2 := abs_add_le (z - (a + b + c + d + e) + (a - A)) (b - B)
    have h3 := abs_add_le (z - (a + b + c + d + e) + (a - A) + (b - B)) (c - C)
    have h4 := abs_add_le (z - (a + b + c + d + e) + (a - A) + (b - B) + (c - C)) (d - D)
    have h5 := abs_add_le (z - (a + b + c + d + e) + (a - A) + (b - B) + (c - C) + (d - D)) (e - E)
    rw [show z - (a + b + c + d + e) + (a - A) + (b - B) + (c - C) + (d - D) + (e - E) = z - (A + B + C + D + E) by ring] at h5
    linarith
  linarith

/-- The gas sources, with a relative error for each process. -/
theorem gas_rel {η Ω : ℝ} (hS : F.Std ε η Ω) (ho : FpMass.Ok ε η Ω) (hε : Sm ε) {N G X n g x δn δg δx : ℝ} (en : |n - N| ≤ δn * |N|) (eg : |g - G| ≤ δg * |G|)
    (ex : |x - X| ≤ δx * |X|) (dn : δn ≤ 1 / 100) (dg : δg ≤ 1 / 100) (dx : δx ≤ 1 / 100) (hN : |N| ≤ Ω / 2000) (hG : |G| ≤ Ω / 2000) (hX : |X| ≤ Ω / 2000)
    {rN rG rX : GasSp → ℝ} (sN : FpMass.Stoich rN) (sG : FpMass.Stoich rG) (sX : FpMass.Stoich rX) (sp : GasSp) :
    ∃ z, gasSourcesD F rN rG rX (fin n) (fin g) (fin x) sp = fin z ∧
      |z - (FpMass.term rN N sp + FpMass.term rG G sp + FpMass.term rX X sp)| ≤
        (δn + 17 * ε) * |FpMass.term rN N sp| + (δg + 17 * ε) * |FpMass.term rG G sp| + (δx + 17 * ε) * |FpMass.term rX X sp| + 39 * η := by
  have e0 := hε.pos
  have tn := term_rel (r := rN) en sp
  have tg := term_rel (r := rG) eg sp
  have tx := term_rel (r := rX) ex sp
  have Ω0 := ho.Ω1
  have up : ∀ {q Q δ : ℝ}, |q - Q| ≤ δ * |Q| → δ ≤ 1 / 100 → |q| ≤ 1.01 * |Q| := by
    intro q Q δ h hd
    have := abs_sub_abs_le_abs_sub q Q
    have := mul_le_mul_of_nonneg_right hd (abs_nonneg Q)
    norm_num at *; linarith
  have un := up en dn
  have ug := up eg dg
  have ux := up ex dx
  obtain ⟨z, hz, ez⟩ := FpMass.gas_near hS ho sN sG sX (n := n) (g := g) (x := x) (by linarith) (by linarith) (by linarith) sp
  refine ⟨z, hz, ?_⟩
  have vn := up tn dn
  have vg := up tg dg
  have vx := up tx dx
  generalize FpMass.term rN n sp = n' at *
  generalize FpMass.term rN N sp = N' at *
  generalize FpMass.term rG g sp = g' at *
  generalize FpMass.term rG G sp = G' at *
  generalize FpMass.term rX x sp = x' at *
  generalize FpMass.term rX X sp = X' at *
  have g1 := mul_le_mul_of_nonneg_left vn e0
  have g2 := mul_le_mul_of_nonneg_left vg e0
  have g3 := mul_le_mul_of_nonneg_left vx e0
  have p1 : 0 ≤ ε * |N'| := mul_nonneg e0 (abs_nonneg _)
  have p2 : 0 ≤ ε * |G'| := mul_nonneg e0 (abs_nonneg _)
  have p3 : 0 ≤ ε * |X'| := mul_nonneg e0 (abs_nonneg _)
  have tri : |z - (N' + G' + X')| ≤ |z - (n' + g' + x')| + |n' - N'| + |g' - G'| + |x' - X'| := by
    have h1 := abs_add_le (z - (n' + g' + x')) (n' - N')
    have h2 := abs_add_le (z - (n' + g' + x') + (n' - N')) (g' - G')
    have h3 := abs_add_le (z - (n' + g' + x') + (n' - N') + (g' - G')) (x' - X')
    rw [show z - (n' + g' + x') + (n' - N') + (g' - G') + (x' - X') = z - (N' + G' + X') by ring] at h3
    linarith
  linarith

end FpK

end Soot
