import Verif.Props.FpKernel
import Verif.Props.Kernels

/-!
# The Fuchs kernel in floating point (for C99)

`coagulationModel_FUCHS` computes the limiting-sphere distance `g` by subtracting nearly equal cubes, so its error grows with the ratio of
particle diameter to mean free path (and back).  `R` below bounds that ratio.
-/

namespace Soot

open Dbl
open scoped Classical

namespace FpK

variable {F : Fp} {ε : ℝ}

/-! ## The distance depends mildly on its arguments -/

/-- The part of `specG` that depends only on the ratio of mean free path to diameter. -/
noncomputable def gShape (t : ℝ) : ℝ := 1 / 3 * (1 / (Real.sqrt (1 + t ^ 2) + t) + 1 / (Real.sqrt (1 + t ^ 2) + 1))

theorem specG_shape {d l : ℝ} (hd : 0 < d) (hl : 0 < l) : specG d l = Real.sqrt 2 * l * (1 - gShape (l / d)) := by
  obtain ⟨t, ht⟩ : ∃ t, t = l / d := ⟨_, rfl⟩
  have t0 : 0 < t := ht ▸ div_pos hl hd
  have el : l = t * d := by rw [ht]; field_simp
  obtain ⟨s, hs⟩ : ∃ s, s = Real.sqrt (1 + t ^ 2) := ⟨_, rfl⟩
  have s0 : 0 < s := by rw [hs]; positivity
  have ss : s ^ 2 = 1 + t ^ 2 := by rw [hs]; exact Real.sq_sqrt (by positivity)
  have e1 : Real.sqrt ((d ^ 2 + l ^ 2) ^ 3) = (d * s) ^ 3 := by
    have : (d ^ 2 + l ^ 2) ^ 3 = ((d * s) ^ 3) ^ 2 := by
      have : (d * s) ^ 2 = d ^ 2 + l ^ 2 := by rw [mul_pow, ss, el]; ring
      rw [← this]; ring
    rw [this, Real.sqrt_sq (by positivity)]
  have e2 : 1 / (s + t) = s - t := by
    rw [div_eq_iff (by positivity)]; nlinarith
  have e3 : 1 / (s + 1) = (s - 1) / t ^ 2 := by
    rw [div_eq_div_iff (by positivity) (by positivity)]; nlinarith
  rw [specG, e1, gShape, ← ht, ← hs, e2, e3, el]
  have s3 : s ^ 3 = s * (1 + t ^ 2) := by rw [← ss]; ring
  have d0 := hd.ne'
  have t0' := t0.ne'
  field_simp
  rw [s3]
  ring

theorem gShape_pos {t : ℝ} (ht : 0 < t) : 0 < gShape t := by unfold gShape; positivity

theorem gShape_lt {t : ℝ} (ht : 0 < t) : gShape t ≤ 1 / 2 := by
  have s1 : 1 ≤ Real.sqrt (1 + t ^ 2) := Real.one_le_sqrt.2 (by nlinarith)
  have a : 1 / (Real.sqrt (1 + t ^ 2) + t) ≤ 1 := by rw [div_le_one (by positivity)]; linarith
  have b : 1 / (Real.sqrt (1 + t ^ 2) + 1) ≤ 1 / 2 := one_div_le_one_div_of_le (by norm_num) (by linarith)
  unfold gShape; linarith

theorem gShape_ratio {t t' k : ℝ} (ht : 0 < t) (ht' : 0 < t') (k0 : 0 < k) (k1 : k ≤ 1) (h : t' * k ≤ t) : k * gShape t ≤ gShape t' := by
  have hs : k * Real.sqrt (1 + t' ^ 2) ≤ Real.sqrt (1 + t ^ 2) := by
    apply Real.le_sqrt_of_sq_le
    rw [mul_pow, Real.sq_sqrt (by positivity)]
    have h1 : (t' * k) ^ 2 ≤ t ^ 2 := pow_le_pow_left₀ (by positivity) h 2
    have h2 : k ^ 2 ≤ 1 := pow_le_one₀ k0.le k1
    nlinarith
  have s0 : 0 < Real.sqrt (1 + t ^ 2) := by positivity
  have s0' : 0 < Real.sqrt (1 + t' ^ 2) := by positivity
  have a : k * (1 / (Real.sqrt (1 + t ^ 2) + t)) ≤ 1 / (Real.sqrt (1 + t' ^ 2) + t') := by
    rw [mul_one_div, div_le_div_iff₀ (by positivity) (by positivity)]; linarith
  have b : k * (1 / (Real.sqrt (1 + t ^ 2) + 1)) ≤ 1 / (Real.sqrt (1 + t' ^ 2) + 1) := by
    rw [mul_one_div, div_le_div_iff₀ (by positivity) (by positivity)]; linarith
  unfold gShape
  linarith

/-- A relative error of diameter and mean free path. -/
theorem specG_stab {d l d' l' a b : ℝ} (hd : 0 < d) (hl : 0 < l) (hd' : 0 < d') (hl' : 0 < l') (a0 : 0 < a) (a1 : a ≤ 1) (b0 : 0 < b) (b1 : b ≤ 1)
    (h1 : d * a ≤ d') (h2 : l' * b ≤ l) : specG d' l' * (a * b * b) ≤ specG d l := by
  rw [specG_shape hd hl, specG_shape hd' hl']
  have k0 : 0 < a * b := mul_pos a0 b0
  have k1 : a * b ≤ 1 := mul_le_one₀ a1 b0.le b1
  have ht : l' / d' * (a * b) ≤ l / d := by
    rw [div_mul_eq_mul_div, div_le_div_iff₀ hd' hd]
    calc l' * (a * b) * d = l' * b * (d * a) := by ring
      _ ≤ l * d' := mul_le_mul h2 h1 (by positivity) hl.le
  have g := gShape_ratio (div_pos hl hd) (div_pos hl' hd') k0 k1 ht
  have g1 := gShape_lt (div_pos hl hd)
  have g1' := gShape_lt (div_pos hl' hd')
  have g0' := gShape_pos (div_pos hl hd)
  have q : (1 - gShape (l' / d')) * (a * b) ≤ 1 - gShape (l / d) := by
    have : 1 - gShape (l' / d') ≤ 1 - a * b * gShape (l / d) := by linarith
    calc (1 - gShape (l' / d')) * (a * b) ≤ (1 - a * b * gShape (l / d)) * (a * b) := mul_le_mul_of_nonneg_right this k0.le
      _ ≤ 1 - gShape (l / d) := by
          have h : gShape (l / d) * (1 + a * b) ≤ 1 / 2 * 2 := mul_le_mul g1 (by linarith) (by positivity) (by norm_num)
          have := mul_nonneg (sub_nonneg.2 k1) (sub_nonneg.2 h)
          linarith
  have s2 : 0 < Real.sqrt 2 := by positivity
  calc Real.sqrt 2 * l' * (1 - gShape (l' / d')) * (a * b * b) = Real.sqrt 2 * ((l' * b) * ((1 - gShape (l' / d')) * (a * b))) := by ring
    _ ≤ Real.sqrt 2 * (l * (1 - gShape (l / d))) :=
        mul_le_mul_of_nonneg_left (mul_le_mul h2 q (mul_nonneg (by linarith) k0.le) hl.le) s2.le
    _ = _ := by ring

/-! ## Errors that are given as numbers -/

theorem rel_of_err {e : ℝ} (hε : Sm e) {n : ℕ} (hn : n ≤ 9000) {x y : ℝ} (hx : 0 < x) (h : |y - x| ≤ n * e * x) :
    x * (1 - e) ^ (n + 1) ≤ y ∧ y * (1 - e) ^ (n + 1) ≤ x := by
  rw [abs_le] at h
  have e0 := hε.pos
  have n0 : (0 : ℝ) ≤ n := Nat.cast_nonneg n
  have n1 : (n : ℝ) ≤ 9000 := by exact_mod_cast hn
  have ne : n * e ≤ 9000 * (1 / 10 ^ 8) := mul_le_mul n1 hε.le e0 (by norm_num)
  have ne0 : 0 ≤ n * e := mul_nonneg n0 e0
  have q : (1 - e) ^ (n + 1) * (1 + (n + 1) * e) ≤ 1 := by
    have b : 1 + ((n + 1 : ℕ) : ℝ) * e ≤ (1 + e) ^ (n + 1) := one_add_mul_le_pow (by linarith) _
    push_cast at b
    calc (1 - e) ^ (n + 1) * (1 + (n + 1) * e) ≤ (1 - e) ^ (n + 1) * (1 + e) ^ (n + 1) := mul_le_mul_of_nonneg_left b (hε.pw _).le
      _ = (1 - e ^ 2) ^ (n + 1) := by rw [← mul_pow]; ring
      _ ≤ 1 := pow_le_one₀ (by have := hε.le; norm_num at this; nlinarith) (by nlinarith)
  have p := hε.pw (n + 1)
  have r : 1 ≤ (1 - n * e) * (1 + (n + 1) * e) := by
    have : n * e * ((n + 1) * e) ≤ 1 * e := by
      have h1 : n * e * (n + 1) ≤ 1 := by
        have := mul_le_mul ne (show (n : ℝ) + 1 ≤ 9001 by linarith) (by positivity) (by norm_num)
        norm_num at this; linarith
      have := mul_le_mul_of_nonneg_right h1 e0
      linarith
    nlinarith
  have w : (1 - e) ^ (n + 1) ≤ 1 - n * e := by
    have f : 0 < 1 + (n + 1) * e := by positivity
    exact le_of_mul_le_mul_right (q.trans r) f
  constructor
  · have := mul_le_mul_of_nonneg_left w hx.le
    linarith
  · have h1 : y ≤ x * (1 + n * e) := by linarith [h.2]
    have o : 0 ≤ 1 - n * e := by norm_num at ne; linarith
    calc y * (1 - e) ^ (n + 1) ≤ x * (1 + n * e) * (1 - e) ^ (n + 1) := mul_le_mul_of_nonneg_right h1 p.le
      _ ≤ x * (1 + n * e) * (1 - n * e) := mul_le_mul_of_nonneg_left w (by positivity)
      _ ≤ x := by nlinarith [mul_nonneg hx.le (mul_nonneg ne0 ne0)]

/-- Replacing the reference number by another close one. -/
theorem Acc.swap (hε : Sm ε) {n k : ℕ} {a b c d : ℤ} {x z : ℝ} {X : Dbl} (hx : Acc ε n a b x X) (h1 : z * (1 - ε) ^ k ≤ x) (h2 : x * (1 - ε) ^ k ≤ z)
    (hc : (10 : ℝ) ^ c ≤ z) (hd : z ≤ (10 : ℝ) ^ d) : Acc ε (k + n) c d z X := by
  obtain ⟨y, hy, h3, h4⟩ := hx.val
  refine ⟨hc, hd, y, hy, ?_, ?_⟩
  · rw [pow_add, ← mul_assoc]
    exact (mul_le_mul_of_nonneg_right h1 (hε.pw n).le).trans h3
  · rw [pow_add, mul_comm ((1 - ε) ^ k), ← mul_assoc]
    exact (mul_le_mul_of_nonneg_right h4 (hε.pw k).le).trans h2

theorem half_root {l G : ℝ} (h : l / Real.sqrt 2 ≤ G) : l ≤ G * Real.sqrt 2 := (div_le_iff₀ (by positivity)).1 h

/-- From `specG ≥ l/√2`. -/
theorem cubes_lo {l d q : ℝ} (h : l / Real.sqrt 2 ≤ Real.sqrt 2 * (q - d)) : l / 2 + d ≤ q := by
  have s22 : Real.sqrt 2 * Real.sqrt 2 = 2 := Real.mul_self_sqrt (by norm_num)
  have h1 := half_root h
  have : Real.sqrt 2 * (q - d) * Real.sqrt 2 = 2 * (q - d) := by rw [mul_right_comm, s22]
  linarith

theorem root_lo {l G : ℝ} (hl : 0 < l) (h : l / Real.sqrt 2 ≤ G) : 0.7 * l ≤ G := by
  refine le_trans ?_ h
  rw [le_div_iff₀ (by positivity)]
  have su : Real.sqrt 2 ≤ 1.415 := Real.sqrt_le_iff.2 (by norm_num)
  have := mul_le_mul_of_nonneg_left su (by positivity : 0 ≤ 0.7 * l)
  norm_num at this ⊢
  linarith

theorem cond_lin {R d l : ℝ} (dp : 0 < d) (lp : 0 < l) (R0 : 0 < R) (hR : (d + l) ^ 2 ≤ 2 * R * (d * l)) : d + l ≤ 2 * R * l := by
  have : (d + l) * (d + l) ≤ 2 * R * l * (d + l) := by
    have : 0 ≤ 2 * R * l * l := by positivity
    calc (d + l) * (d + l) = (d + l) ^ 2 := by ring
      _ ≤ 2 * R * (d * l) := hR
      _ ≤ 2 * R * l * (d + l) := by linarith
  exact le_of_mul_le_mul_right this (by linarith)

theorem cond_small {R ε d l : ℝ} (lp : 0 < l) (Re0 : 0 ≤ R * ε) (hRε : R ^ 2 * ε ≤ 1 / 10 ^ 8) (cond : d + l ≤ 2 * R * l) :
    28 * (R * ε) * (d + l) ≤ 0.0001 * l := by
  have h1 := mul_le_mul_of_nonneg_left cond (by positivity : 0 ≤ 28 * (R * ε))
  have h2 := mul_le_mul_of_nonneg_right hRε lp.le
  have e : 28 * (R * ε) * (2 * R * l) = 56 * (R ^ 2 * ε * l) := by ring
  rw [e] at h1
  norm_num at h1 h2 ⊢
  linarith

/-! ## Rounding in the distance itself -/

theorem acc_root2 (hF : F.Accurate ε) (hε : Sm ε) : Acc ε 2 0 1 root2 F.root2 :=
  (lit_two hF hε).sqrt hF hε 0 1 (by norm_num) (by norm_num) (by norm_num) (by norm_num) (by norm_num)

/-- `coagulationModel_FUCHS.cc:48-52`: `g` from a diameter and a mean free path that are doubles. -/
noncomputable def gD (F : Fp) (d l : Dbl) : Dbl :=
  F.sub (F.mul (F.div F.root2 (F.mul (F.mul (F.rnd 3) d) l))
    (F.sub (F.pow (F.add d l) (F.rnd 3)) (F.pow (F.add (F.mul d d) (F.mul l l)) (F.rnd 1.5)))) (F.mul F.root2 d)

variable {R d l : ℝ}

set_option maxHeartbeats 1000000 in
/-- The difference of the cubes. -/
theorem acc_cubes (hF : F.Accurate ε) (hε : Sm ε) (h3 : F.rnd 3 = fin 3) (h15 : F.rnd 1.5 = fin 1.5) (d0 : (10 : ℝ) ^ (-12 : ℤ) ≤ d)
    (d1 : d ≤ (10 : ℝ) ^ (2 : ℤ)) (l0 : (10 : ℝ) ^ (-35 : ℤ) ≤ l) (l1 : l ≤ (10 : ℝ) ^ (47 : ℤ)) (R2 : 2 ≤ R) (hR : (d + l) ^ 2 ≤ 2 * R * (d * l))
    (hε' : Sm (R * ε)) :
    Acc (R * ε) 13 (-60) 144 ((d + l) ^ 3 - Real.sqrt ((d ^ 2 + l ^ 2) ^ 3))
      (F.sub (F.pow (F.add (fin d) (fin l)) (F.rnd 3)) (F.pow (F.add (F.mul (fin d) (fin d)) (F.mul (fin l) (fin l))) (F.rnd 1.5))) := by
  have dp : 0 < d := lt_of_lt_of_le (by positivity) d0
  have lp : 0 < l := lt_of_lt_of_le (by positivity) l0
  have ed : Acc ε 0 (-12) 2 d (fin d) := .exact d0 d1
  have el : Acc ε 0 (-35) 47 l (fin l) := .exact l0 l1
  have a1 : Acc ε 1 (-12) 48 (d + l) _ := ed.add hF hε el 0 (-12) 48 (by norm_num) (by norm_num) (by norm_num) (by norm_num) (by norm_num)
    (by norm_num) (by norm_num) (by norm_num)
  have a2 : Acc ε 4 (-36) 144 _ _ := a1.powE hF hε 3 (by norm_num) 3 (-36) 144 (by norm_num) (by norm_num) (by norm_num) (by norm_num) (by norm_num)
    (by norm_num)
  have b1 : Acc ε 1 (-24) 4 (d * d) _ := ed.mul hF hε ed (by norm_num) (by norm_num) (by norm_num)
  have b2 : Acc ε 1 (-70) 94 (l * l) _ := el.mul hF hε el (by norm_num) (by norm_num) (by norm_num)
  have b3 : Acc ε 2 (-24) 95 (d * d + l * l) _ := b1.add hF hε b2 1 (-24) 95 (by norm_num) (by norm_num) (by norm_num) (by norm_num) (by norm_num)
    (by norm_num) (by norm_num) (by norm_num)
  have b4 : Acc ε 4 (-36) 143 _ _ := b3.powE hF hε 1.5 (by norm_num) 3 (-36) 143 (by norm_num) (by norm_num) (by norm_num) (by norm_num) (by norm_num)
    (by norm_num)
  have e3 : (d + l) ^ (3 : ℝ) = (d + l) ^ 3 := by
    have := Real.rpow_natCast (d + l) 3
    exact_mod_cast this
  have e15 : (d * d + l * l) ^ (1.5 : ℝ) = Real.sqrt ((d ^ 2 + l ^ 2) ^ 3) := by
    rw [pow15 (by positivity), ← sq, ← sq]
  rw [e3] at a2
  rw [e15] at b4
  rw [h3, h15]
  obtain ⟨v1, hv1, p1, p2⟩ := a2.val
  obtain ⟨v2, hv2, p3, p4⟩ := b4.val
  rw [hv1, hv2]
  have V1p := a2.pos
  have V2p := b4.pos
  have r1 := rel_err hε (by norm_num) V1p p1 p2
  have r2 := rel_err hε (by norm_num) V2p p3 p4
  obtain ⟨g1, g2, -⟩ := C64_fuchs_distance dp lp
  have s2 : 0 < Real.sqrt 2 := by positivity
  have s22 : Real.sqrt 2 * Real.sqrt 2 = 2 := Real.mul_self_sqrt (by norm_num)
  obtain ⟨W, hW⟩ : ∃ W, W = (d + l) ^ 3 - Real.sqrt ((d ^ 2 + l ^ 2) ^ 3) := ⟨_, rfl⟩
  rw [specG, ← hW] at g1 g2
  rw [← hW]
  set V1 := (d + l) ^ 3
  set V2 := Real.sqrt ((d ^ 2 + l ^ 2) ^ 3)
  have dl : 0 < d * l := mul_pos dp lp
  have w1 : 3 * (d * l) * (d + l / 2) ≤ W := by
    have : l / 2 + d ≤ W / (3 * d * l) := cubes_lo g1
    rw [le_div_iff₀ (by positivity)] at this
    linarith
  have w2 : V1 ≤ 4 / 3 * R * W := by
    have : V1 ≤ 2 * R * (d * l) * (d + l) := by
      have := mul_le_mul_of_nonneg_right hR (by positivity : 0 ≤ d + l)
      calc V1 = (d + l) ^ 2 * (d + l) := by show (d + l) ^ 3 = _; ring
        _ ≤ _ := this
    have k := mul_le_mul_of_nonneg_left w1 (by positivity : 0 ≤ 4 / 3 * R)
    have : 0 ≤ R * (d * l) * d := by positivity
    linarith
  have Wp : 0 < W := lt_of_lt_of_le (by positivity) w1
  have V2le : V2 ≤ V1 := by linarith
  have ε0 := hε.pos
  have m1 : ε * V2 ≤ ε * V1 := mul_le_mul_of_nonneg_left V2le ε0
  have m2 : ε * V1 ≤ 4 / 3 * (R * ε) * W := by
    have := mul_le_mul_of_nonneg_left w2 ε0
    linarith
  have d1' : |v1 + -v2 - W| ≤ 10.7 * (R * ε) * W := by
    rw [abs_le] at r1 r2 ⊢
    norm_num at r1 r2 ⊢
    constructor <;> linarith
  have hs : |v1 + -v2 - W| ≤ (11 : ℕ) * (R * ε) * W := by
    refine d1'.trans ?_
    have : 0 ≤ R * ε * W := mul_nonneg hε'.pos Wp.le
    norm_num; linarith
  obtain ⟨k1, k2⟩ := rel_of_err hε' (by norm_num) Wp hs
  have hle : ε ≤ R * ε := by linarith [mul_le_mul_of_nonneg_right R2 ε0]
  have lo : (10 : ℝ) ^ (-60 : ℤ) ≤ W := by
    have h1 : (10 : ℝ) ^ (-12 : ℤ) * (10 : ℝ) ^ (-35 : ℤ) ≤ d * l := mul_le_mul d0 l0 (by positivity) dp.le
    have h2 := mul_le_mul h1 d0 (by positivity) dl.le
    have h3 : d * l * d ≤ 3 * (d * l) * (d + l / 2) := by linarith [mul_pos dl dp, mul_pos dl lp]
    refine le_trans ?_ (h2.trans (h3.trans w1))
    rw [← zpow_add₀ (by norm_num), ← zpow_add₀ (by norm_num)]
    exact zpow_le_zpow_right₀ (by norm_num) (by norm_num)
  have hi : W ≤ (10 : ℝ) ^ (144 : ℤ) := by linarith [a2.hi]
  exact rnd_acc (accurate_mono hle hF) hε' (by norm_num) lo hi k1 k2 (by norm_num) (by norm_num)

set_option maxHeartbeats 1000000 in
/-- The computed distance. -/
theorem gD_err (hF : F.Accurate ε) (hε : Sm ε) (h3 : F.rnd 3 = fin 3) (h15 : F.rnd 1.5 = fin 1.5) (d0 : (10 : ℝ) ^ (-12 : ℤ) ≤ d)
    (d1 : d ≤ (10 : ℝ) ^ (2 : ℤ)) (l0 : (10 : ℝ) ^ (-35 : ℤ) ≤ l) (l1 : l ≤ (10 : ℝ) ^ (47 : ℤ)) (R2 : 2 ≤ R) (hR : (d + l) ^ 2 ≤ 2 * R * (d * l))
    (hRε : R ^ 2 * ε ≤ 1 / 10 ^ 8) :
    ∃ g, gD F (fin d) (fin l) = fin g ∧ |g - specG d l| ≤ 28 * (R * ε) * (d + l) ∧ l / 2 ≤ g ∧ g ≤ 2 * l := by
  have dp : 0 < d := lt_of_lt_of_le (by positivity) d0
  have lp : 0 < l := lt_of_lt_of_le (by positivity) l0
  have ε0 := hε.pos
  have Re0 : 0 ≤ R * ε := by positivity
  have h2e : 2 * ε ≤ R * ε := mul_le_mul_of_nonneg_right R2 ε0
  have hle : ε ≤ R * ε := by linarith
  have hε' : Sm (R * ε) := ⟨Re0, le_trans (by rw [sq, mul_assoc]; linarith [mul_le_mul_of_nonneg_right R2 Re0]) hRε⟩
  have hF' := accurate_mono hle hF
  have w := acc_cubes hF hε h3 h15 d0 d1 l0 l1 R2 hR hε'
  have ed : Acc ε 0 (-12) 2 d (fin d) := .exact d0 d1
  have el : Acc ε 0 (-35) 47 l (fin l) := .exact l0 l1
  have a1 : Acc ε 2 (-12) 3 (3 * d) _ := (lit_three hF hε).mul hF hε ed (by norm_num) (by norm_num) (by norm_num)
  have a2 : Acc ε 3 (-47) 50 (3 * d * l) _ := a1.mul hF hε el (by norm_num) (by norm_num) (by norm_num)
  have a3 : Acc ε 6 (-50) 48 (root2 / (3 * d * l)) _ := (acc_root2 hF hε).div hF hε a2 (by norm_num) (by norm_num) (by norm_num)
  have a4 : Acc (R * ε) 3 (-50) 48 (root2 / (3 * d * l)) _ := a3.coarse hε hε' h2e (by norm_num)
  have a5 : Acc (R * ε) 17 (-110) 192 _ _ := a4.mul hF' hε' w (by norm_num) (by norm_num) (by norm_num)
  have b1 : Acc ε 3 (-12) 3 (root2 * d) _ := (acc_root2 hF hε).mul hF hε ed (by norm_num) (by norm_num) (by norm_num)
  obtain ⟨x, hx, p1, p2⟩ := a5.val
  obtain ⟨y, hy, p3, p4⟩ := b1.val
  have r1 := rel_err hε' (by norm_num) a5.pos p1 p2
  have r2 := rel_err hε (by norm_num) b1.pos p3 p4
  obtain ⟨g1, g2, -⟩ := C64_fuchs_distance dp lp
  have s2 : 0 < Real.sqrt 2 := by positivity
  have s22 : Real.sqrt 2 * Real.sqrt 2 = 2 := Real.mul_self_sqrt (by norm_num)
  have su : Real.sqrt 2 ≤ 1.415 := Real.sqrt_le_iff.2 (by norm_num)
  have sl : 1.414 ≤ Real.sqrt 2 := Real.le_sqrt_of_sq_le (by norm_num)
  obtain ⟨X, hX⟩ : ∃ X, X = root2 / (3 * d * l) * ((d + l) ^ 3 - Real.sqrt ((d ^ 2 + l ^ 2) ^ 3)) := ⟨_, rfl⟩
  obtain ⟨Y, hY⟩ : ∃ Y, Y = root2 * d := ⟨_, rfl⟩
  have eG : specG d l = X - Y := by rw [specG, hX, hY, root2]; ring
  rw [← hX] at r1
  rw [← hY] at r2
  obtain ⟨G, hG⟩ : ∃ G, G = specG d l := ⟨_, rfl⟩
  rw [← hG] at g1 g2 eG
  rw [← hG]
  have Yl : Y ≤ 1.415 * d := by rw [hY, root2]; exact mul_le_mul_of_nonneg_right su dp.le
  have Gl : G ≤ 1.415 * l := g2.trans (mul_le_mul_of_nonneg_right su lp.le)
  have Xl : X ≤ 1.415 * (d + l) := by linarith
  have gl : 0.7 * l ≤ G := root_lo lp g1
  have m1 : R * ε * X ≤ R * ε * (1.415 * (d + l)) := mul_le_mul_of_nonneg_left Xl Re0
  have m2 : ε * Y ≤ R * ε / 2 * (1.415 * d) := mul_le_mul (by linarith) Yl (by rw [hY]; exact mul_nonneg root2_pos.le dp.le) (by linarith)
  have rl : 0 ≤ R * ε * l := mul_nonneg Re0 lp.le
  have rd : 0 ≤ R * ε * d := mul_nonneg Re0 dp.le
  have q : |x + -y - G| ≤ 26.5 * (R * ε) * (d + l) := by
    rw [abs_le] at r1 r2 ⊢
    norm_num at r1 r2 m1 m2 ⊢
    constructor <;> linarith
  have cond := cond_lin dp lp (by linarith) hR
  have qs := cond_small lp Re0 hRε cond
  have z1 : 0.699 * l ≤ x + -y := by
    rw [abs_le] at q
    norm_num at q qs gl ⊢
    linarith
  have z2 : x + -y ≤ 1.416 * l := by
    rw [abs_le] at q
    norm_num at q qs Gl ⊢
    linarith
  have zp : 0 < x + -y := lt_of_lt_of_le (by positivity) z1
  obtain ⟨g, hg, e⟩ := hF.rnd (x + -y) (by
    rw [abs_of_pos zp]
    refine le_trans ?_ z1
    have : (10 : ℝ) ^ (-300 : ℤ) ≤ 10 ^ (-1 : ℤ) * 10 ^ (-35 : ℤ) := by
      rw [← zpow_add₀ (by norm_num)]; exact zpow_le_zpow_right₀ (by norm_num) (by norm_num)
    refine this.trans (mul_le_mul (by norm_num) l0 (by positivity) (by norm_num))) (by
    rw [abs_of_pos zp]
    refine z2.trans ?_
    have : (10 : ℝ) ^ (1 : ℤ) * 10 ^ (47 : ℤ) ≤ 10 ^ (300 : ℤ) := by
      rw [← zpow_add₀ (by norm_num)]; exact zpow_le_zpow_right₀ (by norm_num) (by norm_num)
    refine le_trans (mul_le_mul (by norm_num) l1 lp.le (by norm_num)) this)
  rw [abs_of_pos zp] at e
  have e' : |g - (x + -y)| ≤ 0.75 * (R * ε) * l := by
    refine e.trans ?_
    have h1 := mul_le_mul (show ε ≤ R * ε / 2 by linarith) z2 zp.le (by linarith)
    norm_num at h1 ⊢
    linarith
  have fin' : |g - G| ≤ 28 * (R * ε) * (d + l) := by
    rw [abs_le] at q e' ⊢
    norm_num at q e' ⊢
    constructor <;> linarith
  refine ⟨g, ?_, fin', ?_, ?_⟩
  · rw [gD, hx, hy]; exact hg
  · rw [abs_le] at fin'
    norm_num at qs gl
    linarith
  · rw [abs_le] at fin'
    norm_num at qs Gl
    linarith

/-! ## The kernel -/

section

variable (hF : F.Accurate ε) (hε : Sm ε) {s : State} {D : DState} (hp : Pair ε s D)
include hF hε hp

theorem acc_fuchsD {m : ℝ} {M : Dbl} (hm : Acc ε 1 (-26) 3 m M) :
    Acc ε 310 (-28) 31 (fuchsD s m) (fuchsPartD F D M).2.1 := by
  have a1 : Acc ε 2 (-23) (-17) (kb * s.T) _ := (lit_kb hF hε).mul hF hε (acc_T hF hε hp) (by norm_num) (by norm_num) (by norm_num)
  have a2 : Acc ε 3 0 2 (3 * Real.pi) _ := (lit_three hF hε).mul hF hε (lit_pi hF hε) (by norm_num) (by norm_num) (by norm_num)
  have a3 : Acc ε 4 (-8) 4 (3 * Real.pi * s.muGas) _ := a2.mul hF hε (acc_mu hF hε hp) (by norm_num) (by norm_num) (by norm_num)
  have a4 : Acc ε 7 (-27) (-9) _ _ := a1.div hF hε a3 (by norm_num) (by norm_num) (by norm_num)
  have a5 : Acc ε 226 (-27) 20 _ _ := a4.mul hF hε (acc_slip hF hε hp hm) (by norm_num) (by norm_num) (by norm_num)
  exact a5.div hF hε (acc_diam hF hε hm) (by norm_num) (by norm_num) (by norm_num)

theorem acc_fuchsC {m : ℝ} {M : Dbl} (hm : Acc ε 1 (-26) 3 m M) :
    Acc ε 9 (-14) 5 (fuchsC s m) (fuchsPartD F D M).2.2.1 := by
  have a1 : Acc ε 3 (-23) (-21) (8 * kb) _ := (lit_eight hF hε).mul hF hε (lit_kb hF hε) (by norm_num) (by norm_num) (by norm_num)
  have a2 : Acc ε 4 (-23) (-16) (8 * kb * s.T) _ := a1.mul hF hε (acc_T hF hε hp) (by norm_num) (by norm_num) (by norm_num)
  have a3 : Acc ε 3 (-26) 4 (Real.pi * m) _ := (lit_pi hF hε).mul hF hε hm (by norm_num) (by norm_num) (by norm_num)
  have a4 : Acc ε 8 (-27) 10 _ _ := a2.div hF hε a3 (by norm_num) (by norm_num) (by norm_num)
  exact a4.sqrt hF hε (-14) 5 (by norm_num) (by norm_num) (by norm_num) (by norm_num) (by norm_num)

theorem acc_fuchsL {m : ℝ} {M : Dbl} (hm : Acc ε 1 (-26) 3 m M) :
    Acc ε 324 (-34) 46 (fuchsL s m)
      (F.div (F.mul (F.rnd 8) (fuchsPartD F D M).2.1) (F.mul (F.rnd Real.pi) (fuchsPartD F D M).2.2.1)) := by
  have a1 : Acc ε 312 (-28) 32 (8 * fuchsD s m) _ := (lit_eight hF hε).mul hF hε (acc_fuchsD hF hε hp hm) (by norm_num) (by norm_num) (by norm_num)
  have a2 : Acc ε 11 (-14) 6 (Real.pi * fuchsC s m) _ := (lit_pi hF hε).mul hF hε (acc_fuchsC hF hε hp hm) (by norm_num) (by norm_num) (by norm_num)
  exact a1.div hF hε a2 (by norm_num) (by norm_num) (by norm_num)

omit hF hε hp in
theorem fuchsG_specG {m : ℝ} (hd : 0 < diam m) (hl : 0 < fuchsL s m) : fuchsG s m = specG (diam m) (fuchsL s m) := by
  rw [fuchsG, specG, pow15 (by positivity), root2, ← sq, ← sq]
  field_simp

omit hF hp in
theorem near_le {n : ℕ} (hn : n ≤ 10000) {x y : ℝ} (h0 : 0 ≤ y) (h : y * (1 - ε) ^ n ≤ x) : y ≤ 1.0002 * x := by
  have := (mul_le_mul_of_nonneg_left (hε.half hn) h0).trans h
  norm_num at this ⊢
  linarith

omit hF hε hp in
theorem cond_two {R d l : ℝ} (dp : 0 < d) (lp : 0 < l) (hR : (d + l) ^ 2 ≤ 2 * R * (d * l)) : 2 ≤ R := by
  have : 4 * (d * l) ≤ (d + l) ^ 2 := by linarith [sq_nonneg (d - l)]
  have k : 4 * (d * l) ≤ 2 * R * (d * l) := this.trans hR
  have := le_of_mul_le_mul_right k (mul_pos dp lp)
  linarith

omit hF hε hp in
theorem cond_near {R d l d' l' : ℝ} (dp : 0 < d) (lp : 0 < l) (dp' : 0 < d') (lp' : 0 < l') (R0 : 0 < R) (hR : (d + l) ^ 2 ≤ 2 * R * (d * l))
    (n1 : d' ≤ 1.0002 * d) (n2 : l' ≤ 1.0002 * l) (n3 : d ≤ 1.0002 * d') (n4 : l ≤ 1.0002 * l') : (d' + l') ^ 2 ≤ 2 * (1.01 * R) * (d' * l') := by
  have e1 : (d' + l') ^ 2 ≤ (1.0002 * (d + l)) ^ 2 := pow_le_pow_left₀ (by positivity) (by linarith) 2
  have e2 : d * l ≤ 1.0002 * d' * (1.0002 * l') := mul_le_mul n3 n4 lp.le (by positivity)
  have e3 : 2 * R * (d * l) ≤ 2 * R * (1.0002 * d' * (1.0002 * l')) := mul_le_mul_of_nonneg_left e2 (by positivity)
  have e4 : (1.0002 * (d + l)) ^ 2 ≤ 1.0005 * (2 * R * (1.0002 * d' * (1.0002 * l'))) := by
    rw [mul_pow]
    exact mul_le_mul (by norm_num) (hR.trans e3) (by positivity) (by norm_num)
  have e5 : 0 ≤ R * (d' * l') := by positivity
  refine (e1.trans e4).trans ?_
  norm_num
  linarith

omit hF hε hp in
theorem dbl {x y : ℝ} (h : x ≤ 1.0002 * y) (hy : 0 ≤ y) : x ≤ 2 * y := by norm_num at h; linarith

omit hF hε hp in
theorem two_le {R : ℝ} (h : 2 ≤ R) : 2 ≤ 1.01 * R := by norm_num; linarith

omit hF hε hp in
theorem ten_lo {k : ℤ} {x y : ℝ} (h : (10 : ℝ) ^ (k + 1) ≤ x) (n : x ≤ 2 * y) : (10 : ℝ) ^ k ≤ y := by
  rw [zpow_add₀ (by norm_num), zpow_one] at h
  have pz : (0 : ℝ) < 10 ^ k := by positivity
  linarith

omit hF hε hp in
theorem ten_hi {k : ℤ} {x y : ℝ} (h : x ≤ (10 : ℝ) ^ k) (n : y ≤ 2 * x) : y ≤ (10 : ℝ) ^ (k + 1) := by
  rw [zpow_add₀ (by norm_num), zpow_one]
  have pz : (0 : ℝ) < 10 ^ k := by positivity
  linarith

omit hF hε hp in
theorem dist_sum {R ε d l d' l' g G G' : ℝ} (dp : 0 < d) (lp : 0 < l) (ε0 : 0 ≤ ε) (R2 : 2 ≤ R) (gu : G ≤ Real.sqrt 2 * l) (gp : 0 < G)
    (n1 : d' ≤ 1.0002 * d) (n2 : l' ≤ 1.0002 * l) (k : |G' - G| ≤ 1.001 * ((83 + 324 + 324 : ℕ) : ℝ) * ε * G)
    (e1 : |g - G'| ≤ 28 * (1.01 * R * ε) * (d' + l')) : |g - G| ≤ 546 * (R * ε) * (d + l) := by
  have Re0 : 0 ≤ R * ε := mul_nonneg (by linarith) ε0
  have su : Real.sqrt 2 ≤ 1.415 := Real.sqrt_le_iff.2 (by norm_num)
  have gl : G ≤ 1.415 * l := gu.trans (mul_le_mul_of_nonneg_right su lp.le)
  have k2 : ε * G ≤ R * ε / 2 * (1.415 * l) :=
    mul_le_mul (by linarith [mul_le_mul_of_nonneg_right R2 ε0]) gl gp.le (by linarith)
  have k3 : R * ε * (d' + l') ≤ R * ε * (1.0002 * (d + l)) := mul_le_mul_of_nonneg_left (by linarith) Re0
  have k4 : 0 ≤ R * ε * d := mul_nonneg Re0 dp.le
  have k5 : 0 ≤ R * ε * l := mul_nonneg Re0 lp.le
  rw [abs_le] at e1 k ⊢
  norm_num at e1 k k2 k3 ⊢
  constructor <;> linarith

/-- The distance as the program computes it. -/
theorem fuchs_g {R m : ℝ} {M : Dbl} (h3 : F.rnd 3 = fin 3) (h15 : F.rnd 1.5 = fin 1.5) (hm : Acc ε 1 (-26) 3 m M)
    (hR : (diam m + fuchsL s m) ^ 2 ≤ 2 * R * (diam m * fuchsL s m)) (hRε : R ^ 2 * ε ≤ 1 / 10 ^ 9) :
    ∃ g, (fuchsPartD F D M).2.2.2 = fin g ∧ |g - fuchsG s m| ≤ 546 * (R * ε) * (diam m + fuchsL s m) ∧ (10 : ℝ) ^ (-36 : ℤ) ≤ g ∧
      g ≤ (10 : ℝ) ^ (48 : ℤ) := by
  have ad := acc_diam hF hε hm
  have al := acc_fuchsL hF hε hp hm
  have dp := ad.pos
  have lp := al.pos
  obtain ⟨d', hd', p1, p2⟩ := ad.val
  obtain ⟨l', hl', p3, p4⟩ := al.val
  have dp' : 0 < d' := lt_of_lt_of_le (mul_pos dp (hε.pw _)) p1
  have lp' : 0 < l' := lt_of_lt_of_le (mul_pos lp (hε.pw _)) p3
  have eg : (fuchsPartD F D M).2.2.2 = gD F (fin d') (fin l') := by rw [← hd', ← hl']; rfl
  rw [eg, fuchsG_specG dp lp]
  generalize diam m = d at *
  generalize fuchsL s m = l at *
  have n1 := near_le hε (by norm_num) dp'.le p2
  have n2 := near_le hε (by norm_num) lp'.le p4
  have n3 := near_le hε (by norm_num) dp.le p1
  have n4 := near_le hε (by norm_num) lp.le p3
  have R2 := cond_two dp lp hR
  have ε0 := hε.pos
  have Re0 : 0 ≤ R * ε := by positivity
  have hR' := cond_near dp lp dp' lp' (lt_of_lt_of_le (by norm_num) R2) hR n1 n2 n3 n4
  have hRε' : (1.01 * R) ^ 2 * ε ≤ 1 / 10 ^ 8 := by
    have : (1.01 * R) ^ 2 * ε = 1.01 ^ 2 * (R ^ 2 * ε) := by ring
    rw [this]
    refine (mul_le_mul_of_nonneg_left hRε (by norm_num)).trans ?_
    norm_num
  have t1 : (10 : ℝ) ^ (-12 : ℤ) ≤ d' := ten_lo (k := -12) ad.lo (dbl n3 dp'.le)
  have t2 : d' ≤ (10 : ℝ) ^ (2 : ℤ) := ten_hi (k := 1) ad.hi (dbl n1 dp.le)
  have t3 : (10 : ℝ) ^ (-35 : ℤ) ≤ l' := ten_lo (k := -35) al.lo (dbl n4 lp'.le)
  have t4 : l' ≤ (10 : ℝ) ^ (47 : ℤ) := ten_hi (k := 46) al.hi (dbl n2 lp.le)
  obtain ⟨g, hg, e1, e2, e3⟩ := gD_err hF hε h3 h15 t1 t2 t3 t4 (two_le R2) hR' hRε'
  refine ⟨g, hg, ?_, ?_, ?_⟩
  · have q1 := specG_stab dp lp dp' lp' (hε.pw _) (hε.pw_le _) (hε.pw _) (hε.pw_le _) p1 p4
    have q2 := specG_stab dp' lp' dp lp (hε.pw _) (hε.pw_le _) (hε.pw _) (hε.pw_le _) p2 p3
    rw [← pow_add, ← pow_add] at q1 q2
    obtain ⟨-, gu, gp⟩ := C64_fuchs_distance dp lp
    have k := rel_err hε (by norm_num) gp q2 q1
    exact dist_sum dp lp ε0 R2 gu gp n1 n2 k e1
  · exact ten_lo (k := -36) t3 ((div_le_iff₀' (by norm_num)).1 e2)
  · exact ten_hi (k := 47) t4 e3

omit hF hε hp in
/-- `√(x² + y²)` moves by at most the errors of `x` and `y`. -/
theorem norm2_lip {x y x' y' a b : ℝ} (hx : |x' - x| ≤ a) (hy : |y' - y| ≤ b) :
    |Real.sqrt (x' * x' + y' * y') - Real.sqrt (x * x + y * y)| ≤ a + b := by
  have tri : ∀ {p q p' q' : ℝ}, |p' - p| ≤ a → |q' - q| ≤ b → Real.sqrt (p' * p' + q' * q') ≤ Real.sqrt (p * p + q * q) + (a + b) := by
    intro p q p' q' h1 h2
    have a0 : 0 ≤ a := (abs_nonneg _).trans h1
    have b0 : 0 ≤ b := (abs_nonneg _).trans h2
    apply Real.sqrt_le_iff.2
    have n0 : 0 ≤ Real.sqrt (p * p + q * q) := Real.sqrt_nonneg _
    refine ⟨by positivity, ?_⟩
    have nn : Real.sqrt (p * p + q * q) * Real.sqrt (p * p + q * q) = p * p + q * q := Real.mul_self_sqrt (by nlinarith [mul_self_nonneg p, mul_self_nonneg q])
    have np : |p| ≤ Real.sqrt (p * p + q * q) := Real.abs_le_sqrt (by nlinarith [mul_self_nonneg q])
    have nq : |q| ≤ Real.sqrt (p * p + q * q) := Real.abs_le_sqrt (by nlinarith [mul_self_nonneg p])
    have up : |p'| ≤ |p| + a := by
      have := abs_add_le p (p' - p); rw [add_sub_cancel] at this; linarith
    have uq : |q'| ≤ |q| + b := by
      have := abs_add_le q (q' - q); rw [add_sub_cancel] at this; linarith
    have e1 : p' * p' ≤ (|p| + a) * (|p| + a) := by
      rw [← abs_mul_abs_self p']; exact mul_self_le_mul_self (abs_nonneg _) up
    have e2 : q' * q' ≤ (|q| + b) * (|q| + b) := by
      rw [← abs_mul_abs_self q']; exact mul_self_le_mul_self (abs_nonneg _) uq
    have e3 := abs_mul_abs_self p
    have e4 := abs_mul_abs_self q
    have f1 := mul_le_mul_of_nonneg_right np a0
    have f2 := mul_le_mul_of_nonneg_right nq b0
    have f3 := mul_nonneg a0 b0
    have f4 := mul_nonneg n0 a0
    have f5 := mul_nonneg n0 b0
    generalize Real.sqrt (p * p + q * q) = n at *
    have : (n + (a + b)) ^ 2 = p * p + q * q + 2 * (n * a) + 2 * (n * b)
        + (a * a + 2 * (a * b) + b * b) := by rw [← nn]; ring
    rw [this]
    linarith
  rw [abs_le]
  have h1 := tri hx hy
  have h2 := tri (p := x') (q := y') (by rwa [abs_sub_comm]) (by rwa [abs_sub_comm] : |y - y'| ≤ b)
  constructor <;> linarith

omit hF hε hp in
theorem sphere_err {d1 d2 l1 l2 G1 G2 q e : ℝ} (e0 : 0 ≤ e) (dp1 : 0 < d1) (dp2 : 0 < d2) (lp1 : 0 < l1) (lp2 : 0 < l2) (hG1 : G1 = specG d1 l1)
    (hG2 : G2 = specG d2 l2) (h : |q - Real.sqrt (G1 * G1 + G2 * G2)| ≤ 546 * e * (d1 + l1) + 546 * e * (d2 + l2)) :
    |d1 + d2 + 2 * q - (d1 + d2 + 2 * Real.sqrt (G1 * G1 + G2 * G2))| ≤ (1092 : ℕ) * e * (d1 + d2 + 2 * Real.sqrt (G1 * G1 + G2 * G2)) := by
  obtain ⟨a1, -, p1⟩ := C64_fuchs_distance dp1 lp1
  obtain ⟨a2, -, p2⟩ := C64_fuchs_distance dp2 lp2
  rw [← hG1] at a1 p1
  rw [← hG2] at a2 p2
  have b1 := half_root a1
  have b2 := half_root a2
  have s0 : 0 ≤ Real.sqrt 2 := Real.sqrt_nonneg _
  have s22 : Real.sqrt 2 * Real.sqrt 2 = 2 := Real.mul_self_sqrt (by norm_num)
  have k : (G1 + G2) * Real.sqrt 2 ≤ 2 * Real.sqrt (G1 * G1 + G2 * G2) := by
    have : G1 + G2 ≤ Real.sqrt 2 * Real.sqrt (G1 * G1 + G2 * G2) := by
      rw [← Real.sqrt_mul (by norm_num)]
      apply Real.le_sqrt_of_sq_le
      linarith [sq_nonneg (G1 - G2)]
    calc (G1 + G2) * Real.sqrt 2 ≤ Real.sqrt 2 * Real.sqrt (G1 * G1 + G2 * G2) * Real.sqrt 2 := mul_le_mul_of_nonneg_right this s0
      _ = Real.sqrt 2 * Real.sqrt 2 * Real.sqrt (G1 * G1 + G2 * G2) := by ring
      _ = _ := by rw [s22]
  generalize Real.sqrt (G1 * G1 + G2 * G2) = n at *
  have : e * (l1 + l2) ≤ e * (2 * n) := mul_le_mul_of_nonneg_left (by linarith) e0
  rw [abs_le] at h ⊢
  push_cast
  constructor <;> linarith

set_option maxHeartbeats 400000 in
/-- The Fuchs kernel: the error is proportional to the largest ratio `R` of the two particles. -/
theorem acc_FUCHS {R m1 m2 c : ℝ} {M1 M2 : Dbl} (h3 : F.rnd 3 = fin 3) (h15 : F.rnd 1.5 = fin 1.5)
    (hm1 : Acc ε 1 (-26) 3 m1 M1) (hm2 : Acc ε 1 (-26) 3 m2 M2) (c0 : (10 : ℝ) ^ (-6 : ℤ) ≤ c)
    (c1 : c ≤ (10 : ℝ) ^ (6 : ℤ)) (k : CoagMech)
    (hR1 : (diam m1 + fuchsL s m1) ^ 2 ≤ 2 * R * (diam m1 * fuchsL s m1)) (hR2 : (diam m2 + fuchsL s m2) ^ 2 ≤ 2 * R * (diam m2 * fuchsL s m2))
    (hRε : R ^ 2 * ε ≤ 1 / 10 ^ 9) :
    Acc (R * ε) 1381 (-104) 79 (fuchsVal ⟨k, c⟩ s m1 m2) (fuchsCombD F (fin c) (fuchsPartD F D M1) (fuchsPartD F D M2)) := by
  have dp1 := (acc_diam hF hε hm1).pos
  have dp2 := (acc_diam hF hε hm2).pos
  have lp1 := (acc_fuchsL hF hε hp hm1).pos
  have lp2 := (acc_fuchsL hF hε hp hm2).pos
  have R2 := cond_two dp1 lp1 hR1
  have ε0 := hε.pos
  have Re0 : 0 ≤ R * ε := mul_nonneg (by linarith) ε0
  have h2e : 2 * ε ≤ R * ε := mul_le_mul_of_nonneg_right R2 ε0
  have hle : ε ≤ R * ε := by linarith
  have hε' : Sm (R * ε) := ⟨Re0, le_trans (by rw [sq, mul_assoc] at hRε; linarith [mul_le_mul_of_nonneg_right R2 Re0]) (by norm_num : (1 : ℝ) / 10 ^ 9 ≤ 1 / 10 ^ 8)⟩
  have hF' := accurate_mono hle hF
  obtain ⟨g1, hg1, e1, i1, j1⟩ := fuchs_g hF hε hp h3 h15 hm1 hR1 hRε
  obtain ⟨g2, hg2, e2, i2, j2⟩ := fuchs_g hF hε hp h3 h15 hm2 hR2 hRε
  have dd := acc_ds hF hε hp hm1 hm2
  have DD : Acc ε 311 (-28) 32 (fuchsD s m1 + fuchsD s m2) _ := (acc_fuchsD hF hε hp hm1).add hF hε (acc_fuchsD hF hε hp hm2) 310 (-28) 32
    (by norm_num) (by norm_num) (by norm_num) (by norm_num) (by norm_num) (by norm_num) (by norm_num) (by norm_num)
  have a1 : Acc ε 1 (-72) 96 (g1 * g1) _ := (Acc.exact i1 j1).mul hF hε (Acc.exact i1 j1) (by norm_num) (by norm_num) (by norm_num)
  have a2 : Acc ε 1 (-72) 96 (g2 * g2) _ := (Acc.exact i2 j2).mul hF hε (Acc.exact i2 j2) (by norm_num) (by norm_num) (by norm_num)
  have a3 : Acc ε 2 (-72) 97 (g1 * g1 + g2 * g2) _ := a1.add hF hε a2 1 (-72) 97
    (by norm_num) (by norm_num) (by norm_num) (by norm_num) (by norm_num) (by norm_num) (by norm_num) (by norm_num)
  have a4 : Acc ε 3 (-36) 49 _ _ := a3.sqrt hF hε (-36) 49 (by norm_num) (by norm_num) (by norm_num) (by norm_num) (by norm_num)
  have a5 : Acc ε 5 (-36) 50 _ _ := (lit_two hF hε).mul hF hε a4 (by norm_num) (by norm_num) (by norm_num)
  have a6 : Acc ε 85 (-11) 51 _ _ := dd.add hF hε a5 84 (-11) 51
    (by norm_num) (by norm_num) (by norm_num) (by norm_num) (by norm_num) (by norm_num) (by norm_num) (by norm_num)
  have a7 : Acc (R * ε) 43 (-11) 51 _ _ := a6.coarse hε hε' h2e (by norm_num)
  have lip := norm2_lip e1 e2
  have n0 := Real.sqrt_nonneg (fuchsG s m1 * fuchsG s m1 + fuchsG s m2 * fuchsG s m2)
  obtain ⟨z1, z2⟩ := rel_of_err (x := diam m1 + diam m2 + 2 * Real.sqrt (fuchsG s m1 * fuchsG s m1 + fuchsG s m2 * fuchsG s m2))
    (y := diam m1 + diam m2 + 2 * Real.sqrt (g1 * g1 + g2 * g2)) hε' (n := 1092) (by norm_num) (by linarith)
    (sphere_err Re0 dp1 dp2 lp1 lp2 (fuchsG_specG dp1 lp1) (fuchsG_specG dp2 lp2) lip)
  have lo : (10 : ℝ) ^ (-11 : ℤ) ≤ diam m1 + diam m2 + 2 * Real.sqrt (fuchsG s m1 * fuchsG s m1 + fuchsG s m2 * fuchsG s m2) := by
    have := dd.lo
    linarith
  have b1 : Acc (R * ε) 1136 (-11) 52 _ _ := a7.swap hε' z1 z2 lo (ten_hi (k := 51) a7.hi (dbl (near_le hε' (by norm_num) (le_trans (by positivity) lo) z1) a7.pos.le))
  have b2 : Acc (R * ε) 42 (-11) 2 _ _ := dd.coarse hε hε' h2e (by norm_num)
  have b3 : Acc (R * ε) 1179 (-63) 13 _ _ := b2.div hF' hε' b1 (by norm_num) (by norm_num) (by norm_num)
  have t1 : Acc ε 2 (-6) 7 (epsC * c) _ := (lit_eps hF hε).mul hF hε (.exact c0 c1) (by norm_num) (by norm_num) (by norm_num)
  have t2 : Acc ε 4 (-7) 7 (8 / (epsC * c)) _ := (lit_eight hF hε).div hF hε t1 (by norm_num) (by norm_num) (by norm_num)
  have t3 : Acc ε 316 (-35) 39 _ _ := t2.mul hF hε DD (by norm_num) (by norm_num) (by norm_num)
  have k1 := acc_fuchsC hF hε hp hm1
  have k2 := acc_fuchsC hF hε hp hm2
  have u1 : Acc ε 19 (-28) 10 _ _ := k1.mul hF hε k1 (by norm_num) (by norm_num) (by norm_num)
  have u2 : Acc ε 19 (-28) 10 _ _ := k2.mul hF hε k2 (by norm_num) (by norm_num) (by norm_num)
  have u3 : Acc ε 20 (-28) 11 _ _ := u1.add hF hε u2 19 (-28) 11
    (by norm_num) (by norm_num) (by norm_num) (by norm_num) (by norm_num) (by norm_num) (by norm_num) (by norm_num)
  have u4 : Acc ε 21 (-14) 6 _ _ := u3.sqrt hF hε (-14) 6 (by norm_num) (by norm_num) (by norm_num) (by norm_num) (by norm_num)
  have u5 : Acc ε 106 (-25) 8 _ _ := u4.mul hF hε dd (by norm_num) (by norm_num) (by norm_num)
  have t4 : Acc ε 423 (-43) 64 _ _ := t3.div hF hε u5 (by norm_num) (by norm_num) (by norm_num)
  have t5 : Acc (R * ε) 212 (-43) 64 _ _ := t4.coarse hε hε' h2e (by norm_num)
  have t6 : Acc (R * ε) 1180 (-43) 65 _ _ := b3.add hF' hε' t5 1179 (-43) 65
    (by norm_num) (by norm_num) (by norm_num) (by norm_num) (by norm_num) (by norm_num) (by norm_num) (by norm_num)
  have v1 : Acc ε 3 0 2 (2 * Real.pi) _ := (lit_two hF hε).mul hF hε (lit_pi hF hε) (by norm_num) (by norm_num) (by norm_num)
  have v2 : Acc ε 315 (-28) 34 _ _ := v1.mul hF hε DD (by norm_num) (by norm_num) (by norm_num)
  have v3 : Acc ε 400 (-39) 36 _ _ := v2.mul hF hε dd (by norm_num) (by norm_num) (by norm_num)
  have v4 : Acc (R * ε) 200 (-39) 36 _ _ := v3.coarse hε hε' h2e (by norm_num)
  have w : Acc (R * ε) 1381 (-104) 79 _ _ := v4.div hF' hε' t6 (by norm_num) (by norm_num) (by norm_num)
  have ec : fuchsCombD F (fin c) (fuchsPartD F D M1) (fuchsPartD F D M2)
      = fuchsCombD F (fin c) ((fuchsPartD F D M1).1, (fuchsPartD F D M1).2.1, (fuchsPartD F D M1).2.2.1, fin g1)
        ((fuchsPartD F D M2).1, (fuchsPartD F D M2).2.1, (fuchsPartD F D M2).2.2.1, fin g2) := by
    rw [← hg1, ← hg2]
  rw [ec]
  exact w

end

end FpK

end Soot
