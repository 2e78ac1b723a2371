import Verif.Props.FpRateAcc
import Verif.Props.FpMass

/-!
# C101: the Nagle--Strickland-Constable rate in floating point

The rate contains the difference `1 - x`, which loses digits when `x` is close to 1.
-/

namespace Soot

open Dbl Res
open scoped Classical

namespace FpK

variable {F : Fp} {ε : ℝ}

theorem half_lo {t u t' P Q : ℝ} (h1 : Q ≤ P * (1 / 2)) (h2 : P ≤ t) (h3 : t * (1 / 2) ≤ u) (h4 : u ≤ t') : Q ≤ t' := by linarith

theorem half_hi {t u t' P Q : ℝ} (h1 : P * 2 ≤ Q) (h2 : t ≤ P) (h3 : t' * (1 / 2) ≤ u) (h4 : u ≤ t) : t' ≤ Q := by linarith

theorem sat_rel (hε : Sm ε) {n : ℕ} {t t' : ℝ} (ht : 0 < t) (h1 : t * (1 - ε) ^ n ≤ t') (h2 : t' * (1 - ε) ^ n ≤ t) :
    t / (1 + t) * (1 - ε) ^ n ≤ t' / (1 + t') ∧ t' / (1 + t') * (1 - ε) ^ n ≤ t / (1 + t) := by
  have p := hε.pw n
  have p1 := hε.pw_le n
  have t0 : 0 < t' := lt_of_lt_of_le (mul_pos ht p) h1
  have key : ∀ u v : ℝ, 0 < u → 0 < v → u * (1 - ε) ^ n ≤ v → u / (1 + u) * (1 - ε) ^ n ≤ v / (1 + v) := by
    intro u v hu hv h
    rw [div_mul_eq_mul_div, div_le_div_iff₀ (by linarith) (by linarith)]
    have : u * v * (1 - ε) ^ n ≤ u * v * 1 := mul_le_mul_of_nonneg_left p1 (by positivity)
    nlinarith
  exact ⟨key _ _ ht t0 h1, key _ _ t0 ht h2⟩

/-- `1 - 1/(1+t)` has a small absolute error. -/
theorem one_sub (hF : F.Accurate ε) (hε : Sm ε) (hS : F.Std ε (ε * 10 ^ (-250 : ℤ)) (10 ^ (300 : ℤ))) {t : ℝ} (h0 : (10 : ℝ) ^ (-200 : ℤ) ≤ t)
    (h1 : t ≤ (10 : ℝ) ^ (200 : ℤ)) :
    ∃ w, F.sub (F.rnd 1) (F.div (F.rnd 1) (F.add (F.rnd 1) (fin t))) = fin w ∧ |w - t / (1 + t)| ≤ 7 * ε := by
  have tp : 0 < t := lt_of_lt_of_le (by positivity) h0
  have a0 : Acc ε 1 0 0 1 (F.rnd 1) := .lit hF hε (by norm_num) (by norm_num) (by norm_num) (by norm_num)
  have a1 := a0.add hF hε (.exact h0 h1) 1 0 201 (by norm_num) (by norm_num) (by norm_num) (by norm_num) (by norm_num) (by norm_num) (by norm_num) (by norm_num)
  have a2 := a0.div hF hε a1 (by norm_num) (by norm_num) (by norm_num)
  obtain ⟨o, ho, o1, o2⟩ := a0.val
  obtain ⟨x, hx, x1, x2⟩ := a2.val
  have eo := rel_err hε (by norm_num) a0.pos o1 o2
  have ex := rel_err hε (by norm_num) a2.pos x1 x2
  have ε0 := hε.pos
  have ε1 := hε.le
  have q1 : 1 / (1 + t) ≤ 1 := by rw [div_le_one (by linarith)]; linarith
  have q0 := a2.pos
  have eq : t / (1 + t) = 1 - 1 / (1 + t) := by field_simp; ring
  rw [ho] at hx ⊢
  rw [hx]
  have ex' : |x - 1 / (1 + t)| ≤ 4.004 * ε := by
    refine ex.trans ?_
    have : ε * (1 / (1 + t)) ≤ ε * 1 := mul_le_mul_of_nonneg_left q1 ε0
    norm_num at this ⊢
    nlinarith
  rw [eq]
  clear eq ex x1 x2 hx a1 a2
  generalize 1 / (1 + t) = v at *
  norm_num at eo ex' ε1
  rw [abs_le] at eo ex'
  have b : |o + -x| ≤ 1.1 := by rw [abs_le]; constructor <;> norm_num <;> linarith
  have big : (1.1 : ℝ) ≤ 10 ^ (300 : ℤ) := by
    calc (1.1 : ℝ) ≤ 10 ^ (1 : ℤ) := by norm_num
      _ ≤ _ := zpow_le_zpow_right₀ (by norm_num) (by norm_num)
  obtain ⟨w, hw, ew⟩ := hS (o + -x) (b.trans big)
  refine ⟨w, by rw [Fp.sub]; exact hw, ?_⟩
  have tiny : (10 : ℝ) ^ (-250 : ℤ) ≤ 10 ^ (-1 : ℤ) := zpow_le_zpow_right₀ (by norm_num) (by norm_num)
  have tiny' := mul_le_mul_of_nonneg_left tiny ε0
  have b' := mul_le_mul_of_nonneg_left b ε0
  have ew' := ew.trans (add_le_add b' tiny')
  rw [abs_le] at ew'
  rw [abs_le]
  norm_num at ew'
  constructor <;> norm_num <;> linarith

set_option maxHeartbeats 800000 in
/-- The sum of a positive rate and `B*(1 - 1/(1+t))`. -/
theorem nsc_core (hF : F.Accurate ε) (hε : Sm ε) (hS : F.Std ε (ε * 10 ^ (-250 : ℤ)) (10 ^ (300 : ℤ))) {n m l r : ℕ} {B t S : ℝ} {Bd td Sd : Dbl}
    (hB : Acc ε n (-200) 20 B Bd) (ht : Acc ε m (-190) 190 t td) (hs : Acc ε l (-200) 100 S Sd) (hn : n + m ≤ l) (hl : l ≤ 1000) (r0 : 1 ≤ r) (hr : r ≤ 400)
    (hK : B ≤ 2 * r * (S + B * (t / (1 + t)))) :
    Acc ε (l + 19 * r + 1) (-200) 101 (S + B * (t / (1 + t)))
      (F.add Sd (F.mul Bd (F.sub (F.rnd 1) (F.div (F.rnd 1) (F.add (F.rnd 1) td))))) := by
  have ε0 := hε.pos
  have ε1 := hε.le
  obtain ⟨b, rfl, b1, b2⟩ := hB.val
  obtain ⟨t', rfl, t1, t2⟩ := ht.val
  obtain ⟨s, rfl, s1, s2⟩ := hs.val
  have B0 := hB.pos
  have T0 := ht.pos
  have S0 := hs.pos
  have hh : ∀ k : ℕ, k ≤ 1000 → 1 / 2 ≤ (1 - ε) ^ k := fun k hk => by
    have := hε.half (n := k) (by omega); norm_num at this ⊢; linarith
  have b0 : 0 < b := lt_of_lt_of_le (mul_pos B0 (hε.pw n)) b1
  have t0 : 0 < t' := lt_of_lt_of_le (mul_pos T0 (hε.pw m)) t1
  have s0 : 0 < s := lt_of_lt_of_le (mul_pos S0 (hε.pw l)) s1
  have tl : (10 : ℝ) ^ (-200 : ℤ) ≤ t' := by
    have h := mul_le_mul_of_nonneg_left (hh m (by omega)) T0.le
    have e : (10 : ℝ) ^ (-200 : ℤ) ≤ 10 ^ (-190 : ℤ) * (1 / 2) := by
      have : (10 : ℝ) ^ (-200 : ℤ) = 10 ^ (-190 : ℤ) * 10 ^ (-10 : ℤ) := by rw [← zpow_add₀ (by norm_num)]; norm_num
      rw [this]; exact mul_le_mul_of_nonneg_left (by norm_num) (by positivity)
    exact half_lo e ht.lo h t1
  have tu : t' ≤ (10 : ℝ) ^ (200 : ℤ) := by
    have h := mul_le_mul_of_nonneg_left (hh m (by omega)) t0.le
    have e : (10 : ℝ) ^ (190 : ℤ) * 2 ≤ 10 ^ (200 : ℤ) := by
      have : (10 : ℝ) ^ (200 : ℤ) = 10 ^ (190 : ℤ) * 10 ^ (10 : ℤ) := by rw [← zpow_add₀ (by norm_num)]; norm_num
      rw [this]; exact mul_le_mul_of_nonneg_left (by norm_num) (by positivity)
    exact half_hi e ht.hi h t2
  obtain ⟨w, hw, ew⟩ := one_sub hF hε hS tl tu
  rw [hw]
  obtain ⟨c1, c2⟩ := sat_rel hε T0 t1 t2
  set q := t / (1 + t) with hq
  set q' := t' / (1 + t') with hq'
  have q0 : 0 < q := by rw [hq]; positivity
  have q0' : 0 < q' := by rw [hq']; positivity
  have q1' : q' ≤ 1 := by rw [hq', div_le_one (by linarith)]; linarith
  obtain ⟨d1, d2⟩ := mul_rel hε B0 q0 b1 b2 c1 c2
  -- the product
  have bB : b ≤ 2 * B := by have := mul_le_mul_of_nonneg_left (hh n (by omega)) b0.le; linarith
  have bl : (10 : ℝ) ^ (-201 : ℤ) ≤ b := by
    have h := mul_le_mul_of_nonneg_left (hh n (by omega)) B0.le
    have e : (10 : ℝ) ^ (-201 : ℤ) ≤ 10 ^ (-200 : ℤ) * (1 / 2) := by
      have : (10 : ℝ) ^ (-201 : ℤ) = 10 ^ (-200 : ℤ) * 10 ^ (-1 : ℤ) := by rw [← zpow_add₀ (by norm_num)]; norm_num
      rw [this]; exact mul_le_mul_of_nonneg_left (by norm_num) (by positivity)
    exact half_lo e hB.lo h b1
  rw [abs_le] at ew
  norm_num at ε1
  have w1 : |w| ≤ 1.1 := by rw [abs_le]; constructor <;> norm_num <;> linarith
  have big : |b * w| ≤ (10 : ℝ) ^ (300 : ℤ) := by
    rw [abs_mul, abs_of_pos b0]
    have h1 : b ≤ 2 * 10 ^ (20 : ℤ) := bB.trans (by have := hB.hi; linarith)
    have h2 : b * |w| ≤ 2 * 10 ^ (20 : ℤ) * 1.1 := mul_le_mul h1 w1 (abs_nonneg _) (by positivity)
    have h3 : (2 * 10 ^ (20 : ℤ) * 1.1 : ℝ) ≤ 10 ^ (30 : ℤ) := by norm_num
    exact h2.trans (h3.trans (zpow_le_zpow_right₀ (by norm_num) (by norm_num)))
  obtain ⟨z, hz, ez⟩ := hS (b * w) big
  rw [show F.mul (fin b) (fin w) = F.rnd (b * w) from rfl, hz, show F.add (fin s) (fin z) = F.rnd (s + z) from rfl]
  have tiny : (10 : ℝ) ^ (-250 : ℤ) ≤ b * (1 / 2) := by
    have e : (10 : ℝ) ^ (-250 : ℤ) = 10 ^ (-201 : ℤ) * 10 ^ (-49 : ℤ) := by rw [← zpow_add₀ (by norm_num)]; norm_num
    have : (10 : ℝ) ^ (-49 : ℤ) ≤ 1 / 2 := by norm_num
    rw [e]
    exact mul_le_mul bl this (by positivity) b0.le
  have E : |s + z - (s + b * q')| ≤ 8.7 * b * ε := by
    have e1 : |z - b * w| ≤ 1.6 * b * ε := by
      refine ez.trans ?_
      rw [abs_mul, abs_of_pos b0]
      have h1 := mul_le_mul_of_nonneg_left w1 b0.le
      have h2 := mul_le_mul_of_nonneg_left h1 ε0
      have h3 := mul_le_mul_of_nonneg_left tiny ε0
      norm_num at h2 h3 ⊢
      linarith
    have e2 : |b * w - b * q'| ≤ 7 * b * ε := by
      rw [← mul_sub, abs_mul, abs_of_pos b0]
      have h1 : |w - q'| ≤ 7 * ε := abs_le.2 ew
      have := mul_le_mul_of_nonneg_left h1 b0.le
      linarith
    have e3 : s + z - (s + b * q') = (z - b * w) + (b * w - b * q') := by ring
    rw [e3]
    refine (abs_add_le _ _).trans ((add_le_add e1 e2).trans ?_)
    norm_num
    linarith [mul_nonneg b0.le ε0]
  have pl := hε.bern l
  have hlε : (l : ℝ) * ε ≤ 1 / 10 ^ 5 := by
    have : (l : ℝ) ≤ 1000 := by exact_mod_cast hl
    have := mul_le_mul this hε.le ε0 (by norm_num)
    norm_num at this ⊢
    linarith
  have pk : ∀ k ≤ l, (1 - ε) ^ l ≤ (1 - ε) ^ k := fun k hk => pow_le_pow_of_le_one hε.one.le (by linarith) hk
  have g1 : (S + B * q) * (1 - ε) ^ l ≤ s + b * q' := by
    have := mul_le_mul_of_nonneg_left (pk (n + m) hn) (mul_pos B0 q0).le
    linarith
  have g2 : (s + b * q') * (1 - ε) ^ l ≤ S + B * q := by
    have := mul_le_mul_of_nonneg_left (pk (n + m) hn) (mul_pos b0 q0').le
    linarith
  have X0 : 0 < S + B * q := by positivity
  have Y0 : 0 < s + b * q' := by positivity
  have near : 0.9999 ≤ (1 - ε) ^ l := by norm_num at hlε ⊢; linarith
  have near' : 0.9999 ≤ (1 - ε) ^ n := near.trans (pk n (by omega))
  have bK : b ≤ 2.001 * r * (s + b * q') := by
    have h1 := mul_le_mul_of_nonneg_left near' b0.le
    have h2 := mul_le_mul_of_nonneg_left near X0.le
    have h3 : S + B * q ≤ 1.0002 * (s + b * q') := by norm_num at h2 ⊢; linarith
    have rr : (0 : ℝ) ≤ 2 * r := by positivity
    have h4 := mul_le_mul_of_nonneg_left h3 rr
    have h5 : 0 ≤ (r : ℝ) * (s + b * q') := by positivity
    norm_num at h1 h4 ⊢
    linarith
  have J := abs_rel hε (J := 19 * r) (by omega) (j := 8.7 * b) (by positivity) Y0 (by
    push_cast
    have h5 : 0 ≤ (r : ℝ) * (s + b * q') := by positivity
    norm_num at bK ⊢
    linarith) E
  have f1 : (S + B * q) * (1 - ε) ^ (l + 19 * r) ≤ s + z := by
    rw [pow_add, ← mul_assoc]
    exact (mul_le_mul_of_nonneg_right g1 (hε.pw _).le).trans J.1
  have f2 : (s + z) * (1 - ε) ^ (l + 19 * r) ≤ S + B * q := by
    rw [add_comm l, pow_add, ← mul_assoc]
    exact (mul_le_mul_of_nonneg_right J.2 (hε.pw _).le).trans g2
  refine rnd_acc hF hε (by omega) ?_ ?_ f1 f2 (by norm_num) (by norm_num)
  · have := hs.lo
    linarith [mul_pos B0 q0]
  · have h1 : q ≤ 1 := by rw [hq, div_le_one (by linarith)]; linarith
    have h2 : B * q ≤ B := mul_le_of_le_one_right B0.le h1
    have h3 : (10 : ℝ) ^ (20 : ℤ) ≤ 10 ^ (100 : ℤ) := zpow_le_zpow_right₀ (by norm_num) (by norm_num)
    have h4 : (10 : ℝ) ^ (101 : ℤ) = 10 ^ (100 : ℤ) * 10 := by rw [← zpow_add_one₀ (by norm_num)]; norm_num
    have := hs.hi
    have := hB.hi
    have : (0 : ℝ) < 10 ^ (100 : ℤ) := by positivity
    rw [h4]
    linarith

theorem nsc_bound {B t a p Z : ℝ} {r : ℕ} (hB : 0 < B) (ht : 0 < t) (ha : 0 < a) (hp : 0 < p) (hZ : 0 < Z) (r0 : 1 ≤ r) (h : B * Z ≤ r * a * p) :
    B ≤ 2 * r * (a * p * (1 / (1 + t)) / Z + B * (t / (1 + t))) := by
  have r0' : (1 : ℝ) ≤ r := by exact_mod_cast r0
  have h1 : B ≤ r * (a * p / Z) := by
    rw [← mul_div_assoc, le_div_iff₀ hZ]; linarith
  have q : 1 / (1 + t) + t / (1 + t) = 1 := by field_simp
  have x0 : 0 < 1 / (1 + t) := by positivity
  have y0 : 0 < t / (1 + t) := by positivity
  have e : a * p * (1 / (1 + t)) / Z = a * p / Z * (1 / (1 + t)) := by ring
  rw [e]
  have A0 : 0 < a * p / Z := by positivity
  generalize a * p / Z = A at *
  generalize 1 / (1 + t) = x at *
  generalize t / (1 + t) = y at *
  have h2 := mul_le_mul_of_nonneg_right h1 x0.le
  have h3 : B * y ≤ r * (B * y) := le_mul_of_one_le_left (by positivity) r0'
  have h4 : B = B * x + B * y := by rw [← mul_add, q, mul_one]
  nlinarith [mul_pos hB x0, mul_pos hB y0, mul_pos A0 x0]

/-- The rate of oxidationModel_NSC_NEOH.cc. -/
theorem nsc_acc (hF : F.Accurate ε) (hε : Sm ε) (hE : F.AccurateExp ε) (hS : F.Std ε (ε * 10 ^ (-250 : ℤ)) (10 ^ (300 : ℤ))) {s : State} {D : DState}
    (hp : PairR ε s D) (x : Ctx) (o : Oxid) (ho : o.cls = .NSC_NEOH) (hs : Present s .O2) (hs2 : Present s .OH) {pO : ℝ} (hO : s.gasP .O2 = ok pO)
    (pl : (10 : ℝ) ^ (-20 : ℤ) ≤ pO) (r : ℕ) (r0 : 1 ≤ r) (r1 : r ≤ 400)
    (hr : 4.46E-3 * Real.exp (-7650 / s.T) * (1 + 21.3 * Real.exp (2063 / s.T) * (pO / 101325)) ≤ r * (20 * Real.exp (-15098 / s.T))) :
    ∃ v V, o.rate x s = Res.ok v ∧ oxidRateD F D o.cls = Res.ok V ∧ Acc ε (600 + 19 * r) (-210) 120 v V := by
  rcases o with ⟨cls, mt⟩
  obtain rfl : cls = .NSC_NEOH := ho
  have hT := acc_T hF hε hp.toPair
  have hq := acc_sqrtT hF hε hp
  have T0 : s.T ≠ 0 := hT.pos.ne'
  have w := hp.warm
  obtain ⟨p₁, P, hP, hP', hPP⟩ := acc_gasP hF hε hp hs (by norm_num [gasMW]) (by norm_num [gasMW])
  obtain ⟨p₂, P2, hP2, hP2', hPP2⟩ := acc_gasP hF hε hp hs2 (by norm_num [gasMW]) (by norm_num [gasMW])
  obtain rfl : p₁ = pO := by rw [hP] at hO; exact Res.ok.inj hO
  have a101 : Acc ε 1 5 6 101325 (F.rnd 101325) := .lit hF hε (by norm_num) (by norm_num) (by norm_num) (by norm_num)
  have hp1 := (hPP.range pl hPP.hi).div hF hε a101 (by norm_num) (by norm_num) (by norm_num)
  have hp2 := hPP2.div hF hε a101 (by norm_num) (by norm_num) (by norm_num)
  have eA := acc_arr_neg hF hE hε hT (A := -15098) 15098 (by norm_num) 50.4 101 (-23) (c := 0) (d := 5) (by norm_num) (by norm_num)
    (by norm_num; linarith) (by norm_num) (by norm_num) (by norm_num) (by norm_num) (by norm_num) (by norm_num) (by norm_num) (by norm_num) (by norm_num)
  have eB := acc_arr_neg hF hE hε hT (A := -7650) 7650 (by norm_num) 25.5 52 (-12) (c := 0) (d := 5) (by norm_num) (by norm_num)
    (by norm_num; linarith) (by norm_num) (by norm_num) (by norm_num) (by norm_num) (by norm_num) (by norm_num) (by norm_num) (by norm_num) (by norm_num)
  have eT := acc_arr_neg hF hE hε hT (A := -48817) 48817 (by norm_num) 162.8 326 (-72) (c := 0) (d := 5) (by norm_num) (by norm_num)
    (by norm_num; linarith) (by norm_num) (by norm_num) (by norm_num) (by norm_num) (by norm_num) (by norm_num) (by norm_num) (by norm_num) (by norm_num)
  have eZ := acc_arr_pos hF hE hε hT 2063 6.88 14 4 (c := 0) (d := 5) (by norm_num) (by norm_num)
    (by norm_num; linarith) (by norm_num) (by norm_num) (by norm_num) (by norm_num) (by norm_num) (by norm_num) (by norm_num) (by norm_num) (by norm_num)
  have kA := (Acc.lit hF hε (x := 20) (a := 1) (b := 2) (by norm_num) (by norm_num) (by norm_num) (by norm_num)).mul hF hε eA (by norm_num) (by norm_num) (by norm_num)
  have kB := (Acc.lit hF hε (x := 4.46E-3) (a := -3) (b := -2) (by norm_num) (by norm_num) (by norm_num) (by norm_num)).mul hF hε eB (by norm_num) (by norm_num) (by norm_num)
  have kT := (Acc.lit hF hε (x := 1.51E5) (a := 5) (b := 6) (by norm_num) (by norm_num) (by norm_num) (by norm_num)).mul hF hε eT (by norm_num) (by norm_num) (by norm_num)
  have kz := (Acc.lit hF hε (x := 21.3) (a := 1) (b := 2) (by norm_num) (by norm_num) (by norm_num) (by norm_num)).mul hF hε eZ (by norm_num) (by norm_num) (by norm_num)
  have hB := kB.mul hF hε hp1 (by norm_num) (by norm_num) (by norm_num)
  have ht := kT.div hF hε hB (by norm_num) (by norm_num) (by norm_num)
  have one : Acc ε 1 0 0 1 (F.rnd 1) := .lit hF hε (by norm_num) (by norm_num) (by norm_num) (by norm_num)
  have hd := one.add hF hε ht 398 0 60 (by norm_num) (by norm_num) (by norm_num) (by norm_num) (by norm_num) (by norm_num) (by norm_num) (by norm_num)
  have hx := one.div hF hε hd (by norm_num) (by norm_num) (by norm_num)
  have hz := one.add hF hε (kz.mul hF hε hp1 (by norm_num) (by norm_num) (by norm_num)) 30 0 30 (by norm_num) (by norm_num) (by norm_num) (by norm_num) (by norm_num) (by norm_num) (by norm_num) (by norm_num)
  have hA := (kA.mul hF hε hp1 (by norm_num) (by norm_num) (by norm_num)).mul hF hε hx (by norm_num) (by norm_num) (by norm_num)
  have hS1 := hA.div hF hε hz (by norm_num) (by norm_num) (by norm_num)
  have bnd := nsc_bound hB.pos ht.pos kA.pos hp1.pos hz.pos r0 (B := 4.46E-3 * Real.exp (-7650 / s.T) * (p₁ / 101325)) (r := r) (by
    have := mul_le_mul_of_nonneg_right hr hp1.pos.le
    calc _ = 4.46E-3 * Real.exp (-7650 / s.T) * (1 + 21.3 * Real.exp (2063 / s.T) * (p₁ / 101325)) * (p₁ / 101325) := by ring
      _ ≤ _ := this)
  have core := nsc_core hF hε hS (r := r) (l := 580) (hB.mono hε le_rfl (by norm_num) (by norm_num)) (ht.mono hε le_rfl (by norm_num) (by norm_num))
    (hS1.mono hε (by norm_num) (by norm_num) (by norm_num)) (by norm_num) (by norm_num) r0 r1 bnd
  have kBp0 : ¬ 4.46E-3 * Real.exp (-7650 / s.T) * (p₁ / 101325) = 0 := hB.pos.ne'
  have hsq := csqrt_ok hT.pos.le
  refine ⟨_, _, by
    simp only [Oxid.rate, hP, hP2, ok_bind, cexpDiv_ok T0, nscX, if_neg kBp0, cdiv_ok hd.pos.ne', cdiv_ok hz.pos.ne', hsq, cdiv_ok hq.pos.ne']; rfl,
    by simp only [oxidRateD, ok_bind, hP', hP2']; rfl, ?_⟩
  have c1 := core.mul hF hε (.lit hF hε (x := rhoSoot) (a := 3) (b := 4) (by norm_num [rhoSoot]) (by norm_num [rhoSoot]) (by norm_num) (by norm_num)) (by omega) (by norm_num) (by norm_num)
  have d1 := (Acc.lit hF hε (x := 1290) (a := 3) (b := 4) (by norm_num) (by norm_num) (by norm_num) (by norm_num)).mul hF hε (Acc.lit hF hε (x := 0.13) (a := -1) (b := 0) (by norm_num) (by norm_num) (by norm_num) (by norm_num)) (by norm_num) (by norm_num) (by norm_num)
  have d2 := d1.mul hF hε hp2 (by norm_num) (by norm_num) (by norm_num)
  have d3 := d2.div hF hε hq (by norm_num) (by norm_num) (by norm_num)
  have fi := c1.add hF hε d3 (583 + 19 * r) (-200) 110 (by omega) (by omega) (by omega) (by norm_num) (by norm_num) (by norm_num) (by norm_num) (by norm_num)
  refine (fi.mono hε (by omega) (by norm_num) (by norm_num)).of_eq ?_
  congr 3
  have := ht.pos
  field_simp
  ring

end FpK

end Soot
