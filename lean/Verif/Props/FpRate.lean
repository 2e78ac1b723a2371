import Verif.FpRate
import Verif.Props.FpKernelAcc

/-!
# Accuracy of the Arrhenius factor, concentrations and partial pressures (for C101)
-/

namespace Soot

open Dbl
open scoped Classical

/-- The exponential function has a relative error of at most `ε` where its value is of ordinary size. -/
def Fp.AccurateExp (F : Fp) (ε : ℝ) : Prop := ∀ x, |x| ≤ 600 → ∃ y, F.exp (fin x) = fin y ∧ |y - Real.exp x| ≤ ε * Real.exp x

namespace FpK

variable {F : Fp} {ε : ℝ}

theorem log_ten : 2.27 ≤ Real.log 10 := by
  have e : (10 : ℝ) = 2 ^ 3 * (5 / 4) := by norm_num
  have h2 := Real.log_two_gt_d9
  have h3 := Real.one_sub_inv_le_log_of_pos (show (0 : ℝ) < 5 / 4 by norm_num)
  rw [e, Real.log_mul (by norm_num) (by norm_num), Real.log_pow]
  push_cast
  norm_num at h2 h3 ⊢
  linarith

theorem exp_lo {v : ℝ} {e : ℤ} (he : e ≤ 0) (h : 2.27 * (e : ℝ) ≤ v) : (10 : ℝ) ^ e ≤ Real.exp v := by
  have : (10 : ℝ) ^ e = Real.exp (e * Real.log 10) := by
    rw [← Real.rpow_intCast, Real.rpow_def_of_pos (by norm_num), mul_comm]
  rw [this]
  apply Real.exp_le_exp.2
  have he' : (e : ℝ) ≤ 0 := by exact_mod_cast he
  have := mul_le_mul_of_nonpos_left log_ten he'
  linarith

theorem exp_hi {v : ℝ} {f : ℤ} (hf : 0 ≤ f) (h : v ≤ 2.27 * (f : ℝ)) : Real.exp v ≤ (10 : ℝ) ^ f := by
  have : (10 : ℝ) ^ f = Real.exp (f * Real.log 10) := by
    rw [← Real.rpow_intCast, Real.rpow_def_of_pos (by norm_num), mul_comm]
  rw [this]
  apply Real.exp_le_exp.2
  have hf' : (0 : ℝ) ≤ f := by exact_mod_cast hf
  have := mul_le_mul_of_nonneg_left log_ten hf'
  linarith

/-- An exponential of a computed argument. -/
theorem exp_core (hE : F.AccurateExp ε) (hε : Sm ε) {k : ℕ} {e f : ℤ} {v z : ℝ} (h : |z - v| ≤ k * ε) (hz : |z| ≤ 600)
    (he : (10 : ℝ) ^ e ≤ Real.exp v) (hf : Real.exp v ≤ (10 : ℝ) ^ f) : Acc ε (k + 1) e f (Real.exp v) (F.exp (fin z)) := by
  obtain ⟨y, hy, e'⟩ := hE z hz
  rw [abs_le] at h
  have hk : (1 - ε) ^ k ≤ Real.exp (-(k * ε)) := by
    have h1 : 1 - ε ≤ Real.exp (-ε) := by have := Real.add_one_le_exp (-ε); linarith
    calc (1 - ε) ^ k ≤ Real.exp (-ε) ^ k := pow_le_pow_left₀ hε.one.le h1 k
      _ = Real.exp (-(k * ε)) := by rw [← Real.exp_nat_mul]; congr 1; ring
  have s1 : Real.exp v * (1 - ε) ^ k ≤ Real.exp z := by
    refine (mul_le_mul_of_nonneg_left hk (Real.exp_pos v).le).trans ?_
    rw [← Real.exp_add]
    exact Real.exp_le_exp.2 (by linarith)
  have s2 : Real.exp z * (1 - ε) ^ k ≤ Real.exp v := by
    refine (mul_le_mul_of_nonneg_left hk (Real.exp_pos z).le).trans ?_
    rw [← Real.exp_add]
    exact Real.exp_le_exp.2 (by linarith)
  exact ⟨he, hf, y, hy, rel_step hε (Real.exp_pos v) s1 s2 (by rwa [abs_of_pos (Real.exp_pos z)])⟩

/-- `exp(-w / u)` -/
theorem acc_arr_neg (hF : F.Accurate ε) (hE : F.AccurateExp ε) (hε : Sm ε) {n : ℕ} {a b : ℤ} {u : ℝ} {X : Dbl} (hu : Acc ε n a b u X) {A : ℝ} (w : ℝ)
    (hA : A = -w) (V : ℝ) (k : ℕ) (e : ℤ) {c d : ℤ} (w0 : (10 : ℝ) ^ c ≤ w) (w1 : w ≤ (10 : ℝ) ^ d) (hV : w ≤ V * u) (hk : 1.001 * (n + 2) * V ≤ k)
    (hn : n ≤ 100) (V1 : V ≤ 500) (he : e ≤ 0) (hl : 2.27 * (e : ℝ) ≤ -V) (lc : -299 ≤ c) (ld : d ≤ 299) (la : -299 ≤ c - b) (lb : d - a ≤ 299) :
    Acc ε (k + 1) e 0 (Real.exp (A / u)) (arrD F A X) := by
  subst hA
  have wp : 0 < w := lt_of_lt_of_le (by positivity) w0
  have up := hu.pos
  obtain ⟨x, rfl, h1, h2⟩ := hu.val
  obtain ⟨r1, r2, -⟩ := near_range hε (n := 0) (by norm_num) w0 w1 (y := w) (by simp) (by simp) lc ld
  obtain ⟨A', hA', eA⟩ := hF.rnd (-w) (by rwa [abs_neg, abs_of_pos wp]) (by rwa [abs_neg, abs_of_pos wp])
  have q1 : w * (1 - ε) ^ (0 + 1) ≤ -A' ∧ -A' * (1 - ε) ^ (0 + 1) ≤ w :=
    rel_step hε (y := w) wp (by simp) (by simp) (by rw [abs_neg] at eA; rw [← abs_neg, show -(-A' - w) = A' - -w by ring]; exact eA)
  obtain ⟨i1, i2⟩ := inv_rel hε up h1 h2
  obtain ⟨g1, g2⟩ := mul_rel hε wp (inv_pos.2 up) q1.1 q1.2 i1 i2
  rw [← div_eq_mul_inv, ← div_eq_mul_inv] at g1 g2
  have x0 : 0 < x := lt_of_lt_of_le (mul_pos up (hε.pw n)) h1
  have lo : (10 : ℝ) ^ (c - b) ≤ w / u := by rw [zpow_sub₀ (by norm_num)]; exact div_le_div₀ wp.le w0 up hu.hi
  have hi : w / u ≤ (10 : ℝ) ^ (d - a) := by rw [zpow_sub₀ (by norm_num)]; exact div_le_div₀ (by positivity) w1 (by positivity) hu.lo
  obtain ⟨t1, t2, t3⟩ := near_range hε (n := 0 + 1 + n) (by omega) lo hi g1 g2 la lb
  obtain ⟨z, hz, ez⟩ := hF.rnd (-(-A' / x)) (by rwa [abs_neg, abs_of_pos t3]) (by rwa [abs_neg, abs_of_pos t3])
  have q2 := rel_step hε (z := -z) (div_pos wp up) g1 g2 (by rw [abs_neg] at ez; rw [← abs_neg, show -(-z - -A' / x) = z - -(-A' / x) by ring]; exact ez)
  have hn2 : 0 + 1 + n + 1 = n + 2 := by ring
  rw [hn2] at q2
  have er := rel_err hε (by omega) (div_pos wp up) q2.1 q2.2
  have vV : w / u ≤ V := by rwa [div_le_iff₀ up]
  have n0 : (0 : ℝ) ≤ n := Nat.cast_nonneg n
  have e1 : |z - -w / u| ≤ k * ε := by
    have h3 : |z - -w / u| = |-z - w / u| := by rw [← abs_neg]; congr 1; ring
    rw [h3]
    refine er.trans ?_
    push_cast
    calc 1.001 * ((n : ℝ) + 2) * ε * (w / u) = 1.001 * ((n : ℝ) + 2) * (w / u) * ε := by ring
      _ ≤ 1.001 * ((n : ℝ) + 2) * V * ε := mul_le_mul_of_nonneg_right (mul_le_mul_of_nonneg_left vV (by positivity)) hε.pos
      _ ≤ k * ε := mul_le_mul_of_nonneg_right hk hε.pos
  have z600 : |z| ≤ 600 := by
    have hh := hε.half (n := n + 2) (by omega)
    have z0 : 0 < -z := lt_of_lt_of_le (mul_pos (div_pos wp up) (hε.pw _)) q2.1
    have : -z * 0.9999 ≤ w / u := (mul_le_mul_of_nonneg_left hh z0.le).trans q2.2
    rw [← abs_neg, abs_of_pos z0]
    norm_num at this ⊢
    linarith
  have hd : F.div (F.rnd (-w)) (fin x) = fin z := by
    rw [hA']; simp only [Fp.div, x0.ne', if_false]
    rw [← hz]; congr 1; ring
  rw [arrD, hd]
  refine exp_core hE hε e1 z600 (exp_lo he ?_) ?_
  · rw [neg_div]; linarith
  · rw [zpow_zero, neg_div]
    exact Real.exp_le_one_iff.2 (by have := div_pos wp up; linarith)

/-- `exp(w / u)` -/
theorem acc_arr_pos (hF : F.Accurate ε) (hE : F.AccurateExp ε) (hε : Sm ε) {n : ℕ} {a b : ℤ} {u : ℝ} {X : Dbl} (hu : Acc ε n a b u X) (w : ℝ)
    (V : ℝ) (k : ℕ) (f : ℤ) {c d : ℤ} (w0 : (10 : ℝ) ^ c ≤ w) (w1 : w ≤ (10 : ℝ) ^ d) (hV : w ≤ V * u) (hk : 1.001 * (n + 2) * V ≤ k)
    (hn : n ≤ 100) (V1 : V ≤ 500) (hf : 0 ≤ f) (hl : V ≤ 2.27 * (f : ℝ)) (lc : -299 ≤ c) (ld : d ≤ 299) (la : -299 ≤ c - b) (lb : d - a ≤ 299) :
    Acc ε (k + 1) 0 f (Real.exp (w / u)) (arrD F w X) := by
  have wp : 0 < w := lt_of_lt_of_le (by positivity) w0
  have up := hu.pos
  have q := (Acc.lit hF hε w0 w1 lc ld).div hF hε hu (by omega) la lb
  obtain ⟨z, hz, q1, q2⟩ := q.val
  have hn2 : 1 + n + 1 = n + 2 := by ring
  rw [hn2] at q1 q2
  have er := rel_err hε (by omega) (div_pos wp up) q1 q2
  have vV : w / u ≤ V := by rwa [div_le_iff₀ up]
  have n0 : (0 : ℝ) ≤ n := Nat.cast_nonneg n
  have e1 : |z - w / u| ≤ k * ε := by
    refine er.trans ?_
    push_cast
    calc 1.001 * ((n : ℝ) + 2) * ε * (w / u) = 1.001 * ((n : ℝ) + 2) * (w / u) * ε := by ring
      _ ≤ 1.001 * ((n : ℝ) + 2) * V * ε := mul_le_mul_of_nonneg_right (mul_le_mul_of_nonneg_left vV (by positivity)) hε.pos
      _ ≤ k * ε := mul_le_mul_of_nonneg_right hk hε.pos
  have z600 : |z| ≤ 600 := by
    have hh := hε.half (n := n + 2) (by omega)
    have z0 : 0 < z := lt_of_lt_of_le (mul_pos (div_pos wp up) (hε.pw _)) q1
    have : z * 0.9999 ≤ w / u := (mul_le_mul_of_nonneg_left hh z0.le).trans q2
    rw [abs_of_pos z0]
    norm_num at this ⊢
    linarith
  rw [arrD, hz]
  refine exp_core hE hε e1 z600 ?_ (exp_hi hf (vV.trans hl))
  rw [zpow_zero]
  exact Real.one_le_exp (div_pos wp up).le

/-- The pair of states with the members the rates read. -/
structure PairR (ε : ℝ) (s : State) (D : DState) : Prop extends Pair ε s D where
  P : D.P = fin s.P
  cMin : D.cMin = fin s.cMin
  gas : D.yGas = s.yGas.map fin
  soot : D.sootVar = s.sootVar.map fin
  P0 : (10 : ℝ) ^ (-2 : ℤ) ≤ s.P
  P1 : s.P ≤ (10 : ℝ) ^ (10 : ℤ)
  warm : 300 ≤ s.T

/-- A species that is present: its mass fraction is between 10⁻¹⁰⁰ and 1. -/
def Present (s : State) (sp : GasSp) : Prop := ∃ y, s.yGas[sp.toNat]? = some y ∧ (10 : ℝ) ^ (-100 : ℤ) ≤ y ∧ y ≤ 1

section

variable (hF : F.Accurate ε) (hε : Sm ε) {s : State} {D : DState} (hp : PairR ε s D) {sp : GasSp} (hs : Present s sp)
include hF hε hp hs

theorem acc_gasC (m0 : (10 : ℝ) ^ (0 : ℤ) ≤ gasMW sp) (m1 : gasMW sp ≤ (10 : ℝ) ^ (2 : ℤ)) :
    ∃ c C, s.gasC sp = Res.ok c ∧ D.gasC F sp = Res.ok C ∧ Acc ε 3 (-108) 3 c C := by
  obtain ⟨y, hy, y0, y1⟩ := hs
  have i1 : idx s.yGas sp.toNat = Res.ok y := by simp [idx, hy]
  have i2 : idx D.yGas sp.toNat = Res.ok (fin y) := by simp [idx, hp.gas, hy]
  refine ⟨_, _, by rw [State.gasC, i1]; rfl, by rw [DState.gasC, i2]; rfl, ?_⟩
  have a1 := (acc_rho hF hε hp.toPair).mul hF hε (.exact y0 (b := 0) (by simpa using y1)) (by norm_num) (by norm_num) (by norm_num)
  exact a1.div hF hε (.lit hF hε m0 m1 (by norm_num) (by norm_num)) (by norm_num) (by norm_num) (by norm_num)

theorem acc_gasP (m0 : (10 : ℝ) ^ (0 : ℤ) ≤ gasMW sp) (m1 : gasMW sp ≤ (10 : ℝ) ^ (2 : ℤ)) :
    ∃ p P, s.gasP sp = Res.ok p ∧ D.gasP F sp = Res.ok P ∧ Acc ε 10 (-117) 25 p P := by
  obtain ⟨y, hy, y0, y1⟩ := hs
  have i1 : idx s.yGas sp.toNat = Res.ok y := by simp [idx, hy]
  have i2 : idx D.yGas sp.toNat = Res.ok (fin y) := by simp [idx, hp.gas, hy]
  refine ⟨_, _, by rw [State.gasP, i1]; rfl, by rw [DState.gasP, i2]; rfl, ?_⟩
  have a1 := (Acc.exact (ε := ε) y0 (b := 0) (by simpa using y1)).mul hF hε hp.mw (by norm_num) (by norm_num) (by norm_num)
  have a2 := a1.div hF hε (.lit hF hε m0 m1 (by norm_num) (by norm_num)) (by norm_num) (by norm_num) (by norm_num)
  have a3 : Acc ε 0 (-2) 10 s.P D.P := hp.P ▸ .exact hp.P0 hp.P1
  exact a2.mul hF hε a3 (by norm_num) (by norm_num) (by norm_num)

end

end FpK

end Soot
