import Verif.Props.QmomInv
import Mathlib.LinearAlgebra.Lagrange
import Mathlib.Algebra.Polynomial.Roots

/-!
# C53: the moment inversion recovers every discrete distribution
-/

namespace Soot

open Res Real Polynomial
open scoped Classical

/-- The monic orthogonal polynomials as polynomials. -/
noncomputable def mpol (a b : ℕ → ℝ) : ℕ → ℝ[X]
  | 0 => 1
  | 1 => X - C (a 0)
  | i + 2 => (X - C (a (i + 1))) * mpol a b (i + 1) - C (b (i + 1)) * mpol a b i

theorem mpol_eval (a b : ℕ → ℝ) (x : ℝ) : ∀ i, (mpol a b i).eval x = mpoly a b x i
  | 0 => by simp [mpol, mpoly]
  | 1 => by simp [mpol, mpoly]
  | i + 2 => by simp [mpol, mpoly, mpol_eval a b x i, mpol_eval a b x (i + 1)]

theorem mpol_monic (a b : ℕ → ℝ) : ∀ i, (mpol a b i).Monic ∧ (mpol a b i).degree = i
  | 0 => by simp [mpol]
  | 1 => ⟨monic_X_sub_C _, by simp [mpol]⟩
  | i + 2 => by
    obtain ⟨m1, d1⟩ := mpol_monic a b (i + 1)
    obtain ⟨_, d0⟩ := mpol_monic a b i
    have dm : ((X - C (a (i + 1))) * mpol a b (i + 1)).degree = ((i + 2 : ℕ) : WithBot ℕ) := by
      rw [degree_mul, degree_X_sub_C, d1]; norm_cast; ring_nf
    have mm : ((X - C (a (i + 1))) * mpol a b (i + 1)).Monic := (monic_X_sub_C _).mul m1
    have lt : (C (b (i + 1)) * mpol a b i).degree < ((X - C (a (i + 1))) * mpol a b (i + 1)).degree := by
      rw [dm]
      refine ((degree_mul_le _ _).trans (add_le_add degree_C_le le_rfl)).trans_lt ?_
      rw [d0, zero_add]; exact_mod_cast Nat.lt_add_of_pos_right (by norm_num)
    exact ⟨mm.sub_of_left lt, by rw [mpol, degree_sub_eq_left_of_degree_lt lt, dm]⟩

/-- Linear functional of a discrete distribution applied to a polynomial of low degree times `π_i` vanishes when the
table is triangular. -/
theorem orth_low {N i : ℕ} {u y a b : ℕ → ℝ}
    (hz : ∀ j < i, sig (fun k => ∑ n ∈ Finset.range N, u n * y n ^ k) a b i j = 0) (q : ℝ[X]) (hq : q.degree < i) :
    ∑ n ∈ Finset.range N, u n * mpoly a b (y n) i * q.eval (y n) = 0 := by
  have hd : q.natDegree < i ∨ q = 0 := by
    by_cases h : q = 0
    · exact .inr h
    · exact .inl ((natDegree_lt_iff_degree_lt h).mpr hq)
  rcases hd with hd | rfl
  · have : ∀ n ∈ Finset.range N, u n * mpoly a b (y n) i * q.eval (y n) =
        ∑ j ∈ Finset.range (q.natDegree + 1), q.coeff j * (u n * mpoly a b (y n) i * y n ^ j) := by
      intro n _
      rw [eval_eq_sum_range, Finset.mul_sum]
      exact Finset.sum_congr rfl fun j _ => by ring
    rw [Finset.sum_congr rfl this, Finset.sum_comm]
    refine Finset.sum_eq_zero fun j hj => ?_
    rw [← Finset.mul_sum, ← sig_quad N u y a b i j, hz j (by have := Finset.mem_range.mp hj; omega), mul_zero]
  · simp

/-- `N` distinct nodes. -/
def Distinct (N : ℕ) (y : ℕ → ℝ) : Prop := ∀ i < N, ∀ j < N, y i = y j → i = j

theorem Distinct.injOn {N : ℕ} {y : ℕ → ℝ} (h : Distinct N y) : Set.InjOn y (Finset.range N : Set ℕ) := by
  intro i hi j hj e
  simp only [Finset.coe_range, Set.mem_Iio] at hi hj
  exact h i hi j hj e

/-- A polynomial of degree below the number of distinct nodes that vanishes on them is zero. -/
theorem poly_zero {N : ℕ} {y : ℕ → ℝ} (hy : Distinct N y) {q : ℝ[X]} (hd : q.degree < N)
    (h : ∀ n < N, q.eval (y n) = 0) : q = 0 := by
  refine Polynomial.eq_zero_of_degree_lt_of_eval_index_eq_zero (s := Finset.range N) (v := y) hy.injOn (by simpa using hd) ?_
  intro i hi; exact h i (Finset.mem_range.mp hi)

/-- The diagonal of the table is positive below the number of nodes. -/
theorem sig_diag_pos {N i : ℕ} {u y a b : ℕ → ℝ} (hi : i < N) (hu : ∀ n < N, 0 < u n) (hy : Distinct N y)
    (hz : ∀ j < i, sig (fun k => ∑ n ∈ Finset.range N, u n * y n ^ k) a b i j = 0) :
    0 < sig (fun k => ∑ n ∈ Finset.range N, u n * y n ^ k) a b i i := by
  have e : sig (fun k => ∑ n ∈ Finset.range N, u n * y n ^ k) a b i i =
      ∑ n ∈ Finset.range N, u n * mpoly a b (y n) i ^ 2 := by
    have h1 := orth_low hz (X ^ i - mpol a b i) (by
      obtain ⟨m, d⟩ := mpol_monic a b i
      have := degree_sub_lt_left (p := X ^ i) (q := mpol a b i) (by rw [d, degree_X_pow]) (by simp)
        (by rw [m.leadingCoeff, (monic_X_pow i).leadingCoeff])
      rwa [degree_X_pow] at this)
    rw [sig_quad]
    simp only [eval_sub, eval_pow, eval_X, mpol_eval, mul_sub, Finset.sum_sub_distrib, sub_eq_zero] at h1
    rw [h1]
    exact Finset.sum_congr rfl fun n _ => by ring
  rw [e]
  by_contra hneg
  have h0 : ∑ n ∈ Finset.range N, u n * mpoly a b (y n) i ^ 2 = 0 := by
    refine le_antisymm (not_lt.mp hneg) (Finset.sum_nonneg fun n hn => ?_)
    have := hu n (Finset.mem_range.mp hn); positivity
  rw [Finset.sum_eq_zero_iff_of_nonneg (fun n hn => by
    have := hu n (Finset.mem_range.mp hn); positivity)] at h0
  obtain ⟨m, d⟩ := mpol_monic a b i
  refine m.ne_zero (poly_zero hy (by rw [d]; exact_mod_cast hi) fun n hn => ?_)
  rw [mpol_eval]
  have := h0 n (Finset.mem_range.mpr hn)
  have hun := hu n hn
  rcases mul_eq_zero.mp this with h | h
  · linarith
  · exact pow_eq_zero_iff (two_ne_zero) |>.mp h

/-- Moments `M_0 .. M_{L-1}` of the distribution with weights `u` and masses `y`. -/
noncomputable def discreteMoments (N : ℕ) (u y : ℕ → ℝ) (L : ℕ) : List ℝ :=
  (List.range L).map fun k => ∑ n ∈ Finset.range N, u n * y n ^ k

theorem discreteMoments_getD {N L k : ℕ} (u y : ℕ → ℝ) (hk : k < L) :
    (discreteMoments N u y L).getD k 0 = ∑ n ∈ Finset.range N, u n * y n ^ k := by
  unfold discreteMoments
  rw [getD_of_lt (by simpa using hk)]; simp

theorem sig_congr_M {M M' a b : ℕ → ℝ} {L : ℕ} (h : ∀ k < L, M k = M' k) :
    ∀ i j, i + j < L → sig M a b i j = sig M' a b i j
  | 0, j, hj => h j (by omega)
  | 1, j, hj => by simp only [sig, h j (by omega), h (j + 1) (by omega)]
  | i + 2, j, hj => by
    simp only [sig]
    rw [sig_congr_M h (i + 1) (j + 1) (by omega), sig_congr_M h (i + 1) j (by omega), sig_congr_M h i j (by omega)]

theorem WhRel.congr_M {M M' a b : ℕ → ℝ} {L n : ℕ} (h : WhRel M a b n) (hM : ∀ k < L, M k = M' k) (hn : 2 * n + 1 < L) :
    WhRel M' a b n := by
  refine ⟨by rw [h.a0, hM 0 (by omega), hM 1 (by omega)], fun i hi => ?_, fun i hi => ?_, fun i hi => ?_⟩
  · rw [← sig_congr_M hM i i (by omega), ← sig_congr_M hM (i + 1) (i + 1) (by omega)]; exact h.ne i hi
  · rw [← sig_congr_M hM i i (by omega), ← sig_congr_M hM (i + 1) (i + 1) (by omega)]; exact h.eb i hi
  · rw [← sig_congr_M hM i i (by omega), ← sig_congr_M hM (i + 1) (i + 1) (by omega),
      ← sig_congr_M hM i (i + 1) (by omega), ← sig_congr_M hM (i + 1) (i + 2) (by omega)]; exact h.ea i hi

/-- The recursion meets no zero denominator and no negative off-diagonal square. -/
theorem whRun_discrete {N : ℕ} {u y : ℕ → ℝ} (hu : ∀ n < N, 0 < u n) (hy : Distinct N y) :
    ∀ n, n < N → ∃ t, whRun (discreteMoments N u y (2 * N)) N n = some t ∧ ∀ i, 1 ≤ i → i ≤ n → 0 < t.b i := by
  have hM : ∀ k < 2 * N, (fun k => (discreteMoments N u y (2 * N)).getD k 0) k =
      (fun k => ∑ n ∈ Finset.range N, u n * y n ^ k) k := fun k hk => discreteMoments_getD u y hk
  intro n
  induction n with
  | zero => intro hn; exact ⟨_, rfl, fun i h1 h2 => by omega⟩
  | succ n ih =>
    intro hn
    obtain ⟨t, ht, hb⟩ := ih (by omega)
    have inv := whRun_inv (by omega) ht
    have rel := inv.rel.congr_M hM (by omega)
    have h0 : (fun k => ∑ n ∈ Finset.range N, u n * y n ^ k) 0 ≠ 0 := by
      simp only [pow_zero, mul_one]
      exact (Finset.sum_pos (fun i hi => hu i (Finset.mem_range.mp hi)) ⟨0, by simp; omega⟩).ne'
    have hz := sig_zero rel h0
    have p0 := sig_diag_pos (a := t.a) (b := t.b) (show n < N by omega) hu hy (hz n (by omega))
    have p1 := sig_diag_pos (a := t.a) (b := t.b) (show n + 1 < N by omega) hu hy (hz (n + 1) le_rfl)
    rw [← sig_congr_M hM n n (by omega)] at p0
    rw [← sig_congr_M hM (n + 1) (n + 1) (by omega)] at p1
    have e0 : t.sc (n + 1 - 1) = sig (fun k => (discreteMoments N u y (2 * N)).getD k 0) t.a t.b n n := by
      rw [Nat.add_sub_cancel]; exact inv.sc n le_rfl (by omega)
    have e1 : (if n + 1 ≤ n + 1 ∧ n + 1 < 2 * N - (n + 1) then
        t.sc (n + 1 + 1) - t.a (n + 1 - 1) * t.sc (n + 1) - t.b (n + 1 - 1) * t.sp (n + 1) else 0) =
        sig (fun k => (discreteMoments N u y (2 * N)).getD k 0) t.a t.b (n + 1) (n + 1) := by
      rw [if_pos ⟨by omega, by omega⟩, Nat.add_sub_cancel, inv.sc (n + 1 + 1) (by omega) (by omega),
        inv.sc (n + 1) (by omega) (by omega)]
      match n, inv with
      | 0, inv => rw [inv.b0]; simp only [sig]; ring
      | n + 1, inv => rw [inv.sp (n + 1 + 1) (by omega) (by omega) (by omega)]; rfl
    rw [whRun, ht, Option.bind_some]
    simp only [whStep]
    rw [if_neg (by rw [e0, e1]; push Not; exact ⟨p0.ne', p1.ne'⟩)]
    refine ⟨_, rfl, fun i h1 h2 => ?_⟩
    simp only
    by_cases c : i = n + 1
    · subst c
      rw [Function.update_self, e0, e1]; positivity
    · rw [Function.update_of_ne c]; exact hb i h1 (by omega)

/-- All roots of `π_N` are nodes. -/
theorem root_is_node {N : ℕ} {u y a b : ℕ → ℝ} (hu : ∀ n < N, 0 < u n) (hy : Distinct N y)
    (hz : ∀ j < N, sig (fun k => ∑ n ∈ Finset.range N, u n * y n ^ k) a b N j = 0) {x : ℝ} (hx : mpoly a b x N = 0) :
    ∃ n < N, x = y n := by
  let R : ℝ[X] := ∏ n ∈ Finset.range N, (X - C (y n))
  have hR : R.Monic := monic_prod_of_monic _ _ fun n _ => monic_X_sub_C _
  have hRd : R.degree = N := by
    simp only [R]; rw [degree_prod]; simp
  have hR0 : ∀ n < N, R.eval (y n) = 0 := by
    intro n hn
    simp only [R, eval_prod]
    exact Finset.prod_eq_zero (Finset.mem_range.mpr hn) (by simp)
  obtain ⟨m, d⟩ := mpol_monic a b N
  have hdiff : (mpol a b N - R).degree < N := by
    have := degree_sub_lt_left (p := mpol a b N) (q := R) (by rw [d, hRd]) m.ne_zero (by rw [m.leadingCoeff, hR.leadingCoeff])
    rwa [d] at this
  have h1 := orth_low hz _ hdiff
  have h2 : ∑ n ∈ Finset.range N, u n * mpoly a b (y n) N ^ 2 = 0 := by
    rw [← h1]
    refine Finset.sum_congr rfl fun n hn => ?_
    rw [eval_sub, hR0 n (Finset.mem_range.mp hn), mpol_eval]; ring
  rw [Finset.sum_eq_zero_iff_of_nonneg (fun n hn => by
    have := hu n (Finset.mem_range.mp hn); positivity)] at h2
  have h3 : mpol a b N - R = 0 := poly_zero hy hdiff fun n hn => by
    rw [eval_sub, hR0 n hn, mpol_eval, sub_zero]
    have := h2 n (Finset.mem_range.mpr hn)
    have hun := hu n hn
    rcases mul_eq_zero.mp this with h | h
    · linarith
    · exact pow_eq_zero_iff (two_ne_zero) |>.mp h
  have h4 : R.eval x = 0 := by rw [← sub_eq_zero.mp h3, mpol_eval, hx]
  simp only [R, eval_prod, Finset.prod_eq_zero_iff, Finset.mem_range, eval_sub, eval_X, eval_C, sub_eq_zero] at h4
  exact h4

/-- Two discrete distributions on the same nodes with the same moments give the same sums of every function. -/
theorem same_measure {N : ℕ} {u y w x : ℕ → ℝ} (hy : Distinct N y) (hx : ∀ n < N, ∃ k < N, x n = y k)
    (hm : ∀ k < N, ∑ n ∈ Finset.range N, w n * x n ^ k = ∑ n ∈ Finset.range N, u n * y n ^ k) (f : ℝ → ℝ) :
    ∑ n ∈ Finset.range N, w n * f (x n) = ∑ n ∈ Finset.range N, u n * f (y n) := by
  let q : ℝ[X] := Lagrange.interpolate (Finset.range N) y fun n => f (y n)
  have hq : ∀ n < N, q.eval (y n) = f (y n) := fun n hn =>
    Lagrange.eval_interpolate_at_node _ hy.injOn (Finset.mem_range.mpr hn)
  have hqx : ∀ n < N, q.eval (x n) = f (x n) := by
    intro n hn
    obtain ⟨k, hk, e⟩ := hx n hn
    rw [e, hq k hk]
  have hqd : ∀ j ≥ N, q.coeff j = 0 := fun j hj => coeff_eq_zero_of_degree_lt
    ((Lagrange.degree_interpolate_lt _ hy.injOn).trans_le (by simpa using hj))
  have hev : ∀ z, q.eval z = ∑ j ∈ Finset.range N, q.coeff j * z ^ j := by
    intro z
    by_cases h0 : N = 0
    · subst h0
      have : q = 0 := by ext j; simpa using hqd j (by omega)
      simp [this]
    · rw [eval_eq_sum_range' (n := N)]
      by_contra hc
      have hne : q ≠ 0 := by rintro h; rw [h] at hc; simp at hc; omega
      exact leadingCoeff_ne_zero.mpr hne (hqd _ (not_lt.mp hc))
  have key : ∀ (c z : ℕ → ℝ), ∑ n ∈ Finset.range N, c n * q.eval (z n) =
      ∑ j ∈ Finset.range N, q.coeff j * ∑ n ∈ Finset.range N, c n * z n ^ j := by
    intro c z
    simp only [hev, Finset.mul_sum]
    rw [Finset.sum_comm]
    exact Finset.sum_congr rfl fun j _ => Finset.sum_congr rfl fun n _ => by ring
  calc ∑ n ∈ Finset.range N, w n * f (x n) = ∑ n ∈ Finset.range N, w n * q.eval (x n) :=
        Finset.sum_congr rfl fun n hn => by rw [hqx n (Finset.mem_range.mp hn)]
    _ = ∑ n ∈ Finset.range N, u n * q.eval (y n) := by
        rw [key, key]
        exact Finset.sum_congr rfl fun j hj => by rw [hm j (Finset.mem_range.mp hj)]
    _ = _ := Finset.sum_congr rfl fun n hn => by rw [hq n (Finset.mem_range.mp hn)]

/-- **C53.** The inversion recovers every discrete distribution: for `N` distinct positive masses with positive
weights and a correct eigenvalue routine, `getWtsAbs` applied to the first `2N` moments returns `N` positive weights
and positive masses that give the same sum of every function as the original distribution (so in particular the same
fractional moments, and the same collision sums). -/
theorem C53_roundtrip (eig : Eig) (he : eig.Correct) (N : ℕ) (hN : 1 ≤ N) (u y : ℕ → ℝ) (hu : ∀ n < N, 0 < u n)
    (hy0 : ∀ n < N, 0 < y n) (hy : Distinct N y) (wts absc : List ℝ) (hw : wts.length = N) (ha : absc.length = N) :
    ∃ w a, getWtsAbs eig (discreteMoments N u y (2 * N)) wts absc = ok (w, a) ∧ w.length = N ∧ a.length = N ∧
      (∀ x ∈ w, 0 < x) ∧ (∀ x ∈ a, ∃ n < N, x = y n) ∧
      ∀ f : ℝ → ℝ, ∑ n ∈ Finset.range N, w.getD n 0 * f (a.getD n 0) = ∑ n ∈ Finset.range N, u n * f (y n) := by
  set M := discreteMoments N u y (2 * N) with hMdef
  have hlen : M.length = 2 * N := by simp [hMdef, discreteMoments]
  have hM : ∀ k < 2 * N, (fun k => M.getD k 0) k = (fun k => ∑ n ∈ Finset.range N, u n * y n ^ k) k :=
    fun k hk => discreteMoments_getD u y hk
  have hM0 : 0 < M.getD 0 0 := by
    have := hM 0 (by omega)
    simp only [pow_zero, mul_one] at this
    rw [this]
    exact Finset.sum_pos (fun i hi => hu i (Finset.mem_range.mp hi)) ⟨0, by simp; omega⟩
  obtain ⟨t, ht, hb⟩ := whRun_discrete hu hy (N - 1) (by omega)
  rw [← hMdef] at ht
  have hj : jacobi M N = some (t.a, fun i => -sqrt |t.b i|) := by simp [jacobi, ht]
  obtain ⟨x, V, h1, h2, h3⟩ := he N M t.a (fun i => -sqrt |t.b i|)
  have hb2 : ∀ i, 1 ≤ i → i < N → (-sqrt |t.b i|) ^ 2 = t.b i := fun i hi1 hi2 => by
    rw [neg_sq, sq_sqrt (abs_nonneg _), abs_of_nonneg (hb i hi1 (by omega)).le]
  have rel := (whRun_inv (by omega) ht).rel
  have hquad := quad_moments (by omega) rel hM0.ne' hb2 h2 h3
  have rel' := rel.congr_M hM (by omega)
  have hz := sig_zero rel' (fun hc => hM0.ne' ((hM 0 (by omega)).trans hc)) N (by omega)
  have hV : ∀ n < N, V n 0 ≠ 0 := by
    intro n hn h0
    have hp := (eigen_poly (by omega) hb2 (h2 n hn)).1
    have hall : ∀ i < N, V n i = 0 := by
      intro i hi
      have := hp i hi
      rw [h0, mul_zero] at this
      refine (mul_eq_zero.mp this).resolve_left (Finset.prod_ne_zero_iff.mpr fun l hl => ?_)
      have hl := Finset.mem_range.mp hl
      have := hb2 (l + 1) (by omega) (by omega)
      have hbp := hb (l + 1) (by omega) (by omega)
      intro hc; rw [hc] at this; simp at this; linarith
    have := h3 n hn n hn
    rw [if_pos rfl, Finset.sum_eq_zero fun i hi => by rw [hall i (Finset.mem_range.mp hi), zero_mul]] at this
    norm_num at this
  have hroot : ∀ n < N, ∃ k < N, x n = y k := by
    intro n hn
    have hp := (eigen_poly (by omega) hb2 (h2 n hn)).2
    exact root_is_node hu hy hz ((mul_eq_zero.mp hp).resolve_right (hV n hn))
  have hx0 : ∀ n < N, 0 < x n := fun n hn => by
    obtain ⟨k, hk, e⟩ := hroot n hn
    rw [e]; exact hy0 k hk
  have hw0 : ∀ n < N, 0 < V n 0 ^ 2 * M.getD 0 0 := fun n hn => by
    have := hV n hn
    have : 0 < V n 0 ^ 2 := by positivity
    positivity
  -- the downselection loop accepts at once
  have hd : ∃ d, downselect eig M N = d ∧ d.1 = N ∧ (∀ n < N, d.2.1 n = V n 0 ^ 2 * M.getD 0 0 ∧ d.2.2 n = x n) := by
    refine ⟨_, rfl, ?_⟩
    match N, hN with
    | 1, _ =>
      refine ⟨rfl, fun n hn => ?_⟩
      have hn : n = 0 := by omega
      subst hn
      have q0 := hquad 0 (by norm_num)
      have q1 := hquad 1 (by norm_num)
      simp only [Finset.sum_range_one, pow_zero, mul_one, pow_one] at q0 q1
      simp only [downselect]
      refine ⟨q0.symm, ?_⟩
      rw [← q1, q0]; field_simp
    | k + 2, _ =>
      have hwh : ∀ n < k + 2, (wheeler eig M (k + 2)).1 n = some (V n 0 ^ 2 * M.getD 0 0) ∧
          (wheeler eig M (k + 2)).2 n = some (x n) := fun n hn => by
        simp only [wheeler, hj, (h1 n hn).1, (h1 n hn).2, Option.map_some, and_self]
      rw [downselect, if_pos ⟨fun n hn => ⟨_, (hwh n hn).1, (hw0 n hn).le⟩, fun n hn => ⟨_, (hwh n hn).2, (hx0 n hn).le⟩⟩]
      exact ⟨rfl, fun n hn => by simp only [(hwh n hn).1, (hwh n hn).2, Option.getD_some, and_self]⟩
  obtain ⟨d, hd0, hd1, hd2⟩ := hd
  have hN2 : M.length / 2 = N := by omega
  have gw : ∀ n < N, (padded N N d.2.1).getD n 0 = V n 0 ^ 2 * M.getD 0 0 := fun n hn => by
    rw [padded_getD, (hd2 n hn).1, if_pos ⟨hn, hn, (hw0 n hn).le⟩]
  have ga : ∀ n < N, (padded N N d.2.2).getD n 0 = x n := fun n hn => by
    rw [padded_getD, (hd2 n hn).2, if_pos ⟨hn, hn, (hx0 n hn).le⟩]
  refine ⟨padded N N d.2.1, padded N N d.2.2, ?_, padded_length _ _ _, padded_length _ _ _, fun z hz => ?_, fun z hz => ?_,
    fun f => ?_⟩
  · unfold getWtsAbs
    rw [idx_getD (by omega), ok_bind, if_neg (not_le.mpr hM0), hN2, if_neg (by omega)]
    simp only [hd0, hd1, hw, ha, le_refl, and_self, if_true]
  · obtain ⟨i, hi, rfl⟩ := mem_getD hz
    rw [padded_length] at hi
    rw [gw i hi]; exact hw0 i hi
  · obtain ⟨i, hi, rfl⟩ := mem_getD hz
    rw [padded_length] at hi
    rw [ga i hi]; exact hroot i hi
  · rw [← same_measure (w := fun n => V n 0 ^ 2 * M.getD 0 0) (x := x) hy hroot
      (fun k hk => (hquad k (by omega)).trans (hM k (by omega))) f]
    exact Finset.sum_congr rfl fun n hn => by rw [gw n (Finset.mem_range.mp hn), ga n (Finset.mem_range.mp hn)]

/-- A two-point distribution. -/
example (eig : Eig) (he : eig.Correct) : ∃ w a, getWtsAbs eig
    (discreteMoments 2 (fun n => if n = 0 then 1E15 else 2E14) (fun n => if n = 0 then 1E-23 else 1E-21) 4)
    [0, 0] [0, 0] = ok (w, a) ∧ w.length = 2 ∧ a.length = 2 ∧
      (∀ x ∈ w, 0 < x) ∧ (∀ x ∈ a, ∃ n < 2, x = if n = 0 then 1E-23 else 1E-21) ∧
      ∀ f : ℝ → ℝ, ∑ n ∈ Finset.range 2, w.getD n 0 * f (a.getD n 0) =
        ∑ n ∈ Finset.range 2, (if n = 0 then 1E15 else 2E14) * f (if n = 0 then 1E-23 else 1E-21) :=
  C53_roundtrip eig he 2 (by norm_num) _ _ (by intro n _; split_ifs <;> norm_num) (by intro n _; split_ifs <;> norm_num)
    (by intro i hi j hj; interval_cases i <;> interval_cases j <;> norm_num) _ _ rfl rfl

end Soot
