import Verif.Qmom
import Mathlib.Data.Nat.Choose.Cast
import Mathlib.Analysis.Matrix.Spectrum
import Mathlib.Analysis.InnerProductSpace.PiL2
import Mathlib.LinearAlgebra.Matrix.NonsingularInverse

/-!
# C42 (binomial coefficients), C27 (moment inversion is total), C28 (the quadrature reproduces the moments)
-/

namespace Soot

open Res Real
open scoped Classical

/-! ## C42 -/

theorem factorials_eq : ∀ n < 35, factorials[n]? = some n.factorial := by decide

theorem binom_ok {r k : ℕ} (hr : r < 35) (hk : k ≤ r) : binom r k = ok ((r.choose k : ℕ) : ℝ) := by
  have e : (2 ^ 32 + r - k) % 2 ^ 32 = r - k := by omega
  simp only [binom, e]
  rw [if_neg (by omega)]
  have h1 : ∀ n < 35, idx factorials n = ok n.factorial := fun n hn => idx_eq_ok.mpr (factorials_eq n hn)
  rw [h1 r hr, ok_bind, h1 k (by omega), ok_bind, h1 (r - k) (by omega), ok_bind, cdiv_ok (by positivity),
    Nat.cast_choose ℝ hk]

theorem binom_exn {r k : ℕ} (hr : r < 2 ^ 32) (hk : k < 2 ^ 32) (h : ¬ (k ≤ r ∧ r < 35)) :
    binom r k = exn (.runtime "binomial coefficient parameters out of bounds") := by
  simp only [binom]
  rw [if_pos (by omega)]

/-- **C42.** For `k ≤ r < 35` the function returns the binomial coefficient; for every other pair of 32-bit unsigned
arguments it throws, also when `r - k` wraps around. -/
theorem C42_binomial (r k : ℕ) (hr : r < 2 ^ 32) (hk : k < 2 ^ 32) :
    (k ≤ r ∧ r < 35 → binom r k = ok ((r.choose k : ℕ) : ℝ)) ∧ (¬ (k ≤ r ∧ r < 35) → ∃ msg, binom r k = exn (.runtime msg)) :=
  ⟨fun h => binom_ok h.2 h.1, fun h => ⟨_, binom_exn hr hk h⟩⟩

example : binom 34 17 = ok 2333606220 := by
  rw [(C42_binomial 34 17 (by norm_num) (by norm_num)).1 (by norm_num)]
  norm_num [Nat.choose]
example : ∃ msg, binom 3 4 = exn (.runtime msg) := (C42_binomial 3 4 (by norm_num) (by norm_num)).2 (by norm_num)

/-! ## C27 -/

/-- What the downselection loop delivers, whatever the eigenvalue routine returned. -/
theorem downselect_spec (eig : Eig) {M : List ℝ} (h0 : 0 < M.getD 0 0) (h1 : 0 ≤ M.getD 1 0) :
    ∀ {N : ℕ}, 1 ≤ N → 1 ≤ (downselect eig M N).1 ∧ (downselect eig M N).1 ≤ N ∧
      (∀ i, 0 ≤ (downselect eig M N).2.1 i ∨ (downselect eig M N).1 ≤ i) ∧
      (∀ i, 0 ≤ (downselect eig M N).2.2 i ∨ (downselect eig M N).1 ≤ i) ∧
      ((downselect eig M N).1 = 1 → (downselect eig M N).2.1 0 = M.getD 0 0 ∧
        (downselect eig M N).2.2 0 = M.getD 1 0 / M.getD 0 0) := by
  intro N
  induction N with
  | zero => intro h; omega
  | succ N ih =>
    intro _
    cases N with
    | zero =>
      simp only [downselect, le_refl, true_and]
      exact ⟨fun i => .inl h0.le, fun i => .inl (div_nonneg h1 h0.le), fun _ => trivial⟩
    | succ n =>
      rw [downselect]
      split_ifs with hg
      · refine ⟨by simp, by simp, fun i => ?_, fun i => ?_, fun h => by simp at h⟩
        · by_cases hi : i < n + 2
          · obtain ⟨x, hx, hx0⟩ := hg.1 i hi
            left; simp only [hx, Option.getD_some]; exact hx0
          · right; simp only; omega
        · by_cases hi : i < n + 2
          · obtain ⟨x, hx, hx0⟩ := hg.2 i hi
            left; simp only [hx, Option.getD_some]; exact hx0
          · right; simp only; omega
      · obtain ⟨a, b, c⟩ := ih (by omega)
        exact ⟨a, by omega, c⟩

theorem padded_length (L N : ℕ) (v : ℕ → ℝ) : (padded L N v).length = L := by simp [padded]

theorem padded_getD (L N : ℕ) (v : ℕ → ℝ) (i : ℕ) :
    (padded L N v).getD i 0 = if i < L ∧ i < N ∧ 0 ≤ v i then v i else 0 := by
  unfold padded
  by_cases hi : i < L
  · rw [getD_of_lt (by simpa using hi)]
    simp only [List.getElem_map, List.getElem_range, hi, true_and]
    by_cases hN : i < N
    · by_cases hv : 0 ≤ v i <;> simp [hN, hv]
    · simp [hN]
  · simp [List.getD_eq_getElem?_getD, hi]

theorem mem_getD {l : List ℝ} {x : ℝ} (h : x ∈ l) : ∃ i < l.length, l.getD i 0 = x := by
  obtain ⟨i, hi, rfl⟩ := List.getElem_of_mem h
  exact ⟨i, hi, getD_of_lt hi⟩

theorem padded_nonneg (L N : ℕ) (v : ℕ → ℝ) : ∀ x ∈ padded L N v, 0 ≤ x := by
  intro x hx
  obtain ⟨i, _, rfl⟩ := mem_getD hx
  rw [padded_getD]; split_ifs with h
  · exact h.2.2
  · exact le_rfl

/-- **C27.** For every (possibly wrong, possibly non-finite) outcome of the eigenvalue routine, every non-negative
moment vector of at least two entries and node vectors long enough, the inversion terminates without leaving a
vector and without an exception; the nodes are finite, non-negative, as many as before, and zero beyond a node count
`n` that is at most half the number of moments.  No particles give all-zero nodes; if a single node is left it
reproduces `M0` and `M1`. -/
theorem C27_inversion_total (eig : Eig) (M wts absc : List ℝ) (hM : ∀ x ∈ M, 0 ≤ x) (h2 : 2 ≤ M.length)
    (hw : M.length / 2 ≤ wts.length) (ha : M.length / 2 ≤ absc.length) :
    ∃ w a n, getWtsAbs eig M wts absc = ok (w, a) ∧ w.length = wts.length ∧ a.length = absc.length ∧
      (∀ x ∈ w, 0 ≤ x) ∧ (∀ x ∈ a, 0 ≤ x) ∧ n ≤ M.length / 2 ∧ (∀ i, n ≤ i → w.getD i 0 = 0 ∧ a.getD i 0 = 0) ∧
      (M.getD 0 0 = 0 → n = 0) ∧ (0 < M.getD 0 0 → 1 ≤ n) ∧
      (n = 1 → w.getD 0 0 = M.getD 0 0 ∧ w.getD 0 0 * a.getD 0 0 = M.getD 1 0) := by
  have hM0 : 0 ≤ M.getD 0 0 := getD_nonneg hM 0
  have hM1 : 0 ≤ M.getD 1 0 := getD_nonneg hM 1
  unfold getWtsAbs
  rw [idx_getD (by omega), ok_bind]
  by_cases hz : M.getD 0 0 ≤ 0
  · rw [if_pos hz]
    refine ⟨_, _, 0, rfl, by simp, by simp, by simp, by simp, by simp, fun i _ => ?_, fun _ => rfl, fun h => by linarith,
      by simp⟩
    simp [List.getD_eq_getElem?_getD, List.getElem?_replicate]
    constructor <;> split_ifs <;> rfl
  · have hpos := not_le.mp hz
    obtain ⟨a1, a2, a3, a4, a5⟩ := downselect_spec eig hpos hM1 (N := M.length / 2) (by omega)
    rw [if_neg hz, if_neg (by omega)]
    simp only
    rw [if_pos ⟨by omega, by omega⟩]
    refine ⟨_, _, (downselect eig M (M.length / 2)).1, rfl, padded_length _ _ _, padded_length _ _ _,
      padded_nonneg _ _ _, padded_nonneg _ _ _, a2, fun i hi => ?_, fun h => by linarith, fun _ => a1, fun h1 => ?_⟩
    · rw [padded_getD, padded_getD, if_neg (by omega), if_neg (by omega)]; exact ⟨rfl, rfl⟩
    · obtain ⟨e1, e2⟩ := a5 h1
      have hd := div_nonneg hM1 hM0
      rw [padded_getD, padded_getD, h1, e1, e2, if_pos ⟨by omega, by omega, hM0⟩, if_pos ⟨by omega, by omega, hd⟩]
      exact ⟨rfl, by field_simp⟩

/-- Any eigenvalue routine will do, e.g. one returning NaN throughout. -/
example : ∃ w a n, getWtsAbs (fun _ _ _ => ⟨fun _ => none, fun _ => none⟩) [2, 6, 20, 70] [0, 0] [0, 0] = ok (w, a) ∧
    w.length = 2 ∧ a.length = 2 ∧ (∀ x ∈ w, 0 ≤ x) ∧ (∀ x ∈ a, 0 ≤ x) ∧ n ≤ 2 ∧
    (∀ i, n ≤ i → w.getD i 0 = 0 ∧ a.getD i 0 = 0) ∧ (([2, 6, 20, 70] : List ℝ).getD 0 0 = 0 → n = 0) ∧
    (0 < ([2, 6, 20, 70] : List ℝ).getD 0 0 → 1 ≤ n) ∧
    (n = 1 → w.getD 0 0 = ([2, 6, 20, 70] : List ℝ).getD 0 0 ∧
      w.getD 0 0 * a.getD 0 0 = ([2, 6, 20, 70] : List ℝ).getD 1 0) :=
  C27_inversion_total _ [2, 6, 20, 70] [0, 0] [0, 0] (by norm_num) (by simp) (by simp) (by simp)

/-! ## C28 -/

/-- `o` holds eigenvalues and first components of an orthonormal system of eigenvectors of the symmetric tridiagonal
matrix with diagonal `d 0 .. d (N-1)` and off-diagonal `e 1 .. e (N-1)`. -/
def IsEigen (N : ℕ) (d e : ℕ → ℝ) (o : EigOut) : Prop :=
  ∃ (x : ℕ → ℝ) (V : ℕ → ℕ → ℝ),
    (∀ n < N, o.val n = some (x n) ∧ o.vec0 n = some (V n 0)) ∧
    (∀ n < N, ∀ i < N, (if 0 < i then e i * V n (i - 1) else 0) + d i * V n i +
      (if i + 1 < N then e (i + 1) * V n (i + 1) else 0) = x n * V n i) ∧
    ∀ n < N, ∀ k < N, ∑ i ∈ Finset.range N, V n i * V k i = if n = k then 1 else 0

/-- The eigenvalue routine does what LAPACK documents, on every matrix with finite entries. -/
def Eig.Correct (eig : Eig) : Prop := ∀ N M d e, IsEigen N d e (eig N M (some (d, e)))

/-- Mixed moments `L(π_i x^j)` of the monic polynomials `π_{i+1} = (x - a_i) π_i - b_i π_{i-1}`. -/
def sig (M a b : ℕ → ℝ) : ℕ → ℕ → ℝ
  | 0, j => M j
  | 1, j => M (j + 1) - a 0 * M j
  | i + 2, j => sig M a b (i + 1) (j + 1) - a (i + 1) * sig M a b (i + 1) j - b (i + 1) * sig M a b i j

/-- The monic polynomials themselves. -/
def mpoly (a b : ℕ → ℝ) (x : ℝ) : ℕ → ℝ
  | 0 => 1
  | 1 => x - a 0
  | i + 2 => (x - a (i + 1)) * mpoly a b x (i + 1) - b (i + 1) * mpoly a b x i

theorem sig_congr {M a b a' b' : ℕ → ℝ} : ∀ {n : ℕ}, (∀ i < n, a i = a' i ∧ b i = b' i) →
    ∀ j, sig M a b n j = sig M a' b' n j
  | 0, _, j => rfl
  | 1, h, j => by simp only [sig, (h 0 (by omega)).1]
  | n + 2, h, j => by
    simp only [sig, (h (n + 1) (by omega)).1, (h (n + 1) (by omega)).2]
    rw [sig_congr (n := n + 1) (fun i hi => h i (by omega)), sig_congr (n := n + 1) (fun i hi => h i (by omega)),
      sig_congr (n := n) (fun i hi => h i (by omega))]

theorem sig_quad (N : ℕ) (w x : ℕ → ℝ) (a b : ℕ → ℝ) : ∀ i j,
    sig (fun k => ∑ n ∈ Finset.range N, w n * x n ^ k) a b i j =
      ∑ n ∈ Finset.range N, w n * mpoly a b (x n) i * x n ^ j
  | 0, j => by simp [sig, mpoly]
  | 1, j => by
    simp only [sig, mpoly, Finset.mul_sum, ← Finset.sum_sub_distrib]
    exact Finset.sum_congr rfl fun n _ => by ring
  | i + 2, j => by
    simp only [sig, mpoly, sig_quad N w x a b (i + 1), sig_quad N w x a b i, Finset.mul_sum, ← Finset.sum_sub_distrib]
    exact Finset.sum_congr rfl fun n _ => by ring

/-- Two moment sequences whose tables agree in the first column and in the last row agree. -/
theorem sig_determined {M M' a b : ℕ → ℝ} {N : ℕ} (h0 : ∀ i ≤ N, sig M a b i 0 = sig M' a b i 0)
    (hN : ∀ j < N, sig M a b N j = sig M' a b N j) :
    ∀ j i, i ≤ N → i + j ≤ 2 * N - 1 → sig M a b i j = sig M' a b i j := by
  intro j
  induction j with
  | zero => intro i hi _; exact h0 i hi
  | succ j ih =>
    intro i hi hij
    by_cases he : i = N
    · subst he; exact hN _ (by omega)
    · match i with
      | 0 =>
        have e1 := ih 1 (by omega) (by omega)
        have e2 := ih 0 (by omega) (by omega)
        simp only [sig] at e1 e2 ⊢
        rw [e2] at e1; linarith
      | i + 1 =>
        have e1 := ih (i + 2) (by omega) (by omega)
        have e2 := ih (i + 1) (by omega) (by omega)
        have e3 := ih i (by omega) (by omega)
        rw [sig, sig] at e1
        rw [e2, e3] at e1; linarith

/-- The relations between recursion coefficients and table that the recursion establishes up to index `n`. -/
structure WhRel (M a b : ℕ → ℝ) (n : ℕ) : Prop where
  a0 : a 0 = M 1 / M 0
  ne : ∀ i < n, sig M a b i i ≠ 0 ∧ sig M a b (i + 1) (i + 1) ≠ 0
  eb : ∀ i < n, b (i + 1) = sig M a b (i + 1) (i + 1) / sig M a b i i
  ea : ∀ i < n, a (i + 1) = -sig M a b i (i + 1) / sig M a b i i + sig M a b (i + 1) (i + 2) / sig M a b (i + 1) (i + 1)

/-- The table is upper triangular: `π_i` is orthogonal to lower powers. -/
theorem sig_zero {M a b : ℕ → ℝ} {n : ℕ} (h : WhRel M a b n) (h0 : M 0 ≠ 0) :
    ∀ i ≤ n + 1, ∀ j < i, sig M a b i j = 0 := by
  intro i
  induction i using Nat.strong_induction_on with
  | _ i ih =>
    intro hi j hj
    match i, hj with
    | 1, hj =>
      have : j = 0 := by omega
      subst this
      simp only [sig, h.a0]; field_simp; ring
    | i + 2, hj =>
      have hin : i < n := by omega
      obtain ⟨n1, n2⟩ := h.ne i hin
      have z1 := ih (i + 1) (by omega) (by omega)
      have z0 := ih i (by omega) (by omega)
      rw [sig]
      by_cases c1 : j = i + 1
      · subst c1
        rw [h.ea i hin, h.eb i hin]; field_simp; ring
      · by_cases c2 : j = i
        · subst c2
          rw [z1 j (by omega), h.eb j hin]; field_simp; ring
        · rw [z1 (j + 1) (by omega), z1 j (by omega), z0 j (by omega)]; ring

/-- Loop invariant of the recursion in `wheeler`. -/
structure WhInv (M : List ℝ) (N n : ℕ) (t : WhSt) : Prop where
  rel : WhRel (fun k => M.getD k 0) t.a t.b n
  b0 : t.b 0 = 0
  sc : ∀ j, n ≤ j → j < 2 * N - n → t.sc j = sig (fun k => M.getD k 0) t.a t.b n j
  sp : ∀ j, n ≤ j + 1 → j < 2 * N - n → 1 ≤ n → t.sp j = sig (fun k => M.getD k 0) t.a t.b (n - 1) j

theorem whRun_inv {M : List ℝ} {N : ℕ} : ∀ {n : ℕ} {t : WhSt}, n < N → whRun M N n = some t → WhInv M N n t := by
  intro n
  induction n with
  | zero =>
    intro t hn h
    simp only [whRun, Option.some.injEq] at h
    subst h
    refine ⟨⟨by simp, by simp, by simp, by simp⟩, rfl, fun j _ hj => ?_, fun j _ _ h1 => by omega⟩
    simp only [sig]; rw [if_pos (by omega)]
  | succ n ih =>
    intro t' hn h
    rw [whRun, Option.bind_eq_some_iff] at h
    obtain ⟨t, ht, h⟩ := h
    have inv := ih (by omega) ht
    simp only [whStep] at h
    by_cases hz : t.sc (n + 1 - 1) = 0 ∨ (if n + 1 ≤ n + 1 ∧ n + 1 < 2 * N - (n + 1) then
        t.sc (n + 1 + 1) - t.a (n + 1 - 1) * t.sc (n + 1) - t.b (n + 1 - 1) * t.sp (n + 1) else 0) = 0
    · rw [if_pos hz] at h; cases h
    rw [if_neg hz] at h
    rw [not_or] at hz
    simp only [Option.some.injEq] at h
    -- the new row
    have hsn : ∀ j, n + 1 ≤ j → j < 2 * N - (n + 1) →
        (if n + 1 ≤ j ∧ j < 2 * N - (n + 1) then
          t.sc (j + 1) - t.a (n + 1 - 1) * t.sc j - t.b (n + 1 - 1) * t.sp j else 0) =
        sig (fun k => M.getD k 0) t.a t.b (n + 1) j := by
      intro j h1 h2
      rw [if_pos ⟨h1, h2⟩, Nat.add_sub_cancel, inv.sc (j + 1) (by omega) (by omega), inv.sc j (by omega) (by omega)]
      match n, inv with
      | 0, inv => rw [inv.b0]; simp only [sig]; ring
      | n + 1, inv => rw [inv.sp j (by omega) (by omega) (by omega)]; rfl
    -- coefficients at lower indices are unchanged
    have hab : ∀ i < n + 1, t'.a i = t.a i ∧ t'.b i = t.b i := by
      intro i hi
      subst h
      exact ⟨Function.update_of_ne (by omega) _ _, Function.update_of_ne (by omega) _ _⟩
    have hs : ∀ i ≤ n + 1, ∀ j, sig (fun k => M.getD k 0) t'.a t'.b i j = sig (fun k => M.getD k 0) t.a t.b i j :=
      fun i hi j => sig_congr (fun l hl => hab l (by omega)) j
    have hz1 := hz.1
    have hz2 := hz.2
    rw [hsn (n + 1) le_rfl (by omega)] at hz2
    rw [Nat.add_sub_cancel, inv.sc n le_rfl (by omega)] at hz1
    have ea : t'.a (n + 1) = -sig (fun k => M.getD k 0) t.a t.b n (n + 1) / sig (fun k => M.getD k 0) t.a t.b n n +
        sig (fun k => M.getD k 0) t.a t.b (n + 1) (n + 2) / sig (fun k => M.getD k 0) t.a t.b (n + 1) (n + 1) := by
      rw [← hsn (n + 2) (by omega) (by omega), ← hsn (n + 1) (by omega) (by omega), ← inv.sc n le_rfl (by omega),
        ← inv.sc (n + 1) (by omega) (by omega), ← h]
      simp only [Function.update_self]
      rfl
    have eb : t'.b (n + 1) = sig (fun k => M.getD k 0) t.a t.b (n + 1) (n + 1) / sig (fun k => M.getD k 0) t.a t.b n n := by
      rw [← hsn (n + 1) (by omega) (by omega), ← inv.sc n le_rfl (by omega), ← h]
      simp only [Function.update_self]
      rfl
    refine ⟨⟨(hab 0 (by omega)).1.trans inv.rel.a0, fun i hi => ?_, fun i hi => ?_, fun i hi => ?_⟩,
      (hab 0 (by omega)).2.trans inv.b0, fun j h1 h2 => ?_, fun j h1 h2 _ => ?_⟩
    · rw [hs i (by omega), hs (i + 1) (by omega)]
      by_cases c : i = n
      · subst c; exact ⟨hz1, hz2⟩
      · exact inv.rel.ne i (by omega)
    · rw [hs i (by omega), hs (i + 1) (by omega)]
      by_cases c : i = n
      · subst c; exact eb
      · rw [(hab (i + 1) (by omega)).2]; exact inv.rel.eb i (by omega)
    · rw [hs i (by omega), hs (i + 1) (by omega), hs i (by omega), hs (i + 1) (by omega)]
      by_cases c : i = n
      · subst c; exact ea
      · rw [(hab (i + 1) (by omega)).1]; exact inv.rel.ea i (by omega)
    · rw [hs (n + 1) le_rfl, ← hsn j h1 h2, ← h]
    · rw [hs (n + 1 - 1) (by omega), Nat.add_sub_cancel, ← inv.sc j (by omega) (by omega), ← h]

/-- Golub–Welsch: eigenvectors of the Jacobi matrix are given by the monic polynomials at the eigenvalues. -/
theorem eigen_poly {N : ℕ} {a b e x0 : ℕ → ℝ} {V : ℕ → ℕ → ℝ} {n : ℕ} (hN : 0 < N)
    (he : ∀ i, 1 ≤ i → i < N → e i ^ 2 = b i)
    (hrow : ∀ i < N, (if 0 < i then e i * V n (i - 1) else 0) + a i * V n i +
      (if i + 1 < N then e (i + 1) * V n (i + 1) else 0) = x0 n * V n i) :
    (∀ i < N, (∏ l ∈ Finset.range i, e (l + 1)) * V n i = mpoly a b (x0 n) i * V n 0) ∧
      mpoly a b (x0 n) N * V n 0 = 0 := by
  have key : ∀ i < N, (∏ l ∈ Finset.range i, e (l + 1)) * V n i = mpoly a b (x0 n) i * V n 0 := by
    intro i
    induction i using Nat.strong_induction_on with
    | _ i ih =>
      intro hi
      match i with
      | 0 => simp [mpoly]
      | 1 =>
        have h := hrow 0 hN
        rw [if_neg (by omega), if_pos (by omega)] at h
        simp only [Finset.prod_range_one, mpoly]
        linarith
      | i + 2 =>
        have h := hrow (i + 1) (by omega)
        rw [if_pos (by omega), if_pos (by omega), Nat.add_sub_cancel] at h
        have h1 := ih (i + 1) (by omega) (by omega)
        have h0 := ih i (by omega) (by omega)
        have hb := he (i + 1) (by omega) (by omega)
        rw [Finset.prod_range_succ, mpoly, sub_mul, mul_assoc (x0 n - _), ← h1, mul_assoc (b _), ← h0, ← hb,
          Finset.prod_range_succ]
        linear_combination (∏ l ∈ Finset.range i, e (l + 1)) * e (i + 1) * h
  refine ⟨key, ?_⟩
  match N, hN with
  | 1, _ =>
    have h := hrow 0 (by omega)
    rw [if_neg (by omega), if_neg (by omega)] at h
    simp only [mpoly]; linarith
  | N + 2, _ =>
    have h := hrow (N + 1) (by omega)
    rw [if_pos (by omega), if_neg (by omega), Nat.add_sub_cancel] at h
    have h1 := key (N + 1) (by omega)
    have h0 := key N (by omega)
    have hb := he (N + 1) (by omega) (by omega)
    rw [mpoly, sub_mul, mul_assoc (x0 n - _), ← h1, mul_assoc (b _), ← h0, ← hb, Finset.prod_range_succ]
    linear_combination -(∏ l ∈ Finset.range N, e (l + 1)) * e (N + 1) * h

/-- Orthonormal rows of a square matrix have orthonormal columns. -/
theorem orth_cols {N : ℕ} {V : ℕ → ℕ → ℝ}
    (h : ∀ n < N, ∀ k < N, ∑ i ∈ Finset.range N, V n i * V k i = if n = k then 1 else 0) :
    ∀ i < N, ∀ j < N, ∑ n ∈ Finset.range N, V n i * V n j = if i = j then 1 else 0 := by
  let A : Matrix (Fin N) (Fin N) ℝ := Matrix.of fun n i => V n i
  have hA : ∀ n i, A n i = V n i := fun _ _ => rfl
  have h1 : A * A.transpose = 1 := by
    ext n k
    rw [Matrix.mul_apply, Matrix.one_apply]
    have := h n n.2 k k.2
    rw [Finset.sum_range] at this
    simp only [Matrix.transpose_apply, hA]
    rw [this]; simp [Fin.ext_iff]
  have h2 : A.transpose * A = 1 := mul_eq_one_comm.mp h1
  intro i hi j hj
  have := congrFun (congrFun h2 ⟨i, hi⟩) ⟨j, hj⟩
  rw [Matrix.mul_apply, Matrix.one_apply] at this
  rw [Finset.sum_range]
  simpa [hA, Fin.ext_iff] using this

/-- The quadrature reproduces the moments, in terms of the recursion coefficients. -/
theorem quad_moments {N : ℕ} {M a b e x : ℕ → ℝ} {V : ℕ → ℕ → ℝ} (hN : 0 < N) (h : WhRel M a b (N - 1)) (h0 : M 0 ≠ 0)
    (he : ∀ i, 1 ≤ i → i < N → e i ^ 2 = b i)
    (hrow : ∀ n < N, ∀ i < N, (if 0 < i then e i * V n (i - 1) else 0) + a i * V n i +
      (if i + 1 < N then e (i + 1) * V n (i + 1) else 0) = x n * V n i)
    (horth : ∀ n < N, ∀ k < N, ∑ i ∈ Finset.range N, V n i * V k i = if n = k then 1 else 0) :
    ∀ k < 2 * N, ∑ n ∈ Finset.range N, V n 0 ^ 2 * M 0 * x n ^ k = M k := by
  intro k hk
  have hcol := orth_cols horth
  have hz := sig_zero h h0
  have h1 : ∀ i ≤ N, sig (fun k => ∑ n ∈ Finset.range N, (V n 0 ^ 2 * M 0) * x n ^ k) a b i 0 = sig M a b i 0 := by
    intro i hi
    rw [sig_quad N (fun n => V n 0 ^ 2 * M 0)]
    by_cases c : i < N
    · have e1 : ∀ n ∈ Finset.range N, V n 0 ^ 2 * M 0 * mpoly a b (x n) i * x n ^ 0 =
          M 0 * (∏ l ∈ Finset.range i, e (l + 1)) * (V n 0 * V n i) := by
        intro n hn
        have := (eigen_poly hN he (hrow n (Finset.mem_range.mp hn))).1 i c
        linear_combination (-V n 0 * M 0) * this
      rw [Finset.sum_congr rfl e1, ← Finset.mul_sum, hcol 0 hN i c]
      by_cases c0 : i = 0
      · subst c0; simp [sig]
      · rw [if_neg (Ne.symm c0), hz i (by omega) 0 (by omega)]; ring
    · have : i = N := by omega
      subst this
      rw [hz i (by omega) 0 hN]
      refine Finset.sum_eq_zero fun n hn => ?_
      have := (eigen_poly hN he (hrow n (Finset.mem_range.mp hn))).2
      linear_combination (V n 0 * M 0) * this
  have h2 : ∀ j < N, sig (fun k => ∑ n ∈ Finset.range N, (V n 0 ^ 2 * M 0) * x n ^ k) a b N j = sig M a b N j := by
    intro j hj
    rw [sig_quad N (fun n => V n 0 ^ 2 * M 0), hz N (by omega) j hj]
    refine Finset.sum_eq_zero fun n hn => ?_
    have := (eigen_poly hN he (hrow n (Finset.mem_range.mp hn))).2
    linear_combination (V n 0 * M 0 * x n ^ j) * this
  exact sig_determined h1 h2 k 0 (by omega) (by omega)

theorem tri_sum (N i : ℕ) (hi : i < N) (d e : ℕ → ℝ) (u : ℕ → ℝ) :
    ∑ l ∈ Finset.range N, (if i = l then d i else if l + 1 = i then e i else if i + 1 = l then e l else 0) * u l =
      (if 0 < i then e i * u (i - 1) else 0) + d i * u i + (if i + 1 < N then e (i + 1) * u (i + 1) else 0) := by
  have e1 : ∀ l, (if i = l then d i else if l + 1 = i then e i else if i + 1 = l then e l else 0) * u l =
      (if l + 1 = i then e i * u (i - 1) else 0) + (if i = l then d i * u i else 0) +
        (if i + 1 = l then e (i + 1) * u (i + 1) else 0) := by
    intro l
    by_cases h1 : i = l
    · subst h1; simp
    · by_cases h2 : l + 1 = i
      · subst h2; simp; intro h; omega
      · by_cases h3 : i + 1 = l
        · subst h3; simp [h2]
        · simp [h1, h2, h3]
  rw [Finset.sum_congr rfl fun l _ => e1 l, Finset.sum_add_distrib, Finset.sum_add_distrib]
  congr 1
  · congr 1
    · cases i with
      | zero => simp
      | succ i => simp; intro h; omega
    · simp; intro h; omega
  · simp

/-- A correct eigenvalue routine exists (spectral theorem). -/
theorem exists_correct_eig : ∃ eig : Eig, eig.Correct := by
  have key : ∀ (N : ℕ) (d e : ℕ → ℝ), ∃ o : EigOut, IsEigen N d e o := by
    intro N d e
    let A : Matrix (Fin N) (Fin N) ℝ := Matrix.of fun i j =>
      if (i : ℕ) = j then d i else if (j : ℕ) + 1 = i then e i else if (i : ℕ) + 1 = j then e j else 0
    have hA' : ∀ i j : Fin N, A i j =
      if (i : ℕ) = j then d i else if (j : ℕ) + 1 = i then e i else if (i : ℕ) + 1 = j then e j else 0 := fun _ _ => rfl
    have hA : A.IsHermitian := by
      ext i j
      rw [Matrix.conjTranspose_apply, hA', hA', star_trivial]
      by_cases h1 : (i : ℕ) = j
      · rw [if_pos h1.symm, if_pos h1, h1]
      · rw [if_neg (Ne.symm h1), if_neg h1]
        by_cases h2 : (i : ℕ) + 1 = j
        · rw [if_pos h2, if_neg (by omega), if_pos h2]
        · rw [if_neg h2, if_neg h2]
    refine ⟨⟨fun n => if hn : n < N then some (hA.eigenvalues ⟨n, hn⟩) else none,
      fun n => if hn : n < N then some (if h0 : 0 < N then hA.eigenvectorBasis ⟨n, hn⟩ ⟨0, h0⟩ else 0) else none⟩,
      fun n => if hn : n < N then hA.eigenvalues ⟨n, hn⟩ else 0,
      fun n i => if h : n < N ∧ i < N then hA.eigenvectorBasis ⟨n, h.1⟩ ⟨i, h.2⟩ else 0, ?_, ?_, ?_⟩
    · intro n hn
      have h0 : 0 < N := by omega
      simp [hn, h0]
    · intro n hn i hi
      have h := congrFun (hA.mulVec_eigenvectorBasis ⟨n, hn⟩) ⟨i, hi⟩
      simp only [Matrix.mulVec, dotProduct, hA', Pi.smul_apply, smul_eq_mul] at h
      let u : ℕ → ℝ := fun l => if h : n < N ∧ l < N then hA.eigenvectorBasis ⟨n, h.1⟩ ⟨l, h.2⟩ else 0
      have hu : ∀ l (hl : l < N), u l = hA.eigenvectorBasis ⟨n, hn⟩ ⟨l, hl⟩ := fun l hl => dif_pos ⟨hn, hl⟩
      have hs : ∑ j : Fin N, (if i = (j : ℕ) then d i else if (j : ℕ) + 1 = i then e i else
          if i + 1 = (j : ℕ) then e j else 0) * u j = hA.eigenvalues ⟨n, hn⟩ * hA.eigenvectorBasis ⟨n, hn⟩ ⟨i, hi⟩ := (Finset.sum_congr rfl (fun j _ => by rw [hu j j.2])).trans h
      have h4 := (tri_sum N i hi d e u).symm.trans ((Finset.sum_range _).trans hs)
      rw [← hu i hi] at h4
      have e5 : (fun n => if hn : n < N then hA.eigenvalues ⟨n, hn⟩ else 0) n = hA.eigenvalues ⟨n, hn⟩ := dif_pos hn
      rw [e5]
      exact h4
    · intro n hn k hk
      have h := hA.eigenvectorBasis.orthonormal
      rw [orthonormal_iff_ite] at h
      have h := h ⟨k, hk⟩ ⟨n, hn⟩
      rw [PiLp.inner_apply] at h
      rw [Finset.sum_range]
      simp only [Fin.ext_iff] at h
      simpa [hn, hk, eq_comm] using h
  choose f hf using key
  exact ⟨fun N _ p => match p with | some (d, e) => f N d e | none => ⟨fun _ => none, fun _ => none⟩,
    fun N M d e => hf N d e⟩

/-- **C28.** With an eigenvalue routine that returns an orthonormal eigendecomposition, moments for which the
recursion meets no zero denominator and no negative off-diagonal square are reproduced by the quadrature: all `2N` of
them. -/
theorem C28_quadrature (eig : Eig) (he : eig.Correct) (M : List ℝ) (N : ℕ) (hN : 1 ≤ N) (hM : 2 * N ≤ M.length)
    (h0 : 0 < M.getD 0 0) (t : WhSt) (ht : whRun M N (N - 1) = some t) (hb : ∀ i, 1 ≤ i → i < N → 0 ≤ t.b i) :
    ∃ w x : ℕ → ℝ, (∀ n < N, (wheeler eig M N).1 n = some (w n) ∧ (wheeler eig M N).2 n = some (x n) ∧ 0 ≤ w n) ∧
      ∀ k < 2 * N, ∑ n ∈ Finset.range N, w n * x n ^ k = M.getD k 0 := by
  have hj : jacobi M N = some (t.a, fun i => -sqrt |t.b i|) := by simp [jacobi, ht]
  obtain ⟨x, V, h1, h2, h3⟩ := he N M t.a (fun i => -sqrt |t.b i|)
  refine ⟨fun n => V n 0 ^ 2 * M.getD 0 0, x, fun n hn => ?_, ?_⟩
  · simp only [wheeler, hj, (h1 n hn).1, (h1 n hn).2, Option.map_some, true_and]
    positivity
  · refine quad_moments (M := fun k => M.getD k 0) (by omega) (whRun_inv (by omega) ht).rel h0.ne' (fun i hi1 hi2 => ?_) h2 h3
    rw [neg_sq, sq_sqrt (abs_nonneg _), abs_of_nonneg (hb i hi1 hi2)]

end Soot
