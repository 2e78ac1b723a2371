import Verif.Props.MomicInterp
import Verif.Props.Qmom

/-!
# MOMIC: values of the fractional-moment arrays, grid functions and coagulation rates
-/

namespace Soot

open Res Real
open scoped Classical

/-! ## Fractional-moment arrays -/

theorem fillLoop_ok {n L : ℕ} (hn : n ≤ L) {f : ℕ → Res ℝ} {g : ℕ → ℝ} (h : ∀ k < n, f k = ok (g k)) :
    ∃ v, forLoop n (fun i v => do
      let x ← f i
      setIdx v i x) (List.replicate L (0 : ℝ)) = ok v ∧ v.length = L ∧
      (∀ i < n, v.getD i 0 = g i) ∧ ∀ i, n ≤ i → v.getD i 0 = 0 := by
  obtain ⟨v, h1, h2, h3, h4⟩ := forLoop_inv (n := n) (x := List.replicate L (0 : ℝ)) (f := fun i v => do
      let x ← f i
      setIdx v i x)
    (fun k v => v.length = L ∧ (∀ i < k, v.getD i 0 = g i) ∧ ∀ i, k ≤ i → v.getD i 0 = 0)
    ⟨by simp, by simp, fun i _ => by
      rw [List.getD_eq_getElem?_getD, List.getElem?_replicate]; split_ifs <;> rfl⟩ (by
    rintro k hk v ⟨hl, h1, h2⟩
    refine ⟨v.set k (g k), by rw [h k hk, ok_bind, setIdx, if_pos (by omega)], by simp [hl], fun i hi => ?_, fun i hi => ?_⟩
    · rcases (Nat.lt_succ_iff.mp hi).eq_or_lt with rfl | hlt
      · rw [List.getD_eq_getElem?_getD, List.getElem?_set_self (by omega)]; rfl
      · have := h1 i hlt
        rw [List.getD_eq_getElem?_getD] at this ⊢
        rw [List.getElem?_set_ne (by omega)]; exact this
    · have := h2 i (by omega)
      rw [List.getD_eq_getElem?_getD] at this ⊢
      rw [List.getElem?_set_ne (by omega)]; exact this)
  exact ⟨v, h1, h2, h3, h4⟩

/-- Even-sixth and odd-sixth fractional moments by array index. -/
noncomputable def pv (M : List ℝ) (N i : ℕ) : ℝ := mrVal M N ((2 * i - 4) / 6)
noncomputable def qv (M : List ℝ) (N i : ℕ) : ℝ := mrVal M N ((2 * i - 3) / 6)

/-- The contents of the arrays `Mp6` and `Mq6` after `set_fractional_moments_Mp6_Mq6`. -/
structure FracOf (M : List ℝ) (N : ℕ) (P Q : List ℝ) : Prop where
  plen : 3 * N + 1 ≤ P.length
  qlen : 3 * N + 9 ≤ Q.length
  pval : ∀ i < 3 * N + 1, P.getD i 0 = pv M N i
  qval : ∀ i < 3 * N + 9, Q.getD i 0 = qv M N i

theorem momicPQ_ok {M : List ℝ} {T : Tri} (h : TabOf M T) (h3 : 3 ≤ T.n) (h7 : T.n ≤ 7) :
    ∃ P Q, momicP T = ok P ∧ momicQ T = ok Q ∧ FracOf M T.n P Q := by
  have e1 : idx momicNp T.n = ok (3 * T.n + 1) := by generalize T.n = n at *; interval_cases n <;> rfl
  have e2 : idx momicNq T.n = ok (3 * T.n + 9) := by generalize T.n = n at *; interval_cases n <;> rfl
  obtain ⟨P, p1, p2, p3, _⟩ := fillLoop_ok (n := 3 * T.n + 1) (L := 22) (by omega)
    (f := fun i => momicMr T ((2 * i - 4) / 6)) (g := pv M T.n) (fun k _ => momicMr_ok h h3 _)
  obtain ⟨Q, q1, q2, q3, _⟩ := fillLoop_ok (n := 3 * T.n + 9) (L := 30) (by omega)
    (f := fun i => momicMr T ((2 * i - 3) / 6)) (g := qv M T.n) (fun k _ => momicMr_ok h h3 _)
  exact ⟨P, Q, by rw [momicP, e1, ok_bind]; exact p1, by rw [momicQ, e2, ok_bind]; exact q1, by omega, by omega, p3, q3⟩

theorem pv_nonneg (M : List ℝ) (N i : ℕ) : 0 ≤ pv M N i := mrVal_nonneg _ _ _
theorem qv_nonneg (M : List ℝ) (N i : ℕ) : 0 ≤ qv M N i := mrVal_nonneg _ _ _

/-- All transported moments are positive. -/
def AllPos (M : List ℝ) : Prop := ∀ x ∈ M, 0 < x

theorem AllPos.mr {M : List ℝ} {N : ℕ} (h : AllPos M) (hl : M.length = N) (h3 : 3 ≤ N) (r : ℝ) : 0 < mrVal M N r :=
  mrVal_pos fun k hk => by
    have : k < M.length := by unfold used at hk; split_ifs at hk <;> omega
    rw [getD_of_lt this]; exact h _ (List.getElem_mem _)

theorem mrVal_zero {M : List ℝ} {N : ℕ} (h : ¬ AllPos M) (hl : M.length = N) {r : ℝ} (hr : 0 ≤ r) : mrVal M N r = 0 := by
  rw [mrVal, if_neg]
  intro hx
  apply h
  intro x hx'
  obtain ⟨i, hi, rfl⟩ := List.getElem_of_mem hx'
  have := hx i (by rw [used, if_pos hr]; omega)
  rwa [getD_of_lt hi] at this

theorem qv_zero {M : List ℝ} {N : ℕ} (h : ¬ AllPos M) (hl : M.length = N) {i : ℕ} (hi : 2 ≤ i) : qv M N i = 0 :=
  mrVal_zero h hl (by have : (2 : ℝ) ≤ i := by exact_mod_cast hi
                      linarith)

theorem mrVal_nat {M : List ℝ} {N : ℕ} (h : AllPos M) (hl : M.length = N) {j : ℕ} (hj : j < N) :
    mrVal M N j = M.getD j 0 := by
  have hu : used N (j : ℝ) = N := by rw [used, if_pos (by positivity)]
  have hp : ∀ k < used N (j : ℝ), 0 < M.getD k 0 := fun k hk => by
    rw [hu] at hk; rw [getD_of_lt (by omega)]; exact h _ (List.getElem_mem _)
  rw [mrVal, if_pos hp, hu, newton_nat M hj, logM, rpow_logb (by norm_num) (by norm_num)]
  exact hp j (by rw [hu]; exact hj)

/-! ## Grid functions -/

/-- Value of a bilinear sum. -/
noncomputable def bilV (q : ℕ → ℝ) (xi yi : ℕ) (ts : List (ℝ × ℕ × ℕ)) : ℝ :=
  (ts.map fun t => t.1 * q (xi + t.2.1) * q (yi + t.2.2)).sum

theorem bilin_ok {Q : List ℝ} {q : ℕ → ℝ} {n xi yi : ℕ} (hl : n ≤ Q.length) (hq : ∀ i < n, Q.getD i 0 = q i)
    (ts : List (ℝ × ℕ × ℕ)) (h : ∀ t ∈ ts, xi + t.2.1 < n ∧ yi + t.2.2 < n) :
    bilin Q xi yi ts = ok (bilV q xi yi ts) := by
  induction ts with
  | nil => simp [bilin, bilV]
  | cons t ts ih =>
    obtain ⟨c, i, j⟩ := t
    obtain ⟨h1, h2⟩ := h (c, i, j) (by simp)
    simp only at h1 h2
    rw [bilin, idx_getD (by omega), ok_bind, idx_getD (by omega), ok_bind, ih fun t ht => h t (by simp [ht]), ok_bind,
      hq _ h1, hq _ h2]
    simp [bilV]

theorem bilV_nonneg {q : ℕ → ℝ} (hq : ∀ i, 0 ≤ q i) (xi yi : ℕ) {ts : List (ℝ × ℕ × ℕ)} (h : ∀ t ∈ ts, 0 ≤ t.1) :
    0 ≤ bilV q xi yi ts :=
  List.sum_nonneg fun x hx => by
    obtain ⟨t, ht, rfl⟩ := List.mem_map.mp hx
    exact mul_nonneg (mul_nonneg (h t ht) (hq _)) (hq _)

theorem bilV_pos {q : ℕ → ℝ} (hq : ∀ i, 0 < q i) (xi yi : ℕ) {ts : List (ℝ × ℕ × ℕ)} (h : ∀ t ∈ ts, 0 < t.1)
    (hne : ts ≠ []) : 0 < bilV q xi yi ts :=
  List.sum_pos _ (fun x hx => by
    obtain ⟨t, ht, rfl⟩ := List.mem_map.mp hx
    exact mul_pos (mul_pos (h t ht) (hq _)) (hq _)) (by simpa using hne)

/-- Grid point `f_l` of the pair `(x, y)`. -/
noncomputable def fPtV (q : ℕ → ℝ) (x y : ℕ) (l : Fin 4) : ℝ := bilV q (x * 3) (y * 3) (fFull l)

theorem fFull_pos (l : Fin 4) : (∀ t ∈ fFull l, 0 < t.1) ∧ fFull l ≠ [] := by
  fin_cases l <;> simp [fFull]

theorem fFull_range (l : Fin 4) : ∀ t ∈ fFull l, t.2.1 ≤ 3 * l + 2 ∧ t.2.2 ≤ 3 * l + 2 := by
  fin_cases l <;> simp [fFull]

theorem fSym_range (l : Fin 4) : ∀ t ∈ fSym l, t.2.1 ≤ 3 * l + 2 ∧ t.2.2 ≤ 3 * l + 2 := by
  fin_cases l <;> simp [fSym]

/-- The shortcut for equal arguments computes the general sum. -/
theorem fSym_full (q : ℕ → ℝ) (x : ℕ) (l : Fin 4) : 2 * bilV q x x (fSym l) = bilV q x x (fFull l) := by
  fin_cases l <;> simp [fFull, fSym, bilV] <;> ring

theorem fPt_ok {Q : List ℝ} {q : ℕ → ℝ} {n x y : ℕ} {l : Fin 4} (hl : n ≤ Q.length) (hq : ∀ i < n, Q.getD i 0 = q i)
    (hx : 3 * x + 3 * l + 2 < n) (hy : 3 * y + 3 * l + 2 < n) : fPt Q x y l = ok (fPtV q x y l) := by
  unfold fPt fPtV
  split_ifs with h
  · subst h
    rw [bilin_ok hl hq _ (fun t ht => by have := fSym_range l t ht; omega), ok_bind, fSym_full]
  · exact bilin_ok hl hq _ (fun t ht => by have := fFull_range l t ht; omega)

theorem fPtV_nonneg {q : ℕ → ℝ} (hq : ∀ i, 0 ≤ q i) (x y : ℕ) (l : Fin 4) : 0 ≤ fPtV q x y l :=
  bilV_nonneg hq _ _ fun t ht => ((fFull_pos l).1 t ht).le

theorem fPtV_pos {q : ℕ → ℝ} (hq : ∀ i, 0 < q i) (x y : ℕ) (l : Fin 4) : 0 < fPtV q x y l :=
  bilV_pos hq _ _ (fFull_pos l).1 (fFull_pos l).2

/-- Interpolation to the half point, in powers of the grid values. -/
noncomputable def gridV (y : ℕ) (v : Fin 4 → ℝ) : ℝ :=
  if y ≤ 2 then v 0 ^ (5 / 16 : ℝ) * v 1 ^ (15 / 16 : ℝ) * v 2 ^ (-5 / 16 : ℝ) * v 3 ^ (1 / 16 : ℝ)
  else if y ≤ 3 then v 0 ^ (3 / 8 : ℝ) * v 1 ^ (3 / 4 : ℝ) * v 2 ^ (-1 / 8 : ℝ)
  else v 0 ^ (1 / 2 : ℝ) * v 1 ^ (1 / 2 : ℝ)

/-- Number of grid points used by the interpolation. -/
def gridPts (y : ℕ) : ℕ := if y ≤ 2 then 4 else if y ≤ 3 then 3 else 2

theorem gridHalf_ok {y : ℕ} {f : Fin 4 → Res ℝ} {v : Fin 4 → ℝ} (h : ∀ l : Fin 4, l < gridPts y → f l = ok (v l))
    (h0 : ∀ l, 0 ≤ v l) : gridHalf y f = if y ≤ 3 ∧ v 2 = 0 then nonfin else ok (gridV y v) := by
  have e0 : f 0 = ok (v 0) := h 0 (by unfold gridPts; split_ifs <;> simp)
  have e1 : f 1 = ok (v 1) := h 1 (by unfold gridPts; split_ifs <;> simp)
  have c0 : ∀ x p : ℝ, 0 ≤ x → 0 ≤ p → cpow x p = ok (x ^ p) := fun x p hx hp => cpow_ok' hx hp
  rw [gridHalf, e0, ok_bind, e1, ok_bind]
  by_cases h2 : y ≤ 2
  · have e2 : f 2 = ok (v 2) := h 2 (by simp [gridPts, h2])
    have e3 : f 3 = ok (v 3) := h 3 (by simp [gridPts, h2])
    rw [if_pos h2, e2, ok_bind, e3, ok_bind, c0 _ _ (h0 0) (by norm_num), ok_bind, c0 _ _ (h0 1) (by norm_num), ok_bind]
    by_cases hz : v 2 = 0
    · rw [if_pos ⟨by omega, hz⟩, hz, cpow, if_neg (lt_irrefl _), if_pos ⟨rfl, by norm_num⟩]; rfl
    · rw [if_neg (by tauto), cpow_ok (lt_of_le_of_ne (h0 2) (Ne.symm hz)), ok_bind, c0 _ _ (h0 3) (by norm_num), ok_bind,
        gridV, if_pos h2]
  · by_cases h3 : y ≤ 3
    · have e2 : f 2 = ok (v 2) := h 2 (by simp [gridPts, h2, h3])
      rw [if_neg h2, if_pos h3, e2, ok_bind, c0 _ _ (h0 0) (by norm_num), ok_bind, c0 _ _ (h0 1) (by norm_num), ok_bind]
      by_cases hz : v 2 = 0
      · rw [if_pos ⟨by omega, hz⟩, hz, cpow, if_neg (lt_irrefl _), if_pos ⟨rfl, by norm_num⟩]; rfl
      · rw [if_neg (by tauto), cpow_ok (lt_of_le_of_ne (h0 2) (Ne.symm hz)), ok_bind, gridV, if_neg h2, if_pos h3]
    · rw [if_neg h2, if_neg h3, if_neg (by tauto), c0 _ _ (h0 0) (by norm_num), ok_bind, c0 _ _ (h0 1) (by norm_num),
        ok_bind, gridV, if_neg h2, if_neg h3]

theorem gridV_nonneg (y : ℕ) {v : Fin 4 → ℝ} (h0 : ∀ l, 0 ≤ v l) : 0 ≤ gridV y v := by
  have := h0 0; have := h0 1; have := h0 2; have := h0 3
  unfold gridV; split_ifs <;> positivity

theorem gridV_pos (y : ℕ) {v : Fin 4 → ℝ} (h0 : ∀ l, 0 < v l) : 0 < gridV y v := by
  have := h0 0; have := h0 1; have := h0 2; have := h0 3
  unfold gridV; split_ifs <;> positivity

/-- Collision grid function `f_{1/2}` of the pair `(x, y)`. -/
noncomputable def fV (q : ℕ → ℝ) (x y : ℕ) : ℝ := gridV y (fPtV q x y)

theorem fGrid_ok {M P Q : List ℝ} {N x y : ℕ} (h : FracOf M N P Q) (hxy : x + y < N) :
    fGrid Q x y = if y ≤ 3 ∧ fPtV (qv M N) x y 2 = 0 then nonfin else ok (fV (qv M N) x y) := by
  refine gridHalf_ok (fun l hl => fPt_ok (n := 3 * N + 9) h.qlen h.qval ?_ ?_)
    (fPtV_nonneg (qv_nonneg M N) x y)
  · unfold gridPts at hl; split_ifs at hl <;> omega
  · unfold gridPts at hl; split_ifs at hl <;> omega

theorem fV_nonneg {q : ℕ → ℝ} (hq : ∀ i, 0 ≤ q i) (x y : ℕ) : 0 ≤ fV q x y := gridV_nonneg y (fPtV_nonneg hq x y)
theorem fV_pos {q : ℕ → ℝ} (hq : ∀ i, 0 < q i) (x y : ℕ) : 0 < fV q x y := gridV_pos y (fPtV_pos hq x y)

/-! ## Dimer grid function -/

/-- Value of a sum over dimer powers. -/
noncomputable def dimV (q : ℕ → ℝ) (mD : ℝ) (yi : ℕ) (ts : List (ℝ × ℤ × ℕ)) : ℝ :=
  (ts.map fun t => t.1 * mD ^ ((t.2.1 : ℝ) / 6) * q (yi + t.2.2)).sum

theorem dimlin_ok {Q : List ℝ} {q : ℕ → ℝ} {n yi : ℕ} {mD : ℝ} (hD : 0 < mD) (hl : n ≤ Q.length)
    (hq : ∀ i < n, Q.getD i 0 = q i) (ts : List (ℝ × ℤ × ℕ)) (h : ∀ t ∈ ts, yi + t.2.2 < n) :
    dimlin Q mD yi ts = ok (dimV q mD yi ts) := by
  induction ts with
  | nil => simp [dimlin, dimV]
  | cons t ts ih =>
    obtain ⟨c, p, i⟩ := t
    have h1 := h (c, p, i) (by simp)
    simp only at h1
    rw [dimlin, cpow_ok hD, ok_bind, idx_getD (by omega), ok_bind, ih fun t ht => h t (by simp [ht]), ok_bind, hq _ h1]
    simp [dimV]

theorem gTerms_pos (l : Fin 4) : (∀ t ∈ gTerms l, 0 < t.1) ∧ gTerms l ≠ [] := by
  fin_cases l <;> simp [gTerms]

theorem gTerms_range (l : Fin 4) : ∀ t ∈ gTerms l, t.2.2 ≤ 3 * l + 2 := by
  fin_cases l <;> simp [gTerms]

/-- Grid point `g_l` for order `y`. -/
noncomputable def gPtV (q : ℕ → ℝ) (mD : ℝ) (y : ℕ) (l : Fin 4) : ℝ := dimV q mD ((y - 1) * 3) (gTerms l)

theorem gPtV_nonneg {q : ℕ → ℝ} (hq : ∀ i, 0 ≤ q i) {mD : ℝ} (hD : 0 ≤ mD) (y : ℕ) (l : Fin 4) : 0 ≤ gPtV q mD y l :=
  List.sum_nonneg fun x hx => by
    obtain ⟨t, ht, rfl⟩ := List.mem_map.mp hx
    have := (gTerms_pos l).1 t ht; have := hq ((y - 1) * 3 + t.2.2)
    positivity

theorem gPtV_pos {q : ℕ → ℝ} (hq : ∀ i, 0 < q i) {mD : ℝ} (hD : 0 < mD) (y : ℕ) (l : Fin 4) : 0 < gPtV q mD y l :=
  List.sum_pos _ (fun x hx => by
    obtain ⟨t, ht, rfl⟩ := List.mem_map.mp hx
    have := (gTerms_pos l).1 t ht; have := hq ((y - 1) * 3 + t.2.2)
    positivity) (by simpa using (gTerms_pos l).2)

/-- Dimer grid function `g_{1/2}` for order `y`. -/
noncomputable def gV (q : ℕ → ℝ) (mD : ℝ) (y : ℕ) : ℝ := gridV y (gPtV q mD y)

theorem gV_pos {q : ℕ → ℝ} (hq : ∀ i, 0 < q i) {mD : ℝ} (hD : 0 < mD) (y : ℕ) : 0 < gV q mD y :=
  gridV_pos y (gPtV_pos hq hD y)

theorem gGrid_ok {M P Q : List ℝ} {N y : ℕ} {mD : ℝ} (h : FracOf M N P Q) (h3 : 3 ≤ N) (hD : 0 < mD)
    (hy0 : 1 ≤ y) (hy : y < N) :
    gGrid Q mD y = if y ≤ 3 ∧ gPtV (qv M N) mD y 2 = 0 then nonfin else ok (gV (qv M N) mD y) := by
  rw [gGrid, if_neg (by omega)]
  refine gridHalf_ok (fun l hl => dimlin_ok hD (n := 3 * N + 9) h.qlen h.qval _ fun t ht => ?_)
    (gPtV_nonneg (qv_nonneg M N) hD.le y)
  have := gTerms_range l t ht
  unfold gridPts at hl; split_ifs at hl <;> omega

theorem gGrid_zero_dimer {Q : List ℝ} {y : ℕ} (hQ : 3 ≤ Q.length) (hy : y = 1) : gGrid Q 0 y = nonfin := by
  subst hy
  have e : cpow 0 (((-1 : ℤ) : ℝ) / 6) = nonfin := by norm_num [cpow]
  have e0 : cpow 0 (((1 : ℤ) : ℝ) / 6) = ok (0 ^ (((1 : ℤ) : ℝ) / 6)) := cpow_ok' le_rfl (by norm_num)
  rw [gGrid, if_neg (by norm_num), gridHalf]
  have : dimlin Q 0 ((1 - 1) * 3) (gTerms 0) = nonfin := by
    simp only [gTerms, dimlin, e, e0, ok_bind, nonfin_bind]
    rw [idx_getD (by omega)]; rfl
  rw [this]; rfl

/-! ## Continuum terms -/

/-- Bracket of the continuum dimer collision rate. -/
noncomputable def dimerCV (p : ℕ → ℝ) (mD Kcp : ℝ) : ℝ :=
  mD ^ (2 / 6 : ℝ) * p 1 + 2 * p 2 + mD ^ (-2 / 6 : ℝ) * p 3 +
    Kcp * (mD ^ (2 / 6 : ℝ) * p 0 + p 1 + mD ^ (-2 / 6 : ℝ) * p 2 + mD ^ (-4 / 6 : ℝ) * p 3)

theorem dimerC_ok {M P Q : List ℝ} {N : ℕ} {mD Kcp : ℝ} (h : FracOf M N P Q) (h3 : 3 ≤ N) (hD : 0 < mD) :
    dimerC P mD Kcp = ok (dimerCV (pv M N) mD Kcp) := by
  have hi : ∀ i < 4, idx P i = ok (pv M N i) := fun i hi => by
    rw [idx_getD (by have := h.plen; omega), h.pval i (by omega)]
  simp only [dimerC, cpow_ok hD, ok_bind, hi 0 (by omega), hi 1 (by omega), hi 2 (by omega), hi 3 (by omega)]
  rfl

theorem dimerCV_nonneg {p : ℕ → ℝ} (hp : ∀ i, 0 ≤ p i) {mD Kcp : ℝ} (hD : 0 ≤ mD) (hK : 0 ≤ Kcp) :
    0 ≤ dimerCV p mD Kcp := by
  have := hp 0; have := hp 1; have := hp 2; have := hp 3
  unfold dimerCV; positivity

theorem dimerCV_pos {p : ℕ → ℝ} (hp : ∀ i, 0 < p i) {mD Kcp : ℝ} (hD : 0 < mD) (hK : 0 ≤ Kcp) :
    0 < dimerCV p mD Kcp := by
  have := hp 0; have := hp 1; have := hp 2; have := hp 3
  unfold dimerCV; positivity

/-- Continuum pair term for the powers `k` and `q`. -/
noncomputable def pairV (p : ℕ → ℝ) (Kcp : ℝ) (k q : ℕ) : ℝ :=
  p (k * 3 + 1) * p (q * 3 + 3) + 2 * p (k * 3 + 2) * p (q * 3 + 2) + p (k * 3 + 3) * p (q * 3 + 1) +
    Kcp * (p (k * 3) * p (q * 3 + 3) + p (k * 3 + 1) * p (q * 3 + 2) + p (k * 3 + 2) * p (q * 3 + 1) +
      p (k * 3 + 3) * p (q * 3))

theorem pairC_ok {M P Q : List ℝ} {N k q : ℕ} {Kcp : ℝ} (h : FracOf M N P Q) (hk : k + 1 ≤ N)
    (hq : q + 1 ≤ N) : pairC P Kcp k q = ok (pairV (pv M N) Kcp k q) := by
  have hi : ∀ i < 3 * N + 1, idx P i = ok (pv M N i) := fun i hi => by
    rw [idx_getD (by have := h.plen; omega), h.pval i (by omega)]
  simp only [pairC, hi (k * 3 + 0) (by omega), hi (k * 3 + 1) (by omega), hi (k * 3 + 2) (by omega),
    hi (k * 3 + 3) (by omega), hi (q * 3 + 0) (by omega), hi (q * 3 + 1) (by omega), hi (q * 3 + 2) (by omega),
    hi (q * 3 + 3) (by omega), ok_bind]
  rfl

theorem pairV_nonneg {p : ℕ → ℝ} (hp : ∀ i, 0 ≤ p i) {Kcp : ℝ} (hK : 0 ≤ Kcp) (k q : ℕ) : 0 ≤ pairV p Kcp k q := by
  have := hp (k * 3); have := hp (k * 3 + 1); have := hp (k * 3 + 2); have := hp (k * 3 + 3)
  have := hp (q * 3); have := hp (q * 3 + 1); have := hp (q * 3 + 2); have := hp (q * 3 + 3)
  unfold pairV; positivity

theorem pairV_pos {p : ℕ → ℝ} (hp : ∀ i, 0 < p i) {Kcp : ℝ} (hK : 0 ≤ Kcp) (k q : ℕ) : 0 < pairV p Kcp k q := by
  have := hp (k * 3); have := hp (k * 3 + 1); have := hp (k * 3 + 2); have := hp (k * 3 + 3)
  have := hp (q * 3); have := hp (q * 3 + 1); have := hp (q * 3 + 2); have := hp (q * 3 + 3)
  unfold pairV; positivity

/-! ## Coagulation rates -/

/-- Free-molecular coagulation source of moment `r`. -/
noncomputable def fmCoagV (Kfm : ℝ) (q : ℕ → ℝ) (r : ℕ) : ℝ :=
  if r = 0 then -(Kfm / 2 * fV q 0 0)
  else Kfm / 2 * ∑ k ∈ Finset.range (r - 1), (r.choose (k + 1) : ℝ) * fV q (k + 1) (r - (k + 1))

/-- Continuum coagulation source of moment `r`, as the code computes it: only `k = r - 1` is kept. -/
noncomputable def cCoagV (Kc Kcp : ℝ) (p : ℕ → ℝ) (r : ℕ) : ℝ :=
  if r = 0 then -(Kc / 2 * pairV p Kcp 0 0)
  else if r = 1 then 0 else Kc / 2 * (r * pairV p Kcp (r - 1) 1)

theorem lastLoop_ok {n : ℕ} {f : ℕ → Res ℝ} {g : ℕ → ℝ} (h : ∀ k < n, f k = ok (g k)) (x : ℝ) :
    forLoop n (fun k _ => f k) x = ok (if n = 0 then x else g (n - 1)) := by
  induction n with
  | zero => rfl
  | succ n ih =>
    rw [forLoop, ih fun k hk => h k (by omega), ok_bind, h n (by omega)]; simp

theorem momicC_ok {M P Q : List ℝ} {N : ℕ} (c : Coag) {s : State} (hs : s.Phys) (h : FracOf M N P Q) (h8 : N ≤ 8)
    (h3 : 3 ≤ N) :
    momicC c s N P = ok fun r => if r < N then cCoagV (kcVal s) (kcpVal s) (pv M N) r else 0 := by
  have hi : ∀ i < 4, idx P i = ok (pv M N i) := fun i hi => by
    rw [idx_getD (by have := h.plen; omega), h.pval i (by omega)]
  rw [momicC, c.kc_ok hs, ok_bind, c.kcp_ok hs, ok_bind]
  refine tabLoop_ok fun r hr => ?_
  by_cases h1 : r = 1
  · subst h1; simp [cCoagV]
  rw [if_neg h1]
  by_cases h0 : r = 0
  · subst h0
    simp only [if_true, hi 0 (by omega), hi 1 (by omega), hi 2 (by omega), hi 3 (by omega), ok_bind, cCoagV, pairV]
    congr 1; norm_num; ring
  · rw [if_neg h0, lastLoop_ok (g := fun k => (r.choose (k + 1) : ℕ) * pairV (pv M N) (kcpVal s) (k + 1) (r - (k + 1)))
      (fun k hk => by
        rw [binom_ok (by omega) (by omega), ok_bind, pairC_ok h (by omega) (by omega), ok_bind]), ok_bind,
      if_neg (by omega), cCoagV, if_neg h0, if_neg h1]
    obtain ⟨t, rfl⟩ : ∃ t, r = t + 2 := ⟨r - 2, by omega⟩
    have e1 : t + 2 - 1 - 1 + 1 = t + 1 := by omega
    have e2 : t + 2 - (t + 2 - 1 - 1 + 1) = 1 := by omega
    simp only [e1, e2]
    have e3 : (t + 2).choose (t + 1) = t + 2 := by rw [Nat.choose_succ_self_right]
    have e4 : t + 2 - 1 = t + 1 := by omega
    rw [e3, e4, show t + 2 - (t + 1) = 1 by omega]
    congr 1; ring

theorem momicFM_ok {M P Q : List ℝ} {N : ℕ} (c : Coag) {s : State} (hs : s.Phys) (h : FracOf M N P Q) (h8 : N ≤ 8)
    (hpos : ∀ x y, x + y < N → 0 < fPtV (qv M N) x y 2) :
    momicFM c s N Q = ok fun r => if r < N then fmCoagV (c.kfmVal s) (qv M N) r else 0 := by
  rw [momicFM, c.kfm_ok hs, ok_bind]
  refine tabLoop_ok fun r hr => ?_
  have hg : ∀ x y, x + y < N → fGrid Q x y = ok (fV (qv M N) x y) := fun x y hxy => by
    rw [fGrid_ok h hxy, if_neg]
    rintro ⟨_, hz⟩
    exact (hpos x y hxy).ne' hz
  by_cases h1 : r = 1
  · subst h1; simp [fmCoagV]
  rw [if_neg h1]
  by_cases h0 : r = 0
  · subst h0
    simp only [if_true, hg 0 0 (by omega), ok_bind, fmCoagV]
    rw [show (-0.5 : ℝ) = -(1 / 2) by norm_num]
    congr 1; ring
  · rw [if_neg h0, sumLoop_ok (g := fun k => (r.choose (k + 1) : ℕ) * fV (qv M N) (k + 1) (r - (k + 1)))
      (fun k hk => by
        rw [binom_ok (by omega) (by omega), ok_bind, hg _ _ (by omega), ok_bind]), ok_bind, fmCoagV, if_neg h0]
    congr 1; ring

theorem fmCoagV_zero_nonpos {q : ℕ → ℝ} (hq : ∀ i, 0 ≤ q i) {K : ℝ} (hK : 0 ≤ K) : fmCoagV K q 0 ≤ 0 := by
  have := fV_nonneg hq 0 0
  rw [fmCoagV, if_pos rfl]
  have : 0 ≤ K / 2 * fV q 0 0 := by positivity
  linarith

theorem fmCoagV_nonneg {q : ℕ → ℝ} (hq : ∀ i, 0 ≤ q i) {K : ℝ} (hK : 0 ≤ K) {r : ℕ} (hr : r ≠ 0) : 0 ≤ fmCoagV K q r := by
  rw [fmCoagV, if_neg hr]
  refine mul_nonneg (by positivity) (Finset.sum_nonneg fun k _ => mul_nonneg (by positivity) (fV_nonneg hq _ _))

theorem fmCoagV_pos {q : ℕ → ℝ} (hq : ∀ i, 0 < q i) {K : ℝ} (hK : 0 < K) {r : ℕ} (hr : 2 ≤ r) : 0 < fmCoagV K q r := by
  rw [fmCoagV, if_neg (by omega)]
  refine mul_pos (by positivity) (Finset.sum_pos (fun k hk => mul_pos ?_ (fV_pos hq _ _)) ⟨0, by simp; omega⟩)
  rw [Finset.mem_range] at hk
  exact_mod_cast Nat.choose_pos (by omega)

theorem cCoagV_zero_nonpos {p : ℕ → ℝ} (hp : ∀ i, 0 ≤ p i) {K Kcp : ℝ} (hK : 0 ≤ K) (hc : 0 ≤ Kcp) : cCoagV K Kcp p 0 ≤ 0 := by
  have := pairV_nonneg hp hc 0 0
  rw [cCoagV, if_pos rfl]
  have : 0 ≤ K / 2 * pairV p Kcp 0 0 := by positivity
  linarith

theorem cCoagV_nonneg {p : ℕ → ℝ} (hp : ∀ i, 0 ≤ p i) {K Kcp : ℝ} (hK : 0 ≤ K) (hc : 0 ≤ Kcp) {r : ℕ} (hr : r ≠ 0) :
    0 ≤ cCoagV K Kcp p r := by
  rw [cCoagV, if_neg hr]
  have := pairV_nonneg hp hc (r - 1) 1
  split_ifs
  · exact le_rfl
  · positivity

theorem cCoagV_pos {p : ℕ → ℝ} (hp : ∀ i, 0 < p i) {K Kcp : ℝ} (hK : 0 < K) (hc : 0 ≤ Kcp) {r : ℕ} (hr : 2 ≤ r) :
    0 < cCoagV K Kcp p r := by
  rw [cCoagV, if_neg (by omega), if_neg (by omega)]
  have := pairV_pos hp hc (r - 1) 1
  have : (0 : ℝ) < r := by exact_mod_cast (show 0 < r by omega)
  positivity

end Soot
