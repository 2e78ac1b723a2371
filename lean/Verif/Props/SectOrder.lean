import Verif.Props.SectEq
import Verif.Props.Coag
import Mathlib.Analysis.Convex.SpecificFunctions.Basic
import Mathlib.Analysis.Convex.SpecificFunctions.Pow
import Mathlib.Analysis.Convex.Deriv

/-!
# C95: every process moves the sectional distribution the right way

A weight `φ` gives a total `∑ φ(b_k) N_k` of the distribution: `1` the number, the mass itself the mass, the area the surface.  Merging two
particles lowers every total with a concave weight (number, surface) and raises every total with a convex weight that starts at or below zero
(second and higher moments).  Growth and condensation raise, oxidation lowers every total with an increasing weight.
-/

namespace Soot

open Res Real Set
open scoped Classical

/-- Total of the distribution (or of its sources) `S` over `n` bins of masses `b` with the weight `φ`. -/
noncomputable def total (n : ℕ) (b : ℕ → ℝ) (φ : ℝ → ℝ) (S : ℕ → ℝ) : ℝ := ∑ k ∈ Finset.range n, φ (b k) * S k

/-! ## Concave weights -/

theorem concave_ratio {φ : ℝ → ℝ} (hc : ConcaveOn ℝ (Ici 0) φ) (h0 : 0 ≤ φ 0) {x y : ℝ} (hx : 0 < x) (hxy : x ≤ y) : φ y * x ≤ φ x * y := by
  have hy : 0 < y := hx.trans_le hxy
  have h := hc.2 (show (0:ℝ) ∈ Ici 0 by simp) (show y ∈ Ici (0:ℝ) from hy.le) (show 0 ≤ 1 - x / y by
    rw [sub_nonneg, div_le_one hy]; exact hxy) (show 0 ≤ x / y by positivity) (by ring)
  simp only [smul_eq_mul, mul_zero, zero_add] at h
  rw [div_mul_cancel₀ _ hy.ne'] at h
  have h1 : 0 ≤ (1 - x / y) * φ 0 := mul_nonneg (by rw [sub_nonneg, div_le_one hy]; exact hxy) h0
  have h2 : x / y * φ y ≤ φ x := by linarith
  calc φ y * x = (x / y * φ y) * y := by field_simp
    _ ≤ φ x * y := mul_le_mul_of_nonneg_right h2 hy.le

theorem concave_subadd {φ : ℝ → ℝ} (hc : ConcaveOn ℝ (Ici 0) φ) (h0 : 0 ≤ φ 0) {x y : ℝ} (hx : 0 < x) (hy : 0 < y) : φ (x + y) ≤ φ x + φ y := by
  have h1 := concave_ratio hc h0 hx (show x ≤ x + y by linarith)
  have h2 := concave_ratio hc h0 hy (show y ≤ x + y by linarith)
  have : φ (x + y) * (x + y) ≤ (φ x + φ y) * (x + y) := by nlinarith
  exact le_of_mul_le_mul_right this (by linarith)

/-- Bin of a mass between the first and the last bin. -/
theorem exists_bin {n : ℕ} {b : ℕ → ℝ} {M : ℝ} (h0 : b 0 ≤ M) (hn : M < b (n - 1)) : ∃ l, l + 1 < n ∧ b l ≤ M ∧ M < b (l + 1) := by
  by_contra hne
  push Not at hne
  have : ∀ k, k ≤ n - 1 → b k ≤ M := by
    intro k hk
    induction k with
    | zero => exact h0
    | succ k ih => exact hne k (by omega) (ih (by omega))
  exact absurd (this (n - 1) le_rfl) (not_le.2 hn)

/-- What arrives when two particles merge weighs no more than the two, for every concave weight. -/
theorem share_concave {n : ℕ} {b : ℕ → ℝ} (hn : 2 ≤ n) (hp : ∀ k < n, 0 < b k) (hb : ∀ k, k + 1 < n → b k < b (k + 1)) {φ : ℝ → ℝ}
    (hc : ConcaveOn ℝ (Ici 0) φ) (h0 : 0 ≤ φ 0) {i j : ℕ} (hi : i < n) (hj : j < n) :
    total n b φ (fun k => SectDoc.share n b k (b i + b j)) ≤ φ (b i) + φ (b j) := by
  have mono : ∀ i j, i ≤ j → j < n → b i ≤ b j := by
    intro i j hij hj
    induction j, hij using Nat.le_induction with
    | base => exact le_rfl
    | succ j hij ih => exact (ih (by omega)).trans (hb j hj).le
  have pi := hp i hi
  have pj := hp j hj
  unfold total
  beta_reduce
  by_cases ht : b (n - 1) ≤ b i + b j
  · rw [Finset.sum_congr rfl fun k hk => by rw [SectDoc.share_top hb hn ht k (Finset.mem_range.1 hk)]]
    simp only [mul_ite, mul_zero]
    rw [Finset.sum_ite_eq' (Finset.range n) (n - 1), if_pos (Finset.mem_range.2 (by omega))]
    have pt := hp (n - 1) (by omega)
    have r1 := concave_ratio hc h0 pi (mono i (n - 1) (by omega) (by omega))
    have r2 := concave_ratio hc h0 pj (mono j (n - 1) (by omega) (by omega))
    rw [← mul_div_assoc, div_le_iff₀ pt]
    linarith
  · obtain ⟨l, hl, h1, h2⟩ := exists_bin (n := n) (b := b) (M := b i + b j) (by linarith [mono 0 i (Nat.zero_le _) hi]) (not_le.1 ht)
    rw [Finset.sum_congr rfl fun k hk => by rw [SectDoc.share_sums (hp 0 (by omega)) hb hl h1 h2 k (Finset.mem_range.1 hk)]]
    have e : ∀ k, φ (b k) * (if k = l then (b (l + 1) - (b i + b j)) / (b (l + 1) - b l) else if k = l + 1 then (b i + b j - b l) / (b (l + 1) - b l)
        else 0) = (if k = l then φ (b l) * ((b (l + 1) - (b i + b j)) / (b (l + 1) - b l)) else 0) +
        (if k = l + 1 then φ (b (l + 1)) * ((b i + b j - b l) / (b (l + 1) - b l)) else 0) := by
      intro k
      by_cases a : k = l
      · subst a; simp
      · by_cases c : k = l + 1
        · subst c; simp
        · simp [a, c]
    rw [Finset.sum_congr rfl fun k _ => e k, Finset.sum_add_distrib, Finset.sum_ite_eq', Finset.sum_ite_eq',
      if_pos (Finset.mem_range.2 (by omega)), if_pos (Finset.mem_range.2 hl)]
    have hd : 0 < b (l + 1) - b l := by linarith [hb l hl]
    have pl := hp l (by omega)
    have pl' := hp (l + 1) hl
    have key := hc.2 (show b l ∈ Ici (0:ℝ) from pl.le) (show b (l + 1) ∈ Ici (0:ℝ) from pl'.le)
      (show 0 ≤ (b (l + 1) - (b i + b j)) / (b (l + 1) - b l) from div_nonneg (by linarith) hd.le)
      (show 0 ≤ (b i + b j - b l) / (b (l + 1) - b l) from div_nonneg (by linarith) hd.le)
      (by rw [← add_div]; rw [show b (l + 1) - (b i + b j) + (b i + b j - b l) = b (l + 1) - b l by ring]; exact div_self hd.ne')
    simp only [smul_eq_mul] at key
    have em : (b (l + 1) - (b i + b j)) / (b (l + 1) - b l) * b l + (b i + b j - b l) / (b (l + 1) - b l) * b (l + 1) = b i + b j := by
      field_simp; ring
    rw [em] at key
    have := concave_subadd hc h0 pi pj
    linarith

/-- Coagulation of the documented equations under a weight: one collision sum. -/
theorem total_coag {n : ℕ} {b : ℕ → ℝ} {β : ℝ → ℝ → ℝ} (hs : ∀ x y, β x y = β y x) (N : ℕ → ℝ) (φ : ℝ → ℝ) :
    total n b φ (SectDoc.coag n b β N) = 1 / 2 * ∑ i ∈ Finset.range n, ∑ j ∈ Finset.range n, β (b i) (b j) * N i * N j *
      (total n b φ (fun k => SectDoc.share n b k (b i + b j)) - φ (b i) - φ (b j)) := by
  have e1 : ∑ k ∈ Finset.range n, φ (b k) * (1 / 2 * ∑ i ∈ Finset.range n, ∑ j ∈ Finset.range n, β (b i) (b j) * N i * N j *
      SectDoc.share n b k (b i + b j)) = 1 / 2 * ∑ i ∈ Finset.range n, ∑ j ∈ Finset.range n, β (b i) (b j) * N i * N j *
      total n b φ (fun k => SectDoc.share n b k (b i + b j)) := by
    simp only [total, Finset.mul_sum]
    rw [Finset.sum_comm]
    refine Finset.sum_congr rfl fun i _ => ?_
    rw [Finset.sum_comm]
    refine Finset.sum_congr rfl fun j _ => Finset.sum_congr rfl fun k _ => by ring
  have e2 : ∑ i ∈ Finset.range n, ∑ j ∈ Finset.range n, β (b i) (b j) * N i * N j * φ (b j) =
      ∑ i ∈ Finset.range n, ∑ j ∈ Finset.range n, β (b i) (b j) * N i * N j * φ (b i) := by
    rw [Finset.sum_comm]
    exact Finset.sum_congr rfl fun i _ => Finset.sum_congr rfl fun j _ => by rw [hs]; ring
  have e3 : ∑ k ∈ Finset.range n, φ (b k) * (N k * ∑ j ∈ Finset.range n, β (b k) (b j) * N j) =
      ∑ i ∈ Finset.range n, ∑ j ∈ Finset.range n, β (b i) (b j) * N i * N j * φ (b i) := by
    refine Finset.sum_congr rfl fun k _ => ?_
    rw [Finset.mul_sum, Finset.mul_sum]
    exact Finset.sum_congr rfl fun j _ => by ring
  have e4 : ∑ i ∈ Finset.range n, ∑ j ∈ Finset.range n, β (b i) (b j) * N i * N j *
      (total n b φ (fun k => SectDoc.share n b k (b i + b j)) - φ (b i) - φ (b j)) =
      ∑ i ∈ Finset.range n, ∑ j ∈ Finset.range n, β (b i) (b j) * N i * N j * total n b φ (fun k => SectDoc.share n b k (b i + b j)) -
      ∑ i ∈ Finset.range n, ∑ j ∈ Finset.range n, β (b i) (b j) * N i * N j * φ (b i) -
      ∑ i ∈ Finset.range n, ∑ j ∈ Finset.range n, β (b i) (b j) * N i * N j * φ (b j) := by
    simp only [← Finset.sum_sub_distrib]
    exact Finset.sum_congr rfl fun i _ => Finset.sum_congr rfl fun j _ => by ring
  rw [e4, e2, total]
  simp only [SectDoc.coag, mul_sub, Finset.sum_sub_distrib]
  rw [e1, e3]
  ring

theorem coag_concave {n : ℕ} {b N : ℕ → ℝ} {β : ℝ → ℝ → ℝ} (hn : 2 ≤ n) (hp : ∀ k < n, 0 < b k) (hb : ∀ k, k + 1 < n → b k < b (k + 1))
    (hs : ∀ x y, β x y = β y x) (hβ : ∀ x y, 0 ≤ β x y) (hN : ∀ k < n, 0 ≤ N k) {φ : ℝ → ℝ} (hc : ConcaveOn ℝ (Ici 0) φ) (h0 : 0 ≤ φ 0) :
    total n b φ (SectDoc.coag n b β N) ≤ 0 := by
  rw [total_coag hs]
  have : ∑ i ∈ Finset.range n, ∑ j ∈ Finset.range n, β (b i) (b j) * N i * N j *
      (total n b φ (fun k => SectDoc.share n b k (b i + b j)) - φ (b i) - φ (b j)) ≤ 0 :=
    Finset.sum_nonpos fun i hi => Finset.sum_nonpos fun j hj => by
      have hi := Finset.mem_range.1 hi
      have hj := Finset.mem_range.1 hj
      exact mul_nonpos_of_nonneg_of_nonpos (mul_nonneg (mul_nonneg (hβ _ _) (hN i hi)) (hN j hj))
        (by linarith [share_concave hn hp hb hc h0 hi hj])
  linarith

theorem total_neg (n : ℕ) (b : ℕ → ℝ) (φ : ℝ → ℝ) (S : ℕ → ℝ) : total n b (fun x => - φ x) S = - total n b φ S := by
  simp [total, Finset.sum_neg_distrib]

theorem coag_convex {n : ℕ} {b N : ℕ → ℝ} {β : ℝ → ℝ → ℝ} (hn : 2 ≤ n) (hp : ∀ k < n, 0 < b k) (hb : ∀ k, k + 1 < n → b k < b (k + 1))
    (hs : ∀ x y, β x y = β y x) (hβ : ∀ x y, 0 ≤ β x y) (hN : ∀ k < n, 0 ≤ N k) {φ : ℝ → ℝ} (hc : ConvexOn ℝ (Ici 0) φ) (h0 : φ 0 ≤ 0) :
    0 ≤ total n b φ (SectDoc.coag n b β N) := by
  have := coag_concave hn hp hb hs hβ hN (φ := fun x => - φ x) hc.neg (by linarith)
  rw [total_neg] at this
  linarith

/-! ## Growth and oxidation -/

/-- Growth under a weight: every particle gains the slope of the weight to the next bin; in the last bin the weight per mass. -/
theorem total_growth {n : ℕ} (b g : ℕ → ℝ) (φ : ℝ → ℝ) :
    total n b φ (SectDoc.growth n b g) =
      ∑ k ∈ Finset.range n, g k * (if k + 1 < n then (φ (b (k + 1)) - φ (b k)) / (b (k + 1) - b k) else φ (b k) / b k) := by
  have key : ∀ n', n' ≤ n → ∑ k ∈ Finset.range n', φ (b k) * (if 0 < k then g (k - 1) / (b k - b (k - 1)) else 0) =
      ∑ k ∈ Finset.range (n' - 1), g k * (φ (b (k + 1)) / (b (k + 1) - b k)) := by
    intro n' _
    cases n' with
    | zero => simp
    | succ n' =>
      rw [Finset.sum_range_succ', Nat.add_sub_cancel]
      simp only [Nat.succ_pos, if_true, Nat.add_sub_cancel, lt_irrefl, if_false, mul_zero, add_zero]
      exact Finset.sum_congr rfl fun k _ => by ring
  unfold total SectDoc.growth
  simp only [mul_add, Finset.sum_add_distrib]
  rw [key n le_rfl]
  cases n with
  | zero => simp
  | succ n =>
    rw [Nat.add_sub_cancel, Finset.sum_range_succ, Finset.sum_range_succ (fun k => g k * _), if_neg (by omega), if_neg (by omega)]
    rw [← add_assoc, ← Finset.sum_add_distrib]
    congr 1
    · refine Finset.sum_congr rfl fun k hk => ?_
      have hk := Finset.mem_range.1 hk
      rw [if_pos (by omega), if_pos (by omega)]; ring
    · ring

/-- Oxidation under a weight: every particle loses the slope of the weight to the bin below; in the first bin the weight per mass. -/
theorem total_oxidation {n : ℕ} (b g : ℕ → ℝ) (φ : ℝ → ℝ) :
    total n b φ (SectDoc.oxidation n b g) =
      - ∑ k ∈ Finset.range n, g k * (if 0 < k then (φ (b k) - φ (b (k - 1))) / (b k - b (k - 1)) else φ (b k) / b k) := by
  unfold total SectDoc.oxidation
  simp only [mul_sub, Finset.sum_sub_distrib]
  cases n with
  | zero => simp
  | succ n =>
    rw [Finset.sum_range_succ, if_neg (by omega), mul_zero, add_zero, Finset.sum_range_succ' (fun k => φ (b k) * _),
      Finset.sum_range_succ' (fun k => g k * _)]
    simp only [Nat.succ_pos, if_true, Nat.add_sub_cancel, lt_irrefl, if_false]
    rw [← sub_sub, ← Finset.sum_sub_distrib, neg_add, ← sub_eq_add_neg, ← Finset.sum_neg_distrib]
    congr 1
    · refine Finset.sum_congr rfl fun k hk => ?_
      have hk := Finset.mem_range.1 hk
      rw [if_pos (by omega)]; ring
    · ring

theorem growth_up {n : ℕ} {b g : ℕ → ℝ} (hp : ∀ k < n, 0 < b k) (hb : ∀ k, k + 1 < n → b k < b (k + 1)) (hg : ∀ k < n, 0 ≤ g k) {φ : ℝ → ℝ}
    (hm : MonotoneOn φ (Ici 0)) (h0 : 0 ≤ φ 0) : 0 ≤ total n b φ (SectDoc.growth n b g) := by
  rw [total_growth]
  refine Finset.sum_nonneg fun k hk => ?_
  have hk := Finset.mem_range.1 hk
  refine mul_nonneg (hg k hk) ?_
  by_cases h : k + 1 < n
  · rw [if_pos h]
    exact div_nonneg (sub_nonneg.2 (hm (hp k hk).le (hp _ h).le (hb k h).le)) (by linarith [hb k h])
  · rw [if_neg h]
    exact div_nonneg (h0.trans (hm (by simp) (hp k hk).le (hp k hk).le)) (hp k hk).le

theorem oxidation_down {n : ℕ} {b g : ℕ → ℝ} (hp : ∀ k < n, 0 < b k) (hb : ∀ k, k + 1 < n → b k < b (k + 1)) (hg : ∀ k < n, 0 ≤ g k) {φ : ℝ → ℝ}
    (hm : MonotoneOn φ (Ici 0)) (h0 : 0 ≤ φ 0) : total n b φ (SectDoc.oxidation n b g) ≤ 0 := by
  rw [total_oxidation, neg_nonpos]
  refine Finset.sum_nonneg fun k hk => ?_
  have hk := Finset.mem_range.1 hk
  refine mul_nonneg (hg k hk) ?_
  by_cases h : 0 < k
  · rw [if_pos h]
    have hb' := hb (k - 1) (by omega)
    rw [show k - 1 + 1 = k by omega] at hb'
    exact div_nonneg (sub_nonneg.2 (hm (hp (k - 1) (by omega)).le (hp k hk).le hb'.le)) (by linarith)
  · rw [if_neg h]
    exact div_nonneg (h0.trans (hm (by simp) (hp k hk).le (hp k hk).le)) (hp k hk).le

/-! ## C95 -/

/-- **C95 (SECT).** The sources are nucleation, growth, condensation, oxidation and coagulation as documented (C70), and for every weight:
coagulation lowers concave totals and raises convex ones, nucleation, growth and condensation raise and oxidation lowers increasing ones. -/
theorem C95_sect (m : Model) (s : State) (glob : Option ℝ) (h : SectReady m s) (hg : GeoBins m) (hgl : OwnFactor m glob) :
    ∃ m' s' glob' J n' kG kO, ∃ (β : ℝ → ℝ → ℝ) (mD nD : ℝ) (nuc gro con oxi coa : ℕ → ℝ),
      sectSources m glob s = ok (m', s', glob') ∧ m.nucl.rate (sectIbeta m) s = ok (J, n', s') ∧
      m.grow.rate m.ctx s' = ok kG ∧ m.oxid.rate m.ctx s' = ok kO ∧ (∀ a b, m.coag.rate s' a b = ok (β a b)) ∧
      (if n'.mech = .PAH then mD = n'.dimer.mDimer ∧ nD = n'.dimer.nDimer else mD = 0 ∧ nD = 0) ∧
      (let b := fun k => m.mBins.getD k 0
       let N := fun k => s.sootVar.getD k 0
       (nuc = fun k => if k = 0 then J * (s'.cMin * (gasMW .C / Na)) / b 0 else 0) ∧
       gro = SectDoc.growth m.nsoot b (fun k => kG * SectDoc.area (b k) * N k) ∧
       con = SectDoc.growth m.nsoot b (fun k => β mD (b k) * N k * nD * mD) ∧
       oxi = SectDoc.oxidation m.nsoot b (fun k => kO * SectDoc.area (b k) * N k) ∧ coa = SectDoc.coag m.nsoot b β N) ∧
      (∀ k < m.nsoot, m'.sources.soot.getD k 0 = nuc k + gro k + con k + oxi k + coa k) ∧
      ∀ φ : ℝ → ℝ, let T := total m.nsoot (fun k => m.mBins.getD k 0) φ
        (ConcaveOn ℝ (Ici 0) φ → 0 ≤ φ 0 → T coa ≤ 0) ∧ (ConvexOn ℝ (Ici 0) φ → φ 0 ≤ 0 → 0 ≤ T coa) ∧
        (MonotoneOn φ (Ici 0) → 0 ≤ φ 0 → 0 ≤ T nuc ∧ 0 ≤ T gro ∧ 0 ≤ T con ∧ T oxi ≤ 0) ∧
        T (fun k => m'.sources.soot.getD k 0) = T nuc + T gro + T con + T oxi + T coa := by
  obtain ⟨m', s', glob', J, n', kG, kO, β, mD, nD, h1, _, h2, _, h3, h4, h5, h6, ⟨hJ, hc, hG, hO, hmD, hnD, hβ⟩, _, h7⟩ := C70_sect_equations m s glob h hg hgl
  have hN : ∀ k, 0 ≤ s.sootVar.getD k 0 := fun k => getD_nonneg h.gas.acc.sootVar_nonneg k
  have hp : ∀ k < m.nsoot, 0 < (fun k => m.mBins.getD k 0) k := fun k hk => h.bins.pos hk
  have hb : ∀ k, k + 1 < m.nsoot → (fun k => m.mBins.getD k 0) k < (fun k => m.mBins.getD k 0) (k + 1) := fun k hk => h.bins.mono k hk
  have hA : ∀ k < m.nsoot, 0 ≤ SectDoc.area (m.mBins.getD k 0) := fun k hk => SectDoc.area_nonneg (hp k hk).le
  have hs : ∀ x y, β x y = β y x := fun x y => by
    have := (h5 x y).symm.trans ((C12_kernel_symmetric m.coag s' x y).trans (h5 y x))
    simpa using this
  have hm2 : 2 ≤ m.nsoot := h.bins.two
  refine ⟨m', s', glob', J, n', kG, kO, β, mD, nD, _, _, _, _, _, h1, h2, h3, h4, h5, h6, ⟨rfl, rfl, rfl, rfl, rfl⟩, h7, fun φ => ⟨?_, ?_, ?_, ?_⟩⟩
  · exact fun hc h0 => coag_concave hm2 hp hb hs hβ (fun k _ => hN k) hc h0
  · exact fun hc h0 => coag_convex hm2 hp hb hs hβ (fun k _ => hN k) hc h0
  · intro hm h0
    refine ⟨?_, growth_up hp hb (fun k hk => mul_nonneg (mul_nonneg hG (hA k hk)) (hN k)) hm h0,
      growth_up hp hb (fun k hk => mul_nonneg (mul_nonneg (mul_nonneg (hβ _ _) (hN k)) hnD) hmD) hm h0,
      oxidation_down hp hb (fun k hk => mul_nonneg (mul_nonneg hO (hA k hk)) (hN k)) hm h0⟩
    refine Finset.sum_nonneg fun k hk => mul_nonneg (h0.trans (hm (by simp) (hp k (Finset.mem_range.1 hk)).le (hp k (Finset.mem_range.1 hk)).le)) ?_
    beta_reduce
    by_cases hk0 : k = 0
    · rw [if_pos hk0]
      have := Na_pos; have := gasMW_pos .C
      exact div_nonneg (mul_nonneg hJ (by positivity)) (hp 0 (by omega)).le
    · rw [if_neg hk0]
  · simp only [total, ← Finset.sum_add_distrib]
    refine Finset.sum_congr rfl fun k hk => ?_
    rw [h7 k (Finset.mem_range.1 hk), SectDoc.source]
    ring

/-- The surface of a sphere is a concave weight of its mass. -/
theorem area_concave : ConcaveOn ℝ (Ici 0) SectDoc.area := by
  have hr := rhoSoot_pos
  have h := (Real.concaveOn_rpow (p := 2 / 3) (by norm_num) (by norm_num)).smul (c := π * (6 / (π * rhoSoot)) ^ ((2 : ℝ) / 3)) (by positivity)
  refine h.congr fun M hM => ?_
  have hM : 0 ≤ M := hM
  show (π * (6 / (π * rhoSoot)) ^ ((2 : ℝ) / 3)) * M ^ ((2 : ℝ) / 3) = SectDoc.area M
  rw [SectDoc.area, show 6 * M / (π * rhoSoot) = 6 / (π * rhoSoot) * M by ring, mul_rpow (by positivity) hM]
  ring

theorem area_mono : MonotoneOn SectDoc.area (Ici 0) := by
  intro x hx y hy hxy
  have hr := rhoSoot_pos
  have hx : 0 ≤ x := hx
  unfold SectDoc.area
  gcongr

/-- **C95 (coagulation only).** With coagulation alone the number and the surface of the soot do not rise, its mass stays, and no moment of
order one or higher falls. -/
theorem C95_coag_only (m : Model) (s : State) (glob : Option ℝ) (h : SectReady m s) (hg : GeoBins m) (hgl : OwnFactor m glob)
    (hn : m.nucl.mech = .NONE) (hgr : m.grow.mech = .NONE) (ho : m.oxid.cls = .NONE) :
    ∃ m' s' glob', sectSources m glob s = ok (m', s', glob') ∧
      let T := fun φ => total m.nsoot (fun k => m.mBins.getD k 0) φ (fun k => m'.sources.soot.getD k 0)
      T (fun _ => 1) ≤ 0 ∧ T SectDoc.area ≤ 0 ∧ T (fun x => x) = 0 ∧ (∀ p : ℝ, 0 ≤ p → p ≤ 1 → T (fun x => x ^ p) ≤ 0) ∧
      (∀ p : ℝ, 1 ≤ p → 0 ≤ T (fun x => x ^ p)) := by
  obtain ⟨m', s', glob', J, n', kG, kO, β, mD, nD, nuc, gro, con, oxi, coa, h1, h2, h3, h4, h5, h6, ⟨e1, e2, e3, e4, e5⟩, h7, h8⟩ :=
    C95_sect m s glob h hg hgl
  have hJ : J = 0 ∧ n' = m.nucl := by
    simp [Nucl.rate, hn] at h2
    exact ⟨h2.1.symm, h2.2.1.symm⟩
  have hkG : kG = 0 := by simp [Grow.rate, hgr] at h3; exact h3.symm
  have hkO : kO = 0 := by simp [Oxid.rate, ho] at h4; exact h4.symm
  have hD : mD = 0 ∧ nD = 0 := by rw [hJ.2, hn] at h6; simpa using h6
  have z1 : nuc = 0 := by funext k; simp [e1, hJ.1]
  have z2 : gro = 0 := by funext k; simp [e2, hkG, SectDoc.growth]
  have z3 : con = 0 := by funext k; simp [e3, hD.1, SectDoc.growth]
  have z4 : oxi = 0 := by funext k; simp [e4, hkO, SectDoc.oxidation]
  refine ⟨m', s', glob', h1, ?_⟩
  have tz : ∀ φ, total m.nsoot (fun k => m.mBins.getD k 0) φ (0 : ℕ → ℝ) = 0 := fun φ => by simp [total]
  have key : ∀ φ, total m.nsoot (fun k => m.mBins.getD k 0) φ (fun k => m'.sources.soot.getD k 0) =
      total m.nsoot (fun k => m.mBins.getD k 0) φ coa := fun φ => by
    have := (h8 φ).2.2.2
    rw [z1, z2, z3, z4, tz] at this
    linarith
  have cc : ∀ φ, ConcaveOn ℝ (Ici 0) φ → 0 ≤ φ 0 → total m.nsoot (fun k => m.mBins.getD k 0) φ (fun k => m'.sources.soot.getD k 0) ≤ 0 :=
    fun φ a c => (key φ).trans_le ((h8 φ).1 a c)
  have cx : ∀ φ, ConvexOn ℝ (Ici 0) φ → φ 0 ≤ 0 → 0 ≤ total m.nsoot (fun k => m.mBins.getD k 0) φ (fun k => m'.sources.soot.getD k 0) :=
    fun φ a c => ((h8 φ).2.1 a c).trans_eq (key φ).symm
  refine ⟨cc _ (concaveOn_const _ (convex_Ici 0)) (by norm_num), cc _ area_concave (SectDoc.area_nonneg le_rfl),
    le_antisymm (cc _ (concaveOn_id (convex_Ici 0)) le_rfl) (cx _ (convexOn_id (convex_Ici 0)) le_rfl), fun p h0 h1 => ?_, fun p hp => ?_⟩
  · exact cc _ (Real.concaveOn_rpow h0 h1) (rpow_nonneg le_rfl p)
  · exact cx _ (convexOn_rpow hp) (by rw [zero_rpow (by linarith)])

/-- **C95 (surface).** Coagulation and oxidation never raise the surface of the soot; growth, condensation and nucleation never lower it. -/
theorem C95_surface (m : Model) (s : State) (glob : Option ℝ) (h : SectReady m s) (hg : GeoBins m) (hgl : OwnFactor m glob)
    (hn : m.nucl.mech = .NONE) :
    ∃ m' s' glob', sectSources m glob s = ok (m', s', glob') ∧
      let A := total m.nsoot (fun k => m.mBins.getD k 0) SectDoc.area (fun k => m'.sources.soot.getD k 0)
      (m.grow.mech = .NONE → A ≤ 0) ∧ (m.oxid.cls = .NONE → m.coag.mech = .NONE → 0 ≤ A) := by
  obtain ⟨m', s', glob', J, n', kG, kO, β, mD, nD, nuc, gro, con, oxi, coa, h1, h2, h3, h4, h5, h6, ⟨e1, e2, e3, e4, e5⟩, h7, h8⟩ :=
    C95_sect m s glob h hg hgl
  have hJ : J = 0 ∧ n' = m.nucl := by
    simp [Nucl.rate, hn] at h2
    exact ⟨h2.1.symm, h2.2.1.symm⟩
  have hD : mD = 0 ∧ nD = 0 := by rw [hJ.2, hn] at h6; simpa using h6
  have z1 : nuc = 0 := by funext k; simp [e1, hJ.1]
  have z3 : con = 0 := by funext k; simp [e3, hD.1, SectDoc.growth]
  have tz : ∀ φ, total m.nsoot (fun k => m.mBins.getD k 0) φ (0 : ℕ → ℝ) = 0 := fun φ => by simp [total]
  obtain ⟨a1, _, a3, a4⟩ := h8 SectDoc.area
  have a1 := a1 area_concave (SectDoc.area_nonneg le_rfl)
  obtain ⟨_, b2, _, b4⟩ := a3 area_mono (SectDoc.area_nonneg le_rfl)
  rw [z1, z3, tz] at a4
  refine ⟨m', s', glob', h1, fun hgr => ?_, fun ho hco => ?_⟩
  · have hkG : kG = 0 := by simp [Grow.rate, hgr] at h3; exact h3.symm
    have z2 : gro = 0 := by funext k; simp [e2, hkG, SectDoc.growth]
    rw [z2, tz] at a4
    linarith
  · have hkO : kO = 0 := by simp [Oxid.rate, ho] at h4; exact h4.symm
    have z4 : oxi = 0 := by funext k; simp [e4, hkO, SectDoc.oxidation]
    have hβ : ∀ x y, β x y = 0 := fun x y => by
      have := h5 x y
      simp [Coag.rate, hco] at this
      exact this.symm
    have z5 : coa = 0 := by funext k; simp [e5, hβ, SectDoc.coag]
    rw [z4, z5, tz] at a4
    linarith

/-- Non-vacuity: a constructed 4-bin model with soot in three bins that only coagulates. -/
example : ∃ m' s' glob', Model.new .SECT 4 .NONE .NONE .NONE .FUCHS = ok (exModel .SECT 4 .NONE .NONE .NONE .FUCHS) ∧
    sectSources (exModel .SECT 4 .NONE .NONE .NONE .FUCHS) none (exSt [1E15, 1E14, 1E13, 0] false) = ok (m', s', glob') ∧
    total 4 (fun k => (exModel .SECT 4 .NONE .NONE .NONE .FUCHS).mBins.getD k 0) SectDoc.area (fun k => m'.sources.soot.getD k 0) ≤ 0 := by
  obtain ⟨m', s', glob', h1, _, h2, _⟩ := C95_coag_only _ _ none
    (exSectReady 4 .NONE (by simp) (by simp) .NONE .NONE .FUCHS [1E15, 1E14, 1E13, 0] false rfl (by norm_num) (by norm_num))
    (exGeoBins 4 .NONE .NONE .NONE .FUCHS (by norm_num)) (Or.inl rfl) rfl rfl rfl
  exact ⟨m', s', glob', exModel_new (by simp [ctorCheck]) _ _ _, h1, h2⟩

/-- Non-vacuity with every process at work: PAH nucleation, HACA growth, oxidation and coagulation. -/
example : ∃ m' s' glob', sectSources (exModel .SECT 4 .PAH .HACA .LL .HM) none (exSt [1E15, 1E14, 1E13, 0] false) = ok (m', s', glob') := by
  obtain ⟨m', s', glob', _, _, _, _, _, _, _, _, _, _, _, _, h1, _⟩ := C95_sect _ _ none
    (exSectReady 4 .PAH (by simp) (by simp) .HACA .LL .HM [1E15, 1E14, 1E13, 0] false rfl (by norm_num) (by norm_num))
    (exGeoBins 4 .PAH .HACA .LL .HM (by norm_num)) (Or.inl rfl)
  exact ⟨m', s', glob', h1⟩

end Soot
