import Verif.FpSectAll
import Verif.Props.FpSectCoag

/-!
# Rounding in the sectional model, from the rates to the sources

How the transport, coagulation and summation of `sootModel_SECT` pass on the errors of the rates; used by C116.  Errors are measured by the soot mass they stand for:
`nrm n bins f` is the sum of `mBins[k]*|f k|`.
-/

namespace Soot

open Dbl
open scoped Classical

namespace FpSect

open FpMass

/-- The mass of the terms `f`, without regard to sign. -/
noncomputable def nrm (n : ℕ) (bins : List ℝ) (f : ℕ → ℝ) : ℝ := ∑ k ∈ Finset.range n, bins.getD k 0 * |f k|

section
variable {F : Fp} {u η Ω g G : ℝ} {n : ℕ} {bins : List ℝ} {c : ℕ → ℝ}

theorem nrm_nonneg (hb : Bins n bins) (f : ℕ → ℝ) : 0 ≤ nrm n bins f :=
  Finset.sum_nonneg fun _ hk => mul_nonneg (hb.pos (Finset.mem_range.1 hk)).le (abs_nonneg _)

theorem nrm_tri (hb : Bins n bins) (f h : ℕ → ℝ) : nrm n bins (fun k => f k + h k) ≤ nrm n bins f + nrm n bins h := by
  unfold nrm
  rw [← Finset.sum_add_distrib]
  refine Finset.sum_le_sum fun k hk => ?_
  rw [← mul_add]
  exact mul_le_mul_of_nonneg_left (abs_add_le _ _) (hb.pos (Finset.mem_range.1 hk)).le

theorem nrm_congr {f h : ℕ → ℝ} (e : ∀ k < n, f k = h k) : nrm n bins f = nrm n bins h :=
  Finset.sum_congr rfl fun k hk => by rw [e k (Finset.mem_range.1 hk)]

theorem nrm_le (hb : Bins n bins) {f h : ℕ → ℝ} (e : ∀ k < n, |f k| ≤ h k) : nrm n bins f ≤ ∑ k ∈ Finset.range n, bins.getD k 0 * h k :=
  Finset.sum_le_sum fun k hk => mul_le_mul_of_nonneg_left (e k (Finset.mem_range.1 hk)) (hb.pos (Finset.mem_range.1 hk)).le

theorem upVal_sub (c d : ℕ → ℝ) (k : ℕ) : upVal n bins c k - upVal n bins d k = upVal n bins (fun k => c k - d k) k := by
  unfold upVal fIn fUp
  split_ifs <;> ring

theorem downVal_sub (c d : ℕ → ℝ) (k : ℕ) : downVal n bins c k - downVal n bins d k = downVal n bins (fun k => c k - d k) k := by
  unfold downVal fDown
  split_ifs <;> ring

theorem up_nrm (h : Grid u η Ω g n bins c) : nrm n bins (upVal n bins c) ≤ (g + 1) / (g - 1) * ∑ k ∈ Finset.range n, |c k| := by
  refine (nrm_le h.inc (h := fun k => |fIn bins c k| + |outUp n bins c k|) fun k hk => ?_).trans (up_size h)
  unfold upVal outUp
  by_cases h1 : k + 1 < n
  · rw [if_pos h1, if_pos h1]; exact abs_sub _ _
  · rw [if_neg h1, if_pos (by omega), if_neg h1]; exact abs_add_le _ _

theorem down_nrm (h : Grid u η Ω g n bins c) : nrm n bins (downVal n bins c) ≤ (g + 1) / (g - 1) * ∑ k ∈ Finset.range n, |c k| := by
  refine (nrm_le h.inc (h := fun k => |inDown n bins c k| + |fDown bins c k|) fun k hk => ?_).trans (down_size h)
  unfold downVal inDown
  rw [if_pos hk]
  exact abs_sub _ _

/-- Rates with a relative error make the same grid. -/
theorem Grid.near (h : Grid u η Ω g n bins fun k => 2 * c k) {c' : ℕ → ℝ} {ρ : ℝ} (ρ1 : ρ ≤ 1) (c0 : ∀ k < n, 0 ≤ c k)
    (e : ∀ k < n, |c' k - c k| ≤ ρ * c k) : Grid u η Ω g n bins c' ∧ Grid u η Ω g n bins fun k => c' k - c k := by
  have q : ∀ k < n, c k ≤ Ω / 16 * (min (g - 1) 1 * bins.getD 0 0) ∧ |c' k - c k| ≤ c k := fun k hk => by
    have := h.rate k hk
    rw [abs_of_nonneg (by linarith [c0 k hk])] at this
    exact ⟨by linarith, (e k hk).trans (mul_le_of_le_one_left (c0 k hk) ρ1)⟩
  refine ⟨⟨h.inc, h.one, h.geo, h.fine, h.top, fun k hk => ?_⟩, ⟨h.inc, h.one, h.geo, h.fine, h.top, fun k hk => ?_⟩⟩
  · have h1 := abs_add_le (c' k - c k) (c k)
    rw [sub_add_cancel, abs_of_nonneg (c0 k hk)] at h1
    linarith [(q k hk).1, (q k hk).2]
  · linarith [(q k hk).1, (q k hk).2, c0 k hk]

theorem sum_near {c' : ℕ → ℝ} {ρ : ℝ} (e : ∀ k < n, |c' k - c k| ≤ ρ * c k) : ∑ k ∈ Finset.range n, |c' k - c k| ≤ ρ * ∑ k ∈ Finset.range n, c k := by
  rw [Finset.mul_sum]
  exact Finset.sum_le_sum fun k hk => e k (Finset.mem_range.1 hk)

theorem sum_abs_near {c' : ℕ → ℝ} {ρ : ℝ} (c0 : ∀ k < n, 0 ≤ c k) (e : ∀ k < n, |c' k - c k| ≤ ρ * c k) :
    ∑ k ∈ Finset.range n, |c' k| ≤ (1 + ρ) * ∑ k ∈ Finset.range n, c k := by
  rw [Finset.mul_sum]
  refine Finset.sum_le_sum fun k hk => ?_
  have hk := Finset.mem_range.1 hk
  have h1 := abs_add_le (c' k - c k) (c k)
  rw [sub_add_cancel, abs_of_nonneg (c0 k hk)] at h1
  linarith [e k hk]

/-- Growth: computed terms from computed rates `c'`, against the exact terms from the exact rates `c`. -/
theorem up_err (hF : F.Std u η Ω) (ho : Ok u η Ω) (h : Grid u η Ω g n bins fun k => 2 * c k) (c0 : ∀ k < n, 0 ≤ c k) {c' : ℕ → ℝ} {ρ : ℝ}
    (ρ1 : ρ ≤ 1 / 100) (e : ∀ k < n, |c' k - c k| ≤ ρ * c k) :
    ∃ U : ℕ → ℝ, (∀ k < n, sectUpD F n (fun k => fin (bins.getD k 0)) (fun k => fin (c' k)) k = fin (U k)) ∧
      nrm n bins (fun k => U k - upVal n bins c k) ≤ (g + 1) / (g - 1) * ((ρ + 4.3 * u) * ∑ k ∈ Finset.range n, c k) + 3.1 * η * ∑ k ∈ Finset.range n, bins.getD k 0 ∧
      nrm n bins (upVal n bins c) ≤ (g + 1) / (g - 1) * ∑ k ∈ Finset.range n, c k := by
  obtain ⟨g1, g2⟩ := h.near (by linarith) c0 e
  have R0 : 0 ≤ (g + 1) / (g - 1) := by have := h.one; exact div_nonneg (by linarith) (by linarith)
  have S0 : 0 ≤ ∑ k ∈ Finset.range n, c k := Finset.sum_nonneg fun k hk => c0 k (Finset.mem_range.1 hk)
  obtain ⟨U, hU⟩ := up_near g1 hF ho
  refine ⟨U, fun k hk => (hU k hk).1, ?_, ?_⟩
  · have e1 : nrm n bins (fun k => U k - upVal n bins c' k) ≤ 4.2 * u * ((g + 1) / (g - 1) * ((1 + ρ) * ∑ k ∈ Finset.range n, c k)) + 3.1 * η * ∑ k ∈ Finset.range n, bins.getD k 0 := by
      refine (nrm_le h.inc fun k hk => (hU k hk).2).trans ?_
      have := mul_le_mul_of_nonneg_left ((up_size g1).trans (mul_le_mul_of_nonneg_left (sum_abs_near c0 e) R0)) (show 0 ≤ 4.2 * u by linarith [ho.u0])
      have ex : ∑ k ∈ Finset.range n, bins.getD k 0 * (4.2 * u * (|fIn bins c' k| + |outUp n bins c' k|) + 3.1 * η) =
          4.2 * u * ∑ k ∈ Finset.range n, bins.getD k 0 * (|fIn bins c' k| + |outUp n bins c' k|) + 3.1 * η * ∑ k ∈ Finset.range n, bins.getD k 0 := by
        rw [Finset.mul_sum, Finset.mul_sum, ← Finset.sum_add_distrib]
        exact Finset.sum_congr rfl fun k _ => by ring
      linarith
    have e2 : nrm n bins (fun k => upVal n bins c' k - upVal n bins c k) ≤ (g + 1) / (g - 1) * (ρ * ∑ k ∈ Finset.range n, c k) := by
      rw [nrm_congr fun k _ => upVal_sub c' c k]
      exact (up_nrm g2).trans (mul_le_mul_of_nonneg_left (sum_near e) R0)
    have e3 := nrm_tri h.inc (fun k => U k - upVal n bins c' k) (fun k => upVal n bins c' k - upVal n bins c k)
    rw [nrm_congr (h := fun k => U k - upVal n bins c k) fun k _ => by ring] at e3
    have q : 4.2 * u * ((g + 1) / (g - 1) * ((1 + ρ) * ∑ k ∈ Finset.range n, c k)) ≤ 4.3 * u * ((g + 1) / (g - 1) * ∑ k ∈ Finset.range n, c k) := by
      have p := mul_nonneg ho.u0 (mul_nonneg R0 S0)
      have : ρ * (u * ((g + 1) / (g - 1) * ∑ k ∈ Finset.range n, c k)) ≤ 1 / 100 * (u * ((g + 1) / (g - 1) * ∑ k ∈ Finset.range n, c k)) :=
        mul_le_mul_of_nonneg_right ρ1 p
      linarith
    linarith
  · refine (up_nrm (c := c) ⟨h.inc, h.one, h.geo, h.fine, h.top, fun k hk => ?_⟩).trans (le_of_eq ?_)
    · have := h.rate k hk
      rw [abs_mul, abs_two] at this
      linarith [abs_nonneg (c k)]
    · rw [Finset.sum_congr rfl fun k hk => abs_of_nonneg (c0 k (Finset.mem_range.1 hk))]

/-- Oxidation. -/
theorem down_err (hF : F.Std u η Ω) (ho : Ok u η Ω) (h : Grid u η Ω g n bins fun k => 2 * c k) (c0 : ∀ k < n, 0 ≤ c k) {c' : ℕ → ℝ} {ρ : ℝ}
    (ρ1 : ρ ≤ 1 / 100) (e : ∀ k < n, |c' k - c k| ≤ ρ * c k) :
    ∃ U : ℕ → ℝ, (∀ k < n, sectDownD F n (fun k => fin (bins.getD k 0)) (fun k => fin (c' k)) k = fin (U k)) ∧
      nrm n bins (fun k => U k - downVal n bins c k) ≤ (g + 1) / (g - 1) * ((ρ + 4.3 * u) * ∑ k ∈ Finset.range n, c k) + 3.1 * η * ∑ k ∈ Finset.range n, bins.getD k 0 ∧
      nrm n bins (downVal n bins c) ≤ (g + 1) / (g - 1) * ∑ k ∈ Finset.range n, c k := by
  obtain ⟨g1, g2⟩ := h.near (by linarith) c0 e
  have R0 : 0 ≤ (g + 1) / (g - 1) := by have := h.one; exact div_nonneg (by linarith) (by linarith)
  have S0 : 0 ≤ ∑ k ∈ Finset.range n, c k := Finset.sum_nonneg fun k hk => c0 k (Finset.mem_range.1 hk)
  obtain ⟨U, hU⟩ := down_near g1 hF ho
  refine ⟨U, fun k hk => (hU k hk).1, ?_, ?_⟩
  · have e1 : nrm n bins (fun k => U k - downVal n bins c' k) ≤ 4.2 * u * ((g + 1) / (g - 1) * ((1 + ρ) * ∑ k ∈ Finset.range n, c k)) + 3.1 * η * ∑ k ∈ Finset.range n, bins.getD k 0 := by
      refine (nrm_le h.inc fun k hk => (hU k hk).2).trans ?_
      have := mul_le_mul_of_nonneg_left ((down_size g1).trans (mul_le_mul_of_nonneg_left (sum_abs_near c0 e) R0)) (show 0 ≤ 4.2 * u by linarith [ho.u0])
      have ex : ∑ k ∈ Finset.range n, bins.getD k 0 * (4.2 * u * (|inDown n bins c' k| + |fDown bins c' k|) + 3.1 * η) =
          4.2 * u * ∑ k ∈ Finset.range n, bins.getD k 0 * (|inDown n bins c' k| + |fDown bins c' k|) + 3.1 * η * ∑ k ∈ Finset.range n, bins.getD k 0 := by
        rw [Finset.mul_sum, Finset.mul_sum, ← Finset.sum_add_distrib]
        exact Finset.sum_congr rfl fun k _ => by ring
      linarith
    have e2 : nrm n bins (fun k => downVal n bins c' k - downVal n bins c k) ≤ (g + 1) / (g - 1) * (ρ * ∑ k ∈ Finset.range n, c k) := by
      rw [nrm_congr fun k _ => downVal_sub c' c k]
      exact (down_nrm g2).trans (mul_le_mul_of_nonneg_left (sum_near e) R0)
    have e3 := nrm_tri h.inc (fun k => U k - downVal n bins c' k) (fun k => downVal n bins c' k - downVal n bins c k)
    rw [nrm_congr (h := fun k => U k - downVal n bins c k) fun k _ => by ring] at e3
    have q : 4.2 * u * ((g + 1) / (g - 1) * ((1 + ρ) * ∑ k ∈ Finset.range n, c k)) ≤ 4.3 * u * ((g + 1) / (g - 1) * ∑ k ∈ Finset.range n, c k) := by
      have p := mul_nonneg ho.u0 (mul_nonneg R0 S0)
      have : ρ * (u * ((g + 1) / (g - 1) * ∑ k ∈ Finset.range n, c k)) ≤ 1 / 100 * (u * ((g + 1) / (g - 1) * ∑ k ∈ Finset.range n, c k)) :=
        mul_le_mul_of_nonneg_right ρ1 p
      linarith
    linarith
  · refine (down_nrm (c := c) ⟨h.inc, h.one, h.geo, h.fine, h.top, fun k hk => ?_⟩).trans (le_of_eq ?_)
    · have := h.rate k hk
      rw [abs_mul, abs_two] at this
      linarith [abs_nonneg (c k)]
    · rw [Finset.sum_congr rfl fun k hk => abs_of_nonneg (c0 k (Finset.mem_range.1 hk))]

/-! ## Coagulation -/

theorem coagLoopD_congr (F : Fp) (n : ℕ) (b : ℕ → Dbl) {t t' : ℕ → ℕ → Dbl} (tgt : ℕ → ℕ → ℕ) (l : List (ℕ × ℕ)) (S : ℕ → Dbl)
    (h : ∀ p ∈ l, t p.1 p.2 = t' p.1 p.2) : coagLoopD F n b t tgt l S = coagLoopD F n b t' tgt l S := by
  induction l generalizing S with
  | nil => rfl
  | cons p l ih =>
    obtain ⟨i, j⟩ := p
    simp only [coagLoopD, coagPairD, h (i, j) (by simp)]
    exact ih _ fun p hp => h p (by simp [hp])

/-- One pair, measured by mass. -/
theorem effect_nrm (h : CGrid u η Ω g G n bins) {t : ℕ → ℕ → ℝ} {tgt : ℕ → ℕ → ℕ} {i j : ℕ} (hij : i ≤ j) (hj : j < n)
    (hk : tgt i j + 1 < n → Between (bins.getD (tgt i j) 0) (bins.getD (tgt i j + 1) 0) (bins.getD i 0 + bins.getD j 0)) :
    nrm n bins (fun k => effect n bins t tgt k (i, j)) ≤ 2.3 * moved bins t (i, j) := by
  have hb := h.inc
  have h2 := hb.two
  set M := bins.getD i 0 + bins.getD j 0 with hM
  set e := pairEvents (t i j) i j with he
  have M0 : 0 < M := add_pos (hb.pos (by omega)) (hb.pos hj)
  have gain : nrm n bins (fun k => e * SRound.gainAt n bins M (tgt i j) k) ≤ 1.22 * moved bins t (i, j) := by
    have : nrm n bins (fun k => SRound.gainAt n bins M (tgt i j) k) ≤ 1.22 * M := by
      unfold nrm SRound.gainAt
      by_cases c : n - 1 ≤ tgt i j
      · simp only [if_pos c]
        rw [Finset.sum_eq_single (n - 1) (fun k _ hk => by rw [if_neg hk]; simp) (fun hx => absurd (Finset.mem_range.2 (by omega)) hx), if_pos rfl,
          abs_of_nonneg (div_nonneg M0.le (hb.pos (by omega)).le), mul_div_cancel₀ _ (hb.pos (by omega)).ne']
        linarith
      · simp only [if_neg c]
        have fr := (Between.frac (hk (by omega)) (hb.pos (by omega)) (hb.mono _ (by omega))).2.2.2.2.2
        refine le_trans ?_ fr
        have hk1 : tgt i j ∈ Finset.range n := Finset.mem_range.2 (by omega)
        have hk2 : tgt i j + 1 ∈ Finset.range n := Finset.mem_range.2 (by omega)
        set x := (bins.getD (tgt i j + 1) 0 - M) / (bins.getD (tgt i j + 1) 0 - bins.getD (tgt i j) 0) with hx
        have : ∀ k, bins.getD k 0 * |(if k = tgt i j then x else 0) + if k = tgt i j + 1 then 1 - x else 0| =
            (if k = tgt i j then bins.getD (tgt i j) 0 * |x| else 0) + if k = tgt i j + 1 then bins.getD (tgt i j + 1) 0 * |1 - x| else 0 := by
          intro k
          by_cases c1 : k = tgt i j
          · subst c1; simp
          · by_cases c2 : k = tgt i j + 1
            · rw [c2]; simp
            · simp [c1, c2]
        rw [Finset.sum_congr rfl fun k _ => this k, Finset.sum_add_distrib, Finset.sum_ite_eq', Finset.sum_ite_eq', if_pos hk1, if_pos hk2]
    have e2 : nrm n bins (fun k => e * SRound.gainAt n bins M (tgt i j) k) = |e| * nrm n bins (fun k => SRound.gainAt n bins M (tgt i j) k) := by
      unfold nrm
      rw [Finset.mul_sum]
      exact Finset.sum_congr rfl fun k _ => by rw [abs_mul]; ring
    rw [e2]
    have := mul_le_mul_of_nonneg_left this (abs_nonneg e)
    unfold moved
    simp only [← he, ← hM]
    linarith
  have loss : nrm n bins (fun k => -SRound.lossAt (t i j) i j k) ≤ moved bins t (i, j) := by
    rw [← moved_eq h hij hj t]
    unfold nrm SRound.lossAt
    have : ∀ k ∈ Finset.range n, bins.getD k 0 * |-((if k = i then t i j else 0) + if i < j ∧ k = j then t i j else 0)| ≤
        (if k = i then bins.getD i 0 * |t i j| else 0) + if k = j then (if j > i then bins.getD j 0 * |t i j| else 0) else 0 := by
      intro k hk
      by_cases c1 : k = i
      · subst c1
        by_cases c2 : k < j
        · simp [show k ≠ j by omega]
        · simp [show k = j by omega]
      · by_cases c2 : k = j
        · subst c2
          have : i < k := by omega
          simp [this, c1]
        · simp [c1, c2]
    refine (Finset.sum_le_sum this).trans (le_of_eq ?_)
    rw [Finset.sum_add_distrib, Finset.sum_ite_eq', Finset.sum_ite_eq', if_pos (Finset.mem_range.2 (by omega)), if_pos (Finset.mem_range.2 hj)]
  have m0 := moved_nonneg hb t (p := (i, j)) (by omega) hj
  have := nrm_tri hb (fun k => e * SRound.gainAt n bins M (tgt i j) k) (fun k => -SRound.lossAt (t i j) i j k)
  unfold effect
  rw [nrm_congr (h := fun k => pairEvents (t i j) i j * SRound.gainAt n bins (bins.getD i 0 + bins.getD j 0) (tgt i j) k - SRound.lossAt (t i j) i j k)
    fun k _ => by rw [← sub_eq_add_neg]] at this
  linarith

theorem effect_sub (t t' : ℕ → ℕ → ℝ) (tgt : ℕ → ℕ → ℕ) (k : ℕ) (p : ℕ × ℕ) :
    effect n bins t tgt k p - effect n bins t' tgt k p = effect n bins (fun i j => t i j - t' i j) tgt k p := by
  unfold effect pairEvents SRound.lossAt
  split_ifs <;> ring

theorem nrm_list (hb : Bins n bins) (f : ℕ → ℕ × ℕ → ℝ) (w : ℕ × ℕ → ℝ) (l : List (ℕ × ℕ)) (h : ∀ p ∈ l, nrm n bins (fun k => f k p) ≤ w p) :
    nrm n bins (fun k => (l.map (f k)).sum) ≤ (l.map w).sum := by
  induction l with
  | nil => simp [nrm]
  | cons p l ih =>
    simp only [List.map_cons, List.sum_cons]
    exact (nrm_tri hb _ _).trans (add_le_add (h p (by simp)) (ih fun q hq => h q (by simp [hq])))

theorem moved_near {t t' : ℕ → ℕ → ℝ} (hb : Bins n bins) {κ : ℝ} {p : ℕ × ℕ} (hp : p.1 ≤ p.2 ∧ p.2 < n) (t0 : 0 ≤ t p.1 p.2)
    (e : |t' p.1 p.2 - t p.1 p.2| ≤ κ * t p.1 p.2) : moved bins (fun i j => t' i j - t i j) p ≤ κ * moved bins t p ∧
      moved bins t' p ≤ (1 + κ) * moved bins t p := by
  obtain ⟨i, j⟩ := p
  simp only at hp t0 e
  have M0 : 0 ≤ bins.getD i 0 + bins.getD j 0 := (add_pos (hb.pos (by omega)) (hb.pos hp.2)).le
  have e' : |t' i j| ≤ (1 + κ) * t i j := by
    have h1 := abs_add_le (t' i j - t i j) (t i j)
    rw [sub_add_cancel, abs_of_nonneg t0] at h1
    linarith
  have ev : ∀ x : ℝ, |pairEvents x i j| = |x| * (if i = j then 0.5 else 1) := by
    intro x
    unfold pairEvents
    split_ifs
    · rw [abs_mul]; norm_num
    · rw [mul_one]
  unfold moved
  simp only [ev, abs_of_nonneg t0]
  have f0 : (0 : ℝ) ≤ if i = j then 0.5 else 1 := by split_ifs <;> norm_num
  constructor
  · rw [← mul_assoc, ← mul_assoc]
    exact mul_le_mul_of_nonneg_right (mul_le_mul_of_nonneg_right e f0) M0
  · rw [← mul_assoc, ← mul_assoc]
    exact mul_le_mul_of_nonneg_right (mul_le_mul_of_nonneg_right e' f0) M0

/-- Coagulation: computed terms from computed collision rates `t'`, against the exact terms from the exact rates `t`. -/
theorem coag_err (hF : F.Std u η Ω) (ho : Ok u η Ω) (h : CGrid u η Ω g G n bins) {t t' : ℕ → ℕ → ℝ} {tgt : ℕ → ℕ → ℕ}
    (hk : ∀ i j, i ≤ j → j < n → tgt i j + 1 < n →
      Between (bins.getD (tgt i j) 0) (bins.getD (tgt i j + 1) 0) (bins.getD i 0 + bins.getD j 0))
    {κ : ℝ} (κ1 : κ ≤ 1 / 100) (t0 : ∀ i j, i ≤ j → j < n → 0 ≤ t i j) (e : ∀ i j, i ≤ j → j < n → |t' i j - t i j| ≤ κ * t i j)
    (hu : (5 * n * (n + 1) + 14 * ((1 + G) * (g / (g - 1)))) * u ≤ 1 / 10)
    (hV : ((pairs n).map (moved bins t)).sum ≤ Ω / 200) (hV' : ((pairs n).map (moved bins t)).sum ≤ Ω / 200 * bins.getD 0 0)
    (hη : 0.55 * n * (n + 1) * ((9 * bins.getD (n - 1) 0 + 2) * η) ≤ Ω / 100 * bins.getD 0 0) :
    ∃ S : ℕ → ℝ, (∀ k < n, coagLoopD F n (fun k => fin (bins.getD k 0)) (fun i j => fin (t' i j)) tgt (pairs n) (fun _ => fin 0) k = fin (S k)) ∧
      nrm n bins (fun k => S k - ((pairs n).map (effect n bins t tgt k)).sum) ≤
        (2.3 * κ + 1.01 * ((5 * n * (n + 1) + 14 * ((1 + G) * (g / (g - 1)))) * u)) * ((pairs n).map (moved bins t)).sum +
        0.55 * n * (n + 1) * ((9 * bins.getD (n - 1) 0 + 2) * η) ∧
      nrm n bins (fun k => ((pairs n).map (effect n bins t tgt k)).sum) ≤ 2.3 * ((pairs n).map (moved bins t)).sum ∧
      0 ≤ ((pairs n).map (moved bins t)).sum := by
  have hb := h.inc
  have mp : ∀ p ∈ pairs n, p.1 ≤ p.2 ∧ p.2 < n := fun p hp => mem_pairs.1 hp
  have V0 : 0 ≤ ((pairs n).map (moved bins t)).sum := List.sum_nonneg fun x hx => by
    obtain ⟨q, hq, rfl⟩ := List.mem_map.1 hx
    have := mp q hq
    exact moved_nonneg hb t (by omega) this.2
  have near := fun p hp => moved_near hb (mp p hp) (t0 p.1 p.2 (mp p hp).1 (mp p hp).2) (e p.1 p.2 (mp p hp).1 (mp p hp).2)
  have V' : ((pairs n).map (moved bins t')).sum ≤ 1.01 * ((pairs n).map (moved bins t)).sum := by
    have : ((pairs n).map (moved bins t')).sum ≤ (1 + κ) * ((pairs n).map (moved bins t)).sum := by
      rw [← List.sum_map_mul_left]
      exact List.sum_le_sum fun p hp => (near p hp).2
    have := mul_le_mul_of_nonneg_right κ1 V0
    linarith
  have p0 := hb.pos0
  have Ω0 := ho.Ω1
  obtain ⟨S, E, s1, s2, -, s3, -⟩ := C96_coagulation F u η Ω g G hF ho n bins h t' tgt hk hu (by linarith)
    (by have : 0 < Ω * bins.getD 0 0 := by positivity
        linarith) hη
  refine ⟨S, s1, ?_, ?_, V0⟩
  · have c0 : 0 ≤ (5 * n * (n + 1) + 14 * ((1 + G) * (g / (g - 1)))) * u := by
      have h1 := h.one
      have : 0 ≤ g / (g - 1) := div_nonneg (by linarith) (by linarith)
      have : 0 ≤ 1 + G := by
        have := h.geo 0 (by have := hb.two; omega)
        have := h.geoUp 0 (by have := hb.two; omega)
        nlinarith
      have := ho.u0
      positivity
    have d1 : nrm n bins (fun k => ((pairs n).map (effect n bins t' tgt k)).sum - ((pairs n).map (effect n bins t tgt k)).sum) ≤
        2.3 * (κ * ((pairs n).map (moved bins t)).sum) := by
      have ex : ∀ k, ((pairs n).map (effect n bins t' tgt k)).sum - ((pairs n).map (effect n bins t tgt k)).sum =
          ((pairs n).map (effect n bins (fun i j => t' i j - t i j) tgt k)).sum := by
        intro k
        generalize pairs n = l
        induction l with
        | nil => simp
        | cons p l ih =>
          simp only [List.map_cons, List.sum_cons, ← ih, ← effect_sub]
          ring
      rw [nrm_congr fun k _ => ex k, ← mul_assoc, ← List.sum_map_mul_left]
      refine nrm_list hb _ _ _ fun p hp => ?_
      have := effect_nrm h (t := fun i j => t' i j - t i j) (tgt := tgt) (mp p hp).1 (mp p hp).2 (hk _ _ (mp p hp).1 (mp p hp).2)
      have := (near p hp).1
      simp only [Prod.mk.eta] at *
      linarith
    have d2 := nrm_tri hb (fun k => S k - ((pairs n).map (effect n bins t' tgt k)).sum)
      (fun k => ((pairs n).map (effect n bins t' tgt k)).sum - ((pairs n).map (effect n bins t tgt k)).sum)
    rw [nrm_congr (h := fun k => S k - ((pairs n).map (effect n bins t tgt k)).sum) fun k _ => by ring] at d2
    have d3 : nrm n bins (fun k => S k - ((pairs n).map (effect n bins t' tgt k)).sum) = ∑ k ∈ Finset.range n, bins.getD k 0 * |S k - E k| := by
      unfold nrm
      exact Finset.sum_congr rfl fun k _ => by rw [s2]
    have := mul_le_mul_of_nonneg_left V' c0
    rw [d3] at d2
    linarith
  · rw [← List.sum_map_mul_left]
    refine nrm_list hb _ _ _ fun p hp => ?_
    have := effect_nrm h (t := t) (tgt := tgt) (mp p hp).1 (mp p hp).2 (hk _ _ (mp p hp).1 (mp p hp).2)
    simpa only [Prod.mk.eta] using this

end
end FpSect
end Soot
