import Verif.Sect
import Verif.Inv

/-!
# Closed forms and sums for the sectional loops
-/

namespace Soot

open Res Real
open scoped Classical

/-- Bin masses: `n ≥ 2` of them, positive and strictly increasing. -/
structure Bins (n : ℕ) (bins : List ℝ) : Prop where
  len : bins.length = n
  two : 2 ≤ n
  pos0 : 0 < bins.getD 0 0
  mono : ∀ k, k + 1 < n → bins.getD k 0 < bins.getD (k + 1) 0

theorem Bins.le {n : ℕ} {bins : List ℝ} (h : Bins n bins) {i j : ℕ} (hij : i ≤ j) (hj : j < n) :
    bins.getD i 0 ≤ bins.getD j 0 := by
  induction j, hij using Nat.le_induction with
  | base => exact le_rfl
  | succ j hij ih => exact (ih (by omega)).trans (h.mono j hj).le

theorem Bins.pos {n : ℕ} {bins : List ℝ} (h : Bins n bins) {k : ℕ} (hk : k < n) : 0 < bins.getD k 0 :=
  h.pos0.trans_le (h.le (Nat.zero_le k) hk)

theorem Bins.idx {n : ℕ} {bins : List ℝ} (h : Bins n bins) {k : ℕ} (hk : k < n) :
    idx bins k = ok (bins.getD k 0) := idx_getD (h.len ▸ hk)

/-! ## Upward transport (growth, condensation) -/

/-- Flux from bin `k` to bin `k+1`. -/
noncomputable def fUp (bins : List ℝ) (c : ℕ → ℝ) (k : ℕ) : ℝ := c k / (bins.getD (k + 1) 0 - bins.getD k 0)
/-- Flux into bin `k` from below. -/
noncomputable def fIn (bins : List ℝ) (c : ℕ → ℝ) (k : ℕ) : ℝ := if k = 0 then 0 else fUp bins c (k - 1)

theorem fluxUp_ok {n : ℕ} {bins : List ℝ} (h : Bins n bins) (c : ℕ → ℝ) {k : ℕ} (hk : k + 1 < n) :
    fluxUp bins c k = ok (fUp bins c k) := by
  have := h.mono k hk
  rw [fluxUp, h.idx hk, ok_bind, h.idx (by omega : k < n), ok_bind, cdiv_ok (by linarith)]; rfl

theorem upLoop_ok {n : ℕ} {bins : List ℝ} (h : Bins n bins) (c : ℕ → ℝ) {K : ℕ} (hK : K + 1 < n) :
    upLoop bins c K = ok (fUp bins c K, fun k => if k ≤ K then fIn bins c k - fUp bins c k else 0) := by
  induction K with
  | zero =>
    rw [upLoop, fluxUp_ok h c hK, ok_bind]
    congr 2; funext k
    by_cases hk : k = 0
    · subst hk; simp [fIn]
    · simp [Function.update_of_ne hk, hk]
  | succ K ih =>
    rw [upLoop, ih (by omega), ok_bind]
    simp only
    rw [fluxUp_ok h c hK, ok_bind]
    congr 2; funext k
    by_cases hk : k = K + 1
    · subst hk; simp [fIn]
    · rw [Function.update_of_ne hk]
      have : k ≤ K + 1 ↔ k ≤ K := by omega
      simp only [this]

/-- Closed form of the upward transport. -/
noncomputable def upVal (n : ℕ) (bins : List ℝ) (c : ℕ → ℝ) (k : ℕ) : ℝ :=
  if k + 1 < n then fIn bins c k - fUp bins c k
  else if k + 1 = n then fIn bins c k + c k / bins.getD k 0 else 0

theorem sectUp_ok {n : ℕ} {bins : List ℝ} (h : Bins n bins) (c : ℕ → ℝ) :
    sectUp n bins c = ok (upVal n bins c) := by
  have h2 := h.two
  rw [sectUp, upLoop_ok h c (by omega), ok_bind]
  simp only
  rw [h.idx (by omega), ok_bind, cdiv_ok (h.pos (by omega)).ne', ok_bind]
  congr 1; funext k
  by_cases hk : k = n - 1
  · subst hk
    have e1 : ¬ (n - 1 + 1 < n) := by omega
    have e2 : n - 1 + 1 = n := by omega
    have e3 : n - 1 ≠ 0 := by omega
    have e4 : n - 1 - 1 = n - 2 := by omega
    simp only [Function.update_self, upVal, fIn, if_neg e1, if_pos e2, if_neg e3, e4]
  · rw [Function.update_of_ne hk, upVal]
    by_cases h1 : k + 1 < n
    · rw [if_pos h1, if_pos (by omega)]
    · rw [if_neg h1, if_neg (by omega), if_neg (by omega)]

theorem up_partial_mass {n : ℕ} {bins : List ℝ} (h : Bins n bins) (c : ℕ → ℝ) (K : ℕ) (hK : K < n) :
    ∑ k ∈ Finset.range K, bins.getD k 0 * (fIn bins c k - fUp bins c k) =
      (∑ k ∈ Finset.range K, c k) - bins.getD K 0 * fIn bins c K := by
  induction K with
  | zero => simp [fIn]
  | succ K ih =>
    have hm := h.mono K hK
    rw [Finset.sum_range_succ, ih (by omega), Finset.sum_range_succ]
    have e : bins.getD (K + 1) 0 * fUp bins c K - bins.getD K 0 * fUp bins c K = c K := by
      have : bins.getD (K + 1) 0 - bins.getD K 0 ≠ 0 := by linarith
      rw [← sub_mul, fUp]; field_simp
    simp only [fIn, Nat.succ_ne_zero, if_false, Nat.add_sub_cancel]
    linarith

theorem up_partial_num (bins : List ℝ) (c : ℕ → ℝ) (K : ℕ) :
    ∑ k ∈ Finset.range K, (fIn bins c k - fUp bins c k) = - fIn bins c K := by
  induction K with
  | zero => simp [fIn]
  | succ K ih =>
    rw [Finset.sum_range_succ, ih]
    have e : fIn bins c (K + 1) = fUp bins c K := by simp [fIn]
    rw [e]; ring

theorem upVal_mass {n : ℕ} {bins : List ℝ} (h : Bins n bins) (c : ℕ → ℝ) :
    ∑ k ∈ Finset.range n, bins.getD k 0 * upVal n bins c k = ∑ k ∈ Finset.range n, c k := by
  obtain ⟨N, rfl⟩ : ∃ N, n = N + 1 := ⟨n - 1, by have := h.two; omega⟩
  rw [Finset.sum_range_succ, Finset.sum_range_succ]
  have e : ∑ k ∈ Finset.range N, bins.getD k 0 * upVal (N + 1) bins c k =
      ∑ k ∈ Finset.range N, bins.getD k 0 * (fIn bins c k - fUp bins c k) :=
    Finset.sum_congr rfl fun k hk => by
      have := Finset.mem_range.mp hk
      rw [upVal, if_pos (by omega)]
  rw [e, up_partial_mass h c N (by omega), upVal, if_neg (by omega), if_pos rfl]
  have := (h.pos (show N < N + 1 by omega)).ne'
  field_simp
  ring

theorem upVal_num {n : ℕ} {bins : List ℝ} (h : Bins n bins) (c : ℕ → ℝ) :
    ∑ k ∈ Finset.range n, upVal n bins c k = c (n - 1) / bins.getD (n - 1) 0 := by
  obtain ⟨N, rfl⟩ : ∃ N, n = N + 1 := ⟨n - 1, by have := h.two; omega⟩
  rw [Finset.sum_range_succ]
  have e : ∑ k ∈ Finset.range N, upVal (N + 1) bins c k =
      ∑ k ∈ Finset.range N, (fIn bins c k - fUp bins c k) :=
    Finset.sum_congr rfl fun k hk => by
      have := Finset.mem_range.mp hk
      rw [upVal, if_pos (by omega)]
  rw [e, up_partial_num, upVal, if_neg (by omega), if_pos rfl]
  simp

/-! ## Downward transport (oxidation) -/

/-- Flux leaving bin `k` downwards (out of the domain for `k = 0`). -/
noncomputable def fDown (bins : List ℝ) (c : ℕ → ℝ) (k : ℕ) : ℝ :=
  if k = 0 then c 0 / bins.getD 0 0 else c k / (bins.getD k 0 - bins.getD (k - 1) 0)

/-- Closed form of the downward transport. -/
noncomputable def downVal (n : ℕ) (bins : List ℝ) (c : ℕ → ℝ) (k : ℕ) : ℝ :=
  if k < n then (if k + 1 < n then fDown bins c (k + 1) else 0) - fDown bins c k else 0

theorem fluxDown_ok {n : ℕ} {bins : List ℝ} (h : Bins n bins) (c : ℕ → ℝ) {k : ℕ} (hk : k < n) (h0 : k ≠ 0) :
    fluxDown bins c k = ok (fDown bins c k) := by
  have := h.mono (k - 1) (by omega)
  rw [show k - 1 + 1 = k by omega] at this
  rw [fluxDown, h.idx hk, ok_bind, h.idx (by omega : k - 1 < n), ok_bind, cdiv_ok (by linarith), fDown, if_neg h0]

theorem downLoop_ok {n : ℕ} {bins : List ℝ} (h : Bins n bins) (c : ℕ → ℝ) {d : ℕ} (hd : d + 1 < n) :
    downLoop n bins c d = ok (fDown bins c (n - 1 - d),
      fun k => if n - 1 - d ≤ k then downVal n bins c k else 0) := by
  induction d with
  | zero =>
    rw [downLoop, fluxDown_ok h c (by omega) (by omega), ok_bind]
    congr 2; funext k
    by_cases hk : k = n - 1
    · subst hk
      have e1 : n - 1 < n := by omega
      have e2 : ¬ (n - 1 + 1 < n) := by omega
      simp only [Function.update_self, downVal, if_pos e1, if_neg e2]; simp
    · rw [Function.update_of_ne hk]
      simp only [Nat.sub_zero]
      split_ifs with h1
      · rw [downVal, if_neg (by omega)]
      · rfl
  | succ d ih =>
    rw [downLoop, ih (by omega), ok_bind]
    simp only
    rw [fluxDown_ok h c (by omega) (by omega), ok_bind]
    congr 2; funext k
    by_cases hk : k = n - 1 - (d + 1)
    · subst hk
      have e1 : n - 1 - (d + 1) < n := by omega
      have e2 : n - 1 - d < n := by omega
      have e3 : n - 1 - (d + 1) + 1 = n - 1 - d := by omega
      simp only [Function.update_self, downVal, if_pos e1, le_refl, if_true, e3, if_pos e2]
    · rw [Function.update_of_ne hk]
      have : n - 1 - (d + 1) ≤ k ↔ n - 1 - d ≤ k := by omega
      simp only [this]

theorem sectDown_ok {n : ℕ} {bins : List ℝ} (h : Bins n bins) (c : ℕ → ℝ) :
    sectDown n bins c = ok (downVal n bins c) := by
  have h2 := h.two
  rw [sectDown, downLoop_ok h c (by omega), ok_bind]
  simp only
  rw [h.idx (by omega), ok_bind, cdiv_ok h.pos0.ne', ok_bind]
  congr 1; funext k
  by_cases hk : k = 0
  · subst hk
    have e1 : 0 < n := by omega
    have e2 : 0 + 1 < n := by omega
    have e3 : n - 1 - (n - 2) = 1 := by omega
    simp only [Function.update_self, downVal, if_pos e1, if_pos e2, e3]
    simp [fDown]
  · rw [Function.update_of_ne hk, if_pos (by omega)]

theorem down_partial_mass {n : ℕ} {bins : List ℝ} (h : Bins n bins) (c : ℕ → ℝ) (K : ℕ) (hK : K < n) :
    ∑ k ∈ Finset.range K, bins.getD k 0 * (fDown bins c (k + 1) - fDown bins c k) =
      -(∑ k ∈ Finset.range (K + 1), c k) + bins.getD K 0 * fDown bins c K := by
  induction K with
  | zero =>
    have := h.pos0.ne'
    simp only [Finset.range_zero, Finset.sum_empty, zero_add, Finset.sum_range_one, fDown, if_true]
    field_simp; ring
  | succ K ih =>
    have hm := h.mono K hK
    rw [Finset.sum_range_succ, ih (by omega), Finset.sum_range_succ _ (K + 1)]
    have e : bins.getD (K + 1) 0 * fDown bins c (K + 1) - bins.getD K 0 * fDown bins c (K + 1) = c (K + 1) := by
      have : bins.getD (K + 1) 0 - bins.getD K 0 ≠ 0 := by linarith
      rw [← sub_mul, fDown, if_neg (Nat.succ_ne_zero K), Nat.add_sub_cancel]; field_simp
    linarith

theorem downVal_mass {n : ℕ} {bins : List ℝ} (h : Bins n bins) (c : ℕ → ℝ) :
    ∑ k ∈ Finset.range n, bins.getD k 0 * downVal n bins c k = - ∑ k ∈ Finset.range n, c k := by
  obtain ⟨N, rfl⟩ : ∃ N, n = N + 1 := ⟨n - 1, by have := h.two; omega⟩
  rw [Finset.sum_range_succ]
  have e : ∑ k ∈ Finset.range N, bins.getD k 0 * downVal (N + 1) bins c k =
      ∑ k ∈ Finset.range N, bins.getD k 0 * (fDown bins c (k + 1) - fDown bins c k) :=
    Finset.sum_congr rfl fun k hk => by
      have := Finset.mem_range.mp hk
      rw [downVal, if_pos (by omega), if_pos (by omega)]
  rw [e, down_partial_mass h c N (by omega), downVal, if_pos (by omega), if_neg (by omega)]
  ring

theorem downVal_num {n : ℕ} {bins : List ℝ} (h : Bins n bins) (c : ℕ → ℝ) :
    ∑ k ∈ Finset.range n, downVal n bins c k = - (c 0 / bins.getD 0 0) := by
  obtain ⟨N, rfl⟩ : ∃ N, n = N + 1 := ⟨n - 1, by have := h.two; omega⟩
  rw [Finset.sum_range_succ]
  have e : ∑ k ∈ Finset.range N, downVal (N + 1) bins c k =
      ∑ k ∈ Finset.range N, (fDown bins c (k + 1) - fDown bins c k) :=
    Finset.sum_congr rfl fun k hk => by
      have := Finset.mem_range.mp hk
      rw [downVal, if_pos (by omega), if_pos (by omega)]
  rw [e, Finset.sum_range_sub, downVal, if_pos (by omega), if_neg (by omega)]
  simp only [fDown, if_true]; ring

/-! ## Dimer collision rate -/

theorem ibetaLoop_ok {n : ℕ} {bins : List ℝ} (h : Bins n bins) (c : ℕ → ℝ) {K : ℕ} (hK : K + 1 < n) :
    ibetaLoop bins c K = ok (fUp bins c K,
      ∑ k ∈ Finset.range (K + 1), bins.getD k 0 * (fIn bins c k - fUp bins c k)) := by
  induction K with
  | zero =>
    rw [ibetaLoop, fluxUp_ok h c hK, ok_bind, h.idx (by omega), ok_bind]
    congr 2; simp [fIn]; ring
  | succ K ih =>
    rw [ibetaLoop, ih (by omega), ok_bind]
    simp only
    rw [fluxUp_ok h c hK, ok_bind, h.idx (by omega), ok_bind, Finset.sum_range_succ _ (K + 1)]
    simp [fIn]

theorem ibeta_total {n : ℕ} {bins : List ℝ} (h : Bins n bins) (c : ℕ → ℝ) :
    (do
      let (t, I) ← ibetaLoop bins c (n - 2)
      let b ← idx bins (n - 1)
      let t2 ← cdiv (c (n - 1)) b
      ok (I + b * (t + t2))) = ok (∑ k ∈ Finset.range n, c k) := by
  obtain ⟨N, rfl⟩ : ∃ N, n = N + 2 := ⟨n - 2, by have := h.two; omega⟩
  rw [show N + 2 - 2 = N by omega, show N + 2 - 1 = N + 1 by omega, ibetaLoop_ok h c (by omega), ok_bind]
  simp only
  have hp := h.pos (show N + 1 < N + 2 by omega)
  rw [h.idx (by omega), ok_bind, cdiv_ok hp.ne', ok_bind,
    up_partial_mass h c (N + 1) (by omega), Finset.sum_range_succ c (N + 1)]
  congr 1
  simp only [fIn, Nat.succ_ne_zero, if_false, Nat.add_sub_cancel]
  field_simp
  ring

/-! ## Coagulation -/

/-- `S[k] += v` -/
noncomputable def addAt (S : ℕ → ℝ) (k : ℕ) (v : ℝ) : ℕ → ℝ := Function.update S k (S k + v)

theorem sum_addAt {n k : ℕ} (hk : k < n) (g S : ℕ → ℝ) (v : ℝ) :
    ∑ i ∈ Finset.range n, g i * addAt S k v i = (∑ i ∈ Finset.range n, g i * S i) + g k * v := by
  have hm : k ∈ Finset.range n := Finset.mem_range.mpr hk
  rw [← Finset.add_sum_erase _ _ hm, ← Finset.add_sum_erase (Finset.range n) (fun i => g i * S i) hm]
  have : ∑ i ∈ (Finset.range n).erase k, g i * addAt S k v i = ∑ i ∈ (Finset.range n).erase k, g i * S i :=
    Finset.sum_congr rfl fun i hi => by
      rw [addAt, Function.update_of_ne (Finset.ne_of_mem_erase hi)]
  rw [this, addAt, Function.update_self]; ring

/-- The loss part of one pair: `t` from bin `i` and, if different, from bin `j`. -/
noncomputable def pairLoss (t : ℝ) (i j : ℕ) (S : ℕ → ℝ) : ℕ → ℝ :=
  if j > i then addAt (addAt S i (-t)) j (-t) else addAt S i (-t)

/-- Events per collision term: a like pair is counted half. -/
noncomputable def pairEvents (t : ℝ) (i j : ℕ) : ℝ := if i = j then t * 0.5 else t

/-- The gain part of one pair: `e` events producing mass `mm`, put at bin `k` (top bin if `k ≥ n-1`). -/
noncomputable def pairGain (n : ℕ) (bins : List ℝ) (e mm : ℝ) (k : ℕ) (S : ℕ → ℝ) : ℕ → ℝ :=
  if n - 1 ≤ k then addAt S (n - 1) (e * mm / bins.getD (n - 1) 0)
  else
    let X := (bins.getD (k + 1) 0 - mm) / (bins.getD (k + 1) 0 - bins.getD k 0)
    addAt (addAt S k (X * e)) (k + 1) ((1 - X) * e)

/-- One colliding pair evaluated, for any value `k` of the bin search. -/
theorem coagPair_ok {n : ℕ} {bins : List ℝ} (h : Bins n bins) {c : Coag} {s : State} {K : ℝ} {i j k : ℕ} {f : ℝ}
    (hi : i < n) (hj : j < n) (hs : n ≤ s.sootVar.length)
    (hK : c.rate s (bins.getD i 0) (bins.getD j 0) = ok K)
    (hk : toSizeT (f * log ((bins.getD i 0 + bins.getD j 0) / bins.getD 0 0)) = ok k) (S : ℕ → ℝ) :
    coagPair n bins c s f i j S =
      ok (pairGain n bins (pairEvents (K * s.sootVar.getD i 0 * s.sootVar.getD j 0) i j)
        (bins.getD i 0 + bins.getD j 0) k (pairLoss (K * s.sootVar.getD i 0 * s.sootVar.getD j 0) i j S)) := by
  have hn := h.two
  have p0 := h.pos0
  have pi := h.pos hi
  have pj := h.pos hj
  have hq : 0 < (bins.getD i 0 + bins.getD j 0) / bins.getD 0 0 := by positivity
  rw [coagPair, h.idx hi, ok_bind, h.idx hj, ok_bind, hK, ok_bind, idx_getD (hi.trans_le hs), ok_bind,
    idx_getD (hj.trans_le hs), ok_bind]
  have hb : ∀ {k : ℕ} (S : ℕ → ℝ) (v : ℝ), k < n → bump n S k v = ok (addAt S k v) := by
    intro k S v hk; rw [bump, if_pos hk]; rfl
  have hloss : (do
      let S ← bump n S i (-(K * s.sootVar.getD i 0 * s.sootVar.getD j 0))
      if j > i then bump n S j (-(K * s.sootVar.getD i 0 * s.sootVar.getD j 0)) else ok S) =
      ok (pairLoss (K * s.sootVar.getD i 0 * s.sootVar.getD j 0) i j S) := by
    rw [hb _ _ hi, ok_bind, pairLoss]
    split_ifs
    · rw [hb _ _ hj]
    · rfl
  simp only
  have hassoc : ∀ {α β γ : Type} (x : Res α) (f : α → Res β) (g : β → Res γ),
      (x >>= fun a => f a >>= g) = ((x >>= f) >>= g) := by
    intro α β γ x f g; cases x <;> rfl
  rw [hassoc, hloss, ok_bind, h.idx (by omega), ok_bind, cdiv_ok p0.ne', ok_bind, clog, if_neg (not_le.mpr hq),
    ok_bind, hk, ok_bind]
  have e : (if i = j then K * s.sootVar.getD i 0 * s.sootVar.getD j 0 * 0.5
      else K * s.sootVar.getD i 0 * s.sootVar.getD j 0) =
      pairEvents (K * s.sootVar.getD i 0 * s.sootVar.getD j 0) i j := rfl
  rw [e]
  by_cases hkn : n - 1 ≤ k
  · have e1 : (if k ≥ n then n - 1 else k) = n - 1 := by split_ifs <;> omega
    simp only [e1, if_true]
    rw [h.idx (by omega), ok_bind, cdiv_ok (h.pos (by omega)).ne', ok_bind, hb _ _ (by omega), pairGain, if_pos hkn]
  · have e1 : (if k ≥ n then n - 1 else k) = k := by split_ifs <;> omega
    have e2 : ¬ (k = n - 1) := by omega
    have hm := h.mono k (by omega)
    simp only [e1, if_neg e2]
    rw [h.idx (by omega), ok_bind, h.idx (by omega), ok_bind, cdiv_ok (by linarith), ok_bind, hb _ _ (by omega),
      ok_bind, hb _ _ (by omega), pairGain, if_neg hkn]

theorem pairLoss_sum {n i j : ℕ} (hi : i < n) (hj : j < n) (hij : i ≤ j) (g S : ℕ → ℝ) (t : ℝ) :
    ∑ k ∈ Finset.range n, g k * pairLoss t i j S k =
      (∑ k ∈ Finset.range n, g k * S k) - pairEvents t i j * (g i + g j) := by
  unfold pairLoss pairEvents
  by_cases h : j > i
  · rw [if_pos h, sum_addAt hj, sum_addAt hi, if_neg (by omega)]; ring
  · have : i = j := by omega
    subst this
    rw [if_neg h, sum_addAt hi, if_pos rfl]; ring

theorem pairGain_mass {n : ℕ} {bins : List ℝ} (h : Bins n bins) (e mm : ℝ) (k : ℕ) (S : ℕ → ℝ) :
    ∑ i ∈ Finset.range n, bins.getD i 0 * pairGain n bins e mm k S i =
      (∑ i ∈ Finset.range n, bins.getD i 0 * S i) + e * mm := by
  have hn := h.two
  unfold pairGain
  split_ifs with hk
  · have := (h.pos (show n - 1 < n by omega)).ne'
    rw [sum_addAt (by omega)]
    field_simp
  · have hm := h.mono k (by omega)
    have : bins.getD (k + 1) 0 - bins.getD k 0 ≠ 0 := by linarith
    simp only
    rw [sum_addAt (by omega), sum_addAt (by omega)]
    field_simp
    ring

theorem pairGain_num {n : ℕ} {bins : List ℝ} (h : Bins n bins) (e mm : ℝ) (k : ℕ) (S : ℕ → ℝ) :
    ∑ i ∈ Finset.range n, pairGain n bins e mm k S i =
      (∑ i ∈ Finset.range n, S i) + (if n - 1 ≤ k then e * mm / bins.getD (n - 1) 0 else e) := by
  have hn := h.two
  have s1 : ∀ (S : ℕ → ℝ) (k : ℕ) (v : ℝ), k < n →
      ∑ i ∈ Finset.range n, addAt S k v i = (∑ i ∈ Finset.range n, S i) + v := by
    intro S k v hk
    have := sum_addAt hk (fun _ => 1) S v
    simpa using this
  unfold pairGain
  split_ifs with hk
  · rw [s1 _ _ _ (by omega)]
  · simp only
    rw [s1 _ _ _ (by omega), s1 _ _ _ (by omega)]
    ring

/-- Inversion: a finished pair has its indices in range and a definite target bin. -/
theorem coagPair_inv {n : ℕ} {bins : List ℝ} (h : Bins n bins) {c : Coag} {s : State} {i j : ℕ} {f : ℝ}
    {S S' : ℕ → ℝ} (hi : i < n) (hj : j < n) (hs : n ≤ s.sootVar.length)
    (e : coagPair n bins c s f i j S = ok S') :
    ∃ K k, c.rate s (bins.getD i 0) (bins.getD j 0) = ok K ∧
      toSizeT (f * log ((bins.getD i 0 + bins.getD j 0) / bins.getD 0 0)) = ok k ∧
      S' = pairGain n bins (pairEvents (K * s.sootVar.getD i 0 * s.sootVar.getD j 0) i j)
        (bins.getD i 0 + bins.getD j 0) k (pairLoss (K * s.sootVar.getD i 0 * s.sootVar.getD j 0) i j S) := by
  have e' := e
  have p0 := h.pos0
  have pi := h.pos hi
  have pj := h.pos hj
  have hq : 0 < (bins.getD i 0 + bins.getD j 0) / bins.getD 0 0 := by positivity
  rw [coagPair, h.idx hi, ok_bind, h.idx hj, ok_bind, bind_eq_ok] at e
  obtain ⟨K, hK, e⟩ := e
  rw [idx_getD (hi.trans_le hs), ok_bind, idx_getD (hj.trans_le hs), ok_bind] at e
  simp only at e
  rw [bind_eq_ok] at e
  obtain ⟨S1, _, e⟩ := e
  rw [bind_eq_ok] at e
  obtain ⟨S2, _, e⟩ := e
  rw [h.idx (by have := h.two; omega), ok_bind, cdiv_ok p0.ne', ok_bind, clog, if_neg (not_le.mpr hq), ok_bind,
    bind_eq_ok] at e
  obtain ⟨k, hk, _⟩ := e
  refine ⟨K, k, hK, hk, ?_⟩
  rw [coagPair_ok h hi hj hs hK hk] at e'
  cases e'; rfl

theorem mem_pairs {n i j : ℕ} : (i, j) ∈ pairs n ↔ i ≤ j ∧ j < n := by
  unfold pairs
  simp only [List.mem_flatMap, List.mem_range, List.mem_map, List.mem_range'_1, Prod.mk.injEq]
  constructor
  · rintro ⟨a, ha, b, hb, rfl, rfl⟩; omega
  · rintro ⟨h1, h2⟩; exact ⟨i, by omega, j, by omega, rfl, rfl⟩

theorem coagLoop_mass {n : ℕ} {bins : List ℝ} (h : Bins n bins) {c : Coag} {s : State} {f : ℝ}
    (hs : n ≤ s.sootVar.length) (l : List (ℕ × ℕ)) (hl : ∀ p ∈ l, p.1 ≤ p.2 ∧ p.2 < n) {S S' : ℕ → ℝ}
    (e : coagLoop n bins c s f l S = ok S') :
    ∑ i ∈ Finset.range n, bins.getD i 0 * S' i = ∑ i ∈ Finset.range n, bins.getD i 0 * S i := by
  induction l generalizing S with
  | nil => rw [coagLoop] at e; cases e; rfl
  | cons p t ih =>
    obtain ⟨i, j⟩ := p
    obtain ⟨hij, hj⟩ := hl (i, j) (by simp)
    simp only at hij hj
    rw [coagLoop, bind_eq_ok] at e
    obtain ⟨S1, h1, e⟩ := e
    rw [ih (fun p hp => hl p (by simp [hp])) e]
    obtain ⟨K, k, _, _, rfl⟩ := coagPair_inv h (by omega) hj hs h1
    rw [pairGain_mass h, pairLoss_sum (by omega) hj hij (fun i => bins.getD i 0)]
    ring

theorem coagLoop_num {n : ℕ} {bins : List ℝ} (h : Bins n bins) {c : Coag} {s : State} {f : ℝ}
    (hs : n ≤ s.sootVar.length) (hph : s.Phys) (hc : 0 < c.fmMult) (hv : ∀ x ∈ s.sootVar, 0 ≤ x)
    (l : List (ℕ × ℕ)) (hl : ∀ p ∈ l, p.1 ≤ p.2 ∧ p.2 < n) {S S' : ℕ → ℝ}
    (e : coagLoop n bins c s f l S = ok S') :
    ∑ i ∈ Finset.range n, S' i ≤ ∑ i ∈ Finset.range n, S i := by
  induction l generalizing S with
  | nil => rw [coagLoop] at e; cases e; exact le_rfl
  | cons p t ih =>
    obtain ⟨i, j⟩ := p
    obtain ⟨hij, hj⟩ := hl (i, j) (by simp)
    simp only at hij hj
    rw [coagLoop, bind_eq_ok] at e
    obtain ⟨S1, h1, e⟩ := e
    refine (ih (fun p hp => hl p (by simp [hp])) e).trans ?_
    obtain ⟨K, k, hK, _, rfl⟩ := coagPair_inv h (by omega) hj hs h1
    rw [Coag.rate_ok hph hc] at hK
    have hK0 : 0 ≤ K := by cases hK; exact Coag.val_nonneg hph hc _ _
    have ht : 0 ≤ pairEvents (K * s.sootVar.getD i 0 * s.sootVar.getD j 0) i j := by
      have := getD_nonneg hv i; have := getD_nonneg hv j
      unfold pairEvents; split_ifs <;> positivity
    rw [pairGain_num h]
    have hl := pairLoss_sum (n := n) (i := i) (j := j) (by omega) hj hij (fun _ => 1) S
      (K * s.sootVar.getD i 0 * s.sootVar.getD j 0)
    simp only [one_mul] at hl
    rw [hl]
    generalize pairEvents (K * s.sootVar.getD i 0 * s.sootVar.getD j 0) i j = t at *
    have : (if n - 1 ≤ k then t * (bins.getD i 0 + bins.getD j 0) / bins.getD (n - 1) 0 else t) ≤ t * (1 + 1) := by
      split_ifs
      · have hn := h.two
        have ht1 := h.pos (show n - 1 < n by omega)
        have e1 := h.le (show i ≤ n - 1 by omega) (by omega)
        have e2 := h.le (show j ≤ n - 1 by omega) (by omega)
        rw [div_le_iff₀ ht1, mul_assoc]
        apply mul_le_mul_of_nonneg_left _ ht
        linarith
      · linarith
    linarith

end Soot
