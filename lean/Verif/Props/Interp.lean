import Verif.Interp
import Mathlib.LinearAlgebra.AffineSpace.AffineMap
import Mathlib.Data.List.GetD
import Mathlib.Tactic.IntervalCases
import Mathlib.Tactic.Linarith
import Mathlib.Tactic.FieldSimp
import Mathlib.Tactic.NormNum
import Mathlib.Tactic.Ring

/-!
# Property C52: linear interpolation
-/

namespace Soot

open Res
open scoped Classical

/-! ## Specification -/

/-- Strictly increasing table. -/
def Incr (X : List ℝ) : Prop := ∀ i j : ℕ, i < j → j < X.length → X.getD i 0 < X.getD j 0
/-- Strictly decreasing table. -/
def Decr (X : List ℝ) : Prop := ∀ i j : ℕ, i < j → j < X.length → X.getD j 0 < X.getD i 0

/-- The straight line through the points `i` and `i+1` of the table, at `x`. -/
noncomputable def chord (X Y : List ℝ) (i : ℕ) (x : ℝ) : ℝ :=
  AffineMap.lineMap (Y.getD i 0) (Y.getD (i + 1) 0) ((x - X.getD i 0) / (X.getD (i + 1) 0 - X.getD i 0))

theorem chord_apply (X Y : List ℝ) (i : ℕ) (x : ℝ) : chord X Y i x =
    Y.getD i 0 + (x - X.getD i 0) * (Y.getD (i + 1) 0 - Y.getD i 0) / (X.getD (i + 1) 0 - X.getD i 0) := by
  simp only [chord, AffineMap.lineMap_apply, smul_eq_mul, vsub_eq_sub, vadd_eq_add]
  ring

theorem idx_getD' {l : List ℝ} {i : ℕ} (h : i < l.length) : idx l i = ok (l.getD i 0) := by
  rw [idx_ok h, List.getD_eq_getElem _ _ h]

/-! ## One evaluation -/

theorem interp_at {t : Interp} {x : ℝ} {i : ℕ} (hY : t.Y.length = t.X.length) (hi : t.hi x = ok (i + 1))
    (h : i + 1 < t.X.length) (hne : t.X.getD (i + 1) 0 ≠ t.X.getD i 0) : t.interp x = ok (chord t.X t.Y i x) := by
  rw [Interp.interp, hi, ok_bind, if_neg (by omega), Nat.add_sub_cancel, idx_getD' (by omega), ok_bind,
    idx_getD' (by omega), ok_bind, idx_getD' (by omega), ok_bind, idx_getD' h, ok_bind, cdiv_ok (sub_ne_zero.mpr hne),
    ok_bind, chord_apply]

theorem lowerBound_incr {X : List ℝ} (hX : Incr X) {x : ℝ} (h0 : X.getD 0 0 < x) (h1 : x < X.getD (X.length - 1) 0)
    (hl : 2 ≤ X.length) :
    ∃ i, i + 1 < X.length ∧ lowerBound X x = ok (i + 1) ∧ X.getD i 0 < x ∧ x ≤ X.getD (i + 1) 0 := by
  have hp : ∀ i j : ℕ, i < j → j < X.length → X.getD j 0 < x → X.getD i 0 < x :=
    fun i j hij hj h => (hX i j hij hj).trans h
  rw [lowerBound, if_pos hp]
  set k := X.findIdx fun a => decide (x ≤ a) with hk
  have hkl : k < X.length := by
    rw [hk, List.findIdx_lt_length]
    refine ⟨X.getD (X.length - 1) 0, ?_, by simpa using h1.le⟩
    rw [List.getD_eq_getElem _ _ (by omega)]; exact List.getElem_mem _
  have hkx : x ≤ X.getD k 0 := by
    rw [List.getD_eq_getElem _ _ hkl]
    simpa using List.findIdx_getElem (w := hkl)
  have hk0 : k ≠ 0 := by
    intro h; rw [h] at hkx; exact absurd hkx (not_le.mpr h0)
  obtain ⟨i, hi⟩ := Nat.exists_eq_succ_of_ne_zero hk0
  refine ⟨i, by omega, by rw [hi], ?_, by rw [hi] at hkx; exact hkx⟩
  have := List.not_of_lt_findIdx (p := fun a => decide (x ≤ a)) (xs := X) (i := i) (by omega)
  rw [List.getD_eq_getElem _ _ (by omega)]
  simpa using this

/-- The chosen segment: it contains `x` when `x` is inside the table, and is an end segment otherwise. -/
theorem hi_incr {t : Interp} (hX : Incr t.X) (hn : t.nxy = t.X.length) (hl : 2 ≤ t.X.length) (x : ℝ) :
    ∃ i, i + 1 < t.X.length ∧ t.hi x = ok (i + 1) ∧
      (x ≤ t.X.getD 0 0 → i = 0) ∧ (t.X.getD (t.X.length - 1) 0 ≤ x → i + 2 = t.X.length) ∧
      (t.X.getD 0 0 ≤ x → x ≤ t.X.getD (t.X.length - 1) 0 → t.X.getD i 0 ≤ x ∧ x ≤ t.X.getD (i + 1) 0) := by
  have hends : t.X.getD 0 0 < t.X.getD (t.X.length - 1) 0 := hX _ _ (by omega) (by omega)
  have h01 : t.X.getD 0 0 < t.X.getD 1 0 := hX _ _ (by omega) (by omega)
  rw [Interp.hi, idx_getD' (by omega), ok_bind]
  by_cases h0 : x ≤ t.X.getD 0 0
  · refine ⟨0, by omega, by rw [if_pos h0], fun _ => rfl, fun h => by linarith, fun h _ => ⟨h, h0.trans h01.le⟩⟩
  rw [if_neg h0, idx_getD' (by omega), ok_bind]
  push Not at h0
  by_cases h1 : x ≥ t.X.getD (t.X.length - 1) 0
  · rw [if_pos h1, hn]
    refine ⟨t.X.length - 2, by omega, by congr 1; omega, fun h => by linarith, fun _ => by omega, fun _ h => ?_⟩
    have e : t.X.length - 2 + 1 = t.X.length - 1 := by omega
    rw [e]
    exact ⟨(hX _ _ (by omega) (by omega)).le.trans h1, h⟩
  · rw [if_neg h1]
    push Not at h1
    obtain ⟨i, hi, hlb, ha, hb⟩ := lowerBound_incr hX h0 h1 hl
    exact ⟨i, hi, hlb, fun h => by linarith, fun h => by linarith, fun _ _ => ⟨ha.le, hb⟩⟩

/-! ## C52 -/

/-- Inside a strictly increasing table of at least two points the result lies on the straight line between the two
neighbouring points, hence between their values; there is no undefined behaviour and no division by zero. -/
theorem C52_interp_between {X Y : List ℝ} (hX : Incr X) (hY : Y.length = X.length) (hl : 2 ≤ X.length) {x : ℝ}
    (h0 : X.getD 0 0 ≤ x) (h1 : x ≤ X.getD (X.length - 1) 0) :
    ∃ i y, i + 1 < X.length ∧ X.getD i 0 ≤ x ∧ x ≤ X.getD (i + 1) 0 ∧
      Interp.interp ⟨X, Y, X.length⟩ x = ok y ∧ y = chord X Y i x ∧
      min (Y.getD i 0) (Y.getD (i + 1) 0) ≤ y ∧ y ≤ max (Y.getD i 0) (Y.getD (i + 1) 0) := by
  obtain ⟨i, hi, hh, -, -, hin⟩ := hi_incr (t := ⟨X, Y, X.length⟩) hX rfl hl x
  obtain ⟨ha, hb⟩ := hin h0 h1
  have hd := hX i (i + 1) (by omega) hi
  dsimp only at hi hh ha hb
  refine ⟨i, _, hi, ha, hb, interp_at hY hh hi hd.ne', rfl, ?_⟩
  rw [chord_apply]
  have hpos : 0 < X.getD (i + 1) 0 - X.getD i 0 := by linarith
  set q := (x - X.getD i 0) / (X.getD (i + 1) 0 - X.getD i 0) with hq
  have hq0 : 0 ≤ q := div_nonneg (by linarith) hpos.le
  have hq1 : q ≤ 1 := by rw [hq, div_le_one hpos]; linarith
  have he : Y.getD i 0 + (x - X.getD i 0) * (Y.getD (i + 1) 0 - Y.getD i 0) / (X.getD (i + 1) 0 - X.getD i 0) =
      (1 - q) * Y.getD i 0 + q * Y.getD (i + 1) 0 := by rw [hq]; ring
  rw [he]
  constructor
  · have a1 := min_le_left (Y.getD i 0) (Y.getD (i + 1) 0)
    have a2 := min_le_right (Y.getD i 0) (Y.getD (i + 1) 0)
    nlinarith
  · have a1 := le_max_left (Y.getD i 0) (Y.getD (i + 1) 0)
    have a2 := le_max_right (Y.getD i 0) (Y.getD (i + 1) 0)
    nlinarith

/-- At every node the tabulated value is returned. -/
theorem C52_interp_node {X Y : List ℝ} (hX : Incr X) (hY : Y.length = X.length) (hl : 2 ≤ X.length) {j : ℕ}
    (hj : j < X.length) : Interp.interp ⟨X, Y, X.length⟩ (X.getD j 0) = ok (Y.getD j 0) := by
  have mono : ∀ a b : ℕ, a ≤ b → b < X.length → X.getD a 0 ≤ X.getD b 0 := by
    intro a b hab hb
    rcases hab.eq_or_lt with rfl | h
    · exact le_rfl
    · exact (hX _ _ h hb).le
  obtain ⟨i, hi, hh, -, -, hin⟩ := hi_incr (t := ⟨X, Y, X.length⟩) hX rfl hl (X.getD j 0)
  dsimp only at hin
  obtain ⟨ha, hb⟩ := hin (mono _ _ (by omega) hj) (mono _ _ (by omega) (by omega))
  have hd := hX i (i + 1) (by omega) hi
  dsimp only at hi hh ha hb
  rw [interp_at hY hh hi hd.ne', chord_apply]
  have hij : i = j ∨ i + 1 = j := by
    by_contra h
    push Not at h
    rcases lt_or_gt_of_ne h.1 with h' | h'
    · have : i + 1 < j := by omega
      exact absurd hb (not_le.mpr (hX _ _ this hj))
    · exact absurd ha (not_le.mpr (hX _ _ h' (by omega)))
  rcases hij with rfl | rfl
  · simp
  · congr 1
    have : X.getD (i + 1) 0 - X.getD i 0 ≠ 0 := sub_ne_zero.mpr hd.ne'
    field_simp
    ring

/-- Outside the table the end segments are continued. -/
theorem C52_interp_outside {X Y : List ℝ} (hX : Incr X) (hY : Y.length = X.length) (hl : 2 ≤ X.length) (x : ℝ) :
    (x ≤ X.getD 0 0 → Interp.interp ⟨X, Y, X.length⟩ x = ok (chord X Y 0 x)) ∧
      (X.getD (X.length - 1) 0 ≤ x → Interp.interp ⟨X, Y, X.length⟩ x = ok (chord X Y (X.length - 2) x)) := by
  obtain ⟨i, hi, hh, hlo, hup, -⟩ := hi_incr (t := ⟨X, Y, X.length⟩) hX rfl hl x
  dsimp only at hi hh hlo hup
  have hd := hX i (i + 1) (by omega) hi
  have := interp_at (t := ⟨X, Y, X.length⟩) hY hh hi hd.ne'
  refine ⟨fun h => ?_, fun h => ?_⟩
  · rw [hlo h] at this; exact this
  · rw [this]; congr 2; have := hup h; omega

/-- A table with fewer than two points: undefined behaviour for every argument. -/
theorem C52_interp_short {X Y : List ℝ} (hl : X.length < 2) (x : ℝ) : Interp.interp ⟨X, Y, X.length⟩ x = ub := by
  match X, hl with
  | [], _ => simp [Interp.interp, Interp.hi]
  | [a], _ =>
    by_cases h : x ≤ a
    · simp only [Interp.interp, Interp.hi, idx_cons_zero, ok_bind, if_pos h, one_ne_zero, if_false]
      have hc : ∀ j, (∃ y, idx Y j = ok y) ∨ idx Y j = ub := fun j => by
        rcases lt_or_ge j Y.length with h | h
        · exact Or.inl ⟨_, idx_ok h⟩
        · exact Or.inr (idx_ub h)
      rcases hc (1 - 1) with ⟨y, hy⟩ | hy
      · simp only [hy, ok_bind, Nat.sub_self, idx_cons_zero]
        rcases hc 1 with ⟨z, hz⟩ | hz
        · simp [hz, idx_cons_succ (n := 0)]
        · simp [hz]
      · rw [hy]; rfl
    · push Not at h
      simp [Interp.interp, Interp.hi, not_le.mpr h, h.le]

/-! ## The constructor -/

theorem turnAt_ok {X : List ℝ} {i : ℕ} (h1 : 1 ≤ i) (h : i + 1 < X.length) : turnAt X i = ok
    (X.getD i 0 = X.getD (i - 1) 0 ∨ X.getD i 0 = X.getD (i + 1) 0 ∨
      (X.getD i 0 < X.getD (i - 1) 0 ∧ X.getD i 0 < X.getD (i + 1) 0) ∨
      (X.getD i 0 > X.getD (i - 1) 0 ∧ X.getD i 0 > X.getD (i + 1) 0)) := by
  rw [turnAt, idx_getD' (by omega), ok_bind, idx_getD' (by omega), ok_bind, idx_getD' h, ok_bind]

/-- No turning point at `i`: the table goes the same way on both sides. -/
def Straight (X : List ℝ) (i : ℕ) : Prop :=
  (X.getD (i - 1) 0 < X.getD i 0 ∧ X.getD i 0 < X.getD (i + 1) 0) ∨
    (X.getD (i + 1) 0 < X.getD i 0 ∧ X.getD i 0 < X.getD (i - 1) 0)

theorem turn_iff (a b c : ℝ) : ¬ (b = a ∨ b = c ∨ (b < a ∧ b < c) ∨ (b > a ∧ b > c)) ↔ (a < b ∧ b < c) ∨ (c < b ∧ b < a) := by
  constructor
  · intro h
    push Not at h
    obtain ⟨h1, h2, h3, h4⟩ := h
    rcases lt_or_gt_of_ne h1 with h | h
    · exact Or.inr ⟨lt_of_le_of_ne (h3 h) (Ne.symm h2), h⟩
    · exact Or.inl ⟨h, lt_of_le_of_ne (h4 h) h2⟩
  · rintro (⟨h1, h2⟩ | ⟨h1, h2⟩) (h | h | ⟨h, h'⟩ | ⟨h, h'⟩) <;> linarith

theorem turnLoop_ok {X : List ℝ} : ∀ {n i : ℕ}, 1 ≤ i → i + n < X.length →
    turnLoop X n i = ok (if ∀ j, i ≤ j → j < i + n → Straight X j then some () else none)
  | 0, i, _, _ => by
    rw [turnLoop, if_pos]; intro j h1 h2; omega
  | n + 1, i, h1, h => by
    rw [turnLoop, turnAt_ok h1 (by omega), ok_bind]
    by_cases ht : Straight X i
    · rw [if_neg ((turn_iff _ _ _).mpr ht), turnLoop_ok (by omega) (by omega)]
      congr 1
      refine if_congr ⟨fun H j a b => ?_, fun H j a b => H j (by omega) (by omega)⟩ rfl rfl
      rcases a.eq_or_lt with rfl | a
      · exact ht
      · exact H j a (by omega)
    · have : ¬ ∀ j, i ≤ j → j < i + (n + 1) → Straight X j := fun H => ht (H i le_rfl (by omega))
      rw [if_neg this, if_pos]
      by_contra hc
      exact ht ((turn_iff _ _ _).mp hc)

theorem incr_of_step {X : List ℝ} (h : ∀ i, i + 1 < X.length → X.getD i 0 < X.getD (i + 1) 0) : Incr X := by
  intro i j hij
  induction j with
  | zero => omega
  | succ j ih =>
    intro hj
    rcases (Nat.lt_succ_iff.mp hij).eq_or_lt with rfl | h'
    · exact h _ hj
    · exact (ih h' (by omega)).trans (h _ hj)

theorem decr_of_step {X : List ℝ} (h : ∀ i, i + 1 < X.length → X.getD (i + 1) 0 < X.getD i 0) : Decr X := by
  intro i j hij
  induction j with
  | zero => omega
  | succ j ih =>
    intro hj
    rcases (Nat.lt_succ_iff.mp hij).eq_or_lt with rfl | h'
    · exact h _ hj
    · exact (h _ hj).trans (ih h' (by omega))

theorem straight_iff {X : List ℝ} (hl : 3 ≤ X.length) :
    (∀ j, 1 ≤ j → j < 1 + (X.length - 2) → Straight X j) ↔ Incr X ∨ Decr X := by
  constructor
  · intro H
    rcases H 1 le_rfl (by omega) with ⟨h0, -⟩ | ⟨-, h0⟩
    · refine Or.inl (incr_of_step fun i => ?_)
      induction i with
      | zero => intro _; exact h0
      | succ i ih =>
        intro hi
        have h1 := ih (by omega)
        rcases H (i + 1) (by omega) (by omega) with ⟨-, h⟩ | ⟨-, h⟩
        · exact h
        · rw [Nat.add_sub_cancel] at h; linarith
    · refine Or.inr (decr_of_step fun i => ?_)
      induction i with
      | zero => intro _; exact h0
      | succ i ih =>
        intro hi
        have h1 := ih (by omega)
        rcases H (i + 1) (by omega) (by omega) with ⟨h, -⟩ | ⟨h, -⟩
        · rw [Nat.add_sub_cancel] at h; linarith
        · exact h
  · rintro (H | H) j h1 h2
    · exact Or.inl ⟨H _ _ (by omega) (by omega), H _ _ (by omega) (by omega)⟩
    · exact Or.inr ⟨H _ _ (by omega) (by omega), H _ _ (by omega) (by omega)⟩

/-- The constructor never reads outside the vectors and accepts exactly the tables of equal lengths that have at most two points
or are strictly monotonic, in either direction. -/
theorem C52_new_iff (X Y : List ℝ) : ∃ r, Interp.new X Y = ok r ∧
    (r = some ⟨X, Y, X.length⟩ ∨ r = none) ∧
    (r = some ⟨X, Y, X.length⟩ ↔ X.length = Y.length ∧ (X.length ≤ 2 ∨ Incr X ∨ Decr X)) := by
  by_cases hl : X.length = Y.length
  · rw [Interp.new, if_neg (by simpa using hl)]
    by_cases h2 : X.length ≤ 2
    · have e : X.length - 2 = 0 := by omega
      rw [e, turnLoop, ok_bind]
      exact ⟨_, rfl, Or.inl rfl, by simp [hl]; omega⟩
    · rw [turnLoop_ok le_rfl (by omega), ok_bind]
      have hs := straight_iff (X := X) (by omega)
      by_cases hm : ∀ j, 1 ≤ j → j < 1 + (X.length - 2) → Straight X j
      · simp only [if_pos hm]
        exact ⟨_, rfl, Or.inl rfl, by simp [hl, hs.mp hm]⟩
      · simp only [if_neg hm]
        refine ⟨_, rfl, Or.inr rfl, ?_⟩
        have hn : ¬ (Incr X ∨ Decr X) := fun h => hm (hs.mpr h)
        simp [hn, h2]
  · rw [Interp.new, if_pos (by simpa using hl)]
    exact ⟨_, rfl, Or.inr rfl, by simp [hl]⟩

/-- Strictly decreasing tables are accepted by the constructor, but `set_bounding_indicies` assumes increasing ones: every point
of the table's range is sent to the first segment. -/
theorem C52_interp_decreasing {X Y : List ℝ} (hX : Decr X) (hY : Y.length = X.length) (hl : 2 ≤ X.length) {x : ℝ}
    (h : x ≤ X.getD 0 0) :
    Interp.new X Y = ok (some ⟨X, Y, X.length⟩) ∧ Interp.interp ⟨X, Y, X.length⟩ x = ok (chord X Y 0 x) := by
  constructor
  · obtain ⟨r, hr, -, hiff⟩ := C52_new_iff X Y
    rw [hr, hiff.mpr ⟨hY.symm, Or.inr (Or.inr hX)⟩]
  · refine interp_at hY ?_ (by dsimp only; omega) (hX 0 1 (by omega) (by omega)).ne
    rw [Interp.hi, idx_getD' (by dsimp only; omega), ok_bind, if_pos h]

/-- So nodes are not reproduced for decreasing tables: `X = 2, 1, 0`, `Y = 0, 0, 1` gives 0 at the last node. -/
theorem C52_interp_decreasing_false : ∃ X Y : List ℝ, Interp.new X Y = ok (some ⟨X, Y, X.length⟩) ∧
    ∃ j < X.length, ∃ y, Interp.interp ⟨X, Y, X.length⟩ (X.getD j 0) = ok y ∧ y ≠ Y.getD j 0 := by
  have hd : Decr [2, 1, 0] := decr_of_step fun i hi => by
    have hi' : i < 2 := by simp at hi; omega
    interval_cases i <;> norm_num
  obtain ⟨h1, h2⟩ := C52_interp_decreasing (Y := [0, 0, 1]) hd rfl (by simp) (x := 0) (by norm_num)
  refine ⟨_, _, h1, 2, by simp, _, h2, ?_⟩
  rw [chord_apply]
  norm_num

/-- A two-point table with equal abscissas is accepted and then divides zero by zero. -/
theorem C52_interp_equal_nodes (a y0 y1 x : ℝ) : Interp.new [a, a] [y0, y1] = ok (some ⟨[a, a], [y0, y1], 2⟩) ∧
    Interp.interp ⟨[a, a], [y0, y1], 2⟩ x = nonfin := by
  constructor
  · obtain ⟨r, hr, -, hiff⟩ := C52_new_iff [a, a] [y0, y1]
    rw [hr, hiff.mpr (by simp)]
    rfl
  · have key : ∀ ihi : ℕ, ihi = 1 → (Interp.hi ⟨[a, a], [y0, y1], 2⟩ x = ok ihi) →
        Interp.interp ⟨[a, a], [y0, y1], 2⟩ x = nonfin := by
      rintro _ rfl h
      simp [Interp.interp, h, idx]
    refine key 1 rfl ?_
    by_cases h : x ≤ a
    · simp [Interp.hi, h]
    · simp [Interp.hi, h, (not_le.mp h).le, idx]

/-! ## The hypotheses can be met -/

theorem exIncr : Incr [0, 1, 3] := incr_of_step fun i hi => by
  have hi' : i < 2 := by simp at hi; omega
  interval_cases i <;> norm_num

example : Interp.interp ⟨[0, 1, 3], [5, 7, 2], 3⟩ 1 = ok 7 := 
  C52_interp_node (Y := [5, 7, 2]) exIncr rfl (by simp) (j := 1) (by simp)
example : ∃ i y, i + 1 < 3 ∧ ([0, 1, 3] : List ℝ).getD i 0 ≤ 2 ∧ 2 ≤ ([0, 1, 3] : List ℝ).getD (i + 1) 0 ∧
    Interp.interp ⟨[0, 1, 3], [5, 7, 2], 3⟩ 2 = ok y  :=
  let ⟨i, y, h1, h2, h3, h4, _⟩ := C52_interp_between (Y := [5, 7, 2]) exIncr rfl (by simp) (x := 2) (by norm_num) (by norm_num)
  ⟨i, y, h1, h2, h3, h4⟩
example : Interp.interp ⟨[0, 1, 3], [5, 7, 2], 3⟩ 4 = ok (chord [0, 1, 3] [5, 7, 2] 1 4) :=
  (C52_interp_outside (Y := [5, 7, 2]) exIncr rfl (by simp) 4).2 (by norm_num)

end Soot
