import Verif.Bio
import Verif.Props.Ex
import Mathlib.Topology.Order.IntermediateValue
import Mathlib.Topology.Instances.Real.Lemmas

/-!
# C63: tar properties from biomass composition
-/

namespace Soot

open Res Real
open scoped Classical

theorem idx5 {l : List ℝ} (h : 5 ≤ l.length) : idx l 0 = ok (l.getD 0 0) ∧ idx l 1 = ok (l.getD 1 0) ∧ idx l 2 = ok (l.getD 2 0) ∧
    idx l 3 = ok (l.getD 3 0) ∧ idx l 4 = ok (l.getD 4 0) :=
  ⟨idx_getD (by omega), idx_getD (by omega), idx_getD (by omega), idx_getD (by omega), idx_getD (by omega)⟩

/-- **C63, undefined reads.** `get_mtar_ytar` is undefined exactly when fewer than five biomass components were supplied; in particular on
every state on which `getyBio` was never called. -/
theorem C63_ub_iff (s : State) : getMtarYtar s = ub ↔ s.yBio.length < 5 := by
  constructor
  · intro h
    by_contra hl
    obtain ⟨e0, e1, e2, e3, e4⟩ := idx5 (not_lt.mp hl)
    simp only [getMtarYtar, e0, e1, e2, e3, e4, ok_bind] at h
    have hd : ∀ x y, (cdiv x y = nonfin ∨ ∃ z, cdiv x y = ok z) := by
      intro x y; by_cases hy : y = 0
      · left; simp [hy]
      · right; exact ⟨_, cdiv_ok hy⟩
    have hc : clog10 (s.P / 101325) = nonfin ∨ ∃ z, clog10 (s.P / 101325) = ok z := by
      unfold clog10; split_ifs <;> simp
    rcases hc with hc | ⟨p, hc⟩
    · simp [hc] at h
    simp only [hc, ok_bind] at h
    rcases hd (yCellNum s.T p) (yCellDen s.T p) with q | ⟨z0, q⟩ <;> simp only [q, ok_bind, nonfin_bind, reduceCtorEq] at h
    rcases hd (mCellNum s.T p) (mCellDen s.T p) with q | ⟨z0, q⟩ <;> simp only [q, ok_bind, nonfin_bind, reduceCtorEq] at h
    rcases hd (yHwHcNum s.T p) (yHwHcDen s.T p) with q | ⟨z0, q⟩ <;> simp only [q, ok_bind, nonfin_bind, reduceCtorEq] at h
    rcases hd (mHwHcNum s.T p) (mHwHcDen s.T p) with q | ⟨z0, q⟩ <;> simp only [q, ok_bind, nonfin_bind, reduceCtorEq] at h
    rcases hd (ySwHcNum s.T p) (ySwHcDen s.T p) with q | ⟨z0, q⟩ <;> simp only [q, ok_bind, nonfin_bind, reduceCtorEq] at h
    rcases hd (mSwHcNum s.T p) (mSwHcDen s.T p) with q | ⟨z0, q⟩ <;> simp only [q, ok_bind, nonfin_bind, reduceCtorEq] at h
    rcases hd (yHwLigNum s.T p) (yHwLigDen s.T p) with q | ⟨z0, q⟩ <;> simp only [q, ok_bind, nonfin_bind, reduceCtorEq] at h
    rcases hd (mHwLigNum s.T p) (mHwLigDen s.T p) with q | ⟨z0, q⟩ <;> simp only [q, ok_bind, nonfin_bind, reduceCtorEq] at h
    rcases hd (ySwLigNum s.T p) (ySwLigDen s.T p) with q | ⟨z0, q⟩ <;> simp only [q, ok_bind, nonfin_bind, reduceCtorEq] at h
    rcases hd (mSwLigNum s.T p) (mSwLigDen s.T p) with q | ⟨z0, q⟩ <;> simp only [q, ok_bind, nonfin_bind, reduceCtorEq] at h
  · intro hl
    have hi : ∀ i, idx s.yBio i = ok (s.yBio.getD i 0) ∨ idx s.yBio i = ub := by
      intro i
      by_cases h : i < s.yBio.length
      · exact .inl (idx_getD h)
      · exact .inr (idx_ub (not_lt.mp h))
    have h4 : idx s.yBio 4 = ub := idx_ub (by omega)
    rw [getMtarYtar]
    rcases hi 0 with e | e <;> rw [e]
    swap
    · rfl
    rw [ok_bind]
    rcases hi 1 with e | e <;> rw [e]
    swap
    · rfl
    rw [ok_bind]
    rcases hi 2 with e | e <;> rw [e]
    swap
    · rfl
    rw [ok_bind]
    rcases hi 3 with e | e <;> rw [e]
    swap
    · rfl
    rw [ok_bind, h4]
    rfl

example : getMtarYtar (exSt [1E15, 1E-6] false) = ub := (C63_ub_iff _).mpr (by simp [exSt_eq, stateAfter, State.mk'])

/-- A row of weights and the weighted sum of five numbers. -/
def mix (y : Fin 5 → ℝ) (b : List ℝ) : ℝ := ∑ i : Fin 5, y i * b.getD i 0

theorem mix_eq (y : Fin 5 → ℝ) (b : List ℝ) :
    mix y b = y 0 * b.getD 0 0 + y 1 * b.getD 1 0 + y 2 * b.getD 2 0 + y 3 * b.getD 3 0 + y 4 * b.getD 4 0 := by
  simp [mix, Fin.sum_univ_five]

/-- **C63, mixing rule.** For each temperature and pressure, either the call is non-finite for every composition, or there are fixed
constituent values such that for every composition with at least five entries the call stores the weighted sums and changes nothing else. -/
theorem C63_mixing (T P : ℝ) :
    (∀ s : State, s.T = T → s.P = P → 5 ≤ s.yBio.length → getMtarYtar s = nonfin) ∨
    ∃ y m : Fin 5 → ℝ, ∀ s : State, s.T = T → s.P = P → 5 ≤ s.yBio.length →
      getMtarYtar s = ok { s with ytar := mix y s.yBio, mtar := mix m s.yBio } := by
  by_cases hP : P / 101325 ≤ 0
  · left
    rintro s rfl rfl hl
    obtain ⟨e0, e1, e2, e3, e4⟩ := idx5 hl
    simp [getMtarYtar, e0, e1, e2, e3, e4, clog10, hP]
  set p := logb 10 (P / 101325) with hp
  by_cases hz : yCellDen T p = 0 ∨ mCellDen T p = 0 ∨ yHwHcDen T p = 0 ∨ mHwHcDen T p = 0 ∨ ySwHcDen T p = 0 ∨ mSwHcDen T p = 0 ∨
      yHwLigDen T p = 0 ∨ mHwLigDen T p = 0 ∨ ySwLigDen T p = 0 ∨ mSwLigDen T p = 0
  · left
    rintro s rfl rfl hl
    obtain ⟨e0, e1, e2, e3, e4⟩ := idx5 hl
    simp only [getMtarYtar, e0, e1, e2, e3, e4, ok_bind, clog10, if_neg hP, ← hp]
    have hd : ∀ (x y : ℝ) {k : ℝ → Res State}, (y ≠ 0 → k (x / y) = nonfin) → (cdiv x y >>= k) = nonfin := by
      intro x y k hk
      by_cases hy : y = 0
      · simp [hy]
      · rw [cdiv_ok hy, ok_bind, hk hy]
    refine hd _ _ fun n0 => hd _ _ fun n1 => hd _ _ fun n2 => hd _ _ fun n3 => hd _ _ fun n4 => hd _ _ fun n5 => hd _ _ fun n6 =>
      hd _ _ fun n7 => hd _ _ fun n8 => hd _ _ fun n9 => ?_
    simp only [n0, n1, n2, n3, n4, n5, n6, n7, n8, n9, or_false] at hz
  · right
    simp only [not_or] at hz
    obtain ⟨n0, n1, n2, n3, n4, n5, n6, n7, n8, n9⟩ := hz
    refine ⟨![yCellNum T p / yCellDen T p, yHwHcNum T p / yHwHcDen T p, ySwHcNum T p / ySwHcDen T p, yHwLigNum T p / yHwLigDen T p,
      ySwLigNum T p / ySwLigDen T p],
      ![mCellNum T p / mCellDen T p, mHwHcNum T p / mHwHcDen T p, mSwHcNum T p / mSwHcDen T p, mHwLigNum T p / mHwLigDen T p,
      mSwLigNum T p / mSwLigDen T p], ?_⟩
    rintro s rfl rfl hl
    obtain ⟨e0, e1, e2, e3, e4⟩ := idx5 hl
    simp only [getMtarYtar, e0, e1, e2, e3, e4, ok_bind, clog10, if_neg hP, ← hp, cdiv_ok n0, cdiv_ok n1, cdiv_ok n2, cdiv_ok n3,
      cdiv_ok n4, cdiv_ok n5, cdiv_ok n6, cdiv_ok n7, cdiv_ok n8, cdiv_ok n9, mix_eq]
    rfl

theorem quot01 {n d : ℝ} (hd : 0 < d) (hn : 0 ≤ n) (h : n ≤ d) : 0 ≤ n / d ∧ n / d ≤ 1 :=
  ⟨div_nonneg hn hd.le, (div_le_one hd).mpr h⟩

theorem fit_d0 {T : ℝ} (h1 : 600 ≤ T) (h2 : T ≤ 2500) : 0 < yCellDen T 0 := by
  have a1 : 0 ≤ T - 600 := by linarith
  have a2 : 0 ≤ 2500 - T := by linarith
  have a3 := mul_nonneg a1 a2
  have a4 := mul_nonneg a1 a1
  have a5 := mul_nonneg a1 a3
  have a6 := mul_nonneg a2 a3
  unfold yCellDen; nlinarith

theorem fit_d1 {T : ℝ} (h1 : 600 ≤ T) (h2 : T ≤ 2500) : 0 < mCellDen T 0 := by
  have a1 : 0 ≤ T - 600 := by linarith
  have a2 : 0 ≤ 2500 - T := by linarith
  have a3 := mul_nonneg a1 a2
  have a4 := mul_nonneg a1 a1
  have a5 := mul_nonneg a1 a3
  have a6 := mul_nonneg a2 a3
  unfold mCellDen; nlinarith

theorem fit_d2 {T : ℝ} (h1 : 600 ≤ T) (h2 : T ≤ 2500) : 0 < yHwHcDen T 0 := by
  have a1 : 0 ≤ T - 600 := by linarith
  have a2 : 0 ≤ 2500 - T := by linarith
  have a3 := mul_nonneg a1 a2
  have a4 := mul_nonneg a1 a1
  have a5 := mul_nonneg a1 a3
  have a6 := mul_nonneg a2 a3
 
  have : (0 : ℝ) < 5.75E3 - 1.45E-4 * T * T := by nlinarith
  have : 0 < T := by linarith
  have e : yHwHcDen T 0 = T * (5.75E3 - 1.45E-4 * T * T) := by unfold yHwHcDen; ring
  rw [e]; positivity

theorem fit_d3 {T : ℝ} (h1 : 600 ≤ T) (h2 : T ≤ 2500) : 0 < mHwHcDen T 0 := by
  have a1 : 0 ≤ T - 600 := by linarith
  have a2 : 0 ≤ 2500 - T := by linarith
  have a3 := mul_nonneg a1 a2
  have a4 := mul_nonneg a1 a1
  have a5 := mul_nonneg a1 a3
  have a6 := mul_nonneg a2 a3
  unfold mHwHcDen; nlinarith

theorem fit_d4 {T : ℝ} (h1 : 600 ≤ T) (h2 : T ≤ 2500) : 0 < ySwHcDen T 0 := by
  have a1 : 0 ≤ T - 600 := by linarith
  have a2 : 0 ≤ 2500 - T := by linarith
  have a3 := mul_nonneg a1 a2
  have a4 := mul_nonneg a1 a1
  have a5 := mul_nonneg a1 a3
  have a6 := mul_nonneg a2 a3
  unfold ySwHcDen; nlinarith

theorem fit_d5 {T : ℝ} (h1 : 600 ≤ T) (h2 : T ≤ 2500) : 0 < mSwHcDen T 0 := by
  have a1 : 0 ≤ T - 600 := by linarith
  have a2 : 0 ≤ 2500 - T := by linarith
  have a3 := mul_nonneg a1 a2
  have a4 := mul_nonneg a1 a1
  have a5 := mul_nonneg a1 a3
  have a6 := mul_nonneg a2 a3
  unfold mSwHcDen; nlinarith

theorem fit_d6 {T : ℝ} (h1 : 600 ≤ T) (h2 : T ≤ 2500) : 0 < yHwLigDen T 0 := by
  have a1 : 0 ≤ T - 600 := by linarith
  have a2 : 0 ≤ 2500 - T := by linarith
  have a3 := mul_nonneg a1 a2
  have a4 := mul_nonneg a1 a1
  have a5 := mul_nonneg a1 a3
  have a6 := mul_nonneg a2 a3
  unfold yHwLigDen; nlinarith [mul_nonneg (by linarith : (0:ℝ) ≤ T) (sq_nonneg (T - 1600)), sq_nonneg (T - 1600)]

theorem fit_d7 {T : ℝ} (h1 : 600 ≤ T) (h2 : T ≤ 2500) : 0 < mHwLigDen T 0 := by
  have a1 : 0 ≤ T - 600 := by linarith
  have a2 : 0 ≤ 2500 - T := by linarith
  have a3 := mul_nonneg a1 a2
  have a4 := mul_nonneg a1 a1
  have a5 := mul_nonneg a1 a3
  have a6 := mul_nonneg a2 a3
  unfold mHwLigDen; nlinarith

theorem fit_d8 {T : ℝ} (h1 : 600 ≤ T) (h2 : T ≤ 2500) : 0 < ySwLigDen T 0 := by
  have a1 : 0 ≤ T - 600 := by linarith
  have a2 : 0 ≤ 2500 - T := by linarith
  have a3 := mul_nonneg a1 a2
  have a4 := mul_nonneg a1 a1
  have a5 := mul_nonneg a1 a3
  have a6 := mul_nonneg a2 a3
  unfold ySwLigDen; nlinarith [sq_nonneg (T - 2619)]

theorem fit_d9 {T : ℝ} (h1 : 600 ≤ T) (h2 : T ≤ 2500) : 0 < mSwLigDen T 0 := by
  have a1 : 0 ≤ T - 600 := by linarith
  have a2 : 0 ≤ 2500 - T := by linarith
  have a3 := mul_nonneg a1 a2
  have a4 := mul_nonneg a1 a1
  have a5 := mul_nonneg a1 a3
  have a6 := mul_nonneg a2 a3
  unfold mSwLigDen; nlinarith

theorem fit_n0 {T : ℝ} (h1 : 600 ≤ T) (h2 : T ≤ 2500) : 0 ≤ yCellNum T 0 := by
  have a1 : 0 ≤ T - 600 := by linarith
  have a2 : 0 ≤ 2500 - T := by linarith
  have a3 := mul_nonneg a1 a2
  have a4 := mul_nonneg a1 a1
  have a5 := mul_nonneg a1 a3
  have a6 := mul_nonneg a2 a3
  unfold yCellNum; nlinarith

theorem fit_n0' {T : ℝ} (h1 : 600 ≤ T) (h2 : T ≤ 2500) : yCellNum T 0 ≤ yCellDen T 0 := by
  have a1 : 0 ≤ T - 600 := by linarith
  have a2 : 0 ≤ 2500 - T := by linarith
  have a3 := mul_nonneg a1 a2
  have a4 := mul_nonneg a1 a1
  have a5 := mul_nonneg a1 a3
  have a6 := mul_nonneg a2 a3
  unfold yCellNum yCellDen; nlinarith

theorem fit_n2 {T : ℝ} (h1 : 600 ≤ T) (h2 : T ≤ 2500) : 0 ≤ yHwHcNum T 0 := by
  have a1 : 0 ≤ T - 600 := by linarith
  have a2 : 0 ≤ 2500 - T := by linarith
  have a3 := mul_nonneg a1 a2
  have a4 := mul_nonneg a1 a1
  have a5 := mul_nonneg a1 a3
  have a6 := mul_nonneg a2 a3
  unfold yHwHcNum; nlinarith

theorem fit_n2' {T : ℝ} (h1 : 600 ≤ T) (h2 : T ≤ 2500) : yHwHcNum T 0 ≤ yHwHcDen T 0 := by
  have a1 : 0 ≤ T - 600 := by linarith
  have a2 : 0 ≤ 2500 - T := by linarith
  have a3 := mul_nonneg a1 a2
  have a4 := mul_nonneg a1 a1
  have a5 := mul_nonneg a1 a3
  have a6 := mul_nonneg a2 a3
  unfold yHwHcNum yHwHcDen; nlinarith

theorem fit_n4 {T : ℝ} (h1 : 600 ≤ T) (h2 : T ≤ 2500) : 0 ≤ ySwHcNum T 0 := by
  have a1 : 0 ≤ T - 600 := by linarith
  have a2 : 0 ≤ 2500 - T := by linarith
  have a3 := mul_nonneg a1 a2
  have a4 := mul_nonneg a1 a1
  have a5 := mul_nonneg a1 a3
  have a6 := mul_nonneg a2 a3
  unfold ySwHcNum; nlinarith

theorem fit_n4' {T : ℝ} (h1 : 600 ≤ T) (h2 : T ≤ 2500) : ySwHcNum T 0 ≤ ySwHcDen T 0 := by
  have a1 : 0 ≤ T - 600 := by linarith
  have a2 : 0 ≤ 2500 - T := by linarith
  have a3 := mul_nonneg a1 a2
  have a4 := mul_nonneg a1 a1
  have a5 := mul_nonneg a1 a3
  have a6 := mul_nonneg a2 a3
  unfold ySwHcNum ySwHcDen; nlinarith

theorem fit_n6 {T : ℝ} (h1 : 600 ≤ T) (h2 : T ≤ 2500) : 0 ≤ yHwLigNum T 0 := by
  have a1 : 0 ≤ T - 600 := by linarith
  have a2 : 0 ≤ 2500 - T := by linarith
  have a3 := mul_nonneg a1 a2
  have a4 := mul_nonneg a1 a1
  have a5 := mul_nonneg a1 a3
  have a6 := mul_nonneg a2 a3
  unfold yHwLigNum; nlinarith [mul_nonneg (by linarith : (0:ℝ) ≤ T) (sq_nonneg (T - 1570)), sq_nonneg (T - 1570)]

theorem fit_n6' {T : ℝ} (h1 : 600 ≤ T) (h2 : T ≤ 2500) : yHwLigNum T 0 ≤ yHwLigDen T 0 := by
  have a1 : 0 ≤ T - 600 := by linarith
  have a2 : 0 ≤ 2500 - T := by linarith
  have a3 := mul_nonneg a1 a2
  have a4 := mul_nonneg a1 a1
  have a5 := mul_nonneg a1 a3
  have a6 := mul_nonneg a2 a3
  unfold yHwLigNum yHwLigDen; nlinarith [mul_nonneg (by linarith : (0:ℝ) ≤ T) (sq_nonneg (T - 1650)), sq_nonneg (T - 1650)]

theorem fit_n8 {T : ℝ} (h1 : 600 ≤ T) (h2 : T ≤ 2500) : 0 ≤ ySwLigNum T 0 := by
  have a1 : 0 ≤ T - 600 := by linarith
  have a2 : 0 ≤ 2500 - T := by linarith
  have a3 := mul_nonneg a1 a2
  have a4 := mul_nonneg a1 a1
  have a5 := mul_nonneg a1 a3
  have a6 := mul_nonneg a2 a3
  unfold ySwLigNum; nlinarith [mul_nonneg (by linarith : (0:ℝ) ≤ T) (sq_nonneg (T - 2620)), sq_nonneg (T - 2620)]

theorem fit_n8' {T : ℝ} (h1 : 600 ≤ T) (h2 : T ≤ 2500) : ySwLigNum T 0 ≤ ySwLigDen T 0 := by
  have a1 : 0 ≤ T - 600 := by linarith
  have a2 : 0 ≤ 2500 - T := by linarith
  have a3 := mul_nonneg a1 a2
  have a4 := mul_nonneg a1 a1
  have a5 := mul_nonneg a1 a3
  have a6 := mul_nonneg a2 a3
  unfold ySwLigNum ySwLigDen; nlinarith [mul_nonneg (by linarith : (0:ℝ) ≤ T) (sq_nonneg (T - 2600)), sq_nonneg (T - 2600)]

theorem fit_m1 {T : ℝ} (h1 : 600 ≤ T) (h2 : T ≤ 2500) : 0 < mCellNum T 0 := by
  have a1 : 0 ≤ T - 600 := by linarith
  have a2 : 0 ≤ 2500 - T := by linarith
  have a3 := mul_nonneg a1 a2
  have a4 := mul_nonneg a1 a1
  have a5 := mul_nonneg a1 a3
  have a6 := mul_nonneg a2 a3
  unfold mCellNum; nlinarith

theorem fit_m3 {T : ℝ} (h1 : 600 ≤ T) (h2 : T ≤ 2500) : 0 < mHwHcNum T 0 := by
  have a1 : 0 ≤ T - 600 := by linarith
  have a2 : 0 ≤ 2500 - T := by linarith
  have a3 := mul_nonneg a1 a2
  have a4 := mul_nonneg a1 a1
  have a5 := mul_nonneg a1 a3
  have a6 := mul_nonneg a2 a3
  unfold mHwHcNum; nlinarith

theorem fit_m5 {T : ℝ} (h1 : 600 ≤ T) (h2 : T ≤ 2500) : 0 < mSwHcNum T 0 := by
  have a1 : 0 ≤ T - 600 := by linarith
  have a2 : 0 ≤ 2500 - T := by linarith
  have a3 := mul_nonneg a1 a2
  have a4 := mul_nonneg a1 a1
  have a5 := mul_nonneg a1 a3
  have a6 := mul_nonneg a2 a3
  unfold mSwHcNum; nlinarith

theorem fit_m7 {T : ℝ} (h1 : 600 ≤ T) (h2 : T ≤ 2500) : 0 < mHwLigNum T 0 := by
  have a1 : 0 ≤ T - 600 := by linarith
  have a2 : 0 ≤ 2500 - T := by linarith
  have a3 := mul_nonneg a1 a2
  have a4 := mul_nonneg a1 a1
  have a5 := mul_nonneg a1 a3
  have a6 := mul_nonneg a2 a3
  unfold mHwLigNum; nlinarith [sq_nonneg (T - 700)]

theorem fit_m9 {T : ℝ} (h1 : 600 ≤ T) (h2 : T ≤ 2500) : 0 < mSwLigNum T 0 := by
  have a1 : 0 ≤ T - 600 := by linarith
  have a2 : 0 ≤ 2500 - T := by linarith
  have a3 := mul_nonneg a1 a2
  have a4 := mul_nonneg a1 a1
  have a5 := mul_nonneg a1 a3
  have a6 := mul_nonneg a2 a3
  unfold mSwLigNum; nlinarith

theorem fit_rCell {T : ℝ} (h1 : 600 ≤ T) (h2 : T ≤ 2500) : 301 * mCellDen T 0 ≤ mCellNum T 0 ∧ mCellNum T 0 ≤ 363 * mCellDen T 0 := by
  have a1 : 0 ≤ T - 600 := by linarith
  have a2 : 0 ≤ 2500 - T := by linarith
  have a3 := mul_nonneg a1 a2
  have a4 := mul_nonneg a1 a1
  have a5 := mul_nonneg a1 a3
  have a6 := mul_nonneg a2 a3
  unfold mCellNum mCellDen
  constructor <;> nlinarith

theorem fit_rHwHc {T : ℝ} (h1 : 600 ≤ T) (h2 : T ≤ 2500) : 389 * mHwHcDen T 0 ≤ mHwHcNum T 0 ∧ mHwHcNum T 0 ≤ 390 * mHwHcDen T 0 := by
  have a1 : 0 ≤ T - 600 := by linarith
  have a2 : 0 ≤ 2500 - T := by linarith
  have a3 := mul_nonneg a1 a2
  have a4 := mul_nonneg a1 a1
  have a5 := mul_nonneg a1 a3
  have a6 := mul_nonneg a2 a3
  unfold mHwHcNum mHwHcDen
  constructor <;> nlinarith

theorem fit_rSwHc {T : ℝ} (h1 : 600 ≤ T) (h2 : T ≤ 2500) : 396 * mSwHcDen T 0 ≤ mSwHcNum T 0 ∧ mSwHcNum T 0 ≤ 397 * mSwHcDen T 0 := by
  have a1 : 0 ≤ T - 600 := by linarith
  have a2 : 0 ≤ 2500 - T := by linarith
  have a3 := mul_nonneg a1 a2
  have a4 := mul_nonneg a1 a1
  have a5 := mul_nonneg a1 a3
  have a6 := mul_nonneg a2 a3
  unfold mSwHcNum mSwHcDen
  constructor <;> nlinarith

theorem fit_rHwLig {T : ℝ} (h1 : 600 ≤ T) (h2 : T ≤ 2500) : 308 * mHwLigDen T 0 ≤ mHwLigNum T 0 ∧ mHwLigNum T 0 ≤ 520 * mHwLigDen T 0 := by
  have a1 : 0 ≤ T - 600 := by linarith
  have a2 : 0 ≤ 2500 - T := by linarith
  have a3 := mul_nonneg a1 a2
  have a4 := mul_nonneg a1 a1
  have a5 := mul_nonneg a1 a3
  have a6 := mul_nonneg a2 a3
  unfold mHwLigNum mHwLigDen
  constructor <;> nlinarith [sq_nonneg (T - 1000), mul_nonneg a1 (sq_nonneg (T - 1500)), mul_nonneg a2 (sq_nonneg (T - 900)), mul_nonneg a2 (sq_nonneg (T - 1600))]

theorem fit_rSwLig {T : ℝ} (h1 : 600 ≤ T) (h2 : T ≤ 2500) : 227 * mSwLigDen T 0 ≤ mSwLigNum T 0 ∧ mSwLigNum T 0 ≤ 493 * mSwLigDen T 0 := by
  have a1 : 0 ≤ T - 600 := by linarith
  have a2 : 0 ≤ 2500 - T := by linarith
  have a3 := mul_nonneg a1 a2
  have a4 := mul_nonneg a1 a1
  have a5 := mul_nonneg a1 a3
  have a6 := mul_nonneg a2 a3
  unfold mSwLigNum mSwLigDen
  constructor <;> nlinarith

/-- **C63, range at atmospheric pressure (partial: one pressure, 600 K to 2500 K).** With non-negative biomass fractions of sum at most one
the tar yield is a fraction and the tar size is between 227 and 520 per unit of biomass. -/
theorem C63_range_partial (s : State) (hP : s.P = 101325) (h1 : 600 ≤ s.T) (h2 : s.T ≤ 2500) (hl : s.yBio.length = 5)
    (hb : ∀ y ∈ s.yBio, 0 ≤ y) (hs : s.yBio.sum ≤ 1) :
    ∃ s', getMtarYtar s = ok s' ∧ 0 ≤ s'.ytar ∧ s'.ytar ≤ 1 ∧ 227 * s.yBio.sum ≤ s'.mtar ∧ s'.mtar ≤ 520 * s.yBio.sum ∧
      s' = { s with ytar := s'.ytar, mtar := s'.mtar } := by
  obtain ⟨b0, b1, b2, b3, b4, hbe⟩ : ∃ b0 b1 b2 b3 b4, s.yBio = [b0, b1, b2, b3, b4] := by
    match hx : s.yBio, hl with
    | [b0, b1, b2, b3, b4], _ => exact ⟨b0, b1, b2, b3, b4, rfl⟩
  have c0 : 0 ≤ b0 := hb b0 (by simp [hbe])
  have c1 : 0 ≤ b1 := hb b1 (by simp [hbe])
  have c2 : 0 ≤ b2 := hb b2 (by simp [hbe])
  have c3 : 0 ≤ b3 := hb b3 (by simp [hbe])
  have c4 : 0 ≤ b4 := hb b4 (by simp [hbe])
  have hsum : s.yBio.sum = b0 + b1 + b2 + b3 + b4 := by rw [hbe]; simp; ring
  rw [hsum] at hs ⊢
  have hp : clog10 (s.P / 101325) = ok 0 := by rw [hP, clog10_ok (by norm_num)]; norm_num
  set T := s.T with hT
  have d0 := fit_d0 h1 h2
  have d1 := fit_d1 h1 h2
  have d2 := fit_d2 h1 h2
  have d3 := fit_d3 h1 h2
  have d4 := fit_d4 h1 h2
  have d5 := fit_d5 h1 h2
  have d6 := fit_d6 h1 h2
  have d7 := fit_d7 h1 h2
  have d8 := fit_d8 h1 h2
  have d9 := fit_d9 h1 h2
  have n0 := fit_n0 h1 h2
  have n0' := fit_n0' h1 h2
  have n2 := fit_n2 h1 h2
  have n2' := fit_n2' h1 h2
  have n4 := fit_n4 h1 h2
  have n4' := fit_n4' h1 h2
  have n6 := fit_n6 h1 h2
  have n6' := fit_n6' h1 h2
  have n8 := fit_n8 h1 h2
  have n8' := fit_n8' h1 h2
  have m1 := fit_m1 h1 h2
  have m3 := fit_m3 h1 h2
  have m5 := fit_m5 h1 h2
  have m7 := fit_m7 h1 h2
  have m9 := fit_m9 h1 h2
  obtain ⟨p0, p0'⟩ := quot01 d0 n0 n0'
  obtain ⟨p2, p2'⟩ := quot01 d2 n2 n2'
  obtain ⟨p4, p4'⟩ := quot01 d4 n4 n4'
  obtain ⟨p6, p6'⟩ := quot01 d6 n6 n6'
  obtain ⟨p8, p8'⟩ := quot01 d8 n8 n8'
  have q1 := div_pos m1 d1
  have q3 := div_pos m3 d3
  have q5 := div_pos m5 d5
  have q7 := div_pos m7 d7
  have q9 := div_pos m9 d9
  have lo : ∀ {k n d b : ℝ}, k * d ≤ n → 0 < d → 0 ≤ b → 227 ≤ k → 227 * b ≤ n / d * b := fun h hd hb hk =>
    mul_le_mul_of_nonneg_right (hk.trans ((le_div_iff₀ hd).2 h)) hb
  have hi : ∀ {k n d b : ℝ}, n ≤ k * d → 0 < d → 0 ≤ b → k ≤ 520 → n / d * b ≤ 520 * b := fun h hd hb hk =>
    mul_le_mul_of_nonneg_right (((div_le_iff₀ hd).2 h).trans hk) hb
  have i0 : idx s.yBio 0 = ok b0 := by rw [hbe]; rfl
  have i1 : idx s.yBio 1 = ok b1 := by rw [hbe]; rfl
  have i2 : idx s.yBio 2 = ok b2 := by rw [hbe]; rfl
  have i3 : idx s.yBio 3 = ok b3 := by rw [hbe]; rfl
  have i4 : idx s.yBio 4 = ok b4 := by rw [hbe]; rfl
  refine ⟨_, by
    simp only [getMtarYtar, i0, i1, i2, i3, i4, hp, ok_bind, ← hT, cdiv_ok d0.ne', cdiv_ok d1.ne', cdiv_ok d2.ne', cdiv_ok d3.ne',
      cdiv_ok d4.ne', cdiv_ok d5.ne', cdiv_ok d6.ne', cdiv_ok d7.ne', cdiv_ok d8.ne', cdiv_ok d9.ne']
    rfl, ?_, ?_, ?_, ?_, rfl⟩
  · positivity
  · have := mul_le_mul_of_nonneg_right p0' c0
    have := mul_le_mul_of_nonneg_right p2' c1
    have := mul_le_mul_of_nonneg_right p4' c2
    have := mul_le_mul_of_nonneg_right p6' c3
    have := mul_le_mul_of_nonneg_right p8' c4
    simp only []
    linarith
  · simp only []
    linarith [lo (fit_rCell h1 h2).1 d1 c0 (by norm_num), lo (fit_rHwHc h1 h2).1 d3 c1 (by norm_num), lo (fit_rSwHc h1 h2).1 d5 c2 (by norm_num),
      lo (fit_rHwLig h1 h2).1 d7 c3 (by norm_num), lo (fit_rSwLig h1 h2).1 d9 c4 (by norm_num)]
  · simp only []
    linarith [hi (fit_rCell h1 h2).2 d1 c0 (by norm_num), hi (fit_rHwHc h1 h2).2 d3 c1 (by norm_num), hi (fit_rSwHc h1 h2).2 d5 c2 (by norm_num),
      hi (fit_rHwLig h1 h2).2 d7 c3 (by norm_num), hi (fit_rSwLig h1 h2).2 d9 c4 (by norm_num)]

/-- **C63 refuted outside that range.** At 500 K and one atmosphere pure cellulose has a tar yield above one. -/
theorem C63_range_false : ∃ s s', s.P = 101325 ∧ s.T = 500 ∧ s.yBio = [1, 0, 0, 0, 0] ∧ getMtarYtar s = ok s' ∧ 2 < s'.ytar := by
  refine ⟨{ State.mk' 2 1 with T := 500, P := 101325, yBio := [1, 0, 0, 0, 0] }, ?_⟩
  have hp : clog10 (101325 / 101325) = ok 0 := by rw [clog10_ok (by norm_num)]; norm_num
  have i0 : idx [(1 : ℝ), 0, 0, 0, 0] 0 = ok 1 := rfl
  have i1 : idx [(1 : ℝ), 0, 0, 0, 0] 1 = ok 0 := rfl
  have i2 : idx [(1 : ℝ), 0, 0, 0, 0] 2 = ok 0 := rfl
  have i3 : idx [(1 : ℝ), 0, 0, 0, 0] 3 = ok 0 := rfl
  have i4 : idx [(1 : ℝ), 0, 0, 0, 0] 4 = ok 0 := rfl
  simp only [getMtarYtar, i0, i1, i2, i3, i4, hp, ok_bind]
  rw [cdiv_ok (by norm_num [yCellDen]), ok_bind, cdiv_ok (by norm_num [mCellDen]), ok_bind, cdiv_ok (by norm_num [yHwHcDen]), ok_bind,
    cdiv_ok (by norm_num [mHwHcDen]), ok_bind, cdiv_ok (by norm_num [ySwHcDen]), ok_bind, cdiv_ok (by norm_num [mSwHcDen]), ok_bind,
    cdiv_ok (by norm_num [yHwLigDen]), ok_bind, cdiv_ok (by norm_num [mHwLigDen]), ok_bind, cdiv_ok (by norm_num [ySwLigDen]), ok_bind,
    cdiv_ok (by norm_num [mSwLigDen]), ok_bind]
  refine ⟨_, trivial, trivial, trivial, rfl, ?_⟩
  simp only [mul_zero, add_zero, mul_one]
  norm_num [yCellNum, yCellDen]

/-- **C63, pole.** There is a temperature between 500 K and 600 K at which, at one atmosphere, the call yields a non-finite result for every
composition. -/
theorem C63_pole : ∃ T ∈ Set.Ioo (500 : ℝ) 600, ∀ s : State, s.T = T → s.P = 101325 → 5 ≤ s.yBio.length → getMtarYtar s = nonfin := by
  have hcont : ContinuousOn (fun T => yCellDen T 0) (Set.Icc 500 600) := by
    unfold yCellDen; fun_prop
  have hmem : (0 : ℝ) ∈ Set.Ioo (yCellDen 500 0) (yCellDen 600 0) := by constructor <;> norm_num [yCellDen]
  obtain ⟨T, hT, h0⟩ := intermediate_value_Ioo (by norm_num : (500 : ℝ) ≤ 600) hcont hmem
  refine ⟨T, hT, ?_⟩
  rintro s rfl hP hl
  obtain ⟨e0, e1, e2, e3, e4⟩ := idx5 hl
  have hp : clog10 (s.P / 101325) = ok 0 := by rw [hP, clog10_ok (by norm_num)]; norm_num
  have h0 : yCellDen s.T 0 = 0 := h0
  simp only [getMtarYtar, e0, e1, e2, e3, e4, hp, ok_bind, h0, cdiv_zero, nonfin_bind]

/-- **C63, default size.** A state on which no tar size was computed has `mtar = 0`; AJ_RED nucleation is then non-finite. -/
theorem C63_default_mtar (s : State) (n : Nucl) (ib : State → ℝ → Res ℝ) (hn : n.mech = .AJ_RED) (hm : s.mtar = 0) :
    n.rate ib s = nonfin := by
  simp [Nucl.rate, hn, hm, csqrt]

example : (State.mk' 2 1).mtar = 0 := rfl

/-- Non-vacuity of `C63_range_partial`. -/
example : ∃ s', getMtarYtar { State.mk' 2 1 with T := 1500, P := 101325, yBio := [0.4, 0.1, 0.2, 0.1, 0.2] } = ok s' ∧ 226 < s'.mtar := by
  obtain ⟨s', h, _, _, h1, _⟩ := C63_range_partial { State.mk' 2 1 with T := 1500, P := 101325, yBio := [0.4, 0.1, 0.2, 0.1, 0.2] }
    rfl (by norm_num) (by norm_num) rfl (by norm_num) (by norm_num)
  exact ⟨s', h, by norm_num at h1; linarith⟩

/-! ## Coal -/

/-- **C63, coal defaults.** Before `get_coal` the ratios are zero; at one atmosphere the coal correlation still completes, with a yield
strictly between 0.4 and 0.41 and a positive size. -/
theorem C63_coal_default (s : State) (hP : s.P = 101325) (hT : 0 < s.T) (h : s.OC = 0 ∧ s.HC = 0 ∧ s.V = 0) :
    ∃ s', getMtarYtarCoal s = ok s' ∧ 0.4 < s'.ytar ∧ s'.ytar < 0.41 ∧ 0 < s'.mtar := by
  have hp : clog10 (s.P / 101325) = ok 0 := by rw [hP, clog10_ok (by norm_num)]; norm_num
  obtain ⟨h1, h2, h3⟩ := h
  simp only [getMtarYtarCoal, hp, ok_bind, h1, h2, h3, mul_zero, zero_mul, add_zero, sub_zero]
  rw [cdiv_ok (by norm_num), ok_bind, cdiv_ok (by positivity), ok_bind]
  exact ⟨_, rfl, by norm_num, by norm_num, by positivity⟩

/-- The yield of the coal correlation at one atmosphere, cleared of the quotient. -/
theorem coal_y {a h v : ℝ} (ha : 0.02 ≤ a) (ha' : a ≤ 0.2) (hh : 0.5 ≤ h) (hh' : h ≤ 0.9) (hv : 5 ≤ v) (hv' : v ≤ 55) :
    0 < -124.2 + 93.5 * a - 223.9 * a * a + 284.8 * h - 107.3 * h * h + 5.48 * v + 0.014 * v * v - 5.32 * h * v ∧
    -124.2 + 93.5 * a - 223.9 * a * a + 284.8 * h - 107.3 * h * h + 5.48 * v + 0.014 * v * v - 5.32 * h * v <
      -303.8 + 1.55E3 * a - 2.46E3 * a * a + 656.9 * h - 266.3 * h * h + 15.9 * v + 0.025 * v * v - 462.5 * a * h + 4.8 * a * v - 17.8 * h * v := by
  have a1 := sub_nonneg.2 ha
  have a2 := sub_nonneg.2 ha'
  have h1 := sub_nonneg.2 hh
  have h2 := sub_nonneg.2 hh'
  have v1 := sub_nonneg.2 hv
  have v2 := sub_nonneg.2 hv'
  constructor <;> nlinarith [mul_nonneg a1 a2, mul_nonneg h1 h2, mul_nonneg v1 v1, mul_nonneg h1 v1, mul_nonneg h1 v2, mul_nonneg h2 v1, mul_nonneg h2 v2,
    mul_nonneg a1 h1, mul_nonneg a1 h2, mul_nonneg a2 h1, mul_nonneg a2 h2, mul_nonneg a1 v1, mul_nonneg a1 v2, mul_nonneg a2 v1, mul_nonneg a2 v2]

/-- The size of the coal correlation at one atmosphere, cleared of the quotient. -/
theorem coal_m {a h v T : ℝ} (ha : 0.02 ≤ a) (ha' : a ≤ 0.2) (hh : 0.5 ≤ h) (hh' : h ≤ 0.9) (hv : 5 ≤ v) (hv' : v ≤ 55) (hT : 600 ≤ T)
    (hT' : T ≤ 2500) :
    0 < 753.6 + 0.042 * T + 83.9 * a - 1.77E3 * h + 1.2E3 * h * h - 0.024 * T * h - 5.27E-4 * T * v - 361.0 * a * h + 3.83 * h * v ∧
    200 * (753.6 + 0.042 * T + 83.9 * a - 1.77E3 * h + 1.2E3 * h * h - 0.024 * T * h - 5.27E-4 * T * v - 361.0 * a * h + 3.83 * h * v) <
      3.12E5 + 16.4 * T + 4.34E5 * a - 8.48E5 * h + 6.38E5 * h * h - 361.3 * v - 0.221 * T * v - 6.39E5 * a * h + 1.91E3 * h * v ∧
    3.12E5 + 16.4 * T + 4.34E5 * a - 8.48E5 * h + 6.38E5 * h * h - 361.3 * v - 0.221 * T * v - 6.39E5 * a * h + 1.91E3 * h * v <
      700 * (753.6 + 0.042 * T + 83.9 * a - 1.77E3 * h + 1.2E3 * h * h - 0.024 * T * h - 5.27E-4 * T * v - 361.0 * a * h + 3.83 * h * v) := by
  have a1 := sub_nonneg.2 ha
  have a2 := sub_nonneg.2 ha'
  have h1 := sub_nonneg.2 hh
  have h2 := sub_nonneg.2 hh'
  have v1 := sub_nonneg.2 hv
  have v2 := sub_nonneg.2 hv'
  have t1 := sub_nonneg.2 hT
  have t2 := sub_nonneg.2 hT'
  refine ⟨?_, ?_, ?_⟩ <;> nlinarith [sq_nonneg (h - 0.75), sq_nonneg (h - 0.7), sq_nonneg (h - 0.65), sq_nonneg (h - 0.8), mul_nonneg h1 h2, mul_nonneg h1 v1, mul_nonneg h1 v2,
    mul_nonneg h2 v1, mul_nonneg h2 v2, mul_nonneg a1 h1, mul_nonneg a1 h2, mul_nonneg a2 h1, mul_nonneg a2 h2, mul_nonneg t1 v1, mul_nonneg t1 v2,
    mul_nonneg t2 v1, mul_nonneg t2 v2, mul_nonneg t1 h1, mul_nonneg t1 h2, mul_nonneg t2 h1, mul_nonneg t2 h2]

/-- **C63, coal range (partial: one atmosphere, 600 K to 2500 K, ranks from anthracite to subbituminous coal).** After
`get_coal(OC, HC, V)` with molar ratios O/C in [0.02, 0.2], H/C in [0.5, 0.9] and 5 to 55 percent volatiles, the correlation gives a yield that is a
proper fraction and a size between 200 and 700. -/
theorem C63_coal_range_partial (s : State) (hP : s.P = 101325) (hT : 600 ≤ s.T) (hT' : s.T ≤ 2500) (OC HC V : ℝ)
    (ha : 0.02 ≤ OC) (ha' : OC ≤ 0.2) (hh : 0.5 ≤ HC) (hh' : HC ≤ 0.9) (hv : 5 ≤ V) (hv' : V ≤ 55) :
    ∃ s', getMtarYtarCoal (setCoal s OC HC V) = ok s' ∧ 0 < s'.ytar ∧ s'.ytar < 1 ∧ 200 < s'.mtar ∧ s'.mtar < 700 := by
  have hp : clog10 (s.P / 101325) = ok 0 := by rw [hP, clog10_ok (by norm_num)]; norm_num
  obtain ⟨n1, n2⟩ := coal_y ha ha' hh hh' hv hv'
  obtain ⟨m1, m2, m3⟩ := coal_m ha ha' hh hh' hv hv' hT hT'
  simp only [getMtarYtarCoal, setCoal, hp, ok_bind, mul_zero, zero_mul, add_zero, sub_zero]
  have d1 := n1.trans n2
  rw [cdiv_ok d1.ne', ok_bind, cdiv_ok m1.ne', ok_bind]
  exact ⟨_, rfl, div_pos n1 d1, (div_lt_one d1).2 n2, (lt_div_iff₀ m1).2 m2, (div_lt_iff₀ m1).2 m3⟩

/-- A bituminous coal. -/
example : ∃ s', getMtarYtarCoal (setCoal { State.mk' 2 1 with T := 1500, P := 101325 } 0.09 0.75 37) = ok s' ∧ s'.ytar < 1 := by
  obtain ⟨s', h, _, h1, _⟩ := C63_coal_range_partial { State.mk' 2 1 with T := 1500, P := 101325 } rfl (by norm_num) (by norm_num) 0.09 0.75 37
    (by norm_num) (by norm_num) (by norm_num) (by norm_num) (by norm_num) (by norm_num)
  exact ⟨s', h, h1⟩

end Soot
