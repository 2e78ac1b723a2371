import Mathlib.Data.Real.Basic
import Mathlib.Analysis.SpecialFunctions.Pow.Real
import Mathlib.Analysis.SpecialFunctions.Log.Base
import Mathlib.Analysis.SpecialFunctions.Sqrt
import Mathlib.Algebra.BigOperators.Group.Finset.Basic

/-!
# Outcomes and checked arithmetic

`double` is idealised as `ℝ`.  A C++ computation ends in one of four ways.
-/

namespace Soot

/-- C++ exception classes used in `/repo/src` (`std::domain_error`, `std::runtime_error`). -/
inductive Exn where
  | domain (msg : String)
  | runtime (msg : String)
  deriving DecidableEq

/-- Outcome of a C++ computation.
* `ok a`    : returned `a`, every intermediate finite
* `exn e`   : an exception left the function
* `ub`      : undefined behaviour (out-of-range index, invalid cast, double delete, …)
* `nonfin`  : an Inf/NaN was produced -/
inductive Res (α : Type) where
  | ok (a : α)
  | exn (e : Exn)
  | ub
  | nonfin

namespace Res

/-- Sequencing: the first non-`ok` outcome wins. -/
def bind {α β : Type} (x : Res α) (f : α → Res β) : Res β :=
  match x with
  | ok a => f a
  | exn e => exn e
  | ub => ub
  | nonfin => nonfin

instance : Monad Res where
  pure := ok
  bind := bind

variable {α β : Type}

@[simp] theorem pure_def (a : α) : (pure a : Res α) = ok a := rfl
@[simp] theorem ok_bind (a : α) (f : α → Res β) : (ok a >>= f) = f a := rfl
@[simp] theorem exn_bind (e : Exn) (f : α → Res β) : ((exn e : Res α) >>= f) = exn e := rfl
@[simp] theorem ub_bind (f : α → Res β) : ((ub : Res α) >>= f) = ub := rfl
@[simp] theorem nonfin_bind (f : α → Res β) : ((nonfin : Res α) >>= f) = nonfin := rfl

theorem bind_eq_ok {x : Res α} {f : α → Res β} {b : β} :
    (x >>= f) = ok b ↔ ∃ a, x = ok a ∧ f a = ok b := by
  cases x <;> simp

theorem bind_assoc {γ : Type} (x : Res α) (f : α → Res β) (g : β → Res γ) :
    ((x >>= f) >>= g) = (x >>= fun a => f a >>= g) := by cases x <;> rfl

theorem bind_congr {x : Res α} {f g : α → Res β} (h : ∀ a, x = ok a → f a = g a) : (x >>= f) = (x >>= g) := by
  cases x <;> simp_all

/-- The computation returned normally. -/
def isOk (x : Res α) : Prop := ∃ a, x = ok a

@[simp] theorem isOk_ok (a : α) : (ok a).isOk := ⟨a, rfl⟩
@[simp] theorem not_isOk_ub : ¬ (ub : Res α).isOk := by rintro ⟨a, h⟩; cases h
@[simp] theorem not_isOk_nonfin : ¬ (nonfin : Res α).isOk := by rintro ⟨a, h⟩; cases h
@[simp] theorem not_isOk_exn (e : Exn) : ¬ (exn e : Res α).isOk := by rintro ⟨a, h⟩; cases h

/-- Functorial image of an outcome. -/
def map' (f : α → β) (x : Res α) : Res β := x >>= fun a => ok (f a)

@[simp] theorem map'_ok (f : α → β) (a : α) : map' f (ok a) = ok (f a) := rfl

end Res

open Res

/-- `v[i]` on a `std::vector<double>`: undefined behaviour outside the vector. -/
def idx {α : Type} (l : List α) (i : ℕ) : Res α :=
  match l[i]? with
  | some x => ok x
  | none => ub

/-- `v[i] = x` on a `std::vector<double>`: undefined behaviour outside the vector. -/
def setIdx {α : Type} (l : List α) (i : ℕ) (x : α) : Res (List α) :=
  if i < l.length then ok (l.set i x) else ub

theorem idx_ok {α : Type} {l : List α} {i : ℕ} (h : i < l.length) : idx l i = ok l[i] := by
  simp [idx, h]

theorem idx_ub {α : Type} {l : List α} {i : ℕ} (h : l.length ≤ i) : idx l i = ub := by
  simp [idx, h]

theorem idx_eq_ok {α : Type} {l : List α} {i : ℕ} {x : α} : idx l i = ok x ↔ l[i]? = some x := by
  unfold idx; cases h : l[i]? <;> simp

@[simp] theorem idx_cons_zero {α : Type} (a : α) (l : List α) : idx (a :: l) 0 = ok a := rfl
@[simp] theorem idx_cons_succ {α : Type} (a : α) (l : List α) (n : ℕ) :
    idx (a :: l) (n + 1) = idx l n := by simp [idx]
@[simp] theorem idx_nil {α : Type} (n : ℕ) : idx ([] : List α) n = ub := by simp [idx]

open Classical in
/-- `x / y`; division by zero is not finite. -/
noncomputable def cdiv (x y : ℝ) : Res ℝ := if y = 0 then nonfin else ok (x / y)

open Classical in
/-- `sqrt(x)`; NaN for negative `x`. -/
noncomputable def csqrt (x : ℝ) : Res ℝ := if x < 0 then nonfin else ok (Real.sqrt x)

open Classical in
/-- `pow(x, p)` for a non-integer exponent `p`: NaN for negative base, Inf for `0^p` with `p < 0`. -/
noncomputable def cpow (x p : ℝ) : Res ℝ :=
  if x < 0 then nonfin else if x = 0 ∧ p < 0 then nonfin else ok (x ^ p)

open Classical in
/-- `log10(x)`; not finite for `x ≤ 0`. -/
noncomputable def clog10 (x : ℝ) : Res ℝ := if x ≤ 0 then nonfin else ok (Real.logb 10 x)

theorem cdiv_ok {x y : ℝ} (h : y ≠ 0) : cdiv x y = ok (x / y) := by simp [cdiv, h]
@[simp] theorem cdiv_zero (x : ℝ) : cdiv x 0 = nonfin := by simp [cdiv]
theorem cdiv_eq_ok {x y z : ℝ} : cdiv x y = ok z ↔ y ≠ 0 ∧ z = x / y := by
  unfold cdiv; split <;> simp [*, eq_comm]
theorem csqrt_ok {x : ℝ} (h : 0 ≤ x) : csqrt x = ok (Real.sqrt x) := by
  simp [csqrt, not_lt.mpr h]
theorem csqrt_eq_ok {x z : ℝ} : csqrt x = ok z ↔ 0 ≤ x ∧ z = Real.sqrt x := by
  unfold csqrt; split <;> simp [*, eq_comm] <;> grind
theorem cpow_ok {x p : ℝ} (h : 0 < x) : cpow x p = ok (x ^ p) := by
  simp [cpow, not_lt.mpr h.le, h.ne']
theorem cpow_ok' {x p : ℝ} (h : 0 ≤ x) (hp : 0 ≤ p) : cpow x p = ok (x ^ p) := by
  simp [cpow, not_lt.mpr h, not_lt.mpr hp]
theorem cpow_eq_ok {x p z : ℝ} : cpow x p = ok z ↔ (0 ≤ x ∧ (x = 0 → 0 ≤ p)) ∧ z = x ^ p := by
  unfold cpow; split_ifs <;> simp [*, eq_comm] <;> grind
theorem clog10_ok {x : ℝ} (h : 0 < x) : clog10 x = ok (Real.logb 10 x) := by
  simp [clog10, not_le.mpr h]

/-! ### Loops -/

/-- `acc = 0; for (k = 0; k < n; k++) acc += f(k);` -/
noncomputable def sumLoop : ℕ → (ℕ → Res ℝ) → Res ℝ
  | 0, _ => ok 0
  | n + 1, f => do
    let acc ← sumLoop n f
    let x ← f n
    ok (acc + x)

theorem sumLoop_ok {n : ℕ} {f : ℕ → Res ℝ} {g : ℕ → ℝ} (h : ∀ k < n, f k = ok (g k)) :
    sumLoop n f = ok (∑ k ∈ Finset.range n, g k) := by
  induction n with
  | zero => simp [sumLoop]
  | succ n ih =>
    rw [sumLoop, ih fun k hk => h k (by omega), ok_bind, h n (by omega), ok_bind, Finset.sum_range_succ]

theorem sumLoop_inv {n : ℕ} {f : ℕ → Res ℝ} {v : ℝ} (h : sumLoop n f = ok v) :
    ∃ g : ℕ → ℝ, (∀ k < n, f k = ok (g k)) ∧ v = ∑ k ∈ Finset.range n, g k := by
  induction n generalizing v with
  | zero =>
    simp only [sumLoop, ok.injEq] at h
    exact ⟨fun _ => 0, by simp, by simp [← h]⟩
  | succ n ih =>
    rw [sumLoop, bind_eq_ok] at h
    obtain ⟨a, ha, h⟩ := h
    rw [bind_eq_ok] at h
    obtain ⟨x, hx, h⟩ := h
    obtain ⟨g, hg, rfl⟩ := ih ha
    simp only [ok.injEq] at h
    refine ⟨Function.update g n x, fun k hk => ?_, ?_⟩
    · by_cases hkn : k = n
      · subst hkn; simpa using hx
      · rw [Function.update_of_ne hkn]; exact hg k (by omega)
    · rw [← h, Finset.sum_range_succ, Function.update_self]
      congr 1
      refine Finset.sum_congr rfl fun k hk => ?_
      rw [Function.update_of_ne (by simp at hk; omega)]

/-- `for (k = 0; k < n; k++) v[k] = f(k);` on an array of `n` zeros -/
noncomputable def tabLoop : ℕ → (ℕ → Res ℝ) → Res (ℕ → ℝ)
  | 0, _ => ok fun _ => 0
  | n + 1, f => do
    let g ← tabLoop n f
    let x ← f n
    ok (Function.update g n x)

theorem tabLoop_ok {n : ℕ} {f : ℕ → Res ℝ} {g : ℕ → ℝ} (h : ∀ k < n, f k = ok (g k)) :
    tabLoop n f = ok fun k => if k < n then g k else 0 := by
  induction n with
  | zero => simp [tabLoop]
  | succ n ih =>
    rw [tabLoop, ih fun k hk => h k (by omega), ok_bind, h n (by omega), ok_bind]
    congr 1; funext k
    by_cases hkn : k = n
    · subst hkn; simp
    · rw [Function.update_of_ne hkn]
      have : (k < n + 1) ↔ (k < n) := by omega
      simp [this]

theorem tabLoop_inv {n : ℕ} {f : ℕ → Res ℝ} {v : ℕ → ℝ} (h : tabLoop n f = ok v) :
    (∀ k < n, f k = ok (v k)) ∧ ∀ k, n ≤ k → v k = 0 := by
  induction n generalizing v with
  | zero =>
    simp only [tabLoop, ok.injEq] at h
    subst h; simp
  | succ n ih =>
    rw [tabLoop, bind_eq_ok] at h
    obtain ⟨g, hg, h⟩ := h
    rw [bind_eq_ok] at h
    obtain ⟨x, hx, h⟩ := h
    simp only [ok.injEq] at h
    subst h
    obtain ⟨h1, h2⟩ := ih hg
    refine ⟨fun k hk => ?_, fun k hk => ?_⟩
    · by_cases hkn : k = n
      · subst hkn; simpa using hx
      · rw [Function.update_of_ne hkn]; exact h1 k (by omega)
    · rw [Function.update_of_ne (by omega)]; exact h2 k (by omega)

end Soot
