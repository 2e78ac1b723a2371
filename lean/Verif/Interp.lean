import Verif.Base
import Mathlib.Data.List.Sort

/-!
# Linear interpolation (`/repo/examples/burner_flame/interp_linear.h`)
-/

namespace Soot

open Res
open scoped Classical

/-- interp_linear.h:14-22: the two vectors pointed to and `nxy`.  `ilo`, `ihi` are written before every read and are
local values here. -/
structure Interp where
  X : List ℝ
  Y : List ℝ
  nxy : ℕ

/-- interp_linear.h:69-72, the test on one interior point. -/
def turnAt (X : List ℝ) (i : ℕ) : Res Prop := do
  let a ← idx X (i - 1)
  let b ← idx X i
  let c ← idx X (i + 1)
  ok (b = a ∨ b = c ∨ (b < a ∧ b < c) ∨ (b > a ∧ b > c))

/-- interp_linear.h:68-76 with `n` passes left, from index `i`; `none` is `exit(0)`. -/
noncomputable def turnLoop (X : List ℝ) : ℕ → ℕ → Res (Option Unit)
  | 0, _ => ok (some ())
  | n + 1, i => do
    let t ← turnAt X i
    if t then ok none else turnLoop X n (i + 1)

/-- interp_linear.h:59-77; `none` is `exit(0)`. -/
noncomputable def Interp.new (X Y : List ℝ) : Res (Option Interp) :=
  if X.length ≠ Y.length then ok none else do
    let r ← turnLoop X (X.length - 2) 1
    match r with
    | none => ok none
    | some _ => ok (some ⟨X, Y, X.length⟩)

/-- `std::lower_bound(X.begin(), X.end(), x) - X.begin()`.  The range has to be partitioned with respect to `_ < x`; otherwise the
behaviour is undefined. -/
noncomputable def lowerBound (X : List ℝ) (x : ℝ) : Res ℕ :=
  if ∀ i j : ℕ, i < j → j < X.length → X.getD j 0 < x → X.getD i 0 < x then ok (X.findIdx fun a => decide (x ≤ a)) else ub

/-- interp_linear.h:39-49: `ihi`. -/
noncomputable def Interp.hi (t : Interp) (x : ℝ) : Res ℕ := do
  let x0 ← idx t.X 0
  if x ≤ x0 then ok 1 else do
    let xb ← idx t.X (t.X.length - 1)
    if x ≥ xb then ok (t.nxy - 1) else lowerBound t.X x

/-- interp_linear.h:28-31 (= 32-35).  For `ihi = 0` the lower index is -1. -/
noncomputable def Interp.interp (t : Interp) (x : ℝ) : Res ℝ := do
  let ihi ← t.hi x
  if ihi = 0 then ub else do
    let y0 ← idx t.Y (ihi - 1)
    let x0 ← idx t.X (ihi - 1)
    let y1 ← idx t.Y ihi
    let x1 ← idx t.X ihi
    let q ← cdiv ((x - x0) * (y1 - y0)) (x1 - x0)
    ok (y0 + q)

end Soot
