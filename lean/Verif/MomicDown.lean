import Verif.Momic

/-!
# The moment downselection of MOMIC (`/repo/src/sootModel_MOMIC.cc:252-285`)

The only call, at line 131, is commented out; the function is modelled on its own.  It contains a `do … while` loop
whose body shortens the range of its own inner loop, so its runs are given as a relation: a result exists exactly when
the loop ends.
-/

namespace Soot

open Res Real
open scoped Classical

/-- Runs of `do body while (b)`: the body returns the new loop state and the value of the condition. -/
inductive DoWhile {σ : Type} (body : σ → Res (σ × Bool)) : σ → Res σ → Prop
  | stop {x y : σ} : body x = ok (y, false) → DoWhile body x (ok y)
  | again {x y : σ} {r : Res σ} : body x = ok (y, true) → DoWhile body y r → DoWhile body x r
  | ub {x : σ} : body x = Res.ub → DoWhile body x Res.ub

/-- sootModel_MOMIC.cc:275-279: the inner loop from index `i` on.  `N` is the member `Nmom`, which the loop condition
reads again on each pass. -/
noncomputable def downPass (M : List ℝ) (i N : ℕ) (zeros : Bool) : Res (ℕ × Bool) :=
  if i < N then do
    let x ← idx M i
    if x ≤ 0 then downPass M (i + 1) (N - 1) true else downPass M (i + 1) N zeros
  else ok (N, zeros)
termination_by N - i

/-- sootModel_MOMIC.cc:273-281: one pass of the `do` loop with its condition. -/
noncomputable def downBody (M : List ℝ) (N : ℕ) : Res (ℕ × Bool) := do
  let p ← downPass M 0 N false
  ok (p.1, decide (3 < p.1) && p.2)

/-- sootModel_MOMIC.cc:256-266: `none` for the early return, else the vector with `M[1]` and `M[2]` replaced where
they are not positive. -/
noncomputable def downPrep (M : List ℝ) : Res (Option (List ℝ)) := do
  let sigL : ℝ := 3
  let mavg : ℝ := 1E-21
  let m0 ← idx M 0
  if m0 ≤ 0 then ok none else
    let m1 ← idx M 1
    let M ← if m1 ≤ 0 then (do
        let m0 ← idx M 0
        setIdx M 1 (m0 * mavg * exp (0.5 * sigL ^ 2))) else ok M
    let m2 ← idx M 2
    let M ← if m2 ≤ 0 then (do
        let m0 ← idx M 0
        setIdx M 2 (m0 * mavg ^ 2 * exp (0.5 * 4 * sigL ^ 2))) else ok M
    ok (some M)

/-- `M.resize(k)` -/
def resizeTo (M : List ℝ) (k : ℕ) : List ℝ := M.take k ++ List.replicate (k - M.length) 0

/-- sootModel_MOMIC.cc:252-285: runs from the member `Nmom` and the argument `M` to the new values of both. -/
inductive MomicDown (Nmom : ℕ) (M : List ℝ) : Res (ℕ × List ℝ) → Prop
  | prepUb : downPrep M = Res.ub → MomicDown Nmom M Res.ub
  | early : downPrep M = ok none → MomicDown Nmom M (ok (Nmom, M))
  | loop {L : List ℝ} {k : ℕ} : downPrep M = ok (some L) → DoWhile (downBody L) L.length (ok k) →
      MomicDown Nmom M (ok (k, resizeTo L k))
  | loopUb {L : List ℝ} : downPrep M = ok (some L) → DoWhile (downBody L) L.length Res.ub → MomicDown Nmom M Res.ub

end Soot
