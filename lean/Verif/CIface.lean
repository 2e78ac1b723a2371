import Verif.Model

/-!
# The C interface used from Fortran (`/repo/src/fortran_wraps/c_interface.cc`)

A pointer argument is the list of the doubles that may be read (or written) through it.
-/

namespace Soot

open Res
open scoped Classical

/-- `std::vector<double>(p, p + n)` -/
def fromPtr (p : List ℝ) (n : ℤ) : Res (List ℝ) := if n < 0 ∨ (p.length : ℤ) < n then ub else ok (p.take n.toNat)

/-- c_interface.cc:309-312: the four copies. -/
def cCopies (a : SetArgs) : Res (List ℝ × List ℝ × List ℝ × List ℝ) := do
  let yGas ← fromPtr a.yGas 10
  let yPah ← fromPtr a.yPah 6
  let sootVar ← fromPtr a.sootVar a.nsoot
  let tarVar ← fromPtr a.tarVar a.Ntar
  ok (yGas, yPah, sootVar, tarVar)

/-- The argument list of c_interface.cc:313-314.  `cMin_` is not passed, so the default 100 of state.h applies. -/
noncomputable def cArgs (a : SetArgs) (v : List ℝ × List ℝ × List ℝ × List ℝ) : SetArgs :=
  { T := a.T, P := a.P, rhoGas := a.rhoGas, muGas := a.muGas, yGas := v.1, yPah := v.2.1, sootVar := v.2.2.1
    nsoot := a.nsoot, tarVar := v.2.2.2, Ntar := a.Ntar }

/-- c_interface.cc:313-314, after the copies. -/
noncomputable def cCall (s : State) (a : SetArgs) : Res (List ℝ × List ℝ × List ℝ × List ℝ) → State × Res Unit
  | .ok v => setState s (cArgs a v)
  | .exn e => (s, .exn e)
  | .ub => (s, .ub)
  | .nonfin => (s, .nonfin)

/-- c_interface.cc:304-315 -/
noncomputable def cSetState (s : State) (a : SetArgs) : State × Res Unit := cCall s a (cCopies a)

/-- `for (i = 0; i < n; i++) dst[i] = src(i);` -/
noncomputable def copyOut (src : ℕ → Res ℝ) : ℕ → List ℝ → Res (List ℝ)
  | 0, dst => ok dst
  | n + 1, dst => do
    let dst ← copyOut src n dst
    let x ← src n
    setIdx dst n x

/-- c_interface.cc:377-383 -/
noncomputable def cGetSootSources (dst : List ℝ) (m : Model) (nsoot : ℤ) : Res (List ℝ) :=
  copyOut (fun i => idx m.sources.soot i) nsoot.toNat dst

/-- c_interface.cc:384-387 (`gasSources` has `gasSp::size` entries) -/
noncomputable def cGetGasSources (dst : List ℝ) (m : Model) : Res (List ℝ) :=
  copyOut (fun i => idx ([GasSp.O2, .O, .H2, .H, .OH, .H2O, .CO, .C2H2, .C6H6, .C, .CO2].map m.sources.gas) i) nGas dst

/-- c_interface.cc:388-392 -/
noncomputable def cGetTarSources (dst : List ℝ) (m : Model) (Ntar : ℤ) : Res (List ℝ) :=
  copyOut (fun i => idx m.sources.tar i) Ntar.toNat dst

/-- c_interface.cc:357-359 -/
def cGetYGas (s : State) (sp : GasSp) : Res ℝ := idx s.yGas sp.toNat
/-- c_interface.cc:361-363 -/
def cGetYPah (s : State) (sp : PahSp) : Res ℝ := idx s.yPah sp.toNat

/-- c_interface.cc:349-355 -/
def cGetT (s : State) : ℝ := s.T
def cGetRhoGas (s : State) : ℝ := s.rhoGas
/-- `v[i]` with an `int` index -/
def idxInt (v : List ℝ) (i : ℤ) : Res ℝ := if i < 0 then ub else idx v i.toNat
/-- c_interface.cc:369-371 -/
def cGetSootVar (s : State) (i : ℤ) : Res ℝ := idxInt s.sootVar i
/-- c_interface.cc:373-375 -/
def cGetTarVar (s : State) (i : ℤ) : Res ℝ := idxInt s.tarVar i

/-- c_interface.cc:340-343 -/
def cSetYBio (s : State) (yBio : List ℝ) : Res State := do
  let v ← fromPtr yBio 5
  ok (s.setYBio v)

end Soot
