import Verif.Trace
import Verif.CIface
import Verif.Own

/-!
# The small example programs

`/repo/examples/simple_example.cc`, `/repo/examples/simple_example_HMOM.cc` and `/repo/examples/fortran_examples/simple_example_fort.f90`.  The
PSD class, the mechanisms and the numbers are parameters; the values of the files are given below.  Not modelled: formatting of the output, the
conversion of the single precision literals of the Fortran file.
-/

namespace Soot

open Res
open scoped Classical

/-- The numbers of the program: simple_example.cc:31-39. -/
structure SimpleIn where
  T : ℝ
  P : ℝ
  rhoGas : ℝ
  muGas : ℝ
  yGas : List ℝ
  yPah : List ℝ
  Msoot : List ℝ

/-- simple_example.cc:31-39 -/
noncomputable def simpleIn : SimpleIn where
  T := 2100
  P := 101325
  rhoGas := 0.1
  muGas := 0.00001
  yGas := [0.05, 0.001, 0.002, 3E-4, 0.003, 0.07, 0.1, 0.002, 0.18]
  yPah := [0, 0, 0, 0, 0, 0]
  Msoot := [0.003, 1.5E-5]

/-- simple_example_HMOM.cc:29-36 -/
noncomputable def simpleInHmom : SimpleIn := { simpleIn with Msoot := [0.003, 1.5E-5, 1.0E-7, 1.0E-5] }

/-- The comment at simple_example.cc:36 (and simple_example_HMOM.cc:34): the species of the entries of `yGas`. -/
def simpleLabels : List GasSp := [.O2, .O, .H2, .H, .OH, .H2O, .CO, .C2H2, .CO2]

/-- The call of `setState` at simple_example.cc:41; the last three arguments have the defaults of state.h:50-54. -/
def simpleArgs (nsoot : ℕ) (i : SimpleIn) : SetArgs where
  T := i.T
  P := i.P
  rhoGas := i.rhoGas
  muGas := i.muGas
  yGas := i.yGas
  yPah := i.yPah
  sootVar := i.Msoot
  nsoot := nsoot
  tarVar := []
  Ntar := 0
  cMin := 100

/-- The gas sources that are printed, simple_example.cc:77-86. -/
def simpleGasOut : List GasSp := [.O2, .O, .H2, .H, .OH, .H2O, .CO, .C2H2, .C6H6, .CO2]

/-- The first `k` entries of a vector. -/
def firstN (v : List ℝ) : ℕ → Res (List ℝ)
  | 0 => ok []
  | k + 1 => do
    let l ← firstN v k
    let x ← idx v k
    ok (l ++ [x])

/-- simple_example.cc:9-110 with `psd = .MONO`, `out = 2`; simple_example_HMOM.cc with `psd = .HMOM`, `out = 4` (no gas sources are printed
there).  The result are the printed soot and gas sources.  The constructor is called without tar arguments (no tar).  An exception of the
constructor or of `setState` ends the program. -/
noncomputable def simpleMain (eig : Eig) (psd : PsdMech) (nsoot : ℕ) (n : NuclMech) (g : GrowMech) (o : OxidMech) (c : CoagMech) (i : SimpleIn)
    (out : ℕ) : Res (List ℝ × List ℝ) := do
  let m ← Model.newPtr psd nsoot (Nucl.new n) (Grow.new g) (Oxid.new o) (Coag.new c) 0 .NONE
  let m := { m with coag := m.coag.setFM (9.0 / 2.0 / 2.2) }
  let r := setState (State.mk' nsoot 0) (simpleArgs nsoot i)
  r.2
  let (m, _, _) ← sourceTerms eig m none r.1
  let soot ← firstN m.sources.soot out
  ok (soot, simpleGasOut.map m.sources.gas)

/-- What the program does to the heap: simple_example.cc:13-17 (the five `new`), 22 (the constructor; its default argument allocates a sixth
object), 52 (use), 113-117 (the five `delete`), and the destructor of `SM` at the end of `main`. -/
def simpleOps (psd : PsdMech) (nsoot : ℕ) (n : NuclMech) (g : GrowMech) (o : OxidMech) (c : CoagMech) (t : TarMech) : List Op :=
  [.newMech (.nucl n), .newMech (.grow g), .newMech (.oxid o), .newMech (.coag c), .newMech (.tar t), .newPtrDefaultTar psd nsoot 0 1 2 3, .use 0,
    .delMech 0, .delMech 1, .delMech 2, .delMech 3, .delMech 4, .delModel 0]

/-- The order of the calls on the state in simple_example_fort.f90:59-62 (`state`, `getyBio`, `get_mtar_ytar`; c_interface.cc:340-347), before
`setState`. -/
noncomputable def fortTar (nsoot Ntar : ℕ) (yBio : List ℝ) : Res State := do
  let s ← cSetYBio (State.mk' nsoot Ntar) yBio
  getMtarYtar s

/-- The rest, simple_example_fort.f90:55-57,64-86, from the state `s` on: `setState`, `setSourceTerms`, `getGasSources` (into `gasS`, 11 zeros) and
`getSootSources` (into `sootS`, `nsoot` zeros). -/
noncomputable def fortRest (eig : Eig) (psd : PsdMech) (nsoot Ntar : ℕ) (n : NuclMech) (g : GrowMech) (o : OxidMech) (c : CoagMech) (t : TarMech)
    (a : SetArgs) (s : State) : Res (List ℝ × List ℝ) := do
  let m ← Model.newPtr psd nsoot (Nucl.new n) (Grow.new g) (Oxid.new o) (Coag.new c) Ntar t
  let m := { m with coag := m.coag.setFM (9.0 / 2.0 / 2.2) }
  let r := cSetState s a
  r.2
  let (m, _, _) ← sourceTerms eig m none r.1
  let gas ← cGetGasSources (List.replicate nGas 0) m
  let soot ← cGetSootSources (List.replicate nsoot 0) m nsoot
  ok (gas, soot)

/-- simple_example_fort.f90 -/
noncomputable def fortMain (eig : Eig) (psd : PsdMech) (nsoot Ntar : ℕ) (n : NuclMech) (g : GrowMech) (o : OxidMech) (c : CoagMech) (t : TarMech)
    (a : SetArgs) (yBio : List ℝ) : Res (List ℝ × List ℝ) := do
  let s ← fortTar nsoot Ntar yBio
  fortRest eig psd nsoot Ntar n g o c t a s

/-- The numbers of simple_example_fort.f90:26-38 (as decimal numbers). -/
noncomputable def fortArgs : SetArgs where
  T := 2100
  P := 101325
  rhoGas := 0.1
  muGas := 0.00001
  yGas := [0.05, 0.001, 0.002, 3E-4, 0.003, 0.07, 0.1, 0.002, 0.18, 0, 0]
  yPah := [0, 0, 0, 0, 0, 0]
  sootVar := [0.003, 1.5E-5]
  nsoot := 2
  tarVar := [0.002]
  Ntar := 1
  cMin := 100

end Soot
