import Verif.Trace
import Verif.Interp
import Verif.Bio

/-!
# The burner flame examples (`/repo/examples/burner_flame/burner_flame.cc`)

The program reads gas profiles along a flame and integrates the soot variables per gas mass with a two-stage method.  The file names four
other PSD classes in comments; `burner_flame_MOMIC.cc` and `burner_flame_HMOM.cc` are the same program with another class.  The class, the
mechanisms, the number of soot variables, the number of steps and the profiles are parameters here.  Not modelled: reading the
file, formatting the output.
-/

namespace Soot

open Res
open scoped Classical

/-- The columns of the input file besides `z` (burner_flame.cc:16-28). -/
inductive Col
  | v | T | rho | mu | yO2 | yO | yH2 | yH | yOH | yH2O | yCO | yC2H2
  deriving DecidableEq

/-- The contents of the file, by column (burner_flame.cc:30-51). -/
structure Profiles where
  z : List ℝ
  col : Col → List ℝ

/-- burner_flame.cc:53-64: one interpolation object (constructor `Interp.new`); `none` is `exit(0)`. -/
noncomputable def Profiles.table (p : Profiles) (c : Col) : Res (Option Interp) := Interp.new p.z (p.col c)

/-- The columns in the order of the constructors at 53-64. -/
def Col.all : List Col := [.v, .T, .rho, .mu, .yO2, .yO, .yH2, .yH, .yOH, .yH2O, .yCO, .yC2H2]

/-- burner_flame.cc:53-64, all of them: does the program get past this point? -/
noncomputable def Profiles.tables (p : Profiles) : List Col → Res (Option Unit)
  | [] => ok (some ())
  | c :: l => do
    match ← p.table c with
    | none => ok none
    | some _ => p.tables l

/-- An accepted table, read at `x` (`LI_c(x)`). -/
noncomputable def Profiles.at (p : Profiles) (c : Col) (x : ℝ) : Res ℝ := Interp.interp ⟨p.z, p.col c, p.z.length⟩ x

/-- A braced list of table values, left to right. -/
noncomputable def Profiles.row (p : Profiles) (x : ℝ) : List Col → Res (List ℝ)
  | [] => ok []
  | c :: l => do
    let y ← p.at c x
    let ys ← p.row x l
    ok (y :: ys)

/-- burner_flame.cc:119 -/
def gasFull : List Col := [.yO2, .yO, .yH2, .yH, .yOH, .yH2O, .yCO, .yC2H2]

/-- burner_flame.cc:129: another order than in line 119. -/
def gasHalf : List Col := [.yH, .yH2, .yO, .yO2, .yOH, .yH2O, .yCO, .yC2H2]

/-- The variables of `main` that live through the loop. -/
structure Burn where
  z : ℝ
  Mhat : List ℝ
  S : State
  SM : Model
  glob : Option ℝ

/-- The arguments of `setState` at 122 and 132. -/
noncomputable def burnArgs (nsoot : ℕ) (T rho mu : ℝ) (y M : List ℝ) : SetArgs where
  T := T
  P := 101325
  rhoGas := rho
  muGas := mu
  yGas := y
  yPah := List.replicate nPah 0
  sootVar := M
  nsoot := nsoot
  tarVar := []
  Ntar := 0
  cMin := 1667

/-- burner_flame.cc:119-123 (with `cols = gasFull`, `x = z`, `Mh = Mhat`) and 129-133 (`gasHalf`, `zh`, `Mhath`).  An exception of `setState`
ends the program.  `Mhat` and `Mhath` keep their length `nsoot`, so the loops over `i` are maps. -/
noncomputable def burnStage (eig : Eig) (p : Profiles) (cols : List Col) (b : Burn) (Mh : List ℝ) (x : ℝ) : Res (Model × State × Option ℝ) := do
  let y ← p.row x cols
  let rho ← p.at .rho x
  let T ← p.at .T x
  let mu ← p.at .mu x
  let r := setState b.S (burnArgs b.SM.nsoot T rho mu y (Mh.map (· * rho)))
  r.2
  sourceTerms eig b.SM b.glob r.1

/-- burner_flame.cc:125-126 (`c = 0.5*dz`) and 135-136 (`c = dz`): `Mhat[k] + c*sootSources[k]/LI_rho(x)/LI_v(x)` from entry `k` on. -/
noncomputable def burnAdvance (p : Profiles) (x c : ℝ) (src : List ℝ) : ℕ → List ℝ → Res (List ℝ)
  | _, [] => ok []
  | k, M :: Ms => do
    let s ← idx src k
    let rho ← p.at .rho x
    let v ← p.at .v x
    let q ← cdiv (c * s) rho
    let q ← cdiv q v
    let Ms ← burnAdvance p x c src (k + 1) Ms
    ok ((M + q) :: Ms)

/-- burner_flame.cc:117-144, one pass with step number `i`. -/
noncomputable def burnStep (eig : Eig) (p : Profiles) (dz : ℝ) (i : ℕ) (b : Burn) : Res Burn := do
  let (m, s, g) ← burnStage eig p gasFull b b.Mhat b.z
  let Mhath ← burnAdvance p b.z (0.5 * dz) m.sources.soot 0 b.Mhat
  let zh := b.z + dz / 2
  let (m, s, g) ← burnStage eig p gasHalf ⟨b.z, b.Mhat, s, m, g⟩ Mhath zh
  let Mhat ← burnAdvance p zh dz m.sources.soot 0 b.Mhat
  if i % 200 = 0 then do
    let _ ← p.at .rho (b.z + dz)   -- 141
    ok ⟨b.z + dz, Mhat, s, m, g⟩
  else ok ⟨b.z + dz, Mhat, s, m, g⟩

/-- The loop, `n` passes left, from step `i` on. -/
noncomputable def burnLoop (eig : Eig) (p : Profiles) (dz : ℝ) : ℕ → ℕ → Burn → Res Burn
  | 0, _, b => ok b
  | n + 1, i, b => do
    let b ← burnStep eig p dz i b
    burnLoop eig p dz n (i + 1) b

/-- burner_flame.cc:14-150; with `psd = .HMOM`, `nsoot = 8` this is burner_flame_HMOM.cc, which differs only in the model.  `none` is `exit(0)` in a table constructor; the result are the loop variables at line 145. -/
noncomputable def burnMain (eig : Eig) (p : Profiles) (psd : PsdMech) (nsoot : ℕ) (n : NuclMech) (g : GrowMech) (o : OxidMech) (c : CoagMech)
    (nsteps : ℕ) : Res (Option Burn) := do
  match ← p.tables Col.all with
  | none => ok none
  | some _ => do
    let m ← Model.new psd nsoot n g o c
    let m := { m with coag := m.coag.setFM (9.0 / 2.0 / 2.2) }
    let z0 ← idx p.z 0
    let z1 ← idx p.z (p.z.length - 1)
    let dz ← cdiv (z1 - z0) nsteps
    let _ ← p.at .rho z0   -- 113
    let b ← burnLoop eig p dz nsteps 0 ⟨z0, List.replicate nsoot 0, State.mk' nsoot 0, m, none⟩
    ok (some b)

/-! ## The version with tar (`/repo/examples/burner_flame/burner_flame_tar.cc`) -/

/-- The loop variables of the tar version. -/
structure TarBurn extends Burn where
  TVhat : ℝ

/-- burner_flame_tar.cc:133-139 and 146-152: one evaluation; `setState` with the default `cMin` (state.h:54), then `get_mtar_ytar`. -/
noncomputable def tarStage (eig : Eig) (p : Profiles) (cols : List Col) (b : TarBurn) (Mh : List ℝ) (tv x : ℝ) : Res (Model × State × Option ℝ) := do
  let y ← p.row x cols
  let rho ← p.at .rho x
  let T ← p.at .T x
  let mu ← p.at .mu x
  let r := setState b.S { burnArgs b.SM.nsoot T rho mu y (Mh.map (· * rho)) with tarVar := [tv * rho], Ntar := 1, cMin := 100 }
  r.2
  let s ← getMtarYtar r.1
  sourceTerms eig b.SM b.glob s

/-- burner_flame_tar.cc:131-163, one pass. -/
noncomputable def tarStep (eig : Eig) (p : Profiles) (dz : ℝ) (i : ℕ) (b : TarBurn) : Res TarBurn := do
  let (m, s, g) ← tarStage eig p gasFull b b.Mhat b.TVhat b.z
  let Mhath ← burnAdvance p b.z (0.5 * dz) m.sources.soot 0 b.Mhat
  let tv ← burnAdvance p b.z (0.5 * dz) m.sources.tar 0 [b.TVhat]
  let tv ← idx tv 0
  let zh := b.z + dz / 2
  let (m, s, g) ← tarStage eig p gasHalf ⟨⟨b.z, b.Mhat, s, m, g⟩, b.TVhat⟩ Mhath tv zh
  let Mhat ← burnAdvance p zh dz m.sources.soot 0 b.Mhat
  let tv ← burnAdvance p zh dz m.sources.tar 0 [b.TVhat]
  let tv ← idx tv 0
  if i % 200 = 0 then do
    let _ ← p.at .rho (b.z + dz)
    ok ⟨⟨b.z + dz, Mhat, s, m, g⟩, tv⟩
  else ok ⟨⟨b.z + dz, Mhat, s, m, g⟩, tv⟩

/-- The loop. -/
noncomputable def tarLoop (eig : Eig) (p : Profiles) (dz : ℝ) : ℕ → ℕ → TarBurn → Res TarBurn
  | 0, _, b => ok b
  | n + 1, i, b => do
    let b ← tarStep eig p dz i b
    tarLoop eig p dz n (i + 1) b

/-- burner_flame_tar.cc: MONO with two variables, one tar variable and the AJ_RED tar model; the other mechanisms are parameters (the file takes
AJ_RED, HACA, AJ_RED, FM). -/
noncomputable def tarMain (eig : Eig) (p : Profiles) (n : NuclMech) (g : GrowMech) (o : OxidMech) (c : CoagMech) (nsteps : ℕ) :
    Res (Option TarBurn) := do
  match ← p.tables Col.all with
  | none => ok none
  | some _ => do
    let m ← Model.newPtr .MONO 2 (Nucl.new n) (Grow.new g) (Oxid.new o) (Coag.new c) 1 .AJ_RED
    let m := { m with coag := m.coag.setFM (9.0 / 2.0 / 2.2) }
    let z0 ← idx p.z 0
    let z1 ← idx p.z (p.z.length - 1)
    let dz ← cdiv (z1 - z0) nsteps
    let _ ← p.at .rho z0
    let b ← tarLoop eig p dz nsteps 0
      ⟨⟨z0, [0, 0], { State.mk' 2 1 with yBio := [0.46, 0.16, 0.16, 0.11, 0.11] }, m, none⟩, 0⟩
    ok (some b)

end Soot
