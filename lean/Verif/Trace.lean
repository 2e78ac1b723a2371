import Verif.Hmom
import Verif.Sect
import Verif.Logn
import Verif.Bio

/-!
# Whole programs: any sequence of calls of the public interface

Objects are numbered in the order of creation.  A caller is modelled as a list of calls; it catches what `setState` and the constructors
throw and goes on.  Deleting objects is modelled in `Verif/Own.lean`.
-/

namespace Soot

open Res
open scoped Classical

/-- The live objects, and the function-local static of sootModel_SECT.cc:256. -/
structure World where
  st : List State
  md : List Model
  glob : Option ℝ

/-- Virtual `setSourceTerms` (sootModel.h:50). -/
noncomputable def sourceTerms (eig : Eig) (m : Model) (glob : Option ℝ) (s : State) : Res (Model × State × Option ℝ) :=
  match m.psd with
  | .NONE => ub   -- there is no such class
  | .MONO => do let (m, s) ← monoSources m s; ok (m, s, glob)
  | .LOGN => do let (m, s) ← lognSources m s; ok (m, s, glob)
  | .QMOM => do let (m, s) ← qmomSources eig m s; ok (m, s, glob)
  | .MOMIC => do let (m, s) ← momicSources m s; ok (m, s, glob)
  | .HMOM => do let (m, s) ← hmomSources m s; ok (m, s, glob)
  | .SECT => sectSources m glob s

/-- One call. -/
inductive Call
  /-- `new state(nsoot, Ntar)`, state.h:94 -/
  | newState (nsoot Ntar : ℕ)
  /-- `states[i].setState(...)`, state.h:51 -/
  | set (i : ℕ) (a : SetArgs)
  /-- `states[i].setBio(...)`, state.h:80 -/
  | bio (i : ℕ) (y : List ℝ)
  /-- `states[i].setCoal(...)`, state.cc:198 -/
  | coal (i : ℕ) (OC HC V : ℝ)
  /-- `states[i].get_mtar_ytar()`, state.cc:142 -/
  | tarBio (i : ℕ)
  /-- `states[i].get_mtar_ytar_coal()`, state.cc:204 -/
  | tarCoal (i : ℕ)
  /-- the enum constructors of the six classes -/
  | newModel (psd : PsdMech) (nsoot : ℕ) (n : NuclMech) (g : GrowMech) (o : OxidMech) (c : CoagMech) (Ntar : ℕ) (t : TarMech) (F : ℝ)
      (cMin : ℤ)
  /-- `models[j].setSourceTerms(states[i])` -/
  | sources (j i : ℕ)

/-- One call, with `domain_error` and `runtime_error` caught by the caller.  A number that names no object is undefined behaviour. -/
noncomputable def step (eig : Eig) (w : World) : Call → Res World
  | .newState n t => ok { w with st := w.st ++ [State.mk' n t] }
  | .set i a => do
    let s ← idx w.st i
    match setState s a with
    | (_, .ub) => ub
    | (_, .nonfin) => nonfin
    | (s', .ok _) => ok { w with st := w.st.set i s' }
    | (s', .exn _) => ok { w with st := w.st.set i s' }
  | .bio i y => do
    let s ← idx w.st i
    ok { w with st := w.st.set i (setBio s y) }
  | .coal i x y z => do
    let s ← idx w.st i
    ok { w with st := w.st.set i (setCoal s x y z) }
  | .tarBio i => do
    let s ← idx w.st i
    let s' ← getMtarYtar s
    ok { w with st := w.st.set i s' }
  | .tarCoal i => do
    let s ← idx w.st i
    let s' ← getMtarYtarCoal s
    ok { w with st := w.st.set i s' }
  | .newModel psd k n g o c N t F cm =>
    match Model.new psd k n g o c N t F cm with
    | .ub => ub
    | .nonfin => nonfin
    | .ok m => ok { w with md := w.md ++ [m] }
    | .exn _ => ok w
  | .sources j i => do
    let m ← idx w.md j
    let s ← idx w.st i
    let (m', s', g) ← sourceTerms eig m w.glob s
    ok { st := w.st.set i s', md := w.md.set j m', glob := g }

/-- A program. -/
noncomputable def run (eig : Eig) : World → List Call → Res World
  | w, [] => ok w
  | w, o :: t => do
    let w ← step eig w o
    run eig w t

/-- Start of the process: no objects, the static not yet initialised. -/
def World.start : World := ⟨[], [], none⟩

end Soot
