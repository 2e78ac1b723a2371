import Verif.Model

/-!
# Object lifetimes: who allocates and frees the mechanism objects

`/repo/src/sootModel.h:95-103` (destructor), `/repo/src/sootModel.cc:60-180` (constructors), the bodies of the derived constructors,
`/repo/src/fortran_wraps/c_interface.cc:227-235`.  The heap holds mechanism objects and model objects; addresses are never reused.
Touching an object that is not there, or freeing it twice, is `ub`.
-/

namespace Soot

open Res
open scoped Classical

/-- The dynamic type (`mechType`) of a mechanism object. -/
inductive Kind
  | nucl (m : NuclMech)
  | grow (m : GrowMech)
  | oxid (m : OxidMech)
  | coag (m : CoagMech)
  | tar (m : TarMech)
  deriving DecidableEq

/-- A mechanism object.  `SM` is the back pointer (`none` = never set); `user` records who called `new`. -/
structure MechObj where
  kind : Kind
  SM : Option ℕ
  user : Bool

/-- A model object: sootModel.h:33-41. -/
structure ModelObj where
  psd : PsdMech
  nucl : ℕ
  grow : ℕ
  oxid : ℕ
  coag : ℕ
  tar : ℕ
  owned : Bool   -- mechsNewedHere

/-- The mechanism pointers in the order of the destructor. -/
def ModelObj.ptrs (o : ModelObj) : List ℕ := [o.nucl, o.grow, o.oxid, o.coag, o.tar]

structure Heap where
  mech : ℕ → Option MechObj
  nextMech : ℕ
  model : ℕ → Option ModelObj
  nextModel : ℕ
  freed : List ℕ

def Heap.empty : Heap := ⟨fun _ => none, 0, fun _ => none, 0, []⟩

/-- `new xxxModel_Y()` -/
def Heap.alloc (h : Heap) (k : Kind) (user : Bool) : Heap :=
  { h with mech := fun i => if i = h.nextMech then some ⟨k, none, user⟩ else h.mech i, nextMech := h.nextMech + 1 }

/-- `delete p` of a mechanism -/
def Heap.free (h : Heap) (i : ℕ) : Res Heap :=
  match h.mech i with
  | none => ub
  | some _ => ok { h with mech := fun j => if j = i then none else h.mech j, freed := i :: h.freed }

def Heap.freeAll (h : Heap) : List ℕ → Res Heap
  | [] => ok h
  | i :: l => h.free i >>= fun h => h.freeAll l

/-- `p->SM = this` -/
def Heap.setSM (h : Heap) (i m : ℕ) : Heap :=
  { h with mech := fun j => if j = i then (h.mech j).map fun o => { o with SM := some m } else h.mech j }

/-- The constructed object appears at the address it was constructed at. -/
def Heap.place (h : Heap) (o : ModelObj) : Heap :=
  { h with model := fun j => if j = h.nextModel then some o else h.model j, nextModel := h.nextModel + 1 }

/-- The constructor threw: the address was used, nothing remains there. -/
def Heap.abandon (h : Heap) : Heap := { h with nextModel := h.nextModel + 1 }

/-- sootModel.h:95-103 -/
def Heap.dtor (h : Heap) (o : ModelObj) : Res Heap := if o.owned then h.freeAll o.ptrs else ok h

/-- The check of the derived body, reading `tar->mechType` where the class does so: after the check of `nsoot` and before the one of the
coagulation mechanism (with `FM` and `NONE` only `nsoot` is checked). -/
noncomputable def Heap.ptrCheck (h : Heap) (psd : PsdMech) (nsoot : ℕ) (cm : CoagMech) (t : ℕ) : Res Unit :=
  match psd, h.mech t with
  | .MONO, _ => ctorCheck .MONO nsoot cm .NONE
  | psd, some ⟨.tar tm, _, _⟩ => ctorCheck psd nsoot cm tm
  | psd, _ => do
    ctorCheck psd nsoot .FM .NONE
    ub

/-- The pointer constructor: sootModel.cc:67-74 (`checkSpec` reads grow and oxid, then the four back pointers are set; `tar->SM` is not),
then the derived body.  MONO never reads `tar` there. -/
noncomputable def Heap.ctorPtr (h : Heap) (psd : PsdMech) (nsoot : ℕ) (n g o c t : ℕ) : Heap × Res (Option ℕ) :=
  match h.mech n, h.mech g, h.mech o, h.mech c with
  | some ⟨.nucl _, _, _⟩, some ⟨.grow _, _, _⟩, some ⟨.oxid _, _, _⟩, some ⟨.coag cm, _, _⟩ =>
    let h := (((h.setSM n h.nextModel).setSM g h.nextModel).setSM o h.nextModel).setSM c h.nextModel
    match h.ptrCheck psd nsoot cm t with
    | .ok _ => (h.place ⟨psd, n, g, o, c, t, false⟩, ok (some h.nextModel))
    | .exn e => (h.abandon, exn e)   -- ~sootModel() of the base runs: nothing to free
    | .ub => (h, ub)
    | .nonfin => (h, nonfin)
  | _, _, _, _ => (h, ub)

/-- One `switch` of the enum constructor (sootModel.cc:98-164): `none` is a value without a case label. -/
def Heap.select (h : Heap) (k : Option Kind) : Heap × Res ℕ :=
  match k with
  | some k => (h.alloc k false, ok h.nextMech)
  | none => (h, exn (.domain "Invalid model requested"))

/-- The enum constructor: sootModel.cc:90-180 and the derived body.  A throw inside the base constructor runs no destructor; a throw of the
derived body runs `~sootModel()`. -/
noncomputable def Heap.ctorEnum (h : Heap) (psd : PsdMech) (nsoot : ℕ) (nm : Option NuclMech) (gm : Option GrowMech) (om : Option OxidMech)
    (cm : Option CoagMech) (tm : Option TarMech) : Heap × Res (Option ℕ) :=
  match h.select (nm.map .nucl) with
  | (h, .ok n) =>
    match h.select (gm.map .grow) with
    | (h, .ok g) =>
      match h.select (om.map .oxid) with
      | (h, .ok o) =>
        match h.select (cm.map .coag) with
        | (h, .ok c) =>
          match h.select (tm.map .tar) with
          | (h, .ok t) =>
            let h := ((((h.setSM n h.nextModel).setSM g h.nextModel).setSM o h.nextModel).setSM c h.nextModel).setSM t h.nextModel
            let obj : ModelObj := ⟨psd, n, g, o, c, t, true⟩
            match ctorCheck psd nsoot (cm.getD .NONE) (tm.getD .NONE) with
            | .ok _ => (h.place obj, ok (some h.nextModel))
            | .exn e =>
              match h.dtor obj with
              | .ok h => (h.abandon, exn e)
              | .exn e => (h, exn e)
              | .ub => (h, ub)
              | .nonfin => (h, nonfin)
            | .ub => (h, ub)
            | .nonfin => (h, nonfin)
          | (h, .exn e) => (h.abandon, exn e)
          | (h, _) => (h, ub)
        | (h, .exn e) => (h.abandon, exn e)
        | (h, _) => (h, ub)
      | (h, .exn e) => (h.abandon, exn e)
      | (h, _) => (h, ub)
    | (h, .exn e) => (h.abandon, exn e)
    | (h, _) => (h, ub)
  | (h, .exn e) => (h.abandon, exn e)
  | (h, _) => (h, ub)

/-- The implicit copy constructor: all members are copied, including the pointers and `mechsNewedHere`. -/
def Heap.copyModel (h : Heap) (m : ℕ) : Heap × Res (Option ℕ) :=
  match h.model m with
  | none => (h, ub)
  | some o => (h.place o, ok (some h.nextModel))

/-- `delete SM` / end of scope -/
def Heap.delModel (h : Heap) (m : ℕ) : Heap × Res (Option ℕ) :=
  match h.model m with
  | none => (h, ub)
  | some o =>
    match h.dtor o with
    | .ok h => ({ h with model := fun j => if j = m then none else h.model j }, ok none)
    | _ => (h, ub)

def Heap.delMech (h : Heap) (i : ℕ) : Heap × Res (Option ℕ) :=
  match h.free i with
  | .ok h => (h, ok none)
  | _ => (h, ub)

/-- A mechanism object that looks at the model through `SM` when its rate is computed: nucleationModel_PAH.cc:101-107,
growthModel_{LL,HACA,MB,FAIR}.cc, oxidationModel_{HACA,MB}.cc. -/
def Kind.readsSM : Kind → Bool
  | .nucl .PAH => true
  | .grow .LL => true
  | .grow .HACA => true
  | .grow .MB => true
  | .grow .FAIR => true
  | .oxid .HACA => true
  | .oxid .MB => true
  | _ => false

/-- Evaluating one mechanism: the object must be there, and if it looks through `SM`, the model it points to must be there and (PAH:
`SM->coag`) that model's coagulation object. -/
def Heap.touch (h : Heap) (i : ℕ) : Res Unit :=
  match h.mech i with
  | none => ub
  | some ob =>
    if ob.kind.readsSM then
      match ob.SM with
      | none => ub
      | some m =>
        match h.model m with
        | none => ub
        | some o => if ob.kind = .nucl .PAH ∧ h.mech o.coag = none then ub else ok ()
    else ok ()

/-- The memory a complete `setSourceTerms` call touches (all PSD classes read `nucl`, `grow`, `oxid`, `coag`; only MONO reads `tar`). -/
def Heap.useModel (h : Heap) (m : ℕ) : Heap × Res (Option ℕ) :=
  match h.model m with
  | none => (h, ub)
  | some o =>
    (h, do
      h.touch o.nucl
      h.touch o.grow
      h.touch o.oxid
      h.touch o.coag
      if o.psd = .MONO then h.touch o.tar
      ok none)

/-- Client operations. -/
inductive Op
  | newMech (k : Kind)
  | delMech (i : ℕ)
  | newPtr (psd : PsdMech) (nsoot : ℕ) (n g o c t : ℕ)
  | newPtrDefaultTar (psd : PsdMech) (nsoot : ℕ) (n g o c : ℕ)   -- default argument `new tarModel_NONE`
  | newEnum (psd : PsdMech) (nsoot : ℕ) (n : Option NuclMech) (g : Option GrowMech) (o : Option OxidMech) (c : Option CoagMech)
      (t : Option TarMech)
  | copy (m : ℕ)
  | delModel (m : ℕ)
  | use (m : ℕ)

noncomputable def Heap.step (h : Heap) : Op → Heap × Res (Option ℕ)
  | .newMech k => (h.alloc k true, ok (some h.nextMech))
  | .delMech i => h.delMech i
  | .newPtr psd ns n g o c t => h.ctorPtr psd ns n g o c t
  | .newPtrDefaultTar psd ns n g o c => (h.alloc (.tar .NONE) true).ctorPtr psd ns n g o c h.nextMech
  | .newEnum psd ns n g o c t => h.ctorEnum psd ns n g o c t
  | .copy m => h.copyModel m
  | .delModel m => h.delModel m
  | .use m => h.useModel m

/-- A program: operations one after the other; exceptions are caught by the client, undefined behaviour ends the run. -/
noncomputable def Heap.run (h : Heap) : List Op → Res Heap
  | [] => ok h
  | op :: ops =>
    match h.step op with
    | (_, .ub) => ub
    | (h, _) => h.run ops

/-- c_interface.cc:227-235 -/
def Heap.cDelete (h : Heap) (m n g o c t : ℕ) : Res Heap :=
  match h.delModel m with
  | (h, .ok _) => h.freeAll [n, g, o, c, t]
  | _ => ub

end Soot
