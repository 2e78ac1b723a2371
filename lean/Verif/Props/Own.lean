import Verif.Own
import Verif.Props.Ctor
import Mathlib.Data.List.Nodup
import Mathlib.Tactic.IntervalCases

/-!
# C44: ownership of the mechanism objects
-/

namespace Soot

open Res
open scoped Classical

/-! ## Freeing a list of objects -/

theorem free_ok {h : Heap} {i : ℕ} {ob : MechObj} (hi : h.mech i = some ob) :
    h.free i = ok { h with mech := fun j => if j = i then none else h.mech j, freed := i :: h.freed } := by
  rw [Heap.free, hi]

theorem free_ub {h : Heap} {i : ℕ} (hi : h.mech i = none) : h.free i = ub := by
  rw [Heap.free, hi]

/-- Distinct live objects: all are freed, each once. -/
theorem freeAll_ok : ∀ (l : List ℕ) (h : Heap), l.Nodup → (∀ i ∈ l, ∃ ob, h.mech i = some ob) →
    h.freeAll l = ok { h with mech := fun j => if j ∈ l then none else h.mech j, freed := l.reverse ++ h.freed }
  | [], h, _, _ => by simp [Heap.freeAll]
  | i :: l, h, hn, hl => by
    obtain ⟨ob, hi⟩ := hl i (List.mem_cons_self ..)
    have hil : i ∉ l := (List.nodup_cons.1 hn).1
    rw [Heap.freeAll, free_ok hi, ok_bind, freeAll_ok l _ (List.nodup_cons.1 hn).2]
    · simp only [List.reverse_cons, List.append_assoc, List.singleton_append, List.mem_cons]
      congr 2
      funext j
      by_cases hj : j = i
      · simp [hj]
      · by_cases hj' : j ∈ l <;> simp [hj, hj']
    · intro k hk
      obtain ⟨ok', e⟩ := hl k (List.mem_cons_of_mem _ hk)
      have : k ≠ i := fun e => hil (e ▸ hk)
      exact ⟨ok', by simp only [if_neg this, e]⟩

/-- A dead object in the list: undefined behaviour. -/
theorem freeAll_ub : ∀ (l : List ℕ) (h : Heap), (∃ i ∈ l, h.mech i = none) → h.freeAll l = ub
  | [], _, ⟨_, hi, _⟩ => absurd hi (by simp)
  | k :: l, h, ⟨i, hi, e⟩ => by
    rw [Heap.freeAll]
    cases hk : h.mech k with
    | none => rw [free_ub hk]; rfl
    | some ob =>
      rw [free_ok hk, ok_bind]
      rcases List.mem_cons.1 hi with rfl | hi
      · rw [hk] at e; cases e
      · refine freeAll_ub l _ ⟨i, hi, ?_⟩
        by_cases hik : i = k
        · simp [hik]
        · simp [hik, e]

/-! ## The heap invariant -/

/-- A model object whose mechanisms are all there, of the right kind, and look back at it. -/
structure Good (h : Heap) (m : ℕ) (o : ModelObj) : Prop where
  nucl : ∃ k, h.mech o.nucl = some ⟨.nucl k, some m, !o.owned⟩
  grow : ∃ k, h.mech o.grow = some ⟨.grow k, some m, !o.owned⟩
  oxid : ∃ k, h.mech o.oxid = some ⟨.oxid k, some m, !o.owned⟩
  coag : ∃ k, h.mech o.coag = some ⟨.coag k, some m, !o.owned⟩
  tar : ∃ k s, h.mech o.tar = some ⟨.tar k, s, !o.owned⟩ ∧ (o.owned → s = some m)

structure Inv (h : Heap) : Prop where
  freshMech : ∀ i, h.nextMech ≤ i → h.mech i = none ∧ i ∉ h.freed
  freshModel : ∀ m, h.nextModel ≤ m → h.model m = none
  freedNodup : h.freed.Nodup
  freedGone : ∀ i ∈ h.freed, h.mech i = none
  good : ∀ m o, h.model m = some o → Good h m o

theorem inv_empty : Inv Heap.empty :=
  ⟨fun _ _ => ⟨rfl, by simp [Heap.empty]⟩, fun _ _ => rfl, by simp [Heap.empty], by simp [Heap.empty], fun _ _ h => by cases h⟩

/-- The five pointers of a good model are five different objects. -/
theorem Good.nodup {h : Heap} {m : ℕ} {o : ModelObj} (g : Good h m o) : o.ptrs.Nodup := by
  obtain ⟨_, hn⟩ := g.nucl; obtain ⟨_, hg⟩ := g.grow; obtain ⟨_, ho⟩ := g.oxid; obtain ⟨_, hc⟩ := g.coag
  obtain ⟨_, _, ht, _⟩ := g.tar
  have key : ∀ {i j : ℕ} {a b : MechObj}, h.mech i = some a → h.mech j = some b → a.kind ≠ b.kind → i ≠ j := by
    intro i j a b ha hb hk e
    subst e; rw [ha] at hb; cases hb; exact hk rfl
  have e1 := key hn hg (by simp)
  have e2 := key hn ho (by simp)
  have e3 := key hn hc (by simp)
  have e4 := key hn ht (by simp)
  have e5 := key hg ho (by simp)
  have e6 := key hg hc (by simp)
  have e7 := key hg ht (by simp)
  have e8 := key ho hc (by simp)
  have e9 := key ho ht (by simp)
  have e10 := key hc ht (by simp)
  simp [ModelObj.ptrs, e1, e2, e3, e4, e5, e6, e7, e8, e9, e10]

theorem Good.live {h : Heap} {m : ℕ} {o : ModelObj} (g : Good h m o) : ∀ i ∈ o.ptrs, ∃ ob, h.mech i = some ob ∧ ob.user = !o.owned := by
  obtain ⟨_, hn⟩ := g.nucl; obtain ⟨_, hg⟩ := g.grow; obtain ⟨_, ho⟩ := g.oxid; obtain ⟨_, hc⟩ := g.coag
  obtain ⟨_, _, ht, _⟩ := g.tar
  intro i hi
  simp only [ModelObj.ptrs, List.mem_cons, List.not_mem_nil, or_false] at hi
  rcases hi with rfl | rfl | rfl | rfl | rfl
  · exact ⟨_, hn, rfl⟩
  · exact ⟨_, hg, rfl⟩
  · exact ⟨_, ho, rfl⟩
  · exact ⟨_, hc, rfl⟩
  · exact ⟨_, ht, rfl⟩

/-- The back pointer of every object an owning model owns. -/
theorem Good.back {h : Heap} {m : ℕ} {o : ModelObj} (g : Good h m o) (ho : o.owned = true) :
    ∀ i ∈ o.ptrs, ∃ ob, h.mech i = some ob ∧ ob.SM = some m := by
  obtain ⟨_, hn⟩ := g.nucl; obtain ⟨_, hg⟩ := g.grow; obtain ⟨_, ho'⟩ := g.oxid; obtain ⟨_, hc⟩ := g.coag
  obtain ⟨_, _, ht, hs⟩ := g.tar
  intro i hi
  simp only [ModelObj.ptrs, List.mem_cons, List.not_mem_nil, or_false] at hi
  rcases hi with rfl | rfl | rfl | rfl | rfl
  · exact ⟨_, hn, rfl⟩
  · exact ⟨_, hg, rfl⟩
  · exact ⟨_, ho', rfl⟩
  · exact ⟨_, hc, rfl⟩
  · exact ⟨_, ht, hs ho⟩

/-- Goodness depends only on the five objects. -/
theorem Good.congr {h h' : Heap} {m : ℕ} {o : ModelObj} (g : Good h m o) (e : ∀ i ∈ o.ptrs, h'.mech i = h.mech i) : Good h' m o := by
  have e1 := e o.nucl (by simp [ModelObj.ptrs])
  have e2 := e o.grow (by simp [ModelObj.ptrs])
  have e3 := e o.oxid (by simp [ModelObj.ptrs])
  have e4 := e o.coag (by simp [ModelObj.ptrs])
  have e5 := e o.tar (by simp [ModelObj.ptrs])
  exact ⟨e1 ▸ g.nucl, e2 ▸ g.grow, e3 ▸ g.oxid, e4 ▸ g.coag, e5 ▸ g.tar⟩

/-! ## Client discipline -/

/-- Nothing alive points to mechanism `i`. -/
def Unused (h : Heap) (i : ℕ) : Prop := ∀ m o, h.model m = some o → i ∉ o.ptrs

/-- Mechanism `i` is alive, was allocated by the client, and satisfies `p`. -/
def UserMech (h : Heap) (i : ℕ) (p : Kind → Prop) : Prop := ∃ ob, h.mech i = some ob ∧ ob.user = true ∧ p ob.kind

/-- What a client must respect: delete only what it allocated, once, and not while a model uses it; build a model from live mechanisms of
its own that no other live model uses (`tar` may be shared); delete and use only live models; do not copy models. -/
def Disc (h : Heap) : Op → Prop
  | .newMech _ => True
  | .delMech i => UserMech h i (fun _ => True) ∧ Unused h i
  | .newPtr psd _ n g o c t => psd ≠ .NONE ∧
      (UserMech h n (fun k => ∃ m, k = .nucl m) ∧ Unused h n) ∧ (UserMech h g (fun k => ∃ m, k = .grow m) ∧ Unused h g) ∧
      (UserMech h o (fun k => ∃ m, k = .oxid m) ∧ Unused h o) ∧ (UserMech h c (fun k => ∃ m, k = .coag m) ∧ Unused h c) ∧
      UserMech h t (fun k => ∃ m, k = .tar m)
  | .newPtrDefaultTar psd _ n g o c => psd ≠ .NONE ∧
      (UserMech h n (fun k => ∃ m, k = .nucl m) ∧ Unused h n) ∧ (UserMech h g (fun k => ∃ m, k = .grow m) ∧ Unused h g) ∧
      (UserMech h o (fun k => ∃ m, k = .oxid m) ∧ Unused h o) ∧ (UserMech h c (fun k => ∃ m, k = .coag m) ∧ Unused h c)
  | .newEnum psd _ _ _ _ _ _ => psd ≠ .NONE
  | .copy _ => False
  | .delModel m => ∃ o, h.model m = some o
  | .use m => ∃ o, h.model m = some o

/-- A program whose every operation respects the discipline when it is reached. -/
def Disciplined (h : Heap) : List Op → Prop
  | [] => True
  | op :: ops => Disc h op ∧ Disciplined (h.step op).1 ops

theorem inv_alloc {h : Heap} (I : Inv h) (k : Kind) (u : Bool) : Inv (h.alloc k u) := by
  refine ⟨?_, I.freshModel, I.freedNodup, ?_, ?_⟩
  · intro i hi
    have hi : h.nextMech + 1 ≤ i := hi
    have : i ≠ h.nextMech := by omega
    refine ⟨?_, (I.freshMech i (by omega)).2⟩
    simp only [Heap.alloc, if_neg this, (I.freshMech i (by omega)).1]
  · intro i hi
    have : i ≠ h.nextMech := fun e => (I.freshMech i (by omega)).2 hi
    simp only [Heap.alloc, if_neg this, I.freedGone i hi]
  · intro m o hm
    refine (I.good m o hm).congr fun i hi => ?_
    obtain ⟨ob, e, _⟩ := (I.good m o hm).live i hi
    have : i ≠ h.nextMech := fun e' => by rw [(I.freshMech i (by omega)).1] at e; cases e
    simp only [Heap.alloc, if_neg this]

theorem inv_abandon {h : Heap} (I : Inv h) : Inv h.abandon :=
  ⟨I.freshMech, fun m hm => I.freshModel m (by have : h.nextModel + 1 ≤ m := hm; omega), I.freedNodup, I.freedGone,
    fun m o hm => (I.good m o hm).congr fun _ _ => rfl⟩

/-- Setting the back pointer of an object nobody uses keeps the invariant. -/
theorem inv_setSM {h : Heap} (I : Inv h) {i m : ℕ} (hu : Unused h i) : Inv (h.setSM i m) := by
  refine ⟨?_, I.freshModel, I.freedNodup, ?_, ?_⟩
  · intro j hj
    refine ⟨?_, (I.freshMech j hj).2⟩
    by_cases hji : j = i
    · simp [Heap.setSM, ← hji, (I.freshMech j hj).1]
    · simp [Heap.setSM, hji, (I.freshMech j hj).1]
  · intro j hj
    by_cases hji : j = i
    · simp [Heap.setSM, ← hji, I.freedGone j hj]
    · simp [Heap.setSM, hji, I.freedGone j hj]
  · intro k o hk
    refine (I.good k o hk).congr fun j hj => ?_
    have : j ≠ i := fun e => hu k o hk (e ▸ hj)
    simp [Heap.setSM, this]

theorem unused_setSM {h : Heap} {i j m : ℕ} (hu : Unused h j) : Unused (h.setSM i m) j := fun k o hk => hu k o hk

theorem inv_place {h : Heap} (I : Inv h) {o : ModelObj} (g : Good h h.nextModel o) : Inv (h.place o) := by
  refine ⟨I.freshMech, ?_, I.freedNodup, I.freedGone, ?_⟩
  · intro m hm
    have hm : h.nextModel + 1 ≤ m := hm
    have : m ≠ h.nextModel := by omega
    simp only [Heap.place, if_neg this, I.freshModel m (by omega)]
  · intro m o' hm
    by_cases hmn : m = h.nextModel
    · simp only [Heap.place, if_pos hmn, Option.some.injEq] at hm
      subst hmn hm
      exact g.congr fun _ _ => rfl
    · simp only [Heap.place, if_neg hmn] at hm
      exact (I.good m o' hm).congr fun _ _ => rfl

theorem ctorCheck_ne_ub {psd : PsdMech} (hp : psd ≠ .NONE) (n : ℕ) (c : CoagMech) (t : TarMech) :
    ctorCheck psd n c t = ok () ∨ ∃ e, ctorCheck psd n c t = exn e := by
  by_cases h : Documented psd n c t
  · exact Or.inl ((ctorCheck_iff psd hp n c t).1 h)
  · obtain ⟨msg, e⟩ := (ctorCheck_iff psd hp n c t).2 h
    exact Or.inr ⟨_, e⟩

/-! ## The pointer constructor -/

theorem UserMech.eq {h : Heap} {i : ℕ} {p : Kind → Prop} (u : UserMech h i p) : ∃ k s, h.mech i = some ⟨k, s, true⟩ ∧ p k := by
  obtain ⟨⟨k, s, b⟩, e, hb, hk⟩ := u
  cases hb
  exact ⟨k, s, e, hk⟩

/-- The four writes of sootModel.cc:70-73. -/
def Heap.setSM4 (h : Heap) (n g o c : ℕ) : Heap :=
  (((h.setSM n h.nextModel).setSM g h.nextModel).setSM o h.nextModel).setSM c h.nextModel

/-- Complete description of the pointer constructor on live mechanisms of the right kinds. -/
theorem ctorPtr_eq {h : Heap} {psd : PsdMech} (hp : psd ≠ .NONE) (ns : ℕ) {n g o c t : ℕ} {nm gm om cm tm sn sg so sc st un ug uo uc ut}
    (hn : h.mech n = some ⟨.nucl nm, sn, un⟩) (hg : h.mech g = some ⟨.grow gm, sg, ug⟩) (ho : h.mech o = some ⟨.oxid om, so, uo⟩)
    (hc : h.mech c = some ⟨.coag cm, sc, uc⟩) (ht : h.mech t = some ⟨.tar tm, st, ut⟩) :
    (Documented psd ns cm tm ∧ h.ctorPtr psd ns n g o c t =
      ((h.setSM4 n g o c).place ⟨psd, n, g, o, c, t, false⟩, ok (some h.nextModel))) ∨
    (¬ Documented psd ns cm tm ∧ ∃ e, h.ctorPtr psd ns n g o c t = ((h.setSM4 n g o c).abandon, exn e)) := by
  have key : ∀ {i j : ℕ} {a b : MechObj}, h.mech i = some a → h.mech j = some b → a.kind ≠ b.kind → i ≠ j := by
    intro i j a b ha hb hk e
    subst e; rw [ha] at hb; cases hb; exact hk rfl
  have e4 := key ht hn (by simp)
  have e7 := key ht hg (by simp)
  have e9 := key ht ho (by simp)
  have e10 := key ht hc (by simp)
  have htt : (h.setSM4 n g o c).mech t = some ⟨.tar tm, st, ut⟩ := by
    simp only [Heap.setSM4, Heap.setSM, if_neg e4, if_neg e7, if_neg e9, if_neg e10, ht]
  have hchk : (h.setSM4 n g o c).ptrCheck psd ns cm t = ctorCheck psd ns cm tm := by
    unfold Heap.ptrCheck
    rw [htt]
    cases psd <;> rfl
  have hun : h.ctorPtr psd ns n g o c t = match (h.setSM4 n g o c).ptrCheck psd ns cm t with
      | .ok _ => ((h.setSM4 n g o c).place ⟨psd, n, g, o, c, t, false⟩, ok (some (h.setSM4 n g o c).nextModel))
      | .exn e => ((h.setSM4 n g o c).abandon, exn e)
      | .ub => (h.setSM4 n g o c, ub)
      | .nonfin => (h.setSM4 n g o c, nonfin) := by
    rw [Heap.ctorPtr, hn, hg, ho, hc]
    rfl
  rw [hun, hchk]
  by_cases hd : Documented psd ns cm tm
  · left
    rw [(ctorCheck_iff psd hp ns cm tm).1 hd]
    exact ⟨hd, rfl⟩
  · right
    obtain ⟨msg, e⟩ := (ctorCheck_iff psd hp ns cm tm).2 hd
    rw [e]
    exact ⟨hd, _, rfl⟩

/-- **C44 (construction from dead objects).** With a nucleation, growth, oxidation or coagulation object that is dead the pointer constructor is
undefined.  With a dead tar object MONO is not affected by it; the other classes throw for a wrong number of soot variables and are undefined
for a right one. -/
theorem C44_ctor_dead {h : Heap} (psd : PsdMech) (hp : psd ≠ .NONE) (ns n g o c t : ℕ) :
    (h.mech n = none ∨ h.mech g = none ∨ h.mech o = none ∨ h.mech c = none → h.ctorPtr psd ns n g o c t = (h, ub)) ∧
    (∀ {nm gm om cm sn sg so sc un ug uo uc}, h.mech n = some ⟨.nucl nm, sn, un⟩ → h.mech g = some ⟨.grow gm, sg, ug⟩ →
      h.mech o = some ⟨.oxid om, so, uo⟩ → h.mech c = some ⟨.coag cm, sc, uc⟩ → h.mech t = none →
      (psd = .MONO → ns = 2 → ∃ m, (h.ctorPtr psd ns n g o c t).2 = ok (some m)) ∧
      (psd ≠ .MONO → Documented psd ns .FM .NONE → (h.ctorPtr psd ns n g o c t).2 = ub) ∧
      (psd ≠ .MONO → ¬ Documented psd ns .FM .NONE → ∃ e, (h.ctorPtr psd ns n g o c t).2 = exn e)) := by
  constructor
  · intro hd
    rw [Heap.ctorPtr]
    split
    · rename_i h1 h2 h3 h4
      rcases hd with hd | hd | hd | hd <;> simp_all
    · rfl
  · intro nm gm om cm sn sg so sc un ug uo uc hn hg ho hc ht
    have key : ∀ {i : ℕ} {a : MechObj}, h.mech i = some a → t ≠ i := by
      intro i a ha e
      subst e; rw [ht] at ha; cases ha
    have htt : (h.setSM4 n g o c).mech t = none := by
      simp only [Heap.setSM4, Heap.setSM, if_neg (key hn), if_neg (key hg), if_neg (key ho), if_neg (key hc), ht]
    have hun : h.ctorPtr psd ns n g o c t = match (h.setSM4 n g o c).ptrCheck psd ns cm t with
        | .ok _ => ((h.setSM4 n g o c).place ⟨psd, n, g, o, c, t, false⟩, ok (some (h.setSM4 n g o c).nextModel))
        | .exn e => ((h.setSM4 n g o c).abandon, exn e)
        | .ub => (h.setSM4 n g o c, ub)
        | .nonfin => (h.setSM4 n g o c, nonfin) := by
      rw [Heap.ctorPtr, hn, hg, ho, hc]
      rfl
    have hck : psd ≠ .MONO → (h.setSM4 n g o c).ptrCheck psd ns cm t = (ctorCheck psd ns .FM .NONE >>= fun _ => ub) := by
      intro hm
      unfold Heap.ptrCheck
      rw [htt]
      cases psd <;> first | rfl | exact absurd rfl hm
    rw [hun]
    refine ⟨?_, fun hm hd => ?_, fun hm hd => ?_⟩
    · rintro rfl rfl
      exact ⟨_, rfl⟩
    · rw [hck hm, (ctorCheck_iff psd hp ns .FM .NONE).1 hd]; rfl
    · obtain ⟨msg, e⟩ := (ctorCheck_iff psd hp ns .FM .NONE).2 hd
      rw [hck hm, e]
      exact ⟨_, rfl⟩

/-- Four live objects and a tar pointer to nothing. -/
example : ((((((Heap.empty.alloc (.nucl .LL) true).alloc (.grow .LL) true).alloc (.oxid .LL) true).alloc (.coag .FM) true).ctorPtr .QMOM 6 0 1 2 3 4).2 = ub) :=
  ((C44_ctor_dead .QMOM (by simp) 6 0 1 2 3 4).2 (nm := .LL) (gm := .LL) (om := .LL) (cm := .FM) (sn := none) (sg := none) (so := none) (sc := none)
    (un := true) (ug := true) (uo := true) (uc := true) rfl rfl rfl rfl rfl).2.1 (by simp) (.qmom 3 (by norm_num) _)

theorem setSM_other {h : Heap} {i j m : ℕ} (hij : j ≠ i) : (h.setSM i m).mech j = h.mech j := by
  simp [Heap.setSM, hij]

theorem setSM_same {h : Heap} {i m : ℕ} {ob : MechObj} (hi : h.mech i = some ob) : (h.setSM i m).mech i = some { ob with SM := some m } := by
  simp [Heap.setSM, hi]

/-- One disciplined pointer construction. -/
theorem ctorPtr_inv {h : Heap} (I : Inv h) {psd : PsdMech} (hp : psd ≠ .NONE) (ns : ℕ) {n g o c t : ℕ}
    (hn : UserMech h n (fun k => ∃ m, k = .nucl m)) (un : Unused h n) (hg : UserMech h g (fun k => ∃ m, k = .grow m)) (ug : Unused h g)
    (ho : UserMech h o (fun k => ∃ m, k = .oxid m)) (uo : Unused h o) (hc : UserMech h c (fun k => ∃ m, k = .coag m)) (uc : Unused h c)
    (ht : UserMech h t (fun k => ∃ m, k = .tar m)) :
    (h.ctorPtr psd ns n g o c t).2 ≠ ub ∧ Inv (h.ctorPtr psd ns n g o c t).1 := by
  obtain ⟨_, sn, hn, nm, rfl⟩ := hn.eq
  obtain ⟨_, sg, hg, gm, rfl⟩ := hg.eq
  obtain ⟨_, so, ho, om, rfl⟩ := ho.eq
  obtain ⟨_, sc, hc, cm, rfl⟩ := hc.eq
  obtain ⟨_, st, ht, tm, rfl⟩ := ht.eq
  have key : ∀ {i j : ℕ} {a b : MechObj}, h.mech i = some a → h.mech j = some b → a.kind ≠ b.kind → i ≠ j := by
    intro i j a b ha hb hk e
    subst e; rw [ha] at hb; cases hb; exact hk rfl
  have e1 := key hn hg (by simp)
  have e2 := key hn ho (by simp)
  have e3 := key hn hc (by simp)
  have e4 := key hn ht (by simp)
  have e5 := key hg ho (by simp)
  have e6 := key hg hc (by simp)
  have e7 := key hg ht (by simp)
  have e8 := key ho hc (by simp)
  have e9 := key ho ht (by simp)
  have e10 := key hc ht (by simp)
  have I4 : Inv (h.setSM4 n g o c) :=
    inv_setSM (inv_setSM (inv_setSM (inv_setSM I un) (unused_setSM ug)) (unused_setSM (unused_setSM uo)))
      (unused_setSM (unused_setSM (unused_setSM uc)))
  rcases ctorPtr_eq hp ns hn hg ho hc ht with ⟨_, e⟩ | ⟨_, ex, e⟩
  · rw [e]
    refine ⟨by simp, inv_place I4 ⟨⟨nm, ?_⟩, ⟨gm, ?_⟩, ⟨om, ?_⟩, ⟨cm, ?_⟩, ⟨tm, st, ?_, by simp⟩⟩⟩
    · show (h.setSM4 n g o c).mech n = _
      rw [Heap.setSM4, setSM_other e3, setSM_other e2, setSM_other e1, setSM_same hn]; rfl
    · show (h.setSM4 n g o c).mech g = _
      rw [Heap.setSM4, setSM_other e6, setSM_other e5, setSM_same ((setSM_other e1.symm).trans hg)]; rfl
    · show (h.setSM4 n g o c).mech o = _
      rw [Heap.setSM4, setSM_other e8, setSM_same ((setSM_other e5.symm).trans ((setSM_other e2.symm).trans ho))]; rfl
    · show (h.setSM4 n g o c).mech c = _
      rw [Heap.setSM4, setSM_same ((setSM_other e8.symm).trans ((setSM_other e6.symm).trans ((setSM_other e3.symm).trans hc)))]; rfl
    · show (h.setSM4 n g o c).mech t = _
      rw [Heap.setSM4, setSM_other e10.symm, setSM_other e9.symm, setSM_other e7.symm, setSM_other e4.symm, ht]; rfl
  · rw [e]
    exact ⟨by simp, inv_abandon I4⟩

/-! ## The enum constructor -/

/-- The heap after the five `new`s and the five back pointers. -/
def Heap.five (h : Heap) (nm : NuclMech) (gm : GrowMech) (om : OxidMech) (cm : CoagMech) (tm : TarMech) : Heap :=
  { h with
    mech := fun j =>
      if j = h.nextMech then some ⟨.nucl nm, some h.nextModel, false⟩
      else if j = h.nextMech + 1 then some ⟨.grow gm, some h.nextModel, false⟩
      else if j = h.nextMech + 2 then some ⟨.oxid om, some h.nextModel, false⟩
      else if j = h.nextMech + 3 then some ⟨.coag cm, some h.nextModel, false⟩
      else if j = h.nextMech + 4 then some ⟨.tar tm, some h.nextModel, false⟩
      else h.mech j
    nextMech := h.nextMech + 5 }

/-- The object the enum constructor builds. -/
def Heap.fiveObj (h : Heap) (psd : PsdMech) : ModelObj :=
  ⟨psd, h.nextMech, h.nextMech + 1, h.nextMech + 2, h.nextMech + 3, h.nextMech + 4, true⟩

/-- Complete description of the enum constructor on valid selections. -/
theorem ctorEnum_eq (h : Heap) {psd : PsdMech} (hp : psd ≠ .NONE) (ns : ℕ) (nm gm om cm tm) :
    (Documented psd ns cm tm ∧ h.ctorEnum psd ns (some nm) (some gm) (some om) (some cm) (some tm) =
      ((h.five nm gm om cm tm).place (h.fiveObj psd), ok (some h.nextModel))) ∨
    (¬ Documented psd ns cm tm ∧ ∃ e, h.ctorEnum psd ns (some nm) (some gm) (some om) (some cm) (some tm) =
      ({ h with
         mech := fun j => if h.nextMech ≤ j ∧ j < h.nextMech + 5 then none else h.mech j
         nextMech := h.nextMech + 5
         nextModel := h.nextModel + 1
         freed := [h.nextMech + 4, h.nextMech + 3, h.nextMech + 2, h.nextMech + 1, h.nextMech] ++ h.freed }, exn e)) := by
  have hfive : ((((((((((h.alloc (.nucl nm) false).alloc (.grow gm) false).alloc (.oxid om) false).alloc (.coag cm) false).alloc (.tar tm)
      false).setSM h.nextMech h.nextModel).setSM (h.nextMech + 1) h.nextModel).setSM (h.nextMech + 2) h.nextModel).setSM (h.nextMech + 3)
      h.nextModel).setSM (h.nextMech + 4) h.nextModel) = h.five nm gm om cm tm := by
    simp only [Heap.alloc, Heap.setSM, Heap.five]
    have hne : h.nextMech ≠ h.nextMech + 1 + 1 ∧ h.nextMech ≠ h.nextMech + 1 + 1 + 1 ∧ h.nextMech ≠ h.nextMech + 1 + 1 + 1 + 1 := by omega
    congr 1
    funext j
    by_cases h0 : j = h.nextMech
    · subst h0; simp [hne]
    by_cases h1 : j = h.nextMech + 1
    · subst h1; simp [hne]
    by_cases h2 : j = h.nextMech + 2
    · subst h2; simp [hne]
    by_cases h3 : j = h.nextMech + 3
    · subst h3; simp [hne]
    by_cases h4 : j = h.nextMech + 4
    · subst h4; simp [hne]
    simp [h0, h1, h2, h3, h4]
  have hun : h.ctorEnum psd ns (some nm) (some gm) (some om) (some cm) (some tm) =
      match ctorCheck psd ns cm tm with
      | .ok _ => ((h.five nm gm om cm tm).place (h.fiveObj psd), ok (some h.nextModel))
      | .exn e =>
        match (h.five nm gm om cm tm).dtor (h.fiveObj psd) with
        | .ok h => (h.abandon, exn e)
        | .exn e => (h.five nm gm om cm tm, exn e)
        | .ub => (h.five nm gm om cm tm, ub)
        | .nonfin => (h.five nm gm om cm tm, nonfin)
      | .ub => (h.five nm gm om cm tm, ub)
      | .nonfin => (h.five nm gm om cm tm, nonfin) := by
    rw [← hfive]; rfl
  rw [hun]
  by_cases hd : Documented psd ns cm tm
  · left
    rw [(ctorCheck_iff psd hp ns cm tm).1 hd]
    exact ⟨hd, rfl⟩
  · right
    obtain ⟨msg, e⟩ := (ctorCheck_iff psd hp ns cm tm).2 hd
    refine ⟨hd, .runtime msg, ?_⟩
    have hdt : (h.five nm gm om cm tm).dtor (h.fiveObj psd) = ok
        { h.five nm gm om cm tm with
          mech := fun j => if j ∈ (h.fiveObj psd).ptrs then none else (h.five nm gm om cm tm).mech j
          freed := (h.fiveObj psd).ptrs.reverse ++ h.freed } := by
      rw [Heap.dtor, if_pos (show (h.fiveObj psd).owned = true from rfl)]
      refine freeAll_ok _ _ ?_ ?_
      · simp [Heap.fiveObj, ModelObj.ptrs]
      · intro i hi
        simp only [Heap.fiveObj, ModelObj.ptrs, List.mem_cons, List.not_mem_nil, or_false] at hi
        rcases hi with rfl | rfl | rfl | rfl | rfl <;> simp [Heap.five]
    rw [e, hdt]
    simp only [Heap.abandon, Heap.five, Heap.fiveObj, ModelObj.ptrs, List.reverse_cons, List.reverse_nil, List.nil_append,
      List.cons_append]
    congr 2
    funext j
    by_cases hj : h.nextMech ≤ j ∧ j < h.nextMech + 5
    · have hmem : j ∈ [h.nextMech, h.nextMech + 1, h.nextMech + 2, h.nextMech + 3, h.nextMech + 4] := by
        simp only [List.mem_cons, List.not_mem_nil, or_false]; omega
      rw [if_pos hj]; exact if_pos hmem
    · have hmem : j ∉ [h.nextMech, h.nextMech + 1, h.nextMech + 2, h.nextMech + 3, h.nextMech + 4] := by
        simp only [List.mem_cons, List.not_mem_nil, or_false]; omega
      rw [if_neg hj]
      refine (if_neg hmem).trans ?_
      rw [if_neg (by omega), if_neg (by omega), if_neg (by omega), if_neg (by omega), if_neg (by omega)]

theorem five_good (h : Heap) (psd : PsdMech) (nm gm om cm tm) : Good (h.five nm gm om cm tm) h.nextModel (h.fiveObj psd) := by
  refine ⟨⟨nm, ?_⟩, ⟨gm, ?_⟩, ⟨om, ?_⟩, ⟨cm, ?_⟩, ⟨tm, some h.nextModel, ?_, fun _ => rfl⟩⟩ <;> simp [Heap.five, Heap.fiveObj]

theorem inv_five {h : Heap} (I : Inv h) (nm gm om cm tm) : Inv (h.five nm gm om cm tm) := by
  have out : ∀ j, j < h.nextMech ∨ h.nextMech + 5 ≤ j → (h.five nm gm om cm tm).mech j = h.mech j := by
    intro j hj
    simp only [Heap.five]
    rw [if_neg (by omega), if_neg (by omega), if_neg (by omega), if_neg (by omega), if_neg (by omega)]
  have lt : ∀ j, (∃ ob, h.mech j = some ob) → j < h.nextMech := by
    rintro j ⟨ob, e⟩
    by_contra hc
    rw [(I.freshMech j (by omega)).1] at e; cases e
  refine ⟨?_, I.freshModel, I.freedNodup, ?_, ?_⟩
  · intro i hi
    have hi : h.nextMech + 5 ≤ i := hi
    exact ⟨(out i (Or.inr hi)).trans (I.freshMech i (by omega)).1, (I.freshMech i (by omega)).2⟩
  · intro i hi
    have : i < h.nextMech := by
      by_contra hc
      exact (I.freshMech i (by omega)).2 hi
    exact (out i (Or.inl this)).trans (I.freedGone i hi)
  · intro m o hm
    refine (I.good m o hm).congr fun i hi => out i (Or.inl (lt i ?_))
    obtain ⟨ob, e, _⟩ := (I.good m o hm).live i hi
    exact ⟨ob, e⟩

/-- One enum construction, whatever the selections and counts: no undefined behaviour, invariant kept. -/
theorem ctorEnum_inv {h : Heap} (I : Inv h) {psd : PsdMech} (hp : psd ≠ .NONE) (ns : ℕ) (nm gm om cm tm) :
    (h.ctorEnum psd ns nm gm om cm tm).2 ≠ ub ∧ Inv (h.ctorEnum psd ns nm gm om cm tm).1 := by
  cases nm with
  | none => exact ⟨by simp [Heap.ctorEnum, Heap.select], inv_abandon I⟩
  | some nm =>
  cases gm with
  | none => exact ⟨by simp [Heap.ctorEnum, Heap.select], inv_abandon (inv_alloc I _ _)⟩
  | some gm =>
  cases om with
  | none => exact ⟨by simp [Heap.ctorEnum, Heap.select], inv_abandon (inv_alloc (inv_alloc I _ _) _ _)⟩
  | some om =>
  cases cm with
  | none => exact ⟨by simp [Heap.ctorEnum, Heap.select], inv_abandon (inv_alloc (inv_alloc (inv_alloc I _ _) _ _) _ _)⟩
  | some cm =>
  cases tm with
  | none => exact ⟨by simp [Heap.ctorEnum, Heap.select],
      inv_abandon (inv_alloc (inv_alloc (inv_alloc (inv_alloc I _ _) _ _) _ _) _ _)⟩
  | some tm =>
  rcases ctorEnum_eq h hp ns nm gm om cm tm with ⟨_, e⟩ | ⟨_, ex, e⟩
  · rw [e]
    exact ⟨by simp, inv_place (inv_five I nm gm om cm tm) (five_good h psd nm gm om cm tm)⟩
  · rw [e]
    have hm : (fun j => if h.nextMech ≤ j ∧ j < h.nextMech + 5 then none else h.mech j) = h.mech := by
      funext j
      by_cases hj : h.nextMech ≤ j ∧ j < h.nextMech + 5
      · rw [if_pos hj, (I.freshMech j hj.1).1]
      · rw [if_neg hj]
    refine ⟨by simp, ?_⟩
    simp only [hm]
    have hf : ∀ k, h.nextMech + k ∉ h.freed := fun k => (I.freshMech _ (by omega)).2
    refine ⟨?_, ?_, ?_, ?_, ?_⟩
    · intro i hi
      have hi : h.nextMech + 5 ≤ i := hi
      refine ⟨(I.freshMech i (by omega)).1, ?_⟩
      have := (I.freshMech i (by omega)).2
      simp only [List.cons_append, List.nil_append, List.mem_cons, not_or]
      exact ⟨by omega, by omega, by omega, by omega, by omega, this⟩
    · intro m hm
      exact I.freshModel m (by have : h.nextModel + 1 ≤ m := hm; omega)
    · have h0 := hf 0
      simp only [Nat.add_zero] at h0
      simp only [List.cons_append, List.nil_append, List.nodup_cons, List.mem_cons, not_or]
      exact ⟨⟨by omega, by omega, by omega, by omega, hf 4⟩, ⟨by omega, by omega, by omega, hf 3⟩, ⟨by omega, by omega, hf 2⟩,
        ⟨by omega, hf 1⟩, h0, I.freedNodup⟩
    · intro i hi
      simp only [List.cons_append, List.nil_append, List.mem_cons] at hi
      rcases hi with rfl | rfl | rfl | rfl | rfl | hi
      · exact (I.freshMech _ (by omega)).1
      · exact (I.freshMech _ (by omega)).1
      · exact (I.freshMech _ (by omega)).1
      · exact (I.freshMech _ (by omega)).1
      · exact (I.freshMech _ (by omega)).1
      · exact I.freedGone i hi
    · intro m o hm
      exact (I.good m o hm).congr fun _ _ => rfl

/-! ## Destruction and use -/

/-- Freeing `l` keeps the invariant if every remaining model has its objects outside `l`. -/
theorem inv_freed {h : Heap} (I : Inv h) {l : List ℕ} (hl : l.Nodup) (live : ∀ i ∈ l, ∃ ob, h.mech i = some ob) (M : ℕ → Option ModelObj)
    (hM : ∀ m o, M m = some o → h.model m = some o ∧ ∀ i ∈ o.ptrs, i ∉ l) (hMn : ∀ m, h.nextModel ≤ m → M m = none) :
    Inv { h with mech := fun j => if j ∈ l then none else h.mech j, model := M, freed := l.reverse ++ h.freed } := by
  have lt : ∀ j ∈ l, j < h.nextMech ∧ j ∉ h.freed := by
    intro j hj
    obtain ⟨ob, e⟩ := live j hj
    constructor
    · by_contra hc
      rw [(I.freshMech j (by omega)).1] at e; cases e
    · intro hf
      rw [I.freedGone j hf] at e; cases e
  refine ⟨?_, hMn, ?_, ?_, ?_⟩
  · intro i hi
    have hi : h.nextMech ≤ i := hi
    have hil : i ∉ l := fun hil => by have := (lt i hil).1; omega
    refine ⟨(if_neg hil).trans (I.freshMech i hi).1, ?_⟩
    simp only [List.mem_append, List.mem_reverse, not_or]
    exact ⟨hil, (I.freshMech i hi).2⟩
  · show (l.reverse ++ h.freed).Nodup
    refine List.nodup_append.2 ⟨List.nodup_reverse.2 hl, I.freedNodup, ?_⟩
    intro a ha b hb hab
    subst hab
    exact (lt a (List.mem_reverse.1 ha)).2 hb
  · intro i hi
    by_cases hil : i ∈ l
    · exact if_pos hil
    · refine (if_neg hil).trans (I.freedGone i ?_)
      have hi : i ∈ l.reverse ++ h.freed := hi
      rcases List.mem_append.1 hi with hi | hi
      · exact absurd (List.mem_reverse.1 hi) hil
      · exact hi
  · intro m o hm
    obtain ⟨hm', hd⟩ := hM m o hm
    exact (I.good m o hm').congr fun i hi => if_neg (hd i hi)

/-- Complete description of destroying a good model. -/
theorem delModel_eq {h : Heap} {m : ℕ} {o : ModelObj} (hm : h.model m = some o) (g : Good h m o) :
    h.delModel m =
      ({ h with
         mech := fun j => if o.owned = true ∧ j ∈ o.ptrs then none else h.mech j
         model := fun j => if j = m then none else h.model j
         freed := (if o.owned = true then o.ptrs.reverse else []) ++ h.freed }, ok none) := by
  rw [Heap.delModel, hm]
  by_cases ho : o.owned = true
  · have : h.dtor o = ok { h with mech := fun j => if j ∈ o.ptrs then none else h.mech j, freed := o.ptrs.reverse ++ h.freed } := by
      rw [Heap.dtor, if_pos ho]
      exact freeAll_ok _ _ g.nodup fun i hi => (g.live i hi).imp fun _ h => h.1
    simp only [this, ho, true_and, if_true]
  · have : h.dtor o = ok h := by rw [Heap.dtor, if_neg ho]
    simp only [this, ho, false_and, if_false, List.nil_append, Bool.false_eq_true]

theorem delModel_inv {h : Heap} (I : Inv h) {m : ℕ} {o : ModelObj} (hm : h.model m = some o) :
    (h.delModel m).2 ≠ ub ∧ Inv (h.delModel m).1 := by
  have g := I.good m o hm
  rw [delModel_eq hm g]
  refine ⟨by simp, ?_⟩
  have hMn : ∀ k, h.nextModel ≤ k → (if k = m then none else h.model k) = none := by
    intro k hk
    by_cases hkm : k = m
    · exact if_pos hkm
    · exact (if_neg hkm).trans (I.freshModel k hk)
  have hM : ∀ k o', (if k = m then none else h.model k) = some o' → k ≠ m ∧ h.model k = some o' := by
    intro k o' hk
    by_cases hkm : k = m
    · rw [if_pos hkm] at hk; cases hk
    · rw [if_neg hkm] at hk; exact ⟨hkm, hk⟩
  by_cases ho : o.owned = true
  · simp only [ho, true_and, if_true]
    refine inv_freed I g.nodup (fun i hi => (g.live i hi).imp fun _ h => h.1) _ ?_ hMn
    intro k o' hk
    obtain ⟨hkm, hk⟩ := hM k o' hk
    refine ⟨hk, fun i hi hil => ?_⟩
    -- an object of the destroyed model points back to it and was allocated by the constructor
    obtain ⟨ob, e, eb⟩ := g.back ho i hil
    obtain ⟨ob', e', eu'⟩ := (I.good k o' hk).live i hi
    obtain ⟨ob'', e'', eu⟩ := g.live i hil
    rw [e] at e' e''; cases e'; cases e''
    have ho' : o'.owned = true := by
      rw [eu, ho] at eu'
      cases h' : o'.owned
      · rw [h'] at eu'; cases eu'
      · rfl
    obtain ⟨ob3, e3, eb3⟩ := (I.good k o' hk).back ho' i hi
    rw [e] at e3; cases e3
    rw [eb] at eb3
    exact hkm (Option.some.inj eb3).symm
  · simp only [ho, false_and, if_false, List.nil_append, Bool.false_eq_true]
    refine ⟨I.freshMech, hMn, I.freedNodup, I.freedGone, ?_⟩
    intro k o' hk
    obtain ⟨_, hk⟩ := hM k o' hk
    exact (I.good k o' hk).congr fun _ _ => rfl

theorem delMech_inv {h : Heap} (I : Inv h) {i : ℕ} (hu : UserMech h i (fun _ => True)) (hn : Unused h i) :
    (h.delMech i).2 ≠ ub ∧ Inv (h.delMech i).1 := by
  obtain ⟨ob, e, _, _⟩ := hu
  rw [Heap.delMech, free_ok e]
  refine ⟨by simp, ?_⟩
  have := inv_freed I (l := [i]) (by simp) (by simpa using ⟨ob, e⟩) h.model
    (fun m o hm => ⟨hm, fun j hj => by
      simp only [List.mem_singleton]
      rintro rfl
      exact hn m o hm hj⟩) I.freshModel
  simpa using this

theorem touch_ok {h : Heap} {m : ℕ} {o : ModelObj} (hm : h.model m = some o) (g : Good h m o) {i : ℕ} {k : Kind} {s : Option ℕ} {u : Bool}
    (hi : h.mech i = some ⟨k, s, u⟩) (hs : s = some m ∨ k.readsSM = false) : h.touch i = ok () := by
  rw [Heap.touch, hi]
  obtain ⟨_, hc⟩ := g.coag
  rcases hs with rfl | hr
  · by_cases hr : k.readsSM = true
    · simp [hr, hm, hc]
    · simp [hr]
  · simp [hr]

theorem touch_cases (h : Heap) (i : ℕ) : h.touch i = ok () ∨ h.touch i = ub := by
  unfold Heap.touch
  split
  · exact Or.inr rfl
  · split
    · split
      · exact Or.inr rfl
      · split
        · exact Or.inr rfl
        · split
          · exact Or.inr rfl
          · exact Or.inl rfl
    · exact Or.inl rfl

/-- Using a good model is safe. -/
theorem useModel_ok {h : Heap} {m : ℕ} {o : ModelObj} (hm : h.model m = some o) (g : Good h m o) : h.useModel m = (h, ok none) := by
  obtain ⟨_, hn⟩ := g.nucl; obtain ⟨_, hg⟩ := g.grow; obtain ⟨_, ho'⟩ := g.oxid; obtain ⟨_, hc⟩ := g.coag
  obtain ⟨_, _, ht, _⟩ := g.tar
  rw [Heap.useModel, hm]
  simp only [touch_ok hm g hn (Or.inl rfl), touch_ok hm g hg (Or.inl rfl), touch_ok hm g ho' (Or.inl rfl), touch_ok hm g hc (Or.inl rfl),
    touch_ok hm g ht (Or.inr rfl), ok_bind]
  by_cases hp : o.psd = .MONO
  · simp [hp]
  · simp [hp]

/-! ## C44 -/

/-- Every disciplined operation is free of undefined behaviour and keeps the invariant. -/
theorem C44_step {h : Heap} (I : Inv h) {op : Op} (d : Disc h op) : (h.step op).2 ≠ ub ∧ Inv (h.step op).1 := by
  cases op with
  | newMech k => exact ⟨by simp [Heap.step], inv_alloc I k true⟩
  | delMech i => exact delMech_inv I d.1 d.2
  | newPtr psd ns n g o c t =>
    obtain ⟨hp, ⟨hn, un⟩, ⟨hg, ug⟩, ⟨ho, uo⟩, ⟨hc, uc⟩, ht⟩ := d
    exact ctorPtr_inv I hp ns hn un hg ug ho uo hc uc ht
  | newPtrDefaultTar psd ns n g o c =>
    obtain ⟨hp, ⟨hn, un⟩, ⟨hg, ug⟩, ⟨ho, uo⟩, ⟨hc, uc⟩⟩ := d
    have lift : ∀ {i : ℕ} {p : Kind → Prop}, UserMech h i p → UserMech (h.alloc (.tar .NONE) true) i p := by
      rintro i p ⟨ob, e, hu, hp⟩
      have : i ≠ h.nextMech := fun e' => by rw [(I.freshMech i (by omega)).1] at e; cases e
      exact ⟨ob, by simp only [Heap.alloc, if_neg this, e], hu, hp⟩
    exact ctorPtr_inv (inv_alloc I (.tar .NONE) true) hp ns (lift hn) un (lift hg) ug (lift ho) uo (lift hc) uc
      ⟨_, if_pos rfl, rfl, _, rfl⟩
  | newEnum psd ns n g o c t => exact ctorEnum_inv I d ns n g o c t
  | copy m => exact absurd d id
  | delModel m => obtain ⟨o, hm⟩ := d; exact delModel_inv I hm
  | use m =>
    obtain ⟨o, hm⟩ := d
    have := useModel_ok hm (I.good m o hm)
    exact ⟨by simp [Heap.step, this], by simpa [Heap.step, this] using I⟩

theorem C44_run {h : Heap} (I : Inv h) : ∀ {ops : List Op}, Disciplined h ops → ∃ h', h.run ops = ok h' ∧ Inv h' := by
  intro ops
  induction ops generalizing h with
  | nil => exact fun _ => ⟨h, rfl, I⟩
  | cons op ops ih =>
    rintro ⟨d, ds⟩
    obtain ⟨hu, I'⟩ := C44_step I d
    obtain ⟨h', e, I''⟩ := ih I' ds
    refine ⟨h', ?_, I''⟩
    rw [Heap.run]
    generalize hs : h.step op = r at hu e
    obtain ⟨h1, r⟩ := r
    cases r <;> first | exact absurd rfl hu | exact e

/-- C44, safety: a disciplined program of any length, with any mixture of constructors, failures, destructions and calls, has no undefined
behaviour; no mechanism is ever freed twice, and none that a live model uses is freed. -/
theorem C44_no_double_free {ops : List Op} (d : Disciplined Heap.empty ops) :
    ∃ h, Heap.empty.run ops = ok h ∧ h.freed.Nodup ∧ (∀ i ∈ h.freed, h.mech i = none) ∧
      ∀ m o, h.model m = some o → ∀ i ∈ o.ptrs, i ∉ h.freed := by
  obtain ⟨h, e, I⟩ := C44_run inv_empty d
  refine ⟨h, e, I.freedNodup, I.freedGone, fun m o hm i hi hf => ?_⟩
  obtain ⟨ob, e', _⟩ := (I.good m o hm).live i hi
  rw [I.freedGone i hf] at e'; cases e'

/-- C44: an enum-built model, constructed and destroyed, frees exactly its five new mechanisms, each once; all other objects stay. -/
theorem C44_enum_frees_once {h : Heap} (I : Inv h) {psd : PsdMech} {ns : ℕ} {cm : CoagMech} {tm : TarMech} (hd : Documented psd ns cm tm)
    (nm gm om) :
    ∃ h', h.run [.newEnum psd ns (some nm) (some gm) (some om) (some cm) (some tm), .delModel h.nextModel] = ok h' ∧
      h'.mech = h.mech ∧ h'.model = h.model ∧
      h'.freed = [h.nextMech + 4, h.nextMech + 3, h.nextMech + 2, h.nextMech + 1, h.nextMech] ++ h.freed := by
  have hp : psd ≠ .NONE := by rintro rfl; cases hd
  rcases ctorEnum_eq h hp ns nm gm om cm tm with ⟨_, e⟩ | ⟨hn, _⟩
  swap
  · exact absurd hd hn
  have hm : ((h.five nm gm om cm tm).place (h.fiveObj psd)).model h.nextModel = some (h.fiveObj psd) := if_pos rfl
  have g : Good ((h.five nm gm om cm tm).place (h.fiveObj psd)) h.nextModel (h.fiveObj psd) :=
    (five_good h psd nm gm om cm tm).congr fun _ _ => rfl
  have e2 := delModel_eq hm g
  refine ⟨_, by simp only [Heap.run, Heap.step, e, e2]; rfl, ?_, ?_, ?_⟩
  · funext j
    show (if (h.fiveObj psd).owned = true ∧ j ∈ (h.fiveObj psd).ptrs then none else (h.five nm gm om cm tm).mech j) = h.mech j
    by_cases hj : j ∈ (h.fiveObj psd).ptrs
    · rw [if_pos ⟨rfl, hj⟩, (I.freshMech j ?_).1]
      simp only [Heap.fiveObj, ModelObj.ptrs, List.mem_cons, List.not_mem_nil, or_false] at hj
      omega
    · rw [if_neg (fun hc => hj hc.2)]
      simp only [Heap.fiveObj, ModelObj.ptrs, List.mem_cons, List.not_mem_nil, or_false, not_or] at hj
      simp only [Heap.five]
      rw [if_neg hj.1, if_neg hj.2.1, if_neg hj.2.2.1, if_neg hj.2.2.2.1, if_neg hj.2.2.2.2]
  · funext j
    show (if j = h.nextModel then none else if j = h.nextModel then _ else h.model j) = h.model j
    by_cases hj : j = h.nextModel
    · rw [if_pos hj, I.freshModel j (by omega)]
    · rw [if_neg hj, if_neg hj]
  · rfl

/-- C44: destroying a pointer-built model frees nothing. -/
theorem C44_ptr_frees_none {h : Heap} {m : ℕ} {o : ModelObj} (hm : h.model m = some o) (ho : o.owned = false) :
    ∃ h', h.delModel m = (h', ok none) ∧ h'.mech = h.mech ∧ h'.freed = h.freed ∧ h'.model m = none := by
  refine ⟨{ h with model := fun j => if j = m then none else h.model j }, ?_, rfl, rfl, if_pos rfl⟩
  rw [Heap.delModel, hm]
  simp [Heap.dtor, ho]

/-- C44: a pointer-built model records that it does not own, whatever the mechanisms. -/
theorem C44_ptr_not_owned {h h' : Heap} {psd : PsdMech} {ns n g o c t m : ℕ} (e : h.ctorPtr psd ns n g o c t = (h', ok (some m))) :
    ∃ ob, h'.model m = some ob ∧ ob.owned = false ∧ ob.ptrs = [n, g, o, c, t] := by
  unfold Heap.ctorPtr at e
  split at e
  · dsimp only at e
    split at e
    · simp only [Prod.mk.injEq, ok.injEq, Option.some.injEq] at e
      obtain ⟨rfl, rfl⟩ := e
      exact ⟨_, if_pos rfl, rfl, rfl⟩
    all_goals (simp at e)
  · simp at e

/-- C44: the throw of a derived constructor (undocumented configuration) frees the five just-built mechanisms once and leaves every other
object as it was. -/
theorem C44_throw_no_leak {h : Heap} (I : Inv h) {psd : PsdMech} (hp : psd ≠ .NONE) {ns : ℕ} {cm : CoagMech} {tm : TarMech}
    (hd : ¬ Documented psd ns cm tm) (nm gm om) :
    ∃ h' e, h.step (.newEnum psd ns (some nm) (some gm) (some om) (some cm) (some tm)) = (h', exn e) ∧
      h'.mech = h.mech ∧ h'.model = h.model ∧
      h'.freed = [h.nextMech + 4, h.nextMech + 3, h.nextMech + 2, h.nextMech + 1, h.nextMech] ++ h.freed := by
  rcases ctorEnum_eq h hp ns nm gm om cm tm with ⟨h1, _⟩ | ⟨_, ex, e⟩
  · exact absurd h1 hd
  refine ⟨_, ex, e, ?_, rfl, rfl⟩
  funext j
  by_cases hj : h.nextMech ≤ j ∧ j < h.nextMech + 5
  · exact (if_pos hj).trans (I.freshMech j hj.1).1.symm
  · exact if_neg hj

/-- The mechanisms selected before the first invalid selection. -/
def goodPrefix (nm : Option NuclMech) (gm : Option GrowMech) (om : Option OxidMech) (cm : Option CoagMech) (tm : Option TarMech) : List Kind :=
  (([nm.map Kind.nucl, gm.map .grow, om.map .oxid, cm.map .coag, tm.map .tar].takeWhile Option.isSome).filterMap id)

/-- An invalid selection makes the base constructor throw; the mechanisms selected before it stay allocated, no model refers to them, and
nothing is freed: they are leaked. -/
theorem C44_bad_selection_leaks (h : Heap) (psd : PsdMech) (ns : ℕ) {nm gm om cm tm}
    (hbad : nm = none ∨ gm = none ∨ om = none ∨ cm = none ∨ tm = none) :
    ∃ h' e, h.step (.newEnum psd ns nm gm om cm tm) = (h', exn e) ∧ h'.model = h.model ∧ h'.freed = h.freed ∧
      h'.nextMech = h.nextMech + (goodPrefix nm gm om cm tm).length ∧
      (∀ k (hk : k < (goodPrefix nm gm om cm tm).length),
        h'.mech (h.nextMech + k) = some ⟨(goodPrefix nm gm om cm tm)[k], none, false⟩) ∧
      ∀ i, i < h.nextMech → h'.mech i = h.mech i := by
  cases nm with
  | none =>
    refine ⟨_, _, rfl, rfl, rfl, rfl, ?_, fun i _ => rfl⟩
    intro k hk; simp [goodPrefix] at hk
  | some nm =>
  cases gm with
  | none =>
    refine ⟨_, _, rfl, rfl, rfl, rfl, ?_, ?_⟩
    · intro k hk
      have hk : k < 1 := hk
      obtain rfl : k = 0 := by omega
      simp [goodPrefix, Heap.select, Heap.alloc, Heap.abandon]
    · intro i hi
      have : i ≠ h.nextMech := by omega
      simp [Heap.select, Heap.alloc, Heap.abandon, this]
  | some gm =>
  cases om with
  | none =>
    refine ⟨_, _, rfl, rfl, rfl, rfl, ?_, ?_⟩
    · intro k hk
      have hk : k < 2 := hk
      interval_cases k <;> simp [goodPrefix, Heap.select, Heap.alloc, Heap.abandon]
    · intro i hi
      have h0 : i ≠ h.nextMech := by omega
      have h1 : i ≠ h.nextMech + 1 := by omega
      simp [Heap.select, Heap.alloc, Heap.abandon, h0, h1]
  | some om =>
  cases cm with
  | none =>
    refine ⟨_, _, rfl, rfl, rfl, rfl, ?_, ?_⟩
    · intro k hk
      have hk : k < 3 := hk
      have : h.nextMech ≠ h.nextMech + 1 + 1 := by omega
      interval_cases k <;> simp [goodPrefix, Heap.select, Heap.alloc, Heap.abandon, this]
    · intro i hi
      have h0 : i ≠ h.nextMech := by omega
      have h1 : i ≠ h.nextMech + 1 := by omega
      have h2 : i ≠ h.nextMech + 1 + 1 := by omega
      simp [Heap.select, Heap.alloc, Heap.abandon, h0, h1, h2]
  | some cm =>
  cases tm with
  | none =>
    refine ⟨_, _, rfl, rfl, rfl, rfl, ?_, ?_⟩
    · intro k hk
      have hk : k < 4 := hk
      have h2 : h.nextMech ≠ h.nextMech + 1 + 1 := by omega
      have h3 : h.nextMech ≠ h.nextMech + 1 + 1 + 1 := by omega
      interval_cases k <;> simp [goodPrefix, Heap.select, Heap.alloc, Heap.abandon, h2, h3]
    · intro i hi
      have h0 : i ≠ h.nextMech := by omega
      have h1 : i ≠ h.nextMech + 1 := by omega
      have h2 : i ≠ h.nextMech + 1 + 1 := by omega
      have h3 : i ≠ h.nextMech + 1 + 1 + 1 := by omega
      simp [Heap.select, Heap.alloc, Heap.abandon, h0, h1, h2, h3]
  | some tm => simp at hbad

/-- C44: copying an owning model and destroying both is undefined behaviour (double free), in either order. -/
theorem C44_copy_double_free {h : Heap} (I : Inv h) {m : ℕ} {o : ModelObj} (hm : h.model m = some o) (ho : o.owned = true) :
    h.run [.copy m, .delModel m, .delModel h.nextModel] = ub ∧ h.run [.copy m, .delModel h.nextModel, .delModel m] = ub := by
  have g := I.good m o hm
  have hne : m ≠ h.nextModel := fun e => by rw [I.freshModel m (by omega)] at hm; cases hm
  have main : ∀ a b : ℕ, (h.place o).model a = some o → (h.place o).model b = some o → a ≠ b →
      h.run [.copy m, .delModel a, .delModel b] = ub := by
    intro a b ha hb hab
    have hc : h.copyModel m = (h.place o, ok (some h.nextModel)) := by rw [Heap.copyModel, hm]
    have d1 : (h.place o).dtor o = ok { h.place o with
        mech := fun j => if j ∈ o.ptrs then none else h.mech j, freed := o.ptrs.reverse ++ h.freed } := by
      rw [Heap.dtor, if_pos ho]
      exact freeAll_ok _ _ g.nodup fun i hi => (g.live i hi).imp fun _ h => h.1
    have e1 : (h.place o).delModel a = ({ h.place o with
        mech := fun j => if j ∈ o.ptrs then none else h.mech j
        model := fun j => if j = a then none else (h.place o).model j
        freed := o.ptrs.reverse ++ h.freed }, ok none) := by
      rw [Heap.delModel, ha]; simp only [d1]
    simp only [Heap.run, Heap.step, hc, e1]
    have e2 : ∀ H : Heap, H.model b = some o → (∃ i ∈ o.ptrs, H.mech i = none) → H.delModel b = (H, ub) := by
      intro H hH hd
      rw [Heap.delModel, hH]
      simp only [Heap.dtor, if_pos ho, freeAll_ub _ _ hd]
    rw [e2]
    · exact (if_neg hab.symm).trans hb
    · exact ⟨o.nucl, by simp [ModelObj.ptrs], if_pos (by simp [ModelObj.ptrs])⟩
  have h1 : (h.place o).model m = some o := (if_neg hne).trans hm
  have h2 : (h.place o).model h.nextModel = some o := if_pos rfl
  exact ⟨main m h.nextModel h1 h2 hne, main h.nextModel m h2 h1 hne.symm⟩

/-- C44.  Copying, deleting or using a model object that does not exist (any more) is undefined behaviour, and nothing else. -/
theorem C44_dead (h : Heap) (m : ℕ) (hm : h.model m = none) :
    h.run [.copy m] = ub ∧ h.run [.delModel m] = ub ∧ h.run [.use m] = ub := by
  refine ⟨?_, ?_, ?_⟩
  · simp only [Heap.run, Heap.step, Heap.copyModel, hm]
  · simp only [Heap.run, Heap.step, Heap.delModel, hm]
  · simp only [Heap.run, Heap.step, Heap.useModel, hm]

/-- C44.  Deleting a mechanism object that does not exist (any more) is undefined behaviour, and deleting an existing one twice is. -/
theorem C44_mech_dead (h : Heap) (i : ℕ) :
    (h.mech i = none → h.run [.delMech i] = ub) ∧ h.run [.delMech i, .delMech i] = ub := by
  constructor
  · intro e
    simp only [Heap.run, Heap.step, Heap.delMech, Heap.free, e]
  · cases e : h.mech i with
    | none => simp only [Heap.run, Heap.step, Heap.delMech, Heap.free, e]
    | some ob => simp [Heap.run, Heap.step, Heap.delMech, Heap.free, e]

/-- C44.  A mechanism deleted under a live model: the next evaluation of the model is undefined behaviour, with one exception: the tar object
is looked at by the MONO class only, so every other class runs on without it. -/
theorem C44_use_after_delete {h : Heap} (I : Inv h) {m : ℕ} {o : ModelObj} (hm : h.model m = some o) {i : ℕ} (hi : i ∈ o.ptrs) :
    (h.run [.delMech i, .use m] = ub ↔ (i ≠ o.tar ∨ o.psd = .MONO)) ∧
    (i = o.tar → o.psd ≠ .MONO → ∃ h', h.run [.delMech i, .use m] = ok h') := by
  have g := I.good m o hm
  obtain ⟨kn, hn⟩ := g.nucl; obtain ⟨kg, hg⟩ := g.grow; obtain ⟨ko, ho'⟩ := g.oxid; obtain ⟨kc, hc⟩ := g.coag
  obtain ⟨kt, st, ht, _⟩ := g.tar
  have live : ∃ ob, h.mech i = some ob := by
    simp only [ModelObj.ptrs, List.mem_cons, List.not_mem_nil, or_false] at hi
    rcases hi with rfl | rfl | rfl | rfl | rfl
    exacts [⟨_, hn⟩, ⟨_, hg⟩, ⟨_, ho'⟩, ⟨_, hc⟩, ⟨_, ht⟩]
  obtain ⟨ob, e⟩ := live
  set H : Heap := { h with mech := fun j => if j = i then none else h.mech j, freed := i :: h.freed } with hH
  have run : h.run [.delMech i, .use m] = H.run [.use m] := by
    simp only [Heap.run, Heap.step, Heap.delMech, Heap.free, e, hH]
  have Hm : H.model m = some o := hm
  have dead : H.touch i = ub := by simp [Heap.touch, hH]
  have tc : ∀ j, H.touch j = ok () ∨ H.touch j = ub := touch_cases H
  rw [run]
  by_cases it : i = o.tar
  · have dn : o.nucl ≠ i := fun q => by rw [q, it, ht] at hn; cases hn
    have dg : o.grow ≠ i := fun q => by rw [q, it, ht] at hg; cases hg
    have dx : o.oxid ≠ i := fun q => by rw [q, it, ht] at ho'; cases ho'
    have dc : o.coag ≠ i := fun q => by rw [q, it, ht] at hc; cases hc
    have same : ∀ j, j ≠ i → H.mech j = h.mech j := fun j hj => if_neg hj
    have hc' : H.mech o.coag = some ⟨.coag kc, some m, !o.owned⟩ := (same _ dc).trans hc
    have tk : ∀ j k, H.mech j = some ⟨k, some m, !o.owned⟩ → H.touch j = ok () := by
      intro j k hj
      by_cases hr : k.readsSM = true
      · simp [Heap.touch, hj, hr, Hm, hc']
      · simp [Heap.touch, hj, hr]
    have t1 := tk _ _ ((same _ dn).trans hn)
    have t2 := tk _ _ ((same _ dg).trans hg)
    have t3 := tk _ _ ((same _ dx).trans ho')
    have t4 := tk _ _ hc'
    have t5 : H.touch o.tar = ub := it ▸ dead
    by_cases hp : o.psd = .MONO
    · refine ⟨⟨fun _ => Or.inr hp, fun _ => ?_⟩, fun _ q => absurd hp q⟩
      simp only [Heap.run, Heap.step, Heap.useModel, Hm, t1, t2, t3, t4, t5, ok_bind, if_pos hp, ub_bind]
    · have r : H.run [.use m] = ok H := by
        simp [Heap.run, Heap.step, Heap.useModel, Hm, t1, t2, t3, t4, hp]
      refine ⟨⟨fun q => ?_, fun q => ?_⟩, fun _ _ => ⟨H, r⟩⟩
      · rw [r] at q; cases q
      · exact absurd it (q.resolve_right hp)
  · refine ⟨⟨fun _ => Or.inl it, fun _ => ?_⟩, fun q => absurd q it⟩
    have hi' : i = o.nucl ∨ i = o.grow ∨ i = o.oxid ∨ i = o.coag := by
      simp only [ModelObj.ptrs, List.mem_cons, List.not_mem_nil, or_false] at hi
      tauto
    simp only [Heap.run, Heap.step, Heap.useModel, Hm]
    rcases hi' with q | q | q | q <;> rw [q] at dead
    · simp only [dead, ub_bind]
    · rcases tc o.nucl with a | a <;> simp only [a, dead, ok_bind, ub_bind]
    · rcases tc o.nucl with a | a <;> rcases tc o.grow with b | b <;> simp only [a, b, dead, ok_bind, ub_bind]
    · rcases tc o.nucl with a | a <;> rcases tc o.grow with b | b <;> rcases tc o.oxid with c | c <;>
        simp only [a, b, c, dead, ok_bind, ub_bind]

/-- Non-vacuity: a LOGN model built by the enum constructor in the empty program: deleting its growth object breaks it, deleting its tar object
does not; for a MONO model both do. -/
example : (∃ (h : Heap) (o : ModelObj), Inv h ∧ h.model 0 = some o ∧ h.run [.delMech o.grow, .use 0] = ub ∧
      ∃ h', h.run [.delMech o.tar, .use 0] = ok h') ∧
    (∃ (h : Heap) (o : ModelObj), Inv h ∧ h.model 0 = some o ∧ h.run [.delMech o.tar, .use 0] = ub) := by
  have mk : ∀ psd ns, psd ≠ .NONE → Documented psd ns .FM .NONE → ∃ (h : Heap) (o : ModelObj), Inv h ∧ h.model 0 = some o ∧ o.psd = psd ∧
      o.grow ≠ o.tar := by
    intro psd ns hp hd
    have st := C44_step (op := .newEnum psd ns (some .LL) (some .LL) (some .LL) (some .FM) (some .NONE)) inv_empty (by simp [Disc, hp])
    rcases ctorEnum_eq Heap.empty (psd := psd) hp ns .LL .LL .LL .FM .NONE with ⟨_, e⟩ | ⟨q, _⟩
    · simp only [Heap.step] at st
      rw [e] at st
      exact ⟨_, Heap.empty.fiveObj psd, st.2, rfl, rfl, by simp [Heap.empty, Heap.fiveObj]⟩
    · exact absurd hd q
  constructor
  · obtain ⟨h, o, I, hm, hp, hne⟩ := mk .LOGN 3 (by simp) (.logn _ (by simp))
    exact ⟨h, o, I, hm, (C44_use_after_delete I hm (by simp [ModelObj.ptrs])).1.2 (Or.inl hne),
      (C44_use_after_delete I hm (by simp [ModelObj.ptrs])).2 rfl (by simp [hp])⟩
  · obtain ⟨h, o, I, hm, hp, hne⟩ := mk .MONO 2 (by simp) (.mono _ _)
    exact ⟨h, o, I, hm, (C44_use_after_delete I hm (by simp [ModelObj.ptrs])).1.2 (Or.inr hp)⟩

/-- The copy of an owning model cannot be used once the original is gone. -/
theorem C44_copy_use_after_free {h : Heap} (I : Inv h) {m : ℕ} {o : ModelObj} (hm : h.model m = some o) (ho : o.owned = true) :
    h.run [.copy m, .delModel m, .use h.nextModel] = ub := by
  have g := I.good m o hm
  have hne : m ≠ h.nextModel := fun e => by rw [I.freshModel m (by omega)] at hm; cases hm
  have hc : h.copyModel m = (h.place o, ok (some h.nextModel)) := by rw [Heap.copyModel, hm]
  have g' : Good (h.place o) m o := g.congr fun _ _ => rfl
  have h1 : (h.place o).model m = some o := (if_neg hne).trans hm
  simp only [Heap.run, Heap.step, hc, delModel_eq h1 g', Heap.useModel]
  rw [show (if h.nextModel = m then none else (h.place o).model h.nextModel) = some o from
    (if_neg hne.symm).trans (if_pos rfl)]
  have hz : (if o.owned = true ∧ o.nucl ∈ o.ptrs then none else (h.place o).mech o.nucl) = none :=
    if_pos ⟨ho, by simp [ModelObj.ptrs]⟩
  simp only [Heap.touch, hz, ub_bind]

/-- Two pointer-built models sharing mechanisms: the second construction redirects the back pointers of the first, so when the second is
destroyed, using the first is undefined behaviour exactly if a mechanism reads the model: PAH nucleation, LL, HACA, MB or FAIR growth, HACA or MB
oxidation. -/
theorem C44_shared_mechanisms_ub {h : Heap} {psd : PsdMech} {ns : ℕ} {n g o c t : ℕ} {nm gm om cm tm sn sg so sc st un ug uo uc ut}
    (hfr : h.model (h.nextModel + 1) = none)
    (hn : h.mech n = some ⟨.nucl nm, sn, un⟩) (hg : h.mech g = some ⟨.grow gm, sg, ug⟩) (ho : h.mech o = some ⟨.oxid om, so, uo⟩)
    (hc : h.mech c = some ⟨.coag cm, sc, uc⟩) (ht : h.mech t = some ⟨.tar tm, st, ut⟩) (hd : Documented psd ns cm tm) :
    h.run [.newPtr psd ns n g o c t, .newPtr psd ns n g o c t, .delModel (h.nextModel + 1), .use h.nextModel] = ub ↔
      nm = .PAH ∨ (gm = .LL ∨ gm = .HACA ∨ gm = .MB ∨ gm = .FAIR) ∨ (om = .HACA ∨ om = .MB) := by
  have hp : psd ≠ .NONE := by rintro rfl; cases hd
  have key : ∀ {i j : ℕ} {a b : MechObj}, h.mech i = some a → h.mech j = some b → a.kind ≠ b.kind → i ≠ j := by
    intro i j a b ha hb hk e
    subst e; rw [ha] at hb; cases hb; exact hk rfl
  have e1 := key hn hg (by simp)
  have e2 := key hn ho (by simp)
  have e3 := key hn hc (by simp)
  have e4 := key hn ht (by simp)
  have e5 := key hg ho (by simp)
  have e6 := key hg hc (by simp)
  have e7 := key hg ht (by simp)
  have e8 := key ho hc (by simp)
  have e9 := key ho ht (by simp)
  have e10 := key hc ht (by simp)
  -- the four writes, on any heap
  have four : ∀ H : Heap, ∀ {nm gm om cm tm sn sg so sc st un ug uo uc ut}, H.mech n = some ⟨.nucl nm, sn, un⟩ →
      H.mech g = some ⟨.grow gm, sg, ug⟩ → H.mech o = some ⟨.oxid om, so, uo⟩ → H.mech c = some ⟨.coag cm, sc, uc⟩ →
      H.mech t = some ⟨.tar tm, st, ut⟩ →
      (H.setSM4 n g o c).mech n = some ⟨.nucl nm, some H.nextModel, un⟩ ∧ (H.setSM4 n g o c).mech g = some ⟨.grow gm, some H.nextModel, ug⟩ ∧
      (H.setSM4 n g o c).mech o = some ⟨.oxid om, some H.nextModel, uo⟩ ∧ (H.setSM4 n g o c).mech c = some ⟨.coag cm, some H.nextModel, uc⟩ ∧
      (H.setSM4 n g o c).mech t = some ⟨.tar tm, st, ut⟩ := by
    intro H nm gm om cm tm sn sg so sc st un ug uo uc ut hn hg ho hc ht
    refine ⟨?_, ?_, ?_, ?_, ?_⟩
    · rw [Heap.setSM4, setSM_other e3, setSM_other e2, setSM_other e1, setSM_same hn]
    · rw [Heap.setSM4, setSM_other e6, setSM_other e5, setSM_same ((setSM_other e1.symm).trans hg)]
    · rw [Heap.setSM4, setSM_other e8, setSM_same ((setSM_other e5.symm).trans ((setSM_other e2.symm).trans ho))]
    · rw [Heap.setSM4, setSM_same ((setSM_other e8.symm).trans ((setSM_other e6.symm).trans ((setSM_other e3.symm).trans hc)))]
    · rw [Heap.setSM4, setSM_other e10.symm, setSM_other e9.symm, setSM_other e7.symm, setSM_other e4.symm, ht]
  rcases ctorPtr_eq hp ns hn hg ho hc ht with ⟨_, c1⟩ | ⟨hx, _⟩
  swap
  · exact absurd hd hx
  obtain ⟨hn1, hg1, ho1, hc1, ht1⟩ := four h hn hg ho hc ht
  set H1 := (h.setSM4 n g o c).place ⟨psd, n, g, o, c, t, false⟩ with hH1
  rcases ctorPtr_eq (h := H1) hp ns hn1 hg1 ho1 hc1 ht1 with ⟨_, c2⟩ | ⟨hx, _⟩
  swap
  · exact absurd hd hx
  obtain ⟨hn2, hg2, ho2, hc2, ht2⟩ := four H1 hn1 hg1 ho1 hc1 ht1
  set H2 := (H1.setSM4 n g o c).place ⟨psd, n, g, o, c, t, false⟩ with hH2
  have hm2 : H2.model (h.nextModel + 1) = some ⟨psd, n, g, o, c, t, false⟩ := if_pos rfl
  have hm1 : H2.model h.nextModel = some ⟨psd, n, g, o, c, t, false⟩ := by
    show (if h.nextModel = h.nextModel + 1 then _ else if h.nextModel = h.nextModel then _ else _) = _
    rw [if_neg (by omega), if_pos rfl]
  have d : H2.delModel (h.nextModel + 1) = ({ H2 with model := fun j => if j = h.nextModel + 1 then none else H2.model j }, ok none) := by
    rw [Heap.delModel, hm2]; rfl
  simp only [Heap.run, Heap.step, c1, c2, d, Heap.useModel]
  rw [show (if h.nextModel = h.nextModel + 1 then none else H2.model h.nextModel) = some ⟨psd, n, g, o, c, t, false⟩ from
    (if_neg (by omega)).trans hm1]
  have tg : ∀ (M : ℕ → Option ModelObj) (i : ℕ) (k : Kind) (u : Bool), M (h.nextModel + 1) = none →
      H2.mech i = some ⟨k, some (h.nextModel + 1), u⟩ → Heap.touch { H2 with model := M } i = if k.readsSM then ub else ok () := by
    intro M i k u hM hi
    simp only [Heap.touch, hi, hM]
  have tt : ∀ M : ℕ → Option ModelObj, Heap.touch { H2 with model := M } t = ok () := by
    intro M
    have : H2.mech t = some ⟨.tar tm, st, ut⟩ := ht2
    simp only [Heap.touch, this, Kind.readsSM, Bool.false_eq_true, if_false]
  dsimp only
  rw [tg _ n _ un (if_pos rfl) hn2, tg _ g _ ug (if_pos rfl) hg2, tg _ o _ uo (if_pos rfl) ho2, tg _ c _ uc (if_pos rfl) hc2, tt]
  by_cases a : nm = .PAH
  · subst a; simp [Kind.readsSM]
  have a' : (Kind.nucl nm).readsSM = false := by cases nm <;> first | rfl | exact absurd rfl a
  by_cases b : gm = .LL ∨ gm = .HACA ∨ gm = .MB ∨ gm = .FAIR
  · have b' : (Kind.grow gm).readsSM = true := by rcases b with rfl | rfl | rfl | rfl <;> rfl
    simp only [a', b', Bool.false_eq_true, if_false, if_true, ok_bind, ub_bind, b, true_or, or_true]
  have b' : (Kind.grow gm).readsSM = false := by cases gm <;> first | rfl | exact absurd (by simp) b
  by_cases e : om = .HACA ∨ om = .MB
  · have e' : (Kind.oxid om).readsSM = true := by rcases e with rfl | rfl <;> rfl
    simp only [a', b', e', Bool.false_eq_true, if_false, if_true, ok_bind, ub_bind, e, or_true]
  have e' : (Kind.oxid om).readsSM = false := by cases om <;> first | rfl | exact absurd (by simp) e
  have f' : (Kind.coag cm).readsSM = false := rfl
  refine iff_of_false ?_ (by simp [a, b, e])
  simp only [a', b', e', f', Bool.false_eq_true, if_false, ok_bind]
  split_ifs <;> simp

/-- The C interface's delete: for a pointer-built model it frees the model and its five mechanisms, each once. -/
theorem C44_c_delete {h : Heap} (I : Inv h) {m : ℕ} {o : ModelObj} (hm : h.model m = some o) (ho : o.owned = false) :
    ∃ h', h.cDelete m o.nucl o.grow o.oxid o.coag o.tar = ok h' ∧ h'.model m = none ∧ (∀ i ∈ o.ptrs, h'.mech i = none) ∧
      (∀ i, i ∉ o.ptrs → h'.mech i = h.mech i) ∧ h'.freed = o.ptrs.reverse ++ h.freed := by
  have g := I.good m o hm
  have e : h.delModel m = ({ h with model := fun j => if j = m then none else h.model j }, ok none) := by
    rw [Heap.delModel, hm]; simp [Heap.dtor, ho]
  have f := freeAll_ok o.ptrs { h with model := fun j => if j = m then none else h.model j } g.nodup
    (fun i hi => (g.live i hi).imp fun _ h => h.1)
  refine ⟨_, by simp only [Heap.cDelete, e]; exact f, if_pos rfl, fun i hi => if_pos hi, fun i hi => if_neg hi, rfl⟩

/-- The same call on an enum-built model frees its mechanisms twice. -/
theorem C44_c_delete_owned_ub {h : Heap} (I : Inv h) {m : ℕ} {o : ModelObj} (hm : h.model m = some o) (ho : o.owned = true) :
    h.cDelete m o.nucl o.grow o.oxid o.coag o.tar = ub := by
  have e := delModel_eq hm (I.good m o hm)
  simp only [Heap.cDelete, e]
  exact freeAll_ub _ _ ⟨o.nucl, by simp, if_pos ⟨ho, by simp [ModelObj.ptrs]⟩⟩

/-- The same call is undefined for a model that does not exist (any more), whatever mechanisms are passed. -/
theorem C44_c_delete_dead_ub {h : Heap} {m : ℕ} (hm : h.model m = none) (n g o c t : ℕ) : h.cDelete m n g o c t = ub := by
  simp [Heap.cDelete, Heap.delModel, hm]

/-- So calling it twice is undefined. -/
theorem C44_c_delete_twice_ub {h : Heap} (I : Inv h) {m : ℕ} {o : ModelObj} (hm : h.model m = some o) (ho : o.owned = false) :
    (h.cDelete m o.nucl o.grow o.oxid o.coag o.tar >>= fun h' => h'.cDelete m o.nucl o.grow o.oxid o.coag o.tar) = ub := by
  obtain ⟨h', e, d, _⟩ := C44_c_delete I hm ho
  rw [e, ok_bind, C44_c_delete_dead_ub d]

/-- A pointer-built model with the default `tar` argument: the `tarModel_NONE` allocated for it survives the model. -/
theorem C44_default_tar_leaks {h : Heap} (I : Inv h) {psd : PsdMech} {ns : ℕ} {n g o c : ℕ} {nm gm om cm sn sg so sc un ug uo uc}
    (hn : h.mech n = some ⟨.nucl nm, sn, un⟩) (hg : h.mech g = some ⟨.grow gm, sg, ug⟩) (ho : h.mech o = some ⟨.oxid om, so, uo⟩)
    (hc : h.mech c = some ⟨.coag cm, sc, uc⟩) (hd : Documented psd ns cm .NONE) :
    ∃ h', h.run [.newPtrDefaultTar psd ns n g o c, .delModel h.nextModel] = ok h' ∧
      h'.mech h.nextMech = some ⟨.tar .NONE, none, true⟩ ∧ h'.model = h.model ∧ h'.freed = h.freed := by
  have hp : psd ≠ .NONE := by rintro rfl; cases hd
  have ne : ∀ {i : ℕ} {ob}, h.mech i = some ob → i ≠ h.nextMech := by
    intro i ob e e'
    rw [(I.freshMech i (by omega)).1] at e; cases e
  have lift : ∀ {i : ℕ} {ob}, h.mech i = some ob → (h.alloc (.tar .NONE) true).mech i = some ob :=
    fun e => (if_neg (ne e)).trans e
  rcases ctorPtr_eq (h := h.alloc (.tar .NONE) true) hp ns (lift hn) (lift hg) (lift ho) (lift hc)
    (show (h.alloc (.tar .NONE) true).mech h.nextMech = _ from if_pos rfl) with ⟨_, e⟩ | ⟨hx, _⟩
  swap
  · exact absurd hd hx
  set H := ((h.alloc (.tar .NONE) true).setSM4 n g o c).place ⟨psd, n, g, o, c, h.nextMech, false⟩ with hH
  have hm : H.model h.nextModel = some ⟨psd, n, g, o, c, h.nextMech, false⟩ := if_pos rfl
  have d : H.delModel h.nextModel = ({ H with model := fun j => if j = h.nextModel then none else H.model j }, ok none) := by
    rw [Heap.delModel, hm]; rfl
  refine ⟨{ H with model := fun j => if j = h.nextModel then none else H.model j }, by simp only [Heap.run, Heap.step, e, d], ?_, ?_, rfl⟩
  · show ((h.alloc (.tar .NONE) true).setSM4 n g o c).mech h.nextMech = _
    rw [Heap.setSM4, setSM_other (ne hc).symm, setSM_other (ne ho).symm, setSM_other (ne hg).symm, setSM_other (ne hn).symm]
    exact if_pos rfl
  · funext j
    show (if j = h.nextModel then none else if j = h.nextModel then _ else h.model j) = h.model j
    by_cases hj : j = h.nextModel
    · rw [if_pos hj, I.freshModel j (by omega)]
    · rw [if_neg hj, if_neg hj]

/-- Deleting a mechanism that a live model still uses: the next `setSourceTerms` touches freed memory. -/
theorem C44_early_delete_ub {h : Heap} {m : ℕ} {o : ModelObj} (hm : h.model m = some o) {ob : MechObj} (hi : h.mech o.nucl = some ob) :
    h.run [.delMech o.nucl, .use m] = ub := by
  simp only [Heap.run, Heap.step, Heap.delMech, free_ok hi, Heap.useModel, hm, Heap.touch, if_pos, ub_bind]

/-- Non-vacuity of `C44_no_double_free`: a program with a pointer-built and an enum-built model, a throwing constructor and deletions. -/
example : Disciplined Heap.empty
    [.newMech (.nucl .PAH), .newMech (.grow .HACA), .newMech (.oxid .HACA), .newMech (.coag .FM), .newMech (.tar .NONE),
     .newEnum .SECT 1 (some .NONE) (some .LL) (some .LL) (some .FM) (some .NONE),
     .newEnum .SECT 8 (some .NONE) (some .LL) (some .LL) (some .FM) (some .NONE), .use 1, .delModel 1] := by
  have hs : ¬ Documented .SECT 1 .FM .NONE := by
    intro h; cases h with | sect _ hk => omega
  refine ⟨trivial, trivial, trivial, trivial, trivial, by simp [Disc], by simp [Disc], ?_, ?_, trivial⟩
  all_goals
    simp only [Heap.step]
    refine ⟨⟨.SECT, 10, 11, 12, 13, 14, true⟩, ?_⟩
    rcases ctorEnum_eq (((((Heap.empty.alloc (.nucl .PAH) true).alloc (.grow .HACA) true).alloc (.oxid .HACA) true).alloc (.coag .FM)
      true).alloc (.tar .NONE) true) (psd := .SECT) (by simp) 1 .NONE .LL .LL .FM .NONE with ⟨h, _⟩ | ⟨_, e1, e⟩
    · exact absurd h hs
    rw [e]
    rcases ctorEnum_eq _ (psd := .SECT) (by simp) 8 .NONE .LL .LL .FM .NONE with ⟨_, e⟩ | ⟨h, _⟩
    swap
    · exact absurd (.sect 8 (by omega) .FM) h
    rw [e]
    rfl

end Soot
