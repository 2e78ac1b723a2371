import Verif.Props.Trace
import Verif.Props.SectStatic
import Verif.Props.Logn

/-!
# C98: clients that own their objects do not disturb each other

Two clients (threads whose calls do not overlap in time, or two parts of one solver) use the library in one process.  Each has its own state
and model objects.  The only thing they share is the function-local static of sootModel_SECT.cc:256.
-/

namespace Soot

open Res Real
open scoped Classical

namespace Interleave

/-- Which objects a call names: state objects in `A`, model objects in `B`.  Creating objects is left out: the clients have them already. -/
def Inside (A B : Set ℕ) : Call → Prop
  | .newState _ _ => False
  | .newModel _ _ _ _ _ _ _ _ _ _ => False
  | .set i _ => i ∈ A
  | .bio i _ => i ∈ A
  | .coal i _ _ _ => i ∈ A
  | .tarBio i => i ∈ A
  | .tarCoal i => i ∈ A
  | .sources j i => j ∈ B ∧ i ∈ A

/-- The calls of one client, in their order. -/
noncomputable def own (A B : Set ℕ) (p : List Call) : List Call := p.filter fun c => decide (Inside A B c)

/-- Two worlds look the same to the owner of `A` and `B`. -/
structure Agree (A B : Set ℕ) (w w' : World) : Prop where
  st : ∀ i ∈ A, w.st[i]? = w'.st[i]?
  md : ∀ j ∈ B, w.md[j]? = w'.md[j]?

/-- All sectional models of the process have bin factor `F`, and so does the static. -/
structure OneFactor (F : ℝ) (w : World) : Prop where
  md : ∀ m ∈ w.md, m.psd = .SECT → m.binF = F
  glob : w.glob = none ∨ w.glob = some (1 / log F)

theorem Agree.symm {A B : Set ℕ} {w w' : World} (h : Agree A B w w') : Agree A B w' w :=
  ⟨fun i hi => (h.st i hi).symm, fun j hj => (h.md j hj).symm⟩

theorem Agree.trans {A B : Set ℕ} {u v w : World} (h : Agree A B u v) (h' : Agree A B v w) : Agree A B u w :=
  ⟨fun i hi => (h.st i hi).trans (h'.st i hi), fun j hj => (h.md j hj).trans (h'.md j hj)⟩

theorem idx_iff {α : Type} {l : List α} {i : ℕ} {x : α} : idx l i = ok x ↔ l[i]? = some x := by
  unfold idx
  cases l[i]? <;> simp

/-- No evaluation changes the class or the bin factor of the model. -/
theorem sourceTerms_kind {eig : Eig} {m m' : Model} {s s' : State} {g g' : Option ℝ} (h : sourceTerms eig m g s = ok (m', s', g')) :
    m'.psd = m.psd ∧ m'.binF = m.binF := by
  have fin : ∀ {n : Nucl} {v w : List ℝ} {N1 G1 X1 : ℝ} {m' : Model}, m.finish n v w N1 G1 X1 = ok m' → m'.psd = m.psd ∧ m'.binF = m.binF := by
    intro n v w N1 G1 X1 m' h
    obtain ⟨_, _, _, _, _, _, rfl⟩ := Model.finish_inv h
    exact ⟨rfl, rfl⟩
  unfold sourceTerms at h
  cases hp : m.psd <;> simp only [hp] at h
  · cases h
  · simp only [bind_eq_ok] at h
    obtain ⟨⟨m1, s1⟩, h1, h⟩ := h
    cases h
    simp only [monoSources, bind_eq_ok] at h1
    obtain ⟨⟨M0, M1, s1⟩, _, h1⟩ := h1
    rw [← hp]
    rcases ht : m.tar <;> simp only [ht, bind_eq_ok] at h1
    · obtain ⟨t, _, v, _, v', _, m1, h4, h1⟩ := h1
      cases h1; exact fin h4
    · obtain ⟨_, _, t, _, _, _, _, _, _, _, v, _, v', _, w, _, m1, h4, h1⟩ := h1
      cases h1; exact fin h4
    · obtain ⟨_, _, t, _, _, _, _, _, _, _, _, _, _, _, v, _, v', _, w, _, m1, h4, h1⟩ := h1
      cases h1; exact fin h4
  · simp only [bind_eq_ok] at h
    obtain ⟨⟨m1, s1⟩, h1, h⟩ := h
    cases h
    obtain ⟨t, _, _, _, hf⟩ := lognSources_inv h1
    rw [← hp]; exact fin hf
  · simp only [bind_eq_ok] at h
    obtain ⟨⟨m1, s1⟩, h1, h⟩ := h
    cases h
    obtain ⟨_, _, _, _, _, k3⟩ := qmomSources_inv h1
    rw [← hp]; exact fin (momFinish_inv k3).2
  · simp only [bind_eq_ok] at h
    obtain ⟨⟨m1, s1⟩, h1, h⟩ := h
    cases h
    obtain ⟨_, _, _, _, _, _, _, _, k2⟩ := momicSources_inv h1
    rw [← hp]; exact fin (momFinish_inv k2).2
  · simp only [sectSources, bind_eq_ok] at h
    obtain ⟨_, _, _, _, _, _, _, _, m1, hf, h⟩ := h
    cases h
    rw [← hp]; exact fin hf
  · simp only [bind_eq_ok] at h
    obtain ⟨⟨m1, s1⟩, h1, h⟩ := h
    cases h
    obtain ⟨_, _, _, _, _, _, _, k2⟩ := hmomSourcesAt_inv h1
    rw [← hp]; exact fin (momFinish_inv k2).2

theorem static_eq {F : ℝ} (hF : 1 < F) {g : Option ℝ} (hg : g = none ∨ g = some (1 / log F)) : ilnFStatic g F = ok (1 / log F) := by
  rcases hg with rfl | rfl
  · rw [ilnFStatic, clog, if_neg (not_le.mpr (by linarith)), ok_bind, cdiv_ok (log_pos hF).ne']
  · rfl

/-- With one bin factor in the process, what the static holds makes no difference to an evaluation. -/
theorem sourceTerms_static {eig : Eig} {m m' : Model} {s s' : State} {g h g' : Option ℝ} {F : ℝ} (hF : 1 < F) (hm : m.psd = .SECT → m.binF = F)
    (hg : g = none ∨ g = some (1 / log F)) (hh : h = none ∨ h = some (1 / log F)) (e : sourceTerms eig m g s = ok (m', s', g')) :
    (g' = none ∨ g' = some (1 / log F)) ∧ ∃ h', sourceTerms eig m h s = ok (m', s', h') ∧ (h' = none ∨ h' = some (1 / log F)) := by
  by_cases hp : m.psd = .SECT
  · simp only [sourceTerms, hp] at e ⊢
    by_cases hc : m.coag.mech = .NONE
    · have ec : ∀ g s, sectCoag m g s = ok (fun _ => 0, g) := fun g s => by rw [sectCoag, if_neg (not_not.mpr hc)]
      simp only [sectSources, sectTerms, ec, bind_eq_ok, ok_bind] at e
      obtain ⟨t, ⟨⟨j, n, s1⟩, h1, kG, h2, kO, h3, nuc, h4, A, h5, grw, h6, cnd, h7, oxi, h8, ht⟩, mN, h9, mG, h10, mO, h11, m1, h12, e⟩ := e
      cases ht
      cases e
      refine ⟨hg, h, ?_, hh⟩
      simp only [sectSources, sectTerms, ec, h1, h2, h3, h4, h5, h6, h7, h8, ok_bind, h9, h10, h11, h12]
    · have ec : ∀ s, sectCoag m g s = sectCoag m h s := fun s => by
        simp only [sectCoag, if_pos hc, hm hp, static_eq hF hg, static_eq hF hh]
      have es : sectSources m g s = sectSources m h s := by simp only [sectSources, sectTerms, ec]
      have eg : g' = some (1 / log F) := by
        simp only [sectSources, sectTerms, bind_eq_ok] at e
        obtain ⟨t, ⟨⟨j, n, s1⟩, _, kG, _, kO, _, nuc, _, A, _, grw, _, cnd, _, oxi, _, ⟨coa, gl⟩, hco, ht⟩, mN, _, mG, _, mO, _, m1, _, e⟩ := e
        cases ht
        cases e
        simp only [sectCoag, if_pos hc, hm hp, static_eq hF hg, ok_bind, bind_eq_ok] at hco
        obtain ⟨S, _, hco⟩ := hco
        cases hco
        rfl
      exact ⟨.inr eg, g', es ▸ e, .inr eg⟩
  · have key : ∀ g : Option ℝ, ∀ (r : Res (Model × State)), (do let (m, s) ← r; ok (m, s, g)) = ok (m', s', g') →
        g' = g ∧ r = ok (m', s') := by
      intro g r hr
      simp only [bind_eq_ok] at hr
      obtain ⟨⟨m1, s1⟩, h1, h2⟩ := hr
      cases h2
      exact ⟨rfl, h1⟩
    simp only [sourceTerms] at e ⊢
    cases hq : m.psd <;> simp only [hq] at e ⊢
    · cases e
    all_goals first
      | exact absurd hq hp
      | (obtain ⟨rfl, h1⟩ := key _ _ e
         exact ⟨hg, h, by rw [h1, ok_bind], hh⟩)

section
variable {A B : Set ℕ} {F : ℝ} {eig : Eig}

theorem agree_setSt {w w' : World} (h : Agree A B w w') {i : ℕ} {s s0 : State} (h1 : w.st[i]? = some s0) (h2 : w'.st[i]? = some s0) :
    Agree A B { w with st := w.st.set i s } { w' with st := w'.st.set i s } := by
  refine ⟨fun k hk => ?_, h.md⟩
  show (w.st.set i s)[k]? = (w'.st.set i s)[k]?
  by_cases e : i = k
  · subst e
    obtain ⟨hi, -⟩ := List.getElem?_eq_some_iff.1 h1
    obtain ⟨hi', -⟩ := List.getElem?_eq_some_iff.1 h2
    rw [List.getElem?_set_self hi, List.getElem?_set_self hi']
  · rw [List.getElem?_set_ne e, List.getElem?_set_ne e]; exact h.st k hk

/-- A call of the owner does the same thing in both worlds. -/
theorem step_inside (hF : 1 < F) {w w' w1 : World} (h : Agree A B w w') (ho : OneFactor F w) (ho' : OneFactor F w') {c : Call}
    (hc : Inside A B c) (e : step eig w c = ok w1) :
    ∃ w1', step eig w' c = ok w1' ∧ Agree A B w1 w1' ∧ OneFactor F w1 ∧ OneFactor F w1' := by
  have st : ∀ {i : ℕ} {s s0 : State}, i ∈ A → w.st[i]? = some s0 → idx w'.st i = ok s0 ∧
      Agree A B { w with st := w.st.set i s } { w' with st := w'.st.set i s } := by
    intro i s s0 hi h1
    have h2 : w'.st[i]? = some s0 := by rw [← h.st i hi]; exact h1
    exact ⟨idx_iff.2 h2, agree_setSt h h1 h2⟩
  cases c with
  | newState _ _ => exact hc.elim
  | newModel _ _ _ _ _ _ _ _ _ _ => exact hc.elim
  | set i a =>
    simp only [step, bind_eq_ok] at e ⊢
    obtain ⟨s0, h1, e⟩ := e
    have h1' := idx_iff.1 h1
    rcases hs : setState s0 a with ⟨s1, r⟩
    rw [hs] at e
    obtain ⟨k1, k2⟩ := st (s := s1) hc h1'
    cases r <;> simp only at e
    · cases e
      exact ⟨_, ⟨s0, k1, by rw [hs]⟩, k2, ⟨ho.md, ho.glob⟩, ⟨ho'.md, ho'.glob⟩⟩
    · cases e
      exact ⟨_, ⟨s0, k1, by rw [hs]⟩, k2, ⟨ho.md, ho.glob⟩, ⟨ho'.md, ho'.glob⟩⟩
    all_goals cases e
  | bio i y =>
    simp only [step, bind_eq_ok] at e ⊢
    obtain ⟨s0, h1, e⟩ := e
    cases e
    obtain ⟨k1, k2⟩ := st (s := setBio s0 y) hc (idx_iff.1 h1)
    exact ⟨_, ⟨s0, k1, rfl⟩, k2, ⟨ho.md, ho.glob⟩, ⟨ho'.md, ho'.glob⟩⟩
  | coal i a b c =>
    simp only [step, bind_eq_ok] at e ⊢
    obtain ⟨s0, h1, e⟩ := e
    cases e
    obtain ⟨k1, k2⟩ := st (s := setCoal s0 a b c) hc (idx_iff.1 h1)
    exact ⟨_, ⟨s0, k1, rfl⟩, k2, ⟨ho.md, ho.glob⟩, ⟨ho'.md, ho'.glob⟩⟩
  | tarBio i =>
    simp only [step, bind_eq_ok] at e ⊢
    obtain ⟨s0, h1, s1, h2, e⟩ := e
    cases e
    obtain ⟨k1, k2⟩ := st (s := s1) hc (idx_iff.1 h1)
    exact ⟨_, ⟨s0, k1, s1, h2, rfl⟩, k2, ⟨ho.md, ho.glob⟩, ⟨ho'.md, ho'.glob⟩⟩
  | tarCoal i =>
    simp only [step, bind_eq_ok] at e ⊢
    obtain ⟨s0, h1, s1, h2, e⟩ := e
    cases e
    obtain ⟨k1, k2⟩ := st (s := s1) hc (idx_iff.1 h1)
    exact ⟨_, ⟨s0, k1, s1, h2, rfl⟩, k2, ⟨ho.md, ho.glob⟩, ⟨ho'.md, ho'.glob⟩⟩
  | sources j i =>
    simp only [step, bind_eq_ok] at e ⊢
    obtain ⟨m, hm, s0, h1, ⟨m', s', g'⟩, hs, e⟩ := e
    cases e
    have hm1 := idx_iff.1 hm
    have hm2 : w'.md[j]? = some m := by rw [← h.md j hc.1]; exact hm1
    have hmem := List.mem_of_getElem? hm1
    obtain ⟨k1, k2⟩ := st (s := s') hc.2 (idx_iff.1 h1)
    obtain ⟨gk, h', hs', hk⟩ := sourceTerms_static hF (ho.md m hmem) ho.glob ho'.glob hs
    obtain ⟨f1, f2⟩ := sourceTerms_kind hs
    have one : ∀ l : List Model, (∀ q ∈ l, q.psd = .SECT → q.binF = F) → ∀ q ∈ l.set j m', q.psd = .SECT → q.binF = F := by
      intro l hl q hq hp
      rcases List.mem_or_eq_of_mem_set hq with hq | rfl
      · exact hl q hq hp
      · rw [f2]; exact ho.md m hmem (f1 ▸ hp)
    refine ⟨_, ⟨m, idx_iff.2 hm2, s0, k1, _, hs', rfl⟩, ⟨k2.st, fun k hk => ?_⟩, ⟨one _ ho.md, gk⟩, ⟨one _ ho'.md, hk⟩⟩
    show (w.md.set j m')[k]? = (w'.md.set j m')[k]?
    by_cases e : j = k
    · subst e
      obtain ⟨hi, -⟩ := List.getElem?_eq_some_iff.1 hm1
      obtain ⟨hi', -⟩ := List.getElem?_eq_some_iff.1 hm2
      rw [List.getElem?_set_self hi, List.getElem?_set_self hi']
    · rw [List.getElem?_set_ne e, List.getElem?_set_ne e]; exact h.md k hk

/-- A call of the other client leaves the owner's objects as they are. -/
theorem step_outside {w w1 : World} {c : Call} (hc : Inside Aᶜ Bᶜ c) (e : step eig w c = ok w1) : Agree A B w w1 := by
  have st : ∀ {i : ℕ} {s : State}, i ∈ Aᶜ → Agree A B w { w with st := w.st.set i s } := by
    intro i s hi
    refine ⟨fun k hk => ?_, fun _ _ => rfl⟩
    show w.st[k]? = (w.st.set i s)[k]?
    rw [List.getElem?_set_ne (fun e : i = k => hi (e ▸ hk))]
  cases c with
  | newState _ _ => exact hc.elim
  | newModel _ _ _ _ _ _ _ _ _ _ => exact hc.elim
  | set i a =>
    simp only [step, bind_eq_ok] at e
    obtain ⟨s0, h1, e⟩ := e
    rcases hs : setState s0 a with ⟨s1, r⟩
    rw [hs] at e
    cases r <;> simp only at e <;> cases e <;> exact st hc
  | bio i y =>
    simp only [step, bind_eq_ok] at e
    obtain ⟨s0, h1, e⟩ := e
    cases e; exact st hc
  | coal i a b c =>
    simp only [step, bind_eq_ok] at e
    obtain ⟨s0, h1, e⟩ := e
    cases e; exact st hc
  | tarBio i =>
    simp only [step, bind_eq_ok] at e
    obtain ⟨s0, h1, s1, h2, e⟩ := e
    cases e; exact st hc
  | tarCoal i =>
    simp only [step, bind_eq_ok] at e
    obtain ⟨s0, h1, s1, h2, e⟩ := e
    cases e; exact st hc
  | sources j i =>
    simp only [step, bind_eq_ok] at e
    obtain ⟨m, hm, s0, h1, ⟨m', s', g'⟩, hs, e⟩ := e
    cases e
    refine ⟨(st (s := s') hc.2).st, fun k hk => ?_⟩
    show w.md[k]? = (w.md.set j m')[k]?
    rw [List.getElem?_set_ne (fun e : j = k => hc.1 (e ▸ hk))]

theorem step_factor (hF : 1 < F) {w w1 : World} (ho : OneFactor F w) {c : Call} (hc : Inside A B c) (e : step eig w c = ok w1) : OneFactor F w1 := by
  obtain ⟨_, _, _, h, _⟩ := step_inside (A := A) (B := B) hF (w' := w) ⟨fun _ _ => rfl, fun _ _ => rfl⟩ ho ho hc e
  exact h

end

theorem not_inside {A B : Set ℕ} {c : Call} (h : Inside Aᶜ Bᶜ c) : ¬ Inside A B c := by
  cases c <;> simp only [Inside, Set.mem_compl_iff] at h ⊢ <;> tauto

theorem own_cons (A B : Set ℕ) (c : Call) (p : List Call) : own A B (c :: p) = if Inside A B c then c :: own A B p else own A B p := by
  unfold own
  rw [List.filter_cons]
  simp

end Interleave

open Interleave

/-- **C98.** Split the objects of a process between two clients, the first owning the states in `A` and the models in `B`, the second all the
others; every call names objects of one client only; all sectional models have the same bin factor.  If the interleaved program completes,
then so does the first client's program alone, and it ends with exactly the same objects: no call of the other client had any influence. -/
theorem C98_no_interference (eig : Eig) (A B : Set ℕ) (F : ℝ) (hF : 1 < F) (p : List Call) (hp : ∀ c ∈ p, Inside A B c ∨ Inside Aᶜ Bᶜ c) :
    ∀ w w' w1 : World, OneFactor F w → OneFactor F w' → Agree A B w w' → run eig w p = ok w1 →
      ∃ w2, run eig w' (own A B p) = ok w2 ∧ Agree A B w1 w2 := by
  induction p with
  | nil => intro w w' w1 _ _ h e; cases e; exact ⟨w', rfl, h⟩
  | cons c p ih =>
    intro w w' w1 ho ho' h e
    simp only [run, bind_eq_ok] at e
    obtain ⟨v, e1, e2⟩ := e
    have ih := ih fun c hc => hp c (by simp [hc])
    rcases hp c (by simp) with hc | hc
    · obtain ⟨v', k1, k2, k3, k4⟩ := step_inside hF h ho ho' hc e1
      obtain ⟨w2, j1, j2⟩ := ih v v' w1 k3 k4 k2 e2
      exact ⟨w2, by rw [own_cons, if_pos hc, run, k1, ok_bind]; exact j1, j2⟩
    · obtain ⟨w2, j1, j2⟩ := ih v w' w1 (step_factor hF ho hc e1) ho' ((step_outside hc e1).symm.trans h) e2
      exact ⟨w2, by rw [own_cons, if_neg (not_inside hc)]; exact j1, j2⟩

/-- **C98 (any interleaving).** If each client's program completes on its own, then every interleaving of the two completes, and ends with the
first client's objects as the first program alone leaves them and the second client's objects as the second program alone leaves them.  In
particular all interleavings give the same objects. -/
theorem C98_interleaving (eig : Eig) (A B : Set ℕ) (F : ℝ) (hF : 1 < F) (p : List Call) (hp : ∀ c ∈ p, Inside A B c ∨ Inside Aᶜ Bᶜ c) :
    ∀ w u v u1 v1 : World, OneFactor F w → OneFactor F u → OneFactor F v → Agree A B w u → Agree Aᶜ Bᶜ w v →
      run eig u (own A B p) = ok u1 → run eig v (own Aᶜ Bᶜ p) = ok v1 →
      ∃ w1, run eig w p = ok w1 ∧ Agree A B w1 u1 ∧ Agree Aᶜ Bᶜ w1 v1 := by
  induction p with
  | nil => intro w u v u1 v1 _ _ _ h h' e e'; cases e; cases e'; exact ⟨w, rfl, h, h'⟩
  | cons c p ih =>
    intro w u v u1 v1 ow ou ov h h' e e'
    have ih := ih fun c hc => hp c (by simp [hc])
    rcases hp c (by simp) with hc | hc
    · have hn : ¬ Inside Aᶜ Bᶜ c := fun hx => not_inside hx hc
      rw [own_cons, if_pos hc, run, bind_eq_ok] at e
      rw [own_cons, if_neg hn] at e'
      obtain ⟨u2, e1, e2⟩ := e
      obtain ⟨w2, k1, k2, k3, k4⟩ := step_inside hF h.symm ou ow hc e1
      have hout : Agree Aᶜ Bᶜ w w2 := step_outside (A := Aᶜ) (B := Bᶜ) (by simpa using hc) k1
      obtain ⟨w1, j1, j2, j3⟩ := ih w2 u2 v u1 v1 k4 k3 ov k2.symm (hout.symm.trans h') e2 e'
      exact ⟨w1, by rw [run, k1, ok_bind]; exact j1, j2, j3⟩
    · rw [own_cons, if_neg (not_inside hc)] at e
      rw [own_cons, if_pos hc, run, bind_eq_ok] at e'
      obtain ⟨v2, e1, e2⟩ := e'
      obtain ⟨w2, k1, k2, k3, k4⟩ := step_inside hF h'.symm ov ow hc e1
      obtain ⟨w1, j1, j2, j3⟩ := ih w2 u v2 u1 v1 k4 ou k3 ((step_outside hc k1).symm.trans h) k2.symm e e2
      exact ⟨w1, by rw [run, k1, ok_bind]; exact j1, j2, j3⟩

/-- **C98 (the condition on the bin factor is needed).** Two clients with a sectional model each, bin factors 2 and 4: whether the second client
evaluates its own model first changes the first client's sources. -/
theorem C98_factors_needed (eig : Eig) : ∃ (w w1 w2 : World) (m1 m2 : Model), w.glob = none ∧
    run eig w [.sources 0 0] = ok w1 ∧ run eig w [.sources 1 1, .sources 0 0] = ok w2 ∧
    w1.md[0]? = some m1 ∧ w2.md[0]? = some m2 ∧ m1.sources.soot.getD 0 0 ≠ m2.sources.soot.getD 0 0 := by
  obtain ⟨s, s1, s2, s3, m1, m2, m3, g1, g2, g3, -, -, -, h1, h2, h3, h4⟩ := C40_static_shared
  have e2 : (exModel .SECT 2 .NONE .NONE .NONE .FM).psd = .SECT := rfl
  have e4 : sectF4.psd = .SECT := rfl
  refine ⟨⟨[s, s], [exModel .SECT 2 .NONE .NONE .NONE .FM, sectF4], none⟩, ⟨[s1, s], [m1, sectF4], g1⟩, ⟨[s3, s2], [m3, m2], g3⟩, m1, m3, rfl,
    ?_, ?_, rfl, rfl, h4.ne'⟩
  · simp [run, step, idx, sourceTerms, e2, h1]
  · simp [run, step, idx, sourceTerms, e2, e4, h2, h3]

/-- Two clients, one with a sectional and one with a lognormal model: all hypotheses hold and the interleaved program completes. -/
example (eig : Eig) : ∃ w w1 : World, OneFactor 2 w ∧
    (∀ c ∈ [Call.sources 1 1, .sources 0 0], Inside {0} {0} c ∨ Inside ({0} : Set ℕ)ᶜ ({0} : Set ℕ)ᶜ c) ∧
    run eig w [.sources 1 1, .sources 0 0] = ok w1 ∧
    ∃ w2, run eig w [.sources 0 0] = ok w2 ∧ w1.md[0]? = w2.md[0]? := by
  have hr := exSectReady 4 .LL (by simp) (by simp) .HACA .NSC_NEOH .FUCHS [1E15, 1E14, 1E13, 0] false rfl (by norm_num) (by norm_num)
  obtain ⟨m', s', glob', _, _, _, _, _, _, h, _⟩ := C37_C38_sect _ _ none hr (exGlobOk 4 .LL .HACA .NSC_NEOH .FUCHS (by norm_num) (by norm_num))
  have hl := exLognReady .LL (by simp) (by simp) .HACA .NSC_NEOH .HM (by simp) (M0 := 1E15) (M1 := 1E-6) (M2 := 2E-27)
    (by norm_num) (by norm_num) (by norm_num) false
  obtain ⟨l', hl1, _⟩ := C26_logn_total_partial _ _ _ _ _ hl (by simp [exModel, Nucl.new])
  have ep : (exModel .SECT 4 .LL .HACA .NSC_NEOH .FUCHS).psd = .SECT := rfl
  have eq : (exModel .LOGN 3 .LL .HACA .NSC_NEOH .HM).psd = .LOGN := rfl
  have hone : OneFactor 2 ⟨[exSt [1E15, 1E14, 1E13, 0] false, exSt [1E15, 1E-6, 2E-27] false],
      [exModel .SECT 4 .LL .HACA .NSC_NEOH .FUCHS, exModel .LOGN 3 .LL .HACA .NSC_NEOH .HM], none⟩ := by
    refine ⟨fun m hm hp => ?_, Or.inl rfl⟩
    simp at hm
    rcases hm with rfl | rfl <;> rfl
  have hin : ∀ c ∈ [Call.sources 1 1, .sources 0 0], Inside {0} {0} c ∨ Inside ({0} : Set ℕ)ᶜ ({0} : Set ℕ)ᶜ c := by
    intro c hc
    simp at hc
    rcases hc with rfl | rfl <;> simp [Inside]
  have hrun : run eig ⟨[exSt [1E15, 1E14, 1E13, 0] false, exSt [1E15, 1E-6, 2E-27] false],
      [exModel .SECT 4 .LL .HACA .NSC_NEOH .FUCHS, exModel .LOGN 3 .LL .HACA .NSC_NEOH .HM], none⟩ [.sources 1 1, .sources 0 0] =
      ok ⟨[s', exSt [1E15, 1E-6, 2E-27] false], [m', l'], glob'⟩ := by
    simp [run, step, idx, sourceTerms, ep, eq, h, hl1]
  obtain ⟨w2, k1, k2⟩ := C98_no_interference eig {0} {0} 2 (by norm_num) _ hin _ _ _ hone hone ⟨fun _ _ => rfl, fun _ _ => rfl⟩ hrun
  refine ⟨_, _, hone, hin, hrun, w2, ?_, k2.md 0 rfl⟩
  rw [own_cons, own_cons, if_neg (by simp [Inside]), if_pos (by simp [Inside])] at k1
  exact k1

end Soot
