import Verif.Trace
import Verif.Props.SectEq
import Verif.Props.Logn
import Verif.Props.State
import Verif.Props.Trace

/-!
# C72: the source terms are a function of the last inputs

`setSourceTerms` writes into the model object, into the state object and (sectional model) into a process-wide static, and `setState`
leaves several members of the state alone.  Nothing of what is left behind reaches a later result.
-/

namespace Soot

open Res Real
open scoped Classical

/-- The members of `s` that `setState` writes, on top of the remaining members of `t`. -/
def State.onto (s t : State) : State :=
  { t with T := s.T, P := s.P, rhoGas := s.rhoGas, MWGas := s.MWGas, muGas := s.muGas, yGas := s.yGas, yPah := s.yPah, nsoot := s.nsoot,
           sootVar := s.sootVar, cMin := s.cMin, Ntar := s.Ntar, tarVar := s.tarVar }

namespace Pure

theorem map'_bind {α β γ : Type} (f : β → γ) (x : Res α) (g : α → Res β) : map' f (x >>= g) = x >>= fun a => map' f (g a) := by
  cases x <;> rfl

theorem bind_map' {α β γ : Type} (f : α → β) (x : Res α) (g : β → Res γ) : (map' f x >>= g) = x >>= fun a => g (f a) := by
  cases x <;> rfl

theorem map'_map' {α β γ : Type} (f : α → β) (g : β → γ) (x : Res α) : map' g (map' f x) = map' (fun a => g (f a)) x := by
  cases x <;> rfl

theorem bind_assoc' {α β γ : Type} (x : Res α) (f : α → Res β) (g : β → Res γ) : ((x >>= f) >>= g) = x >>= fun a => f a >>= g := by
  cases x <;> rfl

theorem gasC (s t : State) (sp : GasSp) : (s.onto t).gasC sp = s.gasC sp := rfl

theorem coag (c : Coag) (s t : State) : c.rate (s.onto t) = c.rate s := rfl

theorem grow (g : Grow) (c : Ctx) (s t : State) : g.rate c (s.onto t) = g.rate c s := rfl

theorem oxid (g : Oxid) (c : Ctx) (s t : State) : g.rate c (s.onto t) = g.rate c s := rfl

theorem pahLoop_onto (s t : State) (pre : ℝ) (l : List PahSp) (a : PahAcc) : pahLoop (s.onto t) pre l a = pahLoop s pre l a := by
  induction l generalizing a with
  | nil => rfl
  | cons x l ih => simp only [pahLoop, ih]; rfl

theorem nucl {ib : State → ℝ → Res ℝ} {s t : State} (n : Nucl) (hm : n.mech = .AJ_RED → t.mtar = s.mtar)
    (hib : ∀ c mD, ib ({ s with cMin := c }.onto t) mD = ib { s with cMin := c } mD) :
    n.rate ib (s.onto t) = map' (fun p => (p.1, p.2.1, p.2.2.onto t)) (n.rate ib s) := by
  unfold Nucl.rate
  rcases he : n.mech
  case AJ_RED =>
    have e : (s.onto t).mtar = s.mtar := hm he
    simp only [e, map'_bind, map'_ok]
    rfl
  case PAH =>
    simp only [nuclPAH, pahLoop_onto, map'_bind]
    refine congrArg _ (funext fun pre => congrArg _ (funext fun a0 => congrArg _ (funext fun h2 => congrArg _ (funext fun m16 => ?_))))
    exact congrArg (· >>= _) (hib _ _)
  all_goals (simp only [map'_bind, map'_ok]; first | done | rfl)

/-! ## LOGN -/

theorem lognTerms_onto (m : Model) (s t : State) (hm : m.nucl.mech = .AJ_RED → t.mtar = s.mtar) :
    lognTerms m (s.onto t) = map' (fun r => { r with st := r.st.onto t }) (lognTerms m s) := by
  simp only [lognTerms, nucl (ib := lognIbeta m) (s := s) (t := t) m.nucl hm (fun _ _ => rfl), bind_map', map'_bind, map'_ok]
  rfl

theorem lognSources_onto (m : Model) (s t : State) (hm : m.nucl.mech = .AJ_RED → t.mtar = s.mtar) :
    lognSources m (s.onto t) = map' (fun r => (r.1, r.2.onto t)) (lognSources m s) := by
  simp only [lognSources, lognTerms_onto _ _ _ hm, bind_map', map'_bind, map'_ok]

/-! ## MOMIC -/

theorem momicTerms_onto (m : Model) (T : Tri) (P Q : List ℝ) (s t : State) (hm : m.nucl.mech = .AJ_RED → t.mtar = s.mtar) :
    momicTerms m T P Q (s.onto t) = map' (fun r => { r with st := r.st.onto t }) (momicTerms m T P Q s) := by
  simp only [momicTerms, nucl (ib := momicIbeta m P Q) (s := s) (t := t) m.nucl hm (fun _ _ => rfl), bind_map', map'_bind, map'_ok]
  rfl

theorem momicSources_onto (m : Model) (s t : State) (hm : m.nucl.mech = .AJ_RED → t.mtar = s.mtar) :
    momicSources m (s.onto t) = map' (fun r => (r.1, r.2.onto t)) (momicSources m s) := by
  simp only [momicSources, momicTerms_onto _ _ _ _ _ _ hm, momFinish, bind_map', map'_bind, map'_ok]
  rfl

/-! ## QMOM -/

theorem qmomTerms_onto (m : Model) (s t : State) (w a : List ℝ) (hm : m.nucl.mech = .AJ_RED → t.mtar = s.mtar) :
    qmomTerms m ({ s with wts := w, absc := a }.onto { t with wts := w, absc := a }) =
      map' (fun r => { r with st := r.st.onto { t with wts := w, absc := a } }) (qmomTerms m { s with wts := w, absc := a }) := by
  simp only [qmomTerms, nucl (ib := ibetaNodes m.coag) (s := { s with wts := w, absc := a }) (t := { t with wts := w, absc := a }) m.nucl hm
    (fun _ _ => rfl), bind_map', map'_bind, map'_ok]
  apply Res.bind_congr
  rintro ⟨j, n, s'⟩ h
  obtain ⟨c, rfl⟩ := nucl_state h
  rfl

theorem qmomSources_onto (eig : Eig) (m : Model) (s t : State) (hm : m.nucl.mech = .AJ_RED → t.mtar = s.mtar) (hw : t.wts.length = s.wts.length)
    (ha : t.absc.length = s.absc.length) :
    map' (fun r => (r.1, r.2.onto (State.mk' 0 0))) (qmomSources eig m (s.onto t)) =
      map' (fun r => (r.1, r.2.onto (State.mk' 0 0))) (qmomSources eig m s) := by
  have e : getWtsAbs eig (s.onto t).sootVar (s.onto t).wts (s.onto t).absc = getWtsAbs eig s.sootVar s.wts s.absc := getWtsAbs_len hw ha
  simp only [qmomSources, e, map'_bind]
  apply Res.bind_congr
  rintro ⟨w, a⟩ _
  have e2 := qmomTerms_onto m s t w a hm
  have e3 : ({ s.onto t with wts := w, absc := a } : State) = { s with wts := w, absc := a }.onto { t with wts := w, absc := a } := rfl
  simp only [e3, e2, bind_map', momFinish, map'_bind, map'_ok]
  rfl

/-! ## MONO -/

theorem monoTerms_onto (m : Model) (M0 M1 : ℝ) (s t : State) (w a : List ℝ) (hm : m.nucl.mech = .AJ_RED → t.mtar = s.mtar) :
    monoTerms m M0 M1 ({ s with wts := w, absc := a }.onto { t with wts := w, absc := a }) =
      map' (fun r => { r with st := r.st.onto { t with wts := w, absc := a } }) (monoTerms m M0 M1 { s with wts := w, absc := a }) := by
  simp only [monoTerms, nucl (ib := ibetaNodes m.coag) (s := { s with wts := w, absc := a }) (t := { t with wts := w, absc := a }) m.nucl hm
    (fun _ _ => rfl), bind_map', map'_bind, map'_ok]
  apply Res.bind_congr
  rintro ⟨j, n, s'⟩ h
  obtain ⟨c, rfl⟩ := nucl_state h
  rfl

theorem monoSources_onto (m : Model) (s t : State) (hm : m.nucl.mech = .AJ_RED ∨ m.tar = .AJ_RED → t.mtar = s.mtar) (hw : t.wts.length = 1)
    (ha : t.absc.length = 1) (hw' : s.wts.length = 1) (ha' : s.absc.length = 1) (h0 : 0 < s.sootVar.getD 0 0) :
    map' (fun r => (r.1, r.2.onto (State.mk' 0 0))) (monoSources m (s.onto t)) =
      map' (fun r => (r.1, r.2.onto (State.mk' 0 0))) (monoSources m s) := by
  have hl : 0 < s.sootVar.length := by
    rcases hx : s.sootVar with _ | ⟨x, l⟩
    · rw [hx] at h0; simp at h0
    · simp
  have n1 : ∀ u : State, u.sootVar = s.sootVar → u.wts.length = 1 → u.absc.length = 1 → monoNodes u = idx s.sootVar 1 >>= fun M1 =>
      ok (s.sootVar.getD 0 0, M1, { u with wts := [s.sootVar.getD 0 0], absc := [M1 / s.sootVar.getD 0 0] }) := by
    intro u e1 e2 e3
    obtain ⟨x, ex⟩ := List.length_eq_one_iff.mp e2
    obtain ⟨y, ey⟩ := List.length_eq_one_iff.mp e3
    simp only [monoNodes, e1, idx_getD hl, ok_bind]
    refine congrArg _ (funext fun M1 => ?_)
    rw [if_pos h0, ex, ey]
    rfl
  simp only [monoSources, n1 (s.onto t) rfl hw ha, n1 s rfl hw' ha', map'_bind, bind_assoc', ok_bind]
  apply Res.bind_congr
  intro M1 _
  have key := monoTerms_onto m (s.sootVar.getD 0 0) M1 s t [s.sootVar.getD 0 0] [M1 / s.sootVar.getD 0 0] fun h => hm (.inl h)
  generalize s.sootVar.getD 0 0 = M0 at key
  have e3 : ({ s.onto t with wts := [M0], absc := [M1 / M0] } : State) =
    { s with wts := [M0], absc := [M1 / M0] }.onto { t with wts := [M0], absc := [M1 / M0] } := rfl
  rcases ht : m.tar <;> simp only [e3, key, bind_map', map'_bind, map'_ok]
  · rfl
  · refine congrArg _ (funext fun N0 => ?_)
    apply Res.bind_congr
    intro r hr
    obtain ⟨c, er⟩ := monoTerms_st hr
    obtain ⟨t0, rfl⟩ : ∃ t0 : State, t = { t0 with mtar := s.mtar } := ⟨t, by rw [← hm (.inr ht)]⟩
    rw [er]
    rfl
  · rfl

/-! ## SECT -/

theorem coagLoop_onto (n : ℕ) (b : List ℝ) (c : Coag) (s t : State) (f : ℝ) (l : List (ℕ × ℕ)) (S : ℕ → ℝ) :
    coagLoop n b c (s.onto t) f l S = coagLoop n b c s f l S := by
  induction l generalizing S with
  | nil => rfl
  | cons x l ih => simp only [coagLoop, ih]; rfl

theorem sectTerms_onto (m : Model) (g : Option ℝ) (s t : State) (hm : m.nucl.mech = .AJ_RED → t.mtar = s.mtar) :
    sectTerms m g (s.onto t) = map' (fun r => { r with st := r.st.onto t }) (sectTerms m g s) := by
  simp only [sectTerms, nucl (ib := sectIbeta m) (s := s) (t := t) m.nucl hm (fun _ _ => rfl), bind_map', map'_bind, map'_ok, sectCoag,
    coagLoop_onto]
  rfl

theorem sectSources_onto (m : Model) (g : Option ℝ) (s t : State) (hm : m.nucl.mech = .AJ_RED → t.mtar = s.mtar) :
    sectSources m g (s.onto t) = map' (fun r => (r.1, r.2.1.onto t, r.2.2)) (sectSources m g s) := by
  simp only [sectSources, sectTerms_onto _ _ _ _ hm, bind_map', map'_bind, map'_ok]

/-- The cached factor enters only through its value. -/
theorem sectSources_glob (m : Model) (g g' : Option ℝ) (s : State) (h : ilnFStatic g m.binF = ilnFStatic g' m.binF) :
    map' (fun r => (r.1, r.2.1)) (sectSources m g s) = map' (fun r => (r.1, r.2.1)) (sectSources m g' s) := by
  simp only [sectSources, sectTerms, sectCoag, h, map'_bind, map'_ok, bind_assoc', ok_bind]
  by_cases hc : m.coag.mech ≠ .NONE
  · simp only [if_pos hc]
  · simp only [if_neg hc, ok_bind]

/-! ## All classes -/

/-- What the caller sees of an evaluation: the model object with its source terms, and the members of the state that matter. -/
noncomputable def seen (r : Res (Model × State × Option ℝ)) : Res (Model × State) :=
  map' (fun r => (r.1, r.2.1.onto (State.mk' 0 0))) r

theorem canon {eig : Eig} {m : Model} {glob : Option ℝ} {s : State} (hw : m.WF) (hd : Documented m.psd m.nsoot m.coag.mech m.tar)
    (hh : m.psd ≠ .HMOM) : sourceTerms eig m glob s = sourceTerms eig m.canon glob s := by
  have e : m.canon.psd = m.psd := rfl
  unfold sourceTerms
  rw [e]
  generalize hp : m.psd = p at *
  generalize hn : m.nsoot = n at *
  generalize hc : m.coag.mech = c at *
  generalize ht : m.tar = t at *
  cases hd with
  | mono => simp only [monoSources_canon hw hn]
  | logn => simp only [lognSources_canon hw hn ht]
  | qmom => simp only [qmomSources_canon hw (by omega) ht]
  | momic => simp only [momicSources_canon hw (by omega) ht]
  | hmom => exact absurd rfl hh
  | sect => simp only [sectSources_canon hw ht]

theorem seen_onto {eig : Eig} {m : Model} {glob glob' : Option ℝ} {s t : State} (hd : Documented m.psd m.nsoot m.coag.mech m.tar)
    (hh : m.psd ≠ .HMOM) (hm : m.nucl.mech = .AJ_RED ∨ m.tar = .AJ_RED → t.mtar = s.mtar)
    (hw : t.wts.length = m.nsoot / 2) (ha : t.absc.length = m.nsoot / 2) (hw' : s.wts.length = m.nsoot / 2) (ha' : s.absc.length = m.nsoot / 2)
    (h0 : m.psd = .MONO → 0 < s.sootVar.getD 0 0) (hg : m.psd = .SECT → ilnFStatic glob m.binF = ilnFStatic glob' m.binF) :
    seen (sourceTerms eig m glob (s.onto t)) = seen (sourceTerms eig m glob' s) := by
  unfold sourceTerms seen
  generalize hp : m.psd = p at *
  generalize hn : m.nsoot = n at *
  generalize hc : m.coag.mech = c at *
  generalize ht : m.tar = tr at *
  cases hd with
  | mono =>
    simp only [map'_bind, map'_ok]
    exact monoSources_onto m s t (by rw [ht]; exact hm) hw ha hw' ha' (h0 rfl)
  | logn =>
    simp only [lognSources_onto m s t (fun h => hm (.inl h)), map'_bind, bind_map', map'_ok]
    rfl
  | qmom =>
    simp only [map'_bind, map'_ok]
    exact qmomSources_onto eig m s t (fun h => hm (.inl h)) (hw.trans hw'.symm) (ha.trans ha'.symm)
  | momic =>
    simp only [momicSources_onto m s t (fun h => hm (.inl h)), map'_bind, bind_map', map'_ok]
    rfl
  | hmom => exact absurd rfl hh
  | sect =>
    have k := congrArg (map' fun r : Model × State => (r.1, r.2.onto (State.mk' 0 0))) (sectSources_glob m glob glob' s (hg rfl))
    simp only [map'_map'] at k
    simp only [sectSources_onto m glob s t (fun h => hm (.inl h)), map'_map']
    exact k

theorem stateAfter_onto (s s₀ : State) (a : SetArgs) : stateAfter s a = (stateAfter s₀ a).onto s := rfl

theorem set_ok {s : State} {a : SetArgs} (h : (setState s a).2 = ok ()) : (setState s a).1 = stateAfter s a := by
  obtain ⟨hs, ht⟩ := setState_ok_range h
  rw [C01_setState_accepts s a hs ht ((C01_setState_iff s a hs ht).1 h)]

end Pure

open Pure in
/-- **C72.**  Two model objects of one configuration and two state objects of one size, whatever calls they went through; both states take the
same inputs.  Then the source terms, the complete model object and the inputs seen by later evaluations are equal, in every class except HMOM,
and so is the failure if the evaluation fails.  For MONO the number density has to be positive (C23), for AJ_RED the tar mass of the two states
has to agree (`setState` does not write it), for SECT the process-wide factor must be the model's own. -/
theorem C72_function_of_inputs (eig : Eig) (m₁ m₂ : Model) (w₁ : m₁.WF) (w₂ : m₂.WF) (hm : m₁.canon = m₂.canon)
    (hd : Documented m₁.psd m₁.nsoot m₁.coag.mech m₁.tar) (hh : m₁.psd ≠ .HMOM) (s₁ s₂ : State) (a : SetArgs)
    (o₁ : (setState s₁ a).2 = ok ()) (o₂ : (setState s₂ a).2 = ok ())
    (hw₁ : s₁.wts.length = m₁.nsoot / 2) (ha₁ : s₁.absc.length = m₁.nsoot / 2)
    (hw₂ : s₂.wts.length = m₁.nsoot / 2) (ha₂ : s₂.absc.length = m₁.nsoot / 2)
    (hmt : m₁.nucl.mech = .AJ_RED ∨ m₁.tar = .AJ_RED → s₁.mtar = s₂.mtar)
    (h0 : m₁.psd = .MONO → 0 < a.sootVar.getD 0 0) (g₁ g₂ : Option ℝ)
    (hF : m₁.psd = .SECT → 1 < m₁.binF) (hg₁ : m₁.psd = .SECT → OwnFactor m₁ g₁) (hg₂ : m₁.psd = .SECT → OwnFactor m₁ g₂) :
    seen (sourceTerms eig m₁ g₁ (setState s₁ a).1) = seen (sourceTerms eig m₂ g₂ (setState s₂ a).1) := by
  have d₂ : Documented m₂.psd m₂.nsoot m₂.coag.mech m₂.tar := by
    have e : ∀ m : Model, (m.psd, m.nsoot, m.coag.mech, m.tar) = (m.canon.psd, m.canon.nsoot, m.canon.coag.mech, m.canon.tar) := fun _ => rfl
    have e1 := (e m₂).trans ((congrArg (fun m : Model => (m.psd, m.nsoot, m.coag.mech, m.tar)) hm).symm.trans (e m₁).symm)
    simp only [Prod.mk.injEq] at e1
    rw [e1.1, e1.2.1, e1.2.2.1, e1.2.2.2]; exact hd
  have hh₂ : m₂.psd ≠ .HMOM := by
    have : m₂.canon.psd = m₁.canon.psd := by rw [hm]
    exact fun h => hh (this.symm.trans h)
  rw [canon w₁ hd hh, canon w₂ d₂ hh₂, ← hm, set_ok o₁, set_ok o₂, stateAfter_onto s₁ s₂ a]
  have e1 : m₁.canon.nucl.mech = m₁.nucl.mech := rfl
  refine seen_onto (m := m₁.canon) hd hh (fun h => hmt (e1 ▸ h)) hw₁ ha₁ hw₂ ha₂ (fun h => ?_) (fun h => ?_)
  · have := h0 h
    show 0 < (a.sootVar.map (max · 0)).getD 0 0
    rcases hx : a.sootVar with _ | ⟨x, l⟩
    · rw [hx] at this; simp at this
    · rw [hx] at this; simpa using this
  · exact ((hg₁ h).static (hF h)).trans ((hg₂ h).static (hF h)).symm

/-! ## Whole programs -/

/-- The constructor calls of a program that succeed, in the order of the model numbers. -/
noncomputable def ctorCalls (ops : List Call) : List Call :=
  ops.filter fun
    | .newModel psd k _ _ _ c _ t _ _ => decide (Documented psd k c t)
    | _ => false

/-- All sectional models of the program have the bin growth factor `F`. -/
def OneFactor (F : ℝ) (ops : List Call) : Prop :=
  ∀ psd k n g o c N t F' cm, Call.newModel psd k n g o c N t F' cm ∈ ops → psd = .SECT → F' = F

/-- The source terms in model `j` at the end of a program. -/
noncomputable def sourcesOf (r : Res World) (j : ℕ) : Res Sources := do
  let w ← r
  let m ← idx w.md j
  ok m.sources

namespace Pure

/-- The object is what constructor call `c` made, apart from what evaluations write into it. -/
def Made (eig : Eig) (F : ℝ) (m : Model) (c : Call) : Prop :=
  step eig World.start c = ok ⟨[], [m.canon], none⟩ ∧ (m.psd = .SECT → m.binF = F)

theorem canon_canon (m : Model) : m.canon.canon = m.canon := rfl

theorem step_made (eig : Eig) {F : ℝ} (hF : 1 < F) {w w' : World} {Γ : Shapes} (h : WorldOk F w Γ) {op : Call} (hl : Legal F Γ op)
    (e : step eig w op = ok w') {L : List Call} (hL : List.Forall₂ (Made eig F) w.md L) (hg : w.glob = none ∨ w.glob = some (1 / log F))
    (ho : OneFactor F [op]) :
    List.Forall₂ (Made eig F) w'.md (L ++ ctorCalls [op]) ∧ (w'.glob = none ∨ w'.glob = some (1 / log F)) := by
  have triv : ∀ {w' : World}, w'.md = w.md → w'.glob = w.glob → ctorCalls [op] = [] →
      List.Forall₂ (Made eig F) w'.md (L ++ ctorCalls [op]) ∧ (w'.glob = none ∨ w'.glob = some (1 / log F)) := by
    intro w' h1 h2 h3
    rw [h1, h2, h3, List.append_nil]; exact ⟨hL, hg⟩
  cases op with
  | newState n t => cases e; exact triv rfl rfl rfl
  | set i a =>
    simp only [step, bind_eq_ok] at e
    obtain ⟨s, _, e⟩ := e
    rcases hx : setState s a with ⟨s', r⟩
    rw [hx] at e
    cases r <;> simp only at e <;> cases e
    all_goals exact triv rfl rfl rfl
  | bio i y =>
    simp only [step, bind_eq_ok] at e
    obtain ⟨s, _, e⟩ := e
    cases e; exact triv rfl rfl rfl
  | coal i x y z =>
    simp only [step, bind_eq_ok] at e
    obtain ⟨s, _, e⟩ := e
    cases e; exact triv rfl rfl rfl
  | tarBio i =>
    simp only [step, bind_eq_ok] at e
    obtain ⟨s, _, _, _, e⟩ := e
    cases e; exact triv rfl rfl rfl
  | tarCoal i =>
    simp only [step, bind_eq_ok] at e
    obtain ⟨s, _, _, _, e⟩ := e
    cases e; exact triv rfl rfl rfl
  | newModel psd k n g o c N t F' cm =>
    obtain ⟨hp, hsect⟩ := hl
    by_cases hd : Documented psd k c t
    · obtain ⟨m, em, hm⟩ := newModel_ok (n := n) (g := g) (o := o) (N := N) hd hsect
      have hcan : m.canon = m ∧ m.binF = F' := by
        have : ∃ m : Model, Model.new psd k n g o c N t F' cm = ok m ∧ m.canon = m ∧ m.binF = F' := by
          have hc : (Coag.new c).mech = c := by cases c <;> rfl
          refine ⟨_, by rw [Model.new, Model.newPtr, hc, (ctorCheck_iff psd hp k c t).1 hd]; exact ok_bind _ _, ?_⟩
          cases n <;> exact ⟨rfl, rfl⟩
        obtain ⟨m', e1, e2⟩ := this
        rw [em] at e1; cases e1; exact e2
      simp only [step, em] at e
      cases e
      have ec : ctorCalls [.newModel psd k n g o c N t F' cm] = [.newModel psd k n g o c N t F' cm] := by simp [ctorCalls, hd]
      rw [ec]
      refine ⟨forall2_snoc hL ⟨by simp [step, em, World.start, hcan.1], fun hx => ?_⟩, hg⟩
      have hx' : psd = .SECT := hm.psd.symm.trans hx
      have e1 := ho _ _ _ _ _ _ _ _ _ _ (List.mem_singleton.2 rfl) hx'
      rw [hcan.2, e1]
    · obtain ⟨msg, em⟩ := (C43_ctor psd hp k n g o c N t F' cm).2 hd
      simp only [step, em] at e
      cases e
      exact triv rfl rfl (by simp [ctorCalls, hd])
  | sources j i =>
    obtain ⟨μ, σ, hj, hi, en, h8, h1, h2, h3, h4, h5⟩ := hl
    obtain ⟨s, es, hs⟩ := forall2_idx h.st hi
    obtain ⟨m, em, hm⟩ := forall2_idx h.md hj
    simp only [step, es, em, ok_bind, bind_eq_ok] at e
    obtain ⟨⟨m', s', g⟩, e1, e⟩ := e
    cases e
    obtain ⟨wf, sp, _, hgl⟩ := sourceTerms_frame hm.wf (by rw [hm.nsoot]; exact hm.doc.two) (by rw [hm.psd]; exact h1) e1
    have ec : ctorCalls [.sources j i] = [] := rfl
    rw [ec, List.append_nil]
    have hjl : j < L.length := by
      rw [← hL.length_eq, h.md.length_eq]
      exact (List.getElem?_eq_some_iff.mp hj).1
    obtain ⟨m1, c, k1, k2, k3⟩ := forall2_idx' hL hjl
    rw [em] at k1; cases k1
    refine ⟨forall2_set hL k2 ⟨by rw [sp.canon_eq]; exact k3.1, fun hx => ?_⟩, ?_⟩
    · rw [sp.binF]; exact k3.2 (sp.psd.symm.trans hx)
    · rcases hgl with hgl | ⟨hp, f, hgl, hf⟩
      · simpa only [hgl] using hg
      · refine .inr ?_
        have : OwnFactor m w.glob := by unfold OwnFactor; rw [k3.2 hp]; exact hg
        rw [this.static (by rw [k3.2 hp]; exact hF), k3.2 hp] at hf
        cases hf; exact hgl

theorem run_made (eig : Eig) {F : ℝ} (hF : 1 < F) (ops : List Call) {w w' : World} {Γ : Shapes} (h : WorldOk F w Γ) (hl : LegalRun F Γ ops)
    (e : run eig w ops = ok w') {L : List Call} (hL : List.Forall₂ (Made eig F) w.md L) (hg : w.glob = none ∨ w.glob = some (1 / log F))
    (ho : OneFactor F ops) :
    List.Forall₂ (Made eig F) w'.md (L ++ ctorCalls ops) ∧ (w'.glob = none ∨ w'.glob = some (1 / log F)) := by
  induction ops generalizing w Γ L with
  | nil => cases e; exact ⟨by simpa [ctorCalls] using hL, hg⟩
  | cons o t ih =>
    simp only [run, bind_eq_ok] at e
    obtain ⟨w1, e1, e⟩ := e
    obtain ⟨k1, k2⟩ := step_made eig hF h hl.1 e1 hL hg fun psd k n g o' c N t' F' cm hm => ho psd k n g o' c N t' F' cm (by simp at hm; simp [hm])
    have := ih ((step_ok eig hF h o hl.1).2 w1 e1) hl.2 e k1 k2 fun psd k n g o' c N t' F' cm hm => ho psd k n g o' c N t' F' cm (by simp [hm])
    have ec : L ++ ctorCalls (o :: t) = (L ++ ctorCalls [o]) ++ ctorCalls t := by
      rw [List.append_assoc, ctorCalls, ctorCalls, ctorCalls, ← List.filter_append]; rfl
    rw [ec]; exact this

theorem run_append (eig : Eig) (w : World) (p q : List Call) : run eig w (p ++ q) = run eig w p >>= fun w => run eig w q := by
  induction p generalizing w with
  | nil => rfl
  | cons o t ih =>
    simp only [List.cons_append, run, bind_assoc']
    exact congrArg _ (funext fun w => ih w)

end Pure

open Pure in
/-- **C72, whole programs.**  Take any legal program over any number of objects, with rejected inputs, half-written states and evaluations in
any order, whose sectional models (if any) share one bin growth factor.  Then give state `i` accepted inputs and evaluate model `j` on it.  The
source terms are those of a program that makes only these two objects and evaluates once. -/
theorem C72_program (eig : Eig) (F : ℝ) (hF : 1 < F) (ops : List Call) (hl : LegalRun F ⟨[], []⟩ ops) (ho : OneFactor F ops) (w : World)
    (hr : run eig World.start ops = ok w) (i j : ℕ) (a : SetArgs) (μ : MdShape) (σ : StShape) (c : Call)
    (hj : (Shapes.afterAll ⟨[], []⟩ ops).md[j]? = some μ) (hi : (Shapes.afterAll ⟨[], []⟩ ops).st[i]? = some σ)
    (hc : (ctorCalls ops)[j]? = some c) (hn : μ.nsoot = σ.nsoot) (hh : μ.psd ≠ .HMOM) (haj : μ.nucl ≠ .AJ_RED ∧ μ.tar ≠ .AJ_RED)
    (hs : a.sootVar.length = σ.nsoot) (ht : a.tarVar.length = σ.Ntar) (ha : Admissible σ.nsoot σ.Ntar nPah a)
    (h0 : μ.psd = .MONO → 0 < a.sootVar.getD 0 0) :
    sourcesOf (run eig World.start (ops ++ [.set i a, .sources j i])) j =
      sourcesOf (run eig World.start [.newState σ.nsoot σ.Ntar, c, .set 0 a, .sources 0 0]) 0 := by
  have start : WorldOk F World.start ⟨[], []⟩ := ⟨.nil, .nil, fun f hf => by cases hf⟩
  have ok1 := (run_ok eig hF ops start hl).2 w hr
  obtain ⟨made, hg⟩ := run_made eig hF ops start hl hr (L := []) .nil (.inl rfl) ho
  rw [List.nil_append] at made
  obtain ⟨s, es, hs1⟩ := forall2_idx ok1.st hi
  obtain ⟨m, em, hm⟩ := forall2_idx ok1.md hj
  obtain ⟨m', em', k1, k2⟩ := forall2_idx made hc
  rw [em] at em'; cases em'
  have acc : ∀ u : State, StOk u { σ with gas := 0, bio := 0 } ∨ StOk u σ → setState u a = (stateAfter u a, ok ()) := by
    intro u hu
    have : u.nsoot = σ.nsoot ∧ u.Ntar = σ.Ntar ∧ u.yPah.length = nPah := by
      rcases hu with h | h
      exacts [⟨h.nsoot, h.Ntar, h.pah⟩, ⟨h.nsoot, h.Ntar, h.pah⟩]
    obtain ⟨e1, e2, e3⟩ := this
    refine C01_setState_accepts u a (by rw [e1, hs]; simp) (by rw [e2, ht]; simp) ?_
    rw [e1, e2, e3]; simpa using ha
  have okf : StOk (State.mk' σ.nsoot σ.Ntar) { σ with gas := 0, bio := 0 } := by
    refine ⟨?_, ?_, rfl, ?_, ?_, ?_, rfl, ?_, rfl⟩ <;> simp [State.mk']
  have ec : ∃ psd k n g o cg N t F' cm, c = .newModel psd k n g o cg N t F' cm := by
    have := List.mem_of_getElem? hc
    simp only [ctorCalls, List.mem_filter] at this
    obtain ⟨_, h2⟩ := this
    cases c <;> simp at h2
    exact ⟨_, _, _, _, _, _, _, _, _, _, rfl⟩
  obtain ⟨psd, k, n, g, o, cg, N, t, F', cm, rfl⟩ := ec
  have en : Model.new psd k n g o cg N t F' cm = ok m.canon := by
    rcases hx : Model.new psd k n g o cg N t F' cm with x | x | _ | _ <;> simp [step, hx, World.start] at k1
    rw [k1]
  have wfc : m.canon.WF := ⟨Nucl.new_wf _, hm.wf.grow, hm.wf.oxid, fun _ => rfl, fun _ => rfl, by simp [Model.canon, Sources.new],
    by simp [Model.canon, Sources.new], by simp [Model.canon, Sources.new]⟩
  have hset : ∀ (l : List State) (i : ℕ) (s x : State), idx l i = ok s → idx (l.set i x) i = ok x := by
    intro l i s x h
    simp only [idx] at h ⊢
    cases hl : l[i]? with
    | none => rw [hl] at h; cases h
    | some y => rw [List.getElem?_set_self (List.getElem?_eq_some_iff.mp hl).1]
  have hset' : ∀ (l : List Model) (i : ℕ) (s x : Model), idx l i = ok s → idx (l.set i x) i = ok x := by
    intro l i s x h
    simp only [idx] at h ⊢
    cases hl : l[i]? with
    | none => rw [hl] at h; cases h
    | some y => rw [List.getElem?_set_self (List.getElem?_eq_some_iff.mp hl).1]
  have acc1 := acc s (.inr hs1)
  have acc2 := acc _ (.inl okf)
  have key := C72_function_of_inputs eig m m.canon hm.wf wfc rfl (by rw [hm.psd, hm.nsoot, hm.coag, hm.tar]; exact hm.doc)
    (by rw [hm.psd]; exact hh) s (State.mk' σ.nsoot σ.Ntar) a (by rw [acc1]) (by rw [acc2]) (by rw [hs1.wts, hm.nsoot, hn])
    (by rw [hs1.absc, hm.nsoot, hn]) (by rw [okf.wts, hm.nsoot, hn]) (by rw [okf.absc, hm.nsoot, hn])
    (by rw [hm.nucl, hm.tar]; exact fun h => (h.elim haj.1 haj.2).elim) (by rw [hm.psd]; exact h0) w.glob none
    (fun h => by rw [k2 h]; exact hF) (fun h => by unfold OwnFactor; rw [k2 h]; exact hg) (fun _ => .inl rfl)
  rw [acc1, acc2] at key
  have l1 : sourcesOf (run eig World.start (ops ++ [.set i a, .sources j i])) j =
      map' (fun r => r.1.sources) (sourceTerms eig m w.glob (stateAfter s a)) := by
    simp only [sourcesOf, run_append, hr, ok_bind, run, step, es, acc1, em, hset _ _ _ _ es, bind_assoc']
    cases sourceTerms eig m w.glob (stateAfter s a) <;> simp [hset' _ _ _ _ em, ok_bind]
    all_goals rfl
  have l2 : sourcesOf (run eig World.start [.newState σ.nsoot σ.Ntar, .newModel psd k n g o cg N t F' cm, .set 0 a, .sources 0 0]) 0 =
      map' (fun r => r.1.sources) (sourceTerms eig m.canon none (stateAfter (State.mk' σ.nsoot σ.Ntar) a)) := by
    simp only [sourcesOf, ok_bind, run, step, World.start, List.nil_append, idx, List.getElem?_cons_zero, acc2, en, List.set_cons_zero, bind_assoc']
    cases sourceTerms eig m.canon none (stateAfter (State.mk' σ.nsoot σ.Ntar) a) <;> rfl
  have k3 := congrArg (map' fun r : Model × State => r.1.sources) key
  simp only [seen, map'_map'] at k3
  rw [l1, l2]; exact k3

/-- Inputs rejected after `T` has been written. -/
noncomputable def exBad : SetArgs := { exArgs [1, 1, 1] false with P := -1 }

/-- An evaluation with PAH nucleation (which writes the model object and the state), then inputs rejected half way. -/
noncomputable def exHist : List Call :=
  [.newState 3 0, .newModel .LOGN 3 .PAH .LL .LL .HM 0 .NONE 2 100, .set 0 (exArgs [1E15, 1E-6, 2E-27] false), .sources 0 0,
   .set 0 exBad]

theorem exHist_legal : LegalRun 2 ⟨[], []⟩ exHist := by
  have d1 : Documented .LOGN 3 .HM .NONE := .logn _ (by simp)
  simp only [exHist, LegalRun, Shapes.after, Legal, if_pos d1]
  simp [gasNeed, exBad, exArgs, argsEx2, argsEx, nGas]

theorem exHist_runs (eig : Eig) : ∃ w, run eig World.start exHist = ok w := by
  have e1 : Model.new .LOGN 3 .PAH .LL .LL .HM 0 .NONE 2 100 = ok (exModel .LOGN 3 .PAH .LL .LL .HM) :=
    exModel_new (by simp [ctorCheck]) _ _ _
  have hr := exLognReady .PAH (by simp) (by simp) .LL .LL .HM (by simp) (M0 := 1E15) (M1 := 1E-6) (M2 := 2E-27) (by norm_num) (by norm_num)
    (by norm_num) false
  obtain ⟨m', s', e2⟩ := (C26_pah_exact _ _ _ _ _ hr rfl).1 ⟨by norm_num, by norm_num, exSt_pah _⟩
  have e3 : setState (State.mk' 3 0) (exArgs [1E15, 1E-6, 2E-27] false) = (exSt [1E15, 1E-6, 2E-27] false, ok ()) := by
    have := exSt_set [1E15, 1E-6, 2E-27] false
    rw [exSt_eq]; exact this
  have e4 : setState s' exBad =
      ({ s' with T := (exArgs [1, 1, 1] false).T }, exn (.domain "Unphysical state value input: P")) := by
    have : ¬ (exArgs [1, 1, 1] false).T ≤ 0 := not_le.mpr (exArgs_admissible _ _).T
    have h1 : ¬ exBad.T ≤ 0 := this
    have h2 : exBad.P ≤ 0 := by norm_num [exBad]
    rw [setState, if_neg h1]
    exact if_pos h2
  simp only [exHist, run, step, World.start, List.nil_append, ok_bind, e1, idx, List.getElem?_cons_zero, e3, List.set_cons_zero, sourceTerms]
  rw [show (exModel .LOGN 3 .PAH .LL .LL .HM).psd = .LOGN from rfl]
  simp only [e2, ok_bind, List.set_cons_zero, List.getElem?_cons_zero, e4]
  exact ⟨_, rfl⟩

example (eig : Eig) : ∃ S, sourcesOf (run eig World.start (exHist ++ [.set 0 (exArgs [2E15, 1E-6, 2E-27] false), .sources 0 0])) 0 = S ∧
    S = sourcesOf (run eig World.start [.newState 3 0, .newModel .LOGN 3 .PAH .LL .LL .HM 0 .NONE 2 100,
      .set 0 (exArgs [2E15, 1E-6, 2E-27] false), .sources 0 0]) 0 := by
  obtain ⟨w, hw⟩ := exHist_runs eig
  have d1 : Documented .LOGN 3 .HM .NONE := .logn _ (by simp)
  refine ⟨_, rfl, C72_program eig 2 (by norm_num) exHist exHist_legal ?_ w hw 0 0 _ ⟨.LOGN, 3, .PAH, .HM, 0, .NONE⟩ ⟨3, 0, 0, 11⟩ _ ?_ ?_ ?_ rfl
    (by simp) (by simp) (by simp [exArgs]) (by simp [exArgs, argsEx2, argsEx])
    (exArgs_admissible [2E15, 1E-6, 2E-27] false) (by simp)⟩
  · intro psd k n g o c N t F' cm h hp
    simp [exHist] at h
    subst hp; simp at h
  · simp only [exHist, Shapes.afterAll, Shapes.after, if_pos d1]; simp
  · simp only [exHist, Shapes.afterAll, Shapes.after, if_pos d1]; simp [exBad, exArgs, argsEx2, argsEx, nGas]
  · simp [exHist, ctorCalls, d1]

end Soot
