import Verif.Props.GasLen

/-!
# C118: which soot values an evaluation reads

MONO reads two values of the soot vector, LOGN three, MOMIC, SECT and HMOM as many as the model was made for.  Values behind these have no
influence, and a vector without them is read outside its bounds.  QMOM takes the number of moments from the vector itself and is not included.
-/

namespace Soot

open Res Real
open scoped Classical

/-! ## Specification -/

/-- The number of soot values read by the class. -/
def sootNeed (m : Model) : ℕ :=
  match m.psd with
  | .MONO => 2
  | .LOGN => 3
  | _ => m.nsoot

namespace SootLen

/-- The second evaluation is the first one, or, if `b`, reads outside an array. -/
def Rel {α : Type} (b : Prop) (x y : Res α) : Prop := (b ∧ y = ub) ∨ y = x

/-- The same with the results related by `f`. -/
def RelF {α β : Type} (b : Prop) (f : α → β) (x : Res α) (y : Res β) : Prop := (b ∧ y = ub) ∨ y = map' f x

section
variable {α β γ δ : Type} {b : Prop}

theorem Rel.rfl {x : Res α} : Rel b x x := .inr (Eq.refl x)

theorem Rel.bind {x y : Res α} {k k' : α → Res β} (h : Rel b x y) (hk : ∀ a, Rel b (k a) (k' a)) : Rel b (x >>= k) (y >>= k') := by
  rcases h with ⟨hb, rfl⟩ | rfl
  · exact .inl ⟨hb, ub_bind _⟩
  · cases y with
    | ok a => exact hk a
    | exn e => exact .inr (Eq.refl _)
    | ub => exact .inr (Eq.refl _)
    | nonfin => exact .inr (Eq.refl _)

theorem Rel.ite {c : Prop} [Decidable c] {x y x' y' : Res α} (h : Rel b x x') (h' : Rel b y y') :
    Rel b (if c then x else y) (if c then x' else y') := by
  split_ifs
  exacts [h, h']

theorem RelF.ofRel {x y : Res α} {k : α → Res β} {k' : α → Res γ} {g : β → γ} (h : Rel b x y)
    (hk : ∀ a, x = ok a → RelF b g (k a) (k' a)) : RelF b g (x >>= k) (y >>= k') := by
  rcases h with ⟨hb, rfl⟩ | rfl
  · exact .inl ⟨hb, ub_bind _⟩
  · cases y with
    | ok a => exact hk a (Eq.refl _)
    | exn e => exact .inr (Eq.refl _)
    | ub => exact .inr (Eq.refl _)
    | nonfin => exact .inr (Eq.refl _)

theorem RelF.bind {x : Res α} {y : Res β} {f : α → β} {k : α → Res γ} {k' : β → Res δ} {g : γ → δ} (h : RelF b f x y)
    (hk : ∀ a, x = ok a → RelF b g (k a) (k' (f a))) : RelF b g (x >>= k) (y >>= k') := by
  rcases h with ⟨hb, rfl⟩ | rfl
  · exact .inl ⟨hb, ub_bind _⟩
  · cases x with
    | ok a => exact hk a (Eq.refl _)
    | exn e => exact .inr (Eq.refl _)
    | ub => exact .inr (Eq.refl _)
    | nonfin => exact .inr (Eq.refl _)

theorem Rel.sum {n : ℕ} {f g : ℕ → Res ℝ} (h : ∀ k < n, Rel b (f k) (g k)) : Rel b (sumLoop n f) (sumLoop n g) := by
  induction n with
  | zero => exact .rfl
  | succ n ih => exact .bind (ih fun k hk => h k (by omega)) fun _ => .bind (h n (by omega)) fun _ => .rfl

theorem Rel.tab {n : ℕ} {f g : ℕ → Res ℝ} (h : ∀ k < n, Rel b (f k) (g k)) : Rel b (tabLoop n f) (tabLoop n g) := by
  induction n with
  | zero => exact .rfl
  | succ n ih => exact .bind (ih fun k hk => h k (by omega)) fun _ => .bind (h n (by omega)) fun _ => .rfl

theorem Rel.for {σ : Type} {n : ℕ} {f g : ℕ → σ → Res σ} {x : σ} (h : ∀ k < n, ∀ x, Rel b (f k x) (g k x)) :
    Rel b (forLoop n f x) (forLoop n g x) := by
  induction n with
  | zero => exact .rfl
  | succ n ih => exact .bind (ih fun k hk => h k (by omega)) fun _ => h n (by omega) _

end

/-- The state with another soot vector. -/
def sv (z : List ℝ) (s : State) : State := { s with sootVar := z }

/-- `z` has the first `n` entries of `M`, or, if `b`, lacks some of them. -/
def Near (b : Prop) (n : ℕ) (z M : List ℝ) : Prop := ∀ i < n, (b ∧ z[i]? = none) ∨ z[i]? = M[i]?

section
variable {b : Prop} {n : ℕ} {s : State} {z : List ℝ}

theorem ix {M : List ℝ} (h : Near b n z M) {i : ℕ} (hi : i < n) : Rel b (idx M i) (idx z i) := by
  rcases h i hi with ⟨hb, e⟩ | e
  · exact .inl ⟨hb, by simp only [idx, e]⟩
  · exact .inr (by simp only [idx, e])

/-- What the mechanisms need of the context. -/
structure CtxFit (n : ℕ) (x : Ctx) (s : State) : Prop where
  two : 2 ≤ n
  sect : x.psd = .SECT → x.nsoot ≤ n ∧ s.nsoot ≤ n

theorem mom01 (h : Near b n z s.sootVar) {x : Ctx} (hx : CtxFit n x s) : Rel b (moments01 x s) (moments01 x (sv z s)) := by
  have := hx.two
  unfold moments01
  by_cases e : x.psd = .SECT
  · have hn := (hx.sect e).1
    simp only [if_pos e]
    exact .bind (.sum fun k hk => ix h (by omega)) fun _ => .bind (.sum fun k hk => .bind (ix h (by omega)) fun _ => .rfl) fun _ => .rfl
  · simp only [if_neg e]
    exact .bind (ix h (by omega)) fun _ => .bind (ix h (by omega)) fun _ => .rfl

theorem hmom01 (h : Near b n z s.sootVar) {x : Ctx} (hx : CtxFit n x s) : Rel b (hacaMoments x s) (hacaMoments x (sv z s)) := by
  have := hx.two
  unfold hacaMoments
  refine .bind (ix h (by omega)) fun _ => .bind (ix h (by omega)) fun _ => ?_
  by_cases e : x.psd = .SECT
  · have hn := (hx.sect e).2
    simp only [if_pos e]
    refine .ite .rfl ?_
    exact .bind (.sum fun k hk => ix h (by omega)) fun _ => .bind (.sum fun k hk => .bind (ix h (by omega)) fun _ => .rfl) fun _ => .rfl
  · simp only [if_neg e]
    exact .rfl

theorem grow (h : Near b n z s.sootVar) {x : Ctx} (hx : CtxFit n x s) (g : Grow) : Rel b (g.rate x s) (g.rate x (sv z s)) := by
  unfold Grow.rate
  rcases g.mech <;> simp only []
  case HACA => exact .bind (hmom01 h hx) fun _ => .rfl
  case NONE | LIN => exact .rfl
  all_goals exact .bind (mom01 h hx) fun _ => .rfl

theorem oxid (h : Near b n z s.sootVar) {x : Ctx} (hx : CtxFit n x s) (o : Oxid) : Rel b (o.rate x s) (o.rate x (sv z s)) := by
  unfold Oxid.rate
  rcases o.cls <;> simp only []
  case HACA | MB => exact .bind (mom01 h hx) fun _ => .rfl
  all_goals exact .rfl

theorem pahLoop_sv (pre : ℝ) (l : List PahSp) (a : PahAcc) : pahLoop (sv z s) pre l a = pahLoop s pre l a := by
  induction l generalizing a with
  | nil => rfl
  | cons x l ih => simp only [pahLoop, ih]; rfl

theorem nucl {ib : State → ℝ → Res ℝ} (m : Nucl) (hib : ∀ c mD, Rel b (ib { s with cMin := c } mD) (ib (sv z { s with cMin := c }) mD)) :
    RelF b (fun p : ℝ × Nucl × State => (p.1, p.2.1, sv z p.2.2)) (m.rate ib s) (m.rate ib (sv z s)) := by
  unfold Nucl.rate
  rcases m.mech <;> simp only []
  case PAH =>
    unfold nuclPAH
    refine .ofRel .rfl fun pre _ => .ofRel (.inr (pahLoop_sv _ _ _)) fun a0 _ => .ofRel .rfl fun h2 _ => .ofRel .rfl fun m16 _ => ?_
    exact .ofRel (hib _ _) fun I _ => .inr (by simp only [Pure.map'_bind, map'_ok]; rfl)
  case NONE => exact .inr rfl
  all_goals exact .inr (by simp only [Pure.map'_bind, map'_ok]; rfl)

variable (h : Near b n z s.sootVar) (m : Model) (hx : CtxFit n m.ctx s)
include h hx

theorem grow' (c : ℝ) : Rel b (m.grow.rate m.ctx { s with cMin := c }) (m.grow.rate m.ctx (sv z { s with cMin := c })) :=
  grow (s := { s with cMin := c }) h ⟨hx.two, hx.sect⟩ _
theorem oxid' (c : ℝ) : Rel b (m.oxid.rate m.ctx { s with cMin := c }) (m.oxid.rate m.ctx (sv z { s with cMin := c })) :=
  oxid (s := { s with cMin := c }) h ⟨hx.two, hx.sect⟩ _

theorem monoT (M0 M1 : ℝ) : RelF b (fun r : MonoTerms => { r with st := sv z r.st }) (monoTerms m M0 M1 s) (monoTerms m M0 M1 (sv z s)) := by
  unfold monoTerms
  refine .bind (nucl (ib := ibetaNodes m.coag) m.nucl fun _ _ => .rfl) ?_
  rintro ⟨j, n, s'⟩ e
  obtain ⟨c, rfl⟩ := nucl_state e
  exact .ofRel (grow' h m hx _) fun kG _ => .ofRel (oxid' h m hx _) fun kO _ => .inr (by simp only [Pure.map'_bind, map'_ok]; rfl)

theorem momicT (T : Tri) (P Q : List ℝ) :
    RelF b (fun r : MomTerms => { r with st := sv z r.st }) (momicTerms m T P Q s) (momicTerms m T P Q (sv z s)) := by
  have := hx.two
  unfold momicTerms
  refine .bind (nucl (ib := momicIbeta m P Q) m.nucl fun _ _ => .rfl) ?_
  rintro ⟨j, n, s'⟩ e
  obtain ⟨c, rfl⟩ := nucl_state e
  refine .ofRel (grow' h m hx _) fun kG _ => .ofRel (oxid' h m hx _) fun kO _ => .ofRel .rfl fun _ _ => .ofRel .rfl fun _ _ =>
    .ofRel .rfl fun _ _ => .ofRel (.ite ?_ .rfl) fun _ _ => .inr rfl
  exact .bind (ix h (by omega)) fun _ => .rfl

theorem hmomT (r : Option ℝ) (N : ℕ) (N0 mN : ℝ) (M : List ℝ) (T : Tri) (P Q : List ℝ) :
    RelF b (fun r : MomTerms => { r with st := sv z r.st }) (hmomTerms r m N N0 mN M T P Q s) (hmomTerms r m N N0 mN M T P Q (sv z s)) := by
  unfold hmomTerms
  refine .bind (nucl (ib := hmomIbeta m N0 P Q) m.nucl fun _ _ => .rfl) ?_
  rintro ⟨j, n, s'⟩ e
  obtain ⟨c, rfl⟩ := nucl_state e
  exact .ofRel (grow' h m hx _) fun kG _ => .ofRel (oxid' h m hx _) fun kO _ => .inr (by simp only [Pure.map'_bind, map'_ok]; rfl)

theorem lognT (h3 : 3 ≤ n) : RelF b (fun r : LognTerms => { r with st := sv z r.st }) (lognTerms m s) (lognTerms m (sv z s)) := by
  unfold lognTerms
  refine .ofRel (ix h (by omega)) fun M0 _ => .ofRel (ix h (by omega)) fun M1 _ => .ofRel (ix h (by omega)) fun M2 _ =>
    .ofRel .rfl fun A _ => .ofRel .rfl fun B _ => ?_
  refine .bind (nucl (ib := lognIbeta m) m.nucl fun c mD => .ite .rfl ?_) ?_
  · exact .bind (ix h (by omega)) fun M0 => .bind (ix h (by omega)) fun M1 => .bind (ix h (by omega)) fun M2 => .rfl
  rintro ⟨j, n, s'⟩ e
  obtain ⟨c, rfl⟩ := nucl_state e
  refine .ofRel .rfl ?_
  rintro ⟨q1, q2⟩ _
  refine .ofRel (.ite (.bind (grow' h m hx _) fun _ => .rfl) .rfl) ?_
  rintro ⟨g1, g2⟩ _
  refine .ofRel (.ite (.bind (oxid' h m hx _) fun _ => .rfl) .rfl) ?_
  rintro ⟨x1, x2⟩ _
  exact .inr (by simp only [Pure.map'_bind, map'_ok]; rfl)

omit hx in
theorem coagL {N : ℕ} (hN : N ≤ n) (B : List ℝ) (c : Coag) (f : ℝ) (l : List (ℕ × ℕ)) (hl : ∀ p ∈ l, p.1 < N ∧ p.2 < N) (S : ℕ → ℝ) :
    Rel b (coagLoop N B c s f l S) (coagLoop N B c (sv z s) f l S) := by
  induction l generalizing S with
  | nil => exact .rfl
  | cons p l ih =>
    obtain ⟨i, j⟩ := p
    have hp := hl (i, j) (by simp)
    refine .bind ?_ fun S => ih (fun p hp => hl p (by simp [hp])) S
    unfold coagPair
    exact .bind .rfl fun _ => .bind .rfl fun _ => .bind .rfl fun _ => .bind (ix h (by omega)) fun _ => .bind (ix h (by omega)) fun _ => .rfl

theorem sectT (g : Option ℝ) (hn : m.nsoot ≤ n) :
    RelF b (fun r : SectTerms => { r with st := sv z r.st }) (sectTerms m g s) (sectTerms m g (sv z s)) := by
  unfold sectTerms
  refine .bind (nucl (ib := sectIbeta m) m.nucl fun c mD => ?_) ?_
  · exact .bind .rfl fun _ => .bind (.tab fun k hk => ix h (by omega)) fun _ => .rfl
  rintro ⟨j, n', s'⟩ e
  obtain ⟨c, rfl⟩ := nucl_state e
  refine .ofRel (grow' h m hx _) fun kG _ => .ofRel (oxid' h m hx _) fun kO _ => .ofRel .rfl fun nuc _ => ?_
  refine .ofRel (.tab fun k hk => .bind .rfl fun _ => .bind .rfl fun _ => .bind (ix h (by omega)) fun _ => .rfl) fun A _ => ?_
  refine .ofRel .rfl fun grw _ => ?_
  refine .ofRel (.ite (.bind .rfl fun _ => .bind (.tab fun k hk => ix h (by omega)) fun _ => .rfl) .rfl) fun cnd _ => ?_
  refine .ofRel .rfl fun oxi _ => ?_
  refine .ofRel (.ite (.bind .rfl fun f => .bind (coagL (s := { s with cMin := c }) h hn _ _ _ _ (fun p hp => ?_) _) fun _ => .rfl) .rfl) ?_
  · have := mem_pairs.mp (show (p.1, p.2) ∈ pairs m.nsoot from hp)
    omega
  rintro ⟨coa, g'⟩ _
  exact .inr rfl

theorem mono : RelF b (fun r : Model × State => (r.1, sv z r.2)) (monoSources m s) (monoSources m (sv z s)) := by
  have h2 := hx.two
  have nd : RelF b (fun r : ℝ × ℝ × State => (r.1, r.2.1, sv z r.2.2)) (monoNodes s) (monoNodes (sv z s)) := by
    unfold monoNodes
    refine .ofRel (ix h (by omega)) fun M0 _ => .ofRel (ix h (by omega)) fun M1 _ => .inr ?_
    by_cases h0 : M0 > 0
    · simp only [if_pos h0, Pure.map'_bind]; rfl
    · simp only [if_neg h0]; rfl
  unfold monoSources
  refine .bind nd ?_
  rintro ⟨M0, M1, s'⟩ e
  obtain ⟨w, a, rfl⟩ := GasLen.nodes e
  have hT := monoT (s := { s with wts := w, absc := a }) h m ⟨hx.two, hx.sect⟩ M0 M1
  rcases ht : m.tar <;> simp only []
  · exact .bind hT fun t _ => .inr (by simp only [Pure.map'_bind, map'_ok])
  · refine .ofRel .rfl fun N0 _ => .bind hT fun t he => ?_
    obtain ⟨c, er⟩ := monoTerms_st he
    have h3 : Near b n z t.st.sootVar := by rw [er]; exact h
    refine .ofRel .rfl fun _ _ => .ofRel .rfl fun _ _ => .ofRel ?_ fun _ _ => .inr (by simp only [Pure.map'_bind, map'_ok]; rfl)
    unfold ajDeposition
    exact .bind .rfl fun _ => .bind (ix h3 (by omega)) fun _ => .bind (ix h3 (by omega)) fun _ => .rfl
  · refine .ofRel .rfl fun N0 _ => .bind hT fun t he => ?_
    exact .inr (by simp only [Pure.map'_bind, map'_ok]; rfl)

omit hx in
theorem table (N : ℕ) (hN : N ≤ n) : Rel b (setDiffTable ⟨N, fun _ _ => none⟩ s.sootVar) (setDiffTable ⟨N, fun _ _ => none⟩ z) := by
  unfold setDiffTable
  exact .bind (.for fun k hk x => .bind (ix h (show k < n by have : k < N := hk; omega)) fun _ => .rfl) fun _ => .rfl

theorem all (eig : Eig) (g : Option ℝ) (hq : m.psd ≠ .QMOM) (hn : sootNeed m ≤ n) :
    RelF b (fun r : Model × State × Option ℝ => (r.1, sv z r.2.1, r.2.2)) (sourceTerms eig m g s) (sourceTerms eig m g (sv z s)) := by
  unfold sourceTerms
  rcases hp : m.psd <;> simp only [sootNeed, hp] at hn ⊢
  case NONE => exact .inr rfl
  case QMOM => exact absurd hp hq
  case MONO => exact .bind (mono h m hx) fun _ _ => .inr rfl
  case LOGN =>
    refine .bind (f := fun r : Model × State => (r.1, sv z r.2)) ?_ fun _ _ => .inr rfl
    exact .bind (lognT h m hx hn) fun t _ => .inr (by simp only [Pure.map'_bind, map'_ok])
  case MOMIC =>
    refine .bind (f := fun r : Model × State => (r.1, sv z r.2)) ?_ fun _ _ => .inr rfl
    refine .ofRel (table h _ hn) fun T _ => .ofRel .rfl fun P _ => .ofRel .rfl fun Q _ => ?_
    exact .bind (momicT h m hx T P Q) fun t _ => .inr (by simp only [momFinish, Pure.map'_bind, map'_ok])
  case HMOM =>
    have := hx.two
    refine .bind (f := fun r : Model × State => (r.1, sv z r.2)) ?_ fun _ _ => .inr rfl
    refine .ofRel (ix h (by omega)) fun N0 _ => .ofRel (.bind (.tab fun k hk => .bind (ix h (by omega)) fun _ => .rfl) fun _ => .rfl) fun M _ =>
      .ofRel .rfl fun T _ => .ofRel .rfl fun P _ => .ofRel .rfl fun Q _ => ?_
    exact .bind (hmomT h m hx _ _ _ _ _ _ _ _) fun t _ => .inr (by simp only [momFinish, Pure.map'_bind, map'_ok])
  case SECT => exact .bind (sectT h m hx g hn) fun t _ => .inr (by simp only [Pure.map'_bind, map'_ok])

end

theorem forLoop_reads {σ : Type} {M : List ℝ} {N : ℕ} {f : ℕ → ℝ → σ → Res σ} {x y : σ}
    (h : forLoop N (fun k t => idx M k >>= fun v => f k v t) x = ok y) : N ≤ M.length := by
  cases N with
  | zero => omega
  | succ N =>
    simp only [forLoop, bind_eq_ok] at h
    obtain ⟨_, _, _, h, _⟩ := h
    exact (idx_inv h).1

end SootLen

/-- **C118.**  The sources are a function of the first `sootNeed` soot values: two, three, or as many as the model was made for.  Other values in
the vector have no influence on the source terms, on the model object afterwards and on how an evaluation fails. -/
theorem C118_only_first (eig : Eig) (m : Model) (glob : Option ℝ) (s : State) (z : List ℝ) (hq : m.psd ≠ .QMOM) (h2 : 2 ≤ sootNeed m)
    (hs : m.psd = .SECT → s.nsoot ≤ m.nsoot) (hz : ∀ i < sootNeed m, z[i]? = s.sootVar[i]?) :
    sourceTerms eig m glob { s with sootVar := z } = map' (fun r => (r.1, { r.2.1 with sootVar := z }, r.2.2)) (sourceTerms eig m glob s) := by
  have hx : SootLen.CtxFit (sootNeed m) m.ctx s := ⟨h2, fun e => by
    have e' : m.psd = .SECT := e
    simp only [sootNeed, e']
    exact ⟨le_rfl, hs e'⟩⟩
  rcases SootLen.all (b := False) (z := z) (fun i hi => .inr (hz i hi)) m hx eig glob hq le_rfl with h | h
  · exact h.1.elim
  · exact h

/-- **C118, any state.**  Cutting the soot vector changes the outcome in one way only: an array is read outside its bounds. -/
theorem C118_same_or_ub (eig : Eig) (m : Model) (glob : Option ℝ) (s : State) (k : ℕ) (hq : m.psd ≠ .QMOM) (h2 : 2 ≤ sootNeed m)
    (hs : m.psd = .SECT → s.nsoot ≤ m.nsoot) :
    sourceTerms eig m glob { s with sootVar := s.sootVar.take k } = ub ∨
    sourceTerms eig m glob { s with sootVar := s.sootVar.take k } =
      map' (fun r => (r.1, { r.2.1 with sootVar := s.sootVar.take k }, r.2.2)) (sourceTerms eig m glob s) := by
  have hx : SootLen.CtxFit (sootNeed m) m.ctx s := ⟨h2, fun e => by
    have e' : m.psd = .SECT := e
    simp only [sootNeed, e']
    exact ⟨le_rfl, hs e'⟩⟩
  rcases SootLen.all (b := True) (z := s.sootVar.take k) (fun i _ => by
    by_cases h : i < k
    · exact .inr (List.getElem?_take_of_lt h)
    · exact .inl ⟨trivial, List.getElem?_eq_none ((List.length_take_le _ _).trans (not_lt.mp h))⟩) m hx eig glob hq le_rfl with h | h
  · exact .inl h.2
  · exact .inr h

/-- **C118, the other direction.**  If `setSourceTerms` returns, the soot vector has all these values. -/
theorem C118_returns_only_if_long (eig : Eig) (m : Model) (glob : Option ℝ) (s : State) (r : Model × State × Option ℝ) (hq : m.psd ≠ .QMOM)
    (h : sourceTerms eig m glob s = ok r) : sootNeed m ≤ s.sootVar.length := by
  unfold sourceTerms at h
  unfold sootNeed
  rcases hp : m.psd <;> simp only [hp] at h ⊢
  case NONE => cases h
  case QMOM => exact absurd hp hq
  case MONO =>
    simp only [monoSources, monoNodes, bind_eq_ok] at h
    obtain ⟨_, ⟨_, ⟨_, _, _, h, _⟩, _⟩, _⟩ := h
    exact (idx_inv h).1
  case LOGN =>
    simp only [lognSources, lognTerms, bind_eq_ok] at h
    obtain ⟨_, ⟨_, ⟨_, _, _, _, _, h, _⟩, _⟩, _⟩ := h
    exact (idx_inv h).1
  case MOMIC =>
    simp only [momicSources, setDiffTable, bind_eq_ok] at h
    obtain ⟨_, ⟨_, ⟨_, h, _⟩, _⟩, _⟩ := h
    exact SootLen.forLoop_reads (f := fun k x (T : Tri) => T.set k 0 (olog10 x)) h
  case HMOM =>
    simp only [hmomSources, hmomSourcesAt, bind_eq_ok] at h
    obtain ⟨_, ⟨_, h, _⟩, _⟩ := h
    have := (idx_inv h).1
    omega
  case SECT =>
    simp only [sectSources, sectTerms, bind_eq_ok] at h
    obtain ⟨_, ⟨⟨_, _, _⟩, h1, _, _, _, _, _, _, _, h, _⟩, _⟩ := h
    obtain ⟨c, rfl⟩ := nucl_state h1
    rcases Nat.eq_zero_or_pos m.nsoot with e | e
    · omega
    have := (tabLoop_inv h).1 (m.nsoot - 1) (by omega)
    simp only [bind_eq_ok] at this
    obtain ⟨_, _, _, _, _, this, _⟩ := this
    have := (idx_inv this).1
    omega

/-- **C118, exactly.**  Take a state on which the source terms return, and cut its soot vector after `k` values.  With `sootNeed` values or more
the result is the same; with fewer an array is read outside its bounds. -/
theorem C118_exact (eig : Eig) (m : Model) (glob : Option ℝ) (s : State) (r : Model × State × Option ℝ) (k : ℕ) (hq : m.psd ≠ .QMOM)
    (h2 : 2 ≤ sootNeed m) (hs : m.psd = .SECT → s.nsoot ≤ m.nsoot) (h : sourceTerms eig m glob s = ok r) :
    sourceTerms eig m glob { s with sootVar := s.sootVar.take k } =
      if sootNeed m ≤ k then ok (r.1, { r.2.1 with sootVar := s.sootVar.take k }, r.2.2) else ub := by
  split_ifs with hk
  · rw [C118_only_first eig m glob s _ hq h2 hs fun i hi => List.getElem?_take_of_lt (by omega), h]
    rfl
  · rcases C118_same_or_ub eig m glob s k hq h2 hs with e | e
    · exact e
    rw [h] at e
    have := C118_returns_only_if_long eig m glob _ _ hq e
    have l : (s.sootVar.take k).length ≤ k := List.length_take_le k s.sootVar
    exact absurd (this.trans l) hk

/-- Every model that a constructor delivers needs two soot values or more. -/
theorem C118_built (psd : PsdMech) (nsoot : ℕ) (n : Nucl) (g : Grow) (o : Oxid) (c : Coag) (Ntar : ℕ) (t : TarMech) (m : Model)
    {F : ℝ} {cMin : ℤ} (hnew : Model.newPtr psd nsoot n g o c Ntar t F cMin = ok m) (hp : psd ≠ .NONE) : 2 ≤ sootNeed m := by
  simp only [Model.newPtr, bind_eq_ok] at hnew
  obtain ⟨_, h1, h2⟩ := hnew
  simp only [ok.injEq] at h2
  subst h2
  cases psd <;> simp only [sootNeed, ctorCheck] at h1 ⊢
  case NONE => exact absurd rfl hp
  case MONO => exact le_rfl
  case LOGN => omega
  all_goals
    by_contra a
    rw [if_pos (by omega)] at h1
    cases h1

/-- Four sections, LL nucleation, HACA growth, NSC oxidation and Fuchs coagulation: the four values are needed. -/
example (eig : Eig) : ∃ r, sourceTerms eig (exModel .SECT 4 .LL .HACA .NSC_NEOH .FUCHS) none (exSt [1E15, 1E14, 1E13, 0] false) = ok r ∧
    sourceTerms eig (exModel .SECT 4 .LL .HACA .NSC_NEOH .FUCHS) none
      { exSt [1E15, 1E14, 1E13, 0] false with sootVar := (exSt [1E15, 1E14, 1E13, 0] false).sootVar.take 3 } = ub := by
  have hr := exSectReady 4 .LL (by simp) (by simp) .HACA .NSC_NEOH .FUCHS [1E15, 1E14, 1E13, 0] false rfl (by norm_num) (by norm_num)
  obtain ⟨m', s', glob', _, _, _, _, _, _, h, _⟩ := C37_C38_sect _ _ none hr (exGlobOk 4 .LL .HACA .NSC_NEOH .FUCHS (by norm_num) (by norm_num))
  have h' : sourceTerms eig (exModel .SECT 4 .LL .HACA .NSC_NEOH .FUCHS) none (exSt [1E15, 1E14, 1E13, 0] false) = ok (m', s', glob') := h
  refine ⟨_, h', ?_⟩
  rw [C118_exact eig _ none _ _ 3 (by simp [exModel]) (by simp [exModel, sootNeed]) (fun _ => by simp [exSt_nsoot, exModel]) h',
    if_neg (by simp [exModel, sootNeed])]

end Soot
