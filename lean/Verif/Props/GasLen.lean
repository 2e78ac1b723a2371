import Verif.Props.Reads
import Verif.Props.Orders
import Verif.Props.Hmom

/-!
# C117: how long the gas vector has to be

`setState` copies the vector of gas mass fractions without looking at its size, and the mechanisms index it by species.  The source terms
return only if the vector reaches every species that the mechanisms read, and a vector that does is long enough.
-/

namespace Soot

open Res Real
open scoped Classical

/-! ## Specification -/

/-- The vector has an entry for each of the species. -/
def Reaches (y : List ℝ) (l : List GasSp) : Prop := ∀ sp ∈ l, sp.toNat < y.length

/-- There is soot with mass where the growth mechanism looks at acetylene only on an existing surface (LL, FAIR and MB). -/
def SurfaceIfNeeded (m : Model) (s : State) : Prop :=
  m.grow.mech = .LL ∨ m.grow.mech = .FAIR ∨ m.grow.mech = .MB → Sized m.ctx s ∧ 0 < numOf m.ctx s ∧ 0 < massOf m.ctx s

namespace GasLen

section
variable {s : State}

theorem gasC {sp : GasSp} {c : ℝ} (h : s.gasC sp = ok c) : sp.toNat < s.yGas.length := by
  simp only [State.gasC, bind_eq_ok] at h
  obtain ⟨_, h, _⟩ := h
  exact (idx_inv h).1

theorem gasP {sp : GasSp} {c : ℝ} (h : s.gasP sp = ok c) : sp.toNat < s.yGas.length := by
  simp only [State.gasP, bind_eq_ok] at h
  obtain ⟨_, h, _⟩ := h
  exact (idx_inv h).1

theorem haca {r : HacaRates} (h : hacaRates s = ok r) : Reaches s.yGas (growReads .HACA) := by
  simp only [hacaRates, bind_eq_ok] at h
  obtain ⟨_, _, _, h1, _, _, _, h2, _, _, _, _, _, h3, _, _, _, _, _, h4, _, _, _, _, _, h5, _, _, _, h6, _⟩ := h
  intro sp hs
  simp only [growReads, List.mem_cons, List.not_mem_nil, or_false] at hs
  rcases hs with rfl | rfl | rfl | rfl | rfl | rfl
  exacts [gasC h1, gasC h2, gasC h3, gasC h4, gasC h5, gasC h6]

theorem oh {c k : ℝ} (h : ohRate c s = ok k) : GasSp.OH.toNat < s.yGas.length := by
  simp only [ohRate, bind_eq_ok] at h
  obtain ⟨_, h, _⟩ := h
  exact gasC h

theorem nucl {n : Nucl} {ib : State → ℝ → Res ℝ} {r : ℝ × Nucl × State} (h : n.rate ib s = ok r) :
    Reaches s.yGas (nuclReads n.mech) := by
  intro sp hs
  unfold Nucl.rate at h
  rcases he : n.mech <;> simp only [he, nuclReads, List.mem_cons, List.not_mem_nil, or_false] at h hs <;> subst hs <;>
    simp only [bind_eq_ok] at h <;> obtain ⟨_, _, _, h, _⟩ := h <;> exact gasC h

theorem grow {g : Grow} {x : Ctx} {k : ℝ} (h : g.rate x s = ok k)
    (hs : g.mech = .LL ∨ g.mech = .FAIR ∨ g.mech = .MB → Sized x s ∧ 0 < numOf x s ∧ 0 < massOf x s) :
    Reaches s.yGas (growReads g.mech) := by
  have area : (Sized x s ∧ 0 < numOf x s ∧ 0 < massOf x s) → ∃ A, 0 < A ∧ areaMono (numOf x s) (massOf x s) = ok A ∧
      moments01 x s = ok (numOf x s, massOf x s) := fun ⟨a, b, c⟩ =>
    ⟨_, (areaMono_pos_ok b c).2, (areaMono_pos_ok b c).1, moments01_ok a⟩
  unfold Grow.rate at h
  rcases he : g.mech <;> simp only [he] at h hs
  case NONE => intro sp hs; simp [growReads] at hs
  case HACA =>
    simp only [bind_eq_ok] at h
    obtain ⟨_, _, _, h, _⟩ := h
    exact haca h
  case LIN =>
    simp only [bind_eq_ok] at h
    obtain ⟨_, _, _, h, _⟩ := h
    intro sp hs
    simp only [growReads, List.mem_cons, List.not_mem_nil, or_false] at hs
    subst hs; exact gasC h
  all_goals
    obtain ⟨A, hA, e1, e2⟩ := area (hs (by simp))
    simp only [e1, e2, ok_bind, if_pos (show A > 0 from hA), bind_eq_ok] at h
    intro sp hs
    simp only [growReads, List.mem_cons, List.not_mem_nil, or_false] at hs
    subst hs
    first
    | (obtain ⟨_, _, _, h, _⟩ := h; exact gasC h)
    | (obtain ⟨_, h, _⟩ := h; exact gasC h)

theorem oxid {o : Oxid} {x : Ctx} {k : ℝ} (h : o.rate x s = ok k) : Reaches s.yGas (oxidReads o.cls) := by
  unfold Oxid.rate at h
  intro sp hs
  rcases he : o.cls <;> simp only [he] at h hs
  case HACA =>
    simp only [bind_eq_ok] at h
    obtain ⟨_, _, _, h, _⟩ := h
    exact haca h sp hs
  all_goals simp only [oxidReads, List.mem_cons, List.not_mem_nil, or_false] at hs
  case LL | FAIR =>
    simp only [bind_eq_ok] at h
    obtain ⟨_, _, _, _, _, h, _⟩ := h
    subst hs; exact gasC h
  case MB =>
    simp only [bind_eq_ok] at h
    obtain ⟨_, _, _, h, _⟩ := h
    subst hs; exact gasC h
  case BROWN =>
    simp only [bind_eq_ok] at h
    obtain ⟨_, h, _⟩ := h
    subst hs; exact gasP h
  case AJ_RED =>
    simp only [bind_eq_ok] at h
    obtain ⟨_, _, _, _, _, h1, _, _, _, h2, _⟩ := h
    rcases hs with rfl | rfl
    exacts [gasP h1, gasP h2]
  case NSC_NEOH =>
    simp only [bind_eq_ok] at h
    obtain ⟨_, h1, _, h2, _⟩ := h
    rcases hs with rfl | rfl
    exacts [gasP h1, gasP h2]
  all_goals
    simp only [bind_eq_ok] at h
    obtain ⟨_, h1, _, _, _, _, _, _, _, h2, _⟩ := h
    rcases hs with rfl | rfl
    exacts [gasP h1, oh h2]

/-- The three rates of one evaluation. -/
theorem three {m : Model} {ib : State → ℝ → Res ℝ} {s' : State} {j : ℝ} {n : Nucl} (hs : SurfaceIfNeeded m s)
    (h1 : m.nucl.rate ib s = ok (j, n, s')) (h2 : m.grow.mech ≠ .NONE → ∃ k, m.grow.rate m.ctx s' = ok k)
    (h3 : m.oxid.cls ≠ .NONE → ∃ k, m.oxid.rate m.ctx s' = ok k) :
    Reaches s.yGas (nuclReads m.nucl.mech ++ growReads m.grow.mech ++ oxidReads m.oxid.cls) := by
  obtain ⟨c, rfl⟩ := nucl_state h1
  intro sp h
  simp only [List.mem_append] at h
  rcases h with (h | h) | h
  · exact nucl h1 sp h
  · have g : m.grow.mech ≠ .NONE := fun e => by simp [e, growReads] at h
    obtain ⟨k, hk⟩ := h2 g
    refine grow hk (fun e => ?_) sp h
    obtain ⟨a, b, d⟩ := hs e
    exact ⟨⟨a.two, a.sect, a.bins⟩, b, d⟩
  · have g : m.oxid.cls ≠ .NONE := fun e => by simp [e, oxidReads] at h
    obtain ⟨k, hk⟩ := h3 g
    exact oxid hk sp h

theorem nodes {M0 M1 : ℝ} {s1 : State} (e : monoNodes s = ok (M0, M1, s1)) : ∃ w a, s1 = { s with wts := w, absc := a } := by
  simp only [monoNodes, bind_eq_ok] at e
  obtain ⟨x, _, z, _, e⟩ := e
  by_cases h0 : x > 0
  · simp only [if_pos h0, bind_eq_ok] at e
    obtain ⟨w, _, a, _, e⟩ := e
    simp only [ok.injEq, Prod.mk.injEq] at e
    exact ⟨w, a, e.2.2.symm⟩
  · simp only [if_neg h0, ok.injEq, Prod.mk.injEq] at e
    exact ⟨s.wts, s.absc, e.2.2.symm⟩

theorem surf_upd {m : Model} (hs : SurfaceIfNeeded m s) (w a : List ℝ) : SurfaceIfNeeded m { s with wts := w, absc := a } := fun e => by
  obtain ⟨x, b, d⟩ := hs e
  exact ⟨⟨x.two, x.sect, x.bins⟩, b, d⟩

theorem mono {m : Model} {r : Model × State} (hs : SurfaceIfNeeded m s) (h : monoSources m s = ok r) :
    Reaches s.yGas (reads m.nucl.mech m.grow.mech m.oxid.cls m.tar) := by
  simp only [monoSources, bind_eq_ok] at h
  obtain ⟨⟨M0, M1, s1⟩, h1, h⟩ := h
  obtain ⟨w, a, rfl⟩ := nodes h1
  have base : ∀ {t : MonoTerms}, monoTerms m M0 M1 { s with wts := w, absc := a } = ok t →
      Reaches s.yGas (nuclReads m.nucl.mech ++ growReads m.grow.mech ++ oxidReads m.oxid.cls) := by
    intro t ht
    obtain ⟨_, _, _, _, _, e1, e2, e3, _⟩ := monoTerms_inv ht
    exact three (s := { s with wts := w, absc := a }) (surf_upd hs w a) e1 (fun _ => ⟨_, e2⟩) fun _ => ⟨_, e3⟩
  intro sp hsp
  rcases List.mem_append.mp hsp with hsp | hsp
  · rcases hm : m.tar <;> simp only [hm, bind_eq_ok] at h
    · obtain ⟨t, ht, _⟩ := h; exact base ht sp hsp
    · obtain ⟨_, _, t, ht, _⟩ := h; exact base ht sp hsp
    · obtain ⟨_, _, t, ht, _⟩ := h; exact base ht sp hsp
  · rcases hm : m.tar <;> simp only [hm, bind_eq_ok] at h hsp
    · simp [tarReads] at hsp
    · obtain ⟨_, _, t, ht, _, hc, _, hg, _⟩ := h
      obtain ⟨c, hst⟩ := monoTerms_st ht
      rw [hst] at hc hg
      simp only [ajCracking, bind_eq_ok] at hc
      obtain ⟨_, _, _, _, _, _, _, _, _, _, _, hc, _⟩ := hc
      simp only [ajSurface, bind_eq_ok] at hg
      obtain ⟨_, h1, _, _, _, _, _, h2, _⟩ := hg
      simp only [tarReads, List.mem_cons, List.not_mem_nil, or_false] at hsp
      rcases hsp with rfl | rfl | rfl
      exacts [gasC hc, gasP h1, gasP h2]
    · obtain ⟨_, _, t, ht, _, hc, _⟩ := h
      obtain ⟨c, hst⟩ := monoTerms_st ht
      rw [hst] at hc
      simp only [brownCracking, bind_eq_ok] at hc
      obtain ⟨_, hc, _⟩ := hc
      simp only [tarReads, List.mem_cons, List.not_mem_nil, or_false] at hsp
      subst hsp
      exact gasC hc

end



/-! ## Cutting the vector -/

/-- The second evaluation is the first one or reads outside an array. -/
def Le {α : Type} (x y : Res α) : Prop := y = ub ∨ y = x

/-- The same with the results related by `f`. -/
def Cut {α β : Type} (f : α → β) (x : Res α) (y : Res β) : Prop := y = ub ∨ y = map' f x

section
variable {α β γ δ : Type}

theorem Le.rfl {x : Res α} : Le x x := .inr (Eq.refl x)

theorem Le.bind {x y : Res α} {k k' : α → Res β} (h : Le x y) (hk : ∀ a, Le (k a) (k' a)) : Le (x >>= k) (y >>= k') := by
  rcases h with rfl | rfl
  · exact .inl (ub_bind _)
  · cases y with
    | ok a => exact hk a
    | exn e => exact .inr (Eq.refl _)
    | ub => exact .inr (Eq.refl _)
    | nonfin => exact .inr (Eq.refl _)

theorem Le.ite {c : Prop} [Decidable c] {a b a' b' : Res α} (h : Le a a') (h' : Le b b') :
    Le (if c then a else b) (if c then a' else b') := by
  split_ifs
  exacts [h, h']

theorem Cut.ofLe {x y : Res α} {k : α → Res β} {k' : α → Res γ} {g : β → γ} (h : Le x y) (hk : ∀ a, x = ok a → Cut g (k a) (k' a)) :
    Cut g (x >>= k) (y >>= k') := by
  rcases h with rfl | rfl
  · exact .inl (ub_bind _)
  · cases y with
    | ok a => exact hk a (Eq.refl _)
    | exn e => exact .inr (Eq.refl _)
    | ub => exact .inr (Eq.refl _)
    | nonfin => exact .inr (Eq.refl _)

theorem Cut.bind {x : Res α} {y : Res β} {f : α → β} {k : α → Res γ} {k' : β → Res δ} {g : γ → δ} (h : Cut f x y)
    (hk : ∀ a, x = ok a → Cut g (k a) (k' (f a))) : Cut g (x >>= k) (y >>= k') := by
  rcases h with rfl | rfl
  · exact .inl (ub_bind _)
  · cases x with
    | ok a => exact hk a (Eq.refl _)
    | exn e => exact .inr (Eq.refl _)
    | ub => exact .inr (Eq.refl _)
    | nonfin => exact .inr (Eq.refl _)

end

open Reads

section
variable {s : State} {y : List ℝ}

/-- `y` is the front part of `z`. -/
def Front (y z : List ℝ) : Prop := ∀ i : ℕ, y[i]? = none ∨ y[i]? = z[i]?

theorem cIdx (h : Front y s.yGas) (i : ℕ) : Le (idx s.yGas i) (idx y i) := by
  rcases h i with e | e
  · exact .inl (by simp only [idx, e])
  · exact .inr (by simp only [idx, e])

theorem cC (h : Front y s.yGas) (sp : GasSp) : Le (s.gasC sp) ((gas y s).gasC sp) := .bind (cIdx h _) fun _ => .rfl
theorem cP (h : Front y s.yGas) (sp : GasSp) : Le (s.gasP sp) ((gas y s).gasP sp) := .bind (cIdx h _) fun _ => .rfl

macro "cut" h:term : tactic => `(tactic| repeat' first
  | exact cC $h _ | exact cP $h _ | exact Le.rfl | (refine Le.bind ?_ fun _ => ?_) | (refine Le.ite ?_ ?_))

theorem cOh (h : Front y s.yGas) (c : ℝ) : Le (ohRate c s) (ohRate c (gas y s)) := by
  unfold ohRate
  cut h

theorem cHaca (h : Front y s.yGas) : Le (hacaRates s) (hacaRates (gas y s)) := by
  unfold hacaRates
  cut h

theorem cGrow (h : Front y s.yGas) (g : Grow) (x : Ctx) : Le (g.rate x s) (g.rate x (gas y s)) := by
  unfold Grow.rate
  rcases g.mech <;> simp only []
  case HACA => exact .bind .rfl fun _ => .bind (cHaca h) fun _ => .rfl
  all_goals cut h

theorem cOxid (h : Front y s.yGas) (o : Oxid) (x : Ctx) : Le (o.rate x s) (o.rate x (gas y s)) := by
  unfold Oxid.rate
  rcases o.cls <;> simp only []
  case HACA => exact .bind .rfl fun _ => .bind (cHaca h) fun _ => .bind .rfl fun _ => .bind (cOh h _) fun _ => .rfl
  all_goals repeat' first
    | exact cC h _ | exact cP h _ | exact cOh h _ | exact Le.rfl | (refine Le.bind ?_ fun _ => ?_)

theorem cNucl (h : Front y s.yGas) {ib : State → ℝ → Res ℝ} (n : Nucl)
    (hib : ∀ c mD, ib (gas y { s with cMin := c }) mD = ib { s with cMin := c } mD) :
    Cut (fun p : ℝ × Nucl × State => (p.1, p.2.1, gas y p.2.2)) (n.rate ib s) (n.rate ib (gas y s)) := by
  by_cases hn : SameAt (nuclReads n.mech) y s.yGas
  · exact .inr (Reads.nucl n hn hib)
  unfold Nucl.rate
  unfold nuclReads SameAt at hn
  rcases he : n.mech <;> simp only [he] at hn ⊢
  case NONE | AJ_RED | BROWN | PAH => simp at hn
  case LL | LIN | LINA1 | FAIR =>
    exact .ofLe .rfl fun _ _ => .ofLe (cC h _) fun _ _ => .ofLe .rfl fun _ _ => .inr (Eq.refl _)
  case MB => exact .ofLe .rfl fun _ _ => .ofLe (cC h _) fun _ _ => .inr (Eq.refl _)

/-- What follows nucleation, growth and oxidation does not look at the gas. -/
theorem cGrow' (h : Front y s.yGas) (g : Grow) (x : Ctx) (c : ℝ) :
    Le (g.rate x { s with cMin := c }) (g.rate x (gas y { s with cMin := c })) := cGrow (s := { s with cMin := c }) h g x
theorem cOxid' (h : Front y s.yGas) (o : Oxid) (x : Ctx) (c : ℝ) :
    Le (o.rate x { s with cMin := c }) (o.rate x (gas y { s with cMin := c })) := cOxid (s := { s with cMin := c }) h o x

variable (h : Front y s.yGas) (m : Model)
include h

theorem cMonoT (M0 M1 : ℝ) : Cut (fun r : MonoTerms => { r with st := gas y r.st }) (monoTerms m M0 M1 s) (monoTerms m M0 M1 (gas y s)) := by
  unfold monoTerms
  refine .bind (cNucl h (ib := ibetaNodes m.coag) m.nucl fun _ _ => rfl) ?_
  rintro ⟨j, n, s'⟩ e
  obtain ⟨c, rfl⟩ := nucl_state e
  exact .ofLe (cGrow' h _ _ _) fun kG _ => .ofLe (cOxid' h _ _ _) fun kO _ => .inr (by simp only [Pure.map'_bind, map'_ok]; rfl)

theorem cQmomT : Cut (fun r : MomTerms => { r with st := gas y r.st }) (qmomTerms m s) (qmomTerms m (gas y s)) := by
  unfold qmomTerms
  refine .bind (cNucl h (ib := ibetaNodes m.coag) m.nucl fun _ _ => rfl) ?_
  rintro ⟨j, n, s'⟩ e
  obtain ⟨c, rfl⟩ := nucl_state e
  exact .ofLe (cGrow' h _ _ _) fun kG _ => .ofLe (cOxid' h _ _ _) fun kO _ => .inr (by simp only [Pure.map'_bind, map'_ok]; rfl)

theorem cMomicT (T : Tri) (P Q : List ℝ) :
    Cut (fun r : MomTerms => { r with st := gas y r.st }) (momicTerms m T P Q s) (momicTerms m T P Q (gas y s)) := by
  unfold momicTerms
  refine .bind (cNucl h (ib := momicIbeta m P Q) m.nucl fun _ _ => rfl) ?_
  rintro ⟨j, n, s'⟩ e
  obtain ⟨c, rfl⟩ := nucl_state e
  exact .ofLe (cGrow' h _ _ _) fun kG _ => .ofLe (cOxid' h _ _ _) fun kO _ => .inr (by simp only [Pure.map'_bind, map'_ok]; rfl)

theorem cHmomT (r : Option ℝ) (N : ℕ) (N0 mN : ℝ) (M : List ℝ) (T : Tri) (P Q : List ℝ) :
    Cut (fun r : MomTerms => { r with st := gas y r.st }) (hmomTerms r m N N0 mN M T P Q s) (hmomTerms r m N N0 mN M T P Q (gas y s)) := by
  unfold hmomTerms
  refine .bind (cNucl h (ib := hmomIbeta m N0 P Q) m.nucl fun _ _ => rfl) ?_
  rintro ⟨j, n, s'⟩ e
  obtain ⟨c, rfl⟩ := nucl_state e
  exact .ofLe (cGrow' h _ _ _) fun kG _ => .ofLe (cOxid' h _ _ _) fun kO _ => .inr (by simp only [Pure.map'_bind, map'_ok]; rfl)

theorem cSectT (g : Option ℝ) : Cut (fun r : SectTerms => { r with st := gas y r.st }) (sectTerms m g s) (sectTerms m g (gas y s)) := by
  unfold sectTerms
  refine .bind (cNucl h (ib := sectIbeta m) m.nucl fun _ _ => rfl) ?_
  rintro ⟨j, n, s'⟩ e
  obtain ⟨c, rfl⟩ := nucl_state e
  exact .ofLe (cGrow' h _ _ _) fun kG _ => .ofLe (cOxid' h _ _ _) fun kO _ => .inr (by
    simp only [Pure.map'_bind, map'_ok, sectCoag, coagLoop_gas]; rfl)

theorem cLognT : Cut (fun r : LognTerms => { r with st := gas y r.st }) (lognTerms m s) (lognTerms m (gas y s)) := by
  unfold lognTerms
  refine .ofLe .rfl fun M0 _ => .ofLe .rfl fun M1 _ => .ofLe .rfl fun M2 _ => .ofLe .rfl fun A _ => .ofLe .rfl fun B _ => ?_
  refine .bind (cNucl h (ib := lognIbeta m) m.nucl fun _ _ => rfl) ?_
  rintro ⟨j, n, s'⟩ e
  obtain ⟨c, rfl⟩ := nucl_state e
  refine .ofLe .rfl ?_
  rintro ⟨q1, q2⟩ _
  refine .ofLe (.ite (.bind (cGrow' h _ _ _) fun _ => .rfl) .rfl) ?_
  rintro ⟨g1, g2⟩ _
  refine .ofLe (.ite (.bind (cOxid' h _ _ _) fun _ => .rfl) .rfl) ?_
  rintro ⟨x1, x2⟩ _
  exact .inr (by simp only [Pure.map'_bind, map'_ok]; rfl)

theorem cCrack : Le (ajCracking s) (ajCracking (gas y s)) := by
  unfold ajCracking
  cut h

theorem cSurf : Le (ajSurface s) (ajSurface (gas y s)) := by
  unfold ajSurface
  cut h

theorem cBrown : Le (brownCracking s) (brownCracking (gas y s)) := by
  unfold brownCracking
  cut h

theorem cMono : Cut (fun r : Model × State => (r.1, gas y r.2)) (monoSources m s) (monoSources m (gas y s)) := by
  have n : monoNodes (gas y s) = map' (fun r => (r.1, r.2.1, gas y r.2.2)) (monoNodes s) := by
    simp only [monoNodes, Pure.map'_bind]
    refine congrArg _ (funext fun M0 => congrArg _ (funext fun M1 => ?_))
    by_cases h0 : M0 > 0
    · simp only [if_pos h0, Pure.map'_bind]; rfl
    · simp only [if_neg h0]; rfl
  unfold monoSources
  refine .bind (.inr n) ?_
  rintro ⟨M0, M1, s'⟩ e
  obtain ⟨w, a, rfl⟩ := nodes e
  have hT := cMonoT (s := { s with wts := w, absc := a }) h m M0 M1
  rcases ht : m.tar <;> simp only []
  · exact .bind hT fun t _ => .inr (by simp only [Pure.map'_bind, map'_ok])
  · refine .ofLe .rfl fun N0 _ => .bind hT fun t he => ?_
    obtain ⟨c, er⟩ := monoTerms_st he
    have h2 : Front y t.st.yGas := by rw [er]; exact h
    exact .ofLe (cCrack h2) fun _ _ => .ofLe (cSurf h2) fun _ _ => .inr (by simp only [Pure.map'_bind, map'_ok]; rfl)
  · refine .ofLe .rfl fun N0 _ => .bind hT fun t he => ?_
    obtain ⟨c, er⟩ := monoTerms_st he
    have h2 : Front y t.st.yGas := by rw [er]; exact h
    exact .ofLe (cBrown h2) fun _ _ => .inr (by simp only [Pure.map'_bind, map'_ok]; rfl)

theorem cAll (eig : Eig) (g : Option ℝ) : Cut (fun r : Model × State × Option ℝ => (r.1, gas y r.2.1, r.2.2)) (sourceTerms eig m g s)
    (sourceTerms eig m g (gas y s)) := by
  unfold sourceTerms
  rcases hp : m.psd <;> simp only []
  case NONE => exact .inl rfl
  case MONO => exact .bind (cMono h m) fun _ _ => .inr rfl
  case LOGN =>
    refine .bind (f := fun r : Model × State => (r.1, gas y r.2)) ?_ fun _ _ => .inr rfl
    exact .bind (cLognT h m) fun t _ => .inr (by simp only [Pure.map'_bind, map'_ok])
  case QMOM =>
    refine .bind (f := fun r : Model × State => (r.1, gas y r.2)) ?_ fun _ _ => .inr rfl
    refine .ofLe .rfl ?_
    rintro ⟨w, a⟩ _
    exact .bind (cQmomT (s := { s with wts := w, absc := a }) h m) fun t _ => .inr (by simp only [momFinish, Pure.map'_bind, map'_ok])
  case MOMIC =>
    refine .bind (f := fun r : Model × State => (r.1, gas y r.2)) ?_ fun _ _ => .inr rfl
    refine .ofLe .rfl fun T _ => .ofLe .rfl fun P _ => .ofLe .rfl fun Q _ => ?_
    exact .bind (cMomicT h m T P Q) fun t _ => .inr (by simp only [momFinish, Pure.map'_bind, map'_ok])
  case HMOM =>
    refine .bind (f := fun r : Model × State => (r.1, gas y r.2)) ?_ fun _ _ => .inr rfl
    refine .ofLe .rfl fun N0 _ => .ofLe .rfl fun M _ => .ofLe .rfl fun T _ => .ofLe .rfl fun P _ => .ofLe .rfl fun Q _ => ?_
    exact .bind (cHmomT h m _ _ _ _ _ _ _ _) fun t _ => .inr (by simp only [momFinish, Pure.map'_bind, map'_ok])
  case SECT => exact .bind (cSectT h m g) fun t _ => .inr (by simp only [Pure.map'_bind, map'_ok])

end

end GasLen

/-- **C117.**  If `setSourceTerms` returns, the gas vector reaches every species that the mechanisms of the model read; all classes. -/
theorem C117_returns_only_if_long (eig : Eig) (m : Model) (glob : Option ℝ) (s : State) (r : Model × State × Option ℝ) (hw : m.WF)
    (ht : m.psd ≠ .MONO → m.tar = .NONE) (hs : SurfaceIfNeeded m s) (h : sourceTerms eig m glob s = ok r) :
    Reaches s.yGas (reads m.nucl.mech m.grow.mech m.oxid.cls m.tar) := by
  unfold sourceTerms at h
  have notar : m.psd ≠ .MONO → Reaches s.yGas (nuclReads m.nucl.mech ++ growReads m.grow.mech ++ oxidReads m.oxid.cls) →
      Reaches s.yGas (reads m.nucl.mech m.grow.mech m.oxid.cls m.tar) := by
    intro hp a
    rw [ht hp, reads]
    simpa [tarReads] using a
  rcases hp : m.psd <;> simp only [hp] at h
  case NONE => cases h
  case MONO =>
    simp only [bind_eq_ok] at h
    obtain ⟨_, h, _⟩ := h
    exact GasLen.mono hs h
  all_goals apply notar (by simp [hp])
  case LOGN =>
    simp only [bind_eq_ok] at h
    obtain ⟨⟨_, _⟩, h, _⟩ := h
    obtain ⟨t, h, _⟩ := lognSources_inv h
    simp only [lognTerms, bind_eq_ok] at h
    obtain ⟨M0, _, M1, _, M2, _, M46, _, M106, _, ⟨j, n, s'⟩, h1, ⟨q1, q2⟩, _, ⟨g1, g2⟩, h3, ⟨x1, x2⟩, h4, _⟩ := h
    refine GasLen.three hs h1 (fun e => ?_) fun e => ?_
    · simp only [if_pos e, bind_eq_ok] at h3
      obtain ⟨k, hk, _⟩ := h3
      exact ⟨k, hk⟩
    · have e' : m.oxid.mechType ≠ .NONE := by
        rw [hw.oxid]
        show oxidMechType m.oxid.cls ≠ .NONE
        rcases he : m.oxid.cls <;> simp_all [oxidMechType]
      simp only [if_pos e', bind_eq_ok] at h4
      obtain ⟨k, hk, _⟩ := h4
      exact ⟨k, hk⟩
  case QMOM =>
    simp only [bind_eq_ok] at h
    obtain ⟨⟨_, _⟩, h, _⟩ := h
    obtain ⟨w, a, t, _, h, _⟩ := qmomSources_inv h
    simp only [qmomTerms, bind_eq_ok] at h
    obtain ⟨⟨j, n, s'⟩, h1, kG, h2, kO, h3, _⟩ := h
    exact GasLen.three (s := { s with wts := w, absc := a }) (GasLen.surf_upd hs w a) h1 (fun _ => ⟨_, h2⟩) fun _ => ⟨_, h3⟩
  case MOMIC =>
    simp only [bind_eq_ok] at h
    obtain ⟨⟨_, _⟩, h, _⟩ := h
    obtain ⟨T, P, Q, t, _, _, _, h, _⟩ := momicSources_inv h
    simp only [momicTerms, bind_eq_ok] at h
    obtain ⟨⟨j, n, s'⟩, h1, kG, h2, kO, h3, _⟩ := h
    exact GasLen.three hs h1 (fun _ => ⟨_, h2⟩) fun _ => ⟨_, h3⟩
  case HMOM =>
    simp only [bind_eq_ok] at h
    obtain ⟨⟨_, _⟩, h, _⟩ := h
    simp only [hmomSources, hmomSourcesAt, hmomTerms, bind_eq_ok] at h
    obtain ⟨_, _, _, _, _, _, _, _, _, _, _, ⟨⟨_, _, _⟩, h1, _, h2, _, h3, _⟩, _⟩ := h
    exact GasLen.three hs h1 (fun _ => ⟨_, h2⟩) fun _ => ⟨_, h3⟩
  case SECT =>
    simp only [sectSources, sectTerms, bind_eq_ok] at h
    obtain ⟨t, ⟨⟨j, n, s'⟩, h1, kG, h2, kO, h3, _⟩, _⟩ := h
    exact GasLen.three hs h1 (fun _ => ⟨_, h2⟩) fun _ => ⟨_, h3⟩

/-- **C117, any state.**  Cutting the gas vector changes the outcome in one way only: an array is read outside its bounds.  Otherwise the source
terms, or the failure, are those of the whole vector. -/
theorem C117_same_or_ub (eig : Eig) (m : Model) (glob : Option ℝ) (s : State) (k : ℕ) :
    sourceTerms eig m glob { s with yGas := s.yGas.take k } = ub ∨
    sourceTerms eig m glob { s with yGas := s.yGas.take k } =
      map' (fun r => (r.1, { r.2.1 with yGas := s.yGas.take k }, r.2.2)) (sourceTerms eig m glob s) :=
  GasLen.cAll (y := s.yGas.take k) (s := s) (fun i => by
    by_cases h : i < k
    · exact .inr (List.getElem?_take_of_lt h)
    · exact .inl (List.getElem?_eq_none ((List.length_take_le _ _).trans (not_lt.mp h)))) m eig glob

/-- **C117, the length that is needed and enough.**  Take a state on which the source terms return, and cut its gas vector after `k` entries.
If the species read are among the first `k`, the result is the same; if one of them is not, an array is read outside its bounds. -/
theorem C117_exact (eig : Eig) (m : Model) (glob : Option ℝ) (s : State) (r : Model × State × Option ℝ) (k : ℕ) (hw : m.WF)
    (ht : m.psd ≠ .MONO → m.tar = .NONE) (hs : SurfaceIfNeeded m s) (h : sourceTerms eig m glob s = ok r) :
    ((∀ sp ∈ reads m.nucl.mech m.grow.mech m.oxid.cls m.tar, sp.toNat < k) →
      sourceTerms eig m glob { s with yGas := s.yGas.take k } = ok (r.1, { r.2.1 with yGas := s.yGas.take k }, r.2.2)) ∧
    ((∃ sp ∈ reads m.nucl.mech m.grow.mech m.oxid.cls m.tar, k ≤ sp.toNat) →
      sourceTerms eig m glob { s with yGas := s.yGas.take k } = ub) := by
  refine ⟨fun a => ?_, fun ⟨sp, hsp, hk⟩ => ?_⟩
  · have e : SameAt (reads m.nucl.mech m.grow.mech m.oxid.cls m.tar) (s.yGas.take k) s.yGas := fun sp hsp =>
      List.getElem?_take_of_lt (a sp hsp)
    rw [C73_reads eig m glob s _ e, h]
    rfl
  · rcases C117_same_or_ub eig m glob s k with e | e
    · exact e
    rw [h] at e
    have hs' : SurfaceIfNeeded m { s with yGas := s.yGas.take k } := fun g => by
      obtain ⟨x, b, d⟩ := hs g
      exact ⟨⟨x.two, x.sect, x.bins⟩, b, d⟩
    have := C117_returns_only_if_long eig m glob _ _ hw ht hs' e sp hsp
    have l : (s.yGas.take k).length ≤ k := List.length_take_le k s.yGas
    exact absurd (lt_of_lt_of_le this l) (not_lt.mpr hk)

/-- **C117, seen by the caller.**  `setState` also accepts the shortened vector, whatever its length: it is the evaluation that goes wrong. -/
theorem C117_caller (eig : Eig) (m : Model) (glob : Option ℝ) (s : State) (a : SetArgs) (r : Model × State × Option ℝ) (k : ℕ) (hw : m.WF)
    (ht : m.psd ≠ .MONO → m.tar = .NONE) (ha : (setState s a).2 = ok ()) (hs : SurfaceIfNeeded m (setState s a).1)
    (h : sourceTerms eig m glob (setState s a).1 = ok r) :
    (setState s { a with yGas := a.yGas.take k }).2 = ok () ∧
    ((∀ sp ∈ reads m.nucl.mech m.grow.mech m.oxid.cls m.tar, sp.toNat < k) →
      map' (·.1) (sourceTerms eig m glob (setState s { a with yGas := a.yGas.take k }).1) = ok r.1) ∧
    ((∃ sp ∈ reads m.nucl.mech m.grow.mech m.oxid.cls m.tar, k ≤ sp.toNat) →
      sourceTerms eig m glob (setState s { a with yGas := a.yGas.take k }).1 = ub) := by
  obtain ⟨h1, h2⟩ := setState_ok_range ha
  have ad := (C01_setState_iff s a h1 h2).mp ha
  have ok' : (setState s { a with yGas := a.yGas.take k }).2 = ok () :=
    (C01_setState_iff s { a with yGas := a.yGas.take k } h1 h2).mpr ⟨ad.T, ad.P, ad.rho, ad.mu, ad.cMin, ad.soot, ad.tar, fun y hy => ad.gas y (List.mem_of_mem_take hy),
      ad.pahSize, ad.pah, ad.pahSum⟩
  rw [Pure.set_ok ha] at h hs
  rw [Pure.set_ok ok']
  have e : stateAfter s { a with yGas := a.yGas.take k } = { stateAfter s a with yGas := (stateAfter s a).yGas.take k } := rfl
  obtain ⟨x, z⟩ := C117_exact eig m glob (stateAfter s a) r k hw ht hs h
  rw [e]
  exact ⟨ok', fun b => by rw [x b]; rfl, z⟩

/-- Where the hypothesis on the surface fails, acetylene is not looked at: without particles, growth by LL, FAIR and MB returns zero on a gas
vector of any length. -/
theorem C117_no_surface (g : Grow) (x : Ctx) (s : State) (hg : g.mech = .LL ∨ g.mech = .FAIR ∨ g.mech = .MB) (hx : Sized x s)
    (hN : numOf x s = 0) : g.rate x s = ok 0 := by
  have e : areaMono (numOf x s) (massOf x s) = ok 0 := by rw [areaMono, if_neg (by rw [hN]; exact lt_irrefl _)]
  unfold Grow.rate
  rcases hg with h | h | h <;> simp only [h, moments01_ok hx, e, ok_bind, gt_iff_lt, lt_self_iff_false, if_false]

/-- LOGN with LL nucleation, HACA growth and NSC oxidation on a sooty flame state: eight gas entries (up to C2H2) do, and with seven the same
call reads outside the array. -/
example (eig : Eig) : ∃ r, sourceTerms eig (exModel .LOGN 3 .LL .HACA .NSC_NEOH .HM) none (exSt [1E15, 1E-6, 2E-27] false) = ok r ∧
    sourceTerms eig (exModel .LOGN 3 .LL .HACA .NSC_NEOH .HM) none
      { exSt [1E15, 1E-6, 2E-27] false with yGas := (exSt [1E15, 1E-6, 2E-27] false).yGas.take 8 } =
        ok (r.1, { r.2.1 with yGas := (exSt [1E15, 1E-6, 2E-27] false).yGas.take 8 }, r.2.2) ∧
    sourceTerms eig (exModel .LOGN 3 .LL .HACA .NSC_NEOH .HM) none
      { exSt [1E15, 1E-6, 2E-27] false with yGas := (exSt [1E15, 1E-6, 2E-27] false).yGas.take 7 } = ub := by
  have hl := exLognReady .LL (by simp) (by simp) .HACA .NSC_NEOH .HM (by simp) (M0 := 1E15) (M1 := 1E-6) (M2 := 2E-27)
    (by norm_num) (by norm_num) (by norm_num) false
  obtain ⟨l', hl1, _⟩ := C26_logn_total_partial _ _ _ _ _ hl (by simp [exModel, Nucl.new])
  have h : sourceTerms eig (exModel .LOGN 3 .LL .HACA .NSC_NEOH .HM) none (exSt [1E15, 1E-6, 2E-27] false) =
      ok (l', exSt [1E15, 1E-6, 2E-27] false, none) := by
    simp only [sourceTerms, show (exModel .LOGN 3 .LL .HACA .NSC_NEOH .HM).psd = .LOGN from rfl, hl1, ok_bind]
  have hs : SurfaceIfNeeded (exModel .LOGN 3 .LL .HACA .NSC_NEOH .HM) (exSt [1E15, 1E-6, 2E-27] false) := by
    intro e; simp [exModel, Grow.new] at e
  have X := fun k => C117_exact eig _ none _ _ k hl.wf (fun _ => rfl) hs h
  refine ⟨_, h, (X 8).1 ?_, (X 7).2 ⟨.C2H2, by simp [exModel, Nucl.new, Grow.new, Oxid.new, reads, growReads], by decide⟩⟩
  intro sp hsp
  simp only [exModel, Nucl.new, Grow.new, Oxid.new, reads, nuclReads, growReads, oxidReads, tarReads, List.append_nil, List.cons_append,
    List.nil_append, List.mem_cons, List.not_mem_nil, or_false] at hsp
  rcases hsp with rfl | rfl | rfl | rfl | rfl | rfl | rfl | rfl | rfl <;> decide

end Soot
