import Verif.Props.Pure

/-!
# C73: which gas species a configuration reads

The tables say which mass fractions a mechanism depends on.  Everything else in the gas vector (value, presence, length) has no influence on
any source term.
-/

namespace Soot

open Res Real
open scoped Classical

/-! ## Specification: species by mechanism -/

/-- Nucleation: acetylene, benzene for LINA1, no gas species for PAH and the tar mechanisms. -/
def nuclReads : NuclMech → List GasSp
  | .LL | .LIN | .MB | .FAIR => [.C2H2]
  | .LINA1 => [.C6H6]
  | .NONE | .PAH | .AJ_RED | .BROWN => []

/-- Growth: acetylene; HACA also the species of its radical balance. -/
def growReads : GrowMech → List GasSp
  | .NONE => []
  | .LL | .FAIR | .MB | .LIN => [.C2H2]
  | .HACA => [.H, .H2, .OH, .H2O, .C2H2, .O2]

/-- Oxidation (by class). -/
def oxidReads : OxidMech → List GasSp
  | .NONE => []
  | .LL | .FAIR | .BROWN => [.O2]
  | .MB => [.OH]
  | .LEE_NEOH | .OPTJ | .OPTG | .AJ_RED | .NSC_NEOH => [.O2, .OH]
  | .HACA => [.H, .H2, .OH, .H2O, .C2H2, .O2]

/-- Tar. -/
def tarReads : TarMech → List GasSp
  | .NONE => []
  | .AJ_RED => [.H2, .CO2, .H2O]
  | .BROWN => [.O2]

/-- Species read by a configuration. -/
def reads (n : NuclMech) (g : GrowMech) (o : OxidMech) (t : TarMech) : List GasSp := nuclReads n ++ growReads g ++ oxidReads o ++ tarReads t

/-- Two gas vectors have the same entries (or no entry) at the given species. -/
def SameAt (l : List GasSp) (y y' : List ℝ) : Prop := ∀ sp ∈ l, y[sp.toNat]? = y'[sp.toNat]?

namespace Reads

/-- The state with another gas vector. -/
def gas (y : List ℝ) (s : State) : State := { s with yGas := y }

open Pure

section
variable {s : State} {y : List ℝ}

theorem gasC {sp : GasSp} (h : y[sp.toNat]? = s.yGas[sp.toNat]?) : (gas y s).gasC sp = s.gasC sp := by
  have : idx (gas y s).yGas sp.toNat = idx s.yGas sp.toNat := by simp only [idx, gas, h]
  simp only [State.gasC, this]
  rfl

theorem gasP {sp : GasSp} (h : y[sp.toNat]? = s.yGas[sp.toNat]?) : (gas y s).gasP sp = s.gasP sp := by
  have : idx (gas y s).yGas sp.toNat = idx s.yGas sp.toNat := by simp only [idx, gas, h]
  simp only [State.gasP, this]
  rfl

theorem haca (h : SameAt (growReads .HACA) y s.yGas) : hacaRates (gas y s) = hacaRates s := by
  simp only [growReads, SameAt, List.forall_mem_cons, List.not_mem_nil, false_implies, implies_true, and_true] at h
  simp only [hacaRates, gasC h.1, gasC h.2.1, gasC h.2.2.1, gasC h.2.2.2.1, gasC h.2.2.2.2.1, gasC h.2.2.2.2.2]
  rfl

theorem grow (g : Grow) (x : Ctx) (h : SameAt (growReads g.mech) y s.yGas) : g.rate x (gas y s) = g.rate x s := by
  unfold Grow.rate
  rcases he : g.mech <;> rw [he] at h
  case HACA => simp only [haca h]; rfl
  all_goals
    have e := gasC (h .C2H2 (by simp [growReads]))
    simp only [e]
    rfl

theorem oh (h : y[GasSp.OH.toNat]? = s.yGas[GasSp.OH.toNat]?) (c : ℝ) : ohRate c (gas y s) = ohRate c s := by
  simp only [ohRate, gasC h]; rfl

theorem oxid (o : Oxid) (x : Ctx) (h : SameAt (oxidReads o.cls) y s.yGas) : o.rate x (gas y s) = o.rate x s := by
  unfold Oxid.rate
  rcases he : o.cls <;> rw [he] at h
  case HACA =>
    have e := h .OH (by simp [oxidReads])
    simp only [haca (y := y) (s := s) h, oh e]; rfl
  case MB =>
    have e := gasC (h .OH (by simp [oxidReads]))
    simp only [e]; rfl
  case LL | FAIR => 
    have e := gasC (h .O2 (by simp [oxidReads]))
    simp only [e]; rfl
  case BROWN =>
    have e := gasP (h .O2 (by simp [oxidReads]))
    simp only [e]; rfl
  all_goals
    have e1 := gasP (h .O2 (by simp [oxidReads]))
    have e2 := h .OH (by simp [oxidReads])
    simp only [e1, gasP e2, oh e2]
    rfl

theorem pahLoop_gas (pre : ℝ) (l : List PahSp) (a : PahAcc) : pahLoop (gas y s) pre l a = pahLoop s pre l a := by
  induction l generalizing a with
  | nil => rfl
  | cons x l ih => simp only [pahLoop, ih]; rfl

theorem nucl {ib : State → ℝ → Res ℝ} (n : Nucl) (h : SameAt (nuclReads n.mech) y s.yGas)
    (hib : ∀ c mD, ib (gas y { s with cMin := c }) mD = ib { s with cMin := c } mD) :
    n.rate ib (gas y s) = map' (fun p => (p.1, p.2.1, gas y p.2.2)) (n.rate ib s) := by
  unfold Nucl.rate
  rcases he : n.mech
  case PAH =>
    simp only [nuclPAH, pahLoop_gas, map'_bind]
    refine congrArg _ (funext fun pre => congrArg _ (funext fun a0 => congrArg _ (funext fun h2 => congrArg _ (funext fun m16 => ?_))))
    exact congrArg (· >>= _) (hib _ _)
  case LINA1 =>
    rw [he] at h
    have e := gasC (h .C6H6 (by simp [nuclReads]))
    simp only [e, map'_bind, map'_ok]; rfl
  case NONE | AJ_RED | BROWN => simp only [map'_bind, map'_ok]; first | done | rfl
  all_goals
    rw [he] at h
    have e := gasC (h .C2H2 (by simp [nuclReads]))
    simp only [e, map'_bind, map'_ok]; rfl

/-- All mechanisms of `m` see the same. -/
structure Fits (m : Model) (y y' : List ℝ) : Prop where
  nucl : SameAt (nuclReads m.nucl.mech) y y'
  grow : SameAt (growReads m.grow.mech) y y'
  oxid : SameAt (oxidReads m.oxid.cls) y y'
  tar : SameAt (tarReads m.tar) y y'

variable {m : Model} (h : Fits m y s.yGas)
include h

theorem Fits.g (c : ℝ) (x : Ctx) : m.grow.rate x (gas y { s with cMin := c }) = m.grow.rate x { s with cMin := c } := Reads.grow _ _ h.grow
theorem Fits.o (c : ℝ) (x : Ctx) : m.oxid.rate x (gas y { s with cMin := c }) = m.oxid.rate x { s with cMin := c } := Reads.oxid _ _ h.oxid

theorem crackAJ (ht : m.tar = .AJ_RED) : ajCracking (gas y s) = ajCracking s := by
  have e := h.tar; rw [ht] at e
  simp only [ajCracking, gasC (e .H2 (by simp [tarReads]))]; rfl

theorem surfAJ (ht : m.tar = .AJ_RED) : ajSurface (gas y s) = ajSurface s := by
  have e := h.tar; rw [ht] at e
  simp only [ajSurface, gasP (e .CO2 (by simp [tarReads])), gasP (e .H2O (by simp [tarReads])),
    gasC (e .CO2 (by simp [tarReads])), gasC (e .H2O (by simp [tarReads]))]; rfl

theorem crackBrown (ht : m.tar = .BROWN) : brownCracking (gas y s) = brownCracking s := by
  have e := h.tar; rw [ht] at e
  simp only [brownCracking, gasP (e .O2 (by simp [tarReads])), gasC (e .O2 (by simp [tarReads]))]; rfl

theorem lognT : lognTerms m (gas y s) = map' (fun r => { r with st := gas y r.st }) (lognTerms m s) := by
  simp only [lognTerms, nucl (ib := lognIbeta m) (s := s) (y := y) m.nucl h.nucl (fun _ _ => rfl), bind_map', map'_bind, map'_ok]
  refine congrArg _ (funext fun M0 => congrArg _ (funext fun M1 => congrArg _ (funext fun M2 => congrArg _ (funext fun A => congrArg _ (funext fun B => ?_)))))
  apply Res.bind_congr
  rintro ⟨j, n, s'⟩ e
  obtain ⟨c, rfl⟩ := nucl_state e
  simp only [h.g, h.o]
  rfl

theorem momicT (T : Tri) (P Q : List ℝ) : momicTerms m T P Q (gas y s) = map' (fun r => { r with st := gas y r.st }) (momicTerms m T P Q s) := by
  simp only [momicTerms, nucl (ib := momicIbeta m P Q) (s := s) (y := y) m.nucl h.nucl (fun _ _ => rfl), bind_map', map'_bind, map'_ok]
  apply Res.bind_congr
  rintro ⟨j, n, s'⟩ e
  obtain ⟨c, rfl⟩ := nucl_state e
  simp only [h.g, h.o]
  rfl

theorem hmomT (r : Option ℝ) (N : ℕ) (N0 mN : ℝ) (M : List ℝ) (T : Tri) (P Q : List ℝ) :
    hmomTerms r m N N0 mN M T P Q (gas y s) = map' (fun r => { r with st := gas y r.st }) (hmomTerms r m N N0 mN M T P Q s) := by
  simp only [hmomTerms, nucl (ib := hmomIbeta m N0 P Q) (s := s) (y := y) m.nucl h.nucl (fun _ _ => rfl), bind_map', map'_bind, map'_ok]
  apply Res.bind_congr
  rintro ⟨j, n, s'⟩ e
  obtain ⟨c, rfl⟩ := nucl_state e
  simp only [h.g, h.o]
  rfl

theorem qmomT : qmomTerms m (gas y s) = map' (fun r => { r with st := gas y r.st }) (qmomTerms m s) := by
  simp only [qmomTerms, nucl (ib := ibetaNodes m.coag) (s := s) (y := y) m.nucl h.nucl (fun _ _ => rfl), bind_map', map'_bind, map'_ok]
  apply Res.bind_congr
  rintro ⟨j, n, s'⟩ e
  obtain ⟨c, rfl⟩ := nucl_state e
  simp only [h.g, h.o]
  rfl

theorem monoT (M0 M1 : ℝ) : monoTerms m M0 M1 (gas y s) = map' (fun r => { r with st := gas y r.st }) (monoTerms m M0 M1 s) := by
  simp only [monoTerms, nucl (ib := ibetaNodes m.coag) (s := s) (y := y) m.nucl h.nucl (fun _ _ => rfl), bind_map', map'_bind, map'_ok]
  apply Res.bind_congr
  rintro ⟨j, n, s'⟩ e
  obtain ⟨c, rfl⟩ := nucl_state e
  simp only [h.g, h.o]
  rfl

omit h in
theorem coagLoop_gas (n : ℕ) (b : List ℝ) (c : Coag) (f : ℝ) (l : List (ℕ × ℕ)) (S : ℕ → ℝ) :
    coagLoop n b c (gas y s) f l S = coagLoop n b c s f l S := by
  induction l generalizing S with
  | nil => rfl
  | cons x l ih => simp only [coagLoop, ih]; rfl

theorem sectT (g : Option ℝ) : sectTerms m g (gas y s) = map' (fun r => { r with st := gas y r.st }) (sectTerms m g s) := by
  simp only [sectTerms, nucl (ib := sectIbeta m) (s := s) (y := y) m.nucl h.nucl (fun _ _ => rfl), bind_map', map'_bind, map'_ok, sectCoag,
    coagLoop_gas]
  apply Res.bind_congr
  rintro ⟨j, n, s'⟩ e
  obtain ⟨c, rfl⟩ := nucl_state e
  simp only [h.g, h.o]
  rfl

theorem mono : monoSources m (gas y s) = map' (fun r => (r.1, gas y r.2)) (monoSources m s) := by
  have n : monoNodes (gas y s) = map' (fun r => (r.1, r.2.1, gas y r.2.2)) (monoNodes s) := by
    simp only [monoNodes, map'_bind]
    refine congrArg _ (funext fun M0 => congrArg _ (funext fun M1 => ?_))
    by_cases h0 : M0 > 0
    · simp only [if_pos h0, map'_bind]; rfl
    · simp only [if_neg h0]; rfl
  simp only [monoSources, n, bind_map', map'_bind]
  apply Res.bind_congr
  rintro ⟨M0, M1, s'⟩ e
  obtain ⟨w, a, rfl⟩ : ∃ w a, s' = { s with wts := w, absc := a } := by
    simp only [monoNodes, bind_eq_ok] at e
    obtain ⟨x, _, z, _, e⟩ := e
    by_cases h0 : x > 0
    · simp only [if_pos h0, bind_eq_ok] at e
      obtain ⟨w, _, a, _, e⟩ := e
      simp only [ok.injEq, Prod.mk.injEq] at e
      exact ⟨w, a, e.2.2.symm⟩
    · simp only [if_neg h0, ok.injEq, Prod.mk.injEq] at e
      exact ⟨s.wts, s.absc, e.2.2.symm⟩
  have h' : Fits m y ({ s with wts := w, absc := a } : State).yGas := h
  rcases ht : m.tar <;> simp only [monoT h', bind_map', map'_bind, map'_ok]
  · refine congrArg _ (funext fun N0 => ?_)
    apply Res.bind_congr
    intro r hr
    obtain ⟨c, er⟩ := monoTerms_st hr
    rw [er]
    have h2 : Fits m y ({ s with wts := w, absc := a, cMin := c } : State).yGas := h
    rw [crackAJ h2 ht, surfAJ h2 ht]
    rfl
  · refine congrArg _ (funext fun N0 => ?_)
    apply Res.bind_congr
    intro r hr
    obtain ⟨c, er⟩ := monoTerms_st hr
    rw [er]
    have h2 : Fits m y ({ s with wts := w, absc := a, cMin := c } : State).yGas := h
    rw [crackBrown h2 ht]
    rfl

end

end Reads

open Reads Pure in
/-- **C73.**  If two gas vectors agree at the species read by the mechanisms of a model, they give the same source terms, the same model
object afterwards and the same failure if there is one; all six classes.  Mass fractions of other species, and the length of the vector, have
no influence. -/
theorem C73_reads (eig : Eig) (m : Model) (glob : Option ℝ) (s : State) (y : List ℝ)
    (h : SameAt (reads m.nucl.mech m.grow.mech m.oxid.cls m.tar) y s.yGas) :
    sourceTerms eig m glob { s with yGas := y } =
      map' (fun r => (r.1, { r.2.1 with yGas := y }, r.2.2)) (sourceTerms eig m glob s) := by
  have f : Fits m y s.yGas := by
    unfold reads at h
    exact ⟨fun sp e => h sp (by simp [e]), fun sp e => h sp (by simp [e]), fun sp e => h sp (by simp [e]), fun sp e => h sp (by simp [e])⟩
  show sourceTerms eig m glob (gas y s) = map' (fun r : Model × State × Option ℝ => (r.1, gas y r.2.1, r.2.2)) _
  unfold sourceTerms
  rcases hp : m.psd <;> simp only []
  · rfl
  · simp only [mono f, bind_map', map'_bind, map'_ok]
  · simp only [lognSources, lognT f, bind_map', map'_bind, map'_ok, bind_assoc', ok_bind]
  · simp only [qmomSources, bind_map', map'_bind, map'_ok, bind_assoc', ok_bind]
    refine congrArg _ (funext fun w => ?_)
    have f' : Fits m y ({ s with wts := w.1, absc := w.2 } : State).yGas := f
    have e := qmomT f'
    exact (congrArg (· >>= _) e).trans (by simp only [bind_map', momFinish, bind_assoc', ok_bind])
  · simp only [momicSources, momicT f, momFinish, bind_map', map'_bind, map'_ok, bind_assoc', ok_bind]
    rfl
  case HMOM =>
    simp only [hmomSources, hmomSourcesAt, hmomT f, momFinish, bind_map', map'_bind, map'_ok, bind_assoc', ok_bind]
    rfl
  case SECT => simp only [sectSources, sectT f, bind_map', map'_bind, map'_ok]

open Reads Pure in
/-- HMOM reads outside an array in every evaluation (C35); the claim also holds for the evaluation in which that read delivers some number. -/
theorem C73_hmom (m : Model) (read : Option ℝ) (s : State) (y : List ℝ) (h : SameAt (reads m.nucl.mech m.grow.mech m.oxid.cls m.tar) y s.yGas) :
    hmomSourcesAt read m { s with yGas := y } = map' (fun r => (r.1, { r.2 with yGas := y })) (hmomSourcesAt read m s) := by
  have f : Fits m y s.yGas := by
    unfold reads at h
    exact ⟨fun sp e => h sp (by simp [e]), fun sp e => h sp (by simp [e]), fun sp e => h sp (by simp [e]), fun sp e => h sp (by simp [e])⟩
  show hmomSourcesAt read m (gas y s) = map' (fun r : Model × State => (r.1, gas y r.2)) _
  simp only [hmomSourcesAt, hmomT f, momFinish, bind_map', map'_bind, map'_ok]
  rfl

/-- O, CO and soot carbon `C` are read by no mechanism. -/
theorem C73_never_read (n : NuclMech) (g : GrowMech) (o : OxidMech) (t : TarMech) (sp : GasSp) (h : sp ∈ reads n g o t) :
    sp ≠ .O ∧ sp ≠ .CO ∧ sp ≠ .C := by
  simp only [reads, List.mem_append] at h
  rcases h with ((h | h) | h) | h
  · cases n <;> simp only [nuclReads, List.mem_cons, List.not_mem_nil, or_false] at h <;> (try subst h) <;> simp
  · cases g <;> simp only [growReads, List.mem_cons, List.not_mem_nil, or_false] at h <;>
      (try rcases h with rfl | rfl | rfl | rfl | rfl | rfl) <;> (try subst h) <;> simp
  · cases o <;> simp only [oxidReads, List.mem_cons, List.not_mem_nil, or_false] at h <;>
      first | (rcases h with rfl | rfl | rfl | rfl | rfl | rfl <;> simp) | (rcases h with rfl | rfl <;> simp) | (subst h; simp)
  · cases t <;> simp only [tarReads, List.mem_cons, List.not_mem_nil, or_false] at h <;>
      first | (rcases h with rfl | rfl | rfl <;> simp) | (subst h; simp)

open Pure in
/-- **C73, seen by the caller.**  Two `setState` calls that differ in the gas vector only, both accepted: if the vectors agree at the species
read, the model object with all its source terms is the same afterwards. -/
theorem C73_inputs (eig : Eig) (m : Model) (glob : Option ℝ) (s : State) (a b : SetArgs) (hab : b = { a with yGas := b.yGas })
    (oa : (setState s a).2 = ok ()) (ob : (setState s b).2 = ok ())
    (h : SameAt (reads m.nucl.mech m.grow.mech m.oxid.cls m.tar) b.yGas a.yGas) :
    map' (·.1) (sourceTerms eig m glob (setState s b).1) = map' (·.1) (sourceTerms eig m glob (setState s a).1) := by
  rw [set_ok oa, set_ok ob]
  have e : stateAfter s b = { stateAfter s a with yGas := b.yGas } := by rw [hab]; rfl
  rw [e, C73_reads eig m glob (stateAfter s a) b.yGas h, map'_map']

/-- The eight mass fractions of the burner examples and their extension to all eleven species: the same for the mechanisms of those examples. -/
example (y : List ℝ) (hy : y.length = 8) (c b d : ℝ) : SameAt (reads .LL .LL .LL .NONE) (y ++ [c, b, d]) y := by
  intro sp h
  refine List.getElem?_append_left ?_
  simp only [reads, nuclReads, growReads, oxidReads, tarReads, List.append_nil, List.cons_append, List.nil_append, List.mem_cons,
    List.not_mem_nil, or_false] at h
  rcases h with rfl | rfl | rfl <;> rw [hy] <;> decide

/-- With benzene nucleation the same extension is not harmless. -/
example (y : List ℝ) (hy : y.length = 8) (c b d : ℝ) : ¬ SameAt (reads .LINA1 .LL .LL .NONE) (y ++ [c, b, d]) y := by
  intro h
  have e := h .C6H6 (by simp [reads, nuclReads])
  have e2 : y[GasSp.C6H6.toNat]? = none := List.getElem?_eq_none (by rw [hy]; decide)
  rw [e2, List.getElem?_append_right (by rw [hy]; decide), hy] at e
  cases e

end Soot
