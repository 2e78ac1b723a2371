import Verif.Props.Reads

/-!
# C119: scales, fuel composition, coal data and tar yield have no influence

`setSootScales`, `getyBio` and `get_coal` (state.h:74-80, state.cc:198-202) store members of the state that no source term reads; nor does one read `ytar`
(the tar inception rate that would is commented out, tarModel_AJ_RED.cc:21-33).
-/

namespace Soot

open Res Real
open scoped Classical

namespace Inert

/-- The state with other soot scales, fuel composition, coal data and tar yield. -/
def aux (v y : List ℝ) (OC HC V w : ℝ) (s : State) : State := { s with sootScales := v, yBio := y, OC := OC, HC := HC, V := V, ytar := w }

open Soot.Pure

section
variable {s : State} {v y : List ℝ} {OC HC V w : ℝ} {m : Model}

theorem pahLoop_aux (pre : ℝ) (l : List PahSp) (a : PahAcc) : pahLoop (aux v y OC HC V w s) pre l a = pahLoop s pre l a := by
  induction l generalizing a with
  | nil => rfl
  | cons x l ih => simp only [pahLoop, ih]; rfl

theorem nucl {ib : State → ℝ → Res ℝ} (n : Nucl) (hib : ∀ c mD, ib (aux v y OC HC V w { s with cMin := c }) mD = ib { s with cMin := c } mD) :
    n.rate ib (aux v y OC HC V w s) = map' (fun p => (p.1, p.2.1, aux v y OC HC V w p.2.2)) (n.rate ib s) := by
  unfold Nucl.rate
  rcases he : n.mech
  case PAH =>
    simp only [nuclPAH, pahLoop_aux, map'_bind]
    refine congrArg _ (funext fun pre => congrArg _ (funext fun a0 => congrArg _ (funext fun h2 => congrArg _ (funext fun m16 => ?_))))
    exact congrArg (· >>= _) (hib _ _)
  all_goals (simp only [map'_bind, map'_ok]; first | done | rfl)

theorem lognT : lognTerms m (aux v y OC HC V w s) = map' (fun r => { r with st := aux v y OC HC V w r.st }) (lognTerms m s) := by
  simp only [lognTerms, nucl (ib := lognIbeta m) (s := s) (v := v) (y := y) (OC := OC) (HC := HC) (V := V) (w := w) m.nucl (fun _ _ => rfl), bind_map', map'_bind, map'_ok]
  rfl

theorem momicT (T : Tri) (P Q : List ℝ) :
    momicTerms m T P Q (aux v y OC HC V w s) = map' (fun r => { r with st := aux v y OC HC V w r.st }) (momicTerms m T P Q s) := by
  simp only [momicTerms, nucl (ib := momicIbeta m P Q) (s := s) (v := v) (y := y) (OC := OC) (HC := HC) (V := V) (w := w) m.nucl (fun _ _ => rfl), bind_map', map'_bind, map'_ok]
  rfl

theorem hmomT (r : Option ℝ) (N : ℕ) (N0 mN : ℝ) (M : List ℝ) (T : Tri) (P Q : List ℝ) :
    hmomTerms r m N N0 mN M T P Q (aux v y OC HC V w s) = map' (fun r => { r with st := aux v y OC HC V w r.st }) (hmomTerms r m N N0 mN M T P Q s) := by
  simp only [hmomTerms, nucl (ib := hmomIbeta m N0 P Q) (s := s) (v := v) (y := y) (OC := OC) (HC := HC) (V := V) (w := w) m.nucl (fun _ _ => rfl), bind_map', map'_bind, map'_ok]
  rfl

theorem qmomT : qmomTerms m (aux v y OC HC V w s) = map' (fun r => { r with st := aux v y OC HC V w r.st }) (qmomTerms m s) := by
  simp only [qmomTerms, nucl (ib := ibetaNodes m.coag) (s := s) (v := v) (y := y) (OC := OC) (HC := HC) (V := V) (w := w) m.nucl (fun _ _ => rfl), bind_map', map'_bind, map'_ok]
  rfl

theorem monoT (M0 M1 : ℝ) : monoTerms m M0 M1 (aux v y OC HC V w s) = map' (fun r => { r with st := aux v y OC HC V w r.st }) (monoTerms m M0 M1 s) := by
  simp only [monoTerms, nucl (ib := ibetaNodes m.coag) (s := s) (v := v) (y := y) (OC := OC) (HC := HC) (V := V) (w := w) m.nucl (fun _ _ => rfl), bind_map', map'_bind, map'_ok]
  rfl

theorem coagLoop_aux (n : ℕ) (b : List ℝ) (c : Coag) (f : ℝ) (l : List (ℕ × ℕ)) (S : ℕ → ℝ) :
    coagLoop n b c (aux v y OC HC V w s) f l S = coagLoop n b c s f l S := by
  induction l generalizing S with
  | nil => rfl
  | cons x l ih => simp only [coagLoop, ih]; rfl

theorem sectT (g : Option ℝ) : sectTerms m g (aux v y OC HC V w s) = map' (fun r => { r with st := aux v y OC HC V w r.st }) (sectTerms m g s) := by
  simp only [sectTerms, nucl (ib := sectIbeta m) (s := s) (v := v) (y := y) (OC := OC) (HC := HC) (V := V) (w := w) m.nucl (fun _ _ => rfl), bind_map', map'_bind, map'_ok, sectCoag, coagLoop_aux]
  rfl

theorem mono : monoSources m (aux v y OC HC V w s) = map' (fun r => (r.1, aux v y OC HC V w r.2)) (monoSources m s) := by
  have n : monoNodes (aux v y OC HC V w s) = map' (fun r => (r.1, r.2.1, aux v y OC HC V w r.2.2)) (monoNodes s) := by
    simp only [monoNodes, map'_bind]
    refine congrArg _ (funext fun M0 => congrArg _ (funext fun M1 => ?_))
    by_cases h0 : M0 > 0
    · simp only [if_pos h0, map'_bind]; rfl
    · simp only [if_neg h0]; rfl
  simp only [monoSources, n, bind_map', map'_bind]
  refine congrArg _ (funext fun p => ?_)
  rcases ht : m.tar <;> simp only [monoT, bind_map', map'_bind, map'_ok] <;> rfl

end

end Inert

open Inert Soot.Pure in
/-- **C119.** The soot scales, the fuel composition, the coal data and the tar yield of the state are read by no source term: with other values every class gives the same
source terms, the same model object, the same remaining state and the same failure if there is one. -/
theorem C119_inert (eig : Eig) (m : Model) (glob : Option ℝ) (s : State) (v y : List ℝ) (OC HC V w : ℝ) :
    sourceTerms eig m glob { s with sootScales := v, yBio := y, OC := OC, HC := HC, V := V, ytar := w } =
      map' (fun r => (r.1, { r.2.1 with sootScales := v, yBio := y, OC := OC, HC := HC, V := V, ytar := w }, r.2.2)) (sourceTerms eig m glob s) := by
  show sourceTerms eig m glob (aux v y OC HC V w s) = map' (fun r : Model × State × Option ℝ => (r.1, aux v y OC HC V w r.2.1, r.2.2)) _
  unfold sourceTerms
  rcases hp : m.psd <;> simp only []
  · rfl
  · simp only [mono, bind_map', map'_bind, map'_ok]
  · simp only [lognSources, lognT, bind_map', map'_bind, map'_ok, bind_assoc', ok_bind]
  · simp only [qmomSources, map'_bind, map'_ok, bind_assoc']
    refine congrArg _ (funext fun q => ?_)
    have e := qmomT (m := m) (s := { s with wts := q.1, absc := q.2 }) (v := v) (y := y) (OC := OC) (HC := HC) (V := V) (w := w)
    exact (congrArg (· >>= _) e).trans (by simp only [bind_map', momFinish, bind_assoc', ok_bind])
  · simp only [momicSources, momicT, momFinish, bind_map', map'_bind, map'_ok, bind_assoc', ok_bind]
    rfl
  case HMOM =>
    simp only [hmomSources, hmomSourcesAt, hmomT, momFinish, bind_map', map'_bind, map'_ok, bind_assoc', ok_bind]
    rfl
  case SECT => simp only [sectSources, sectT, bind_map', map'_bind, map'_ok]

open Soot.Pure in
/-- **C119, setters.** What `setSootScales`, `getyBio` and `get_coal` store survives any later call of `setState`, accepted or not, and the model object and
failure of a later evaluation are those without the call. -/
theorem C119_setters (eig : Eig) (m : Model) (glob : Option ℝ) (s : State) (v y : List ℝ) (OC HC V : ℝ) (a : SetArgs) :
    (setState ((s.setSootScales v).setYBio y) a).1.sootScales = v ∧ (setState ((s.setSootScales v).setYBio y) a).1.yBio = y ∧
    map' (·.1) (sourceTerms eig m glob (((s.setSootScales v).setYBio y).setCoal OC HC V)) = map' (·.1) (sourceTerms eig m glob s) := by
  have h := C04_setState_torn_partial ((s.setSootScales v).setYBio y) a
  refine ⟨h.scales, h.yBio, ?_⟩
  have e : ((s.setSootScales v).setYBio y).setCoal OC HC V = { s with sootScales := v, yBio := y, OC := OC, HC := HC, V := V, ytar := s.ytar } := rfl
  rw [e, C119_inert, map'_map']

/-- A burning LOGN evaluation with other scales: finite, and the same sources. -/
example (eig : Eig) : ∃ m' s' g, sourceTerms eig (exModel .LOGN 3 .LL .LL .LL .HM) none ((exSt [1E15, 1E-8, 2E-31] false).setSootScales [1E15, 1E-8, 1E-31]) =
    ok (m', s', g) ∧ s'.sootScales = [1E15, 1E-8, 1E-31] := by
  obtain ⟨m', s', _, _, _, _, e, -⟩ := logn_eval (exLognReady .LL (by simp) (by simp) .LL .LL .HM (by simp) (M0 := 1E15) (M1 := 1E-8) (M2 := 2E-31)
    (by norm_num) (by norm_num) (by norm_num) false) (fun h => by simp [exModel, Nucl.new] at h)
  have e2 : sourceTerms eig (exModel .LOGN 3 .LL .LL .LL .HM) none (exSt [1E15, 1E-8, 2E-31] false) = ok (m', s', none) := by
    simp only [sourceTerms, exModel] at e ⊢
    rw [e]; rfl
  have h := C119_inert eig (exModel .LOGN 3 .LL .LL .LL .HM) none (exSt [1E15, 1E-8, 2E-31] false) [1E15, 1E-8, 1E-31] (exSt [1E15, 1E-8, 2E-31] false).yBio
    (exSt [1E15, 1E-8, 2E-31] false).OC (exSt [1E15, 1E-8, 2E-31] false).HC (exSt [1E15, 1E-8, 2E-31] false).V
    (exSt [1E15, 1E-8, 2E-31] false).ytar
  rw [e2] at h
  exact ⟨_, _, _, h, rfl⟩

end Soot
