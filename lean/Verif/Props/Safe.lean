import Verif.Props.MomicModel
import Verif.Props.Logn
import Verif.Props.SectModel
import Verif.Bio

/-!
# Index safety from sizes alone

`Safe x`: the computation neither has undefined behaviour nor throws.  Every lemma here assumes only sizes of vectors, never the
values in them: the states may be torn, unphysical or freshly constructed.
-/

namespace Soot

open Res Real
open scoped Classical

/-- Neither undefined behaviour nor an exception (an Inf/NaN is possible). -/
def Safe {α : Type} (x : Res α) : Prop := x ≠ ub ∧ ∀ e, x ≠ exn e

variable {α β : Type}

protected theorem Safe.ok (a : α) : Safe (Res.ok a) := ⟨by simp, by simp⟩
protected theorem Safe.nonfin : Safe (Res.nonfin : Res α) := ⟨by simp, by simp⟩
protected theorem Safe.bind {x : Res α} {f : α → Res β} (hx : Safe x) (hf : ∀ a, x = Res.ok a → Safe (f a)) : Safe (x >>= f) := by
  cases x with
  | ok a => exact hf a rfl
  | nonfin => exact .nonfin
  | ub => exact absurd rfl hx.1
  | exn e => exact absurd rfl (hx.2 e)
protected theorem Safe.of_ok {x : Res α} {a : α} (h : x = Res.ok a) : Safe x := h ▸ .ok a
protected theorem Safe.idx {l : List α} {i : ℕ} (h : i < l.length) : Safe (Soot.idx l i) := .of_ok (idx_ok h)
protected theorem Safe.setIdx {l : List α} {i : ℕ} {x : α} (h : i < l.length) : Safe (Soot.setIdx l i x) := by
  rw [Soot.setIdx, if_pos h]; exact .ok _
protected theorem Safe.cdiv (x y : ℝ) : Safe (Soot.cdiv x y) := by
  unfold Soot.cdiv; split_ifs <;> first | exact .ok _ | exact .nonfin
protected theorem Safe.csqrt (x : ℝ) : Safe (Soot.csqrt x) := by
  unfold Soot.csqrt; split_ifs <;> first | exact .ok _ | exact .nonfin
protected theorem Safe.cpow (x p : ℝ) : Safe (Soot.cpow x p) := by
  unfold Soot.cpow; split_ifs <;> first | exact .ok _ | exact .nonfin
protected theorem Safe.clog (x : ℝ) : Safe (Soot.clog x) := by
  unfold Soot.clog; split_ifs <;> first | exact .ok _ | exact .nonfin
protected theorem Safe.clog10 (x : ℝ) : Safe (Soot.clog10 x) := by
  unfold Soot.clog10; split_ifs <;> first | exact .ok _ | exact .nonfin
protected theorem Safe.cexpDiv (a b : ℝ) : Safe (Soot.cexpDiv a b) := .bind (.cdiv _ _) fun _ _ => .ok _

protected theorem Safe.sumLoop {n : ℕ} {f : ℕ → Res ℝ} (h : ∀ k < n, Safe (f k)) : Safe (Soot.sumLoop n f) := by
  induction n with
  | zero => exact .ok _
  | succ n ih => exact .bind (ih fun k hk => h k (by omega)) fun _ _ => .bind (h n (by omega)) fun _ _ => .ok _
protected theorem Safe.tabLoop {n : ℕ} {f : ℕ → Res ℝ} (h : ∀ k < n, Safe (f k)) : Safe (Soot.tabLoop n f) := by
  induction n with
  | zero => exact .ok _
  | succ n ih => exact .bind (ih fun k hk => h k (by omega)) fun _ _ => .bind (h n (by omega)) fun _ _ => .ok _
protected theorem Safe.forLoop {σ : Type} {n : ℕ} {f : ℕ → σ → Res σ} {x : σ} (h : ∀ k < n, ∀ y, Safe (f k y)) : Safe (Soot.forLoop n f x) := by
  induction n with
  | zero => exact .ok _
  | succ n ih => exact .bind (ih fun k hk => h k (by omega)) fun y _ => h n (by omega) y

/-- One structural step. -/
macro "safe1" : tactic => `(tactic| first
  | exact Safe.ok _ | exact Safe.nonfin | exact Safe.cdiv _ _ | exact Safe.csqrt _ | exact Safe.cpow _ _ | exact Safe.clog _
  | exact Safe.clog10 _ | exact Safe.cexpDiv _ _ | assumption
  | refine Safe.bind ?_ (fun _ _ => ?_)
  | split)
/-- All structural steps. -/
macro "safe" : tactic => `(tactic| repeat' safe1)

/-! ## State accessors and kernels -/

section
variable {s : State} {c : Coag}

protected theorem Safe.gasC {k : ℕ} (h : k ≤ s.yGas.length) (sp : GasSp) (hs : sp.toNat < k) : Safe (s.gasC sp) :=
  .bind (.idx (hs.trans_le h)) fun _ _ => .ok _
protected theorem Safe.gasP {k : ℕ} (h : k ≤ s.yGas.length) (sp : GasSp) (hs : sp.toNat < k) : Safe (s.gasP sp) :=
  .bind (.idx (hs.trans_le h)) fun _ _ => .ok _
protected theorem Safe.mfp : Safe s.mfp := by unfold State.mfp; safe
protected theorem Safe.kfm : Safe (c.kfm s) := by unfold Coag.kfm; safe
protected theorem Safe.kc : Safe (c.kc s) := .cdiv _ _
protected theorem Safe.kcp : Safe (c.kcp s) := .bind .mfp fun _ _ => .ok _
protected theorem Safe.fuchsPart (m : ℝ) : Safe (Soot.fuchsPart s m) := by
  unfold Soot.fuchsPart; have := @Safe.mfp s; safe
protected theorem Safe.coagRate (m1 m2 : ℝ) : Safe (c.rate s m1 m2) := by
  have := @Safe.mfp s; have := @Safe.kfm s c; have := @Safe.kc s c
  have := @Safe.fuchsPart s m1; have := @Safe.fuchsPart s m2
  unfold Coag.rate
  split_ifs
  · exact .ok _
  · exact .ok _
  · split
    · exact .ok _
    · unfold rateFM; safe
    · unfold rateCONT; safe
    · unfold rateHM; safe
    · unfold rateFUCHS fuchsComb; safe

/-! ## Mechanisms -/

/-- The sizes a mechanism relies on. -/
structure Fit (x : Ctx) (s : State) : Prop where
  gas : 8 ≤ s.yGas.length
  pah : nPah ≤ s.yPah.length
  two : 2 ≤ s.sootVar.length
  sect : x.psd = .SECT → x.nsoot ≤ s.sootVar.length ∧ x.nsoot ≤ x.mBins.length ∧ s.nsoot = x.nsoot

theorem Fit.upd {x : Ctx} (h : Fit x s) (c : ℝ) (w a : List ℝ) : Fit x { s with cMin := c, wts := w, absc := a } :=
  ⟨h.gas, h.pah, h.two, h.sect⟩

protected theorem Safe.moments01 {x : Ctx} (h : Fit x s) : Safe (Soot.moments01 x s) := by
  unfold Soot.moments01
  split_ifs with hp
  · obtain ⟨h1, h2, _⟩ := h.sect hp
    refine .bind (.sumLoop fun k hk => .idx (by omega)) fun _ _ => .bind (.sumLoop fun k hk => ?_) fun _ _ => .ok _
    exact .bind (.idx (by omega)) fun _ _ => .bind (.idx (by omega)) fun _ _ => .ok _
  · have := h.two
    exact .bind (.idx (by omega)) fun _ _ => .bind (.idx (by omega)) fun _ _ => .ok _

protected theorem Safe.hacaMoments {x : Ctx} (h : Fit x s) : Safe (Soot.hacaMoments x s) := by
  have := h.two
  unfold Soot.hacaMoments
  refine .bind (.idx (by omega)) fun _ _ => .bind (.idx (by omega)) fun _ _ => ?_
  split_ifs with hp hn
  · obtain ⟨_, _, h3⟩ := h.sect hp; omega
  · obtain ⟨h1, h2, h3⟩ := h.sect hp
    have e : s.nsoot.toNat = x.nsoot := by omega
    rw [e]
    refine .bind (.sumLoop fun k hk => .idx (by omega)) fun _ _ => .bind (.sumLoop fun k hk => ?_) fun _ _ => .ok _
    exact .bind (.idx (by omega)) fun _ _ => .bind (.idx (by omega)) fun _ _ => .ok _
  · exact .ok _

protected theorem Safe.areaMono (M0 M1 : ℝ) : Safe (Soot.areaMono M0 M1) := by unfold Soot.areaMono; safe
protected theorem Safe.hacaAlpha (T M0 M1 : ℝ) : Safe (Soot.hacaAlpha T M0 M1) := by unfold Soot.hacaAlpha hacaTanh; safe
protected theorem Safe.hacaRates (h : 8 ≤ s.yGas.length) : Safe (Soot.hacaRates s) := by
  have := Safe.gasC h
  unfold Soot.hacaRates
  repeat' first | exact this _ (by decide) | safe1
protected theorem Safe.ohRate (h : 8 ≤ s.yGas.length) (k : ℝ) : Safe (Soot.ohRate k s) := by
  have := Safe.gasC h
  unfold Soot.ohRate
  repeat' first | exact this _ (by decide) | safe1

protected theorem Safe.grow (g : Grow) {x : Ctx} (h : Fit x s) : Safe (g.rate x s) := by
  have h1 := Safe.gasC h.gas; have h2 := Safe.moments01 h; have h3 := Safe.hacaMoments h; have h4 := Safe.hacaRates h.gas
  unfold Grow.rate
  split <;> repeat' first | exact h1 _ (by decide) | exact Safe.areaMono _ _ | exact Safe.hacaAlpha _ _ _ | safe1

protected theorem Safe.oxid (o : Oxid) {x : Ctx} (h : Fit x s) : Safe (o.rate x s) := by
  have h1 := Safe.gasC h.gas; have h2 := Safe.moments01 h; have h4 := Safe.hacaRates h.gas
  have h5 := Safe.gasP h.gas; have h6 := Safe.ohRate h.gas
  have h7 : ∀ a b, Safe (nscX a b) := fun a b => by unfold nscX; safe
  unfold Oxid.rate
  split <;> repeat' first | exact h1 _ (by decide) | exact h5 _ (by decide) | exact h6 _ | exact h7 _ _ | exact Safe.hacaAlpha _ _ _ | safe1

protected theorem Safe.pahLoop {pre : ℝ} (h : nPah ≤ s.yPah.length) (l : List PahSp) (a : PahAcc) : Safe (Soot.pahLoop s pre l a) := by
  induction l generalizing a with
  | nil => exact .ok _
  | cons sp t ih => exact .bind (.idx (sp.toNat_lt.trans_le h)) fun _ _ => ih _

/-- Nucleation: the collision rate is only asked for with PAH, on the state with a changed `cMin`. -/
protected theorem Safe.nucl (n : Nucl) {ib : State → ℝ → Res ℝ} {x : Ctx} (h : Fit x s) (h9 : n.mech = .LINA1 → 9 ≤ s.yGas.length)
    (ht : n.mech = .AJ_RED ∨ n.mech = .BROWN → 0 < s.tarVar.length) (hib : n.mech = .PAH → ∀ c mD, Safe (ib { s with cMin := c } mD)) : Safe (n.rate ib s) := by
  have h1 := Safe.gasC h.gas
  unfold Nucl.rate
  split
  case h_4 e =>
    have h1 := Safe.gasC (h9 e)
    repeat' first | exact h1 _ (by decide) | safe1
  case h_7 e =>
    have := Safe.idx (ht (.inl e))
    repeat' first | exact h1 _ (by decide) | safe1
  case h_8 e =>
    have := Safe.idx (ht (.inr e))
    repeat' first | exact h1 _ (by decide) | safe1
  case h_9 e =>
    unfold nuclPAH pahPreFac
    repeat' first | exact hib e _ _ | exact Safe.pahLoop h.pah _ _ | safe1
  all_goals repeat' first | exact h1 _ (by decide) | safe1

/-- The state after nucleation has the same sizes. -/
theorem nucl_state {n n' : Nucl} {ib : State → ℝ → Res ℝ} {s s' : State} {j : ℝ} (h : n.rate ib s = ok (j, n', s')) :
    ∃ c, s' = { s with cMin := c } := ⟨_, (Nucl.rate_inv h).2.2.2⟩

protected theorem Safe.gasRates (r : GasSp → ℝ) (x : ℝ) : Safe (Soot.gasRates r x) := by unfold Soot.gasRates; safe
protected theorem Safe.finish (m : Model) (n : Nucl) (soot tar : List ℝ) (a b c : ℝ) : Safe (m.finish n soot tar a b c) := by
  unfold Model.finish
  repeat' first | exact Safe.gasRates _ _ | safe1

/-! ## MONO -/

protected theorem Safe.ibetaNodes (h : s.absc.length ≤ s.wts.length) (mD : ℝ) : Safe (Soot.ibetaNodes c s mD) :=
  .sumLoop fun i hi => .bind (.idx (by omega)) fun _ _ => .bind (.idx hi) fun _ _ => .bind (.coagRate _ _) fun _ _ => .ok _

/-- Sizes for MONO. -/
structure MonoFit (m : Model) (s : State) : Prop extends Fit m.ctx s where
  wts : s.wts.length = 1
  absc : s.absc.length = 1
  src : 2 ≤ m.sources.soot.length
  gas9 : m.nucl.mech = .LINA1 → 9 ≤ s.yGas.length
  gas11 : m.tar = .AJ_RED → 11 ≤ s.yGas.length
  tarV : m.tar ≠ .NONE ∨ m.nucl.mech = .AJ_RED ∨ m.nucl.mech = .BROWN → 0 < s.tarVar.length
  tarS : m.tar ≠ .NONE → 0 < m.sources.tar.length

protected theorem Safe.monoTerms {m : Model} (h : MonoFit m s) (M0 M1 : ℝ) : Safe (Soot.monoTerms m M0 M1 s) := by
  unfold Soot.monoTerms
  refine .bind (.nucl _ h.toFit h.gas9 (fun hx => h.tarV (.inr hx)) fun _ c mD => .ibetaNodes (by simp [h.wts, h.absc]) _) fun p hp => ?_
  obtain ⟨j, n, s'⟩ := p
  obtain ⟨c', rfl⟩ := nucl_state hp
  have h1 := Safe.grow m.grow (h.toFit.upd c' s.wts s.absc)
  have h2 := Safe.oxid m.oxid (h.toFit.upd c' s.wts s.absc)
  have h3 : Safe (idx s.absc 0) := .idx (by simp [h.absc])
  have h4 : Safe (idx s.wts 0) := .idx (by simp [h.wts])
  simp only
  repeat' first | exact h1 | exact h2 | exact h3 | exact h4 | exact Safe.coagRate _ _ | exact Safe.areaMono _ _ | safe1

theorem monoTerms_st {m : Model} {M0 M1 : ℝ} {t : MonoTerms} (h : Soot.monoTerms m M0 M1 s = Res.ok t) :
    ∃ c, t.st = { s with cMin := c } := by
  simp only [Soot.monoTerms, bind_eq_ok] at h
  obtain ⟨⟨j, n, s'⟩, h0, _, _, _, _, _, _, _, _, _, _, _, _, _, _, h⟩ := h
  obtain ⟨c', rfl⟩ := nucl_state h0
  cases h; exact ⟨_, rfl⟩

protected theorem Safe.mono {m : Model} (h : MonoFit m s) : Safe (monoSources m s) := by
  have h2 := h.two; have hs := h.src
  have hn : Safe (monoNodes s) := by
    unfold monoNodes
    refine .bind (.idx (by omega)) fun _ _ => .bind (.idx (by omega)) fun _ _ => ?_
    split_ifs
    · exact .bind (.setIdx (by simp [h.wts])) fun _ _ => .bind (.setIdx (by simp [h.absc])) fun _ _ => .ok _
    · exact .ok _
  unfold monoSources
  refine .bind hn fun p hp => ?_
  obtain ⟨M0, M1, s'⟩ := p
  have hs' : ∃ w a, s' = { s with wts := w, absc := a } ∧ w.length = 1 ∧ a.length = 1 := by
    simp only [monoNodes, bind_eq_ok] at hp
    obtain ⟨_, _, _, _, hp⟩ := hp
    split_ifs at hp
    · simp only [bind_eq_ok] at hp
      obtain ⟨w, hw, a, ha, hp⟩ := hp
      cases hp
      rw [setIdx_eq_ok] at hw ha
      exact ⟨w, a, rfl, by rw [hw.2]; simp [h.wts], by rw [ha.2]; simp [h.absc]⟩
    · cases hp; exact ⟨s.wts, s.absc, rfl, h.wts, h.absc⟩
  obtain ⟨w, a, rfl, hw, ha⟩ := hs'
  have hf : MonoFit m { s with wts := w, absc := a } := ⟨h.toFit.upd s.cMin w a, hw, ha, h.src, h.gas9, h.gas11, h.tarV, h.tarS⟩
  simp only
  have ht := Safe.monoTerms hf M0 M1
  have src : ∀ x y v, setIdx m.sources.soot 0 x = Res.ok v → Safe (setIdx v 1 y) := fun x y v hv => by
    rw [setIdx_eq_ok] at hv; exact .setIdx (by rw [hv.2, List.length_set]; omega)
  have src0 : ∀ x, Safe (setIdx m.sources.soot 0 x) := fun x => .setIdx (by omega)
  split
  · refine .bind ht fun t _ => .bind (src0 _) fun v hv => .bind (src _ _ _ hv) fun _ _ => .bind (.finish _ _ _ _ _ _ _) fun _ _ => .ok _
  · rename_i e
    have hv := h.tarV (.inl (by rw [e]; simp)); have hS := h.tarS (by rw [e]; simp)
    refine .bind (.idx hv) fun _ _ => .bind ht fun t ht => ?_
    obtain ⟨c', est⟩ := monoTerms_st ht
    rw [est]
    have g1 := @Safe.gasC { s with wts := w, absc := a, cMin := c' } _ h.gas
    have g2 := @Safe.gasP { s with wts := w, absc := a, cMin := c' } _ (h.gas11 e)
    have i0 : Safe (idx s.tarVar 0) := .idx hv
    have i1 : Safe (idx s.sootVar 1) := .idx (by omega)
    have i2 : Safe (idx s.sootVar 0) := .idx (by omega)
    refine .bind ?_ fun _ _ => .bind ?_ fun _ _ => .bind ?_ fun _ _ => .bind (src0 _) fun v hv => .bind (src _ _ _ hv) fun _ _ =>
      .bind (.setIdx hS) fun _ _ => .bind (.finish _ _ _ _ _ _ _) fun _ _ => .ok _
    · unfold ajCracking
      repeat' first | exact g1 _ (by decide) | exact i0 | safe1
    · unfold ajSurface
      repeat' first | exact g2 _ (by decide) | safe1
    · unfold ajDeposition
      repeat' first | exact i0 | exact i1 | exact i2 | safe1
  · rename_i e
    have hv := h.tarV (.inl (by rw [e]; simp)); have hS := h.tarS (by rw [e]; simp)
    refine .bind (.idx hv) fun _ _ => .bind ht fun t ht => ?_
    obtain ⟨c', est⟩ := monoTerms_st ht
    rw [est]
    have g1 := @Safe.gasC { s with wts := w, absc := a, cMin := c' } _ h.gas
    have i0 : Safe (idx s.tarVar 0) := .idx hv
    refine .bind ?_ fun _ _ => .bind ?_ fun _ _ => .bind (.csqrt _) fun _ _ => .bind (.cpow _ _) fun _ _ => .bind (.cpow _ _) fun _ _ =>
      .bind (src0 _) fun v hv => .bind (src _ _ _ hv) fun _ _ =>
      .bind (.setIdx hS) fun _ _ => .bind (.finish _ _ _ _ _ _ _) fun _ _ => .ok _
    · unfold brownCracking
      repeat' first | exact g1 _ (by decide) | exact i0 | safe1
    · unfold brownSurface
      repeat' first | exact i0 | safe1

/-! ## LOGN -/

/-- Sizes for LOGN. -/
structure LognFit (m : Model) (s : State) : Prop extends Fit m.ctx s where
  three : 3 ≤ s.sootVar.length
  src : 3 ≤ m.sources.soot.length
  gas9 : m.nucl.mech = .LINA1 → 9 ≤ s.yGas.length
  tarV : m.nucl.mech = .AJ_RED ∨ m.nucl.mech = .BROWN → 0 < s.tarVar.length
  kernel : m.coag.mech ≠ .FUCHS

protected theorem Safe.lognMr (r M0 M1 M2 : ℝ) : Safe (Soot.lognMr r M0 M1 M2) := by unfold Soot.lognMr; safe
protected theorem Safe.lognI1 (M0 M1 M2 mD : ℝ) : Safe (Soot.lognI1 c s M0 M1 M2 mD) := by
  unfold Soot.lognI1
  repeat' first | exact Safe.lognMr _ _ _ _ | exact Safe.kfm | exact Safe.kc | exact Safe.kcp | safe1
protected theorem Safe.lognI2 (M0 M1 M2 mD : ℝ) : Safe (Soot.lognI2 c s M0 M1 M2 mD) := by
  unfold Soot.lognI2
  repeat' first | exact Safe.lognMr _ _ _ _ | exact Safe.kfm | exact Safe.kc | exact Safe.kcp | safe1
protected theorem Safe.lognCoagFM (M0 M1 M2 : ℝ) : Safe (Soot.lognCoagFM c s M0 M1 M2) := by
  unfold Soot.lognCoagFM
  repeat' first | exact Safe.lognMr _ _ _ _ | exact Safe.kfm | exact Safe.kc | exact Safe.kcp | safe1
protected theorem Safe.lognCoagC (M0 M1 M2 : ℝ) : Safe (Soot.lognCoagC c s M0 M1 M2) := by
  unfold Soot.lognCoagC
  repeat' first | exact Safe.lognMr _ _ _ _ | exact Safe.kfm | exact Safe.kc | exact Safe.kcp | safe1
protected theorem Safe.lognCoag (h : c.mech ≠ .FUCHS) (M0 M1 M2 : ℝ) : Safe (Soot.lognCoag c s M0 M1 M2) := by
  unfold Soot.lognCoag
  split
  case h_5 e => exact absurd e h
  all_goals repeat' first | exact Safe.lognCoagFM _ _ _ | exact Safe.lognCoagC _ _ _ | safe1

protected theorem Safe.logn {m : Model} (h : LognFit m s) : Safe (lognSources m s) := by
  have h3 := h.three; have hs := h.src
  unfold lognSources
  refine .bind ?_ fun t _ => .bind (.setIdx (by omega)) fun v hv => ?_
  · unfold lognTerms
    refine .bind (.idx (by omega)) fun M0 _ => .bind (.idx (by omega)) fun M1 _ => .bind (.idx (by omega)) fun M2 _ =>
      .bind (.lognMr _ _ _ _) fun _ _ => .bind (.lognMr _ _ _ _) fun _ _ => .bind (.nucl _ h.toFit h.gas9 h.tarV ?_) fun p hp => ?_
    · intro _ c mD
      unfold lognIbeta
      have i0 : Safe (idx s.sootVar 0) := .idx (by omega)
      have i1 : Safe (idx s.sootVar 1) := .idx (by omega)
      have i2 : Safe (idx s.sootVar 2) := .idx (by omega)
      repeat' first | exact i0 | exact i1 | exact i2 | exact Safe.lognI1 _ _ _ _ | safe1
    · obtain ⟨j, n, s'⟩ := p
      obtain ⟨c', rfl⟩ := nucl_state hp
      have h1 := Safe.grow m.grow (h.toFit.upd c' s.wts s.absc)
      have h2 := Safe.oxid m.oxid (h.toFit.upd c' s.wts s.absc)
      simp only
      repeat' first | exact h1 | exact h2 | exact Safe.lognI1 _ _ _ _ | exact Safe.lognI2 _ _ _ _ | exact Safe.lognCoag h.kernel _ _ _ | safe1
  · rw [setIdx_eq_ok] at hv
    have l1 : 3 ≤ v.length := by rw [hv.2]; simpa using hs
    refine .bind (.setIdx (by omega)) fun u hu => ?_
    rw [setIdx_eq_ok] at hu
    have l2 : 3 ≤ u.length := by rw [hu.2]; simpa using l1
    exact .bind (.setIdx (by omega)) fun _ _ => .bind (.finish _ _ _ _ _ _ _) fun _ _ => .ok _

/-! ## QMOM -/

/-- Sizes for QMOM. -/
structure QmomFit (m : Model) (s : State) : Prop extends Fit m.ctx s where
  gas9 : m.nucl.mech = .LINA1 → 9 ≤ s.yGas.length
  tarV : m.nucl.mech = .AJ_RED ∨ m.nucl.mech = .BROWN → 0 < s.tarVar.length
  wts : s.wts.length = s.sootVar.length / 2
  absc : s.absc.length = s.sootVar.length / 2
  table : m.coag.mech ≠ .NONE → m.nsoot ≤ 35

theorem downselect_le (eig : Eig) (M : List ℝ) (N : ℕ) : (downselect eig M N).1 ≤ N := by
  match N with
  | 0 => simp [downselect]
  | 1 => simp [downselect]
  | n + 2 =>
    have := downselect_le eig M (n + 1)
    unfold downselect
    split_ifs
    · simp
    · omega

protected theorem Safe.getWtsAbs (eig : Eig) {M w a : List ℝ} (h2 : 2 ≤ M.length) (hw : w.length = M.length / 2) (ha : a.length = M.length / 2) :
    Safe (Soot.getWtsAbs eig M w a) := by
  unfold Soot.getWtsAbs
  refine .bind (.idx (by omega)) fun _ _ => ?_
  have := downselect_le eig M (M.length / 2)
  simp only
  split_ifs with h1 h3 h4
  · exact .ok _
  · omega
  · exact .ok _
  · exact absurd ⟨by omega, by omega⟩ h4

theorem getWtsAbs_lens {eig : Eig} {M w a w' a' : List ℝ} (h : Soot.getWtsAbs eig M w a = Res.ok (w', a')) :
    w'.length = w.length ∧ a'.length = a.length := by
  simp only [Soot.getWtsAbs, bind_eq_ok] at h
  obtain ⟨_, _, h⟩ := h
  split_ifs at h <;> cases h <;> simp [padded]

protected theorem Safe.qmomMrLoop {r : ℝ} {w a : List ℝ} (h : w.length ≤ a.length) (n i : ℕ) (acc : ℝ) (hi : i + n ≤ w.length) :
    Safe (Soot.qmomMrLoop r w a n i acc) := by
  induction n generalizing i acc with
  | zero => exact .ok _
  | succ n ih =>
    unfold Soot.qmomMrLoop
    refine .bind (.idx (by omega)) fun _ _ => ?_
    split_ifs
    · exact .ok _
    · refine .bind (.idx (by omega)) fun _ _ => ?_
      split_ifs
      · exact .ok _
      · exact .bind (.cpow _ _) fun _ _ => ih _ _ (by omega)

protected theorem Safe.binom {r k : ℕ} (hr : r < 35) (hk : k ≤ r) : Safe (Soot.binom r k) := by
  have e : (2 ^ 32 + r - k) % 2 ^ 32 = r - k := by omega
  have hl : factorials.length = 35 := rfl
  unfold Soot.binom
  rw [e, if_neg (by omega)]
  exact .bind (.idx (by omega)) fun _ _ => .bind (.idx (by omega)) fun _ _ => .bind (.idx (by omega)) fun _ _ => .cdiv _ _

protected theorem Safe.qmomCoagR {m : Model} (h : s.absc.length ≤ s.wts.length) {r : ℕ} (hr : r < 35) : Safe (Soot.qmomCoagR m s r) := by
  unfold Soot.qmomCoagR
  refine .bind (.sumLoop fun i hi => .sumLoop fun j hj => ?_) fun _ _ => .bind (.sumLoop fun k hk => .binom hr (by omega)) fun _ _ =>
    .bind (.sumLoop fun i hi => ?_) fun _ _ => .ok _
  · exact .bind (.idx hi) fun _ _ => .bind (.idx (by omega)) fun _ _ =>
      .bind (.sumLoop fun k hk => .bind (.binom hr (by omega)) fun _ _ => .ok _) fun _ _ =>
      .bind (.coagRate _ _) fun _ _ => .bind (.idx (by omega)) fun _ _ => .bind (.idx (by omega)) fun _ _ => .ok _
  · exact .bind (.idx hi) fun _ _ => .bind (.coagRate _ _) fun _ _ => .bind (.idx (by omega)) fun _ _ => .ok _

protected theorem Safe.momFinish (m : Model) (t : MomTerms) : Safe (Soot.momFinish m t) := .bind (.finish _ _ _ _ _ _ _) fun _ _ => .ok _

protected theorem Safe.qmom (eig : Eig) {m : Model} (h : QmomFit m s) : Safe (qmomSources eig m s) := by
  unfold qmomSources
  refine .bind (.getWtsAbs eig h.two h.wts h.absc) fun p hp => ?_
  obtain ⟨w, a⟩ := p
  obtain ⟨hw, ha⟩ := getWtsAbs_lens hp
  rw [h.wts] at hw; rw [h.absc] at ha
  refine .bind ?_ fun _ _ => .momFinish _ _
  unfold qmomTerms
  refine .bind (.nucl _ (h.toFit.upd s.cMin w a) h.gas9 h.tarV fun _ c mD => .ibetaNodes (by simp [hw, ha]) _) fun p hp => ?_
  obtain ⟨j, n, s'⟩ := p
  obtain ⟨c', rfl⟩ := nucl_state hp
  have hf := h.toFit.upd c' w a
  have surf : ∀ P K, Safe (qmomSurf m { s with wts := w, absc := a, cMin := c' } P K) := fun P K => by
    unfold qmomSurf
    split_ifs
    · refine .tabLoop fun k _ => ?_
      split_ifs
      · exact .ok _
      · exact .bind (.qmomMrLoop (by simp [hw, ha]) _ _ _ (by simp)) fun _ _ => .ok _
    · exact .ok _
  simp only
  refine .bind (.grow _ hf) fun _ _ => .bind (.oxid _ hf) fun _ _ => .bind ?_ fun _ _ => .bind (surf _ _) fun _ _ =>
    .bind (surf _ _) fun _ _ => .bind ?_ fun _ _ => .ok _
  · unfold qmomCnd
    split_ifs
    · refine .tabLoop fun k _ => ?_
      by_cases h0 : k = 0
      · rw [if_pos h0]; exact .ok _
      · rw [if_neg h0]
        refine .bind (.sumLoop fun i hi => ?_) fun _ _ => .ok _
        simp only at hi
        exact .bind (.idx hi) fun _ _ => .bind (.coagRate _ _) fun _ _ => .bind (.idx (by simp only; omega)) fun _ _ => .ok _
    · exact .ok _
  · unfold qmomCoag
    split_ifs with hc
    · have := h.table hc
      refine .tabLoop fun r hr => ?_
      split_ifs
      · exact .ok _
      · exact .qmomCoagR (by simp [hw, ha]) (by omega)
    · exact .ok _

/-! ## SECT -/

/-- Sizes for SECT. -/
structure SectFit (m : Model) (s : State) : Prop extends Fit m.ctx s where
  bins : Bins m.nsoot m.mBins
  gas9 : m.nucl.mech = .LINA1 → 9 ≤ s.yGas.length
  tarV : m.nucl.mech = .AJ_RED ∨ m.nucl.mech = .BROWN → 0 < s.tarVar.length
  soot : m.nsoot ≤ s.sootVar.length

section
variable {n : ℕ} {bins : List ℝ} {cs : ℕ → ℝ}

protected theorem Safe.fluxUp {k : ℕ} (h : k + 1 < bins.length) : Safe (Soot.fluxUp bins cs k) :=
  .bind (.idx h) fun _ _ => .bind (.idx (by omega)) fun _ _ => .cdiv _ _
protected theorem Safe.fluxDown {k : ℕ} (h : k < bins.length) : Safe (Soot.fluxDown bins cs k) :=
  .bind (.idx h) fun _ _ => .bind (.idx (by omega)) fun _ _ => .cdiv _ _
protected theorem Safe.upLoop {k : ℕ} (h : k + 1 < bins.length) : Safe (Soot.upLoop bins cs k) := by
  induction k with
  | zero => exact .bind (.fluxUp h) fun _ _ => .ok _
  | succ k ih => exact .bind (ih (by omega)) fun _ _ => .bind (.fluxUp h) fun _ _ => .ok _
protected theorem Safe.downLoop {d : ℕ} (h : 2 ≤ n) (hl : bins.length = n) : Safe (Soot.downLoop n bins cs d) := by
  induction d with
  | zero => exact .bind (.fluxDown (by omega)) fun _ _ => .ok _
  | succ d ih => exact .bind ih fun _ _ => .bind (.fluxDown (by omega)) fun _ _ => .ok _
protected theorem Safe.sectUp (h : 2 ≤ n) (hl : bins.length = n) : Safe (Soot.sectUp n bins cs) :=
  .bind (.upLoop (by omega)) fun _ _ => .bind (.idx (by omega)) fun _ _ => .bind (.cdiv _ _) fun _ _ => .ok _
protected theorem Safe.sectDown (h : 2 ≤ n) (hl : bins.length = n) : Safe (Soot.sectDown n bins cs) :=
  .bind (.downLoop h hl) fun _ _ => .bind (.idx (by omega)) fun _ _ => .bind (.cdiv _ _) fun _ _ => .ok _
protected theorem Safe.ibetaLoop {k : ℕ} (h : k + 1 < bins.length) : Safe (Soot.ibetaLoop bins cs k) := by
  induction k with
  | zero => exact .bind (.fluxUp h) fun _ _ => .bind (.idx (by omega)) fun _ _ => .ok _
  | succ k ih => exact .bind (ih (by omega)) fun _ _ => .bind (.fluxUp h) fun _ _ => .bind (.idx (by omega)) fun _ _ => .ok _
protected theorem Safe.bump {S : ℕ → ℝ} {k : ℕ} {v : ℝ} (h : k < n) : Safe (Soot.bump n S k v) := by
  rw [Soot.bump, if_pos h]; exact .ok _

protected theorem Safe.coagPair {f : ℝ} {i j : ℕ} {S : ℕ → ℝ} (hb : Bins n bins) (hs : n ≤ s.sootVar.length) (hf : Searchable n bins f)
    (hi : i < n) (hj : j < n) : Safe (Soot.coagPair n bins c s f i j S) := by
  have hl := hb.len; have h2 := hb.two
  unfold Soot.coagPair
  refine .bind (.idx (by omega)) fun mi hmi => .bind (.idx (by omega)) fun mj hmj => .bind (.coagRate _ _) fun K _ =>
    .bind (.idx (by omega)) fun ni _ => .bind (.idx (by omega)) fun nj _ => .bind (.bump hi) fun S1 _ => .bind ?_ fun S2 _ =>
    .bind (.idx (by omega)) fun m0 hm0 => .bind (.cdiv _ _) fun q hq => .bind (.clog _) fun l hl' => .bind ?_ fun k _ => ?_
  · split_ifs
    · exact .bump hj
    · exact .ok _
  · obtain ⟨_, rfl⟩ := idx_inv hmi
    obtain ⟨_, rfl⟩ := idx_inv hmj
    obtain ⟨_, rfl⟩ := idx_inv hm0
    rw [cdiv_eq_ok] at hq
    obtain ⟨_, rfl⟩ := hq
    unfold Soot.clog at hl'
    split_ifs at hl'
    cases hl'
    obtain ⟨h1, h2⟩ := hf i j hi hj
    rw [toSizeT, if_neg (by rintro (h | h) <;> linarith)]
    exact .ok _
  · simp only
    split_ifs
    all_goals first
      | exact .bind (.idx (by omega)) fun _ _ => .bind (.cdiv _ _) fun _ _ => .bump (by omega)
      | exact .bind (.idx (by omega)) fun _ _ => .bind (.idx (by omega)) fun _ _ => .bind (.cdiv _ _) fun _ _ =>
          .bind (.bump (by omega)) fun _ _ => .bump (by omega)
      | omega

theorem mem_pairs' {n i j : ℕ} (h : (i, j) ∈ pairs n) : i < n ∧ j < n := by
  simp only [pairs, List.mem_flatMap, List.mem_range, List.mem_map, List.mem_range'_1, Prod.mk.injEq] at h
  obtain ⟨a, ha, b, hb, rfl, rfl⟩ := h
  omega

protected theorem Safe.coagLoop {f : ℝ} (hb : Bins n bins) (hs : n ≤ s.sootVar.length) (hf : Searchable n bins f)
    (l : List (ℕ × ℕ)) (hl : ∀ p ∈ l, p.1 < n ∧ p.2 < n) (S : ℕ → ℝ) : Safe (Soot.coagLoop n bins c s f l S) := by
  induction l generalizing S with
  | nil => exact .ok _
  | cons p t ih =>
    obtain ⟨i, j⟩ := p
    obtain ⟨h1, h2⟩ := hl (i, j) (by simp)
    exact .bind (.coagPair hb hs hf h1 h2) fun _ _ => ih (fun p hp => hl p (by simp [hp])) _

end

theorem ilnFStatic_safe (glob : Option ℝ) (F : ℝ) : Safe (ilnFStatic glob F) := by
  unfold ilnFStatic; safe

protected theorem Safe.sect {m : Model} {glob : Option ℝ} (h : SectFit m s)
    (hg : m.coag.mech ≠ .NONE → ∀ f, ilnFStatic glob m.binF = Res.ok f → Searchable m.nsoot m.mBins f) :
    Safe (sectSources m glob s) := by
  have hb := h.bins; have hl := hb.len; have h2 := hb.two; have hs := h.soot
  have tab : Safe (Soot.tabLoop m.nsoot fun k => Soot.idx s.sootVar k) := .tabLoop fun k hk => .idx (by omega)
  have bds : ∀ c mD, Safe (betaDS m { s with cMin := c } mD) := fun c mD => .tabLoop fun k hk => .bind (.idx (by omega)) fun _ _ => .coagRate _ _
  have fin : ∀ g : ℕ → ℝ, Safe (Soot.sumLoop m.nsoot fun k => Soot.idx m.mBins k >>= fun b => Res.ok (g k * b)) :=
    fun g => .sumLoop fun k hk => .bind (.idx (by omega)) fun _ _ => .ok _
  unfold sectSources
  refine .bind ?_ fun t _ => .bind (fin _) fun _ _ => .bind (fin _) fun _ _ => .bind (fin _) fun _ _ =>
    .bind (.finish _ _ _ _ _ _ _) fun _ _ => .ok _
  unfold sectTerms
  refine .bind (.nucl _ h.toFit h.gas9 h.tarV ?_) fun p hp => ?_
  · intro _ c mD
    exact .bind (bds _ _) fun _ _ => .bind tab fun _ _ => .bind (.ibetaLoop (by omega)) fun _ _ => .bind (.idx (by omega)) fun _ _ =>
      .bind (.cdiv _ _) fun _ _ => .ok _
  obtain ⟨j, n, s'⟩ := p
  obtain ⟨c', rfl⟩ := nucl_state hp
  have hf := h.toFit.upd c' s.wts s.absc
  simp only
  refine .bind (.grow _ hf) fun _ _ => .bind (.oxid _ hf) fun _ _ => .bind ?_ fun _ _ => .bind (.tabLoop fun k hk => ?_) fun _ _ =>
    .bind ?_ fun _ _ => .bind ?_ fun _ _ => .bind ?_ fun _ _ => .bind ?_ fun _ _ => .ok _
  · split_ifs
    · exact .bind (.idx (by omega)) fun _ _ => .bind (.cdiv _ _) fun _ _ => .ok _
    · exact .ok _
  · exact .bind (.idx (by omega)) fun _ _ => .bind (.cpow _ _) fun _ _ => .bind (.idx (by omega)) fun _ _ => .ok _
  · split_ifs
    · exact .sectUp h2 hl
    · exact .ok _
  · split_ifs
    · exact .bind (bds _ _) fun _ _ => .bind tab fun _ _ => .sectUp h2 hl
    · exact .ok _
  · split_ifs
    · exact .sectDown h2 hl
    · exact .ok _
  · unfold sectCoag
    split_ifs with hc
    · refine .bind (ilnFStatic_safe _ _) fun f hf => .bind (.coagLoop (s := { s with cMin := c' }) hb hs (hg hc f hf) _ (fun p hp => mem_pairs' hp) _) fun _ _ => .ok _
    · exact .ok _

/-! ## MOMIC -/

/-- Sizes for MOMIC. -/
structure MomicFit (m : Model) (s : State) : Prop extends Fit m.ctx s where
  gas9 : m.nucl.mech = .LINA1 → 9 ≤ s.yGas.length
  tarV : m.nucl.mech = .AJ_RED ∨ m.nucl.mech = .BROWN → 0 < s.tarVar.length
  three : 3 ≤ m.nsoot
  seven : m.nsoot ≤ 7
  soot : s.sootVar.length = m.nsoot

section
variable {P Q : List ℝ} {N : ℕ}

protected theorem Safe.bilin {xi yi : ℕ} (ts : List (ℝ × ℕ × ℕ)) (h : ∀ t ∈ ts, xi + t.2.1 < Q.length ∧ yi + t.2.2 < Q.length) :
    Safe (Soot.bilin Q xi yi ts) := by
  induction ts with
  | nil => exact .ok _
  | cons t ts ih =>
    obtain ⟨c, i, j⟩ := t
    obtain ⟨h1, h2⟩ := h (c, i, j) (by simp)
    exact .bind (.idx h1) fun _ _ => .bind (.idx h2) fun _ _ => .bind (ih fun t ht => h t (by simp [ht])) fun _ _ => .ok _

protected theorem Safe.dimlin {mD : ℝ} {yi : ℕ} (ts : List (ℝ × ℤ × ℕ)) (h : ∀ t ∈ ts, yi + t.2.2 < Q.length) :
    Safe (Soot.dimlin Q mD yi ts) := by
  induction ts with
  | nil => exact .ok _
  | cons t ts ih =>
    obtain ⟨c, p, i⟩ := t
    exact .bind (.cpow _ _) fun _ _ => .bind (.idx (h (c, p, i) (by simp))) fun _ _ => .bind (ih fun t ht => h t (by simp [ht])) fun _ _ => .ok _

/-- The number of grid points used shrinks as the order grows. -/
protected theorem Safe.gridHalf {y : ℕ} {f : Fin 4 → Res ℝ}
    (h : ∀ l : Fin 4, (l.val ≤ 1 ∨ (l.val = 2 ∧ y ≤ 3) ∨ (l.val = 3 ∧ y ≤ 2)) → Safe (f l)) : Safe (Soot.gridHalf y f) := by
  unfold Soot.gridHalf
  refine .bind (h 0 (by simp)) fun _ _ => .bind (h 1 (by simp)) fun _ _ => ?_
  split_ifs with h1 h2
  · have a2 := h 2 (by simp; omega); have a3 := h 3 (by simp; omega)
    repeat' first | exact a2 | exact a3 | safe1
  · have a2 := h 2 (by simp; omega)
    repeat' first | exact a2 | safe1
  · safe

protected theorem Safe.fGrid {x y : ℕ} (h : ∀ l : Fin 4, (l.val ≤ 1 ∨ (l.val = 2 ∧ y ≤ 3) ∨ (l.val = 3 ∧ y ≤ 2)) →
    3 * x + 3 * l + 2 < Q.length ∧ 3 * y + 3 * l + 2 < Q.length) : Safe (Soot.fGrid Q x y) := by
  refine .gridHalf fun l hl => ?_
  obtain ⟨h1, h2⟩ := h l hl
  unfold fPt
  split_ifs with e
  · refine .bind (.bilin _ fun t ht => ?_) fun _ _ => .ok _
    have := fSym_range l t ht; omega
  · refine .bilin _ fun t ht => ?_
    have := fFull_range l t ht; omega

protected theorem Safe.gGrid {mD : ℝ} {y : ℕ} (h0 : y ≠ 0) (h : 3 * y + 9 ≤ Q.length) : Safe (Soot.gGrid Q mD y) := by
  rw [Soot.gGrid, if_neg h0]
  refine .gridHalf fun l _ => .dimlin _ fun t ht => ?_
  have := gTerms_range l t ht; have := l.isLt; omega

protected theorem Safe.dimerC {mD K : ℝ} (h : 4 ≤ P.length) : Safe (Soot.dimerC P mD K) := by
  have i0 : Safe (idx P 0) := .idx (by omega)
  have i1 : Safe (idx P 1) := .idx (by omega)
  have i2 : Safe (idx P 2) := .idx (by omega)
  have i3 : Safe (idx P 3) := .idx (by omega)
  unfold Soot.dimerC; safe

protected theorem Safe.pairC {K : ℝ} {k q : ℕ} (hk : k * 3 + 3 < P.length) (hq : q * 3 + 3 < P.length) : Safe (Soot.pairC P K k q) := by
  unfold Soot.pairC
  exact .bind (.idx (by omega)) fun _ _ => .bind (.idx (by omega)) fun _ _ => .bind (.idx (by omega)) fun _ _ =>
    .bind (.idx (by omega)) fun _ _ => .bind (.idx (by omega)) fun _ _ => .bind (.idx (by omega)) fun _ _ =>
    .bind (.idx (by omega)) fun _ _ => .bind (.idx (by omega)) fun _ _ => .ok _

protected theorem Safe.momicCoagRates {M : List ℝ} (hM : 0 < M.length) (hN : N ≤ 35) (h3 : 3 ≤ N) (hP : 3 * N + 1 ≤ P.length)
    (hQ : 3 * N + 9 ≤ Q.length) : Safe (Soot.momicCoagRates c s N M P Q) := by
  have fg : ∀ x y, x < N → y < N → Safe (fGrid Q x y) := fun x y hx hy => .fGrid fun l _ => by have := l.isLt; omega
  unfold Soot.momicCoagRates
  refine .bind (.idx hM) fun M0 _ => ?_
  by_cases h0 : M0 ≤ 0
  · rw [if_pos h0]; exact .ok _
  rw [if_neg h0]
  refine .bind ?_ fun _ _ => .bind ?_ fun _ _ => .tabLoop fun r _ => by safe
  · split_ifs
    · unfold momicFM
      refine .bind .kfm fun _ _ => .tabLoop fun r hr => ?_
      split_ifs with e1 e0
      · exact .ok _
      · exact .bind (fg _ _ (by omega) (by omega)) fun _ _ => .ok _
      · exact .bind (.sumLoop fun k hk => .bind (.binom (by omega) (by omega)) fun _ _ => .bind (fg _ _ (by omega) (by omega)) fun _ _ => .ok _)
          fun _ _ => .ok _
    · exact .ok _
  · split_ifs
    · unfold momicC
      refine .bind .kc fun _ _ => .bind .kcp fun _ _ => .tabLoop fun r hr => ?_
      split_ifs with e1 e0
      · exact .ok _
      · exact .bind (.idx (by omega)) fun _ _ => .bind (.idx (by omega)) fun _ _ => .bind (.idx (by omega)) fun _ _ =>
          .bind (.idx (by omega)) fun _ _ => .ok _
      · exact .bind (.forLoop fun k hk _ => .bind (.binom (by omega) (by omega)) fun _ _ => .bind (.pairC (by omega) (by omega)) fun _ _ => .ok _)
          fun _ _ => .ok _
    · exact .ok _

protected theorem Safe.momic {m : Model} (h : MomicFit m s) : Safe (momicSources m s) := by
  have h3 := h.three; have h7 := h.seven; have hl := h.soot
  obtain ⟨T, hT, hn, hv⟩ := setDiffTable_ok (M := s.sootVar) ⟨m.nsoot, fun _ _ => none⟩ (by simp [hl])
  simp only at hn hv
  have ht : TabOf s.sootVar T := ⟨by rw [hn, hl], fun i j hij => hv i j (by omega)⟩
  obtain ⟨P, Q, hP, hQ, hF⟩ := momicPQ_ok ht (by omega) (by omega)
  have pl := hF.plen; have ql := hF.qlen
  rw [momicSources, hT, ok_bind, hP, ok_bind, hQ, ok_bind]
  refine .bind ?_ fun _ _ => .momFinish _ _
  unfold momicTerms
  refine .bind (.nucl _ h.toFit h.gas9 h.tarV ?_) fun p hp => ?_
  · intro _ c mD
    unfold momicIbeta
    have g := @Safe.gGrid Q mD 1 (by simp) (by omega)
    have d : ∀ K, Safe (dimerC P mD K) := fun K => .dimerC (by omega)
    repeat' first | exact g | exact d _ | exact Safe.kc | exact Safe.kcp | exact Safe.kfm | safe1
  obtain ⟨j, n, s'⟩ := p
  obtain ⟨c', rfl⟩ := nucl_state hp
  have hf := h.toFit.upd c' s.wts s.absc
  have surf : ∀ p K, Safe (momicSurf m T p K) := fun p K => by
    unfold momicSurf
    split_ifs
    · refine .tabLoop fun k _ => ?_
      split_ifs
      · exact .ok _
      · exact .bind (.of_ok (momicMr_ok ht (by omega) _)) fun _ _ => .ok _
    · exact .ok _
  simp only
  refine .bind (.grow _ hf) fun _ _ => .bind (.oxid _ hf) fun _ _ => .bind ?_ fun _ _ => .bind (surf _ _) fun _ _ =>
    .bind (surf _ _) fun _ _ => .bind ?_ fun _ _ => .ok _
  · unfold momicCnd
    split_ifs
    · refine .bind .kc fun _ _ => .bind .kcp fun _ _ => .bind (.tabLoop fun k hk => ?_) fun _ _ => .bind .kfm fun _ _ =>
        .bind (.tabLoop fun k hk => ?_) fun _ _ => .tabLoop fun k hk => by safe
      · split_ifs
        · exact .ok _
        · exact .bind (.dimerC (by omega)) fun _ _ => .ok _
      · split_ifs with e
        · exact .ok _
        · exact .bind (.gGrid e (by omega)) fun _ _ => .ok _
    · exact .ok _
  · split_ifs
    · exact .momicCoagRates (by omega) (by omega) h3 (by omega) (by omega)
    · exact .ok _

end

end

end Soot
