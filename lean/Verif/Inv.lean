import Verif.Model
import Verif.Props.Rates
import Mathlib.Tactic.IntervalCases

/-!
# Invariants of model objects and the conservation lemma shared by all PSD models
-/

namespace Soot

open Res Real
open scoped Classical

/-- A nucleation object as its constructor and its own calls leave it: unchanged except that PAH
nucleation rewrites the C and H2 ratios, the dimer data and the PAH rates. -/
structure Nucl.WF (n : Nucl) : Prop where
  new : n.mech ≠ .PAH → n = Nucl.new n.mech
  pah : n.mech = .PAH → ∀ sp, sp ≠ .C → sp ≠ .H2 → n.ratio sp = 0

/-- A model object as its constructors and its own source evaluations leave it. -/
structure Model.WF (m : Model) : Prop where
  nucl : m.nucl.WF
  grow : m.grow = Grow.new m.grow.mech
  oxid : m.oxid = Oxid.new m.oxid.cls
  srcPah : m.nucl.mech ≠ .PAH → m.sources.pah = fun _ => 0
  srcTar : m.tar = .NONE → m.sources.tar = List.replicate m.Ntar 0
  tarLen : m.sources.tar.length = m.Ntar
  tarTail : m.sources.tar.tail = List.replicate (m.Ntar - 1) 0
  srcLen : m.sources.soot.length = m.nsoot

/-- The model object as its constructor made it. -/
noncomputable def Model.canon (m : Model) : Model :=
  { m with nucl := Nucl.new m.nucl.mech, sources := Sources.new m.nsoot m.Ntar }

theorem oxid_none {o : Oxid} (h : o = Oxid.new o.cls) : o.mechType = .NONE ↔ o.cls = .NONE := by
  have e : o.mechType = oxidMechType o.cls := congrArg Oxid.mechType h
  rw [e]; cases o.cls <;> simp [oxidMechType]

theorem nuclPAH_mech {n : Nucl} {ib : State → ℝ → Res ℝ} {s : State} {j : ℝ} {n' : Nucl} {s' : State}
    (h : nuclPAH n ib s = ok (j, n', s')) :
    n'.mech = n.mech ∧ s' = { s with cMin := s'.cMin } := by
  simp only [nuclPAH, bind_eq_ok] at h
  obtain ⟨_, _, _, _, _, _, _, _, _, _, _, _, h⟩ := h
  cases h
  exact ⟨rfl, rfl⟩

/-- A nucleation call keeps the mechanism type; without PAH it changes neither mechanism nor state. -/
theorem Nucl.rate_inv {n : Nucl} {ib : State → ℝ → Res ℝ} {s : State} {j : ℝ} {n' : Nucl} {s' : State}
    (h : n.rate ib s = ok (j, n', s')) :
    n'.mech = n.mech ∧ (n.mech ≠ .PAH → n' = n ∧ s' = s) ∧ (n.mech = .NONE → j = 0) ∧
      s' = { s with cMin := s'.cMin } := by
  unfold Nucl.rate at h
  rcases hm : n.mech <;> simp only [hm] at h
  case PAH =>
    obtain ⟨h1, h2⟩ := nuclPAH_mech h
    exact ⟨h1.trans hm, by simp, by simp, h2⟩
  case NONE => cases h; exact ⟨hm, by simp, by simp, rfl⟩
  all_goals
    simp only [bind_eq_ok] at h
    have h' : n' = n ∧ s' = s := by
      first
      | (obtain ⟨_, _, h⟩ := h; cases h; exact ⟨rfl, rfl⟩)
      | (obtain ⟨_, _, _, _, h⟩ := h; cases h; exact ⟨rfl, rfl⟩)
      | (obtain ⟨_, _, _, _, _, _, h⟩ := h; cases h; exact ⟨rfl, rfl⟩)
      | (obtain ⟨_, _, _, _, _, _, _, _, h⟩ := h; cases h; exact ⟨rfl, rfl⟩)
      | (obtain ⟨_, _, _, _, _, _, _, _, _, _, h⟩ := h; cases h; exact ⟨rfl, rfl⟩)
    obtain ⟨rfl, rfl⟩ := h'
    exact ⟨hm, by simp, by simp, rfl⟩

/-- The mechanism after a nucleation call is still well formed. -/
theorem Nucl.rate_wf {n : Nucl} {ib : State → ℝ → Res ℝ} {s : State} {j : ℝ} {n' : Nucl} {s' : State}
    (hn : n.WF) (h : n.rate ib s = ok (j, n', s')) : n'.WF := by
  obtain ⟨h1, h2, _⟩ := Nucl.rate_inv h
  refine ⟨fun hp => ?_, fun hp => ?_⟩
  · rw [h1] at hp ⊢
    rw [(h2 hp).1]; exact hn.new hp
  · have hp' : n.mech = .PAH := h1 ▸ hp
    rw [Nucl.rate, hp'] at h
    simp only [nuclPAH, bind_eq_ok] at h
    obtain ⟨_, _, _, _, _, _, _, _, _, _, _, _, h⟩ := h
    cases h
    intro sp h3 h4
    simp [Function.update_of_ne h3, Function.update_of_ne h4, hn.pah hp' sp h3 h4]

theorem pahRatio_canon {n : Nucl} (hn : n.WF) (hp : n.mech = .PAH) (x : ℝ) :
    Function.update (Function.update n.ratio .C 1) .H2 x =
      Function.update (Function.update (Nucl.new .PAH).ratio .C 1) .H2 x := by
  funext sp
  by_cases h2 : sp = .H2
  · subst h2; simp
  · by_cases h1 : sp = .C
    · subst h1; simp [Function.update_of_ne h2]
    · rw [Function.update_of_ne h2, Function.update_of_ne h1, Function.update_of_ne h2, Function.update_of_ne h1,
        hn.pah hp sp h1 h2]
      cases sp <;> simp_all [Nucl.new, nuclRatio]

theorem pahLoop_rates (s : State) (pre : ℝ) (r r' : PahSp → ℝ) :
    pahLoop s pre pahAll ⟨0, 0, s.cMin, 0, r⟩ = pahLoop s pre pahAll ⟨0, 0, s.cMin, 0, r'⟩ := by
  simp only [pahAll, pahLoop]
  congr 1; funext y1; congr 1; funext y2; congr 1; funext y3; congr 1; funext y4; congr 1; funext y5
  congr 1; funext y6; congr 2
  funext sp
  cases sp <;> simp

/-- A nucleation call does not depend on what earlier calls left in the mechanism object. -/
theorem Nucl.rate_canon {n : Nucl} (hn : n.WF) (ib : State → ℝ → Res ℝ) (s : State) :
    n.rate ib s = (Nucl.new n.mech).rate ib s := by
  by_cases hp : n.mech = .PAH
  · have e : ∀ n : Nucl, n.mech = .PAH → n.rate ib s = nuclPAH n ib s := fun n h => by rw [Nucl.rate, h]
    rw [e n hp, hp, e (Nucl.new .PAH) rfl]
    simp only [nuclPAH]
    rw [show (Nucl.new .PAH).pahRates = fun _ => 0 from rfl]
    simp only [pahLoop_rates s _ n.pahRates (fun _ => 0), pahRatio_canon hn hp]
    rw [hp]; rfl
  · rw [← hn.new hp]

theorem Nucl.new_wf (x : NuclMech) : (Nucl.new x).WF :=
  ⟨fun _ => rfl, fun hp => by
    have hp : x = .PAH := hp
    subst hp; intro sp h1 h2; cases sp <;> simp_all [Nucl.new, nuclRatio]⟩

theorem gasRates_C {r : GasSp → ℝ} {x : ℝ} {g : GasSp → ℝ} (h : gasRates r x = ok g) : g .C = 0 := by
  unfold gasRates at h; split_ifs at h; cases h; simp

theorem gasRates_zero {r : GasSp → ℝ} {g : GasSp → ℝ} (h : gasRates r 0 = ok g) : g = fun _ => 0 := by
  unfold gasRates at h; split_ifs at h; cases h; funext sp; simp

/-- The three gas contributions of `finish`. -/
theorem Model.finish_inv {m m' : Model} {n : Nucl} {v w : List ℝ} {N1 G1 X1 : ℝ}
    (h : m.finish n v w N1 G1 X1 = ok m') :
    ∃ gn gg go, gasRates n.ratio N1 = ok gn ∧ gasRates m.grow.ratio G1 = ok gg ∧
      gasRates m.oxid.ratio X1 = ok go ∧
      m' = { m with
        nucl := n
        sources :=
          { soot := v, gas := fun sp => gn sp + gg sp + go sp
            pah := if n.mech = .PAH then n.pahRates else m.sources.pah, tar := w } } := by
  simp only [Model.finish, bind_eq_ok] at h
  obtain ⟨gn, h1, gg, h2, go, h3, h⟩ := h
  cases h
  exact ⟨gn, gg, go, h1, h2, h3, rfl⟩

/-- Mass balance of the final block: with well-formed mechanisms and no PAH, the gas sources sum to minus
the three soot mass rates. -/
theorem Model.finish_balance {m m' : Model} {n : Nucl} {v w : List ℝ} {N1 G1 X1 : ℝ} (hw : m.WF)
    (hp : n.mech ≠ .PAH) (hn : n.WF)
    (hN : n.mech = .NONE → N1 = 0) (hG : m.grow.mech = .NONE → G1 = 0)
    (hX : m.oxid.mechType = .NONE → X1 = 0)
    (h : m.finish n v w N1 G1 X1 = ok m') : ∑ sp, m'.sources.gas sp = -(N1 + G1 + X1) := by
  obtain ⟨gn, gg, go, h1, h2, h3, rfl⟩ := Model.finish_inv h
  have e1 : ∑ sp, gn sp = -N1 := by
    by_cases hx : n.mech = .NONE
    · rw [hN hx] at h1 ⊢; rw [gasRates_zero h1]; simp
    · obtain ⟨g, hg, hs⟩ := (C08_mass_conserved N1).1 n.mech hx hp
      rw [← hn.new hp, h1] at hg; cases hg; exact hs
  have e2 : ∑ sp, gg sp = -G1 := by
    by_cases hx : m.grow.mech = .NONE
    · rw [hG hx] at h2 ⊢; rw [gasRates_zero h2]; simp
    · obtain ⟨g, hg, hs⟩ := (C08_mass_conserved G1).2.1 m.grow.mech hx
      rw [← hw.grow, h2] at hg; cases hg; exact hs
  have e3 : ∑ sp, go sp = -X1 := by
    by_cases hx : m.oxid.mechType = .NONE
    · rw [hX hx] at h3 ⊢; rw [gasRates_zero h3]; simp
    · obtain ⟨g, hg, hs⟩ := (C08_mass_conserved X1).2.2 m.oxid.cls (fun hc => hx ((oxid_none hw.oxid).mpr hc))
      rw [← hw.oxid, h3] at hg; cases hg; exact hs
  simp only [Finset.sum_add_distrib, e1, e2, e3]
  ring

theorem Model.finish_wf {m m' : Model} {n : Nucl} {v w : List ℝ} {N1 G1 X1 : ℝ} (hw : m.WF)
    (hn : n.WF) (he : n.mech = m.nucl.mech) (hv : v.length = m.sources.soot.length)
    (hwl : w.length = m.sources.tar.length) (hwt : m.tar = .NONE → w = m.sources.tar)
    (htl : w.tail = m.sources.tar.tail) (h : m.finish n v w N1 G1 X1 = ok m') : m'.WF := by
  obtain ⟨gn, gg, go, h1, h2, h3, rfl⟩ := Model.finish_inv h
  refine ⟨hn, hw.grow, hw.oxid, fun hp => ?_, fun ht => (hwt ht).trans (hw.srcTar ht), hwl.trans hw.tarLen,
    htl.trans hw.tarTail, hv.trans hw.srcLen⟩
  have hp : n.mech ≠ .PAH := hp
  simp only [if_neg hp]
  exact hw.srcPah (he ▸ hp)

/-- The final block does not depend on what earlier calls left in the object. -/
theorem Model.finish_canon {m : Model} (hw : m.WF) {n : Nucl} (he : n.mech = m.nucl.mech) (v w : List ℝ)
    (N1 G1 X1 : ℝ) : m.finish n v w N1 G1 X1 = m.canon.finish n v w N1 G1 X1 := by
  simp only [Model.finish, Model.canon]
  by_cases hp : n.mech = .PAH
  · simp only [if_pos hp]
  · simp only [if_neg hp, hw.srcPah (he ▸ hp)]; rfl

/-- What a source evaluation may change in the model object: only the nucleation object and the sources. -/
structure Model.SameSpec (m m' : Model) : Prop where
  psd : m'.psd = m.psd
  nsoot : m'.nsoot = m.nsoot
  Ntar : m'.Ntar = m.Ntar
  nmech : m'.nucl.mech = m.nucl.mech
  grow : m'.grow = m.grow
  oxid : m'.oxid = m.oxid
  coag : m'.coag = m.coag
  tar : m'.tar = m.tar
  mBins : m'.mBins = m.mBins
  binF : m'.binF = m.binF

/-- The same constructed object, whatever source evaluations were made with it. -/
theorem Model.SameSpec.canon_eq {m m' : Model} (h : m.SameSpec m') : m'.canon = m.canon := by
  unfold Model.canon
  obtain ⟨h1, h2, h3, h4, h5, h6, h7, h8, h9, h10⟩ := h
  cases m; cases m'; simp_all

theorem Model.finish_spec {m m' : Model} {n : Nucl} {v w : List ℝ} {N1 G1 X1 : ℝ}
    (hn : n.mech = m.nucl.mech) (h : m.finish n v w N1 G1 X1 = ok m') : m.SameSpec m' := by
  obtain ⟨gn, gg, go, h1, h2, h3, rfl⟩ := Model.finish_inv h
  exact ⟨rfl, rfl, rfl, hn, rfl, rfl, rfl, rfl, rfl, rfl⟩

theorem Model.finish_gasC {m m' : Model} {n : Nucl} {v w : List ℝ} {N1 G1 X1 : ℝ}
    (h : m.finish n v w N1 G1 X1 = ok m') : m'.sources.gas .C = 0 ∧ m'.sources.soot = v ∧ m'.sources.tar = w := by
  obtain ⟨gn, gg, go, h1, h2, h3, rfl⟩ := Model.finish_inv h
  simp [gasRates_C h1, gasRates_C h2, gasRates_C h3]

/-- The final block succeeds whenever the nucleation gas split does. -/
theorem Model.finish_ok {m : Model} {n : Nucl} (v w : List ℝ) (N1 G1 X1 : ℝ) (hw : m.WF)
    (hn : ∃ g, gasRates n.ratio N1 = ok g) : ∃ m', m.finish n v w N1 G1 X1 = ok m' := by
  obtain ⟨g, h1⟩ := hn
  have h2 := gasRates_grow m.grow.mech G1
  have h3 := gasRates_oxid m.oxid.cls X1
  rw [← hw.grow] at h2; rw [← hw.oxid] at h3
  simp only [Model.finish, h1, h2, h3, ok_bind]
  exact ⟨_, rfl⟩

theorem setIdx_eq_ok {α : Type} {l l' : List α} {i : ℕ} {x : α} :
    setIdx l i x = ok l' ↔ i < l.length ∧ l' = l.set i x := by
  unfold setIdx; split_ifs with h
  · simp [h, eq_comm]
  · simp [h]

theorem idx_inv {l : List ℝ} {i : ℕ} {x : ℝ} (h : idx l i = ok x) : i < l.length ∧ x = l.getD i 0 := by
  by_cases hi : i < l.length
  · rw [idx_getD hi] at h; cases h; exact ⟨hi, rfl⟩
  · rw [idx_ub (not_lt.mp hi)] at h; cases h

/-! ## States that differ only in `cMin` and quadrature nodes -/

theorem Accepted.upd {s : State} (h : Accepted s) {c : ℝ} (hc : 0 < c) (w a : List ℝ) :
    Accepted { s with cMin := c, wts := w, absc := a } := by
  obtain ⟨s₀, x, h1, rfl⟩ := h
  obtain ⟨hs, ht⟩ := setState_ok_range h1
  have hx := (C01_setState_iff s₀ x hs ht).mp h1
  refine ⟨{ s₀ with wts := w, absc := a }, { x with cMin := c }, ?_⟩
  rw [C01_setState_accepts s₀ x hs ht hx,
    C01_setState_accepts { s₀ with wts := w, absc := a } { x with cMin := c } hs ht
    ⟨hx.T, hx.P, hx.rho, hx.mu, hc, hx.soot, hx.tar, hx.gas, hx.pahSize, hx.pah, hx.pahSum⟩]
  exact ⟨rfl, rfl⟩

theorem GasOk.upd {s : State} (h : GasOk s) {c : ℝ} (hc : 0 < c) (w a : List ℝ) :
    GasOk { s with cMin := c, wts := w, absc := a } := ⟨h.acc.upd hc w a, h.len, h.nonneg⟩

/-- Everything the mechanisms need in order to finish on a state: well-formed mechanisms, positive free
molecular multiplier, accepted state with full non-negative composition, soot vector in range, not at the HACA
0/0 point, and tar data present for the two tar-based nucleation models. -/
structure Ready (m : Model) (s : State) : Prop where
  wf : m.WF
  fm : 0 < m.coag.fmMult
  gas : GasOk s
  pah : s.yPah.length = nPah
  sized : Sized m.ctx s
  sing : m.grow.mech = .HACA ∨ m.oxid.cls = .HACA → ¬ HacaSingular m.ctx s
  tar : m.nucl.mech = .AJ_RED ∨ m.nucl.mech = .BROWN → 0 < s.tarVar.length
  mtar : m.nucl.mech = .AJ_RED → 0 < s.mtar

theorem Ready.upd {m : Model} {s : State} (h : Ready m s) {c : ℝ} (hc : 0 < c) (w a : List ℝ) :
    Ready m { s with cMin := c, wts := w, absc := a } :=
  ⟨h.wf, h.fm, h.gas.upd hc w a, h.pah, ⟨h.sized.two, h.sized.sect, h.sized.bins⟩, h.sing, h.tar, h.mtar⟩

theorem pahTot_pos {s : State} (h : s.Phys) (hl : s.yPah.length = nPah) (hy : ∃ y ∈ s.yPah, y ≠ 0) :
    0 < pahTot s := by
  obtain ⟨y, hy, hy0⟩ := hy
  obtain ⟨i, hi, rfl⟩ := List.getElem_of_mem hy
  obtain ⟨sp, rfl⟩ : ∃ sp : PahSp, sp.toNat = i := by
    rw [hl] at hi
    have hi : i < 6 := hi
    interval_cases i
    exacts [⟨.C10H8, rfl⟩, ⟨.C12H8, rfl⟩, ⟨.C12H10, rfl⟩, ⟨.C14H10, rfl⟩, ⟨.C16H10, rfl⟩, ⟨.C18H10, rfl⟩]
  refine Finset.sum_pos' (fun q _ => pahNdot_nonneg h q) ⟨sp, Finset.mem_univ _, ?_⟩
  have hp := pahPre_pos h; have := pahGamma_pos sp; have := pahMW_pos sp; have := Na_pos; have := h.rho
  have hN : pahN s sp ≠ 0 := by
    rw [pahN, getD_of_lt hi]; positivity
  have := mul_self_pos.mpr hN
  rw [pahNdot, mul_assoc]; positivity

theorem Nucl.rate_pah {n : Nucl} (hp : n.mech = .PAH) (ib : State → ℝ → Res ℝ) (s : State) :
    n.rate ib s = nuclPAH n ib s := by rw [Nucl.rate, hp]

/-- A non-finite dimer–soot collision rate spoils the PAH nucleation call. -/
theorem nuclPAH_nonfin {s : State} (h : s.Phys) (hl : s.yPah.length = nPah) (n : Nucl) (ib : State → ℝ → Res ℝ)
    (hib : ib { s with cMin := cMinAfter s } (mDimerAfter s) = nonfin) : nuclPAH n ib s = nonfin := by
  have hn : ∀ sp, 0 ≤ pahNdot s sp := pahNdot_nonneg h
  rw [nuclPAH, pahPreFac_ok h, ok_bind, pahAcc_ok hl, ok_bind]
  by_cases ht : 0 < pahTot s
  · have ht' : (0.5 : ℝ) * pahTot s > 0 := by positivity
    have e2 : (2 : ℝ) * (0.5 * pahTot s) = pahTot s := by ring
    have hc := cMinAfter_pos h
    have hm := dimerMass_pos h ht
    simp only [cMinAfter, mDimerAfter, if_pos ht] at hc hib
    simp only [pahNormalize, if_pos ht', e2, cdiv_ok hc.ne', ok_bind]
    have e1 : (∑ sp, pahNdot s sp * pahNC sp * gasMW .C / Na) / pahTot s = dimerMass s := rfl
    simp only [e1, cpow_ok hm, ok_bind, hib, nonfin_bind]
  · have h0 : pahTot s = 0 := le_antisymm (not_lt.mp ht) (pahTot_nonneg h)
    have hz : ∀ sp, pahNdot s sp = 0 := by
      intro sp
      exact (Finset.sum_eq_zero_iff_of_nonneg (fun q _ => hn q)).mp h0 sp (Finset.mem_univ _)
    have hc := h.cMin
    simp only [cMinAfter, mDimerAfter, if_neg ht] at hib
    simp only [pahNormalize, h0, mul_zero, gt_iff_lt, lt_irrefl, if_false, hz, zero_mul, Finset.sum_const_zero,
      add_zero, cdiv_ok hc.ne', ok_bind, hib, nonfin_bind,
      cpow_ok' le_rfl (show (0 : ℝ) ≤ 1 / 6 by norm_num), zero_div]

/-- What a finished PAH nucleation call leaves behind. -/
theorem nucl_pah_inv {s s' : State} (h : s.Phys) (hl : s.yPah.length = nPah) {n n' : Nucl} (hp : n.mech = .PAH)
    {ib : State → ℝ → Res ℝ} {J : ℝ} (hr : n.rate ib s = ok (J, n', s')) :
    s' = { s with cMin := cMinAfter s } ∧ n'.dimer.mDimer = mDimerAfter s ∧ ∃ I, ib s' n'.dimer.mDimer = ok I := by
  rw [Nucl.rate_pah hp] at hr
  have e1 : (∑ sp, pahNdot s sp * pahNC sp * gasMW .C / Na) / pahTot s = dimerMass s := rfl
  have key : (pahNormalize ⟨0.5 * pahTot s, ∑ sp, pahNdot s sp * pahNC sp * gasMW .C / Na,
       s.cMin + ∑ sp, pahNdot s sp * 2 * pahNC sp, ∑ sp, pahNdot s sp * 2 * pahNH sp,
       fun sp => -pahNdot s sp * pahMW sp / Na⟩).mDimer = mDimerAfter s ∧
      (pahNormalize ⟨0.5 * pahTot s, ∑ sp, pahNdot s sp * pahNC sp * gasMW .C / Na,
       s.cMin + ∑ sp, pahNdot s sp * 2 * pahNC sp, ∑ sp, pahNdot s sp * 2 * pahNH sp,
       fun sp => -pahNdot s sp * pahMW sp / Na⟩).cMin = cMinAfter s := by
    have hn : ∀ sp, 0 ≤ pahNdot s sp := pahNdot_nonneg h
    by_cases ht : 0 < pahTot s
    · have ht' : (0.5 : ℝ) * pahTot s > 0 := by positivity
      have e2 : (2 : ℝ) * (0.5 * pahTot s) = pahTot s := by ring
      simp only [pahNormalize, if_pos ht', e2, cMinAfter, mDimerAfter, if_pos ht, e1, true_and]
    · have h0 : pahTot s = 0 := le_antisymm (not_lt.mp ht) (pahTot_nonneg h)
      have hz : ∀ sp, pahNdot s sp = 0 := by
        intro sp
        exact (Finset.sum_eq_zero_iff_of_nonneg (fun q _ => hn q)).mp h0 sp (Finset.mem_univ _)
      simp only [pahNormalize, h0, mul_zero, gt_iff_lt, lt_irrefl, if_false, hz, zero_mul, Finset.sum_const_zero,
        add_zero, zero_div, cMinAfter, mDimerAfter, and_self]
  rw [nuclPAH, pahPreFac_ok h, ok_bind, pahAcc_ok hl, ok_bind] at hr
  simp only [bind_eq_ok] at hr
  obtain ⟨_, _, _, _, I, hI, _, _, hr⟩ := hr
  cases hr
  rw [key.2, key.1] at hI
  simp only [key.1, key.2]
  exact ⟨trivial, trivial, I, hI⟩

/-- The dimer balance solved by a finished PAH nucleation call (from C19). -/
theorem dimer_balance {s s' : State} (hs : Accepted s) (hl : s.yPah.length = nPah) {n n' : Nucl} (hp : n.mech = .PAH)
    {ib : State → ℝ → Res ℝ} {J I : ℝ} (hr : n.rate ib s = ok (J, n', s'))
    (hI : ib s' n'.dimer.mDimer = ok I) (h0 : 0 ≤ I) (hy : ∃ y ∈ s.yPah, y ≠ 0) :
    betaDD s n'.dimer.mDimer * n'.dimer.nDimer ^ 2 + I * n'.dimer.nDimer = n'.dimer.nDotD ∧
      0 < n'.dimer.nDimer ∧ 0 < n'.dimer.mDimer ∧ J = betaDD s n'.dimer.mDimer * n'.dimer.nDimer ^ 2 / 2 := by
  obtain ⟨rfl, hm, _⟩ := nucl_pah_inv hs.phys hl hp hr
  rw [hm] at hI
  obtain ⟨J', n'', s'', e1, _, e2, _⟩ := C19_dimer_root s hs hl n hp ib I h0 hI
  rw [hr] at e1; cases e1
  obtain ⟨_, h2, h3, h4, h5⟩ := e2 hy
  exact ⟨(h3 _ h4.le).mpr rfl, h4, h2, h5⟩

/-- The nucleation call finishes on a ready state. -/
theorem Ready.nucl' {m : Model} {s : State} (h : Ready m s) (ib : State → ℝ → Res ℝ)
    (hib : m.nucl.mech = .PAH → ∃ I, ib { s with cMin := cMinAfter s } (mDimerAfter s) = ok I ∧ 0 ≤ I) :
    ∃ J n' s', m.nucl.rate ib s = ok (J, n', s') ∧ 0 ≤ J ∧ s' = { s with cMin := s'.cMin } ∧ 0 < s'.cMin ∧
      (m.nucl.mech = .NONE → J = 0) ∧ (m.nucl.mech = .PAH → 0 ≤ n'.dimer.mDimer ∧ 0 ≤ n'.dimer.nDimer) ∧
      ∀ x, ∃ g, gasRates n'.ratio x = ok g := by
  have hc := h.gas.acc.phys.cMin
  by_cases hp : m.nucl.mech = .PAH
  · have hph := h.gas.acc.phys
    have hm : 0 ≤ mDimerAfter s := by
      unfold mDimerAfter; split_ifs with ht
      · exact (dimerMass_pos hph ht).le
      · exact le_rfl
    obtain ⟨I, hI, hI0⟩ := hib hp
    have hb : 0 ≤ betaDD s (mDimerAfter s) := mul_nonneg (pahPre_pos hph).le (by positivity)
    have hn : 0 ≤ nDimerAfter s I := by
      unfold nDimerAfter; split_ifs with ht
      · positivity
      · exact le_rfl
    refine ⟨_, _, _, (by rw [Nucl.rate, hp] : m.nucl.rate ib s = nuclPAH m.nucl ib s).trans
      (nuclPAH_ok hph h.pah _ ib I hI0 hI), ?_, rfl, cMinAfter_pos hph, by simp [hp], fun _ => ⟨hm, hn⟩, fun x => ?_⟩
    · positivity
    · have := gasMW_pos .C
      simp [gasRates, this.ne']
  · obtain ⟨r, hr, h0, hN, _⟩ := C48_nucl m.nucl.mech hp ib s h.gas h.tar h.mtar
    rw [← h.wf.nucl.new hp] at hr
    refine ⟨r, _, _, hr, h0, rfl, hc, hN, fun h => absurd h hp, fun x => ?_⟩
    rw [h.wf.nucl.new hp]; exact ⟨_, gasRates_nucl _ hp x⟩

theorem mDimerAfter_nonneg {s : State} (h : s.Phys) : 0 ≤ mDimerAfter s := by
  unfold mDimerAfter; split_ifs with ht
  · exact (dimerMass_pos h ht).le
  · exact le_rfl

theorem mDimerAfter_pos {s : State} (h : s.Phys) (hl : s.yPah.length = nPah) (hy : ∃ y ∈ s.yPah, y ≠ 0) :
    0 < mDimerAfter s := by
  have ht := pahTot_pos h hl hy
  rw [mDimerAfter, if_pos ht]; exact dimerMass_pos h ht

theorem Ready.nucl {m : Model} {s : State} (h : Ready m s) (ib : State → ℝ → Res ℝ)
    (hib : m.nucl.mech = .PAH → ∀ c mD, 0 < c → 0 ≤ mD → ∃ I, ib { s with cMin := c } mD = ok I ∧ 0 ≤ I) :
    ∃ J n' s', m.nucl.rate ib s = ok (J, n', s') ∧ 0 ≤ J ∧ s' = { s with cMin := s'.cMin } ∧ 0 < s'.cMin ∧
      (m.nucl.mech = .NONE → J = 0) ∧ (m.nucl.mech = .PAH → 0 ≤ n'.dimer.mDimer ∧ 0 ≤ n'.dimer.nDimer) ∧
      ∀ x, ∃ g, gasRates n'.ratio x = ok g :=
  h.nucl' ib fun hp => hib hp _ _ (cMinAfter_pos h.gas.acc.phys) (mDimerAfter_nonneg h.gas.acc.phys)

/-- No precursor, no nucleation. -/
theorem Ready.nucl_zero {m : Model} {s : State} (h : Ready m s) (ib : State → ℝ → Res ℝ)
    (hib : m.nucl.mech = .PAH → ∀ c mD, 0 < c → 0 ≤ mD → ∃ I, ib { s with cMin := c } mD = ok I ∧ 0 ≤ I)
    (h1 : Absent s .C2H2) (h2 : Absent s .C6H6) (h3 : ∀ y ∈ s.yPah, y = 0) (h4 : ∀ y ∈ s.tarVar, y = 0)
    {J : ℝ} {n' : Nucl} {s' : State} (e : m.nucl.rate ib s = ok (J, n', s')) :
    J = 0 ∧ s' = s ∧ (m.nucl.mech = .PAH → n'.dimer.nDimer = 0) := by
  by_cases hp : m.nucl.mech = .PAH
  · have hph := h.gas.acc.phys
    have hm : 0 ≤ mDimerAfter s := by
      unfold mDimerAfter; split_ifs with ht
      · exact (dimerMass_pos hph ht).le
      · exact le_rfl
    obtain ⟨I, hI, hI0⟩ := hib hp _ _ (cMinAfter_pos hph) hm
    obtain ⟨J2, n2, s2, hr, _, _, hz⟩ := C19_dimer_root _ h.gas.acc h.pah m.nucl hp _ I hI0 hI
    cases hr.symm.trans e
    obtain ⟨z1, z2, z3⟩ := hz h3
    exact ⟨z1, z3, fun _ => z2⟩
  · obtain ⟨r, hr, _, hN, hC, hT⟩ := C48_nucl m.nucl.mech hp ib _ h.gas h.tar h.mtar
    rw [← h.wf.nucl.new hp] at hr
    cases hr.symm.trans e
    refine ⟨?_, rfl, fun hx => absurd hx hp⟩
    rcases hm : m.nucl.mech with _|_|_|_|_|_|_|_|_
    all_goals first
      | exact absurd hm hp
      | exact hN hm
      | exact hC .C2H2 (by rw [hm]; rfl) h1
      | exact hC .C6H6 (by rw [hm]; rfl) h2
      | exact hT (by simp [hm]) (by
          have hl := h.tar (by simp [hm])
          rw [getD_of_lt hl]; exact h4 _ (List.getElem_mem _))

theorem Ready.grow {m : Model} {s : State} (h : Ready m s) :
    ∃ r, m.grow.rate m.ctx s = ok r ∧ 0 ≤ r ∧ (m.grow.mech = .NONE → r = 0) ∧ (Absent s .C2H2 → r = 0) := by
  obtain ⟨r, hr, h0⟩ := C48_grow m.grow.mech m.ctx s h.gas h.sized (fun hh => h.sing (.inl hh))
  rw [← h.wf.grow] at hr
  exact ⟨r, hr, h0⟩

theorem Ready.oxid {m : Model} {s : State} (h : Ready m s) :
    ∃ r, m.oxid.rate m.ctx s = ok r ∧ 0 ≤ r ∧ (m.oxid.mechType = .NONE → r = 0) := by
  obtain ⟨r, hr, h0, h1, _⟩ := C48_oxid m.oxid.cls m.ctx s h.gas h.sized (fun hh => h.sing (.inr hh))
  rw [← h.wf.oxid] at hr
  exact ⟨r, hr, h0, fun hn => h1 ((oxid_none h.wf.oxid).mp hn)⟩

theorem Ready.coag {m : Model} {s : State} (h : Ready m s) (a b : ℝ) :
    m.coag.rate s a b = ok (m.coag.val s a b) := Coag.rate_ok h.gas.acc.phys h.fm a b

theorem ibetaNodes_ok {c : Coag} {s : State} (h : s.Phys) (hc : 0 < c.fmMult) (hl : s.absc.length ≤ s.wts.length)
    (mD : ℝ) : ibetaNodes c s mD =
      ok (∑ i ∈ Finset.range s.absc.length, |s.wts.getD i 0| * c.val s mD (s.absc.getD i 0)) :=
  sumLoop_ok fun i hi => by
    rw [idx_getD (hi.trans_le hl), ok_bind, idx_getD hi, ok_bind, Coag.rate_ok h hc, ok_bind]

/-! ## MONO -/

theorem monoTerms_inv {m : Model} {M0 M1 : ℝ} {s : State} {t : MonoTerms} (h : monoTerms m M0 M1 s = ok t) :
    ∃ j kG kO a0 coa, m.nucl.rate (ibetaNodes m.coag) s = ok (j, t.nucl, t.st) ∧
      m.grow.rate m.ctx t.st = ok kG ∧ m.oxid.rate m.ctx t.st = ok kO ∧
      idx t.st.absc 0 = ok a0 ∧ m.coag.rate t.st a0 a0 = ok coa ∧
      t.N0 = (if t.nucl.mech ≠ .NONE then j else 0) ∧
      t.N1 = (if t.nucl.mech ≠ .NONE then j * t.st.cMin * gasMW .C / Na else 0) ∧
      areaMono M0 M1 = ok t.A ∧
      t.G1 = (if m.grow.mech ≠ .NONE then kG * t.A else 0) ∧
      t.X1 = (if m.oxid.mechType ≠ .NONE then -kO * t.A else 0) ∧
      (m.coag.mech ≠ .NONE → ∃ w0, idx t.st.wts 0 = ok w0 ∧ t.C0 = -0.5 * coa * w0 * w0) ∧
      (m.coag.mech = .NONE → t.C0 = 0) ∧
      (t.nucl.mech = .PAH → ∃ k w0, m.coag.rate t.st t.nucl.dimer.mDimer a0 = ok k ∧
        idx t.st.wts 0 = ok w0 ∧ t.Cnd1 = k * w0 * t.nucl.dimer.nDimer * t.nucl.dimer.mDimer) ∧
      (t.nucl.mech ≠ .PAH → t.Cnd1 = 0) := by
  simp only [monoTerms, bind_eq_ok] at h
  obtain ⟨⟨j, n, s'⟩, h1, kG, h2, kO, h3, a0, h4, coa, h5, cnd, h6, A, h7, C0, h8, h⟩ := h
  cases h
  refine ⟨j, kG, kO, a0, coa, h1, h2, h3, h4, h5, rfl, rfl, h7, rfl, rfl, fun hc => ?_, fun hc => ?_,
    fun hp => ?_, fun hp => ?_⟩
  · simp only [if_pos hc, bind_eq_ok] at h8
    obtain ⟨w0, hw, h8⟩ := h8; cases h8; exact ⟨w0, hw, rfl⟩
  · simp only [hc, ne_eq, not_true_eq_false, if_false] at h8; cases h8; rfl
  · simp only [if_pos hp, bind_eq_ok] at h6
    obtain ⟨k, hk, w0, hw, h6⟩ := h6; cases h6; exact ⟨k, w0, hk, hw, rfl⟩
  · simp only [if_neg hp] at h6; cases h6; rfl

/-- A MONO evaluation with tar NONE, decomposed. -/
theorem monoSources_inv {m m' : Model} {s s' : State} (ht : m.tar = .NONE)
    (h : monoSources m s = ok (m', s')) :
    ∃ M0 M1 s1 t, monoNodes s = ok (M0, M1, s1) ∧ monoTerms m M0 M1 s1 = ok t ∧ s' = t.st ∧
      1 < m.sources.soot.length ∧
      m.finish t.nucl ((m.sources.soot.set 0 (t.N0 + t.C0)).set 1 (t.N1 + t.Cnd1 + t.G1 + t.X1))
        m.sources.tar t.N1 t.G1 t.X1 = ok m' := by
  simp only [monoSources, bind_eq_ok, ht] at h
  obtain ⟨⟨M0, M1, s1⟩, h1, h⟩ := h
  simp only [bind_eq_ok, setIdx_eq_ok] at h
  obtain ⟨t, h2, v, ⟨_, rfl⟩, v', ⟨h3, rfl⟩, m1, h4, h⟩ := h
  cases h
  refine ⟨M0, M1, s1, t, h1, h2, rfl, by simpa using h3, ?_⟩
  simpa using h4

theorem set0_tail (l : List ℝ) (x : ℝ) : (l.set 0 x).tail = l.tail := by cases l <;> rfl

theorem setIdx0_congr {l l' : List ℝ} (x : ℝ) (h : l.length = l'.length) (ht : l.tail = l'.tail) :
    setIdx l 0 x = setIdx l' 0 x := by
  cases l <;> cases l' <;> simp_all [setIdx]

/-- Any MONO evaluation keeps the specification and well-formedness. -/
theorem monoSources_wf {m m' : Model} {s s' : State} (hw : m.WF) (h : monoSources m s = ok (m', s')) :
    m'.WF ∧ m.SameSpec m' := by
  simp only [monoSources, bind_eq_ok] at h
  obtain ⟨⟨M0, M1, s1⟩, h1, h⟩ := h
  have key : ∀ {t : MonoTerms} {v w : List ℝ} {N1 G1 X1 : ℝ} {m1 : Model}, monoTerms m M0 M1 s1 = ok t →
      v.length = m.sources.soot.length → w.length = m.sources.tar.length →
      (m.tar = .NONE → w = m.sources.tar) → w.tail = m.sources.tar.tail →
      m.finish t.nucl v w N1 G1 X1 = ok m1 → m1.WF ∧ m.SameSpec m1 := by
    intro t v w N1 G1 X1 m1 ht hv hwl hwt htl hf
    obtain ⟨j, kG, kO, a0, coa, hj, _⟩ := monoTerms_inv ht
    have he := (Nucl.rate_inv hj).1
    exact ⟨Model.finish_wf hw (Nucl.rate_wf hw.nucl hj) he hv hwl hwt htl hf, Model.finish_spec he hf⟩
  rcases ht : m.tar <;> simp only [ht, bind_eq_ok, setIdx_eq_ok] at h
  · obtain ⟨t, h2, v, ⟨_, rfl⟩, v', ⟨_, rfl⟩, m1, h4, h⟩ := h
    cases h; exact key h2 (by simp) rfl (fun _ => rfl) rfl h4
  · obtain ⟨_, _, t, h2, _, _, _, _, _, _, v, ⟨_, rfl⟩, v', ⟨_, rfl⟩, w, ⟨_, rfl⟩, m1, h4, h⟩ := h
    cases h; exact key h2 (by simp) (by simp) (by simp [ht]) (set0_tail _ _) h4
  · obtain ⟨_, _, t, h2, _, _, _, _, _, _, _, _, _, _, v, ⟨_, rfl⟩, v', ⟨_, rfl⟩, w, ⟨_, rfl⟩, m1, h4, h⟩ := h
    cases h; exact key h2 (by simp) (by simp) (by simp [ht]) (set0_tail _ _) h4

/-- A MONO evaluation does not depend on what earlier evaluations left in the model object. -/
theorem monoSources_canon {m : Model} (hw : m.WF) (hn : m.nsoot = 2) (s : State) :
    monoSources m s = monoSources m.canon s := by
  have hterms : ∀ M0 M1 s1, monoTerms m.canon M0 M1 s1 = monoTerms m M0 M1 s1 := by
    intro M0 M1 s1
    simp only [monoTerms]
    rw [Nucl.rate_canon hw.nucl]; rfl
  have hlen := hw.srcLen
  rw [hn] at hlen
  have hfin : ∀ {M0 M1 : ℝ} {s1 : State} {t : MonoTerms}, monoTerms m M0 M1 s1 = ok t → ∀ v w a b c,
      m.finish t.nucl v w a b c = m.canon.finish t.nucl v w a b c := by
    intro M0 M1 s1 t ht v w a b c
    obtain ⟨j, kG, kO, a0, coa, hj, _⟩ := monoTerms_inv ht
    exact Model.finish_canon hw (Nucl.rate_inv hj).1 v w a b c
  have hset : ∀ x y, (setIdx m.sources.soot 0 x >>= fun v => setIdx v 1 y) = ok [x, y] := by
    intro x y
    match hx : m.sources.soot, hlen with
    | [p, q], _ => simp [setIdx]
  have hset' : ∀ x y, (setIdx m.canon.sources.soot 0 x >>= fun v => setIdx v 1 y) = ok [x, y] := by
    intro x y
    have : m.canon.sources.soot = [0, 0] := by simp [Model.canon, Sources.new, hn, List.replicate]
    rw [this]; simp [setIdx]
  have htar0 : ∀ x, setIdx m.sources.tar 0 x = setIdx m.canon.sources.tar 0 x := fun x =>
    setIdx0_congr x (by simp [hw.tarLen, Model.canon, Sources.new])
      (by simp [hw.tarTail, Model.canon, Sources.new])
  simp only [monoSources, hterms]
  rw [show m.canon.tar = m.tar from rfl]
  congr 1; funext ⟨M0, M1, s1⟩
  have hbind : ∀ {α β : Type} (x : Res α) (f g : α → Res β), (∀ a, x = ok a → f a = g a) → (x >>= f) = (x >>= g) := by
    intro α β x f g hfg
    cases x with
    | ok a => exact hfg a rfl
    | exn e => rfl
    | ub => rfl
    | nonfin => rfl
  have hassoc : ∀ {α : Type} (l : List ℝ) (x y : ℝ) (f : List ℝ → Res α),
      (setIdx l 0 x >>= fun v => setIdx v 1 y >>= f) = ((setIdx l 0 x >>= fun v => setIdx v 1 y) >>= f) := by
    intro α l x y f
    cases setIdx l 0 x <;> rfl
  rcases ht : m.tar <;> simp only
  · refine hbind _ _ _ fun t h2 => ?_
    rw [hassoc, hassoc, hset, hset', ok_bind, ok_bind, hfin h2]
    rw [show m.canon.sources.tar = m.sources.tar from (hw.srcTar ht).symm]
  · congr 1; funext _
    refine hbind _ _ _ fun t h2 => ?_
    congr 1; funext _; congr 1; funext _; congr 1; funext _
    rw [hassoc, hassoc, hset, hset', ok_bind, ok_bind, htar0]
    congr 1; funext w
    rw [hfin h2]
  · congr 1; funext _
    refine hbind _ _ _ fun t h2 => ?_
    congr 1; funext _; congr 1; funext _; congr 1; funext _; congr 1; funext _; congr 1; funext _
    rw [hassoc, hassoc, hset, hset', ok_bind, ok_bind, htar0]
    congr 1; funext w
    rw [hfin h2]

end Soot
