import Verif.Props.PahVanish
import Verif.Props.LognCont

/-!
# C104 (LOGN) with PAH nucleation

Dimers collide with the lognormal particles at the harmonic mean of the free-molecular and the continuum rate (sootModel_LOGN.cc:93-139, 201-233).  Where the
moments are positive and there are PAH, these rates and with them all sources of LOGN are continuous.
-/

namespace Soot

open Res Real Filter Topology Cont
open scoped Classical

/-- One evaluation of LOGN with PAH, in closed form. -/
theorem logn_pah {m : Model} {s : State} {M0 M1 M2 : ℝ} (h : LognReady m s M0 M1 M2) (hn : m.nucl.mech = .PAH) (h0 : 0 < M0) (h1 : 0 < M1)
    (hy : ∃ y ∈ s.yPah, y ≠ 0) {kO : ℝ} (hO : m.oxid.rate m.ctx s = ok kO) {I J N D : ℝ} (hD : D = mDimerAfter s) (hI : I = lognBeta m s M0 M1 M2 D)
    (hN : N = nDimerAfter s I) (hJ : J = 0.5 * betaDD s D * N * N) :
    ∃ m' s' kG, lognSources m s = ok (m', s') ∧ m.grow.rate m.ctx s = ok kG ∧
      m'.sources.soot = [J + (lognCoagVal m.coag s (lognM M0 M1 M2)).1,
        J * (cMinAfter s * gasMW .C / Na) + (kG - kO) * lognArea M0 M1 M2 (4 / 6) + D * N * I,
        J * (cMinAfter s * gasMW .C / Na) ^ 2 + 2 * (kG - kO) * lognArea M0 M1 M2 (10 / 6) +
          D * N * hmean (lognFm2 m.coag s (lognM M0 M1 M2) D) (lognC2 s (lognM M0 M1 M2) D) + (lognCoagVal m.coag s (lognM M0 M1 M2)).2] ∧
      (∀ sp, m'.sources.gas sp = gasPart (Function.update (Function.update m.nucl.ratio .C 1) .H2 (h2Ratio s)) (J * (cMinAfter s * gasMW .C / Na)) sp +
        gasPart m.grow.ratio (kG * lognArea M0 M1 M2 (4 / 6)) sp + gasPart m.oxid.ratio (-(kO * lognArea M0 M1 M2 (4 / 6))) sp) ∧
      ∀ sp, m'.sources.pah sp = -pahNdot s sp * pahMW sp / Na := by
  obtain ⟨m', s', J', n', kG, kO', b1, b2, -, -, b5, b6, -, -, -, -, -, b12, b13⟩ := logn_eval h (fun _ => ⟨h0, h1, hy⟩)
  have hp := h.gas.acc.phys
  have d0 : 0 < mDimerAfter s := mDimerAfter_pos hp h.pah hy
  obtain ⟨hib, i0⟩ := lognIbeta_ok (h.upd (cMinAfter_pos hp)) hn h0 d0
  have eI : lognBeta m { s with cMin := cMinAfter s } M0 M1 M2 (mDimerAfter s) = I := by rw [hI, hD]; rfl
  rw [eI] at hib i0
  rw [Nucl.rate_pah hn, nuclPAH_ok hp h.pah m.nucl (lognIbeta m) I i0 hib] at b2
  simp only [ok.injEq, Prod.mk.injEq] at b2
  obtain ⟨rfl, rfl, rfl⟩ := b2
  rw [oxid_cMin, hO] at b6
  rw [grow_cMin] at b5
  simp only [ok.injEq] at b6
  subst b6
  refine ⟨m', _, kG, b1, b5, ?_, fun sp => ?_, fun sp => ?_⟩
  · rw [b13, if_pos hn, if_pos hn, hJ, hN]
    subst hD
    rw [hI]
  · rw [finish_gas b12, hJ, hN, hD]
  · obtain ⟨_, _, _, -, -, -, e⟩ := Model.finish_inv b12
    rw [e]
    simp only [hn, if_true]

section
variable {X : Type*} [TopologicalSpace X] {z : X}

/-- The collision rates of dimers with lognormal particles are continuous. -/
theorem lognDimer_cont {c : Coag} (hc : 0 < c.fmMult) {f : X → State} (hp : ∀ y, (f y).Phys) (h : ContSt f z) {M : X → ℝ → ℝ}
    (hM : ∀ r, ContinuousAt (fun y => M y r) z) (pM : ∀ r, 0 < M z r) {D : X → ℝ} (hD : ContinuousAt D z) (pD : 0 < D z) :
    ContinuousAt (fun y => hmean (lognFm1 c (f y) (M y) (D y)) (lognC1 (f y) (M y) (D y))) z ∧
      ContinuousAt (fun y => hmean (lognFm2 c (f y) (M y) (D y)) (lognC2 (f y) (M y) (D y))) z := by
  have k := kfm_cont c h; have q := kc_cont hp h; have p := kcp_cont hp h
  have d : ∀ r : ℝ, ContinuousAt (fun y => D y ^ r) z := fun r => hD.rpow_const (.inl pD.ne')
  have t : ∀ r e : ℝ, ContinuousAt (fun y => M y r * D y ^ e) z := fun r e => (hM r).mul (d e)
  have t2 : ∀ r e : ℝ, ContinuousAt (fun y => 2 * M y r * D y ^ e) z := fun r e => (continuousAt_const.mul (hM r)).mul (d e)
  have f1 : ContinuousAt (fun y => lognFm1 c (f y) (M y) (D y)) z :=
    (k.mul continuousAt_const).mul ((((((t _ _).add (t2 _ _)).add (t _ _)).add (t2 _ _)).add (t _ _)).add (hM _))
  have f2 : ContinuousAt (fun y => lognFm2 c (f y) (M y) (D y)) z :=
    ((continuousAt_const.mul k).mul continuousAt_const).mul ((((((t _ _).add (t2 _ _)).add (t _ _)).add (t2 _ _)).add (t _ _)).add (hM _))
  have d1 : ContinuousAt (fun y => lognC1 (f y) (M y) (D y)) z :=
    q.mul ((((continuousAt_const.mul (hM _)).add (t _ _)).add (t _ _)).add (p.mul ((((t _ _).add (hM _)).add (t _ _)).add (t _ _))))
  have d2 : ContinuousAt (fun y => lognC2 (f y) (M y) (D y)) z :=
    (continuousAt_const.mul q).mul ((((continuousAt_const.mul (hM _)).add (t _ _)).add (t _ _)).add (p.mul ((((t _ _).add (hM _)).add (t _ _)).add (t _ _))))
  have a := Coag.kfmVal_pos (hp z) hc; have b := kcVal_pos (hp z); have b' := kcpVal_pos (hp z)
  have hb : 0 < bCoag := by norm_num [bCoag]
  have pd : ∀ r : ℝ, 0 < D z ^ r := fun r => rpow_pos_of_pos pD r
  have u : ∀ r e : ℝ, 0 < M z r * D z ^ e := fun r e => mul_pos (pM r) (pd e)
  have n1 : lognFm1 c (f z) (M z) (D z) + lognC1 (f z) (M z) (D z) ≠ 0 := by
    have := pM 0; have := pM (2 / 6); have := pM (4 / 6); have := pM (-1 / 6); have := pM (-3 / 6); have := pM (1 / 6); have := pM (-2 / 6)
    have := pM (-4 / 6)
    unfold lognFm1 lognC1
    positivity
  have n2 : lognFm2 c (f z) (M z) (D z) + lognC2 (f z) (M z) (D z) ≠ 0 := by
    have := pM 1; have := pM (8 / 6); have := pM (10 / 6); have := pM (5 / 6); have := pM (3 / 6); have := pM (7 / 6); have := pM (4 / 6)
    have := pM (2 / 6)
    unfold lognFm2 lognC2
    positivity
  exact ⟨(f1.mul d1).div (f1.add d1) n1, (f2.mul d2).div (f2.add d2) n2⟩

/-- **C104, LOGN with PAH.** With PAH nucleation and without the HACA mechanisms, the soot, gas and PAH sources of LOGN depend continuously on the state
wherever there are PAH and the three moments are positive.  Missing: states without PAH, vanishing moments (`C104_logn_unbounded`), HACA
(`C103_growth_jump`). -/
theorem C104_logn_pah_continuous_partial (m : Model) (f : X → State) (z : X) (M0 M1 M2 : X → ℝ) (hr : ∀ y, LognReady m (f y) (M0 y) (M1 y) (M2 y))
    (hn : m.nucl.mech = .PAH) (hg : m.grow.mech ≠ .HACA) (ho : m.oxid.cls ≠ .HACA) (hf : ContIn f z)
    (hy : ∀ sp : PahSp, ContinuousAt (fun y => (f y).yPah.getD sp.toNat 0) z) (c0 : ContinuousAt M0 z) (c1 : ContinuousAt M1 z) (c2 : ContinuousAt M2 z)
    (p0 : ∀ y, 0 < M0 y) (p1 : ∀ y, 0 < M1 y) (p2 : 0 < M2 z) (hpah : ∀ y, ∃ x ∈ (f y).yPah, x ≠ 0) :
    ∃ S : X → Model × State, (∀ y, lognSources m (f y) = ok (S y)) ∧ (∀ k, ContinuousAt (fun y => (S y).1.sources.soot.getD k 0) z) ∧
      (∀ sp, ContinuousAt (fun y => (S y).1.sources.gas sp) z) ∧ ∀ sp, ContinuousAt (fun y => (S y).1.sources.pah sp) z := by
  have hp : ∀ y, (f y).Phys := fun y => (hr y).gas.acc.phys
  have cp : ContPah f z := ⟨hf.T, hf.rho, hf.cMin, hy⟩
  have st : ContSt f z := ⟨hf.T, hf.P, hf.rho, hf.mu⟩
  have ht := pahTot_pos (hp z) (hr z).pah (hpah z)
  obtain ⟨O, O1, O2⟩ := C103_oxidation_continuous_partial m.oxid.cls m.ctx f z (fun y => (hr y).gas) (fun y => (hr y).sized) hf.T hf.P hf.rho hf.cMin hf.frac ho
  rw [← (hr z).wf.oxid] at O1
  choose m' s' kG b1 b2 b3 b4 b5 using fun y => logn_pah (hr y) hn (p0 y) (p1 y) (hpah y) (O1 y) rfl rfl rfl rfl
  have cM := lognM_cont c0 c1 c2 (p0 z) (p1 z) p2
  have cA : ∀ r, ContinuousAt (fun y => lognArea (M0 y) (M1 y) (M2 y) r) z := fun r => continuousAt_const.mul (cM r)
  have pM : ∀ r, 0 < lognM (M0 z) (M1 z) (M2 z) r := fun r => by
    have := p0 z; have := p1 z
    unfold lognM; split_ifs
    · assumption
    · assumption
    · rw [lognMrVal_pos (p0 z) (p1 z) p2]; positivity
  obtain ⟨g1, g2⟩ := lognCoag_cont (c := m.coag) (hr z).fm hp st cM pM
  have cD := mDimer_cont cp ht
  have pD : 0 < mDimerAfter (f z) := mDimerAfter_pos (hp z) (hr z).pah (hpah z)
  obtain ⟨i1, i2⟩ := lognDimer_cont (c := m.coag) (hr z).fm hp st cM pM cD pD
  have cI : ContinuousAt (fun y => lognBeta m (f y) (M0 y) (M1 y) (M2 y) (mDimerAfter (f y))) z := i1
  have cN := nDimer_cont cp (hp z) ht cI (lognIbeta_ok (hr z) hn (p0 z) pD).2
  have cJ := ((continuousAt_const (y := (0.5 : ℝ)).mul (betaDD_cont cp cD)).mul cN).mul cN
  have cC : ContinuousAt (fun y => cMinAfter (f y) * gasMW .C / Na) z := ((cMinAfter_cont cp ht).mul continuousAt_const).div_const _
  -- the growth rate itself
  have cK : ContinuousAt kG z := by
    have hns : m.ctx.psd ≠ .SECT := by show m.psd ≠ _; rw [(hr z).psd]; decide
    have n1 : ∀ y, numOf m.ctx (f y) = M0 y := fun y => by simp [numOf, hns, (hr y).soot]
    have n2 : ∀ y, massOf m.ctx (f y) = M1 y := fun y => by simp [massOf, hns, (hr y).soot]
    have q : ∀ y, kG y * areaFn (M0 y) (M1 y) = growFlux m.grow.mech (f y) (areaFn (M0 y) (M1 y)) := fun y => by
      have hk := b2 y
      rw [(hr y).wf.grow] at hk
      have := growFlux_eq hg (hr y).gas (hr y).sized hk
      rwa [n1, n2] at this
    have a0 : 0 < areaFn (M0 z) (M1 z) := by have := rhoSoot_pos; have := p0 z; have := p1 z; unfold areaFn; positivity
    have cF := areaFn_cont c0 c1
    refine ((growFlux_cont hf.toContGas (fun y => (hr y).gas) m.grow.mech cF).div cF a0.ne').congr ?_
    filter_upwards [cF.eventually (lt_mem_nhds a0)] with y hy
    show growFlux m.grow.mech (f y) (areaFn (M0 y) (M1 y)) / areaFn (M0 y) (M1 y) = kG y
    rw [← q, mul_div_assoc, div_self (show areaFn (M0 y) (M1 y) ≠ 0 from (show 0 < areaFn (M0 y) (M1 y) from hy).ne'), mul_one]
  refine ⟨fun y => (m' y, s' y), b1, fun k => ?_, fun sp => ?_, fun sp => ?_⟩
  · simp only [b3]
    match k with
    | 0 => exact cJ.add g1
    | 1 => exact ((cJ.mul cC).add ((cK.sub O2).mul (cA _))).add ((cD.mul cN).mul cI)
    | 2 => exact (((cJ.mul (cC.pow 2)).add ((continuousAt_const.mul (cK.sub O2)).mul (cA _))).add ((cD.mul cN).mul i2)).add g2
    | n + 3 => simpa using continuousAt_const
  · simp only [b4]
    exact ((gasPart_update_cont (cJ.mul cC) (h2Ratio_cont cp (hp z) ht) _ sp).add (gasPart_cont (cK.mul (cA _)) _ sp)).add
      (gasPart_cont (O2.mul (cA _)).neg _ sp)
  · simp only [b5]
    exact (((pahNdot_cont cp sp).neg.mul continuousAt_const).div_const _)

end

/-- LOGN with PAH nucleation in the burning gas of `exSt`: continuous in the number of particles. -/
example : ∃ S : Set.Ioi (0 : ℝ) → Model × State,
    (∀ N : Set.Ioi (0 : ℝ), lognSources (exModel .LOGN 3 .PAH .LL .LL .HM) (exSt [N.1, N.1 * 1E-23, N.1 * 2E-46] false) = ok (S N)) ∧
    ContinuousAt (fun N => (S N).1.sources.soot.getD 1 0) ⟨1, one_pos (α := ℝ)⟩ := by
  have nn : ∀ N : Set.Ioi (0 : ℝ), (0 : ℝ) < N.1 ∧ (0 : ℝ) < N.1 * 1E-23 ∧ (0 : ℝ) < N.1 * 2E-46 := fun N =>
    ⟨N.2, mul_pos N.2 (by norm_num), mul_pos N.2 (by norm_num)⟩
  obtain ⟨S, h1, h2, -⟩ := C104_logn_pah_continuous_partial (exModel .LOGN 3 .PAH .LL .LL .HM)
    (fun N : Set.Ioi (0 : ℝ) => exSt [N.1, N.1 * 1E-23, N.1 * 2E-46] false) ⟨1, one_pos (α := ℝ)⟩ (fun N => N.1) (fun N => N.1 * 1E-23) (fun N => N.1 * 2E-46)
    (fun N => exLognReady .PAH (by simp) (by simp) .LL .LL .HM (by simp) (nn N).1.le (nn N).2.1.le (nn N).2.2.le false) rfl
    (by simp [exModel, Grow.new]) (by simp [exModel, Oxid.new])
    (by
      simp only [exSt_eq]
      constructor
      · constructor <;> intros <;> exact continuousAt_const
      all_goals exact continuousAt_const)
    (by simp only [exSt_eq]; intro sp; exact continuousAt_const)
    continuous_subtype_val.continuousAt (continuous_subtype_val.mul continuous_const).continuousAt (continuous_subtype_val.mul continuous_const).continuousAt
    (fun N => (nn N).1) (fun N => (nn N).2.1) (nn _).2.2
    (fun N => by simp only [exSt_eq]; norm_num [stateAfter, exArgs, argsEx2, argsEx])
  exact ⟨S, h1, h2 1⟩

end Soot
