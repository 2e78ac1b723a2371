import Verif.Props.LognPahCont
import Verif.Props.MomicCont

/-!
# C104 (MOMIC) with PAH nucleation

Dimers collide with the particles at the harmonic mean of the free-molecular and the continuum rate, both built from fractional moments
(sootModel_MOMIC.cc:155-193, 569-599).  Where all moments are positive and there are PAH, all sources of MOMIC are continuous.
-/

namespace Soot

open Res Real Filter Topology Cont
open scoped Classical

/-- One evaluation of MOMIC with PAH, in closed form. -/
theorem momic_pah {m : Model} {s : State} (h : MomicReady m s) (hn : m.nucl.mech = .PAH) (hA : AllPos s.sootVar)
    (hy : ∃ y ∈ s.yPah, y ≠ 0) {kO : ℝ} (hO : m.oxid.rate m.ctx s = ok kO) {I J N D : ℝ} (hD : D = mDimerAfter s)
    (hI : I = momicBeta m.coag s s.sootVar m.nsoot D 1) (hN : N = nDimerAfter s I) (hJ : J = 0.5 * betaDD s D * N * N) :
    ∃ m' s' kG, momicSources m s = ok (m', s') ∧ m.grow.rate m.ctx s = ok kG ∧
      (m'.sources.soot = (List.range m.nsoot).map fun r : ℕ => J * (cMinAfter s * gasMW .C / Na) ^ r +
        r * (D * N * momicBeta m.coag s s.sootVar m.nsoot D r) +
        (kG - kO) * (acoef * r * mrVal s.sootVar m.nsoot (r - onethird)) + momicCoagV m.coag s s.sootVar m.nsoot r) ∧
      (∀ sp, m'.sources.gas sp = gasPart (Function.update (Function.update m.nucl.ratio .C 1) .H2 (h2Ratio s)) (J * (cMinAfter s * gasMW .C / Na)) sp +
        gasPart m.grow.ratio (kG * (acoef * mrVal s.sootVar m.nsoot twothird)) sp +
        gasPart m.oxid.ratio (-(kO * (acoef * mrVal s.sootVar m.nsoot twothird))) sp) ∧
      ∀ sp, m'.sources.pah sp = -pahNdot s sp * pahMW sp / Na := by
  obtain ⟨P, Q, m', s', J', n', kG, kO', hF, b1, b2, -, -, b5, b6, -, -, -, -, -, -, -, b12, b13⟩ :=
    momic_eval h ⟨fun _ => ⟨hA, hy⟩, fun _ _ => hA⟩
  have hp := h.gas.acc.phys
  have h3 := h.three
  have d0 : 0 < mDimerAfter s := mDimerAfter_pos hp h.pah hy
  have hp' : State.Phys { s with cMin := cMinAfter s } := (h.gas.acc.upd (cMinAfter_pos hp) s.wts s.absc).phys
  obtain ⟨hib, i0⟩ := momicIbeta_ok (m := m) hp' h.fm hF h3 h.len hA hn d0
  have eI : momicBeta m.coag { s with cMin := cMinAfter s } s.sootVar m.nsoot (mDimerAfter s) 1 = I := by rw [hI, hD]; rfl
  rw [eI] at hib i0
  rw [Nucl.rate_pah hn, nuclPAH_ok hp h.pah m.nucl (momicIbeta m P Q) I i0.le hib] at b2
  simp only [ok.injEq, Prod.mk.injEq] at b2
  obtain ⟨rfl, rfl, rfl⟩ := b2
  rw [oxid_cMin, hO] at b6
  rw [grow_cMin] at b5
  simp only [ok.injEq] at b6
  subst b6
  have m0 : 0 < s.sootVar.getD 0 0 := by
    have hk : 0 < s.sootVar.length := by rw [h.len]; omega
    rw [List.getD_eq_getElem _ _ hk]; exact hA _ (List.getElem_mem hk)
  refine ⟨m', _, kG, b1, b5, ?_, fun sp => ?_, fun sp => ?_⟩
  · rw [b13]
    refine List.map_congr_left fun r _ => ?_
    simp only [momicSoot, if_pos hn, if_pos m0]
    rw [hJ, hN]
    subst hD
    rfl
  · rw [finish_gas b12, hJ, hN, hD]
  · obtain ⟨_, _, _, -, -, -, e⟩ := Model.finish_inv b12
    rw [e]
    simp only [hn, if_true]

section
variable {X : Type*} [TopologicalSpace X] {z : X}

theorem dimV_cont {q : X → ℕ → ℝ} (h : ∀ i, ContinuousAt (fun y => q y i) z) {D : X → ℝ} (hD : ContinuousAt D z) (pD : 0 < D z) (a : ℕ)
    (ts : List (ℝ × ℤ × ℕ)) : ContinuousAt (fun y => dimV (q y) (D y) a ts) z := by
  induction ts with
  | nil => simpa [dimV] using continuousAt_const
  | cons t ts ih =>
    simp only [dimV, List.map_cons, List.sum_cons] at ih ⊢
    exact ((continuousAt_const.mul (hD.rpow_const (.inl pD.ne'))).mul (h _)).add ih

/-- The collision rates of dimers with the particles of MOMIC are continuous. -/
theorem momicBeta_cont {c : Coag} (hc : 0 < c.fmMult) {f : X → State} (hp : ∀ y, (f y).Phys) (hs : ContSt f z) {M : X → List ℝ} {N : ℕ} (h3 : 3 ≤ N)
    (hM : ∀ k, ContinuousAt (fun y => (M y).getD k 0) z) (hA : ∀ k < N, 0 < (M z).getD k 0) {D : X → ℝ} (hD : ContinuousAt D z) (pD : 0 < D z) (r : ℕ) :
    ContinuousAt (fun y => momicBeta c (f y) (M y) N (D y) r) z := by
  have cq : ∀ i, ContinuousAt (fun y => qv (M y) N i) z := fun i => mrVal_cont h3 hM hA _
  have cp : ∀ i, ContinuousAt (fun y => pv (M y) N i) z := fun i => mrVal_cont h3 hM hA _
  have pos : ∀ s, 0 < mrVal (M z) N s := fun s => mrVal_pos fun k hk => hA k (by unfold used at hk; split_ifs at hk <;> omega)
  have d : ∀ e : ℝ, ContinuousAt (fun y => D y ^ e) z := fun e => hD.rpow_const (.inl pD.ne')
  have g : ContinuousAt (fun y => gV (qv (M y) N) (D y) r) z :=
    gridV_cont r (fun _ => dimV_cont cq hD pD _ _) (gPtV_pos (q := qv (M z) N) (fun i => pos _) pD r)
  have e : ContinuousAt (fun y => dimerCV (pv (M y) N) (D y) (kcpVal (f y))) z :=
    ((((d _).mul (cp _)).add (continuousAt_const.mul (cp _))).add ((d _).mul (cp _))).add
      ((kcp_cont hp hs).mul (((((d _).mul (cp _)).add (cp _)).add ((d _).mul (cp _))).add ((d _).mul (cp _))))
  have c1 := (kfm_cont c hs).mul g
  have c2 := (kc_cont hp hs).mul e
  have a1 := gV_pos (q := qv (M z) N) (fun i => pos _) pD r
  have a2 := dimerCV_pos (p := pv (M z) N) (fun i => pos _) pD (kcpVal_pos (hp z)).le
  have kf := Coag.kfmVal_pos (hp z) hc
  have kk := kcVal_pos (hp z)
  have hne : c.kfmVal (f z) * gV (qv (M z) N) (D z) r + kcVal (f z) * dimerCV (pv (M z) N) (D z) (kcpVal (f z)) ≠ 0 := by positivity
  exact (c1.mul c2).div (c1.add c2) hne

/-- **C104, MOMIC with PAH.** With PAH nucleation and without the HACA mechanisms, the soot, gas and PAH sources of MOMIC depend continuously on the state
wherever there are PAH and all moments are positive.  Missing: states without PAH and vanishing moments (where the evaluation is not finite), HACA
(`C103_growth_jump`). -/
theorem C104_momic_pah_continuous_partial (m : Model) (f : X → State) (z : X) (hr : ∀ y, MomicReady m (f y))
    (hn : m.nucl.mech = .PAH) (hg : m.grow.mech ≠ .HACA) (ho : m.oxid.cls ≠ .HACA) (hf : ContIn f z)
    (hy : ∀ sp : PahSp, ContinuousAt (fun y => (f y).yPah.getD sp.toNat 0) z) (hM : ∀ k, ContinuousAt (fun y => (f y).sootVar.getD k 0) z)
    (hA : ∀ y, ∀ x ∈ (f y).sootVar, 0 < x) (hpah : ∀ y, ∃ x ∈ (f y).yPah, x ≠ 0) :
    ∃ S : X → Model × State, (∀ y, momicSources m (f y) = ok (S y)) ∧ (∀ k, ContinuousAt (fun y => (S y).1.sources.soot.getD k 0) z) ∧
      (∀ sp, ContinuousAt (fun y => (S y).1.sources.gas sp) z) ∧ ∀ sp, ContinuousAt (fun y => (S y).1.sources.pah sp) z := by
  have hp : ∀ y, (f y).Phys := fun y => (hr y).gas.acc.phys
  have cp : ContPah f z := ⟨hf.T, hf.rho, hf.cMin, hy⟩
  have st : ContSt f z := ⟨hf.T, hf.P, hf.rho, hf.mu⟩
  have h3 := (hr z).three
  have ht := pahTot_pos (hp z) (hr z).pah (hpah z)
  have hA' : ∀ k < m.nsoot, 0 < (f z).sootVar.getD k 0 := fun k hk => by
    have hk' : k < (f z).sootVar.length := by rw [(hr z).len]; exact hk
    rw [List.getD_eq_getElem _ _ hk']; exact hA z _ (List.getElem_mem hk')
  obtain ⟨O, O1, O2⟩ := C103_oxidation_continuous_partial m.oxid.cls m.ctx f z (fun y => (hr y).gas) (fun y => (hr y).sized) hf.T hf.P hf.rho hf.cMin hf.frac ho
  rw [← (hr z).wf.oxid] at O1
  choose m' s' kG b1 b2 b4 b3 b5 using fun y => momic_pah (hr y) hn (hA y) (hpah y) (O1 y) rfl rfl rfl rfl
  have cM := mrVal_cont h3 hM hA'
  have cD := mDimer_cont cp ht
  have pD : 0 < mDimerAfter (f z) := mDimerAfter_pos (hp z) (hr z).pah (hpah z)
  have cB := momicBeta_cont (c := m.coag) (hr z).fm hp st h3 hM hA' cD pD
  have i0 : 0 ≤ momicBeta m.coag (f z) (f z).sootVar m.nsoot (mDimerAfter (f z)) 1 := by
    obtain ⟨_, _, _, -, -, -, -, -, hF⟩ := momicSetup (hr z)
    exact (momicIbeta_ok (m := m) (hp z) (hr z).fm hF h3 (hr z).len (hA z) hn pD).2.le
  have cN := nDimer_cont cp (hp z) ht (cB 1) i0
  have cJ := ((continuousAt_const (y := (0.5 : ℝ)).mul (betaDD_cont cp cD)).mul cN).mul cN
  have cC : ContinuousAt (fun y => cMinAfter (f y) * gasMW .C / Na) z := ((cMinAfter_cont cp ht).mul continuousAt_const).div_const _
  -- the growth rate itself
  have cK : ContinuousAt kG z := by
    have hns : m.ctx.psd ≠ .SECT := by show m.psd ≠ _; rw [(hr z).psd]; decide
    have n1 : ∀ y, numOf m.ctx (f y) = (f y).sootVar.getD 0 0 := fun y => by simp only [numOf, hns, if_false]
    have n2 : ∀ y, massOf m.ctx (f y) = (f y).sootVar.getD 1 0 := fun y => by simp only [massOf, hns, if_false]
    have q : ∀ y, kG y * areaFn ((f y).sootVar.getD 0 0) ((f y).sootVar.getD 1 0) =
        growFlux m.grow.mech (f y) (areaFn ((f y).sootVar.getD 0 0) ((f y).sootVar.getD 1 0)) := fun y => by
      have hk := b2 y
      rw [(hr y).wf.grow] at hk
      have := growFlux_eq hg (hr y).gas (hr y).sized hk
      rwa [n1, n2] at this
    have a0 : 0 < areaFn ((f z).sootVar.getD 0 0) ((f z).sootVar.getD 1 0) := by
      have := rhoSoot_pos; have := hA' 0 (by omega); have := hA' 1 (by omega); unfold areaFn; positivity
    have cF := areaFn_cont (hM 0) (hM 1)
    refine ((growFlux_cont hf.toContGas (fun y => (hr y).gas) m.grow.mech cF).div cF a0.ne').congr ?_
    filter_upwards [cF.eventually (lt_mem_nhds a0)] with y hy
    show growFlux m.grow.mech (f y) (areaFn ((f y).sootVar.getD 0 0) ((f y).sootVar.getD 1 0)) / areaFn ((f y).sootVar.getD 0 0) ((f y).sootVar.getD 1 0) = kG y
    rw [← q, mul_div_assoc, div_self (show areaFn ((f y).sootVar.getD 0 0) ((f y).sootVar.getD 1 0) ≠ 0 from
      (show 0 < areaFn ((f y).sootVar.getD 0 0) ((f y).sootVar.getD 1 0) from hy).ne'), mul_one]
  refine ⟨fun y => (m' y, s' y), b1, fun k => ?_, fun sp => ?_, fun sp => ?_⟩
  · by_cases hk : k < m.nsoot
    · have e : ∀ y, (m' y).sources.soot.getD k 0 = _ := fun y => by
        rw [b4 y, List.getD_eq_getElem _ _ (by simpa using hk), List.getElem_map, List.getElem_range]
      simp only [e]
      exact (((cJ.mul (cC.pow k)).add (continuousAt_const.mul ((cD.mul cN).mul (cB k)))).add ((cK.sub O2).mul (continuousAt_const.mul (cM _)))).add
        (momicCoagV_cont (c := m.coag) (hr z).fm hp st h3 hM hA' k)
    · have e : ∀ y, (m' y).sources.soot.getD k 0 = 0 := fun y => by
        rw [b4 y]; exact List.getD_eq_default _ _ (by simpa using hk)
      simp only [e]
      exact continuousAt_const
  · simp only [b3]
    have sG : ContinuousAt (fun y => kG y * (acoef * mrVal (f y).sootVar m.nsoot twothird)) z := cK.mul (continuousAt_const.mul (cM _))
    have sO : ContinuousAt (fun y => -(O y * (acoef * mrVal (f y).sootVar m.nsoot twothird))) z := (O2.mul (continuousAt_const.mul (cM _))).neg
    exact ((gasPart_update_cont (cJ.mul cC) (h2Ratio_cont cp (hp z) ht) _ sp).add (gasPart_cont sG _ sp)).add (gasPart_cont sO _ sp)
  · simp only [b5]
    exact (((pahNdot_cont cp sp).neg.mul continuousAt_const).div_const _)

end

/-- Four moments of `N` particles per volume, with PAH nucleation in the burning gas of `exSt`. -/
example : ∃ S : Set.Ioi (0 : ℝ) → Model × State,
    (∀ N : Set.Ioi (0 : ℝ), momicSources (exModel .MOMIC 4 .PAH .LL .LL .HM) (exSt [N.1, N.1, N.1 * 2, N.1 * 8] false) = ok (S N)) ∧
    ContinuousAt (fun N => (S N).1.sources.soot.getD 2 0) ⟨1, zero_lt_one (α := ℝ)⟩ := by
  have pos : ∀ N : Set.Ioi (0 : ℝ), ∀ x ∈ [N.1, N.1, N.1 * 2, N.1 * 8], 0 < x := fun N x hx => by
    have : (0 : ℝ) < N.1 := N.2
    simp only [List.mem_cons, List.not_mem_nil, or_false] at hx
    rcases hx with h | h | h | h <;> subst h <;> positivity
  have sv : ∀ N : Set.Ioi (0 : ℝ), (exSt [N.1, N.1, N.1 * 2, N.1 * 8] false).sootVar = [N.1, N.1, N.1 * 2, N.1 * 8] := fun N =>
    exSt_sootVar _ fun x hx => (pos N x hx).le
  have hA : ∀ N : Set.Ioi (0 : ℝ), ∀ x ∈ (exSt [N.1, N.1, N.1 * 2, N.1 * 8] false).sootVar, 0 < x := fun N => by rw [sv N]; exact pos N
  obtain ⟨S, h1, h2, -⟩ := C104_momic_pah_continuous_partial (exModel .MOMIC 4 .PAH .LL .LL .HM)
    (fun N : Set.Ioi (0 : ℝ) => exSt [N.1, N.1, N.1 * 2, N.1 * 8] false) ⟨1, zero_lt_one (α := ℝ)⟩
    (fun N => exMomicReady 4 .PAH (by simp) (by simp) .LL .LL .HM _ false (by norm_num) (by norm_num) rfl (fun x hx => (pos N x hx).le) (by simp))
    rfl (by simp [exModel, Grow.new]) (by simp [exModel, Oxid.new])
    (by
      simp only [exSt_eq]
      constructor
      · constructor <;> intros <;> exact continuousAt_const
      all_goals exact continuousAt_const)
    (by simp only [exSt_eq]; intro sp; exact continuousAt_const)
    (by
      have c : Continuous fun N : Set.Ioi (0 : ℝ) => N.1 := continuous_subtype_val
      intro k
      simp only [sv]
      match k with
      | 0 => exact c.continuousAt
      | 1 => exact c.continuousAt
      | 2 => exact (c.mul continuous_const).continuousAt
      | 3 => exact (c.mul continuous_const).continuousAt
      | n + 4 => exact continuousAt_const)
    hA (fun N => exSt_pah _)
  exact ⟨S, h1, h2 2⟩

end Soot
