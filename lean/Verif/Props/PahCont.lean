import Verif.Props.SectCont
import Verif.Props.MonoPah

/-!
# C104 with PAH nucleation

Where PAH is present the dimer balance depends continuously on the state, and so do the sources of MONO and SECT.  Where the PAH vanish they need not:
the number of carbon atoms left in the state object is divided by the collision rate (nucleationModel_PAH.cc:52, 77-81).
-/

namespace Soot

open Res Real Filter Topology Cont
open scoped Classical

/-! ## The dimer balance -/

section
variable {X : Type*} [TopologicalSpace X] {z : X}

/-- The quantities PAH nucleation reads depend continuously on the parameter. -/
structure ContPah (f : X → State) (z : X) : Prop where
  T : ContinuousAt (fun y => (f y).T) z
  rho : ContinuousAt (fun y => (f y).rhoGas) z
  cMin : ContinuousAt (fun y => (f y).cMin) z
  pah : ∀ sp : PahSp, ContinuousAt (fun y => (f y).yPah.getD sp.toNat 0) z

variable {f : X → State}

theorem pahPre_cont (h : ContPah f z) : ContinuousAt (fun y => pahPre (f y)) z :=
  (continuousAt_const.mul (ContinuousAt.sqrt (continuousAt_const.mul h.T))).mul continuousAt_const

theorem pahNdot_cont (h : ContPah f z) (sp : PahSp) : ContinuousAt (fun y => pahNdot (f y) sp) z := by
  have n : ContinuousAt (fun y => pahN (f y) sp) z := ((h.rho.mul (h.pah sp)).div_const _).mul continuousAt_const
  exact (((continuousAt_const.mul (pahPre_cont h)).mul continuousAt_const).mul n).mul n

theorem pahTot_cont (h : ContPah f z) : ContinuousAt (fun y => pahTot (f y)) z := tendsto_finsetSum _ fun sp _ => pahNdot_cont h sp

theorem pahTot_ev (h : ContPah f z) (ht : 0 < pahTot (f z)) : ∀ᶠ y in 𝓝 z, 0 < pahTot (f y) := (pahTot_cont h).eventually (lt_mem_nhds ht)

theorem dimerMass_cont (h : ContPah f z) (ht : 0 < pahTot (f z)) : ContinuousAt (fun y => dimerMass (f y)) z :=
  (show ContinuousAt (fun y => ∑ sp, pahNdot (f y) sp * pahNC sp * gasMW .C / Na) z from tendsto_finsetSum _ fun sp _ =>
    (((pahNdot_cont h sp).mul continuousAt_const).mul continuousAt_const).div_const _).div (pahTot_cont h) ht.ne'

theorem mDimer_cont (h : ContPah f z) (ht : 0 < pahTot (f z)) : ContinuousAt (fun y => mDimerAfter (f y)) z := by
  refine (dimerMass_cont h ht).congr ?_
  filter_upwards [pahTot_ev h ht] with y hy
  rw [mDimerAfter, if_pos hy]

theorem carbonSum_cont (h : ContPah f z) : ContinuousAt (fun y => ∑ sp, pahNdot (f y) sp * 2 * pahNC sp) z :=
  tendsto_finsetSum _ fun sp _ => ((pahNdot_cont h sp).mul continuousAt_const).mul continuousAt_const

theorem cMinAfter_cont (h : ContPah f z) (ht : 0 < pahTot (f z)) : ContinuousAt (fun y => cMinAfter (f y)) z := by
  refine ((h.cMin.add (carbonSum_cont h)).div (pahTot_cont h) ht.ne').congr ?_
  filter_upwards [pahTot_ev h ht] with y hy
  rw [cMinAfter, if_pos hy]; rfl

theorem h2Ratio_cont (h : ContPah f z) (hp : (f z).Phys) (ht : 0 < pahTot (f z)) : ContinuousAt (fun y => h2Ratio (f y)) z := by
  have s : ContinuousAt (fun y => ∑ sp, pahNdot (f y) sp * 2 * pahNH sp) z :=
    tendsto_finsetSum _ fun sp _ => ((pahNdot_cont h sp).mul continuousAt_const).mul continuousAt_const
  refine (((s.div (pahTot_cont h) ht.ne').div_const 2).div (cMinAfter_cont h ht) (cMinAfter_pos hp).ne').congr ?_
  filter_upwards [pahTot_ev h ht] with y hy
  rw [h2Ratio, if_pos hy]; rfl

theorem betaDD_cont (h : ContPah f z) {m : X → ℝ} (hm : ContinuousAt m z) : ContinuousAt (fun y => betaDD (f y) (m y)) z :=
  (pahPre_cont h).mul (hm.rpow_const (.inr (by norm_num)))

theorem nDimer_cont (h : ContPah f z) (hp : (f z).Phys) (ht : 0 < pahTot (f z)) {I : X → ℝ} (hI : ContinuousAt I z) (I0 : 0 ≤ I z) :
    ContinuousAt (fun y => nDimerAfter (f y) (I y)) z := by
  have b := betaDD_cont h (dimerMass_cont h ht)
  have c := (hI.add (ContinuousAt.sqrt ((hI.mul hI).add ((continuousAt_const (y := (4 : ℝ)).mul b).mul (continuousAt_const (y := (0.5 : ℝ)).mul (pahTot_cont h))))))
  have hm := dimerMass_pos hp ht
  have hb : 0 < betaDD (f z) (dimerMass (f z)) := mul_pos (pahPre_pos hp) (by positivity)
  have q : I z + sqrt (I z * I z + 4 * betaDD (f z) (dimerMass (f z)) * (0.5 * pahTot (f z))) ≠ 0 := by positivity
  refine ((pahTot_cont h).div c q).congr ?_
  filter_upwards [pahTot_ev h ht] with y hy
  rw [nDimerAfter, if_pos hy]; rfl

/-- Every PAH has at least ten carbon atoms, so the mean one lies above the cutoff mass of the kernels. -/
theorem dimerMass_cutoff {s : State} (h : s.Phys) (ht : 0 < pahTot s) : mmin < dimerMass s := by
  rw [dimerMass, lt_div_iff₀ ht, pahTot, Finset.mul_sum]
  have key : ∀ sp, mmin * pahNdot s sp ≤ pahNdot s sp * pahNC sp * gasMW .C / Na ∧
      (0 < pahNdot s sp → mmin * pahNdot s sp < pahNdot s sp * pahNC sp * gasMW .C / Na) := fun sp => by
    have n0 := pahNdot_nonneg h sp
    have c : mmin < pahNC sp * gasMW .C / Na := by cases sp <;> norm_num [mmin, pahNC, gasMW, Na]
    have e : pahNdot s sp * pahNC sp * gasMW .C / Na = pahNC sp * gasMW .C / Na * pahNdot s sp := by ring
    rw [e]
    exact ⟨mul_le_mul_of_nonneg_right c.le n0, fun n0 => mul_lt_mul_of_pos_right c n0⟩
  obtain ⟨sp, -, hsp⟩ : ∃ sp ∈ Finset.univ, 0 < pahNdot s sp := by
    by_contra hc; push Not at hc
    exact absurd (Finset.sum_nonpos hc) (not_le.mpr ht)
  exact Finset.sum_lt_sum (fun q _ => (key q).1) ⟨sp, Finset.mem_univ _, (key sp).2 hsp⟩

/-- Collision kernel of the dimers with particles of the masses `b`. -/
theorem dimerKern_cont {c : Coag} (hc : 0 < c.fmMult) (hp : ∀ y, (f y).Phys) (hs : ContSt f z) (h : ContPah f z) (ht : 0 < pahTot (f z)) {b : X → ℝ}
    (hb : ContinuousAt b z) (hm : b z ≠ mmin) : ContinuousAt (fun y => c.val (f y) (mDimerAfter (f y)) (b y)) z := by
  have hd : mmin < mDimerAfter (f z) := by rw [mDimerAfter, if_pos ht]; exact dimerMass_cutoff (hp z) ht
  have cm := mDimer_cont h ht
  rcases lt_or_gt_of_ne hm with q | q
  · refine (continuousAt_const (y := (0 : ℝ))).congr ?_
    filter_upwards [hb.eventually (gt_mem_nhds q)] with y hy
    exact (val_zero c _ (.inr (le_of_lt hy))).symm
  · refine (core_cont hc hp hs cm hb (mmin_pos.trans hd) (mmin_pos.trans q)).congr ?_
    filter_upwards [hb.eventually (lt_mem_nhds q), cm.eventually (lt_mem_nhds hd)] with y hy hy'
    exact (val_core c _ hy' hy).symm

/-- The same for a fixed particle mass, cutoff or not. -/
theorem dimerKern_fixed {c : Coag} (hc : 0 < c.fmMult) (hp : ∀ y, (f y).Phys) (hs : ContSt f z) (h : ContPah f z) (ht : 0 < pahTot (f z)) (b : ℝ) :
    ContinuousAt (fun y => c.val (f y) (mDimerAfter (f y)) b) z := by
  by_cases hb : b ≤ mmin
  · simp only [val_zero c _ (.inr hb)]; exact continuousAt_const
  · exact dimerKern_cont hc hp hs h ht continuousAt_const (not_le.1 hb).ne'

/-- Gas part for mole ratios with `C = 1` and a varying `H2`. -/
theorem gasPart_update_cont {v r : X → ℝ} (hv : ContinuousAt v z) (hr : ContinuousAt r z) (q : GasSp → ℝ) (sp : GasSp) :
    ContinuousAt (fun y => gasPart (Function.update (Function.update q .C 1) .H2 (r y)) (v y) sp) z := by
  unfold gasPart
  split_ifs with hc
  · exact continuousAt_const
  · have e : ∀ y, Function.update (Function.update q GasSp.C 1) .H2 (r y) .C = 1 := fun y => by simp
    simp only [e]
    by_cases h2 : sp = .H2
    · subst h2
      simp only [Function.update_self]
      exact ((hv.mul hr).mul continuousAt_const).div_const _
    · simp only [Function.update_of_ne h2]
      exact ((hv.mul continuousAt_const).mul continuousAt_const).div_const _

/-! ## MONO -/

/-- Collision rate of one dimer with the particles of MONO. -/
noncomputable def monoI (m : Model) (s : State) (W A : ℝ) : ℝ := |W| * m.coag.val s (mDimerAfter s) A

/-- One evaluation with PAH, in closed form. -/
theorem mono_pah {m : Model} {s : State} {M0 M1 w a : ℝ} (h : MonoReady m s M0 M1 w a) (hn : m.nucl.mech = .PAH) (hg : m.grow.mech ≠ .HACA) {kO : ℝ}
    (hO : m.oxid.rate m.ctx { s with wts := [monoW M0 w], absc := [monoA M0 M1 a], cMin := cMinAfter s } = ok kO) {I J : ℝ}
    (hI : I = monoI m s (monoW M0 w) (monoA M0 M1 a)) (hJ : J = 0.5 * betaDD s (mDimerAfter s) * nDimerAfter s I * nDimerAfter s I) :
    ∃ m' s', monoSources m s = ok (m', s') ∧
      m'.sources.soot = [J - m.coag.val s (monoA M0 M1 a) (monoA M0 M1 a) * monoW M0 w ^ 2 / 2,
        J * cMinAfter s * gasMW .C / Na + m.coag.val s (mDimerAfter s) (monoA M0 M1 a) * monoW M0 w * nDimerAfter s I * mDimerAfter s +
          (growFlux m.grow.mech s (areaFn M0 M1) - kO * areaFn M0 M1)] ∧
      (∀ sp, m'.sources.gas sp = gasPart (Function.update (Function.update m.nucl.ratio .C 1) .H2 (h2Ratio s)) (J * cMinAfter s * gasMW .C / Na) sp +
        gasPart m.grow.ratio (growFlux m.grow.mech s (areaFn M0 M1)) sp + gasPart m.oxid.ratio (-kO * areaFn M0 M1) sp) ∧
      ∀ sp, m'.sources.pah sp = -pahNdot s sp * pahMW sp / Na := by
  obtain ⟨m', s', J', n', kG, kO', A, b1, b2, b3, -, b5, b6, b7, -, -, -, -, b12, b13⟩ := mono_eval h
  have hp := h.gas.acc.phys
  set g : State := { s with wts := [monoW M0 w], absc := [monoA M0 M1 a] } with hgd
  have gp : g.Phys := (h.gas.acc.upd hp.cMin [monoW M0 w] [monoA M0 M1 a]).phys
  have c0 : 0 < cMinAfter s := cMinAfter_pos hp
  have gp' : State.Phys { g with cMin := cMinAfter g } := (h.gas.acc.upd c0 [monoW M0 w] [monoA M0 M1 a]).phys
  have i0 : 0 ≤ I := by rw [hI]; exact mul_nonneg (abs_nonneg _) (Coag.val_nonneg hp h.fm _ _)
  have hib : ibetaNodes m.coag { g with cMin := cMinAfter g } (mDimerAfter g) = ok I := by
    rw [ibetaNodes_ok gp' h.fm (by simp [hgd]), hI]
    simp only [hgd, List.length_cons, List.length_nil, zero_add, Finset.range_one, Finset.sum_singleton, List.getD_cons_zero]
    rfl
  rw [Nucl.rate_pah hn, nuclPAH_ok gp h.pah m.nucl (ibetaNodes m.coag) I i0 hib] at b2
  simp only [ok.injEq, Prod.mk.injEq] at b2
  obtain ⟨rfl, rfl, rfl⟩ := b2
  have hO' : m.oxid.rate m.ctx { g with cMin := cMinAfter g } = ok kO := hO
  rw [hO'] at b6
  simp only [ok.injEq] at b6
  subst b6
  have hM := h.gas.acc.sootVar_nonneg
  have h0 : 0 ≤ M0 := hM M0 (by simp [h.soot])
  have h1 : 0 ≤ M1 := hM M1 (by simp [h.soot])
  have hA : A = areaFn M0 M1 := isArea_unique h0 h1 b7 (areaMono_isArea (areaFn_ok h0 h1))
  have hr := h.toReady.upd c0 [monoW M0 w] [monoA M0 M1 a]
  have hns : m.ctx.psd ≠ .SECT := by show m.psd ≠ _; rw [h.psd]; decide
  have hk : kG * areaFn M0 M1 = growFlux m.grow.mech s (areaFn M0 M1) := by
    rw [h.wf.grow] at b5
    have := growFlux_eq hg hr.gas hr.sized b5
    have e1 : numOf m.ctx { s with wts := [monoW M0 w], absc := [monoA M0 M1 a], cMin := cMinAfter s } = M0 := by simp [numOf, hns, h.soot]
    have e2 : massOf m.ctx { s with wts := [monoW M0 w], absc := [monoA M0 M1 a], cMin := cMinAfter s } = M1 := by simp [massOf, hns, h.soot]
    rw [e1, e2] at this
    exact this
  refine ⟨m', _, b1, ?_, fun sp => ?_, fun sp => ?_⟩
  · rw [b13, if_pos hn, hA, sub_mul, hk, hJ]; rfl
  · rw [finish_gas b12, hA, hk, hJ]; rfl
  · obtain ⟨_, _, _, -, -, -, e⟩ := Model.finish_inv b12
    rw [e]
    simp only [hn, if_true]
    rfl

/-- **C104, MONO with PAH.** With PAH nucleation and without the HACA mechanisms, the soot, gas and PAH sources of MONO depend continuously on the state
wherever there are PAH and particles and the mean particle mass is not the cutoff mass.  Missing for the full property: the point where the PAH vanish
(`C104_mono_pah_vanish` with soot, `C104_pah_jump` without), states without particles, the cutoff mass (`C100_mono_jump`) and HACA (`C103_growth_jump`). -/
theorem C104_mono_pah_continuous_partial (m : Model) (f : X → State) (z : X) (M0 M1 w a : X → ℝ) (hr : ∀ y, MonoReady m (f y) (M0 y) (M1 y) (w y) (a y))
    (hn : m.nucl.mech = .PAH) (hg : m.grow.mech ≠ .HACA) (ho : m.oxid.cls ≠ .HACA) (hf : ContIn f z)
    (hy : ∀ sp : PahSp, ContinuousAt (fun y => (f y).yPah.getD sp.toNat 0) z) (c0 : ContinuousAt M0 z) (c1 : ContinuousAt M1 z)
    (hpah : ∃ y ∈ (f z).yPah, y ≠ 0) (h0 : 0 < M0 z) (hcut : M1 z / M0 z ≠ mmin) :
    ∃ S : X → Model × State, (∀ y, monoSources m (f y) = ok (S y)) ∧ (∀ k, ContinuousAt (fun y => (S y).1.sources.soot.getD k 0) z) ∧
      (∀ sp, ContinuousAt (fun y => (S y).1.sources.gas sp) z) ∧ ∀ sp, ContinuousAt (fun y => (S y).1.sources.pah sp) z := by
  have hp : ∀ y, (f y).Phys := fun y => (hr y).gas.acc.phys
  have fm := (hr z).fm
  have cp : ContPah f z := ⟨hf.T, hf.rho, hf.cMin, hy⟩
  have st : ContSt f z := ⟨hf.T, hf.P, hf.rho, hf.mu⟩
  have ht := pahTot_pos (hp z) (hr z).pah hpah
  set g : X → State := fun y => { f y with wts := [monoW (M0 y) (w y)], absc := [monoA (M0 y) (M1 y) (a y)], cMin := cMinAfter (f y) } with hgd
  have rr : ∀ y, Ready m (g y) := fun y => (hr y).toReady.upd (cMinAfter_pos (hp y)) _ _
  have cC := cMinAfter_cont cp ht
  obtain ⟨O, O1, O2⟩ := C103_oxidation_continuous_partial m.oxid.cls m.ctx g z (fun y => (rr y).gas) (fun y => (rr y).sized) hf.T hf.P hf.rho cC hf.frac ho
  rw [← (hr z).wf.oxid] at O1
  have cW : ContinuousAt (fun y => monoW (M0 y) (w y)) z := by
    refine c0.congr ?_
    filter_upwards [c0.eventually (lt_mem_nhds h0)] with y hy
    rw [monoW, if_pos hy]
  have cAb : ContinuousAt (fun y => monoA (M0 y) (M1 y) (a y)) z := by
    refine (c1.div c0 h0.ne').congr ?_
    filter_upwards [c0.eventually (lt_mem_nhds h0)] with y hy
    rw [monoA, if_pos hy]; rfl
  have eA : monoA (M0 z) (M1 z) (a z) ≠ mmin := by rw [monoA, if_pos h0]; exact hcut
  have cB := dimerKern_cont (c := m.coag) fm hp st cp ht cAb eA
  have cI : ContinuousAt (fun y => monoI m (f y) (monoW (M0 y) (w y)) (monoA (M0 y) (M1 y) (a y))) z := cW.abs.mul cB
  have i0 : 0 ≤ monoI m (f z) (monoW (M0 z) (w z)) (monoA (M0 z) (M1 z) (a z)) := mul_nonneg (abs_nonneg _) (Coag.val_nonneg (hp z) fm _ _)
  have cN := nDimer_cont cp (hp z) ht cI i0
  have cJ := ((continuousAt_const (y := (0.5 : ℝ)).mul (betaDD_cont cp (mDimer_cont cp ht))).mul cN).mul cN
  obtain ⟨v, v1, v2⟩ := C100_kernel_continuous_partial m.coag fm f (fun y => (hr y).gas.acc) _ _ z hf.T hf.P hf.rho hf.mu cAb cAb eA eA
  have v3 : ∀ y, m.coag.val (f y) (monoA (M0 y) (M1 y) (a y)) (monoA (M0 y) (M1 y) (a y)) = v y := fun y => by
    have := (v1 y).symm.trans (Coag.rate_ok (hp y) fm _ _)
    simp only [ok.injEq] at this
    exact this.symm
  choose S1 S2 e1 e2 e3 e4 using fun y => mono_pah (hr y) hn hg (O1 y) rfl rfl
  have cA := areaFn_cont c0 c1
  have cG := growFlux_cont hf.toContGas (fun y => (hr y).gas) m.grow.mech cA
  have cM := ((cJ.mul cC).mul (continuousAt_const (y := gasMW .C))).div_const Na
  refine ⟨fun y => (S1 y, S2 y), e1, fun k => ?_, fun sp => ?_, fun sp => ?_⟩
  · simp only [e2, v3]
    match k with
    | 0 => exact cJ.sub ((v2.mul (cW.pow 2)).div_const 2)
    | 1 => exact (cM.add (((cB.mul cW).mul cN).mul (mDimer_cont cp ht))).add (cG.sub (O2.mul cA))
    | n + 2 => simpa using continuousAt_const
  · simp only [e3]
    exact ((gasPart_update_cont cM (h2Ratio_cont cp (hp z) ht) _ sp).add (gasPart_cont cG _ sp)).add (gasPart_cont (O2.neg.mul cA) _ sp)
  · simp only [e4]
    exact (((pahNdot_cont cp sp).neg.mul continuousAt_const).div_const _)

/-- Without soot a quarter of the colliding PAH molecules nucleates. -/
theorem pahJ_noSoot {s : State} (h : s.Phys) (ht : 0 < pahTot s) : 0.5 * betaDD s (mDimerAfter s) * nDimerAfter s 0 * nDimerAfter s 0 = pahTot s / 4 := by
  have hm := dimerMass_pos h ht
  have hb : 0 < betaDD s (dimerMass s) := mul_pos (pahPre_pos h) (by positivity)
  rw [mDimerAfter, if_pos ht, nDimerAfter, if_pos ht]
  have q : 0 < 4 * betaDD s (dimerMass s) * (0.5 * pahTot s) := by positivity
  have e := mul_self_sqrt q.le
  have sp := sqrt_pos.2 q
  simp only [mul_zero, zero_add]
  generalize hx : sqrt (4 * betaDD s (dimerMass s) * (0.5 * pahTot s)) = x at *
  have : betaDD s (dimerMass s) = x * x / (2 * pahTot s) := by field_simp; linarith
  rw [this]; field_simp; norm_num

/-- **C104, refutation by PAH.** In a gas without soot (nodes never set) the mass source of MONO with PAH nucleation tends to a quarter of the stored
carbon number times the mass of a carbon atom as the PAH vanish, and is zero without PAH: the stored number of carbon atoms is added before the division by
the collision rate. -/
theorem C104_pah_jump (m : Model) (f : X → State) (z : X) (a : X → ℝ) (hr : ∀ y, MonoReady m (f y) 0 0 0 (a y)) (hn : m.nucl.mech = .PAH)
    (hg : m.grow.mech ≠ .HACA) (hT : ContinuousAt (fun y => (f y).T) z) (hrho : ContinuousAt (fun y => (f y).rhoGas) z)
    (hc : ContinuousAt (fun y => (f y).cMin) z) (hy : ∀ sp : PahSp, ContinuousAt (fun y => (f y).yPah.getD sp.toNat 0) z)
    (h0 : ∀ y ∈ (f z).yPah, y = 0) :
    ∃ S : X → Model × State, (∀ y, monoSources m (f y) = ok (S y)) ∧
      Tendsto (fun y => (S y).1.sources.soot.getD 1 0) (𝓝[{y | ∃ p ∈ (f y).yPah, p ≠ 0}] z) (𝓝 ((f z).cMin / 4 * (gasMW .C / Na))) ∧
      (S z).1.sources.soot.getD 1 0 = 0 ∧ 0 < (f z).cMin / 4 * (gasMW .C / Na) := by
  have hp : ∀ y, (f y).Phys := fun y => (hr y).gas.acc.phys
  have cp : ContPah f z := ⟨hT, hrho, hc, hy⟩
  have hO : ∀ y, ∃ kO, m.oxid.rate m.ctx { f y with wts := [monoW 0 0], absc := [monoA 0 0 (a y)], cMin := cMinAfter (f y) } = ok kO := fun y => by
    obtain ⟨k, h, -⟩ := ((hr y).toReady.upd (cMinAfter_pos (hp y)) [monoW 0 0] [monoA 0 0 (a y)]).oxid
    exact ⟨k, h⟩
  choose O O1 using hO
  choose S1 S2 e1 e2 e3 e4 using fun y => mono_pah (hr y) hn hg (O1 y) rfl rfl
  have W : monoW 0 0 = 0 := by simp [monoW]
  have A0 : areaFn 0 0 = 0 := by simp [areaFn]
  have I0 : ∀ y, monoI m (f y) (monoW 0 0) (monoA 0 0 (a y)) = 0 := fun y => by simp [monoI, W]
  have val : ∀ y, (S1 y).sources.soot.getD 1 0 = 0.5 * betaDD (f y) (mDimerAfter (f y)) * nDimerAfter (f y) 0 * nDimerAfter (f y) 0 * cMinAfter (f y) * gasMW .C / Na := fun y => by
    rw [e2 y]
    simp only [List.getD_cons_succ, List.getD_cons_zero, I0]
    simp only [W, A0, growFlux_zero]
    ring
  have mw : 0 < gasMW .C := by norm_num [gasMW]
  have na := Na_pos
  have pz : ∀ sp : PahSp, (f z).yPah.getD sp.toNat 0 = 0 := fun sp => by
    by_cases hi : sp.toNat < (f z).yPah.length
    · rw [List.getD_eq_getElem _ _ hi]; exact h0 _ (List.getElem_mem hi)
    · rw [List.getD_eq_default _ _ (not_lt.1 hi)]
  have dz : ∀ sp : PahSp, pahNdot (f z) sp = 0 := fun sp => by rw [pahNdot, pahN, pz sp]; ring
  have tz : pahTot (f z) = 0 := Finset.sum_eq_zero fun sp _ => dz sp
  refine ⟨fun y => (S1 y, S2 y), e1, ?_, ?_, ?_⟩
  · have lim : Tendsto (fun y => ((f y).cMin + ∑ sp, pahNdot (f y) sp * 2 * pahNC sp) / 4 * (gasMW .C / Na)) (𝓝 z) (𝓝 ((f z).cMin / 4 * (gasMW .C / Na))) := by
      have q := ((hc.add (carbonSum_cont cp)).div_const 4).mul (continuousAt_const (y := gasMW .C / Na))
      have e : (f z).cMin / 4 * (gasMW .C / Na) = ((f z).cMin + ∑ sp, pahNdot (f z) sp * 2 * pahNC sp) / 4 * (gasMW .C / Na) := by simp [dz]
      rw [e]
      exact q
    refine (lim.mono_left nhdsWithin_le_nhds).congr' ?_
    filter_upwards [self_mem_nhdsWithin] with y hy
    have ht := pahTot_pos (hp y) (hr y).pah hy
    show _ = (S1 y).sources.soot.getD 1 0
    rw [val y, pahJ_noSoot (hp y) ht, cMinAfter, if_pos ht]
    generalize ((f y).cMin + ∑ sp, pahNdot (f y) sp * 2 * pahNC sp) = c
    field_simp
  · rw [val z, nDimerAfter, if_neg (by rw [tz]; exact lt_irrefl _)]; ring
  · have := (hp z).cMin
    positivity

/-! ## SECT -/

/-- **C104, SECT with PAH.** With PAH nucleation and without the HACA mechanisms, the sources of the section contents, gas species and PAH species of SECT
depend continuously on the state wherever there are PAH, with or without soot.  Missing for the full property: the point where the PAH vanish
(`C104_sect_pah_vanish` with soot, `C104_sect_pah_jump` without) and HACA (`C103_growth_jump`). -/
theorem C104_sect_pah_continuous_partial (m : Model) (glob : Option ℝ) (hgl : GlobOk m glob) (f : X → State) (z : X) (hr : ∀ y, SectReady m (f y))
    (hn : m.nucl.mech = .PAH) (hg : m.grow.mech ≠ .HACA) (ho : m.oxid.cls ≠ .HACA) (hf : ContIn f z)
    (hy : ∀ sp : PahSp, ContinuousAt (fun y => (f y).yPah.getD sp.toNat 0) z) (hN : ∀ k, ContinuousAt (fun y => (f y).sootVar.getD k 0) z)
    (hpah : ∃ y ∈ (f z).yPah, y ≠ 0) :
    ∃ S : X → Model × State × Option ℝ, (∀ y, sectSources m glob (f y) = ok (S y)) ∧ (∀ k, ContinuousAt (fun y => (S y).1.sources.soot.getD k 0) z) ∧
      (∀ sp, ContinuousAt (fun y => (S y).1.sources.gas sp) z) ∧ ∀ sp, ContinuousAt (fun y => (S y).1.sources.pah sp) z := by
  have hp : ∀ y, (f y).Phys := fun y => (hr y).gas.acc.phys
  have fm := (hr z).fm
  have cp : ContPah f z := ⟨hf.T, hf.rho, hf.cMin, hy⟩
  have st : ContSt f z := ⟨hf.T, hf.P, hf.rho, hf.mu⟩
  have ht := pahTot_pos (hp z) (hr z).pah hpah
  have cC := cMinAfter_cont cp ht
  set g : X → State := fun y => { f y with cMin := cMinAfter (f y) } with hgd
  have rr : ∀ y, SectReady m (g y) := fun y => (hr y).upd (cMinAfter_pos (hp y))
  have hs : ContSect g z := ⟨⟨⟨hf.T, hf.P, hf.rho, cC, hf.frac⟩, hf.mu, hf.tar, hf.mtar⟩, hN⟩
  obtain ⟨O, O1, O2⟩ := C103_oxidation_continuous_partial m.oxid.cls m.ctx g z (fun y => (rr y).gas) (fun y => (rr y).sized) hf.T hf.P hf.rho cC hf.frac ho
  rw [← (hr z).wf.oxid] at O1
  set I : X → ℝ := fun y => ∑ k ∈ Finset.range m.nsoot, m.coag.val (f y) (mDimerAfter (f y)) (m.mBins.getD k 0) * (f y).sootVar.getD k 0 with hI
  have cI : ContinuousAt I z := tendsto_finsetSum _ fun k _ => (dimerKern_fixed fm hp st cp ht (m.mBins.getD k 0)).mul (hN k)
  have I0 : ∀ y, 0 ≤ I y := fun y => sectIbeta_nonneg (hr y) (mDimerAfter (f y))
  set J : X → ℝ := fun y => 0.5 * betaDD (f y) (mDimerAfter (f y)) * nDimerAfter (f y) (I y) * nDimerAfter (f y) (I y) with hJ
  have cN := nDimer_cont cp (hp z) ht cI (I0 z)
  have cJ : ContinuousAt J z := ((continuousAt_const (y := (0.5 : ℝ)).mul (betaDD_cont cp (mDimer_cont cp ht))).mul cN).mul cN
  set D : X → ℕ → ℝ := fun y k => binBeta m (f y) (mDimerAfter (f y)) k * nDimerAfter (f y) (I y) * mDimerAfter (f y) with hD
  have cD : ContArr D z := fun k => by
    have : ContinuousAt (fun y => binBeta m (f y) (mDimerAfter (f y)) k) z := by
      unfold binBeta
      split_ifs
      · exact (dimerKern_fixed fm hp st cp ht _).mul (hN k)
      · exact continuousAt_const
    exact (this.mul cN).mul (mDimer_cont cp ht)
  have key : ∀ y, ∃ m' s' g' kG C, sectSources m glob (f y) = ok (m', s', g') ∧ m.grow.rate m.ctx (g y) = ok kG ∧ sectCoag m glob (g y) = ok (C, g') ∧
      (∀ sp, m'.sources.gas sp = gasPart (Function.update (Function.update m.nucl.ratio .C 1) .H2 (h2Ratio (f y))) (J y * (cMinAfter (f y) * gasMW .C / Na)) sp +
        gasPart m.grow.ratio (kG * ∑ k ∈ Finset.range m.nsoot, binArea m (g y) k) sp +
        gasPart m.oxid.ratio (-(O y * ∑ k ∈ Finset.range m.nsoot, binArea m (g y) k)) sp) ∧
      (∀ sp, m'.sources.pah sp = -pahNdot (f y) sp * pahMW sp / Na) ∧
      m'.sources.soot = (List.range m.nsoot).map fun k => (if k = 0 then J y * (cMinAfter (f y) * gasMW .C / Na) / m.mBins.getD 0 0 else 0) +
        upVal m.nsoot m.mBins (fun k => kG * binArea m (g y) k) k + upVal m.nsoot m.mBins (D y) k +
        downVal m.nsoot m.mBins (fun k => O y * binArea m (g y) k) k + C k := fun y => by
    obtain ⟨m', s', g', J', n', kG, kO, C, a1, a2, -, -, a5, a6, a7, -, -, -, -, a12, a13⟩ := sect_eval (hr y) hgl
    have hib : sectIbeta m (g y) (mDimerAfter (f y)) = ok (I y) := by rw [sectIbeta_ok (rr y)]; rfl
    rw [Nucl.rate_pah hn, nuclPAH_ok (hp y) (hr y).pah m.nucl (sectIbeta m) (I y) (I0 y) hib] at a2
    simp only [ok.injEq, Prod.mk.injEq] at a2
    obtain ⟨rfl, rfl, rfl⟩ := a2
    have O1' : m.oxid.rate m.ctx { f y with cMin := cMinAfter (f y) } = ok (O y) := O1 y
    rw [O1'] at a6
    simp only [ok.injEq] at a6
    subst a6
    refine ⟨m', _, g', kG, C, a1, a5, a7, fun sp => finish_gas a12 sp, fun sp => ?_, ?_⟩
    · obtain ⟨_, _, _, -, -, -, e⟩ := Model.finish_inv a12
      rw [e]
      simp only [hn, if_true]
    · rw [a13]
      simp only [if_pos hn]
      rfl
  choose m' s' g' kG C b1 b2 b3 b4 b5 b6 using key
  have cG := sectGrow_cont hg rr hs b2
  have cO : ContArr (fun y k => O y * binArea m (g y) k) z := fun k => O2.mul (binArea_cont m hs k)
  have cM : ContinuousAt (fun y => J y * (cMinAfter (f y) * gasMW .C / Na)) z := cJ.mul ((cC.mul continuousAt_const).div_const _)
  refine ⟨fun y => (m' y, s' y, g' y), b1, fun k => ?_, fun sp => ?_, fun sp => ?_⟩
  · simp only [b6]
    by_cases hk : k < m.nsoot
    · simp only [List.getD_eq_getElem?_getD, List.getElem?_map, List.getElem?_range hk, Option.map_some, Option.getD_some]
      refine ((((?_ : ContinuousAt _ z).add (upVal_cont _ _ cG k)).add (upVal_cont _ _ cD k)).add (downVal_cont _ _ cO k)).add (sectCoag_cont hgl rr hs b3 k)
      split_ifs
      · exact cM.div_const _
      · exact continuousAt_const
    · have : ∀ y, (((List.range m.nsoot).map fun k => (if k = 0 then J y * (cMinAfter (f y) * gasMW .C / Na) / m.mBins.getD 0 0 else 0) +
        upVal m.nsoot m.mBins (fun k => kG y * binArea m (g y) k) k + upVal m.nsoot m.mBins (D y) k +
        downVal m.nsoot m.mBins (fun k => O y * binArea m (g y) k) k + C y k).getD k 0) = 0 := fun y =>
        List.getD_eq_default _ _ (by simpa using hk)
      simp only [this]
      exact continuousAt_const
  · simp only [b4]
    have sG : ContinuousAt (fun y => kG y * ∑ k ∈ Finset.range m.nsoot, binArea m (g y) k) z := by
      simp only [Finset.mul_sum]; exact tendsto_finsetSum _ fun k _ => cG k
    have sO : ContinuousAt (fun y => -(O y * ∑ k ∈ Finset.range m.nsoot, binArea m (g y) k)) z := by
      simp only [Finset.mul_sum]; exact (tendsto_finsetSum _ fun k _ => cO k : ContinuousAt _ z).neg
    exact ((gasPart_update_cont cM (h2Ratio_cont cp (hp z) ht) _ sp).add (gasPart_cont sG _ sp)).add (gasPart_cont sO _ sp)
  · simp only [b5]
    exact (((pahNdot_cont cp sp).neg.mul continuousAt_const).div_const _)

end

/-! ## Examples -/

/-- MONO with PAH nucleation in the burning gas of `exSt`: continuous in the number of particles of 1E-23 kg. -/
example : ∃ S : Set.Ici (0 : ℝ) → Model × State, (∀ N : Set.Ici (0 : ℝ), monoSources (exModel .MONO 2 .PAH .LL .LL .FUCHS) (exSt [N.1, N.1 * 1E-23] false) = ok (S N)) ∧
    ContinuousAt (fun N => (S N).1.sources.soot.getD 1 0) ⟨1, zero_le_one (α := ℝ)⟩ := by
  have nn : ∀ N : Set.Ici (0 : ℝ), (0 : ℝ) ≤ N.1 ∧ (0 : ℝ) ≤ N.1 * 1E-23 := fun N => ⟨N.2, mul_nonneg N.2 (by norm_num)⟩
  obtain ⟨S, h1, h2, -⟩ := C104_mono_pah_continuous_partial (exModel .MONO 2 .PAH .LL .LL .FUCHS) (fun N : Set.Ici (0 : ℝ) => exSt [N.1, N.1 * 1E-23] false)
    ⟨1, zero_le_one (α := ℝ)⟩ (fun N => N.1) (fun N => N.1 * 1E-23) (fun _ => 0) (fun _ => 0)
    (fun N => exMonoReady2 .PAH (by simp) (by simp) .LL .LL .FUCHS (nn N).1 (nn N).2 false) rfl (by simp [exModel, Grow.new]) (by simp [exModel, Oxid.new])
    (by
      simp only [exSt_eq]
      constructor
      · constructor <;> intros <;> exact continuousAt_const
      all_goals exact continuousAt_const)
    (by simp only [exSt_eq]; intro sp; exact continuousAt_const)
    continuous_subtype_val.continuousAt (continuous_subtype_val.mul continuous_const).continuousAt
    (by simp only [exSt_eq]; norm_num [stateAfter, exArgs, argsEx2, argsEx]) (by norm_num) (by norm_num [mmin])
  exact ⟨S, h1, h2 1⟩

/-- SECT with PAH nucleation: continuous in the section contents also where the soot vanishes. -/
example : ∃ S : Set.Ici (0 : ℝ) → Model × State × Option ℝ,
    (∀ N : Set.Ici (0 : ℝ), sectSources (exModel .SECT 3 .PAH .LL .LL .FUCHS) none (exSt [N.1, 0, N.1] false) = ok (S N)) ∧
    ContinuousAt (fun N => (S N).1.sources.soot.getD 1 0) ⟨0, le_refl (0 : ℝ)⟩ := by
  obtain ⟨S, h1, h2, -⟩ := C104_sect_pah_continuous_partial (exModel .SECT 3 .PAH .LL .LL .FUCHS) none (exGlobOk 3 .PAH .LL .LL .FUCHS (by norm_num) (by norm_num))
    (fun N : Set.Ici (0 : ℝ) => exSt [N.1, 0, N.1] false) ⟨0, le_refl (0 : ℝ)⟩
    (fun N => exSectReady 3 .PAH (by simp) (by simp) .LL .LL .FUCHS [N.1, 0, N.1] false rfl (by norm_num)
      (by have : (0 : ℝ) ≤ N.1 := N.2; simp [this])) rfl (by simp [exModel, Grow.new]) (by simp [exModel, Oxid.new])
    (by
      simp only [exSt_eq]
      constructor
      · constructor <;> intros <;> exact continuousAt_const
      all_goals exact continuousAt_const)
    (by simp only [exSt_eq]; intro sp; exact continuousAt_const)
    (by
      have c : Continuous fun N : Set.Ici (0 : ℝ) => max N.1 0 := continuous_subtype_val.max continuous_const
      intro k
      simp only [exSt_eq, stateAfter, exArgs]
      match k with
      | 0 => exact c.continuousAt
      | 1 => exact continuousAt_const
      | 2 => exact c.continuousAt
      | n + 3 => exact continuousAt_const)
    (by simp only [exSt_eq]; norm_num [stateAfter, exArgs, argsEx2, argsEx])
  exact ⟨S, h1, h2 1⟩

/-- The burning gas of `argsEx2` without soot, with naphthalene mass fraction `p`. -/
noncomputable def stP (p : Set.Icc (0 : ℝ) 1) : State :=
  stateAfter (State.mk' 2 0) { argsEx2 with sootVar := [0, 0], yPah := [p.1, 0, 0, 0, 0, 0] }

theorem stP_ready (p : Set.Icc (0 : ℝ) 1) : MonoReady (exModel .MONO 2 .PAH .LL .LL .FUCHS) (stP p) 0 0 0 0 where
  wf := ⟨Nucl.new_wf _, rfl, rfl, fun _ => rfl, fun _ => rfl, rfl, rfl, by simp [exModel, Sources.new]⟩
  fm := by norm_num [exModel, Coag.new]
  gas := by
    have ad : Admissible 2 0 6 { argsEx2 with sootVar := [0, 0], yPah := [p.1, 0, 0, 0, 0, 0] } :=
      { argsEx2_admissible with
        soot := by intro i h hi; simp at h; omega
        pahSize := by simp
        pahSum := by simpa using p.2.2
        pah := by
          intro y hy
          have h0 : (0 : ℝ) ≤ p.1 := p.2.1
          have h1 : p.1 ≤ (1 : ℝ) := p.2.2
          simp at hy; rcases hy with h | h <;> subst h <;> constructor <;> linarith }
    have e := C01_setState_accepts (State.mk' 2 0) { argsEx2 with sootVar := [0, 0], yPah := [p.1, 0, 0, 0, 0, 0] }
      (by simp [State.mk']) (by simp [State.mk']) (by simpa [State.mk', nPah] using ad)
    refine ⟨⟨_, _, by rw [e], by rw [e]; rfl⟩, stEx2_gasOk.len ▸ by rw [stEx2_eq']; rfl, fun y hy => stEx2_gasOk.nonneg y ?_⟩
    rw [stEx2_eq']; exact hy
  pah := rfl
  sized := ⟨by simp [stP, stateAfter], by simp [exModel, Model.ctx], by simp [exModel, Model.ctx]⟩
  sing := by simp [exModel, Grow.new, Oxid.new]
  tar := by simp [exModel, Nucl.new]
  mtar := by simp [exModel, Nucl.new]
  psd := rfl
  notar := rfl
  len := by simp [exModel, Sources.new]
  soot := by simp [stP, stateAfter]
  wts := rfl
  absc := rfl

/-- Traces of naphthalene in a soot-free gas make a mass source of about 100/4 carbon atoms per second and volume, no naphthalene makes none. -/
example : ∃ S : Set.Icc (0 : ℝ) 1 → Model × State, (∀ p, monoSources (exModel .MONO 2 .PAH .LL .LL .FUCHS) (stP p) = ok (S p)) ∧
    Tendsto (fun p => (S p).1.sources.soot.getD 1 0) (𝓝[{p | ∃ q ∈ (stP p).yPah, q ≠ 0}] ⟨0, by simp⟩) (𝓝 (100 / 4 * (gasMW .C / Na))) ∧
    (S ⟨0, by simp⟩).1.sources.soot.getD 1 0 = 0 ∧ (stP ⟨1, by simp⟩) ∈ {s : State | ∃ q ∈ s.yPah, q ≠ 0} := by
  obtain ⟨S, h1, h2, h3, -⟩ := C104_pah_jump (exModel .MONO 2 .PAH .LL .LL .FUCHS) stP ⟨0, by simp⟩ (fun _ => 0) stP_ready rfl (by simp [exModel, Grow.new])
    continuousAt_const continuousAt_const continuousAt_const
    (by
      intro sp
      cases sp
      · exact continuous_subtype_val.continuousAt
      all_goals exact continuousAt_const)
    (by simp [stP, stateAfter])
  exact ⟨S, h1, h2, h3, by simp [stP, stateAfter]⟩

end Soot
