import Verif.Props.PahNucl
import Mathlib.Topology.Order.Compact

/-!
# C104 for MONO and SECT as the PAH vanish among soot

Dimers that meet soot condense before they meet each other.  So with particles above the cutoff mass the sources of MONO and SECT go over continuously into those
without PAH, although the size of the nuclei has no limit.
-/

namespace Soot

open Res Real Filter Topology Cont
open scoped Classical

section
variable {X : Type*} [TopologicalSpace X] {z : X} {f : X → State}

/-- Every PAH has at least ten carbon atoms, and so has the mean one. -/
theorem dimerMass_ge {s : State} (h : s.Phys) (ht : 0 < pahTot s) : 10 * gasMW .C / Na ≤ dimerMass s := by
  rw [dimerMass, le_div_iff₀ ht, pahTot, Finset.mul_sum]
  refine Finset.sum_le_sum fun sp _ => ?_
  have n0 := pahNdot_nonneg h sp
  have c : 10 * gasMW .C / Na ≤ pahNC sp * gasMW .C / Na := by cases sp <;> norm_num [pahNC, gasMW, Na]
  have e : pahNdot s sp * pahNC sp * gasMW .C / Na = pahNC sp * gasMW .C / Na * pahNdot s sp := by ring
  rw [e]
  exact mul_le_mul_of_nonneg_right c n0

/-- Near a state, the collision rate with particles above the cutoff is bounded away from zero, uniformly for partners in a range of masses. -/
theorem kern_low {c : Coag} (hc : 0 < c.fmMult) (hn : c.mech ≠ .NONE) (hp : ∀ y, (f y).Phys) (hs : ContSt f z) {b : X → ℝ} (hb : ContinuousAt b z)
    (q : mmin < b z) {lo hi : ℝ} (hlo : mmin < lo) (hlh : lo ≤ hi) : ∃ δ > 0, ∀ᶠ y in 𝓝 z, ∀ μ ∈ Set.Icc lo hi, δ ≤ c.val (f y) μ (b y) := by
  have m0 := mmin_pos
  have cont : ∀ μ ∈ Set.Icc lo hi, ContinuousAt (fun p : X × ℝ => core c (f p.1) p.2 (b p.1)) (z, μ) := fun μ hμ => by
    have cf : Tendsto (Prod.fst : X × ℝ → X) (𝓝 (z, μ)) (𝓝 z) := continuousAt_fst
    have hs' : ContSt (fun p : X × ℝ => f p.1) (z, μ) := ⟨hs.T.tendsto.comp cf, hs.P.tendsto.comp cf, hs.rho.tendsto.comp cf, hs.mu.tendsto.comp cf⟩
    have hb' : ContinuousAt (fun p : X × ℝ => b p.1) (z, μ) := hb.tendsto.comp cf
    have h2 : ContinuousAt (fun p : X × ℝ => p.2) (z, μ) := continuousAt_snd
    exact core_cont (f := fun p : X × ℝ => f p.1) (m1 := fun p => p.2) (m2 := fun p => b p.1) hc (fun p => hp p.1) hs' h2 hb'
      (m0.trans (hlo.trans_le hμ.1)) (m0.trans q)
  have on : ContinuousOn (fun μ => core c (f z) μ (b z)) (Set.Icc lo hi) := fun μ hμ =>
    ((cont μ hμ).comp_of_eq (f := fun μ : ℝ => (z, μ)) (by fun_prop) rfl).continuousWithinAt
  obtain ⟨μ0, i0, min⟩ := isCompact_Icc.exists_isMinOn (Set.nonempty_Icc.2 hlh) on
  have pos : 0 < core c (f z) μ0 (b z) := core_pos hc hn (hp z) (m0.trans (hlo.trans_le i0.1)) (m0.trans q)
  have tube := isCompact_Icc.eventually_forall_of_forall_eventually (x₀ := z) (K := Set.Icc lo hi)
    (P := fun y μ => core c (f z) μ0 (b z) / 2 < core c (f y) μ (b y)) fun μ hμ =>
      (cont μ hμ).eventually (lt_mem_nhds ((half_lt_self pos).trans_le (min hμ)))
  refine ⟨_, half_pos pos, ?_⟩
  filter_upwards [tube, hb.eventually (lt_mem_nhds q)] with y hy hby μ hμ
  rw [val_core c _ (hlo.trans_le hμ.1) hby]
  exact (hy μ hμ).le

/-- What condenses on soot is at most the mass of the colliding PAH. -/
theorem pahCond_le {s : State} (h : s.Phys) {I : ℝ} (I0 : 0 ≤ I) :
    0 ≤ I * nDimerAfter s I * mDimerAfter s ∧ I * nDimerAfter s I * mDimerAfter s ≤ pahTot s * (1000 * gasMW .C / Na) := by
  by_cases p : 0 < pahTot s
  · have hm := dimerMass_pos h p
    have hk := dimerMass_le h p
    rw [mDimerAfter, nDimerAfter, if_pos p, if_pos p]
    have b0 : 0 < betaDD s (dimerMass s) := mul_pos (pahPre_pos h) (rpow_pos_of_pos hm _)
    have r0 : 0 < sqrt (I * I + 4 * betaDD s (dimerMass s) * (0.5 * pahTot s)) := sqrt_pos.mpr (by
      have := mul_self_nonneg I; positivity)
    generalize sqrt (I * I + 4 * betaDD s (dimerMass s) * (0.5 * pahTot s)) = r at *
    have d : 0 < I + r := by linarith
    refine ⟨by positivity, mul_le_mul ?_ hk hm.le p.le⟩
    rw [mul_div_assoc', div_le_iff₀ d]
    nlinarith
  · have z0 : pahTot s = 0 := le_antisymm (not_lt.mp p) (pahTot_nonneg h)
    rw [nDimerAfter, if_neg p, z0]
    simp

/-- Hydrogen molecules released per new particle: at most a thousand. -/
theorem pahHyd_le {s : State} (h : s.Phys) : 0 ≤ cMinAfter s * h2Ratio s ∧ cMinAfter s * h2Ratio s ≤ 1000 := by
  have c0 := cMinAfter_pos h
  have e : cMinAfter s * h2Ratio s = (if 0 < pahTot s then (∑ sp, pahNdot s sp * 2 * pahNH sp) / pahTot s else 0) / 2 := by
    rw [h2Ratio]
    generalize (if 0 < pahTot s then (∑ sp, pahNdot s sp * 2 * pahNH sp) / pahTot s else 0) = q
    field_simp
  rw [e]
  split_ifs with ht
  · have s0 : 0 ≤ ∑ sp, pahNdot s sp * 2 * pahNH sp := Finset.sum_nonneg fun q _ => by
      have := pahNdot_nonneg h q; positivity
    have s1 : ∑ sp, pahNdot s sp * 2 * pahNH sp ≤ 2000 * pahTot s := by
      rw [pahTot, Finset.mul_sum]
      refine Finset.sum_le_sum fun sp _ => ?_
      have n0 := pahNdot_nonneg h sp
      have : 2 * (pahNH sp : ℝ) ≤ 2000 := by cases sp <;> norm_num [pahNH]
      nlinarith [mul_le_mul_of_nonneg_right this n0]
    refine ⟨by positivity, ?_⟩
    have := (div_le_iff₀ ht).2 s1
    linarith
  · norm_num

/-- Gas part for mole ratios with `C = 1` and an `H2` ratio that may have no limit. -/
theorem gasPart_update_mul {v r : X → ℝ} (hv : ContinuousAt v z) (hr : ContinuousAt (fun y => v y * r y) z) (q : GasSp → ℝ) (sp : GasSp) :
    ContinuousAt (fun y => gasPart (Function.update (Function.update q .C 1) .H2 (r y)) (v y) sp) z := by
  unfold gasPart
  split_ifs with hc
  · exact continuousAt_const
  · have e : ∀ y, Function.update (Function.update q GasSp.C 1) .H2 (r y) .C = 1 := fun y => by simp
    simp only [e]
    by_cases h2 : sp = .H2
    · subst h2
      simp only [Function.update_self]
      exact (hr.mul continuousAt_const).div_const _
    · simp only [Function.update_of_ne h2]
      exact ((hv.mul continuousAt_const).mul continuousAt_const).div_const _

/-- The oxidation rate does not depend on the size of the nuclei. -/
theorem oxid_cMin (o : Oxid) (x : Ctx) (s : State) (c : ℝ) : o.rate x { s with cMin := c } = o.rate x s := by
  unfold Oxid.rate
  cases o.cls <;> rfl

/-- **C104, MONO as the PAH vanish among soot.** With PAH nucleation, a collision mechanism and without the HACA mechanisms, the soot, gas and PAH sources
of MONO are continuous also at a state without PAH, if it has particles and their mean mass lies above the cutoff mass.  Without particles they jump
(`C104_pah_jump`). -/
theorem C104_mono_pah_vanish (m : Model) (f : X → State) (z : X) (M0 M1 w a : X → ℝ) (hr : ∀ y, MonoReady m (f y) (M0 y) (M1 y) (w y) (a y))
    (hn : m.nucl.mech = .PAH) (hg : m.grow.mech ≠ .HACA) (ho : m.oxid.cls ≠ .HACA) (hco : m.coag.mech ≠ .NONE) (hf : ContIn f z)
    (hy : ∀ sp : PahSp, ContinuousAt (fun y => (f y).yPah.getD sp.toNat 0) z) (c0 : ContinuousAt M0 z) (c1 : ContinuousAt M1 z)
    (hpah : ∀ y ∈ (f z).yPah, y = 0) (h0 : 0 < M0 z) (hcut : mmin < M1 z / M0 z) :
    ∃ S : X → Model × State, (∀ y, monoSources m (f y) = ok (S y)) ∧ (∀ k, ContinuousAt (fun y => (S y).1.sources.soot.getD k 0) z) ∧
      (∀ sp, ContinuousAt (fun y => (S y).1.sources.gas sp) z) ∧ ∀ sp, ContinuousAt (fun y => (S y).1.sources.pah sp) z := by
  have hp : ∀ y, (f y).Phys := fun y => (hr y).gas.acc.phys
  have fm := (hr z).fm
  have cp : ContPah f z := ⟨hf.T, hf.rho, hf.cMin, hy⟩
  have st : ContSt f z := ⟨hf.T, hf.P, hf.rho, hf.mu⟩
  have tz := pahTot_zero hpah
  set g : X → State := fun y => { f y with wts := [monoW (M0 y) (w y)], absc := [monoA (M0 y) (M1 y) (a y)], cMin := (f y).cMin } with hgd
  have rr : ∀ y, Ready m (g y) := fun y => (hr y).toReady.upd (hp y).cMin _ _
  obtain ⟨O, O1, O2⟩ := C103_oxidation_continuous_partial m.oxid.cls m.ctx g z (fun y => (rr y).gas) (fun y => (rr y).sized) hf.T hf.P hf.rho hf.cMin hf.frac ho
  rw [← (hr z).wf.oxid] at O1
  have O3 : ∀ y, m.oxid.rate m.ctx { f y with wts := [monoW (M0 y) (w y)], absc := [monoA (M0 y) (M1 y) (a y)], cMin := cMinAfter (f y) } = ok (O y) :=
    fun y => (oxid_cMin m.oxid m.ctx (g y) (cMinAfter (f y))).trans (O1 y)
  have cW : ContinuousAt (fun y => monoW (M0 y) (w y)) z := by
    refine c0.congr ?_
    filter_upwards [c0.eventually (lt_mem_nhds h0)] with y hy
    rw [monoW, if_pos hy]
  have cAb : ContinuousAt (fun y => monoA (M0 y) (M1 y) (a y)) z := by
    refine (c1.div c0 h0.ne').congr ?_
    filter_upwards [c0.eventually (lt_mem_nhds h0)] with y hy
    rw [monoA, if_pos hy]; rfl
  have eW : 0 < monoW (M0 z) (w z) := by rw [monoW, if_pos h0]; exact h0
  have eA : mmin < monoA (M0 z) (M1 z) (a z) := by rw [monoA, if_pos h0]; exact hcut
  set I : X → ℝ := fun y => monoI m (f y) (monoW (M0 y) (w y)) (monoA (M0 y) (M1 y) (a y)) with hI
  have i0 : ∀ y, 0 ≤ I y := fun y => mul_nonneg (abs_nonneg _) (Coag.val_nonneg (hp y) fm _ _)
  obtain ⟨δ, δ0, low⟩ := kern_low (c := m.coag) fm hco hp st cAb eA (lo := 10 * gasMW .C / Na) (hi := 1000 * gasMW .C / Na)
    (by norm_num [mmin, gasMW, Na]) (by norm_num [gasMW, Na])
  have iδ : ∀ᶠ y in 𝓝 z, (∃ p ∈ (f y).yPah, p ≠ 0) → monoW (M0 z) (w z) / 2 * δ ≤ I y := by
    filter_upwards [low, cW.eventually (lt_mem_nhds (half_lt_self eW))] with y h1 h2 h3
    have ht := pahTot_pos (hp y) (hr y).pah h3
    have e : mDimerAfter (f y) = dimerMass (f y) := by rw [mDimerAfter, if_pos ht]
    have k := h1 (mDimerAfter (f y)) (by rw [e]; exact ⟨dimerMass_ge (hp y) ht, dimerMass_le (hp y) ht⟩)
    exact mul_le_mul (h2.le.trans (le_abs_self _)) k δ0.le (abs_nonneg _)
  set J : X → ℝ := fun y => 0.5 * betaDD (f y) (mDimerAfter (f y)) * nDimerAfter (f y) (I y) * nDimerAfter (f y) (I y) with hJ
  have nz : nDimerAfter (f z) (I z) = 0 := by rw [nDimerAfter, if_neg (by rw [tz]; exact lt_irrefl _)]
  have Jz : J z = 0 := by simp only [hJ, nz, mul_zero]
  have lt : ∀ k : ℝ, Tendsto (fun y => pahTot (f y) * k) (𝓝 z) (𝓝 0) := fun k => by
    have := (pahTot_cont cp).tendsto.mul_const k
    rwa [tz, zero_mul] at this
  have J0 := fun y => (pahJ_le (hp y) (i0 y)).1
  have J1 : ∀ y, J y ≤ pahTot (f y) * 0.25 := fun y => (pahJ_le (hp y) (i0 y)).2.trans_eq (mul_comm _ _)
  have cJ : ContinuousAt J z := by
    show Tendsto J (𝓝 z) (𝓝 (J z))
    rw [Jz]
    exact tendsto_of_tendsto_of_tendsto_of_le_of_le tendsto_const_nhds (lt 0.25) J0 J1
  have cC : ContinuousAt (fun y => J y * cMinAfter (f y)) z := by
    show Tendsto _ (𝓝 z) (𝓝 (J z * cMinAfter (f z)))
    rw [Jz, zero_mul]
    exact pahCarbon_lim hp (fun y => (hr y).pah) cp i0 tz (mul_pos (half_pos eW) δ0) iδ
  have cM := (cC.mul (continuousAt_const (y := gasMW .C))).div_const Na
  have cD : ContinuousAt (fun y => I y * nDimerAfter (f y) (I y) * mDimerAfter (f y)) z := by
    show Tendsto _ (𝓝 z) (𝓝 (I z * nDimerAfter (f z) (I z) * mDimerAfter (f z)))
    rw [nz, mul_zero, zero_mul]
    exact tendsto_of_tendsto_of_tendsto_of_le_of_le tendsto_const_nhds (lt _) (fun y => (pahCond_le (hp y) (i0 y)).1) fun y => (pahCond_le (hp y) (i0 y)).2
  have cD' : ContinuousAt (fun y => m.coag.val (f y) (mDimerAfter (f y)) (monoA (M0 y) (M1 y) (a y)) * monoW (M0 y) (w y) * nDimerAfter (f y) (I y) * mDimerAfter (f y)) z := by
    refine cD.congr ?_
    filter_upwards [cW.eventually (lt_mem_nhds eW)] with y hy
    have e : I y = m.coag.val (f y) (mDimerAfter (f y)) (monoA (M0 y) (M1 y) (a y)) * monoW (M0 y) (w y) := by
      simp only [hI, monoI, abs_of_pos hy]; ring
    rw [e]
  have cH : ContinuousAt (fun y => J y * (cMinAfter (f y) * h2Ratio (f y))) z := by
    show Tendsto _ (𝓝 z) (𝓝 (J z * (cMinAfter (f z) * h2Ratio (f z))))
    rw [Jz, zero_mul]
    refine tendsto_of_tendsto_of_tendsto_of_le_of_le tendsto_const_nhds (lt (0.25 * 1000)) (fun y => mul_nonneg (J0 y) (pahHyd_le (hp y)).1) fun y => ?_
    have := mul_le_mul (J1 y) (pahHyd_le (hp y)).2 (pahHyd_le (hp y)).1 ((J0 y).trans (J1 y))
    linarith
  obtain ⟨v, v1, v2⟩ := C100_kernel_continuous_partial m.coag fm f (fun y => (hr y).gas.acc) _ _ z hf.T hf.P hf.rho hf.mu cAb cAb eA.ne' eA.ne'
  have v3 : ∀ y, m.coag.val (f y) (monoA (M0 y) (M1 y) (a y)) (monoA (M0 y) (M1 y) (a y)) = v y := fun y => by
    have := (v1 y).symm.trans (Coag.rate_ok (hp y) fm _ _)
    simp only [ok.injEq] at this
    exact this.symm
  choose S1 S2 e1 e2 e3 e4 using fun y => mono_pah (hr y) hn hg (O3 y) (I := I y) (J := J y) rfl rfl
  have cA := areaFn_cont c0 c1
  have cG := growFlux_cont hf.toContGas (fun y => (hr y).gas) m.grow.mech cA
  refine ⟨fun y => (S1 y, S2 y), e1, fun k => ?_, fun sp => ?_, fun sp => ?_⟩
  · simp only [e2, v3]
    match k with
    | 0 => exact cJ.sub ((v2.mul (cW.pow 2)).div_const 2)
    | 1 => exact (cM.add cD').add (cG.sub (O2.mul cA))
    | n + 2 => simpa using continuousAt_const
  · simp only [e3]
    refine (gasPart_update_mul cM ?_ _ sp).add (gasPart_cont cG _ sp) |>.add (gasPart_cont (O2.neg.mul cA) _ sp)
    refine (cH.mul (continuousAt_const (y := gasMW .C / Na))).congr (.of_forall fun y => ?_)
    show J y * (cMinAfter (f y) * h2Ratio (f y)) * (gasMW .C / Na) = J y * cMinAfter (f y) * gasMW .C / Na * h2Ratio (f y)
    ring
  · simp only [e4]
    exact (((pahNdot_cont cp sp).neg.mul continuousAt_const).div_const _)

/-! ## SECT -/

theorem grow_cMin (w : Grow) (x : Ctx) (s : State) (c : ℝ) : w.rate x { s with cMin := c } = w.rate x s := by
  unfold Grow.rate
  cases w.mech <;> rfl

theorem coagLoop_cMin (n : ℕ) (bins : List ℝ) (k : Coag) (s : State) (c g : ℝ) (l : List (ℕ × ℕ)) (S : ℕ → ℝ) :
    coagLoop n bins k { s with cMin := c } g l S = coagLoop n bins k s g l S := by
  induction l generalizing S with
  | nil => rfl
  | cons p t ih =>
    have e : coagPair n bins k { s with cMin := c } g p.1 p.2 S = coagPair n bins k s g p.1 p.2 S := rfl
    simp only [coagLoop, ih, e]

theorem sectCoag_cMin (m : Model) (glob : Option ℝ) (s : State) (c : ℝ) : sectCoag m glob { s with cMin := c } = sectCoag m glob s := by
  simp only [sectCoag, coagLoop_cMin]

/-- One evaluation with PAH, in closed form. -/
theorem sect_pah {m : Model} {glob : Option ℝ} (hgl : GlobOk m glob) {s : State} (h : SectReady m s) (hn : m.nucl.mech = .PAH) {kO : ℝ}
    (hO : m.oxid.rate m.ctx s = ok kO) {I J : ℝ}
    (hI : I = ∑ k ∈ Finset.range m.nsoot, m.coag.val s (mDimerAfter s) (m.mBins.getD k 0) * s.sootVar.getD k 0)
    (hJ : J = 0.5 * betaDD s (mDimerAfter s) * nDimerAfter s I * nDimerAfter s I) :
    ∃ m' s' g' kG C, sectSources m glob s = ok (m', s', g') ∧ m.grow.rate m.ctx s = ok kG ∧ sectCoag m glob s = ok (C, g') ∧
      (∀ sp, m'.sources.gas sp = gasPart (Function.update (Function.update m.nucl.ratio .C 1) .H2 (h2Ratio s)) (J * (cMinAfter s * gasMW .C / Na)) sp +
        gasPart m.grow.ratio (kG * ∑ k ∈ Finset.range m.nsoot, binArea m s k) sp +
        gasPart m.oxid.ratio (-(kO * ∑ k ∈ Finset.range m.nsoot, binArea m s k)) sp) ∧
      (∀ sp, m'.sources.pah sp = -pahNdot s sp * pahMW sp / Na) ∧
      m'.sources.soot = (List.range m.nsoot).map fun k => (if k = 0 then J * (cMinAfter s * gasMW .C / Na) / m.mBins.getD 0 0 else 0) +
        upVal m.nsoot m.mBins (fun k => kG * binArea m s k) k +
        upVal m.nsoot m.mBins (fun k => binBeta m s (mDimerAfter s) k * nDimerAfter s I * mDimerAfter s) k +
        downVal m.nsoot m.mBins (fun k => kO * binArea m s k) k + C k := by
  have hp := h.gas.acc.phys
  obtain ⟨m', s', g', J', n', kG, kO', C, a1, a2, -, -, a5, a6, a7, -, -, -, -, a12, a13⟩ := sect_eval h hgl
  have I0 : 0 ≤ I := by rw [hI]; exact sectIbeta_nonneg h _
  have hib : sectIbeta m { s with cMin := cMinAfter s } (mDimerAfter s) = ok I := by rw [sectIbeta_ok (h.upd (cMinAfter_pos hp)), hI]; rfl
  rw [Nucl.rate_pah hn, nuclPAH_ok hp h.pah m.nucl (sectIbeta m) I I0 hib] at a2
  simp only [ok.injEq, Prod.mk.injEq] at a2
  obtain ⟨rfl, rfl, rfl⟩ := a2
  rw [oxid_cMin, hO] at a6
  simp only [ok.injEq] at a6
  subst a6
  rw [grow_cMin] at a5
  rw [sectCoag_cMin] at a7
  refine ⟨m', _, g', kG, C, a1, a5, a7, fun sp => ?_, fun sp => ?_, ?_⟩
  · rw [hJ]; exact finish_gas a12 sp
  · obtain ⟨_, _, _, -, -, -, e⟩ := Model.finish_inv a12
    rw [e]
    simp only [hn, if_true]
  · rw [a13, hJ]
    simp only [if_pos hn]
    rfl

/-- **C104, SECT as the PAH vanish among soot.** With PAH nucleation, a collision mechanism and without the HACA mechanisms, the sources of SECT are
continuous also at a state without PAH, if some section above the cutoff mass has particles. -/
theorem C104_sect_pah_vanish (m : Model) (glob : Option ℝ) (hgl : GlobOk m glob) (f : X → State) (z : X) (hr : ∀ y, SectReady m (f y))
    (hn : m.nucl.mech = .PAH) (hg : m.grow.mech ≠ .HACA) (ho : m.oxid.cls ≠ .HACA) (hco : m.coag.mech ≠ .NONE) (hf : ContIn f z)
    (hy : ∀ sp : PahSp, ContinuousAt (fun y => (f y).yPah.getD sp.toNat 0) z) (hN : ∀ k, ContinuousAt (fun y => (f y).sootVar.getD k 0) z)
    (hpah : ∀ y ∈ (f z).yPah, y = 0) (j : ℕ) (hj : j < m.nsoot) (hjm : mmin < m.mBins.getD j 0) (hjN : 0 < (f z).sootVar.getD j 0) :
    ∃ S : X → Model × State × Option ℝ, (∀ y, sectSources m glob (f y) = ok (S y)) ∧ (∀ k, ContinuousAt (fun y => (S y).1.sources.soot.getD k 0) z) ∧
      (∀ sp, ContinuousAt (fun y => (S y).1.sources.gas sp) z) ∧ ∀ sp, ContinuousAt (fun y => (S y).1.sources.pah sp) z := by
  have hp : ∀ y, (f y).Phys := fun y => (hr y).gas.acc.phys
  have fm := (hr z).fm
  have cp : ContPah f z := ⟨hf.T, hf.rho, hf.cMin, hy⟩
  have st : ContSt f z := ⟨hf.T, hf.P, hf.rho, hf.mu⟩
  have tz := pahTot_zero hpah
  have hs : ContSect f z := ⟨hf, hN⟩
  obtain ⟨O, O1, O2⟩ := C103_oxidation_continuous_partial m.oxid.cls m.ctx f z (fun y => (hr y).gas) (fun y => (hr y).sized) hf.T hf.P hf.rho hf.cMin hf.frac ho
  rw [← (hr z).wf.oxid] at O1
  set I : X → ℝ := fun y => ∑ k ∈ Finset.range m.nsoot, m.coag.val (f y) (mDimerAfter (f y)) (m.mBins.getD k 0) * (f y).sootVar.getD k 0 with hI
  have I0 : ∀ y, 0 ≤ I y := fun y => sectIbeta_nonneg (hr y) (mDimerAfter (f y))
  have N0 : ∀ y k, 0 ≤ (f y).sootVar.getD k 0 := fun y k => by
    by_cases hk : k < (f y).sootVar.length
    · rw [List.getD_eq_getElem _ _ hk]; exact (hr y).gas.acc.sootVar_nonneg _ (List.getElem_mem hk)
    · rw [List.getD_eq_default _ _ (not_lt.1 hk)]
  have tm : ∀ y k, 0 ≤ m.coag.val (f y) (mDimerAfter (f y)) (m.mBins.getD k 0) * (f y).sootVar.getD k 0 := fun y k =>
    mul_nonneg (Coag.val_nonneg (hp y) fm _ _) (N0 y k)
  have Ik : ∀ y, ∀ k < m.nsoot, m.coag.val (f y) (mDimerAfter (f y)) (m.mBins.getD k 0) * (f y).sootVar.getD k 0 ≤ I y := fun y k hk =>
    Finset.single_le_sum (f := fun k => m.coag.val (f y) (mDimerAfter (f y)) (m.mBins.getD k 0) * (f y).sootVar.getD k 0) (fun q _ => tm y q) (Finset.mem_range.2 hk)
  obtain ⟨δ, δ0, low⟩ := kern_low (c := m.coag) fm hco hp st (continuousAt_const (y := m.mBins.getD j 0)) hjm (lo := 10 * gasMW .C / Na)
    (hi := 1000 * gasMW .C / Na) (by norm_num [mmin, gasMW, Na]) (by norm_num [gasMW, Na])
  have iδ : ∀ᶠ y in 𝓝 z, (∃ p ∈ (f y).yPah, p ≠ 0) → δ * ((f z).sootVar.getD j 0 / 2) ≤ I y := by
    filter_upwards [low, (hN j).eventually (lt_mem_nhds (half_lt_self hjN))] with y h1 h2 h3
    have ht := pahTot_pos (hp y) (hr y).pah h3
    have e : mDimerAfter (f y) = dimerMass (f y) := by rw [mDimerAfter, if_pos ht]
    have k := h1 (mDimerAfter (f y)) (by rw [e]; exact ⟨dimerMass_ge (hp y) ht, dimerMass_le (hp y) ht⟩)
    exact (mul_le_mul k h2.le (half_pos hjN).le (δ0.le.trans k)).trans (Ik y j hj)
  set J : X → ℝ := fun y => 0.5 * betaDD (f y) (mDimerAfter (f y)) * nDimerAfter (f y) (I y) * nDimerAfter (f y) (I y) with hJ
  have nz : nDimerAfter (f z) (I z) = 0 := by rw [nDimerAfter, if_neg (by rw [tz]; exact lt_irrefl _)]
  have Jz : J z = 0 := by simp only [hJ, nz, mul_zero]
  have lt : ∀ k : ℝ, Tendsto (fun y => pahTot (f y) * k) (𝓝 z) (𝓝 0) := fun k => by
    have := (pahTot_cont cp).tendsto.mul_const k
    rwa [tz, zero_mul] at this
  have J0 := fun y => (pahJ_le (hp y) (I0 y)).1
  have J1 : ∀ y, J y ≤ pahTot (f y) * 0.25 := fun y => (pahJ_le (hp y) (I0 y)).2.trans_eq (mul_comm _ _)
  have cC : ContinuousAt (fun y => J y * cMinAfter (f y)) z := by
    show Tendsto _ (𝓝 z) (𝓝 (J z * cMinAfter (f z)))
    rw [Jz, zero_mul]
    exact pahCarbon_lim hp (fun y => (hr y).pah) cp I0 tz (mul_pos δ0 (half_pos hjN)) iδ
  have cM : ContinuousAt (fun y => J y * (cMinAfter (f y) * gasMW .C / Na)) z := by
    refine (cC.mul (continuousAt_const (y := gasMW .C / Na))).congr (.of_forall fun y => ?_)
    show J y * cMinAfter (f y) * (gasMW .C / Na) = _
    ring
  have cH : ContinuousAt (fun y => J y * (cMinAfter (f y) * h2Ratio (f y))) z := by
    show Tendsto _ (𝓝 z) (𝓝 (J z * (cMinAfter (f z) * h2Ratio (f z))))
    rw [Jz, zero_mul]
    refine tendsto_of_tendsto_of_tendsto_of_le_of_le tendsto_const_nhds (lt (0.25 * 1000)) (fun y => mul_nonneg (J0 y) (pahHyd_le (hp y)).1) fun y => ?_
    have := mul_le_mul (J1 y) (pahHyd_le (hp y)).2 (pahHyd_le (hp y)).1 ((J0 y).trans (J1 y))
    linarith
  set D : X → ℕ → ℝ := fun y k => binBeta m (f y) (mDimerAfter (f y)) k * nDimerAfter (f y) (I y) * mDimerAfter (f y) with hD
  have n0 : ∀ y, 0 ≤ nDimerAfter (f y) (I y) := fun y => by
    unfold nDimerAfter
    split_ifs with ht
    · have := I0 y; have := sqrt_nonneg (I y * I y + 4 * betaDD (f y) (dimerMass (f y)) * (0.5 * pahTot (f y))); positivity
    · exact le_rfl
  have d0 : ∀ y, 0 ≤ mDimerAfter (f y) := fun y => by
    unfold mDimerAfter
    split_ifs with ht
    · exact (dimerMass_pos (hp y) ht).le
    · exact le_rfl
  have cD : ContArr D z := fun k => by
    show Tendsto _ (𝓝 z) (𝓝 (binBeta m (f z) (mDimerAfter (f z)) k * nDimerAfter (f z) (I z) * mDimerAfter (f z)))
    rw [nz, mul_zero, zero_mul]
    have b : ∀ y, 0 ≤ binBeta m (f y) (mDimerAfter (f y)) k ∧ binBeta m (f y) (mDimerAfter (f y)) k ≤ I y := fun y => by
      unfold binBeta
      split_ifs with hk
      · exact ⟨tm y k, Ik y k hk⟩
      · exact ⟨le_rfl, I0 y⟩
    exact tendsto_of_tendsto_of_tendsto_of_le_of_le tendsto_const_nhds (lt _) (fun y => mul_nonneg (mul_nonneg (b y).1 (n0 y)) (d0 y))
      fun y => (mul_le_mul_of_nonneg_right (mul_le_mul_of_nonneg_right (b y).2 (n0 y)) (d0 y)).trans (pahCond_le (hp y) (I0 y)).2
  choose m' s' g' kG C b1 b2 b3 b4 b5 b6 using fun y => sect_pah hgl (hr y) hn (O1 y) (I := I y) (J := J y) rfl rfl
  have cG := sectGrow_cont hg hr hs b2
  have cO : ContArr (fun y k => O y * binArea m (f y) k) z := fun k => O2.mul (binArea_cont m hs k)
  refine ⟨fun y => (m' y, s' y, g' y), b1, fun k => ?_, fun sp => ?_, fun sp => ?_⟩
  · simp only [b6]
    by_cases hk : k < m.nsoot
    · simp only [List.getD_eq_getElem?_getD, List.getElem?_map, List.getElem?_range hk, Option.map_some, Option.getD_some]
      refine ((((?_ : ContinuousAt _ z).add (upVal_cont _ _ cG k)).add (upVal_cont _ _ cD k)).add (downVal_cont _ _ cO k)).add (sectCoag_cont hgl hr hs b3 k)
      split_ifs
      · exact cM.div_const _
      · exact continuousAt_const
    · refine (continuousAt_const (y := (0 : ℝ))).congr (.of_forall fun y => ?_)
      exact (List.getD_eq_default _ _ (by simpa using hk)).symm
  · simp only [b4]
    have sG : ContinuousAt (fun y => kG y * ∑ k ∈ Finset.range m.nsoot, binArea m (f y) k) z := by
      simp only [Finset.mul_sum]; exact tendsto_finsetSum _ fun k _ => cG k
    have sO : ContinuousAt (fun y => -(O y * ∑ k ∈ Finset.range m.nsoot, binArea m (f y) k)) z := by
      simp only [Finset.mul_sum]; exact (tendsto_finsetSum _ fun k _ => cO k : ContinuousAt _ z).neg
    refine ((gasPart_update_mul cM ?_ _ sp).add (gasPart_cont sG _ sp)).add (gasPart_cont sO _ sp)
    refine (cH.mul (continuousAt_const (y := gasMW .C / Na))).congr (.of_forall fun y => ?_)
    show J y * (cMinAfter (f y) * h2Ratio (f y)) * (gasMW .C / Na) = J y * (cMinAfter (f y) * gasMW .C / Na) * h2Ratio (f y)
    ring
  · simp only [b5]
    exact (((pahNdot_cont cp sp).neg.mul continuousAt_const).div_const _)

/-- Without soot nothing coagulates. -/
theorem sectCoag_noSoot {m : Model} {glob : Option ℝ} {s : State} (h : SectReady m s) (h0 : ∀ x ∈ s.sootVar, x = 0) {C : ℕ → ℝ} {g : Option ℝ}
    (e : sectCoag m glob s = ok (C, g)) : C = fun _ => 0 := by
  rw [sectCoag] at e
  split_ifs at e
  · obtain ⟨q, -, e⟩ := (bind_eq_ok ..).1 e
    obtain ⟨S, e1, e⟩ := (bind_eq_ok ..).1 e
    simp only [ok.injEq, Prod.mk.injEq] at e
    rw [← e.1]
    exact coagLoop_zero h.bins (h.sized.sect h.psd).1 h0 _ (pairs_mem _) e1
  · simp only [ok.injEq, Prod.mk.injEq] at e
    exact e.1.symm

/-- **C104, refutation by PAH in SECT.** In a gas without soot the source of the first section with PAH nucleation tends to a quarter of the stored carbon
mass, divided by the mass of that section, as the PAH vanish, and is zero without PAH. -/
theorem C104_sect_pah_jump (m : Model) (glob : Option ℝ) (hgl : GlobOk m glob) (f : X → State) (z : X) (hr : ∀ y, SectReady m (f y))
    (hn : m.nucl.mech = .PAH) (hT : ContinuousAt (fun y => (f y).T) z) (hrho : ContinuousAt (fun y => (f y).rhoGas) z)
    (hc : ContinuousAt (fun y => (f y).cMin) z) (hy : ∀ sp : PahSp, ContinuousAt (fun y => (f y).yPah.getD sp.toNat 0) z)
    (hsoot : ∀ y, ∀ x ∈ (f y).sootVar, x = 0) (h0 : ∀ y ∈ (f z).yPah, y = 0) (h1 : 0 < m.nsoot) :
    ∃ S : X → Model × State × Option ℝ, (∀ y, sectSources m glob (f y) = ok (S y)) ∧
      Tendsto (fun y => (S y).1.sources.soot.getD 0 0) (𝓝[{y | ∃ p ∈ (f y).yPah, p ≠ 0}] z) (𝓝 ((f z).cMin / 4 * (gasMW .C / Na) / m.mBins.getD 0 0)) ∧
      (S z).1.sources.soot.getD 0 0 = 0 ∧ 0 < (f z).cMin / 4 * (gasMW .C / Na) / m.mBins.getD 0 0 := by
  have hp : ∀ y, (f y).Phys := fun y => (hr y).gas.acc.phys
  have cp : ContPah f z := ⟨hT, hrho, hc, hy⟩
  have tz := pahTot_zero h0
  have hO : ∀ y, ∃ kO, m.oxid.rate m.ctx (f y) = ok kO := fun y => by
    obtain ⟨k, h, -⟩ := (hr y).toReady.oxid
    exact ⟨k, h⟩
  choose O O1 using hO
  have N0 : ∀ y k, (f y).sootVar.getD k 0 = 0 := fun y k => by
    by_cases hk : k < (f y).sootVar.length
    · rw [List.getD_eq_getElem _ _ hk]; exact hsoot y _ (List.getElem_mem hk)
    · rw [List.getD_eq_default _ _ (not_lt.1 hk)]
  have I0 : ∀ y, ∑ k ∈ Finset.range m.nsoot, m.coag.val (f y) (mDimerAfter (f y)) (m.mBins.getD k 0) * (f y).sootVar.getD k 0 = 0 := fun y =>
    Finset.sum_eq_zero fun k _ => by rw [N0, mul_zero]
  choose m' s' g' kG C b1 b2 b3 b4 b5 b6 using fun y => sect_pah hgl (hr y) hn (O1 y) (I := 0) (I0 y).symm rfl
  have A0 : ∀ y k, binArea m (f y) k = 0 := fun y k => by simp only [binArea, N0]; simp
  have B0 : ∀ y k, binBeta m (f y) (mDimerAfter (f y)) k = 0 := fun y k => by simp only [binBeta, N0]; simp
  have val : ∀ y, (m' y).sources.soot.getD 0 0 =
      0.5 * betaDD (f y) (mDimerAfter (f y)) * nDimerAfter (f y) 0 * nDimerAfter (f y) 0 * (cMinAfter (f y) * gasMW .C / Na) / m.mBins.getD 0 0 := fun y => by
    rw [b6 y, sectCoag_noSoot (hr y) (hsoot y) (b3 y)]
    simp only [A0, B0, mul_zero, zero_mul, upVal_zero, downVal_zero, add_zero]
    simp only [List.getD_eq_getElem?_getD, List.getElem?_map, List.getElem?_range h1, Option.map_some, Option.getD_some, if_true]
  have mw : 0 < gasMW .C := by norm_num [gasMW]
  have na := Na_pos
  have dz : ∀ sp : PahSp, pahNdot (f z) sp = 0 := fun sp =>
    (Finset.sum_eq_zero_iff_of_nonneg fun q _ => pahNdot_nonneg (hp z) q).1 tz sp (Finset.mem_univ _)
  refine ⟨fun y => (m' y, s' y, g' y), b1, ?_, ?_, ?_⟩
  · have lim : Tendsto (fun y => ((f y).cMin + ∑ sp, pahNdot (f y) sp * 2 * pahNC sp) / 4 * (gasMW .C / Na) / m.mBins.getD 0 0) (𝓝 z)
        (𝓝 ((f z).cMin / 4 * (gasMW .C / Na) / m.mBins.getD 0 0)) := by
      have q := (((hc.add (carbonSum_cont cp)).div_const 4).mul (continuousAt_const (y := gasMW .C / Na))).div_const (m.mBins.getD 0 0)
      have e : (f z).cMin / 4 * (gasMW .C / Na) / m.mBins.getD 0 0 =
        ((f z).cMin + ∑ sp, pahNdot (f z) sp * 2 * pahNC sp) / 4 * (gasMW .C / Na) / m.mBins.getD 0 0 := by simp [dz]
      rw [e]
      exact q
    refine (lim.mono_left nhdsWithin_le_nhds).congr' ?_
    filter_upwards [self_mem_nhdsWithin] with y hy
    have ht := pahTot_pos (hp y) (hr y).pah hy
    show _ = (m' y).sources.soot.getD 0 0
    rw [val y, pahJ_noSoot (hp y) ht, cMinAfter, if_pos ht]
    generalize ((f y).cMin + ∑ sp, pahNdot (f y) sp * 2 * pahNC sp) = c
    congr 1
    field_simp
  · show (m' z).sources.soot.getD 0 0 = 0
    rw [val z, nDimerAfter, if_neg (by rw [tz]; exact lt_irrefl _)]; ring
  · have := (hp z).cMin
    have := (hr z).bins.pos h1
    positivity

end

/-! ## Example -/

/-- The burning gas of `argsEx2` with one particle of 1E-23 kg per volume and naphthalene mass fraction `p`. -/
noncomputable def stQ (p : Set.Icc (0 : ℝ) 1) : State :=
  stateAfter (State.mk' 2 0) { argsEx2 with sootVar := [1, 1E-23], yPah := [p.1, 0, 0, 0, 0, 0] }

theorem stQ_ready (p : Set.Icc (0 : ℝ) 1) : MonoReady (exModel .MONO 2 .PAH .LL .LL .FUCHS) (stQ p) 1 1E-23 0 0 where
  wf := ⟨Nucl.new_wf _, rfl, rfl, fun _ => rfl, fun _ => rfl, rfl, rfl, by simp [exModel, Sources.new]⟩
  fm := by norm_num [exModel, Coag.new]
  gas := by
    have ad : Admissible 2 0 6 { argsEx2 with sootVar := [1, 1E-23], yPah := [p.1, 0, 0, 0, 0, 0] } :=
      { argsEx2_admissible with
        soot := by intro i h hi; simp at h; omega
        pahSize := by simp
        pahSum := by simpa using p.2.2
        pah := by
          intro y hy
          have h0 : (0 : ℝ) ≤ p.1 := p.2.1
          have h1 : p.1 ≤ (1 : ℝ) := p.2.2
          simp at hy; rcases hy with h | h <;> subst h <;> constructor <;> linarith }
    have e := C01_setState_accepts (State.mk' 2 0) { argsEx2 with sootVar := [1, 1E-23], yPah := [p.1, 0, 0, 0, 0, 0] }
      (by simp [State.mk']) (by simp [State.mk']) (by simpa [State.mk', nPah] using ad)
    refine ⟨⟨_, _, by rw [e], by rw [e]; rfl⟩, stEx2_gasOk.len ▸ by rw [stEx2_eq']; rfl, fun y hy => stEx2_gasOk.nonneg y ?_⟩
    rw [stEx2_eq']; exact hy
  pah := rfl
  sized := ⟨by simp [stQ, stateAfter], by simp [exModel, Model.ctx], by simp [exModel, Model.ctx]⟩
  sing := by simp [exModel, Grow.new, Oxid.new]
  tar := by simp [exModel, Nucl.new]
  mtar := by simp [exModel, Nucl.new]
  psd := rfl
  notar := rfl
  len := by simp [exModel, Sources.new]
  soot := by norm_num [stQ, stateAfter]
  wts := rfl
  absc := rfl

/-- The mass source is continuous where the naphthalene vanishes. -/
example : ∃ S : Set.Icc (0 : ℝ) 1 → Model × State, (∀ p, monoSources (exModel .MONO 2 .PAH .LL .LL .FUCHS) (stQ p) = ok (S p)) ∧
    ContinuousAt (fun p => (S p).1.sources.soot.getD 1 0) ⟨0, by simp⟩ := by
  obtain ⟨S, h1, h2, -⟩ := C104_mono_pah_vanish (exModel .MONO 2 .PAH .LL .LL .FUCHS) stQ ⟨0, by simp⟩ (fun _ => 1) (fun _ => 1E-23) (fun _ => 0) (fun _ => 0)
    stQ_ready rfl (by simp [exModel, Grow.new]) (by simp [exModel, Oxid.new]) (by simp [exModel, Coag.new])
    (by
      constructor
      · constructor <;> intros <;> exact continuousAt_const
      all_goals exact continuousAt_const)
    (by
      intro sp
      cases sp
      · exact continuous_subtype_val.continuousAt
      all_goals exact continuousAt_const)
    continuousAt_const continuousAt_const (by simp [stQ, stateAfter]) (by norm_num) (by norm_num [mmin])
  exact ⟨S, h1, h2 1⟩

/-- The same state for a model with two sections. -/
theorem stQ_sectReady (p : Set.Icc (0 : ℝ) 1) : SectReady (exModel .SECT 2 .PAH .LL .LL .FUCHS) (stQ p) where
  wf := ⟨Nucl.new_wf _, rfl, rfl, fun _ => rfl, fun _ => rfl, rfl, rfl, by simp [exModel, Sources.new]⟩
  fm := by norm_num [exModel, Coag.new]
  gas := (stQ_ready p).gas
  pah := rfl
  sized := ⟨by simp [stQ, stateAfter], by simp [exModel, Model.ctx, stQ, stateAfter, binMasses, argsEx2, argsEx], by
    have : 0 < gasMW .C := by norm_num [gasMW]
    have := Na_pos
    simp [exModel, Model.ctx, binMasses]
    intros; positivity⟩
  sing := by simp [exModel, Grow.new, Oxid.new]
  tar := by simp [exModel, Nucl.new]
  mtar := by simp [exModel, Nucl.new]
  psd := rfl
  bins := by simp only [exModel, if_true]; exact binMasses_bins (by norm_num) (by norm_num) (by norm_num)

example : ∃ S : Set.Icc (0 : ℝ) 1 → Model × State × Option ℝ, (∀ p, sectSources (exModel .SECT 2 .PAH .LL .LL .FUCHS) none (stQ p) = ok (S p)) ∧
    ContinuousAt (fun p => (S p).1.sources.soot.getD 0 0) ⟨0, by simp⟩ := by
  obtain ⟨S, h1, h2, -⟩ := C104_sect_pah_vanish (exModel .SECT 2 .PAH .LL .LL .FUCHS) none (exGlobOk 2 .PAH .LL .LL .FUCHS (by norm_num) (by norm_num)) stQ
    ⟨0, by simp⟩ stQ_sectReady rfl (by simp [exModel, Grow.new]) (by simp [exModel, Oxid.new]) (by simp [exModel, Coag.new])
    (by
      constructor
      · constructor <;> intros <;> exact continuousAt_const
      all_goals exact continuousAt_const)
    (by
      intro sp
      cases sp
      · exact continuous_subtype_val.continuousAt
      all_goals exact continuousAt_const)
    (fun _ => continuousAt_const) (by simp [stQ, stateAfter]) 0 (by simp [exModel])
    (by simp only [exModel, if_true]; rw [binMasses_getD (by norm_num)]; norm_num [mmin, gasMW, Na]) (by norm_num [stQ, stateAfter])
  exact ⟨S, h1, h2 0⟩

/-- The soot-free gas of `stP` for a model with two sections. -/
theorem stP_sectReady (p : Set.Icc (0 : ℝ) 1) : SectReady (exModel .SECT 2 .PAH .LL .LL .FUCHS) (stP p) where
  wf := ⟨Nucl.new_wf _, rfl, rfl, fun _ => rfl, fun _ => rfl, rfl, rfl, by simp [exModel, Sources.new]⟩
  fm := by norm_num [exModel, Coag.new]
  gas := (stP_ready p).gas
  pah := rfl
  sized := ⟨by simp [stP, stateAfter], by simp [exModel, Model.ctx, stP, stateAfter, binMasses, argsEx2, argsEx], (stQ_sectReady p).sized.3⟩
  sing := by simp [exModel, Grow.new, Oxid.new]
  tar := by simp [exModel, Nucl.new]
  mtar := by simp [exModel, Nucl.new]
  psd := rfl
  bins := (stQ_sectReady p).bins

/-- The first section holds particles of 100 carbon atoms: its source jumps from a quarter to zero. -/
example : ∃ S : Set.Icc (0 : ℝ) 1 → Model × State × Option ℝ, (∀ p, sectSources (exModel .SECT 2 .PAH .LL .LL .FUCHS) none (stP p) = ok (S p)) ∧
    Tendsto (fun p => (S p).1.sources.soot.getD 0 0) (𝓝[{p | ∃ q ∈ (stP p).yPah, q ≠ 0}] ⟨0, by simp⟩) (𝓝 (1 / 4)) ∧
    (S ⟨0, by simp⟩).1.sources.soot.getD 0 0 = 0 := by
  obtain ⟨S, h1, h2, h3, -⟩ := C104_sect_pah_jump (exModel .SECT 2 .PAH .LL .LL .FUCHS) none (exGlobOk 2 .PAH .LL .LL .FUCHS (by norm_num) (by norm_num)) stP
    ⟨0, by simp⟩ stP_sectReady rfl continuousAt_const continuousAt_const continuousAt_const (stP_cont _) (fun p => by simp [stP, stateAfter])
    (by simp [stP, stateAfter]) (by simp [exModel])
  refine ⟨S, h1, ?_, h3⟩
  have c : (stP ⟨0, by simp⟩).cMin = 100 := rfl
  have b : (exModel .SECT 2 .PAH .LL .LL .FUCHS).mBins.getD 0 0 = 100 * (gasMW .C / Na) := by
    simp only [exModel, if_true]; rw [binMasses_getD (by norm_num)]; push_cast; ring
  have e : (stP ⟨0, by simp⟩).cMin / 4 * (gasMW .C / Na) / (exModel .SECT 2 .PAH .LL .LL .FUCHS).mBins.getD 0 0 = 1 / 4 := by
    rw [c, b]
    have : gasMW .C / Na ≠ 0 := by norm_num [gasMW, Na]
    generalize gasMW .C / Na = q at *
    field_simp
  rwa [e] at h2

end Soot
