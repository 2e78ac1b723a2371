import Verif.Props.Mono

/-!
# PAH nucleation in the monodisperse model (C20 negation, C21, C22)
-/

namespace Soot

open Res Real
open scoped Classical

/-- Complete evaluation of MONO with PAH nucleation. -/
theorem mono_pah_eval {m : Model} {s : State} {M0 M1 w a : ℝ} (h : MonoReady m s M0 M1 w a)
    (hp : m.nucl.mech = .PAH) (hw0 : 0 ≤ monoW M0 w) :
    ∃ m' s' I kG kO A,
      monoSources m s = ok (m', s') ∧
      s' = { s with wts := [monoW M0 w], absc := [monoA M0 M1 a], cMin := cMinAfter s } ∧
      ibetaNodes m.coag s' (mDimerAfter s) = ok I ∧ 0 ≤ I ∧
      I = monoW M0 w * m.coag.val s' (mDimerAfter s) (monoA M0 M1 a) ∧
      m.grow.rate m.ctx s' = ok kG ∧ m.oxid.rate m.ctx s' = ok kO ∧ IsArea M0 M1 A ∧
      m'.nucl.dimer = ⟨mDimerAfter s, nDimerAfter s I, 0.5 * pahTot s⟩ ∧
      m'.sources.pah = (fun sp => -pahNdot s sp * pahMW sp / Na) ∧
      m'.sources.soot =
        [0.5 * betaDD s (mDimerAfter s) * nDimerAfter s I ^ 2 -
           m.coag.val s' (monoA M0 M1 a) (monoA M0 M1 a) * monoW M0 w ^ 2 / 2,
         0.5 * betaDD s (mDimerAfter s) * nDimerAfter s I ^ 2 * (cMinAfter s * gasMW .C / Na) +
          mDimerAfter s * nDimerAfter s I * I + (kG - kO) * A] := by
  obtain ⟨m', s', J, n', kG, kO, A, h1, h2, h3, h4, h5, h6, h7, _, _, _, _, h9, h8⟩ := mono_eval h
  set s1 : State := { s with wts := [monoW M0 w], absc := [monoA M0 M1 a] } with hs1
  have ha1 : Accepted s1 := h.gas.acc.upd h.gas.acc.phys.cMin _ _
  have hcp : 0 < cMinAfter s1 := cMinAfter_pos ha1.phys
  have hphys : State.Phys { s1 with cMin := cMinAfter s1 } := (h.gas.acc.upd hcp _ _).phys
  have hib := ibetaNodes_ok hphys h.fm (by simp [hs1]) (mDimerAfter s1)
  have hsum : (∑ i ∈ Finset.range ({ s1 with cMin := cMinAfter s1 } : State).absc.length,
      |({ s1 with cMin := cMinAfter s1 } : State).wts.getD i 0| *
        m.coag.val { s1 with cMin := cMinAfter s1 } (mDimerAfter s1)
          (({ s1 with cMin := cMinAfter s1 } : State).absc.getD i 0)) =
      monoW M0 w * m.coag.val { s1 with cMin := cMinAfter s1 } (mDimerAfter s1) (monoA M0 M1 a) := by
    simp [hs1, abs_of_nonneg hw0]
  rw [hsum] at hib
  have hI0 : 0 ≤ monoW M0 w * m.coag.val { s1 with cMin := cMinAfter s1 } (mDimerAfter s1) (monoA M0 M1 a) :=
    mul_nonneg hw0 (Coag.val_nonneg hphys h.fm _ _)
  have hn := nuclPAH_ok ha1.phys h.pah m.nucl _ _ hI0 hib
  rw [Nucl.rate, hp] at h2
  have h2 : nuclPAH m.nucl (ibetaNodes m.coag) s1 = _ := h2
  rw [hn] at h2
  cases h2
  obtain ⟨gn, gg, go, _, _, _, e⟩ := Model.finish_inv h9
  refine ⟨m', { s1 with cMin := cMinAfter s1 }, _, kG, kO, A, h1, rfl, hib, hI0, rfl, h5, h6, h7, ?_, ?_, ?_⟩
  · rw [e]; rfl
  · rw [e]; simp only [hp, if_true]; rfl
  · rw [h8, if_pos hp]
    have b1 : betaDD s1 = betaDD s := rfl
    have b2 : mDimerAfter s1 = mDimerAfter s := rfl
    have b3 : nDimerAfter s1 = nDimerAfter s := rfl
    have b4 : cMinAfter s1 = cMinAfter s := rfl
    simp only [b1, b2, b3, b4]
    congr 1
    · ring
    · congr 1; ring

/-- **C22 (MONO).** The soot mass gained by PAH condensation — the mass source minus the nucleation mass rate
and the surface reactions — equals dimer mass × dimer concentration × the dimer–soot collision rate `I` that
was used in the dimer balance `betaDD n² + I n = nDotD`. -/
theorem C22_mono (m : Model) (s : State) (M0 M1 w a : ℝ) (h : MonoReady m s M0 M1 w a)
    (hp : m.nucl.mech = .PAH) (hw0 : 0 ≤ w) (hpah : ∃ y ∈ s.yPah, y ≠ 0) :
    ∃ m' s' I kG kO A Mdot, monoSources m s = ok (m', s') ∧
      ibetaNodes m.coag s' m'.nucl.dimer.mDimer = ok I ∧
      betaDD s m'.nucl.dimer.mDimer * m'.nucl.dimer.nDimer ^ 2 + I * m'.nucl.dimer.nDimer = m'.nucl.dimer.nDotD ∧
      0 < m'.nucl.dimer.nDimer ∧
      m.grow.rate m.ctx s' = ok kG ∧ m.oxid.rate m.ctx s' = ok kO ∧ IsArea M0 M1 A ∧
      m'.sources.soot[1]? = some Mdot ∧
      Mdot - betaDD s m'.nucl.dimer.mDimer * m'.nucl.dimer.nDimer ^ 2 / 2 * (s'.cMin * gasMW .C / Na) - (kG - kO) * A
        = m'.nucl.dimer.mDimer * m'.nucl.dimer.nDimer * I := by
  have hM0 : 0 ≤ M0 := h.gas.acc.sootVar_nonneg M0 (by simp [h.soot])
  have hw1 : 0 ≤ monoW M0 w := by unfold monoW; split_ifs <;> assumption
  obtain ⟨m', s', I, kG, kO, A, h1, h2, h3, h4, _, h5, h6, h7, h8, _, h9⟩ := mono_pah_eval h hp hw1
  have hib : (fun _ _ => ok I : State → ℝ → Res ℝ) { s with cMin := cMinAfter s } (mDimerAfter s) = ok I := rfl
  obtain ⟨J, n', s'', e1, _, e2, _⟩ := C19_dimer_root s h.gas.acc h.pah m.nucl hp (fun _ _ => ok I) I h4 hib
  obtain ⟨_, _, e3, e4, _⟩ := e2 hpah
  rw [Nucl.rate, hp] at e1
  have e1' : nuclPAH m.nucl (fun _ _ => ok I) s = _ := e1
  rw [nuclPAH_ok h.gas.acc.phys h.pah m.nucl _ I h4 hib] at e1'
  cases e1'
  refine ⟨m', s', I, kG, kO, A, _, h1, by rw [h8]; exact h3, ?_, by rw [h8]; exact e4, h5, h6, h7, by rw [h9]; rfl, ?_⟩
  · rw [h8]; exact (e3 _ e4.le).mpr rfl
  · rw [h8]
    have : s'.cMin = cMinAfter s := by rw [h2]
    rw [this]; ring

theorem stEx2_pah : ∃ y ∈ stEx2.yPah, y ≠ 0 :=
  ⟨0.001, by simp [stEx2_eq', stateAfter, argsEx2, argsEx], by norm_num⟩

example : ∃ m' s', monoSources { monoEx with nucl := Nucl.new .PAH } stEx2 = ok (m', s') ∧ 0 < m'.nucl.dimer.nDimer := by
  obtain ⟨m', s', _, _, _, _, _, h, _, _, h2, _⟩ := C22_mono _ stEx2 _ _ _ _
    (monoReadyEx .PAH (by simp) (by simp) .LL .LL .FUCHS) rfl le_rfl stEx2_pah
  exact ⟨m', s', h, h2⟩

/-! ## C21 -/

/-- Carbon mass removed from the PAH species per volume and time (specification). -/
noncomputable def pahCarbonLoss (r : PahSp → ℝ) : ℝ := ∑ sp, -(r sp) * (pahNC sp * gasMW .C / pahMW sp)

theorem pahCarbonLoss_eq {s : State} (ht : 0 < pahTot s) :
    pahCarbonLoss (fun sp => -pahNdot s sp * pahMW sp / Na) = pahTot s * dimerMass s := by
  have : pahTot s * dimerMass s = ∑ sp, pahNdot s sp * pahNC sp * gasMW .C / Na := by
    rw [dimerMass]; field_simp
    exact Finset.sum_congr rfl fun _ _ => by ring
  rw [this, pahCarbonLoss]
  refine Finset.sum_congr rfl fun sp _ => ?_
  have := (pahMW_pos sp).ne'
  have := Na_pos.ne'
  field_simp

/-- The exact carbon balance: with growth and oxidation off, the soot mass source is **half** of the carbon
removed from the PAH, plus a term proportional to the `cMin` stored in the state before the call. -/
theorem C21_exact_balance_partial (m : Model) (s : State) (M0 M1 w a : ℝ) (h : MonoReady m s M0 M1 w a)
    (hp : m.nucl.mech = .PAH) (hg : m.grow.mech = .NONE) (ho : m.oxid.mechType = .NONE) (hw0 : 0 ≤ w)
    (hpah : ∃ y ∈ s.yPah, y ≠ 0) :
    ∃ m' s' J Mdot, monoSources m s = ok (m', s') ∧ m'.sources.soot[1]? = some Mdot ∧ 0 < J ∧
      J = betaDD s m'.nucl.dimer.mDimer * m'.nucl.dimer.nDimer ^ 2 / 2 ∧
      Mdot = pahCarbonLoss m'.sources.pah / 2 + J * (s.cMin / pahTot s) * (gasMW .C / Na) := by
  have hM0 : 0 ≤ M0 := h.gas.acc.sootVar_nonneg M0 (by simp [h.soot])
  have hw1 : 0 ≤ monoW M0 w := by unfold monoW; split_ifs <;> assumption
  obtain ⟨m', s', I, kG, kO, A, h1, h2, h3, h4, _, h5, h6, h7, h8, hpr, h9⟩ := mono_pah_eval h hp hw1
  have hph := h.gas.acc.phys
  have ht := pahTot_pos hph h.pah hpah
  have hm := dimerMass_pos hph ht
  have hb : 0 < betaDD s (dimerMass s) := mul_pos (pahPre_pos hph) (by positivity)
  have hib : (fun _ _ => ok I : State → ℝ → Res ℝ) { s with cMin := cMinAfter s } (mDimerAfter s) = ok I := rfl
  obtain ⟨J, n', s'', e1, _, e2, _⟩ := C19_dimer_root s h.gas.acc h.pah m.nucl hp (fun _ _ => ok I) I h4 hib
  obtain ⟨_, _, e3, e4, _⟩ := e2 hpah
  rw [Nucl.rate, hp] at e1
  have e1' : nuclPAH m.nucl (fun _ _ => ok I) s = _ := e1
  rw [nuclPAH_ok hph h.pah m.nucl _ I h4 hib] at e1'
  cases e1'
  have hroot := (e3 _ e4.le).mpr rfl
  have e4 : 0 < nDimerAfter s I := e4
  have hmd : mDimerAfter s = dimerMass s := by rw [mDimerAfter, if_pos ht]
  simp only [hmd] at hroot h9 h8
  have kG0 : kG = 0 := by
    have : m.grow.rate m.ctx s' = ok 0 := by rw [Grow.rate, hg]
    rw [this] at h5; cases h5; rfl
  have kO0 : kO = 0 := by
    have : m.oxid.rate m.ctx s' = ok 0 := by
      rw [Oxid.rate, (oxid_none h.wf.oxid).mp ho]
    rw [this] at h6; cases h6; rfl
  refine ⟨m', s', _, _, h1, by rw [h9]; rfl, ?_, rfl, ?_⟩
  · rw [h8]; positivity
  · rw [h8, hpr, pahCarbonLoss_eq ht, kG0, kO0]
    simp only
    have hc : cMinAfter s * (gasMW .C / Na) = s.cMin / pahTot s * (gasMW .C / Na) + 2 * dimerMass s := by
      rw [cMinAfter, if_pos ht, dimerMass, add_div, add_mul]
      congr 1
      rw [Finset.sum_div, Finset.sum_mul, Finset.sum_div, Finset.mul_sum]
      refine Finset.sum_congr rfl fun sp _ => ?_
      have := Na_pos.ne'
      field_simp
    generalize nDimerAfter s I = nD at *
    generalize betaDD s (dimerMass s) = b at *
    linear_combination (0.5 * b * nD ^ 2) * hc + dimerMass s * hroot

/-- `stEx2` with another stored nucleus size. -/
noncomputable def stEx3 (c : ℝ) : State := { stEx2 with cMin := c }

theorem monoReadyEx3 (n : NuclMech) (hn : n ≠ .AJ_RED) (hb : n ≠ .BROWN) (g : GrowMech) (o : OxidMech) (c : CoagMech)
    {x : ℝ} (hx : 0 < x) :
    MonoReady { monoEx with nucl := Nucl.new n, grow := Grow.new g, oxid := Oxid.new o, coag := Coag.new c }
      (stEx3 x) 1E15 1E-8 0 0 :=
  let h := monoReadyEx n hn hb g o c
  { toReady := h.toReady.upd hx _ _
    psd := h.psd, notar := h.notar, len := h.len, soot := h.soot, wts := h.wts, absc := h.absc }

/-- Nucleation only, from PAH. -/
noncomputable def monoPAH : Model :=
  { monoEx with nucl := Nucl.new .PAH, grow := Grow.new .NONE, oxid := Oxid.new .NONE, coag := Coag.new .NONE }

theorem monoPAH_new : Model.new .MONO 2 .PAH .NONE .NONE .NONE = ok monoPAH := by
  simp [Model.new, Model.newPtr, ctorCheck, monoEx, monoPAH, Coag.new]

/-- **C21 is false of the code**: there is an accepted state with PAH on which a constructed MONO model with
PAH nucleation only reports a soot mass source different from the carbon removed from the PAH. -/
theorem C21_carbon_not_conserved :
    ∃ s m' s' Mdot, Accepted s ∧ (∃ y ∈ s.yPah, y ≠ 0) ∧ monoSources monoPAH s = ok (m', s') ∧
      m'.sources.soot[1]? = some Mdot ∧ Mdot ≠ pahCarbonLoss m'.sources.pah := by
  have key : ∀ x : ℝ, 0 < x → ∃ m' s' J Mdot, monoSources monoPAH (stEx3 x) = ok (m', s') ∧
      m'.sources.soot[1]? = some Mdot ∧ 0 < J ∧ J = 0.5 * betaDD stEx2 (dimerMass stEx2) * nDimerAfter stEx2 0 ^ 2 ∧
      pahCarbonLoss m'.sources.pah = pahTot stEx2 * dimerMass stEx2 ∧
      Mdot = pahCarbonLoss m'.sources.pah / 2 + J * (x / pahTot stEx2) * (gasMW .C / Na) := by
    intro x hx
    have hr := monoReadyEx3 .PAH (by simp) (by simp) .NONE .NONE .NONE hx
    have ht : 0 < pahTot stEx2 := pahTot_pos stEx2_accepted.phys stEx2_yPah stEx2_pah
    obtain ⟨m', s', J, Mdot, h1, h2, h3, h4, h5⟩ := C21_exact_balance_partial _ _ _ _ _ _ hr rfl rfl rfl le_rfl stEx2_pah
    obtain ⟨m'', s'', I, _, _, _, g1, _, g3, _, gI, _, _, _, g8, gp, _⟩ := mono_pah_eval hr rfl (by norm_num [monoW])
    cases g1.symm.trans h1
    have hI : I = 0 := by
      rw [gI]; simp [Coag.val, Coag.new]
    have hmd : mDimerAfter (stEx3 x) = dimerMass stEx2 := by
      have : 0 < pahTot (stEx3 x) := ht
      rw [mDimerAfter, if_pos this]; rfl
    refine ⟨m', s', J, Mdot, h1, h2, h3, ?_, ?_, h5⟩
    · rw [h4, g8, hI]; simp only [hmd]
      show betaDD stEx2 (dimerMass stEx2) * nDimerAfter stEx2 0 ^ 2 / 2 = _
      ring
    · rw [gp]; exact pahCarbonLoss_eq (s := stEx2) ht
  have hacc : ∀ x : ℝ, 0 < x → Accepted (stEx3 x) := fun x hx => stEx2_accepted.upd hx _ _
  obtain ⟨m1, s1, J1, D1, a1, a2, a3, a4, a5, a6⟩ := key 100 (by norm_num)
  obtain ⟨m2, s2, J2, D2, b1, b2, b3, b4, b5, b6⟩ := key 200 (by norm_num)
  by_cases hD : D1 = pahCarbonLoss m1.sources.pah
  · refine ⟨_, m2, s2, D2, hacc 200 (by norm_num), stEx2_pah, b1, b2, fun hD2 => ?_⟩
    have ht : 0 < pahTot stEx2 := pahTot_pos stEx2_accepted.phys stEx2_yPah stEx2_pah
    have hJ : J2 = J1 := by rw [a4, b4]
    rw [a5] at hD a6; rw [b5] at hD2 b6
    have hpos : 0 < J1 * (100 / pahTot stEx2) * (gasMW .C / Na) := by
      have := gasMW_pos .C; have := Na_pos; positivity
    have e : J2 * (200 / pahTot stEx2) * (gasMW .C / Na) = 2 * (J1 * (100 / pahTot stEx2) * (gasMW .C / Na)) := by
      rw [hJ]; ring
    linarith
  · exact ⟨_, m1, s1, D1, hacc 100 (by norm_num), stEx2_pah, a1, a2, hD⟩

/-! ## C20, PAH -/

/-- **C20 is false with PAH nucleation**: a constructed MONO model evaluated twice in a row, without any
`setState` in between, reports two different soot mass sources. -/
theorem C20_pah_not_repeatable :
    ∃ s m₁ s₁ m₂ s₂, Accepted s ∧ monoSources monoPAH s = ok (m₁, s₁) ∧ monoSources m₁ s₁ = ok (m₂, s₂) ∧
      m₁.sources.soot[1]? ≠ m₂.sources.soot[1]? := by
  have ht : 0 < pahTot stEx2 := pahTot_pos stEx2_accepted.phys stEx2_yPah stEx2_pah
  have hmdx : ∀ x, mDimerAfter (stEx3 x) = dimerMass stEx2 := by
    intro x
    have : 0 < pahTot (stEx3 x) := ht
    rw [mDimerAfter, if_pos this]; rfl
  set S := ∑ sp, pahNdot stEx2 sp * 2 * pahNC sp with hS
  have hSpos : 0 < S := by
    have h := dimerMass_pos stEx2_accepted.phys ht
    by_contra hc
    have : dimerMass stEx2 = S * (gasMW .C / Na / 2) / pahTot stEx2 := by
      rw [dimerMass, hS, Finset.sum_mul]; congr 1
      exact Finset.sum_congr rfl fun sp _ => by ring
    have h2 : S * (gasMW .C / Na / 2) / pahTot stEx2 ≤ 0 := by
      apply div_nonpos_of_nonpos_of_nonneg _ ht.le
      have := gasMW_pos .C; have := Na_pos
      exact mul_nonpos_of_nonpos_of_nonneg (not_lt.mp hc) (by positivity)
    linarith
  have hcx : ∀ x, cMinAfter (stEx3 x) = (x + S) / pahTot stEx2 := by
    intro x
    have : 0 < pahTot (stEx3 x) := ht
    rw [cMinAfter, if_pos this]; rfl
  -- one evaluation on `stEx3 x`, from any history of the model, in closed form
  have key : ∀ x : ℝ, 0 < x → ∀ w a : ℝ, ∃ m' J, monoSources monoPAH { stEx3 x with wts := [w], absc := [a] } =
      ok (m', { stEx3 ((x + S) / pahTot stEx2) with wts := [1E15], absc := [1E-8 / 1E15] }) ∧
      J = 0.5 * betaDD stEx2 (dimerMass stEx2) * nDimerAfter stEx2 0 ^ 2 ∧ 0 < J ∧
      m'.sources.soot[1]? = some (J * ((x + S) / pahTot stEx2 * gasMW .C / Na)) := by
    intro x hx w a
    have h0 := monoReadyEx3 .PAH (by simp) (by simp) .NONE .NONE .NONE hx
    have hr : MonoReady monoPAH { stEx3 x with wts := [w], absc := [a] } 1E15 1E-8 w a :=
      { toReady := h0.toReady.upd hx _ _
        psd := rfl, notar := rfl, len := rfl, soot := h0.soot, wts := rfl, absc := rfl }
    have hw1 : monoW 1E15 w = 1E15 := by norm_num [monoW]
    have ha1 : monoA 1E15 1E-8 a = 1E-8 / 1E15 := by norm_num [monoA]
    obtain ⟨m', s', I, kG, kO, A, h1, h2, h3, _, hI, h5, h6, h7, _, _, h9⟩ := mono_pah_eval hr rfl (by rw [hw1]; norm_num)
    have hI0 : I = 0 := by rw [hI]; simp [Coag.val, Coag.new, monoPAH]
    have hn : 0 < nDimerAfter stEx2 0 := by
      rw [nDimerAfter, if_pos ht]
      have hm := dimerMass_pos stEx2_accepted.phys ht
      have hb : 0 < betaDD stEx2 (dimerMass stEx2) := mul_pos (pahPre_pos stEx2_accepted.phys) (by positivity)
      have : 0 < sqrt (0 * 0 + 4 * betaDD stEx2 (dimerMass stEx2) * (0.5 * pahTot stEx2)) := sqrt_pos.mpr (by positivity)
      rw [zero_add]
      positivity
    have hb : 0 < betaDD stEx2 (dimerMass stEx2) :=
      mul_pos (pahPre_pos stEx2_accepted.phys) (by have := dimerMass_pos stEx2_accepted.phys ht; positivity)
    refine ⟨m', _, ?_, rfl, by positivity, ?_⟩
    · rw [h1, h2, hw1, ha1]
      have : cMinAfter ({ stEx3 x with wts := [w], absc := [a] } : State) = cMinAfter (stEx3 x) := rfl
      rw [this, hcx]; rfl
    · have kG0 : kG = 0 := by
        have : monoPAH.grow.rate monoPAH.ctx s' = ok 0 := rfl
        rw [this] at h5; cases h5; rfl
      have kO0 : kO = 0 := by
        have : monoPAH.oxid.rate monoPAH.ctx s' = ok 0 := rfl
        rw [this] at h6; cases h6; rfl
      have e1 : cMinAfter ({ stEx3 x with wts := [w], absc := [a] } : State) = (x + S) / pahTot stEx2 := hcx x
      have e2 : mDimerAfter ({ stEx3 x with wts := [w], absc := [a] } : State) = dimerMass stEx2 := hmdx x
      have e3 : nDimerAfter ({ stEx3 x with wts := [w], absc := [a] } : State) I = nDimerAfter stEx2 0 := by
        rw [hI0]; rfl
      have e4 : betaDD ({ stEx3 x with wts := [w], absc := [a] } : State) = betaDD stEx2 := rfl
      rw [h9, e1, e2, e3, e4, hI0, kG0, kO0]
      simp
  have two : ∀ x : ℝ, 0 < x → (x + S) / pahTot stEx2 ≠ x → ∃ s m₁ s₁ m₂ s₂, Accepted s ∧
      monoSources monoPAH s = ok (m₁, s₁) ∧ monoSources m₁ s₁ = ok (m₂, s₂) ∧
      m₁.sources.soot[1]? ≠ m₂.sources.soot[1]? := by
    intro x hx hne
    obtain ⟨m₁, J, h1, hJ, hJ0, h2⟩ := key x hx 0 0
    obtain ⟨m₂, J', k1, kJ, _, k2⟩ := key ((x + S) / pahTot stEx2) (by positivity) 1E15 (1E-8 / 1E15)
    have hr := monoReadyEx .PAH (by simp) (by simp) .NONE .NONE .NONE
    obtain ⟨hw1, hsp⟩ := monoSources_wf (m := monoPAH) hr.wf h1
    refine ⟨_, m₁, _, m₂,
      { stEx3 (((x + S) / pahTot stEx2 + S) / pahTot stEx2) with wts := [1E15], absc := [1E-8 / 1E15] },
      stEx2_accepted.upd hx [0] [0], h1, ?_, ?_⟩
    · rw [monoSources_canon hw1 (hsp.nsoot.trans rfl), hsp.canon_eq, ← monoSources_canon (m := monoPAH) hr.wf rfl]
      exact k1
    · rw [h2, k2]
      intro he
      have he := Option.some.inj he
      have hJJ : J' = J := by rw [hJ, kJ]
      rw [hJJ] at he
      have hq : 0 < J * (gasMW .C / Na) := by have := gasMW_pos .C; have := Na_pos; positivity
      have h3 : (J * (gasMW .C / Na)) * ((x + S) / pahTot stEx2) =
          (J * (gasMW .C / Na)) * (((x + S) / pahTot stEx2 + S) / pahTot stEx2) := by
        linear_combination he
      have h4 := mul_left_cancel₀ hq.ne' h3
      have h5 : x + S = (x + S) / pahTot stEx2 + S := by
        field_simp at h4 ⊢
        linarith
      exact hne (by linarith)
  by_cases h : (100 + S) / pahTot stEx2 = 100
  · refine two 200 (by norm_num) fun h2 => ?_
    rw [div_eq_iff ht.ne'] at h h2
    have : pahTot stEx2 = 1 := by linarith
    rw [this] at h
    linarith
  · exact two 100 (by norm_num) h

end Soot
