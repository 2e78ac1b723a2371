import Verif.Props.SourceCont
import Verif.Props.SectModel

/-!
# C104 (SECT): the sources of the sectional model are continuous

The bin masses do not change, so neither the cutoff mass of the kernels nor the bin search makes a source of
`sootModel_SECT::setSourceTerms` (sootModel_SECT.cc:162-319) jump: the sources are continuous in the gas state and the section
contents, also where there is no soot at all.
-/

namespace Soot

open Res Real Filter Topology Cont
open scoped Classical

section
variable {X : Type*} [TopologicalSpace X] {z : X}

theorem val_fixed_cont {c : Coag} (hc : 0 < c.fmMult) {f : X → State} (hp : ∀ y, (f y).Phys) (h : ContSt f z) (a b : ℝ) :
    ContinuousAt (fun y => c.val (f y) a b) z := by
  by_cases hm : mmin < a ∧ mmin < b
  · simp only [val_core c _ hm.1 hm.2]
    exact core_cont hc hp h continuousAt_const continuousAt_const (mmin_pos.trans hm.1) (mmin_pos.trans hm.2)
  · simp only [val_zero c _ (show a ≤ mmin ∨ b ≤ mmin by by_contra q; push Not at q; exact hm q)]
    exact continuousAt_const

/-- Every entry of an array depends continuously on the parameter. -/
def ContArr (S : X → ℕ → ℝ) (z : X) : Prop := ∀ k, ContinuousAt (fun y => S y k) z

theorem ContArr.addAt {S : X → ℕ → ℝ} (h : ContArr S z) (k : ℕ) {v : X → ℝ} (hv : ContinuousAt v z) : ContArr (fun y => Soot.addAt (S y) k (v y)) z := by
  intro i
  by_cases hi : i = k
  · subst hi
    simp only [Soot.addAt, Function.update_self]
    exact (h i).add hv
  · simpa [Soot.addAt, Function.update_of_ne hi] using h i

theorem pairLoss_cont {S : X → ℕ → ℝ} (h : ContArr S z) (i j : ℕ) {t : X → ℝ} (ht : ContinuousAt t z) : ContArr (fun y => pairLoss (t y) i j (S y)) z := by
  unfold pairLoss
  split_ifs
  · exact (h.addAt i ht.neg).addAt j ht.neg
  · exact h.addAt i ht.neg

theorem pairGain_cont {S : X → ℕ → ℝ} (h : ContArr S z) (n : ℕ) (bins : List ℝ) {e : X → ℝ} (he : ContinuousAt e z) (mm : ℝ) (k : ℕ) :
    ContArr (fun y => pairGain n bins (e y) mm k (S y)) z := by
  unfold pairGain
  split_ifs
  · exact h.addAt _ ((he.mul continuousAt_const).div_const _)
  · exact (h.addAt k (continuousAt_const.mul he)).addAt (k + 1) (continuousAt_const.mul he)

theorem pairEvents_cont (i j : ℕ) {t : X → ℝ} (ht : ContinuousAt t z) : ContinuousAt (fun y => pairEvents (t y) i j) z := by
  unfold pairEvents
  split_ifs
  · exact ht.mul continuousAt_const
  · exact ht

/-- The gas state and the section contents depend continuously on the parameter. -/
structure ContSect (f : X → State) (z : X) : Prop extends ContIn f z where
  num : ∀ k, ContinuousAt (fun y => (f y).sootVar.getD k 0) z

theorem coagLoop_cont {m : Model} {f : X → State} (hr : ∀ y, SectReady m (f y)) (hf : ContSect f z) {g : ℝ} (hg : Searchable m.nsoot m.mBins g)
    (l : List (ℕ × ℕ)) (hl : ∀ p ∈ l, p.1 ≤ p.2 ∧ p.2 < m.nsoot) (S S' : X → ℕ → ℝ) (hS : ContArr S z)
    (h : ∀ y, coagLoop m.nsoot m.mBins m.coag (f y) g l (S y) = ok (S' y)) : ContArr S' z := by
  induction l generalizing S with
  | nil => intro k; convert hS k using 2 with y; have := h y; simp only [coagLoop, ok.injEq] at this; rw [this]
  | cons p t ih =>
    obtain ⟨i, j⟩ := p
    obtain ⟨hij, hj⟩ := hl (i, j) (by simp)
    simp only at hij hj
    obtain ⟨h1, h2⟩ := hg i j (by omega) hj
    have hk : toSizeT (g * log ((m.mBins.getD i 0 + m.mBins.getD j 0) / m.mBins.getD 0 0)) =
        ok ⌊g * log ((m.mBins.getD i 0 + m.mBins.getD j 0) / m.mBins.getD 0 0)⌋₊ := by
      rw [toSizeT, if_neg]; push Not; exact ⟨h1, h2⟩
    have hp : ∀ y, (f y).Phys := fun y => (hr y).gas.acc.phys
    have hK : ∀ y, m.coag.rate (f y) (m.mBins.getD i 0) (m.mBins.getD j 0) = ok (m.coag.val (f y) (m.mBins.getD i 0) (m.mBins.getD j 0)) :=
      fun y => Coag.rate_ok (hp y) (hr y).fm _ _
    have ct : ContinuousAt (fun y => m.coag.val (f y) (m.mBins.getD i 0) (m.mBins.getD j 0) * (f y).sootVar.getD i 0 * (f y).sootVar.getD j 0) z :=
      ((val_fixed_cont (hr z).fm hp ⟨hf.T, hf.P, hf.rho, hf.mu⟩ _ _).mul (hf.num i)).mul (hf.num j)
    refine ih (fun p hp => hl p (by simp [hp])) _ (pairGain_cont (pairLoss_cont hS i j ct) m.nsoot m.mBins (pairEvents_cont i j ct)
      (m.mBins.getD i 0 + m.mBins.getD j 0) ⌊g * log ((m.mBins.getD i 0 + m.mBins.getD j 0) / m.mBins.getD 0 0)⌋₊) fun y => ?_
    have := h y
    rw [coagLoop, coagPair_ok (hr y).bins (by omega) hj (hr y).len (hK y) hk, ok_bind] at this
    exact this

theorem sectCoag_cont {m : Model} {glob : Option ℝ} (hg : GlobOk m glob) {f : X → State} (hr : ∀ y, SectReady m (f y)) (hf : ContSect f z)
    {C : X → ℕ → ℝ} {G : X → Option ℝ} (h : ∀ y, sectCoag m glob (f y) = ok (C y, G y)) : ContArr C z := by
  unfold sectCoag at h
  by_cases hc : m.coag.mech = .NONE
  · simp only [hc, ne_eq, not_true_eq_false, if_false, ok.injEq, Prod.mk.injEq] at h
    intro k
    simp only [← (h _).1]
    exact continuousAt_const
  · obtain ⟨g, h1, h2⟩ := hg hc
    choose S hS using fun y => coagLoop_ok (hr y) h2 (pairs m.nsoot) (pairs_mem _) fun _ => 0
    simp only [ne_eq, hc, not_false_eq_true, if_true, h1, ok_bind, hS, ok.injEq, Prod.mk.injEq] at h
    have e : C = S := funext fun y => (h y).1.symm
    rw [e]
    exact coagLoop_cont hr hf h2 _ (pairs_mem _) (fun _ _ => 0) S (fun k => continuousAt_const) hS

theorem upVal_cont (n : ℕ) (bins : List ℝ) {c : X → ℕ → ℝ} (h : ContArr c z) : ContArr (fun y => upVal n bins (c y)) z := by
  have u : ∀ k, ContinuousAt (fun y => fUp bins (c y) k) z := fun k => (h k).div_const _
  have i : ∀ k, ContinuousAt (fun y => fIn bins (c y) k) z := fun k => by
    unfold fIn; split_ifs
    · exact continuousAt_const
    · exact u _
  intro k
  unfold upVal
  beta_reduce
  split_ifs
  · exact (i k).sub (u k)
  · exact (i k).add ((h k).div_const _)
  · exact continuousAt_const

theorem downVal_cont (n : ℕ) (bins : List ℝ) {c : X → ℕ → ℝ} (h : ContArr c z) : ContArr (fun y => downVal n bins (c y)) z := by
  have d : ∀ k, ContinuousAt (fun y => fDown bins (c y) k) z := fun k => by
    unfold fDown; split_ifs
    · exact (h 0).div_const _
    · exact (h k).div_const _
  intro k
  unfold downVal
  beta_reduce
  split_ifs
  · exact (d _).sub (d k)
  · exact continuousAt_const.sub (d k)
  · exact continuousAt_const

/-- One section's area is at most the area of all soot as the rates see it. -/
theorem binArea_le {m : Model} {s : State} (h : SectReady m s) (k : ℕ) : 0 ≤ binArea m s k ∧ binArea m s k ≤ areaFn (numOf m.ctx s) (massOf m.ctx s) := by
  have hr := rhoSoot_pos
  have n0 := numOf_nonneg (x := m.ctx) h.gas.acc
  have m0 := massOf_nonneg h.gas.acc h.sized
  unfold binArea
  split_ifs with hk
  · have b := h.bins.pos hk
    have N0 : ∀ i, 0 ≤ s.sootVar.getD i 0 := fun i => by
      by_cases hi : i < s.sootVar.length
      · rw [List.getD_eq_getElem _ _ hi]; exact h.gas.acc.sootVar_nonneg _ (List.getElem_mem hi)
      · rw [List.getD_eq_default _ _ (not_lt.1 hi)]
    have hN := N0 k
    refine ⟨by positivity, ?_⟩
    have hs : m.ctx.psd = .SECT := h.psd
    have l1 : s.sootVar.getD k 0 ≤ numOf m.ctx s := by
      rw [numOf, if_pos hs]
      exact Finset.single_le_sum (f := fun k => s.sootVar.getD k 0) (fun i _ => N0 i) (Finset.mem_range.2 hk)
    have l2 : s.sootVar.getD k 0 * m.mBins.getD k 0 ≤ massOf m.ctx s := by
      rw [massOf, if_pos hs]
      exact Finset.single_le_sum (f := fun k => s.sootVar.getD k 0 * m.mBins.getD k 0)
        (fun i hi => mul_nonneg (N0 i) (h.bins.pos (Finset.mem_range.1 hi)).le) (Finset.mem_range.2 hk)
    have e : π * (6 * m.mBins.getD k 0 / (π * rhoSoot)) ^ twothird * s.sootVar.getD k 0 =
        areaFn (s.sootVar.getD k 0) (s.sootVar.getD k 0 * m.mBins.getD k 0) := by
      unfold areaFn
      rw [mul_rpow hN b.le, show 6 * m.mBins.getD k 0 / (π * rhoSoot) = 6 / (π * rhoSoot) * m.mBins.getD k 0 by ring, twothird,
        mul_rpow (by positivity) b.le]
      have : s.sootVar.getD k 0 ^ ((2 : ℝ) / 3) * s.sootVar.getD k 0 ^ ((1 : ℝ) / 3) = s.sootVar.getD k 0 := by
        rw [← rpow_add_of_nonneg hN (by norm_num) (by norm_num)]; norm_num
      calc _ = π * (6 / (π * rhoSoot)) ^ ((2 : ℝ) / 3) * m.mBins.getD k 0 ^ ((2 : ℝ) / 3) * s.sootVar.getD k 0 := by ring
        _ = π * (6 / (π * rhoSoot)) ^ ((2 : ℝ) / 3) * m.mBins.getD k 0 ^ ((2 : ℝ) / 3) *
            (s.sootVar.getD k 0 ^ ((2 : ℝ) / 3) * s.sootVar.getD k 0 ^ ((1 : ℝ) / 3)) := by rw [this]
        _ = _ := by ring
    rw [e]
    unfold areaFn
    gcongr
  · exact ⟨le_rfl, areaFn_nonneg n0 m0⟩

theorem growFlux_nonneg {s : State} (h : GasOk s) (g : GrowMech) {A : ℝ} (hA : 0 ≤ A) : 0 ≤ growFlux g s A := by
  have := h.cVal_nonneg .C2H2
  have mw : 0 < gasMW .C := by norm_num [gasMW]
  cases g <;> simp only [growFlux] <;> positivity

theorem growFlux_zero (s : State) (g : GrowMech) : growFlux g s 0 = 0 := by cases g <;> simp [growFlux]

theorem binArea_cont (m : Model) {f : X → State} (hf : ContSect f z) : ContArr (fun y => binArea m (f y)) z := by
  intro k
  unfold binArea
  beta_reduce
  split_ifs
  · exact continuousAt_const.mul (hf.num k)
  · exact continuousAt_const

theorem numOf_cont {m : Model} (hs : m.psd = .SECT) {f : X → State} (hf : ContSect f z) :
    ContinuousAt (fun y => numOf m.ctx (f y)) z ∧ ContinuousAt (fun y => massOf m.ctx (f y)) z := by
  have hs : m.ctx.psd = .SECT := hs
  simp only [numOf, massOf, if_pos hs]
  exact ⟨tendsto_finsetSum _ fun k _ => hf.num k, tendsto_finsetSum _ fun k _ => (hf.num k).mul continuousAt_const⟩

/-- Growth of one section. -/
theorem sectGrow_cont {m : Model} (hg : m.grow.mech ≠ .HACA) {f : X → State} (hr : ∀ y, SectReady m (f y)) (hf : ContSect f z) {kG : X → ℝ}
    (hk : ∀ y, m.grow.rate m.ctx (f y) = ok (kG y)) : ContArr (fun y k => kG y * binArea m (f y) k) z := by
  intro k
  set A : X → ℝ := fun y => areaFn (numOf m.ctx (f y)) (massOf m.ctx (f y)) with hA
  have A0 : ∀ y, 0 ≤ A y := fun y => areaFn_nonneg (numOf_nonneg (hr y).gas.acc) (massOf_nonneg (hr y).gas.acc (hr y).sized)
  obtain ⟨c0, c1⟩ := numOf_cont (hr z).psd hf
  have cA : ContinuousAt A z := areaFn_cont c0 c1
  have cB := binArea_cont m hf k
  have cF := growFlux_cont hf.toContGas (fun y => (hr y).gas) m.grow.mech cA
  have e : ∀ y, kG y * binArea m (f y) k = growFlux m.grow.mech (f y) (A y) * (binArea m (f y) k / A y) := fun y => by
    have hk' := hk y
    rw [(hr y).wf.grow] at hk'
    have q := growFlux_eq hg (hr y).gas (hr y).sized hk'
    obtain ⟨b0, b1⟩ := binArea_le (hr y) k
    rcases (A0 y).eq_or_lt with h0 | h0
    · have : binArea m (f y) k = 0 := le_antisymm (b1.trans h0.symm.le) b0
      rw [this]; simp
    · rw [← q]
      have : A y ≠ 0 := h0.ne'
      show _ = kG y * A y * _
      field_simp
  simp only [e]
  rcases (A0 z).eq_or_lt with h0 | h0
  · have v0 : growFlux m.grow.mech (f z) (A z) * (binArea m (f z) k / A z) = 0 := by rw [← h0]; simp
    unfold ContinuousAt
    beta_reduce
    rw [v0]
    refine squeeze_zero (fun y => ?_) (fun y => ?_) (g := fun y => growFlux m.grow.mech (f y) (A y)) ?_
    · exact mul_nonneg (growFlux_nonneg (hr y).gas _ (A0 y)) (div_nonneg (binArea_le (hr y) k).1 (A0 y))
    · exact mul_le_of_le_one_right (growFlux_nonneg (hr y).gas _ (A0 y)) (div_le_one_of_le₀ (binArea_le (hr y) k).2 (A0 y))
    · have := cF.tendsto
      rwa [← h0, growFlux_zero] at this
  · exact cF.mul (cB.div cA h0.ne')

/-- **C104, SECT.** Without PAH nucleation and the HACA mechanisms, the sources of the section contents and of the gas species of SECT depend continuously on
the gas state and the section contents, at every state including those without soot.  PAH nucleation: `C104_sect_pah_continuous_partial`; HACA jumps (`C103_growth_jump`). -/
theorem C104_sect_continuous_partial (m : Model) (glob : Option ℝ) (hgl : GlobOk m glob) (f : X → State) (z : X) (hr : ∀ y, SectReady m (f y))
    (hn : m.nucl.mech ≠ .PAH) (hg : m.grow.mech ≠ .HACA) (ho : m.oxid.cls ≠ .HACA) (hf : ContIn f z)
    (hN : ∀ k, ContinuousAt (fun y => (f y).sootVar.getD k 0) z) :
    ∃ S : X → Model × State × Option ℝ, (∀ y, sectSources m glob (f y) = ok (S y)) ∧ (∀ k, ContinuousAt (fun y => (S y).1.sources.soot.getD k 0) z) ∧
      ∀ sp, ContinuousAt (fun y => (S y).1.sources.gas sp) z := by
  have hs : ContSect f z := ⟨hf, hN⟩
  obtain ⟨J, J1, J2⟩ := C103_nucleation_continuous m.nucl.mech hn (sectIbeta m) f z (fun y => (hr y).gas) hf.T hf.P hf.rho hf.cMin hf.frac
    (fun h => ⟨fun y => (hr y).tar h, hf.tar⟩) (fun h => ⟨fun y => (hr y).mtar h, hf.mtar⟩)
  obtain ⟨O, O1, O2⟩ := C103_oxidation_continuous_partial m.oxid.cls m.ctx f z (fun y => (hr y).gas) (fun y => (hr y).sized) hf.T hf.P hf.rho hf.cMin hf.frac ho
  rw [← (hr z).wf.nucl.new hn] at J1
  rw [← (hr z).wf.oxid] at O1
  have key : ∀ y, ∃ m' s' g' kG C, sectSources m glob (f y) = ok (m', s', g') ∧ m.grow.rate m.ctx (f y) = ok kG ∧ sectCoag m glob (f y) = ok (C, g') ∧
      (∀ sp, m'.sources.gas sp = gasPart m.nucl.ratio (J y * ((f y).cMin * gasMW .C / Na)) sp +
        gasPart m.grow.ratio (kG * ∑ k ∈ Finset.range m.nsoot, binArea m (f y) k) sp +
        gasPart m.oxid.ratio (-(O y * ∑ k ∈ Finset.range m.nsoot, binArea m (f y) k)) sp) ∧
      m'.sources.soot = (List.range m.nsoot).map fun k => (if k = 0 then J y * ((f y).cMin * gasMW .C / Na) / m.mBins.getD 0 0 else 0) +
        upVal m.nsoot m.mBins (fun k => kG * binArea m (f y) k) k + downVal m.nsoot m.mBins (fun k => O y * binArea m (f y) k) k + C k := fun y => by
    obtain ⟨m', s', g', J', n', kG, kO, C, a1, a2, -, -, a5, a6, a7, -, -, -, -, a12, a13⟩ := sect_eval (hr y) hgl
    rw [J1 y] at a2
    simp only [ok.injEq, Prod.mk.injEq] at a2
    obtain ⟨rfl, rfl, rfl⟩ := a2
    rw [O1 y] at a6
    simp only [ok.injEq] at a6
    subst a6
    refine ⟨m', _, g', kG, C, a1, a5, a7, fun sp => finish_gas a12 sp, ?_⟩
    rw [a13]
    simp only [if_neg hn, add_zero]
  choose m' s' g' kG C b1 b2 b3 b4 b5 using key
  have cG := sectGrow_cont hg hr hs b2
  have cO : ContArr (fun y k => O y * binArea m (f y) k) z := fun k => O2.mul (binArea_cont m hs k)
  have cN : ContinuousAt (fun y => J y * ((f y).cMin * gasMW .C / Na)) z := J2.mul ((hf.cMin.mul continuousAt_const).div_const _)
  refine ⟨fun y => (m' y, s' y, g' y), b1, fun k => ?_, fun sp => ?_⟩
  · simp only [b5]
    by_cases hk : k < m.nsoot
    · simp only [List.getD_eq_getElem?_getD, List.getElem?_map, List.getElem?_range hk, Option.map_some, Option.getD_some]
      refine (((?_ : ContinuousAt _ z).add (upVal_cont _ _ cG k)).add (downVal_cont _ _ cO k)).add (sectCoag_cont hgl hr hs b3 k)
      split_ifs
      · exact cN.div_const _
      · exact continuousAt_const
    · have : ∀ y, (((List.range m.nsoot).map fun k => (if k = 0 then J y * ((f y).cMin * gasMW .C / Na) / m.mBins.getD 0 0 else 0) +
        upVal m.nsoot m.mBins (fun k => kG y * binArea m (f y) k) k + downVal m.nsoot m.mBins (fun k => O y * binArea m (f y) k) k + C y k).getD k 0) = 0 := fun y =>
        List.getD_eq_default _ _ (by simpa using hk)
      simp only [this]
      exact continuousAt_const
  · simp only [b4]
    have sG : ContinuousAt (fun y => kG y * ∑ k ∈ Finset.range m.nsoot, binArea m (f y) k) z := by
      simp only [Finset.mul_sum]; exact tendsto_finsetSum _ fun k _ => cG k
    have sO : ContinuousAt (fun y => -(O y * ∑ k ∈ Finset.range m.nsoot, binArea m (f y) k)) z := by
      simp only [Finset.mul_sum]; exact (tendsto_finsetSum _ fun k _ => cO k : ContinuousAt _ z).neg
    exact ((gasPart_cont cN _ sp).add (gasPart_cont sG _ sp)).add (gasPart_cont sO _ sp)

end

/-! ## Example -/

/-- Leung–Lindstedt chemistry with 3 sections: the sources are continuous where the soot vanishes. -/
example : ∃ S : Set.Ici (0 : ℝ) → Model × State × Option ℝ,
    (∀ N : Set.Ici (0 : ℝ), sectSources (exModel .SECT 3 .LL .LL .LL .FUCHS) none (exSt [N.1, 0, N.1] false) = ok (S N)) ∧
    ContinuousAt (fun N => (S N).1.sources.soot.getD 1 0) ⟨0, le_refl (0 : ℝ)⟩ := by
  obtain ⟨S, h1, h2, -⟩ := C104_sect_continuous_partial (exModel .SECT 3 .LL .LL .LL .FUCHS) none (exGlobOk 3 .LL .LL .LL .FUCHS (by norm_num) (by norm_num))
    (fun N : Set.Ici (0 : ℝ) => exSt [N.1, 0, N.1] false) ⟨0, le_refl (0 : ℝ)⟩
    (fun N => exSectReady 3 .LL (by simp) (by simp) .LL .LL .FUCHS [N.1, 0, N.1] false rfl (by norm_num)
      (by have : (0 : ℝ) ≤ N.1 := N.2; simp [this])) (by simp [exModel, Nucl.new]) (by simp [exModel, Grow.new]) (by simp [exModel, Oxid.new])
    (by
      simp only [exSt_eq]
      constructor
      · constructor <;> intros <;> exact continuousAt_const
      all_goals exact continuousAt_const)
    (by
      have c : Continuous fun N : Set.Ici (0 : ℝ) => max N.1 0 := continuous_subtype_val.max continuous_const
      intro k
      simp only [exSt_eq, stateAfter, exArgs]
      match k with
      | 0 => exact c.continuousAt
      | 1 => exact continuousAt_const
      | 2 => exact c.continuousAt
      | n + 3 => exact continuousAt_const)
  exact ⟨S, h1, h2 1⟩

end Soot
