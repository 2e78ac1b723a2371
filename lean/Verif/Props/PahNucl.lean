import Verif.Props.PahCont

/-!
# C103 for PAH nucleation

The rate at which PAH dimers make particles depends continuously on the gas, also where the PAH vanish.  The size of those particles does not: it grows
beyond all bounds as the PAH become scarce, because the stored number of carbon atoms is divided by the collision rate
(nucleationModel_PAH.cc:52, 77-81).
-/

namespace Soot

open Res Real Filter Topology
open scoped Classical

section
variable {X : Type*} [TopologicalSpace X]

/-- At most a quarter of the colliding PAH molecules nucleates. -/
theorem pahJ_le {s : State} (h : s.Phys) {I : ℝ} (I0 : 0 ≤ I) :
    0 ≤ 0.5 * betaDD s (mDimerAfter s) * nDimerAfter s I * nDimerAfter s I ∧
    0.5 * betaDD s (mDimerAfter s) * nDimerAfter s I * nDimerAfter s I ≤ 0.25 * pahTot s := by
  by_cases p : 0 < pahTot s
  · rw [mDimerAfter, nDimerAfter, if_pos p, if_pos p]
    have b0 : 0 < betaDD s (dimerMass s) := mul_pos (pahPre_pos h) (rpow_pos_of_pos (dimerMass_pos h p) _)
    generalize betaDD s (dimerMass s) = b at *
    generalize pahTot s = t at *
    have q : 0 < I * I + 4 * b * (0.5 * t) := by
      have := mul_self_nonneg I; positivity
    have r0 := sqrt_pos.mpr q
    have rr := mul_self_sqrt q.le
    generalize sqrt (I * I + 4 * b * (0.5 * t)) = r at *
    have d : 0 < I + r := by linarith
    refine ⟨by positivity, ?_⟩
    have e : 0.5 * b * (t / (I + r)) * (t / (I + r)) = 0.5 * b * t * t / ((I + r) * (I + r)) := by field_simp
    rw [e, div_le_iff₀ (by positivity)]
    have k : 2 * b * t ≤ (I + r) * (I + r) := by nlinarith [mul_nonneg I0 r0.le, mul_self_nonneg I]
    nlinarith [mul_le_mul_of_nonneg_left k p.le]
  · have z0 : pahTot s = 0 := le_antisymm (not_lt.mp p) (pahTot_nonneg h)
    rw [nDimerAfter, if_neg p, z0]
    simp

theorem pahTot_zero {s : State} (h0 : ∀ y ∈ s.yPah, y = 0) : pahTot s = 0 :=
  Finset.sum_eq_zero fun sp _ => by
    have e : s.yPah.getD sp.toNat 0 = 0 := by
      by_cases hi : sp.toNat < s.yPah.length
      · rw [List.getD_eq_getElem _ _ hi]; exact h0 _ (List.getElem_mem hi)
      · rw [List.getD_eq_default _ _ (not_lt.1 hi)]
    rw [pahNdot, pahN, e]; ring

/-- **C103, PAH nucleation.** For every collision rate of dimers with soot that depends continuously on the state, the PAH nucleation rate does so too,
with PAH and without; without PAH it is zero. -/
theorem C103_pah_rate_continuous (n : Nucl) (hn : n.mech = .PAH) (ib : State → ℝ → Res ℝ) (f : X → State) (z : X) (I : X → ℝ) (hf : ∀ y, Accepted (f y))
    (hl : ∀ y, (f y).yPah.length = nPah) (hT : ContinuousAt (fun y => (f y).T) z) (hrho : ContinuousAt (fun y => (f y).rhoGas) z)
    (hc : ContinuousAt (fun y => (f y).cMin) z) (hy : ∀ sp : PahSp, ContinuousAt (fun y => (f y).yPah.getD sp.toNat 0) z)
    (hib : ∀ y, ib { f y with cMin := cMinAfter (f y) } (mDimerAfter (f y)) = ok (I y)) (I0 : ∀ y, 0 ≤ I y)
    (hI : (∃ y ∈ (f z).yPah, y ≠ 0) → ContinuousAt I z) :
    ∃ v : X → ℝ × Nucl × State, (∀ y, n.rate ib (f y) = ok (v y)) ∧ ContinuousAt (fun y => (v y).1) z ∧
      (∀ sp, ContinuousAt (fun y => (v y).2.1.pahRates sp) z) ∧ ((∀ y ∈ (f z).yPah, y = 0) → (v z).1 = 0) := by
  have hp : ∀ y, (f y).Phys := fun y => (hf y).phys
  have h : ContPah f z := ⟨hT, hrho, hc, hy⟩
  have b := fun y => pahJ_le (hp y) (I0 y)
  have zero : (∀ y ∈ (f z).yPah, y = 0) →
      0.5 * betaDD (f z) (mDimerAfter (f z)) * nDimerAfter (f z) (I z) * nDimerAfter (f z) (I z) = 0 := fun h0 =>
    le_antisymm (by have := (b z).2; rw [pahTot_zero h0] at this; simpa using this) (b z).1
  have e := fun y => (Nucl.rate_pah hn ib (f y)).trans (nuclPAH_ok (hp y) (hl y) n ib (I y) (I0 y) (hib y))
  refine ⟨_, e, ?_, fun sp => ?_, zero⟩
  · by_cases q : ∃ y ∈ (f z).yPah, y ≠ 0
    · have ht := pahTot_pos (hp z) (hl z) q
      have cn := nDimer_cont h (hp z) ht (hI q) (I0 z)
      exact ((continuousAt_const.mul (betaDD_cont h (mDimer_cont h ht))).mul cn).mul cn
    · push Not at q
      have c : Tendsto (fun y => 0.25 * pahTot (f y)) (𝓝 z) (𝓝 0) := by
        have := (pahTot_cont h).tendsto.const_mul 0.25
        rwa [pahTot_zero q, mul_zero] at this
      show Tendsto (fun y => 0.5 * betaDD (f y) (mDimerAfter (f y)) * nDimerAfter (f y) (I y) * nDimerAfter (f y) (I y)) _ (𝓝 (_ * _))
      rw [zero q]
      exact tendsto_of_tendsto_of_tendsto_of_le_of_le tendsto_const_nhds c (fun y => (b y).1) fun y => (b y).2
  · exact ((pahNdot_cont h sp).neg.mul continuousAt_const).div_const _

/-- **C103, what PAH nucleation leaves behind.** Where PAH is present the dimers, the carbon atoms per new particle and the hydrogen released depend
continuously on the state.  Missing for the full property: the point where the PAH vanish (`C103_pah_size_unbounded`). -/
theorem C103_pah_size_continuous_partial (n : Nucl) (hn : n.mech = .PAH) (ib : State → ℝ → Res ℝ) (f : X → State) (z : X) (I : X → ℝ)
    (hf : ∀ y, Accepted (f y)) (hl : ∀ y, (f y).yPah.length = nPah) (hT : ContinuousAt (fun y => (f y).T) z)
    (hrho : ContinuousAt (fun y => (f y).rhoGas) z) (hc : ContinuousAt (fun y => (f y).cMin) z)
    (hy : ∀ sp : PahSp, ContinuousAt (fun y => (f y).yPah.getD sp.toNat 0) z)
    (hib : ∀ y, ib { f y with cMin := cMinAfter (f y) } (mDimerAfter (f y)) = ok (I y)) (I0 : ∀ y, 0 ≤ I y) (hI : ContinuousAt I z)
    (hpah : ∃ y ∈ (f z).yPah, y ≠ 0) :
    ∃ v : X → ℝ × Nucl × State, (∀ y, n.rate ib (f y) = ok (v y)) ∧ ContinuousAt (fun y => (v y).2.1.dimer.nDimer) z ∧
      ContinuousAt (fun y => (v y).2.1.dimer.mDimer) z ∧ ContinuousAt (fun y => (v y).2.2.cMin) z ∧
      ContinuousAt (fun y => (v y).2.1.ratio .H2) z := by
  have hp : ∀ y, (f y).Phys := fun y => (hf y).phys
  have h : ContPah f z := ⟨hT, hrho, hc, hy⟩
  have ht := pahTot_pos (hp z) (hl z) hpah
  have e := fun y => (Nucl.rate_pah hn ib (f y)).trans (nuclPAH_ok (hp y) (hl y) n ib (I y) (I0 y) (hib y))
  refine ⟨_, e, nDimer_cont h (hp z) ht hI (I0 z),
    mDimer_cont h ht, cMinAfter_cont h ht, ?_⟩
  simp only [Function.update_self]
  exact h2Ratio_cont h (hp z) ht

/-- **C103, refutation by PAH.** As the PAH vanish, the number of carbon atoms of a new particle grows beyond all bounds, although without PAH it is the
number stored in the state. -/
theorem C103_pah_size_unbounded (n : Nucl) (hn : n.mech = .PAH) (ib : State → ℝ → Res ℝ) (f : X → State) (z : X) (I : X → ℝ)
    (hf : ∀ y, Accepted (f y)) (hl : ∀ y, (f y).yPah.length = nPah) (hT : ContinuousAt (fun y => (f y).T) z)
    (hrho : ContinuousAt (fun y => (f y).rhoGas) z) (hc : ContinuousAt (fun y => (f y).cMin) z)
    (hy : ∀ sp : PahSp, ContinuousAt (fun y => (f y).yPah.getD sp.toNat 0) z)
    (hib : ∀ y, ib { f y with cMin := cMinAfter (f y) } (mDimerAfter (f y)) = ok (I y)) (I0 : ∀ y, 0 ≤ I y)
    (h0 : ∀ y ∈ (f z).yPah, y = 0) :
    ∃ v : X → ℝ × Nucl × State, (∀ y, n.rate ib (f y) = ok (v y)) ∧ (v z).2.2.cMin = (f z).cMin ∧
      Tendsto (fun y => (v y).2.2.cMin) (𝓝[{y | ∃ p ∈ (f y).yPah, p ≠ 0}] z) atTop := by
  have hp : ∀ y, (f y).Phys := fun y => (hf y).phys
  have h : ContPah f z := ⟨hT, hrho, hc, hy⟩
  have tz := pahTot_zero h0
  have e := fun y => (Nucl.rate_pah hn ib (f y)).trans (nuclPAH_ok (hp y) (hl y) n ib (I y) (I0 y) (hib y))
  refine ⟨_, e, ?_, ?_⟩
  · show cMinAfter (f z) = _
    rw [cMinAfter, if_neg (by rw [tz]; exact lt_irrefl _)]
  · show Tendsto (fun y => cMinAfter (f y)) _ _
    have pos : ∀ᶠ y in 𝓝[{y | ∃ p ∈ (f y).yPah, p ≠ 0}] z, 0 < pahTot (f y) := by
      filter_upwards [self_mem_nhdsWithin] with y hy
      exact pahTot_pos (hp y) (hl y) hy
    have ct : Tendsto (fun y => pahTot (f y)) (𝓝[{y | ∃ p ∈ (f y).yPah, p ≠ 0}] z) (𝓝[>] 0) := by
      refine tendsto_nhdsWithin_iff.mpr ⟨?_, pos⟩
      have := (pahTot_cont h).tendsto
      rw [tz] at this
      exact this.mono_left nhdsWithin_le_nhds
    have cc : Tendsto (fun y => (f y).cMin) (𝓝[{y | ∃ p ∈ (f y).yPah, p ≠ 0}] z) (𝓝 (f z).cMin) := hc.tendsto.mono_left nhdsWithin_le_nhds
    refine tendsto_atTop_mono' _ ?_ (cc.pos_mul_atTop (hp z).cMin (tendsto_inv_nhdsGT_zero.comp ct))
    filter_upwards [pos] with y hy
    rw [cMinAfter, if_pos hy, div_eq_mul_inv]
    have s0 : 0 ≤ ∑ sp, pahNdot (f y) sp * 2 * pahNC sp := Finset.sum_nonneg fun q _ => by
      have := pahNdot_nonneg (hp y) q; positivity
    exact mul_le_mul_of_nonneg_right (by linarith) (inv_nonneg.mpr hy.le)

/-- No PAH of the table has more than a thousand carbon atoms, so neither has the mean one. -/
theorem dimerMass_le {s : State} (h : s.Phys) (ht : 0 < pahTot s) : dimerMass s ≤ 1000 * gasMW .C / Na := by
  rw [dimerMass, div_le_iff₀ ht, pahTot, Finset.mul_sum]
  refine Finset.sum_le_sum fun sp _ => ?_
  have n0 := pahNdot_nonneg h sp
  have c : pahNC sp * gasMW .C / Na ≤ 1000 * gasMW .C / Na := by cases sp <;> norm_num [pahNC, gasMW, Na]
  have e : pahNdot s sp * pahNC sp * gasMW .C / Na = pahNC sp * gasMW .C / Na * pahNdot s sp := by ring
  rw [e]
  exact mul_le_mul_of_nonneg_right c n0

/-- Carbon atoms that go into new particles per time. -/
theorem pahCarbon_lim {f : X → State} {z : X} {I : X → ℝ} (hp : ∀ y, (f y).Phys) (hl : ∀ y, (f y).yPah.length = nPah) (h : ContPah f z) (I0 : ∀ y, 0 ≤ I y)
    (tz : pahTot (f z) = 0) {δ : ℝ} (hδ : 0 < δ) (hI : ∀ᶠ y in 𝓝 z, (∃ p ∈ (f y).yPah, p ≠ 0) → δ ≤ I y) :
    Tendsto (fun y => 0.5 * betaDD (f y) (mDimerAfter (f y)) * nDimerAfter (f y) (I y) * nDimerAfter (f y) (I y) * cMinAfter (f y)) (𝓝 z) (𝓝 0) := by
  set K : ℝ := 1000 * gasMW .C / Na with hK
  have lim : Tendsto (fun y => 0.5 * (pahPre (f y) * K ^ ((1 : ℝ) / 6)) * pahTot (f y) * ((f y).cMin + ∑ sp, pahNdot (f y) sp * 2 * pahNC sp) / (δ * δ))
      (𝓝 z) (𝓝 0) := by
    have c := (((((pahPre_cont h).mul (continuousAt_const (y := K ^ ((1 : ℝ) / 6)))).const_mul 0.5).mul (pahTot_cont h)).mul
      (h.cMin.add (carbonSum_cont h))).div_const (δ * δ)
    have e0 : 0.5 * (pahPre (f z) * K ^ ((1 : ℝ) / 6)) * pahTot (f z) * ((f z).cMin + ∑ sp, pahNdot (f z) sp * 2 * pahNC sp) / (δ * δ) = 0 := by
      rw [tz]; ring
    rw [← e0]
    exact c
  refine tendsto_of_tendsto_of_tendsto_of_le_of_le' tendsto_const_nhds lim
    (.of_forall fun y => mul_nonneg (pahJ_le (hp y) (I0 y)).1 (cMinAfter_pos (hp y)).le) ?_
  filter_upwards [hI] with y hy
  have pp := pahPre_pos (hp y)
  have cm := (hp y).cMin
  have s0 : 0 ≤ ∑ sp, pahNdot (f y) sp * 2 * pahNC sp := Finset.sum_nonneg fun q _ => by
    have := pahNdot_nonneg (hp y) q; positivity
  have K0 : 0 < K := by rw [hK]; norm_num [gasMW, Na]
  by_cases q : ∃ p ∈ (f y).yPah, p ≠ 0
  · have ht := pahTot_pos (hp y) (hl y) q
    have hm := dimerMass_pos (hp y) ht
    have b0 : 0 < betaDD (f y) (dimerMass (f y)) := mul_pos pp (rpow_pos_of_pos hm _)
    have b1 : betaDD (f y) (dimerMass (f y)) ≤ pahPre (f y) * K ^ ((1 : ℝ) / 6) :=
      mul_le_mul_of_nonneg_left (rpow_le_rpow hm.le (dimerMass_le (hp y) ht) (by norm_num)) pp.le
    rw [mDimerAfter, nDimerAfter, cMinAfter, if_pos ht, if_pos ht, if_pos ht]
    have d1 := hy q
    have c0 : 0 < (f y).cMin + ∑ sp, pahNdot (f y) sp * 2 * pahNC sp := by linarith
    have d2 : δ ≤ I y + sqrt (I y * I y + 4 * betaDD (f y) (dimerMass (f y)) * (0.5 * pahTot (f y))) := by
      have := sqrt_nonneg (I y * I y + 4 * betaDD (f y) (dimerMass (f y)) * (0.5 * pahTot (f y))); linarith
    generalize I y + sqrt (I y * I y + 4 * betaDD (f y) (dimerMass (f y)) * (0.5 * pahTot (f y))) = d at *
    generalize betaDD (f y) (dimerMass (f y)) = b at *
    generalize pahPre (f y) * K ^ ((1 : ℝ) / 6) = B at *
    generalize (f y).cMin + ∑ sp, pahNdot (f y) sp * 2 * pahNC sp = c at *
    generalize pahTot (f y) = t at *
    have d0 : 0 < d := hδ.trans_le d2
    have e : 0.5 * b * (t / d) * (t / d) * (c / t) = 0.5 * b * t * c / (d * d) := by field_simp
    rw [e]
    exact div_le_div₀ (by have := b0.trans_le b1; positivity)
      (mul_le_mul_of_nonneg_right (mul_le_mul_of_nonneg_right (by linarith) ht.le) c0.le) (by positivity) (mul_le_mul d2 d2 hδ.le d0.le)
  · push Not at q
    rw [nDimerAfter, if_neg (by rw [pahTot_zero q]; exact lt_irrefl _), pahTot_zero q]
    simp

/-- **C103, carbon in PAH nuclei among soot.** If near the state each dimer meets soot at a rate bounded away from zero, the carbon atoms that go into new
particles per time vanish continuously with the PAH, although each particle gets more of them (`C103_pah_size_unbounded`).  Without soot they do not
(`C104_pah_jump`). -/
theorem C103_pah_mass_vanishes (n : Nucl) (hn : n.mech = .PAH) (ib : State → ℝ → Res ℝ) (f : X → State) (z : X) (I : X → ℝ)
    (hf : ∀ y, Accepted (f y)) (hl : ∀ y, (f y).yPah.length = nPah) (hT : ContinuousAt (fun y => (f y).T) z)
    (hrho : ContinuousAt (fun y => (f y).rhoGas) z) (hc : ContinuousAt (fun y => (f y).cMin) z)
    (hy : ∀ sp : PahSp, ContinuousAt (fun y => (f y).yPah.getD sp.toNat 0) z)
    (hib : ∀ y, ib { f y with cMin := cMinAfter (f y) } (mDimerAfter (f y)) = ok (I y)) (I0 : ∀ y, 0 ≤ I y)
    (h0 : ∀ y ∈ (f z).yPah, y = 0) (δ : ℝ) (hδ : 0 < δ) (hI : ∀ᶠ y in 𝓝 z, (∃ p ∈ (f y).yPah, p ≠ 0) → δ ≤ I y) :
    ∃ v : X → ℝ × Nucl × State, (∀ y, n.rate ib (f y) = ok (v y)) ∧ (v z).1 * (v z).2.2.cMin = 0 ∧
      ContinuousAt (fun y => (v y).1 * (v y).2.2.cMin) z := by
  have hp : ∀ y, (f y).Phys := fun y => (hf y).phys
  have h : ContPah f z := ⟨hT, hrho, hc, hy⟩
  have tz := pahTot_zero h0
  have nz : nDimerAfter (f z) (I z) = 0 := by rw [nDimerAfter, if_neg (by rw [tz]; exact lt_irrefl _)]
  have vz : 0.5 * betaDD (f z) (mDimerAfter (f z)) * nDimerAfter (f z) (I z) * nDimerAfter (f z) (I z) * cMinAfter (f z) = 0 := by rw [nz]; ring
  have e := fun y => (Nucl.rate_pah hn ib (f y)).trans (nuclPAH_ok (hp y) (hl y) n ib (I y) (I0 y) (hib y))
  refine ⟨_, e, vz, ?_⟩
  show Tendsto (fun y => 0.5 * betaDD (f y) (mDimerAfter (f y)) * nDimerAfter (f y) (I y) * nDimerAfter (f y) (I y) * cMinAfter (f y)) (𝓝 z)
    (𝓝 (0.5 * betaDD (f z) (mDimerAfter (f z)) * nDimerAfter (f z) (I z) * nDimerAfter (f z) (I z) * cMinAfter (f z)))
  rw [vz]
  exact pahCarbon_lim hp hl h I0 tz hδ hI

end

/-! ## A gas with traces of naphthalene -/

theorem stP_cont (z : Set.Icc (0 : ℝ) 1) (sp : PahSp) : ContinuousAt (fun p => (stP p).yPah.getD sp.toNat 0) z := by
  cases sp
  · exact continuous_subtype_val.continuousAt
  all_goals exact continuousAt_const

/-- With any amount of naphthalene, also none, the rate is continuous. -/
example (z : Set.Icc (0 : ℝ) 1) : ∃ v : Set.Icc (0 : ℝ) 1 → ℝ × Nucl × State,
    (∀ p, (Nucl.new .PAH).rate (fun _ _ => ok 7) (stP p) = ok (v p)) ∧ ContinuousAt (fun p => (v p).1) z := by
  obtain ⟨v, h1, h2, -⟩ := C103_pah_rate_continuous (Nucl.new .PAH) rfl (fun _ _ => ok 7) stP z (fun _ => 7) (fun p => (stP_ready p).gas.acc) (fun _ => rfl)
    continuousAt_const continuousAt_const continuousAt_const (stP_cont z) (fun _ => rfl) (fun _ => by norm_num) fun _ => continuousAt_const
  exact ⟨v, h1, h2⟩

example : ∃ v : Set.Icc (0 : ℝ) 1 → ℝ × Nucl × State, (∀ p, (Nucl.new .PAH).rate (fun _ _ => ok 7) (stP p) = ok (v p)) ∧
    ContinuousAt (fun p => (v p).2.2.cMin) ⟨1, by simp⟩ := by
  obtain ⟨v, h1, -, -, h2, -⟩ := C103_pah_size_continuous_partial (Nucl.new .PAH) rfl (fun _ _ => ok 7) stP ⟨1, by simp⟩ (fun _ => 7)
    (fun p => (stP_ready p).gas.acc) (fun _ => rfl) continuousAt_const continuousAt_const continuousAt_const (stP_cont _) (fun _ => rfl)
    (fun _ => by norm_num) continuousAt_const (by simp [stP, stateAfter])
  exact ⟨v, h1, h2⟩

example : ∃ v : Set.Icc (0 : ℝ) 1 → ℝ × Nucl × State, (∀ p, (Nucl.new .PAH).rate (fun _ _ => ok 7) (stP p) = ok (v p)) ∧
    ContinuousAt (fun p => (v p).1 * (v p).2.2.cMin) ⟨0, by simp⟩ := by
  obtain ⟨v, h1, -, h2⟩ := C103_pah_mass_vanishes (Nucl.new .PAH) rfl (fun _ _ => ok 7) stP ⟨0, by simp⟩ (fun _ => 7)
    (fun p => (stP_ready p).gas.acc) (fun _ => rfl) continuousAt_const continuousAt_const continuousAt_const (stP_cont _) (fun _ => rfl)
    (fun _ => by norm_num) (by simp [stP, stateAfter]) 7 (by norm_num) (.of_forall fun _ _ => le_refl _)
  exact ⟨v, h1, h2⟩

/-- Some trace of naphthalene makes particles of more than any given number of carbon atoms. -/
example (N : ℝ) : ∃ (p : Set.Icc (0 : ℝ) 1) (J : ℝ) (n : Nucl) (s : State),
    (Nucl.new .PAH).rate (fun _ _ => ok 7) (stP p) = ok (J, n, s) ∧ N < s.cMin := by
  obtain ⟨v, h1, -, h2⟩ := C103_pah_size_unbounded (Nucl.new .PAH) rfl (fun _ _ => ok 7) stP ⟨0, by simp⟩ (fun _ => 7) (fun p => (stP_ready p).gas.acc)
    (fun _ => rfl) continuousAt_const continuousAt_const continuousAt_const (stP_cont _) (fun _ => rfl) (fun _ => by norm_num)
    (by simp [stP, stateAfter])
  have ne : (𝓝[{p | ∃ q ∈ (stP p).yPah, q ≠ 0}] (⟨0, by simp⟩ : Set.Icc (0 : ℝ) 1)).NeBot := by
    rw [← mem_closure_iff_nhdsWithin_neBot, Metric.mem_closure_iff]
    intro ε hε
    have m0 : 0 < min (ε / 2) 1 := by positivity
    refine ⟨⟨min (ε / 2) 1, m0.le, min_le_right _ _⟩, ⟨min (ε / 2) 1, by simp [stP, stateAfter], m0.ne'⟩, ?_⟩
    rw [Subtype.dist_eq, Real.dist_eq, zero_sub, abs_neg, abs_of_pos m0]
    exact (min_le_left _ _).trans_lt (by linarith)
  obtain ⟨p, hp⟩ := (h2.eventually (eventually_gt_atTop N)).exists
  exact ⟨p, (v p).1, (v p).2.1, (v p).2.2, h1 p, hp⟩

end Soot
