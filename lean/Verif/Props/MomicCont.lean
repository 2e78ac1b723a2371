import Verif.Props.LognCont
import Verif.Props.MomicModel

/-!
# C104 (MOMIC): continuous where the moments are positive

The sources of `sootModel_MOMIC::setSourceTerms` (sootModel_MOMIC.cc) are continuous in the gas state and the moments where all moments are positive: the
fractional moments are powers of ten of a polynomial in the logarithms of the moments, the grid functions are products of powers of positive sums.
-/

namespace Soot

open Res Real Filter Topology Cont
open scoped Classical

section
variable {X : Type*} [TopologicalSpace X] {z : X}

theorem fwdDiff_cont {L : X → ℕ → ℝ} (h : ∀ k, ContinuousAt (fun y => L y k) z) (k n : ℕ) : ContinuousAt (fun y => (fwdDiff 1)^[k] (L y) n) z := by
  induction k generalizing L with
  | zero => exact h n
  | succ k ih =>
    simp only [Function.iterate_succ_apply]
    exact ih fun i => (h (i + 1)).sub (h i)

/-- Fractional moments depend continuously on positive moments. -/
theorem mrVal_cont {M : X → List ℝ} {N : ℕ} (h3 : 3 ≤ N) (hM : ∀ k, ContinuousAt (fun y => (M y).getD k 0) z) (hA : ∀ k < N, 0 < (M z).getD k 0) (r : ℝ) :
    ContinuousAt (fun y => mrVal (M y) N r) z := by
  have hu : used N r ≤ N := by unfold used; split_ifs <;> omega
  have ev : ∀ᶠ y in 𝓝 z, ∀ k < used N r, 0 < (M y).getD k 0 := by
    have : ∀ k ∈ Finset.range (used N r), ∀ᶠ y in 𝓝 z, 0 < (M y).getD k 0 := fun k hk =>
      (hM k).eventually (lt_mem_nhds (hA k (lt_of_lt_of_le (Finset.mem_range.1 hk) hu)))
    filter_upwards [(Filter.eventually_all_finset _).2 this] with y hy k hk
    exact hy k (Finset.mem_range.2 hk)
  -- the logarithms, continued by 0 beyond the moments
  set L : X → ℕ → ℝ := fun y k => if k < N then logM (M y) k else 0 with hL
  have cL : ∀ k, ContinuousAt (fun y => L y k) z := fun k => by
    simp only [hL]
    split_ifs with hk
    · exact ((hM k).log (hA k hk).ne').div_const _
    · exact continuousAt_const
  have eL : ∀ y k i, k + i < N → (fwdDiff 1)^[k] (logM (M y)) i = (fwdDiff 1)^[k] (L y) i := by
    have gen : ∀ k, ∀ (A B : ℕ → ℝ) (n : ℕ), (∀ j < n, A j = B j) → ∀ i, k + i < n → (fwdDiff 1)^[k] A i = (fwdDiff 1)^[k] B i := by
      intro k
      induction k with
      | zero => intro A B n h i hi; exact h i (by omega)
      | succ k ih =>
        intro A B n h i hi
        simp only [Function.iterate_succ_apply]
        refine ih _ _ (n - 1) (fun j hj => ?_) i (by omega)
        simp only [fwdDiff, h j (by omega), h (j + 1) (by omega)]
    intro y k i hi
    exact gen k _ _ N (fun j hj => by simp [hL, hj]) i hi
  have c : ContinuousAt (fun y => (10 : ℝ) ^ ∑ k ∈ Finset.range (used N r), rchoose r k * (fwdDiff 1)^[k] (L y) 0) z :=
    ContinuousAt.rpow continuousAt_const (tendsto_finsetSum _ fun k _ => continuousAt_const.mul (fwdDiff_cont cL k 0)) (.inl (by norm_num))
  refine c.congr ?_
  filter_upwards [ev] with y hy
  rw [mrVal, if_pos hy, newton]
  congr 1
  refine Finset.sum_congr rfl fun k hk => ?_
  rw [eL y k 0 (by have := Finset.mem_range.1 hk; omega)]

theorem bilV_cont {q : X → ℕ → ℝ} (h : ∀ i, ContinuousAt (fun y => q y i) z) (a b : ℕ) (ts : List (ℝ × ℕ × ℕ)) : ContinuousAt (fun y => bilV (q y) a b ts) z := by
  induction ts with
  | nil => simpa [bilV] using continuousAt_const
  | cons t ts ih =>
    simp only [bilV, List.map_cons, List.sum_cons] at ih ⊢
    exact ((continuousAt_const.mul (h _)).mul (h _)).add ih

theorem gridV_cont (y : ℕ) {v : X → Fin 4 → ℝ} (h : ∀ l, ContinuousAt (fun x => v x l) z) (p : ∀ l, 0 < v z l) : ContinuousAt (fun x => gridV y (v x)) z := by
  have e : ∀ (l : Fin 4) (a : ℝ), ContinuousAt (fun x => v x l ^ a) z := fun l a => (h l).rpow_const (.inl (p l).ne')
  unfold gridV
  split_ifs
  · exact (((e _ _).mul (e _ _)).mul (e _ _)).mul (e _ _)
  · exact ((e _ _).mul (e _ _)).mul (e _ _)
  · exact (e _ _).mul (e _ _)

theorem fV_cont {q : X → ℕ → ℝ} (h : ∀ i, ContinuousAt (fun y => q y i) z) (p : ∀ i, 0 < q z i) (a b : ℕ) : ContinuousAt (fun y => fV (q y) a b) z :=
  gridV_cont b (fun _ => bilV_cont h _ _ _) (fPtV_pos p a b)

theorem pairV_cont {p : X → ℕ → ℝ} {K : X → ℝ} (h : ∀ i, ContinuousAt (fun y => p y i) z) (hK : ContinuousAt K z) (k q : ℕ) :
    ContinuousAt (fun y => pairV (p y) (K y) k q) z :=
  ((((h _).mul (h _)).add ((continuousAt_const.mul (h _)).mul (h _))).add ((h _).mul (h _))).add
    (hK.mul (((((h _).mul (h _)).add ((h _).mul (h _))).add ((h _).mul (h _))).add ((h _).mul (h _))))

theorem fmCoagV_cont {K : X → ℝ} {q : X → ℕ → ℝ} (hK : ContinuousAt K z) (h : ∀ i, ContinuousAt (fun y => q y i) z) (p : ∀ i, 0 < q z i) (r : ℕ) :
    ContinuousAt (fun y => fmCoagV (K y) (q y) r) z := by
  unfold fmCoagV
  split_ifs
  · exact ((hK.div_const _).mul (fV_cont h p _ _)).neg
  · exact (hK.div_const _).mul (tendsto_finsetSum _ fun k _ => continuousAt_const.mul (fV_cont h p _ _))

theorem cCoagV_cont {Kc Kcp : X → ℝ} {p : X → ℕ → ℝ} (hc : ContinuousAt Kc z) (hk : ContinuousAt Kcp z) (h : ∀ i, ContinuousAt (fun y => p y i) z) (r : ℕ) :
    ContinuousAt (fun y => cCoagV (Kc y) (Kcp y) (p y) r) z := by
  unfold cCoagV
  split_ifs
  · exact ((hc.div_const _).mul (pairV_cont h hk _ _)).neg
  · exact continuousAt_const
  · exact (hc.div_const _).mul (continuousAt_const.mul (pairV_cont h hk _ _))

theorem momicCoagV_cont {c : Coag} (hc : 0 < c.fmMult) {f : X → State} (hp : ∀ y, (f y).Phys) (hs : ContSt f z) {M : X → List ℝ} {N : ℕ} (h3 : 3 ≤ N)
    (hM : ∀ k, ContinuousAt (fun y => (M y).getD k 0) z) (hA : ∀ k < N, 0 < (M z).getD k 0) (r : ℕ) :
    ContinuousAt (fun y => momicCoagV c (f y) (M y) N r) z := by
  have cq : ∀ i, ContinuousAt (fun y => qv (M y) N i) z := fun i => mrVal_cont h3 hM hA _
  have cp : ∀ i, ContinuousAt (fun y => pv (M y) N i) z := fun i => mrVal_cont h3 hM hA _
  have pos : ∀ s, 0 < mrVal (M z) N s := fun s => mrVal_pos fun k hk => hA k (by unfold used at hk; split_ifs at hk <;> omega)
  have c1 := fmCoagV_cont (kfm_cont c hs) cq (fun i => pos _) r
  have c2 := cCoagV_cont (kc_cont hp hs) (kcp_cont hp hs) cp r
  unfold momicCoagV
  split_ifs with h1
  · exact continuousAt_const
  have kf := Coag.kfmVal_pos (hp z) hc
  have kk := kcVal_pos (hp z)
  have kp := kcpVal_pos (hp z)
  have hne : fmCoagV (c.kfmVal (f z)) (qv (M z) N) r + cCoagV (kcVal (f z)) (kcpVal (f z)) (pv (M z) N) r ≠ 0 := by
    rcases Nat.eq_zero_or_pos r with rfl | hr0
    · have a1 := fV_pos (q := qv (M z) N) (fun i => pos _) 0 0
      have a2 := pairV_pos (p := pv (M z) N) (fun i => pos _) kp.le 0 0
      rw [fmCoagV, if_pos rfl, cCoagV, if_pos rfl]
      have : 0 < c.kfmVal (f z) / 2 * fV (qv (M z) N) 0 0 + kcVal (f z) / 2 * pairV (pv (M z) N) (kcpVal (f z)) 0 0 := by positivity
      linarith
    · have a1 := fmCoagV_pos (q := qv (M z) N) (fun i => pos _) kf (r := r) (by omega)
      have a2 := cCoagV_pos (p := pv (M z) N) (fun i => pos _) kk kp.le (r := r) (by omega)
      linarith
  have c3 : ContinuousAt (fun y => hmean (fmCoagV (c.kfmVal (f y)) (qv (M y) N) r) (cCoagV (kcVal (f y)) (kcpVal (f y)) (pv (M y) N) r)) z :=
    (c1.mul c2).div (c1.add c2) hne
  rcases c.mech
  · exact continuousAt_const
  · exact c1
  · exact c2
  · exact c3
  · exact c3

/-- **C104, MOMIC.** Without PAH nucleation and the HACA mechanisms, the soot and gas sources of MOMIC depend continuously on the gas state and the moments
where all moments are positive.  Missing: vanishing moments, HACA (`C103_growth_jump`), PAH nucleation (`C104_momic_pah_continuous_partial`). -/
theorem C104_momic_continuous_partial (m : Model) (f : X → State) (z : X) (hr : ∀ y, MomicReady m (f y)) (hfin : ∀ y, MomicFin m (f y))
    (hn : m.nucl.mech ≠ .PAH) (hg : m.grow.mech ≠ .HACA) (ho : m.oxid.cls ≠ .HACA) (hf : ContIn f z)
    (hM : ∀ k, ContinuousAt (fun y => (f y).sootVar.getD k 0) z) (hA : ∀ x ∈ (f z).sootVar, 0 < x) :
    ∃ S : X → Model × State, (∀ y, momicSources m (f y) = ok (S y)) ∧ (∀ k, ContinuousAt (fun y => (S y).1.sources.soot.getD k 0) z) ∧
      ∀ sp, ContinuousAt (fun y => (S y).1.sources.gas sp) z := by
  have hp : ∀ y, (f y).Phys := fun y => (hr y).gas.acc.phys
  have st : ContSt f z := ⟨hf.T, hf.P, hf.rho, hf.mu⟩
  have h3 := (hr z).three
  have hA' : ∀ k < m.nsoot, 0 < (f z).sootVar.getD k 0 := fun k hk => by
    have hk' : k < (f z).sootVar.length := by rw [(hr z).len]; exact hk
    rw [List.getD_eq_getElem _ _ hk']; exact hA _ (List.getElem_mem hk')
  obtain ⟨J, J1, J2⟩ := C103_nucleation_continuous m.nucl.mech hn (fun _ _ => ok 0) f z (fun y => (hr y).gas) hf.T hf.P hf.rho hf.cMin hf.frac
    (fun h => ⟨fun y => (hr y).tar h, hf.tar⟩) (fun h => ⟨fun y => (hr y).mtar h, hf.mtar⟩)
  obtain ⟨O, O1, O2⟩ := C103_oxidation_continuous_partial m.oxid.cls m.ctx f z (fun y => (hr y).gas) (fun y => (hr y).sized) hf.T hf.P hf.rho hf.cMin hf.frac ho
  rw [← (hr z).wf.nucl.new hn] at J1
  rw [← (hr z).wf.oxid] at O1
  have key : ∀ y, ∃ m' s' kG, momicSources m (f y) = ok (m', s') ∧ m.grow.rate m.ctx (f y) = ok kG ∧
      (∀ sp, m'.sources.gas sp = gasPart m.nucl.ratio (J y * ((f y).cMin * gasMW .C / Na)) sp +
        gasPart m.grow.ratio (kG * (acoef * mrVal (f y).sootVar m.nsoot twothird)) sp +
        gasPart m.oxid.ratio (-(O y * (acoef * mrVal (f y).sootVar m.nsoot twothird))) sp) ∧
      m'.sources.soot = (List.range m.nsoot).map fun r : ℕ => J y * ((f y).cMin * gasMW .C / Na) ^ r +
        (kG - O y) * (acoef * r * mrVal (f y).sootVar m.nsoot (r - onethird)) +
        (if 0 < (f y).sootVar.getD 0 0 then momicCoagV m.coag (f y) (f y).sootVar m.nsoot r else 0) := fun y => by
    obtain ⟨P, Q, m', s', J', n', kG, kO, -, a1, a2, -, -, a5, a6, -, -, -, -, -, -, -, a13, a14⟩ := momic_eval (hr y) (hfin y)
    have hib : m.nucl.rate (momicIbeta m P Q) (f y) = ok (J y, m.nucl, f y) := by
      rw [← J1 y]
      unfold Nucl.rate
      rcases hm : m.nucl.mech <;> simp_all
    rw [hib] at a2
    simp only [ok.injEq, Prod.mk.injEq] at a2
    obtain ⟨rfl, rfl, rfl⟩ := a2
    rw [O1 y] at a6
    simp only [ok.injEq] at a6
    subst a6
    refine ⟨m', _, kG, a1, a5, fun sp => finish_gas a13 sp, ?_⟩
    rw [a14]
    refine List.map_congr_left fun r _ => ?_
    simp only [momicSoot, if_neg hn, add_zero]
  choose m' s' kG b1 b2 b3 b4 using key
  have cM := mrVal_cont h3 hM hA'
  have cN : ContinuousAt (fun y => (f y).cMin * gasMW .C / Na) z := (hf.cMin.mul continuousAt_const).div_const _
  -- the growth rate itself
  have cK : ContinuousAt kG z := by
    have hns : m.ctx.psd ≠ .SECT := by show m.psd ≠ _; rw [(hr z).psd]; decide
    have n1 : ∀ y, numOf m.ctx (f y) = (f y).sootVar.getD 0 0 := fun y => by simp only [numOf, hns, if_false]
    have n2 : ∀ y, massOf m.ctx (f y) = (f y).sootVar.getD 1 0 := fun y => by simp only [massOf, hns, if_false]
    have q : ∀ y, kG y * areaFn ((f y).sootVar.getD 0 0) ((f y).sootVar.getD 1 0) =
        growFlux m.grow.mech (f y) (areaFn ((f y).sootVar.getD 0 0) ((f y).sootVar.getD 1 0)) := fun y => by
      have hk := b2 y
      rw [(hr y).wf.grow] at hk
      have := growFlux_eq hg (hr y).gas (hr y).sized hk
      rwa [n1, n2] at this
    have a0 : 0 < areaFn ((f z).sootVar.getD 0 0) ((f z).sootVar.getD 1 0) := by
      have := rhoSoot_pos; have := hA' 0 (by omega); have := hA' 1 (by omega); unfold areaFn; positivity
    have cF := areaFn_cont (hM 0) (hM 1)
    refine ((growFlux_cont hf.toContGas (fun y => (hr y).gas) m.grow.mech cF).div cF a0.ne').congr ?_
    filter_upwards [cF.eventually (lt_mem_nhds a0)] with y hy
    show growFlux m.grow.mech (f y) (areaFn ((f y).sootVar.getD 0 0) ((f y).sootVar.getD 1 0)) / areaFn ((f y).sootVar.getD 0 0) ((f y).sootVar.getD 1 0) = kG y
    rw [← q, mul_div_assoc, div_self (show areaFn ((f y).sootVar.getD 0 0) ((f y).sootVar.getD 1 0) ≠ 0 from
      (show 0 < areaFn ((f y).sootVar.getD 0 0) ((f y).sootVar.getD 1 0) from hy).ne'), mul_one]
  have cC : ∀ r : ℕ, ContinuousAt (fun y => if 0 < (f y).sootVar.getD 0 0 then momicCoagV m.coag (f y) (f y).sootVar m.nsoot r else 0) z := fun r => by
    refine (momicCoagV_cont (c := m.coag) (hr z).fm hp st h3 hM hA' r).congr ?_
    filter_upwards [(hM 0).eventually (lt_mem_nhds (hA' 0 (by omega)))] with y hy
    rw [if_pos hy]
  refine ⟨fun y => (m' y, s' y), b1, fun k => ?_, fun sp => ?_⟩
  · simp only [b4]
    by_cases hk : k < m.nsoot
    · simp only [List.getD_eq_getElem?_getD, List.getElem?_map, List.getElem?_range hk, Option.map_some, Option.getD_some]
      exact ((J2.mul (cN.pow k)).add ((cK.sub O2).mul (continuousAt_const.mul (cM _)))).add (by simpa only [List.getD_eq_getElem?_getD] using cC k)
    · have : ∀ y, (((List.range m.nsoot).map fun r : ℕ => J y * ((f y).cMin * gasMW .C / Na) ^ r +
        (kG y - O y) * (acoef * r * mrVal (f y).sootVar m.nsoot (r - onethird)) +
        (if 0 < (f y).sootVar.getD 0 0 then momicCoagV m.coag (f y) (f y).sootVar m.nsoot r else 0)).getD k 0) = 0 := fun y =>
        List.getD_eq_default _ _ (by simpa using hk)
      simp only [this]
      exact continuousAt_const
  · simp only [b3]
    have sG : ContinuousAt (fun y => kG y * (acoef * mrVal (f y).sootVar m.nsoot twothird)) z := cK.mul (continuousAt_const.mul (cM _))
    have sO : ContinuousAt (fun y => -(O y * (acoef * mrVal (f y).sootVar m.nsoot twothird))) z := (O2.mul (continuousAt_const.mul (cM _))).neg
    exact ((gasPart_cont (J2.mul cN) _ sp).add (gasPart_cont sG _ sp)).add (gasPart_cont sO _ sp)

end

/-! ## Example -/

/-- Four moments of `N` particles per volume with the proportions of a broad distribution. -/
example : ∃ S : Set.Ioi (0 : ℝ) → Model × State,
    (∀ N : Set.Ioi (0 : ℝ), momicSources (exModel .MOMIC 4 .LL .LL .LL .HM) (exSt [N.1, N.1, N.1 * 2, N.1 * 8] false) = ok (S N)) ∧
    ContinuousAt (fun N => (S N).1.sources.soot.getD 2 0) ⟨1, zero_lt_one (α := ℝ)⟩ := by
  have pos : ∀ N : Set.Ioi (0 : ℝ), ∀ x ∈ [N.1, N.1, N.1 * 2, N.1 * 8], 0 < x := fun N x hx => by
    have : (0 : ℝ) < N.1 := N.2
    simp only [List.mem_cons, List.not_mem_nil, or_false] at hx
    rcases hx with h | h | h | h <;> subst h <;> positivity
  have sv : ∀ N : Set.Ioi (0 : ℝ), (exSt [N.1, N.1, N.1 * 2, N.1 * 8] false).sootVar = [N.1, N.1, N.1 * 2, N.1 * 8] := fun N =>
    exSt_sootVar _ fun x hx => (pos N x hx).le
  have hA : ∀ N : Set.Ioi (0 : ℝ), ∀ x ∈ (exSt [N.1, N.1, N.1 * 2, N.1 * 8] false).sootVar, 0 < x := fun N => by rw [sv N]; exact pos N
  obtain ⟨S, h1, h2, -⟩ := C104_momic_continuous_partial (exModel .MOMIC 4 .LL .LL .LL .HM) (fun N : Set.Ioi (0 : ℝ) => exSt [N.1, N.1, N.1 * 2, N.1 * 8] false)
    ⟨1, zero_lt_one (α := ℝ)⟩
    (fun N => exMomicReady 4 .LL (by simp) (by simp) .LL .LL .HM _ false (by norm_num) (by norm_num) rfl (fun x hx => (pos N x hx).le) (by simp))
    (fun N => ⟨fun _ => ⟨hA N, exSt_pah _⟩, fun _ _ => hA N⟩) (by simp [exModel, Nucl.new]) (by simp [exModel, Grow.new]) (by simp [exModel, Oxid.new])
    (by
      simp only [exSt_eq]
      constructor
      · constructor <;> intros <;> exact continuousAt_const
      all_goals exact continuousAt_const)
    (by
      have c : Continuous fun N : Set.Ioi (0 : ℝ) => N.1 := continuous_subtype_val
      intro k
      simp only [sv]
      match k with
      | 0 => exact c.continuousAt
      | 1 => exact c.continuousAt
      | 2 => exact (c.mul continuous_const).continuousAt
      | 3 => exact (c.mul continuous_const).continuousAt
      | n + 4 => exact continuousAt_const)
    (hA _)
  exact ⟨S, h1, h2 2⟩

end Soot
