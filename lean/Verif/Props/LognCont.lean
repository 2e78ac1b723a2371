import Verif.Props.SourceCont
import Verif.Props.Logn

/-!
# C104 (LOGN): continuous with soot, unbounded where the second moment vanishes

The sources of `sootModel_LOGN::setSourceTerms` (sootModel_LOGN.cc:153-325) are continuous in the gas state and the three moments where these are
positive.  Fractional moments of order between 0 and 1 grow without bound when `M2` tends to 0, but `Mr` returns 0 at `M2 = 0`.
-/

namespace Soot

open Res Real Filter Topology Cont
open scoped Classical

section
variable {X : Type*} [TopologicalSpace X] {z : X}

theorem lognM_cont {M0 M1 M2 : X → ℝ} (c0 : ContinuousAt M0 z) (c1 : ContinuousAt M1 z) (c2 : ContinuousAt M2 z) (p0 : 0 < M0 z) (p1 : 0 < M1 z)
    (p2 : 0 < M2 z) (r : ℝ) : ContinuousAt (fun y => lognM (M0 y) (M1 y) (M2 y) r) z := by
  unfold lognM
  split_ifs
  · exact c0
  · exact c1
  · refine (((c0.rpow_const (p := 1 + 0.5 * r * (r - 3)) (.inl p0.ne')).mul (c1.rpow_const (p := r * (2 - r)) (.inl p1.ne'))).mul
      (c2.rpow_const (p := 0.5 * r * (r - 1)) (.inl p2.ne'))).congr ?_
    filter_upwards [c0.eventually (lt_mem_nhds p0), c1.eventually (lt_mem_nhds p1), c2.eventually (lt_mem_nhds p2)] with y h0 h1 h2
    rw [lognMrVal_pos h0 h1 h2]; rfl

theorem kc_cont {f : X → State} (hp : ∀ y, (f y).Phys) (h : ContSt f z) : ContinuousAt (fun y => kcVal (f y)) z := by
  unfold kcVal
  have hmu := (hp z).mu
  exact (continuousAt_const.mul h.T).div (continuousAt_const.mul h.mu) (by positivity)

theorem kcp_cont {f : X → State} (hp : ∀ y, (f y).Phys) (h : ContSt f z) : ContinuousAt (fun y => kcpVal (f y)) z :=
  (continuousAt_const.mul (mfp_cont hp h)).mul continuousAt_const

theorem lognCoag_cont {c : Coag} (hc : 0 < c.fmMult) {f : X → State} (hp : ∀ y, (f y).Phys) (h : ContSt f z) {M : X → ℝ → ℝ}
    (hM : ∀ r, ContinuousAt (fun y => M y r) z) (pM : ∀ r, 0 < M z r) :
    ContinuousAt (fun y => (lognCoagVal c (f y) (M y)).1) z ∧ ContinuousAt (fun y => (lognCoagVal c (f y) (M y)).2) z := by
  have k := kfm_cont c h; have q := kc_cont hp h; have p := kcp_cont hp h
  have f0 : ContinuousAt (fun y => lognCoa0Fm c (f y) (M y)) z :=
    (k.mul continuousAt_const).mul ((((hM _).mul (hM _)).add ((continuousAt_const.mul (hM _)).mul (hM _))).add ((hM _).mul (hM _)))
  have f2 : ContinuousAt (fun y => lognCoa2Fm c (f y) (M y)) z :=
    ((continuousAt_const.mul k).mul continuousAt_const).mul ((((hM _).mul (hM _)).add ((continuousAt_const.mul (hM _)).mul (hM _))).add ((hM _).mul (hM _)))
  have d0 : ContinuousAt (fun y => lognCoa0C (f y) (M y)) z :=
    q.mul ((((hM _).mul (hM _)).add ((hM _).mul (hM _))).add (p.mul (((hM _).mul (hM _)).add ((hM _).mul (hM _)))))
  have d2 : ContinuousAt (fun y => lognCoa2C (f y) (M y)) z :=
    (continuousAt_const.mul q).mul ((((hM _).mul (hM _)).add ((hM _).mul (hM _))).add (p.mul (((hM _).mul (hM _)).add ((hM _).mul (hM _)))))
  have pos : lognCoa2Fm c (f z) (M z) + lognCoa2C (f z) (M z) ≠ 0 := by
    have a := Coag.kfmVal_pos (hp z) hc; have b := kcVal_pos (hp z); have b' := kcpVal_pos (hp z)
    have hb : 0 < bCoag := by norm_num [bCoag]
    have := pM 1; have := pM (7 / 6); have := pM (8 / 6); have := pM (5 / 6); have := pM (10 / 6); have := pM (3 / 6); have := pM (4 / 6); have := pM (2 / 6)
    unfold lognCoa2Fm lognCoa2C
    positivity
  unfold lognCoagVal
  rcases c.mech
  · exact ⟨continuousAt_const, continuousAt_const⟩
  · exact ⟨f0.neg, f2⟩
  · exact ⟨d0.neg, d2⟩
  · exact ⟨continuousAt_const, (f2.mul d2).div (f2.add d2) pos⟩
  · exact ⟨continuousAt_const, continuousAt_const⟩

/-- **C104, LOGN.** Without PAH nucleation and the HACA mechanisms, the soot and gas sources of LOGN depend continuously on the gas state and the three
moments where these are positive.  Missing: vanishing moments (`C104_logn_unbounded`), HACA (`C103_growth_jump`), PAH nucleation
(`C104_logn_pah_continuous_partial`). -/
theorem C104_logn_continuous_partial (m : Model) (f : X → State) (z : X) (M0 M1 M2 : X → ℝ) (hr : ∀ y, LognReady m (f y) (M0 y) (M1 y) (M2 y))
    (hn : m.nucl.mech ≠ .PAH) (hg : m.grow.mech ≠ .HACA) (ho : m.oxid.cls ≠ .HACA) (hf : ContIn f z) (c0 : ContinuousAt M0 z) (c1 : ContinuousAt M1 z)
    (c2 : ContinuousAt M2 z) (p0 : 0 < M0 z) (p1 : 0 < M1 z) (p2 : 0 < M2 z) :
    ∃ S : X → Model × State, (∀ y, lognSources m (f y) = ok (S y)) ∧ (∀ k, ContinuousAt (fun y => (S y).1.sources.soot.getD k 0) z) ∧
      ∀ sp, ContinuousAt (fun y => (S y).1.sources.gas sp) z := by
  have hp : ∀ y, (f y).Phys := fun y => (hr y).gas.acc.phys
  obtain ⟨J, J1, J2⟩ := C103_nucleation_continuous m.nucl.mech hn (lognIbeta m) f z (fun y => (hr y).gas) hf.T hf.P hf.rho hf.cMin hf.frac
    (fun h => ⟨fun y => (hr y).tar h, hf.tar⟩) (fun h => ⟨fun y => (hr y).mtar h, hf.mtar⟩)
  obtain ⟨O, O1, O2⟩ := C103_oxidation_continuous_partial m.oxid.cls m.ctx f z (fun y => (hr y).gas) (fun y => (hr y).sized) hf.T hf.P hf.rho hf.cMin hf.frac ho
  rw [← (hr z).wf.nucl.new hn] at J1
  rw [← (hr z).wf.oxid] at O1
  have key : ∀ y, ∃ m' s' kG, lognSources m (f y) = ok (m', s') ∧ m.grow.rate m.ctx (f y) = ok kG ∧
      (∀ sp, m'.sources.gas sp = gasPart m.nucl.ratio (J y * ((f y).cMin * gasMW .C / Na)) sp +
        gasPart m.grow.ratio (kG * lognArea (M0 y) (M1 y) (M2 y) (4 / 6)) sp + gasPart m.oxid.ratio (-(O y * lognArea (M0 y) (M1 y) (M2 y) (4 / 6))) sp) ∧
      m'.sources.soot = [J y + (lognCoagVal m.coag (f y) (lognM (M0 y) (M1 y) (M2 y))).1,
        J y * ((f y).cMin * gasMW .C / Na) + (kG - O y) * lognArea (M0 y) (M1 y) (M2 y) (4 / 6),
        J y * ((f y).cMin * gasMW .C / Na) ^ 2 + 2 * (kG - O y) * lognArea (M0 y) (M1 y) (M2 y) (10 / 6) +
          (lognCoagVal m.coag (f y) (lognM (M0 y) (M1 y) (M2 y))).2] := fun y => by
    obtain ⟨m', s', J', n', kG, kO, a1, a2, -, -, a5, a6, -, -, -, -, -, a12, a13⟩ := logn_eval (hr y) (fun h => absurd h hn)
    rw [J1 y] at a2
    simp only [ok.injEq, Prod.mk.injEq] at a2
    obtain ⟨rfl, rfl, rfl⟩ := a2
    rw [O1 y] at a6
    simp only [ok.injEq] at a6
    subst a6
    refine ⟨m', _, kG, a1, a5, fun sp => finish_gas a12 sp, ?_⟩
    rw [a13]
    simp only [if_neg hn, add_zero]
  choose m' s' kG b1 b2 b3 b4 using key
  have cM := lognM_cont c0 c1 c2 p0 p1 p2
  have cA : ∀ r, ContinuousAt (fun y => lognArea (M0 y) (M1 y) (M2 y) r) z := fun r => continuousAt_const.mul (cM r)
  have cN : ContinuousAt (fun y => J y * ((f y).cMin * gasMW .C / Na)) z := J2.mul ((hf.cMin.mul continuousAt_const).div_const _)
  have pM : ∀ r, 0 < lognM (M0 z) (M1 z) (M2 z) r := fun r => by
    unfold lognM; split_ifs
    · exact p0
    · exact p1
    · rw [lognMrVal_pos p0 p1 p2]; positivity
  obtain ⟨g1, g2⟩ := lognCoag_cont (c := m.coag) (hr z).fm hp ⟨hf.T, hf.P, hf.rho, hf.mu⟩ cM pM
  -- the growth rate itself
  have cK : ContinuousAt kG z := by
    have hns : m.ctx.psd ≠ .SECT := by show m.psd ≠ _; rw [(hr z).psd]; decide
    have n1 : ∀ y, numOf m.ctx (f y) = M0 y := fun y => by simp [numOf, hns, (hr y).soot]
    have n2 : ∀ y, massOf m.ctx (f y) = M1 y := fun y => by simp [massOf, hns, (hr y).soot]
    have q : ∀ y, kG y * areaFn (M0 y) (M1 y) = growFlux m.grow.mech (f y) (areaFn (M0 y) (M1 y)) := fun y => by
      have hk := b2 y
      rw [(hr y).wf.grow] at hk
      have := growFlux_eq hg (hr y).gas (hr y).sized hk
      rwa [n1, n2] at this
    have a0 : 0 < areaFn (M0 z) (M1 z) := by have := rhoSoot_pos; unfold areaFn; positivity
    have cF := areaFn_cont c0 c1
    refine ((growFlux_cont hf.toContGas (fun y => (hr y).gas) m.grow.mech cF).div cF a0.ne').congr ?_
    filter_upwards [cF.eventually (lt_mem_nhds a0)] with y hy
    show growFlux m.grow.mech (f y) (areaFn (M0 y) (M1 y)) / areaFn (M0 y) (M1 y) = kG y
    rw [← q, mul_div_assoc, div_self (show areaFn (M0 y) (M1 y) ≠ 0 from (show 0 < areaFn (M0 y) (M1 y) from hy).ne'), mul_one]
  refine ⟨fun y => (m' y, s' y), b1, fun k => ?_, fun sp => ?_⟩
  · simp only [b4]
    match k with
    | 0 => exact J2.add g1
    | 1 => exact cN.add ((cK.sub O2).mul (cA _))
    | 2 => exact ((J2.mul (((hf.cMin.mul continuousAt_const).div_const _).pow 2)).add ((continuousAt_const.mul (cK.sub O2)).mul (cA _))).add g2
    | n + 3 => simpa using continuousAt_const
  · simp only [b3]
    exact ((gasPart_cont cN _ sp).add (gasPart_cont (cK.mul (cA _)) _ sp)).add (gasPart_cont (O2.mul (cA _)).neg _ sp)

end

/-- **C104, refutation by LOGN.** With growth faster than oxidation, the mass source grows beyond all bounds when `M2` tends to 0 at fixed gas state, number
and mass, while at `M2 = 0` it is nucleation alone. -/
theorem C104_logn_unbounded (m : Model) (f : ℝ → State) (M0 M1 J kG kO : ℝ) (hr : ∀ x, 0 ≤ x → LognReady m (f x) M0 M1 x) (hn : m.nucl.mech ≠ .PAH)
    (h0 : 0 < M0) (h1 : 0 < M1) (hJ : ∀ x, 0 ≤ x → m.nucl.rate (lognIbeta m) (f x) = ok (J, m.nucl, f x))
    (hG : ∀ x, 0 ≤ x → m.grow.rate m.ctx (f x) = ok kG) (hO : ∀ x, 0 ≤ x → m.oxid.rate m.ctx (f x) = ok kO) (hk : kO < kG) :
    ∃ S : ℝ → Model × State, (∀ x, 0 ≤ x → lognSources m (f x) = ok (S x)) ∧
      (Tendsto (fun x => (S x).1.sources.soot.getD 1 0 - J * ((f x).cMin * gasMW .C / Na)) (𝓝[>] 0) atTop) ∧
      (S 0).1.sources.soot.getD 1 0 - J * ((f 0).cMin * gasMW .C / Na) = 0 := by
  have key : ∀ x, ∃ S : Model × State, 0 ≤ x → lognSources m (f x) = ok S ∧
      S.1.sources.soot.getD 1 0 - J * ((f x).cMin * gasMW .C / Na) = (kG - kO) * lognArea M0 M1 x (4 / 6) := fun x => by
    by_cases hx : 0 ≤ x
    · obtain ⟨m', s', J', n', kG', kO', a1, a2, -, -, a5, a6, -, -, -, -, -, -, a13⟩ := logn_eval (hr x hx) (fun h => absurd h hn)
      rw [hJ x hx] at a2
      simp only [ok.injEq, Prod.mk.injEq] at a2
      obtain ⟨rfl, rfl, rfl⟩ := a2
      rw [hO x hx] at a6
      rw [hG x hx] at a5
      simp only [ok.injEq] at a5 a6
      subst a5 a6
      refine ⟨_, fun _ => ⟨a1, ?_⟩⟩
      rw [a13]
      simp [if_neg hn]
    · exact ⟨(m, f x), fun h => absurd h hx⟩
  choose S hS using key
  refine ⟨S, fun x hx => (hS x hx).1, ?_, ?_⟩
  · have e : ∀ x : ℝ, 0 < x → (S x).1.sources.soot.getD 1 0 - J * ((f x).cMin * gasMW .C / Na) =
        (kG - kO) * (π * (6 / (π * rhoSoot)) ^ twothird * (M0 ^ (1 + 0.5 * ((4 : ℝ) / 6) * ((4 : ℝ) / 6 - 3)) * M1 ^ (((4 : ℝ) / 6) * (2 - (4 : ℝ) / 6)))) *
          x ^ (-(1 : ℝ) / 9) := fun x hx => by
      rw [(hS x hx.le).2, lognArea, lognM_frac _ _ _ (by norm_num) (by norm_num), lognMrVal_pos h0 h1 hx,
        show (0.5 : ℝ) * (4 / 6) * (4 / 6 - 1) = -1 / 9 by norm_num]
      ring
    have hpos : 0 < (kG - kO) * (π * (6 / (π * rhoSoot)) ^ twothird * (M0 ^ (1 + 0.5 * ((4 : ℝ) / 6) * ((4 : ℝ) / 6 - 3)) *
        M1 ^ (((4 : ℝ) / 6) * (2 - (4 : ℝ) / 6)))) := by
      have := rhoSoot_pos; have := sub_pos.2 hk; positivity
    refine ((tendsto_rpow_neg_nhdsGT_zero (show -(1 : ℝ) / 9 < 0 by norm_num)).const_mul_atTop hpos).congr' ?_
    filter_upwards [self_mem_nhdsWithin] with x hx
    exact (e x hx).symm
  · rw [(hS 0 le_rfl).2, lognArea, lognM_frac _ _ _ (by norm_num) (by norm_num)]
    have : lognMrVal (4 / 6) M0 M1 0 = 0 := by
      unfold lognMrVal; rw [if_pos]; right; right; norm_num
    rw [this]; ring

/-! ## Examples -/

/-- Leung–Lindstedt chemistry, doubling the soot: continuous. -/
example : ∃ S : Set.Ici (0 : ℝ) → Model × State,
    (∀ N : Set.Ici (0 : ℝ), lognSources (exModel .LOGN 3 .LL .LL .LL .HM) (exSt [N.1 * 1E15, N.1 * 1E-8, N.1 * 1E-30] false) = ok (S N)) ∧
    ContinuousAt (fun N => (S N).1.sources.soot.getD 2 0) ⟨1, zero_le_one (α := ℝ)⟩ := by
  have c : ∀ a : ℝ, ContinuousAt (fun N : Set.Ici (0 : ℝ) => N.1 * a) ⟨1, zero_le_one (α := ℝ)⟩ := fun a => (continuous_subtype_val.mul continuous_const).continuousAt
  obtain ⟨S, h1, h2, -⟩ := C104_logn_continuous_partial (exModel .LOGN 3 .LL .LL .LL .HM)
    (fun N : Set.Ici (0 : ℝ) => exSt [N.1 * 1E15, N.1 * 1E-8, N.1 * 1E-30] false) ⟨1, zero_le_one (α := ℝ)⟩ (fun N => N.1 * 1E15) (fun N => N.1 * 1E-8)
    (fun N => N.1 * 1E-30)
    (fun N => by
      have : (0 : ℝ) ≤ N.1 := N.2
      exact exLognReady .LL (by simp) (by simp) .LL .LL .HM (by simp) (by positivity) (by positivity) (by positivity) false)
    (by simp [exModel, Nucl.new]) (by simp [exModel, Grow.new]) (by simp [exModel, Oxid.new])
    (by
      simp only [exSt_eq]
      constructor
      · constructor <;> intros <;> exact continuousAt_const
      all_goals exact continuousAt_const)
    (c _) (c _) (c _) (by norm_num) (by norm_num) (by norm_num)
  exact ⟨S, h1, h2 2⟩

/-- 1E15 particles and 1E-8 kg growing by Lindstedt's mechanism: the mass source is unbounded as `M2` tends to 0. -/
example : ∃ S : ℝ → Model × State, (∀ x, 0 ≤ x → lognSources (exModel .LOGN 3 .NONE .LIN .NONE .FM) (exSt [1E15, 1E-8, x] false) = ok (S x)) ∧
    Tendsto (fun x => (S x).1.sources.soot.getD 1 0) (𝓝[>] 0) atTop ∧ (S 0).1.sources.soot.getD 1 0 = 0 := by
  have hr : ∀ x, 0 ≤ x → LognReady (exModel .LOGN 3 .NONE .LIN .NONE .FM) (exSt [1E15, 1E-8, x] false) 1E15 1E-8 x := fun x hx =>
    exLognReady .NONE (by simp) (by simp) .LIN .NONE .FM (by simp) (by norm_num) (by norm_num) hx false
  have eT : ∀ x, (exSt [1E15, 1E-8, x] false).T = argsEx2.T := fun x => by rw [exSt_eq]; rfl
  have ec : ∀ x, cVal (exSt [1E15, 1E-8, x] false) .C2H2 = cVal (exSt [1E15, 1E-8, 0] false) .C2H2 := fun x => by rw [exSt_eq, exSt_eq]; rfl
  have T0 : (argsEx2.T : ℝ) ≠ 0 := argsEx2_admissible.T.ne'
  have cp : 0 < cVal (exSt [1E15, 1E-8, 0] false) .C2H2 := by
    simp [exSt_eq, cVal, stateAfter, exArgs, argsEx2, argsEx, GasSp.toNat, gasMW]; norm_num
  obtain ⟨S, h1, h2, h3⟩ := C104_logn_unbounded (exModel .LOGN 3 .NONE .LIN .NONE .FM) (fun x => exSt [1E15, 1E-8, x] false) 1E15 1E-8 0
    (750 * exp (-12100 / argsEx2.T) * cVal (exSt [1E15, 1E-8, 0] false) .C2H2 * 2 * gasMW .C) 0 hr (by simp [exModel, Nucl.new]) (by norm_num) (by norm_num)
    (fun x hx => by simp [exModel, Nucl.new, Nucl.rate])
    (fun x hx => by
      simp only [exModel, Grow.new, Grow.rate, eT, cexpDiv_ok T0, ok_bind, (exSt_gasOk _ _).gasC, ec x])
    (fun x hx => by simp [exModel, Oxid.new, Oxid.rate])
    (by have mw : 0 < gasMW .C := by norm_num [gasMW]
        positivity)
  simp only [zero_mul, sub_zero] at h2 h3
  exact ⟨S, h1, h2, h3⟩

end Soot
