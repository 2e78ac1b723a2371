import Verif.Props.QmomModel

/-!
# QMOM after downselection (C29) and two-moment QMOM against MONO (C30)
-/

namespace Soot

open Res Real
open scoped Classical

/-! ## C29 -/

/-- **C29 is false of the code.** As soon as one of the `nsoot/2` nodes is empty (the inversion fell back to fewer
nodes), the soot sources consist of nucleation, condensation and coagulation only, and the gas sources are those of
nucleation: growth and oxidation rates `kG`, `kO`, however large, contribute nothing although other nodes may carry
soot. -/
theorem C29_surface_reactions_vanish (eig : Eig) (m : Model) (s : State) (h : QmomReady m s) :
    ∃ m' s' J n' g, qmomSources eig m s = ok (m', s') ∧
      m.nucl.rate (ibetaNodes m.coag) { s with wts := s'.wts, absc := s'.absc } = ok (J, n', s') ∧
      gasRates n'.ratio (J * (s'.cMin * gasMW .C / Na)) = ok g ∧
      ((∃ i < m.nsoot / 2, s'.wts.getD i 0 = 0 ∨ s'.absc.getD i 0 = 0) →
        m'.sources.gas = g ∧ ∀ r < m.nsoot, m'.sources.soot[r]? = some (J * (s'.cMin * gasMW .C / Na) ^ r +
          (if m.nucl.mech = .PAH then condSum (m.coag.val s') s'.wts s'.absc n'.dimer.mDimer n'.dimer.nDimer r else 0) +
          collisionSum (m.coag.val s') s'.wts s'.absc r)) := by
  obtain ⟨w, a, m', s', J, n', kG, kO, e0, hw, ha, hw0, ha0, e1, e2, e3, hc, e4, e5, _, _, _, _, _, _, _, e6, e7⟩ :=
    qmom_eval eig h
  have hw' : s'.wts = w := by rw [e3]
  have ha' : s'.absc = a := by rw [e3]
  have hval : m.coag.val s' = m.coag.val s := by rw [e3]; rfl
  have hn := (Nucl.rate_inv e2).1
  obtain ⟨gn, gg, go, b1, b2, b3, e⟩ := Model.finish_inv e6
  refine ⟨m', s', J, n', gn, e1, by rw [hw', ha']; exact e2, b1, ?_⟩
  rintro ⟨i, hi, hz⟩
  rw [hw', ha'] at hz
  have hMr : ∀ r, nodeMr w a r = 0 := nodeMr_of_empty (i := i) (by rw [hw]; exact hi) (hz.imp le_of_eq le_of_eq)
  rw [hMr, mul_zero, mul_zero] at b2 b3
  rw [neg_zero] at b3
  refine ⟨?_, fun r hr => ?_⟩
  · rw [e, gasRates_zero b2, gasRates_zero b3]; funext sp; simp
  · rw [e7, hw', ha', hval]
    simp only [List.getElem?_map, List.getElem?_range hr, Option.map_some, qmomSoot, hMr, hn, mul_zero, add_zero]

/-- A moment set that no non-negative distribution has (`M1 M3 < M2²`): for every correct eigenvalue routine the
two-node inversion has a negative node, so QMOM falls back to one node. -/
theorem downselects (eig : Eig) (he : eig.Correct) (wts absc : List ℝ) (hw : wts.length = 2) (ha : absc.length = 2) :
    getWtsAbs eig [1, 1, 2, 1] wts absc = ok ([1, 0], [1, 0]) := by
  set M : List ℝ := [1, 1, 2, 1] with hM
  have hrun : ∃ t, whRun M 2 1 = some t ∧ t.b 1 = 1 := by
    have h0 : whRun M 2 1 = (whRun M 2 0).bind (whStep 2 1) := rfl
    rw [h0]
    simp only [whRun, Option.bind_some, whStep]
    rw [if_neg]
    · refine ⟨_, rfl, ?_⟩
      simp [hM]; norm_num
    · simp [hM]; norm_num
  obtain ⟨t, ht, hb⟩ := hrun
  obtain ⟨w, x, h1, h2⟩ := C28_quadrature eig he M 2 (by norm_num) (by simp [hM]) (by simp [hM]) t ht (by
    intro i h1 h2
    obtain rfl : i = 1 := by omega
    rw [hb]; norm_num)
  have hbad : ¬ (goodVals 2 (wheeler eig M 2).1 ∧ goodVals 2 (wheeler eig M 2).2) := by
    rintro ⟨g1, g2⟩
    have hx : ∀ i < 2, 0 ≤ x i := by
      intro i hi
      obtain ⟨z, hz, hz0⟩ := g2 i hi
      rw [(h1 i hi).2.1] at hz; cases hz; exact hz0
    have q1 := h2 1 (by norm_num)
    have q2 := h2 2 (by norm_num)
    have q3 := h2 3 (by norm_num)
    simp only [Finset.sum_range_succ, Finset.sum_range_zero, zero_add, hM, List.getD_cons_succ, List.getD_cons_zero] at q1 q2 q3
    have hx0 := hx 0 (by norm_num); have hx1 := hx 1 (by norm_num)
    have hw0 := (h1 0 (by norm_num)).2.2; have hw1 := (h1 1 (by norm_num)).2.2
    have key : (w 0 * x 0 ^ 1 + w 1 * x 1 ^ 1) * (w 0 * x 0 ^ 3 + w 1 * x 1 ^ 3) - (w 0 * x 0 ^ 2 + w 1 * x 1 ^ 2) ^ 2 =
        w 0 * w 1 * x 0 * x 1 * (x 0 - x 1) ^ 2 := by ring
    rw [q1, q2, q3] at key
    have : 0 ≤ w 0 * w 1 * x 0 * x 1 * (x 0 - x 1) ^ 2 := by positivity
    rw [← key] at this
    norm_num at this
  have hd : downselect eig M 2 = (1, fun _ => M.getD 0 0, fun _ => M.getD 1 0 / M.getD 0 0) := by
    rw [downselect, if_neg hbad, downselect]
  have hlen : M.length / 2 = 2 := by simp [hM]
  rw [getWtsAbs, idx_getD (by simp [hM]), ok_bind, if_neg (by simp [hM]), hlen, if_neg (by norm_num)]
  simp only [hd, hw, ha]
  rw [if_pos (by norm_num)]
  simp [padded, hM, List.range_succ]

/-- **C29, concrete failure.** Four moments `1, 1, 2, 1`, surface growth active with rate `kG > 0`: for every correct
eigenvalue routine one node `(1, 1)` remains, yet all soot sources are zero. -/
theorem C29_false (eig : Eig) (he : eig.Correct) :
    ∃ m s m' s' kG, Model.new .QMOM 4 .NONE .LL .NONE .NONE = ok m ∧ Accepted s ∧ s.sootVar = [1, 1, 2, 1] ∧
      qmomSources eig m s = ok (m', s') ∧ s'.wts = [1, 0] ∧ s'.absc = [1, 0] ∧ m.grow.rate m.ctx s' = ok kG ∧ 0 < kG ∧
      ∀ r < 4, m'.sources.soot[r]? = some 0 := by
  have hv : ∀ x ∈ ([1, 1, 2, 1] : List ℝ), 0 ≤ x := by simp
  have hr := exQmomReady 2 .NONE (by simp) (by simp) .LL .NONE .NONE [1, 1, 2, 1] false (by simp) rfl hv (by simp)
  obtain ⟨w, a, m', s', J, n', kG, kO, e0, hw, ha, hw0, ha0, e1, e2, e3, hc, e4, e5, _, _, _, hJ, _, _, _, e6, e7⟩ :=
    qmom_eval eig hr
  have hsv : (exSt [1, 1, 2, 1] false).sootVar = [1, 1, 2, 1] := exSt_sootVar _ hv
  rw [hsv] at e0
  cases e0.symm.trans (downselects eig he _ _ (by simp [exSt_wts]) (by simp [exSt_absc]))
  have hr2 : Ready (exModel .QMOM (2 * 2) .NONE .LL .NONE .NONE) s' := by rw [e3]; exact hr.toReady.upd hc _ _
  have hs0 : s'.sootVar = [1, 1, 2, 1] := by rw [e3]; exact hsv
  refine ⟨_, _, m', s', kG, exModel_new rfl _ _ _, hr.gas.acc, hsv, e1, by rw [e3], by rw [e3], e4, ?_, fun r h4 => ?_⟩
  · have hT : s'.T = 2100 := by rw [e3]; exact exSt_T _ _
    have hph := hr2.gas.acc.phys
    have hm : moments01 (exModel .QMOM (2 * 2) .NONE .LL .NONE .NONE).ctx s' = ok (1, 1) := by
      simp [moments01, Model.ctx, exModel, hs0, idx]
    have hA := areaMono_ok (M0 := 1) (M1 := 1) (by norm_num)
    rw [if_pos one_pos] at hA
    have hA0 : 0 < π * (6 / (π * rhoSoot) * 1 / 1) ^ twothird * 1 := by
      have := rhoSoot_pos; positivity
    have hcc : 0 < cVal s' .C2H2 := by
      have := hph.rho; have := gasMW_pos .C2H2
      have e : s'.yGas.getD GasSp.C2H2.toNat 0 = (exSt [1, 1, 2, 1] false).yGas.getD GasSp.C2H2.toNat 0 := by rw [e3]
      unfold cVal
      rw [e]
      have : 0 < (exSt [1, 1, 2, 1] false).yGas.getD GasSp.C2H2.toNat 0 := by
        simp [exSt_eq, stateAfter, exArgs, argsEx2, GasSp.toNat]; norm_num
      positivity
    have hg : (exModel .QMOM (2 * 2) .NONE .LL .NONE .NONE).grow.rate (exModel .QMOM (2 * 2) .NONE .LL .NONE .NONE).ctx s' =
        ok (0.6E3 * exp (-12100 / s'.T) * cVal s' .C2H2 / sqrt (π * (6 / (π * rhoSoot) * 1 / 1) ^ twothird * 1) * 2 *
          gasMW .C) := by
      rw [Grow.rate]
      simp only [exModel, Grow.new] at hm ⊢
      rw [hm, ok_bind]
      simp only [hA, ok_bind, if_pos hA0, cexpDiv_ok hph.T.ne', hr2.gas.gasC]
    rw [hg] at e4
    rw [ok.injEq] at e4
    rw [← e4]
    have := gasMW_pos .C
    positivity
  · rw [e7]
    have hr4 : r < (exModel .QMOM (2 * 2) .NONE .LL .NONE .NONE).nsoot := h4
    have hMr : ∀ q, nodeMr [1, 0] [1, 0] q = 0 := nodeMr_of_empty (i := 1) (by simp) (.inl (by simp))
    have hn : n'.mech = .NONE := (Nucl.rate_inv e2).1
    have hcs : collisionSum ((exModel .QMOM (2 * 2) .NONE .LL .NONE .NONE).coag.val (exSt [1, 1, 2, 1] false)) [1, 0] [1, 0] r = 0 := by
      have : ∀ x y, (exModel .QMOM (2 * 2) .NONE .LL .NONE .NONE).coag.val (exSt [1, 1, 2, 1] false) x y = 0 := fun x y => by
        simp [Coag.val, exModel, Coag.new]
      simp only [collisionSum, this, zero_mul, Finset.sum_const_zero, mul_zero]
    simp only [List.getElem?_map, List.getElem?_range hr4, Option.map_some, qmomSoot, hMr, hJ rfl, hn, hcs]
    simp

/-- **C29 (what holds).** If all nodes carry soot, growth and oxidation act on every one of them: the surface part of
the source of moment `r` is `(kG - kO) r Acoef Σ_i w_i a_i^(r-1/3)`. (Full claim: also when nodes are empty — false,
see above.) -/
theorem C29_all_nodes_active_partial (eig : Eig) (m : Model) (s : State) (h : QmomReady m s) :
    ∃ m' s' J n' kG kO, qmomSources eig m s = ok (m', s') ∧
      m.nucl.rate (ibetaNodes m.coag) { s with wts := s'.wts, absc := s'.absc } = ok (J, n', s') ∧
      m.grow.rate m.ctx s' = ok kG ∧ m.oxid.rate m.ctx s' = ok kO ∧
      ((∀ i < m.nsoot / 2, 0 < s'.wts.getD i 0 ∧ 0 < s'.absc.getD i 0) →
        ∀ r < m.nsoot, m'.sources.soot[r]? = some (J * (s'.cMin * gasMW .C / Na) ^ r +
          (if m.nucl.mech = .PAH then condSum (m.coag.val s') s'.wts s'.absc n'.dimer.mDimer n'.dimer.nDimer r else 0) +
          (kG - kO) * (r * (π * (6 / (π * rhoSoot)) ^ ((2 : ℝ) / 3))) *
            ∑ i ∈ Finset.range (m.nsoot / 2), s'.wts.getD i 0 * s'.absc.getD i 0 ^ ((r : ℝ) - 1 / 3) +
          collisionSum (m.coag.val s') s'.wts s'.absc r)) := by
  obtain ⟨w, a, m', s', J, n', kG, kO, e0, hw, ha, hw0, ha0, e1, e2, e3, hc, e4, e5, _, _, _, _, _, _, _, e6, e7⟩ :=
    qmom_eval eig h
  have hw' : s'.wts = w := by rw [e3]
  have ha' : s'.absc = a := by rw [e3]
  have hval : m.coag.val s' = m.coag.val s := by rw [e3]; rfl
  have hn := (Nucl.rate_inv e2).1
  refine ⟨m', s', J, n', kG, kO, e1, by rw [hw', ha']; exact e2, e4, e5, fun hpos r hr => ?_⟩
  rw [hw', ha'] at hpos
  have hMr : ∀ q, nodeMr w a q = ∑ i ∈ Finset.range (m.nsoot / 2), w.getD i 0 * a.getD i 0 ^ q := by
    intro q
    rw [nodeMr, if_neg, hw]
    rintro ⟨i, hi, hz⟩
    rw [hw] at hi
    obtain ⟨p1, p2⟩ := hpos i hi
    rcases hz with hz | hz <;> linarith
  have h13 : onethird = 1 / 3 := by norm_num [onethird]
  have h23 : twothird = 2 / 3 := by norm_num [twothird]
  rw [e7, hw', ha', hval]
  simp only [List.getElem?_map, List.getElem?_range hr, Option.map_some, qmomSoot, hMr, hn, h13, acoef, h23]
  congr 2; ring

/-! ## C30 -/

theorem moments01_psd {x y : Ctx} (hx : x.psd ≠ .SECT) (hy : y.psd ≠ .SECT) (s : State) : moments01 x s = moments01 y s := by
  simp only [moments01, if_neg hx, if_neg hy]

theorem hacaMoments_psd {x y : Ctx} (hx : x.psd ≠ .SECT) (hy : y.psd ≠ .SECT) (s : State) :
    hacaMoments x s = hacaMoments y s := by
  simp only [hacaMoments, if_neg hx, if_neg hy]

/-- Outside the sectional model, rates do not depend on the PSD model that asks for them. -/
theorem Grow.rate_psd (g : Grow) {x y : Ctx} (hx : x.psd ≠ .SECT) (hy : y.psd ≠ .SECT) (s : State) :
    g.rate x s = g.rate y s := by
  unfold Grow.rate
  cases g.mech <;> simp only [moments01_psd hx hy, hacaMoments_psd hx hy]

theorem Oxid.rate_psd (o : Oxid) {x y : Ctx} (hx : x.psd ≠ .SECT) (hy : y.psd ≠ .SECT) (s : State) :
    o.rate x s = o.rate y s := by
  unfold Oxid.rate
  cases o.cls <;> simp only [moments01_psd hx hy, hacaMoments_psd hx hy]

/-- The area used by QMOM with one node is the area of equal spheres. -/
theorem qmom_area {M0 M1 : ℝ} (h0 : 0 < M0) (h1 : 0 ≤ M1) :
    IsArea M0 M1 (acoef * nodeMr [M0] [M1 / M0] twothird) := by
  refine ⟨fun h => absurd h h0.ne', fun _ d hd he => ?_⟩
  have hr := rhoSoot_pos
  rcases hd.eq_or_lt with rfl | hd
  · have : M1 = 0 := by rw [← he]; ring
    subst this
    rw [nodeMr_of_empty (i := 0) (by simp) (.inr (by simp))]; simp
  · have hM1 : 0 < M1 := by rw [← he]; positivity
    have hq : 0 < M1 / M0 := by positivity
    have e : 6 / (π * rhoSoot) * (M1 / M0) = d ^ 3 := by rw [← he]; field_simp
    have hmr : nodeMr [M0] [M1 / M0] twothird = M0 * (M1 / M0) ^ twothird := by
      rw [nodeMr, if_neg]
      · simp
      · rintro ⟨i, hi, hz⟩
        obtain rfl : i = 0 := by simpa using hi
        simp only [List.getD_cons_zero] at hz
        rcases hz with hz | hz <;> linarith
    rw [hmr, acoef]
    have : (6 / (π * rhoSoot)) ^ twothird * (M1 / M0) ^ twothird = d ^ 2 := by
      rw [← mul_rpow (by positivity) hq.le, e, ← rpow_natCast d 3, ← rpow_mul hd.le]
      have : ((3 : ℕ) : ℝ) * twothird = ((2 : ℕ) : ℝ) := by norm_num [twothird]
      rw [this, rpow_natCast]
    calc π * (6 / (π * rhoSoot)) ^ twothird * (M0 * (M1 / M0) ^ twothird)
        = M0 * (π * ((6 / (π * rhoSoot)) ^ twothird * (M1 / M0) ^ twothird)) := by ring
      _ = _ := by rw [this]

/-- **C30.** A two-moment QMOM model and the MONO model with the same mechanisms (any combination, PAH included), on
the same ready state with particles: both finish, leave the same state behind and report the same soot, gas, PAH and
tar sources, whatever the eigenvalue routine does (it is never called). -/
theorem C30_two_moment_qmom_is_mono (eig : Eig) (m : Model) (s : State) (M0 M1 : ℝ) (h : QmomReady m s)
    (hM : s.sootVar = [M0, M1]) (hM0 : 0 < M0) :
    ∃ mq mm s', qmomSources eig m s = ok (mq, s') ∧ monoSources { m with psd := .MONO } s = ok (mm, s') ∧
      mq.sources = mm.sources := by
  have hM1 : 0 ≤ M1 := h.gas.acc.sootVar_nonneg M1 (by simp [hM])
  have hns : m.nsoot = 2 := by have := h.len; rw [hM] at this; simpa using this.symm
  obtain ⟨w0, hw0⟩ : ∃ w0, s.wts = [w0] := by
    have hl := h.wlen; rw [hns] at hl
    match hx : s.wts, hl with
    | [p], _ => exact ⟨p, rfl⟩
  obtain ⟨a0, ha0⟩ : ∃ a0, s.absc = [a0] := by
    have hl := h.alen; rw [hns] at hl
    match hx : s.absc, hl with
    | [p], _ => exact ⟨p, rfl⟩
  have hps : m.ctx.psd ≠ .SECT := by have := h.psd; simp [Model.ctx, this]
  have hps' : ({ m with psd := .MONO } : Model).ctx.psd ≠ .SECT := by simp [Model.ctx]
  have hmono : MonoReady { m with psd := .MONO } s M0 M1 w0 a0 :=
    { wf := ⟨h.wf.nucl, h.wf.grow, h.wf.oxid, h.wf.srcPah, h.wf.srcTar, h.wf.tarLen, h.wf.tarTail, h.wf.srcLen⟩
      fm := h.fm
      gas := h.gas
      pah := h.pah
      sized := ⟨h.sized.two, fun hx => absurd hx hps', h.sized.bins⟩
      sing := by
        intro hx hs
        refine h.sing hx ?_
        simpa only [HacaSingular, numOf, massOf, if_neg hps, if_neg hps'] using hs
      tar := h.tar
      mtar := h.mtar
      psd := rfl
      notar := h.notar
      len := by rw [h.wf.srcLen]; exact hns
      soot := hM
      wts := hw0
      absc := ha0 }
  obtain ⟨w, a, m', s', J, n', kG, kO, e0, hw, ha, _, _, e1, e2, e3, hc, e4, e5, _, _, _, _, _, _, _, e6, e7⟩ :=
    qmom_eval eig h
  obtain ⟨mm, s'', J', n'', kG', kO', A, g1, g2, g3, g4, g5, g6, g7, _, _, _, _, g9, g8⟩ := mono_eval hmono
  have hnodes : getWtsAbs eig s.sootVar s.wts s.absc = ok ([M0], [M1 / M0]) := by
    have hd : downselect eig [M0, M1] 1 = (1, fun _ => M0, fun _ => M1 / M0) := by rw [downselect]; rfl
    have h3 : 0 ≤ M1 / M0 := by positivity
    rw [hM, hw0, ha0, getWtsAbs, idx_ok (by simp), ok_bind]
    rw [if_neg (by simpa using hM0), if_neg (by simp)]
    simp only [List.length_cons, List.length_nil, Nat.zero_add, Nat.reduceAdd, Nat.reduceDiv, hd, le_refl, and_self, if_true]
    simp [padded, List.range_succ, hM0.le, h3]
  cases e0.symm.trans hnodes
  have eW : monoW M0 w0 = M0 := by rw [monoW, if_pos hM0]
  have eA : monoA M0 M1 a0 = M1 / M0 := by rw [monoA, if_pos hM0]
  rw [eW, eA] at g2 g3 g8
  have g2' : m.nucl.rate (ibetaNodes m.coag) { s with wts := [M0], absc := [M1 / M0] } = ok (J', n'', s'') := g2
  cases e2.symm.trans g2'
  have g5' : m.grow.rate m.ctx s' = ok kG' := by rw [← g5]; exact Grow.rate_psd _ hps hps' _
  cases e4.symm.trans g5'
  have g6' : m.oxid.rate m.ctx s' = ok kO' := by rw [← g6]; exact Oxid.rate_psd _ hps hps' _
  cases e5.symm.trans g6'
  have hA : A = acoef * nodeMr [M0] [M1 / M0] twothird := isArea_unique hM0.le hM1 g7 (qmom_area hM0 hM1)
  have hval : m.coag.val s' = m.coag.val s := by rw [e3]; rfl
  have h23 : ((1 : ℕ) : ℝ) - onethird = twothird := by norm_num [onethird, twothird]
  have hsoot : m'.sources.soot = mm.sources.soot := by
    rw [e7, g8, hns, hA]
    have hv : ({ m with psd := .MONO } : Model).coag.val s' = m.coag.val s := hval
    rw [hv]
    simp only [List.range_succ, List.range_zero, List.nil_append, List.cons_append, List.map_cons, List.map_nil, qmomSoot,
      collisionSum_one, h23]
    congr 1
    · simp [condSum, collisionSum]; ring
    · congr 1
      simp [condSum]
      by_cases hx : n'.mech = .PAH
      · simp only [if_pos hx]; ring
      · simp only [if_neg hx]; ring
  refine ⟨m', mm, s', e1, g1, ?_⟩
  obtain ⟨a1, a2, a3, b1, b2, b3, f1⟩ := Model.finish_inv e6
  obtain ⟨a1', a2', a3', b1', b2', b3', f1'⟩ := Model.finish_inv g9
  have c1 : a1' = a1 := by
    have e : J * s'.cMin * gasMW .C / Na = J * (s'.cMin * gasMW .C / Na) := by ring
    rw [e, b1] at b1'; cases b1'; rfl
  have c2 : a2' = a2 := by
    have b2'' : gasRates m.grow.ratio (kG * A) = ok a2' := b2'
    rw [hA, b2] at b2''; cases b2''; rfl
  have c3 : a3' = a3 := by
    have b3'' : gasRates m.oxid.ratio (-kO * A) = ok a3' := b3'
    have e : -kO * (acoef * nodeMr [M0] [M1 / M0] twothird) = -(kO * (acoef * nodeMr [M0] [M1 / M0] twothird)) := by ring
    rw [hA, e, b3] at b3''; cases b3''; rfl
  rw [f1, f1', c1, c2, c3, hsoot]

example (eig : Eig) : ∃ mq mm s', qmomSources eig (exModel .QMOM 2 .PAH .HACA .HACA .FUCHS) (exSt [1E15, 1E-6] false) =
      ok (mq, s') ∧
    monoSources { exModel .QMOM 2 .PAH .HACA .HACA .FUCHS with psd := .MONO } (exSt [1E15, 1E-6] false) = ok (mm, s') ∧
    mq.sources = mm.sources := by
  have hv : ∀ x ∈ ([1E15, 1E-6] : List ℝ), 0 ≤ x := by intro x hx; simp at hx; rcases hx with h|h <;> subst h <;> norm_num
  exact C30_two_moment_qmom_is_mono eig _ _ _ _ (exQmomReady 1 .PAH (by simp) (by simp) .HACA .HACA .FUCHS [1E15, 1E-6] false
    (by simp) rfl hv (by simp)) (exSt_sootVar _ hv) (by norm_num)

end Soot
