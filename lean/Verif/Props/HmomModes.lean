import Verif.Props.Hmom

/-!
# C69: HMOM's two modes

HMOM follows `Nmom` moments of the whole population and, as its last variable, the number `N0` of particles still of nucleation size (the
small mode).  `M0 - N0` is the number of large particles.  The theorems hold for whatever number the stray read of C35 delivers.
-/

namespace Soot

open Res Real
open scoped Classical

/-! ## Specification -/

/-- Surface area of a sphere of soot of mass `m`. -/
noncomputable def ballArea (m : ℝ) : ℝ := π * (6 * m / (π * rhoSoot)) ^ ((2 : ℝ) / 3)

/-- Mass of a nucleated particle before the evaluation. -/
noncomputable def nucMass (s : State) : ℝ := s.cMin * gasMW .C / Na

/-- Mechanism rates at a state, and the collision frequencies of one small particle: with small particles (`b00`), with the large mode (`b0L`),
with PAH dimers (`bc`), and the number rate of large-large coagulation (`LL`). -/
structure HmomRates where
  N0 : ℝ
  J : ℝ
  kG : ℝ
  kO : ℝ
  b00 : ℝ
  b0L : ℝ
  dim : ℝ
  LL : ℝ

/-- Rate at which surface reactions at rate `K` per area turn over the small mode: `N0` particles, each gaining or losing `K·area` of its
mass per second. -/
noncomputable def HmomRates.turn (r : HmomRates) (K m0 : ℝ) : ℝ := K * ballArea m0 / m0 * r.N0

/-- The rates of an evaluation.  `M` are the large-mode moments, `P` and `Q` their fractional moments. -/
structure HmomRatesOf (read : Option ℝ) (m : Model) (s s' : State) (M P Q : List ℝ) (r : HmomRates) : Prop where
  N0 : s.sootVar[m.nsoot - 1]? = some r.N0
  large : hmomLarge s (m.nsoot - 1) r.N0 (nucMass s) = ok M
  frac : ∃ T, setDiffTable ⟨m.nsoot - 1, fun _ _ => none⟩ M = ok T ∧ hmomP T = ok P ∧ hmomQ T = ok Q
  nuc : ∃ n', m.nucl.rate (hmomIbeta m r.N0 P Q) s = ok (r.J, n', s') ∧ (n'.mech ≠ .PAH → r.dim = 0) ∧
    (n'.mech = .PAH → ∃ b, m.coag.rate s' n'.dimer.mDimer (nucMass s) = ok b ∧ r.dim = b * n'.dimer.nDimer)
  grow : m.grow.rate m.ctx s' = ok r.kG
  oxid : m.oxid.rate m.ctx s' = ok r.kO
  off : m.coag.mech = .NONE → r.b00 = 0 ∧ r.b0L = 0 ∧ r.LL = 0
  on : m.coag.mech ≠ .NONE → m.coag.rate s' (nucMass s) (nucMass s) = ok r.b00 ∧ hmomIk m.coag s' P Q (nucMass s) read 0 = ok r.b0L ∧
    ∃ f, momicCoagRates m.coag s' (m.nsoot - 1) M P Q = ok f ∧ r.LL = f 0

theorem ballArea_eq {m : ℝ} (h : 0 < m) : ballArea m / m = acoef * m ^ (-1.0 / 3.0 : ℝ) := by
  have hr : (0 : ℝ) < 6 / (π * rhoSoot) := by have := pi_pos; norm_num [rhoSoot]; positivity
  rw [ballArea, acoef, show 6 * m / (π * rhoSoot) = 6 / (π * rhoSoot) * m by ring, mul_rpow hr.le h.le,
    show twothird = (2 : ℝ) / 3 by norm_num [twothird], show (-1.0 / 3.0 : ℝ) = 2 / 3 - 1 by norm_num, rpow_sub h, rpow_one]
  ring

/-! ## The number equations -/

theorem hmomSurf_entries {T : Tri} {on : Prop} {K K0 N0 mN : ℝ} {N : ℕ} {f : ℕ → ℝ} (h : hmomSurf T on K K0 N N0 mN = ok f) (hN : 2 ≤ N)
    (hm : 0 < mN) (h0 : ¬ on → K0 = 0) : f 0 = 0 ∧ f N = K0 * (ballArea mN / mN) * N0 := by
  unfold hmomSurf at h
  split_ifs at h with hon
  · simp only [bind_eq_ok] at h
    obtain ⟨p, h1, L, h2, h⟩ := h
    cases h
    have k := (tabLoop_inv h2).1 0 (by omega)
    simp only [if_true, ok.injEq] at k
    rw [cpow_ok hm] at h1
    cases h1
    simp only [if_neg (show ¬ 0 = N by omega), if_true]
    exact ⟨k.symm, by rw [ballArea_eq hm]; ring⟩
  · cases h; simp [h0 hon]

theorem hmom_numbers (read : Option ℝ) (m m' : Model) (s s' : State) (h3 : 3 ≤ m.nsoot) (hg : m.grow = Grow.new m.grow.mech)
    (ho : m.oxid = Oxid.new m.oxid.cls) (hc : 0 < s.cMin) (h : hmomSourcesAt read m s = ok (m', s')) :
    ∃ M P Q r, HmomRatesOf read m s s' M P Q r ∧
      m'.sources.soot[0]? = some (r.J - r.b00 * r.N0 * r.N0 / 2 - r.b0L * r.N0 + r.LL) ∧
      m'.sources.soot[m.nsoot - 1]? = some (r.J - r.dim * r.N0 - r.turn r.kG (nucMass s) - r.turn r.kO (nucMass s) - r.b00 * r.N0 * r.N0 -
        r.b0L * r.N0) := by
  have hm : 0 < nucMass s := mNuc_pos hc
  simp only [hmomSourcesAt, bind_eq_ok] at h
  obtain ⟨N0, e1, M, e2, T, e3, P, e4, Q, e5, t, e6, e7⟩ := h
  obtain ⟨f0, f1⟩ := momFinish_inv e7
  simp only [hmomTerms, bind_eq_ok] at e6
  obtain ⟨⟨j, n, s1⟩, a1, kG, a2, kO, a3, cnd, a4, grw, a5, oxi, a6, coa, a7, a8⟩ := e6
  cases a8
  simp only at f0 f1 a2 a3
  subst f0
  have hj := (Nucl.rate_inv a1).2.2.1
  have hn := (Nucl.rate_inv a1).1
  have kG0 : m.grow.mech = .NONE → kG = 0 := by
    intro hx; simp only [Grow.rate, hx] at a2; cases a2; rfl
  have kO0 : m.oxid.mechType = .NONE → kO = 0 := by
    intro hx; simp only [Oxid.rate, (oxid_none ho).1 hx] at a3; cases a3; rfl
  obtain ⟨g0, gN⟩ := hmomSurf_entries a5 (by omega) hm (fun hx => by rw [kG0 (not_not.1 hx)]; simp)
  obtain ⟨o0, oN⟩ := hmomSurf_entries a6 (by omega) hm (fun hx => by rw [kO0 (not_not.1 hx)]; simp)
  have kc : ∃ d, cnd 0 = 0 ∧ cnd (m.nsoot - 1) = -d * N0 ∧ (n.mech ≠ .PAH → d = 0) ∧
      (n.mech = .PAH → ∃ b, m.coag.rate s' n.dimer.mDimer (nucMass s) = ok b ∧ d = b * n.dimer.nDimer) := by
    unfold hmomCnd at a4
    split_ifs at a4 with hp
    · simp only [bind_eq_ok] at a4
      obtain ⟨b, b1, _, _, _, _, _, _, L, b2, a4⟩ := a4
      cases a4
      have k := (tabLoop_inv b2).1 0 (by omega)
      simp only [if_true, ok.injEq] at k
      refine ⟨b * n.dimer.nDimer, ?_, ?_, fun hx => absurd hp hx, fun _ => ⟨b, b1, rfl⟩⟩
      · simp only [if_neg (show ¬ 0 = m.nsoot - 1 by omega)]; exact k.symm
      · simp only [if_true]; ring
    · cases a4; exact ⟨0, rfl, by simp, fun _ => rfl, fun hx => absurd hx hp⟩
  obtain ⟨d, c0, cN, d0, d1⟩ := kc
  have kk : ∃ b00 b0L LL, coa 0 = -b00 * N0 * N0 / 2 - b0L * N0 + LL ∧ coa (m.nsoot - 1) = -b00 * N0 * N0 - b0L * N0 ∧
      (m.coag.mech = .NONE → b00 = 0 ∧ b0L = 0 ∧ LL = 0) ∧
      (m.coag.mech ≠ .NONE → m.coag.rate s' (nucMass s) (nucMass s) = ok b00 ∧
        hmomIk m.coag s' P Q (nucMass s) read 0 = ok b0L ∧ ∃ f, momicCoagRates m.coag s' (m.nsoot - 1) M P Q = ok f ∧ LL = f 0) := by
    unfold hmomCoag at a7
    split_ifs at a7 with hx
    · simp only [bind_eq_ok] at a7
      obtain ⟨b00, b1, b0L, b2, LL, b3, R, b4, a7⟩ := a7
      cases a7
      have k := (tabLoop_inv b4).1 0 (by omega)
      simp only [show ¬ (0 : ℕ) = 1 by omega, show ¬ 2 ≤ 0 by omega, if_false, if_true, ok_bind, ok.injEq, pow_zero, mul_one] at k
      refine ⟨b00, b0L, LL 0, ?_, ?_, fun hy => absurd hy hx, fun _ => ⟨b1, b2, LL, b3, rfl⟩⟩
      · simp only [if_neg (show ¬ 0 = m.nsoot - 1 by omega)]; rw [← k]; ring
      · simp only [if_true]; ring
    · cases a7; exact ⟨0, 0, 0, by simp, by simp, fun _ => ⟨rfl, rfl, rfl⟩, fun hy => absurd hy hx⟩
  obtain ⟨b00, b0L, LL, w0, wN, woff, won⟩ := kk
  refine ⟨M, P, Q, ⟨N0, j, kG, kO, b00, b0L, d, LL⟩, ⟨idx_eq_ok.1 e1, e2, ⟨T, e3, e4, e5⟩, ⟨n, a1, d0, d1⟩, a2, a3, woff, won⟩, ?_, ?_⟩
  · rw [(Model.finish_gasC f1).2.1, List.getElem?_map, List.getElem?_range (by omega)]
    simp only [Option.map_some, c0, g0, o0, w0, if_neg (show ¬ 0 = m.nsoot - 1 by omega), pow_zero, one_mul]
    by_cases hx : n.mech = .NONE
    · rw [hj (hn ▸ hx)]; simp only [ite_self, Option.some.injEq]; ring
    · simp only [ne_eq, hx, not_false_eq_true, if_true, Option.some.injEq]; ring
  · rw [(Model.finish_gasC f1).2.1, List.getElem?_map, List.getElem?_range (by omega)]
    simp only [Option.map_some, cN, gN, oN, wN, if_true, HmomRates.turn]
    change some (_ + _ * (ballArea (nucMass s) / nucMass s) * N0 + _ * (ballArea (nucMass s) / nucMass s) * N0 + _) = _
    by_cases hx : n.mech = .NONE
    · rw [hj (hn ▸ hx)]; simp only [ite_self, Option.some.injEq]; ring
    · simp only [ne_eq, hx, not_false_eq_true, if_true, Option.some.injEq]; ring

/-- Source of the number of large particles. -/
noncomputable def largeSource (m : Model) : ℝ := m.sources.soot.getD 0 0 - m.sources.soot.getD (m.nsoot - 1) 0

/-- **C69.**  In every completed evaluation, the large mode gains: one particle for every small particle that meets a dimer or grows, one for
every two small particles that meet (`b00·N0²/2` events), and what large-large coagulation gives; nucleation and collisions of a small with a
large particle do not change it.  The code adds the oxidation turnover of the small mode as well. -/
theorem C69_hmom_large (read : Option ℝ) (m m' : Model) (s s' : State) (hw : m.WF) (h3 : 3 ≤ m.nsoot) (hc : 0 < s.cMin)
    (h : hmomSourcesAt read m s = ok (m', s')) :
    ∃ M P Q r, HmomRatesOf read m s s' M P Q r ∧
      largeSource m' = r.dim * r.N0 + r.turn r.kG (nucMass s) + r.b00 * r.N0 * r.N0 / 2 + r.LL + r.turn r.kO (nucMass s) := by
  obtain ⟨M, P, Q, r, hr, h0, hN⟩ := hmom_numbers read m m' s s' h3 hw.grow hw.oxid hc h
  have hn : m'.nsoot = m.nsoot := by
    obtain ⟨_, _, _, _, _, t, e, f⟩ := hmomSourcesAt_inv h
    exact (momFinish_wf hw (hmomTerms_sound e (by omega)).nucl f).2.nsoot
  refine ⟨M, P, Q, r, hr, ?_⟩
  rw [largeSource, hn, List.getD_eq_getElem?_getD, List.getD_eq_getElem?_getD, h0, hN]
  simp only [Option.getD_some]; ring

/-- **C69 is false of the code for oxidation.**  Oxidation removes mass, so it can destroy or shrink particles but not make large ones.  In the
code, the same evaluation with the oxidation mechanism switched on has exactly `kO·area(m0)/m0·N0` more large particles per second: small
particles that are oxidised are counted as large ones (the total number is not touched). -/
theorem C69_hmom_oxidation_false (read : Option ℝ) (m m' m'' : Model) (s s' s'' : State) (hw : m.WF) (h3 : 3 ≤ m.nsoot) (hc : 0 < s.cMin)
    (h : hmomSourcesAt read m s = ok (m', s')) (h'' : hmomSourcesAt read { m with oxid := Oxid.new .NONE } s = ok (m'', s'')) :
    ∃ kO N0, m.oxid.rate m.ctx s' = ok kO ∧ s.sootVar[m.nsoot - 1]? = some N0 ∧
      m'.sources.soot[0]? = m''.sources.soot[0]? ∧ largeSource m' = largeSource m'' + kO * ballArea (nucMass s) / nucMass s * N0 := by
  have hw2 : Model.WF { m with oxid := Oxid.new .NONE } := ⟨hw.nucl, hw.grow, rfl, hw.srcPah, hw.srcTar, hw.tarLen, hw.tarTail, hw.srcLen⟩
  obtain ⟨M, P, Q, r, hr, h0, hN⟩ := hmom_numbers read m m' s s' h3 hw.grow hw.oxid hc h
  obtain ⟨M2, P2, Q2, r2, hr2, h02, hN2⟩ := hmom_numbers read { m with oxid := Oxid.new .NONE } m'' s s'' h3 hw2.grow hw2.oxid hc h''
  have hn : m'.nsoot = m.nsoot := by
    obtain ⟨_, _, _, _, _, t, e, f⟩ := hmomSourcesAt_inv h
    exact (momFinish_wf hw (hmomTerms_sound e (by omega)).nucl f).2.nsoot
  have hn2 : m''.nsoot = m.nsoot := by
    obtain ⟨_, _, _, _, _, t, e, f⟩ := hmomSourcesAt_inv h''
    exact (momFinish_wf hw2 (hmomTerms_sound e (by show 2 ≤ m.nsoot - 1; omega)).nucl f).2.nsoot
  obtain ⟨N0, J, kG, kO, b00, b0L, dim, LL⟩ := r
  obtain ⟨N0', J', kG', kO', b00', b0L', dim', LL'⟩ := r2
  obtain ⟨e1, e2, ⟨T, e3, e4, e5⟩, ⟨n, e6, e7, e8⟩, e9, e10, e11, e12⟩ := hr
  obtain ⟨g1, g2, ⟨T', g3, g4, g5⟩, ⟨n', g6, g7, g8⟩, g9, g10, g11, g12⟩ := hr2
  simp only at e1 e2 e3 e4 e5 e6 e7 e8 e9 e10 e11 e12 g1 g2 g3 g4 g5 g6 g7 g8 g9 g10 g11 g12 h0 hN h02 hN2
  cases e1.symm.trans g1
  cases e2.symm.trans g2
  cases e3.symm.trans g3
  cases e4.symm.trans g4
  cases e5.symm.trans g5
  have g6' : m.nucl.rate (hmomIbeta m N0 P Q) s = ok (J', n', s'') := g6
  cases e6.symm.trans g6'
  cases e9.symm.trans g9
  have hO : kO' = 0 := by
    simp only [Oxid.rate, Oxid.new] at g10; cases g10; rfl
  subst hO
  have hd : dim' = dim := by
    by_cases hx : n.mech = .PAH
    · obtain ⟨b, k1, k2⟩ := e8 hx
      obtain ⟨b', k1', k2'⟩ := g8 hx
      cases k1.symm.trans k1'
      rw [k2, k2']
    · rw [e7 hx, g7 hx]
  have hb : b00' = b00 ∧ b0L' = b0L ∧ LL' = LL := by
    by_cases hx : m.coag.mech = .NONE
    · obtain ⟨k1, k2, k3⟩ := e11 hx
      obtain ⟨k1', k2', k3'⟩ := g11 hx
      rw [k1, k2, k3, k1', k2', k3']; exact ⟨rfl, rfl, rfl⟩
    · obtain ⟨k1, k2, f, k3, k4⟩ := e12 hx
      obtain ⟨k1', k2', f', k3', k4'⟩ := g12 hx
      cases k1.symm.trans k1'
      cases k2.symm.trans k2'
      cases k3.symm.trans k3'
      exact ⟨rfl, rfl, by rw [k4, k4']⟩
  obtain ⟨rfl, rfl, rfl⟩ := hb
  subst hd
  refine ⟨kO, N0, e10, e1, by rw [h0, h02], ?_⟩
  rw [largeSource, largeSource, hn, hn2, List.getD_eq_getElem?_getD, List.getD_eq_getElem?_getD, List.getD_eq_getElem?_getD,
    List.getD_eq_getElem?_getD, h0, hN, h02]
  have hN2' : m''.sources.soot[m.nsoot - 1]? = _ := hN2
  rw [hN2']
  simp only [Option.getD_some, HmomRates.turn]; ring

/-- A concrete HMOM model and state, oxidised by the LL mechanism: the number of large particles per second is strictly larger than without. -/
theorem C69_hmom_oxidation_witness : ∃ m' m'' s' s'',
    hmomSourcesAt (some 3) (exModel .HMOM 4 .LL .LL .LL .HM) (exSt [1E15, 1E-6, 2E-27, 1E14] false) = ok (m', s') ∧
    hmomSourcesAt (some 3) (exModel .HMOM 4 .LL .LL .NONE .HM) (exSt [1E15, 1E-6, 2E-27, 1E14] false) = ok (m'', s'') ∧
    largeSource m'' < largeSource m' := by
  have hr := exHmomReady' .LL (by simp) (by simp) .LL .LL .HM (by simp)
  obtain ⟨m', s', h⟩ := hmom_completes _ _ hr 3 (by norm_num)
  obtain ⟨m'', s'', h''⟩ := hmom_completes _ _ (exHmomReady' .LL (by simp) (by simp) .LL .NONE .HM (by simp)) 3 (by norm_num)
  have hc : 0 < (exSt [1E15, 1E-6, 2E-27, 1E14] false).cMin := (exSt_gasOk _ _).acc.phys.cMin
  obtain ⟨M, P, Q, r, e, -⟩ := C69_hmom_large _ _ m' _ s' hr.wf (by simp [exModel]) hc h
  have hs : s' = exSt [1E15, 1E-6, 2E-27, 1E14] false := by
    obtain ⟨n', e6, -⟩ := e.nuc
    exact ((Nucl.rate_inv e6).2.1 (by simp [exModel, Nucl.new])).2
  obtain ⟨kO, N0, h1, h2, h3, h4⟩ := C69_hmom_oxidation_false _ _ m' m'' _ s' s'' hr.wf (by simp [exModel]) hc h h''
  refine ⟨m', m'', s', s'', h, h'', ?_⟩
  have hN : N0 = 1E14 := by
    simp [exSt_eq, stateAfter, exArgs, exModel] at h2
    rw [← h2]; norm_num
  have hk : 0 < kO := by
    rw [hs] at h1
    have hg := exSt_gasOk [1E15, 1E-6, 2E-27, 1E14] false
    have T0 := hg.acc.phys.T
    simp only [exModel, Oxid.new, Oxid.rate, csqrt_ok T0.le, cexpDiv_ok T0.ne', hg.gasC, ok_bind] at h1
    cases h1
    have hO : 0 < cVal (exSt [1E15, 1E-6, 2E-27, 1E14] false) .O2 := by
      simp [cVal, exSt_eq, stateAfter, exArgs, argsEx2, argsEx, GasSp.toNat, gasMW]
      norm_num
    have : 0 < gasMW .C := by norm_num [gasMW]
    positivity
  have hm : 0 < nucMass (exSt [1E15, 1E-6, 2E-27, 1E14] false) := mNuc_pos hc
  have hb : 0 < ballArea (nucMass (exSt [1E15, 1E-6, 2E-27, 1E14] false)) := by unfold ballArea rhoSoot; positivity
  rw [h4, hN]
  have : 0 < kO * ballArea (nucMass (exSt [1E15, 1E-6, 2E-27, 1E14] false)) / nucMass (exSt [1E15, 1E-6, 2E-27, 1E14] false) * 1E14 := by positivity
  linarith

/-- The hypotheses of `C69_hmom_large` are met. -/
example : ∃ m' s' M P Q r, hmomSourcesAt (some 3) (exModel .HMOM 4 .LL .LL .NSC_NEOH .HM) (exSt [1E15, 1E-6, 2E-27, 1E14] false) = ok (m', s') ∧
    HmomRatesOf (some 3) (exModel .HMOM 4 .LL .LL .NSC_NEOH .HM) (exSt [1E15, 1E-6, 2E-27, 1E14] false) s' M P Q r := by
  have hr := exHmomReady' .LL (by simp) (by simp) .LL .NSC_NEOH .HM (by simp)
  obtain ⟨m', s', h⟩ := hmom_completes _ _ hr 3 (by norm_num)
  obtain ⟨M, P, Q, r, e, -⟩ := C69_hmom_large _ _ m' _ s' hr.wf (by simp [exModel]) (exSt_gasOk _ _).acc.phys.cMin h
  exact ⟨m', s', M, P, Q, r, h, e⟩

end Soot
