import Verif.Props.Qmom
import Verif.MomInv

/-!
# QMOM source terms: C11, C16, C17, C20, C22, C29, C30, C31, C51
-/

namespace Soot

open Res Real
open scoped Classical

/-! ## C11 -/

/-- **C11 (QMOM).** Whenever an evaluation without PAH finishes, the gas sources and the first-moment source add up
to zero, whatever the eigenvalue routine does. -/
theorem C11_qmom (eig : Eig) (m m' : Model) (s s' : State) (hw : m.WF) (h2 : 2 ≤ m.nsoot) (hp : m.nucl.mech ≠ .PAH)
    (h : qmomSources eig m s = ok (m', s')) :
    ∃ y, m'.sources.soot[1]? = some y ∧ (∑ sp, m'.sources.gas sp) + y = 0 := by
  obtain ⟨w, a, t, _, h3, h4⟩ := qmomSources_inv h
  exact momFinish_balance hw h2 hp (qmomTerms_sound h3 h2) h4

example (eig : Eig) : ∃ m' s' y, qmomSources eig (exModel .QMOM 4 .LL .HACA .NSC_NEOH .FUCHS)
      (exSt [1E15, 1E-6, 2E-27, 1E-47] false) = ok (m', s') ∧
    m'.sources.soot[1]? = some y ∧ (∑ sp, m'.sources.gas sp) + y = 0 := by
  have hr := exQmomReady 2 .LL (by simp) (by simp) .HACA .NSC_NEOH .FUCHS [1E15, 1E-6, 2E-27, 1E-47] false (by simp)
    rfl (by intro x hx; simp at hx; rcases hx with h|h|h|h <;> subst h <;> norm_num) (by simp)
  obtain ⟨w, a, m', s', _, _, _, _, _, _, _, _, _, h, _⟩ := qmom_eval eig hr
  obtain ⟨y, h1, h2⟩ := C11_qmom eig _ _ _ _ hr.wf hr.two (by simp [exModel, Nucl.new]) h
  exact ⟨m', s', y, h, h1, h2⟩

/-! ## C20 -/

/-- **C20 (QMOM).** Without PAH nucleation, evaluating again on the unmodified state changes nothing. -/
theorem C20_qmom (eig : Eig) (m m' : Model) (s s' : State) (hw : m.WF) (h2 : 2 ≤ m.nsoot) (ht : m.tar = .NONE)
    (hp : m.nucl.mech ≠ .PAH) (h : qmomSources eig m s = ok (m', s')) : qmomSources eig m' s' = ok (m', s') := by
  obtain ⟨hw', hs⟩ := qmomSources_wf hw h2 h
  rw [qmomSources_canon hw' (hs.nsoot ▸ h2) (hs.tar.trans ht), hs.canon_eq, ← qmomSources_canon hw h2 ht]
  obtain ⟨w, a, t, h3, h4, h5⟩ := qmomSources_inv h
  obtain ⟨j, hj⟩ := (qmomTerms_sound h4 h2).nucl
  have es : s' = { s with wts := w, absc := a } := by
    rw [(momFinish_inv h5).1]; exact ((Nucl.rate_inv hj).2.1 hp).2
  subst es
  obtain ⟨l1, l2⟩ := getWtsAbs_size h3
  have e : getWtsAbs eig s.sootVar w a = ok (w, a) := by rw [getWtsAbs_len l1 l2, h3]
  simp only [qmomSources, e, ok_bind, h4, h5]

example (eig : Eig) : ∃ m' s', qmomSources eig (exModel .QMOM 4 .LL .LL .LL .FM)
      (exSt [1E15, 1E-6, 2E-27, 1E-47] false) = ok (m', s') ∧ qmomSources eig m' s' = ok (m', s') := by
  have hr := exQmomReady 2 .LL (by simp) (by simp) .LL .LL .FM [1E15, 1E-6, 2E-27, 1E-47] false (by simp)
    rfl (by intro x hx; simp at hx; rcases hx with h|h|h|h <;> subst h <;> norm_num) (by simp)
  obtain ⟨w, a, m', s', _, _, _, _, _, _, _, _, _, h, _⟩ := qmom_eval eig hr
  exact ⟨m', s', h, C20_qmom eig _ _ _ _ hr.wf hr.two rfl (by simp [exModel, Nucl.new]) h⟩

/-! ## C31, C16, C17 -/

theorem collisionSum_zero_nonpos {K : ℝ → ℝ → ℝ} (hK : ∀ x y, 0 ≤ K x y) {w a : List ℝ} (hw : ∀ x ∈ w, 0 ≤ x) :
    collisionSum K w a 0 ≤ 0 := by
  have : 0 ≤ ∑ i ∈ Finset.range a.length, ∑ j ∈ Finset.range a.length,
      K (a.getD i 0) (a.getD j 0) * w.getD i 0 * w.getD j 0 :=
    Finset.sum_nonneg fun i _ => Finset.sum_nonneg fun j _ =>
      mul_nonneg (mul_nonneg (hK _ _) (getD_nonneg hw i)) (getD_nonneg hw j)
  simp only [collisionSum, pow_zero]
  norm_num
  simpa using this

theorem collisionSum_nonneg {K : ℝ → ℝ → ℝ} (hK : ∀ x y, 0 ≤ K x y) {w a : List ℝ} (hw : ∀ x ∈ w, 0 ≤ x)
    (ha : ∀ x ∈ a, 0 ≤ x) {r : ℕ} (hr : 1 ≤ r) : 0 ≤ collisionSum K w a r := by
  refine mul_nonneg (by norm_num) (Finset.sum_nonneg fun i _ => Finset.sum_nonneg fun j _ =>
      mul_nonneg (mul_nonneg (mul_nonneg (hK _ _) (getD_nonneg hw i)) (getD_nonneg hw j)) ?_)
  have h1 := getD_nonneg ha i
  have h2 := getD_nonneg ha j
  have := binom_sum hr (a.getD i 0) (a.getD j 0)
  rw [← this]
  exact Finset.sum_nonneg fun k _ => by positivity

/-- **C31.** Every QMOM evaluation on a ready state ends with nodes `w`, `a` stored in the state, and its source of
moment `r` is nucleation + condensation + surface reactions plus the binary collision sum
`½ Σ_i Σ_j K(a_i,a_j) w_i w_j ((a_i+a_j)^r - a_i^r - a_j^r)` with `K` the rate returned by the selected kernel. -/
theorem C31_collision_sum (eig : Eig) (m : Model) (s : State) (h : QmomReady m s) :
    ∃ (m' : Model) (s' : State) (J : ℝ) (n' : Nucl) (kG kO : ℝ) (K : ℝ → ℝ → ℝ), qmomSources eig m s = ok (m', s') ∧
      m.nucl.rate (ibetaNodes m.coag) { s with wts := s'.wts, absc := s'.absc } = ok (J, n', s') ∧
      m.grow.rate m.ctx s' = ok kG ∧ m.oxid.rate m.ctx s' = ok kO ∧ (∀ x y, m.coag.rate s' x y = ok (K x y)) ∧
      m'.sources.soot.length = m.nsoot ∧ ∀ r < m.nsoot, m'.sources.soot[r]? = some (
        J * (s'.cMin * gasMW .C / Na) ^ r +
        (if m.nucl.mech = .PAH then r * n'.dimer.nDimer * n'.dimer.mDimer * ∑ i ∈ Finset.range (m.nsoot / 2),
          K n'.dimer.mDimer (s'.absc.getD i 0) * s'.wts.getD i 0 * s'.absc.getD i 0 ^ (r - 1) else 0) +
        (kG - kO) * (acoef * r * nodeMr s'.wts s'.absc (r - onethird)) +
        1 / 2 * ∑ i ∈ Finset.range (m.nsoot / 2), ∑ j ∈ Finset.range (m.nsoot / 2),
          K (s'.absc.getD i 0) (s'.absc.getD j 0) * s'.wts.getD i 0 * s'.wts.getD j 0 *
          ((s'.absc.getD i 0 + s'.absc.getD j 0) ^ r - s'.absc.getD i 0 ^ r - s'.absc.getD j 0 ^ r)) := by
  obtain ⟨w, a, m', s', J, n', kG, kO, e0, hw, ha, hw0, ha0, e1, e2, e3, hc, e4, e5, _, _, _, _, _, _, _, e6, e7⟩ :=
    qmom_eval eig h
  have hn := (Nucl.rate_inv e2).1
  have hr2 : Ready m s' := by rw [e3]; exact h.toReady.upd hc _ _
  have hw' : s'.wts = w := by rw [e3]
  have ha' : s'.absc = a := by rw [e3]
  have hval : m.coag.val s' = m.coag.val s := by rw [e3]; rfl
  refine ⟨m', s', J, n', kG, kO, m.coag.val s', e1, by rw [hw', ha']; exact e2, e4, e5, hr2.coag, by simp [e7],
    fun r hr => ?_⟩
  rw [e7, hw', ha', hval]
  simp only [List.getElem?_map, List.getElem?_range hr, Option.map_some, qmomSoot, condSum, collisionSum, ha, hn]

example (eig : Eig) : ∃ m' s', qmomSources eig (exModel .QMOM 4 .PAH .LL .LL .FM)
      (exSt [1E15, 1E-6, 2E-27, 1E-47] false) = ok (m', s') ∧ m'.sources.soot.length = 4 := by
  have hr := exQmomReady 2 .PAH (by simp) (by simp) .LL .LL .FM [1E15, 1E-6, 2E-27, 1E-47] false (by simp)
    rfl (by intro x hx; simp at hx; rcases hx with h|h|h|h <;> subst h <;> norm_num) (by simp)
  obtain ⟨m', s', _, _, _, _, _, h, _, _, _, _, h2, _⟩ := C31_collision_sum eig _ _ hr
  exact ⟨m', s', h, h2⟩

theorem sumLoop_exn {n k : ℕ} {f : ℕ → Res ℝ} {e : Exn} (hk : k < n) (h1 : ∀ j < k, ∃ x, f j = ok x) (h2 : f k = exn e) :
    sumLoop n f = exn e := by
  induction n with
  | zero => omega
  | succ n ih =>
    rw [sumLoop]
    rcases (Nat.lt_succ_iff.mp hk).eq_or_lt with rfl | hlt
    · choose! g hg using h1
      rw [sumLoop_ok hg, ok_bind, h2]; rfl
    · rw [ih hlt]; rfl

theorem tabLoop_exn {n k : ℕ} {f : ℕ → Res ℝ} {e : Exn} (hk : k < n) (h1 : ∀ j < k, ∃ x, f j = ok x) (h2 : f k = exn e) :
    tabLoop n f = exn e := by
  induction n with
  | zero => omega
  | succ n ih =>
    rw [tabLoop]
    rcases (Nat.lt_succ_iff.mp hk).eq_or_lt with rfl | hlt
    · choose! g hg using h1
      rw [tabLoop_ok hg, ok_bind, h2]; rfl
    · rw [ih hlt]; rfl

/-- **C31, limit of the code.** The constructor accepts every even number of moments, but with coagulation and 36 or
more moments the binomial table is exceeded at moment 35 and every evaluation on an otherwise ready state throws. -/
theorem C31_throws_beyond_table (eig : Eig) (m : Model) (s : State) (h : Ready m s) (hn : 36 ≤ m.nsoot)
    (hl : s.sootVar.length = m.nsoot) (hwl : s.wts.length = m.nsoot / 2) (hal : s.absc.length = m.nsoot / 2)
    (hc : m.coag.mech ≠ .NONE) :
    qmomSources eig m s = exn (.runtime "binomial coefficient parameters out of bounds") := by
  obtain ⟨w, a, n, e0, hw, ha, hw0, ha0, _⟩ := C27_inversion_total eig s.sootVar s.wts s.absc h.gas.acc.sootVar_nonneg
    (by omega) (by rw [hl, hwl]) (by rw [hl, hal])
  rw [hwl] at hw; rw [hal] at ha
  have hcm := h.gas.acc.phys.cMin
  have hr1 : Ready m { s with wts := w, absc := a } := h.upd hcm _ _
  obtain ⟨J, n', s', hJ, hJ0, hs', hc', hJN, hd, hg⟩ := hr1.nucl (ibetaNodes m.coag) (by
    intro _ c mD hc _
    have hp : State.Phys { s with wts := w, absc := a, cMin := c } := (h.gas.acc.upd hc _ _).phys
    exact ⟨_, ibetaNodes_ok hp h.fm (by rw [hw, ha]) mD,
      Finset.sum_nonneg fun i _ => mul_nonneg (abs_nonneg _) (Coag.val_nonneg hp h.fm _ _)⟩)
  have hr2 : Ready m s' := by rw [hs']; exact hr1.upd hc' _ _
  obtain ⟨kG, hG, hG0, hGN, _⟩ := hr2.grow
  obtain ⟨kO, hO, hO0, hON⟩ := hr2.oxid
  have hw' : s'.wts = w := by rw [hs']
  have ha' : s'.absc = a := by rw [hs']
  have hph := hr2.gas.acc.phys
  have hb : binom 35 1 = exn (.runtime "binomial coefficient parameters out of bounds") := by simp [binom]
  have hcoag : qmomCoag m s' = exn (.runtime "binomial coefficient parameters out of bounds") := by
    rw [qmomCoag, if_pos hc]
    refine tabLoop_exn (k := 35) (by omega) (fun r hr => ?_) ?_
    · by_cases h1 : r = 1
      · exact ⟨0, by rw [if_pos h1]⟩
      · exact ⟨_, by rw [if_neg h1]; exact qmomCoagR_ok hph h.fm (by rw [hw', ha', hw, ha]) hr h1⟩
    · rw [if_neg (by norm_num), qmomCoagR]
      rw [sumLoop_exn (k := 1) (e := .runtime "binomial coefficient parameters out of bounds") (by rw [ha', ha]; omega)
        (fun j hj => ⟨0, by obtain rfl : j = 0 := by omega
                            rfl⟩)]
      · rfl
      · refine sumLoop_exn (k := 0) (by omega) (fun j hj => by omega) ?_
        rw [idx_getD (by rw [ha', ha]; omega), ok_bind, idx_getD (by rw [ha', ha]; omega), ok_bind,
          sumLoop_exn (k := 0) (e := .runtime "binomial coefficient parameters out of bounds") (by norm_num)
            (fun j hj => by omega) (by rw [hb]; rfl)]
        rfl
  simp only [qmomSources, e0, ok_bind, qmomTerms]
  rw [hJ]; simp only [ok_bind]
  rw [hG, ok_bind, hO, ok_bind, qmomCnd_ok hph h.fm (by rw [hw', ha', hw, ha]), ok_bind,
      qmomSurf_ok (by rw [hw', ha', hw, ha]) (fun hx => hGN (not_not.mp hx)), ok_bind,
      qmomSurf_ok (by rw [hw', ha', hw, ha]) (fun hx => by rw [hON (not_not.mp hx), neg_zero]), ok_bind, hcoag]
  rfl

/-- A model with 36 moments can be constructed, and throws on an accepted state. -/
example (eig : Eig) : ∃ m s, Model.new .QMOM 36 .LL .LL .LL .FM = ok m ∧ Accepted s ∧
    qmomSources eig m s = exn (.runtime "binomial coefficient parameters out of bounds") := by
  have hv : ∀ x ∈ List.replicate 36 (1 : ℝ), 0 ≤ x := by simp
  have hr := exReady .QMOM 36 .LL (by simp) (by simp) .LL .LL .FM (List.replicate 36 1) false (by simp) (by simp) hv
  refine ⟨_, _, exModel_new rfl _ _ _, hr.gas.acc, C31_throws_beyond_table eig _ _ hr (by simp [exModel]) ?_ ?_ ?_ ?_⟩
  · rw [exSt_sootVar _ hv]; simp [exModel]
  · rw [exSt_wts]; simp [exModel]
  · rw [exSt_absc]; simp [exModel]
  · simp [exModel, Coag.new]

/-- **C16, C17 (QMOM).** A ready QMOM model (no PAH) and the same model without coagulation: mass source and all gas
sources are the same; with coagulation the number source is not larger, and the sources of all moments of order two
and more are not smaller. -/
theorem C16_C17_qmom (eig : Eig) (m : Model) (s : State) (hp : m.nucl.mech ≠ .PAH) (h : QmomReady m s) :
    ∃ m' m'' s' x y, qmomSources eig m s = ok (m', s') ∧
      qmomSources eig { m with coag := { m.coag with mech := .NONE } } s = ok (m'', s') ∧
      m'.sources.gas = m''.sources.gas ∧ m'.sources.soot[1]? = m''.sources.soot[1]? ∧
      m'.sources.soot[0]? = some x ∧ m''.sources.soot[0]? = some y ∧ x ≤ y ∧
      ∀ r, 2 ≤ r → r < m.nsoot → ∃ x y, m'.sources.soot[r]? = some x ∧ m''.sources.soot[r]? = some y ∧ y ≤ x := by
  have h' : QmomReady { m with coag := { m.coag with mech := .NONE } } s :=
    ⟨⟨⟨h.wf.nucl, h.wf.grow, h.wf.oxid, h.wf.srcPah, h.wf.srcTar, h.wf.tarLen, h.wf.tarTail, h.wf.srcLen⟩, h.fm, h.gas,
      h.pah, h.sized, h.sing, h.tar, h.mtar⟩, h.psd, h.even, h.two, h.notar, h.len, h.wlen, h.alen, fun hx => absurd rfl hx⟩
  obtain ⟨w, a, m', s', J, n', kG, kO, e0, hw, ha, hw0, ha0, e1, e2, e3, hc, e4, e5, _, _, _, _, _, _, _, e6, e7⟩ :=
    qmom_eval eig h
  obtain ⟨w', a', m'', s'', J', n'', kG', kO', k0, _, _, _, _, k1, k2, k3, kc, k4, k5, _, _, _, _, _, _, _, k6, k7⟩ :=
    qmom_eval eig h'
  cases e0.symm.trans k0
  obtain ⟨_, f2, _⟩ := Nucl.rate_inv e2
  obtain ⟨rfl, hs⟩ := f2 hp
  obtain ⟨_, f3, _⟩ := Nucl.rate_inv k2
  obtain ⟨rfl, hs'⟩ := f3 hp
  have hss : s'' = s' := by rw [hs, hs']
  subst hss
  have hJ : J' = J := by
    have e : ∀ ib ib' st, m.nucl.rate ib st = m.nucl.rate ib' st := by
      intro ib ib' st
      rcases hm : m.nucl.mech <;> simp only [Nucl.rate, hm] at hp ⊢
      exact absurd rfl hp
    have k2' : m.nucl.rate (ibetaNodes { m.coag with mech := .NONE }) { s with wts := w, absc := a } =
      ok (J', m.nucl, s'') := k2
    rw [e _ (ibetaNodes m.coag), e2] at k2'
    cases k2'; rfl
  subst hJ
  have k4' : m.grow.rate m.ctx s'' = ok kG' := k4
  cases e4.symm.trans k4'
  have k5' : m.oxid.rate m.ctx s'' = ok kO' := k5
  cases e5.symm.trans k5'
  have hz : ∀ r, collisionSum (({ m.coag with mech := .NONE } : Coag).val s) w a r = 0 := by
    intro r
    have : ∀ x y, ({ m.coag with mech := .NONE } : Coag).val s x y = 0 := fun x y => by simp [Coag.val]
    simp [collisionSum, this]
  have hK : ∀ x y, 0 ≤ m.coag.val s x y := Coag.val_nonneg h.gas.acc.phys h.fm
  have hget : ∀ r < m.nsoot, m'.sources.soot[r]? = some (J' * (s''.cMin * gasMW .C / Na) ^ r +
      (kG - kO) * (acoef * r * nodeMr w a (r - onethird)) + collisionSum (m.coag.val s) w a r) ∧
      m''.sources.soot[r]? = some (J' * (s''.cMin * gasMW .C / Na) ^ r +
      (kG - kO) * (acoef * r * nodeMr w a (r - onethird))) := by
    intro r hr
    have hr' : r < ({ m with coag := { m.coag with mech := .NONE } } : Model).nsoot := hr
    constructor
    · rw [e7]
      simp only [List.getElem?_map, List.getElem?_range hr, Option.map_some, qmomSoot, if_neg hp, add_zero]
    · rw [k7]
      simp only [List.getElem?_map, List.getElem?_range hr', Option.map_some, qmomSoot, if_neg hp, hz, add_zero]
  have h2 := h.two
  refine ⟨m', m'', s'', _, _, e1, k1, ?_, ?_, (hget 0 (by omega)).1, (hget 0 (by omega)).2, ?_, fun r hr2 hr =>
    ⟨_, _, (hget r hr).1, (hget r hr).2, ?_⟩⟩
  · obtain ⟨a1, a2, a3, b1, b2, b3, f1⟩ := Model.finish_inv e6
    obtain ⟨a1', a2', a3', b1', b2', b3', f1'⟩ := Model.finish_inv k6
    cases b1.symm.trans b1'
    cases b2.symm.trans b2'
    cases b3.symm.trans b3'
    rw [f1, f1']
  · rw [(hget 1 (by omega)).1, (hget 1 (by omega)).2, collisionSum_one, add_zero]
  · have := collisionSum_zero_nonpos hK (a := a) hw0
    linarith
  · have := collisionSum_nonneg hK hw0 ha0 (r := r) (by omega)
    linarith

example (eig : Eig) : ∃ m' m'' s' x y, qmomSources eig (exModel .QMOM 4 .LL .LL .LL .FM)
      (exSt [1E15, 1E-6, 2E-27, 1E-47] false) = ok (m', s') ∧
      qmomSources eig { exModel .QMOM 4 .LL .LL .LL .FM with coag := { (Coag.new .FM) with mech := .NONE } }
        (exSt [1E15, 1E-6, 2E-27, 1E-47] false) = ok (m'', s') ∧
      m'.sources.soot[0]? = some x ∧ m''.sources.soot[0]? = some y ∧ x ≤ y := by
  have hr := exQmomReady 2 .LL (by simp) (by simp) .LL .LL .FM [1E15, 1E-6, 2E-27, 1E-47] false (by simp)
    rfl (by intro x hx; simp at hx; rcases hx with h|h|h|h <;> subst h <;> norm_num) (by simp)
  obtain ⟨m', m'', s', x, y, h1, h2, _, _, h3, h4, h5, _⟩ := C16_C17_qmom eig _ _ (by simp [exModel, Nucl.new]) hr
  exact ⟨m', m'', s', x, y, h1, h2, h3, h4, h5⟩

/-! ## C22 -/

/-- **C22 (QMOM).** The mass gained by condensation — mass source minus nucleated mass minus surface reactions —
equals dimer mass × dimer concentration × the collision rate `I` that balances the dimers. -/
theorem C22_qmom (eig : Eig) (m : Model) (s : State) (h : QmomReady m s) (hp : m.nucl.mech = .PAH)
    (hy : ∃ y ∈ s.yPah, y ≠ 0) :
    ∃ m' s' I kG kO y, qmomSources eig m s = ok (m', s') ∧ ibetaNodes m.coag s' m'.nucl.dimer.mDimer = ok I ∧
      betaDD s m'.nucl.dimer.mDimer * m'.nucl.dimer.nDimer ^ 2 + I * m'.nucl.dimer.nDimer = m'.nucl.dimer.nDotD ∧
      0 < m'.nucl.dimer.nDimer ∧ m.grow.rate m.ctx s' = ok kG ∧ m.oxid.rate m.ctx s' = ok kO ∧
      m'.sources.soot[1]? = some y ∧
      y - betaDD s m'.nucl.dimer.mDimer * m'.nucl.dimer.nDimer ^ 2 / 2 * (s'.cMin * gasMW .C / Na) -
        (kG - kO) * (acoef * nodeMr s'.wts s'.absc twothird) = m'.nucl.dimer.mDimer * m'.nucl.dimer.nDimer * I := by
  obtain ⟨w, a, m', s', J, n', kG, kO, e0, hw, ha, hw0, ha0, e1, e2, e3, hc, e4, e5, _, _, _, _, _, _, _, e6, e7⟩ :=
    qmom_eval eig h
  have hr2 : Ready m s' := by rw [e3]; exact h.toReady.upd hc _ _
  have hw' : s'.wts = w := by rw [e3]
  have ha' : s'.absc = a := by rw [e3]
  have hval : m.coag.val s' = m.coag.val s := by rw [e3]; rfl
  have hI := ibetaNodes_ok hr2.gas.acc.phys h.fm (by rw [hw', ha', hw, ha]) n'.dimer.mDimer
  have hI0 : 0 ≤ ∑ i ∈ Finset.range s'.absc.length, |s'.wts.getD i 0| * m.coag.val s' n'.dimer.mDimer (s'.absc.getD i 0) :=
    Finset.sum_nonneg fun i _ => mul_nonneg (abs_nonneg _) (Coag.val_nonneg hr2.gas.acc.phys h.fm _ _)
  have hacc : Accepted { s with wts := w, absc := a } := h.gas.acc.upd h.gas.acc.phys.cMin _ _
  obtain ⟨b1, b2, b3, b4⟩ := dimer_balance hacc h.pah hp e2 hI hI0 hy
  have hn : m'.nucl = n' := by
    obtain ⟨_, _, _, _, _, _, e⟩ := Model.finish_inv e6; rw [e]
  have hmech := (Nucl.rate_inv e2).1
  subst hn
  have h1 : 1 < m.nsoot := h.two
  have bb : betaDD { s with wts := w, absc := a } = betaDD s := rfl
  rw [bb] at b1 b4
  refine ⟨m', s', _, kG, kO, qmomSoot m s m'.nucl w a J kG kO (s'.cMin * gasMW .C / Na) 1, e1, hI, b1, b2, e4, e5, by
    rw [e7]; simp only [List.getElem?_map, List.getElem?_range h1, Option.map_some], ?_⟩
  have h23 : ((1 : ℕ) : ℝ) - onethird = twothird := by norm_num [onethird, twothird]
  have hsum : ∑ i ∈ Finset.range s'.absc.length, |s'.wts.getD i 0| * m.coag.val s' m'.nucl.dimer.mDimer (s'.absc.getD i 0) =
      ∑ i ∈ Finset.range a.length, m.coag.val s m'.nucl.dimer.mDimer (a.getD i 0) * w.getD i 0 * a.getD i 0 ^ (1 - 1) := by
    rw [ha', hw', hval]
    refine Finset.sum_congr rfl fun i _ => ?_
    rw [abs_of_nonneg (getD_nonneg hw0 i), Nat.sub_self, pow_zero]; ring
  rw [hsum, qmomSoot, if_pos (hmech.trans hp), collisionSum_one, condSum, h23, ← b4, ha', hw']
  push_cast; ring

example (eig : Eig) : ∃ m' s', qmomSources eig (exModel .QMOM 4 .PAH .LL .LL .HM)
      (exSt [1E15, 1E-6, 2E-27, 1E-47] false) = ok (m', s') ∧ 0 < m'.nucl.dimer.nDimer := by
  have hr := exQmomReady 2 .PAH (by simp) (by simp) .LL .LL .HM [1E15, 1E-6, 2E-27, 1E-47] false (by simp)
    rfl (by intro x hx; simp at hx; rcases hx with h|h|h|h <;> subst h <;> norm_num) (by simp)
  obtain ⟨m', s', _, _, _, _, h1, _, _, h2, _⟩ := C22_qmom eig _ _ hr rfl (exSt_pah _)
  exact ⟨m', s', h1, h2⟩

/-! ## C51 -/

theorem nodeMr_of_empty {w a : List ℝ} {i : ℕ} (hi : i < w.length) (h : w.getD i 0 ≤ 0 ∨ a.getD i 0 ≤ 0) (r : ℝ) :
    nodeMr w a r = 0 := by
  rw [nodeMr, if_pos ⟨i, hi, h⟩]

/-- **C51 (QMOM).** No soot, no acetylene, benzene, PAH or tar: all soot and gas sources vanish, whatever the node
arrays of the state held before. -/
theorem C51_qmom (eig : Eig) (m : Model) (s : State) (h : QmomReady m s) (h0 : ∀ x ∈ s.sootVar, x = 0)
    (h1 : Absent s .C2H2) (h2 : Absent s .C6H6) (h3 : ∀ y ∈ s.yPah, y = 0) (h4 : ∀ y ∈ s.tarVar, y = 0) :
    ∃ m' s', qmomSources eig m s = ok (m', s') ∧ m'.sources.soot = List.replicate m.nsoot 0 ∧
      m'.sources.gas = fun _ => 0 := by
  obtain ⟨w, a, m', s', J, n', kG, kO, e0, hw, ha, hw0, ha0, e1, e2, e3, hc, e4, e5, _, _, _, _, _, _, _, e6, e7⟩ :=
    qmom_eval eig h
  have hM0 : s.sootVar.getD 0 0 = 0 := by
    have : 0 < s.sootVar.length := by have := h.len; have := h.two; omega
    rw [getD_of_lt this]; exact h0 _ (List.getElem_mem _)
  have hwz : ∀ i, w.getD i 0 = 0 := by
    intro i
    have : 0 < s.sootVar.length := by have := h.len; have := h.two; omega
    simp only [getWtsAbs, idx_getD this, ok_bind, hM0, le_refl, if_true] at e0
    cases e0
    rw [List.getD_eq_getElem?_getD, List.getElem?_replicate]; split_ifs <;> rfl
  have hMr : ∀ r, nodeMr w a r = 0 := nodeMr_of_empty (i := 0) (by rw [hw]; have := h.two; omega) (.inl (hwz 0).le)
  have hr1 : Ready m { s with wts := w, absc := a } := h.toReady.upd h.gas.acc.phys.cMin _ _
  obtain ⟨hJ, _, hD⟩ := hr1.nucl_zero (ibetaNodes m.coag) (by
    intro _ c mD hc _
    have hp : State.Phys { s with wts := w, absc := a, cMin := c } := (h.gas.acc.upd hc _ _).phys
    exact ⟨_, ibetaNodes_ok hp h.fm (by rw [hw, ha]) mD,
      Finset.sum_nonneg fun i _ => mul_nonneg (abs_nonneg _) (Coag.val_nonneg hp h.fm _ _)⟩) h1 h2 h3 h4 e2
  refine ⟨m', s', e1, ?_, ?_⟩
  · rw [e7, List.eq_replicate_iff]
    refine ⟨by simp, fun b hb => ?_⟩
    obtain ⟨k, _, rfl⟩ := List.mem_map.mp hb
    simp only [qmomSoot, hJ, zero_mul, hMr, mul_zero, condSum, collisionSum, hwz, Finset.sum_const_zero, ite_self, add_zero]
  · obtain ⟨a1, a2, a3, b1, b2, b3, e⟩ := Model.finish_inv e6
    rw [hJ, zero_mul] at b1
    rw [hMr, mul_zero, mul_zero] at b2 b3
    rw [neg_zero] at b3
    rw [e, gasRates_zero b1, gasRates_zero b2, gasRates_zero b3]; simp

example (eig : Eig) : ∃ m' s', qmomSources eig (exModel .QMOM 6 .PAH .HACA .NSC_NEOH .FUCHS)
      (exSt (List.replicate 6 0) true) = ok (m', s') ∧ m'.sources.soot = List.replicate 6 0 := by
  have hr := exQmomReady 3 .PAH (by simp) (by simp) .HACA .NSC_NEOH .FUCHS (List.replicate 6 0) true (by simp)
    (by simp) (by simp) (by simp)
  obtain ⟨m', s', h1, h2, _⟩ := C51_qmom eig _ _ hr (by rw [exSt_sootVar _ (by simp)]; simp)
    (exSt_absent _).1 (exSt_absent _).2 (exSt_noPah _) (exSt_noTar _ _)
  exact ⟨m', s', h1, h2⟩

end Soot
