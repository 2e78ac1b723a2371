import Verif.Props.Momic

/-!
# MOMIC source terms: C11, C16, C17, C20, C22, C33, C34, C56
-/

namespace Soot

open Res Real
open scoped Classical

theorem momicTerms_sound {m : Model} {T : Tri} {P Q : List ℝ} {s : State} {t : MomTerms}
    (h : momicTerms m T P Q s = ok t) (h2 : 2 ≤ m.nsoot) : t.Sound m (momicIbeta m P Q) s := by
  simp only [momicTerms, bind_eq_ok] at h
  obtain ⟨⟨j, n, s'⟩, h1, kG, _, kO, _, cnd, h3, grw, h4, oxi, h5, coa, h6, h⟩ := h
  cases h
  refine ⟨⟨j, h1⟩, fun hx => ?_, fun hx => ?_, fun hx => ?_, fun hx => ?_, ?_⟩
  · have hx : n.mech = .NONE := hx
    simp [hx]
  · simp only [momicSurf, hx, ne_eq, not_true_eq_false, if_false] at h4; cases h4; rfl
  · simp only [momicSurf, hx, ne_eq, not_true_eq_false, if_false] at h5; cases h5; rfl
  · have hx : n.mech ≠ .PAH := hx
    simp only [momicCnd, if_neg hx] at h3; cases h3; rfl
  · by_cases hc : m.coag.mech ≠ .NONE
    · simp only [if_pos hc, momicCoagRates, bind_eq_ok] at h6
      obtain ⟨M0, _, h6⟩ := h6
      by_cases h0 : M0 ≤ 0
      · rw [if_pos h0] at h6; cases h6; rfl
      · rw [if_neg h0] at h6
        simp only [bind_eq_ok] at h6
        obtain ⟨FM, _, C, _, h6⟩ := h6
        have := (tabLoop_inv h6).1 1 (by omega)
        simp only [if_true, ok.injEq] at this; exact this.symm
    · rw [if_neg hc] at h6; cases h6; rfl

theorem momicSources_inv {m m' : Model} {s s' : State} (h : momicSources m s = ok (m', s')) :
    ∃ T P Q t, setDiffTable ⟨m.nsoot, fun _ _ => none⟩ s.sootVar = ok T ∧ momicP T = ok P ∧ momicQ T = ok Q ∧
      momicTerms m T P Q s = ok t ∧ momFinish m t = ok (m', s') := by
  simp only [momicSources, bind_eq_ok] at h
  obtain ⟨T, h1, P, h2, Q, h3, t, h4, h5⟩ := h
  exact ⟨T, P, Q, t, h1, h2, h3, h4, h5⟩

theorem momicSources_wf {m m' : Model} {s s' : State} (hw : m.WF) (h2 : 2 ≤ m.nsoot)
    (h : momicSources m s = ok (m', s')) : m'.WF ∧ m.SameSpec m' := by
  obtain ⟨T, P, Q, t, _, _, _, h3, h4⟩ := momicSources_inv h
  exact momFinish_wf hw (momicTerms_sound h3 h2).nucl h4

/-- A MOMIC evaluation does not depend on what earlier evaluations left in the model object. -/
theorem momicSources_canon {m : Model} (hw : m.WF) (h2 : 2 ≤ m.nsoot) (ht : m.tar = .NONE) (s : State) :
    momicSources m s = momicSources m.canon s := by
  have hterms : ∀ T P Q, momicTerms m.canon T P Q s = momicTerms m T P Q s := by
    intro T P Q
    simp only [momicTerms]
    have e2 : m.canon.nucl = Nucl.new m.nucl.mech := rfl
    have e3 : momicIbeta m.canon P Q = momicIbeta m P Q := by
      funext s mD; rfl
    rw [e2, e3, ← Nucl.rate_canon hw.nucl]
    rfl
  simp only [momicSources, hterms]
  have hn : m.canon.nsoot = m.nsoot := rfl
  rw [hn]
  apply Res.bind_congr
  intro T _
  apply Res.bind_congr
  intro P _
  apply Res.bind_congr
  intro Q _
  apply Res.bind_congr
  intro t htt
  exact momFinish_canon hw ht (momicTerms_sound htt h2).nucl

/-! ## C11 -/

/-- **C11 (MOMIC).** Whenever an evaluation without PAH finishes, the gas sources and the first-moment source add up
to zero. -/
theorem C11_momic (m m' : Model) (s s' : State) (hw : m.WF) (h2 : 2 ≤ m.nsoot) (hp : m.nucl.mech ≠ .PAH)
    (h : momicSources m s = ok (m', s')) :
    ∃ y, m'.sources.soot[1]? = some y ∧ (∑ sp, m'.sources.gas sp) + y = 0 := by
  obtain ⟨T, P, Q, t, _, _, _, h3, h4⟩ := momicSources_inv h
  exact momFinish_balance hw h2 hp (momicTerms_sound h3 h2) h4

/-- Moments of a distribution that can be evaluated by every mechanism. -/
def exMom : List ℝ := [1E15, 1E-6, 2E-27, 1E-47]

theorem exMom_pos : ∀ x ∈ exMom, 0 < x := by
  intro x hx; simp [exMom] at hx; rcases hx with h | h | h | h <;> subst h <;> norm_num

theorem exMomicReady' (n : NuclMech) (hn : n ≠ .AJ_RED) (hb : n ≠ .BROWN) (g : GrowMech) (o : OxidMech) (c : CoagMech)
    (hc : c ≠ .FUCHS) : MomicReady (exModel .MOMIC 4 n g o c) (exSt exMom false) :=
  exMomicReady 4 n hn hb g o c exMom false (by norm_num) (by norm_num) (by simp [exMom]) (fun x hx => (exMom_pos x hx).le) hc

theorem exMomicFin (n : NuclMech) (g : GrowMech) (o : OxidMech) (c : CoagMech) :
    MomicFin (exModel .MOMIC 4 n g o c) (exSt exMom false) := by
  have hA : AllPos (exSt exMom false).sootVar := by
    rw [exSt_sootVar _ fun x hx => (exMom_pos x hx).le]; exact exMom_pos
  exact ⟨fun _ => ⟨hA, exSt_pah _⟩, fun _ _ => hA⟩

example : ∃ m' s' y, momicSources (exModel .MOMIC 4 .LL .HACA .NSC_NEOH .HM) (exSt exMom false) = ok (m', s') ∧
    m'.sources.soot[1]? = some y ∧ (∑ sp, m'.sources.gas sp) + y = 0 := by
  have hr := exMomicReady' .LL (by simp) (by simp) .HACA .NSC_NEOH .HM (by simp)
  obtain ⟨_, _, m', s', _, _, _, _, _, h, _⟩ := momic_eval hr (exMomicFin _ _ _ _)
  obtain ⟨y, h1, h2⟩ := C11_momic _ _ _ _ hr.wf (by simp [exModel]) (by simp [exModel, Nucl.new]) h
  exact ⟨m', s', y, h, h1, h2⟩

/-! ## C20 -/

/-- **C20 (MOMIC).** Without PAH nucleation, evaluating again on the unmodified state changes nothing. -/
theorem C20_momic (m m' : Model) (s s' : State) (hw : m.WF) (h2 : 2 ≤ m.nsoot) (ht : m.tar = .NONE)
    (hp : m.nucl.mech ≠ .PAH) (h : momicSources m s = ok (m', s')) : s' = s ∧ momicSources m' s' = ok (m', s') := by
  obtain ⟨hw', hs⟩ := momicSources_wf hw h2 h
  obtain ⟨T, P, Q, t, _, _, _, h4, h5⟩ := momicSources_inv h
  obtain ⟨j, hj⟩ := (momicTerms_sound h4 h2).nucl
  have es : s' = s := by rw [(momFinish_inv h5).1]; exact ((Nucl.rate_inv hj).2.1 hp).2
  refine ⟨es, ?_⟩
  subst es
  rw [momicSources_canon hw' (hs.nsoot ▸ h2) (hs.tar.trans ht), hs.canon_eq, ← momicSources_canon hw h2 ht, h]

example : ∃ m' s', momicSources (exModel .MOMIC 4 .LL .LL .LL .FM) (exSt exMom false) = ok (m', s') ∧
    momicSources m' s' = ok (m', s') := by
  have hr := exMomicReady' .LL (by simp) (by simp) .LL .LL .FM (by simp)
  obtain ⟨_, _, m', s', _, _, _, _, _, h, _⟩ := momic_eval hr (exMomicFin _ _ _ _)
  exact ⟨m', s', h, (C20_momic _ _ _ _ hr.wf (by simp [exModel]) rfl (by simp [exModel, Nucl.new]) h).2⟩

/-! ## C16, C17 -/

theorem MomicReady.noCoag {m : Model} {s : State} (h : MomicReady m s) :
    MomicReady { m with coag := { m.coag with mech := .NONE } } s :=
  ⟨⟨⟨h.wf.nucl, h.wf.grow, h.wf.oxid, h.wf.srcPah, h.wf.srcTar, h.wf.tarLen, h.wf.tarTail, h.wf.srcLen⟩, h.fm, h.gas,
      h.pah, h.sized, h.sing, h.tar, h.mtar⟩, h.psd, h.three, h.seven, h.notar, by simp, h.len⟩

/-- The source with coagulation minus the source without it, for every moment. -/
theorem momic_coag_diff (m : Model) (s : State) (h : MomicReady m s) (hf : MomicFin m s) :
    ∃ m' m'' s', momicSources m s = ok (m', s') ∧
      momicSources { m with coag := { m.coag with mech := .NONE } } s = ok (m'', s') ∧
      m'.sources.gas = m''.sources.gas ∧ m'.sources.pah = m''.sources.pah ∧
      ∀ r < m.nsoot, ∃ x, m''.sources.soot[r]? = some x ∧ m'.sources.soot[r]? =
        some (x + if 0 < s.sootVar.getD 0 0 then momicCoagV m.coag s s.sootVar m.nsoot r else 0) := by
  have h' := h.noCoag
  have hf' : MomicFin { m with coag := { m.coag with mech := .NONE } } s := ⟨hf.pah, fun _ hx => by simp at hx⟩
  obtain ⟨T, P, Q, hT, hP, hQ, ht, hn, hF⟩ := momicSetup h
  obtain ⟨m', s', J, n', kG, kO, e1, e2, e3, hc, e4, e5, _, _, _, _, _, _, _, e6, e7⟩ :=
    momic_eval_at h hf hT hP hQ ht hn hF
  obtain ⟨m'', s'', J', n'', kG', kO', k1, k2, k3, kc, k4, k5, _, _, _, _, _, _, _, k6, k7⟩ :=
    momic_eval_at h' hf' hT hP hQ ht hn hF
  have k2' : m.nucl.rate (momicIbeta m P Q) s = ok (J', n'', s'') := k2
  cases e2.symm.trans k2'
  have k4' : m.grow.rate m.ctx s' = ok kG' := k4
  cases e4.symm.trans k4'
  have k5' : m.oxid.rate m.ctx s' = ok kO' := k5
  cases e5.symm.trans k5'
  obtain ⟨a1, a2, a3, b1, b2, b3, f1⟩ := Model.finish_inv e6
  obtain ⟨a1', a2', a3', b1', b2', b3', f1'⟩ := Model.finish_inv k6
  cases b1.symm.trans b1'
  cases b2.symm.trans b2'
  cases b3.symm.trans b3'
  refine ⟨m', m'', s', e1, k1, by rw [f1, f1'], by rw [f1, f1'], fun r hr => ?_⟩
  have hr' : r < ({ m with coag := { m.coag with mech := .NONE } } : Model).nsoot := hr
  refine ⟨momicSoot { m with coag := { m.coag with mech := .NONE } } s n' J kG kO (s'.cMin * gasMW .C / Na) r, ?_, ?_⟩
  · rw [k7]; simp only [List.getElem?_map, List.getElem?_range hr', Option.map_some]
  · rw [e7]; simp only [List.getElem?_map, List.getElem?_range hr, Option.map_some]
    congr 1
    have z : momicCoagV { m.coag with mech := .NONE } s s.sootVar m.nsoot r = 0 := by
      simp [momicCoagV]
    have zb : momicBeta { m.coag with mech := .NONE } = momicBeta m.coag := rfl
    simp only [momicSoot, z, zb, ite_self, add_zero]

/-- **C16, C17 (MOMIC).** A MOMIC model and the same model without coagulation: mass source, gas and PAH sources are
the same; with coagulation the number source is not larger and the sources of all moments of order two and more are not
smaller. -/
theorem C16_C17_momic (m : Model) (s : State) (h : MomicReady m s) (hf : MomicFin m s) :
    ∃ m' m'' s' x y, momicSources m s = ok (m', s') ∧
      momicSources { m with coag := { m.coag with mech := .NONE } } s = ok (m'', s') ∧
      m'.sources.gas = m''.sources.gas ∧ m'.sources.pah = m''.sources.pah ∧
      m'.sources.soot[1]? = m''.sources.soot[1]? ∧ m'.sources.soot[1]?.isSome ∧
      m'.sources.soot[0]? = some x ∧ m''.sources.soot[0]? = some y ∧ x ≤ y ∧
      ∀ r, 2 ≤ r → r < m.nsoot → ∃ x y, m'.sources.soot[r]? = some x ∧ m''.sources.soot[r]? = some y ∧ y ≤ x := by
  obtain ⟨m', m'', s', e1, e2, e3, e4, e5⟩ := momic_coag_diff m s h hf
  have h3 := h.three
  have hph := h.gas.acc.phys
  obtain ⟨x0, a0, b0⟩ := e5 0 (by omega)
  obtain ⟨x1, a1, b1⟩ := e5 1 (by omega)
  refine ⟨m', m'', s', _, x0, e1, e2, e3, e4, ?_, by rw [b1]; rfl, b0, a0, ?_, fun r hr2 hr => ?_⟩
  · rw [a1, b1, momicCoagV_one]; simp
  · have := momicCoagV_zero_nonpos (M := s.sootVar) (N := m.nsoot) hph h.fm
    split_ifs <;> linarith
  · obtain ⟨x, a, b⟩ := e5 r hr
    refine ⟨_, x, b, a, ?_⟩
    have := momicCoagV_nonneg (M := s.sootVar) (N := m.nsoot) hph h.fm hr2
    split_ifs <;> linarith

example : ∃ m' m'' s' x y, momicSources (exModel .MOMIC 4 .PAH .LL .LL .HM) (exSt exMom false) = ok (m', s') ∧
      momicSources { exModel .MOMIC 4 .PAH .LL .LL .HM with coag := { (Coag.new .HM) with mech := .NONE } }
        (exSt exMom false) = ok (m'', s') ∧
      m'.sources.soot[0]? = some x ∧ m''.sources.soot[0]? = some y ∧ x ≤ y := by
  obtain ⟨m', m'', s', x, y, h1, h2, _, _, _, _, h3, h4, h5, _⟩ :=
    C16_C17_momic _ _ (exMomicReady' .PAH (by simp) (by simp) .LL .LL .HM (by simp)) (exMomicFin _ _ _ _)
  exact ⟨m', m'', s', x, y, h1, h2, h3, h4, h5⟩

/-! ## C34 -/

/-- Continuum pair term: the moment form of `Σ n(m1) n(m2) m1^k m2^q` times the bracket of the continuum kernel,
`Mr r` being the moment of order `r`. -/
noncomputable def contPair (Mr : ℝ → ℝ) (Kcp : ℝ) (k q : ℕ) : ℝ :=
  Mr (k - 1 / 3) * Mr (q + 1 / 3) + 2 * Mr k * Mr q + Mr (k + 1 / 3) * Mr (q - 1 / 3) +
    Kcp * (Mr (k - 2 / 3) * Mr (q + 1 / 3) + Mr (k - 1 / 3) * Mr q + Mr k * Mr (q - 1 / 3) +
      Mr (k + 1 / 3) * Mr (q - 2 / 3))

theorem pairV_eq_contPair (M : List ℝ) (N k q : ℕ) (Kcp : ℝ) :
    pairV (pv M N) Kcp k q = contPair (mrVal M N) Kcp k q := by
  have e0 : ∀ k : ℕ, pv M N (k * 3) = mrVal M N (k - 2 / 3) := fun k => by
    unfold pv; congr 1; push_cast; ring
  have e1 : ∀ k : ℕ, pv M N (k * 3 + 1) = mrVal M N (k - 1 / 3) := fun k => by
    unfold pv; congr 1; push_cast; ring
  have e2 : ∀ k : ℕ, pv M N (k * 3 + 2) = mrVal M N k := fun k => by
    unfold pv; congr 1; push_cast; ring
  have e3 : ∀ k : ℕ, pv M N (k * 3 + 3) = mrVal M N (k + 1 / 3) := fun k => by
    unfold pv; congr 1; push_cast; ring
  simp only [pairV, contPair, e0, e1, e2, e3]

theorem contPair_comm (Mr : ℝ → ℝ) (Kcp : ℝ) (k q : ℕ) : contPair Mr Kcp k q = contPair Mr Kcp q k := by
  unfold contPair; ring

/-- The sum the property asks for: over all ways to split `r` between the two partners. -/
noncomputable def contSum (Mr : ℝ → ℝ) (Kc Kcp : ℝ) (r : ℕ) : ℝ :=
  1 / 2 * Kc * ∑ k ∈ Finset.Ioo 0 r, (r.choose k : ℝ) * contPair Mr Kcp k (r - k)

theorem cCoagV_eq (M : List ℝ) (N r : ℕ) (Kc Kcp : ℝ) (hr : 2 ≤ r) :
    cCoagV Kc Kcp (pv M N) r = 1 / 2 * Kc * ((r.choose (r - 1) : ℝ) * contPair (mrVal M N) Kcp (r - 1) 1) := by
  obtain ⟨t, rfl⟩ : ∃ t, r = t + 2 := ⟨r - 2, by omega⟩
  rw [cCoagV, if_neg (by omega), if_neg (by omega), pairV_eq_contPair, show t + 2 - 1 = t + 1 by omega,
    Nat.choose_succ_self_right]
  push_cast; ring

/-- **C34 (part that holds).** With the continuum kernel the coagulation source of moment 0 is `-½ Kc pair(0,0)`, and
that of moment 2 is the full sum over collision pairs. -/
theorem C34_momic_partial (m : Model) (s : State) (h : MomicReady m s) (hf : MomicFin m s) (hc : m.coag.mech = .CONTINUUM)
    (h0 : 0 < s.sootVar.getD 0 0) :
    ∃ m' m'' s' x y z w, momicSources m s = ok (m', s') ∧
      momicSources { m with coag := { m.coag with mech := .NONE } } s = ok (m'', s') ∧
      m''.sources.soot[0]? = some x ∧ m'.sources.soot[0]? = some y ∧
      y - x = -(1 / 2 * kcVal s * contPair (mrVal s.sootVar m.nsoot) (kcpVal s) 0 0) ∧
      m''.sources.soot[2]? = some z ∧ m'.sources.soot[2]? = some w ∧
      w - z = contSum (mrVal s.sootVar m.nsoot) (kcVal s) (kcpVal s) 2 := by
  obtain ⟨m', m'', s', e1, e2, e3, e4, e5⟩ := momic_coag_diff m s h hf
  have h3 := h.three
  obtain ⟨x0, a0, b0⟩ := e5 0 (by omega)
  obtain ⟨x2, a2, b2⟩ := e5 2 (by omega)
  refine ⟨m', m'', s', x0, _, x2, _, e1, e2, a0, b0, ?_, a2, b2, ?_⟩
  · rw [if_pos h0, momicCoagV, if_neg (by norm_num), hc]
    simp only [cCoagV, if_true, pairV_eq_contPair]; ring
  · rw [if_pos h0, momicCoagV, if_neg (by norm_num), hc]
    simp only
    rw [cCoagV_eq _ _ _ _ _ le_rfl, contSum]
    have : Finset.Ioo 0 2 = {1} := rfl
    rw [this, Finset.sum_singleton]; ring

/-- **C34 is false for every moment of order three and more**: the source is strictly below the full sum, whatever the
(positive) moments; for moment 3 it is exactly half of it. -/
theorem C34_momic_false (m : Model) (s : State) (h : MomicReady m s) (hf : MomicFin m s) (hc : m.coag.mech = .CONTINUUM)
    (hA : AllPos s.sootVar) (r : ℕ) (hr3 : 3 ≤ r) (hr : r < m.nsoot) :
    ∃ m' m'' s' x y, momicSources m s = ok (m', s') ∧
      momicSources { m with coag := { m.coag with mech := .NONE } } s = ok (m'', s') ∧
      m''.sources.soot[r]? = some x ∧ m'.sources.soot[r]? = some y ∧
      y - x < contSum (mrVal s.sootVar m.nsoot) (kcVal s) (kcpVal s) r ∧
      (r = 3 → y - x = contSum (mrVal s.sootVar m.nsoot) (kcVal s) (kcpVal s) r / 2) := by
  obtain ⟨m', m'', s', e1, e2, e3, e4, e5⟩ := momic_coag_diff m s h hf
  have h3 := h.three
  have hph := h.gas.acc.phys
  have h0 : 0 < s.sootVar.getD 0 0 := by
    have : 0 < s.sootVar.length := by rw [h.len]; omega
    rw [getD_of_lt this]; exact hA _ (List.getElem_mem _)
  obtain ⟨x, a, b⟩ := e5 r hr
  have hv : momicCoagV m.coag s s.sootVar m.nsoot r =
      1 / 2 * kcVal s * ((r.choose (r - 1) : ℝ) * contPair (mrVal s.sootVar m.nsoot) (kcpVal s) (r - 1) 1) := by
    rw [momicCoagV, if_neg (by omega), hc]
    simp only
    exact cCoagV_eq _ _ _ _ _ (by omega)
  have hpos : ∀ k q, 0 < contPair (mrVal s.sootVar m.nsoot) (kcpVal s) k q := fun k q => by
    rw [← pairV_eq_contPair]; exact pairV_pos (hA.p h.len h3) (kcpVal_pos hph).le k q
  refine ⟨m', m'', s', x, _, e1, e2, a, b, ?_, ?_⟩
  · rw [if_pos h0, hv, add_sub_cancel_left, contSum]
    refine mul_lt_mul_of_pos_left ?_ (by have := kcVal_pos hph; positivity)
    have hmem : r - 1 ∈ Finset.Ioo 0 r := by simp; omega
    rw [← Finset.add_sum_erase _ _ hmem, show r - (r - 1) = 1 by omega]
    refine lt_add_of_pos_right _ (Finset.sum_pos (fun k hk => mul_pos ?_ (hpos _ _)) ⟨1, by simp; omega⟩)
    simp only [Finset.mem_erase, Finset.mem_Ioo] at hk
    exact_mod_cast Nat.choose_pos (by omega)
  · rintro rfl
    rw [if_pos h0, hv, add_sub_cancel_left, contSum]
    have : Finset.Ioo 0 3 = {1, 2} := rfl
    rw [this, Finset.sum_pair (by norm_num)]
    rw [contPair_comm _ _ 1]
    norm_num [Nat.choose]
    ring

/-- The moments of order three of `exMom` are half of what they should be. -/
example : ∃ m' m'' s' x y, momicSources (exModel .MOMIC 4 .LL .LL .LL .CONTINUUM) (exSt exMom false) = ok (m', s') ∧
      momicSources { exModel .MOMIC 4 .LL .LL .LL .CONTINUUM with coag := { (Coag.new .CONTINUUM) with mech := .NONE } }
        (exSt exMom false) = ok (m'', s') ∧
      m''.sources.soot[3]? = some x ∧ m'.sources.soot[3]? = some y ∧
      y - x < contSum (mrVal exMom 4) (kcVal (exSt exMom false)) (kcpVal (exSt exMom false)) 3 := by
  have hr := exMomicReady' .LL (by simp) (by simp) .LL .LL .CONTINUUM (by simp)
  have e : (exSt exMom false).sootVar = exMom := exSt_sootVar _ fun x hx => (exMom_pos x hx).le
  obtain ⟨m', m'', s', x, y, h1, h2, h3, h4, h5, _⟩ := C34_momic_false _ _ hr (exMomicFin _ _ _ _) rfl
    (by rw [e]; exact exMom_pos) 3 le_rfl (by simp [exModel])
  rw [e] at h5
  exact ⟨m', m'', s', x, y, h1, h2, h3, h4, h5⟩

/-! ## C22 -/

/-- **C22 (MOMIC).** The mass gained by condensation — mass source minus nucleated mass minus surface reactions —
equals dimer mass × dimer concentration × the collision rate `I` that balances the dimers. -/
theorem C22_momic (m : Model) (s : State) (h : MomicReady m s) (hf : MomicFin m s) (hp : m.nucl.mech = .PAH) :
    ∃ T P Q m' s' I kG kO S y, setDiffTable ⟨m.nsoot, fun _ _ => none⟩ s.sootVar = ok T ∧ momicP T = ok P ∧
      momicQ T = ok Q ∧ momicSources m s = ok (m', s') ∧ momicIbeta m P Q s' m'.nucl.dimer.mDimer = ok I ∧
      betaDD s m'.nucl.dimer.mDimer * m'.nucl.dimer.nDimer ^ 2 + I * m'.nucl.dimer.nDimer = m'.nucl.dimer.nDotD ∧
      0 < m'.nucl.dimer.nDimer ∧ m.grow.rate m.ctx s' = ok kG ∧ m.oxid.rate m.ctx s' = ok kO ∧
      momicMr T twothird = ok S ∧ m'.sources.soot[1]? = some y ∧
      y - betaDD s m'.nucl.dimer.mDimer * m'.nucl.dimer.nDimer ^ 2 / 2 * (s'.cMin * gasMW .C / Na) -
        (kG - kO) * (acoef * S) = m'.nucl.dimer.mDimer * m'.nucl.dimer.nDimer * I := by
  obtain ⟨T, P, Q, hT, hP, hQ, ht, hn, hF⟩ := momicSetup h
  obtain ⟨m', s', J, n', kG, kO, e1, e2, e3, hc, e4, e5, _, _, _, _, _, _, _, e6, e7⟩ :=
    momic_eval_at h hf hT hP hQ ht hn hF
  obtain ⟨hA, hy⟩ := hf.pah hp
  have h3 := h.three
  have hn' : m'.nucl = n' := by
    obtain ⟨_, _, _, _, _, _, e⟩ := Model.finish_inv e6; rw [e]
  have hph := h.gas.acc.phys
  have hr2 : Ready m s' := by rw [e3]; exact h.toReady.upd hc _ _
  have hm := (nucl_pah_inv hph h.pah hp e2).2.1
  have hm0 : 0 < n'.dimer.mDimer := by rw [hm]; exact mDimerAfter_pos hph h.pah hy
  obtain ⟨i1, i2⟩ := momicIbeta_ok (m := m) hr2.gas.acc.phys h.fm hF h3 h.len hA hp hm0
  obtain ⟨b1, b2, _, b4⟩ := dimer_balance h.gas.acc h.pah hp e2 i1 i2.le hy
  subst hn'
  have h1 : 1 < m.nsoot := by omega
  have hbeta : momicBeta m.coag s' = momicBeta m.coag s := by rw [e3]; rfl
  refine ⟨T, P, Q, m', s', _, kG, kO, mrVal s.sootVar m.nsoot twothird,
    momicSoot m s m'.nucl J kG kO (s'.cMin * gasMW .C / Na) 1, hT, hP, hQ, e1, i1, b1, b2, e4, e5,
    by rw [momicMr_ok ht (by omega), hn], by
      rw [e7]; simp only [List.getElem?_map, List.getElem?_range h1, Option.map_some], ?_⟩
  have h23 : ((1 : ℕ) : ℝ) - onethird = twothird := by norm_num [onethird, twothird]
  rw [momicSoot, if_pos hp, momicCoagV_one, h23, ← b4, hbeta]
  push_cast
  simp only [ite_self]
  ring

example : ∃ m' s', momicSources (exModel .MOMIC 4 .PAH .LL .LL .HM) (exSt exMom false) = ok (m', s') ∧
    0 < m'.nucl.dimer.nDimer := by
  obtain ⟨_, _, _, m', s', _, _, _, _, _, _, _, _, h1, _, _, h2, _⟩ :=
    C22_momic _ _ (exMomicReady' .PAH (by simp) (by simp) .LL .LL .HM (by simp)) (exMomicFin _ _ _ _) rfl
  exact ⟨m', s', h1, h2⟩

/-! ## C33, C56 -/

theorem momicIbeta_cases {m : Model} {s : State} {M P Q : List ℝ} {N : ℕ} (hs : s.Phys) (hc : 0 < m.coag.fmMult)
    (hF : FracOf M N P Q) (h3 : 3 ≤ N) (hp : m.nucl.mech = .PAH) {mD : ℝ} (hD : 0 < mD) :
    momicIbeta m P Q s mD = nonfin ∨ ∃ I, momicIbeta m P Q s mD = ok I ∧ 0 ≤ I := by
  have kf := Coag.kfmVal_pos hs hc
  have kk := kcVal_pos hs
  have a1 : 0 ≤ gV (qv M N) mD 1 := gridV_nonneg 1 (gPtV_nonneg (qv_nonneg M N) hD.le 1)
  have a2 := dimerCV_nonneg (pv_nonneg M N) hD.le (kcpVal_pos hs).le
  rw [momicIbeta, if_neg (by simp [hp]), m.coag.kc_ok hs, ok_bind, m.coag.kcp_ok hs, ok_bind, dimerC_ok hF h3 hD, ok_bind,
      m.coag.kfm_ok hs, ok_bind, gGrid_ok hF h3 hD le_rfl (by omega)]
  by_cases hz : 1 ≤ 3 ∧ gPtV (qv M N) mD 1 2 = 0
  · rw [if_pos hz]; exact .inl rfl
  · rw [if_neg hz, ok_bind]
    by_cases hd : m.coag.kfmVal s * gV (qv M N) mD 1 + kcVal s * dimerCV (pv M N) mD (kcpVal s) = 0
    · left; rw [hd, cdiv, if_pos rfl]
    · right; exact ⟨_, cdiv_ok hd, by positivity⟩

theorem momicIbeta_zero {m : Model} {s : State} {P Q : List ℝ} (hs : s.Phys) (hp : m.nucl.mech = .PAH) :
    momicIbeta m P Q s 0 = nonfin := by
  have e : cpow 0 (-2 / 6) = nonfin := by norm_num [cpow]
  have e0 : cpow 0 (2 / 6) = ok (0 ^ (2 / 6 : ℝ)) := cpow_ok' le_rfl (by norm_num)
  rw [momicIbeta, if_neg (by simp [hp]), m.coag.kc_ok hs, ok_bind, m.coag.kcp_ok hs, ok_bind, dimerC, e0, ok_bind, e]
  rfl

theorem gPtV_zero {M : List ℝ} {N : ℕ} (h : ¬ AllPos M) (hl : M.length = N) (mD : ℝ) : gPtV (qv M N) mD 2 2 = 0 := by
  have z : ∀ i, 2 ≤ i → qv M N i = 0 := fun i hi => qv_zero h hl hi
  simp [gPtV, dimV, gTerms, z]

theorem momicCnd_nonfin {m : Model} {n : Nucl} {s : State} {M P Q : List ℝ} (hs : s.Phys)
    (hF : FracOf M m.nsoot P Q) (h3 : 3 ≤ m.nsoot) (hl : M.length = m.nsoot) (hn : ¬ AllPos M)
    (hp : n.mech = .PAH) (hD : 0 < n.dimer.mDimer) : momicCnd m n P Q s = nonfin := by
  unfold momicCnd
  simp only [if_pos hp, m.coag.kc_ok hs, m.coag.kcp_ok hs, m.coag.kfm_ok hs, ok_bind, dimerC_ok hF h3 hD]
  rw [tabLoop_ok (g := fun k => if k = 0 then 0 else
      k * kcVal s * n.dimer.nDimer * n.dimer.mDimer * dimerCV (pv M m.nsoot) n.dimer.mDimer (kcpVal s))
      (fun k _ => by split_ifs <;> rfl), ok_bind]
  have e2 : (gGrid Q n.dimer.mDimer 2) = nonfin := by
    rw [gGrid_ok hF h3 hD (by norm_num) (by omega), if_pos ⟨by norm_num, gPtV_zero hn hl _⟩]
  by_cases h1 : gPtV (qv M m.nsoot) n.dimer.mDimer 1 2 = 0
  · rw [tabLoop_nonfin (k := 1) (by omega) (fun j hj => ⟨0, by obtain rfl : j = 0 := by omega
                                                               rfl⟩)]
    · rfl
    · rw [if_neg (by norm_num), gGrid_ok hF h3 hD le_rfl (by omega), if_pos ⟨by norm_num, h1⟩]; rfl
  · rw [tabLoop_nonfin (k := 2) (by omega)]
    · rfl
    · intro j hj
      by_cases h0 : j = 0
      · exact ⟨0, by rw [if_pos h0]⟩
      · obtain rfl : j = 1 := by omega
        exact ⟨_, by rw [if_neg h0, gGrid_ok hF h3 hD le_rfl (by omega), if_neg (by tauto), ok_bind]⟩
    · rw [if_neg (by norm_num), e2]; rfl

/-- **C56.** With 3 to 7 moments a MOMIC evaluation on an otherwise evaluable state finishes exactly when the
transported moments allow it: with PAH nucleation all moments must be positive and some PAH present, and with
free-molecular or harmonic-mean coagulation all moments must be positive unless there are no particles.  In every other
case — for instance soot-free gas with PAH nucleation, or one zero moment — an Inf or NaN arises. -/
theorem C56_momic_exact (m : Model) (s : State) (h : MomicReady m s) :
    (MomicFin m s → ∃ m' s', momicSources m s = ok (m', s')) ∧ (¬ MomicFin m s → momicSources m s = nonfin) := by
  refine ⟨fun hf => ?_, fun hf => ?_⟩
  · obtain ⟨_, _, m', s', _, _, _, _, _, h1, _⟩ := momic_eval h hf
    exact ⟨m', s', h1⟩
  obtain ⟨T, P, Q, hT, hP, hQ, ht, hn, hF⟩ := momicSetup h
  have hph := h.gas.acc.phys
  have h3 := h.three
  have hph1 : State.Phys { s with cMin := cMinAfter s } := (h.gas.acc.upd (cMinAfter_pos hph) s.wts s.absc).phys
  suffices hs : momicTerms m T P Q s = nonfin by
    rw [momicSources, hT, ok_bind, hP, ok_bind, hQ, ok_bind, hs]; rfl
  by_cases hp : m.nucl.mech = .PAH
  · by_cases hy : ∃ y ∈ s.yPah, y ≠ 0
    · have hD := mDimerAfter_pos hph h.pah hy
      rcases momicIbeta_cases (m := m) hph1 h.fm hF h3 hp hD with hi | hi
      · have e := nuclPAH_nonfin hph h.pah m.nucl _ hi
        rw [← Nucl.rate_pah hp] at e
        rw [momicTerms, e]; rfl
      · obtain ⟨J, n', s', hJ, _, hs', hc', _⟩ := h.toReady.nucl' (momicIbeta m P Q) (fun _ => hi)
        have hr : Ready m s' := by rw [hs']; exact h.toReady.upd hc' _ _
        obtain ⟨kG, hG, hG0, hGN, _⟩ := hr.grow
        obtain ⟨kO, hO, hO0, hON⟩ := hr.oxid
        have hm := (nucl_pah_inv hph h.pah hp hJ).2.1
        have hp' := (Nucl.rate_inv hJ).1.trans hp
        have hm0 : 0 < n'.dimer.mDimer := by rw [hm]; exact hD
        have hnA : ¬ AllPos s.sootVar := fun hA => hf ⟨fun _ => ⟨hA, hy⟩, fun _ _ => hA⟩
        rw [momicTerms, hJ, ok_bind]
        simp only
        rw [hG, ok_bind, hO, ok_bind, momicCnd_nonfin hr.gas.acc.phys hF h3 h.len hnA hp' hm0]; rfl
    · have e0 : mDimerAfter s = 0 := by
        push Not at hy
        rw [mDimerAfter, if_neg]
        have : pahTot s = 0 := Finset.sum_eq_zero fun sp _ => by
          have : pahN s sp = 0 := by
            unfold pahN
            by_cases hi : sp.toNat < s.yPah.length
            · rw [getD_of_lt hi, hy _ (List.getElem_mem _)]; simp
            · simp [List.getD_eq_getElem?_getD, not_lt.mp hi]
          simp [pahNdot, this]
        rw [this]; exact lt_irrefl _
      have hi : momicIbeta m P Q { s with cMin := cMinAfter s } (mDimerAfter s) = nonfin := by
        rw [e0]; exact momicIbeta_zero hph1 hp
      have e := nuclPAH_nonfin hph h.pah m.nucl _ hi
      rw [← Nucl.rate_pah hp] at e
      rw [momicTerms, e]; rfl
  · have hco : 0 < s.sootVar.getD 0 0 ∧ (m.coag.mech = .FM ∨ m.coag.mech = .HM) ∧ ¬ AllPos s.sootVar := by
      by_contra hx
      refine hf ⟨fun hp' => absurd hp' hp, fun h1 h2 => ?_⟩
      by_contra h3; exact hx ⟨h1, h2, h3⟩
    obtain ⟨J, n', s', hJ, _, hs', hc', _⟩ := h.toReady.nucl' (momicIbeta m P Q) (fun hx => absurd hx hp)
    have hr : Ready m s' := by rw [hs']; exact h.toReady.upd hc' _ _
    obtain ⟨kG, hG, hG0, hGN, _⟩ := hr.grow
    obtain ⟨kO, hO, hO0, hON⟩ := hr.oxid
    have hp' : n'.mech ≠ .PAH := by rw [(Nucl.rate_inv hJ).1]; exact hp
    have hsv : s'.sootVar = s.sootVar := by rw [hs']
    have hcn : m.coag.mech ≠ .NONE := by rcases hco.2.1 with hk | hk <;> rw [hk] <;> decide
    rw [momicTerms, hJ, ok_bind]
    simp only
    rw [hG, ok_bind, hO, ok_bind, momicCnd_ok (M := s.sootVar) hr.gas.acc.phys h.fm hF h3 h.len (fun hx => absurd hx hp'), ok_bind,
      momicSurf_ok ht hn h3 (fun hx => hGN (not_not.mp hx)), ok_bind,
      momicSurf_ok ht hn h3 (fun hx => by rw [hON (not_not.mp hx), neg_zero]), ok_bind, if_pos hcn, hsv,
      momicCoag_nonfin hr.gas.acc.phys hF h3 h.len hco.2.1 hco.1 hco.2.2]; rfl

/-- A zero third moment spoils free-molecular coagulation. -/
example : ¬ MomicFin (exModel .MOMIC 3 .LL .LL .LL .FM) (exSt [1E15, 1E-6, 0] false) := by
  intro h
  have e : (exSt [1E15, 1E-6, 0] false).sootVar = [1E15, 1E-6, 0] :=
    exSt_sootVar _ (by intro x hx; simp at hx; rcases hx with h|h|h <;> subst h <;> norm_num)
  have := h.coag (by rw [e]; norm_num) (.inl rfl)
  rw [e] at this
  exact absurd (this 0 (by simp)) (lt_irrefl _)

/-- **C33 (part that holds).** With 3 to 7 moments no evaluation on an otherwise evaluable state has undefined
behaviour, for every kernel, nucleation mechanism and moment values, including zero ones; nor does it throw. -/
theorem C33_momic_partial (m : Model) (s : State) (h : MomicReady m s) :
    momicSources m s ≠ ub ∧ ∀ e, momicSources m s ≠ exn e := by
  by_cases hf : MomicFin m s
  · obtain ⟨m', s', e⟩ := (C56_momic_exact m s h).1 hf
    rw [e]; simp
  · rw [(C56_momic_exact m s h).2 hf]; simp

example : momicSources (exModel .MOMIC 7 .LL .LL .LL .HM) (exSt (List.replicate 7 0) false) ≠ ub :=
  (C33_momic_partial _ _ (exMomicReady 7 .LL (by simp) (by simp) .LL .LL .HM _ false (by norm_num) (by norm_num)
    (by simp) (by simp) (by simp))).1

/-- **C33 is false for 8 moments**, which the constructor accepts: the tables of array lengths have 8 entries and entry
8 is read, on every state. -/
theorem C33_momic_false (m : Model) (s : State) (h8 : m.nsoot = 8) (hl : s.sootVar.length = 8) : momicSources m s = ub := by
  obtain ⟨T, hT, hn, _⟩ := setDiffTable_ok (M := s.sootVar) ⟨8, fun _ _ => none⟩ (by simp [hl])
  simp only at hn
  rw [momicSources, h8, hT, ok_bind, momicP, hn]
  rfl

example : ∃ m s, Model.new .MOMIC 8 .LL .LL .LL .FM = ok m ∧ Accepted s ∧ momicSources m s = ub := by
  have hv : ∀ x ∈ List.replicate 8 (1 : ℝ), 0 ≤ x := by simp
  have hr := exReady .MOMIC 8 .LL (by simp) (by simp) .LL .LL .FM (List.replicate 8 1) false (by simp) (by simp) hv
  refine ⟨_, _, exModel_new rfl _ _ _, hr.gas.acc, C33_momic_false _ _ rfl ?_⟩
  rw [exSt_sootVar _ hv]; simp

end Soot
