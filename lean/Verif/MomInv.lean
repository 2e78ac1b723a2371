import Verif.Qmom

/-!
# Lemmas about the final block shared by the moment models QMOM and MOMIC
-/

namespace Soot

open Res Real
open scoped Classical

/-- What the terms of a finished moment evaluation have in common, whatever the closure. -/
structure MomTerms.Sound (m : Model) (ib : State → ℝ → Res ℝ) (s : State) (t : MomTerms) : Prop where
  nucl : ∃ j, m.nucl.rate ib s = ok (j, t.nucl, t.st)
  nuc : t.nucl.mech = .NONE → t.nuc 1 = 0
  grw : m.grow.mech = .NONE → t.grw 1 = 0
  oxi : m.oxid.mechType = .NONE → t.oxi 1 = 0
  cnd : t.nucl.mech ≠ .PAH → t.cnd 1 = 0
  coa : t.coa 1 = 0

theorem momFinish_inv {m m' : Model} {t : MomTerms} {s' : State} (h : momFinish m t = ok (m', s')) :
    s' = t.st ∧ m.finish t.nucl ((List.range m.nsoot).map fun i => t.nuc i + t.cnd i + t.grw i + t.oxi i + t.coa i)
      m.sources.tar (t.nuc 1) (t.grw 1) (t.oxi 1) = ok m' := by
  simp only [momFinish, bind_eq_ok] at h
  obtain ⟨m1, h1, h⟩ := h
  cases h; exact ⟨rfl, h1⟩

theorem momFinish_balance {m m' : Model} {ib : State → ℝ → Res ℝ} {s s' : State} {t : MomTerms} (hw : m.WF)
    (h2 : 2 ≤ m.nsoot) (hp : m.nucl.mech ≠ .PAH) (ht : t.Sound m ib s) (h : momFinish m t = ok (m', s')) :
    ∃ y, m'.sources.soot[1]? = some y ∧ (∑ sp, m'.sources.gas sp) + y = 0 := by
  obtain ⟨_, hf⟩ := momFinish_inv h
  obtain ⟨j, hj⟩ := ht.nucl
  have hp' : t.nucl.mech ≠ .PAH := by rw [(Nucl.rate_inv hj).1]; exact hp
  have hb := Model.finish_balance hw hp' (Nucl.rate_wf hw.nucl hj) ht.nuc ht.grw ht.oxi hf
  refine ⟨t.nuc 1 + t.cnd 1 + t.grw 1 + t.oxi 1 + t.coa 1, ?_, ?_⟩
  · rw [(Model.finish_gasC hf).2.1]; simp [List.getElem?_range (show 1 < m.nsoot by omega)]
  · rw [hb, ht.cnd hp', ht.coa]; ring

theorem momFinish_wf {m m' : Model} {ib : State → ℝ → Res ℝ} {s s' : State} {t : MomTerms} (hw : m.WF)
    (ht : ∃ j, m.nucl.rate ib s = ok (j, t.nucl, t.st)) (h : momFinish m t = ok (m', s')) : m'.WF ∧ m.SameSpec m' := by
  obtain ⟨_, hf⟩ := momFinish_inv h
  obtain ⟨j, hj⟩ := ht
  have he := (Nucl.rate_inv hj).1
  exact ⟨Model.finish_wf hw (Nucl.rate_wf hw.nucl hj) he (by simp [hw.srcLen]) rfl (fun _ => rfl) rfl hf,
    Model.finish_spec he hf⟩

theorem momFinish_canon {m : Model} {ib : State → ℝ → Res ℝ} {s : State} {t : MomTerms} (hw : m.WF)
    (htar : m.tar = .NONE) (ht : ∃ j, m.nucl.rate ib s = ok (j, t.nucl, t.st)) :
    momFinish m t = momFinish m.canon t := by
  obtain ⟨j, hj⟩ := ht
  have he := (Nucl.rate_inv hj).1
  have etar : m.canon.sources.tar = m.sources.tar := by rw [hw.srcTar htar]; rfl
  simp only [momFinish]
  rw [Model.finish_canon hw he, etar]; rfl

/-! ## QMOM -/

theorem qmomTerms_sound {m : Model} {s : State} {t : MomTerms} (h : qmomTerms m s = ok t) (h2 : 2 ≤ m.nsoot) :
    t.Sound m (ibetaNodes m.coag) s := by
  simp only [qmomTerms, bind_eq_ok] at h
  obtain ⟨⟨j, n, s'⟩, h1, kG, _, kO, _, cnd, h3, grw, h4, oxi, h5, coa, h6, h⟩ := h
  cases h
  refine ⟨⟨j, h1⟩, fun hx => ?_, fun hx => ?_, fun hx => ?_, fun hx => ?_, ?_⟩
  · have hx : n.mech = .NONE := hx
    simp [hx]
  · simp only [qmomSurf, hx, ne_eq, not_true_eq_false, if_false] at h4; cases h4; rfl
  · simp only [qmomSurf, hx, ne_eq, not_true_eq_false, if_false] at h5; cases h5; rfl
  · have hx : n.mech ≠ .PAH := hx
    simp only [qmomCnd, if_neg hx] at h3; cases h3; rfl
  · unfold qmomCoag at h6
    split_ifs at h6
    · have := (tabLoop_inv h6).1 1 (by omega)
      simp only [if_true, ok.injEq] at this; exact this.symm
    · cases h6; rfl

theorem qmomSources_inv {eig : Eig} {m m' : Model} {s s' : State} (h : qmomSources eig m s = ok (m', s')) :
    ∃ w a t, getWtsAbs eig s.sootVar s.wts s.absc = ok (w, a) ∧ qmomTerms m { s with wts := w, absc := a } = ok t ∧
      momFinish m t = ok (m', s') := by
  simp only [qmomSources, bind_eq_ok] at h
  obtain ⟨⟨w, a⟩, h1, t, h2, h3⟩ := h
  exact ⟨w, a, t, h1, h2, h3⟩

/-- The inversion does not depend on the old contents of the node arrays, only on their sizes. -/
theorem getWtsAbs_len {eig : Eig} {M w a w' a' : List ℝ} (hw : w'.length = w.length) (ha : a'.length = a.length) :
    getWtsAbs eig M w' a' = getWtsAbs eig M w a := by
  simp only [getWtsAbs, hw, ha]

theorem getWtsAbs_size {eig : Eig} {M w a w' a' : List ℝ} (h : getWtsAbs eig M w a = ok (w', a')) :
    w'.length = w.length ∧ a'.length = a.length := by
  simp only [getWtsAbs, bind_eq_ok] at h
  obtain ⟨M0, _, h⟩ := h
  split_ifs at h
  all_goals (cases h; constructor <;> simp [padded])

theorem qmomSources_wf {eig : Eig} {m m' : Model} {s s' : State} (hw : m.WF) (h2 : 2 ≤ m.nsoot)
    (h : qmomSources eig m s = ok (m', s')) : m'.WF ∧ m.SameSpec m' := by
  obtain ⟨w, a, t, _, h3, h4⟩ := qmomSources_inv h
  exact momFinish_wf hw (qmomTerms_sound h3 h2).nucl h4

/-- A QMOM evaluation does not depend on what earlier evaluations left in the model object. -/
theorem qmomSources_canon {eig : Eig} {m : Model} (hw : m.WF) (h2 : 2 ≤ m.nsoot) (ht : m.tar = .NONE) (s : State) :
    qmomSources eig m s = qmomSources eig m.canon s := by
  have hterms : ∀ s, qmomTerms m.canon s = qmomTerms m s := by
    intro s
    simp only [qmomTerms]
    have e1 : m.canon.coag = m.coag := rfl
    have e2 : m.canon.nucl = Nucl.new m.nucl.mech := rfl
    rw [e1, e2, ← Nucl.rate_canon hw.nucl]
    rfl
  simp only [qmomSources, hterms]
  apply Res.bind_congr
  rintro ⟨w, a⟩ _
  apply Res.bind_congr
  intro t htt
  exact momFinish_canon hw ht (qmomTerms_sound htt h2).nucl

end Soot
