import Verif.Logn
import Verif.Props.Ex

/-!
# Lognormal model: C11, C16, C17, C18, C20, C22, C25, C26
-/

namespace Soot

open Res Real
open scoped Classical

/-! ## C25 -/

/-- Moment of order `r` of a lognormal distribution with number `N`, log-median `μ`, log-width `σ`. -/
noncomputable def lognormalMoment (N μ σ r : ℝ) : ℝ := N * exp (r * μ + r ^ 2 * σ ^ 2 / 2)

/-- **C25.** The fractional-moment formula is exact for every lognormal distribution and every real order; for
arbitrary positive moments it reproduces `M0`, `M1`, `M2` at orders 0, 1, 2. -/
theorem C25_lognormal_moments :
    (∀ N μ σ r : ℝ, 0 < N → lognMr r (lognormalMoment N μ σ 0) (lognormalMoment N μ σ 1) (lognormalMoment N μ σ 2) =
      ok (lognormalMoment N μ σ r)) ∧
    (∀ M0 M1 M2 : ℝ, 0 < M0 → 0 < M1 → 0 < M2 →
      lognMr 0 M0 M1 M2 = ok M0 ∧ lognMr 1 M0 M1 M2 = ok M1 ∧ lognMr 2 M0 M1 M2 = ok M2) := by
  constructor
  · intro N μ σ r hN
    have hm : ∀ k, lognormalMoment N μ σ k = exp (log N + (k * μ + k ^ 2 * σ ^ 2 / 2)) := by
      intro k; rw [exp_add, exp_log hN, lognormalMoment]
    have hp : ∀ k, 0 < lognormalMoment N μ σ k := fun k => by rw [hm]; exact exp_pos _
    rw [lognMr_ok (hp 1).le (hp 2).le, lognMrVal_pos (hp 0) (hp 1) (hp 2)]
    simp only [hm, ← exp_mul, ← exp_add]
    congr 2; ring
  · intro M0 M1 M2 h0 h1 h2
    simp only [lognMr_ok h1.le h2.le, lognMrVal_pos h0 h1 h2]
    refine ⟨?_, ?_, ?_⟩ <;> norm_num

example : lognMr (4 / 6) (lognormalMoment 1E15 (-50) 0.7 0) (lognormalMoment 1E15 (-50) 0.7 1)
    (lognormalMoment 1E15 (-50) 0.7 2) = ok (lognormalMoment 1E15 (-50) 0.7 (4 / 6)) :=
  C25_lognormal_moments.1 1E15 (-50) 0.7 (4 / 6) (by norm_num)

/-! ## Evaluation -/

/-- A LOGN model object as its constructors allow it, and a state it can be evaluated on. -/
structure LognReady (m : Model) (s : State) (M0 M1 M2 : ℝ) : Prop extends Ready m s where
  psd : m.psd = .LOGN
  nsoot : m.nsoot = 3
  notar : m.tar = .NONE
  kernel : m.coag.mech = .FM ∨ m.coag.mech = .CONTINUUM ∨ m.coag.mech = .HM
  soot : s.sootVar = [M0, M1, M2]

/-- With PAH nucleation the evaluation additionally needs soot and PAH to be present. -/
def LognPah (m : Model) (s : State) (M0 M1 : ℝ) : Prop :=
  m.nucl.mech = .PAH → 0 < M0 ∧ 0 < M1 ∧ ∃ y ∈ s.yPah, y ≠ 0

section
variable {m : Model} {s : State} {M0 M1 M2 : ℝ}

theorem LognReady.fuchs (h : LognReady m s M0 M1 M2) : m.coag.mech ≠ .FUCHS := by
  rcases h.kernel with h | h | h <;> rw [h] <;> decide

theorem LognReady.m0 (h : LognReady m s M0 M1 M2) : 0 ≤ M0 := h.gas.acc.sootVar_nonneg M0 (by simp [h.soot])
theorem LognReady.m1 (h : LognReady m s M0 M1 M2) : 0 ≤ M1 := h.gas.acc.sootVar_nonneg M1 (by simp [h.soot])
theorem LognReady.m2 (h : LognReady m s M0 M1 M2) : 0 ≤ M2 := h.gas.acc.sootVar_nonneg M2 (by simp [h.soot])

theorem LognReady.upd (h : LognReady m s M0 M1 M2) {c : ℝ} (hc : 0 < c) : LognReady m { s with cMin := c } M0 M1 M2 :=
  ⟨h.toReady.upd hc s.wts s.absc, h.psd, h.nsoot, h.notar, h.kernel, h.soot⟩

/-- Harmonic mean of two rates. -/
noncomputable def hmean (a b : ℝ) : ℝ := a * b / (a + b)

/-- Dimer–soot collision rate of the lognormal model. -/
noncomputable def lognBeta (m : Model) (s : State) (M0 M1 M2 mD : ℝ) : ℝ :=
  hmean (lognFm1 m.coag s (lognM M0 M1 M2) mD) (lognC1 s (lognM M0 M1 M2) mD)

theorem lognC1_pos (h : LognReady m s M0 M1 M2) (h0 : 0 < M0) {mD : ℝ} (hD : 0 < mD) :
    0 < lognC1 s (lognM M0 M1 M2) mD := by
  have := lognC1_ge (s := s) (lognM_nonneg h.m0 h.m1 h.m2) h.gas.acc.phys hD
  rw [lognM_zero] at this
  have := kcVal_pos h.gas.acc.phys
  have : 0 < 2 * kcVal s * M0 := by positivity
  linarith

theorem lognC2_pos (h : LognReady m s M0 M1 M2) (h1 : 0 < M1) {mD : ℝ} (hD : 0 < mD) :
    0 < lognC2 s (lognM M0 M1 M2) mD := by
  have := lognC2_ge (s := s) (lognM_nonneg h.m0 h.m1 h.m2) h.gas.acc.phys hD
  rw [lognM_one] at this
  have := kcVal_pos h.gas.acc.phys
  have : 0 < 4 * kcVal s * M1 := by positivity
  linarith

theorem lognIbeta_ok (h : LognReady m s M0 M1 M2) (hp : m.nucl.mech = .PAH) (h0 : 0 < M0) {mD : ℝ} (hD : 0 < mD) :
    lognIbeta m s mD = ok (lognBeta m s M0 M1 M2 mD) ∧ 0 ≤ lognBeta m s M0 M1 M2 mD := by
  have h1 := lognFm1_nonneg (lognM_nonneg h.m0 h.m1 h.m2) h.gas.acc.phys h.fm hD
  have h2 := lognC1_pos h h0 hD
  constructor
  · simp only [lognIbeta, hp, ne_eq, not_true_eq_false, if_false, h.soot, idx_cons_zero, idx_cons_succ, ok_bind,
      lognI1_ok h.gas.acc.phys h.m1 h.m2 hD]
    rw [cdiv_ok (by linarith)]; rfl
  · unfold lognBeta hmean; positivity

/-- Surface moment `π (6/(πρ))^{2/3} M_r`. -/
noncomputable def lognArea (M0 M1 M2 r : ℝ) : ℝ := π * (6 / (π * rhoSoot)) ^ twothird * lognM M0 M1 M2 r

/-- Complete evaluation of LOGN on a ready state. -/
theorem logn_eval (h : LognReady m s M0 M1 M2) (hP : LognPah m s M0 M1) :
    ∃ m' s' J n' kG kO, lognSources m s = ok (m', s') ∧
      m.nucl.rate (lognIbeta m) s = ok (J, n', s') ∧ s' = { s with cMin := s'.cMin } ∧ 0 < s'.cMin ∧
      m.grow.rate m.ctx s' = ok kG ∧ m.oxid.rate m.ctx s' = ok kO ∧ 0 ≤ J ∧ 0 ≤ kG ∧ 0 ≤ kO ∧
      (m.nucl.mech = .NONE → J = 0) ∧ (m.nucl.mech = .PAH → 0 < n'.dimer.mDimer ∧ 0 ≤ n'.dimer.nDimer) ∧
      m.finish n' m'.sources.soot m.sources.tar (J * (s'.cMin * gasMW .C / Na)) (kG * lognArea M0 M1 M2 (4 / 6))
        (-(kO * lognArea M0 M1 M2 (4 / 6))) = ok m' ∧
      m'.sources.soot =
        [J + (lognCoagVal m.coag s (lognM M0 M1 M2)).1,
         J * (s'.cMin * gasMW .C / Na) + (kG - kO) * lognArea M0 M1 M2 (4 / 6) +
           (if m.nucl.mech = .PAH then n'.dimer.mDimer * n'.dimer.nDimer *
             lognBeta m s M0 M1 M2 n'.dimer.mDimer else 0),
         J * (s'.cMin * gasMW .C / Na) ^ 2 + 2 * (kG - kO) * lognArea M0 M1 M2 (10 / 6) +
           (if m.nucl.mech = .PAH then n'.dimer.mDimer * n'.dimer.nDimer *
             hmean (lognFm2 m.coag s (lognM M0 M1 M2) n'.dimer.mDimer) (lognC2 s (lognM M0 M1 M2) n'.dimer.mDimer)
            else 0) + (lognCoagVal m.coag s (lognM M0 M1 M2)).2] := by
  have hph := h.gas.acc.phys
  obtain ⟨J, n', s', hJ, hJ0, hs', hc', hJN, hd, hgas⟩ := h.toReady.nucl' (lognIbeta m) (by
    intro hp
    obtain ⟨p0, p1, py⟩ := hP hp
    exact ⟨_, lognIbeta_ok (h.upd (cMinAfter_pos hph)) hp p0 (mDimerAfter_pos hph h.pah py)⟩)
  have hmD : m.nucl.mech = .PAH → 0 < n'.dimer.mDimer := fun hp => by
    rw [(nucl_pah_inv hph h.pah hp hJ).2.1]; exact mDimerAfter_pos hph h.pah (hP hp).2.2
  have hr : LognReady m s' M0 M1 M2 := by rw [hs']; exact h.upd hc'
  obtain ⟨kG, hG, hG0, hGN, _⟩ := hr.grow
  obtain ⟨kO, hO, hO0, hON⟩ := hr.oxid
  obtain ⟨hn1, _⟩ := Nucl.rate_inv hJ
  have hph' := hr.gas.acc.phys
  have eM : ∀ {r : ℝ}, r ≠ 0 → r ≠ 1 → lognMr r M0 M1 M2 = ok (lognM M0 M1 M2 r) := fun a b => by
    rw [lognMr_ok h.m1 h.m2, lognM_frac _ _ _ a b]
  have e1 : lognFm1 m.coag s' (lognM M0 M1 M2) = lognFm1 m.coag s (lognM M0 M1 M2) := by rw [hs']; rfl
  have e2 : lognFm2 m.coag s' (lognM M0 M1 M2) = lognFm2 m.coag s (lognM M0 M1 M2) := by rw [hs']; rfl
  have e3 : lognC1 s' (lognM M0 M1 M2) = lognC1 s (lognM M0 M1 M2) := by rw [hs']; rfl
  have e4 : lognC2 s' (lognM M0 M1 M2) = lognC2 s (lognM M0 M1 M2) := by rw [hs']; rfl
  have e5 : lognCoagVal m.coag s' (lognM M0 M1 M2) = lognCoagVal m.coag s (lognM M0 M1 M2) := by rw [hs']; rfl
  have hcnd : ((if n'.mech = .PAH then do
      let mD := n'.dimer.mDimer
      let nD := n'.dimer.nDimer
      let (Ifm1, Ic1) ← lognI1 m.coag s' M0 M1 M2 mD
      let (Ifm2, Ic2) ← lognI2 m.coag s' M0 M1 M2 mD
      let q1 ← cdiv (mD * nD * (Ifm1 * Ic1)) (Ifm1 + Ic1)
      let q2 ← cdiv (mD * nD * (Ifm2 * Ic2)) (Ifm2 + Ic2)
      ok (q1, q2)
    else ok (0, 0)) : Res (ℝ × ℝ)) =
      ok ((if m.nucl.mech = .PAH then n'.dimer.mDimer * n'.dimer.nDimer * lognBeta m s M0 M1 M2 n'.dimer.mDimer else 0),
        (if m.nucl.mech = .PAH then n'.dimer.mDimer * n'.dimer.nDimer *
          hmean (lognFm2 m.coag s (lognM M0 M1 M2) n'.dimer.mDimer) (lognC2 s (lognM M0 M1 M2) n'.dimer.mDimer)
            else 0)) := by
    rw [hn1]
    split_ifs with hx
    · obtain ⟨p0, p1, py⟩ := hP hx
      have hD := hmD hx
      have a1 := lognC1_pos h p0 hD
      have a2 := lognC2_pos h p1 hD
      have b1 := lognFm1_nonneg (lognM_nonneg h.m0 h.m1 h.m2) hph h.fm hD
      have b2 := lognFm2_nonneg (lognM_nonneg h.m0 h.m1 h.m2) hph h.fm hD
      simp only [lognI1_ok hph' h.m1 h.m2 hD, lognI2_ok hph' h.m1 h.m2 hD, ok_bind, e1, e2, e3, e4]
      rw [cdiv_ok (by linarith), ok_bind, cdiv_ok (by linarith), ok_bind]
      simp only [lognBeta, hmean, mul_div_assoc]
    · rfl
  have hg1 : ((if m.grow.mech ≠ .NONE then do
      let K ← m.grow.rate m.ctx s'
      ok (K * π * (6 / (π * rhoSoot)) ^ twothird * lognM M0 M1 M2 (4 / 6),
        K * π * (6 / (π * rhoSoot)) ^ twothird * lognM M0 M1 M2 (10 / 6) * 2)
    else ok (0, 0)) : Res (ℝ × ℝ)) = ok (kG * lognArea M0 M1 M2 (4 / 6), 2 * (kG * lognArea M0 M1 M2 (10 / 6))) := by
    split_ifs with hx
    · rw [hG, ok_bind]; unfold lognArea; congr 2 <;> ring
    · rw [hGN (not_not.mp hx)]; simp
  have ho1 : ((if m.oxid.mechType ≠ .NONE then do
      let K ← m.oxid.rate m.ctx s'
      ok (-K * π * (6 / (π * rhoSoot)) ^ twothird * lognM M0 M1 M2 (4 / 6),
        -K * π * (6 / (π * rhoSoot)) ^ twothird * lognM M0 M1 M2 (10 / 6) * 2)
    else ok (0, 0)) : Res (ℝ × ℝ)) =
      ok (-(kO * lognArea M0 M1 M2 (4 / 6)), -(2 * (kO * lognArea M0 M1 M2 (10 / 6)))) := by
    split_ifs with hx
    · rw [hO, ok_bind]; unfold lognArea; congr 2 <;> ring
    · rw [hON (not_not.mp hx)]; simp
  have hN : ∀ k, (if n'.mech ≠ .NONE then J * (s'.cMin * gasMW .C / Na) ^ k else 0) =
      J * (s'.cMin * gasMW .C / Na) ^ k := by
    intro k; split_ifs with hx
    · rfl
    · rw [hJN (by rw [← hn1]; exact not_not.mp hx)]; simp
  have hlen : m.sources.soot.length = 3 := by rw [h.wf.srcLen, h.nsoot]
  have hset : ∀ x y z, (setIdx m.sources.soot 0 x >>= fun v => setIdx v 1 y >>= fun v => setIdx v 2 z) =
      ok [x, y, z] := by
    intro x y z
    match m.sources.soot, hlen with
    | [_, _, _], _ => simp [setIdx]
  obtain ⟨m', hf⟩ := Model.finish_ok (n := n')
    [J + (lognCoagVal m.coag s (lognM M0 M1 M2)).1,
         J * (s'.cMin * gasMW .C / Na) + (kG - kO) * lognArea M0 M1 M2 (4 / 6) +
           (if m.nucl.mech = .PAH then n'.dimer.mDimer * n'.dimer.nDimer *
             lognBeta m s M0 M1 M2 n'.dimer.mDimer else 0),
         J * (s'.cMin * gasMW .C / Na) ^ 2 + 2 * (kG - kO) * lognArea M0 M1 M2 (10 / 6) +
           (if m.nucl.mech = .PAH then n'.dimer.mDimer * n'.dimer.nDimer *
             hmean (lognFm2 m.coag s (lognM M0 M1 M2) n'.dimer.mDimer) (lognC2 s (lognM M0 M1 M2) n'.dimer.mDimer)
            else 0) + (lognCoagVal m.coag s (lognM M0 M1 M2)).2] m.sources.tar
    (J * (s'.cMin * gasMW .C / Na)) (kG * lognArea M0 M1 M2 (4 / 6)) (-(kO * lognArea M0 M1 M2 (4 / 6))) h.wf (hgas _)
  have hsoot := (Model.finish_gasC hf).2.1
  refine ⟨m', s', J, n', kG, kO, ?_, hJ, hs', hc', hG, hO, hJ0, hG0, hO0, hJN, fun hp => ⟨hmD hp, (hd hp).2⟩,
    by rw [hsoot]; exact hf, hsoot⟩
  have hterms : lognTerms m s = ok ⟨fun k => J * (s'.cMin * gasMW .C / Na) ^ k,
      (if m.nucl.mech = .PAH then n'.dimer.mDimer * n'.dimer.nDimer * lognBeta m s M0 M1 M2 n'.dimer.mDimer else 0),
      (if m.nucl.mech = .PAH then n'.dimer.mDimer * n'.dimer.nDimer *
          hmean (lognFm2 m.coag s (lognM M0 M1 M2) n'.dimer.mDimer) (lognC2 s (lognM M0 M1 M2) n'.dimer.mDimer)
            else 0), kG * lognArea M0 M1 M2 (4 / 6),
      2 * (kG * lognArea M0 M1 M2 (10 / 6)), -(kO * lognArea M0 M1 M2 (4 / 6)),
      -(2 * (kO * lognArea M0 M1 M2 (10 / 6))), (lognCoagVal m.coag s (lognM M0 M1 M2)).1,
      (lognCoagVal m.coag s (lognM M0 M1 M2)).2, n', s'⟩ := by
    rw [lognTerms, h.soot]
    simp only [idx_cons_zero, idx_cons_succ, ok_bind]
    rw [eM (by norm_num) (by norm_num), ok_bind, eM (by norm_num) (by norm_num), ok_bind, hJ, ok_bind]
    simp only
    rw [hcnd, ok_bind]
    simp only
    rw [hg1, ok_bind]
    simp only
    rw [ho1, ok_bind]
    simp only
    rw [lognCoag_ok hph' h.fm h.fuchs h.m0 h.m1 h.m2, ok_bind, e5]
    simp only [hN]
  rw [lognSources, hterms, ok_bind]
  have hassoc : ∀ {α : Type} (l : List ℝ) (x y z : ℝ) (f : List ℝ → Res α),
      (setIdx l 0 x >>= fun v => setIdx v 1 y >>= fun v => setIdx v 2 z >>= f) =
        ((setIdx l 0 x >>= fun v => setIdx v 1 y >>= fun v => setIdx v 2 z) >>= f) := by
    intro α l x y z f
    rw [Res.bind_assoc]
    congr 1; funext v
    rw [Res.bind_assoc]
  rw [hassoc, hset, ok_bind]
  simp only [pow_zero, pow_one, mul_one]
  have hl : ∀ {v w : List ℝ}, v = w → m.finish n' w m.sources.tar (J * (s'.cMin * gasMW .C / Na))
      (kG * lognArea M0 M1 M2 (4 / 6)) (-(kO * lognArea M0 M1 M2 (4 / 6))) = ok m' →
      m.finish n' v m.sources.tar (J * (s'.cMin * gasMW .C / Na))
      (kG * lognArea M0 M1 M2 (4 / 6)) (-(kO * lognArea M0 M1 M2 (4 / 6))) = ok m' := fun e hw => e ▸ hw
  rw [hl _ hf, ok_bind]
  simp only [List.cons.injEq, and_true]
  refine ⟨by ring, by ring, by ring⟩

end

theorem exLognReady (n : NuclMech) (hn : n ≠ .AJ_RED) (hb : n ≠ .BROWN) (g : GrowMech) (o : OxidMech) (c : CoagMech)
    (hc : c = .FM ∨ c = .CONTINUUM ∨ c = .HM) {M0 M1 M2 : ℝ} (h0 : 0 ≤ M0) (h1 : 0 ≤ M1) (h2 : 0 ≤ M2) (clean : Bool) :
    LognReady (exModel .LOGN 3 n g o c) (exSt [M0, M1, M2] clean) M0 M1 M2 where
  toReady := exReady .LOGN 3 n hn hb g o c _ clean rfl (by norm_num) (by simp [h0, h1, h2])
  psd := rfl
  nsoot := rfl
  notar := rfl
  kernel := hc
  soot := exSt_sootVar _ (by simp [h0, h1, h2])

theorem exSt_pah (v : List ℝ) : ∃ y ∈ (exSt v false).yPah, y ≠ 0 :=
  ⟨0.001, by simp [exSt_eq, stateAfter, exArgs, argsEx2, argsEx], by norm_num⟩

/-! ## C26 -/

/-- **C26 (true part).** LOGN with any nucleation other than PAH finishes with finite sources on every ready state,
whatever the (non-negative) moments, the empty distribution included. The exact condition with PAH is
`C26_pah_exact`. -/
theorem C26_logn_total_partial (m : Model) (s : State) (M0 M1 M2 : ℝ) (h : LognReady m s M0 M1 M2)
    (hp : m.nucl.mech ≠ .PAH) : ∃ m', lognSources m s = ok (m', s) ∧ m'.sources.soot.length = 3 := by
  obtain ⟨m', s', J, n', kG, kO, h1, h2, _, _, _, _, _, _, _, _, _, _, h3⟩ := logn_eval h (fun hx => absurd hx hp)
  obtain ⟨_, rfl⟩ := (Nucl.rate_inv h2).2.1 hp
  exact ⟨m', h1, by rw [h3]; rfl⟩

example : ∃ m', lognSources (exModel .LOGN 3 .LL .HACA .NSC_NEOH .HM) (exSt [0, 0, 0] false) =
    ok (m', exSt [0, 0, 0] false) ∧ m'.sources.soot.length = 3 :=
  C26_logn_total_partial _ _ 0 0 0 (exLognReady .LL (by simp) (by simp) .HACA .NSC_NEOH .HM (by simp) le_rfl le_rfl
    le_rfl false) (by simp [exModel, Nucl.new])

theorem lognI1_zero_dimer {c : Coag} {s : State} {M0 M1 M2 : ℝ} (h1 : 0 ≤ M1) (h2 : 0 ≤ M2) :
    lognI1 c s M0 M1 M2 0 = nonfin := by
  have e : cpow 0 (-1 / 6) = nonfin := by norm_num [cpow]
  simp only [lognI1, lognMr_ok h1 h2, ok_bind, cpow_ok' le_rfl (show (0 : ℝ) ≤ 1 / 6 by norm_num), e, nonfin_bind]

theorem lognIbeta_eq {m : Model} {s : State} {M0 M1 M2 : ℝ} (hp : m.nucl.mech = .PAH) (h : s.sootVar = [M0, M1, M2])
    (mD : ℝ) : lognIbeta m s mD = lognI1 m.coag s M0 M1 M2 mD >>= fun p => cdiv (p.1 * p.2) (p.1 + p.2) := by
  simp only [lognIbeta, hp, ne_eq, not_true_eq_false, if_false, h, idx_cons_zero, idx_cons_succ, ok_bind]

/-- A failing collision rate makes the whole evaluation non-finite. -/
theorem lognSources_nonfin {m : Model} {s : State} {M0 M1 M2 : ℝ} (h : LognReady m s M0 M1 M2)
    (hp : m.nucl.mech = .PAH)
    (hib : lognIbeta m { s with cMin := cMinAfter s } (mDimerAfter s) = nonfin) : lognSources m s = nonfin := by
  have e := nuclPAH_nonfin h.gas.acc.phys h.pah m.nucl (lognIbeta m) hib
  rw [← Nucl.rate_pah hp] at e
  simp only [lognSources, lognTerms, h.soot, idx_cons_zero, idx_cons_succ, ok_bind, lognMr_ok h.m1 h.m2, e, nonfin_bind]

/-- **C26 (exact condition with PAH nucleation).** The evaluation finishes with finite sources if and only if
there are particles, they have mass, and some PAH is present; in every other case an Inf or NaN arises. -/
theorem C26_pah_exact (m : Model) (s : State) (M0 M1 M2 : ℝ) (h : LognReady m s M0 M1 M2) (hp : m.nucl.mech = .PAH) :
    (0 < M0 ∧ 0 < M1 ∧ (∃ y ∈ s.yPah, y ≠ 0) → ∃ m' s', lognSources m s = ok (m', s')) ∧
      (¬ (0 < M0 ∧ 0 < M1 ∧ ∃ y ∈ s.yPah, y ≠ 0) → lognSources m s = nonfin) := by
  have hph := h.gas.acc.phys
  refine ⟨fun hx => ?_, fun hx => ?_⟩
  · obtain ⟨m', s', _, _, _, _, h1, _⟩ := logn_eval h (fun _ => hx)
    exact ⟨m', s', h1⟩
  · have hr := h.upd (cMinAfter_pos hph)
    by_cases hy : ∃ y ∈ s.yPah, y ≠ 0
    · have hD := mDimerAfter_pos hph h.pah hy
      rcases h.m0.eq_or_lt with h0 | h0
      · subst h0
        refine lognSources_nonfin h hp ?_
        have e : lognM 0 M1 M2 = fun r => if r = 1 then M1 else 0 := by
          funext r; unfold lognM
          by_cases h0 : r = 0
          · subst h0; simp
          · rw [if_neg h0, lognMrVal_zero le_rfl]
        rw [lognIbeta_eq hp hr.soot, lognI1_ok hr.gas.acc.phys h.m1 h.m2 hD, ok_bind, e]
        simp only
        have e1 : lognFm1 m.coag { s with cMin := cMinAfter s } (fun r => if r = 1 then M1 else 0) (mDimerAfter s) = 0 := by
          unfold lognFm1; norm_num
        have e2 : lognC1 { s with cMin := cMinAfter s } (fun r => if r = 1 then M1 else 0) (mDimerAfter s) = 0 := by
          unfold lognC1; norm_num
        rw [e1, e2]; simp [cdiv]
      · have h1 : M1 = 0 := by
          by_contra hne
          exact hx ⟨h0, lt_of_le_of_ne h.m1 (Ne.symm hne), hy⟩
        subst h1
        obtain ⟨J, n', s', hJ, _, hs', hc', _⟩ := h.toReady.nucl' (lognIbeta m)
          (fun _ => ⟨_, lognIbeta_ok hr hp h0 hD⟩)
        have hm := (nucl_pah_inv hph h.pah hp hJ).2.1
        have hr' : LognReady m s' M0 0 M2 := by rw [hs']; exact h.upd hc'
        have hn1 := (Nucl.rate_inv hJ).1
        have hp' : n'.mech = .PAH := hn1.trans hp
        have hD' : 0 < n'.dimer.mDimer := by rw [hm]; exact hD
        have z : ∀ r, r ≠ 0 → r < 2 → lognM M0 0 M2 r = 0 := by
          intro r hr0 hr2
          unfold lognM
          rw [if_neg hr0]
          split_ifs
          · rfl
          · unfold lognMrVal
            split_ifs with hb
            · rfl
            · push Not at hb
              have : 0 < r * (2 - r) := hb.2.1 le_rfl
              rw [zero_rpow this.ne']; ring
        have e1 : lognFm2 m.coag s' (lognM M0 0 M2) n'.dimer.mDimer = 0 := by
          unfold lognFm2
          rw [z 1 (by norm_num) (by norm_num), z (8 / 6) (by norm_num) (by norm_num), z (10 / 6) (by norm_num) (by norm_num),
            z (5 / 6) (by norm_num) (by norm_num), z (3 / 6) (by norm_num) (by norm_num), z (7 / 6) (by norm_num) (by norm_num)]
          ring
        have e2 : lognC2 s' (lognM M0 0 M2) n'.dimer.mDimer = 0 := by
          unfold lognC2
          rw [z 1 (by norm_num) (by norm_num), z (8 / 6) (by norm_num) (by norm_num), z (4 / 6) (by norm_num) (by norm_num),
            z (2 / 6) (by norm_num) (by norm_num)]
          ring
        have b1 := lognC1_pos hr' h0 hD'
        have b2 := lognFm1_nonneg (lognM_nonneg hr'.m0 hr'.m1 hr'.m2) hr'.gas.acc.phys h.fm hD'
        simp only [lognSources, lognTerms, h.soot, idx_cons_zero, idx_cons_succ, ok_bind, lognMr_ok h.m1 h.m2, hJ, hp',
          if_true, lognI1_ok hr'.gas.acc.phys h.m1 h.m2 hD', lognI2_ok hr'.gas.acc.phys h.m1 h.m2 hD', e1, e2]
        rw [cdiv_ok (by linarith)]
        simp [cdiv]
    · have hz : mDimerAfter s = 0 := by
        push Not at hy
        rw [mDimerAfter, if_neg]
        have : pahTot s = 0 := Finset.sum_eq_zero fun sp _ => by
          have : pahN s sp = 0 := by
            unfold pahN
            by_cases hi : sp.toNat < s.yPah.length
            · rw [getD_of_lt hi, hy _ (List.getElem_mem _)]; simp
            · simp [List.getD_eq_getElem?_getD, not_lt.mp hi]
          simp [pahNdot, this]
        rw [this]; exact lt_irrefl _
      refine lognSources_nonfin h hp ?_
      rw [lognIbeta_eq hp hr.soot, hz, lognI1_zero_dimer h.m1 h.m2, nonfin_bind]

/-- **C26 is false with PAH nucleation:** an accepted state without soot gives a non-finite result. -/
theorem C26_false_for_pah : ∃ m s M0 M1 M2, LognReady m s M0 M1 M2 ∧
    Model.new .LOGN 3 .PAH .LL .LL .HM = ok m ∧ s.sootVar = [0, 0, 0] ∧ lognSources m s = nonfin := by
  have h := exLognReady .PAH (by simp) (by simp) .LL .LL .HM (by simp) le_rfl le_rfl le_rfl false
  exact ⟨_, _, _, _, _, h, exModel_new rfl _ _ _, h.soot, (C26_pah_exact _ _ _ _ _ h rfl).2 (by simp)⟩

example : ∃ m' s', lognSources (exModel .LOGN 3 .PAH .LL .LL .HM) (exSt [1E15, 1E-6, 2E-27] false) = ok (m', s') :=
  (C26_pah_exact _ _ _ _ _ (exLognReady .PAH (by simp) (by simp) .LL .LL .HM (by simp) (by norm_num) (by norm_num)
    (by norm_num) false) rfl).1 ⟨by norm_num, by norm_num, exSt_pah _⟩

/-! ## C11 -/

theorem lognTerms_nucl {m : Model} {s : State} {t : LognTerms} (h : lognTerms m s = ok t) :
    ∃ j, m.nucl.rate (lognIbeta m) s = ok (j, t.nucl, t.st) := by
  simp only [lognTerms, bind_eq_ok] at h
  obtain ⟨M0, _, M1, _, M2, _, M46, _, M106, _, ⟨j, n, s'⟩, h1, ⟨q1, q2⟩, _, ⟨g1, g2⟩, _, ⟨x1, x2⟩, _, ⟨c0, c2⟩, _, h⟩ := h
  cases h
  exact ⟨j, h1⟩

theorem lognSources_inv {m m' : Model} {s s' : State} (h : lognSources m s = ok (m', s')) :
    ∃ t, lognTerms m s = ok t ∧ s' = t.st ∧ 2 < m.sources.soot.length ∧
      m.finish t.nucl (((m.sources.soot.set 0 (t.N 0 + 0 + 0 - 0 + t.C0)).set 1 (t.N 1 + t.G1 + t.Cnd1 + t.X1 + 0)).set 2
        (t.N 2 + t.G2 + t.Cnd2 + t.X2 + t.C2)) m.sources.tar (t.N 1) t.G1 t.X1 = ok m' := by
  simp only [lognSources, bind_eq_ok, setIdx_eq_ok] at h
  obtain ⟨t, h1, v, ⟨_, rfl⟩, v', ⟨_, rfl⟩, v'', ⟨h2, rfl⟩, m1, h3, h⟩ := h
  cases h
  exact ⟨t, h1, rfl, by simpa using h2, h3⟩

/-- **C11 (LOGN).** Whenever an evaluation without PAH finishes, the gas sources and the first-moment source
add up to zero. -/
theorem C11_logn (m m' : Model) (s s' : State) (hw : m.WF) (hp : m.nucl.mech ≠ .PAH)
    (h : lognSources m s = ok (m', s')) :
    ∃ y, m'.sources.soot[1]? = some y ∧ (∑ sp, m'.sources.gas sp) + y = 0 := by
  obtain ⟨t, ht, _, hl, hf⟩ := lognSources_inv h
  simp only [lognTerms, bind_eq_ok] at ht
  obtain ⟨M0, _, M1, _, M2, _, M46, _, M106, _, ⟨j, n, s'⟩, h1, ⟨q1, q2⟩, h2, ⟨g1, g2⟩, h3, ⟨x1, x2⟩, h4, ⟨c0, c2⟩, _, ht⟩ := ht
  cases ht
  obtain ⟨rfl, rfl⟩ := (Nucl.rate_inv h1).2.1 hp
  simp only [if_neg hp] at h2
  cases h2
  have hbal := Model.finish_balance hw hp hw.nucl
    (fun hx => by simp [hx])
    (fun hx => by simp only [hx, ne_eq, not_true_eq_false, if_false] at h3; cases h3; rfl)
    (fun hx => by simp only [hx, ne_eq, not_true_eq_false, if_false] at h4; cases h4; rfl) hf
  have e := (Model.finish_gasC hf).2.1
  have e1 := congrArg (fun l => l[1]?) e
  simp only at e1
  rw [List.getElem?_set_ne (by norm_num), List.getElem?_set_self (by simp; omega)] at e1
  refine ⟨_, e1, ?_⟩
  rw [hbal]; simp only; ring

example : ∃ m' s' y, lognSources (exModel .LOGN 3 .LL .HACA .NSC_NEOH .HM) (exSt [1E15, 1E-6, 2E-27] false) = ok (m', s') ∧
    m'.sources.soot[1]? = some y ∧ (∑ sp, m'.sources.gas sp) + y = 0 := by
  have hr := exLognReady .LL (by simp) (by simp) .HACA .NSC_NEOH .HM (by simp) (M0 := 1E15) (M1 := 1E-6) (M2 := 2E-27)
    (by norm_num) (by norm_num) (by norm_num) false
  obtain ⟨m', h, _⟩ := C26_logn_total_partial _ _ _ _ _ hr (by simp [exModel, Nucl.new])
  obtain ⟨y, h1, h2⟩ := C11_logn _ _ _ _ hr.wf (by simp [exModel, Nucl.new]) h
  exact ⟨m', _, y, h, h1, h2⟩

/-! ## C16, C17, C18 -/

/-- **C16, C17 (LOGN).** The number source never exceeds the nucleation rate (coagulation only removes particles);
replacing the coagulation mechanism by any other one changes neither the mass source nor any gas source; and the
second-moment source is at least what nucleation, condensation and surface reactions give. -/
theorem C16_C17_logn (m : Model) (k : CoagMech) (s : State) (M0 M1 M2 : ℝ) (h : LognReady m s M0 M1 M2)
    (hP : LognPah m s M0 M1) (hk : k = .FM ∨ k = .CONTINUUM ∨ k = .HM) :
    ∃ m' m'' s' J n' x y z x' z' z0, lognSources m s = ok (m', s') ∧
      lognSources { m with coag := { m.coag with mech := k } } s = ok (m'', s') ∧
      m.nucl.rate (lognIbeta m) s = ok (J, n', s') ∧
      m'.sources.soot = [x, y, z] ∧ m''.sources.soot = [x', y, z'] ∧ m''.sources.gas = m'.sources.gas ∧
      x ≤ J ∧ x' ≤ J ∧ z0 ≤ z ∧ z0 ≤ z' ∧
      (∃ kG kO cnd2, m.grow.rate m.ctx s' = ok kG ∧ m.oxid.rate m.ctx s' = ok kO ∧ 0 ≤ cnd2 ∧
        (m.nucl.mech ≠ .PAH → cnd2 = 0) ∧
        z0 = J * (s'.cMin * gasMW .C / Na) ^ 2 + 2 * (kG - kO) * lognArea M0 M1 M2 (10 / 6) + cnd2) := by
  have h' : LognReady { m with coag := { m.coag with mech := k } } s M0 M1 M2 :=
    ⟨⟨⟨h.wf.nucl, h.wf.grow, h.wf.oxid, h.wf.srcPah, h.wf.srcTar, h.wf.tarLen, h.wf.tarTail, h.wf.srcLen⟩, h.fm, h.gas,
      h.pah, h.sized, h.sing, h.tar, h.mtar⟩, h.psd, h.nsoot, h.notar, hk, h.soot⟩
  obtain ⟨m', s', J, n', kG, kO, h1, h2, h3, h4, h5, h6, h7, h8, h9, h10, h11, h12, h13⟩ := logn_eval h hP
  obtain ⟨m'', s'', J', n'', kG', kO', k1, k2, k3, k4, k5, k6, k7, k8, k9, k10, k11, k12, k13⟩ := logn_eval h' hP
  have k2' : m.nucl.rate (lognIbeta m) s = ok (J', n'', s'') := k2
  cases h2.symm.trans k2'
  have k5' : m.grow.rate m.ctx s' = ok kG' := k5
  cases h5.symm.trans k5'
  have k6' : m.oxid.rate m.ctx s' = ok kO' := k6
  cases h6.symm.trans k6'
  have hM := lognM_nonneg h.m0 h.m1 h.m2
  have s1 := lognCoagVal_sign (c := m.coag) h.gas.acc.phys h.fm hM
  have s2 := lognCoagVal_sign (c := { m.coag with mech := k }) h.gas.acc.phys h.fm hM
  refine ⟨m', m'', s', J, n', _, _, _, _, _, J * (s'.cMin * gasMW .C / Na) ^ 2 + 2 * (kG - kO) * lognArea M0 M1 M2 (10 / 6) +
           (if m.nucl.mech = .PAH then n'.dimer.mDimer * n'.dimer.nDimer *
             hmean (lognFm2 m.coag s (lognM M0 M1 M2) n'.dimer.mDimer) (lognC2 s (lognM M0 M1 M2) n'.dimer.mDimer)
            else 0), h1, k1, h2, h13, k13, ?_, by linarith [s1.1], by linarith [s2.1], by linarith [s1.2], ?_,
    kG, kO, _, h5, h6, ?_, ?_, rfl⟩
  · obtain ⟨a1, a2, a3, b1, b2, b3, e1⟩ := Model.finish_inv h12
    obtain ⟨a1', a2', a3', b1', b2', b3', e1'⟩ := Model.finish_inv k12
    cases b1.symm.trans b1'
    cases b2.symm.trans b2'
    cases b3.symm.trans b3'
    rw [e1, e1']
  · have : lognFm2 { m.coag with mech := k } = lognFm2 m.coag := rfl
    simp only [this]; linarith [s2.2]
  · split_ifs with hx
    · obtain ⟨d1, d2⟩ := h11 hx
      have a1 := lognFm2_nonneg (c := m.coag) hM h.gas.acc.phys h.fm d1
      have a2 := (lognC2_pos h (hP hx).2.1 d1).le
      unfold hmean; positivity
    · exact le_rfl
  · intro hx; rw [if_neg hx]

example : ∃ m' s' J n' x y z, lognSources (exModel .LOGN 3 .LL .LL .LL .FM) (exSt [1E15, 1E-6, 2E-27] false) = ok (m', s') ∧
    (exModel .LOGN 3 .LL .LL .LL .FM).nucl.rate (lognIbeta (exModel .LOGN 3 .LL .LL .LL .FM)) (exSt [1E15, 1E-6, 2E-27] false)
      = ok (J, n', s') ∧ m'.sources.soot = [x, y, z] ∧ x ≤ J := by
  obtain ⟨m', _, s', J, n', x, y, z, _, _, _, h1, _, h2, h3, _, _, h4, _⟩ := C16_C17_logn _ .HM _ _ _ _
    (exLognReady .LL (by simp) (by simp) .LL .LL .FM (by simp) (M0 := 1E15) (M1 := 1E-6) (M2 := 2E-27)
    (by norm_num) (by norm_num) (by norm_num) false) (fun hx => by simp [exModel, Nucl.new] at hx) (by simp)
  exact ⟨m', s', J, n', x, y, z, h1, h2, h3, h4⟩

/-- **C18 is false:** with harmonic-mean coagulation the number source is exactly the nucleation rate on every
state on which the evaluation can finish, so coagulation never removes a particle. -/
theorem C18_hm_has_no_number_loss (m : Model) (s : State) (M0 M1 M2 : ℝ) (h : LognReady m s M0 M1 M2)
    (hP : LognPah m s M0 M1) (hk : m.coag.mech = .HM) :
    ∃ m' s' J n', lognSources m s = ok (m', s') ∧ m.nucl.rate (lognIbeta m) s = ok (J, n', s') ∧
      m'.sources.soot[0]? = some J := by
  obtain ⟨m', s', J, n', kG, kO, h1, h2, h3, h4, h5, h6, h7, h8, h9, h10, h11, h12, h13⟩ := logn_eval h hP
  refine ⟨m', s', J, n', h1, h2, ?_⟩
  rw [h13]; simp [lognCoagVal, hk]

/-- A concrete populated state with HM coagulation and no nucleation: the number source is 0, not negative. -/
theorem C18_false : ∃ m s m' s', Model.new .LOGN 3 .NONE .NONE .NONE .HM = ok m ∧
    s.sootVar = [1E15, 1E-6, 2E-27] ∧ Accepted s ∧ lognSources m s = ok (m', s') ∧ m'.sources.soot[0]? = some 0 := by
  have h := exLognReady .NONE (by simp) (by simp) .NONE .NONE .HM (by simp) (M0 := 1E15) (M1 := 1E-6) (M2 := 2E-27)
    (by norm_num) (by norm_num) (by norm_num) false
  obtain ⟨m', s', J, n', h1, h2, h3⟩ := C18_hm_has_no_number_loss _ _ _ _ _ h
    (fun hx => by simp [exModel, Nucl.new] at hx) rfl
  have : J = 0 := (Nucl.rate_inv h2).2.2.1 rfl
  subst this
  exact ⟨_, _, m', s', exModel_new rfl _ _ _, h.soot, h.gas.acc, h1, h3⟩

/-- **C18 (what holds).** With free-molecular or continuum coagulation and positive moments the number source is
strictly below the nucleation rate. (Full claim: also for HM — false, see above.) -/
theorem C18_number_loss_partial (m : Model) (s : State) (M0 M1 M2 : ℝ) (h : LognReady m s M0 M1 M2)
    (hP : LognPah m s M0 M1) (h0 : 0 < M0) (h1 : 0 < M1) (h2 : 0 < M2)
    (hk : m.coag.mech = .FM ∨ m.coag.mech = .CONTINUUM) :
    ∃ m' s' J n' x, lognSources m s = ok (m', s') ∧ m.nucl.rate (lognIbeta m) s = ok (J, n', s') ∧
      m'.sources.soot[0]? = some x ∧ x < J := by
  obtain ⟨m', s', J, n', kG, kO, e1, e2, _, _, _, _, _, _, _, _, _, _, e3⟩ := logn_eval h hP
  refine ⟨m', s', J, n', _, e1, e2, by rw [e3]; rfl, ?_⟩
  have hph := h.gas.acc.phys
  have hM := lognM_nonneg h.m0 h.m1 h.m2
  have : (lognCoagVal m.coag s (lognM M0 M1 M2)).1 < 0 := by
    rcases hk with hk | hk
    · have hp : ∀ r, 0 < lognM M0 M1 M2 r := by
        intro r; unfold lognM; split_ifs
        · exact h0
        · exact h1
        · rw [lognMrVal_pos h0 h1 h2]; positivity
      have a1 := Coag.kfmVal_pos (c := m.coag) hph h.fm
      have a2 := bCoag_pos
      have a3 := hp 0; have a4 := hp (2/6); have a5 := hp (4/6); have a6 := hp (-1/6); have a7 := hp (-3/6)
      have a8 := hp (1/6)
      have : 0 < lognCoa0Fm m.coag s (lognM M0 M1 M2) := by unfold lognCoa0Fm; positivity
      simp only [lognCoagVal, hk]; linarith
    · have a1 := lognCoa0C_ge (s := s) hM hph
      rw [lognM_zero] at a1
      have := kcVal_pos hph
      have : 0 < kcVal s * (M0 * M0) := by positivity
      simp only [lognCoagVal, hk]; linarith
  linarith

example : ∃ m' s' J n' x, lognSources (exModel .LOGN 3 .LL .LL .LL .FM) (exSt [1E15, 1E-6, 2E-27] false) = ok (m', s') ∧
    (exModel .LOGN 3 .LL .LL .LL .FM).nucl.rate (lognIbeta (exModel .LOGN 3 .LL .LL .LL .FM)) (exSt [1E15, 1E-6, 2E-27] false)
      = ok (J, n', s') ∧ m'.sources.soot[0]? = some x ∧ x < J :=
  C18_number_loss_partial _ _ _ _ _
    (exLognReady .LL (by simp) (by simp) .LL .LL .FM (by simp) (M0 := 1E15) (M1 := 1E-6) (M2 := 2E-27)
    (by norm_num) (by norm_num) (by norm_num) false) (fun hx => by simp [exModel, Nucl.new] at hx)
    (by norm_num) (by norm_num) (by norm_num) (by simp [exModel, Coag.new])

/-! ## C22 -/

/-- **C22 (LOGN).** The mass gained by condensation — mass source minus nucleated mass minus surface reactions —
equals dimer mass × dimer concentration × the collision rate `I` that balances the dimers. -/
theorem C22_logn (m : Model) (s : State) (M0 M1 M2 : ℝ) (h : LognReady m s M0 M1 M2) (hp : m.nucl.mech = .PAH)
    (h0 : 0 < M0) (h1 : 0 < M1) (hy : ∃ y ∈ s.yPah, y ≠ 0) :
    ∃ m' s' I kG kO y, lognSources m s = ok (m', s') ∧ lognIbeta m s' m'.nucl.dimer.mDimer = ok I ∧
      betaDD s m'.nucl.dimer.mDimer * m'.nucl.dimer.nDimer ^ 2 + I * m'.nucl.dimer.nDimer = m'.nucl.dimer.nDotD ∧
      0 < m'.nucl.dimer.nDimer ∧ m.grow.rate m.ctx s' = ok kG ∧ m.oxid.rate m.ctx s' = ok kO ∧
      m'.sources.soot[1]? = some y ∧
      y - betaDD s m'.nucl.dimer.mDimer * m'.nucl.dimer.nDimer ^ 2 / 2 * (s'.cMin * gasMW .C / Na) -
        (kG - kO) * lognArea M0 M1 M2 (4 / 6) = m'.nucl.dimer.mDimer * m'.nucl.dimer.nDimer * I := by
  obtain ⟨m', s', J, n', kG, kO, e1, e2, e3, e4, e5, e6, e7, e8, e9, e10, e11, e12, e13⟩ := logn_eval h (fun _ => ⟨h0, h1, hy⟩)
  have hr : LognReady m s' M0 M1 M2 := by rw [e3]; exact h.upd e4
  obtain ⟨d1, d2⟩ := e11 hp
  obtain ⟨hI, hI0⟩ := lognIbeta_ok hr hp h0 d1
  obtain ⟨b1, b2, b3, b4⟩ := dimer_balance h.gas.acc h.pah hp e2 hI hI0 hy
  have hn : m'.nucl = n' := by
    obtain ⟨_, _, _, _, _, _, e⟩ := Model.finish_inv e12; rw [e]
  have eb : lognBeta m s' M0 M1 M2 n'.dimer.mDimer = lognBeta m s M0 M1 M2 n'.dimer.mDimer := by rw [e3]; rfl
  subst hn
  refine ⟨m', s', _, kG, kO, _, e1, hI, b1, b2, e5, e6, by rw [e13]; rfl, ?_⟩
  rw [if_pos hp, ← b4, eb]; ring

example : ∃ m' s', lognSources (exModel .LOGN 3 .PAH .LL .LL .HM) (exSt [1E15, 1E-6, 2E-27] false) = ok (m', s') ∧
    0 < m'.nucl.dimer.nDimer := by
  obtain ⟨m', s', _, _, _, _, h1, _, _, h2, _⟩ := C22_logn _ _ _ _ _ (exLognReady .PAH (by simp) (by simp) .LL .LL .HM
    (by simp) (M0 := 1E15) (M1 := 1E-6) (M2 := 2E-27) (by norm_num) (by norm_num) (by norm_num) false) rfl
    (by norm_num) (by norm_num) (exSt_pah _)
  exact ⟨m', s', h1, h2⟩

/-! ## C20 -/

theorem lognSources_wf {m m' : Model} {s s' : State} (hw : m.WF) (h : lognSources m s = ok (m', s')) :
    m'.WF ∧ m.SameSpec m' := by
  obtain ⟨t, ht, _, hl, hf⟩ := lognSources_inv h
  obtain ⟨j, hj⟩ := lognTerms_nucl ht
  have he := (Nucl.rate_inv hj).1
  exact ⟨Model.finish_wf hw (Nucl.rate_wf hw.nucl hj) he (by simp) rfl (fun _ => rfl) rfl hf, Model.finish_spec he hf⟩

theorem set3_eq {l : List ℝ} (h : l.length = 3) (x y z : ℝ) {α : Type} (f : List ℝ → Res α) :
    (setIdx l 0 x >>= fun v => setIdx v 1 y >>= fun v => setIdx v 2 z >>= f) = f [x, y, z] := by
  match l, h with
  | [_, _, _], _ => simp [setIdx]

/-- A LOGN evaluation does not depend on what earlier evaluations left in the model object. -/
theorem lognSources_canon {m : Model} (hw : m.WF) (hn : m.nsoot = 3) (ht : m.tar = .NONE) (s : State) :
    lognSources m s = lognSources m.canon s := by
  have hterms : lognTerms m.canon s = lognTerms m s := by
    simp only [lognTerms]
    have e1 : lognIbeta m.canon = lognIbeta m := rfl
    have e2 : m.canon.nucl = Nucl.new m.nucl.mech := rfl
    rw [e1, e2, ← Nucl.rate_canon hw.nucl]
    rfl
  simp only [lognSources, hterms]
  apply Res.bind_congr
  intro t htt
  obtain ⟨j, hj⟩ := lognTerms_nucl htt
  have he := (Nucl.rate_inv hj).1
  have etar : m.canon.sources.tar = m.sources.tar := by rw [hw.srcTar ht]; rfl
  rw [set3_eq (by rw [hw.srcLen, hn]), set3_eq (by simp [Model.canon, Sources.new, hn])]
  rw [Model.finish_canon hw he, etar]

/-- **C20 (LOGN).** Without PAH nucleation, evaluating again on the unmodified state changes nothing. -/
theorem C20_logn (m m' : Model) (s s' : State) (hw : m.WF) (hn : m.nsoot = 3) (ht : m.tar = .NONE)
    (hp : m.nucl.mech ≠ .PAH) (h : lognSources m s = ok (m', s')) : lognSources m' s' = ok (m', s') ∧ s' = s := by
  obtain ⟨hw', hs⟩ := lognSources_wf hw h
  obtain ⟨t, htt, e, _⟩ := lognSources_inv h
  obtain ⟨j, hj⟩ := lognTerms_nucl htt
  have es : s' = s := by rw [e]; exact ((Nucl.rate_inv hj).2.1 hp).2
  subst es
  refine ⟨?_, rfl⟩
  rw [lognSources_canon hw' (hs.nsoot.trans hn) (hs.tar.trans ht), hs.canon_eq, ← lognSources_canon hw hn ht, h]

example : ∃ m', lognSources (exModel .LOGN 3 .LL .LL .LL .FM) (exSt [1E15, 1E-6, 2E-27] false) =
    ok (m', exSt [1E15, 1E-6, 2E-27] false) ∧
    lognSources m' (exSt [1E15, 1E-6, 2E-27] false) = ok (m', exSt [1E15, 1E-6, 2E-27] false) := by
  have hr := exLognReady .LL (by simp) (by simp) .LL .LL .FM (by simp) (M0 := 1E15) (M1 := 1E-6) (M2 := 2E-27)
    (by norm_num) (by norm_num) (by norm_num) false
  obtain ⟨m', h, _⟩ := C26_logn_total_partial _ _ _ _ _ hr (by simp [exModel, Nucl.new])
  exact ⟨m', h, (C20_logn _ _ _ _ hr.wf rfl rfl (by simp [exModel, Nucl.new]) h).1⟩

end Soot
