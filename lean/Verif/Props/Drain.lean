import Verif.Props.Logn
import Verif.Props.Momic
import Verif.Props.Agree
import Verif.Props.QmomDown
import Verif.Props.SectEq

/-!
# C83: an evaluation never drains an empty soot variable

Specification: `NoDrain v q` - where the soot variable `v k` is zero, its source `q k` is not negative (quasi-positivity, the condition under which
the variables of the transport equations stay non-negative).
-/

namespace Soot

open Res Real
open scoped Classical

/-- Where a variable is zero its source is not negative. -/
def NoDrain (v q : List ℝ) : Prop := ∀ k < v.length, v.getD k 0 = 0 → 0 ≤ q.getD k 0

/-- **C83 (MONO, what holds).** True of MONO unless there are no particles while the state still holds the weight of an earlier evaluation. -/
theorem C83_mono_partial (m : Model) (s : State) (M0 M1 w a : ℝ) (h : MonoReady m s M0 M1 w a) (hw : M0 = 0 → w = 0) :
    ∃ m' s', monoSources m s = ok (m', s') ∧ NoDrain s.sootVar m'.sources.soot := by
  obtain ⟨m', s', J, n', kG, kO, A, e, hJ, hs', hc, _, _, hA, hA0, hJ0, _, _, _, hS⟩ := mono_eval h
  refine ⟨m', s', e, ?_⟩
  have hM0 : 0 ≤ M0 := h.gas.acc.sootVar_nonneg M0 (by simp [h.soot])
  have hM1 : 0 ≤ M1 := h.gas.acc.sootVar_nonneg M1 (by simp [h.soot])
  have hr1 : Ready m { s with wts := [monoW M0 w], absc := [monoA M0 M1 a] } := h.toReady.upd h.gas.acc.phys.cMin _ _
  have hp' : State.Phys s' := by rw [hs']; exact (h.gas.acc.upd hc _ _).phys
  obtain ⟨_, _, _, q, _, _, _, _, hd, _⟩ := hr1.nucl (ibetaNodes m.coag) (by
    intro _ c mD hc _
    have hp : State.Phys { s with wts := [monoW M0 w], absc := [monoA M0 M1 a], cMin := c } := (h.gas.acc.upd hc _ _).phys
    exact ⟨_, ibetaNodes_ok hp h.fm (by simp) mD, Finset.sum_nonneg fun i _ => mul_nonneg (abs_nonneg _) (Coag.val_nonneg hp h.fm _ _)⟩)
  cases hJ.symm.trans q
  have hn : n'.mech = m.nucl.mech := (Nucl.rate_inv hJ).1
  have hw0 : 0 ≤ monoW M0 w := by
    unfold monoW; split_ifs with h0
    · exact hM0
    · rw [hw (le_antisymm (not_lt.mp h0) hM0)]
  rw [h.soot, hS]
  intro k hk hz
  match k, hk, hz with
  | 0, _, hz =>
    have hz : M0 = 0 := hz
    have : monoW M0 w = 0 := by simp [monoW, hz, hw hz]
    simp [this, hJ0]
  | 1, _, hz =>
    have hz : M1 = 0 := hz
    have hA' : A = 0 := by
      rcases hM0.eq_or_lt with h0 | h0
      · exact hA.1 h0.symm
      · rw [hA.2 h0 0 le_rfl (by rw [hz]; ring)]; ring
    have hW := gasMW_pos .C
    have hN := Na_pos
    have c1 : 0 ≤ (if n'.mech = .PAH then m.coag.val s' n'.dimer.mDimer (monoA M0 M1 a) * monoW M0 w * n'.dimer.nDimer * n'.dimer.mDimer else 0) := by
      split_ifs with hpah
      · obtain ⟨d1, d2⟩ := hd (hn ▸ hpah)
        have := Coag.val_nonneg hp' h.fm n'.dimer.mDimer (monoA M0 M1 a)
        positivity
      · exact le_rfl
    have c2 : 0 ≤ J * s'.cMin * gasMW .C / Na := by positivity
    simp only [List.getD_cons_succ, List.getD_cons_zero, hA', mul_zero, add_zero]
    linarith

/-- **C83 (LOGN).** Always true of LOGN. -/
theorem C83_logn (m : Model) (s : State) (M0 M1 M2 : ℝ) (h : LognReady m s M0 M1 M2) (hP : LognPah m s M0 M1) :
    ∃ m' s', lognSources m s = ok (m', s') ∧ NoDrain s.sootVar m'.sources.soot := by
  obtain ⟨m', s', J, n', kG, kO, e, hJ, hs', hc, _, _, hJ0, _, _, _, hd, _, hS⟩ := logn_eval h hP
  refine ⟨m', s', e, ?_⟩
  have hph := h.gas.acc.phys
  have hM := lognM_nonneg h.m0 h.m1 h.m2
  have hW := gasMW_pos .C
  have hN := Na_pos
  rw [h.soot, hS]
  intro k hk hz
  match k, hk, hz with
  | 0, _, hz =>
    have hz : M0 = 0 := hz
    have z : ∀ r, r ≠ 1 → lognM M0 M1 M2 r = 0 := fun r hr => by
      unfold lognM
      by_cases h0 : r = 0
      · rw [if_pos h0, hz]
      · rw [if_neg h0, if_neg hr, lognMrVal_zero hz.le]
    have c : (lognCoagVal m.coag s (lognM M0 M1 M2)).1 = 0 := by
      rcases h.kernel with hk | hk | hk
      · simp [lognCoagVal, hk, lognCoa0Fm, z 0 (by norm_num), z (2 / 6) (by norm_num), z (4 / 6) (by norm_num)]
      · simp [lognCoagVal, hk, lognCoa0C, z 0 (by norm_num), z (2 / 6) (by norm_num)]
      · simp [lognCoagVal, hk]
    simp [c, hJ0]
  | 1, _, hz =>
    have hz : M1 = 0 := hz
    have hp : m.nucl.mech ≠ .PAH := fun hp => (hP hp).2.1.ne' hz
    have hA : lognArea M0 M1 M2 (4 / 6) = 0 := by
      have : lognM M0 M1 M2 (4 / 6) = 0 := by
        rw [lognM_frac _ _ _ (by norm_num) (by norm_num), lognMrVal]
        split_ifs
        · rfl
        · rw [hz, zero_rpow (by norm_num)]; ring
      rw [lognArea, this, mul_zero]
    have : 0 ≤ J * (s'.cMin * gasMW .C / Na) := by positivity
    simpa [hA, hp] using this
  | 2, _, hz =>
    have hz : M2 = 0 := hz
    have hA : lognArea M0 M1 M2 (10 / 6) = 0 := by
      have : lognM M0 M1 M2 (10 / 6) = 0 := by
        rw [lognM_frac _ _ _ (by norm_num) (by norm_num), lognMrVal]
        split_ifs
        · rfl
        · rw [hz, zero_rpow (by norm_num)]; ring
      rw [lognArea, this, mul_zero]
    have hk := Coag.kfmVal_pos hph h.fm
    have hkc := kcVal_pos hph
    have hkp := kcpVal_pos hph
    have hb : 0 < bCoag := by norm_num [bCoag]
    have f2 : 0 ≤ lognCoa2Fm m.coag s (lognM M0 M1 M2) := by
      have := hM 1; have := hM (7 / 6); have := hM (8 / 6); have := hM (5 / 6); have := hM (10 / 6); have := hM (3 / 6)
      unfold lognCoa2Fm; positivity
    have g2 : 0 ≤ lognCoa2C s (lognM M0 M1 M2) := by
      have := hM 1; have := hM (4 / 6); have := hM (8 / 6); have := hM (2 / 6)
      unfold lognCoa2C; positivity
    have c : 0 ≤ (lognCoagVal m.coag s (lognM M0 M1 M2)).2 := by
      rcases h.kernel with hk | hk | hk <;> simp only [lognCoagVal, hk]
      · exact f2
      · exact g2
      · positivity
    have d : 0 ≤ (if m.nucl.mech = .PAH then n'.dimer.mDimer * n'.dimer.nDimer *
        hmean (lognFm2 m.coag s (lognM M0 M1 M2) n'.dimer.mDimer) (lognC2 s (lognM M0 M1 M2) n'.dimer.mDimer) else 0) := by
      split_ifs with hp
      · obtain ⟨d1, d2⟩ := hd hp
        have p2 : 0 ≤ lognFm2 m.coag s (lognM M0 M1 M2) n'.dimer.mDimer := by
          have := hM 1; have := hM (7 / 6); have := hM (8 / 6); have := hM (5 / 6); have := hM (10 / 6); have := hM (3 / 6)
          unfold lognFm2; positivity
        have q2 : 0 ≤ lognC2 s (lognM M0 M1 M2) n'.dimer.mDimer := by
          have := hM 1; have := hM (4 / 6); have := hM (8 / 6); have := hM (2 / 6)
          unfold lognC2; positivity
        unfold hmean
        positivity
      · exact le_rfl
    have : 0 ≤ J * (s'.cMin * gasMW .C / Na) ^ 2 := by positivity
    simp only [List.getD_cons_succ, List.getD_cons_zero, hA, mul_zero, add_zero]
    linarith

/-- **C83 (MOMIC).** True of MOMIC whenever the evaluation stays finite. -/
theorem C83_momic (m : Model) (s : State) (h : MomicReady m s) (hf : MomicFin m s) :
    ∃ m' s', momicSources m s = ok (m', s') ∧ NoDrain s.sootVar m'.sources.soot := by
  obtain ⟨P, Q, m', s', J, n', kG, kO, _, e, hJ, hs', hc, _, _, hJ0, _, _, _, _, _, _, _, hS⟩ := momic_eval h hf
  refine ⟨m', s', e, ?_⟩
  have hph := h.gas.acc.phys
  have hW := gasMW_pos .C
  have hN := Na_pos
  intro k hk hz
  have hk' : k < m.nsoot := h.len ▸ hk
  have hall : ¬ AllPos s.sootVar := fun hp => (hp _ (List.getElem_mem hk)).ne' (by rw [← List.getD_eq_getElem _ 0 hk]; exact hz)
  have hp : m.nucl.mech ≠ .PAH := fun hp => hall (hf.pah hp).1
  have e1 : m'.sources.soot.getD k 0 = momicSoot m s n' J kG kO (s'.cMin * gasMW .C / Na) k := by
    rw [hS, List.getD_eq_getElem _ _ (by simpa using hk')]; simp
  have e2 : 0 ≤ J * (s'.cMin * gasMW .C / Na) ^ k := by positivity
  rw [e1, momicSoot, if_neg hp]
  rcases Nat.eq_zero_or_pos k with rfl | hk0
  · rw [if_neg (by rw [hz]; exact lt_irrefl 0)]
    simp only [Nat.cast_zero, mul_zero, zero_mul, add_zero]
    exact e2
  · have hr : (0 : ℝ) ≤ k - onethird := by
      have : (1 : ℝ) ≤ k := by exact_mod_cast hk0
      norm_num [onethird]; linarith
    have hmr : mrVal s.sootVar m.nsoot (k - onethird) = 0 := by
      rw [mrVal, if_neg]
      intro hq
      exact (hq k (by rw [used, if_pos hr]; exact hk')).ne' hz
    have e3 : 0 ≤ (if 0 < s.sootVar.getD 0 0 then momicCoagV m.coag s s.sootVar m.nsoot k else 0) := by
      split_ifs
      · rcases (show k = 1 ∨ 2 ≤ k by omega) with rfl | h2
        · simp [momicCoagV]
        · exact momicCoagV_nonneg hph h.fm h2
      · exact le_rfl
    rw [hmr]
    simp only [mul_zero, add_zero]
    linarith

/-- **C83 (SECT).** True of SECT (consequence of C71). -/
theorem C83_sect (m : Model) (s : State) (glob : Option ℝ) (h : SectReady m s) (hg : GeoBins m) (hgl : OwnFactor m glob)
    (hl : s.sootVar.length = m.nsoot) :
    ∃ m' s' glob', sectSources m glob s = ok (m', s', glob') ∧ NoDrain s.sootVar m'.sources.soot := by
  obtain ⟨m', s', glob', _, _, _, _, _, _, _, e, _, _, _, _, _, hq⟩ := C71_sect_positive m s glob h hg hgl
  exact ⟨m', s', glob', e, fun k hk hz => (hq k (hl ▸ hk)).2.2.1 hz⟩

/-- **C83 is false of MONO.** No soot in the state, and a number source below zero: the weight left from an evaluation with soot still coagulates
(the same history as in C23). -/
theorem C83_mono_false :
    ∃ (s' s₂ : State) (m₁ m₂ : Model), monoSources monoFM stEx2 = ok (m₁, s') ∧ (setState s' argsZero).2 = ok () ∧
      (setState s' argsZero).1.sootVar = [0, 0] ∧ monoSources m₁ (setState s' argsZero).1 = ok (m₂, s₂) ∧
      ¬ NoDrain (setState s' argsZero).1.sootVar m₂.sources.soot := by
  obtain ⟨s', m₁, m₂, _, s₂, _, x, h1, h2, h3, _, _, h4, h5, _⟩ := C23_history_dependent_at_zero
  have hv : (setState s' argsZero).1.sootVar = [0, 0] := by
    have hr := monoReadyEx .NONE (by simp) (by simp) .NONE .NONE .FM
    obtain ⟨m₁', s'', _, _, _, _, _, g1, _, g3, _⟩ := mono_eval hr
    cases h1.symm.trans g1
    rw [setState_zero s' (by rw [g3]; simp [stEx2_eq', stateAfter, argsEx2]) (by rw [g3]; simp [stEx2_eq', stateAfter, argsEx2, argsEx])
      (by rw [g3]; exact stEx2_yPah)]
    simp [stateAfter, argsZero]
  refine ⟨s', s₂, m₁, m₂, h1, h2, hv, h3, fun h => ?_⟩
  have := h 0 (by rw [hv]; simp) (by rw [hv]; simp)
  rw [List.getD_eq_getElem?_getD, h4] at this
  simp at this
  linarith

/-! ## QMOM -/

theorem condSum_nonneg {K : ℝ → ℝ → ℝ} (hK : ∀ x y, 0 ≤ K x y) {w a : List ℝ} (hw : ∀ x ∈ w, 0 ≤ x) (ha : ∀ x ∈ a, 0 ≤ x) {mD nD : ℝ}
    (hm : 0 ≤ mD) (hn : 0 ≤ nD) (k : ℕ) : 0 ≤ condSum K w a mD nD k := by
  refine mul_nonneg (by positivity) (Finset.sum_nonneg fun i _ => ?_)
  exact mul_nonneg (mul_nonneg (hK _ _) (getD_nonneg hw i)) (pow_nonneg (getD_nonneg ha i) _)

/-- **C83 (QMOM, what holds for any eigenvalue routine).** The number source is not negative without particles, and no other moment that the nodes
reproduce is drained when it is zero. (Full claim: every moment - false, see `C83_qmom_false`.) -/
theorem C83_qmom_partial (eig : Eig) (m : Model) (s : State) (h : QmomReady m s) :
    ∃ m' s', qmomSources eig m s = ok (m', s') ∧ ∀ k < m.nsoot, s.sootVar.getD k 0 = 0 →
      (k ≠ 0 → ∑ i ∈ Finset.range (m.nsoot / 2), s'.wts.getD i 0 * s'.absc.getD i 0 ^ k = s.sootVar.getD k 0) → 0 ≤ m'.sources.soot.getD k 0 := by
  obtain ⟨w, a, m', s', J, n', kG, kO, e0, hw, ha, hw0, ha0, e1, e2, e3, hc, e4, e5, hJ, _, _, _, hd, _, _, e6, e7⟩ := qmom_eval eig h
  have hw' : s'.wts = w := by rw [e3]
  have ha' : s'.absc = a := by rw [e3]
  have hph := h.gas.acc.phys
  have hK : ∀ x y, 0 ≤ m.coag.val s x y := Coag.val_nonneg hph h.fm
  have hn := (Nucl.rate_inv e2).1
  have hW := gasMW_pos .C
  have hN := Na_pos
  refine ⟨m', s', e1, fun k hk hz hq => ?_⟩
  rw [hw', ha'] at hq
  have e8 : m'.sources.soot.getD k 0 = qmomSoot m s n' w a J kG kO (s'.cMin * gasMW .C / Na) k := by
    rw [e7, List.getD_eq_getElem _ _ (by simpa using hk)]; simp
  rw [e8, qmomSoot]
  have c1 : 0 ≤ J * (s'.cMin * gasMW .C / Na) ^ k := by positivity
  rcases Nat.eq_zero_or_pos k with rfl | hk0
  · obtain ⟨w2, a2, n, f1, _, _, _, _, _, f2, f3, _⟩ := C27_inversion_total eig s.sootVar s.wts s.absc h.gas.acc.sootVar_nonneg
      (by rw [h.len]; exact h.two) (by rw [h.len, h.wlen]) (by rw [h.len, h.alen])
    cases f1.symm.trans e0
    have hw2 : ∀ i, w.getD i 0 = 0 := fun i => (f2 i (by rw [f3 hz]; omega)).1
    have : collisionSum (m.coag.val s) w a 0 = 0 := by simp only [collisionSum, hw2]; simp
    rw [this]
    simpa [condSum] using c1
  · have c2 : 0 ≤ (if n'.mech = .PAH then condSum (m.coag.val s) w a n'.dimer.mDimer n'.dimer.nDimer k else 0) := by
      split_ifs with hp
      · obtain ⟨d1, d2⟩ := hd (hn ▸ hp)
        exact condSum_nonneg hK hw0 ha0 d1 d2 k
      · exact le_rfl
    have c3 := collisionSum_nonneg hK hw0 ha0 (r := k) hk0
    have hmr : nodeMr w a (k - onethird) = 0 := by
      have hq := hq hk0.ne'
      rw [hz, Finset.sum_eq_zero_iff_of_nonneg fun i _ => mul_nonneg (getD_nonneg hw0 i) (pow_nonneg (getD_nonneg ha0 i) _)] at hq
      have h2 := h.two
      have := hq 0 (Finset.mem_range.mpr (by omega))
      refine nodeMr_of_empty (i := 0) (by rw [hw]; omega) ?_ _
      rcases mul_eq_zero.mp this with h' | h'
      · exact .inl h'.le
      · exact .inr (pow_eq_zero_iff hk0.ne' |>.mp h').le
    rw [hmr, mul_zero, mul_zero, add_zero]
    linarith

/-- The mass is reproduced by the inversion as soon as the recursion divides by no zero: the first row of the eigenvalue equation. -/
theorem wheeler_mass (eig : Eig) (he : eig.Correct) (M : List ℝ) (N : ℕ) (hN : 2 ≤ N) (h0 : 0 < M.getD 0 0) (hj : jacobi M N ≠ none) :
    ∑ n ∈ Finset.range N, ((wheeler eig M N).1 n).getD 0 * ((wheeler eig M N).2 n).getD 0 = M.getD 1 0 := by
  obtain ⟨t, ht⟩ : ∃ t, whRun M N (N - 1) = some t := by
    cases hx : whRun M N (N - 1) with
    | none => exact absurd (by simp [jacobi, hx]) hj
    | some t => exact ⟨t, rfl⟩
  have hj' : jacobi M N = some (t.a, fun i => -sqrt |t.b i|) := by simp [jacobi, ht]
  obtain ⟨x, V, h1, h2, h3⟩ := he N M t.a (fun i => -sqrt |t.b i|)
  have a0 := (whRun_inv (by omega) ht).rel.a0
  have hc := orth_cols h3
  have c0 := hc 0 (by omega) 0 (by omega)
  have c1 := hc 1 (by omega) 0 (by omega)
  rw [if_pos rfl] at c0
  rw [if_neg (by norm_num)] at c1
  calc ∑ n ∈ Finset.range N, ((wheeler eig M N).1 n).getD 0 * ((wheeler eig M N).2 n).getD 0
      = ∑ n ∈ Finset.range N, (M.getD 0 0 * t.a 0 * (V n 0 * V n 0) + M.getD 0 0 * (-sqrt |t.b 1|) * (V n 1 * V n 0)) := by
        refine Finset.sum_congr rfl fun n hn => ?_
        have hn := Finset.mem_range.mp hn
        have := h2 n hn 0 (by omega)
        simp only [lt_irrefl, if_false, zero_add] at this
        rw [if_pos (by omega)] at this
        simp only [wheeler, hj', (h1 n hn).1, (h1 n hn).2, Option.map_some, Option.getD_some]
        linear_combination -(M.getD 0 0 * V n 0) * this
    _ = M.getD 0 0 * t.a 0 := by
        rw [Finset.sum_add_distrib, ← Finset.mul_sum, ← Finset.mul_sum, c0, c1]; ring
    _ = M.getD 1 0 := by rw [a0]; field_simp

/-- **C83 (QMOM, mass).** With a correct eigenvalue routine that hands non-finite matrices through, the mass moment is not drained when there is no
mass, however inconsistent the moments are. -/
theorem C83_qmom_mass_partial (eig : Eig) (he : eig.Correct) (hnan : ∀ N M, 2 ≤ N → ¬ goodVals N (eig N M none).val) (m : Model) (s : State)
    (h : QmomReady m s) (hz : s.sootVar.getD 1 0 = 0) : ∃ m' s', qmomSources eig m s = ok (m', s') ∧ 0 ≤ m'.sources.soot.getD 1 0 := by
  obtain ⟨w, a, m', s', J, n', kG, kO, e0, hw, ha, hw0, ha0, e1, e2, e3, _⟩ := qmom_eval eig h
  obtain ⟨m2, s2, f1, f2⟩ := C83_qmom_partial eig m s h
  obtain ⟨rfl, rfl⟩ : m' = m2 ∧ s' = s2 := by have := e1.symm.trans f1; simpa using this
  refine ⟨m', s', e1, f2 1 h.two hz fun _ => ?_⟩
  have hw' : s'.wts = w := by rw [e3]
  have ha' : s'.absc = a := by rw [e3]
  rw [hw', ha', hz]
  simp only [pow_one]
  have hl := h.len
  have hM0 : 0 ≤ s.sootVar.getD 0 0 := getD_nonneg h.gas.acc.sootVar_nonneg 0
  have h2 := h.two
  have hds : ∀ N, 1 ≤ N → 0 < s.sootVar.getD 0 0 → ∑ i ∈ Finset.range (downselect eig s.sootVar N).1,
      (downselect eig s.sootVar N).2.1 i * (downselect eig s.sootVar N).2.2 i = 0 := by
    intro N hN h0
    induction N with
    | zero => omega
    | succ n ih =>
      cases n with
      | zero => simp [downselect, List.getD_eq_getElem?_getD] at hz ⊢; right; left; exact hz
      | succ n =>
        rw [downselect]
        split_ifs with hg
        · have hj : jacobi s.sootVar (n + 2) ≠ none := by
            intro hj
            refine hnan (n + 2) s.sootVar (by omega) ?_
            have := hg.2
            simpa only [wheeler, hj] using this
          simp only
          rw [wheeler_mass eig he _ _ (by omega) h0 hj, hz]
        · exact ih (by omega)
  unfold getWtsAbs at e0
  rw [idx_getD (by omega), ok_bind] at e0
  by_cases c1 : s.sootVar.getD 0 0 ≤ 0
  · rw [if_pos c1, ok.injEq, Prod.mk.injEq] at e0
    rw [← e0.1]
    refine Finset.sum_eq_zero fun i _ => ?_
    rw [List.getD_eq_getElem?_getD, List.getElem?_replicate]
    split_ifs <;> simp
  · have hsp := downselect_spec eig (not_le.mp c1) hz.ge (N := s.sootVar.length / 2) (by omega)
    rw [if_neg c1, if_neg (by omega)] at e0
    simp only at e0
    rw [if_pos ⟨by rw [h.wlen]; have := hsp.2.1; omega, by rw [h.alen]; have := hsp.2.1; omega⟩, ok.injEq, Prod.mk.injEq] at e0
    have hpos := not_le.mp c1
    have := hds (s.sootVar.length / 2) (by omega) hpos
    refine Eq.trans ?_ this
    rw [← e0.1, ← e0.2, h.wlen, h.alen]
    rw [← Finset.sum_subset (Finset.range_subset_range.mpr (show (downselect eig s.sootVar (s.sootVar.length / 2)).1 ≤ m.nsoot / 2 by
      have := hsp.2.1; omega))]
    · refine Finset.sum_congr rfl fun i hi => ?_
      have hi := Finset.mem_range.mp hi
      have a1 : 0 ≤ (downselect eig s.sootVar (s.sootVar.length / 2)).2.1 i := (hsp.2.2.1 i).resolve_right (by omega)
      have a2 : 0 ≤ (downselect eig s.sootVar (s.sootVar.length / 2)).2.2 i := (hsp.2.2.2.1 i).resolve_right (by omega)
      have a3 : i < m.nsoot / 2 := by have := hsp.2.1; omega
      rw [padded_getD, padded_getD, if_pos ⟨a3, hi, a1⟩, if_pos ⟨a3, hi, a2⟩]
    · intro i _ hi
      rw [padded_getD, if_neg (by simp at hi; omega), zero_mul]

/-- Moments `1, 1, 3/4, 0` (no distribution has them): for every correct eigenvalue routine the two nodes of the inversion are positive. -/
theorem drain_nodes (eig : Eig) (he : eig.Correct) (wts absc : List ℝ) (hw : wts.length = 2) (ha : absc.length = 2) :
    ∃ w0 w1 a0 a1, getWtsAbs eig [1, 1, 3 / 4, 0] wts absc = ok ([w0, w1], [a0, a1]) ∧ 0 < w0 ∧ 0 < w1 ∧ 0 < a0 ∧ 0 < a1 := by
  set M : List ℝ := [1, 1, 3 / 4, 0] with hM
  have hrun : ∃ t, whRun M 2 1 = some t ∧ t.a 0 = 1 ∧ t.a 1 = 2 ∧ t.b 1 = -1 / 4 := by
    have h0 : whRun M 2 1 = (whRun M 2 0).bind (whStep 2 1) := rfl
    rw [h0]
    simp only [whRun, Option.bind_some, whStep]
    rw [if_neg]
    · refine ⟨_, rfl, ?_, ?_, ?_⟩ <;> simp [hM] <;> norm_num
    · simp [hM]; norm_num
  obtain ⟨t, ht, ta0, ta1, tb⟩ := hrun
  have hj : jacobi M 2 = some (t.a, fun i => -sqrt |t.b i|) := by simp [jacobi, ht]
  have hb : -sqrt |t.b 1| = -(1 / 2) := by
    rw [tb, show |(-1 / 4 : ℝ)| = (1 / 2) ^ 2 by norm_num, sqrt_sq (by norm_num)]
  obtain ⟨x, V, h1, h2, h3⟩ := he 2 M t.a (fun i => -sqrt |t.b i|)
  have key : ∀ n < 2, V n 0 ≠ 0 ∧ 0 < x n := by
    intro n hn
    have r0 := h2 n hn 0 (by norm_num)
    have r1 := h2 n hn 1 (by norm_num)
    have nn := h3 n hn n hn
    norm_num [Finset.sum_range_succ, hb, ta0, ta1] at r0 r1 nn
    have hV : V n 0 ≠ 0 := by
      intro h0
      have : V n 1 = 0 := by rw [h0] at r0; linarith
      rw [h0, this] at nn; norm_num at nn
    refine ⟨hV, ?_⟩
    have hq : (x n ^ 2 - 3 * x n + 7 / 4) * V n 0 = 0 := by
      have e : V n 1 = 2 * (1 - x n) * V n 0 := by linarith
      rw [e] at r1
      linear_combination r1 / 2
    have hq := (mul_eq_zero.mp hq).resolve_right hV
    nlinarith [sq_nonneg (x n)]
  have hwh : ∀ i < 2, (wheeler eig M 2).1 i = some (V i 0 ^ 2) ∧ (wheeler eig M 2).2 i = some (x i) := by
    intro i hi
    simp only [wheeler, hj, (h1 i hi).1, (h1 i hi).2, Option.map_some]
    simp [hM]
  have hg : goodVals 2 (wheeler eig M 2).1 ∧ goodVals 2 (wheeler eig M 2).2 :=
    ⟨fun i hi => ⟨_, (hwh i hi).1, sq_nonneg _⟩, fun i hi => ⟨_, (hwh i hi).2, (key i hi).2.le⟩⟩
  have hd : downselect eig M 2 = (2, fun i => ((wheeler eig M 2).1 i).getD 0, fun i => ((wheeler eig M 2).2 i).getD 0) := by
    rw [downselect, if_pos hg]
  have hlen : M.length / 2 = 2 := by simp [hM]
  have k0 := key 0 (by norm_num); have k1 := key 1 (by norm_num)
  have q0 := hwh 0 (by norm_num); have q1 := hwh 1 (by norm_num)
  refine ⟨V 0 0 ^ 2, V 1 0 ^ 2, x 0, x 1, ?_, by have := k0.1; positivity, by have := k1.1; positivity, k0.2, k1.2⟩
  rw [getWtsAbs, idx_getD (by simp [hM]), ok_bind, if_neg (by simp [hM]), hlen, if_neg (by norm_num)]
  simp only [hd, hw, ha]
  rw [if_pos (by norm_num)]
  simp [padded, List.range_succ, q0, q1, k0.2.le, k1.2.le, sq_nonneg]

/-- **C83 is false of QMOM.** Four moments `1, 1, 3/4, 0` and oxidation by O2: for every correct eigenvalue routine the source of the last moment, which
is zero, is negative. -/
theorem C83_qmom_false (eig : Eig) (he : eig.Correct) :
    ∃ m s m' s', Model.new .QMOM 4 .NONE .NONE .LL .NONE = ok m ∧ Accepted s ∧ s.sootVar = [1, 1, 3 / 4, 0] ∧
      qmomSources eig m s = ok (m', s') ∧ m'.sources.soot.getD 3 0 < 0 ∧ ¬ NoDrain s.sootVar m'.sources.soot := by
  have hv : ∀ x ∈ ([1, 1, 3 / 4, 0] : List ℝ), 0 ≤ x := by intro x hx; simp at hx; rcases hx with h | h | h <;> subst h <;> norm_num
  have hr := exQmomReady 2 .NONE (by simp) (by simp) .NONE .LL .NONE [1, 1, 3 / 4, 0] false (by simp) rfl hv (by simp)
  obtain ⟨w, a, m', s', J, n', kG, kO, e0, hw, ha, hw0, ha0, e1, e2, e3, hc, e4, e5, _, _, _, hJ, _, hG, _, e6, e7⟩ := qmom_eval eig hr
  have hsv : (exSt [1, 1, 3 / 4, 0] false).sootVar = [1, 1, 3 / 4, 0] := exSt_sootVar _ hv
  rw [hsv] at e0
  obtain ⟨w0, w1, a0, a1, e0', p1, p2, p3, p4⟩ := drain_nodes eig he (exSt [1, 1, 3 / 4, 0] false).wts (exSt [1, 1, 3 / 4, 0] false).absc
    (by simp [exSt_wts]) (by simp [exSt_absc])
  cases e0.symm.trans e0'
  have hr2 : Ready (exModel .QMOM (2 * 2) .NONE .NONE .LL .NONE) s' := by rw [e3]; exact hr.toReady.upd hc _ _
  have hph := hr2.gas.acc.phys
  have hO : 0 < kO := by
    have hcc : 0 < cVal s' .O2 := by
      have := hph.rho; have := gasMW_pos .O2
      have e : s'.yGas.getD GasSp.O2.toNat 0 = (exSt [1, 1, 3 / 4, 0] false).yGas.getD GasSp.O2.toNat 0 := by rw [e3]
      unfold cVal
      rw [e]
      have : 0 < (exSt [1, 1, 3 / 4, 0] false).yGas.getD GasSp.O2.toNat 0 := by
        simp [exSt_eq, stateAfter, exArgs, argsEx2, GasSp.toNat]; norm_num
      positivity
    have hT := hph.T
    have hg : (exModel .QMOM (2 * 2) .NONE .NONE .LL .NONE).oxid.rate (exModel .QMOM (2 * 2) .NONE .NONE .LL .NONE).ctx s' =
        ok (0.1E5 * sqrt s'.T * exp (-19680 / s'.T) * cVal s' .O2 * gasMW .C) := by
      rw [Oxid.rate]
      simp only [exModel, Oxid.new]
      rw [csqrt_ok hT.le]
      simp only [ok_bind, cexpDiv_ok hT.ne', hr2.gas.gasC]
    rw [hg, ok.injEq] at e5
    rw [← e5]
    have := gasMW_pos .C
    have := sqrt_pos.mpr hT
    positivity
  have hJ := hJ rfl
  have hG := hG rfl
  have hneg : m'.sources.soot.getD 3 0 < 0 := by
    have hn : n'.mech = .NONE := (Nucl.rate_inv e2).1
    have hcs : collisionSum ((exModel .QMOM (2 * 2) .NONE .NONE .LL .NONE).coag.val (exSt [1, 1, 3 / 4, 0] false)) [w0, w1] [a0, a1] 3 = 0 := by
      have : ∀ x y, (exModel .QMOM (2 * 2) .NONE .NONE .LL .NONE).coag.val (exSt [1, 1, 3 / 4, 0] false) x y = 0 := fun x y => by
        simp [Coag.val, exModel, Coag.new]
      simp only [collisionSum, this, zero_mul, Finset.sum_const_zero, mul_zero]
    have hMr : 0 < nodeMr [w0, w1] [a0, a1] ((3 : ℕ) - onethird) := by
      rw [nodeMr, if_neg]
      · simp only [List.length_cons, List.length_nil, Finset.sum_range_succ, Finset.sum_range_zero, List.getD_cons_zero, List.getD_cons_succ]
        positivity
      · rintro ⟨i, hi, hz⟩
        simp only [List.length_cons, List.length_nil] at hi
        interval_cases i <;> simp at hz <;> rcases hz with hz | hz <;> linarith
    have h4 : 3 < (exModel .QMOM (2 * 2) .NONE .NONE .LL .NONE).nsoot := by simp [exModel]
    rw [e7, List.getD_eq_getElem?_getD, List.getElem?_map, List.getElem?_range h4]
    simp only [Option.map_some, Option.getD_some, qmomSoot, hJ, hG, hn, hcs]
    have := acoef_pos
    have : 0 < kO * (acoef * ((3 : ℕ) : ℝ) * nodeMr [w0, w1] [a0, a1] ((3 : ℕ) - onethird)) := by positivity
    simp only [reduceCtorEq, if_false, zero_mul, zero_sub, zero_add, add_zero, neg_mul]
    linarith
  refine ⟨_, _, m', s', exModel_new rfl _ _ _, hr.gas.acc, hsv, e1, hneg, fun h => ?_⟩
  have := h 3 (by rw [hsv]; simp) (by rw [hsv]; simp)
  linarith

/-! ## Concrete cases with empty variables -/

example : ∃ m' s', monoSources (exModel .MONO 2 .PAH .HACA .LL .FUCHS) (exSt [0, 0] false) = ok (m', s') ∧
    NoDrain (exSt [0, 0] false).sootVar m'.sources.soot :=
  C83_mono_partial _ _ _ _ _ _ (exMonoReady2 .PAH (by simp) (by simp) .HACA .LL .FUCHS le_rfl le_rfl false) fun _ => rfl

example : ∃ m' s', lognSources (exModel .LOGN 3 .LL .LL .LL .HM) (exSt [1E15, 0, 0] false) = ok (m', s') ∧
    NoDrain (exSt [1E15, 0, 0] false).sootVar m'.sources.soot :=
  C83_logn _ _ _ _ _ (exLognReady .LL (by simp) (by simp) .LL .LL .HM (by simp) (by norm_num) le_rfl le_rfl false) fun h => by simp [exModel, Nucl.new] at h

example : ∃ m' s', momicSources (exModel .MOMIC 4 .LL .LL .LL .CONTINUUM) (exSt [1E15, 1E-6, 0, 1E-47] false) = ok (m', s') ∧
    NoDrain (exSt [1E15, 1E-6, 0, 1E-47] false).sootVar m'.sources.soot :=
  C83_momic _ _ (exMomicReady 4 .LL (by simp) (by simp) .LL .LL .CONTINUUM _ false (by norm_num) (by norm_num) rfl (by norm_num) (by simp))
    ⟨fun h => by simp [exModel, Nucl.new] at h, fun _ h => by simp [exModel, Coag.new] at h⟩

example : ∃ m' s' glob', sectSources (exModel .SECT 4 .PAH .LL .LL .FUCHS) none (exSt [0, 1E14, 1E13, 0] false) = ok (m', s', glob') ∧
    NoDrain (exSt [0, 1E14, 1E13, 0] false).sootVar m'.sources.soot :=
  C83_sect _ _ none (exSectReady 4 .PAH (by simp) (by simp) .LL .LL .FUCHS _ false rfl (by norm_num) (by norm_num))
    (exGeoBins 4 .PAH .LL .LL .FUCHS (by norm_num)) (Or.inl rfl) (by rw [exSt_sootVar _ (by norm_num)]; rfl)

/-- A correct routine that hands non-finite matrices through exists; the state has particles but no mass. -/
example : ∃ eig : Eig, eig.Correct ∧ (∀ N M, 2 ≤ N → ¬ goodVals N (eig N M none).val) ∧ ∃ m' s',
    qmomSources eig (exModel .QMOM 4 .LL .LL .LL .FM) (exSt [1E15, 0, 2E-27, 1E-47] false) = ok (m', s') ∧ 0 ≤ m'.sources.soot.getD 1 0 := by
  obtain ⟨eig, he⟩ := exists_correct_eig
  let eig' : Eig := fun N M p => match p with | some q => eig N M (some q) | none => ⟨fun _ => none, fun _ => none⟩
  have h1 : eig'.Correct := fun N M d e => he N M d e
  have h2 : ∀ N M, 2 ≤ N → ¬ goodVals N (eig' N M none).val := fun N M hN hg => by
    obtain ⟨x, hx, _⟩ := hg 0 (by omega)
    cases hx
  have hv : ∀ x ∈ ([1E15, 0, 2E-27, 1E-47] : List ℝ), 0 ≤ x := by intro x hx; simp at hx; rcases hx with h | h | h | h <;> subst h <;> norm_num
  exact ⟨eig', h1, h2, C83_qmom_mass_partial eig' h1 h2 _ _ (exQmomReady 2 .LL (by simp) (by simp) .LL .LL .FM _ false (by norm_num) rfl hv (by simp))
    (by rw [exSt_sootVar _ hv]; rfl)⟩

end Soot
