import Verif.Hmom
import Verif.Props.MomicExact

/-!
# HMOM: C35, C36, C60, C61, and HMOM's share of C11 and C16
-/

namespace Soot

open Res Real
open scoped Classical

/-! ## C36 -/

theorem largeGuard_pos {raw : ℕ → ℝ} {mNuc : ℝ} (hm : 0 < mNuc) (k : ℕ) : 0 < largeGuard raw mNuc k := by
  induction k with
  | zero => unfold largeGuard; split_ifs with h
            · norm_num
            · exact not_le.mp h
  | succ k ih => unfold largeGuard; split_ifs with h
                 · positivity
                 · exact not_le.mp h

theorem largeGuard_eq {raw : ℕ → ℝ} {mNuc : ℝ} {k : ℕ} (h : 0 < raw k) : largeGuard raw mNuc k = raw k := by
  cases k <;> simp only [largeGuard, if_neg (not_le.mpr h)]

theorem mNuc_pos {s : State} (h : 0 < s.cMin) : 0 < s.cMin * gasMW .C / Na := by
  have : 0 < gasMW .C := by norm_num [gasMW]
  have : 0 < Na := by norm_num [Na]
  positivity

/-- **C36.** For every accepted state and every number of moments stored in it, the large-mode moments HMOM takes
logarithms of exist and are strictly positive; a moment that exceeds the small-mode part is not altered by the
guards. -/
theorem C36_hmom_large_positive (s : State) (hs : Accepted s) (N : ℕ) (hN : N ≤ s.sootVar.length) (N0 : ℝ) :
    ∃ M, hmomLarge s N N0 (s.cMin * gasMW .C / Na) = ok M ∧ M.length = N ∧ (∀ x ∈ M, 0 < x) ∧
      ∀ k, (hk : k < N) → ∀ v, s.sootVar[k]? = some v → N0 * (s.cMin * gasMW .C / Na) ^ k < v →
        M[k]? = some (v - N0 * (s.cMin * gasMW .C / Na) ^ k) := by
  have hm := mNuc_pos hs.phys.cMin
  refine ⟨(List.range N).map (largeGuard (fun k => if k < N then
      max (s.sootVar.getD k 0 - N0 * (s.cMin * gasMW .C / Na) ^ k) 0 else 0) (s.cMin * gasMW .C / Na)), ?_, ?_, ?_, ?_⟩
  · rw [hmomLarge, tabLoop_ok (g := fun k => max (s.sootVar.getD k 0 - N0 * (s.cMin * gasMW .C / Na) ^ k) 0)
      (fun k hk => by rw [idx_getD (by omega), ok_bind]), ok_bind]
  · simp
  · intro x hx
    obtain ⟨k, _, rfl⟩ := List.mem_map.mp hx
    exact largeGuard_pos hm k
  · intro k hk v hv hlt
    have hv' : s.sootVar.getD k 0 = v := by rw [List.getD_eq_getElem?_getD, hv]; rfl
    have : 0 < v - N0 * (s.cMin * gasMW .C / Na) ^ k := sub_pos.mpr hlt
    rw [List.getElem?_map, List.getElem?_range hk, Option.map_some, largeGuard_eq]
    · simp only [if_pos hk, hv', max_eq_left this.le]
    · simp only [if_pos hk, hv', max_eq_left this.le, this]

/-- Both regimes occur: in the state `[5, 0, 1E-40, 2]` the zeroth moment is kept and the first is replaced. -/
example : ∃ M, hmomLarge (exSt [5, 0, 1E-40, 2] false) 3 2 ((exSt [5, 0, 1E-40, 2] false).cMin * gasMW .C / Na) = ok M ∧
    M[0]? = some (5 - 2 * ((exSt [5, 0, 1E-40, 2] false).cMin * gasMW .C / Na) ^ 0) ∧ ∀ x ∈ M, 0 < x := by
  have hv : ∀ x ∈ ([5, 0, 1E-40, 2] : List ℝ), 0 ≤ x := by
    intro x hx; simp at hx; rcases hx with h | h | h | h <;> subst h <;> norm_num
  have hr := exReady .HMOM 4 .LL (by simp) (by simp) .LL .LL .FM [5, 0, 1E-40, 2] false rfl (by norm_num) hv
  have e := exSt_sootVar false hv
  obtain ⟨M, h1, h2, h3, h4⟩ := C36_hmom_large_positive _ hr.gas.acc 3 (by rw [e]; norm_num) 2
  exact ⟨M, h1, h4 0 (by norm_num) 5 (by rw [e]; rfl) (by norm_num), h3⟩

/-! ## Evaluation up to the coagulation block -/

theorem hmomPQ_ok {M : List ℝ} {T : Tri} (h : TabOf M T) (h3 : 3 ≤ T.n) (h8 : T.n ≤ 8) :
    ∃ P Q, hmomP T = ok P ∧ hmomQ T = ok Q ∧ FracOf M T.n P Q := by
  have e1 : idx hmomNp T.n = ok (3 * T.n + 1) := by generalize T.n = n at *; interval_cases n <;> rfl
  have e2 : idx hmomNq T.n = ok (3 * T.n + 9) := by generalize T.n = n at *; interval_cases n <;> rfl
  obtain ⟨P, p1, p2, p3, _⟩ := fillLoop_ok (n := 3 * T.n + 1) (L := 25) (by omega)
    (f := fun i => momicMr T ((2 * i - 4) / 6)) (g := pv M T.n) (fun k _ => momicMr_ok h h3 _)
  obtain ⟨Q, q1, q2, q3, _⟩ := fillLoop_ok (n := 3 * T.n + 9) (L := 33) (by omega)
    (f := fun i => momicMr T ((2 * i - 3) / 6)) (g := qv M T.n) (fun k _ => momicMr_ok h h3 _)
  exact ⟨P, Q, by rw [hmomP, e1, ok_bind]; exact p1, by rw [hmomQ, e2, ok_bind]; exact q1, by omega, by omega, p3, q3⟩

/-- The bracket of `contBr`. -/
noncomputable def contBrV (p : ℕ → ℝ) (m Kcp : ℝ) (kk : ℕ) : ℝ :=
  m ^ (2 / 6 : ℝ) * p (kk + 1) + 2 * p (kk + 2) + m ^ (-2 / 6 : ℝ) * p (kk + 3) +
    Kcp * (m ^ (2 / 6 : ℝ) * p (kk + 0) + p (kk + 1) + m ^ (-2 / 6 : ℝ) * p (kk + 2) + m ^ (-4 / 6 : ℝ) * p (kk + 3))

theorem contBr_ok {M P Q : List ℝ} {N kk : ℕ} {m Kcp : ℝ} (h : FracOf M N P Q) (hk : kk + 3 < 3 * N + 1) (hm : 0 < m) :
    contBr P m Kcp kk = ok (contBrV (pv M N) m Kcp kk) := by
  have hx : ∀ i, i ≤ 3 → idx P (kk + i) = ok (pv M N (kk + i)) := fun i hi => by
    rw [idx_getD (by have := h.plen; omega), h.pval _ (by omega)]
  simp only [contBr, cpow_ok hm, ok_bind, hx 0 (by norm_num), hx 1 (by norm_num), hx 2 (by norm_num), hx 3 le_rfl]
  rfl

theorem contBrV_pos {p : ℕ → ℝ} (hp : ∀ i, 0 < p i) {m Kcp : ℝ} (hm : 0 < m) (hK : 0 ≤ Kcp) (kk : ℕ) :
    0 < contBrV p m Kcp kk := by
  have h0 := hp (kk + 0); have h1 := hp (kk + 1); have h2 := hp (kk + 2); have h3 := hp (kk + 3)
  unfold contBrV; positivity

/-- A constructible HMOM model and a state it can be applied to.  (The constructor also excludes coagulation NONE; it is
allowed here so that the sources with and without coagulation can be compared.) -/
structure HmomReady (m : Model) (s : State) : Prop extends Ready m s where
  psd : m.psd = .HMOM
  four : 4 ≤ m.nsoot
  nine : m.nsoot ≤ 9
  notar : m.tar = .NONE
  kernel : m.coag.mech ≠ .FUCHS
  len : s.sootVar.length = m.nsoot
  dimers : m.nucl.mech = .PAH → ∃ y ∈ s.yPah, y ≠ 0

/-- Everything before the coagulation block succeeds. -/
theorem hmom_pre {m : Model} {s : State} (h : HmomReady m s) :
    ∃ N0 M T P Q J n' s' kG kO cnd grw oxi, idx s.sootVar (m.nsoot - 1) = ok N0 ∧ 0 ≤ N0 ∧
      hmomLarge s (m.nsoot - 1) N0 (s.cMin * gasMW .C / Na) = ok M ∧ M.length = m.nsoot - 1 ∧ AllPos M ∧
      setDiffTable ⟨m.nsoot - 1, fun _ _ => none⟩ M = ok T ∧ hmomP T = ok P ∧ hmomQ T = ok Q ∧
      FracOf M (m.nsoot - 1) P Q ∧ m.nucl.rate (hmomIbeta m N0 P Q) s = ok (J, n', s') ∧ Ready m s' ∧
      (∀ x, ∃ g, gasRates n'.ratio x = ok g) ∧
      m.grow.rate m.ctx s' = ok kG ∧ m.oxid.rate m.ctx s' = ok kO ∧
      hmomCnd m n' (m.nsoot - 1) N0 (s.cMin * gasMW .C / Na) P Q s' = ok cnd ∧
      hmomSurf T (m.grow.mech ≠ .NONE) kG (-kG) (m.nsoot - 1) N0 (s.cMin * gasMW .C / Na) = ok grw ∧
      hmomSurf T (m.oxid.mechType ≠ .NONE) (-kO) (-kO) (m.nsoot - 1) N0 (s.cMin * gasMW .C / Na) = ok oxi := by
  have h4 := h.four
  have h9 := h.nine
  have hph := h.gas.acc.phys
  have hm := mNuc_pos hph.cMin
  have h3 : 3 ≤ m.nsoot - 1 := by omega
  have hN0 : 0 ≤ s.sootVar.getD (m.nsoot - 1) 0 := getD_nonneg h.gas.acc.sootVar_nonneg _
  obtain ⟨M, hM, hl, hA, _⟩ := C36_hmom_large_positive s h.gas.acc (m.nsoot - 1) (by rw [h.len]; omega)
    (s.sootVar.getD (m.nsoot - 1) 0)
  obtain ⟨T, hT, hn, hv⟩ := setDiffTable_ok (M := M) ⟨m.nsoot - 1, fun _ _ => none⟩ (by simp [hl])
  simp only at hn hv
  have hA : AllPos M := hA
  have ht : TabOf M T := ⟨by omega, fun i j hij => hv i j (by omega)⟩
  obtain ⟨P, Q, hP, hQ, hF⟩ := hmomPQ_ok ht (by omega) (by omega)
  rw [hn] at hF
  have hq := hA.q hl h3
  have hp := hA.p hl h3
  have hg : ∀ mD, 0 < mD → ∀ k, 1 ≤ k → k < m.nsoot - 1 → gGrid Q mD k = ok (gV (qv M (m.nsoot - 1)) mD k) := by
    intro mD hD k h1 h2
    rw [gGrid_ok hF h3 hD h1 h2, if_neg]
    rintro ⟨_, hz⟩
    exact (gPtV_pos hq hD k 2).ne' hz
  have hib : ∀ s1 : State, s1.Phys → ∀ mD, 0 < mD → m.nucl.mech = .PAH →
      ∃ I, hmomIbeta m (s.sootVar.getD (m.nsoot - 1) 0) P Q s1 mD = ok I ∧ 0 ≤ I := by
    intro s1 hs1 mD hD hpah
    have a1 := gV_pos hq hD 1
    have a2 := contBrV_pos hp hD (kcpVal_pos hs1).le 0
    have kf := Coag.kfmVal_pos hs1 h.fm
    have kk := kcVal_pos hs1
    rw [hmomIbeta, if_neg (by simp [hpah]), Coag.rate_ok hs1 h.fm, ok_bind, m.coag.kc_ok hs1, ok_bind,
      m.coag.kcp_ok hs1, ok_bind, m.coag.kfm_ok hs1, ok_bind, contBr_ok hF (by omega) hD, ok_bind,
      hg mD hD 1 le_rfl (by omega), ok_bind, cdiv_ok (by positivity), ok_bind]
    have := Coag.val_nonneg (c := m.coag) hs1 h.fm mD (s1.cMin * gasMW .C / Na)
    exact ⟨_, rfl, by positivity⟩
  obtain ⟨J, n', s', hJ, hJ0, hs', hc', hJN, _, hgas⟩ := h.toReady.nucl' (hmomIbeta m (s.sootVar.getD (m.nsoot - 1) 0) P Q)
    (fun hpah => hib _ (h.gas.acc.upd (cMinAfter_pos hph) s.wts s.absc).phys _ (mDimerAfter_pos hph h.pah (h.dimers hpah)) hpah)
  have hr : Ready m s' := by rw [hs']; exact h.toReady.upd hc' _ _
  obtain ⟨kG, hG, hG0, hGN, _⟩ := hr.grow
  obtain ⟨kO, hO, hO0, hON⟩ := hr.oxid
  obtain ⟨hn1, _⟩ := Nucl.rate_inv hJ
  have hph' := hr.gas.acc.phys
  have hsurf : ∀ (on : Prop) (K K0 : ℝ), ∃ f, hmomSurf T on K K0 (m.nsoot - 1) (s.sootVar.getD (m.nsoot - 1) 0)
      (s.cMin * gasMW .C / Na) = ok f := by
    intro on K K0
    unfold hmomSurf
    by_cases hon : on
    · rw [if_pos hon, cpow_ok hm, ok_bind, tabLoop_ok (g := fun k => if k = 0 then 0 else K * acoef * k *
        ((s.cMin * gasMW .C / Na) ^ ((k : ℝ) - onethird) * s.sootVar.getD (m.nsoot - 1) 0 + mrVal M T.n (k - onethird)))
        (fun k _ => by
          split_ifs with h0
          · rfl
          · rw [cpow_ok hm, ok_bind, momicMr_ok ht (by omega), ok_bind]), ok_bind]
      exact ⟨_, rfl⟩
    · rw [if_neg hon]; exact ⟨_, rfl⟩
  have hcnd : ∃ f, hmomCnd m n' (m.nsoot - 1) (s.sootVar.getD (m.nsoot - 1) 0) (s.cMin * gasMW .C / Na) P Q s' = ok f := by
    unfold hmomCnd
    by_cases hpah : n'.mech = .PAH
    · have hpah' : m.nucl.mech = .PAH := hn1 ▸ hpah
      have hm0 : 0 < n'.dimer.mDimer := by
        rw [(nucl_pah_inv hph h.pah hpah' hJ).2.1]; exact mDimerAfter_pos hph h.pah (h.dimers hpah')
      have hn0 : 0 < n'.dimer.nDimer := by
        obtain ⟨I, i1, i2⟩ := hib s' hph' _ hm0 hpah'
        exact (dimer_balance h.gas.acc h.pah hpah' hJ i1 i2 (h.dimers hpah')).2.1
      have kf := Coag.kfmVal_pos hph' h.fm
      have kk := kcVal_pos hph'
      simp only [if_pos hpah, Coag.rate_ok hph' h.fm, m.coag.kc_ok hph', m.coag.kcp_ok hph', m.coag.kfm_ok hph', ok_bind]
      rw [tabLoop_ok (g := fun k => if k = 0 then 0 else k * (s.cMin * gasMW .C / Na) ^ (k - 1) *
          m.coag.val s' n'.dimer.mDimer (s.cMin * gasMW .C / Na) * n'.dimer.nDimer * n'.dimer.mDimer *
          s.sootVar.getD (m.nsoot - 1) 0 + k * m.coag.kfmVal s' * n'.dimer.nDimer * n'.dimer.mDimer *
            gV (qv M (m.nsoot - 1)) n'.dimer.mDimer k * (k * kcVal s' * n'.dimer.nDimer * n'.dimer.mDimer *
            contBrV (pv M (m.nsoot - 1)) n'.dimer.mDimer (kcpVal s') ((k - 1) * 3)) /
          (k * m.coag.kfmVal s' * n'.dimer.nDimer * n'.dimer.mDimer *
            gV (qv M (m.nsoot - 1)) n'.dimer.mDimer k + k * kcVal s' * n'.dimer.nDimer * n'.dimer.mDimer *
            contBrV (pv M (m.nsoot - 1)) n'.dimer.mDimer (kcpVal s') ((k - 1) * 3))) (fun k hk => by
          by_cases h0 : k = 0
          · simp only [if_pos h0]
          · have hk0 : (0 : ℝ) < k := by exact_mod_cast Nat.pos_of_ne_zero h0
            have a1 := gV_pos hq hm0 k
            have a2 := contBrV_pos hp hm0 (kcpVal_pos hph').le ((k - 1) * 3)
            simp only [if_neg h0]
            rw [contBr_ok hF (by omega) hm0, ok_bind, hg _ hm0 k (by omega) hk, ok_bind, cdiv_ok (by positivity), ok_bind]),
        ok_bind]
      exact ⟨_, rfl⟩
    · rw [if_neg hpah]; exact ⟨_, rfl⟩
  obtain ⟨cnd, hcnd⟩ := hcnd
  obtain ⟨grw, hgrw⟩ := hsurf (m.grow.mech ≠ .NONE) kG (-kG)
  obtain ⟨oxi, hoxi⟩ := hsurf (m.oxid.mechType ≠ .NONE) (-kO) (-kO)
  exact ⟨_, M, T, P, Q, J, n', s', kG, kO, cnd, grw, oxi, idx_getD (by rw [h.len]; omega), hN0, hM, hl, hA, hT, hP, hQ, hF,
    hJ, hr, hgas, hG, hO, hcnd, hgrw, hoxi⟩

/-! ## C35 -/

/-- With the read outside the array treated as what it is, the coagulation block never completes. -/
theorem hmomCoag_none {c : Coag} {s : State} {N : ℕ} {N0 mN : ℝ} {M P Q : List ℝ} (hc : c.mech ≠ .NONE) (f : ℕ → ℝ) :
    hmomCoag c s N N0 mN M P Q none ≠ ok f := by
  intro h
  simp only [hmomCoag, if_pos hc, hmomIk, hmomG, gGrid, if_true, bind_eq_ok] at h
  obtain ⟨_, _, _, ⟨_, _, _, _, _, _, _, h, _⟩, _⟩ := h
  cases h

/-- **C35 is false of the code.** No HMOM model that a constructor delivers ever completes `setSourceTerms`, on any
state whatsoever. -/
theorem C35_hmom_false (nsoot : ℕ) (n : Nucl) (g : Grow) (o : Oxid) (c : Coag) (Ntar : ℕ) (t : TarMech) (m : Model)
    {F : ℝ} {cMin : ℤ} (hnew : Model.newPtr .HMOM nsoot n g o c Ntar t F cMin = ok m) (s : State) (r : Model × State) :
    hmomSources m s ≠ ok r := by
  have hc : m.coag.mech ≠ .NONE := by
    simp only [Model.newPtr, bind_eq_ok] at hnew
    obtain ⟨_, h1, h2⟩ := hnew
    simp only [ok.injEq] at h2
    subst h2
    simp only [ctorCheck] at h1
    by_cases a : nsoot < 4 ∨ nsoot > 9
    · rw [if_pos a] at h1; cases h1
    rw [if_neg a] at h1
    by_cases b : ¬ t = .NONE
    · rw [if_pos b] at h1; cases h1
    rw [if_neg b] at h1
    by_cases d : ¬ (c.mech = .FM ∨ c.mech = .CONTINUUM ∨ c.mech = .HM)
    · rw [if_pos d] at h1; cases h1
    rcases not_not.mp d with e | e | e <;> simp [e]
  intro h
  simp only [hmomSources, hmomSourcesAt, hmomTerms, bind_eq_ok] at h
  obtain ⟨_, _, _, _, _, _, _, _, _, _, _, ⟨⟨_, _, _⟩, _, _, _, _, _, _, _, _, _, _, _, _, h, _⟩, _⟩ := h
  exact hmomCoag_none hc _ h

/-- **C35, what happens instead.** On every ready state the code reaches the read outside `Mq6_L`; nothing before it
is undefined, throws, or is non-finite. -/
theorem C35_hmom_ub (m : Model) (s : State) (h : HmomReady m s) (hc : m.coag.mech ≠ .NONE) : hmomSources m s = ub := by
  obtain ⟨N0, M, T, P, Q, J, n', s', kG, kO, cnd, grw, oxi, e1, _, e2, _, _, e3, e4, e5, _, e6, hr, _, e7, e8, e9, e10, e11⟩ :=
    hmom_pre h
  have hph := hr.gas.acc.phys
  have hco : hmomCoag m.coag s' (m.nsoot - 1) N0 (s.cMin * gasMW .C / Na) M P Q none = ub := by
    simp only [hmomCoag, if_pos hc, Coag.rate_ok hph h.fm, hmomIk, m.coag.kc_ok hph, m.coag.kcp_ok hph, m.coag.kfm_ok hph,
      ok_bind, hmomG, gGrid, if_true, ub_bind]
  simp only [hmomSources, hmomSourcesAt, hmomTerms, e1, e2, e3, e4, e5, e6, e7, e8, e9, e10, e11, ok_bind, hco, ub_bind]

theorem exHmomReady (n : NuclMech) (hn : n ≠ .AJ_RED) (hb : n ≠ .BROWN) (g : GrowMech) (o : OxidMech)
    (c : CoagMech) (v : List ℝ) (h4 : 4 ≤ v.length) (h9 : v.length ≤ 9) (hv : ∀ x ∈ v, 0 ≤ x)
    (hc : c ≠ .FUCHS) : HmomReady (exModel .HMOM v.length n g o c) (exSt v false) where
  toReady := exReady .HMOM v.length n hn hb g o c _ false rfl (by omega) hv
  psd := rfl
  four := h4
  nine := h9
  notar := rfl
  kernel := hc
  len := by rw [exSt_sootVar _ hv]; rfl
  dimers := fun _ => exSt_pah _

example : Model.new .HMOM 4 .PAH .HACA .NSC_NEOH .HM = ok (exModel .HMOM 4 .PAH .HACA .NSC_NEOH .HM) ∧
    Accepted (exSt [1E15, 1E-6, 2E-27, 1E14] false) ∧
    hmomSources (exModel .HMOM 4 .PAH .HACA .NSC_NEOH .HM) (exSt [1E15, 1E-6, 2E-27, 1E14] false) = ub := by
  have h := exHmomReady .PAH (by simp) (by simp) .HACA .NSC_NEOH .HM [1E15, 1E-6, 2E-27, 1E14] (by simp) (by simp)
    (by intro x hx; simp at hx; rcases hx with h | h | h | h <;> subst h <;> norm_num) (by simp)
  exact ⟨exModel_new rfl _ _ _, h.gas.acc, C35_hmom_ub _ _ h (by simp [exModel, Coag.new])⟩

/-! ## If the stray read delivers a number

What the compiled program does with the read outside the array is not determined by the source.  The following
theorems take the value of `g_grid_L(0)` as an arbitrary number `x`. -/

theorem hmomTerms_sound {read : Option ℝ} {m : Model} {N : ℕ} {N0 mN : ℝ} {M P Q : List ℝ} {T : Tri} {s : State} {t : MomTerms}
    (h : hmomTerms read m N N0 mN M T P Q s = ok t) (h2 : 2 ≤ N) : t.Sound m (hmomIbeta m N0 P Q) s := by
  simp only [hmomTerms, bind_eq_ok] at h
  obtain ⟨⟨j, n, s'⟩, h1, kG, _, kO, _, cnd, h3, grw, h4, oxi, h5, coa, h6, h⟩ := h
  cases h
  refine ⟨⟨j, h1⟩, fun hx => ?_, fun hx => ?_, fun hx => ?_, fun hx => ?_, ?_⟩
  · have hx : n.mech = .NONE := hx
    simp [hx]
  · simp only [hmomSurf, hx, ne_eq, not_true_eq_false, if_false] at h4; cases h4; rfl
  · simp only [hmomSurf, hx, ne_eq, not_true_eq_false, if_false] at h5; cases h5; rfl
  · have hx : n.mech ≠ .PAH := hx
    simp only [hmomCnd, if_neg hx] at h3; cases h3; rfl
  · by_cases hc : m.coag.mech ≠ .NONE
    · simp only [hmomCoag, if_pos hc, bind_eq_ok] at h6
      obtain ⟨_, _, _, _, _, _, R, h6, h7⟩ := h6
      simp only [ok.injEq] at h7
      have := (tabLoop_inv h6).1 1 (by omega)
      simp only [if_true, ok.injEq] at this
      rw [← h7]
      simp only
      rw [if_neg (by omega)]; exact this.symm
    · rw [hmomCoag, if_neg hc] at h6; cases h6; rfl

theorem hmomSourcesAt_inv {read : Option ℝ} {m m' : Model} {s s' : State} (h : hmomSourcesAt read m s = ok (m', s')) :
    ∃ N0 M T P Q t, hmomTerms read m (m.nsoot - 1) N0 (s.cMin * gasMW .C / Na) M T P Q s = ok t ∧
      momFinish m t = ok (m', s') := by
  simp only [hmomSourcesAt, bind_eq_ok] at h
  obtain ⟨N0, _, M, _, T, _, P, _, Q, _, t, h4, h5⟩ := h
  exact ⟨N0, M, T, P, Q, t, h4, h5⟩

/-- The evaluation completes, whatever non-negative number the stray read delivers. -/
theorem hmom_completes (m : Model) (s : State) (h : HmomReady m s) (x : ℝ) (hx : 0 ≤ x) :
    ∃ m' s', hmomSourcesAt (some x) m s = ok (m', s') := by
  obtain ⟨N0, M, T, P, Q, J, n', s', kG, kO, cnd, grw, oxi, e1, _, e2, hl, hA, e3, e4, e5, hF, e6, hr, hgas, e7, e8, e9, e10, e11⟩ :=
    hmom_pre h
  have hph := hr.gas.acc.phys
  have h4 := h.four
  have h9 := h.nine
  have h3 : 3 ≤ m.nsoot - 1 := by omega
  have hm := mNuc_pos h.gas.acc.phys.cMin
  have hk : m.coag.mech ≠ .NONE → m.coag.mech = .FM ∨ m.coag.mech = .CONTINUUM ∨ m.coag.mech = .HM := by
    have : ∀ c : CoagMech, c ≠ .FUCHS → c ≠ .NONE → c = .FM ∨ c = .CONTINUUM ∨ c = .HM := by
      intro c; cases c <;> simp
    exact this _ h.kernel
  have hq := hA.q hl h3
  have hp := hA.p hl h3
  have hI : ∀ k < m.nsoot - 1, ∃ I, hmomIk m.coag s' P Q (s.cMin * gasMW .C / Na) (some x) k = ok I := by
    intro k hk
    have hG : ∃ g, hmomG (some x) Q (s.cMin * gasMW .C / Na) k = ok g ∧ 0 ≤ g := by
      cases k with
      | zero => exact ⟨x, rfl, hx⟩
      | succ k =>
        refine ⟨_, ?_, (gV_pos hq hm (k + 1)).le⟩
        show gGrid Q _ (k + 1) = _
        rw [gGrid_ok hF h3 hm (by omega) hk, if_neg]
        rintro ⟨_, hz⟩
        exact (gPtV_pos hq hm (k + 1) 2).ne' hz
    obtain ⟨g, hg, hg0⟩ := hG
    have kf := Coag.kfmVal_pos hph h.fm
    have kk := kcVal_pos hph
    have a2 := contBrV_pos hp hm (kcpVal_pos hph).le (k * 3)
    rw [hmomIk, m.coag.kc_ok hph, ok_bind, m.coag.kcp_ok hph, ok_bind, m.coag.kfm_ok hph, ok_bind, hg, ok_bind,
      contBr_ok hF (by omega) hm, ok_bind]
    by_cases e : m.coag.mech = .FM
    · rw [if_pos e]; exact ⟨_, rfl⟩
    by_cases e' : m.coag.mech = .CONTINUUM
    · rw [if_neg e, if_pos e']; exact ⟨_, rfl⟩
    · rw [if_neg e, if_neg e', cdiv_ok (by positivity)]; exact ⟨_, rfl⟩
  choose! I hI using hI
  have hco : ∃ f, hmomCoag m.coag s' (m.nsoot - 1) N0 (s.cMin * gasMW .C / Na) M P Q (some x) = ok f := by
    by_cases hc : m.coag.mech = .NONE
    · rw [hmomCoag, if_neg (not_not.mpr hc)]; exact ⟨_, rfl⟩
    rw [hmomCoag, if_pos hc, Coag.rate_ok hph h.fm, ok_bind, hI 0 (by omega), ok_bind,
      momicCoag_ok hph h.fm hF h3 (by omega) hl (hk hc) (fun _ _ => hA), ok_bind]
    have : ∀ r < m.nsoot - 1, ∃ y, (if 2 ≤ r then do
          let S ← sumLoop (r - 1) fun k => do
            let b ← binom r (k + 1)
            let I ← hmomIk m.coag s' P Q (s.cMin * gasMW .C / Na) (some x) (k + 1)
            ok (b * (s.cMin * gasMW .C / Na) ^ (r - (k + 1)) * I)
          ok (N0 * S)
        else if r = 0 then ok (-I 0 * N0) else ok 0) = ok y := by
      intro r hr
      split_ifs
      · rw [sumLoop_ok (g := fun k => ((r.choose (k + 1) : ℕ) : ℝ) * (s.cMin * gasMW .C / Na) ^ (r - (k + 1)) * I (k + 1))
          (fun k hk => by rw [binom_ok (by omega) (by omega), ok_bind, hI _ (by omega), ok_bind]), ok_bind]
        exact ⟨_, rfl⟩
      · exact ⟨_, rfl⟩
      · exact ⟨_, rfl⟩
    choose! Y hY using this
    rw [tabLoop_ok (g := fun r => if r = 1 then 0 else 0.5 * m.coag.val s' (s.cMin * gasMW .C / Na) (s.cMin * gasMW .C / Na) *
        N0 * N0 * (2 ^ r - 2) * (s.cMin * gasMW .C / Na) ^ r + Y r +
        (if 0 < M.getD 0 0 ∧ r < m.nsoot - 1 then momicCoagV m.coag s' M (m.nsoot - 1) r else 0)) (fun r hr => by
      by_cases h1 : r = 1
      · rw [if_pos h1, if_pos h1]
      · rw [if_neg h1, if_neg h1, hY r hr, ok_bind]), ok_bind]
    exact ⟨_, rfl⟩
  obtain ⟨f, hf⟩ := hco
  simp only [hmomSourcesAt, hmomTerms, e1, e2, e3, e4, e5, e6, e7, e8, e9, e10, e11, hf, ok_bind]
  obtain ⟨m', hm'⟩ := Model.finish_ok (n := n') ((List.range m.nsoot).map fun i => (if n'.mech ≠ .NONE then
      (if i = m.nsoot - 1 then J else (s.cMin * gasMW .C / Na) ^ i * J) else 0) + cnd i + grw i + oxi i + f i)
    m.sources.tar (if n'.mech ≠ .NONE then
      (if 1 = m.nsoot - 1 then J else (s.cMin * gasMW .C / Na) ^ 1 * J) else 0) (grw 1) (oxi 1) h.wf (hgas _)
  exact ⟨m', s', by rw [momFinish, hm']; rfl⟩

/-- **C11 (HMOM).** Whatever the stray read delivers: without PAH, the gas sources and the first-moment source add up
to zero. -/
theorem C11_hmom (read : Option ℝ) (m m' : Model) (s s' : State) (hw : m.WF) (h2 : 3 ≤ m.nsoot) (hp : m.nucl.mech ≠ .PAH)
    (h : hmomSourcesAt read m s = ok (m', s')) :
    ∃ y, m'.sources.soot[1]? = some y ∧ (∑ sp, m'.sources.gas sp) + y = 0 := by
  obtain ⟨N0, M, T, P, Q, t, h3, h4⟩ := hmomSourcesAt_inv h
  exact momFinish_balance hw (by omega) hp (hmomTerms_sound h3 (by omega)) h4

theorem exHmomReady' (n : NuclMech) (hn : n ≠ .AJ_RED) (hb : n ≠ .BROWN) (g : GrowMech) (o : OxidMech)
    (c : CoagMech) (hc : c ≠ .FUCHS) :
    HmomReady (exModel .HMOM 4 n g o c) (exSt [1E15, 1E-6, 2E-27, 1E14] false) :=
  exHmomReady n hn hb g o c [1E15, 1E-6, 2E-27, 1E14] (by simp) (by simp)
    (by intro x hx; simp at hx; rcases hx with h | h | h | h <;> subst h <;> norm_num) hc

example : ∃ m' s' y, hmomSourcesAt (some 3) (exModel .HMOM 4 .LL .HACA .NSC_NEOH .HM) (exSt [1E15, 1E-6, 2E-27, 1E14] false) =
    ok (m', s') ∧ m'.sources.soot[1]? = some y ∧ (∑ sp, m'.sources.gas sp) + y = 0 := by
  have hr := exHmomReady' .LL (by simp) (by simp) .HACA .NSC_NEOH .HM (by simp)
  obtain ⟨m', s', h⟩ := hmom_completes _ _ hr 3 (by norm_num)
  obtain ⟨y, h1, h2⟩ := C11_hmom _ _ _ _ _ hr.wf (by simp [exModel]) (by simp [exModel, Nucl.new]) h
  exact ⟨m', s', y, h, h1, h2⟩

/-- **C16 (HMOM).** Whatever the stray read delivers: without PAH, the first-moment (mass) source is the one of the same
model without coagulation. -/
theorem C16_hmom (read : Option ℝ) (m m' m'' : Model) (s s' s'' : State) (h2 : 3 ≤ m.nsoot) (hp : m.nucl.mech ≠ .PAH)
    (h : hmomSourcesAt read m s = ok (m', s'))
    (h' : hmomSourcesAt read { m with coag := { m.coag with mech := .NONE } } s = ok (m'', s'')) :
    ∃ y, m'.sources.soot[1]? = some y ∧ m''.sources.soot[1]? = some y := by
  have hib : ∀ c N0 P Q, hmomIbeta { m with coag := c } N0 P Q = fun _ _ => ok 0 := by
    intro c N0 P Q; funext s1 mD; rw [hmomIbeta, if_pos hp]
  have hcnd : ∀ (c : Coag) (n : Nucl) N N0 mN P Q s1, n.mech ≠ .PAH →
      hmomCnd { m with coag := c } n N N0 mN P Q s1 = ok fun _ => 0 := by
    intro c n N N0 mN P Q s1 hn; rw [hmomCnd, if_neg hn]
  simp only [hmomSourcesAt, bind_eq_ok] at h h'
  obtain ⟨N0, e1, M, e2, T, e3, P, e4, Q, e5, t, e6, e7⟩ := h
  obtain ⟨N0', e1', M', e2', T', e3', P', e4', Q', e5', t', e6', e7'⟩ := h'
  cases e1.symm.trans e1'
  cases e2.symm.trans e2'
  cases e3.symm.trans e3'
  cases e4.symm.trans e4'
  cases e5.symm.trans e5'
  have k1 := (hmomTerms_sound e6 (by omega)).coa
  have k2 := (hmomTerms_sound e6' (by show 2 ≤ m.nsoot - 1; omega)).coa
  have k3 : t.nuc 1 + t.cnd 1 + t.grw 1 + t.oxi 1 = t'.nuc 1 + t'.cnd 1 + t'.grw 1 + t'.oxi 1 := by
    simp only [hmomTerms, bind_eq_ok] at e6 e6'
    obtain ⟨⟨j, n, s1⟩, a1, kG, a2, kO, a3, cnd, a4, grw, a5, oxi, a6, coa, a7, a8⟩ := e6
    obtain ⟨⟨j', n', s1'⟩, b1, kG', b2, kO', b3, cnd', b4, grw', b5, oxi', b6, coa', b7, b8⟩ := e6'
    have a1' := a1
    rw [show m = { m with coag := m.coag } from rfl, hib] at a1
    rw [hib] at b1
    cases a1.symm.trans b1
    have hn : n.mech ≠ .PAH := by rw [(Nucl.rate_inv a1').1]; exact hp
    cases a2.symm.trans b2
    cases a3.symm.trans b3
    cases a5.symm.trans b5
    cases a6.symm.trans b6
    rw [show m = { m with coag := m.coag } from rfl, hcnd _ _ _ _ _ _ _ _ hn] at a4
    rw [hcnd _ _ _ _ _ _ _ _ hn] at b4
    cases a4; cases b4; cases a8; cases b8; rfl
  obtain ⟨_, f1⟩ := momFinish_inv e7
  obtain ⟨_, f2⟩ := momFinish_inv e7'
  refine ⟨t.nuc 1 + t.cnd 1 + t.grw 1 + t.oxi 1 + t.coa 1, ?_, ?_⟩
  · rw [(Model.finish_gasC f1).2.1]; simp [List.getElem?_range (show 1 < m.nsoot by omega)]
  · rw [(Model.finish_gasC f2).2.1, k1, k3, ← k2]; simp [List.getElem?_range (show 1 < m.nsoot by omega)]

example : ∃ m' m'' s' s'' y,
    hmomSourcesAt (some 3) (exModel .HMOM 4 .LL .HACA .NSC_NEOH .HM) (exSt [1E15, 1E-6, 2E-27, 1E14] false) = ok (m', s') ∧
    hmomSourcesAt (some 3) (exModel .HMOM 4 .LL .HACA .NSC_NEOH .NONE) (exSt [1E15, 1E-6, 2E-27, 1E14] false) = ok (m'', s'') ∧
    m'.sources.soot[1]? = some y ∧ m''.sources.soot[1]? = some y := by
  obtain ⟨m', s', h⟩ := hmom_completes _ _ (exHmomReady' .LL (by simp) (by simp) .HACA .NSC_NEOH .HM (by simp)) 3 (by norm_num)
  obtain ⟨m'', s'', h'⟩ := hmom_completes _ _ (exHmomReady' .LL (by simp) (by simp) .HACA .NSC_NEOH .NONE (by simp)) 3
    (by norm_num)
  obtain ⟨y, h1, h2⟩ := C16_hmom _ _ _ m'' _ _ s'' (by simp [exModel]) (by simp [exModel, Nucl.new]) h h'
  exact ⟨m', m'', s', s'', y, h, h', h1, h2⟩

/-! ## C60: the moment order of the small-large collision integrals -/

/-- Rate at which one particle of mass `m0` meets the `n` particles of mass `x`, weighted with `x^k`. -/
noncomputable def meetMono (β n x : ℝ) (k : ℕ) : ℝ := β * (n * x ^ k)

theorem contBrV_mono {M : List ℝ} {N : ℕ} {n x m0 : ℝ} (h : MonoMoments M n x) (hn : 0 < n) (hx : 0 < x) (h0 : 0 < m0)
    (hl : M.length = N) (h3 : 3 ≤ N) (s : State) (k : ℕ) :
    kcVal s * contBrV (pv M N) m0 (kcpVal s) (k * 3) = meetMono (contVal s m0 x) n x k := by
  have hp : ∀ i, pv M N (k * 3 + i) = x ^ k * pv M N i := fun i => by
    rw [pv, pv, h.mr hn hx hl h3, h.mr hn hx hl h3, ← rpow_natCast x k, mul_left_comm, ← rpow_add hx]
    congr 2; push_cast; ring
  have e := dimerCV_mono h hn hx h0 hl h3 s
  have : contBrV (pv M N) m0 (kcpVal s) (k * 3) = x ^ k * dimerCV (pv M N) m0 (kcpVal s) := by
    rw [contBrV, hp, hp, hp, hp, dimerCV]; ring
  rw [this, mul_left_comm, e, meetMono]; ring

/-- **C60 is false of the code for FM.** With a monodisperse large mode (`n` particles of mass `x`), `get_Ik(k)` should be
the collision rate weighted with `x^k`.  The continuum integral is; the free-molecular one is weighted with `x^(k-1)`
(the same offset that makes `get_Ik(0)` leave its array). -/
theorem C60_hmom_order (c : Coag) (s : State) (N : ℕ) (M P Q : List ℝ) (n x m0 : ℝ) (read : Option ℝ) (hs : s.Phys)
    (hc : 0 < c.fmMult) (hF : FracOf M N P Q) (hl : M.length = N) (h3 : 3 ≤ N) (hn : 0 < n) (hx : 0 < x) (h0 : 0 < m0)
    (hM : MonoMoments M n x) (k : ℕ) (hk : k + 1 < N) :
    (c.mech = .CONTINUUM → hmomIk c s P Q m0 read (k + 1) = ok (meetMono (contVal s m0 x) n x (k + 1))) ∧
    (c.mech = .FM → hmomIk c s P Q m0 read (k + 1) = ok (meetMono (fmVal c s m0 x) n x k) ∧
      (x ≠ 1 → hmomIk c s P Q m0 read (k + 1) ≠ ok (meetMono (fmVal c s m0 x) n x (k + 1)))) := by
  have hA := hM.pos hn hx
  have hg : hmomG read Q m0 (k + 1) = ok (gV (qv M N) m0 (k + 1)) := by
    have : hmomG read Q m0 (k + 1) = gGrid Q m0 (k + 1) := by cases read <;> rfl
    rw [this, gGrid_ok hF h3 h0 (by omega) hk, if_neg]
    rintro ⟨_, hz⟩
    exact (gPtV_pos (hA.q hl h3) h0 (k + 1) 2).ne' hz
  have base : hmomIk c s P Q m0 read (k + 1) =
      (if c.mech = .FM then ok (c.kfmVal s * gV (qv M N) m0 (k + 1)) else if c.mech = .CONTINUUM then
        ok (kcVal s * contBrV (pv M N) m0 (kcpVal s) ((k + 1) * 3)) else
        cdiv (c.kfmVal s * gV (qv M N) m0 (k + 1) * (kcVal s * contBrV (pv M N) m0 (kcpVal s) ((k + 1) * 3)))
          (c.kfmVal s * gV (qv M N) m0 (k + 1) + kcVal s * contBrV (pv M N) m0 (kcpVal s) ((k + 1) * 3))) := by
    rw [hmomIk, c.kc_ok hs, ok_bind, c.kcp_ok hs, ok_bind, c.kfm_ok hs, ok_bind, hg, ok_bind,
      contBr_ok hF (by omega) h0, ok_bind]
  refine ⟨fun e => ?_, fun e => ?_⟩
  · rw [base, if_neg (by simp [e]), if_pos e, contBrV_mono hM hn hx h0 hl h3]
  · have e1 : hmomIk c s P Q m0 read (k + 1) = ok (meetMono (fmVal c s m0 x) n x k) := by
      rw [base, if_pos e, gV_mono hM hn hx h0 hl h3, Nat.add_sub_cancel, meetMono]
    refine ⟨e1, fun hx1 => ?_⟩
    rw [e1]
    intro he
    have he := ok.inj he
    have hb := fmVal_pos' hs hc h0 hx
    have hk0 : 0 < x ^ k := by positivity
    unfold meetMono at he
    rw [pow_succ] at he
    have : x ^ k = x ^ k * x := mul_left_cancel₀ hn.ne' (mul_left_cancel₀ hb.ne' he)
    exact hx1 (mul_left_cancel₀ hk0.ne' (by rw [← this, mul_one]))

/-- The moments of `10^15` particles of mass `10^-21` kg, with the fractional moments HMOM itself computes. -/
example : ∃ M T P Q, MonoMoments M 1E15 1E-21 ∧ setDiffTable ⟨4, fun _ _ => none⟩ M = ok T ∧ hmomP T = ok P ∧
    hmomQ T = ok Q ∧ FracOf M 4 P Q ∧
    hmomIk (Coag.new .FM) (exSt [1, 1, 1, 1, 1] false) P Q 1E-24 none 2 =
      ok (meetMono (fmVal (Coag.new .FM) (exSt [1, 1, 1, 1, 1] false) 1E-24 1E-21) 1E15 1E-21 1) := by
  have hM : MonoMoments ((List.range 4).map fun k : ℕ => (1E15 : ℝ) * 1E-21 ^ k) 1E15 1E-21 := by
    intro k hk; simp
  obtain ⟨T, hT, hn, hv⟩ := setDiffTable_ok (M := (List.range 4).map fun k : ℕ => (1E15 : ℝ) * 1E-21 ^ k)
    ⟨4, fun _ _ => none⟩ (by simp)
  simp only at hn hv
  obtain ⟨P, Q, hP, hQ, hF⟩ := hmomPQ_ok (M := (List.range 4).map fun k : ℕ => (1E15 : ℝ) * 1E-21 ^ k) (T := T)
    ⟨by simp [hn], fun i j hij => hv i j (by omega)⟩ (by omega) (by omega)
  rw [hn] at hF
  have hr := exReady .HMOM 5 .LL (by simp) (by simp) .LL .LL .FM [1, 1, 1, 1, 1] false rfl (by norm_num) (by simp)
  exact ⟨_, T, P, Q, hM, hT, hP, hQ, hF, ((C60_hmom_order _ _ 4 _ P Q _ _ 1E-24 none hr.gas.acc.phys
    (by norm_num [Coag.new]) hF (by simp) (by norm_num) (by norm_num) (by norm_num) (by norm_num) hM 1 (by norm_num)).2 rfl).1⟩

end Soot
