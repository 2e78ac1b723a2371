import Verif.Props.MomicVals
import Verif.Props.Ex

/-!
# Complete evaluation of MOMIC
-/

namespace Soot

open Res Real
open scoped Classical

/-- A MOMIC model object with 3 to 7 moments as its constructors allow it, and a state it can be evaluated on.  The
constructors reject coagulation NONE; it is allowed here so that sources with and without coagulation can be compared. -/
structure MomicReady (m : Model) (s : State) : Prop extends Ready m s where
  psd : m.psd = .MOMIC
  three : 3 ≤ m.nsoot
  seven : m.nsoot ≤ 7
  notar : m.tar = .NONE
  kernel : m.coag.mech ≠ .FUCHS
  len : s.sootVar.length = m.nsoot

/-- The states on which the evaluation stays finite: free-molecular grid functions and condensation need every moment
positive (unless there are no particles at all, in which case coagulation is skipped). -/
structure MomicFin (m : Model) (s : State) : Prop where
  pah : m.nucl.mech = .PAH → AllPos s.sootVar ∧ ∃ y ∈ s.yPah, y ≠ 0
  coag : 0 < s.sootVar.getD 0 0 → m.coag.mech = .FM ∨ m.coag.mech = .HM → AllPos s.sootVar

/-- Coagulation source of moment `r`. -/
noncomputable def momicCoagV (c : Coag) (s : State) (M : List ℝ) (N r : ℕ) : ℝ :=
  if r = 1 then 0 else
  match c.mech with
  | .FM => fmCoagV (c.kfmVal s) (qv M N) r
  | .CONTINUUM => cCoagV (kcVal s) (kcpVal s) (pv M N) r
  | .NONE => 0
  | _ => hmean (fmCoagV (c.kfmVal s) (qv M N) r) (cCoagV (kcVal s) (kcpVal s) (pv M N) r)

/-- Dimer–soot collision rate. -/
noncomputable def momicBeta (c : Coag) (s : State) (M : List ℝ) (N : ℕ) (mD : ℝ) (k : ℕ) : ℝ :=
  hmean (c.kfmVal s * gV (qv M N) mD k) (kcVal s * dimerCV (pv M N) mD (kcpVal s))

theorem tabLoop_nonfin {n k : ℕ} {f : ℕ → Res ℝ} (hk : k < n) (h1 : ∀ j < k, ∃ x, f j = ok x) (h2 : f k = nonfin) :
    tabLoop n f = nonfin := by
  induction n with
  | zero => omega
  | succ n ih =>
    rw [tabLoop]
    rcases (Nat.lt_succ_iff.mp hk).eq_or_lt with rfl | hlt
    · choose! g hg using h1
      rw [tabLoop_ok hg, ok_bind, h2]; rfl
    · rw [ih hlt]; rfl

section
variable {M P Q : List ℝ} {N : ℕ} {c : Coag} {s : State}

theorem AllPos.q (h : AllPos M) (hl : M.length = N) (h3 : 3 ≤ N) (i : ℕ) : 0 < qv M N i := h.mr hl h3 _
theorem AllPos.p (h : AllPos M) (hl : M.length = N) (h3 : 3 ≤ N) (i : ℕ) : 0 < pv M N i := h.mr hl h3 _

theorem momicCoag_ok (hs : s.Phys) (hc : 0 < c.fmMult) (hF : FracOf M N P Q) (h3 : 3 ≤ N) (h8 : N ≤ 8)
    (hl : M.length = N) (hk : c.mech = .FM ∨ c.mech = .CONTINUUM ∨ c.mech = .HM)
    (hf : 0 < M.getD 0 0 → c.mech = .FM ∨ c.mech = .HM → AllPos M) :
    momicCoagRates c s N M P Q =
      ok fun r => if 0 < M.getD 0 0 ∧ r < N then momicCoagV c s M N r else 0 := by
  rw [momicCoagRates, idx_getD (by omega), ok_bind]
  by_cases h0 : M.getD 0 0 ≤ 0
  · rw [if_pos h0]; simp only [not_lt.mpr h0, false_and, if_false]
  have h0' := not_le.mp h0
  rw [if_neg h0]
  simp only [h0', true_and]
  rcases hk with hk | hk | hk
  · have hA : AllPos M := hf h0' (by simp [hk])
    rw [if_pos (.inl hk), if_neg (by rw [hk]; simp), momicFM_ok c hs hF h8
      (fun x y _ => fPtV_pos (hA.q hl h3) x y 2), ok_bind, ok_bind]
    refine tabLoop_ok fun r hr => ?_
    by_cases h1 : r = 1
    · rw [if_pos h1, momicCoagV, if_pos h1]
    · rw [if_neg h1, if_pos hk]
      simp only [momicCoagV, if_neg h1, hk, if_pos hr]
  · rw [if_neg (by rw [hk]; simp), if_pos (.inl hk), momicC_ok c hs hF h8 h3, ok_bind, ok_bind]
    refine tabLoop_ok fun r hr => ?_
    by_cases h1 : r = 1
    · rw [if_pos h1, momicCoagV, if_pos h1]
    · rw [if_neg h1, if_neg (by rw [hk]; simp), if_pos hk]
      simp only [momicCoagV, if_neg h1, hk, if_pos hr]
  · have hA : AllPos M := hf h0' (by simp [hk])
    have kf := Coag.kfmVal_pos hs hc
    have kk := kcVal_pos hs
    have kp := kcpVal_pos hs
    rw [if_pos (.inr hk), if_pos (.inr hk), momicFM_ok c hs hF h8
      (fun x y _ => fPtV_pos (hA.q hl h3) x y 2), ok_bind, momicC_ok c hs hF h8 h3, ok_bind]
    refine tabLoop_ok fun r hr => ?_
    by_cases h1 : r = 1
    · rw [if_pos h1, momicCoagV, if_pos h1]
    · rw [if_neg h1, if_neg (by rw [hk]; simp), if_neg (by rw [hk]; simp)]
      simp only [if_pos hr]
      have hne : fmCoagV (c.kfmVal s) (qv M N) r + cCoagV (kcVal s) (kcpVal s) (pv M N) r ≠ 0 := by
        rcases Nat.eq_zero_or_pos r with rfl | hr0
        · have a1 := fV_pos (hA.q hl h3) 0 0
          have a2 := pairV_pos (hA.p hl h3) kp.le 0 0
          rw [fmCoagV, if_pos rfl, cCoagV, if_pos rfl]
          have : 0 < c.kfmVal s / 2 * fV (qv M N) 0 0 + kcVal s / 2 * pairV (pv M N) (kcpVal s) 0 0 := by positivity
          linarith
        · have a1 := fmCoagV_pos (hA.q hl h3) kf (r := r) (by omega)
          have a2 := cCoagV_pos (hA.p hl h3) kk kp.le (r := r) (by omega)
          linarith
      rw [cdiv_ok hne]
      simp only [momicCoagV, if_neg h1, hk, hmean]

theorem fPtV_zero (h : ¬ AllPos M) (hl : M.length = N) : fPtV (qv M N) 0 0 2 = 0 := by
  have z : ∀ i, 2 ≤ i → qv M N i = 0 := fun i hi => qv_zero h hl hi
  simp [fPtV, bilV, fFull, z]

theorem momicCoag_nonfin (hs : s.Phys) (hF : FracOf M N P Q) (h3 : 3 ≤ N) (hl : M.length = N)
    (hk : c.mech = .FM ∨ c.mech = .HM) (h0 : 0 < M.getD 0 0) (hn : ¬ AllPos M) :
    momicCoagRates c s N M P Q = nonfin := by
  have e : momicFM c s N Q = nonfin := by
    rw [momicFM, c.kfm_ok hs, ok_bind]
    refine tabLoop_nonfin (k := 0) (by omega) (fun j hj => by omega) ?_
    rw [if_neg (by norm_num), if_pos rfl, fGrid_ok hF (by omega), if_pos ⟨by norm_num, fPtV_zero hn hl⟩]; rfl
  rw [momicCoagRates, idx_getD (by omega), ok_bind, if_neg (not_le.mpr h0), if_pos hk, e]; rfl

theorem momicCoagV_one : momicCoagV c s M N 1 = 0 := by simp [momicCoagV]

theorem hmean_nonpos {a b : ℝ} (ha : a ≤ 0) (hb : b ≤ 0) : hmean a b ≤ 0 :=
  div_nonpos_of_nonneg_of_nonpos (mul_nonneg_of_nonpos_of_nonpos ha hb) (by linarith)

theorem hmean_nonneg {a b : ℝ} (ha : 0 ≤ a) (hb : 0 ≤ b) : 0 ≤ hmean a b := by unfold hmean; positivity

theorem hmean_neg {a b : ℝ} (ha : a < 0) (hb : b < 0) : hmean a b < 0 :=
  div_neg_of_pos_of_neg (mul_pos_of_neg_of_neg ha hb) (by linarith)

theorem momicCoagV_zero_nonpos (hs : s.Phys) (hc : 0 < c.fmMult) : momicCoagV c s M N 0 ≤ 0 := by
  have a := fmCoagV_zero_nonpos (qv_nonneg M N) (Coag.kfmVal_pos hs hc).le
  have b := cCoagV_zero_nonpos (pv_nonneg M N) (kcVal_pos hs).le (kcpVal_pos hs).le
  rw [momicCoagV, if_neg (by norm_num)]
  split
  · exact a
  · exact b
  · exact le_rfl
  · exact hmean_nonpos a b

theorem momicCoagV_nonneg (hs : s.Phys) (hc : 0 < c.fmMult) {r : ℕ} (hr : 2 ≤ r) : 0 ≤ momicCoagV c s M N r := by
  have a := fmCoagV_nonneg (qv_nonneg M N) (Coag.kfmVal_pos hs hc).le (r := r) (by omega)
  have b := cCoagV_nonneg (pv_nonneg M N) (kcVal_pos hs).le (kcpVal_pos hs).le (r := r) (by omega)
  rw [momicCoagV, if_neg (by omega)]
  split
  · exact a
  · exact b
  · exact le_rfl
  · exact hmean_nonneg a b

theorem momicIbeta_ok {m : Model} (hs : s.Phys) (hc : 0 < m.coag.fmMult) (hF : FracOf M N P Q) (h3 : 3 ≤ N)
    (hl : M.length = N) (hA : AllPos M) (hp : m.nucl.mech = .PAH) {mD : ℝ} (hD : 0 < mD) :
    momicIbeta m P Q s mD = ok (momicBeta m.coag s M N mD 1) ∧ 0 < momicBeta m.coag s M N mD 1 := by
  have a1 := gV_pos (hA.q hl h3) hD 1
  have a2 := dimerCV_pos (hA.p hl h3) hD (kcpVal_pos hs).le
  have kf := Coag.kfmVal_pos hs hc
  have kk := kcVal_pos hs
  constructor
  · rw [momicIbeta, if_neg (by simp [hp]), m.coag.kc_ok hs, ok_bind, m.coag.kcp_ok hs, ok_bind, dimerC_ok hF h3 hD, ok_bind,
      m.coag.kfm_ok hs, ok_bind, gGrid_ok hF h3 hD le_rfl (by omega), if_neg, ok_bind, cdiv_ok (by positivity)]
    · rfl
    · rintro ⟨_, hz⟩
      exact (gPtV_pos (hA.q hl h3) hD 1 2).ne' hz
  · unfold momicBeta hmean; positivity

theorem momicCnd_ok {m : Model} {n : Nucl} (hs : s.Phys) (hc : 0 < m.coag.fmMult) (hF : FracOf M m.nsoot P Q)
    (h3 : 3 ≤ m.nsoot) (hl : M.length = m.nsoot)
    (hp : n.mech = .PAH → AllPos M ∧ 0 < n.dimer.mDimer ∧ 0 < n.dimer.nDimer) :
    momicCnd m n P Q s = ok fun k => if n.mech = .PAH ∧ k < m.nsoot then
      k * (n.dimer.mDimer * n.dimer.nDimer * momicBeta m.coag s M m.nsoot n.dimer.mDimer k) else 0 := by
  unfold momicCnd
  by_cases hx : n.mech = .PAH
  · obtain ⟨hA, hD, hn⟩ := hp hx
    have kf := Coag.kfmVal_pos hs hc
    have kk := kcVal_pos hs
    have hb := dimerCV_pos (hA.p hl h3) hD (kcpVal_pos hs).le
    simp only [if_pos hx, m.coag.kc_ok hs, m.coag.kcp_ok hs, m.coag.kfm_ok hs, ok_bind, dimerC_ok hF h3 hD, hx, true_and]
    rw [tabLoop_ok (g := fun k => k * kcVal s * n.dimer.nDimer * n.dimer.mDimer * dimerCV (pv M m.nsoot) n.dimer.mDimer (kcpVal s))
      (fun k _ => by
        split_ifs with h0
        · subst h0; simp
        · rfl), ok_bind]
    rw [tabLoop_ok (g := fun k => k * m.coag.kfmVal s * n.dimer.nDimer * n.dimer.mDimer * gV (qv M m.nsoot) n.dimer.mDimer k)
      (fun k hk => by
        by_cases h0 : k = 0
        · subst h0; simp
        · rw [if_neg h0, gGrid_ok hF h3 hD (by omega) hk, if_neg, ok_bind]
          rintro ⟨_, hz⟩
          exact (gPtV_pos (hA.q hl h3) hD k 2).ne' hz), ok_bind]
    refine tabLoop_ok fun k hk => ?_
    by_cases h0 : k = 0
    · subst h0; simp
    · have hk0 : (0 : ℝ) < k := by exact_mod_cast Nat.pos_of_ne_zero h0
      have hg := gV_pos (hA.q hl h3) hD k
      simp only [if_neg h0, if_pos hk]
      rw [cdiv_ok (by positivity)]
      unfold momicBeta hmean
      congr 1
      field_simp
  · simp only [if_neg hx, hx, false_and, if_false]

theorem momicSurf_ok {m : Model} {T : Tri} (hT : TabOf M T) (hn : T.n = m.nsoot) (h3 : 3 ≤ m.nsoot) {on : Prop} {K : ℝ}
    (hK : ¬ on → K = 0) :
    momicSurf m T on K = ok fun k => if k < m.nsoot then K * (acoef * k * mrVal M m.nsoot (k - onethird)) else 0 := by
  unfold momicSurf
  by_cases h : on
  · rw [if_pos h]
    refine tabLoop_ok fun k hk => ?_
    split_ifs with h0
    · subst h0; simp
    · rw [momicMr_ok hT (by omega), ok_bind, hn]; congr 1; ring
  · rw [if_neg h, hK h]; simp

end

theorem momicSetup {m : Model} {s : State} (h : MomicReady m s) :
    ∃ T P Q, setDiffTable ⟨m.nsoot, fun _ _ => none⟩ s.sootVar = ok T ∧ momicP T = ok P ∧ momicQ T = ok Q ∧
      TabOf s.sootVar T ∧ T.n = m.nsoot ∧ FracOf s.sootVar m.nsoot P Q := by
  obtain ⟨T, hT, hn, hv⟩ := setDiffTable_ok (M := s.sootVar) ⟨m.nsoot, fun _ _ => none⟩ (by simp [h.len])
  simp only at hn hv
  have ht : TabOf s.sootVar T := ⟨by rw [hn, h.len], fun i j hij => hv i j (by omega)⟩
  have h3 := h.three; have h7 := h.seven
  obtain ⟨P, Q, hP, hQ, hF⟩ := momicPQ_ok ht (by omega) (by omega)
  exact ⟨T, P, Q, hT, hP, hQ, ht, hn, hn ▸ hF⟩

/-- The source of moment `r`. -/
noncomputable def momicSoot (m : Model) (s : State) (n : Nucl) (J kG kO mN : ℝ) (r : ℕ) : ℝ :=
  J * mN ^ r +
  (if m.nucl.mech = .PAH then
    r * (n.dimer.mDimer * n.dimer.nDimer * momicBeta m.coag s s.sootVar m.nsoot n.dimer.mDimer r) else 0) +
  (kG - kO) * (acoef * r * mrVal s.sootVar m.nsoot (r - onethird)) +
  (if 0 < s.sootVar.getD 0 0 then momicCoagV m.coag s s.sootVar m.nsoot r else 0)

/-- Complete evaluation of MOMIC, with the arrays of fractional moments given. -/
theorem momic_eval_at {m : Model} {s : State} {T : Tri} {P Q : List ℝ} (h : MomicReady m s) (hf : MomicFin m s)
    (hT : setDiffTable ⟨m.nsoot, fun _ _ => none⟩ s.sootVar = ok T) (hP : momicP T = ok P) (hQ : momicQ T = ok Q)
    (ht : TabOf s.sootVar T) (hn : T.n = m.nsoot) (hF : FracOf s.sootVar m.nsoot P Q) :
    ∃ m' s' J n' kG kO, momicSources m s = ok (m', s') ∧
      m.nucl.rate (momicIbeta m P Q) s = ok (J, n', s') ∧ s' = { s with cMin := s'.cMin } ∧ 0 < s'.cMin ∧
      m.grow.rate m.ctx s' = ok kG ∧ m.oxid.rate m.ctx s' = ok kO ∧ 0 ≤ J ∧ 0 ≤ kG ∧ 0 ≤ kO ∧
      (m.nucl.mech = .NONE → J = 0) ∧ (m.nucl.mech = .PAH → 0 < n'.dimer.mDimer ∧ 0 < n'.dimer.nDimer) ∧
      (m.grow.mech = .NONE → kG = 0) ∧ (m.oxid.mechType = .NONE → kO = 0) ∧
      m.finish n' m'.sources.soot m.sources.tar (J * (s'.cMin * gasMW .C / Na))
        (kG * (acoef * mrVal s.sootVar m.nsoot twothird)) (-(kO * (acoef * mrVal s.sootVar m.nsoot twothird))) = ok m' ∧
      m'.sources.soot = (List.range m.nsoot).map (momicSoot m s n' J kG kO (s'.cMin * gasMW .C / Na)) := by
  have hph := h.gas.acc.phys
  have h3 := h.three
  have hib : m.nucl.mech = .PAH → ∃ I, momicIbeta m P Q { s with cMin := cMinAfter s } (mDimerAfter s) = ok I ∧ 0 ≤ I := by
    intro hp
    obtain ⟨hA, hy⟩ := hf.pah hp
    have hph' : State.Phys { s with cMin := cMinAfter s } := (h.gas.acc.upd (cMinAfter_pos hph) s.wts s.absc).phys
    obtain ⟨e1, e2⟩ := momicIbeta_ok (m := m) hph' h.fm hF h3 h.len hA hp (mDimerAfter_pos hph h.pah hy)
    exact ⟨_, e1, e2.le⟩
  obtain ⟨J, n', s', hJ, hJ0, hs', hc', hJN, hd, hg⟩ := h.toReady.nucl' (momicIbeta m P Q) hib
  have hr : Ready m s' := by rw [hs']; exact h.toReady.upd hc' _ _
  obtain ⟨kG, hG, hG0, hGN, _⟩ := hr.grow
  obtain ⟨kO, hO, hO0, hON⟩ := hr.oxid
  obtain ⟨hn1, _⟩ := Nucl.rate_inv hJ
  have hph' := hr.gas.acc.phys
  have hdim : m.nucl.mech = .PAH → 0 < n'.dimer.mDimer ∧ 0 < n'.dimer.nDimer := by
    intro hp
    obtain ⟨hA, hy⟩ := hf.pah hp
    have hm := (nucl_pah_inv hph h.pah hp hJ).2.1
    have hm0 : 0 < n'.dimer.mDimer := by rw [hm]; exact mDimerAfter_pos hph h.pah hy
    obtain ⟨e1, e2⟩ := momicIbeta_ok (m := m) hph' h.fm hF h3 h.len hA hp hm0
    obtain ⟨_, b2, b3, _⟩ := dimer_balance h.gas.acc h.pah hp hJ e1 e2.le hy
    exact ⟨b3, b2⟩
  have hsv : s'.sootVar = s.sootVar := by rw [hs']
  have hbeta : momicBeta m.coag s' = momicBeta m.coag s := by rw [hs']; rfl
  have hcoagV : momicCoagV m.coag s' = momicCoagV m.coag s := by rw [hs']; rfl
  have hN : ∀ k, (if n'.mech ≠ .NONE then (s'.cMin * gasMW .C / Na) ^ k * J else 0) =
      J * (s'.cMin * gasMW .C / Na) ^ k := by
    intro k; split_ifs with hx
    · ring
    · rw [hJN (by rw [← hn1]; exact not_not.mp hx)]; simp
  have hcoa : (if m.coag.mech ≠ .NONE then momicCoagRates m.coag s' m.nsoot s.sootVar P Q else ok fun _ => 0) =
      ok fun r => if 0 < s.sootVar.getD 0 0 ∧ r < m.nsoot then momicCoagV m.coag s' s.sootVar m.nsoot r else 0 := by
    by_cases hcn : m.coag.mech = .NONE
    · rw [if_neg (not_not.mpr hcn)]
      simp only [momicCoagV, hcn, ite_self]
    · have hk : m.coag.mech = .FM ∨ m.coag.mech = .CONTINUUM ∨ m.coag.mech = .HM := by
        have : ∀ c : CoagMech, c ≠ .FUCHS → c ≠ .NONE → c = .FM ∨ c = .CONTINUUM ∨ c = .HM := by
          intro c; cases c <;> simp
        exact this _ h.kernel hcn
      rw [if_pos hcn, momicCoag_ok hph' h.fm hF h3 (by have := h.seven; omega) h.len hk hf.coag]
  have hterms : momicTerms m T P Q s = ok ⟨fun k => J * (s'.cMin * gasMW .C / Na) ^ k,
      fun k => if n'.mech = .PAH ∧ k < m.nsoot then
        k * (n'.dimer.mDimer * n'.dimer.nDimer * momicBeta m.coag s s.sootVar m.nsoot n'.dimer.mDimer k) else 0,
      fun k => if k < m.nsoot then kG * (acoef * k * mrVal s.sootVar m.nsoot (k - onethird)) else 0,
      fun k => if k < m.nsoot then -kO * (acoef * k * mrVal s.sootVar m.nsoot (k - onethird)) else 0,
      fun r => if 0 < s.sootVar.getD 0 0 ∧ r < m.nsoot then momicCoagV m.coag s s.sootVar m.nsoot r else 0, n', s'⟩ := by
    rw [momicTerms, hJ, ok_bind]
    simp only
    rw [hG, ok_bind, hO, ok_bind, momicCnd_ok hph' h.fm hF h3 h.len
      (fun hx => ⟨(hf.pah (hn1 ▸ hx)).1, hdim (hn1 ▸ hx)⟩), ok_bind, momicSurf_ok ht hn h3 (fun hx => hGN (not_not.mp hx)), ok_bind,
      momicSurf_ok ht hn h3 (fun hx => by rw [hON (not_not.mp hx), neg_zero]), ok_bind, hsv, hcoa, ok_bind]
    simp only [hN, hbeta, hcoagV]
  have h1 : 1 < m.nsoot := by omega
  have h23 : ((1 : ℕ) : ℝ) - onethird = twothird := by norm_num [onethird, twothird]
  obtain ⟨m', hfin⟩ := Model.finish_ok (n := n') ((List.range m.nsoot).map (momicSoot m s n' J kG kO (s'.cMin * gasMW .C / Na)))
    m.sources.tar (J * (s'.cMin * gasMW .C / Na)) (kG * (acoef * mrVal s.sootVar m.nsoot twothird))
    (-(kO * (acoef * mrVal s.sootVar m.nsoot twothird))) h.wf (hg _)
  have hsoot := (Model.finish_gasC hfin).2.1
  refine ⟨m', s', J, n', kG, kO, ?_, hJ, hs', hc', hG, hO, hJ0, hG0, hO0, hJN, hdim, hGN, hON,
    by rw [hsoot]; exact hfin, hsoot⟩
  rw [momicSources, hT, ok_bind, hP, ok_bind, hQ, ok_bind, hterms, ok_bind, momFinish]
  have hl : ((List.range m.nsoot).map fun i => J * (s'.cMin * gasMW .C / Na) ^ i +
      (if n'.mech = .PAH ∧ i < m.nsoot then
        i * (n'.dimer.mDimer * n'.dimer.nDimer * momicBeta m.coag s s.sootVar m.nsoot n'.dimer.mDimer i) else 0) +
      (if i < m.nsoot then kG * (acoef * i * mrVal s.sootVar m.nsoot (i - onethird)) else 0) +
      (if i < m.nsoot then -kO * (acoef * i * mrVal s.sootVar m.nsoot (i - onethird)) else 0) +
      (if 0 < s.sootVar.getD 0 0 ∧ i < m.nsoot then momicCoagV m.coag s s.sootVar m.nsoot i else 0)) =
      (List.range m.nsoot).map (momicSoot m s n' J kG kO (s'.cMin * gasMW .C / Na)) := by
    refine List.map_congr_left fun i hi => ?_
    have hi' : i < m.nsoot := List.mem_range.mp hi
    simp only [momicSoot, hi', and_true, if_true, hn1]
    ring
  simp only [hl, pow_one, h1, if_true]
  rw [h23]
  have e2 : (acoef * ((1 : ℕ) : ℝ) * mrVal s.sootVar m.nsoot twothird) = acoef * mrVal s.sootVar m.nsoot twothird := by
    push_cast; ring
  rw [e2, neg_mul, hfin]; rfl

/-- Complete evaluation of MOMIC. -/
theorem momic_eval {m : Model} {s : State} (h : MomicReady m s) (hf : MomicFin m s) :
    ∃ P Q m' s' J n' kG kO, FracOf s.sootVar m.nsoot P Q ∧ momicSources m s = ok (m', s') ∧
      m.nucl.rate (momicIbeta m P Q) s = ok (J, n', s') ∧ s' = { s with cMin := s'.cMin } ∧ 0 < s'.cMin ∧
      m.grow.rate m.ctx s' = ok kG ∧ m.oxid.rate m.ctx s' = ok kO ∧ 0 ≤ J ∧ 0 ≤ kG ∧ 0 ≤ kO ∧
      (m.nucl.mech = .NONE → J = 0) ∧ (m.nucl.mech = .PAH → 0 < n'.dimer.mDimer ∧ 0 < n'.dimer.nDimer) ∧
      (m.grow.mech = .NONE → kG = 0) ∧ (m.oxid.mechType = .NONE → kO = 0) ∧
      m.finish n' m'.sources.soot m.sources.tar (J * (s'.cMin * gasMW .C / Na))
        (kG * (acoef * mrVal s.sootVar m.nsoot twothird)) (-(kO * (acoef * mrVal s.sootVar m.nsoot twothird))) = ok m' ∧
      m'.sources.soot = (List.range m.nsoot).map (momicSoot m s n' J kG kO (s'.cMin * gasMW .C / Na)) := by
  obtain ⟨T, P, Q, hT, hP, hQ, ht, hn, hF⟩ := momicSetup h
  obtain ⟨m', s', J, n', kG, kO, he⟩ := momic_eval_at h hf hT hP hQ ht hn hF
  exact ⟨P, Q, m', s', J, n', kG, kO, hF, he⟩

theorem exMomicReady (N : ℕ) (n : NuclMech) (hn : n ≠ .AJ_RED) (hb : n ≠ .BROWN) (g : GrowMech) (o : OxidMech)
    (c : CoagMech) (v : List ℝ) (clean : Bool) (h3 : 3 ≤ N) (h7 : N ≤ 7) (hl : v.length = N) (hv : ∀ x ∈ v, 0 ≤ x)
    (hc : c ≠ .FUCHS) : MomicReady (exModel .MOMIC N n g o c) (exSt v clean) where
  toReady := exReady .MOMIC N n hn hb g o c _ clean hl (by omega) hv
  psd := rfl
  three := h3
  seven := h7
  notar := rfl
  kernel := hc
  len := by rw [exSt_sootVar _ hv, hl]; rfl

end Soot
