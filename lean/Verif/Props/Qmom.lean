import Verif.Props.QmomRound
import Verif.Props.Mono
import Verif.Props.Logn

/-!
# Quadrature method of moments: C11, C16, C17, C20, C22, C29, C30, C31, C51
-/

namespace Soot

open Res Real
open scoped Classical

/-! ## Fractional moments and collision sums of a node set -/

/-- What `Mr` computes: the moment of order `r`, or 0 as soon as one node is empty. -/
noncomputable def nodeMr (w a : List ℝ) (r : ℝ) : ℝ :=
  if ∃ i < w.length, w.getD i 0 ≤ 0 ∨ a.getD i 0 ≤ 0 then 0 else
    ∑ i ∈ Finset.range w.length, w.getD i 0 * a.getD i 0 ^ r

theorem qmomMrLoop_ok {w a : List ℝ} (hl : w.length ≤ a.length) (r : ℝ) : ∀ n i acc, i + n = w.length →
    qmomMrLoop r w a n i acc = ok (if ∃ k, i ≤ k ∧ k < w.length ∧ (w.getD k 0 ≤ 0 ∨ a.getD k 0 ≤ 0) then 0 else
      acc + ∑ k ∈ Finset.range n, w.getD (i + k) 0 * a.getD (i + k) 0 ^ r) := by
  intro n
  induction n with
  | zero =>
    intro i acc h
    rw [qmomMrLoop, if_neg (by rintro ⟨k, h1, h2, _⟩; omega)]; simp
  | succ n ih =>
    intro i acc h
    rw [qmomMrLoop, idx_getD (by omega), ok_bind]
    by_cases h1 : w.getD i 0 ≤ 0
    · rw [if_pos h1, if_pos ⟨i, le_rfl, by omega, .inl h1⟩]
    · rw [if_neg h1, idx_getD (by omega), ok_bind]
      by_cases h2 : a.getD i 0 ≤ 0
      · rw [if_pos h2, if_pos ⟨i, le_rfl, by omega, .inr h2⟩]
      · rw [if_neg h2, cpow_ok (not_le.mp h2), ok_bind, ih (i + 1) _ (by omega)]
        have hiff : (∃ k, i + 1 ≤ k ∧ k < w.length ∧ (w.getD k 0 ≤ 0 ∨ a.getD k 0 ≤ 0)) ↔
            (∃ k, i ≤ k ∧ k < w.length ∧ (w.getD k 0 ≤ 0 ∨ a.getD k 0 ≤ 0)) := by
          constructor
          · rintro ⟨k, a1, a2, a3⟩; exact ⟨k, by omega, a2, a3⟩
          · rintro ⟨k, a1, a2, a3⟩
            refine ⟨k, ?_, a2, a3⟩
            rcases a1.eq_or_lt with e | e
            · subst e; rcases a3 with c | c
              · exact absurd c h1
              · exact absurd c h2
            · exact e
        simp only [hiff]
        congr 2
        rw [Finset.sum_range_succ']
        have : ∀ k, i + 1 + k = i + (k + 1) := fun k => by omega
        simp only [this, Nat.add_zero]; ring

theorem qmomMr_ok {w a : List ℝ} (hl : w.length ≤ a.length) (r : ℝ) : qmomMr r w a = ok (nodeMr w a r) := by
  rw [qmomMr, qmomMrLoop_ok hl r _ _ _ (by omega)]
  simp [nodeMr]

theorem nodeMr_nonneg (w a : List ℝ) (r : ℝ) : 0 ≤ nodeMr w a r := by
  unfold nodeMr; split_ifs with h
  · exact le_rfl
  · push Not at h
    refine Finset.sum_nonneg fun i hi => ?_
    obtain ⟨h1, h2⟩ := h i (Finset.mem_range.mp hi)
    have := rpow_pos_of_pos h2 r
    positivity

/-- Collision sum over all pairs of nodes (specification): coalescence of masses `a_i`, `a_j` with collision rate `K`
changes the moment of order `r` by `(a_i+a_j)^r - a_i^r - a_j^r`. -/
noncomputable def collisionSum (K : ℝ → ℝ → ℝ) (w a : List ℝ) (r : ℕ) : ℝ :=
  1 / 2 * ∑ i ∈ Finset.range a.length, ∑ j ∈ Finset.range a.length, K (a.getD i 0) (a.getD j 0) * w.getD i 0 * w.getD j 0 *
    ((a.getD i 0 + a.getD j 0) ^ r - a.getD i 0 ^ r - a.getD j 0 ^ r)

theorem sum_sym (n : ℕ) (f : ℕ → ℕ → ℝ) (hf : ∀ i j, f i j = f j i) :
    ∑ i ∈ Finset.range n, ∑ j ∈ Finset.range n, f i j =
      2 * (∑ i ∈ Finset.range n, ∑ j ∈ Finset.range i, f i j) + ∑ i ∈ Finset.range n, f i i := by
  induction n with
  | zero => simp
  | succ n ih =>
    rw [Finset.sum_range_succ, Finset.sum_range_succ (fun i => ∑ j ∈ Finset.range i, f i j),
      Finset.sum_range_succ (fun i => f i i)]
    simp only [Finset.sum_range_succ (fun j => f _ j), Finset.sum_add_distrib]
    rw [ih, Finset.sum_congr rfl fun i _ => hf i n]; ring

theorem binom_sum {r : ℕ} (hr : 1 ≤ r) (x y : ℝ) :
    ∑ k ∈ Finset.range (r - 1), (r.choose (k + 1) : ℝ) * x ^ (k + 1) * y ^ (r - (k + 1)) = (x + y) ^ r - x ^ r - y ^ r := by
  obtain ⟨r, rfl⟩ : ∃ q, r = q + 1 := ⟨r - 1, by omega⟩
  rw [add_pow, Finset.sum_range_succ, Finset.sum_range_succ', Nat.add_sub_cancel]
  simp only [Nat.sub_self, pow_zero, Nat.choose_self, Nat.choose_zero_right, Nat.sub_zero]
  have : ∀ k ∈ Finset.range r, ((r + 1).choose (k + 1) : ℝ) * x ^ (k + 1) * y ^ (r + 1 - (k + 1)) =
      x ^ (k + 1) * y ^ (r + 1 - (k + 1)) * ((r + 1).choose (k + 1) : ℕ) := fun k _ => by ring
  rw [Finset.sum_congr rfl this]; ring

/-- One coagulation source of QMOM. -/
theorem qmomCoagR_ok {m : Model} {s : State} (hp : s.Phys) (hf : 0 < m.coag.fmMult) (hl : s.absc.length ≤ s.wts.length)
    {r : ℕ} (hr : r < 35) (h1 : r ≠ 1) :
    qmomCoagR m s r = ok (collisionSum (m.coag.val s) s.wts s.absc r) := by
  have hrate : ∀ x y, m.coag.rate s x y = ok (m.coag.val s x y) := Coag.rate_ok hp hf
  have hS : ∀ x y : ℝ, (sumLoop (r - 1) fun k => do
      let c ← binom r (k + 1)
      ok (c * x ^ (k + 1) * y ^ (r - (k + 1)))) =
      ok (∑ k ∈ Finset.range (r - 1), (r.choose (k + 1) : ℝ) * x ^ (k + 1) * y ^ (r - (k + 1))) := by
    intro x y
    exact sumLoop_ok fun k hk => by rw [binom_ok hr (by omega), ok_bind]
  have hval : ∀ x y : ℝ, (if r = 0 then -1 else 0) +
      ∑ k ∈ Finset.range (r - 1), (r.choose (k + 1) : ℝ) * x ^ (k + 1) * y ^ (r - (k + 1)) =
      (x + y) ^ r - x ^ r - y ^ r := by
    intro x y
    by_cases h0 : r = 0
    · subst h0; simp
    · rw [if_neg h0, binom_sum (by omega), zero_add]
  have hoff : (sumLoop s.absc.length fun i => sumLoop i fun j => do
      let ai ← idx s.absc i
      let aj ← idx s.absc j
      let S ← sumLoop (r - 1) fun k => do
        let c ← binom r (k + 1)
        ok (c * ai ^ (k + 1) * aj ^ (r - (k + 1)))
      let K ← m.coag.rate s ai aj
      let wi ← idx s.wts i
      let wj ← idx s.wts j
      ok (K * wi * wj * ((if r = 0 then -1 else 0) + S))) =
      ok (∑ i ∈ Finset.range s.absc.length, ∑ j ∈ Finset.range i,
        m.coag.val s (s.absc.getD i 0) (s.absc.getD j 0) * s.wts.getD i 0 * s.wts.getD j 0 *
        ((s.absc.getD i 0 + s.absc.getD j 0) ^ r - s.absc.getD i 0 ^ r - s.absc.getD j 0 ^ r)) := by
    refine sumLoop_ok fun i hi => sumLoop_ok fun j hj => ?_
    rw [idx_getD hi, ok_bind, idx_getD (hj.trans hi), ok_bind, hS, ok_bind, hrate, ok_bind,
      idx_getD (hi.trans_le hl), ok_bind, idx_getD ((hj.trans hi).trans_le hl), ok_bind, hval]
  have hdS : (sumLoop (r - 1) fun k => binom r (k + 1)) = ok (∑ k ∈ Finset.range (r - 1), (r.choose (k + 1) : ℝ)) :=
    sumLoop_ok fun k hk => binom_ok hr (by omega)
  have hdval : ∀ x : ℝ, ((if r = 0 then -1 else 0) + ∑ k ∈ Finset.range (r - 1), (r.choose (k + 1) : ℝ)) *
      (if r = 0 then 1 else x ^ r) = (x + x) ^ r - x ^ r - x ^ r := by
    intro x
    rw [← hval x x]
    by_cases h0 : r = 0
    · subst h0; simp
    · rw [if_neg h0, if_neg h0, zero_add, zero_add, Finset.sum_mul]
      refine Finset.sum_congr rfl fun k hk => ?_
      have := Finset.mem_range.mp hk
      rw [mul_assoc, ← pow_add]; congr 2; omega
  have hdiag : (sumLoop s.absc.length fun i => do
      let ai ← idx s.absc i
      let K ← m.coag.rate s ai ai
      let wi ← idx s.wts i
      ok (0.5 * K * wi * wi * ((if r = 0 then -1 else 0) + ∑ k ∈ Finset.range (r - 1), (r.choose (k + 1) : ℝ)) *
        (if r = 0 then 1 else ai ^ r))) =
      ok (∑ i ∈ Finset.range s.absc.length, 1 / 2 *
        (m.coag.val s (s.absc.getD i 0) (s.absc.getD i 0) * s.wts.getD i 0 * s.wts.getD i 0 *
        ((s.absc.getD i 0 + s.absc.getD i 0) ^ r - s.absc.getD i 0 ^ r - s.absc.getD i 0 ^ r))) := by
    refine sumLoop_ok fun i hi => ?_
    rw [idx_getD hi, ok_bind, hrate, ok_bind, idx_getD (hi.trans_le hl), ok_bind, mul_assoc _ _ (ite _ _ _), hdval]
    congr 1; ring
  rw [qmomCoagR, hoff, ok_bind, hdS, ok_bind, hdiag, ok_bind, collisionSum, sum_sym _ _ (fun i j => by
    rw [m.coag.val_comm s (s.absc.getD i 0)]; ring), ← Finset.mul_sum]
  congr 1; ring

theorem collisionSum_one (K : ℝ → ℝ → ℝ) (w a : List ℝ) : collisionSum K w a 1 = 0 := by simp [collisionSum]

/-- All coagulation sources of QMOM. -/
theorem qmomCoag_ok {m : Model} {s : State} (hp : s.Phys) (hf : 0 < m.coag.fmMult) (hl : s.absc.length ≤ s.wts.length)
    (hn : m.coag.mech ≠ .NONE → m.nsoot ≤ 35) :
    qmomCoag m s = ok fun r => if r < m.nsoot then collisionSum (m.coag.val s) s.wts s.absc r else 0 := by
  unfold qmomCoag
  split_ifs with hc
  · refine tabLoop_ok fun r hr => ?_
    split_ifs with h1
    · subst h1; rw [collisionSum_one]
    · exact qmomCoagR_ok hp hf hl (by have := hn hc; omega) h1
  · have : ∀ x y, m.coag.val s x y = 0 := fun x y => by simp [Coag.val, not_not.mp hc]
    congr 1; funext r; simp [collisionSum, this]

/-! ## Evaluation -/

/-- A QMOM model object as its constructors allow it, and a state of matching size; the binomial table bounds the
number of moments if there is coagulation. -/
structure QmomReady (m : Model) (s : State) : Prop extends Ready m s where
  psd : m.psd = .QMOM
  even : m.nsoot % 2 = 0
  two : 2 ≤ m.nsoot
  notar : m.tar = .NONE
  len : s.sootVar.length = m.nsoot
  wlen : s.wts.length = m.nsoot / 2
  alen : s.absc.length = m.nsoot / 2
  table : m.coag.mech ≠ .NONE → m.nsoot ≤ 35

/-- Mass source by condensation: `k` times the rate at which dimers of mass `mD` and concentration `nD` hit the
particles, weighted with `a^(k-1)`. -/
noncomputable def condSum (K : ℝ → ℝ → ℝ) (w a : List ℝ) (mD nD : ℝ) (k : ℕ) : ℝ :=
  k * nD * mD * ∑ i ∈ Finset.range a.length, K mD (a.getD i 0) * w.getD i 0 * a.getD i 0 ^ (k - 1)

/-- The source of moment `k`. -/
noncomputable def qmomSoot (m : Model) (s : State) (n : Nucl) (w a : List ℝ) (J kG kO mN : ℝ) (k : ℕ) : ℝ :=
  J * mN ^ k + (if n.mech = .PAH then condSum (m.coag.val s) w a n.dimer.mDimer n.dimer.nDimer k else 0) +
    (kG - kO) * (acoef * k * nodeMr w a (k - onethird)) + collisionSum (m.coag.val s) w a k

theorem acoef_pos : 0 < acoef := by have := rhoSoot_pos; unfold acoef; positivity

section
variable {m : Model} {s : State}

theorem QmomReady.nodes (h : QmomReady m s) (eig : Eig) :
    ∃ w a, getWtsAbs eig s.sootVar s.wts s.absc = ok (w, a) ∧ w.length = m.nsoot / 2 ∧ a.length = m.nsoot / 2 ∧
      (∀ x ∈ w, 0 ≤ x) ∧ (∀ x ∈ a, 0 ≤ x) := by
  obtain ⟨w, a, n, h1, h2, h3, h4, h5, _⟩ := C27_inversion_total eig s.sootVar s.wts s.absc h.gas.acc.sootVar_nonneg
    (by rw [h.len]; exact h.two) (by rw [h.len, h.wlen]) (by rw [h.len, h.alen])
  exact ⟨w, a, h1, h2.trans h.wlen, h3.trans h.alen, h4, h5⟩

theorem qmomCnd_ok {n : Nucl} {m : Model} {s : State} (hp : s.Phys) (hf : 0 < m.coag.fmMult)
    (hl : s.absc.length ≤ s.wts.length) : qmomCnd m n s = ok fun k => if k < m.nsoot then
      (if n.mech = .PAH then condSum (m.coag.val s) s.wts s.absc n.dimer.mDimer n.dimer.nDimer k else 0) else 0 := by
  unfold qmomCnd
  split_ifs with hx
  · refine tabLoop_ok fun k hk => ?_
    by_cases h0 : k = 0
    · subst h0; simp [condSum]
    · rw [if_neg h0, sumLoop_ok (g := fun i => m.coag.val s n.dimer.mDimer (s.absc.getD i 0) * s.wts.getD i 0 *
        s.absc.getD i 0 ^ (k - 1)) (fun i hi => by
          rw [idx_getD hi, ok_bind, Coag.rate_ok hp hf, ok_bind, idx_getD (hi.trans_le hl), ok_bind]
          congr 2
          by_cases h1 : k = 1
          · subst h1; simp
          · by_cases h2 : k = 2
            · subst h2; simp
            · rw [if_neg h1, if_neg h2]), ok_bind, condSum, mul_comm]
  · simp

theorem qmomSurf_ok {m : Model} {s : State} (hl : s.wts.length ≤ s.absc.length) {P : Prop} {K : ℝ} (hK : ¬ P → K = 0) :
    qmomSurf m s P K = ok fun k => if k < m.nsoot then K * (acoef * k * nodeMr s.wts s.absc (k - onethird)) else 0 := by
  unfold qmomSurf
  split_ifs with hx
  · refine tabLoop_ok fun k hk => ?_
    by_cases h0 : k = 0
    · subst h0; simp
    · rw [if_neg h0, qmomMr_ok hl, ok_bind]; congr 1; ring
  · rw [hK hx]; simp

/-- Complete evaluation of QMOM on a ready state, whatever the eigenvalue routine returns. -/
theorem qmom_eval (eig : Eig) (h : QmomReady m s) :
    ∃ w a m' s' J n' kG kO, getWtsAbs eig s.sootVar s.wts s.absc = ok (w, a) ∧ w.length = m.nsoot / 2 ∧
      a.length = m.nsoot / 2 ∧ (∀ x ∈ w, 0 ≤ x) ∧ (∀ x ∈ a, 0 ≤ x) ∧ qmomSources eig m s = ok (m', s') ∧
      m.nucl.rate (ibetaNodes m.coag) { s with wts := w, absc := a } = ok (J, n', s') ∧
      s' = { s with wts := w, absc := a, cMin := s'.cMin } ∧ 0 < s'.cMin ∧
      m.grow.rate m.ctx s' = ok kG ∧ m.oxid.rate m.ctx s' = ok kO ∧ 0 ≤ J ∧ 0 ≤ kG ∧ 0 ≤ kO ∧
      (m.nucl.mech = .NONE → J = 0) ∧ (m.nucl.mech = .PAH → 0 ≤ n'.dimer.mDimer ∧ 0 ≤ n'.dimer.nDimer) ∧
      (m.grow.mech = .NONE → kG = 0) ∧ (m.oxid.mechType = .NONE → kO = 0) ∧
      m.finish n' m'.sources.soot m.sources.tar (J * (s'.cMin * gasMW .C / Na)) (kG * (acoef * nodeMr w a twothird))
        (-(kO * (acoef * nodeMr w a twothird))) = ok m' ∧
      m'.sources.soot = (List.range m.nsoot).map (qmomSoot m s n' w a J kG kO (s'.cMin * gasMW .C / Na)) := by
  obtain ⟨w, a, e0, hw, ha, hw0, ha0⟩ := h.nodes eig
  have hcm := h.gas.acc.phys.cMin
  have hr1 : Ready m { s with wts := w, absc := a } := h.toReady.upd hcm _ _
  obtain ⟨J, n', s', hJ, hJ0, hs', hc', hJN, hd, hg⟩ := hr1.nucl (ibetaNodes m.coag) (by
    intro _ c mD hc _
    have hp : State.Phys { s with wts := w, absc := a, cMin := c } := (h.gas.acc.upd hc _ _).phys
    exact ⟨_, ibetaNodes_ok hp h.fm (by rw [hw, ha]) mD,
      Finset.sum_nonneg fun i _ => mul_nonneg (abs_nonneg _) (Coag.val_nonneg hp h.fm _ _)⟩)
  have hr2 : Ready m s' := by rw [hs']; exact hr1.upd hc' _ _
  obtain ⟨kG, hG, hG0, hGN, _⟩ := hr2.grow
  obtain ⟨kO, hO, hO0, hON⟩ := hr2.oxid
  obtain ⟨hn1, _⟩ := Nucl.rate_inv hJ
  have hw' : s'.wts = w := by rw [hs']
  have ha' : s'.absc = a := by rw [hs']
  have hval : m.coag.val s' = m.coag.val s := by rw [hs']; rfl
  have hph := hr2.gas.acc.phys
  have hN : ∀ k, (if n'.mech ≠ .NONE then (s'.cMin * gasMW .C / Na) ^ k * J else 0) =
      J * (s'.cMin * gasMW .C / Na) ^ k := by
    intro k; split_ifs with hx
    · ring
    · rw [hJN (by rw [← hn1]; exact not_not.mp hx)]; simp
  have hterms : qmomTerms m { s with wts := w, absc := a } =
      ok ⟨fun k => J * (s'.cMin * gasMW .C / Na) ^ k,
        fun k => if k < m.nsoot then
          (if n'.mech = .PAH then condSum (m.coag.val s) w a n'.dimer.mDimer n'.dimer.nDimer k else 0) else 0,
        fun k => if k < m.nsoot then kG * (acoef * k * nodeMr w a (k - onethird)) else 0,
        fun k => if k < m.nsoot then -kO * (acoef * k * nodeMr w a (k - onethird)) else 0,
        fun k => if k < m.nsoot then collisionSum (m.coag.val s) w a k else 0, n', s'⟩ := by
    simp only [qmomTerms]
    rw [hJ]; simp only [ok_bind]
    rw [hG, ok_bind, hO, ok_bind, qmomCnd_ok hph h.fm (by rw [hw', ha', hw, ha]), ok_bind,
      qmomSurf_ok (by rw [hw', ha', hw, ha]) (fun hx => hGN (not_not.mp hx)), ok_bind,
      qmomSurf_ok (by rw [hw', ha', hw, ha]) (fun hx => by rw [hON (not_not.mp hx), neg_zero]), ok_bind,
      qmomCoag_ok hph h.fm (by rw [hw', ha', hw, ha]) h.table, ok_bind, hw', ha', hval]
    simp only [hN]
  have h23 : ((1 : ℕ) : ℝ) - onethird = twothird := by norm_num [onethird, twothird]
  have hsoot : ((List.range m.nsoot).map fun i => J * (s'.cMin * gasMW .C / Na) ^ i +
      (if i < m.nsoot then
          (if n'.mech = .PAH then condSum (m.coag.val s) w a n'.dimer.mDimer n'.dimer.nDimer i else 0) else 0) +
      (if i < m.nsoot then kG * (acoef * i * nodeMr w a (i - onethird)) else 0) +
      (if i < m.nsoot then -kO * (acoef * i * nodeMr w a (i - onethird)) else 0) +
      (if i < m.nsoot then collisionSum (m.coag.val s) w a i else 0)) =
      (List.range m.nsoot).map (qmomSoot m s n' w a J kG kO (s'.cMin * gasMW .C / Na)) := by
    refine List.map_congr_left fun i hi => ?_
    have hi := List.mem_range.mp hi
    simp only [if_pos hi, qmomSoot]; ring
  obtain ⟨m', hf⟩ := Model.finish_ok (n := n')
    ((List.range m.nsoot).map (qmomSoot m s n' w a J kG kO (s'.cMin * gasMW .C / Na))) m.sources.tar
    (J * (s'.cMin * gasMW .C / Na)) (kG * (acoef * nodeMr w a twothird)) (-(kO * (acoef * nodeMr w a twothird))) h.wf (hg _)
  have hms := (Model.finish_gasC hf).2.1
  refine ⟨w, a, m', s', J, n', kG, kO, e0, hw, ha, hw0, ha0, ?_, hJ, hs', hc', hG, hO, hJ0, hG0, hO0, hJN, hd, hGN, hON,
    by rw [hms]; exact hf, hms⟩
  have h1n : 1 < m.nsoot := h.two
  simp only [qmomSources, e0, ok_bind, hterms, momFinish, hsoot, if_pos h1n, pow_one, h23]
  simp only [Nat.cast_one, mul_one]
  have e : -kO * (acoef * nodeMr w a twothird) = -(kO * (acoef * nodeMr w a twothird)) := by ring
  rw [e, hf, ok_bind]

end

theorem exQmomReady (N : ℕ) (n : NuclMech) (hn : n ≠ .AJ_RED) (hb : n ≠ .BROWN) (g : GrowMech) (o : OxidMech)
    (c : CoagMech) (v : List ℝ) (clean : Bool) (hN : 1 ≤ N) (hl : v.length = 2 * N) (hv : ∀ x ∈ v, 0 ≤ x)
    (ht : c ≠ .NONE → N ≤ 17) : QmomReady (exModel .QMOM (2 * N) n g o c) (exSt v clean) where
  toReady := exReady .QMOM (2 * N) n hn hb g o c _ clean hl (by omega) hv
  psd := rfl
  even := by simp [exModel]
  two := by simp [exModel]; omega
  notar := rfl
  len := by rw [exSt_sootVar _ hv, hl]; rfl
  wlen := by rw [exSt_wts, hl]; simp [exModel]
  alen := by rw [exSt_absc, hl]; simp [exModel]
  table := fun hc => by have := ht hc; simp [exModel]; omega

end Soot
