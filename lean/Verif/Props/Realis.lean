import Verif.Props.Agree
import Mathlib.Analysis.Calculus.Deriv.Mul
import Mathlib.Analysis.Calculus.Deriv.Pow
import Mathlib.Analysis.Calculus.Deriv.Add

/-!
# Property C92: the sources keep equal particles realisable
-/

namespace Soot

open Res Real
open scoped Classical

/-- Moments belong to a population of particles only if `M0 M2 - M1²` is not negative; it is zero for equal particles. -/
def gap (M0 M1 M2 : ℝ) : ℝ := M0 * M2 - M1 ^ 2

namespace Realis

theorem deriv_gap (M0 M1 M2 S0 S1 S2 : ℝ) :
    HasDerivAt (fun t => gap (M0 + t * S0) (M1 + t * S1) (M2 + t * S2)) (M0 * S2 + M2 * S0 - 2 * M1 * S1) 0 := by
  have l : ∀ M S : ℝ, HasDerivAt (fun t : ℝ => M + t * S) S 0 := fun M S => by
    simpa using ((hasDerivAt_id (0 : ℝ)).mul_const S).const_add M
  have := ((l M0 S0).mul (l M2 S2)).sub ((l M1 S1).pow 2)
  refine this.congr_deriv ?_
  simp
  ring

/-- A positive derivative at equal particles makes every short step realisable. -/
theorem step {n m S0 S1 S2 V : ℝ} (h : HasDerivAt (fun t => gap (n + t * S0) (n * m + t * S1) (n * m ^ 2 + t * S2)) V 0) (hV : 0 < V) :
    ∃ δ > 0, ∀ t, 0 < t → t < δ → 0 < gap (n + t * S0) (n * m + t * S1) (n * m ^ 2 + t * S2) := by
  have e : ∀ t, gap (n + t * S0) (n * m + t * S1) (n * m ^ 2 + t * S2) = t * (V + t * (S0 * S2 - S1 ^ 2)) := fun t => by
    have := h.unique (deriv_gap _ _ _ _ _ _)
    rw [this, gap]; ring
  refine ⟨V / (1 + |S0 * S2 - S1 ^ 2|), by positivity, fun t h0 ht => ?_⟩
  rw [e]
  rw [lt_div_iff₀ (by positivity)] at ht
  have := neg_abs_le (S0 * S2 - S1 ^ 2)
  have : t * -|S0 * S2 - S1 ^ 2| ≤ t * (S0 * S2 - S1 ^ 2) := mul_le_mul_of_nonneg_left this h0.le
  exact mul_pos h0 (by nlinarith)

theorem rp {m : ℝ} (hm : 0 < m) {a b : ℝ} (h : b = a + 1) : m ^ b = m ^ a * m := by rw [h, rpow_add hm, rpow_one]

section
variable {n m : ℝ} (hn : 0 < n) (hm : 0 < m)
include hn hm

/-- One order up multiplies a moment of equal particles with their mass. -/
theorem up {a b : ℝ} (h : b = a + 1) : lognM n (n * m) (n * m ^ 2) b = m * lognM n (n * m) (n * m ^ 2) a := by
  rw [Agree.lognM_eq hn hm, Agree.lognM_eq hn hm, rp hm h]; ring

theorem fm2 (c : Coag) (s : State) (mD : ℝ) :
    lognFm2 c s (lognM n (n * m) (n * m ^ 2)) mD = 2 * m * lognFm1 c s (lognM n (n * m) (n * m ^ 2)) mD := by
  rw [lognFm2, lognFm1, up hn hm (a := 0) (b := 1) (by norm_num), up hn hm (a := 2 / 6) (b := 8 / 6) (by norm_num),
    up hn hm (a := 4 / 6) (b := 10 / 6) (by norm_num), up hn hm (a := -1 / 6) (b := 5 / 6) (by norm_num),
    up hn hm (a := -3 / 6) (b := 3 / 6) (by norm_num), up hn hm (a := 1 / 6) (b := 7 / 6) (by norm_num)]
  ring

theorem c2 (s : State) (mD : ℝ) : lognC2 s (lognM n (n * m) (n * m ^ 2)) mD = 2 * m * lognC1 s (lognM n (n * m) (n * m ^ 2)) mD := by
  have e := up hn hm (a := -4 / 6) (b := 2 / 6) (by norm_num)
  rw [lognC2, lognC1, up hn hm (a := 0) (b := 1) (by norm_num), up hn hm (a := 2 / 6) (b := 8 / 6) (by norm_num),
    up hn hm (a := -2 / 6) (b := 4 / 6) (by norm_num)]
  linear_combination (2 * kcVal s * kcpVal s * mD ^ onethird) * e

theorem coa2Fm (c : Coag) (s : State) :
    lognCoa2Fm c s (lognM n (n * m) (n * m ^ 2)) = 2 * m ^ 2 * lognCoa0Fm c s (lognM n (n * m) (n * m ^ 2)) := by
  rw [lognCoa2Fm, lognCoa0Fm, up hn hm (a := 0) (b := 1) (by norm_num), up hn hm (a := 2 / 6) (b := 8 / 6) (by norm_num),
    up hn hm (a := 4 / 6) (b := 10 / 6) (by norm_num), up hn hm (a := -1 / 6) (b := 5 / 6) (by norm_num),
    up hn hm (a := -3 / 6) (b := 3 / 6) (by norm_num), up hn hm (a := 1 / 6) (b := 7 / 6) (by norm_num)]
  ring

theorem coa2C (s : State) : lognCoa2C s (lognM n (n * m) (n * m ^ 2)) = 2 * m ^ 2 * lognCoa0C s (lognM n (n * m) (n * m ^ 2)) := by
  have e := up hn hm (a := -4 / 6) (b := 2 / 6) (by norm_num)
  rw [lognCoa2C, lognCoa0C, up hn hm (a := 0) (b := 1) (by norm_num), up hn hm (a := 2 / 6) (b := 8 / 6) (by norm_num),
    up hn hm (a := -2 / 6) (b := 4 / 6) (by norm_num)]
  linear_combination (2 * kcVal s * kcpVal s * m * lognM n (n * m) (n * m ^ 2) (2 / 6)) * e

theorem coa0Fm_pos {c : Coag} {s : State} (hp : s.Phys) (hc : 0 < c.fmMult) : 0 < lognCoa0Fm c s (lognM n (n * m) (n * m ^ 2)) := by
  have := c.kfmVal_pos hp hc; have := bCoag_pos
  simp only [lognCoa0Fm, Agree.lognM_eq hn hm]; positivity

theorem coa0C_pos {s : State} (hp : s.Phys) : 0 < lognCoa0C s (lognM n (n * m) (n * m ^ 2)) := by
  have := kcVal_pos hp; have := kcpVal_pos hp
  simp only [lognCoa0C, Agree.lognM_eq hn hm]; positivity

end

theorem hmean_smul {k a b : ℝ} (hk : k ≠ 0) : hmean (k * a) (k * b) = k * hmean a b := by
  rw [hmean, hmean, ← mul_add]
  rcases eq_or_ne (a + b) 0 with h | h
  · rw [h]; simp
  · field_simp

theorem cond_first (K : ℝ → ℝ → ℝ) {N : ℕ} (hN : 1 ≤ N) (n m mD nD : ℝ) (k : ℕ) :
    condSum K ((List.range N).map fun i => if i = 0 then n else 0) ((List.range N).map fun i => if i = 0 then m else 0) mD nD k =
      k * m ^ (k - 1) * (nD * mD * (K mD m * n)) := by
  have g : ∀ (i : ℕ), i ≠ 0 → ((List.range N).map fun i => if i = 0 then n else 0).getD i 0 = 0 := fun i hi => by
    by_cases h : i < N
    · rw [getD_of_lt (by simpa using h)]; simp [hi]
    · rw [List.getD_eq_default]; simpa using h
  have g0 : ∀ x : ℝ, ((List.range N).map fun i => if i = 0 then x else 0).getD 0 0 = x := fun x => by
    rw [getD_of_lt (by simp; omega)]; simp
  rw [condSum, List.length_map, List.length_range, Finset.sum_eq_single 0]
  · rw [g0, g0]; ring
  · intro i _ hi; rw [g i hi]; ring
  · exact fun h => absurd (Finset.mem_range.mpr (by omega)) h

section
variable {c : Coag} {s : State} {M : List ℝ} {N : ℕ} {n m : ℝ}

theorem pairUp (hM : MonoMoments M n m) (hn : 0 < n) (hm : 0 < m) (hl : M.length = N) (h3 : 3 ≤ N) (Kcp : ℝ) :
    pairV (pv M N) Kcp 1 1 = m ^ 2 * pairV (pv M N) Kcp 0 0 := by
  have e : ∀ i, pv M N (i + 3) = m * pv M N i := fun i => by
    rw [pv, pv, hM.mr hn hm hl h3, hM.mr hn hm hl h3, rp hm (a := (2 * (i : ℝ) - 4) / 6) (by push_cast; ring)]; ring
  have a := e 0; have b := e 1; have d := e 2; have f := e 3
  simp only [Nat.zero_add, show 1 + 3 = 4 from rfl, show 2 + 3 = 5 from rfl, show 3 + 3 = 6 from rfl] at a b d f
  simp only [pairV, Nat.one_mul, Nat.zero_mul, Nat.zero_add, show 3 + 1 = 4 from rfl, show 3 + 2 = 5 from rfl, show 3 + 3 = 6 from rfl]
  rw [b, d, f, a]
  ring

/-- Coagulation of equal particles in MOMIC: the loss `x` of particles, and `2 m² x` for the second moment. -/
theorem momicCoag (hs : s.Phys) (hc : 0 < c.fmMult) (hk : c.mech ≠ .FUCHS) (hM : MonoMoments M n m) (hn : 0 < n) (hm : 0 < m) (hl : M.length = N)
    (h3 : 3 ≤ N) : ∃ x, 0 ≤ x ∧ (c.mech ≠ .NONE → 0 < x) ∧ momicCoagV c s M N 0 = -x ∧ momicCoagV c s M N 2 = 2 * m ^ 2 * x := by
  have a := Agree.momicFm hM hn hm hl h3 c s
  have b := Agree.momicCont hM hn hm hl h3 s
  have hF := fmVal_pos (c := c) hs hc hm hm
  have hC := contVal_pos hs hm hm
  have a0 : fmCoagV (c.kfmVal s) (qv M N) 0 = -(fmVal c s m m * n ^ 2 / 2) := by
    rw [fmCoagV, if_pos rfl]; linear_combination -a / 2
  have a2 : fmCoagV (c.kfmVal s) (qv M N) 2 = 2 * m ^ 2 * (fmVal c s m m * n ^ 2 / 2) := by
    have := fmPair_half c s 1 1 hm hm
    rw [fmCoagV, if_neg (by norm_num)]
    simp only [Nat.reduceSub, Finset.sum_range_one, Nat.zero_add, fV_mono hM hn hm hl h3]
    norm_num
    linear_combination n ^ 2 * this
  have b0 : cCoagV (kcVal s) (kcpVal s) (pv M N) 0 = -(contVal s m m * n ^ 2 / 2) := by
    rw [cCoagV, if_pos rfl]; linear_combination -b / 2
  have b2 : cCoagV (kcVal s) (kcpVal s) (pv M N) 2 = 2 * m ^ 2 * (contVal s m m * n ^ 2 / 2) := by
    rw [cCoagV, if_neg (by norm_num), if_neg (by norm_num)]
    simp only [Nat.reduceSub, pairUp hM hn hm hl h3]
    push_cast
    linear_combination m ^ 2 * b
  have hA : 0 < fmVal c s m m * n ^ 2 / 2 := by positivity
  have hB : 0 < contVal s m m * n ^ 2 / 2 := by positivity
  generalize fmVal c s m m * n ^ 2 / 2 = A at *
  generalize contVal s m m * n ^ 2 / 2 = B at *
  have h0 : ∀ r, momicCoagV c s M N r = if r = 1 then 0 else match c.mech with
    | .FM => fmCoagV (c.kfmVal s) (qv M N) r
    | .CONTINUUM => cCoagV (kcVal s) (kcpVal s) (pv M N) r
    | .NONE => 0
    | _ => hmean (fmCoagV (c.kfmVal s) (qv M N) r) (cCoagV (kcVal s) (kcpVal s) (pv M N) r) := fun r => rfl
  rcases hx : c.mech
  · exact ⟨0, le_rfl, fun h => absurd rfl h, by rw [h0, hx]; simp, by rw [h0, hx]; simp⟩
  · exact ⟨A, hA.le, fun _ => hA, by rw [h0, hx]; simp [a0], by rw [h0, hx]; simp [a2]⟩
  · exact ⟨B, hB.le, fun _ => hB, by rw [h0, hx]; simp [b0], by rw [h0, hx]; simp [b2]⟩
  · have hAB : 0 < hmean A B := by rw [hmean]; positivity
    refine ⟨hmean A B, hAB.le, fun _ => hAB, ?_, ?_⟩
    · rw [h0, hx]; simp only [Nat.zero_ne_one, if_false, a0, b0]
      have := hmean_smul (k := -1) (a := A) (b := B) (by norm_num)
      simpa using this
    · rw [h0, hx]; simp only [show ¬ (2 = 1) by norm_num, if_false, a2, b2]
      exact hmean_smul (by positivity)
  · exact absurd hx hk

/-- Condensation on equal particles in MOMIC: the collision rate of order 2 is at least `m` times that of order 1. -/
theorem momicBeta_le (hs : s.Phys) (hc : 0 < c.fmMult) (hM : MonoMoments M n m) (hn : 0 < n) (hm : 0 < m) (hm1 : m ≤ 1) (hl : M.length = N) (h3 : 3 ≤ N)
    {mD : ℝ} (hD : 0 < mD) : m * momicBeta c s M N mD 1 ≤ momicBeta c s M N mD 2 := by
  have e1 := gV_mono hM hn hm hD hl h3 c s 1
  have e2 := gV_mono hM hn hm hD hl h3 c s 2
  have hF : 0 < fmVal c s mD m * n := by have := fmVal_pos (c := c) hs hc hD hm; positivity
  have hp : ∀ i, 0 < pv M N i := fun i => by rw [pv, hM.mr hn hm hl h3]; positivity
  have hC : 0 < kcVal s * dimerCV (pv M N) mD (kcpVal s) := mul_pos (kcVal_pos hs) (dimerCV_pos hp hD (kcpVal_pos hs).le)
  rw [momicBeta, momicBeta, e1, e2]
  simp only [Nat.sub_self, pow_zero, mul_one, Nat.add_one_sub_one, pow_one, show 2 - 1 = 1 from rfl]
  generalize kcVal s * dimerCV (pv M N) mD (kcpVal s) = C at *
  rw [← mul_assoc]
  generalize fmVal c s mD m * n = F at *
  rw [hmean, hmean, ← mul_div_assoc, div_le_div_iff₀ (by positivity) (by positivity)]
  have : 0 ≤ m * (F * C) * (F - F * m) := mul_nonneg (by positivity) (by nlinarith)
  nlinarith

end

end Realis

/-- **C92 (LOGN).** On the moments of `n` equal particles of mass `m` the sources of LOGN, whatever the mechanisms, open the gap `M0 M2 - M1²`:
nucleation at the rate `n J (mN - m)²`, coagulation at a rate `c > 0`, and growth, oxidation and condensation not at all. Hence every explicit step that
is short enough leads to realisable moments. -/
theorem C92_logn (l : Model) (s : State) (n m : ℝ) (h : LognReady l s n (n * m) (n * m ^ 2)) (hP : LognPah l s n (n * m)) (hn : 0 < n) (hm : 0 < m) :
    ∃ l' s' J n' mN c S0 S1 S2, lognSources l s = ok (l', s') ∧ l'.sources.soot = [S0, S1, S2] ∧
      l.nucl.rate (lognIbeta l) s = ok (J, n', s') ∧ 0 ≤ J ∧ mN = s'.cMin * gasMW .C / Na ∧
      HasDerivAt (fun t => gap (n + t * S0) (n * m + t * S1) (n * m ^ 2 + t * S2)) (n * J * (mN - m) ^ 2 + c) 0 ∧ 0 < c ∧
      (l.coag.mech ≠ .HM → c = n * m ^ 2 * (J - S0)) ∧
      ∃ δ > 0, ∀ t, 0 < t → t < δ → 0 < gap (n + t * S0) (n * m + t * S1) (n * m ^ 2 + t * S2) := by
  obtain ⟨l', s', J, n', kG, kO, b1, b2, _, _, b5, b6, hJ, _, _, _, hdim, b12, b13⟩ := logn_eval h hP
  have hph := h.gas.acc.phys
  have hF := Realis.coa0Fm_pos hn hm hph h.fm
  have hC := Realis.coa0C_pos hn hm hph
  have eF := Realis.coa2Fm hn hm l.coag s
  have eC := Realis.coa2C hn hm s
  have eA : lognArea n (n * m) (n * m ^ 2) (10 / 6) = m * lognArea n (n * m) (n * m ^ 2) (4 / 6) := by
    rw [lognArea, Realis.up hn hm (a := 4 / 6) (b := 10 / 6) (by norm_num), lognArea]; ring
  have eB : ∀ mD, hmean (lognFm2 l.coag s (lognM n (n * m) (n * m ^ 2)) mD) (lognC2 s (lognM n (n * m) (n * m ^ 2)) mD) =
      2 * m * lognBeta l s n (n * m) (n * m ^ 2) mD := fun mD => by
    rw [Realis.fm2 hn hm, Realis.c2 hn hm, Realis.hmean_smul (by positivity), lognBeta]
  -- coagulation
  obtain ⟨c, hc0, hc1, hc2⟩ : ∃ c, 0 < c ∧ c = n * (lognCoagVal l.coag s (lognM n (n * m) (n * m ^ 2))).2 +
      n * m ^ 2 * (lognCoagVal l.coag s (lognM n (n * m) (n * m ^ 2))).1 ∧
      (l.coag.mech ≠ .HM → c = n * m ^ 2 * (-(lognCoagVal l.coag s (lognM n (n * m) (n * m ^ 2))).1)) := by
    refine ⟨_, ?_, rfl, ?_⟩
    · rcases h.kernel with e | e | e <;> simp only [lognCoagVal, e, eF, eC]
      · have : 0 < n * m ^ 2 * lognCoa0Fm l.coag s (lognM n (n * m) (n * m ^ 2)) := by positivity
        linarith
      · have : 0 < n * m ^ 2 * lognCoa0C s (lognM n (n * m) (n * m ^ 2)) := by positivity
        linarith
      · rw [mul_zero, add_zero]; positivity
    · intro hx
      rcases h.kernel with e | e | e
      · simp only [lognCoagVal, e, eF]; ring
      · simp only [lognCoagVal, e, eC]; ring
      · exact absurd e hx
  have hd := Realis.deriv_gap n (n * m) (n * m ^ 2) (J + (lognCoagVal l.coag s (lognM n (n * m) (n * m ^ 2))).1)
    (J * (s'.cMin * gasMW .C / Na) + (kG - kO) * lognArea n (n * m) (n * m ^ 2) (4 / 6) +
      (if l.nucl.mech = .PAH then n'.dimer.mDimer * n'.dimer.nDimer * lognBeta l s n (n * m) (n * m ^ 2) n'.dimer.mDimer else 0))
    (J * (s'.cMin * gasMW .C / Na) ^ 2 + 2 * (kG - kO) * lognArea n (n * m) (n * m ^ 2) (10 / 6) +
      (if l.nucl.mech = .PAH then n'.dimer.mDimer * n'.dimer.nDimer *
        hmean (lognFm2 l.coag s (lognM n (n * m) (n * m ^ 2)) n'.dimer.mDimer) (lognC2 s (lognM n (n * m) (n * m ^ 2)) n'.dimer.mDimer) else 0) +
      (lognCoagVal l.coag s (lognM n (n * m) (n * m ^ 2))).2)
  have hd' := hd.congr_deriv (g' := n * J * (s'.cMin * gasMW .C / Na - m) ^ 2 + c) (by
    rw [eA, eB, hc1]
    split_ifs <;> ring)
  have hV : 0 < n * J * (s'.cMin * gasMW .C / Na - m) ^ 2 + c := by positivity
  refine ⟨l', s', J, n', _, c, _, _, _, b1, b13, b2, hJ, rfl, hd', hc0, fun hx => ?_, Realis.step hd' hV⟩
  rw [hc2 hx]; ring

/-- **C92 (MOMIC).** The same for MOMIC with any number of moments; here coagulation may be switched off, and then the gap opens by nucleation alone.
Condensation widens it too (its continuum part is taken at the order of the mean for every moment, C59), as long as a particle weighs less than 1 kg. -/
theorem C92_momic (l : Model) (s : State) (n m : ℝ) (h : MomicReady l s) (hf : MomicFin l s) (hmo : MonoMoments s.sootVar n m) (hn : 0 < n) (hm : 0 < m)
    (hm1 : m ≤ 1) :
    ∃ l' s' J mN c S0 S1 S2, momicSources l s = ok (l', s') ∧ l'.sources.soot[0]? = some S0 ∧ l'.sources.soot[1]? = some S1 ∧
      l'.sources.soot[2]? = some S2 ∧ 0 ≤ J ∧ (l.nucl.mech = .NONE → J = 0) ∧ mN = s'.cMin * gasMW .C / Na ∧
      HasDerivAt (fun t => gap (n + t * S0) (n * m + t * S1) (n * m ^ 2 + t * S2)) (n * J * (mN - m) ^ 2 + c) 0 ∧ n * m ^ 2 * (J - S0) ≤ c ∧
      0 ≤ J - S0 ∧ (l.coag.mech ≠ .NONE → 0 < J - S0) ∧ (l.nucl.mech ≠ .PAH → c = n * m ^ 2 * (J - S0)) := by
  have h3 := h.three
  have hph := h.gas.acc.phys
  obtain ⟨T, P, Q, hT, hP, hQ, ht, hTn, hF⟩ := momicSetup h
  obtain ⟨l', s', J, n', kG, kO, b1, _, _, _, _, _, hJ, _, _, hJN, hdim, _, _, _, b13⟩ := momic_eval_at h hf hT hP hQ ht hTn hF
  have t0 : s.sootVar.getD 0 0 = n := by
    have hlt : 0 < s.sootVar.length := by rw [h.len]; omega
    rw [getD_of_lt hlt, hmo 0 hlt, pow_zero, mul_one]
  have hmr := fun r => hmo.mr hn hm h.len h3 r
  obtain ⟨x, hx0, hx, hx2⟩ := Realis.momicCoag hph h.fm h.kernel hmo hn hm h.len h3
  have src : ∀ r < l.nsoot, l'.sources.soot[r]? = some (momicSoot l s n' J kG kO (s'.cMin * gasMW .C / Na) r) := fun r hr => by
    rw [b13, List.getElem?_map, List.getElem?_range hr]; rfl
  have e0 : momicSoot l s n' J kG kO (s'.cMin * gasMW .C / Na) 0 = J - x := by
    simp only [momicSoot, t0, if_pos hn, hx2]; simp; ring
  set y : ℝ := if l.nucl.mech = .PAH then n'.dimer.mDimer * n'.dimer.nDimer * momicBeta l.coag s s.sootVar l.nsoot n'.dimer.mDimer 1 else 0 with hy
  set z : ℝ := if l.nucl.mech = .PAH then n'.dimer.mDimer * n'.dimer.nDimer * momicBeta l.coag s s.sootVar l.nsoot n'.dimer.mDimer 2 else 0 with hz
  have e1 : momicSoot l s n' J kG kO (s'.cMin * gasMW .C / Na) 1 = J * (s'.cMin * gasMW .C / Na) + y + (kG - kO) * (acoef * (n * m ^ twothird)) := by
    simp only [momicSoot, t0, if_pos hn, momicCoagV_one, hmr, hy]
    rw [show ((1 : ℕ) : ℝ) - onethird = twothird by norm_num [onethird, twothird]]
    split_ifs <;> (push_cast; ring)
  have e2 : momicSoot l s n' J kG kO (s'.cMin * gasMW .C / Na) 2 =
      J * (s'.cMin * gasMW .C / Na) ^ 2 + 2 * z + 2 * ((kG - kO) * (acoef * (n * (m ^ twothird * m)))) + 2 * m ^ 2 * x := by
    simp only [momicSoot, t0, if_pos hn, hx2, hmr, hz]
    rw [Realis.rp hm (a := twothird) (b := ((2 : ℕ) : ℝ) - onethird) (by norm_num [onethird, twothird])]
    split_ifs <;> (push_cast; ring)
  have hyz : m * y ≤ z := by
    rw [hy, hz]
    split_ifs with hp
    · obtain ⟨d1, d2⟩ := hdim hp
      have := Realis.momicBeta_le hph h.fm hmo hn hm hm1 h.len h3 (c := l.coag) d1
      have := mul_le_mul_of_nonneg_left this (mul_pos d1 d2).le
      linarith
    · simp
  have hd := Realis.deriv_gap n (n * m) (n * m ^ 2) (momicSoot l s n' J kG kO (s'.cMin * gasMW .C / Na) 0)
    (momicSoot l s n' J kG kO (s'.cMin * gasMW .C / Na) 1) (momicSoot l s n' J kG kO (s'.cMin * gasMW .C / Na) 2)
  have hd' := hd.congr_deriv (g' := n * J * (s'.cMin * gasMW .C / Na - m) ^ 2 + (n * m ^ 2 * x + 2 * n * (z - m * y))) (by
    rw [e0, e1, e2]; ring)
  refine ⟨l', s', J, _, _, _, _, _, b1, src 0 (by omega), src 1 (by omega), src 2 (by omega), hJ, hJN, rfl, hd', ?_, ?_, ?_, ?_⟩
  · rw [e0, sub_sub_cancel]; nlinarith
  · rw [e0, sub_sub_cancel]; exact hx0
  · intro hc; rw [e0, sub_sub_cancel]; exact hx hc
  · intro hp
    rw [e0, sub_sub_cancel, hy, hz, if_neg hp, if_neg hp]; ring

/-- **C92 (MOMIC, growth alone).** Without nucleation and coagulation the gap stays closed to first order only: growth or oxidation at any net rate `k ≠ 0`
makes every explicit step, short or long, forward or backward, leave the realisable moments. -/
theorem C92_growth_step (l : Model) (s : State) (n m : ℝ) (h : MomicReady l s) (hf : MomicFin l s) (hmo : MonoMoments s.sootVar n m) (hn : 0 < n)
    (hm : 0 < m) (hN : l.nucl.mech = .NONE) (hC : l.coag.mech = .NONE) :
    ∃ l' s' kG kO S1 S2, momicSources l s = ok (l', s') ∧ l.grow.rate l.ctx s' = ok kG ∧ l.oxid.rate l.ctx s' = ok kO ∧
      l'.sources.soot[0]? = some 0 ∧ l'.sources.soot[1]? = some S1 ∧ l'.sources.soot[2]? = some S2 ∧ (S1 = 0 ↔ kG = kO) ∧
      (kG ≠ kO → ∀ t ≠ 0, gap n (n * m + t * S1) (n * m ^ 2 + t * S2) < 0) := by
  have h3 := h.three
  have hph := h.gas.acc.phys
  obtain ⟨T, P, Q, hT, hP, hQ, ht, hTn, hF⟩ := momicSetup h
  obtain ⟨l', s', J, n', kG, kO, b1, _, _, _, b5, b6, hJ, _, _, hJN, hdim, _, _, _, b13⟩ := momic_eval_at h hf hT hP hQ ht hTn hF
  have t0 : s.sootVar.getD 0 0 = n := by
    have hlt : 0 < s.sootVar.length := by rw [h.len]; omega
    rw [getD_of_lt hlt, hmo 0 hlt, pow_zero, mul_one]
  have hmr := fun r => hmo.mr hn hm h.len h3 r
  have hp : l.nucl.mech ≠ .PAH := by rw [hN]; decide
  have src : ∀ r < l.nsoot, l'.sources.soot[r]? = some (momicSoot l s n' J kG kO (s'.cMin * gasMW .C / Na) r) := fun r hr => by
    rw [b13, List.getElem?_map, List.getElem?_range hr]; rfl
  have hc : ∀ r, momicCoagV l.coag s s.sootVar l.nsoot r = 0 := fun r => by simp [momicCoagV, hC]
  have e0 : momicSoot l s n' J kG kO (s'.cMin * gasMW .C / Na) 0 = 0 := by
    simp only [momicSoot, hc, hJN hN]; simp
  have e1 : momicSoot l s n' J kG kO (s'.cMin * gasMW .C / Na) 1 = (kG - kO) * (acoef * (n * m ^ twothird)) := by
    simp only [momicSoot, hc, hmr, hJN hN, if_neg hp]
    rw [show ((1 : ℕ) : ℝ) - onethird = twothird by norm_num [onethird, twothird]]
    simp
  have e2 : momicSoot l s n' J kG kO (s'.cMin * gasMW .C / Na) 2 = 2 * m * ((kG - kO) * (acoef * (n * m ^ twothird))) := by
    simp only [momicSoot, hc, hmr, hJN hN, if_neg hp]
    rw [Realis.rp hm (a := twothird) (b := ((2 : ℕ) : ℝ) - onethird) (by norm_num [onethird, twothird])]
    simp; ring
  have hA : 0 < acoef * (n * m ^ twothird) := by have := acoef_pos; positivity
  have z : (kG - kO) * (acoef * (n * m ^ twothird)) = 0 ↔ kG = kO := by
    rw [mul_eq_zero, sub_eq_zero]; exact ⟨fun h => h.resolve_right hA.ne', .inl⟩
  refine ⟨l', s', kG, kO, _, _, b1, b5, b6, by rw [src 0 (by omega), e0], src 1 (by omega), src 2 (by omega), by rw [e1, z], fun hk t ht => ?_⟩
  rw [e1, e2, gap]
  have hne : t * ((kG - kO) * (acoef * (n * m ^ twothird))) ≠ 0 := mul_ne_zero ht (fun h => hk (z.mp h))
  have := sq_pos_of_ne_zero hne
  nlinarith

/-- **C92 (QMOM).** For QMOM with four or more moments, whatever the mechanisms: nucleation opens the gap at the rate `n J (mN - m)²`, coagulation at
`n m² (J - S0) ≥ 0`, condensation not at all (and growth and oxidation are lost, C79). -/
theorem C92_qmom (eig : Eig) (he : eig.NaNOut) (l : Model) (s : State) (n m : ℝ) (h : QmomReady l s) (h4 : 4 ≤ l.nsoot) (hmo : MonoMoments s.sootVar n m)
    (hn : 0 < n) (hm : mmin < m) :
    ∃ l' s' J mN S0 S1 S2, qmomSources eig l s = ok (l', s') ∧ l'.sources.soot[0]? = some S0 ∧ l'.sources.soot[1]? = some S1 ∧
      l'.sources.soot[2]? = some S2 ∧ 0 ≤ J ∧ (l.nucl.mech = .NONE → J = 0) ∧ mN = s'.cMin * gasMW .C / Na ∧ J - S0 = l.coag.val s m m * n ^ 2 / 2 ∧
      0 ≤ J - S0 ∧ (l.coag.mech = .FM ∨ l.coag.mech = .CONTINUUM ∨ l.coag.mech = .HM → 0 < J - S0) ∧
      HasDerivAt (fun t => gap (n + t * S0) (n * m + t * S1) (n * m ^ 2 + t * S2)) (n * J * (mN - m) ^ 2 + n * m ^ 2 * (J - S0)) 0 := by
  have hm0 : 0 < m := mmin_pos.trans hm
  have hph := h.gas.acc.phys
  obtain ⟨wq, aq, l', s', J, n', kG, kO, e0, hwq, haq, _, _, b1, _, _, _, _, _, hJ, _, _, hJN, _, _, _, _, b13⟩ := qmom_eval eig h
  have hN1 : 1 ≤ l.nsoot / 2 := by omega
  rw [Agree.qmomNodes he hmo hn hm0 (by rw [h.len]; omega) (by rw [h.wlen]; omega) (by rw [h.alen]; omega), ok.injEq, Prod.mk.injEq,
    h.wlen, h.alen] at e0
  obtain ⟨rfl, rfl⟩ := e0
  have hMr : ∀ r, nodeMr ((List.range (l.nsoot / 2)).map fun i => if i = 0 then n else 0)
      ((List.range (l.nsoot / 2)).map fun i => if i = 0 then m else 0) r = 0 :=
    nodeMr_of_empty (i := 1) (by rw [hwq]; omega) (.inl (by rw [getD_of_lt (by simp; omega)]; simp))
  set y : ℝ := if n'.mech = .PAH then n'.dimer.nDimer * n'.dimer.mDimer * (l.coag.val s n'.dimer.mDimer m * n) else 0 with hy
  have src : ∀ r < l.nsoot, l'.sources.soot[r]? = some (J * (s'.cMin * gasMW .C / Na) ^ r + r * m ^ (r - 1) * y +
      1 / 2 * (l.coag.val s m m * n ^ 2 * ((m + m) ^ r - m ^ r - m ^ r))) := fun r hr => by
    rw [b13, List.getElem?_map, List.getElem?_range hr]
    simp only [Option.map_some, qmomSoot, hMr, Agree.collision_first _ hN1, Realis.cond_first _ hN1, hy]
    congr 1
    split_ifs <;> ring
  have hv := Coag.val_nonneg (c := l.coag) hph h.fm m m
  have hx : J - (J * (s'.cMin * gasMW .C / Na) ^ 0 + ((0 : ℕ) : ℝ) * m ^ (0 - 1) * y + 1 / 2 * (l.coag.val s m m * n ^ 2 * ((m + m) ^ 0 - m ^ 0 - m ^ 0))) =
      l.coag.val s m m * n ^ 2 / 2 := by
    push_cast; ring
  refine ⟨l', s', J, _, _, _, _, b1, src 0 (by omega), src 1 (by omega), src 2 (by omega), hJ, hJN, rfl, hx, ?_, ?_, ?_⟩
  · rw [hx]; positivity
  · intro hc; rw [hx]; have := Agree.val_pos hph h.fm hc hm; positivity
  · refine (Realis.deriv_gap _ _ _ _ _ _).congr_deriv ?_
    push_cast; ring

/-! ## Concrete cases -/

/-- All nucleation models with a defined constructor, all surface mechanisms, all kernels of LOGN: 10¹⁵ particles of 10⁻²¹ kg. -/
example (n : NuclMech) (hn : n ≠ .AJ_RED) (hb : n ≠ .BROWN) (g : GrowMech) (o : OxidMech) (c : CoagMech) (hc : c = .FM ∨ c = .CONTINUUM ∨ c = .HM) :
    ∃ l' s' S0 S1 S2, lognSources (exModel .LOGN 3 n g o c) (exSt [1E15, 1E15 * 1E-21, 1E15 * 1E-21 ^ 2] false) = ok (l', s') ∧
      l'.sources.soot = [S0, S1, S2] ∧
      ∃ δ > 0, ∀ t, 0 < t → t < δ → 0 < gap (1E15 + t * S0) (1E15 * 1E-21 + t * S1) (1E15 * 1E-21 ^ 2 + t * S2) := by
  obtain ⟨l', s', _, _, _, _, S0, S1, S2, h1, h2, _, _, _, _, _, _, h3⟩ := C92_logn _ _ 1E15 1E-21
    (exLognReady n hn hb g o c hc (by norm_num) (by norm_num) (by norm_num) false) (fun _ => ⟨by norm_num, by norm_num, exSt_pah _⟩) (by norm_num) (by norm_num)
  exact ⟨l', s', S0, S1, S2, h1, h2, h3⟩

example (n : NuclMech) (hn : n ≠ .AJ_RED) (hb : n ≠ .BROWN) (g : GrowMech) (o : OxidMech) (c : CoagMech) (hc : c ≠ .FUCHS) :
    ∃ l' s', momicSources (exModel .MOMIC 4 n g o c) (exSt exMonoMom false) = ok (l', s') := by
  obtain ⟨h1, h2, h3⟩ := exMono_ready n hn hb g o c hc
  obtain ⟨l', s', _, _, _, _, _, _, e, _⟩ := C92_momic _ _ _ _ h1 h2 h3 (by norm_num) (by norm_num) (by norm_num)
  exact ⟨l', s', e⟩

/-- Growth in C2H2 alone: every explicit step of MOMIC is unrealisable. -/
example : ∃ l' s' S1 S2, momicSources (exModel .MOMIC 4 .NONE .LIN .NONE .NONE) (exSt exMonoMom false) = ok (l', s') ∧
    l'.sources.soot[1]? = some S1 ∧ l'.sources.soot[2]? = some S2 ∧ ∀ t ≠ 0, gap 1E15 (1E15 * 1E-21 + t * S1) (1E15 * 1E-21 ^ 2 + t * S2) < 0 := by
  obtain ⟨h1, h2, h3⟩ := exMono_ready .NONE (by simp) (by simp) .LIN .NONE .NONE (by simp)
  obtain ⟨l', s', kG, kO, S1, S2, e, hG, hO, _, f1, f2, _, f3⟩ := C92_growth_step _ _ _ _ h1 h2 h3 (by norm_num) (by norm_num) rfl rfl
  refine ⟨l', s', S1, S2, e, f1, f2, f3 ?_⟩
  obtain ⟨T, P, Q, hT, hP, hQ, ht, hTn, hF⟩ := momicSetup h1
  obtain ⟨_, _, _, _, _, _, b1, _, b3, b4, _⟩ := momic_eval_at h1 h2 hT hP hQ ht hTn hF
  cases e.symm.trans b1
  have hr : Ready (exModel .MOMIC 4 .NONE .LIN .NONE .NONE) s' := by rw [b3]; exact h1.toReady.upd b4 _ _
  have hph := hr.gas.acc.phys
  have hcc : 0 < cVal s' .C2H2 := by
    have := hph.rho; have := gasMW_pos .C2H2
    have e : s'.yGas.getD GasSp.C2H2.toNat 0 = (exSt exMonoMom false).yGas.getD GasSp.C2H2.toNat 0 := by rw [b3]
    unfold cVal
    rw [e]
    have : 0 < (exSt exMonoMom false).yGas.getD GasSp.C2H2.toNat 0 := by
      simp [exSt_eq, stateAfter, exArgs, argsEx2, GasSp.toNat]; norm_num
    positivity
  have hG0 : 0 < kG := by
    have := gasMW_pos .C
    rw [Grow.rate] at hG
    simp only [exModel, Grow.new] at hG
    rw [cexpDiv_ok hph.T.ne', ok_bind, hr.gas.gasC, ok_bind, ok.injEq] at hG
    rw [← hG]; positivity
  have hO0 : kO = 0 := by
    rw [Oxid.rate] at hO
    simp only [exModel, Oxid.new] at hO
    exact (ok.inj hO).symm
  rw [hO0]; exact hG0.ne'

example (eig : Eig) (he : eig.NaNOut) (n : NuclMech) (hn : n ≠ .AJ_RED) (hb : n ≠ .BROWN) (g : GrowMech) (o : OxidMech) (c : CoagMech) :
    ∃ l' s', qmomSources eig (exModel .QMOM (2 * 2) n g o c) (exSt exMonoMom false) = ok (l', s') := by
  have e : (exSt exMonoMom false).sootVar = exMonoMom := exSt_sootVar _ fun x hx => (exMonoMom_pos x hx).le
  obtain ⟨l', s', _, _, _, _, _, h, _⟩ := C92_qmom eig he _ _ 1E15 1E-21
    (exQmomReady 2 n hn hb g o c exMonoMom false (by norm_num) (by simp [exMonoMom]) (fun x hx => (exMonoMom_pos x hx).le) (by simp))
    (by simp [exModel]) (by rw [e]; exact exMono_moments) (by norm_num) mmin_lt_ex
  exact ⟨l', s', h⟩

end Soot
