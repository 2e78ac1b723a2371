import Verif.Props.LognRun
import Verif.Props.Realis

/-!
# LOGN moments stay realisable (C111)

A reactor hands the three moments to `setState`, calls `sootModel_LOGN::setSourceTerms` (sootModel_LOGN.cc:153-325) and lets the moments change at the reported
rates.  Moments that belong to a population of particles, `M0 M2 ≥ M1²`, keep doing so.
-/

namespace Soot

open Res Real Filter Topology Cont
open scoped Classical

namespace LognRealis

/-! ## A comparison lemma -/

/-- A quantity that decreases at most in proportion to itself where it is negative does not become negative. -/
theorem nonneg_of_linear {f f' : ℝ → ℝ} {τ C : ℝ} (hc : ContinuousOn f (Set.Icc 0 τ)) (hd : ∀ t ∈ Set.Ico 0 τ, HasDerivWithinAt f (f' t) (Set.Ici t) t)
    (hin : ∀ t ∈ Set.Ico 0 τ, f t < 0 → C * f t ≤ f' t) (h0 : 0 ≤ f 0) : ∀ t ∈ Set.Icc 0 τ, 0 ≤ f t := by
  intro t ht
  have he : ∀ t, HasDerivAt (fun t => exp (-C * t)) (exp (-C * t) * (-C)) t := fun t => by
    simpa using ((hasDerivAt_id t).const_mul (-C)).exp
  have := nonneg_of_inward (n := 1) (N := fun t _ => f t * exp (-C * t)) (d := fun t _ => f' t * exp (-C * t) + f t * (exp (-C * t) * (-C))) (τ := τ)
    (continuousOn_pi.2 fun _ => hc.mul (by fun_prop)) (fun t ht => hasDerivWithinAt_pi.2 fun _ => (hd t ht).mul (he t).hasDerivWithinAt) 0 (fun t ht hn => by
      have e := exp_pos (-C * t)
      have fn : f t < 0 := by by_contra hx; exact absurd hn (not_lt.2 (mul_nonneg (not_lt.1 hx) e.le))
      have := mul_nonneg (sub_nonneg.2 (hin t ht fn)) e.le
      show 0 ≤ f' t * exp (-C * t) + f t * (exp (-C * t) * (-C))
      linarith) (by simpa using h0) t ht
  exact nonneg_of_mul_nonneg_left this (exp_pos _)

/-! ## The rates where the moments are not realisable -/

section
variable {n c z : ℝ}

theorem shift (hn : 0 < n) (hc : 0 < c) (hz : 0 < z) (r : ℝ) :
    n * lognM n c z (r + 1) = c * lognM n c z r * (n * z / c ^ 2) ^ r := by
  rw [lognM_spread hn hc hz, lognM_spread hn hc hz]
  have hμ : 0 < c / n := by positivity
  have hq : 0 < n * z / c ^ 2 := by positivity
  set q := n * z / c ^ 2
  have e1 : (c / n) ^ (r + 1) = (c / n) ^ r * (c / n) := by rw [rpow_add hμ, rpow_one]
  have e2 : q ^ ((r + 1) * (r + 1 - 1) / 2) = q ^ (r * (r - 1) / 2) * q ^ r := by rw [← rpow_add hq]; congr 1; ring
  rw [e1, e2]
  field_simp

/-- Each moment of order `r + 1` is large enough. -/
theorem shift_ge (hn : 0 < n) (hc : 0 < c) (hz : 0 < z) (hq : n * z / c ^ 2 ≤ 1) {r r' : ℝ} (hr : r ≤ 2 / 3) (e : r' = r + 1) :
    c * (n * z / c ^ 2) ^ (2 / 3 : ℝ) * lognM n c z r ≤ n * lognM n c z r' := by
  have q0 : 0 < n * z / c ^ 2 := by positivity
  rw [e, shift hn hc hz]
  have := rpow_le_rpow_of_exponent_ge q0 hq hr
  have := mul_le_mul_of_nonneg_left this (mul_nonneg hc.le (lognM_nonneg hn.le hc.le hz.le r))
  linarith

theorem hmean_mono {a b a' b' : ℝ} (ha : 0 ≤ a) (hb : 0 < b) (h1 : a ≤ a') (h2 : b ≤ b') : hmean a b ≤ hmean a' b' := by
  unfold hmean
  rw [div_le_div_iff₀ (by linarith) (by linarith)]
  nlinarith [mul_nonneg ha (sub_nonneg.2 h2), mul_nonneg hb.le (sub_nonneg.2 h1), mul_nonneg (mul_nonneg ha (ha.trans h1)) (sub_nonneg.2 h2),
    mul_nonneg (mul_nonneg hb.le (hb.le.trans h2)) (sub_nonneg.2 h1)]

/-- Condensing dimers. -/
theorem cond_ge {m : Model} {s : State} (h : LognReady m s n c z) (hn : 0 < n) (hc : 0 < c) (hz : 0 < z) (hq : n * z / c ^ 2 ≤ 1) {mD : ℝ} (hD : 0 < mD) :
    2 * c * (n * z / c ^ 2) ^ (2 / 3 : ℝ) * lognBeta m s n c z mD ≤ n * hmean (lognFm2 m.coag s (lognM n c z) mD) (lognC2 s (lognM n c z) mD) := by
  have hp := h.gas.acc.phys
  have K := m.coag.kfmVal_pos hp h.fm
  have B := bCoag_pos; have kc := kcVal_pos hp; have kp := kcpVal_pos hp
  have q0 : 0 < n * z / c ^ 2 := by positivity
  have w1 : 0 < mD ^ ((1 : ℝ) / 6) := by positivity
  have w2 : 0 < mD ^ ((-1 : ℝ) / 6) := by positivity
  have w3 : 0 < mD ^ (-0.5 : ℝ) := by positivity
  have w4 : 0 < mD ^ onethird := by positivity
  have w5 : 0 < mD ^ twothird := by positivity
  have w6 : 0 < mD ^ (-onethird) := by positivity
  have w7 : 0 < mD ^ (-twothird) := by positivity
  have g : ∀ r r' : ℝ, r ≤ 2 / 3 → r' = r + 1 → _ := fun r r' => shift_ge hn hc hz hq (r := r) (r' := r')
  set Q := (n * z / c ^ 2) ^ (2 / 3 : ℝ) with hQ
  have Q0 : 0 < Q := rpow_pos_of_pos q0 _
  have F : 2 * c * Q * lognFm1 m.coag s (lognM n c z) mD ≤ n * lognFm2 m.coag s (lognM n c z) mD := by
    unfold lognFm1 lognFm2
    have a1 := mul_le_mul_of_nonneg_right (g 0 1 (by norm_num) (by norm_num)) w1.le
    have a2 := mul_le_mul_of_nonneg_right (g (2 / 6) (8 / 6) (by norm_num) (by norm_num)) w2.le
    have a3 := mul_le_mul_of_nonneg_right (g (4 / 6) (10 / 6) (by norm_num) (by norm_num)) w3.le
    have a4 := mul_le_mul_of_nonneg_right (g (-1 / 6) (5 / 6) (by norm_num) (by norm_num)) w4.le
    have a5 := mul_le_mul_of_nonneg_right (g (-3 / 6) (3 / 6) (by norm_num) (by norm_num)) w5.le
    have a6 := g (1 / 6) (7 / 6) (by norm_num) (by norm_num)
    have := mul_le_mul_of_nonneg_left (add_le_add (add_le_add (add_le_add (add_le_add (add_le_add a1 (mul_le_mul_of_nonneg_left a2 zero_le_two)) a3)
      (mul_le_mul_of_nonneg_left a4 zero_le_two)) a5) a6) (mul_pos (mul_pos two_pos K) B).le
    linarith
  have C : 2 * c * Q * lognC1 s (lognM n c z) mD ≤ n * lognC2 s (lognM n c z) mD := by
    unfold lognC1 lognC2
    have a1 := g 0 1 (by norm_num) (by norm_num)
    have a2 := g (-2 / 6) (4 / 6) (by norm_num) (by norm_num)
    have a3 := g (2 / 6) (8 / 6) (by norm_num) (by norm_num)
    have a4 := g (-4 / 6) (2 / 6) (by norm_num) (by norm_num)
    have b := mul_le_mul_of_nonneg_left (add_le_add (add_le_add (add_le_add (mul_le_mul_of_nonneg_right a1 w6.le) a2) (mul_le_mul_of_nonneg_right a3 w7.le))
      (mul_le_mul_of_nonneg_right a4 w4.le)) kp.le
    have := mul_le_mul_of_nonneg_left (add_le_add (add_le_add (add_le_add (mul_le_mul_of_nonneg_left a1 zero_le_two) (mul_le_mul_of_nonneg_right a2 w4.le))
      (mul_le_mul_of_nonneg_right a3 w6.le)) b) (mul_pos two_pos kc).le
    linarith
  have F1 := lognFm1_nonneg (c := m.coag) (lognM_nonneg h.m0 h.m1 h.m2) hp h.fm hD
  have C1 := lognC1_pos h hn hD
  have k0 : 0 < 2 * c * Q := by positivity
  rw [lognBeta, ← Realis.hmean_smul k0.ne', ← Realis.hmean_smul hn.ne']
  exact hmean_mono (mul_nonneg k0.le F1) (mul_pos k0 C1) F C

/-- Coagulation moves moments of too narrow a distribution towards realisable ones. -/
theorem coag_ge {m : Model} {s : State} (h : LognReady m s n c z) (hn : 0 < n) (hc : 0 < c) (hz : 0 < z) (hq : n * z / c ^ 2 ≤ 1) :
    0 ≤ n * (lognCoagVal m.coag s (lognM n c z)).2 + z * (lognCoagVal m.coag s (lognM n c z)).1 := by
  have hp := h.gas.acc.phys
  have q0 : 0 < n * z / c ^ 2 := by positivity
  have sg := lognCoagVal_sign (c := m.coag) hp h.fm (lognM_nonneg h.m0 h.m1 h.m2)
  rcases h.kernel with e | e | e
  · simp only [lognCoagVal, e, fm0_spread m.coag s hn hc hz, fm2_spread m.coag s hn hc hz]
    have K := mul_pos (m.coag.kfmVal_pos hp h.fm) bCoag_pos
    have P := fmP_pos q0
    have μ0 : 0 < c / n := by positivity
    have e13 : (c / n) ^ (13 / 6 : ℝ) = (c / n) ^ 2 * (c / n) ^ (1 / 6 : ℝ) := by
      rw [← rpow_two, ← rpow_add μ0]; norm_num
    rw [e13]
    set q := n * z / c ^ 2 with hqd
    have x : q ≤ 2 * q ^ (1 / 6 : ℝ) := by
      have := rpow_le_rpow_of_exponent_ge q0 hq (show (1 / 6 : ℝ) ≤ 1 by norm_num)
      rw [rpow_one] at this
      have := rpow_pos_of_pos q0 (1 / 6)
      linarith
    have m0 := rpow_pos_of_pos μ0 (1 / 6)
    have := mul_nonneg (mul_pos (mul_pos K (mul_pos hn (pow_pos hc 2))) (mul_pos m0 P)).le (sub_nonneg.2 x)
    refine this.trans_eq ?_
    have e1 : n * z = q * c ^ 2 := by rw [hqd]; field_simp
    have e2 : n ^ 2 * (c / n) ^ 2 = c ^ 2 := by field_simp
    linear_combination (-2 * (m.coag.kfmVal s * bCoag) * n * (c / n) ^ (1 / 6 : ℝ) * q ^ (1 / 6 : ℝ) * fmP q) * e2 +
      (m.coag.kfmVal s * bCoag) * n * (c / n) ^ (1 / 6 : ℝ) * fmP q * e1
  · simp only [lognCoagVal, e]
    have := cont_rate (s := s) hn hc hz
    rw [div_eq_iff (by positivity)] at this
    have kc := kcVal_pos hp; have kp := kcpVal_pos hp
    set q := n * z / c ^ 2 with hqd
    have x2 : q ^ (4 / 3 : ℝ) ≤ 1 := rpow_le_one q0.le hq (by norm_num)
    have y1 : 0 ≤ 2 - q := by linarith
    have y2 : 0 ≤ 2 - q ^ (4 / 3 : ℝ) := by linarith
    have : 0 ≤ -lognCoa0C s (lognM n c z) * z + n * lognCoa2C s (lognM n c z) := by rw [this]; positivity
    linarith
  · have : (lognCoagVal m.coag s (lognM n c z)).1 = 0 := by simp only [lognCoagVal, e]
    rw [this]
    have := mul_nonneg hn.le sg.2
    linarith

/-- All processes together: where `M0 M2 < M1²` the deficit grows at most in proportion to itself. -/
theorem gap_ge {m : Model} {s : State} (h : LognReady m s n c z) (hn : 0 < n) (hc : 0 < c) (hz : 0 < z) (hg : gap n c z < 0) {J kG kO mN E1 E2 R A : ℝ}
    (hJ : 0 ≤ J) (hG : 0 ≤ kG) (hO : 0 ≤ kO) (E0 : 0 ≤ E1) (hE : 2 * c * (n * z / c ^ 2) ^ (2 / 3 : ℝ) * E1 ≤ n * E2) (rJ : J ≤ R) (rG : kG ≤ R) (rE : E1 ≤ R)
    (hA : lognArea n c z (4 / 6) ≤ A) {nm cm : ℝ} (n0 : 0 < nm) (c0 : 0 < cm) (hnm : nm ≤ n) (hcm : cm ≤ c) :
    (R / nm + 2 * (R * A) / cm + 2 * R / cm) * gap n c z ≤
      n * (J * mN ^ 2 + 2 * (kG - kO) * lognArea n c z (10 / 6) + E2 + (lognCoagVal m.coag s (lognM n c z)).2) +
        z * (J + (lognCoagVal m.coag s (lognM n c z)).1) - 2 * c * (J * mN + (kG - kO) * lognArea n c z (4 / 6) + E1) := by
  have q0 : 0 < n * z / c ^ 2 := by positivity
  have hq : n * z / c ^ 2 ≤ 1 := by rw [div_le_one (by positivity)]; unfold gap at hg; linarith
  have V := coag_ge h hn hc hz hq
  have g1 : n * z / c ^ 2 - 1 = gap n c z / c ^ 2 := by unfold gap; field_simp
  have A4 : 0 ≤ lognArea n c z (4 / 6) := by
    have := lognM_nonneg hn.le hc.le hz.le (4 / 6); have := rhoSoot_pos
    unfold lognArea; positivity
  have A10 : n * lognArea n c z (10 / 6) = c * lognArea n c z (4 / 6) * (n * z / c ^ 2) ^ (2 / 3 : ℝ) := by
    have := shift hn hc hz (4 / 6)
    rw [show (4 / 6 + 1 : ℝ) = 10 / 6 by norm_num, show (n * z / c ^ 2) ^ (4 / 6 : ℝ) = (n * z / c ^ 2) ^ (2 / 3 : ℝ) by norm_num] at this
    unfold lognArea
    linear_combination π * (6 / (π * rhoSoot)) ^ twothird * this
  have Qq : n * z / c ^ 2 ≤ (n * z / c ^ 2) ^ (2 / 3 : ℝ) := by
    have := rpow_le_rpow_of_exponent_ge q0 hq (show (2 / 3 : ℝ) ≤ 1 by norm_num)
    rwa [rpow_one] at this
  have Q1 : (n * z / c ^ 2) ^ (2 / 3 : ℝ) ≤ 1 := rpow_le_one q0.le hq (by norm_num)
  set q := n * z / c ^ 2 with hqd
  set Q := q ^ (2 / 3 : ℝ) with hQd
  set a := lognArea n c z (4 / 6) with had
  set g := gap n c z with hgd
  -- nucleation
  have t1 : R / nm * g ≤ J * (n * mN ^ 2 - 2 * c * mN + z) := by
    have e : n * mN ^ 2 - 2 * c * mN + z = ((n * mN - c) ^ 2 + g) / n := by rw [hgd, gap]; field_simp; ring
    rw [e]
    have s1 : g / nm ≤ g / n := by
      have := div_le_div_of_nonneg_left (neg_nonneg.2 hg.le) n0 hnm
      rw [neg_div, neg_div] at this; linarith
    have s2 : g / n ≤ ((n * mN - c) ^ 2 + g) / n := div_le_div_of_nonneg_right (by nlinarith [sq_nonneg (n * mN - c)]) hn.le
    have s3 := mul_le_mul_of_nonneg_left (s1.trans s2) hJ
    have s4 : (R - J) * (g / nm) ≤ 0 := mul_nonpos_of_nonneg_of_nonpos (by linarith) (div_nonpos_of_nonpos_of_nonneg hg.le n0.le)
    have : R / nm * g = R * (g / nm) := by ring
    rw [this]; linarith
  -- a bound used twice
  have half : ∀ x B : ℝ, 0 ≤ x → x ≤ B → 2 * B / cm * g ≤ 2 * c * x * (q - 1) := fun x B x0 xB => by
    rw [g1]
    have e : 2 * c * x * (g / c ^ 2) = 2 * x * (g / c) := by field_simp
    rw [e]
    have s1 : g / cm ≤ g / c := by
      have := div_le_div_of_nonneg_left (neg_nonneg.2 hg.le) c0 hcm
      rw [neg_div, neg_div] at this; linarith
    have s2 := mul_le_mul_of_nonneg_left s1 x0
    have s3 : (B - x) * (g / cm) ≤ 0 := mul_nonpos_of_nonneg_of_nonpos (by linarith) (div_nonpos_of_nonpos_of_nonneg hg.le c0.le)
    have : 2 * B / cm * g = 2 * (B * (g / cm)) := by ring
    rw [this]; linarith
  have R0 : 0 ≤ R := hJ.trans rJ
  have t2 := half (kG * a) (R * A) (by positivity) (mul_le_mul rG hA A4 R0)
  have t2' : 2 * c * (kG * a) * (q - 1) ≤ 2 * c * (kG * a) * (Q - 1) := mul_le_mul_of_nonneg_left (by linarith) (by positivity)
  have t3 : 0 ≤ 2 * c * (kO * a) * (1 - Q) := mul_nonneg (by positivity) (by linarith)
  have t4 := half E1 R E0 rE
  have t4' : 2 * c * E1 * (q - 1) ≤ 2 * c * E1 * (Q - 1) := mul_le_mul_of_nonneg_left (by linarith) (by positivity)
  have : n * (2 * (kG - kO) * lognArea n c z (10 / 6)) = 2 * (kG - kO) * (c * a * Q) := by rw [← A10]; ring
  nlinarith

end

end LognRealis

/-- The rates of nucleation, growth and condensation found along the run stay below `R`. -/
def LognRates (m : Model) (o : ℝ → State) (a : ℝ → SetArgs) (τ : ℝ) (M : ℝ → Fin 3 → ℝ) (R : ℝ) : Prop :=
  ∀ t ∈ Set.Ico 0 τ, ∀ (s s' : State) (J kG : ℝ) (n' : Nucl), setState (o t) { a t with sootVar := List.ofFn (M t) } = (s, ok ()) →
    m.nucl.rate (lognIbeta m) s = ok (J, n', s') → m.grow.rate m.ctx s' = ok kG →
    J ≤ R ∧ kG ≤ R ∧ (m.nucl.mech = .PAH → n'.dimer.mDimer * n'.dimer.nDimer * lognBeta m s (M t 0) (M t 1) (M t 2) n'.dimer.mDimer ≤ R)

section
variable {m : Model} {o : ℝ → State} {a : ℝ → SetArgs} {τ : ℝ} {M : ℝ → Fin 3 → ℝ}

/-- What the moments do at an instant at which they are positive. -/
theorem LognRun.at (hr : LognCalls m o a τ) (h : LognRun m o a τ M) {t : ℝ} (ht : t ∈ Set.Ico 0 τ)
    (hP : m.nucl.mech = .PAH → ∃ y ∈ (a t).yPah, y ≠ 0) (pos : ∀ k, 0 < M t k) :
    ∃ s s' J kG kO mN E2 n', setState (o t) { a t with sootVar := List.ofFn (M t) } = (s, ok ()) ∧ LognReady m s (M t 0) (M t 1) (M t 2) ∧
      m.nucl.rate (lognIbeta m) s = ok (J, n', s') ∧ s' = { s with cMin := s'.cMin } ∧ m.grow.rate m.ctx s' = ok kG ∧ m.oxid.rate m.ctx s' = ok kO ∧
      0 ≤ J ∧ 0 ≤ kG ∧ 0 ≤ kO ∧ 0 < mN ∧
      0 ≤ (if m.nucl.mech = .PAH then n'.dimer.mDimer * n'.dimer.nDimer * lognBeta m s (M t 0) (M t 1) (M t 2) n'.dimer.mDimer else 0) ∧
      (M t 0 * M t 2 / M t 1 ^ 2 ≤ 1 → 2 * M t 1 * (M t 0 * M t 2 / M t 1 ^ 2) ^ (2 / 3 : ℝ) *
        (if m.nucl.mech = .PAH then n'.dimer.mDimer * n'.dimer.nDimer * lognBeta m s (M t 0) (M t 1) (M t 2) n'.dimer.mDimer else 0) ≤ M t 0 * E2) ∧
      HasDerivWithinAt (fun t => M t 0) (J + (lognCoagVal m.coag s (lognM (M t 0) (M t 1) (M t 2))).1) (Set.Ici t) t ∧
      HasDerivWithinAt (fun t => M t 1) (J * mN + (kG - kO) * lognArea (M t 0) (M t 1) (M t 2) (4 / 6) +
        (if m.nucl.mech = .PAH then n'.dimer.mDimer * n'.dimer.nDimer * lognBeta m s (M t 0) (M t 1) (M t 2) n'.dimer.mDimer else 0)) (Set.Ici t) t ∧
      HasDerivWithinAt (fun t => M t 2) (J * mN ^ 2 + 2 * (kG - kO) * lognArea (M t 0) (M t 1) (M t 2) (10 / 6) + E2 +
        (lognCoagVal m.coag s (lognM (M t 0) (M t 1) (M t 2))).2) (Set.Ici t) t := by
  obtain ⟨s, m', s', r1, r2, r3⟩ := h.rate t ht
  have rd := hr t ht _ _ r1
  rw [max_eq_left (pos 0).le, max_eq_left (pos 1).le, max_eq_left (pos 2).le] at rd
  have hy : s.yPah = (a t).yPah := by
    have := (C02_setState_valid (o t) { a t with sootVar := List.ofFn (M t) } (by rw [r1])).2.2.2.2.2.2.1
    rwa [r1] at this
  obtain ⟨m'', s'', J, n', kG, kO, e1, e2, e3, e4, e5, e6, e7, e8, e9, -, e11, -, e13⟩ := logn_eval rd (fun h => ⟨pos 0, pos 1, by rw [hy]; exact hP h⟩)
  have e := r2.symm.trans e1
  simp only [ok.injEq, Prod.mk.injEq] at e
  obtain ⟨rfl, -⟩ := e
  have d := hasDerivWithinAt_pi.1 r3
  have d0 := d 0; have d1 := d 1; have d2 := d 2
  rw [e13] at d0 d1 d2
  have mN0 : 0 < s''.cMin * gasMW .C / Na := by
    have := gasMW_pos .C; have := Na_pos
    positivity
  refine ⟨s, s'', J, kG, kO, s''.cMin * gasMW .C / Na, _, n', r1, rd, e2, e3, e5, e6, e7, e8, e9, mN0, ?_, ?_, by simpa using d0, by simpa using d1, by simpa using d2⟩
  · split_ifs with hp
    · obtain ⟨q1, q2⟩ := e11 hp
      have := hmean_nonneg (lognFm1_nonneg (c := m.coag) (lognM_nonneg rd.m0 rd.m1 rd.m2) rd.gas.acc.phys rd.fm q1) (lognC1_pos rd (pos 0) q1).le
      exact mul_nonneg (mul_nonneg q1.le q2) this
    · exact le_rfl
  · intro hq
    split_ifs with hp
    · obtain ⟨q1, q2⟩ := e11 hp
      have := mul_le_mul_of_nonneg_left (LognRealis.cond_ge rd (pos 0) (pos 1) (pos 2) hq q1) (mul_nonneg q1.le q2)
      linarith
    · simp

/-- While all three moments are positive. -/
theorem LognRun.gap_nonneg (hr : LognCalls m o a τ) (h : LognRun m o a τ M) (hP : m.nucl.mech = .PAH → ∀ t ∈ Set.Ico 0 τ, ∃ y ∈ (a t).yPah, y ≠ 0)
    (pos : ∀ t ∈ Set.Icc 0 τ, ∀ k, 0 < M t k) {R : ℝ} (hR : LognRates m o a τ M R) (g0 : 0 ≤ gap (M 0 0) (M 0 1) (M 0 2)) :
    ∀ t ∈ Set.Icc 0 τ, 0 ≤ gap (M t 0) (M t 1) (M t 2) := by
  intro t1 ht1
  have hτ : (0 : ℝ) ≤ τ := ht1.1.trans ht1.2
  have ne : (Set.Icc 0 τ).Nonempty := Set.nonempty_Icc.2 hτ
  obtain ⟨x0, hx0, min0⟩ := isCompact_Icc.exists_isMinOn ne (h.comp 0)
  obtain ⟨x1, hx1, min1⟩ := isCompact_Icc.exists_isMinOn ne (h.comp 1)
  have cA : ContinuousOn (fun t => lognArea (M t 0) (M t 1) (M t 2) (4 / 6)) (Set.Icc 0 τ) := by
    have : ContinuousOn (fun t => π * (6 / (π * rhoSoot)) ^ twothird * (M t 0 * (M t 1 / M t 0) ^ (4 / 6 : ℝ) *
        (M t 0 * M t 2 / M t 1 ^ 2) ^ (4 / 6 * (4 / 6 - 1) / 2 : ℝ))) (Set.Icc 0 τ) :=
      continuousOn_const.mul (((h.comp 0).mul (((h.comp 1).div (h.comp 0) fun t ht => (pos t ht 0).ne').rpow_const fun t ht => .inr (by norm_num))).mul
        ((((h.comp 0).mul (h.comp 2)).div ((h.comp 1).pow 2) fun t ht => (pow_pos (pos t ht 1) 2).ne').rpow_const fun t ht => .inl
          (div_pos (mul_pos (pos t ht 0) (pos t ht 2)) (pow_pos (pos t ht 1) 2)).ne'))
    refine this.congr fun t ht => ?_
    rw [lognArea, lognM_spread (pos t ht 0) (pos t ht 1) (pos t ht 2)]
  obtain ⟨x2, hx2, max2⟩ := isCompact_Icc.exists_isMaxOn ne cA
  have dp : ∀ t, ∃ d, t ∈ Set.Ico 0 τ → HasDerivWithinAt (fun t => gap (M t 0) (M t 1) (M t 2)) d (Set.Ici t) t ∧ (gap (M t 0) (M t 1) (M t 2) < 0 →
      (R / M x0 0 + 2 * (R * lognArea (M x2 0) (M x2 1) (M x2 2) (4 / 6)) / M x1 1 + 2 * R / M x1 1) * gap (M t 0) (M t 1) (M t 2) ≤ d) := fun t => by
    by_cases ht : t ∈ Set.Ico 0 τ
    · have ht' : t ∈ Set.Icc 0 τ := ⟨ht.1, ht.2.le⟩
      obtain ⟨s, s', J, kG, kO, mN, E2, n', r1, rd, r2, -, r3, r4, J0, G0, O0, -, E0, hE, d0, d1, d2⟩ := h.at hr ht (fun hp => hP hp t ht) (pos t ht')
      obtain ⟨b1, b2, b3⟩ := hR t ht s s' J kG n' r1 r2 r3
      have b4 : (if m.nucl.mech = .PAH then n'.dimer.mDimer * n'.dimer.nDimer * lognBeta m s (M t 0) (M t 1) (M t 2) n'.dimer.mDimer else 0) ≤ R := by
        split_ifs with hp
        · exact b3 hp
        · exact J0.trans b1
      refine ⟨_, fun _ => ⟨(d0.mul d2).sub (d1.pow 2), fun hg => ?_⟩⟩
      have hq : M t 0 * M t 2 / M t 1 ^ 2 ≤ 1 := by
        rw [div_le_one (pow_pos (pos t ht' 1) 2)]; unfold gap at hg; linarith
      have := LognRealis.gap_ge rd (pos t ht' 0) (pos t ht' 1) (pos t ht' 2) hg (mN := mN) J0 G0 O0 E0 (hE hq) b1 b2 b4 (max2 ht') (pos x0 hx0 0) (pos x1 hx1 1)
        (min0 ht') (min1 ht')
      refine this.trans_eq ?_
      norm_num
      ring
    · exact ⟨0, fun hx => absurd hx ht⟩
  choose d hd using dp
  exact LognRealis.nonneg_of_linear (((h.comp 0).mul (h.comp 2)).sub ((h.comp 1).pow 2)) (fun t ht => (hd t ht).1) (fun t ht => (hd t ht).2) g0 t1 ht1

theorem LognRun.mono (h : LognRun m o a τ M) {τ' : ℝ} (ht : τ' ≤ τ) : LognRun m o a τ' M :=
  ⟨h.cont.mono (Set.Icc_subset_Icc_right ht), fun t h' => h.rate t ⟨h'.1, h'.2.trans_le ht⟩⟩

/-- A continuous property of positivity: if `f` is positive at the start, and at a first zero it would still be bounded below, it stays positive. -/
theorem LognRealis.pos_of_bootstrap {f : ℝ → ℝ} {τ : ℝ} (hc : ContinuousOn f (Set.Icc 0 τ)) (h0 : 0 < f 0)
    (hb : ∀ t ∈ Set.Ioc 0 τ, (∀ x ∈ Set.Ico 0 t, 0 < f x) → ∃ ε > 0, ∀ x ∈ Set.Ico 0 t, ε ≤ f x) : ∀ t ∈ Set.Icc 0 τ, 0 < f t := by
  by_contra hne
  push Not at hne
  obtain ⟨t, ht, hft⟩ := hne
  have cl : IsClosed (Set.Icc 0 τ ∩ f ⁻¹' Set.Iic 0) := hc.preimage_isClosed_of_isClosed isClosed_Icc isClosed_Iic
  have cp : IsCompact (Set.Icc 0 τ ∩ f ⁻¹' Set.Iic 0) := isCompact_Icc.of_isClosed_subset cl Set.inter_subset_left
  obtain ⟨x, hx, hmin⟩ := cp.exists_isLeast ⟨t, ht, hft⟩
  have x0 : 0 < x := by
    rcases hx.1.1.eq_or_lt with e | e
    · exact absurd hx.2 (by rw [← e]; simpa using h0)
    · exact e
  have before : ∀ y ∈ Set.Ico 0 x, 0 < f y := fun y hy => by
    by_contra hn
    exact absurd (hmin ⟨⟨hy.1, hy.2.le.trans hx.1.2⟩, not_lt.1 hn⟩) (not_le.2 hy.2)
  obtain ⟨ε, ε0, hε⟩ := hb x ⟨x0, hx.1.2⟩ before
  have cw : ContinuousWithinAt f (Set.Ico 0 x) x := (hc x hx.1).mono fun y hy => ⟨hy.1, hy.2.le.trans hx.1.2⟩
  have : (𝓝[Set.Ico 0 x] x).NeBot := by
    rw [nhdsWithin_Ico_eq_nhdsLT x0]; infer_instance
  have := ge_of_tendsto cw (eventually_nhdsWithin_of_forall hε)
  exact absurd hx.2 (not_le.2 (ε0.trans_le this))

/-- Moments of a population stay moments of a population, as long as there are particles and mass: in every gas history, with every mechanism LOGN can be
evaluated with, provided the rates stay bounded.  The second moment stays positive by itself. -/
theorem C111_realisable (hr : LognCalls m o a τ) (h : LognRun m o a τ M) (hP : m.nucl.mech = .PAH → ∀ t ∈ Set.Ico 0 τ, ∃ y ∈ (a t).yPah, y ≠ 0)
    (p0 : ∀ t ∈ Set.Icc 0 τ, 0 < M t 0) (p1 : ∀ t ∈ Set.Icc 0 τ, 0 < M t 1) {R : ℝ} (hR : LognRates m o a τ M R) (g0 : M 0 1 ^ 2 ≤ M 0 0 * M 0 2) :
    ∀ t ∈ Set.Icc 0 τ, 0 < M t 2 ∧ M t 1 ^ 2 ≤ M t 0 * M t 2 := by
  by_cases hτ : 0 ≤ τ
  swap
  · intro t ht; exact absurd (ht.1.trans ht.2) hτ
  have h0 : (0 : ℝ) ∈ Set.Icc 0 τ := ⟨le_rfl, hτ⟩
  have z0 : 0 < M 0 2 := by
    have := p0 0 h0; have := pow_pos (p1 0 h0) 2
    by_contra hx
    have := mul_nonpos_of_nonneg_of_nonpos (p0 0 h0).le (not_lt.1 hx)
    linarith
  have calls : ∀ x ≤ τ, LognCalls m o a x := fun x hx t ht => hr t ⟨ht.1, ht.2.trans_le hx⟩
  have part : ∀ x ≤ τ, (∀ t ∈ Set.Icc 0 x, 0 < M t 2) → ∀ t ∈ Set.Icc 0 x, 0 ≤ gap (M t 0) (M t 1) (M t 2) := fun x hx p2 =>
    (h.mono hx).gap_nonneg (calls x hx) (fun hp t ht => hP hp t ⟨ht.1, ht.2.trans_le hx⟩) (fun t ht k => by
      have ht' : t ∈ Set.Icc 0 τ := ⟨ht.1, ht.2.trans hx⟩
      fin_cases k
      exacts [p0 t ht', p1 t ht', p2 t ht]) (fun t ht => hR t ⟨ht.1, ht.2.trans_le hx⟩) (by unfold gap; linarith)
  have ne : (Set.Icc 0 τ).Nonempty := ⟨0, h0⟩
  obtain ⟨x0, hx0, max0⟩ := isCompact_Icc.exists_isMaxOn ne (h.comp 0)
  obtain ⟨x1, hx1, min1⟩ := isCompact_Icc.exists_isMinOn ne (h.comp 1)
  have p2 : ∀ t ∈ Set.Icc 0 τ, 0 < M t 2 := LognRealis.pos_of_bootstrap (h.comp 2) z0 fun t ht hp => by
    have n0 := p0 x0 hx0; have c0 := p1 x1 hx1
    refine ⟨M x1 1 ^ 2 / M x0 0, by positivity, fun x hx => ?_⟩
    have hx' : x ∈ Set.Icc 0 τ := ⟨hx.1, hx.2.le.trans ht.2⟩
    have g := part x hx'.2 (fun y hy => hp y ⟨hy.1, hy.2.trans_lt hx.2⟩) x ⟨hx.1, le_rfl⟩
    have z := hp x hx
    have a1 : M x 0 ≤ M x0 0 := max0 hx'
    have a2 : M x1 1 ≤ M x 1 := min1 hx'
    rw [div_le_iff₀ n0]
    unfold gap at g
    have := pow_le_pow_left₀ c0.le a2 2
    have := mul_le_mul_of_nonneg_left a1 z.le
    linarith
  exact fun t ht => ⟨p2 t ht, by have := part τ le_rfl p2 t ht; unfold gap at this; linarith⟩

end

/-! ## A gas that stays as it is -/

section
variable {m : Model} {o : State} {a : SetArgs} {τ : ℝ} {M : ℝ → Fin 3 → ℝ}

/-- Nucleation and oxidation rates do not depend on the soot. -/
theorem LognGas.nucl (h : LognGas m o a) (hn : m.nucl.mech ≠ .PAH) :
    ∃ J, ∀ v s, setState o { a with sootVar := v } = (s, ok ()) → m.nucl.rate (lognIbeta m) s = ok (J, m.nucl, s) := by
  obtain ⟨s0, e0, r⟩ := h 0
  obtain ⟨J, J1, -⟩ := C103_nucleation_continuous m.nucl.mech hn (lognIbeta m) (fun _ : Unit => s0) () (fun _ => r.gas) continuousAt_const continuousAt_const
    continuousAt_const continuousAt_const (fun _ => continuousAt_const) (fun h => ⟨fun _ => r.tar h, continuousAt_const⟩) (fun h => ⟨fun _ => r.mtar h, continuousAt_const⟩)
  rw [← r.wf.nucl.new hn] at J1
  refine ⟨J (), fun v s hs => ?_⟩
  have es := setState_contents e0 hs
  have := nucl_rate_soot hn (J1 ()) s.sootVar s0.wts s0.absc
  rwa [← es] at this

/-- The growth rate. -/
theorem LognGas.grow (h : LognGas m o a) (hg : m.grow.mech ≠ .HACA) :
    ∃ s0 : State, GasOk s0 ∧ ∀ (v : Fin 3 → ℝ) s k, 0 < v 0 → 0 < v 1 → setState o { a with sootVar := List.ofFn v } = (s, ok ()) → m.grow.rate m.ctx s = ok k →
      k = growFlux m.grow.mech s0 (areaFn (v 0) (v 1)) / areaFn (v 0) (v 1) := by
  obtain ⟨s0, e0, r0⟩ := h 0
  refine ⟨s0, r0.gas, fun v s k q0 q1 hs hk => ?_⟩
  have r := h.calls 1 0 ⟨le_rfl, one_pos⟩ v s hs
  rw [max_eq_left q0.le, max_eq_left q1.le] at r
  have hns : m.ctx.psd ≠ .SECT := by show m.psd ≠ _; rw [r.psd]; decide
  have n1 : numOf m.ctx s = v 0 := by simp [numOf, hns, r.soot]
  have n2 : massOf m.ctx s = v 1 := by simp [massOf, hns, r.soot]
  rw [r.wf.grow] at hk
  have := growFlux_eq hg r.gas r.sized hk
  rw [n1, n2] at this
  have a0 : 0 < areaFn (v 0) (v 1) := by have := rhoSoot_pos; unfold areaFn; positivity
  rw [eq_div_iff a0.ne', this, setState_contents e0 hs, growFlux_soot]

/-- In a fixed gas the rates are bounded along every run with particles. -/
theorem LognGas.rates (h : LognGas m o a) (hn : m.nucl.mech ≠ .PAH) (hg : m.grow.mech ≠ .HACA) (hM : LognRun m (fun _ => o) (fun _ => a) τ M)
    (p0 : ∀ t ∈ Set.Icc 0 τ, 0 < M t 0) (p1 : ∀ t ∈ Set.Icc 0 τ, 0 < M t 1) : ∃ R, LognRates m (fun _ => o) (fun _ => a) τ M R := by
  by_cases hτ : 0 ≤ τ
  swap
  · exact ⟨0, fun t ht => absurd (ht.1.trans ht.2.le) hτ⟩
  obtain ⟨J, hJ⟩ := h.nucl hn
  obtain ⟨s0, g0, hG⟩ := h.grow hg
  have cF : Continuous (growFlux m.grow.mech s0) := continuous_iff_continuousAt.2 fun x =>
    growFlux_cont (f := fun _ : ℝ => s0) ⟨continuousAt_const, continuousAt_const, continuousAt_const, continuousAt_const, fun _ => continuousAt_const⟩
      (fun _ => g0) m.grow.mech continuousAt_id
  have ap : ∀ t ∈ Set.Icc 0 τ, 0 < areaFn (M t 0) (M t 1) := fun t ht => by
    have := rhoSoot_pos; have := p0 t ht; have := p1 t ht; unfold areaFn; positivity
  have cA : ContinuousOn (fun t => areaFn (M t 0) (M t 1)) (Set.Icc 0 τ) :=
    continuousOn_const.mul (((hM.comp 1).rpow_const fun _ _ => .inr (by norm_num)).mul ((hM.comp 0).rpow_const fun _ _ => .inr (by norm_num)))
  obtain ⟨x, hx, mx⟩ := isCompact_Icc.exists_isMaxOn (Set.nonempty_Icc.2 hτ) ((cF.comp_continuousOn cA).div cA fun t ht => (ap t ht).ne')
  refine ⟨max J (growFlux m.grow.mech s0 (areaFn (M x 0) (M x 1)) / areaFn (M x 0) (M x 1)), fun t ht s s' J' kG n' r1 r2 r3 => ?_⟩
  have ht' : t ∈ Set.Icc 0 τ := ⟨ht.1, ht.2.le⟩
  rw [hJ _ _ r1] at r2
  simp only [ok.injEq, Prod.mk.injEq] at r2
  obtain ⟨rfl, rfl, rfl⟩ := r2
  refine ⟨le_max_left _ _, ?_, fun hp => absurd hp hn⟩
  rw [hG _ _ _ (p0 t ht') (p1 t ht') r1 r3]
  exact (mx ht').trans (le_max_right _ _)

/-- A bound for the rate at which a particle coagulates, for realisable moments. -/
noncomputable def LognRealis.cap (m : Model) (s : State) (n c z : ℝ) : ℝ :=
  m.coag.kfmVal s * bCoag * ((n + c) * (4 * (n * z / c ^ 2))) + kcVal s * n * (1 + n * z / c ^ 2 + kcpVal s * ((1 + n / c) * (2 * (n * z / c ^ 2))))

theorem LognRealis.coag0_le {s : State} {n c z : ℝ} (hp : s.Phys) (fm : 0 < m.coag.fmMult)
    (hk : m.coag.mech = .FM ∨ m.coag.mech = .CONTINUUM ∨ m.coag.mech = .HM) (hn : 0 < n) (hc : 0 < c) (hz : 0 < z) (hq : 1 ≤ n * z / c ^ 2) :
    0 ≤ LognRealis.cap m s n c z ∧ -(LognRealis.cap m s n c z) * n ≤ (lognCoagVal m.coag s (lognM n c z)).1 := by
  have K := mul_pos (m.coag.kfmVal_pos hp fm) bCoag_pos
  have kc := kcVal_pos hp; have kp := kcpVal_pos hp
  have μ0 : 0 < c / n := by positivity
  have q0 : 0 < n * z / c ^ 2 := by positivity
  have F : 0 ≤ m.coag.kfmVal s * bCoag * ((n + c) * (4 * (n * z / c ^ 2))) := by positivity
  have C : 0 ≤ kcVal s * n * (1 + n * z / c ^ 2 + kcpVal s * ((1 + n / c) * (2 * (n * z / c ^ 2)))) := by positivity
  have F' := mul_nonneg F hn.le
  have C' := mul_nonneg C hn.le
  refine ⟨add_nonneg F C, ?_⟩
  have up : ∀ p : ℝ, p ≤ 1 → (n * z / c ^ 2) ^ p ≤ n * z / c ^ 2 := fun p h => by
    have := rpow_le_rpow_of_exponent_le hq h
    rwa [rpow_one] at this
  have pw : ∀ x p : ℝ, 0 < x → 0 ≤ p → p ≤ 1 → x ^ p ≤ 1 + x := fun x p x0 h0 h1 => by
    rcases le_total x 1 with hx | hx
    · have := rpow_le_one x0.le hx h0; linarith
    · have := rpow_le_rpow_of_exponent_le hx h1; rw [rpow_one] at this; linarith
  unfold LognRealis.cap
  rcases hk with e | e | e
  · simp only [lognCoagVal, e, fm0_spread m.coag s hn hc hz]
    have P : fmP (n * z / c ^ 2) ≤ 4 * (n * z / c ^ 2) := by
      have := up (-5 / 72) (by norm_num); have := up (-1 / 72) (by norm_num); have := up (19 / 72) (by norm_num)
      unfold fmP; linarith
    have x : n * (c / n) ^ (1 / 6 : ℝ) ≤ n + c := by
      have := mul_le_mul_of_nonneg_left (pw (c / n) (1 / 6) μ0 (by norm_num) (by norm_num)) hn.le
      rwa [mul_add, mul_one, mul_div_cancel₀ _ hn.ne'] at this
    have := mul_le_mul x P (fmP_pos q0).le (by positivity)
    have := mul_le_mul_of_nonneg_left this (mul_pos K hn).le
    linarith
  · simp only [lognCoagVal, e, c0_spread s hn hc hz]
    have x : (c / n) ^ (-1 / 3 : ℝ) ≤ 1 + n / c := by
      have := pw (n / c) (1 / 3) (by positivity) (by norm_num) (by norm_num)
      rwa [show (c / n) ^ (-1 / 3 : ℝ) = (n / c) ^ (1 / 3 : ℝ) by rw [neg_div, rpow_neg μ0.le, ← inv_rpow μ0.le, inv_div]]
    have y : (n * z / c ^ 2) ^ (2 / 9 : ℝ) + (n * z / c ^ 2) ^ (4 / 9 : ℝ) ≤ 2 * (n * z / c ^ 2) := by
      have := up (2 / 9) (by norm_num); have := up (4 / 9) (by norm_num); linarith
    have w := up (1 / 9) (by norm_num)
    have a1 := mul_le_mul_of_nonneg_left (mul_le_mul x y (by positivity) (by positivity)) kp.le
    have a2 : 1 + (n * z / c ^ 2) ^ (1 / 9 : ℝ) + kcpVal s * (c / n) ^ (-1 / 3 : ℝ) * ((n * z / c ^ 2) ^ (2 / 9 : ℝ) + (n * z / c ^ 2) ^ (4 / 9 : ℝ)) ≤
        1 + n * z / c ^ 2 + kcpVal s * ((1 + n / c) * (2 * (n * z / c ^ 2))) := by rw [mul_assoc]; linarith
    have a3 := mul_le_mul_of_nonneg_left a2 (mul_pos kc (pow_pos hn 2)).le
    linarith
  · have : (lognCoagVal m.coag s (lognM n c z)).1 = 0 := by simp only [lognCoagVal, e]
    rw [this]
    linarith

/-- In a gas that stays as it is, without the PAH and HACA mechanisms: moments of a population stay moments of a population while there is soot mass.
Neither the number nor the second moment reaches zero. -/
theorem C111_fixed_gas (h : LognGas m o a) (hn : m.nucl.mech ≠ .PAH) (hg : m.grow.mech ≠ .HACA) (hM : LognRun m (fun _ => o) (fun _ => a) τ M)
    (n0 : 0 < M 0 0) (p1 : ∀ t ∈ Set.Icc 0 τ, 0 < M t 1) (g0 : M 0 1 ^ 2 ≤ M 0 0 * M 0 2) :
    ∀ t ∈ Set.Icc 0 τ, 0 < M t 0 ∧ 0 < M t 2 ∧ M t 1 ^ 2 ≤ M t 0 * M t 2 := by
  by_cases hτ : 0 ≤ τ
  swap
  · intro t ht; exact absurd (ht.1.trans ht.2) hτ
  have part : ∀ x ≤ τ, (∀ t ∈ Set.Icc 0 x, 0 < M t 0) → ∀ t ∈ Set.Icc 0 x, 0 < M t 2 ∧ M t 1 ^ 2 ≤ M t 0 * M t 2 := fun x hx p0 => by
    have p1' : ∀ t ∈ Set.Icc 0 x, 0 < M t 1 := fun t ht => p1 t ⟨ht.1, ht.2.trans hx⟩
    obtain ⟨R, hR⟩ := h.rates hn hg (hM.mono hx) p0 p1'
    exact C111_realisable (h.calls x) (hM.mono hx) (fun hp => absurd hp hn) p0 p1' hR g0
  obtain ⟨s0, hp0, fm, -, hs0⟩ := h.gas
  have cK : ContinuousOn (fun t => LognRealis.cap m s0 (M t 0) (M t 1) (M t 2)) (Set.Icc 0 τ) := by
    have c0 := hM.comp 0; have c1 := hM.comp 1; have c2 := hM.comp 2
    have q : ContinuousOn (fun t => M t 0 * M t 2 / M t 1 ^ 2) (Set.Icc 0 τ) := (c0.mul c2).div (c1.pow 2) fun t ht => (pow_pos (p1 t ht) 2).ne'
    exact (continuousOn_const.mul ((c0.add c1).mul (continuousOn_const.mul q))).add ((continuousOn_const.mul c0).mul ((continuousOn_const.add q).add
      (continuousOn_const.mul ((continuousOn_const.add (c0.div c1 fun t ht => (p1 t ht).ne')).mul (continuousOn_const.mul q)))))
  obtain ⟨x, hx, mx⟩ := isCompact_Icc.exists_isMaxOn (Set.nonempty_Icc.2 hτ) cK
  set K := LognRealis.cap m s0 (M x 0) (M x 1) (M x 2) with hK
  have p0 : ∀ t ∈ Set.Icc 0 τ, 0 < M t 0 := LognRealis.pos_of_bootstrap (hM.comp 0) n0 fun t ht hp => by
    refine ⟨M 0 0 * exp (-|K| * t), by positivity, fun y hy => ?_⟩
    have hyτ : y ≤ τ := hy.2.le.trans ht.2
    have py : ∀ u ∈ Set.Icc 0 y, 0 < M u 0 := fun u hu => hp u ⟨hu.1, hu.2.trans_lt hy.2⟩
    have pr := part y hyτ py
    have he : ∀ t, HasDerivAt (fun t => exp (|K| * t)) (exp (|K| * t) * |K|) t := fun t => by
      simpa using ((hasDerivAt_id t).const_mul (|K|)).exp
    have dp : ∀ u, ∃ d, u ∈ Set.Ico 0 y → HasDerivWithinAt (fun t => M t 0) d (Set.Ici u) u ∧ -|K| * M u 0 ≤ d := fun u => by
      by_cases hu : u ∈ Set.Ico 0 y
      · have hu' : u ∈ Set.Icc 0 y := ⟨hu.1, hu.2.le⟩
        have hut : u ∈ Set.Ico 0 τ := ⟨hu.1, hu.2.trans_le hyτ⟩
        have n1 := py u hu'; have c1 := p1 u ⟨hut.1, hut.2.le⟩; have z1 := (pr u hu').1
        obtain ⟨s, s', J, kG, kO, mN, E2, n', r1, rd, -, -, -, -, J0, -, -, -, -, -, d0, -, -⟩ := hM.at (h.calls τ) hut (fun hp => absurd hp hn)
          (fun k => by fin_cases k; exacts [n1, c1, z1])
        refine ⟨_, fun _ => ⟨d0, ?_⟩⟩
        have cb := (LognRealis.coag0_le rd.gas.acc.phys rd.fm rd.kernel n1 c1 z1 (by rw [le_div_iff₀ (pow_pos c1 2)]; linarith [(pr u hu').2])).2
        have ce : LognRealis.cap m s (M u 0) (M u 1) (M u 2) = LognRealis.cap m s0 (M u 0) (M u 1) (M u 2) := by
          obtain ⟨e1, e2, e3⟩ := hs0 _ _ r1
          unfold LognRealis.cap; rw [e1, e2, e3]
        rw [ce] at cb
        have le : LognRealis.cap m s0 (M u 0) (M u 1) (M u 2) ≤ |K| := (mx (show u ∈ Set.Icc 0 τ from ⟨hut.1, hut.2.le⟩)).trans (le_abs_self _)
        have := mul_le_mul_of_nonneg_right le n1.le
        linarith
      · exact ⟨0, fun hx => absurd hx hu⟩
    choose d hd using dp
    have mono := mono_of_right (f := fun t => M t 0 * exp (|K| * t)) (τ := y) (((hM.mono hyτ).comp 0).mul (by fun_prop))
      (fun u hu => (hd u hu).1.mul (he u).hasDerivWithinAt) (fun u hu => by
        have := mul_nonneg (sub_nonneg.2 (hd u hu).2) (exp_pos (|K| * u)).le
        show 0 ≤ d u * exp (|K| * u) + M u 0 * (exp (|K| * u) * |K|)
        linarith)
    have := mono ⟨le_rfl, hy.1⟩ ⟨hy.1, le_rfl⟩ hy.1
    simp only [mul_zero, exp_zero, mul_one] at this
    have e1 : M y 0 = M y 0 * exp (|K| * y) * exp (-|K| * y) := by rw [mul_assoc, ← exp_add]; simp
    rw [e1]
    exact mul_le_mul this (exp_le_exp.2 (by nlinarith [abs_nonneg K, hy.2.le])) (exp_pos _).le (n0.le.trans this)
  exact fun t ht => ⟨p0 t ht, part τ le_rfl p0 t ht⟩

/-- Without oxidation the mass needs no assumption either: it never falls. -/
theorem C111_without_oxidation (h : LognGas m o a) (hn : m.nucl.mech ≠ .PAH) (hg : m.grow.mech ≠ .HACA) (ho : m.oxid.cls = .NONE)
    (hM : LognRun m (fun _ => o) (fun _ => a) τ M) (n0 : 0 < M 0 0) (c0 : 0 < M 0 1) (g0 : M 0 1 ^ 2 ≤ M 0 0 * M 0 2) :
    ∀ t ∈ Set.Icc 0 τ, 0 < M t 0 ∧ M 0 1 ≤ M t 1 ∧ 0 < M t 2 ∧ M t 1 ^ 2 ≤ M t 0 * M t 2 := by
  have part : ∀ x ≤ τ, (∀ t ∈ Set.Icc 0 x, 0 < M t 1) → ∀ t ∈ Set.Icc 0 x, M 0 1 ≤ M t 1 := fun x hx p1 t ht => by
    have all := C111_fixed_gas h hn hg (hM.mono hx) n0 p1 g0
    have dp : ∀ u, ∃ d, u ∈ Set.Ico 0 x → HasDerivWithinAt (fun t => M t 1) d (Set.Ici u) u ∧ 0 ≤ d := fun u => by
      by_cases hu : u ∈ Set.Ico 0 x
      · have hu' : u ∈ Set.Icc 0 x := ⟨hu.1, hu.2.le⟩
        obtain ⟨n1, z1, -⟩ := all u hu'
        have c1 := p1 u hu'
        obtain ⟨s, s', J, kG, kO, mN, E2, n', r1, rd, -, -, -, r4, J0, G0, -, mN0, E0, -, -, d1, -⟩ := (hM.mono hx).at (h.calls x) hu (fun hp => absurd hp hn)
          (fun k => by fin_cases k; exacts [n1, c1, z1])
        have o0 : kO = 0 := by simp only [Oxid.rate, ho, ok.injEq] at r4; exact r4.symm
        subst o0
        refine ⟨_, fun _ => ⟨d1, ?_⟩⟩
        have A : 0 ≤ lognArea (M u 0) (M u 1) (M u 2) (4 / 6) := by
          have := lognM_nonneg n1.le c1.le z1.le (4 / 6); have := rhoSoot_pos
          unfold lognArea; positivity
        have := mul_nonneg J0 mN0.le
        have := mul_nonneg G0 A
        rw [sub_zero]
        linarith
      · exact ⟨0, fun hx => absurd hx hu⟩
    choose d hd using dp
    exact mono_of_right ((hM.mono hx).comp 1) (fun u hu => (hd u hu).1) (fun u hu => (hd u hu).2) ⟨le_rfl, ht.1.trans ht.2⟩ ht ht.1
  have p1 := LognRealis.pos_of_bootstrap (hM.comp 1) c0 fun t ht hp =>
    ⟨M 0 1, c0, fun x hx => part x (hx.2.le.trans ht.2) (fun y hy => hp y ⟨hy.1, hy.2.trans_lt hx.2⟩) x ⟨hx.1, le_rfl⟩⟩
  have all := C111_fixed_gas h hn hg hM n0 p1 g0
  exact fun t ht => ⟨(all t ht).1, part τ le_rfl p1 t ht, (all t ht).2⟩

/-! ## Runs exist -/

/-- All the LOGN sources of positive moments as a vector field. -/
noncomputable def lognG (m : Model) (s s1 : State) (J kO mN : ℝ) (v : Fin 3 → ℝ) : Fin 3 → ℝ :=
  lognF m s v + ![J, J * mN + (growFlux m.grow.mech s1 (areaFn (v 0) (v 1)) / areaFn (v 0) (v 1) - kO) * lognArea (v 0) (v 1) (v 2) (4 / 6),
    J * mN ^ 2 + 2 * (growFlux m.grow.mech s1 (areaFn (v 0) (v 1)) / areaFn (v 0) (v 1) - kO) * lognArea (v 0) (v 1) (v 2) (10 / 6)]

theorem lognG_smooth {s s1 : State} (hp : s.Phys) (fm : 0 < m.coag.fmMult) (J kO mN : ℝ) {v : Fin 3 → ℝ} (hv : ∀ k, 0 < v k) :
    ContDiffAt ℝ 1 (lognG m s s1 J kO mN) v := by
  have c : ∀ k : Fin 3, ContDiffAt ℝ 1 (fun w : Fin 3 → ℝ => w k) v := fun k => contDiffAt_pi.1 contDiffAt_id k
  have cA : ContDiffAt ℝ 1 (fun w : Fin 3 → ℝ => areaFn (w 0) (w 1)) v :=
    contDiffAt_const.mul (((c 1).rpow_const_of_ne (hv 1).ne').mul ((c 0).rpow_const_of_ne (hv 0).ne'))
  have a0 : 0 < areaFn (v 0) (v 1) := by have := rhoSoot_pos; have := hv 0; have := hv 1; unfold areaFn; positivity
  have cF : ContDiffAt ℝ 1 (fun w : Fin 3 → ℝ => growFlux m.grow.mech s1 (areaFn (w 0) (w 1)) / areaFn (w 0) (w 1) - kO) v := by
    refine (ContDiffAt.div ?_ cA a0.ne').sub contDiffAt_const
    unfold growFlux
    rcases m.grow.mech
    · exact contDiffAt_const
    · exact ((contDiffAt_const.mul (cA.sqrt a0.ne')).mul contDiffAt_const).mul contDiffAt_const
    all_goals first | exact contDiffAt_const | exact contDiffAt_const.mul cA
  have cL : ∀ r, ContDiffAt ℝ 1 (fun w : Fin 3 → ℝ => lognArea (w 0) (w 1) (w 2) r) v := fun r => by
    refine contDiffAt_const.mul ?_
    refine ((((c 0).rpow_const_of_ne (p := 1 + 0.5 * r * (r - 3)) (hv 0).ne').mul ((c 1).rpow_const_of_ne (p := r * (2 - r)) (hv 1).ne')).mul
      ((c 2).rpow_const_of_ne (p := 0.5 * r * (r - 1)) (hv 2).ne')).congr_of_eventuallyEq ?_
    have pe : ∀ k : Fin 3, ∀ᶠ w : Fin 3 → ℝ in 𝓝 v, 0 < w k := fun k => (c k).continuousAt.eventually (lt_mem_nhds (hv k))
    filter_upwards [pe 0, pe 1, pe 2] with w h0 h1 h2
    unfold lognM
    split_ifs with a b
    · subst a; norm_num
    · subst b; norm_num
    · exact lognMrVal_pos h0 h1 h2 r
  refine (lognF_smooth hp fm hv).add (contDiffAt_pi.2 fun k => ?_)
  fin_cases k
  · exact contDiffAt_const
  · exact contDiffAt_const.add (cF.mul (cL _))
  · exact contDiffAt_const.add ((contDiffAt_const.mul cF).mul (cL _))

/-- **C111 (existence).** From any positive moments a run exists for some time, with nucleation, growth, oxidation and coagulation. -/
theorem C111_exists (h : LognGas m o a) (hn : m.nucl.mech ≠ .PAH) (hg : m.grow.mech ≠ .HACA) (ho : m.oxid.cls ≠ .HACA) (v : Fin 3 → ℝ) (hv : ∀ k, 0 < v k) :
    ∃ τ > 0, ∃ M, LognRun m (fun _ => o) (fun _ => a) τ M ∧ M 0 = v ∧ ∀ t ∈ Set.Icc 0 τ, ∀ k, 0 < M t k := by
  obtain ⟨s0, hp, fm, -, hs0⟩ := h.gas
  obtain ⟨J, hJ⟩ := h.nucl hn
  obtain ⟨s1, g1, hG⟩ := h.grow hg
  obtain ⟨s2, e2, r2⟩ := h 0
  obtain ⟨O, O1, -⟩ := C103_oxidation_continuous_partial m.oxid.cls m.ctx (fun _ : Unit => s2) () (fun _ => r2.gas) (fun _ => r2.sized) continuousAt_const
    continuousAt_const continuousAt_const continuousAt_const (fun _ => continuousAt_const) ho
  rw [← r2.wf.oxid] at O1
  set mN := a.cMin * gasMW .C / Na with hmN
  obtain ⟨M, e0, ε, ε0, hM⟩ :=
    (lognG_smooth (s1 := s1) hp fm J (O ()) mN hv).exists_forall_mem_closedBall_exists_eq_forall_mem_Ioo_hasDerivAt₀ 0
  have c0 : ContinuousAt M 0 := (hM 0 (by simp [ε0])).continuousAt
  have n : ∀ᶠ t in 𝓝 (0 : ℝ), ∀ k, 0 < M t k := by
    rw [eventually_all]
    exact fun k => ((continuous_apply k).continuousAt.comp c0).eventually (lt_mem_nhds (by simp only [Function.comp, e0]; exact hv k))
  obtain ⟨δ, δ0, hδ⟩ := Metric.eventually_nhds_iff.1 n
  have m0 : 0 < min ε δ := lt_min ε0 δ0
  have τε : min ε δ / 2 < ε := by have := min_le_left ε δ; linarith
  have τδ : min ε δ / 2 < δ := by have := min_le_right ε δ; linarith
  have good : ∀ t ∈ Set.Icc 0 (min ε δ / 2), ∀ k, 0 < M t k := fun t ht => hδ (by
    rw [dist_eq, sub_zero, abs_of_nonneg ht.1]; linarith [ht.2])
  have hd : ∀ t ∈ Set.Icc 0 (min ε δ / 2), HasDerivAt M (lognG m s0 s1 J (O ()) mN (M t)) t := fun t ht => hM t ⟨by linarith [ht.1], by linarith [ht.2]⟩
  refine ⟨min ε δ / 2, by positivity, M, ⟨fun t ht => (hd t ht).continuousAt.continuousWithinAt, fun t ht => ?_⟩, e0, good⟩
  have ht' : t ∈ Set.Icc 0 (min ε δ / 2) := ⟨ht.1, ht.2.le⟩
  have p := good t ht'
  obtain ⟨s, q1, rd⟩ := h (M t)
  obtain ⟨m', s', J', n', kG, kO, f1, f2, -, -, f5, f6, -, -, -, -, -, -, f13⟩ := logn_eval rd (fun h => absurd h hn)
  rw [hJ _ _ q1] at f2
  simp only [ok.injEq, Prod.mk.injEq] at f2
  obtain ⟨rfl, rfl, rfl⟩ := f2
  have eG := hG _ _ _ (p 0) (p 1) q1 f5
  have eO : kO = O () := by
    have es := setState_contents e2 q1
    have sz := rd.sized
    rw [es] at f6 sz
    have := oxid_rate_soot (l := s.sootVar) (w := s2.wts) (a := s2.absc) ho r2.sized sz
    have := f6.symm.trans (this.trans (O1 ()))
    simpa using this
  have eC : s.cMin = a.cMin := by
    have := (C02_setState_valid o { a with sootVar := List.ofFn (M t) } (by rw [q1])).1.2.2.2.2
    rwa [q1] at this
  obtain ⟨k1, k2, k3⟩ := hs0 _ _ q1
  simp only [if_neg hn, add_zero, max_eq_left (p _).le] at f13
  rw [coagVal_congr k1 k2 k3, eG, eO, eC, ← hmN] at f13
  refine ⟨s, m', s, q1, f1, (hd t ht').hasDerivWithinAt.congr_deriv ?_⟩
  funext k
  rw [f13, lognG, lognF]
  fin_cases k
  · simp [add_comm]
  · simp
  · simp [add_comm]

/-- Equal particles, 1E15 of 1E-23 kg each, with nucleation, growth, oxidation and coagulation: for some time the moments are those of a population. -/
example : ∃ τ > 0, ∃ M, LognRun (exModel .LOGN 3 .LL .LL .NSC_NEOH .FM) (fun _ => State.mk' 3 0) (fun _ => exArgs [0, 0, 0] false) τ M ∧
    M 0 = ![1E15, 1E-8, 1E-31] ∧ ∀ t ∈ Set.Icc 0 τ, M t 1 ^ 2 ≤ M t 0 * M t 2 := by
  have h := exLognGas .LL (by decide) (by decide) .LL .NSC_NEOH .FM (.inl rfl) false
  obtain ⟨τ, τ0, M, h1, h2, h3⟩ := C111_exists h (by decide) (by decide) (by decide) ![1E15, 1E-8, 1E-31] (fun k => by fin_cases k <;> norm_num)
  have h0 : (0 : ℝ) ∈ Set.Icc 0 τ := ⟨le_rfl, τ0.le⟩
  refine ⟨τ, τ0, M, h1, h2, fun t ht => (C111_fixed_gas h (by decide) (by decide) h1 (h3 0 h0 0) (fun t ht => h3 t ht 1) ?_ t ht).2.2⟩
  rw [h2]
  show (1E-8 : ℝ) ^ 2 ≤ 1E15 * 1E-31
  norm_num

end

end Soot
