import Verif.Props.LognRealis

/-!
# LOGN runs for all times (C112)

A reactor hands the three moments to `setState`, calls `sootModel_LOGN::setSourceTerms` (sootModel_LOGN.cc:153-325) and lets the moments change at the reported
rates, in a gas that stays as it is and without oxidation.  From realisable moments there is exactly one evolution, and it goes on for ever.
-/

namespace Soot

open Res Real Filter Topology Cont
open scoped Classical

namespace LognGlobal

/-! ## Bounds on the rates -/

theorem growFlux_le (g : GrowMech) {s : State} (h : GasOk s) : ∃ k, 0 ≤ k ∧ ∀ A, 0 ≤ A → 0 ≤ growFlux g s A ∧ growFlux g s A ≤ k * (1 + A) := by
  have c := h.cVal_nonneg .C2H2
  have w := gasMW_pos .C
  have sq : ∀ A : ℝ, 0 ≤ A → sqrt A ≤ 1 + A := fun A hA => by
    rw [sqrt_le_iff]; constructor
    · linarith
    · nlinarith
  rcases g
  · exact ⟨0, le_rfl, fun A hA => by simp [growFlux]⟩
  · refine ⟨0.6E3 * exp (-12100 / s.T) * cVal s .C2H2 * 2 * gasMW .C, by positivity, fun A hA => ⟨by simp only [growFlux]; positivity, ?_⟩⟩
    have := mul_le_mul_of_nonneg_left (sq A hA) (show 0 ≤ 0.6E3 * exp (-12100 / s.T) * cVal s .C2H2 * 2 * gasMW .C by positivity)
    simp only [growFlux]
    linarith
  · refine ⟨750 * exp (-12100 / s.T) * cVal s .C2H2 * 2 * gasMW .C, by positivity, fun A hA => ⟨by simp only [growFlux]; positivity, ?_⟩⟩
    have : 0 ≤ 750 * exp (-12100 / s.T) * cVal s .C2H2 * 2 * gasMW .C := by positivity
    simp only [growFlux]
    linarith
  · exact ⟨0, le_rfl, fun A hA => by simp [growFlux]⟩
  · refine ⟨430 * cVal s .C2H2 ^ ((2 : ℝ) / 3) * exp (-12100 / s.T), by positivity, fun A hA => ⟨by simp only [growFlux]; positivity, ?_⟩⟩
    have : 0 ≤ 430 * cVal s .C2H2 ^ ((2 : ℝ) / 3) * exp (-12100 / s.T) := by positivity
    simp only [growFlux]
    linarith
  · refine ⟨5E2 * exp (-24E3 / (s.T * 1.987)) * cVal s .C2H2 * gasMW .C, by positivity, fun A hA => ⟨by simp only [growFlux]; positivity, ?_⟩⟩
    have : 0 ≤ 5E2 * exp (-24E3 / (s.T * 1.987)) * cVal s .C2H2 * gasMW .C := by positivity
    simp only [growFlux]
    linarith

/-- Area of unit number and mass. -/
noncomputable def a3 : ℝ := π * (6 / (π * rhoSoot)) ^ ((2 : ℝ) / 3)

theorem a3_pos : 0 < a3 := by have := rhoSoot_pos; unfold a3; positivity

theorem areaFn_le {n c : ℝ} (hn : 0 < n) (hc : 0 < c) : 0 < areaFn n c ∧ areaFn n c ≤ a3 * (n + c) := by
  have := a3_pos
  unfold areaFn
  rw [← a3]
  refine ⟨by positivity, mul_le_mul_of_nonneg_left ?_ a3_pos.le⟩
  have m0 : 0 < n + c := by linarith
  have h1 : c ^ ((2 : ℝ) / 3) ≤ (n + c) ^ ((2 : ℝ) / 3) := rpow_le_rpow hc.le (by linarith) (by norm_num)
  have h2 : n ^ ((1 : ℝ) / 3) ≤ (n + c) ^ ((1 : ℝ) / 3) := rpow_le_rpow hn.le (by linarith) (by norm_num)
  refine (mul_le_mul h1 h2 (by positivity) (by positivity)).trans_eq ?_
  rw [← rpow_add m0]; norm_num

theorem area4 {n c z : ℝ} (hn : 0 < n) (hc : 0 < c) (hz : 0 < z) : lognArea n c z (4 / 6) = areaFn n c * (n * z / c ^ 2) ^ (-1 / 9 : ℝ) := by
  unfold lognArea areaFn twothird
  rw [lognM_spread hn hc hz]
  have e1 : n * (c / n) ^ (4 / 6 : ℝ) = c ^ ((2 : ℝ) / 3) * n ^ ((1 : ℝ) / 3) := by
    obtain ⟨x, rfl⟩ : ∃ x, exp x = n := ⟨_, exp_log hn⟩
    obtain ⟨y, rfl⟩ : ∃ x, exp x = c := ⟨_, exp_log hc⟩
    rw [← exp_sub, ← exp_mul, ← exp_mul, ← exp_mul, ← exp_add, ← exp_add]
    congr 1; ring
  rw [e1, show (4 / 6 * (4 / 6 - 1) / 2 : ℝ) = -1 / 9 by norm_num]
  ring

theorem area10 {n c z : ℝ} (hn : 0 < n) (hc : 0 < c) (hz : 0 < z) :
    lognArea n c z (10 / 6) = areaFn n c * (c / n) * (n * z / c ^ 2) ^ (5 / 9 : ℝ) := by
  have q0 : 0 < n * z / c ^ 2 := by positivity
  have := LognRealis.shift hn hc hz (4 / 6)
  rw [show (4 / 6 + 1 : ℝ) = 10 / 6 by norm_num] at this
  have e : lognArea n c z (10 / 6) = lognArea n c z (4 / 6) * (c / n) * (n * z / c ^ 2) ^ (4 / 6 : ℝ) := by
    unfold lognArea
    have : lognM n c z (10 / 6) = lognM n c z (4 / 6) * (c / n) * (n * z / c ^ 2) ^ (4 / 6 : ℝ) := by
      field_simp at this ⊢
      linarith
    rw [this]; ring
  rw [e, area4 hn hc hz]
  have : (n * z / c ^ 2) ^ (5 / 9 : ℝ) = (n * z / c ^ 2) ^ (-1 / 9 : ℝ) * (n * z / c ^ 2) ^ (4 / 6 : ℝ) := by rw [← rpow_add q0]; norm_num
  rw [this]; ring

section
variable {m : Model}

/-- Rate at which coagulation can raise the second moment, relative to it. -/
noncomputable def cap2 (m : Model) (s : State) (n c : ℝ) : ℝ :=
  8 * (m.coag.kfmVal s * bCoag) * (n + c) + 2 * kcVal s * n * (2 + kcpVal s * ((1 + n / c) * 2))

theorem coag2_le {s : State} {n c z : ℝ} (hp : s.Phys) (fm : 0 < m.coag.fmMult) (hk : m.coag.mech = .FM ∨ m.coag.mech = .CONTINUUM ∨ m.coag.mech = .HM)
    (hn : 0 < n) (hc : 0 < c) (hz : 0 < z) (hq : 1 ≤ n * z / c ^ 2) : (lognCoagVal m.coag s (lognM n c z)).2 ≤ cap2 m s n c * z := by
  have K := mul_pos (m.coag.kfmVal_pos hp fm) bCoag_pos
  have kc := kcVal_pos hp; have kp := kcpVal_pos hp
  have μ0 : 0 < c / n := by positivity
  have q0 : 0 < n * z / c ^ 2 := by positivity
  have up : ∀ p : ℝ, p ≤ 1 → (n * z / c ^ 2) ^ p ≤ n * z / c ^ 2 := fun p h => by
    have := rpow_le_rpow_of_exponent_le hq h
    rwa [rpow_one] at this
  have pw : ∀ x p : ℝ, 0 < x → 0 ≤ p → p ≤ 1 → x ^ p ≤ 1 + x := fun x p x0 h0 h1 => by
    rcases le_total x 1 with hx | hx
    · have := rpow_le_one x0.le hx h0; linarith
    · have := rpow_le_rpow_of_exponent_le hx h1; rw [rpow_one] at this; linarith
  have F : lognCoa2Fm m.coag s (lognM n c z) ≤ 8 * (m.coag.kfmVal s * bCoag) * (n + c) * z := by
    rw [fm2_spread m.coag s hn hc hz]
    have P : (n * z / c ^ 2) ^ (1 / 6 : ℝ) * fmP (n * z / c ^ 2) ≤ 4 * (n * z / c ^ 2) := by
      have a1 := up (1 / 6 + -5 / 72) (by norm_num); have a2 := up (1 / 6 + -1 / 72) (by norm_num); have a3 := up (1 / 6 + 19 / 72) (by norm_num)
      rw [rpow_add q0] at a1 a2 a3
      unfold fmP; linarith
    have x : n * (c / n) ^ (1 / 6 : ℝ) ≤ n + c := by
      have := mul_le_mul_of_nonneg_left (pw (c / n) (1 / 6) μ0 (by norm_num) (by norm_num)) hn.le
      rwa [mul_add, mul_one, mul_div_cancel₀ _ hn.ne'] at this
    have e13 : (c / n) ^ (13 / 6 : ℝ) = (c / n) ^ 2 * (c / n) ^ (1 / 6 : ℝ) := by
      rw [← rpow_two, ← rpow_add μ0]; norm_num
    have y := mul_le_mul x P (mul_nonneg (rpow_pos_of_pos q0 _).le (fmP_pos q0).le) (by positivity)
    have := mul_le_mul_of_nonneg_left y (show 0 ≤ 2 * (m.coag.kfmVal s * bCoag) * (n * (c / n) ^ 2) by positivity)
    rw [e13]
    refine le_trans (le_of_eq (by ring)) (this.trans_eq ?_)
    field_simp
    ring
  have F0 : 0 ≤ lognCoa2Fm m.coag s (lognM n c z) := lognCoa2Fm_nonneg (lognM_nonneg hn.le hc.le hz.le) hp fm
  have C : lognCoa2C s (lognM n c z) ≤ 2 * kcVal s * n * (2 + kcpVal s * ((1 + n / c) * 2)) * z := by
    rw [c2_spread s hn hc hz]
    have x : (c / n) ^ (-1 / 3 : ℝ) ≤ 1 + n / c := by
      have := pw (n / c) (1 / 3) (by positivity) (by norm_num) (by norm_num)
      rwa [show (c / n) ^ (-1 / 3 : ℝ) = (n / c) ^ (1 / 3 : ℝ) by rw [neg_div, rpow_neg μ0.le, ← inv_rpow μ0.le, inv_div]]
    have y : (n * z / c ^ 2) ^ (-1 / 9 : ℝ) + (n * z / c ^ 2) ^ (1 / 9 : ℝ) ≤ 2 * (n * z / c ^ 2) := by
      have := up (-1 / 9) (by norm_num); have := up (1 / 9) (by norm_num); linarith
    have w := up (1 / 9) (by norm_num)
    have a1 := mul_le_mul_of_nonneg_left (mul_le_mul x y (by positivity) (by positivity)) kp.le
    have a2 : 1 + (n * z / c ^ 2) ^ (1 / 9 : ℝ) + kcpVal s * (c / n) ^ (-1 / 3 : ℝ) * ((n * z / c ^ 2) ^ (-1 / 9 : ℝ) + (n * z / c ^ 2) ^ (1 / 9 : ℝ)) ≤
        (2 + kcpVal s * ((1 + n / c) * 2)) * (n * z / c ^ 2) := by
      rw [mul_assoc]; linarith
    have a3 := mul_le_mul_of_nonneg_left a2 (show 0 ≤ 2 * kcVal s * c ^ 2 by positivity)
    refine a3.trans_eq ?_
    field_simp
  have C0 : 0 ≤ lognCoa2C s (lognM n c z) := by
    have := lognCoagVal_sign (c := { m.coag with mech := .CONTINUUM }) (s := s) hp fm (lognM_nonneg hn.le hc.le hz.le)
    exact this.2
  have F' : 0 ≤ 8 * (m.coag.kfmVal s * bCoag) * (n + c) * z := F0.trans F
  have C' : 0 ≤ 2 * kcVal s * n * (2 + kcpVal s * ((1 + n / c) * 2)) * z := C0.trans C
  unfold cap2
  rw [add_mul]
  rcases hk with e | e | e
  · simp only [lognCoagVal, e]; linarith
  · simp only [lognCoagVal, e]; linarith
  · simp only [lognCoagVal, e]
    have : lognCoa2Fm m.coag s (lognM n c z) * lognCoa2C s (lognM n c z) / (lognCoa2Fm m.coag s (lognM n c z) + lognCoa2C s (lognM n c z)) ≤
        lognCoa2Fm m.coag s (lognM n c z) := by
      rcases (add_nonneg F0 C0).eq_or_lt with h | h
      · rw [← h]; simpa using F0
      · rw [div_le_iff₀ h]; nlinarith
    linarith

/-- Bounds on all the sources of realisable moments, without oxidation. -/
theorem rate_le {s s1 : State} (hp : s.Phys) (fm : 0 < m.coag.fmMult) (hk : m.coag.mech = .FM ∨ m.coag.mech = .CONTINUUM ∨ m.coag.mech = .HM)
    {J mN k : ℝ} (J0 : 0 ≤ J) (hg : ∀ A, 0 ≤ A → 0 ≤ growFlux m.grow.mech s1 A ∧ growFlux m.grow.mech s1 A ≤ k * (1 + A)) (k0 : 0 ≤ k)
    {v : Fin 3 → ℝ} (hv : ∀ i, 0 < v i) (hq : v 1 ^ 2 ≤ v 0 * v 2) :
    lognG m s s1 J 0 mN v 0 ≤ J ∧ -(LognRealis.cap m s (v 0) (v 1) (v 2)) * v 0 ≤ lognG m s s1 J 0 mN v 0 ∧
      lognG m s s1 J 0 mN v 1 ≤ J * mN + k * (1 + a3 * (v 0 + v 1)) ∧
      lognG m s s1 J 0 mN v 2 ≤ J * mN ^ 2 + (2 * (k * (1 + a3 * (v 0 + v 1))) / v 1 + cap2 m s (v 0) (v 1)) * v 2 := by
  have n0 := hv 0; have c0 := hv 1; have z0 := hv 2
  have q0 : 0 < v 0 * v 2 / v 1 ^ 2 := by positivity
  have hq' : 1 ≤ v 0 * v 2 / v 1 ^ 2 := by rw [le_div_iff₀ (by positivity)]; linarith
  obtain ⟨A0, A1⟩ := areaFn_le n0 c0
  obtain ⟨g0, g1⟩ := hg _ A0.le
  have g2 : growFlux m.grow.mech s1 (areaFn (v 0) (v 1)) ≤ k * (1 + a3 * (v 0 + v 1)) := g1.trans (mul_le_mul_of_nonneg_left (by linarith) k0)
  have sg := lognCoagVal_sign (c := m.coag) hp fm (lognM_nonneg n0.le c0.le z0.le)
  have e0 : lognG m s s1 J 0 mN v 0 = (lognCoagVal m.coag s (lognM (v 0) (v 1) (v 2))).1 + J := rfl
  have e1 : lognG m s s1 J 0 mN v 1 = J * mN + growFlux m.grow.mech s1 (areaFn (v 0) (v 1)) * (v 0 * v 2 / v 1 ^ 2) ^ (-1 / 9 : ℝ) := by
    show 0 + (J * mN + (growFlux m.grow.mech s1 (areaFn (v 0) (v 1)) / areaFn (v 0) (v 1) - 0) * lognArea (v 0) (v 1) (v 2) (4 / 6)) = _
    rw [area4 n0 c0 z0, sub_zero]
    field_simp
    ring
  have e2 : lognG m s s1 J 0 mN v 2 = (lognCoagVal m.coag s (lognM (v 0) (v 1) (v 2))).2 + (J * mN ^ 2 +
      2 * growFlux m.grow.mech s1 (areaFn (v 0) (v 1)) * (v 1 / v 0 * (v 0 * v 2 / v 1 ^ 2) ^ (5 / 9 : ℝ))) := by
    show _ + (J * mN ^ 2 + 2 * (growFlux m.grow.mech s1 (areaFn (v 0) (v 1)) / areaFn (v 0) (v 1) - 0) * lognArea (v 0) (v 1) (v 2) (10 / 6)) = _
    rw [area10 n0 c0 z0, sub_zero]
    congr 2
    generalize areaFn (v 0) (v 1) = A at *
    field_simp
  refine ⟨by rw [e0]; linarith [sg.1], ?_, ?_, ?_⟩
  · rw [e0]
    have := (LognRealis.coag0_le (m := m) hp fm hk n0 c0 z0 hq').2
    linarith
  · rw [e1]
    have : (v 0 * v 2 / v 1 ^ 2) ^ (-1 / 9 : ℝ) ≤ 1 := rpow_le_one_of_one_le_of_nonpos hq' (by norm_num)
    have := mul_le_mul_of_nonneg_left this g0
    linarith
  · rw [e2]
    have c2 := coag2_le (m := m) hp fm hk n0 c0 z0 hq'
    have : (v 0 * v 2 / v 1 ^ 2) ^ (5 / 9 : ℝ) ≤ v 0 * v 2 / v 1 ^ 2 := by
      have := rpow_le_rpow_of_exponent_le hq' (show (5 / 9 : ℝ) ≤ 1 by norm_num)
      rwa [rpow_one] at this
    have w : v 1 / v 0 * (v 0 * v 2 / v 1 ^ 2) ^ (5 / 9 : ℝ) ≤ v 2 / v 1 := by
      refine (mul_le_mul_of_nonneg_left this (by positivity)).trans_eq ?_
      field_simp
    have := mul_le_mul g2 w (by positivity) (g0.trans g2)
    have e : 2 * (k * (1 + a3 * (v 0 + v 1))) / v 1 * v 2 = 2 * (k * (1 + a3 * (v 0 + v 1)) * (v 2 / v 1)) := by ring
    rw [add_mul, e]
    linarith

end

/-- Gronwall's inequality as needed here. -/
theorem gronwall {f f' : ℝ → ℝ} {τ a b : ℝ} (ha : 0 ≤ a) (hb : 0 ≤ b) (hc : ContinuousOn f (Set.Icc 0 τ)) (hd : ∀ t ∈ Set.Ico 0 τ, HasDerivWithinAt f (f' t) (Set.Ici t) t)
    (hin : ∀ t ∈ Set.Ico 0 τ, f' t ≤ a + b * f t) : ∀ t ∈ Set.Icc 0 τ, f t ≤ (f 0 + a * t) * exp (b * t) := by
  intro t ht
  have he : ∀ t, HasDerivAt (fun t => exp (-b * t)) (exp (-b * t) * (-b)) t := fun t => by
    simpa using ((hasDerivAt_id t).const_mul (-b)).exp
  have hl : ∀ t, HasDerivAt (fun t => a * t) a t := fun t => by simpa using (hasDerivAt_id t).const_mul a
  have := antitone_of_right (f := fun t => f t * exp (-b * t) - a * t) (τ := τ) ((hc.mul (by fun_prop)).sub (by fun_prop))
    (fun t ht => ((hd t ht).mul (he t).hasDerivWithinAt).sub (hl t).hasDerivWithinAt) (fun t ht => by
      have e0 := exp_pos (-b * t)
      have e1 : exp (-b * t) ≤ 1 := exp_le_one_iff.2 (by nlinarith [ht.1])
      have h1 := mul_le_mul_of_nonneg_right (hin t ht) e0.le
      have h2 := mul_le_mul_of_nonneg_left e1 ha
      show f' t * exp (-b * t) + f t * (exp (-b * t) * (-b)) - a ≤ 0
      linarith) ⟨le_rfl, ht.1.trans ht.2⟩ ht ht.1
  simp only [mul_zero, exp_zero, mul_one, sub_zero] at this
  have e : f t = f t * exp (-b * t) * exp (b * t) := by rw [mul_assoc, ← exp_add]; simp
  rw [e]
  exact mul_le_mul_of_nonneg_right (by linarith) (exp_pos _).le

theorem cap2_mono {s : State} {n c c1 N C : ℝ} (hp : s.Phys) (fm : 0 < m.coag.fmMult) (hn : 0 < n) (h1 : 0 < c1) (hc1 : c1 ≤ c) (hN : n ≤ N) (hC : c ≤ C) :
    cap2 m s n c ≤ 8 * (m.coag.kfmVal s * bCoag) * (N + C) + 2 * kcVal s * N * (2 + kcpVal s * ((1 + N / c1) * 2)) := by
  have K := mul_pos (m.coag.kfmVal_pos hp fm) bCoag_pos
  have kc := kcVal_pos hp; have kp := kcpVal_pos hp
  have : n / c ≤ N / c1 := div_le_div₀ (hn.le.trans hN) hN h1 hc1
  have : 0 ≤ n / c := (div_pos hn (h1.trans_le hc1)).le
  have : 0 ≤ 2 * kcVal s * N := by have := hn.le.trans hN; positivity
  rw [cap2]
  gcongr

theorem cap_mono {s : State} {n c z c1 N C Z : ℝ} (hp : s.Phys) (fm : 0 < m.coag.fmMult) (hn : 0 < n) (hz : 0 < z) (h1 : 0 < c1) (hc1 : c1 ≤ c) (hN : n ≤ N) (hC : c ≤ C)
    (hZ : z ≤ Z) : LognRealis.cap m s n c z ≤ m.coag.kfmVal s * bCoag * ((N + C) * (4 * (N * Z / c1 ^ 2))) + kcVal s * N * (1 + N * Z / c1 ^ 2 +
      kcpVal s * ((1 + N / c1) * (2 * (N * Z / c1 ^ 2)))) := by
  have K := mul_pos (m.coag.kfmVal_pos hp fm) bCoag_pos
  have kc := kcVal_pos hp; have kp := kcpVal_pos hp
  have N0 := hn.le.trans hN
  have c0 := h1.trans_le hc1
  have q : n / c ≤ N / c1 := div_le_div₀ N0 hN h1 hc1
  have q0 : 0 ≤ n / c := (div_pos hn (h1.trans_le hc1)).le
  have w : n * z / c ^ 2 ≤ N * Z / c1 ^ 2 := div_le_div₀ (mul_nonneg N0 (hz.le.trans hZ)) (mul_le_mul hN hZ hz.le N0) (by positivity) (by gcongr)
  have w0 : 0 ≤ n * z / c ^ 2 := by positivity
  rw [LognRealis.cap]
  generalize n * z / c ^ 2 = x at *
  generalize N * Z / c1 ^ 2 = y at *
  generalize n / c = x1 at *
  generalize N / c1 = y1 at *
  have : 0 ≤ N + C := by linarith
  have : 0 ≤ 1 + y1 := by linarith
  gcongr

/-- An evolution that cannot come near the faces of a box exists for as long as wanted. -/
theorem box_exists {ι : Type*} [Fintype ι] [Nonempty ι] {F : (ι → ℝ) → ι → ℝ} {l l' r r' v : ι → ℝ} {τ : ℝ} (hτ : 0 ≤ τ) (hl : ∀ k, l' k < l k) (hr : ∀ k, r k < r' k)
    (hv : ∀ k, l k ≤ v k ∧ v k ≤ r k) (sm : ∀ p, (∀ k, l' k ≤ p k) → ContDiffAt ℝ 1 F p)
    (ap : ∀ x ≤ τ, ∀ M : ℝ → ι → ℝ, ContinuousOn M (Set.Icc 0 x) → M 0 = v → (∀ t ∈ Set.Icc 0 x, ∀ k, l' k ≤ M t k) →
      (∀ t ∈ Set.Ico 0 x, HasDerivWithinAt M (F (M t)) (Set.Ici t) t) → ∀ t ∈ Set.Icc 0 x, ∀ k, l k ≤ M t k ∧ M t k ≤ r k) :
    ∃ M : ℝ → ι → ℝ, M 0 = v ∧ ContinuousOn M (Set.Icc 0 τ) ∧ (∀ t ∈ Set.Icc 0 τ, ∀ k, l' k ≤ M t k) ∧
      ∀ t ∈ Set.Ico 0 τ, HasDerivWithinAt M (F (M t)) (Set.Ici t) t := by
  set D : Set (ι → ℝ) := Set.Icc l' r' with hD
  have cD : IsCompact D := isCompact_Icc
  set cut : (ι → ℝ) → ι → ℝ := fun w k => max (l' k) (min (w k) (r' k)) with hcut
  have lr : ∀ k, l' k ≤ r' k := fun k => ((hl k).le.trans ((hv k).1.trans (hv k).2)).trans (hr k).le
  have cutD : ∀ w, cut w ∈ D := fun w => ⟨fun k => le_max_left _ _, fun k => max_le (lr k) (min_le_right _ _)⟩
  have cutE : ∀ w ∈ D, cut w = w := fun w hw => funext fun k => by
    simp only [hcut]
    rw [min_eq_left (hw.2 k), max_eq_right (hw.1 k)]
  have cutL : LipschitzWith 1 cut := by
    refine LipschitzWith.of_dist_le_mul fun v w => ?_
    rw [NNReal.coe_one, one_mul, dist_pi_le_iff dist_nonneg]
    intro k
    refine le_trans ?_ (dist_le_pi_dist v w k)
    have := ((LipschitzWith.id.min_const (r' k)).const_max (l' k)).dist_le_mul (v k) (w k)
    simpa [cut] using this
  have cF : ContinuousOn F D := fun p hp => (sm p hp.1).continuousAt.continuousWithinAt
  have loc : LocallyLipschitzOn D F := fun p hp => by
    obtain ⟨K, V, hV, hL⟩ := (sm p hp.1).exists_lipschitzOnWith
    exact ⟨K, V, mem_nhdsWithin_of_mem_nhds hV, hL⟩
  obtain ⟨K, hK⟩ := loc.exists_lipschitzOnWith_of_compact cD
  obtain ⟨L, hL⟩ := cD.exists_bound_of_continuousOn cF
  have FL : LipschitzWith K (fun v => F (cut v)) := by
    have := hK.comp (cutL.lipschitzOnWith (s := Set.univ)) (fun v _ => cutD v)
    rw [mul_one] at this
    exact lipschitzOnWith_univ.1 this
  have pl : IsPicardLindelof (fun _ v => F (cut v)) (tmin := 0) (tmax := τ) ⟨0, le_rfl, hτ⟩ v (Real.toNNReal L * Real.toNNReal τ) 0 (Real.toNNReal L) K := by
    refine ⟨fun _ _ => FL.lipschitzOnWith, fun _ _ => continuousOn_const, fun _ _ v _ => (hL _ (cutD v)).trans (Real.le_coe_toNNReal L), ?_⟩
    simp only [sub_zero, sub_self, max_eq_left hτ, NNReal.coe_mul, NNReal.coe_zero, Real.coe_toNNReal _ hτ, le_refl]
  obtain ⟨M, e0, hM⟩ := pl.exists_eq_forall_mem_Icc_hasDerivWithinAt₀
  have e0 : M 0 = v := e0
  have cM : ContinuousOn M (Set.Icc 0 τ) := fun t ht => (hM t ht).continuousWithinAt
  have dM : ∀ t ∈ Set.Ico 0 τ, HasDerivWithinAt M (F (cut (M t))) (Set.Ici t) t := fun t ht =>
    (hM t ⟨ht.1, ht.2.le⟩).mono_of_mem_nhdsWithin (Icc_mem_nhdsGE_of_mem ht)
  have ne : (Finset.univ : Finset ι).Nonempty := Finset.univ_nonempty
  set f : ℝ → ℝ := fun t => Finset.univ.inf' ne fun k => min (M t k - l' k) (r' k - M t k) with hf
  have fpos : ∀ t, 0 < f t ↔ ∀ k, l' k < M t k ∧ M t k < r' k := fun t => by
    simp [hf, Finset.lt_inf'_iff]
  have cf : ContinuousOn f (Set.Icc 0 τ) := ContinuousOn.finset_inf'_apply ne fun k _ =>
    continuous_min.comp_continuousOn (((continuousOn_pi.1 cM k).sub continuousOn_const).prodMk (continuousOn_const.sub (continuousOn_pi.1 cM k)))
  have all := LognRealis.pos_of_bootstrap cf ((fpos 0).2 fun k => by rw [e0]; exact ⟨(hl k).trans_le (hv k).1, (hv k).2.trans_lt (hr k)⟩) fun t ht hp => by
    refine ⟨Finset.univ.inf' ne fun k => min (l k - l' k) (r' k - r k), ?_, fun x hx => ?_⟩
    · simp only [Finset.lt_inf'_iff, Finset.mem_univ, true_implies, lt_min_iff, sub_pos]
      exact fun k => ⟨hl k, hr k⟩
    · have inn : ∀ u ∈ Set.Icc 0 x, ∀ k, l' k < M u k ∧ M u k < r' k := fun u hu => (fpos u).1 (hp u ⟨hu.1, hu.2.trans_lt hx.2⟩)
      have b := ap x (hx.2.le.trans ht.2) M (cM.mono (Set.Icc_subset_Icc_right (hx.2.le.trans ht.2))) e0 (fun u hu k => (inn u hu k).1.le) (fun u hu => by
        have i := inn u ⟨hu.1, hu.2.le⟩
        have := dM u ⟨hu.1, hu.2.trans (hx.2.trans_le ht.2)⟩
        rwa [cutE _ ⟨fun k => (i k).1.le, fun k => (i k).2.le⟩] at this) x ⟨hx.1, le_rfl⟩
      refine Finset.le_inf' _ _ fun k hk => (Finset.inf'_le _ hk).trans ?_
      exact min_le_min (by linarith [(b k).1]) (by linarith [(b k).2])
  have inn := fun t ht => (fpos t).1 (all t ht)
  refine ⟨M, e0, cM, fun t ht k => (inn t ht k).1.le, fun t ht => ?_⟩
  have i := inn t ⟨ht.1, ht.2.le⟩
  have := dM t ht
  rwa [cutE _ ⟨fun k => (i k).1.le, fun k => (i k).2.le⟩] at this

end LognGlobal

section
variable {m : Model} {o : State} {a : SetArgs}

/-- In a fixed gas the sources of positive moments are a fixed vector field. -/
theorem LognGas.field (h : LognGas m o a) (hn : m.nucl.mech ≠ .PAH) (hg : m.grow.mech ≠ .HACA) (ho : m.oxid.cls = .NONE) :
    ∃ (s0 s1 : State) (J mN : ℝ), s0.Phys ∧ GasOk s1 ∧ 0 < m.coag.fmMult ∧ (m.coag.mech = .FM ∨ m.coag.mech = .CONTINUUM ∨ m.coag.mech = .HM) ∧ 0 ≤ J ∧ 0 < mN ∧
      ∀ v : Fin 3 → ℝ, (∀ k, 0 < v k) → ∃ s m' s', setState o { a with sootVar := List.ofFn v } = (s, ok ()) ∧ lognSources m s = ok (m', s') ∧
        (fun k : Fin 3 => m'.sources.soot.getD k 0) = lognG m s0 s1 J 0 mN v := by
  obtain ⟨s0, hp, fm, -, hs0⟩ := h.gas
  obtain ⟨J, hJ⟩ := h.nucl hn
  obtain ⟨s1, g1, hG⟩ := h.grow hg
  obtain ⟨s2, e2, r2⟩ := h 0
  have eC : ∀ v s, setState o { a with sootVar := v } = (s, ok ()) → s.cMin = a.cMin := fun v s q1 => by
    have := (C02_setState_valid o { a with sootVar := v } (by rw [q1])).1.2.2.2.2
    rwa [q1] at this
  have J0 : 0 ≤ J := by
    obtain ⟨m', s', J', n', kG, kO, f1, f2, -, -, -, -, f7, -⟩ := logn_eval r2 (fun h => absurd h hn)
    rw [hJ _ _ e2] at f2
    simp only [ok.injEq, Prod.mk.injEq] at f2
    rw [f2.1]; exact f7
  have mN0 : 0 < a.cMin * gasMW .C / Na := by
    have := r2.gas.acc.phys.cMin
    rw [eC _ _ e2] at this
    have := gasMW_pos .C; have := Na_pos
    positivity
  refine ⟨s0, s1, J, a.cMin * gasMW .C / Na, hp, g1, fm, r2.kernel, J0, mN0, fun v p => ?_⟩
  obtain ⟨s, q1, rd⟩ := h v
  obtain ⟨m', s', J', n', kG, kO, f1, f2, -, -, f5, f6, -, -, -, -, -, -, f13⟩ := logn_eval rd (fun h => absurd h hn)
  rw [hJ _ _ q1] at f2
  simp only [ok.injEq, Prod.mk.injEq] at f2
  obtain ⟨rfl, rfl, rfl⟩ := f2
  have eG := hG _ _ _ (p 0) (p 1) q1 f5
  have o0 : kO = 0 := by simp only [Oxid.rate, ho, ok.injEq] at f6; exact f6.symm
  obtain ⟨k1, k2, k3⟩ := hs0 _ _ q1
  simp only [if_neg hn, add_zero, max_eq_left (p _).le] at f13
  rw [coagVal_congr k1 k2 k3, eG, o0, eC _ _ q1] at f13
  refine ⟨s, m', s, q1, f1, ?_⟩
  funext k
  rw [f13, lognG, lognF]
  fin_cases k
  · simp [add_comm]
  · simp
  · simp [add_comm]

/-- A run is a positive solution of the field of `LognGas.field`. -/
theorem LognRun.curve {s0 s1 : State} {J mN : ℝ} (hf : ∀ v : Fin 3 → ℝ, (∀ k, 0 < v k) → ∃ s m' s', setState o { a with sootVar := List.ofFn v } = (s, ok ()) ∧
      lognSources m s = ok (m', s') ∧ (fun k : Fin 3 => m'.sources.soot.getD k 0) = lognG m s0 s1 J 0 mN v)
    {τ : ℝ} {M : ℝ → Fin 3 → ℝ} (hM : LognRun m (fun _ => o) (fun _ => a) τ M) (pos : ∀ t ∈ Set.Icc 0 τ, ∀ k, 0 < M t k) :
    ∀ t ∈ Set.Ico 0 τ, HasDerivWithinAt M (lognG m s0 s1 J 0 mN (M t)) (Set.Ici t) t := fun t ht => by
  obtain ⟨s, m', s', r1, r2, r3⟩ := hM.rate t ht
  obtain ⟨s2, m2, s3, q1, q2, q3⟩ := hf (M t) (pos t ⟨ht.1, ht.2.le⟩)
  rw [r1] at q1
  simp only [Prod.mk.injEq, and_true] at q1
  subst q1
  rw [r2] at q2
  simp only [ok.injEq, Prod.mk.injEq] at q2
  rw [← q3, ← q2.1]
  exact r3

theorem LognRun.pos (h : LognGas m o a) (hn : m.nucl.mech ≠ .PAH) (hg : m.grow.mech ≠ .HACA) (ho : m.oxid.cls = .NONE) {τ : ℝ} {M : ℝ → Fin 3 → ℝ}
    (hM : LognRun m (fun _ => o) (fun _ => a) τ M) (a0 : 0 < M 0 0) (a1 : 0 < M 0 1) (a2 : M 0 1 ^ 2 ≤ M 0 0 * M 0 2) :
    ∀ t ∈ Set.Icc 0 τ, ∀ k, 0 < M t k := fun t ht k => by
  obtain ⟨b0, b1, b2, -⟩ := C111_without_oxidation h hn hg ho hM a0 a1 a2 t ht
  fin_cases k
  exacts [b0, a1.trans_le b1, b2]

/-- Two runs from the same realisable moments agree: **C112 (one evolution only)**. -/
theorem C112_unique (h : LognGas m o a) (hn : m.nucl.mech ≠ .PAH) (hg : m.grow.mech ≠ .HACA) (ho : m.oxid.cls = .NONE) {τ : ℝ} {M₁ M₂ : ℝ → Fin 3 → ℝ}
    (h1 : LognRun m (fun _ => o) (fun _ => a) τ M₁) (h2 : LognRun m (fun _ => o) (fun _ => a) τ M₂) (n0 : 0 < M₁ 0 0) (c0 : 0 < M₁ 0 1)
    (g0 : M₁ 0 1 ^ 2 ≤ M₁ 0 0 * M₁ 0 2) (e : M₁ 0 = M₂ 0) : Set.EqOn M₁ M₂ (Set.Icc 0 τ) := by
  obtain ⟨s0, s1, J, mN, hp, g1, fm, hk, J0, mN0, hf⟩ := h.field hn hg ho
  have p1 := h1.pos h hn hg ho n0 c0 g0
  have p2 := h2.pos h hn hg ho (e ▸ n0) (e ▸ c0) (e ▸ g0)
  have d1 := h1.curve hf p1
  have d2 := h2.curve hf p2
  have op : IsOpen {v : Fin 3 → ℝ | ∀ k, 0 < v k} := by
    simp only [Set.ofPred_forall]
    exact isOpen_iInter_of_finite fun k => isOpen_lt continuous_const (continuous_apply k)
  exact curve_unique (U := {v : Fin 3 → ℝ | ∀ k, 0 < v k}) op h1.cont h2.cont (fun t ht => p1 t ⟨ht.1, ht.2.le⟩) (fun p hp' => lognG_smooth hp fm J 0 mN hp')
    (fun t ht _ => d1 t ht) (fun t ht _ => d2 t ht) e

set_option maxHeartbeats 800000 in
/-- Bounds that hold for every run up to time `τ` from the same moments. -/
theorem LognGas.apriori (h : LognGas m o a) (hn : m.nucl.mech ≠ .PAH) (hg : m.grow.mech ≠ .HACA) (ho : m.oxid.cls = .NONE) {τ : ℝ} (hτ : 0 ≤ τ) {v : Fin 3 → ℝ}
    (n0 : 0 < v 0) (c0 : 0 < v 1) (g0 : v 1 ^ 2 ≤ v 0 * v 2) :
    ∃ l r : Fin 3 → ℝ, (∀ k, 0 < l k) ∧ ∀ x ≤ τ, ∀ M, LognRun m (fun _ => o) (fun _ => a) x M → M 0 = v → ∀ t ∈ Set.Icc 0 x, ∀ k, l k ≤ M t k ∧ M t k ≤ r k := by
  obtain ⟨s0, s1, J, mN, hp, g1, fm, hk, J0, mN0, hf⟩ := h.field hn hg ho
  obtain ⟨k, k0, hgr⟩ := LognGlobal.growFlux_le m.grow.mech g1
  have A := LognGlobal.a3_pos
  have Kf := mul_pos (m.coag.kfmVal_pos hp fm) bCoag_pos
  have kc := kcVal_pos hp; have kp := kcpVal_pos hp
  have z0 : 0 < v 2 := by
    by_contra hx
    have := mul_nonpos_of_nonneg_of_nonpos n0.le (not_lt.1 hx)
    have := pow_pos c0 2
    linarith
  -- upper bounds for number, mass and second moment
  set N := v 0 + J * τ with hN
  have N0 : 0 < N := by positivity
  set C := (v 1 + (J * mN + k * (1 + LognGlobal.a3 * N)) * τ) * exp (k * LognGlobal.a3 * τ) with hC
  have C0 : 0 < C := by positivity
  set B := 2 * (k * (1 + LognGlobal.a3 * (N + C))) / v 1 + (8 * (m.coag.kfmVal s0 * bCoag) * (N + C) +
    2 * kcVal s0 * N * (2 + kcpVal s0 * ((1 + N / v 1) * 2))) with hB
  have B0 : 0 ≤ B := by positivity
  set Z := (v 2 + J * mN ^ 2 * τ) * exp (B * τ) with hZ
  set K := m.coag.kfmVal s0 * bCoag * ((N + C) * (4 * (N * Z / v 1 ^ 2))) + kcVal s0 * N * (1 + N * Z / v 1 ^ 2 +
    kcpVal s0 * ((1 + N / v 1) * (2 * (N * Z / v 1 ^ 2)))) with hK
  have Z0 : 0 < Z := by positivity
  have K0 : 0 ≤ K := by positivity
  refine ⟨![v 0 * exp (-K * τ), v 1, v 1 ^ 2 / N], ![N, C, Z], fun k => ?_, fun x hx M hM e0 => ?_⟩
  · fin_cases k
    · show 0 < v 0 * exp (-K * τ); positivity
    · exact c0
    · show 0 < v 1 ^ 2 / N; positivity
  have a0 : 0 < M 0 0 := e0 ▸ n0
  have a1 : 0 < M 0 1 := e0 ▸ c0
  have a2 : M 0 1 ^ 2 ≤ M 0 0 * M 0 2 := e0 ▸ g0
  have all := C111_without_oxidation h hn hg ho hM a0 a1 a2
  have pos := hM.pos h hn hg ho a0 a1 a2
  have der := hM.curve hf pos
  have d := fun (k : Fin 3) t ht => hasDerivWithinAt_pi.1 (der t ht) k
  have rt := fun t (ht : t ∈ Set.Ico 0 x) => LognGlobal.rate_le (m := m) (s1 := s1) (mN := mN) hp fm hk J0 hgr k0 (pos t ⟨ht.1, ht.2.le⟩) (all t ⟨ht.1, ht.2.le⟩).2.2.2
  have c1 : ∀ t ∈ Set.Icc 0 x, v 1 ≤ M t 1 := fun t ht => by have := (all t ht).2.1; rwa [e0] at this
  have u0 : ∀ t ∈ Set.Icc 0 x, M t 0 ≤ N := fun t ht => by
    have := LognGlobal.gronwall (f := fun t => M t 0) (a := J) (b := 0) J0 le_rfl (hM.comp 0) (d 0) (fun t ht => by simpa using (rt t ht).1) t ht
    simp only [zero_mul, exp_zero, mul_one, e0] at this
    have := mul_le_mul_of_nonneg_left (ht.2.trans hx) J0
    linarith
  have u1 : ∀ t ∈ Set.Icc 0 x, M t 1 ≤ C := fun t ht => by
    have := LognGlobal.gronwall (f := fun t => M t 1) (a := J * mN + k * (1 + LognGlobal.a3 * N)) (b := k * LognGlobal.a3) (by positivity) (by positivity) (hM.comp 1) (d 1)
      (fun t ht => by
        refine (rt t ht).2.2.1.trans ?_
        have := mul_le_mul_of_nonneg_left (u0 t ⟨ht.1, ht.2.le⟩) (mul_nonneg k0 A.le)
        linarith) t ht
    rw [e0] at this
    refine this.trans ?_
    have h2 := ht.2.trans hx
    have h1 := ht.1
    rw [hC]
    gcongr
  have u2 : ∀ t ∈ Set.Icc 0 x, M t 2 ≤ Z := fun t ht => by
    have := LognGlobal.gronwall (f := fun t => M t 2) (a := J * mN ^ 2) (b := B) (by positivity) B0 (hM.comp 2) (d 2)
      (fun t ht => by
        have ht' : t ∈ Set.Icc 0 x := ⟨ht.1, ht.2.le⟩
        refine (rt t ht).2.2.2.trans ?_
        have p0 := pos t ht' 0; have p1 := pos t ht' 1; have p2 := pos t ht' 2
        have b0 := u0 t ht'; have b1 := u1 t ht'; have b2 := c1 t ht'
        have : 2 * (k * (1 + LognGlobal.a3 * (M t 0 + M t 1))) / M t 1 + LognGlobal.cap2 m s0 (M t 0) (M t 1) ≤ B := by
          have := LognGlobal.cap2_mono (m := m) hp fm p0 c0 b2 b0 b1
          have w : 2 * (k * (1 + LognGlobal.a3 * (M t 0 + M t 1))) / M t 1 ≤ 2 * (k * (1 + LognGlobal.a3 * (N + C))) / v 1 :=
            div_le_div₀ (by positivity) (by gcongr) c0 b2
          exact add_le_add w this
        have := mul_le_mul_of_nonneg_right this p2.le
        linarith) t ht
    rw [e0] at this
    refine this.trans ?_
    have h2 := ht.2.trans hx
    have h1 := ht.1
    rw [hZ]
    gcongr
  have l0 : ∀ t ∈ Set.Icc 0 x, v 0 * exp (-K * τ) ≤ M t 0 := fun t ht => by
    have he : ∀ t, HasDerivAt (fun t => exp (K * t)) (exp (K * t) * K) t := fun t => by
      simpa using ((hasDerivAt_id t).const_mul K).exp
    have mono := mono_of_right (f := fun t => M t 0 * exp (K * t)) (τ := x) ((hM.comp 0).mul (by fun_prop))
      (fun u hu => (d 0 u hu).mul (he u).hasDerivWithinAt) (fun u hu => by
        have hu' : u ∈ Set.Icc 0 x := ⟨hu.1, hu.2.le⟩
        have p0 := pos u hu' 0; have p1 := pos u hu' 1; have p2 := pos u hu' 2
        have b0 := u0 u hu'; have b1 := u1 u hu'; have b2 := c1 u hu'; have b3 := u2 u hu'
        have : LognRealis.cap m s0 (M u 0) (M u 1) (M u 2) ≤ K := LognGlobal.cap_mono hp fm p0 p2 c0 b2 b0 b1 b3
        have := mul_le_mul_of_nonneg_right this p0.le
        have := (rt u hu).2.1
        have : 0 ≤ lognG m s0 s1 J 0 mN (M u) 0 + K * M u 0 := by linarith
        have := mul_nonneg this (exp_pos (K * u)).le
        show 0 ≤ lognG m s0 s1 J 0 mN (M u) 0 * exp (K * u) + M u 0 * (exp (K * u) * K)
        linarith)
    have := mono ⟨le_rfl, ht.1.trans ht.2⟩ ht ht.1
    simp only [mul_zero, exp_zero, mul_one, e0] at this
    have e1 : M t 0 = M t 0 * exp (K * t) * exp (-K * t) := by rw [mul_assoc, ← exp_add]; simp
    rw [e1]
    exact mul_le_mul this (exp_le_exp.2 (by nlinarith [ht.2.trans hx])) (exp_pos _).le (n0.le.trans this)
  intro t ht k
  fin_cases k
  · exact ⟨l0 t ht, u0 t ht⟩
  · exact ⟨c1 t ht, u1 t ht⟩
  · refine ⟨?_, u2 t ht⟩
    show v 1 ^ 2 / N ≤ M t 2
    rw [div_le_iff₀ N0]
    have := pow_le_pow_left₀ c0.le (c1 t ht) 2
    have := mul_le_mul_of_nonneg_right (u0 t ht) (pos t ht 2).le
    have := (all t ht).2.2.2
    linarith

/-- A positive solution of the field of `LognGas.field` is a run. -/
theorem LognRun.of_curve {s0 s1 : State} {J mN : ℝ} (hf : ∀ v : Fin 3 → ℝ, (∀ k, 0 < v k) → ∃ s m' s', setState o { a with sootVar := List.ofFn v } = (s, ok ()) ∧
      lognSources m s = ok (m', s') ∧ (fun k : Fin 3 => m'.sources.soot.getD k 0) = lognG m s0 s1 J 0 mN v)
    {τ : ℝ} {M : ℝ → Fin 3 → ℝ} (hc : ContinuousOn M (Set.Icc 0 τ)) (pos : ∀ t ∈ Set.Icc 0 τ, ∀ k, 0 < M t k)
    (hd : ∀ t ∈ Set.Ico 0 τ, HasDerivWithinAt M (lognG m s0 s1 J 0 mN (M t)) (Set.Ici t) t) : LognRun m (fun _ => o) (fun _ => a) τ M :=
  ⟨hc, fun t ht => by
    obtain ⟨s, m', s', q1, q2, q3⟩ := hf (M t) (pos t ⟨ht.1, ht.2.le⟩)
    exact ⟨s, m', s', q1, q2, q3 ▸ hd t ht⟩⟩

/-- **C112 (as long as wanted).** From realisable moments there is a run of any length. -/
theorem C112_exists (h : LognGas m o a) (hn : m.nucl.mech ≠ .PAH) (hg : m.grow.mech ≠ .HACA) (ho : m.oxid.cls = .NONE) {τ : ℝ} (hτ : 0 ≤ τ) {v : Fin 3 → ℝ}
    (n0 : 0 < v 0) (c0 : 0 < v 1) (g0 : v 1 ^ 2 ≤ v 0 * v 2) : ∃ M, LognRun m (fun _ => o) (fun _ => a) τ M ∧ M 0 = v := by
  obtain ⟨s0, s1, J, mN, hp, g1, fm, hk, J0, mN0, hf⟩ := h.field hn hg ho
  obtain ⟨l, r, l0, hb⟩ := h.apriori hn hg ho hτ n0 c0 g0
  have half : ∀ k, 0 < l k / 2 := fun k => half_pos (l0 k)
  have start : ∀ k, l k ≤ v k ∧ v k ≤ r k := hb 0 hτ (fun _ => v) ⟨continuousOn_const, fun t ht => absurd ht.2 (not_lt.2 ht.1)⟩ rfl 0 ⟨le_rfl, le_rfl⟩
  obtain ⟨M, e0, cM, pM, dM⟩ := LognGlobal.box_exists (F := lognG m s0 s1 J 0 mN) (l := l) (l' := fun k => l k / 2) (r := r) (r' := fun k => r k + 1) (v := v) hτ
    (fun k => half_lt_self (l0 k)) (fun k => lt_add_one _) start (fun p hp' => lognG_smooth hp fm J 0 mN fun k => (half k).trans_le (hp' k))
    (fun x hx M cM e0 pM dM => hb x hx M (.of_curve hf cM (fun t ht k => (half k).trans_le (pM t ht k)) dM) e0)
  exact ⟨M, .of_curve hf cM (fun t ht k => (half k).trans_le (pM t ht k)) dM, e0⟩

theorem LognRun.restrict {o : ℝ → State} {a : ℝ → SetArgs} {τ x : ℝ} {M : ℝ → Fin 3 → ℝ} (hM : LognRun m o a τ M) (hx : x ≤ τ) : LognRun m o a x M :=
  ⟨hM.cont.mono (Set.Icc_subset_Icc_right hx), fun t ht => hM.rate t ⟨ht.1, ht.2.trans_le hx⟩⟩

theorem LognRun.congr {o : ℝ → State} {a : ℝ → SetArgs} {τ : ℝ} {M M' : ℝ → Fin 3 → ℝ} (hM : LognRun m o a τ M) (e : Set.EqOn M' M (Set.Icc 0 τ)) : LognRun m o a τ M' :=
  ⟨hM.cont.congr e, fun t ht => by
    have et := e ⟨ht.1, ht.2.le⟩
    obtain ⟨s, m', s', q1, q2, q3⟩ := hM.rate t ht
    refine ⟨s, m', s', et ▸ q1, q2, ?_⟩
    refine (q3.congr_of_eventuallyEq ?_ et)
    filter_upwards [Icc_mem_nhdsGE_of_mem ht] with u hu using e hu⟩

/-- **C112 (for ever, and only one way).** In a gas that stays as it is, without oxidation and with rates that do not read the soot through an iteration, LOGN moments
of a population have exactly one evolution, it never ends, and they remain moments of a population. -/
theorem C112_global (h : LognGas m o a) (hn : m.nucl.mech ≠ .PAH) (hg : m.grow.mech ≠ .HACA) (ho : m.oxid.cls = .NONE) {v : Fin 3 → ℝ}
    (n0 : 0 < v 0) (c0 : 0 < v 1) (g0 : v 1 ^ 2 ≤ v 0 * v 2) :
    ∃ M, M 0 = v ∧ (∀ τ, LognRun m (fun _ => o) (fun _ => a) τ M) ∧
      (∀ t, 0 ≤ t → (∀ k, 0 < M t k) ∧ M t 1 ^ 2 ≤ M t 0 * M t 2) ∧
      ∀ τ M', LognRun m (fun _ => o) (fun _ => a) τ M' → M' 0 = v → Set.EqOn M' M (Set.Icc 0 τ) := by
  have ex : ∀ n : ℕ, ∃ M, LognRun m (fun _ => o) (fun _ => a) n M ∧ M 0 = v := fun n => C112_exists h hn hg ho n.cast_nonneg n0 c0 g0
  choose R hR R0 using ex
  have uniq : ∀ τ M₁ M₂, LognRun m (fun _ => o) (fun _ => a) τ M₁ → LognRun m (fun _ => o) (fun _ => a) τ M₂ → M₁ 0 = v → M₂ 0 = v → Set.EqOn M₁ M₂ (Set.Icc 0 τ) :=
    fun τ M₁ M₂ h1 h2 e1 e2 => C112_unique h hn hg ho h1 h2 (e1 ▸ n0) (e1 ▸ c0) (e1 ▸ g0) (e1.trans e2.symm)
  set M : ℝ → Fin 3 → ℝ := fun t => R ⌈t⌉₊ t with hM
  have eM : ∀ n : ℕ, Set.EqOn M (R n) (Set.Icc 0 n) := fun n t ht => by
    have hc : ⌈t⌉₊ ≤ n := Nat.ceil_le.2 ht.2
    exact uniq ⌈t⌉₊ _ _ (hR _) ((hR n).restrict (by exact_mod_cast hc)) (R0 _) (R0 n) ⟨ht.1, Nat.le_ceil t⟩
  have run : ∀ τ, LognRun m (fun _ => o) (fun _ => a) τ M := fun τ => ((hR ⌈τ⌉₊).congr (eM _)).restrict (Nat.le_ceil τ)
  have M0 : M 0 = v := by simp only [hM]; exact R0 _
  refine ⟨M, M0, run, fun t ht => ?_, fun τ M' h' e' => uniq τ _ _ h' (run τ) e' M0⟩
  have tm : t ∈ Set.Icc 0 t := ⟨ht, le_rfl⟩
  have b := C111_without_oxidation h hn hg ho (run t) (M0 ▸ n0) (M0 ▸ c0) (M0 ▸ g0) t tm
  exact ⟨(run t).pos h hn hg ho (M0 ▸ n0) (M0 ▸ c0) (M0 ▸ g0) t tm, b.2.2.2⟩

/-- **C112 (where coagulation alone ends).** From any population the only evolution of the moments loses all particles in the free-molecular and the continuum regime and
the spread tends to `2 ^ (6/5)` and to 2; with the harmonic mean it loses no particle and the spread grows without bound. -/
theorem C112_coagulation (h : LognGas m o a) (hn : m.nucl.mech = .NONE) (hg : m.grow.mech = .NONE) (ho : m.oxid.cls = .NONE) {v : Fin 3 → ℝ}
    (n0 : 0 < v 0) (c0 : 0 < v 1) (g0 : v 1 ^ 2 ≤ v 0 * v 2) {M : ℝ → Fin 3 → ℝ} (e : M 0 = v) (hM : ∀ τ, LognRun m (fun _ => o) (fun _ => a) τ M) :
    (m.coag.mech = .FM → Tendsto (fun t => M t 0) atTop (𝓝 0) ∧ Tendsto (fun t => spread (M t)) atTop (𝓝 (2 ^ (6 / 5 : ℝ)))) ∧
    (m.coag.mech = .CONTINUUM → Tendsto (fun t => M t 0) atTop (𝓝 0) ∧ Tendsto (fun t => spread (M t)) atTop (𝓝 2)) ∧
    (m.coag.mech = .HM → (∀ t, 0 ≤ t → M t 0 = v 0) ∧ Tendsto (fun t => spread (M t)) atTop atTop) := by
  have pos : ∀ t, 0 ≤ t → ∀ k, 0 < M t k := fun t ht =>
    (hM t).pos h (by rw [hn]; decide) (by rw [hg]; decide) ho (e ▸ n0) (e ▸ c0) (e ▸ g0) t ⟨ht, le_rfl⟩
  have T0 : 0 < a.T := by
    obtain ⟨s, q, r⟩ := h 0
    have := (C02_setState_valid o { a with sootVar := List.ofFn (0 : Fin 3 → ℝ) } (by rw [q])).1.1
    rw [q] at this
    have w := r.gas.acc.phys.T
    rwa [this] at w
  refine ⟨fun hk => ?_, fun hk => ?_, fun hk => ?_⟩
  · exact (C110_fm_limit (fun τ => h.calls τ) hn hg ho hk hM (fun t ht => pos t ht 0) (pos 0 le_rfl 1) (pos 0 le_rfl 2) T0 (fun _ _ => le_rfl)).2
  · obtain ⟨k, k0, B, B0, hd⟩ := C110_continuum_decay h hn hg ho hk
    have h1 : 1 ≤ spread (M 0) := by rw [e, spread, le_div_iff₀ (by positivity)]; linarith
    have hd' := fun t (ht : 0 ≤ t) => hd t M (hM t) (fun u hu => pos u hu.1 0) (pos 0 le_rfl 1) h1 t ⟨ht, le_rfl⟩
    have lin : Tendsto (fun t : ℝ => 1 / M 0 0 + k * t) atTop atTop := tendsto_atTop_add_const_left _ _ (tendsto_id.const_mul_atTop k0)
    have z : Tendsto (fun t => M t 0) atTop (𝓝 0) := by
      refine squeeze_zero' (eventually_atTop.2 ⟨0, fun t ht => (pos t ht 0).le⟩) (eventually_atTop.2 ⟨0, fun t ht => (hd' t ht).1⟩) ?_
      exact lin.const_div_atTop 1
    refine ⟨z, ?_⟩
    rw [tendsto_iff_norm_sub_tendsto_zero]
    refine squeeze_zero' (.of_forall fun _ => norm_nonneg _) (eventually_atTop.2 ⟨0, fun t ht => (hd' t ht).2⟩) ?_
    have z1 : Tendsto (fun t => M t 0 / M 0 0) atTop (𝓝 0) := by simpa using z.div_const (M 0 0)
    have z2 : Tendsto (fun t => (M t 0 / M 0 1) ^ (1 / 3 : ℝ)) atTop (𝓝 0) := by
      have w : Tendsto (fun t => M t 0 / M 0 1) atTop (𝓝 0) := by simpa using z.div_const (M 0 1)
      have := w.rpow_const (p := (1 / 3 : ℝ)) (.inr (by norm_num))
      rwa [zero_rpow (by norm_num)] at this
    simpa using (z1.const_mul |spread (M 0) - 2|).add (z2.const_mul (max (spread (M 0)) 2 * B))
  · have vp : ∀ k, 0 < v k := e ▸ pos 0 le_rfl
    obtain ⟨k, k0, hd⟩ := C110_hm_spreads_without_bound h hn hg ho hk v vp
    have hd' := fun t (ht : 0 ≤ t) => hd t M (hM t) e t ⟨ht, le_rfl⟩
    refine ⟨fun t ht => (hd' t ht).1, tendsto_atTop_mono' _ (eventually_atTop.2 ⟨0, fun t ht => (hd' t ht).2.2.2⟩) ?_⟩
    exact tendsto_atTop_add_const_left _ _ (tendsto_id.const_mul_atTop (by have := vp 0; have := vp 1; positivity))

/-- 1E15 equal particles of 1E-23 kg with nucleation, growth and coagulation have exactly one evolution, for ever. -/
example : ∃ M, M 0 = ![1E15, 1E-8, 1E-31] ∧
    ∀ τ, LognRun (exModel .LOGN 3 .LL .LL .NONE .HM) (fun _ => State.mk' 3 0) (fun _ => exArgs [0, 0, 0] false) τ M := by
  have h := exLognGas .LL (by decide) (by decide) .LL .NONE .HM (.inr (.inr rfl)) false
  obtain ⟨M, h1, h2, -⟩ := C112_global h (by decide) (by decide) rfl (v := ![1E15, 1E-8, 1E-31]) (by norm_num) (by norm_num)
    (by show (1E-8 : ℝ) ^ 2 ≤ 1E15 * 1E-31; norm_num)
  exact ⟨M, h1, h2⟩

/-- Continuum coagulation of the same particles: the spread goes from 1 to 2. -/
example : ∃ M, spread (M 0) = 1 ∧ (∀ τ, LognRun (exModel .LOGN 3 .NONE .NONE .NONE .CONTINUUM) (fun _ => State.mk' 3 0) (fun _ => exArgs [0, 0, 0] false) τ M) ∧
    Tendsto (fun t => M t 0) atTop (𝓝 0) ∧ Tendsto (fun t => spread (M t)) atTop (𝓝 2) := by
  have h := exLognGas .NONE (by decide) (by decide) .NONE .NONE .CONTINUUM (.inr (.inl rfl)) false
  have g : (![1E15, 1E-8, 1E-31] : Fin 3 → ℝ) 1 ^ 2 ≤ (![1E15, 1E-8, 1E-31] : Fin 3 → ℝ) 0 * (![1E15, 1E-8, 1E-31] : Fin 3 → ℝ) 2 := by
    show (1E-8 : ℝ) ^ 2 ≤ 1E15 * 1E-31; norm_num
  obtain ⟨M, h1, h2, -⟩ := C112_global h (by decide) (by decide) rfl (v := ![1E15, 1E-8, 1E-31]) (by norm_num) (by norm_num) g
  refine ⟨M, ?_, h2, (C112_coagulation h rfl rfl rfl (by norm_num) (by norm_num) g h1 h2).2.1 rfl⟩
  rw [h1]; show (1E15 : ℝ) * 1E-31 / 1E-8 ^ 2 = 1; norm_num

end

end Soot
