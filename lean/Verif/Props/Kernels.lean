import Verif.Props.Coag

/-!
# C64: kernels against the textbook expressions

The specification below is written with particle diameters and the mean free path as independent variables and does not use any definition
of `Coag.lean`.
-/

namespace Soot

open Res Real
open scoped Classical

/-! ## Specification -/

/-- Mass of a sphere of soot of diameter `d`. -/
def IsSphere (m d : ℝ) : Prop := 0 < d ∧ m = rhoSoot * (π / 6 * d ^ 3)

/-- Kinetic-theory mean free path of a gas. -/
noncomputable def meanFreePath (s : State) : ℝ := s.muGas / s.rhoGas * sqrt (π * s.MWGas / (2 * (Na * kb) * s.T))

/-- Free-molecular collision rate of two spheres with enhancement factor `e`. -/
noncomputable def specFM (e T m1 m2 d1 d2 : ℝ) : ℝ := e * sqrt (π * kb * T / 2 * (1 / m1 + 1 / m2)) * (d1 + d2) ^ 2

/-- Cunningham slip correction. -/
noncomputable def specSlip (l d : ℝ) : ℝ := 1 + 2 * l / d * (1.257 + 0.4 * exp (-(0.55 * d / l)))

/-- Stokes-Einstein diffusivity with slip correction `C`. -/
noncomputable def specD (T mu C d : ℝ) : ℝ := C * kb * T / (3 * π * mu * d)

/-- Smoluchowski collision rate. -/
noncomputable def specCont (D1 D2 d1 d2 : ℝ) : ℝ := 2 * π * (D1 + D2) * (d1 + d2)

/-- Mean thermal speed. -/
noncomputable def specSpeed (T m : ℝ) : ℝ := sqrt (8 * kb * T / (π * m))

/-- Fuchs limiting-sphere distance of a particle with diameter `d` and stopping length `l` (Fuchs 1964, with √2). -/
noncomputable def specG (d l : ℝ) : ℝ := sqrt 2 * (((d + l) ^ 3 - sqrt ((d ^ 2 + l ^ 2) ^ 3)) / (3 * d * l) - d)

/-- Fuchs interpolation. -/
noncomputable def specFuchs (kc kf d1 d2 g1 g2 : ℝ) : ℝ :=
  kc / ((d1 + d2) / (d1 + d2 + 2 * sqrt (g1 ^ 2 + g2 ^ 2)) + kc / kf)

/-! ## Bridging -/

theorem diam_of_sphere {m d : ℝ} (h : IsSphere m d) : diam m = d := by
  obtain ⟨hd, rfl⟩ := h
  have hr := rhoSoot_pos
  have : 6 * (rhoSoot * (π / 6 * d ^ 3)) / (π * rhoSoot) = d ^ 3 := by field_simp
  rw [diam, this, onethird, ← rpow_natCast, ← rpow_mul hd.le]
  norm_num

theorem meanFreePath_eq (s : State) : s.mfpVal = meanFreePath s := rfl

theorem fmVal_spec {c : Coag} {s : State} {m1 m2 d1 d2 : ℝ} (p1 : 0 < m1) (p2 : 0 < m2)
    (h1 : IsSphere m1 d1) (h2 : IsSphere m2 d2) : fmVal c s m1 m2 = specFM (2.2 * c.fmMult) s.T m1 m2 d1 d2 := by
  rw [← hmFmVal_eq c s p1 p2, hmFmVal, specFM, diam_of_sphere h1, diam_of_sphere h2, epsC]
  have : π * kb * s.T * 0.5 / (m1 * m2 / (m1 + m2)) = π * kb * s.T / 2 * (1 / m1 + 1 / m2) := by
    have : m1 + m2 ≠ 0 := by positivity
    field_simp; ring
  rw [this]; ring

theorem cunningham_spec {l d : ℝ} (hl : 0 < l) (hd : 0 < d) : cunningham (2 * l / d) = specSlip l d := by
  rw [cunningham, if_neg (by positivity), specSlip]
  have : -1.1 / (2 * l / d) = -(0.55 * d / l) := by field_simp; norm_num
  rw [this]

theorem hmContVal_spec {s : State} (h : s.Phys) {m1 m2 d1 d2 : ℝ} (h1 : IsSphere m1 d1) (h2 : IsSphere m2 d2) :
    hmContVal s m1 m2 = specCont (specD s.T s.muGas (specSlip (meanFreePath s) d1) d1)
      (specD s.T s.muGas (specSlip (meanFreePath s) d2) d2) d1 d2 := by
  have hl := h.mfpVal_pos
  have := h.mu; have e1 := h1.1; have e2 := h2.1
  rw [hmContVal, diam_of_sphere h1, diam_of_sphere h2, cunningham_spec hl h1.1, cunningham_spec hl h2.1, ← meanFreePath_eq]
  unfold specCont specD twothird
  field_simp

theorem contVal_spec {s : State} (h : s.Phys) {m1 m2 d1 d2 : ℝ} (h1 : IsSphere m1 d1) (h2 : IsSphere m2 d2) :
    contVal s m1 m2 = specCont (specD s.T s.muGas (1 + 3.314 * meanFreePath s / d1) d1)
      (specD s.T s.muGas (1 + 3.314 * meanFreePath s / d2) d2) d1 d2 := by
  have hl := h.mfpVal_pos
  have := h.mu; have e1 := h1.1; have e2 := h2.1
  rw [contVal, diam_of_sphere h1, diam_of_sphere h2, ← meanFreePath_eq]
  unfold specCont specD kcVal
  field_simp
  ring

theorem pow15 {x : ℝ} (h : 0 ≤ x) : x ^ (1.5 : ℝ) = sqrt (x ^ 3) := by
  rw [sqrt_eq_rpow, ← rpow_natCast, ← rpow_mul h]; norm_num

theorem fuchsG_spec {s : State} (h : s.Phys) {m d : ℝ} (hm : 0 < m) (h1 : IsSphere m d) :
    fuchsG s m = specG d (8 * specD s.T s.muGas (specSlip (meanFreePath s) d) d / (π * specSpeed s.T m)) := by
  have hl := h.mfpVal_pos
  have hmu := h.mu; have e1 := h1.1
  have hL := fuchsL_pos h hm
  have hD : fuchsD s m = specD s.T s.muGas (specSlip (meanFreePath s) d) d := by
    rw [fuchsD, diam_of_sphere h1, cunningham_spec hl h1.1, ← meanFreePath_eq, specD]; field_simp
  have hLs : fuchsL s m = 8 * specD s.T s.muGas (specSlip (meanFreePath s) d) d / (π * specSpeed s.T m) := by
    rw [fuchsL, hD]; rfl
  rw [← hLs, fuchsG, diam_of_sphere h1, specG, pow15 (by positivity), root2, ← sq, ← sq]
  field_simp

/-- **C64, formulas.** On every accepted state and for particles above the cutoff, each mechanism computes the textbook collision rate of two
spheres: free-molecular, Smoluchowski with (approximate or full) slip correction, their harmonic mean, and the Fuchs interpolation. -/
theorem C64_kernel_formulas (s : State) (hs : Accepted s) (c : ℝ) (hc : 0 < c) {m1 m2 d1 d2 : ℝ} (h1 : mmin < m1) (h2 : mmin < m2)
    (s1 : IsSphere m1 d1) (s2 : IsSphere m2 d2) :
    let l := meanFreePath s
    let kf := specFM (2.2 * c) s.T m1 m2 d1 d2
    let D := fun d => specD s.T s.muGas (specSlip l d) d
    let kc := specCont (D d1) (D d2) d1 d2
    let g := fun m d => specG d (8 * D d / (π * specSpeed s.T m))
    (⟨.FM, c⟩ : Coag).rate s m1 m2 = ok kf ∧
    (⟨.CONTINUUM, c⟩ : Coag).rate s m1 m2 =
      ok (specCont (specD s.T s.muGas (1 + 3.314 * l / d1) d1) (specD s.T s.muGas (1 + 3.314 * l / d2) d2) d1 d2) ∧
    (⟨.HM, c⟩ : Coag).rate s m1 m2 = ok (kf * kc / (kf + kc)) ∧
    (⟨.FUCHS, c⟩ : Coag).rate s m1 m2 = ok (specFuchs kc kf d1 d2 (g m1 d1) (g m2 d2)) := by
  intro l kf D kc g
  have h := hs.phys
  have p1 := mmin_pos.trans h1
  have p2 := mmin_pos.trans h2
  have hm : ¬ (m1 ≤ mmin ∨ m2 ≤ mmin) := by push Not; exact ⟨h1, h2⟩
  have hl := h.mfpVal_pos
  have hD : ∀ {m d}, IsSphere m d → fuchsD s m = D d := by
    intro m d h1
    have hmu := h.mu; have e1 := h1.1
    rw [fuchsD, diam_of_sphere h1, cunningham_spec hl h1.1]
    show _ = specD _ _ _ _
    rw [specD]; show _ = specSlip s.mfpVal d * _ * _ / _; field_simp
  refine ⟨?_, ?_, ?_, ?_⟩
  · rw [Coag.rate_ok h hc, Coag.val, if_neg hm]
    exact congrArg ok (fmVal_spec (c := ⟨.FM, c⟩) p1 p2 s1 s2)
  · rw [Coag.rate_ok h hc, Coag.val, if_neg hm]
    exact congrArg ok (contVal_spec h s1 s2)
  · rw [Coag.rate_ok h hc, Coag.val, if_neg hm]
    simp only
    rw [fmVal_spec p1 p2 s1 s2, hmContVal_spec h s1 s2]
  · rw [Coag.rate_ok h hc, Coag.val, if_neg hm]
    simp only
    have d1p := s1.1; have d2p := s2.1
    have D1 : 0 < D d1 := by rw [← hD s1]; exact fuchsD_pos h p1
    have D2 : 0 < D d2 := by rw [← hD s2]; exact fuchsD_pos h p2
    have hT := h.T; have hk := kb_pos
    have hq : specSpeed s.T m1 * specSpeed s.T m1 + specSpeed s.T m2 * specSpeed s.T m2 = 8 * kb * s.T / π * (1 / m1 + 1 / m2) := by
      unfold specSpeed; rw [mul_self_sqrt (by positivity), mul_self_sqrt (by positivity)]; field_simp
    have hkf : kc / kf = 8 / (epsC * c) * (D d1 + D d2) /
        (sqrt (specSpeed s.T m1 * specSpeed s.T m1 + specSpeed s.T m2 * specSpeed s.T m2) * (d1 + d2)) := by
      show specCont _ _ _ _ / specFM _ _ _ _ _ _ = _
      rw [hq]
      have e : 8 * kb * s.T / π * (1 / m1 + 1 / m2) = (4 / π) ^ 2 * (π * kb * s.T / 2 * (1 / m1 + 1 / m2)) := by field_simp; norm_num
      rw [e, sqrt_mul (by positivity), sqrt_sq (by positivity), specCont, specFM, epsC]
      have : 0 < sqrt (π * kb * s.T / 2 * (1 / m1 + 1 / m2)) := by positivity
      field_simp; norm_num
    rw [specFuchs, hkf, fuchsVal, diam_of_sphere s1, diam_of_sphere s2, hD s1, hD s2, fuchsG_spec h p1 s1, fuchsG_spec h p2 s2, ← sq, ← sq]
    rfl

/-- **C64, limiting sphere.** The Fuchs distance lies between `l/√2` and `√2 l`; in particular it is positive. -/
theorem C64_fuchs_distance {d l : ℝ} (hd : 0 < d) (hl : 0 < l) : l / sqrt 2 ≤ specG d l ∧ specG d l ≤ sqrt 2 * l ∧ 0 < specG d l := by
  have h2 : 0 < sqrt 2 := by positivity
  have h22 : sqrt 2 * sqrt 2 = 2 := mul_self_sqrt (by norm_num)
  have hdl : 0 < d * l := mul_pos hd hl
  have hup : sqrt ((d ^ 2 + l ^ 2) ^ 3) ≤ (d + l) ^ 3 - 3 * d * l * (d + l / 2) := by
    apply sqrt_le_iff.mpr
    constructor
    · have : (d + l) ^ 3 - 3 * d * l * (d + l / 2) = d ^ 3 + 3 / 2 * d * l ^ 2 + l ^ 3 := by ring
      rw [this]; positivity
    · have : ((d + l) ^ 3 - 3 * d * l * (d + l / 2)) ^ 2 - (d ^ 2 + l ^ 2) ^ 3 =
          d * l ^ 3 * (2 * d ^ 2 - 3 / 4 * d * l + 3 * l ^ 2) := by ring
      have : 0 ≤ d * l ^ 3 * (2 * d ^ 2 - 3 / 4 * d * l + 3 * l ^ 2) := by
        apply mul_nonneg (by positivity)
        nlinarith [sq_nonneg (d - l), sq_nonneg (d + l)]
      linarith
  have hlo : (d + l) ^ 3 - 3 * d * l * (d + l) ≤ sqrt ((d ^ 2 + l ^ 2) ^ 3) := by
    apply le_sqrt_of_sq_le
    have : (d ^ 2 + l ^ 2) ^ 3 - ((d + l) ^ 3 - 3 * d * l * (d + l)) ^ 2 = d ^ 2 * l ^ 2 * (3 * d ^ 2 - 2 * d * l + 3 * l ^ 2) := by ring
    have : 0 ≤ d ^ 2 * l ^ 2 * (3 * d ^ 2 - 2 * d * l + 3 * l ^ 2) := by
      apply mul_nonneg (by positivity)
      nlinarith [sq_nonneg (d - l), sq_nonneg (d + l)]
    linarith
  have a : l / 2 ≤ ((d + l) ^ 3 - sqrt ((d ^ 2 + l ^ 2) ^ 3)) / (3 * d * l) - d := by
    rw [le_sub_iff_add_le, le_div_iff₀ (by positivity)]
    linarith
  have b : ((d + l) ^ 3 - sqrt ((d ^ 2 + l ^ 2) ^ 3)) / (3 * d * l) - d ≤ l := by
    rw [sub_le_iff_le_add, div_le_iff₀ (by positivity)]
    linarith
  have lo : l / sqrt 2 ≤ specG d l := by
    rw [div_le_iff₀ h2, specG]
    nlinarith
  exact ⟨lo, by rw [specG]; gcongr, lt_of_lt_of_le (by positivity) lo⟩

/-- **C64, ordering.** On every accepted state `HM ≤ FUCHS ≤ FM` and `FUCHS` is below the continuum rate enlarged by the limiting sphere. -/
theorem C64_kernel_order (s : State) (hs : Accepted s) (c : ℝ) (hc : 0 < c) (m1 m2 : ℝ) :
    ∃ khm kfu kfm, (⟨.HM, c⟩ : Coag).rate s m1 m2 = ok khm ∧ (⟨.FUCHS, c⟩ : Coag).rate s m1 m2 = ok kfu ∧
      (⟨.FM, c⟩ : Coag).rate s m1 m2 = ok kfm ∧ khm ≤ kfu ∧ kfu ≤ kfm ∧ (mmin < m1 → mmin < m2 → khm < kfu ∧ kfu < kfm) := by
  have h := hs.phys
  by_cases hm : m1 ≤ mmin ∨ m2 ≤ mmin
  · have hx : ¬ (mmin < m1 ∧ mmin < m2) := by rintro ⟨a, b⟩; rcases hm with q | q <;> linarith
    exact ⟨0, 0, 0, by simp [Coag.rate, hm], by simp [Coag.rate, hm], by simp [Coag.rate, hm], le_rfl, le_rfl,
      fun a b => absurd ⟨a, b⟩ hx⟩
  have hp := hm
  push Not at hp
  have p1 := mmin_pos.trans hp.1
  have p2 := mmin_pos.trans hp.2
  have hr := rhoSoot_pos
  have sp : ∀ m, 0 < m → IsSphere m (diam m) := by
    intro m hm
    refine ⟨diam_pos hm, ?_⟩
    rw [diam, onethird, ← rpow_natCast, ← rpow_mul (by positivity)]
    norm_num
    field_simp
  obtain ⟨e1, _, e3, e4⟩ := C64_kernel_formulas s hs c hc hp.1 hp.2 (sp m1 p1) (sp m2 p2)
  have hl := h.mfpVal_pos
  have kfp : 0 < specFM (2.2 * c) s.T m1 m2 (diam m1) (diam m2) := by
    rw [← fmVal_spec (c := ⟨.FM, c⟩) p1 p2 (sp m1 p1) (sp m2 p2)]; exact fmVal_pos h hc p1 p2
  have kcp := hmContVal_pos h p1 p2
  rw [hmContVal_spec h (sp m1 p1) (sp m2 p2)] at kcp
  have hg : ∀ m, 0 < m → 0 < specG (diam m)
      (8 * specD s.T s.muGas (specSlip (meanFreePath s) (diam m)) (diam m) / (π * specSpeed s.T m)) := by
    intro m hm
    apply (C64_fuchs_distance (diam_pos hm) _).2.2
    have hL := fuchsL_pos h hm
    have hmu := h.mu; have hd := diam_pos hm
    have hD : fuchsD s m = specD s.T s.muGas (specSlip (meanFreePath s) (diam m)) (diam m) := by
      rw [fuchsD, cunningham_spec hl hd, ← meanFreePath_eq, specD]; field_simp
    rw [fuchsL, hD] at hL; exact hL
  have g1 := hg m1 p1
  have g2 := hg m2 p2
  refine ⟨_, _, _, e3, e4, e1, ?_⟩
  set kf := specFM (2.2 * c) s.T m1 m2 (diam m1) (diam m2)
  set kc := specCont (specD s.T s.muGas (specSlip (meanFreePath s) (diam m1)) (diam m1))
    (specD s.T s.muGas (specSlip (meanFreePath s) (diam m2)) (diam m2)) (diam m1) (diam m2)
  set a := specG (diam m1) (8 * specD s.T s.muGas (specSlip (meanFreePath s) (diam m1)) (diam m1) / (π * specSpeed s.T m1))
  set b := specG (diam m2) (8 * specD s.T s.muGas (specSlip (meanFreePath s) (diam m2)) (diam m2) / (π * specSpeed s.T m2))
  have hd1 := diam_pos p1
  have hd2 := diam_pos p2
  have hq : 0 < sqrt (a ^ 2 + b ^ 2) := by positivity
  set A := (diam m1 + diam m2) / (diam m1 + diam m2 + 2 * sqrt (a ^ 2 + b ^ 2)) with hA
  have hA0 : 0 < A := by positivity
  have hA1 : A < 1 := by rw [hA, div_lt_one (by positivity)]; linarith
  have lo : kf * kc / (kf + kc) < specFuchs kc kf (diam m1) (diam m2) a b := by
    rw [specFuchs, ← hA]
    have : kf * kc / (kf + kc) = kc / (1 + kc / kf) := by field_simp
    rw [this]
    apply div_lt_div_of_pos_left kcp (by positivity) (by linarith)
  have hi : specFuchs kc kf (diam m1) (diam m2) a b < kf := by
    rw [specFuchs, ← hA, div_lt_iff₀ (by positivity), mul_add, mul_div_cancel₀ _ kfp.ne']
    have := mul_pos kfp hA0
    linarith
  exact ⟨lo.le, hi.le, fun _ _ => ⟨lo, hi⟩⟩

/-- **C64, scaling.** The free-molecular kernel is homogeneous of degree 1/6 in the masses; the CONTINUUM kernel never falls below
`8 kB T / (3 mu)`. -/
theorem C64_kernel_scaling (s : State) (hs : Accepted s) (c : ℝ) (hc : 0 < c) {m1 m2 z : ℝ} (h1 : mmin < m1) (h2 : mmin < m2) (hz : 1 ≤ z) :
    (∃ k, (⟨.FM, c⟩ : Coag).rate s m1 m2 = ok k ∧ (⟨.FM, c⟩ : Coag).rate s (z * m1) (z * m2) = ok (z ^ ((1 : ℝ) / 6) * k)) ∧
    ∃ k, (⟨.CONTINUUM, c⟩ : Coag).rate s m1 m2 = ok k ∧ 8 * kb * s.T / (3 * s.muGas) ≤ k := by
  have h := hs.phys
  have p1 := mmin_pos.trans h1
  have p2 := mmin_pos.trans h2
  have z0 : 0 < z := by linarith
  have hm : ¬ (m1 ≤ mmin ∨ m2 ≤ mmin) := by push Not; exact ⟨h1, h2⟩
  have hm' : ¬ (z * m1 ≤ mmin ∨ z * m2 ≤ mmin) := by push Not; constructor <;> nlinarith
  refine ⟨⟨_, Coag.rate_ok h hc m1 m2, ?_⟩, ⟨_, Coag.rate_ok h hc m1 m2, ?_⟩⟩
  · rw [Coag.rate_ok h hc, Coag.val, Coag.val, if_neg hm, if_neg hm']
    simp only [fmVal]
    congr 1
    have e1 : 1 / (z * m1) + 1 / (z * m2) = z⁻¹ * (1 / m1 + 1 / m2) := by field_simp
    rw [e1, sqrt_mul (by positivity), mul_rpow z0.le p1.le, mul_rpow z0.le p2.le, sqrt_eq_rpow z⁻¹, inv_rpow z0.le, ← rpow_neg z0.le]
    have e2 : z ^ (-(1 / 2 : ℝ)) * z ^ onethird * z ^ onethird = z ^ ((1 : ℝ) / 6) := by
      rw [← rpow_add z0, ← rpow_add z0, onethird]; norm_num
    rw [← e2]; ring
  · rw [Coag.val, if_neg hm]
    simp only
    have hl := h.mfpVal_pos; have hd1 := diam_pos p1; have hd2 := diam_pos p2
    have hk := kcVal_pos h
    have e : 8 * kb * s.T / (3 * s.muGas) = kcVal s * 4 := by unfold kcVal; ring
    rw [e, contVal, mul_assoc]
    apply mul_le_mul_of_nonneg_left _ hk.le
    set a := diam m1
    set b := diam m2
    have q1 : 1 / a ≤ (1 + 1.657 * (2 * s.mfpVal / a)) / a := by gcongr; have : 0 < 2 * s.mfpVal / a := by positivity
                                                                 linarith
    have q2 : 1 / b ≤ (1 + 1.657 * (2 * s.mfpVal / b)) / b := by gcongr; have : 0 < 2 * s.mfpVal / b := by positivity
                                                                 linarith
    have q3 : 4 ≤ (1 / a + 1 / b) * (a + b) := by
      have : (1 / a + 1 / b) * (a + b) = (a + b) ^ 2 / (a * b) := by field_simp; ring
      rw [this, le_div_iff₀ (by positivity)]
      nlinarith [sq_nonneg (a - b)]
    exact q3.trans (by gcongr)

/-- Non-vacuity: a soot sphere of 10 nm is above the cutoff. -/
example : ∃ m, IsSphere m 1E-8 ∧ mmin < m := by
  refine ⟨_, ⟨by norm_num, rfl⟩, ?_⟩
  have := two_le_pi
  unfold mmin rhoSoot
  norm_num
  linarith

end Soot
