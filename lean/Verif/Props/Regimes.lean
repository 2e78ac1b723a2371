import Verif.Props.Kernels
import Mathlib.Analysis.SpecialFunctions.Pow.Asymptotics
import Mathlib.Topology.Algebra.Order.Field

/-!
# C87: the regimes of the kernels

Specification: `sphereMass`, `Tends` and the limits written out in the statements. The limits are those named in
docs/models/coagulation.ipynb ("Examine regimes").
-/

namespace Soot

open Res Real Filter Topology
open scoped Classical

/-! ## Specification -/

/-- Mass of a soot sphere of diameter `d`. -/
noncomputable def sphereMass (d : ℝ) : ℝ := rhoSoot * (π / 6 * d ^ 3)

/-- The results `f` are finite in the end and tend to `G` along `F`. -/
def Tends {ι : Type} (f : ι → Res ℝ) (F : Filter ι) (G : Filter ℝ) : Prop := ∃ k : ι → ℝ, (∀ᶠ x in F, f x = ok (k x)) ∧ Tendsto k F G

/-- `f` grows like `K x ^ p`. -/
def Grows (f : ℝ → Res ℝ) (p : ℕ) (K : ℝ) : Prop := ∃ k : ℝ → ℝ, (∀ᶠ x in atTop, f x = ok (k x)) ∧ Tendsto (fun x => k x / x ^ p) atTop (𝓝 K)

namespace Regime

theorem sphere {d : ℝ} (h : 0 < d) : IsSphere (sphereMass d) d := ⟨h, rfl⟩

theorem sphereMass_pos {d : ℝ} (h : 0 < d) : 0 < sphereMass d := by
  have := rhoSoot_pos; unfold sphereMass; positivity

theorem sphereMass_large : ∀ᶠ d in atTop, mmin < sphereMass d := by
  have h : Tendsto sphereMass atTop atTop := by
    have := rhoSoot_pos
    unfold sphereMass
    exact ((tendsto_pow_atTop (by norm_num)).const_mul_atTop (by positivity)).const_mul_atTop (by positivity)
  exact h.eventually_gt_atTop _

theorem scale {a : ℝ} (h : 0 < a) : Tendsto (fun x : ℝ => a * x) atTop atTop := tendsto_id.const_mul_atTop h

theorem slip_bounds {l d : ℝ} (hl : 0 < l) (hd : 0 < d) : 1 ≤ specSlip l d ∧ specSlip l d ≤ 1 + 3.314 * l / d := by
  unfold specSlip
  have h1 : exp (-(0.55 * d / l)) ≤ 1 := exp_le_one_iff.2 (by have : 0 < 0.55 * d / l := by positivity
                                                              linarith)
  have h2 : 0 < exp (-(0.55 * d / l)) := exp_pos _
  have h3 : 0 < 2 * l / d := by positivity
  constructor
  · have : 0 < 2 * l / d * (1.257 + 0.4 * exp (-(0.55 * d / l))) := by positivity
    linarith
  · have : 3.314 * l / d = 2 * l / d * 1.657 := by ring
    rw [this]
    nlinarith

theorem slip_lim {l : ℝ} (hl : 0 < l) : Tendsto (specSlip l) atTop (𝓝 1) := by
  have h : Tendsto (fun d : ℝ => 1 + 3.314 * l / d) atTop (𝓝 (1 + 0)) := tendsto_const_nhds.add (tendsto_const_nhds.div_atTop tendsto_id)
  rw [add_zero] at h
  refine tendsto_of_tendsto_of_tendsto_of_le_of_le' tendsto_const_nhds h ?_ ?_ <;>
    filter_upwards [eventually_gt_atTop 0] with d hd
  exacts [(slip_bounds hl hd).1, (slip_bounds hl hd).2]

/-- The stopping length of a sphere, relative to its diameter. -/
theorem stop_lim {T mu l : ℝ} (hT : 0 < T) (hmu : 0 < mu) (hl : 0 < l) :
    Tendsto (fun d => 8 * specD T mu (specSlip l d) d / (π * specSpeed T (sphereMass d)) / d) atTop (𝓝 0) := by
  have hk := kb_pos; have hr := rhoSoot_pos
  set B := 8 * kb * T / (π * (rhoSoot * (π / 6))) with hB
  have hB0 : 0 < B := by positivity
  have e : ∀ᶠ d : ℝ in atTop, 8 * kb * T / (3 * π * mu) / (π * sqrt B) * specSlip l d / sqrt d =
      8 * specD T mu (specSlip l d) d / (π * specSpeed T (sphereMass d)) / d := by
    filter_upwards [eventually_gt_atTop 0] with d hd
    have e1 : specSpeed T (sphereMass d) = sqrt B / (d * sqrt d) := by
      have : d * sqrt d = sqrt (d ^ 3) := by
        rw [show d ^ 3 = d ^ 2 * d by ring, sqrt_mul (by positivity), sqrt_sq hd.le]
      rw [this, ← sqrt_div hB0.le, specSpeed, sphereMass]
      congr 1
      rw [hB]; field_simp
    rw [e1, specD]
    have h1 : 0 < sqrt d := sqrt_pos.2 hd
    have h2 : 0 < sqrt B := sqrt_pos.2 hB0
    field_simp
    rw [sq_sqrt hd.le]
  refine Tendsto.congr' e ?_
  exact ((slip_lim hl).const_mul _).div_atTop tendsto_sqrt_atTop

theorem stop_pos {T mu l d : ℝ} (hT : 0 < T) (hmu : 0 < mu) (hl : 0 < l) (hd : 0 < d) :
    0 < 8 * specD T mu (specSlip l d) d / (π * specSpeed T (sphereMass d)) := by
  have hk := kb_pos
  have h1 := (slip_bounds hl hd).1
  have h2 : 0 < specSlip l d := by linarith
  have h3 := sphereMass_pos hd
  have : 0 < specSpeed T (sphereMass d) := sqrt_pos.2 (by positivity)
  unfold specD
  positivity

/-- The limiting-sphere distance of a sphere, relative to its diameter. -/
theorem dist_lim {T mu l : ℝ} (hT : 0 < T) (hmu : 0 < mu) (hl : 0 < l) :
    Tendsto (fun d => specG d (8 * specD T mu (specSlip l d) d / (π * specSpeed T (sphereMass d))) / d) atTop (𝓝 0) := by
  have h := (stop_lim hT hmu hl).const_mul (sqrt 2)
  rw [mul_zero] at h
  refine tendsto_of_tendsto_of_tendsto_of_le_of_le' tendsto_const_nhds h ?_ ?_ <;>
    filter_upwards [eventually_gt_atTop 0] with d hd
  · have := (C64_fuchs_distance hd (stop_pos hT hmu hl hd)).2.2
    positivity
  · have := (C64_fuchs_distance hd (stop_pos hT hmu hl hd)).2.1
    rw [← mul_div_assoc]
    gcongr

/-- The quotient in the Fuchs formula tends to 1 when both distances are small against the diameters. -/
theorem quot_lim {d g1 g2 : ℝ → ℝ} (hd : ∀ᶠ x in atTop, 0 < d x) (h1 : Tendsto (fun x => g1 x / d x) atTop (𝓝 0))
    (h2 : Tendsto (fun x => g2 x / d x) atTop (𝓝 0)) :
    Tendsto (fun x => d x / (d x + 2 * sqrt (g1 x ^ 2 + g2 x ^ 2))) atTop (𝓝 1) := by
  have h : Tendsto (fun x => 1 / (1 + 2 * sqrt ((g1 x / d x) ^ 2 + (g2 x / d x) ^ 2))) atTop (𝓝 (1 / (1 + 2 * sqrt (0 ^ 2 + 0 ^ 2)))) := by
    refine tendsto_const_nhds.div (tendsto_const_nhds.add (((h1.pow 2).add (h2.pow 2)).sqrt.const_mul _)) ?_
    norm_num
  have e0 : (1 : ℝ) / (1 + 2 * sqrt (0 ^ 2 + 0 ^ 2)) = 1 := by norm_num
  rw [e0] at h
  refine h.congr' ?_
  filter_upwards [hd] with x hx
  have e : (g1 x / d x) ^ 2 + (g2 x / d x) ^ 2 = (g1 x ^ 2 + g2 x ^ 2) / d x ^ 2 := by field_simp
  rw [e, sqrt_div (by positivity), sqrt_sq hx.le]
  have : 0 ≤ sqrt (g1 x ^ 2 + g2 x ^ 2) := sqrt_nonneg _
  field_simp

theorem ratio_one {a : ℝ} : Tendsto (fun x : ℝ => (a + x) / x) atTop (𝓝 1) := by
  have h : Tendsto (fun x : ℝ => a / x + 1) atTop (𝓝 (0 + 1)) := (tendsto_const_nhds.div_atTop tendsto_id).add tendsto_const_nhds
  rw [zero_add] at h
  refine h.congr' ?_
  filter_upwards [eventually_gt_atTop 0] with x hx
  field_simp

/-! ### Proportional growth -/

theorem cont_lim {T mu a b : ℝ} (hmu : 0 < mu) (ha : 0 < a) (hb : 0 < b) {C1 C2 : ℝ → ℝ} (h1 : Tendsto C1 atTop (𝓝 1)) (h2 : Tendsto C2 atTop (𝓝 1)) :
    Tendsto (fun x => specCont (specD T mu (C1 x) (a * x)) (specD T mu (C2 x) (b * x)) (a * x) (b * x)) atTop
      (𝓝 (2 * kb * T / (3 * mu) * (1 / a + 1 / b) * (a + b))) := by
  have h : Tendsto (fun x => 2 * kb * T / (3 * mu) * (C1 x / a + C2 x / b) * (a + b)) atTop (𝓝 (2 * kb * T / (3 * mu) * (1 / a + 1 / b) * (a + b))) :=
    ((((h1.div_const a).add (h2.div_const b)).const_mul _).mul_const _)
  refine h.congr' ?_
  filter_upwards [eventually_gt_atTop 0] with x hx
  unfold specCont specD
  field_simp

theorem fm_lim {e T a b : ℝ} (he : 0 < e) (hT : 0 < T) (ha : 0 < a) (hb : 0 < b) :
    Tendsto (fun x => specFM e T (sphereMass (a * x)) (sphereMass (b * x)) (a * x) (b * x)) atTop atTop := by
  have hk := kb_pos; have hr := rhoSoot_pos
  have m1 := sphereMass_pos ha; have m2 := sphereMass_pos hb
  have h : Tendsto (fun x => e * sqrt (π * kb * T / 2 * (1 / sphereMass a + 1 / sphereMass b)) * (a + b) ^ 2 * sqrt x) atTop atTop :=
    tendsto_sqrt_atTop.const_mul_atTop (by have : 0 < sqrt (π * kb * T / 2 * (1 / sphereMass a + 1 / sphereMass b)) := sqrt_pos.2 (by positivity)
                                           positivity)
  refine h.congr' ?_
  filter_upwards [eventually_gt_atTop 0] with x hx
  have e1 : ∀ d, sphereMass (d * x) = sphereMass d * x ^ 3 := fun d => by unfold sphereMass; ring
  have e2 : π * kb * T / 2 * (1 / (sphereMass a * x ^ 3) + 1 / (sphereMass b * x ^ 3)) =
      π * kb * T / 2 * (1 / sphereMass a + 1 / sphereMass b) * (sqrt x / x ^ 2) ^ 2 := by
    rw [div_pow, sq_sqrt hx.le]; field_simp
  rw [specFM, e1, e1, e2, sqrt_mul (show 0 ≤ π * kb * T / 2 * (1 / sphereMass a + 1 / sphereMass b) by positivity) ((sqrt x / x ^ 2) ^ 2),
    sqrt_sq (by positivity)]
  field_simp

theorem fm_pos {e T m1 m2 d1 d2 : ℝ} (he : 0 < e) (hT : 0 < T) (h1 : 0 < m1) (h2 : 0 < m2) (h3 : 0 < d1) (h4 : 0 < d2) :
    0 < specFM e T m1 m2 d1 d2 := by
  have hk := kb_pos
  have : 0 < sqrt (π * kb * T / 2 * (1 / m1 + 1 / m2)) := sqrt_pos.2 (by positivity)
  unfold specFM; positivity

theorem cont_pos {T mu C1 C2 d1 d2 : ℝ} (hT : 0 < T) (hmu : 0 < mu) (h1 : 1 ≤ C1) (h2 : 1 ≤ C2) (h3 : 0 < d1) (h4 : 0 < d2) :
    0 < specCont (specD T mu C1 d1) (specD T mu C2 d2) d1 d2 := by
  have hk := kb_pos
  have : 0 < C1 := by linarith
  have : 0 < C2 := by linarith
  unfold specCont specD; positivity

theorem hm_eq {kf kc : ℝ} (h1 : 0 < kf) (h2 : 0 < kc) : kc / (1 + kc / kf) = kf * kc / (kf + kc) := by field_simp

end Regime

/-- **C87, large particles.** When two spheres grow in proportion on a fixed accepted state, the CONTINUUM, HM and FUCHS kernels all tend to
the Smoluchowski rate without slip, and the FM kernel grows without bound. -/
theorem C87_continuum (s : State) (hs : Accepted s) (c : ℝ) (hc : 0 < c) (a b : ℝ) (ha : 0 < a) (hb : 0 < b) :
    let K := 2 * kb * s.T / (3 * s.muGas) * (1 / a + 1 / b) * (a + b)
    let k := fun (m : CoagMech) (x : ℝ) => (⟨m, c⟩ : Coag).rate s (sphereMass (a * x)) (sphereMass (b * x))
    Tends (k .CONTINUUM) atTop (𝓝 K) ∧ Tends (k .HM) atTop (𝓝 K) ∧ Tends (k .FUCHS) atTop (𝓝 K) ∧ Tends (k .FM) atTop atTop := by
  intro K k
  have h := hs.phys
  have hT := h.T; have hmu := h.mu
  have hl : 0 < meanFreePath s := h.mfpVal_pos
  have la := Regime.scale ha; have lb := Regime.scale hb
  have ev : ∀ᶠ x : ℝ in atTop, 0 < x ∧ mmin < sphereMass (a * x) ∧ mmin < sphereMass (b * x) :=
    (eventually_gt_atTop 0).and ((la.eventually Regime.sphereMass_large).and (lb.eventually Regime.sphereMass_large))
  have all : ∀ x, 0 < x → mmin < sphereMass (a * x) → mmin < sphereMass (b * x) → _ := fun x hx q1 q2 =>
    C64_kernel_formulas s hs c hc q1 q2 (Regime.sphere (mul_pos ha hx)) (Regime.sphere (mul_pos hb hx))
  set D := fun d => specD s.T s.muGas (specSlip (meanFreePath s) d) d with hD
  set kc := fun x => specCont (D (a * x)) (D (b * x)) (a * x) (b * x) with hkc
  set kf := fun x => specFM (2.2 * c) s.T (sphereMass (a * x)) (sphereMass (b * x)) (a * x) (b * x) with hkf
  have kcl : Tendsto kc atTop (𝓝 K) := Regime.cont_lim hmu ha hb ((Regime.slip_lim hl).comp la) ((Regime.slip_lim hl).comp lb)
  have kfl : Tendsto kf atTop atTop := Regime.fm_lim (by positivity) hT ha hb
  have r0 : Tendsto (fun x => kc x / kf x) atTop (𝓝 0) := kcl.div_atTop kfl
  refine ⟨⟨_, ev.mono fun x hx => (all x hx.1 hx.2.1 hx.2.2).2.1, ?_⟩,
    ⟨_, ev.mono fun x hx => (all x hx.1 hx.2.1 hx.2.2).2.2.1, ?_⟩, ⟨_, ev.mono fun x hx => (all x hx.1 hx.2.1 hx.2.2).2.2.2, ?_⟩,
    ⟨_, ev.mono fun x hx => (all x hx.1 hx.2.1 hx.2.2).1, kfl⟩⟩
  · have q : ∀ {d : ℝ}, 0 < d → Tendsto (fun x : ℝ => 1 + 3.314 * meanFreePath s / (d * x)) atTop (𝓝 1) := fun {d} hd => by
      have := (tendsto_const_nhds (x := (1 : ℝ))).add ((tendsto_const_nhds (x := 3.314 * meanFreePath s)).div_atTop (Regime.scale hd))
      rwa [add_zero] at this
    exact Regime.cont_lim hmu ha hb (q ha) (q hb)
  · have e := kcl.div ((tendsto_const_nhds (x := (1 : ℝ))).add r0) (by norm_num)
    rw [add_zero, div_one] at e
    refine e.congr' ?_
    filter_upwards [ev] with x hx
    exact Regime.hm_eq (Regime.fm_pos (by positivity) hT (mmin_pos.trans hx.2.1) (mmin_pos.trans hx.2.2) (mul_pos ha hx.1) (mul_pos hb hx.1))
      (Regime.cont_pos hT hmu (Regime.slip_bounds hl (mul_pos ha hx.1)).1 (Regime.slip_bounds hl (mul_pos hb hx.1)).1 (mul_pos ha hx.1) (mul_pos hb hx.1))
  · have g := Regime.dist_lim hT hmu hl
    have part : ∀ d, 0 < d → d ≤ a + b → Tendsto (fun x => specG (d * x)
        (8 * specD s.T s.muGas (specSlip (meanFreePath s) (d * x)) (d * x) / (π * specSpeed s.T (sphereMass (d * x)))) / (a * x + b * x)) atTop (𝓝 0) := by
      intro d hd _
      have := ((g.comp (Regime.scale hd)).mul_const (d / (a + b)))
      rw [zero_mul] at this
      refine this.congr' ?_
      filter_upwards [eventually_gt_atTop 0] with x hx
      simp only [Function.comp]
      field_simp
    have A := Regime.quot_lim (d := fun x => a * x + b * x) (by filter_upwards [eventually_gt_atTop 0] with x hx; positivity)
      (part a ha (by linarith)) (part b hb (by linarith))
    have e := kcl.div (A.add r0) (by norm_num)
    rw [add_zero, div_one] at e
    exact e

/-- **C87, unequal particles.** With one sphere fixed and the other growing, the FM kernel grows like the square of the diameter and the others
like the diameter; HM and FUCHS have the same constant, CONTINUUM another, since it uses another slip correction. At the other end every kernel is 0. -/
theorem C87_slopes (s : State) (hs : Accepted s) (c : ℝ) (hc : 0 < c) (a : ℝ) (ha : 0 < a) (hm : mmin < sphereMass a) :
    let K := 2 * kb * s.T / (3 * s.muGas) / a
    let k := fun (m : CoagMech) (x : ℝ) => (⟨m, c⟩ : Coag).rate s (sphereMass a) (sphereMass x)
    Grows (k .FM) 2 (2.2 * c * sqrt (π * kb * s.T / 2 / sphereMass a)) ∧ Grows (k .CONTINUUM) 1 (K * (1 + 3.314 * meanFreePath s / a)) ∧
    Grows (k .HM) 1 (K * specSlip (meanFreePath s) a) ∧ Grows (k .FUCHS) 1 (K * specSlip (meanFreePath s) a) ∧
    ∀ m, ∀ᶠ x in 𝓝[>] 0, k m x = ok 0 := by
  intro K k
  have h := hs.phys
  have hT := h.T; have hmu := h.mu; have hk := kb_pos; have hr := rhoSoot_pos
  have hl : 0 < meanFreePath s := h.mfpVal_pos
  have ma := Regime.sphereMass_pos ha
  have ev : ∀ᶠ x : ℝ in atTop, 0 < x ∧ mmin < sphereMass x := (eventually_gt_atTop 0).and Regime.sphereMass_large
  have all : ∀ x, 0 < x → mmin < sphereMass x → _ := fun x hx q2 =>
    C64_kernel_formulas s hs c hc hm q2 (Regime.sphere ha) (Regime.sphere hx)
  set D := fun d => specD s.T s.muGas (specSlip (meanFreePath s) d) d with hD
  set kc := fun x => specCont (D a) (D x) a x with hkc
  set kf := fun x => specFM (2.2 * c) s.T (sphereMass a) (sphereMass x) a x with hkf
  have big : Tendsto sphereMass atTop atTop := by
    unfold sphereMass
    exact ((tendsto_pow_atTop (by norm_num)).const_mul_atTop (by positivity)).const_mul_atTop (by positivity)
  have kfl : Tendsto (fun x => kf x / x ^ 2) atTop (𝓝 (2.2 * c * sqrt (π * kb * s.T / 2 / sphereMass a))) := by
    have e := ((((((tendsto_const_nhds (x := (1 : ℝ))).div_atTop big).const_add (1 / sphereMass a)).const_mul (π * kb * s.T / 2)).sqrt).const_mul (2.2 * c)).mul
      ((Regime.ratio_one (a := a)).pow 2)
    simp only [add_zero, one_pow, mul_one, mul_one_div] at e
    refine e.congr' ?_
    filter_upwards [eventually_gt_atTop 0] with x hx
    rw [hkf]
    simp only [specFM, div_pow]
    ring
  have contl : ∀ {C0 : ℝ} {C : ℝ → ℝ}, Tendsto C atTop (𝓝 1) →
      Tendsto (fun x => specCont (specD s.T s.muGas C0 a) (specD s.T s.muGas (C x) x) a x / x ^ 1) atTop (𝓝 (K * C0)) := by
    intro C0 C hC
    have q : Tendsto (fun x => specD s.T s.muGas (C x) x) atTop (𝓝 0) := by
      have := ((hC.const_mul (kb * s.T / (3 * π * s.muGas))).div_atTop tendsto_id)
      refine this.congr' ?_
      filter_upwards [eventually_gt_atTop 0] with x hx
      simp only [specD, id]
      field_simp
    have e := ((q.const_add (specD s.T s.muGas C0 a)).const_mul (2 * π)).mul (Regime.ratio_one (a := a))
    rw [add_zero, mul_one] at e
    have e0 : 2 * π * specD s.T s.muGas C0 a = K * C0 := by
      show _ = 2 * kb * s.T / (3 * s.muGas) / a * C0
      unfold specD; field_simp
    rw [e0] at e
    refine e.congr' ?_
    filter_upwards [eventually_gt_atTop 0] with x hx
    simp only [specCont, pow_one]
    ring
  have kcl : Tendsto (fun x => kc x / x ^ 1) atTop (𝓝 (K * specSlip (meanFreePath s) a)) := contl (Regime.slip_lim hl)
  have hF : 0 < 2.2 * c * sqrt (π * kb * s.T / 2 / sphereMass a) := by
    have : 0 < sqrt (π * kb * s.T / 2 / sphereMass a) := sqrt_pos.2 (by positivity)
    positivity
  have r0 : Tendsto (fun x => kc x / kf x) atTop (𝓝 0) := by
    have e := (kcl.div kfl hF.ne').div_atTop tendsto_id
    refine e.congr' ?_
    filter_upwards [ev] with x hx
    have : kf x ≠ 0 := (Regime.fm_pos (by positivity) hT ma (mmin_pos.trans hx.2) ha hx.1).ne'
    have := hx.1
    simp only [Pi.div_apply, id, pow_one]
    field_simp
  refine ⟨⟨_, ev.mono fun x hx => (all x hx.1 hx.2).1, kfl⟩, ⟨_, ev.mono fun x hx => (all x hx.1 hx.2).2.1, contl ?_⟩,
    ⟨_, ev.mono fun x hx => (all x hx.1 hx.2).2.2.1, ?_⟩, ⟨_, ev.mono fun x hx => (all x hx.1 hx.2).2.2.2, ?_⟩, fun m => ?_⟩
  · have := (tendsto_const_nhds (x := (1 : ℝ))).add ((tendsto_const_nhds (x := 3.314 * meanFreePath s)).div_atTop tendsto_id)
    rwa [add_zero] at this
  · have e := kcl.div ((tendsto_const_nhds (x := (1 : ℝ))).add r0) (by norm_num)
    rw [add_zero, div_one] at e
    refine e.congr' ?_
    filter_upwards [ev] with x hx
    have := Regime.hm_eq (Regime.fm_pos (e := 2.2 * c) (by positivity) hT ma (mmin_pos.trans hx.2) ha hx.1)
      (Regime.cont_pos hT hmu (Regime.slip_bounds hl ha).1 (Regime.slip_bounds hl hx.1).1 ha hx.1)
    show kc x / x ^ 1 / (1 + kc x / kf x) = _
    rw [div_right_comm]
    exact congrArg (· / x ^ 1) this
  · have g := Regime.dist_lim hT hmu hl
    have g2 : Tendsto (fun x => specG x (8 * specD s.T s.muGas (specSlip (meanFreePath s) x) x / (π * specSpeed s.T (sphereMass x))) / (a + x)) atTop (𝓝 0) := by
      have e := g.div (Regime.ratio_one (a := a)) one_ne_zero
      rw [zero_div] at e
      refine e.congr' ?_
      filter_upwards [eventually_gt_atTop 0] with x hx
      simp only [Pi.div_apply]
      have : a + x ≠ 0 := by positivity
      field_simp
    have g1 : ∀ G : ℝ, Tendsto (fun x : ℝ => G / (a + x)) atTop (𝓝 0) := fun G =>
      tendsto_const_nhds.div_atTop (tendsto_atTop_add_const_left _ _ tendsto_id)
    have A := Regime.quot_lim (d := fun x => a + x) (by filter_upwards [eventually_gt_atTop 0] with x hx; positivity)
      (g1 (specG a (8 * D a / (π * specSpeed s.T (sphereMass a))))) g2
    have e := kcl.div (A.add r0) (by norm_num)
    rw [add_zero, div_one] at e
    refine e.congr fun x => ?_
    simp only [Pi.div_apply]
    rw [div_right_comm]; rfl
  · have e : Tendsto sphereMass (𝓝[>] 0) (𝓝 (sphereMass 0)) := by
      have : Continuous sphereMass := by unfold sphereMass; fun_prop
      exact this.continuousAt.tendsto.mono_left nhdsWithin_le_nhds
    rw [show sphereMass 0 = 0 by simp [sphereMass]] at e
    filter_upwards [e.eventually_lt_const mmin_pos] with x hx
    simp only [k, Coag.rate]
    split_ifs with q1 q2
    · rfl
    · rfl
    · exact absurd (Or.inr hx.le) q2

/-- **C87, rarefied gas.** Along any accepted states with a common temperature, bounded viscosity and a mean free path growing without bound, HM and
FUCHS tend to the free-molecular rate of the two particles, which FM computes throughout; CONTINUUM grows without bound. -/
theorem C87_free_molecular {ι : Type} (F : Filter ι) (S : ι → State) (hS : ∀ i, Accepted (S i)) (T mu : ℝ) (hT : ∀ i, (S i).T = T)
    (hmu : ∀ i, (S i).muGas ≤ mu) (hl : Tendsto (fun i => meanFreePath (S i)) F atTop) (c : ℝ) (hc : 0 < c) {m1 m2 d1 d2 : ℝ} (h1 : mmin < m1) (h2 : mmin < m2)
    (s1 : IsSphere m1 d1) (s2 : IsSphere m2 d2) :
    let K := specFM (2.2 * c) T m1 m2 d1 d2
    let k := fun (m : CoagMech) i => (⟨m, c⟩ : Coag).rate (S i) m1 m2
    (∀ i, k .FM i = ok K) ∧ Tends (k .HM) F (𝓝 K) ∧ Tends (k .FUCHS) F (𝓝 K) ∧ Tends (k .CONTINUUM) F atTop := by
  intro K k
  rcases isEmpty_or_nonempty ι with hι | ⟨⟨i0⟩⟩
  · have : F = ⊥ := Subsingleton.elim _ _
    subst this
    exact ⟨fun i => hι.elim i, ⟨fun _ => 0, by simp, tendsto_bot⟩, ⟨fun _ => 0, by simp, tendsto_bot⟩, ⟨fun _ => 0, by simp, tendsto_bot⟩⟩
  have hT0 : 0 < T := hT i0 ▸ (hS i0).phys.T
  have hmu0 : 0 < mu := (hS i0).phys.mu.trans_le (hmu i0)
  have hk := kb_pos
  have hd1 := s1.1; have hd2 := s2.1
  have all := fun i => C64_kernel_formulas (S i) (hS i) c hc h1 h2 s1 s2
  have hK : 0 < K := Regime.fm_pos (by positivity) hT0 (mmin_pos.trans h1) (mmin_pos.trans h2) hd1 hd2
  have hf : ∀ i, k .FM i = ok K := fun i => (all i).1.trans (by rw [hT i])
  have lpos : ∀ i, 0 < meanFreePath (S i) := fun i => (hS i).phys.mfpVal_pos
  -- the continuum rates exceed a multiple of the mean free path
  have low : ∀ {C1 C2 : ℝ} i, 2 * 1.257 * meanFreePath (S i) / d1 ≤ C1 → 0 ≤ C2 →
      2 * kb * T / (3 * mu) * (2 * 1.257 / d1 / d1) * d1 * meanFreePath (S i) ≤
        specCont (specD (S i).T (S i).muGas C1 d1) (specD (S i).T (S i).muGas C2 d2) d1 d2 := by
    intro C1 C2 i q1 q2
    rw [hT i]
    have hm := (hS i).phys.mu
    have hli := lpos i
    have b1 : kb * T / (3 * π * mu) ≤ kb * T / (3 * π * (S i).muGas) := by
      have := hmu i
      gcongr
    have b2 : 0 ≤ specD T (S i).muGas C2 d2 := by unfold specD; positivity
    have b3 : kb * T / (3 * π * mu) * (2 * 1.257 * meanFreePath (S i) / d1) / d1 ≤ specD T (S i).muGas C1 d1 := by
      have : specD T (S i).muGas C1 d1 = kb * T / (3 * π * (S i).muGas) * C1 / d1 := by unfold specD; field_simp
      rw [this]
      gcongr
    unfold specCont
    calc _ = 2 * π * (kb * T / (3 * π * mu) * (2 * 1.257 * meanFreePath (S i) / d1) / d1 + 0) * d1 := by field_simp; ring
      _ ≤ 2 * π * (specD T (S i).muGas C1 d1 + specD T (S i).muGas C2 d2) * d1 := by gcongr
      _ ≤ _ := mul_le_mul_of_nonneg_left (by linarith) (by
        have : 0 ≤ specD T (S i).muGas C1 d1 := le_trans (by positivity) b3
        positivity)
  have lim : Tendsto (fun i => 2 * kb * T / (3 * mu) * (2 * 1.257 / d1 / d1) * d1 * meanFreePath (S i)) F atTop :=
    hl.const_mul_atTop (by positivity)
  have slipLow : ∀ {l d : ℝ}, 0 < l → 0 < d → 2 * 1.257 * l / d ≤ specSlip l d := by
    intro l d hl hd
    unfold specSlip
    have : 0 < 2 * l / d * (0.4 * exp (-(0.55 * d / l))) := by positivity
    have e : 2 * 1.257 * l / d = 2 * l / d * 1.257 := by ring
    rw [e]; linarith
  set kc := fun i => specCont (specD (S i).T (S i).muGas (specSlip (meanFreePath (S i)) d1) d1)
    (specD (S i).T (S i).muGas (specSlip (meanFreePath (S i)) d2) d2) d1 d2 with hkc
  have kcl : Tendsto kc F atTop := tendsto_atTop_mono (fun i => low i (slipLow (lpos i) hd1)
    (zero_le_one.trans (Regime.slip_bounds (lpos i) hd2).1)) lim
  have kcp : ∀ i, 0 < kc i := fun i =>
    Regime.cont_pos (hT i ▸ hT0) (hS i).phys.mu (Regime.slip_bounds (lpos i) hd1).1 (Regime.slip_bounds (lpos i) hd2).1 hd1 hd2
  have hm : Tendsto (fun i => K * kc i / (K + kc i)) F (𝓝 K) := by
    have e := (tendsto_const_nhds (x := K)).div ((tendsto_const_nhds (x := (1 : ℝ))).add ((tendsto_const_nhds (x := K)).div_atTop kcl)) (by norm_num)
    rw [add_zero, div_one] at e
    refine e.congr fun i => ?_
    have := kcp i
    simp only [Pi.div_apply]
    field_simp
    ring
  have ehm : ∀ i, k .HM i = ok (K * kc i / (K + kc i)) := fun i => by
    have := (all i).2.2.1
    simp only [hT i] at this ⊢
    simpa [k, K, hkc, hT i] using this
  refine ⟨hf, ⟨_, Eventually.of_forall ehm, hm⟩, ⟨_, Eventually.of_forall fun i => (all i).2.2.2, ?_⟩, ⟨_, Eventually.of_forall fun i => (all i).2.1, ?_⟩⟩
  · refine tendsto_of_tendsto_of_tendsto_of_le_of_le hm tendsto_const_nhds (fun i => ?_) (fun i => ?_)
    all_goals
      obtain ⟨x, y, z, e1, e2, e3, q1, q2, _⟩ := C64_kernel_order (S i) (hS i) c hc m1 m2
      rw [(all i).2.2.2, ok.injEq] at e2
      have e1' := (ehm i).symm.trans e1
      have e3' := (hf i).symm.trans e3
      rw [ok.injEq] at e1' e3'
    · show K * kc i / (K + kc i) ≤ _
      rw [e1', e2]; exact q1
    · rw [e2]; exact q2.trans_eq e3'.symm
  · refine tendsto_atTop_mono (fun i => low i ?_ ?_) lim
    · have := lpos i
      have e : 2 * 1.257 * meanFreePath (S i) / d1 = 2.514 * (meanFreePath (S i) / d1) := by ring
      have e' : 3.314 * meanFreePath (S i) / d1 = 3.314 * (meanFreePath (S i) / d1) := by ring
      have : 0 < meanFreePath (S i) / d1 := by positivity
      rw [e, e']; linarith
    · have := lpos i
      positivity

/-! ## Concrete cases -/

/-- The arguments `a` with the gas expanded `x` times at the same temperature. -/
noncomputable def expanded (a : SetArgs) (x : ℝ) : SetArgs := { a with P := a.P / x, rhoGas := a.rhoGas / x }

/-- **C87, expansion.** Expanding an accepted gas at constant temperature and viscosity is such a family: the states stay accepted and the mean free
path grows in proportion to the expansion. -/
theorem C87_expansion (s : State) (a : SetArgs) (h : (setState s a).2 = ok ()) :
    (∀ x, 0 < x → (setState s (expanded a x)).2 = ok () ∧ (setState s (expanded a x)).1.T = (setState s a).1.T ∧
      (setState s (expanded a x)).1.muGas = (setState s a).1.muGas ∧
      meanFreePath (setState s (expanded a x)).1 = x * meanFreePath (setState s a).1) := by
  intro x hx
  obtain ⟨h1, h2⟩ := setState_ok_range h
  have h3 := (C01_setState_iff s a h1 h2).1 h
  have h' : Admissible s.nsoot.toNat s.Ntar.toNat s.yPah.length (expanded a x) :=
    { h3 with P := div_pos h3.P hx, rho := div_pos h3.rho hx }
  rw [C01_setState_accepts s (expanded a x) h1 h2 h', C01_setState_accepts s a h1 h2 h3]
  refine ⟨rfl, rfl, rfl, ?_⟩
  have hP := h3.P; have hr := h3.rho
  have e : a.rhoGas / x * Rg * a.T / (a.P / x) = a.rhoGas * Rg * a.T / a.P := by field_simp
  simp only [meanFreePath, stateAfter, expanded, e]
  field_simp

/-- The example state with 10 nm and 20 nm particles, expanded. -/
example : Tends (fun x : Set.Ioi (0 : ℝ) => (⟨.FUCHS, 1⟩ : Coag).rate (setState (State.mk' 3 0) (expanded argsEx x)).1 (sphereMass 1E-8) (sphereMass 2E-8))
    (atTop.comap Subtype.val) (𝓝 (specFM (2.2 * 1) stEx.T (sphereMass 1E-8) (sphereMass 2E-8) 1E-8 2E-8)) := by
  have hok : (setState (State.mk' 3 0) argsEx).2 = ok () := by
    rw [C01_setState_accepts _ _ (by simp [State.mk', argsEx]) (by simp [State.mk']) (by simpa [State.mk', nPah] using argsEx_admissible)]
  have e := C87_expansion _ _ hok
  have big : ∀ d : ℝ, 1E-8 ≤ d → mmin < sphereMass d := by
    intro d hd
    have := two_le_pi
    have h3 : (1E-8 : ℝ) ^ 3 ≤ d ^ 3 := by gcongr
    unfold mmin sphereMass rhoSoot
    norm_num at h3 ⊢
    nlinarith [mul_le_mul this h3 (by positivity) (by positivity)]
  refine (C87_free_molecular _ (fun x : Set.Ioi (0 : ℝ) => (setState (State.mk' 3 0) (expanded argsEx x)).1) (fun x => ⟨_, _, (e x x.2).1, rfl⟩)
    stEx.T stEx.muGas (fun x => (e x x.2).2.1) (fun x => (e x x.2).2.2.1.le) ?_ 1 one_pos (big _ le_rfl) (big _ (by norm_num))
    (Regime.sphere (by norm_num)) (Regime.sphere (by norm_num))).2.2.1
  have : (fun x : Set.Ioi (0 : ℝ) => meanFreePath (setState (State.mk' 3 0) (expanded argsEx x)).1) = fun x : Set.Ioi (0 : ℝ) => (x : ℝ) * meanFreePath stEx :=
    funext fun x => (e x x.2).2.2.2
  rw [this]
  exact tendsto_comap.atTop_mul_const stEx_accepted.phys.mfpVal_pos

/-- Two equal growing spheres: the constant is `8 kB T / (3 mu)`. -/
example : Tends (fun x => (⟨.HM, 1⟩ : Coag).rate stEx (sphereMass (1 * x)) (sphereMass (1 * x))) atTop (𝓝 (8 * kb * stEx.T / (3 * stEx.muGas))) := by
  have := (C87_continuum stEx stEx_accepted 1 one_pos 1 1 one_pos one_pos).2.1
  convert this using 2
  ring

/-- The slope theorem applies to a fixed particle of 10 nm. -/
example : Grows (fun x => (⟨.FUCHS, 1⟩ : Coag).rate stEx (sphereMass 1E-8) (sphereMass x)) 1
    (2 * kb * stEx.T / (3 * stEx.muGas) / 1E-8 * specSlip (meanFreePath stEx) 1E-8) :=
  (C87_slopes stEx stEx_accepted 1 one_pos 1E-8 (by norm_num) (by
    have := two_le_pi
    unfold mmin sphereMass rhoSoot
    norm_num; linarith)).2.2.2.1

end Soot
