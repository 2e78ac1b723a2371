import Verif.Props.Logn
import Verif.Props.Kernels
import Mathlib.Probability.Distributions.Gaussian.Real
import Mathlib.MeasureTheory.Integral.Prod

/-!
# C54: the collision terms of LOGN are collision integrals of the lognormal distribution

The specification is the general coagulation equation of `docs/models/1_chemistry.md`, integrated over a genuine lognormal number density: a
particle has mass `exp X`, `X` Gaussian with mean `μ` and variance `v`, and there are `N` particles per volume.
-/

namespace Soot

open Res Real MeasureTheory ProbabilityTheory
open scoped Classical NNReal

/-! ## Specification -/

/-- `∫ f(m) n(m) dm` over the lognormal number density. -/
noncomputable def lnInt (N μ : ℝ) (v : ℝ≥0) (f : ℝ → ℝ) : ℝ := N * ∫ x, f (exp x) ∂gaussianReal μ v

/-- `∬ f(m, m') n(m) n(m') dm dm'`. -/
noncomputable def lnInt2 (N μ : ℝ) (v : ℝ≥0) (f : ℝ → ℝ → ℝ) : ℝ :=
  N * N * ∫ z, f (exp z.1) (exp z.2) ∂(gaussianReal μ v).prod (gaussianReal μ v)

/-- Diameter of a sphere of mass `m`. -/
noncomputable def dia (m : ℝ) : ℝ := (6 * m / (π * rhoSoot)) ^ ((1 : ℝ) / 3)

/-- Free-molecular collision rate. -/
noncomputable def betaFM (e : ℝ) (s : State) (m m' : ℝ) : ℝ := specFM (2.2 * e) s.T m m' (dia m) (dia m')

/-- The same with `(1/m + 1/m')^{1/2}` replaced by `b (1/m^{1/2} + 1/m'^{1/2})`, `b = 0.8536` (docs/models/3_logn.md). -/
noncomputable def betaFMb (e : ℝ) (s : State) (m m' : ℝ) : ℝ :=
  2.2 * e * sqrt (π * kb * s.T / 2) * (0.8536 * (1 / sqrt m + 1 / sqrt m')) * (dia m + dia m') ^ 2

/-- Continuum collision rate with slip correction `1 + 1.657 Kn`. -/
noncomputable def betaC (s : State) (m m' : ℝ) : ℝ :=
  specCont (specD s.T s.muGas (1 + 3.314 * meanFreePath s / dia m) (dia m))
    (specD s.T s.muGas (1 + 3.314 * meanFreePath s / dia m') (dia m')) (dia m) (dia m')

/-- Change of the moment of order `k` by coagulation: every pair of particles is counted twice. -/
noncomputable def coagMoment (N μ : ℝ) (v : ℝ≥0) (β : ℝ → ℝ → ℝ) (k : ℕ) : ℝ :=
  1 / 2 * lnInt2 N μ v fun m m' => β m m' * ((m + m') ^ k - m ^ k - m' ^ k)

/-! ## Integrals of sums of powers -/

/-- `Σ c m^a` -/
noncomputable def poly1 (l : List (ℝ × ℝ)) (m : ℝ) : ℝ := (l.map fun t => t.1 * m ^ t.2).sum
/-- `Σ c m^a m'^b` -/
noncomputable def poly2 (l : List (ℝ × ℝ × ℝ)) (m m' : ℝ) : ℝ := (l.map fun t => t.1 * (m ^ t.2.1 * m' ^ t.2.2)).sum

variable {N μ : ℝ} {v : ℝ≥0}

theorem integrable_pow (a : ℝ) : Integrable (fun x => exp x ^ a) (gaussianReal μ v) := by
  have := integrable_exp_mul_gaussianReal (μ := μ) (v := v) a
  refine this.congr (Filter.Eventually.of_forall fun x => ?_)
  simp only
  rw [← exp_mul, mul_comm]

theorem lnInt_pow (a : ℝ) : lnInt N μ v (fun m => m ^ a) = N * exp (a * μ + a ^ 2 * v / 2) := by
  have := congrFun (mgf_fun_id_gaussianReal (μ := μ) (v := v)) a
  rw [mgf] at this
  rw [lnInt]
  congr 1
  rw [show a * μ + a ^ 2 * v / 2 = μ * a + v * a ^ 2 / 2 by ring, ← this]
  refine integral_congr_ae (Filter.Eventually.of_forall fun x => ?_)
  simp only
  rw [← exp_mul, mul_comm]

theorem poly1_int (l : List (ℝ × ℝ)) : Integrable (fun x => poly1 l (exp x)) (gaussianReal μ v) ∧
    lnInt N μ v (poly1 l) = (l.map fun t => t.1 * lnInt N μ v (fun m => m ^ t.2)).sum := by
  induction l with
  | nil => simp [poly1, lnInt]
  | cons t l ih =>
    have e : poly1 (t :: l) = fun m => t.1 * m ^ t.2 + poly1 l m := by funext m; simp [poly1]
    have i1 : Integrable (fun x => t.1 * exp x ^ t.2) (gaussianReal μ v) := (integrable_pow t.2).const_mul _
    refine ⟨by rw [e]; exact i1.add ih.1, ?_⟩
    rw [List.map_cons, List.sum_cons, ← ih.2, e, lnInt, lnInt, lnInt, integral_add i1 ih.1, integral_const_mul]
    ring

theorem poly2_int (l : List (ℝ × ℝ × ℝ)) :
    Integrable (fun z : ℝ × ℝ => poly2 l (exp z.1) (exp z.2)) ((gaussianReal μ v).prod (gaussianReal μ v)) ∧
    lnInt2 N μ v (poly2 l) = (l.map fun t => t.1 * (lnInt N μ v (fun m => m ^ t.2.1) * lnInt N μ v (fun m => m ^ t.2.2))).sum := by
  induction l with
  | nil => simp [poly2, lnInt2]
  | cons t l ih =>
    have e : poly2 (t :: l) = fun m m' => t.1 * (m ^ t.2.1 * m' ^ t.2.2) + poly2 l m m' := by funext m m'; simp [poly2]
    have i0 := Integrable.mul_prod (integrable_pow (μ := μ) (v := v) t.2.1) (integrable_pow (μ := μ) (v := v) t.2.2)
    have i1 := i0.const_mul t.1
    refine ⟨by rw [e]; exact i1.add ih.1, ?_⟩
    rw [List.map_cons, List.sum_cons, ← ih.2, e, lnInt2, lnInt2, lnInt, lnInt, integral_add i1 ih.1, integral_const_mul,
      integral_prod_mul (fun x => exp x ^ t.2.1) (fun x => exp x ^ t.2.2)]
    ring

theorem lnInt2_congr {f g : ℝ → ℝ → ℝ} (h : ∀ m m', 0 < m → 0 < m' → f m m' = g m m') : lnInt2 N μ v f = lnInt2 N μ v g := by
  unfold lnInt2
  congr 1
  exact integral_congr_ae (Filter.Eventually.of_forall fun z => h _ _ (exp_pos _) (exp_pos _))

theorem lnInt_congr {f g : ℝ → ℝ} (h : ∀ m, 0 < m → f m = g m) : lnInt N μ v f = lnInt N μ v g := by
  unfold lnInt
  congr 1
  exact integral_congr_ae (Filter.Eventually.of_forall fun z => h _ (exp_pos _))

/-! ## Kernels as sums of powers -/

theorem sixth {m : ℝ} (h : 0 < m) (r : ℝ) (k : ℤ) (hr : r = k / 6) : m ^ r = (m ^ ((1 : ℝ) / 6)) ^ k := by
  rw [← rpow_intCast, ← rpow_mul h.le, hr]; congr 1; ring

theorem dia_eq {m : ℝ} (h : 0 < m) : dia m = (6 / (π * rhoSoot)) ^ ((1 : ℝ) / 3) * m ^ ((1 : ℝ) / 3) := by
  have := rhoSoot_pos
  rw [dia, mul_div_right_comm, mul_rpow (by positivity) h.le]

theorem dia_sphere {m : ℝ} (h : 0 < m) : IsSphere m (dia m) := by
  have := rhoSoot_pos
  refine ⟨by unfold dia; positivity, ?_⟩
  rw [dia, ← rpow_natCast, ← rpow_mul (by positivity)]
  norm_num
  field_simp

noncomputable def listFM (k : ℝ) : List (ℝ × ℝ × ℝ) :=
  [(k, 1 / 6, 0), (2 * k, -1 / 6, 2 / 6), (k, -3 / 6, 4 / 6), (k, 4 / 6, -3 / 6), (2 * k, 2 / 6, -1 / 6), (k, 0, 1 / 6)]

theorem betaFMb_poly (c : Coag) (s : State) {m m' : ℝ} (h : 0 < m) (h' : 0 < m') :
    betaFMb c.fmMult s m m' = poly2 (listFM (c.kfmVal s * bCoag)) m m' := by
  have hr := rhoSoot_pos
  have e1 : (6 / (π * rhoSoot)) ^ twothird = ((6 / (π * rhoSoot)) ^ ((1 : ℝ) / 3)) ^ 2 := by
    rw [← rpow_natCast, ← rpow_mul (by positivity), twothird]; norm_num
  have e2 : sqrt (0.5 * π * kb * s.T) = sqrt (π * kb * s.T / 2) := by congr 1; ring
  rw [betaFMb, dia_eq h, dia_eq h', Coag.kfmVal, e1, e2, sqrt_eq_rpow m, sqrt_eq_rpow m']
  simp only [poly2, listFM, List.map_cons, List.map_nil, List.sum_cons, List.sum_nil]
  rw [sixth h (1 / 2) 3 (by norm_num), sixth h (1 / 3) 2 (by norm_num), sixth h (-1 / 6) (-1) (by norm_num),
    sixth h (-3 / 6) (-3) (by norm_num), sixth h (4 / 6) 4 (by norm_num), sixth h (2 / 6) 2 (by norm_num),
    sixth h' (1 / 2) 3 (by norm_num), sixth h' (1 / 3) 2 (by norm_num), sixth h' (-1 / 6) (-1) (by norm_num),
    sixth h' (-3 / 6) (-3) (by norm_num), sixth h' (4 / 6) 4 (by norm_num), sixth h' (2 / 6) 2 (by norm_num)]
  have u0 : m ^ ((1 : ℝ) / 6) ≠ 0 := by positivity
  have u0' : m' ^ ((1 : ℝ) / 6) ≠ 0 := by positivity
  generalize m ^ ((1 : ℝ) / 6) = u at *
  generalize m' ^ ((1 : ℝ) / 6) = w at *
  simp only [epsC, bCoag, rpow_zero, zpow_neg]
  norm_cast
  field_simp
  ring

noncomputable def listC (k p : ℝ) : List (ℝ × ℝ × ℝ) :=
  [(2 * k, 0, 0), (k, 2 / 6, -2 / 6), (k, -2 / 6, 2 / 6), (k * p, -2 / 6, 0), (k * p, 0, -2 / 6), (k * p, 2 / 6, -4 / 6),
   (k * p, -4 / 6, 2 / 6)]

theorem betaC_poly {s : State} (hp : s.Phys) {m m' : ℝ} (h : 0 < m) (h' : 0 < m') :
    betaC s m m' = poly2 (listC (kcVal s) (kcpVal s)) m m' := by
  have hr := rhoSoot_pos
  rw [betaC, ← contVal_spec hp (dia_sphere h) (dia_sphere h'), contVal, diam_of_sphere (dia_sphere h), diam_of_sphere (dia_sphere h'),
    dia_eq h, dia_eq h', kcpVal]
  simp only [poly2, listC, List.map_cons, List.map_nil, List.sum_cons, List.sum_nil]
  have e : (π * rhoSoot / 6) ^ onethird = ((6 / (π * rhoSoot)) ^ ((1 : ℝ) / 3))⁻¹ := by
    rw [← inv_rpow (by positivity), inv_div, onethird]
  have q0 : (6 / (π * rhoSoot)) ^ ((1 : ℝ) / 3) ≠ 0 := by positivity
  rw [e]
  generalize (6 / (π * rhoSoot)) ^ ((1 : ℝ) / 3) = q at *
  rw [sixth h (1 / 3) 2 (by norm_num), sixth h (-2 / 6) (-2) (by norm_num), sixth h (2 / 6) 2 (by norm_num),
    sixth h (-4 / 6) (-4) (by norm_num),
    sixth h' (1 / 3) 2 (by norm_num), sixth h' (-2 / 6) (-2) (by norm_num), sixth h' (2 / 6) 2 (by norm_num),
    sixth h' (-4 / 6) (-4) (by norm_num)]
  have u0 : m ^ ((1 : ℝ) / 6) ≠ 0 := by positivity
  have u0' : m' ^ ((1 : ℝ) / 6) ≠ 0 := by positivity
  generalize m ^ ((1 : ℝ) / 6) = u at *
  generalize m' ^ ((1 : ℝ) / 6) = w at *
  simp only [rpow_zero, zpow_neg]
  norm_cast
  field_simp
  ring

/-- Raise the exponents of a kernel. -/
theorem poly2_shift (l : List (ℝ × ℝ × ℝ)) (k a b : ℝ) {m m' : ℝ} (h : 0 < m) (h' : 0 < m') :
    k * (m ^ a * m' ^ b) * poly2 l m m' = poly2 (l.map fun t => (k * t.1, t.2.1 + a, t.2.2 + b)) m m' := by
  induction l with
  | nil => simp [poly2]
  | cons t l ih =>
    simp only [poly2, List.map_cons, List.sum_cons, mul_add] at ih ⊢
    rw [ih, rpow_add h, rpow_add h']
    ring

/-! ## Moments -/

theorem lognM_lnInt (hN : 0 < N) (r : ℝ) :
    lognM (lnInt N μ v fun m => m ^ (0 : ℝ)) (lnInt N μ v fun m => m ^ (1 : ℝ)) (lnInt N μ v fun m => m ^ (2 : ℝ)) r =
      lnInt N μ v fun m => m ^ r := by
  have e : ∀ r : ℝ, (lnInt N μ v fun m => m ^ r) = lognormalMoment N μ (sqrt v) r := by
    intro r; rw [lnInt_pow, lognormalMoment, sq_sqrt v.coe_nonneg]
  have hp : ∀ k, 0 < lognormalMoment N μ (sqrt v) k := fun k => by unfold lognormalMoment; positivity
  rw [e, e, e, e]
  by_cases h0 : r = 0
  · rw [h0, lognM_zero]
  by_cases h1 : r = 1
  · rw [h1, lognM_one]
  rw [lognM_frac _ _ _ h0 h1]
  have := C25_lognormal_moments.1 N μ (sqrt v) r hN
  rw [lognMr_ok (hp 1).le (hp 2).le] at this
  exact ok.inj this

/-! ## C54 -/

section
variable (N μ v)

/-- Moments of the lognormal distribution, by integration. -/
noncomputable def lnMom (r : ℝ) : ℝ := lnInt N μ v fun m => m ^ r

/-- Collisions of one dimer of mass `mD` with the particles, each weighted with `m^k`. -/
noncomputable def dimerMoment (β : ℝ → ℝ → ℝ) (mD : ℝ) (k : ℕ) : ℝ := lnInt N μ v fun m => β m mD * m ^ k
end

theorem coagMoment_zero {β : ℝ → ℝ → ℝ} {l : List (ℝ × ℝ × ℝ)} (h : ∀ m m', 0 < m → 0 < m' → β m m' = poly2 l m m') :
    coagMoment N μ v β 0 = -(1 / 2) * (l.map fun t => t.1 * (lnMom N μ v t.2.1 * lnMom N μ v t.2.2)).sum := by
  have e : lnInt2 N μ v (fun m m' => β m m' * ((m + m') ^ 0 - m ^ 0 - m' ^ 0)) = -lnInt2 N μ v (poly2 l) := by
    rw [lnInt2_congr (g := fun m m' => -poly2 l m m') (fun m m' a b => by rw [h m m' a b]; simp), lnInt2, lnInt2, integral_neg]
    ring
  rw [coagMoment, e, (poly2_int l).2]
  unfold lnMom
  ring

theorem coagMoment_two {β : ℝ → ℝ → ℝ} {l : List (ℝ × ℝ × ℝ)} (h : ∀ m m', 0 < m → 0 < m' → β m m' = poly2 l m m') :
    coagMoment N μ v β 2 = (l.map fun t => t.1 * (lnMom N μ v (t.2.1 + 1) * lnMom N μ v (t.2.2 + 1))).sum := by
  have e : lnInt2 N μ v (fun m m' => β m m' * ((m + m') ^ 2 - m ^ 2 - m' ^ 2)) =
      lnInt2 N μ v (poly2 (l.map fun t => (2 * t.1, t.2.1 + 1, t.2.2 + 1))) := by
    refine lnInt2_congr fun m m' a b => ?_
    rw [← poly2_shift l 2 1 1 a b, h m m' a b, rpow_one, rpow_one]; ring
  rw [coagMoment, e, (poly2_int _).2, List.map_map, ← List.sum_map_mul_left]
  congr 1
  refine List.map_congr_left fun t _ => ?_
  simp only [Function.comp, lnMom]
  ring

theorem lnMom_zero : lnMom N μ v 0 = N := by
  unfold lnMom; rw [lnInt_pow]; simp

theorem lnMom_pos (hN : 0 < N) (r : ℝ) : 0 < lnMom N μ v r := by
  unfold lnMom; rw [lnInt_pow]; positivity

/-- **C54, coagulation.** On the moments of any lognormal distribution the coagulation terms of LOGN are the coagulation integrals: exactly
for the continuum kernel, and for the free-molecular kernel with the documented replacement of its singular factor. -/
theorem C54_coag_integrals (hN : 0 < N) (s : State) (hs : Accepted s) (c : Coag) :
    (let M := lnMom N μ v
     let β := betaFMb c.fmMult s
     lognCoagFM c s (M 0) (M 1) (M 2) = ok (coagMoment N μ v β 0, coagMoment N μ v β 2) ∧
     lognCoagC c s (M 0) (M 1) (M 2) = ok (coagMoment N μ v (betaC s) 0, coagMoment N μ v (betaC s) 2)) := by
  have hp := hs.phys
  have M : ∀ r, lognM (lnMom N μ v 0) (lnMom N μ v 1) (lnMom N μ v 2) r = lnMom N μ v r := fun r => lognM_lnInt hN r
  have p1 := (lnMom_pos (μ := μ) (v := v) hN 1).le
  have p2 := (lnMom_pos (μ := μ) (v := v) hN 2).le
  constructor
  · rw [lognCoagFM_ok hp p1 p2, coagMoment_zero (fun m m' a b => betaFMb_poly c s a b), coagMoment_two (fun m m' a b => betaFMb_poly c s a b)]
    simp only [lognCoa0Fm, lognCoa2Fm, M, listFM, List.map_cons, List.map_nil, List.sum_cons, List.sum_nil]
    norm_num
    constructor <;> ring
  · rw [lognCoagC_ok hp p1 p2, coagMoment_zero (fun m m' a b => betaC_poly hp a b), coagMoment_two (fun m m' a b => betaC_poly hp a b)]
    simp only [lognCoa0C, lognCoa2C, M, listC, List.map_cons, List.map_nil, List.sum_cons, List.sum_nil]
    norm_num
    constructor <;> ring

theorem dimerMoment_poly {β : ℝ → ℝ → ℝ} {l : List (ℝ × ℝ × ℝ)} {mD : ℝ} (hD : 0 < mD) (h : ∀ m m', 0 < m → 0 < m' → β m m' = poly2 l m m')
    (k : ℕ) : dimerMoment N μ v β mD k = (l.map fun t => t.1 * (lnMom N μ v (t.2.1 + k) * mD ^ t.2.2)).sum := by
  have e : dimerMoment N μ v β mD k = lnInt N μ v (poly1 (l.map fun t => (t.1 * mD ^ t.2.2, t.2.1 + k))) := by
    refine lnInt_congr fun m a => ?_
    rw [h m mD a hD, poly2, poly1, List.map_map, ← List.sum_map_mul_right]
    congr 1
    refine List.map_congr_left fun t _ => ?_
    simp only [Function.comp]
    rw [rpow_add a, rpow_natCast]; ring
  rw [e, (poly1_int _).2, List.map_map]
  congr 1
  refine List.map_congr_left fun t _ => ?_
  simp only [Function.comp, lnMom]
  ring

/-- **C54, condensation.** The collision rates of a PAH dimer with the soot used for the first and second moment are likewise the integrals
over the distribution (the second moment grows by `2 m mD` per collision to leading order; the factor `mD` is applied by the caller). -/
theorem C54_dimer_integrals (hN : 0 < N) (s : State) (hs : Accepted s) (c : Coag) (mD : ℝ) (hD : 0 < mD) :
    (let M := lnMom N μ v
     let β := betaFMb c.fmMult s
     lognI1 c s (M 0) (M 1) (M 2) mD = ok (dimerMoment N μ v β mD 0, dimerMoment N μ v (betaC s) mD 0) ∧
     lognI2 c s (M 0) (M 1) (M 2) mD = ok (2 * dimerMoment N μ v β mD 1, 2 * dimerMoment N μ v (betaC s) mD 1)) := by
  have hp := hs.phys
  have M : ∀ r, lognM (lnMom N μ v 0) (lnMom N μ v 1) (lnMom N μ v 2) r = lnMom N μ v r := fun r => lognM_lnInt hN r
  have p1 := (lnMom_pos (μ := μ) (v := v) hN 1).le
  have p2 := (lnMom_pos (μ := μ) (v := v) hN 2).le
  have f := fun k => dimerMoment_poly (N := N) (μ := μ) (v := v) hD (fun m m' a b => betaFMb_poly c s a b) k
  have g := fun k => dimerMoment_poly (N := N) (μ := μ) (v := v) hD (fun m m' a b => betaC_poly hp a b) k
  constructor
  · rw [lognI1_ok hp p1 p2 hD, f, g]
    simp only [lognFm1, lognC1, M, listFM, listC, List.map_cons, List.map_nil, List.sum_cons, List.sum_nil, onethird, twothird]
    norm_num
    constructor <;> ring
  · rw [lognI2_ok hp p1 p2 hD, f, g]
    simp only [lognFm2, lognC2, M, listFM, listC, List.map_cons, List.map_nil, List.sum_cons, List.sum_nil, onethird, twothird]
    norm_num
    constructor <;> ring

/-- Kernel of a LOGN coagulation mechanism (specification). -/
noncomputable def lognKernel (c : Coag) (s : State) : ℝ → ℝ → ℝ := if c.mech = .FM then betaFMb c.fmMult s else betaC s

/-- Right-hand side of the moment equation of order `k` (docs/models/1_chemistry.md): nucleation at rate `J` of nuclei of mass `mn`, growth
of mass at rate `g` per surface, coagulation with kernel `β`. -/
noncomputable def momentRHS (N μ : ℝ) (v : ℝ≥0) (J mn g : ℝ) (β : ℝ → ℝ → ℝ) (k : ℕ) : ℝ :=
  J * mn ^ k + k * lnInt N μ v (fun m => g * (π * dia m ^ 2) * m ^ ((k : ℝ) - 1)) + coagMoment N μ v β k

theorem growth_int (g : ℝ) (a b : ℝ) (hab : b = a + 2 / 3) :
    lnInt N μ v (fun m => g * (π * dia m ^ 2) * m ^ a) = g * (π * (6 / (π * rhoSoot)) ^ twothird * lnMom N μ v b) := by
  have hr := rhoSoot_pos
  have e : lnInt N μ v (fun m => g * (π * dia m ^ 2) * m ^ a) = lnInt N μ v (poly1 [(g * π * (6 / (π * rhoSoot)) ^ twothird, b)]) := by
    refine lnInt_congr fun m h => ?_
    have e1 : (6 / (π * rhoSoot)) ^ twothird = ((6 / (π * rhoSoot)) ^ ((1 : ℝ) / 3)) ^ 2 := by
      rw [← rpow_natCast, ← rpow_mul (by positivity), twothird]; norm_num
    have e2 : m ^ b = (m ^ ((1 : ℝ) / 3)) ^ 2 * m ^ a := by
      rw [← rpow_natCast, ← rpow_mul h.le, ← rpow_add h, hab]; congr 1; push_cast; ring
    rw [dia_eq h, poly1, e1]
    simp only [List.map_cons, List.map_nil, List.sum_cons, List.sum_nil, e2]
    ring
  rw [e, (poly1_int _).2]
  simp only [List.map_cons, List.map_nil, List.sum_cons, List.sum_nil, lnMom]
  ring

/-- **C54, source terms.** On the moments of a lognormal distribution the three LOGN sources are the right-hand sides of the moment
equations for nucleation, growth, oxidation and coagulation (FM or CONTINUUM, no PAH). -/
theorem C54_moment_equations (hN : 0 < N) (m : Model) (s : State)
    (h : LognReady m s (lnMom N μ v 0) (lnMom N μ v 1) (lnMom N μ v 2)) (hp : m.nucl.mech ≠ .PAH) (hk : m.coag.mech ≠ .HM) :
    ∃ m' s' J n' kG kO, lognSources m s = ok (m', s') ∧ m.nucl.rate (lognIbeta m) s = ok (J, n', s') ∧
      m.grow.rate m.ctx s' = ok kG ∧ m.oxid.rate m.ctx s' = ok kO ∧
      m'.sources.soot = [0, 1, 2].map (momentRHS N μ v J (s'.cMin * gasMW .C / Na) (kG - kO) (lognKernel m.coag s)) := by
  obtain ⟨m', s', J, n', kG, kO, h1, h2, _, _, h5, h6, _, _, _, _, _, _, h13⟩ := logn_eval h (fun hx => absurd hx hp)
  refine ⟨m', s', J, n', kG, kO, h1, h2, h5, h6, ?_⟩
  have M : ∀ r, lognM (lnMom N μ v 0) (lnMom N μ v 1) (lnMom N μ v 2) r = lnMom N μ v r := fun r => lognM_lnInt hN r
  have c1 : ∀ β : ℝ → ℝ → ℝ, coagMoment N μ v β 1 = 0 := fun β => by simp [coagMoment, lnInt2]
  have hph := h.gas.acc.phys
  have hcoag : lognCoagVal m.coag s (lognM (lnMom N μ v 0) (lnMom N μ v 1) (lnMom N μ v 2)) =
      (coagMoment N μ v (lognKernel m.coag s) 0, coagMoment N μ v (lognKernel m.coag s) 2) := by
    have a := C54_coag_integrals (μ := μ) (v := v) hN s h.gas.acc m.coag
    dsimp only at a
    rw [lognCoagFM_ok hph h.m1 h.m2, lognCoagC_ok hph h.m1 h.m2] at a
    rcases h.kernel with hx | hx | hx
    · rw [lognCoagVal, hx, lognKernel, if_pos hx]; exact ok.inj a.1
    · rw [lognCoagVal, hx, lognKernel, if_neg (by rw [hx]; simp)]; exact ok.inj a.2
    · exact absurd hx hk
  rw [h13, hcoag]
  simp only [if_neg hp, List.map_cons, List.map_nil, momentRHS, c1]
  rw [growth_int (kG - kO) (((1 : ℕ) : ℝ) - 1) (4 / 6) (by norm_num), growth_int (kG - kO) (((2 : ℕ) : ℝ) - 1) (10 / 6) (by norm_num)]
  simp only [lognArea, M]
  congr 1
  · simp
  congr 1
  · push_cast; ring
  congr 1
  push_cast; ring

/-- **C54, every mechanism.** The same with PAH and with the harmonic mean: condensation adds `k m^(k-1) mD` per collision to the moment of order `k`, and
where both regimes enter, the code takes the harmonic mean of the two integrals (not the integral of the harmonic mean);
the loss of particles is left out with the harmonic mean (C18). -/
theorem C54_all_mechanisms (hN : 0 < N) (m : Model) (s : State) (h : LognReady m s (lnMom N μ v 0) (lnMom N μ v 1) (lnMom N μ v 2))
    (hy : m.nucl.mech = .PAH → ∃ y ∈ s.yPah, y ≠ 0) :
    ∃ m' s' J kG kO, ∃ cnd coa : ℕ → ℝ, lognSources m s = ok (m', s') ∧ m.nucl.rate (lognIbeta m) s = ok (J, m'.nucl, s') ∧
      m.grow.rate m.ctx s' = ok kG ∧ m.oxid.rate m.ctx s' = ok kO ∧
      m'.sources.soot = [0, 1, 2].map (fun k : ℕ => J * (s'.cMin * gasMW .C / Na) ^ k +
        k * lnInt N μ v (fun x => (kG - kO) * (π * dia x ^ 2) * x ^ ((k : ℝ) - 1)) + cnd k + coa k) ∧
      (∀ k ≤ 2,
        (m.nucl.mech ≠ .PAH → cnd k = 0) ∧
        (m.nucl.mech = .PAH → ∃ mD nD, mD = m'.nucl.dimer.mDimer ∧ nD = m'.nucl.dimer.nDimer ∧ 0 < mD ∧ 0 ≤ nD ∧
          cnd k = k * mD * nD * hmean (dimerMoment N μ v (betaFMb m.coag.fmMult s) mD (k - 1)) (dimerMoment N μ v (betaC s) mD (k - 1))) ∧
        (m.coag.mech = .FM → coa k = coagMoment N μ v (betaFMb m.coag.fmMult s) k) ∧
        (m.coag.mech = .CONTINUUM → coa k = coagMoment N μ v (betaC s) k) ∧
        (m.coag.mech = .HM → coa k = if k = 2 then
          hmean (coagMoment N μ v (betaFMb m.coag.fmMult s) k) (coagMoment N μ v (betaC s) k) else 0)) ∧
      (m.nucl.mech = .PAH → ∀ mD, 0 < mD →
        lognIbeta m s' mD = ok (hmean (dimerMoment N μ v (betaFMb m.coag.fmMult s) mD 0) (dimerMoment N μ v (betaC s) mD 0))) := by
  have q0 := lnMom_pos (μ := μ) (v := v) hN 0
  have q1 := lnMom_pos (μ := μ) (v := v) hN 1
  obtain ⟨m', s', J, n', kG, kO, h1, h2, h3, h4, h5, h6, _, _, _, _, h11, h12, h13⟩ := logn_eval h (fun hx => ⟨q0, q1, hy hx⟩)
  have hn' : m'.nucl = n' := by obtain ⟨_, _, _, _, _, _, e⟩ := Model.finish_inv h12; rw [e]
  have M : ∀ r, lognM (lnMom N μ v 0) (lnMom N μ v 1) (lnMom N μ v 2) r = lnMom N μ v r := fun r => lognM_lnInt hN r
  have c1 : ∀ β : ℝ → ℝ → ℝ, coagMoment N μ v β 1 = 0 := fun β => by simp [coagMoment, lnInt2]
  have hph := h.gas.acc.phys
  have a := C54_coag_integrals (μ := μ) (v := v) hN s h.gas.acc m.coag
  dsimp only at a
  rw [lognCoagFM_ok hph h.m1 h.m2, lognCoagC_ok hph h.m1 h.m2] at a
  have dim : ∀ mD, 0 < mD →
      (lognFm1 m.coag s (lognM (lnMom N μ v 0) (lnMom N μ v 1) (lnMom N μ v 2)) mD = dimerMoment N μ v (betaFMb m.coag.fmMult s) mD 0 ∧
       lognC1 s (lognM (lnMom N μ v 0) (lnMom N μ v 1) (lnMom N μ v 2)) mD = dimerMoment N μ v (betaC s) mD 0) ∧
      (lognFm2 m.coag s (lognM (lnMom N μ v 0) (lnMom N μ v 1) (lnMom N μ v 2)) mD = 2 * dimerMoment N μ v (betaFMb m.coag.fmMult s) mD 1 ∧
       lognC2 s (lognM (lnMom N μ v 0) (lnMom N μ v 1) (lnMom N μ v 2)) mD = 2 * dimerMoment N μ v (betaC s) mD 1) := fun mD hD => by
    have b := C54_dimer_integrals (μ := μ) (v := v) hN s h.gas.acc m.coag mD hD
    dsimp only at b
    rw [lognI1_ok hph h.m1 h.m2 hD, lognI2_ok hph h.m1 h.m2 hD] at b
    simpa using b
  refine ⟨m', s', J, kG, kO,
    fun k => if m.nucl.mech = .PAH then k * n'.dimer.mDimer * n'.dimer.nDimer *
      hmean (dimerMoment N μ v (betaFMb m.coag.fmMult s) n'.dimer.mDimer (k - 1)) (dimerMoment N μ v (betaC s) n'.dimer.mDimer (k - 1)) else 0,
    fun k => if k = 0 then (lognCoagVal m.coag s (lognM (lnMom N μ v 0) (lnMom N μ v 1) (lnMom N μ v 2))).1 else
      if k = 1 then 0 else (lognCoagVal m.coag s (lognM (lnMom N μ v 0) (lnMom N μ v 1) (lnMom N μ v 2))).2,
    h1, hn' ▸ h2, h5, h6, ?_, fun k hk => ⟨fun hp => if_neg hp, fun hp => ?_, fun hx => ?_, fun hx => ?_, fun hx => ?_⟩, fun hp mD hD => ?_⟩
  · rw [h13]
    simp only [List.map_cons, List.map_nil]
    rw [growth_int (kG - kO) (((1 : ℕ) : ℝ) - 1) (4 / 6) (by norm_num), growth_int (kG - kO) (((2 : ℕ) : ℝ) - 1) (10 / 6) (by norm_num)]
    have e1 : (if m.nucl.mech = .PAH then n'.dimer.mDimer * n'.dimer.nDimer * lognBeta m s (lnMom N μ v 0) (lnMom N μ v 1) (lnMom N μ v 2) n'.dimer.mDimer
          else 0) = if m.nucl.mech = .PAH then ((1 : ℕ) : ℝ) * n'.dimer.mDimer * n'.dimer.nDimer *
          hmean (dimerMoment N μ v (betaFMb m.coag.fmMult s) n'.dimer.mDimer (1 - 1)) (dimerMoment N μ v (betaC s) n'.dimer.mDimer (1 - 1)) else 0 := by
      by_cases hp : m.nucl.mech = .PAH
      · obtain ⟨⟨d1, d2⟩, _⟩ := dim _ (h11 hp).1
        rw [if_pos hp, if_pos hp, lognBeta, d1, d2]; norm_num
      · rw [if_neg hp, if_neg hp]
    have e2 : (if m.nucl.mech = .PAH then n'.dimer.mDimer * n'.dimer.nDimer *
          hmean (lognFm2 m.coag s (lognM (lnMom N μ v 0) (lnMom N μ v 1) (lnMom N μ v 2)) n'.dimer.mDimer)
            (lognC2 s (lognM (lnMom N μ v 0) (lnMom N μ v 1) (lnMom N μ v 2)) n'.dimer.mDimer) else 0) =
        if m.nucl.mech = .PAH then ((2 : ℕ) : ℝ) * n'.dimer.mDimer * n'.dimer.nDimer *
          hmean (dimerMoment N μ v (betaFMb m.coag.fmMult s) n'.dimer.mDimer (2 - 1)) (dimerMoment N μ v (betaC s) n'.dimer.mDimer (2 - 1)) else 0 := by
      by_cases hp : m.nucl.mech = .PAH
      · obtain ⟨_, d1, d2⟩ := dim _ (h11 hp).1
        rw [if_pos hp, if_pos hp, d1, d2, hmean, hmean]
        generalize dimerMoment N μ v (betaFMb m.coag.fmMult s) n'.dimer.mDimer (2 - 1) = x
        generalize dimerMoment N μ v (betaC s) n'.dimer.mDimer (2 - 1) = y
        rw [show 2 * x * (2 * y) = 2 * (2 * (x * y)) by ring, ← mul_add, mul_div_mul_left _ _ (by norm_num : (2 : ℝ) ≠ 0)]
        push_cast; ring
      · rw [if_neg hp, if_neg hp]
    rw [e1, e2]
    simp only [lognArea, M]
    congr 1
    · simp
    congr 1
    · push_cast; simp
    congr 1
    push_cast; simp; ring
  · refine ⟨_, _, rfl, rfl, hn' ▸ (h11 hp).1, hn' ▸ (h11 hp).2, ?_⟩
    simp only [if_pos hp, hn']
  · rw [lognCoagVal, hx]
    have := ok.inj a.1
    interval_cases k
    · simpa using congrArg Prod.fst this
    · simp [c1]
    · simpa using congrArg Prod.snd this
  · rw [lognCoagVal, hx]
    have := ok.inj a.2
    interval_cases k
    · simpa using congrArg Prod.fst this
    · simp [c1]
    · simpa using congrArg Prod.snd this
  · rw [lognCoagVal, hx]
    have e1 := ok.inj a.1
    have e2 := ok.inj a.2
    simp only [Prod.mk.injEq] at e1 e2
    interval_cases k
    · simp
    · simp
    · simp [hmean, e1.2, e2.2]
  · have hr : LognReady m s' (lnMom N μ v 0) (lnMom N μ v 1) (lnMom N μ v 2) := by rw [h3]; exact h.upd h4
    obtain ⟨⟨d1, d2⟩, _⟩ := dim mD hD
    have e1 : lognFm1 m.coag s' = lognFm1 m.coag s := by rw [h3]; rfl
    have e3 : lognC1 s' = lognC1 s := by rw [h3]; rfl
    rw [(lognIbeta_ok hr hp q0 hD).1, lognBeta, e1, e3, d1, d2]

/-! ## The error of the free-molecular approximation -/

theorem fmb_bounds (e : ℝ) (he : 0 < e) (s : State) (hp : s.Phys) {m m' : ℝ} (h : 0 < m) (h' : 0 < m') :
    0.8536 * betaFM e s m m' ≤ betaFMb e s m m' ∧ betaFMb e s m m' ≤ 0.8536 * sqrt 2 * betaFM e s m m' := by
  have := hp.T; have := kb_pos
  have q : sqrt (π * kb * s.T / 2 * (1 / m + 1 / m')) = sqrt (π * kb * s.T / 2) * sqrt (1 / m + 1 / m') := sqrt_mul (by positivity) _
  have a1 : sqrt (1 / m + 1 / m') ≤ 1 / sqrt m + 1 / sqrt m' := by
    rw [sqrt_le_left (by positivity)]
    have e1 : (1 / sqrt m) ^ 2 = 1 / m := by rw [div_pow, sq_sqrt h.le, one_pow]
    have e2 : (1 / sqrt m') ^ 2 = 1 / m' := by rw [div_pow, sq_sqrt h'.le, one_pow]
    have : 0 ≤ 1 / sqrt m * (1 / sqrt m') := by positivity
    nlinarith
  have a2 : 1 / sqrt m + 1 / sqrt m' ≤ sqrt 2 * sqrt (1 / m + 1 / m') := by
    rw [← sqrt_mul (by norm_num)]
    apply le_sqrt_of_sq_le
    have e1 : (1 / sqrt m) ^ 2 = 1 / m := by rw [div_pow, sq_sqrt h.le, one_pow]
    have e2 : (1 / sqrt m') ^ 2 = 1 / m' := by rw [div_pow, sq_sqrt h'.le, one_pow]
    nlinarith [sq_nonneg (1 / sqrt m - 1 / sqrt m')]
  rw [betaFM, betaFMb, specFM, q]
  constructor
  · calc 0.8536 * (2.2 * e * (sqrt (π * kb * s.T / 2) * sqrt (1 / m + 1 / m')) * (dia m + dia m') ^ 2)
        = 2.2 * e * sqrt (π * kb * s.T / 2) * (0.8536 * sqrt (1 / m + 1 / m')) * (dia m + dia m') ^ 2 := by ring
      _ ≤ _ := by gcongr
  · calc 2.2 * e * sqrt (π * kb * s.T / 2) * (0.8536 * (1 / sqrt m + 1 / sqrt m')) * (dia m + dia m') ^ 2
        ≤ 2.2 * e * sqrt (π * kb * s.T / 2) * (0.8536 * (sqrt 2 * sqrt (1 / m + 1 / m'))) * (dia m + dia m') ^ 2 := by gcongr
      _ = _ := by ring

theorem betaFM_cont (e : ℝ) (s : State) : Continuous fun z : ℝ × ℝ => betaFM e s (exp z.1) (exp z.2) := by
  have hr := rhoSoot_pos
  unfold betaFM specFM dia
  have c1 : Continuous fun z : ℝ × ℝ => (6 * exp z.1 / (π * rhoSoot)) ^ ((1 : ℝ) / 3) :=
    Continuous.rpow_const (by fun_prop) (fun z => Or.inr (by norm_num))
  have c2 : Continuous fun z : ℝ × ℝ => (6 * exp z.2 / (π * rhoSoot)) ^ ((1 : ℝ) / 3) :=
    Continuous.rpow_const (by fun_prop) (fun z => Or.inr (by norm_num))
  have c3 : Continuous fun z : ℝ × ℝ => 1 / exp z.1 + 1 / exp z.2 := by
    refine Continuous.add ?_ ?_ <;> exact continuous_const.div (by fun_prop) (fun z => (exp_pos _).ne')
  fun_prop

/-- **C54, size of the approximation.** With the free-molecular kernel the computed loss of particles lies between 0.8536 and 1.2072 times
the exact one. -/
theorem C54_fm_error (hN : 0 < N) (s : State) (hs : Accepted s) (c : Coag) (hc : 0 < c.fmMult) :
    ∃ C0 C2, lognCoagFM c s (lnMom N μ v 0) (lnMom N μ v 1) (lnMom N μ v 2) = ok (C0, C2) ∧
      0.8536 * -coagMoment N μ v (betaFM c.fmMult s) 0 ≤ -C0 ∧
      -C0 ≤ 0.8536 * sqrt 2 * -coagMoment N μ v (betaFM c.fmMult s) 0 := by
  have hp := hs.phys
  refine ⟨_, _, (C54_coag_integrals hN s hs c).1, ?_⟩
  set G := (gaussianReal μ v).prod (gaussianReal μ v)
  have e : ∀ β : ℝ → ℝ → ℝ, -coagMoment N μ v β 0 = 1 / 2 * (N * N) * ∫ z, β (exp z.1) (exp z.2) ∂G := by
    intro β
    rw [coagMoment, lnInt2]
    simp only [pow_zero, sub_self, zero_sub, mul_neg, mul_one, integral_neg]
    ring
  have i1 : Integrable (fun z : ℝ × ℝ => betaFMb c.fmMult s (exp z.1) (exp z.2)) G := by
    refine (poly2_int (N := N) (listFM (c.kfmVal s * bCoag))).1.congr (Filter.Eventually.of_forall fun z => ?_)
    exact (betaFMb_poly c s (exp_pos _) (exp_pos _)).symm
  have hb := fun z : ℝ × ℝ => fmb_bounds c.fmMult hc s hp (exp_pos z.1) (exp_pos z.2)
  have hpos : ∀ z : ℝ × ℝ, 0 ≤ betaFM c.fmMult s (exp z.1) (exp z.2) := fun z => by
    unfold betaFM specFM; positivity
  have i2 : Integrable (fun z : ℝ × ℝ => betaFM c.fmMult s (exp z.1) (exp z.2)) G := by
    refine (i1.const_mul (1 / 0.8536)).mono' (betaFM_cont _ _).aestronglyMeasurable (Filter.Eventually.of_forall fun z => ?_)
    rw [norm_of_nonneg (hpos z), one_div, ← div_eq_inv_mul, le_div_iff₀ (by norm_num)]
    linarith [(hb z).1]
  rw [e, e]
  constructor
  · have := integral_mono (i2.const_mul 0.8536) i1 (fun z => (hb z).1)
    rw [integral_const_mul] at this
    nlinarith [mul_pos hN hN]
  · have := integral_mono i1 (i2.const_mul (0.8536 * sqrt 2)) (fun z => (hb z).2)
    rw [integral_const_mul] at this
    nlinarith [mul_pos hN hN]

/-- The upper bound is attained by equal particles, where the error is more than the 15 % of the documentation. -/
theorem C54_fm_error_attained (s : State) (c : Coag) :
    -coagMoment N μ 0 (betaFMb c.fmMult s) 0 = 0.8536 * sqrt 2 * -coagMoment N μ 0 (betaFM c.fmMult s) 0 ∧ (1.2 : ℝ) < 0.8536 * sqrt 2 := by
  constructor
  · have e : ∀ β : ℝ → ℝ → ℝ, -coagMoment N μ 0 β 0 = 1 / 2 * (N * N) * β (exp μ) (exp μ) := by
      intro β
      rw [coagMoment, lnInt2]
      simp only [pow_zero, sub_self, zero_sub, mul_neg, mul_one, integral_neg, gaussianReal_zero_var]
      rw [Measure.dirac_prod_dirac, integral_dirac]
      ring
    rw [e, e, betaFMb, betaFM, specFM]
    have q : sqrt (π * kb * s.T / 2 * (1 / exp μ + 1 / exp μ)) = sqrt (π * kb * s.T / 2) * (sqrt 2 * (1 / sqrt (exp μ))) := by
      rw [sqrt_mul' _ (by positivity), ← two_mul, sqrt_mul (by norm_num), sqrt_div zero_le_one, sqrt_one]
    rw [q]
    have : sqrt 2 * sqrt 2 = (2 : ℝ) := mul_self_sqrt (by norm_num)
    linear_combination (-(1 / 2 * (N * N)) * 0.8536 * (2.2 * c.fmMult) * sqrt (π * kb * s.T / 2) * (1 / sqrt (exp μ)) *
      (dia (exp μ) + dia (exp μ)) ^ 2) * this
  · have : (1.41 : ℝ) < sqrt 2 := by rw [lt_sqrt (by norm_num)]; norm_num
    linarith

/-- The moment equations on a concrete distribution with every process switched on. -/
example : ∃ m' s', lognSources (exModel .LOGN 3 .LL .LL .LL .CONTINUUM)
    (exSt [lnMom 1E15 (-50) 0.5 0, lnMom 1E15 (-50) 0.5 1, lnMom 1E15 (-50) 0.5 2] false) = ok (m', s') := by
  have hN : (0 : ℝ) < 1E15 := by norm_num
  obtain ⟨m', s', _, _, _, _, h, _⟩ := C54_moment_equations hN _ _ (exLognReady .LL (by simp) (by simp) .LL .LL .CONTINUUM (by simp)
    (lnMom_pos (μ := -50) (v := 0.5) hN 0).le (lnMom_pos hN 1).le (lnMom_pos hN 2).le false) (by simp [exModel, Nucl.new])
    (by simp [exModel, Coag.new])
  exact ⟨m', s', h⟩

/-- With PAH nucleation and the harmonic mean. -/
example : ∃ m' s', lognSources (exModel .LOGN 3 .PAH .LL .LL .HM)
    (exSt [lnMom 1E15 (-50) 0.5 0, lnMom 1E15 (-50) 0.5 1, lnMom 1E15 (-50) 0.5 2] false) = ok (m', s') := by
  have hN : (0 : ℝ) < 1E15 := by norm_num
  obtain ⟨m', s', _, _, _, _, _, h, _⟩ := C54_all_mechanisms hN _ _ (exLognReady .PAH (by simp) (by simp) .LL .LL .HM (by simp)
    (lnMom_pos (μ := -50) (v := 0.5) hN 0).le (lnMom_pos hN 1).le (lnMom_pos hN 2).le false) (fun _ => exSt_pah _)
  exact ⟨m', s', h⟩

/-- C54 on a concrete distribution and state. -/
example : ∃ C0 C2, lognCoagFM ⟨.FM, 1⟩ stEx2 (lnMom 1E15 (-50) 0.5 0) (lnMom 1E15 (-50) 0.5 1) (lnMom 1E15 (-50) 0.5 2) = ok (C0, C2) ∧
    0.8536 * -coagMoment 1E15 (-50) 0.5 (betaFM 1 stEx2) 0 ≤ -C0 := by
  obtain ⟨C0, C2, h1, h2, _⟩ := C54_fm_error (N := 1E15) (μ := -50) (v := 0.5) (by norm_num) stEx2 stEx2_accepted ⟨.FM, 1⟩ (by norm_num)
  exact ⟨C0, C2, h1, h2⟩

end Soot
