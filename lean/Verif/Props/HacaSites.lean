import Verif.Props.Docs
import Verif.Props.Continuity
import Mathlib.Analysis.SpecialFunctions.Trigonometric.DerivHyp

/-!
# The HACA site fraction (C103)

`alpha` ("fraction of available surface sites", growthModel_HACA.cc:99-102, oxidationModel_HACA.cc:69-72) is the hyperbolic tangent of
`a/log10(M1/M0) + b`, replaced by one when negative.  The mean mass `M1/M0` is in kilograms, so its logarithm is negative for every particle.
-/

namespace Soot

open Res Real Filter Topology
open scoped Classical

/-- How many decades the mean particle mass lies below one kilogram. -/
noncomputable def decades (M0 M1 : ℝ) : ℝ := -logb 10 (M1 / M0)

/-- The temperature at which the argument of the hyperbolic tangent vanishes. -/
noncomputable def siteT (M0 M1 : ℝ) : ℝ := (33.167 + 2.5786 * decades M0 M1) / (0.0154 + 0.00112 * decades M0 M1)

/-- The slope of that argument in the temperature. -/
noncomputable def siteSlope (M0 M1 : ℝ) : ℝ := (0.0154 + 0.00112 * decades M0 M1) / decades M0 M1

theorem decades_pos {M0 M1 : ℝ} (h0 : 0 < M0) (h1 : 0 < M1) (h : M1 < M0) : 0 < decades M0 M1 := by
  have : logb 10 (M1 / M0) < 0 := logb_neg (by norm_num) (by positivity) ((div_lt_one h0).2 h)
  unfold decades; linarith

theorem siteSlope_pos {M0 M1 : ℝ} (h0 : 0 < M0) (h1 : 0 < M1) (h : M1 < M0) : 0 < siteSlope M0 M1 := by
  have := decades_pos h0 h1 h
  unfold siteSlope; positivity

/-- The critical temperature lies between 2153 K and 2303 K for every mean mass below one kilogram. -/
theorem siteT_range {M0 M1 : ℝ} (h0 : 0 < M0) (h1 : 0 < M1) (h : M1 < M0) : 2153 < siteT M0 M1 ∧ siteT M0 M1 < 2303 := by
  have l := decades_pos h0 h1 h
  have d : 0 < 0.0154 + 0.00112 * decades M0 M1 := by positivity
  unfold siteT
  rw [lt_div_iff₀ d, div_lt_iff₀ d]
  constructor <;> nlinarith

theorem site_arg {M0 M1 : ℝ} (h0 : 0 < M0) (h1 : 0 < M1) (h : M1 < M0) (T : ℝ) :
    (33.167 - 0.0154 * T) / logb 10 (M1 / M0) + (-2.5786 + 0.00112 * T) = siteSlope M0 M1 * (T - siteT M0 M1) := by
  have l := decades_pos h0 h1 h
  have e : logb 10 (M1 / M0) = -decades M0 M1 := by unfold decades; ring
  unfold siteSlope siteT
  rw [e]
  generalize decades M0 M1 = ℓ at l
  have d : 0.0154 + 0.00112 * ℓ ≠ 0 := by positivity
  field_simp
  ring

theorem tanh_neg_iff {x : ℝ} : tanh x < 0 ↔ x < 0 := by
  rw [tanh_eq_sinh_div_cosh, div_lt_iff₀ (cosh_pos x), zero_mul, sinh_neg_iff]

theorem tanh_lt_tanh' {x y : ℝ} (h : x < y) : tanh x < tanh y := by
  rw [tanh_eq_sinh_div_cosh, tanh_eq_sinh_div_cosh, div_lt_div_iff₀ (cosh_pos x) (cosh_pos y)]
  have := sinh_pos_iff.2 (sub_pos.2 h)
  rw [sinh_sub] at this
  linarith

theorem tanh_cont : Continuous tanh := by
  have e : tanh = fun x => sinh x / cosh x := funext tanh_eq_sinh_div_cosh
  rw [e]
  exact continuous_sinh.div continuous_cosh fun x => (cosh_pos x).ne'

/-- **C103, the factor.** For particles of mean mass below one kilogram the site fraction is one below the critical temperature and a hyperbolic
tangent that starts from zero at and above it. -/
theorem C103_site_fraction (T M0 M1 : ℝ) (h0 : 0 < M0) (h1 : 0 < M1) (h : M1 < M0) :
    hacaAlpha T M0 M1 = ok (if T < siteT M0 M1 then 1 else tanh (siteSlope M0 M1 * (T - siteT M0 M1))) := by
  have x0 : 0 < M1 / M0 := by positivity
  have x1 : M1 / M0 < 1 := (div_lt_one h0).2 h
  have k := siteSlope_pos h0 h1 h
  have e := site_arg h0 h1 h T
  simp only [hacaAlpha, if_pos (show M0 > 0 from h0), hacaTanh, if_neg (not_lt.2 x0.le), if_neg x0.ne', if_neg x1.ne, ok_bind, e]
  congr 1
  have : tanh (siteSlope M0 M1 * (T - siteT M0 M1)) < 0 ↔ T < siteT M0 M1 := by
    rw [tanh_neg_iff, mul_neg_iff]
    constructor
    · rintro (⟨_, h⟩ | ⟨h, _⟩) <;> linarith
    · intro h; exact .inl ⟨k, by linarith⟩
  simp only [this]

/-- **C103, below 2153 K.** The site fraction is one: it depends neither on the size of the particles nor on the temperature, and the growth rate is that of
a surface with all sites available. -/
theorem C103_all_sites_partial (T M0 M1 : ℝ) (hT : T ≤ 2153) (h0 : 0 < M0) (h1 : 0 < M1) (h : M1 < M0) : hacaAlpha T M0 M1 = ok 1 := by
  rw [C103_site_fraction T M0 M1 h0 h1 h, if_pos (hT.trans_lt (siteT_range h0 h1 h).1)]

/-- **C103, size.** Where the fraction is below one it grows with the size of the particles: the larger mean mass has the larger fraction. -/
theorem C103_size_false (T M0 M1 N0 N1 : ℝ) (h0 : 0 < M0) (h1 : 0 < M1) (k0 : 0 < N0) (k1 : 0 < N1) (hm : M1 / M0 < N1 / N0) (k : N1 < N0)
    (hT : siteT M0 M1 ≤ T) : ∃ α β, hacaAlpha T M0 M1 = ok α ∧ hacaAlpha T N0 N1 = ok β ∧ 0 ≤ α ∧ α < β ∧ β < 1 := by
  have h : M1 < M0 := (div_lt_one h0).1 (hm.trans ((div_lt_one k0).2 k))
  have l1 := decades_pos h0 h1 h
  have l2 := decades_pos k0 k1 k
  have hl : decades N0 N1 < decades M0 M1 := neg_lt_neg (logb_lt_logb (by norm_num) (by positivity) hm)
  obtain ⟨r1, _⟩ := siteT_range h0 h1 h
  have hT' : siteT N0 N1 < T := by
    refine lt_of_lt_of_le ?_ hT
    unfold siteT
    rw [div_lt_div_iff₀ (by positivity) (by positivity)]
    nlinarith
  have ha : 33.167 - 0.0154 * T < 0 := by
    have : 33.167 < 0.0154 * siteT M0 M1 := by
      unfold siteT
      rw [← mul_div_assoc, lt_div_iff₀ (by positivity)]
      nlinarith
    linarith
  refine ⟨_, _, C103_site_fraction T M0 M1 h0 h1 h, C103_site_fraction T N0 N1 k0 k1 k, ?_⟩
  rw [if_neg (not_lt.2 hT), if_neg (not_lt.2 hT'.le)]
  have s0 : 0 ≤ siteSlope M0 M1 * (T - siteT M0 M1) := mul_nonneg (siteSlope_pos h0 h1 h).le (by linarith)
  refine ⟨not_lt.1 fun hh => absurd (tanh_neg_iff.1 hh) (not_lt.2 s0), tanh_lt_tanh' ?_, tanh_lt_one _⟩
  rw [← site_arg h0 h1 h, ← site_arg k0 k1 k]
  have e1 : logb 10 (M1 / M0) = -decades M0 M1 := by unfold decades; ring
  have e2 : logb 10 (N1 / N0) = -decades N0 N1 := by unfold decades; ring
  rw [e1, e2, div_neg, div_neg, ← neg_div, ← neg_div]
  have : -(33.167 - 0.0154 * T) / decades M0 M1 < -(33.167 - 0.0154 * T) / decades N0 N1 := div_lt_div_of_pos_left (by linarith) l2 hl
  linarith

/-- A family of states that differ in the temperature (and what `setState` derives from it) only. -/
structure Heating (x : Ctx) (st : ℝ → State) (M0 M1 : ℝ) : Prop where
  gas : ∀ T, 0 < T → GasOk (st T)
  sized : ∀ T, 0 < T → Sized x (st T)
  temp : ∀ T, 0 < T → (st T).T = T
  conc : ∀ T, 0 < T → ∀ sp, cVal (st T) sp = cVal (st 1) sp
  num : ∀ T, 0 < T → numOf x (st T) = M0
  mass : ∀ T, 0 < T → massOf x (st T) = M1

section
variable {H OH H2 H2O C2H2 O2 : ℝ}

/-- The documented radical site density is continuous in the temperature when hydrogen atoms are present. -/
theorem chiC_cont {t : ℝ} (ht : 0 < t) (a1 : 0 < H) (a2 : 0 ≤ OH) (a3 : 0 ≤ H2) (a4 : 0 ≤ H2O) (a5 : 0 ≤ C2H2) (a6 : 0 ≤ O2) :
    ContinuousAt (fun T => Doc.chiC T (1.9872036E-3 * T) H OH H2 H2O C2H2 O2) t ∧ 0 < Doc.chiC t (1.9872036E-3 * t) H OH H2 H2O C2H2 O2 := by
  have hRT : (1.9872036E-3 : ℝ) * t ≠ 0 := by positivity
  have E : ∀ c : ℝ, ContinuousAt (fun T : ℝ => exp (c / (1.9872036E-3 * T))) t := fun c =>
    (continuousAt_const.div (continuousAt_const.mul continuousAt_id) hRT).rexp
  have R : ∀ p : ℝ, ContinuousAt (fun T : ℝ => T ^ p) t := fun p => continuousAt_id.rpow_const (.inl ht.ne')
  have d : 0 < Doc.kr1 (1.9872036E-3 * t) * H2 + Doc.kr2 t (1.9872036E-3 * t) * H2O + Doc.k3 * H + Doc.k4 t (1.9872036E-3 * t) * C2H2 +
      Doc.k5 (1.9872036E-3 * t) * O2 := by
    unfold Doc.kr1 Doc.kr2 Doc.k3 Doc.k4 Doc.k5; positivity
  constructor
  · unfold Doc.chiC
    refine ContinuousAt.mul (ContinuousAt.div ?_ ?_ d.ne') continuousAt_const
    · unfold Doc.k1 Doc.k2
      exact ((continuousAt_const.mul (E _)).mul continuousAt_const).add (((continuousAt_const.mul (R _)).mul (E _)).mul continuousAt_const)
    · unfold Doc.kr1 Doc.kr2 Doc.k3 Doc.k4 Doc.k5
      exact (((((continuousAt_const.mul (E _)).mul continuousAt_const).add (((continuousAt_const.mul (R _)).mul (E _)).mul continuousAt_const)).add
        continuousAt_const).add (((continuousAt_const.mul (R _)).mul (E _)).mul continuousAt_const)).add ((continuousAt_const.mul (E _)).mul continuousAt_const)
  · unfold Doc.chiC
    refine mul_pos (div_pos ?_ d) (by norm_num [Doc.chiCH])
    unfold Doc.k1 Doc.k2; positivity

end

/-- The rate of a reaction at radical sites as the temperature rises: a continuous positive factor times the site fraction. -/
theorem site_jump {M0 M1 : ℝ} (h0 : 0 < M0) (h1 : 0 < M1) (h : M1 < M0) (g b : ℝ → ℝ) (hg : ContinuousAt g (siteT M0 M1)) (gp : 0 < g (siteT M0 M1))
    (hb : ContinuousAt b (siteT M0 M1)) (v : ℝ → ℝ)
    (hv : ∀ T, 0 < T → v T = g T * (if T < siteT M0 M1 then 1 else tanh (siteSlope M0 M1 * (T - siteT M0 M1))) + b T) :
    Tendsto v (𝓝[<] siteT M0 M1) (𝓝 (g (siteT M0 M1) + b (siteT M0 M1))) ∧ v (siteT M0 M1) = b (siteT M0 M1) ∧
      Tendsto v (𝓝[>] siteT M0 M1) (𝓝 (b (siteT M0 M1))) ∧ ¬ ContinuousAt v (siteT M0 M1) := by
  have T0 : 0 < siteT M0 M1 := lt_trans (by norm_num) (siteT_range h0 h1 h).1
  have L : Tendsto v (𝓝[<] siteT M0 M1) (𝓝 (g (siteT M0 M1) + b (siteT M0 M1))) := by
    refine Tendsto.congr' ?_ ((hg.add hb).tendsto.mono_left nhdsWithin_le_nhds)
    filter_upwards [self_mem_nhdsWithin, mem_nhdsWithin_of_mem_nhds (lt_mem_nhds T0)] with T hT hT0
    rw [hv T hT0, if_pos (show T < siteT M0 M1 from hT), mul_one]
    rfl
  have V : v (siteT M0 M1) = b (siteT M0 M1) := by rw [hv _ T0, if_neg (lt_irrefl _), sub_self, mul_zero, tanh_zero, mul_zero, zero_add]
  refine ⟨L, V, ?_, fun c => ?_⟩
  · have k : ContinuousAt (fun T => g T * tanh (siteSlope M0 M1 * (T - siteT M0 M1)) + b T) (siteT M0 M1) :=
      (hg.mul (tanh_cont.comp (by fun_prop)).continuousAt).add hb
    have e : g (siteT M0 M1) * tanh (siteSlope M0 M1 * (siteT M0 M1 - siteT M0 M1)) + b (siteT M0 M1) = b (siteT M0 M1) := by simp
    have k' := k.tendsto.mono_left (nhdsWithin_le_nhds (s := Set.Ioi (siteT M0 M1)))
    rw [e] at k'
    refine Tendsto.congr' ?_ k'
    filter_upwards [self_mem_nhdsWithin] with T hT
    rw [hv T (T0.trans hT), if_neg (not_lt.2 (le_of_lt hT))]
  · have := tendsto_nhds_unique (c.tendsto.mono_left nhdsWithin_le_nhds) L
    rw [V] at this
    linarith

/-- **C103, jump.** Heat a gas that contains hydrogen atoms and acetylene.  At the critical temperature the HACA growth rate falls from a positive limit to
zero: it is not continuous in the temperature. -/
theorem C103_growth_jump (x : Ctx) (st : ℝ → State) (M0 M1 : ℝ) (hs : Heating x st M0 M1) (h0 : 0 < M0) (h1 : 0 < M1) (h : M1 < M0)
    (hH : 0 < cVal (st 1) .H) (hA : 0 < cVal (st 1) .C2H2) :
    ∃ (v : ℝ → ℝ) (L : ℝ), (∀ T, 0 < T → (Grow.new .HACA).rate x (st T) = ok (v T)) ∧ 0 < L ∧ Tendsto v (𝓝[<] siteT M0 M1) (𝓝 L) ∧
      v (siteT M0 M1) = 0 ∧ Tendsto v (𝓝[>] siteT M0 M1) (𝓝 0) ∧ ¬ ContinuousAt v (siteT M0 M1) := by
  have T0 : 0 < siteT M0 M1 := lt_trans (by norm_num) (siteT_range h0 h1 h).1
  have nn : ∀ sp, 0 ≤ cVal (st 1) sp / 1000 := fun sp => div_nonneg ((hs.gas 1 one_pos).cVal_nonneg sp) (by norm_num)
  obtain ⟨c1, c2⟩ := chiC_cont T0 (show 0 < cVal (st 1) .H / 1000 by positivity) (nn .OH) (nn .H2) (nn .H2O) (nn .C2H2) (nn .O2)
  have hRT : (1.9872036E-3 : ℝ) * siteT M0 M1 ≠ 0 := by positivity
  have hN := Na_pos; have hW := gasMW_pos .C
  obtain ⟨j1, j2, j3, j4⟩ := site_jump h0 h1 h
    (fun T => 2 * (Doc.k4 T (1.9872036E-3 * T) * (cVal (st 1) .C2H2 / 1000) * (2 * Doc.chiC T (1.9872036E-3 * T) (cVal (st 1) .H / 1000)
      (cVal (st 1) .OH / 1000) (cVal (st 1) .H2 / 1000) (cVal (st 1) .H2O / 1000) (cVal (st 1) .C2H2 / 1000) (cVal (st 1) .O2 / 1000)) * 1E4) * gasMW .C / Na)
    (fun _ => 0) (by
      refine ContinuousAt.div_const (ContinuousAt.mul (continuousAt_const.mul (ContinuousAt.mul (ContinuousAt.mul (ContinuousAt.mul ?_ continuousAt_const)
        (continuousAt_const.mul c1)) continuousAt_const)) continuousAt_const) _
      unfold Doc.k4
      exact (continuousAt_const.mul (continuousAt_id.rpow_const (.inl T0.ne'))).mul (continuousAt_const.div (continuousAt_const.mul continuousAt_id) hRT).rexp)
    (by
      have : 0 < Doc.k4 (siteT M0 M1) (1.9872036E-3 * siteT M0 M1) := by unfold Doc.k4; positivity
      positivity)
    continuousAt_const _ (fun T _ => rfl)
  refine ⟨_, _, fun T hT => ?_, ?_, j1, j2, j3, j4⟩
  · have k := Doc.hacaRates_eq (hs.gas T hT)
    dsimp only at k
    simp only [Grow.new, Grow.rate, hacaMoments_ok (hs.sized T hT), ok_bind, k, hs.num T hT, hs.mass T hT, hs.temp T hT, hs.conc T hT,
      C103_site_fraction T M0 M1 h0 h1 h]
    congr 1; ring
  · have : 0 < Doc.k4 (siteT M0 M1) (1.9872036E-3 * siteT M0 M1) := by unfold Doc.k4; positivity
    positivity

/-- **C103, jump of the oxidation rate.** With hydrogen atoms and oxygen the HACA oxidation rate falls at the same temperature to the part due to OH. -/
theorem C103_oxidation_jump (x : Ctx) (st : ℝ → State) (M0 M1 : ℝ) (hs : Heating x st M0 M1) (h0 : 0 < M0) (h1 : 0 < M1) (h : M1 < M0)
    (hH : 0 < cVal (st 1) .H) (hO : 0 < cVal (st 1) .O2) :
    ∃ (v : ℝ → ℝ) (L : ℝ), (∀ T, 0 < T → (Oxid.new .HACA).rate x (st T) = ok (v T)) ∧
      v (siteT M0 M1) = 0.13 * cVal (st 1) .OH * sqrt (Rg * siteT M0 M1 / (2 * π * gasMW .OH)) * gasMW .C ∧
      v (siteT M0 M1) < L ∧ Tendsto v (𝓝[<] siteT M0 M1) (𝓝 L) ∧
      Tendsto v (𝓝[>] siteT M0 M1) (𝓝 (v (siteT M0 M1))) ∧ ¬ ContinuousAt v (siteT M0 M1) := by
  have T0 : 0 < siteT M0 M1 := lt_trans (by norm_num) (siteT_range h0 h1 h).1
  have nn : ∀ sp, 0 ≤ cVal (st 1) sp / 1000 := fun sp => div_nonneg ((hs.gas 1 one_pos).cVal_nonneg sp) (by norm_num)
  obtain ⟨c1, c2⟩ := chiC_cont T0 (show 0 < cVal (st 1) .H / 1000 by positivity) (nn .OH) (nn .H2) (nn .H2O) (nn .C2H2) (nn .O2)
  have hRT : (1.9872036E-3 : ℝ) * siteT M0 M1 ≠ 0 := by positivity
  have hN := Na_pos; have hW := gasMW_pos .C; have hW' := gasMW_pos .OH; have hR := Rg_pos
  have gp : 0 < 2 * (Doc.k5 (1.9872036E-3 * siteT M0 M1) * (cVal (st 1) .O2 / 1000) * (2 * Doc.chiC (siteT M0 M1) (1.9872036E-3 * siteT M0 M1)
      (cVal (st 1) .H / 1000) (cVal (st 1) .OH / 1000) (cVal (st 1) .H2 / 1000) (cVal (st 1) .H2O / 1000) (cVal (st 1) .C2H2 / 1000)
      (cVal (st 1) .O2 / 1000)) * 1E4) * gasMW .C / Na := by
    have : 0 < Doc.k5 (1.9872036E-3 * siteT M0 M1) := by unfold Doc.k5; positivity
    positivity
  obtain ⟨j1, j2, j3, j4⟩ := site_jump h0 h1 h
    (fun T => 2 * (Doc.k5 (1.9872036E-3 * T) * (cVal (st 1) .O2 / 1000) * (2 * Doc.chiC T (1.9872036E-3 * T) (cVal (st 1) .H / 1000)
      (cVal (st 1) .OH / 1000) (cVal (st 1) .H2 / 1000) (cVal (st 1) .H2O / 1000) (cVal (st 1) .C2H2 / 1000) (cVal (st 1) .O2 / 1000)) * 1E4) * gasMW .C / Na)
    (fun T => 0.13 * cVal (st 1) .OH * sqrt (Rg * T / (2 * π * gasMW .OH)) * gasMW .C) (by
      refine ContinuousAt.div_const (ContinuousAt.mul (continuousAt_const.mul (ContinuousAt.mul (ContinuousAt.mul (ContinuousAt.mul ?_ continuousAt_const)
        (continuousAt_const.mul c1)) continuousAt_const)) continuousAt_const) _
      unfold Doc.k5
      exact continuousAt_const.mul (continuousAt_const.div (continuousAt_const.mul continuousAt_id) hRT).rexp)
    gp (by
      refine ContinuousAt.mul (continuousAt_const.mul (ContinuousAt.sqrt ?_)) continuousAt_const
      exact (continuousAt_const.mul continuousAt_id).div_const _) _ (fun T _ => rfl)
  refine ⟨_, _, fun T hT => ?_, j2, ?_, j1, by rw [j2]; exact j3, j4⟩
  · have k := Doc.hacaRates_eq (hs.gas T hT)
    have hq : 0 ≤ Rg * T / (2 * π * gasMW .OH) := by positivity
    dsimp only at k
    simp only [Oxid.new, Oxid.rate, moments01_ok (hs.sized T hT), ok_bind, k, hs.num T hT, hs.mass T hT, hs.temp T hT, hs.conc T hT,
      C103_site_fraction T M0 M1 h0 h1 h, ohRate, (hs.gas T hT).gasC, csqrt_ok hq]
    congr 1; ring
  · rw [j2]; linarith

/-! ## The other mechanisms -/

section
variable {X : Type*} [TopologicalSpace X] {z : X}

/-- The gas state depends continuously on a parameter. -/
structure ContGas (f : X → State) (z : X) : Prop where
  T : ContinuousAt (fun y => (f y).T) z
  P : ContinuousAt (fun y => (f y).P) z
  rho : ContinuousAt (fun y => (f y).rhoGas) z
  cMin : ContinuousAt (fun y => (f y).cMin) z
  frac : ∀ sp : GasSp, ContinuousAt (fun y => (f y).yGas.getD sp.toNat 0) z

variable {f : X → State}

theorem ContGas.c (h : ContGas f z) (sp : GasSp) : ContinuousAt (fun y => cVal (f y) sp) z := by
  unfold cVal
  exact (h.rho.mul (h.frac sp)).div_const _

theorem ContGas.p (h : ContGas f z) (hp : ∀ y, (f y).Phys) (sp : GasSp) : ContinuousAt (fun y => pVal (f y) sp) z := by
  have e : (fun y => pVal (f y) sp) = fun y => (f y).yGas.getD sp.toNat 0 * ((f y).rhoGas * Rg * (f y).T / (f y).P) / gasMW sp * (f y).P := by
    funext y; rw [pVal, (hp y).mw]
  rw [e]
  exact ((((h.frac sp).mul (((h.rho.mul continuousAt_const).mul h.T).div h.P (hp z).P.ne')).div_const _).mul h.P)

theorem ContGas.e (h : ContGas f z) (hp : ∀ y, (f y).Phys) (a : ℝ) : ContinuousAt (fun y => exp (a / (f y).T)) z :=
  (continuousAt_const.div h.T (hp z).T.ne').rexp

theorem ContGas.eR (h : ContGas f z) (hp : ∀ y, (f y).Phys) (a : ℝ) : ContinuousAt (fun y => exp (a / (Rg * (f y).T))) z :=
  (continuousAt_const.div (continuousAt_const.mul h.T) (mul_pos Rg_pos (hp z).T).ne').rexp

theorem ContGas.eC (h : ContGas f z) (hp : ∀ y, (f y).Phys) (a : ℝ) : ContinuousAt (fun y => exp (a / ((f y).T * 1.987))) z :=
  (continuousAt_const.div (h.T.mul continuousAt_const) (mul_pos (hp z).T (by norm_num)).ne').rexp

/-- **C103, nucleation.** The rates of all nucleation mechanisms but PAH depend continuously on temperature, density, composition, the size of the nuclei
and the tar variables. -/
theorem C103_nucleation_continuous (m : NuclMech) (hm : m ≠ .PAH) (ib : State → ℝ → Res ℝ) (f : X → State) (z : X) (hf : ∀ y, GasOk (f y))
    (hT : ContinuousAt (fun y => (f y).T) z) (hP : ContinuousAt (fun y => (f y).P) z) (hr : ContinuousAt (fun y => (f y).rhoGas) z)
    (hc : ContinuousAt (fun y => (f y).cMin) z) (hy : ∀ sp : GasSp, ContinuousAt (fun y => (f y).yGas.getD sp.toNat 0) z)
    (ht : m = .AJ_RED ∨ m = .BROWN → (∀ y, 0 < (f y).tarVar.length) ∧ ContinuousAt (fun y => (f y).tarVar.getD 0 0) z)
    (hmt : m = .AJ_RED → (∀ y, 0 < (f y).mtar) ∧ ContinuousAt (fun y => (f y).mtar) z) :
    ∃ v : X → ℝ, (∀ y, (Nucl.new m).rate ib (f y) = ok (v y, Nucl.new m, f y)) ∧ ContinuousAt v z := by
  have h : ContGas f z := ⟨hT, hP, hr, hc, hy⟩
  have hp : ∀ y, (f y).Phys := fun y => (hf y).acc.phys
  have T0 : ∀ y, (f y).T ≠ 0 := fun y => (hp y).T.ne'
  have c0 : ∀ y, (f y).cMin ≠ 0 := fun y => (hp y).cMin.ne'
  have T1 : ∀ y, (f y).T * (1.987 : ℝ) ≠ 0 := fun y => (mul_pos (hp y).T (by norm_num)).ne'
  have T2 : ∀ y, Rg * (f y).T ≠ 0 := fun y => (mul_pos Rg_pos (hp y).T).ne'
  have hk := kb_pos; have hN := Na_pos
  cases m <;> simp only [Nucl.new, Nucl.rate, ne_eq, not_true_eq_false, reduceCtorEq] at *
  case NONE => exact ⟨fun _ => 0, fun y => rfl, continuousAt_const⟩
  case LL =>
    refine ⟨_, fun y => by simp only [cexpDiv_ok (T0 y), (hf y).gasC, ok_bind, cdiv_ok (c0 y)]; rfl, ?_⟩
    exact ((((continuousAt_const.mul (h.e hp _)).mul (h.c _)).mul continuousAt_const).mul continuousAt_const).div hc (c0 z)
  case LIN =>
    refine ⟨_, fun y => by simp only [cexpDiv_ok (T0 y), (hf y).gasC, ok_bind, cdiv_ok (c0 y)]; rfl, ?_⟩
    exact ((((continuousAt_const.mul (h.e hp _)).mul (h.c _)).mul continuousAt_const).mul continuousAt_const).div hc (c0 z)
  case LINA1 =>
    refine ⟨_, fun y => by simp only [cexpDiv_ok (T0 y), (hf y).gasC, ok_bind, cdiv_ok (c0 y)]; rfl, ?_⟩
    exact ((((continuousAt_const.mul (h.e hp _)).mul (h.c _)).mul continuousAt_const).mul continuousAt_const).div hc (c0 z)
  case MB =>
    refine ⟨_, fun y => by simp only [cexpDiv_ok (T0 y), (hf y).gasC, ok_bind]; rfl, ?_⟩
    exact (continuousAt_const.mul (h.c _)).mul (h.e hp _)
  case FAIR =>
    refine ⟨_, fun y => by simp only [cexpDiv_ok (T1 y), (hf y).gasC, ok_bind, cdiv_ok (c0 y)]; rfl, ?_⟩
    exact ((((continuousAt_const.mul (h.eC hp _)).mul (h.c _)).mul continuousAt_const).mul continuousAt_const).div hc (c0 z)
  case AJ_RED =>
    obtain ⟨t1, t2⟩ := ht (.inl trivial)
    obtain ⟨q1, q2⟩ := hmt trivial
    have n1 : ∀ y, 0 ≤ 2 * (f y).mtar / (3 * 12.011) := fun y => by have := q1 y; positivity
    have n2 : ∀ y, 0 ≤ 8 * π * kb * (f y).T / (f y).mtar / Na := fun y => by have := q1 y; have := (hp y).T; positivity
    refine ⟨_, fun y => by
      simp only [csqrt_ok (n1 y), cdiv_ok (q1 y).ne', csqrt_ok (n2 y), idx_getD (t1 y), ok_bind, cdiv_ok (c0 y)]; rfl, ?_⟩
    have d : ContinuousAt (fun y => 1.395E-10 * sqrt 3 * sqrt (2 * (f y).mtar / (3 * 12.011))) z :=
      continuousAt_const.mul (ContinuousAt.sqrt ((continuousAt_const.mul q2).div_const _))
    exact ((((((continuousAt_const.mul ((d.mul d).mul (ContinuousAt.sqrt (((continuousAt_const.mul hT).div q2 (q1 z).ne').div_const _)))).mul t2).mul t2).mul
      continuousAt_const).mul continuousAt_const)).div hc (c0 z)
  case BROWN =>
    obtain ⟨t1, t2⟩ := ht (.inr trivial)
    refine ⟨_, fun y => by simp only [idx_getD (t1 y), cexpDiv_ok (T2 y), ok_bind, cdiv_ok (c0 y)]; rfl, ?_⟩
    exact ((((t2.mul continuousAt_const).mul (h.eR hp _)).div_const _).mul continuousAt_const).div hc (c0 z)

/-- **C103, growth.** Where there is soot, the rates of all growth mechanisms but HACA depend continuously on the gas state and the amount of soot. -/
theorem C103_growth_continuous_partial (m : GrowMech) (x : Ctx) (f : X → State) (z : X) (hf : ∀ y, GasOk (f y)) (hx : ∀ y, Sized x (f y))
    (hT : ContinuousAt (fun y => (f y).T) z) (hP : ContinuousAt (fun y => (f y).P) z) (hr : ContinuousAt (fun y => (f y).rhoGas) z)
    (hc : ContinuousAt (fun y => (f y).cMin) z) (hy : ∀ sp : GasSp, ContinuousAt (fun y => (f y).yGas.getD sp.toNat 0) z)
    (hN : ContinuousAt (fun y => numOf x (f y)) z) (hM : ContinuousAt (fun y => massOf x (f y)) z) (N0 : 0 < numOf x (f z)) (M0 : 0 < massOf x (f z))
    (hm : m ≠ .HACA) :
    ∃ v : X → ℝ, (∀ y, (Grow.new m).rate x (f y) = ok (v y)) ∧ ContinuousAt v z := by
  have h : ContGas f z := ⟨hT, hP, hr, hc, hy⟩
  have hp : ∀ y, (f y).Phys := fun y => (hf y).acc.phys
  have T0 : ∀ y, (f y).T ≠ 0 := fun y => (hp y).T.ne'
  have T1 : ∀ y, (f y).T * (1.987 : ℝ) ≠ 0 := fun y => (mul_pos (hp y).T (by norm_num)).ne'
  choose v hv _ using fun y => C48_grow m x (f y) (hf y) (hx y) (fun e => absurd e hm)
  refine ⟨v, hv, ?_⟩
  have near : ∀ᶠ y in 𝓝 z, 0 < numOf x (f y) ∧ 0 < massOf x (f y) := (hN.eventually (lt_mem_nhds N0)).and (hM.eventually (lt_mem_nhds M0))
  have hA : ContinuousAt (fun y => sphereArea (numOf x (f y)) (massOf x (f y))) z := by
    unfold sphereArea
    exact (continuousAt_const.mul (((continuousAt_const.mul hM).div hN N0.ne').rpow_const (.inr (by norm_num)))).mul hN
  have A0 := (areaMono_pos_ok N0 M0).2
  have key : ∀ g : X → ℝ, ContinuousAt g z → (∀ y, 0 < numOf x (f y) → 0 < massOf x (f y) → (Grow.new m).rate x (f y) = ok (g y)) → ContinuousAt v z := by
    intro g hg hgv
    refine hg.congr ?_
    filter_upwards [near] with y hy
    have := (hv y).symm.trans (hgv y hy.1 hy.2)
    simp only [Res.ok.injEq] at this
    exact this.symm
  cases m
  case NONE => exact key (fun _ => 0) continuousAt_const fun y _ _ => rfl
  case LL =>
    refine key (fun y => 0.6E3 * exp (-12100 / (f y).T) * cVal (f y) .C2H2 / sqrt (sphereArea (numOf x (f y)) (massOf x (f y))) * 2 * gasMW .C) ?_ ?_
    · exact ((((continuousAt_const.mul (h.e hp _)).mul (h.c _)).div (ContinuousAt.sqrt hA) (by positivity)).mul continuousAt_const).mul continuousAt_const
    · intro y n1 m1
      obtain ⟨a1, a2⟩ := areaMono_pos_ok n1 m1
      simp only [Grow.new, Grow.rate, moments01_ok (hx y), ok_bind, a1, if_pos a2, cexpDiv_ok (T0 y), (hf y).gasC]
  case LIN =>
    refine key (fun y => 750 * exp (-12100 / (f y).T) * cVal (f y) .C2H2 * 2 * gasMW .C) ?_ ?_
    · exact (((continuousAt_const.mul (h.e hp _)).mul (h.c _)).mul continuousAt_const).mul continuousAt_const
    · intro y n1 m1
      simp only [Grow.new, Grow.rate, ok_bind, cexpDiv_ok (T0 y), (hf y).gasC]
  case HACA => exact absurd rfl hm
  case MB =>
    refine key (fun y => 430 * cVal (f y) .C2H2 ^ ((2 : ℝ) / 3) * exp (-12100 / (f y).T)) ?_ ?_
    · exact (continuousAt_const.mul ((h.c _).rpow_const (.inr (by norm_num)))).mul (h.e hp _)
    · intro y n1 m1
      obtain ⟨a1, a2⟩ := areaMono_pos_ok n1 m1
      simp only [Grow.new, Grow.rate, moments01_ok (hx y), ok_bind, a1, if_pos a2, cexpDiv_ok (T0 y), (hf y).gasC,
        cpow_ok' ((hf y).cVal_nonneg .C2H2) (show (0 : ℝ) ≤ 2 / 3 by norm_num)]
  case FAIR =>
    refine key (fun y => 5E2 * exp (-24E3 / ((f y).T * 1.987)) * cVal (f y) .C2H2 * gasMW .C) ?_ ?_
    · exact ((continuousAt_const.mul (h.eC hp _)).mul (h.c _)).mul continuousAt_const
    · intro y n1 m1
      obtain ⟨a1, a2⟩ := areaMono_pos_ok n1 m1
      simp only [Grow.new, Grow.rate, moments01_ok (hx y), ok_bind, a1, if_pos a2, cexpDiv_ok (T1 y), (hf y).gasC]

/-- **C103, oxidation.** The rates of all oxidation mechanisms but HACA depend continuously on the gas state, also where oxygen disappears. -/
theorem C103_oxidation_continuous_partial (m : OxidMech) (x : Ctx) (f : X → State) (z : X) (hf : ∀ y, GasOk (f y)) (hx : ∀ y, Sized x (f y))
    (hT : ContinuousAt (fun y => (f y).T) z) (hP : ContinuousAt (fun y => (f y).P) z) (hr : ContinuousAt (fun y => (f y).rhoGas) z)
    (hc : ContinuousAt (fun y => (f y).cMin) z) (hy : ∀ sp : GasSp, ContinuousAt (fun y => (f y).yGas.getD sp.toNat 0) z) (hm : m ≠ .HACA) :
    ∃ v : X → ℝ, (∀ y, (Oxid.new m).rate x (f y) = ok (v y)) ∧ ContinuousAt v z := by
  have h : ContGas f z := ⟨hT, hP, hr, hc, hy⟩
  have hp : ∀ y, (f y).Phys := fun y => (hf y).acc.phys
  have Tp : ∀ y, 0 < (f y).T := fun y => (hp y).T
  have T0 : ∀ y, (f y).T ≠ 0 := fun y => (hp y).T.ne'
  have T1 : ∀ y, (f y).T * (1.987 : ℝ) ≠ 0 := fun y => (mul_pos (hp y).T (by norm_num)).ne'
  have T2 : ∀ y, Rg * (f y).T ≠ 0 := fun y => (mul_pos Rg_pos (hp y).T).ne'
  have sT : ∀ y, sqrt (f y).T ≠ 0 := fun y => (sqrt_pos.2 (Tp y)).ne'
  have hs : ContinuousAt (fun y => sqrt (f y).T) z := ContinuousAt.sqrt hT
  have hW := gasMW_pos .OH; have hR := Rg_pos; have hrho := rhoSoot_pos
  have hq : ∀ y, 0 ≤ Rg * (f y).T / (2 * π * gasMW .OH) := fun y => by have := Tp y; positivity
  have oh : ∀ c : ℝ, ContinuousAt (fun y => c * cVal (f y) .OH * sqrt (Rg * (f y).T / (2 * π * gasMW .OH)) * gasMW .C) z := fun c =>
    ((continuousAt_const.mul (h.c _)).mul (ContinuousAt.sqrt ((continuousAt_const.mul hT).div_const _))).mul continuousAt_const
  cases m
  case NONE => exact ⟨fun _ => 0, fun y => rfl, continuousAt_const⟩
  case LL =>
    refine ⟨_, fun y => by simp only [Oxid.new, Oxid.rate, csqrt_ok (Tp y).le, cexpDiv_ok (T0 y), (hf y).gasC, ok_bind]; rfl, ?_⟩
    exact (((continuousAt_const.mul hs).mul (h.e hp _)).mul (h.c _)).mul continuousAt_const
  case FAIR =>
    refine ⟨_, fun y => by simp only [Oxid.new, Oxid.rate, csqrt_ok (Tp y).le, cexpDiv_ok (T1 y), (hf y).gasC, ok_bind]; rfl, ?_⟩
    exact ((continuousAt_const.mul hs).mul (h.eC hp _)).mul (h.c _)
  case LEE_NEOH =>
    refine ⟨_, fun y => by simp only [Oxid.new, Oxid.rate, csqrt_ok (Tp y).le, cexpDiv_ok (T0 y), (hf y).gasC, (hf y).gasP, ok_bind, cdiv_ok (sT y), ohRate, csqrt_ok (hq y)]; rfl, ?_⟩
    exact (((((continuousAt_const.mul ((h.p hp _).div_const _)).div hs (sT z)).mul (h.e hp _)).div_const _).add (oh _))
  case OPTJ =>
    refine ⟨_, fun y => by simp only [Oxid.new, Oxid.rate, csqrt_ok (Tp y).le, cexpDiv_ok (T0 y), (hf y).gasC, (hf y).gasP, ok_bind, cdiv_ok (sT y), ohRate, csqrt_ok (hq y)]; rfl, ?_⟩
    exact (((((continuousAt_const.mul (h.p hp _)).div hs (sT z)).mul (h.e hp _)).div_const _).add (oh _))
  case OPTG =>
    refine ⟨_, fun y => by simp only [Oxid.new, Oxid.rate, csqrt_ok (Tp y).le, cexpDiv_ok (T0 y), (hf y).gasC, (hf y).gasP, ok_bind, cdiv_ok (sT y), ohRate, csqrt_ok (hq y)]; rfl, ?_⟩
    exact (((((continuousAt_const.mul (h.p hp _)).div hs (sT z)).mul (h.e hp _)).div_const _).add (oh _))
  case MB =>
    refine ⟨_, fun y => by simp only [Oxid.new, Oxid.rate, moments01_ok (hx y), csqrt_ok (Tp y).le, (hf y).gasC, ok_bind]; rfl, ?_⟩
    exact (continuousAt_const.mul (h.c _)).mul hs
  case BROWN =>
    refine ⟨_, fun y => by simp only [Oxid.new, Oxid.rate, csqrt_ok (Tp y).le, cexpDiv_ok (T2 y), (hf y).gasP, ok_bind, cdiv_ok (sT y)]; rfl, ?_⟩
    exact (((h.p hp _).div hs (sT z)).mul continuousAt_const).mul (h.eR hp _)
  case AJ_RED =>
    refine ⟨_, fun y => by simp only [Oxid.new, Oxid.rate, csqrt_ok (Tp y).le, cexpDiv_ok (T2 y), (hf y).gasP, ok_bind, cdiv_ok (sT y)]; rfl, ?_⟩
    exact (continuousAt_const.div hs (sT z)).mul (((continuousAt_const.mul (h.p hp _)).mul (h.eR hp _)).add (continuousAt_const.mul (h.p hp _)))
  case HACA => exact absurd rfl hm
  case NSC_NEOH =>
    refine ⟨fun y => (20 * exp (-15098 / (f y).T) * (pVal (f y) .O2 / 101325) * (4.46E-3 * exp (-7650 / (f y).T) * (pVal (f y) .O2 / 101325) /
        (4.46E-3 * exp (-7650 / (f y).T) * (pVal (f y) .O2 / 101325) + 1.51E5 * exp (-48817 / (f y).T))) /
          (1 + 21.3 * exp (2063 / (f y).T) * (pVal (f y) .O2 / 101325)) +
        4.46E-3 * exp (-7650 / (f y).T) * (pVal (f y) .O2 / 101325) * (1 - 4.46E-3 * exp (-7650 / (f y).T) * (pVal (f y) .O2 / 101325) /
        (4.46E-3 * exp (-7650 / (f y).T) * (pVal (f y) .O2 / 101325) + 1.51E5 * exp (-48817 / (f y).T)))) * rhoSoot +
        1290 * 0.13 * (pVal (f y) .OH / 101325) / sqrt (f y).T, fun y => ?_, ?_⟩
    · have p0 : 0 ≤ pVal (f y) .O2 / 101325 := div_nonneg ((hf y).pVal_nonneg _) (by norm_num)
      have hx' : nscX (1.51E5 * exp (-48817 / (f y).T)) (4.46E-3 * exp (-7650 / (f y).T) * (pVal (f y) .O2 / 101325)) =
          ok (4.46E-3 * exp (-7650 / (f y).T) * (pVal (f y) .O2 / 101325) /
            (4.46E-3 * exp (-7650 / (f y).T) * (pVal (f y) .O2 / 101325) + 1.51E5 * exp (-48817 / (f y).T))) := by
        have k0 : 0 ≤ 4.46E-3 * exp (-7650 / (f y).T) * (pVal (f y) .O2 / 101325) := by positivity
        have kt : 0 < 1.51E5 * exp (-48817 / (f y).T) := by positivity
        generalize 4.46E-3 * exp (-7650 / (f y).T) * (pVal (f y) .O2 / 101325) = a at *
        generalize 1.51E5 * exp (-48817 / (f y).T) = b at *
        rcases eq_or_ne a 0 with rfl | ha
        · simp [nscX]
        · have ha' : 0 < a := lt_of_le_of_ne k0 (Ne.symm ha)
          rw [nscX, if_neg ha, cdiv_ok (by positivity)]
          congr 1
          field_simp
      have d0 : 1 + 21.3 * exp (2063 / (f y).T) * (pVal (f y) .O2 / 101325) ≠ 0 := by positivity
      simp only [Oxid.new, Oxid.rate, csqrt_ok (Tp y).le, cexpDiv_ok (T0 y), (hf y).gasP, ok_bind, cdiv_ok (sT y), hx', cdiv_ok d0]
    · have p0 : 0 ≤ pVal (f z) .O2 / 101325 := div_nonneg ((hf z).pVal_nonneg _) (by norm_num)
      have cp : ContinuousAt (fun y => pVal (f y) .O2 / 101325) z := (h.p hp _).div_const _
      have cB : ContinuousAt (fun y => 4.46E-3 * exp (-7650 / (f y).T) * (pVal (f y) .O2 / 101325)) z := (continuousAt_const.mul (h.e hp _)).mul cp
      have cX := cB.div (cB.add (continuousAt_const.mul (h.e hp (-48817)))) (show 4.46E-3 * exp (-7650 / (f z).T) * (pVal (f z) .O2 / 101325) + 1.51E5 * exp (-48817 / (f z).T) ≠ 0 by positivity)
      have d0 : 1 + 21.3 * exp (2063 / (f z).T) * (pVal (f z) .O2 / 101325) ≠ 0 := by positivity
      exact (((((((continuousAt_const.mul (h.e hp _)).mul cp).mul cX).div (continuousAt_const.add ((continuousAt_const.mul (h.e hp _)).mul cp)) d0).add
        (cB.mul (continuousAt_const.sub cX))).mul continuousAt_const)).add ((continuousAt_const.mul ((h.p hp _).div_const _)).div hs (sT z))

/-- **C103, HACA.** With hydrogen atoms and soot of a mean mass below one kilogram, both HACA rates depend continuously on the gas state and the amount
of soot at every temperature but the critical one. -/
theorem C103_haca_continuous_partial (x : Ctx) (f : X → State) (z : X) (hf : ∀ y, GasOk (f y)) (hx : ∀ y, Sized x (f y))
    (hT : ContinuousAt (fun y => (f y).T) z) (hP : ContinuousAt (fun y => (f y).P) z) (hr : ContinuousAt (fun y => (f y).rhoGas) z)
    (hc : ContinuousAt (fun y => (f y).cMin) z) (hy : ∀ sp : GasSp, ContinuousAt (fun y => (f y).yGas.getD sp.toNat 0) z)
    (hN : ContinuousAt (fun y => numOf x (f y)) z) (hM : ContinuousAt (fun y => massOf x (f y)) z) (N0 : ∀ y, 0 < numOf x (f y))
    (M0 : ∀ y, 0 < massOf x (f y)) (MN : ∀ y, massOf x (f y) < numOf x (f y)) (hH : 0 < cVal (f z) .H)
    (hcrit : (f z).T ≠ siteT (numOf x (f z)) (massOf x (f z))) :
    ∃ v w : X → ℝ, (∀ y, (Grow.new .HACA).rate x (f y) = ok (v y)) ∧ ContinuousAt v z ∧ (∀ y, (Oxid.new .HACA).rate x (f y) = ok (w y)) ∧
      ContinuousAt w z := by
  have h : ContGas f z := ⟨hT, hP, hr, hc, hy⟩
  have hp : ∀ y, (f y).Phys := fun y => (hf y).acc.phys
  have Tp : ∀ y, 0 < (f y).T := fun y => (hp y).T
  have hW := gasMW_pos .OH; have hR := Rg_pos
  have hq : ∀ y, 0 ≤ Rg * (f y).T / (2 * π * gasMW .OH) := fun y => by have := Tp y; positivity
  have nn : ∀ sp, 0 ≤ cVal (f z) sp / 1000 := fun sp => div_nonneg ((hf z).cVal_nonneg sp) (by norm_num)
  have hRT : (1.9872036E-3 : ℝ) * (f z).T ≠ 0 := by have := Tp z; positivity
  have E : ∀ c : ℝ, ContinuousAt (fun y => exp (c / (1.9872036E-3 * (f y).T))) z := fun c =>
    (continuousAt_const.div (continuousAt_const.mul hT) hRT).rexp
  have R : ∀ p : ℝ, ContinuousAt (fun y => (f y).T ^ p) z := fun p => hT.rpow_const (.inl (Tp z).ne')
  have C : ∀ sp, ContinuousAt (fun y => cVal (f y) sp / 1000) z := fun sp => (h.c sp).div_const _
  have d : 0 < Doc.kr1 (1.9872036E-3 * (f z).T) * (cVal (f z) .H2 / 1000) + Doc.kr2 (f z).T (1.9872036E-3 * (f z).T) * (cVal (f z) .H2O / 1000) +
      Doc.k3 * (cVal (f z) .H / 1000) + Doc.k4 (f z).T (1.9872036E-3 * (f z).T) * (cVal (f z) .C2H2 / 1000) +
      Doc.k5 (1.9872036E-3 * (f z).T) * (cVal (f z) .O2 / 1000) := by
    have := Tp z; have := nn .H2; have := nn .H2O; have := nn .C2H2; have := nn .O2
    unfold Doc.kr1 Doc.kr2 Doc.k3 Doc.k4 Doc.k5; positivity
  have k4c : ContinuousAt (fun y => Doc.k4 (f y).T (1.9872036E-3 * (f y).T)) z := by
    unfold Doc.k4; exact (continuousAt_const.mul (R _)).mul (E _)
  have k5c : ContinuousAt (fun y => Doc.k5 (1.9872036E-3 * (f y).T)) z := by
    unfold Doc.k5; exact continuousAt_const.mul (E _)
  have χ : ContinuousAt (fun y => Doc.chiC (f y).T (1.9872036E-3 * (f y).T) (cVal (f y) .H / 1000) (cVal (f y) .OH / 1000) (cVal (f y) .H2 / 1000)
      (cVal (f y) .H2O / 1000) (cVal (f y) .C2H2 / 1000) (cVal (f y) .O2 / 1000)) z := by
    unfold Doc.chiC
    refine ContinuousAt.mul (ContinuousAt.div ?_ ?_ d.ne') continuousAt_const
    · unfold Doc.k1 Doc.k2
      exact ((continuousAt_const.mul (E _)).mul (C _)).add (((continuousAt_const.mul (R _)).mul (E _)).mul (C _))
    · refine ContinuousAt.add (ContinuousAt.add (ContinuousAt.add (ContinuousAt.add ?_ ?_) (continuousAt_const.mul (C _))) (k4c.mul (C _))) (k5c.mul (C _))
      · unfold Doc.kr1; exact (continuousAt_const.mul (E _)).mul (C _)
      · unfold Doc.kr2; exact ((continuousAt_const.mul (R _)).mul (E _)).mul (C _)
  have dp := fun y => decades_pos (N0 y) (M0 y) (MN y)
  have hd : ContinuousAt (fun y => decades (numOf x (f y)) (massOf x (f y))) z := by
    unfold decades logb
    exact (((hM.div hN (N0 z).ne').log (div_pos (M0 z) (N0 z)).ne').div_const _).neg
  have cT : ContinuousAt (fun y => siteT (numOf x (f y)) (massOf x (f y))) z := by
    unfold siteT
    exact (continuousAt_const.add (continuousAt_const.mul hd)).div (continuousAt_const.add (continuousAt_const.mul hd)) (by have := dp z; positivity)
  have cS : ContinuousAt (fun y => siteSlope (numOf x (f y)) (massOf x (f y))) z := by
    unfold siteSlope
    exact (continuousAt_const.add (continuousAt_const.mul hd)).div hd (dp z).ne'
  have al : ContinuousAt (fun y => if (f y).T < siteT (numOf x (f y)) (massOf x (f y)) then 1 else
      tanh (siteSlope (numOf x (f y)) (massOf x (f y)) * ((f y).T - siteT (numOf x (f y)) (massOf x (f y))))) z := by
    rcases lt_or_gt_of_ne hcrit with hlt | hgt
    · refine (continuousAt_const (y := (1 : ℝ))).congr ?_
      filter_upwards [hT.eventually_lt cT hlt] with y hy
      rw [if_pos hy]
    · refine (tanh_cont.continuousAt.comp (cS.mul (hT.sub cT))).congr ?_
      filter_upwards [cT.eventually_lt hT hgt] with y hy
      rw [if_neg (not_lt.2 hy.le)]; rfl
  have G : ∃ v : X → ℝ, (∀ y, (Grow.new .HACA).rate x (f y) = ok (v y)) ∧ ContinuousAt v z := by
    refine ⟨_, fun y => by
      have k := Doc.hacaRates_eq (hf y)
      dsimp only at k
      simp only [Grow.new, Grow.rate, hacaMoments_ok (hx y), ok_bind, k, C103_site_fraction (f y).T _ _ (N0 y) (M0 y) (MN y)]
      rfl, ?_⟩
    exact ((continuousAt_const.mul ((((k4c.mul (C _)).mul al).mul (continuousAt_const.mul χ)).mul continuousAt_const)).mul continuousAt_const).div_const _
  have O : ∃ v : X → ℝ, (∀ y, (Oxid.new .HACA).rate x (f y) = ok (v y)) ∧ ContinuousAt v z := by
    refine ⟨_, fun y => by
      have k := Doc.hacaRates_eq (hf y)
      dsimp only at k
      simp only [Oxid.new, Oxid.rate, moments01_ok (hx y), ok_bind, k, C103_site_fraction (f y).T _ _ (N0 y) (M0 y) (MN y), ohRate, (hf y).gasC,
        csqrt_ok (hq y)]
      rfl, ?_⟩
    exact (((continuousAt_const.mul ((((k5c.mul (C _)).mul al).mul (continuousAt_const.mul χ)).mul continuousAt_const)).mul continuousAt_const).div_const _).add
      (((continuousAt_const.mul (h.c _)).mul (ContinuousAt.sqrt ((continuousAt_const.mul hT).div_const _))).mul continuousAt_const)
  obtain ⟨v, v1, v2⟩ := G
  obtain ⟨w, w1, w2⟩ := O
  exact ⟨v, w, v1, v2, w1, w2⟩

end

/-! ## Examples -/

/-- Burnt gas with 1E15 particles and 1E-8 kg of soot per cubic metre, heated at constant density. -/
theorem stTR_heating : Heating ⟨.MONO, 2, []⟩ (fun T => stTR T 0.1) 1E15 1E-8 where
  gas T hT := stTR_gasOk hT (by norm_num)
  sized T hT := stTR_sized _ _
  temp T hT := rfl
  conc T hT sp := rfl
  num T hT := by simp [numOf, stTR, stateAfter, argsTR, argsEx2]; norm_num
  mass T hT := by simp [massOf, stTR, stateAfter, argsTR, argsEx2]; norm_num

example : ∃ (v : ℝ → ℝ) (L : ℝ), (∀ T, 0 < T → (Grow.new .HACA).rate ⟨.MONO, 2, []⟩ (stTR T 0.1) = ok (v T)) ∧ 0 < L ∧
    Tendsto v (𝓝[<] siteT 1E15 1E-8) (𝓝 L) ∧ v (siteT 1E15 1E-8) = 0 := by
  obtain ⟨v, L, h1, h2, h3, h4, _⟩ := C103_growth_jump _ _ _ _ stTR_heating (by norm_num) (by norm_num) (by norm_num)
    (by simp only [stTR_cVal]; simp [argsEx2, GasSp.toNat, gasMW]; try norm_num) (by simp only [stTR_cVal]; simp [argsEx2, GasSp.toNat, gasMW]; try norm_num)
  exact ⟨v, L, h1, h2, h3, h4⟩

/-- The critical temperature of these particles (1E-23 kg) is 2245.8 K up to 1 K. -/
example : |siteT 1E15 1E-8 - 2245.8| < 1 := by
  have : decades 1E15 1E-8 = 23 := by
    unfold decades
    rw [show (1E-8 : ℝ) / 1E15 = 10 ^ (-23 : ℤ) by norm_num, ← rpow_intCast, logb_rpow (by norm_num) (by norm_num)]; norm_num
  rw [siteT, this]
  norm_num [abs_lt]

/-- Heating the same gas: the NSC_NEOH rate is continuous in the temperature at 2000 K. -/
example : ∃ v : Set.Ioi (0 : ℝ) → ℝ, (∀ T : Set.Ioi (0 : ℝ), (Oxid.new .NSC_NEOH).rate ⟨.MONO, 2, []⟩ (stTR T 0.1) = ok (v T)) ∧ ContinuousAt v ⟨2000, by norm_num⟩ :=
  C103_oxidation_continuous_partial .NSC_NEOH _ (fun T : Set.Ioi (0 : ℝ) => stTR T 0.1) _ (fun T => stTR_gasOk T.2 (by norm_num)) (fun T => stTR_sized _ _)
    continuous_subtype_val.continuousAt continuousAt_const continuousAt_const continuousAt_const (fun sp => continuousAt_const) (by simp)

/-- The same for both HACA rates at 2000 K. -/
example : ∃ v w : Set.Ioi (0 : ℝ) → ℝ, (∀ T : Set.Ioi (0 : ℝ), (Grow.new .HACA).rate ⟨.MONO, 2, []⟩ (stTR T 0.1) = ok (v T)) ∧ ContinuousAt v ⟨2000, by norm_num⟩ ∧
    (∀ T : Set.Ioi (0 : ℝ), (Oxid.new .HACA).rate ⟨.MONO, 2, []⟩ (stTR T 0.1) = ok (w T)) ∧ ContinuousAt w ⟨2000, by norm_num⟩ := by
  have n := fun T : Set.Ioi (0 : ℝ) => stTR_heating.num T T.2
  have m := fun T : Set.Ioi (0 : ℝ) => stTR_heating.mass T T.2
  refine C103_haca_continuous_partial ⟨.MONO, 2, []⟩ (fun T : Set.Ioi (0 : ℝ) => stTR T 0.1) _ (fun T => stTR_gasOk T.2 (by norm_num))
    (fun T => stTR_sized _ _) continuous_subtype_val.continuousAt continuousAt_const continuousAt_const continuousAt_const (fun sp => continuousAt_const)
    (by simp only [n]; exact continuousAt_const) (by simp only [m]; exact continuousAt_const) (fun T => by rw [n]; norm_num) (fun T => by rw [m]; norm_num)
    (fun T => by rw [n, m]; norm_num) (by simp only [stTR_cVal]; simp [argsEx2, GasSp.toNat, gasMW]; try norm_num) ?_
  rw [n, m]
  have := (siteT_range (M0 := 1E15) (M1 := 1E-8) (by norm_num) (by norm_num) (by norm_num)).1
  have e : (stTR (2000 : ℝ) 0.1).T = 2000 := rfl
  dsimp only
  rw [e]
  intro h; linarith

end Soot
