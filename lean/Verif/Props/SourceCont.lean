import Verif.Props.HacaSites
import Verif.Props.Mono

/-!
# The sources as functions of the state (C104)

Continuity of the source terms, also where the soot vanishes: the area factor removes the singularity of the LL growth rate, and the kernels grow
at most linearly with the particle mass.
-/

namespace Soot

open Res Real Filter Topology Cont
open scoped Classical

/-! ## Area -/

/-- Surface of `M0` equal spheres of total mass `M1`, written so that it makes sense without particles. -/
noncomputable def areaFn (M0 M1 : ℝ) : ℝ := π * (6 / (π * rhoSoot)) ^ ((2 : ℝ) / 3) * (M1 ^ ((2 : ℝ) / 3) * M0 ^ ((1 : ℝ) / 3))

theorem areaFn_ok {M0 M1 : ℝ} (h0 : 0 ≤ M0) (h1 : 0 ≤ M1) : areaMono M0 M1 = ok (areaFn M0 M1) := by
  have hr := rhoSoot_pos
  rcases h0.eq_or_lt with rfl | h0
  · simp [areaMono, areaFn, zero_rpow]
  · have e : M0 ^ ((1 : ℝ) / 3) = M0 / M0 ^ ((2 : ℝ) / 3) := by
      rw [eq_div_iff (by positivity), ← rpow_add h0]; norm_num
    rw [areaMono, if_pos h0, cpow_ok' (by positivity) (by norm_num [twothird]), ok_bind, areaFn, twothird,
      div_rpow (by positivity) h0.le, mul_rpow (by positivity) h1, e]
    congr 1; ring

theorem areaFn_nonneg {M0 M1 : ℝ} (h0 : 0 ≤ M0) (h1 : 0 ≤ M1) : 0 ≤ areaFn M0 M1 := by
  have hr := rhoSoot_pos
  unfold areaFn; positivity

section
variable {X : Type*} [TopologicalSpace X] {z : X}

theorem areaFn_cont {M0 M1 : X → ℝ} (h0 : ContinuousAt M0 z) (h1 : ContinuousAt M1 z) : ContinuousAt (fun y => areaFn (M0 y) (M1 y)) z :=
  continuousAt_const.mul ((h1.rpow_const (.inr (by norm_num))).mul (h0.rpow_const (.inr (by norm_num))))

/-! ## Growth rate times area -/

/-- Growth rate of mechanism `g` times the area `A` it acts on. -/
noncomputable def growFlux (g : GrowMech) (s : State) (A : ℝ) : ℝ :=
  match g with
  | .NONE => 0
  | .LL => 0.6E3 * exp (-12100 / s.T) * cVal s .C2H2 * sqrt A * 2 * gasMW .C
  | .LIN => 750 * exp (-12100 / s.T) * cVal s .C2H2 * 2 * gasMW .C * A
  | .MB => 430 * cVal s .C2H2 ^ ((2 : ℝ) / 3) * exp (-12100 / s.T) * A
  | .FAIR => 5E2 * exp (-24E3 / (s.T * 1.987)) * cVal s .C2H2 * gasMW .C * A
  | .HACA => 0

theorem growFlux_eq {g : GrowMech} (hg : g ≠ .HACA) {x : Ctx} {s : State} (h : GasOk s) (hx : Sized x s) {k : ℝ} (hk : (Grow.new g).rate x s = ok k) :
    k * areaFn (numOf x s) (massOf x s) = growFlux g s (areaFn (numOf x s) (massOf x s)) := by
  have n0 := numOf_nonneg (x := x) h.acc
  have m0 := massOf_nonneg h.acc hx
  have T0 := h.acc.phys.T
  have T1 : s.T * (1.987 : ℝ) ≠ 0 := by positivity
  have A0 := areaFn_nonneg n0 m0
  have hA := areaFn_ok n0 m0
  rcases A0.eq_or_lt with e | hp
  · rw [← e, mul_zero]; cases g <;> simp [growFlux]
  · cases g <;> simp only [Grow.new, Grow.rate, moments01_ok hx, hA, ok_bind, gt_iff_lt, if_pos hp, cexpDiv_ok T0.ne', cexpDiv_ok T1, h.gasC,
      cpow_ok' (h.cVal_nonneg .C2H2) (show (0 : ℝ) ≤ 2 / 3 by norm_num), ok.injEq] at hk
    case NONE => simp [growFlux, ← hk]
    case LL =>
      have hs : 0 < sqrt (areaFn (numOf x s) (massOf x s)) := sqrt_pos.2 hp
      rw [← hk, growFlux]
      conv_lhs => rw [← mul_self_sqrt A0]
      rw [sqrt_mul_self hs.le]
      field_simp
    case LIN => rw [← hk, growFlux]
    case HACA => exact absurd rfl hg
    case MB => rw [← hk, growFlux]
    case FAIR => rw [← hk, growFlux]

theorem growFlux_cont {f : X → State} (h : ContGas f z) (hf : ∀ y, GasOk (f y)) (g : GrowMech) {A : X → ℝ} (hA : ContinuousAt A z) :
    ContinuousAt (fun y => growFlux g (f y) (A y)) z := by
  have hp : ∀ y, (f y).Phys := fun y => (hf y).acc.phys
  cases g <;> simp only [growFlux]
  case NONE => exact continuousAt_const
  case HACA => exact continuousAt_const
  case LL => exact ((((continuousAt_const.mul (h.e hp _)).mul (h.c _)).mul hA.sqrt).mul continuousAt_const).mul continuousAt_const
  case LIN => exact ((((continuousAt_const.mul (h.e hp _)).mul (h.c _)).mul continuousAt_const).mul continuousAt_const).mul hA
  case MB => exact ((continuousAt_const.mul ((h.c _).rpow_const (.inr (by norm_num)))).mul (h.e hp _)).mul hA
  case FAIR => exact (((continuousAt_const.mul (h.eC hp _)).mul (h.c _)).mul continuousAt_const).mul hA

/-! ## Kernels grow at most linearly -/

/-- A bound for `K(m, m)/m` above the cutoff mass. -/
noncomputable def kernBound (c : Coag) (s : State) : ℝ :=
  c.kfmVal s * sqrt (1 / mmin + 1 / mmin) * 4 * mmin ^ (-(1 : ℝ) / 3) + kcVal s * 4 * (1 + 1.657 * (2 * s.mfpVal / diam mmin)) / mmin +
    π * diam mmin ^ 2 * sqrt (fuchsC s mmin * fuchsC s mmin + fuchsC s mmin * fuchsC s mmin) * (epsC * c.fmMult) / mmin

theorem kernBound_cont {c : Coag} {f : X → State} (hp : ∀ y, (f y).Phys) (h : ContSt f z) : ContinuousAt (fun y => kernBound c (f y)) z := by
  unfold kernBound kcVal
  have hmu := (hp z).mu
  have e3 : 3 * (f z).muGas ≠ 0 := by positivity
  have hC := fC_cont h (m := fun _ => mmin) continuousAt_const mmin_pos
  exact ((((((kfm_cont c h).mul continuousAt_const).mul continuousAt_const).mul continuousAt_const).add
    ((((((continuousAt_const.mul h.T).div (continuousAt_const.mul h.mu) e3).mul continuousAt_const).mul
      (continuousAt_const.add (continuousAt_const.mul ((continuousAt_const.mul (mfp_cont hp h)).div_const _)))).div_const _))).add
    (((continuousAt_const.mul (ContinuousAt.sqrt ((hC.mul hC).add (hC.mul hC)))).mul continuousAt_const).div_const _))

theorem diam_mono {m n : ℝ} (h0 : 0 < m) (h : m ≤ n) : diam m ≤ diam n := by
  have hr := rhoSoot_pos
  unfold diam
  exact rpow_le_rpow (by positivity) (by gcongr) (by norm_num [onethird])

theorem core_lin {c : Coag} (hc : 0 < c.fmMult) {s : State} (h : s.Phys) {m : ℝ} (hm : mmin < m) : core c s m m ≤ kernBound c s * m := by
  have q := mmin_pos
  have m0 : 0 < m := q.trans hm
  have r : 1 ≤ m / mmin := (one_le_div q).2 hm.le
  have a0 := Coag.kfmVal_pos h hc; have b0 := kcVal_pos h; have l0 := h.mfpVal_pos; have d0 := diam_pos q; have dm := diam_pos m0
  have f0 := fuchsC_pos h q; have eps := epsC_pos; have hk := kb_pos; have hT := h.T; have hr := rhoSoot_pos
  have t1 : 0 ≤ c.kfmVal s * sqrt (1 / mmin + 1 / mmin) * 4 * mmin ^ (-(1 : ℝ) / 3) * m := by positivity
  have t2 : 0 ≤ kcVal s * 4 * (1 + 1.657 * (2 * s.mfpVal / diam mmin)) / mmin * m := by positivity
  have t3 : 0 ≤ π * diam mmin ^ 2 * sqrt (fuchsC s mmin * fuchsC s mmin + fuchsC s mmin * fuchsC s mmin) * (epsC * c.fmMult) / mmin * m := by positivity
  have fm : fmVal c s m m ≤ c.kfmVal s * sqrt (1 / mmin + 1 / mmin) * 4 * mmin ^ (-(1 : ℝ) / 3) * m := by
    have e1 : (m ^ onethird + m ^ onethird) * (m ^ onethird + m ^ onethird) = 4 * (m ^ (-(1 : ℝ) / 3) * m) := by
      have : m ^ (-(1 : ℝ) / 3) * m = m ^ onethird * m ^ onethird := by
        conv_lhs => rw [← rpow_one m, ← rpow_mul m0.le, ← rpow_add m0]
        rw [← rpow_add m0]; norm_num [onethird]
      rw [this]; ring
    have e2 : m ^ (-(1 : ℝ) / 3) ≤ mmin ^ (-(1 : ℝ) / 3) := rpow_le_rpow_of_nonpos q hm.le (by norm_num)
    have e3 : sqrt (1 / m + 1 / m) ≤ sqrt (1 / mmin + 1 / mmin) := by
      apply sqrt_le_sqrt; gcongr
    rw [fmVal, mul_assoc, e1]
    calc c.kfmVal s * sqrt (1 / m + 1 / m) * (4 * (m ^ (-(1 : ℝ) / 3) * m))
        ≤ c.kfmVal s * sqrt (1 / mmin + 1 / mmin) * (4 * (mmin ^ (-(1 : ℝ) / 3) * m)) := by gcongr
      _ = _ := by ring
  have ct : contVal s m m ≤ kcVal s * 4 * (1 + 1.657 * (2 * s.mfpVal / diam mmin)) / mmin * m := by
    have e1 : contVal s m m = kcVal s * 4 * (1 + 1.657 * (2 * s.mfpVal / diam m)) := by unfold contVal; field_simp; ring
    have e2 : 1 + 1.657 * (2 * s.mfpVal / diam m) ≤ 1 + 1.657 * (2 * s.mfpVal / diam mmin) := by
      have := diam_mono q hm.le; gcongr
    rw [e1]
    calc _ ≤ kcVal s * 4 * (1 + 1.657 * (2 * s.mfpVal / diam mmin)) := by gcongr
      _ ≤ kcVal s * 4 * (1 + 1.657 * (2 * s.mfpVal / diam mmin)) * (m / mmin) := le_mul_of_one_le_right (by positivity) r
      _ = _ := by ring
  have fu : fuchsVal c s m m ≤ π * diam mmin ^ 2 * sqrt (fuchsC s mmin * fuchsC s mmin + fuchsC s mmin * fuchsC s mmin) * (epsC * c.fmMult) / mmin * m := by
    have D0 := fuchsD_pos h m0; have C0 := fuchsC_pos h m0
    have cc : fuchsC s m ≤ fuchsC s mmin := by
      unfold fuchsC; apply sqrt_le_sqrt; gcongr
    have dd : diam m ^ 2 ≤ diam mmin ^ 2 * (m / mmin) := by
      have e : diam m = diam mmin * (m / mmin) ^ onethird := by
        unfold diam
        rw [← mul_rpow (by positivity) (by positivity)]; congr 1; field_simp
      rw [e, mul_pow]
      gcongr
      rw [← rpow_natCast, ← rpow_mul (by positivity)]
      calc (m / mmin) ^ (onethird * (2 : ℕ)) ≤ (m / mmin) ^ (1 : ℝ) := rpow_le_rpow_of_exponent_le r (by norm_num [onethird])
        _ = _ := rpow_one _
    unfold fuchsVal
    have B0 : 0 < 8 / (epsC * c.fmMult) * (fuchsD s m + fuchsD s m) / (sqrt (fuchsC s m * fuchsC s m + fuchsC s m * fuchsC s m) * (diam m + diam m)) := by
      positivity
    have A0 : 0 ≤ (diam m + diam m) / (diam m + diam m + 2 * sqrt (fuchsG s m * fuchsG s m + fuchsG s m * fuchsG s m)) := by positivity
    calc _ ≤ 2 * π * (fuchsD s m + fuchsD s m) * (diam m + diam m) / (8 / (epsC * c.fmMult) * (fuchsD s m + fuchsD s m) /
            (sqrt (fuchsC s m * fuchsC s m + fuchsC s m * fuchsC s m) * (diam m + diam m))) := by
          apply div_le_div_of_nonneg_left (by positivity) B0; linarith
      _ = π * diam m ^ 2 * sqrt (fuchsC s m * fuchsC s m + fuchsC s m * fuchsC s m) * (epsC * c.fmMult) := by field_simp; ring
      _ ≤ π * (diam mmin ^ 2 * (m / mmin)) * sqrt (fuchsC s mmin * fuchsC s mmin + fuchsC s mmin * fuchsC s mmin) * (epsC * c.fmMult) := by
          have := C0.le
          gcongr
      _ = _ := by ring
  have hm' : kernBound c s * m = c.kfmVal s * sqrt (1 / mmin + 1 / mmin) * 4 * mmin ^ (-(1 : ℝ) / 3) * m +
      kcVal s * 4 * (1 + 1.657 * (2 * s.mfpVal / diam mmin)) / mmin * m +
      π * diam mmin ^ 2 * sqrt (fuchsC s mmin * fuchsC s mmin + fuchsC s mmin * fuchsC s mmin) * (epsC * c.fmMult) / mmin * m := by
    unfold kernBound; ring
  rw [hm']
  have p1 := fmVal_pos h hc m0 m0; have p2 := hmContVal_pos h m0 m0
  have hmle : fmVal c s m m * hmContVal s m m / (fmVal c s m m + hmContVal s m m) ≤ fmVal c s m m := by
    rw [div_le_iff₀ (by positivity)]; nlinarith
  unfold core
  rcases c.mech <;> simp only
  · linarith
  · linarith
  · linarith
  · linarith
  · linarith

theorem val_lin {c : Coag} (hc : 0 < c.fmMult) {s : State} (h : s.Phys) {m : ℝ} (m0 : 0 ≤ m) : c.val s m m ≤ kernBound c s * m := by
  by_cases hm : mmin < m
  · rw [val_core c s hm hm]; exact core_lin hc h hm
  · rw [val_zero c s (.inl (not_lt.1 hm))]
    have q := mmin_pos
    have a0 := Coag.kfmVal_pos h hc; have b0 := kcVal_pos h; have l0 := h.mfpVal_pos; have d0 := diam_pos q
    have f0 := fuchsC_pos h q; have eps := epsC_pos
    unfold kernBound; positivity

/-! ## MONO -/

/-- The inputs depend continuously on a parameter at `z`. -/
structure ContIn (f : X → State) (z : X) : Prop extends ContGas f z where
  mu : ContinuousAt (fun y => (f y).muGas) z
  tar : ContinuousAt (fun y => (f y).tarVar.getD 0 0) z
  mtar : ContinuousAt (fun y => (f y).mtar) z

/-- Gas source caused by the soot mass rate `x` of a mechanism with mole ratios `r` (specification). -/
noncomputable def gasPart (r : GasSp → ℝ) (x : ℝ) (sp : GasSp) : ℝ := if sp = .C then 0 else x * r sp * gasMW sp / (r .C * gasMW .C)

theorem gasRates_part {r : GasSp → ℝ} {x : ℝ} {g : GasSp → ℝ} (h : gasRates r x = ok g) (sp : GasSp) : g sp = gasPart r x sp := by
  unfold gasRates at h; split_ifs at h; cases h; rfl

theorem gasPart_cont {v : X → ℝ} (hv : ContinuousAt v z) (r : GasSp → ℝ) (sp : GasSp) : ContinuousAt (fun y => gasPart r (v y) sp) z := by
  unfold gasPart
  split_ifs
  · exact continuousAt_const
  · exact ((hv.mul continuousAt_const).mul continuousAt_const).div_const _

theorem finish_gas {m m' : Model} {n : Nucl} {v w : List ℝ} {N1 G1 X1 : ℝ} (h : m.finish n v w N1 G1 X1 = ok m') (sp : GasSp) :
    m'.sources.gas sp = gasPart n.ratio N1 sp + gasPart m.grow.ratio G1 sp + gasPart m.oxid.ratio X1 sp := by
  obtain ⟨gn, gg, go, h1, h2, h3, rfl⟩ := Model.finish_inv h
  rw [← gasRates_part h1, ← gasRates_part h2, ← gasRates_part h3]

/-- One evaluation without PAH, in closed form. -/
theorem mono_plain {m : Model} {s : State} {M0 M1 w a : ℝ} (h : MonoReady m s M0 M1 w a) (hn : m.nucl.mech ≠ .PAH) (hg : m.grow.mech ≠ .HACA) {J : ℝ}
    (hJ : m.nucl.rate (ibetaNodes m.coag) { s with wts := [monoW M0 w], absc := [monoA M0 M1 a] } =
      ok (J, m.nucl, { s with wts := [monoW M0 w], absc := [monoA M0 M1 a] })) {kO : ℝ}
    (hO : m.oxid.rate m.ctx { s with wts := [monoW M0 w], absc := [monoA M0 M1 a] } = ok kO) :
    ∃ m' s', monoSources m s = ok (m', s') ∧
      m'.sources.soot = [J - m.coag.val s (monoA M0 M1 a) (monoA M0 M1 a) * monoW M0 w ^ 2 / 2,
        J * s.cMin * gasMW .C / Na + (growFlux m.grow.mech s (areaFn M0 M1) - kO * areaFn M0 M1)] ∧
      ∀ sp, m'.sources.gas sp = gasPart m.nucl.ratio (J * s.cMin * gasMW .C / Na) sp + gasPart m.grow.ratio (growFlux m.grow.mech s (areaFn M0 M1)) sp +
        gasPart m.oxid.ratio (-kO * areaFn M0 M1) sp := by
  obtain ⟨m', s', J', n', kG, kO', A, b1, b2, b3, -, b5, b6, b7, -, -, -, -, b12, b13⟩ := mono_eval h
  rw [hJ] at b2
  simp only [ok.injEq, Prod.mk.injEq] at b2
  obtain ⟨rfl, rfl, rfl⟩ := b2
  rw [hO] at b6
  simp only [ok.injEq] at b6
  subst b6
  have hM := h.gas.acc.sootVar_nonneg
  have h0 : 0 ≤ M0 := hM M0 (by simp [h.soot])
  have h1 : 0 ≤ M1 := hM M1 (by simp [h.soot])
  have hA : A = areaFn M0 M1 := isArea_unique h0 h1 b7 (areaMono_isArea (areaFn_ok h0 h1))
  have hr := h.toReady.upd h.gas.acc.phys.cMin [monoW M0 w] [monoA M0 M1 a]
  have hns : m.ctx.psd ≠ .SECT := by show m.psd ≠ _; rw [h.psd]; decide
  have hk : kG * areaFn M0 M1 = growFlux m.grow.mech s (areaFn M0 M1) := by
    rw [h.wf.grow] at b5
    have := growFlux_eq hg hr.gas hr.sized b5
    have e1 : numOf m.ctx { s with wts := [monoW M0 w], absc := [monoA M0 M1 a] } = M0 := by simp [numOf, hns, h.soot]
    have e2 : massOf m.ctx { s with wts := [monoW M0 w], absc := [monoA M0 M1 a] } = M1 := by simp [massOf, hns, h.soot]
    rw [e1, e2] at this
    exact this
  refine ⟨m', _, b1, ?_, fun sp => ?_⟩
  · rw [b13, if_neg hn, hA, sub_mul, hk, add_zero]; rfl
  · rw [finish_gas b12, hA, hk]

theorem bound_lim {c : Coag} {f : X → State} {M0 M1 : X → ℝ} (hp : ∀ y, (f y).Phys) (st : ContSt f z) (c0 : ContinuousAt M0 z) (c1 : ContinuousAt M1 z)
    (h0 : M0 z = 0) : Tendsto (fun y => kernBound c (f y) * M1 y * M0 y / 2) (𝓝 z) (𝓝 0) := by
  have := (((kernBound_cont (c := c) hp st).mul c1).mul c0).div_const 2
  have e : kernBound c (f z) * M1 z * M0 z / 2 = 0 := by rw [h0]; ring
  rw [← e]
  exact this

/-- **C104, MONO.** Without PAH nucleation and the HACA mechanisms, the soot and gas sources of MONO depend continuously on the gas state and the two
moments, also where there is no soot, provided the mean mass is not the cutoff mass and, at a state without particles, the nodes were never set
(`w = 0`).  What is missing for the full property: the cutoff mass (`C100_mono_jump`), nodes left from earlier calls (`C104_stale_jump`), HACA
(`C103_growth_jump`), and PAH nucleation (`C104_mono_pah_continuous_partial`, `C104_pah_jump`). -/
theorem C104_mono_continuous_partial (m : Model) (f : X → State) (z : X) (M0 M1 w a : X → ℝ) (hr : ∀ y, MonoReady m (f y) (M0 y) (M1 y) (w y) (a y))
    (hn : m.nucl.mech ≠ .PAH) (hg : m.grow.mech ≠ .HACA) (ho : m.oxid.cls ≠ .HACA) (hf : ContIn f z) (c0 : ContinuousAt M0 z) (c1 : ContinuousAt M1 z)
    (hcut : 0 < M0 z → M1 z / M0 z ≠ mmin) (hw : M0 z = 0 → ∀ y, w y = 0) :
    ∃ S : X → Model × State, (∀ y, monoSources m (f y) = ok (S y)) ∧ (∀ k, ContinuousAt (fun y => (S y).1.sources.soot.getD k 0) z) ∧
      ∀ sp, ContinuousAt (fun y => (S y).1.sources.gas sp) z := by
  set g : X → State := fun y => { f y with wts := [monoW (M0 y) (w y)], absc := [monoA (M0 y) (M1 y) (a y)] } with hgd
  have rr : ∀ y, Ready m (g y) := fun y => (hr y).toReady.upd (hr y).gas.acc.phys.cMin _ _
  have hp : ∀ y, (f y).Phys := fun y => (hr y).gas.acc.phys
  have fm := (hr z).fm
  obtain ⟨J, J1, J2⟩ := C103_nucleation_continuous m.nucl.mech hn (ibetaNodes m.coag) g z (fun y => (rr y).gas) hf.T hf.P hf.rho hf.cMin hf.frac
    (fun h => ⟨fun y => (rr y).tar h, hf.tar⟩) (fun h => ⟨fun y => (rr y).mtar h, hf.mtar⟩)
  obtain ⟨O, O1, O2⟩ := C103_oxidation_continuous_partial m.oxid.cls m.ctx g z (fun y => (rr y).gas) (fun y => (rr y).sized) hf.T hf.P hf.rho hf.cMin hf.frac ho
  rw [← (hr z).wf.nucl.new hn] at J1
  rw [← (hr z).wf.oxid] at O1
  choose S1 S2 e1 e2 e3 using fun y => mono_plain (hr y) hn hg (J1 y) (O1 y)
  have cA := areaFn_cont c0 c1
  have cG := growFlux_cont hf.toContGas (fun y => (hr y).gas) m.grow.mech cA
  have cN : ContinuousAt (fun y => J y * (f y).cMin * gasMW .C / Na) z := ((J2.mul hf.cMin).mul continuousAt_const).div_const _
  have nn : ∀ y, 0 ≤ M0 y ∧ 0 ≤ M1 y := fun y =>
    ⟨(hr y).gas.acc.sootVar_nonneg _ (by simp [(hr y).soot]), (hr y).gas.acc.sootVar_nonneg _ (by simp [(hr y).soot])⟩
  have st : ContSt f z := ⟨hf.T, hf.P, hf.rho, hf.mu⟩
  have cK : ContinuousAt (fun y => m.coag.val (f y) (monoA (M0 y) (M1 y) (a y)) (monoA (M0 y) (M1 y) (a y)) * monoW (M0 y) (w y) ^ 2 / 2) z := by
    rcases (nn z).1.eq_or_lt with h0 | h0
    · have hw' := hw h0.symm
      have v0 : m.coag.val (f z) (monoA (M0 z) (M1 z) (a z)) (monoA (M0 z) (M1 z) (a z)) * monoW (M0 z) (w z) ^ 2 / 2 = 0 := by
        rw [monoW, if_neg (by rw [← h0]; exact lt_irrefl _), hw' z]; ring
      have lim := bound_lim (c := m.coag) hp st c0 c1 h0.symm
      unfold ContinuousAt
      beta_reduce
      rw [v0]
      refine squeeze_zero (fun y => ?_) (fun y => ?_) lim
      · have := Coag.val_nonneg (hp y) fm (monoA (M0 y) (M1 y) (a y)) (monoA (M0 y) (M1 y) (a y)); positivity
      · by_cases hy : M0 y > 0
        · rw [monoW, if_pos hy, monoA, if_pos hy]
          have := val_lin fm (hp y) (div_nonneg (nn y).2 hy.le)
          calc _ ≤ kernBound m.coag (f y) * (M1 y / M0 y) * M0 y ^ 2 / 2 := by gcongr
            _ = _ := by field_simp
        · rw [monoW, if_neg hy, hw' y, le_antisymm (not_lt.1 hy) (nn y).1]; norm_num
    · obtain ⟨v, v1, v2⟩ := C100_kernel_continuous_partial m.coag fm f (fun y => (hr y).gas.acc) (fun y => M1 y / M0 y) (fun y => M1 y / M0 y) z hf.T hf.P
        hf.rho hf.mu (c1.div c0 h0.ne') (c1.div c0 h0.ne') (hcut h0) (hcut h0)
      refine ((v2.mul (c0.pow 2)).div_const 2).congr ?_
      filter_upwards [c0.eventually (lt_mem_nhds h0)] with y hy
      have := (v1 y).symm.trans (Coag.rate_ok (hp y) fm _ _)
      simp only [ok.injEq] at this
      rw [monoW, if_pos hy, monoA, if_pos hy, ← this]; rfl
  refine ⟨fun y => (S1 y, S2 y), e1, fun k => ?_, fun sp => ?_⟩
  · simp only [e2]
    match k with
    | 0 => exact J2.sub cK
    | 1 => exact cN.add (cG.sub (O2.mul cA))
    | n + 2 => simpa using continuousAt_const
  · simp only [e3]
    exact ((gasPart_cont cN _ sp).add (gasPart_cont cG _ sp)).add (gasPart_cont (O2.neg.mul cA) _ sp)

/-- **C104, refutation by old nodes.** At a state without particles whose nodes were set by an earlier call (`w > 0`, mean mass `a` above the cutoff), the
number source lies below the limit of the number sources of the states with particles around it: it still contains the coagulation of the old
particles. -/
theorem C104_stale_jump (m : Model) (f : X → State) (z : X) (M0 M1 w a : X → ℝ) (hr : ∀ y, MonoReady m (f y) (M0 y) (M1 y) (w y) (a y))
    (hn : m.nucl.mech ≠ .PAH) (hg : m.grow.mech ≠ .HACA) (ho : m.oxid.cls ≠ .HACA) (hf : ContIn f z) (c0 : ContinuousAt M0 z) (c1 : ContinuousAt M1 z)
    (h0 : M0 z = 0) (hw : 0 < w z) (ha : mmin < a z) (hc : m.coag.mech ≠ .NONE) :
    ∃ (S : X → Model × State) (J : ℝ), (∀ y, monoSources m (f y) = ok (S y)) ∧
      Tendsto (fun y => (S y).1.sources.soot.getD 0 0) (𝓝[{y | 0 < M0 y}] z) (𝓝 J) ∧
      (S z).1.sources.soot.getD 0 0 = J - m.coag.val (f z) (a z) (a z) * w z ^ 2 / 2 ∧ 0 < m.coag.val (f z) (a z) (a z) * w z ^ 2 / 2 := by
  set g : X → State := fun y => { f y with wts := [monoW (M0 y) (w y)], absc := [monoA (M0 y) (M1 y) (a y)] } with hgd
  have rr : ∀ y, Ready m (g y) := fun y => (hr y).toReady.upd (hr y).gas.acc.phys.cMin _ _
  have hp : ∀ y, (f y).Phys := fun y => (hr y).gas.acc.phys
  have fm := (hr z).fm
  obtain ⟨J, J1, J2⟩ := C103_nucleation_continuous m.nucl.mech hn (ibetaNodes m.coag) g z (fun y => (rr y).gas) hf.T hf.P hf.rho hf.cMin hf.frac
    (fun h => ⟨fun y => (rr y).tar h, hf.tar⟩) (fun h => ⟨fun y => (rr y).mtar h, hf.mtar⟩)
  obtain ⟨O, O1, -⟩ := C103_oxidation_continuous_partial m.oxid.cls m.ctx g z (fun y => (rr y).gas) (fun y => (rr y).sized) hf.T hf.P hf.rho hf.cMin hf.frac ho
  rw [← (hr z).wf.nucl.new hn] at J1
  rw [← (hr z).wf.oxid] at O1
  choose S1 S2 e1 e2 e3 using fun y => mono_plain (hr y) hn hg (J1 y) (O1 y)
  have nn : ∀ y, 0 ≤ M0 y ∧ 0 ≤ M1 y := fun y =>
    ⟨(hr y).gas.acc.sootVar_nonneg _ (by simp [(hr y).soot]), (hr y).gas.acc.sootVar_nonneg _ (by simp [(hr y).soot])⟩
  have lim := bound_lim (c := m.coag) hp ⟨hf.T, hf.P, hf.rho, hf.mu⟩ c0 c1 h0
  have K : Tendsto (fun y => m.coag.val (f y) (monoA (M0 y) (M1 y) (a y)) (monoA (M0 y) (M1 y) (a y)) * monoW (M0 y) (w y) ^ 2 / 2)
      (𝓝[{y | 0 < M0 y}] z) (𝓝 0) := by
    refine squeeze_zero' ?_ ?_ (lim.mono_left nhdsWithin_le_nhds)
    · filter_upwards with y
      have := Coag.val_nonneg (hp y) fm (monoA (M0 y) (M1 y) (a y)) (monoA (M0 y) (M1 y) (a y)); positivity
    · filter_upwards [self_mem_nhdsWithin] with y hy
      have hy : 0 < M0 y := hy
      rw [monoW, if_pos hy, monoA, if_pos hy]
      have := val_lin fm (hp y) (div_nonneg (nn y).2 hy.le)
      calc _ ≤ kernBound m.coag (f y) * (M1 y / M0 y) * M0 y ^ 2 / 2 := by gcongr
        _ = _ := by field_simp
  refine ⟨fun y => (S1 y, S2 y), J z, e1, ?_, ?_, ?_⟩
  · simp only [e2, List.getD_cons_zero]
    simpa using (J2.tendsto.mono_left nhdsWithin_le_nhds).sub K
  · simp only [e2, List.getD_cons_zero, monoW, monoA, h0, gt_iff_lt, lt_irrefl, if_false]
  · rw [val_core _ _ ha ha]
    have := core_pos fm hc (hp z) (mmin_pos.trans ha) (mmin_pos.trans ha)
    positivity

end

/-! ## Examples -/

/-- The burning gas of `argsEx2` with `N` particles of 1E-23 kg, in a state object with nodes `w`, `a`. -/
noncomputable def stN (w a : ℝ) (N : Set.Ici (0 : ℝ)) : State :=
  stateAfter { State.mk' 2 0 with wts := [w], absc := [a] } { argsEx2 with sootVar := [N.1, N.1 * 1E-23] }

theorem stN_ready (w a : ℝ) (N : Set.Ici (0 : ℝ)) : MonoReady monoEx (stN w a N) N.1 (N.1 * 1E-23) w a where
  wf := ⟨Nucl.new_wf _, rfl, rfl, fun _ => rfl, fun _ => rfl, rfl, rfl, rfl⟩
  fm := by norm_num [monoEx, Coag.new]
  gas := by
    have ad : Admissible 2 0 6 { argsEx2 with sootVar := [N.1, N.1 * 1E-23] } :=
      { argsEx2_admissible with soot := by intro i h hi; simp at h; omega }
    have e := C01_setState_accepts { State.mk' 2 0 with wts := [w], absc := [a] } { argsEx2 with sootVar := [N.1, N.1 * 1E-23] }
      (by simp [State.mk', argsEx2]) (by simp [State.mk']) (by simpa [State.mk', nPah] using ad)
    refine ⟨⟨_, _, by rw [e], by rw [e]; rfl⟩, stEx2_gasOk.len ▸ by rw [stEx2_eq']; rfl, fun y hy => stEx2_gasOk.nonneg y ?_⟩
    rw [stEx2_eq']; exact hy
  pah := by rw [← stEx2_yPah, stEx2_eq']; rfl
  sized := ⟨by simp [stN, stateAfter], by simp [monoEx, Model.ctx], by simp [monoEx, Model.ctx]⟩
  sing := by simp [monoEx, Grow.new, Oxid.new]
  tar := by simp [monoEx, Nucl.new]
  mtar := by simp [monoEx, Nucl.new]
  psd := rfl
  notar := rfl
  len := rfl
  soot := by
    have h : (0 : ℝ) ≤ N.1 := N.2
    have h2 : (0 : ℝ) ≤ N.1 * 1E-23 := by positivity
    simp [stN, stateAfter, h]
    norm_num at h2 ⊢
    exact h
  wts := rfl
  absc := rfl

theorem stN_cont (w a : ℝ) (z : Set.Ici (0 : ℝ)) : ContIn (stN w a) z := by
  constructor
  · constructor <;> intros <;> exact continuousAt_const
  all_goals exact continuousAt_const

/-- Fresh nodes: the sources are continuous where the soot vanishes. -/
example : ∃ S : Set.Ici (0 : ℝ) → Model × State, (∀ N, monoSources monoEx (stN 0 0 N) = ok (S N)) ∧
    ContinuousAt (fun N => (S N).1.sources.soot.getD 0 0) ⟨0, le_refl (0 : ℝ)⟩ := by
  obtain ⟨S, h1, h2, -⟩ := C104_mono_continuous_partial monoEx (stN 0 0) ⟨0, le_refl (0 : ℝ)⟩ (fun N => N.1) (fun N => N.1 * 1E-23) (fun _ => 0) (fun _ => 0)
    (stN_ready 0 0) (by simp [monoEx, Nucl.new]) (by simp [monoEx, Grow.new]) (by simp [monoEx, Oxid.new]) (stN_cont _ _ _)
    continuous_subtype_val.continuousAt (continuous_subtype_val.mul continuous_const).continuousAt (fun h => absurd h (lt_irrefl _)) (fun _ _ => rfl)
  exact ⟨S, h1, h2 0⟩

/-- The nodes of an earlier call with 1E15 particles of 1E-23 kg: the number source jumps. -/
example : ∃ (S : Set.Ici (0 : ℝ) → Model × State) (J : ℝ), (∀ N, monoSources monoEx (stN 1E15 1E-23 N) = ok (S N)) ∧
    Tendsto (fun N => (S N).1.sources.soot.getD 0 0) (𝓝[{N | 0 < N.1}] ⟨0, le_refl (0 : ℝ)⟩) (𝓝 J) ∧
    (S ⟨0, le_refl (0 : ℝ)⟩).1.sources.soot.getD 0 0 < J := by
  obtain ⟨S, J, h1, h2, h3, h4⟩ := C104_stale_jump monoEx (stN 1E15 1E-23) ⟨0, le_refl (0 : ℝ)⟩ (fun N => N.1) (fun N => N.1 * 1E-23) (fun _ => 1E15)
    (fun _ => 1E-23) (stN_ready 1E15 1E-23) (by simp [monoEx, Nucl.new]) (by simp [monoEx, Grow.new]) (by simp [monoEx, Oxid.new]) (stN_cont _ _ _)
    continuous_subtype_val.continuousAt (continuous_subtype_val.mul continuous_const).continuousAt rfl (by norm_num) (by norm_num [mmin])
    (by simp [monoEx, Coag.new])
  exact ⟨S, J, h1, h2, by rw [h3]; linarith⟩

end Soot
