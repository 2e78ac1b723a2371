import Verif.Props.Continuity
import Mathlib.Analysis.SpecialFunctions.Pow.Deriv
import Mathlib.Analysis.SpecialFunctions.Sqrt
import Mathlib.Analysis.SpecialFunctions.ExpDeriv

/-!
# The kernels are continuously differentiable in the masses

Needed for the uniqueness of the evolution (C105).  The only delicate place is the square root of `g₁² + g₂²` in the FUCHS kernel: the length
`fuchsG` is positive for positive masses.
-/

namespace Soot

open Res Real Filter Topology Cont
open scoped Classical

namespace Smooth

variable {E : Type*} [NormedAddCommGroup E] [NormedSpace ℝ E] {x : E}

theorem fuchsG_pos {s : State} (h : s.Phys) {m : ℝ} (hm : 0 < m) : 0 < fuchsG s m := by
  have hl := fuchsL_pos h hm; have hd := diam_pos hm
  unfold fuchsG
  set d := diam m; set l := fuchsL s m
  have r2 : 0 < root2 := by unfold root2; positivity
  have e : (d * d + l * l) ^ (1.5 : ℝ) < d ^ 3 + 3 * d * l ^ 2 + l ^ 3 := by
    have h15 : ((d * d + l * l) ^ (1.5 : ℝ)) ^ 2 = (d * d + l * l) ^ 3 := by
      rw [← rpow_natCast, ← rpow_mul (by positivity), ← rpow_natCast]; norm_num
    refine lt_of_pow_lt_pow_left₀ 2 (by positivity) ?_
    rw [h15]
    have a1 : 0 < d ^ 4 * l ^ 2 := by positivity
    have a2 : 0 < d ^ 2 * l ^ 4 := by positivity
    have a3 : 0 < d ^ 3 * l ^ 3 := by positivity
    have a4 : 0 < d * l ^ 5 := by positivity
    nlinarith
  have e2 : 3 * d * l * d < (d + l) ^ 3 - (d * d + l * l) ^ (1.5 : ℝ) := by nlinarith
  have e3 : root2 * d = root2 / (3 * d * l) * (3 * d * l * d) := by field_simp
  rw [e3, sub_pos]
  exact mul_lt_mul_of_pos_left e2 (by positivity)

theorem diam_smooth {m : E → ℝ} (hm : ContDiffAt ℝ 1 m x) (p : 0 < m x) : ContDiffAt ℝ 1 (fun y => diam (m y)) x := by
  unfold diam
  have := rhoSoot_pos
  exact ((contDiffAt_const.mul hm).div_const _).rpow_const_of_ne (by positivity)

theorem fm_smooth (c : Coag) (s : State) {m1 m2 : E → ℝ} (h1 : ContDiffAt ℝ 1 m1 x) (h2 : ContDiffAt ℝ 1 m2 x)
    (p1 : 0 < m1 x) (p2 : 0 < m2 x) : ContDiffAt ℝ 1 (fun y => fmVal c s (m1 y) (m2 y)) x := by
  unfold fmVal
  have r : ContDiffAt ℝ 1 (fun y => (m1 y) ^ onethird + (m2 y) ^ onethird) x :=
    (h1.rpow_const_of_ne p1.ne').add (h2.rpow_const_of_ne p2.ne')
  have e : 1 / m1 x + 1 / m2 x ≠ 0 := by positivity
  exact ((contDiffAt_const.mul (((contDiffAt_const.div h1 p1.ne').add (contDiffAt_const.div h2 p2.ne')).sqrt e)).mul r).mul r

theorem cont_smooth (s : State) {m1 m2 : E → ℝ} (h1 : ContDiffAt ℝ 1 m1 x) (h2 : ContDiffAt ℝ 1 m2 x)
    (p1 : 0 < m1 x) (p2 : 0 < m2 x) : ContDiffAt ℝ 1 (fun y => contVal s (m1 y) (m2 y)) x := by
  unfold contVal
  have one : ∀ {m : E → ℝ}, ContDiffAt ℝ 1 m x → 0 < m x →
      ContDiffAt ℝ 1 (fun y => (1 + 1.657 * (2 * s.mfpVal / diam (m y))) / diam (m y)) x := fun hm p =>
    (contDiffAt_const.add (contDiffAt_const.mul (contDiffAt_const.div (diam_smooth hm p) (diam_pos p).ne'))).div
      (diam_smooth hm p) (diam_pos p).ne'
  exact (contDiffAt_const.mul ((one h1 p1).add (one h2 p2))).mul ((diam_smooth h1 p1).add (diam_smooth h2 p2))

theorem slip_smooth {s : State} (hp : s.Phys) {m : E → ℝ} (hm : ContDiffAt ℝ 1 m x) (p : 0 < m x) :
    ContDiffAt ℝ 1 (fun y => cunningham (2 * s.mfpVal / diam (m y))) x := by
  have l0 := hp.mfpVal_pos
  have cd := diam_smooth hm p
  have k0 : 2 * s.mfpVal / diam (m x) ≠ 0 := by have := diam_pos p; positivity
  have ck : ContDiffAt ℝ 1 (fun y => 2 * s.mfpVal / diam (m y)) x := contDiffAt_const.div cd (diam_pos p).ne'
  have e : (fun y => cunningham (2 * s.mfpVal / diam (m y))) =ᶠ[𝓝 x] fun y =>
      1 + 2 * s.mfpVal / diam (m y) * (1.257 + 0.4 * exp (-1.1 / (2 * s.mfpVal / diam (m y)))) := by
    filter_upwards [ck.continuousAt.eventually_ne k0] with y hy
    simp only [cunningham, if_neg hy]
  refine ContDiffAt.congr_of_eventuallyEq ?_ e
  exact contDiffAt_const.add (ck.mul (contDiffAt_const.add (contDiffAt_const.mul (contDiffAt_const.div ck k0).exp)))

theorem hm_smooth {s : State} (hp : s.Phys) {m1 m2 : E → ℝ} (h1 : ContDiffAt ℝ 1 m1 x) (h2 : ContDiffAt ℝ 1 m2 x)
    (p1 : 0 < m1 x) (p2 : 0 < m2 x) : ContDiffAt ℝ 1 (fun y => hmContVal s (m1 y) (m2 y)) x := by
  unfold hmContVal
  exact (contDiffAt_const.mul (((slip_smooth hp h1 p1).div (diam_smooth h1 p1) (diam_pos p1).ne').add
    ((slip_smooth hp h2 p2).div (diam_smooth h2 p2) (diam_pos p2).ne'))).mul ((diam_smooth h1 p1).add (diam_smooth h2 p2))

theorem fD_smooth {s : State} (hp : s.Phys) {m : E → ℝ} (hm : ContDiffAt ℝ 1 m x) (p : 0 < m x) : ContDiffAt ℝ 1 (fun y => fuchsD s (m y)) x := by
  unfold fuchsD
  exact (contDiffAt_const.mul (slip_smooth hp hm p)).div (diam_smooth hm p) (diam_pos p).ne'

theorem fC_smooth {s : State} (hp : s.Phys) {m : E → ℝ} (hm : ContDiffAt ℝ 1 m x) (p : 0 < m x) : ContDiffAt ℝ 1 (fun y => fuchsC s (m y)) x := by
  unfold fuchsC
  have := hp.T; have := kb_pos
  have e : π * m x ≠ 0 := by positivity
  have e2 : 8 * kb * s.T / (π * m x) ≠ 0 := by positivity
  exact (contDiffAt_const.div (contDiffAt_const.mul hm) e).sqrt e2

theorem fG_smooth {s : State} (hp : s.Phys) {m : E → ℝ} (hm : ContDiffAt ℝ 1 m x) (p : 0 < m x) : ContDiffAt ℝ 1 (fun y => fuchsG s (m y)) x := by
  have hl := fuchsL_pos hp p; have hd := diam_pos p; have hc := fuchsC_pos hp p
  have cd := diam_smooth hm p
  have cl : ContDiffAt ℝ 1 (fun y => fuchsL s (m y)) x := by
    unfold fuchsL
    exact (contDiffAt_const.mul (fD_smooth hp hm p)).div (contDiffAt_const.mul (fC_smooth hp hm p)) (by positivity)
  unfold fuchsG
  have e3 : 3 * diam (m x) * fuchsL s (m x) ≠ 0 := by positivity
  have e4 : diam (m x) * diam (m x) + fuchsL s (m x) * fuchsL s (m x) ≠ 0 := by positivity
  exact ((contDiffAt_const.div ((contDiffAt_const.mul cd).mul cl) e3).mul
    (((cd.add cl).pow 3).sub (((cd.mul cd).add (cl.mul cl)).rpow_const_of_ne e4))).sub (contDiffAt_const.mul cd)

theorem fuchs_smooth {c : Coag} (hc : 0 < c.fmMult) {s : State} (hp : s.Phys) {m1 m2 : E → ℝ} (h1 : ContDiffAt ℝ 1 m1 x)
    (h2 : ContDiffAt ℝ 1 m2 x) (p1 : 0 < m1 x) (p2 : 0 < m2 x) : ContDiffAt ℝ 1 (fun y => fuchsVal c s (m1 y) (m2 y)) x := by
  have d1 := diam_pos p1; have d2 := diam_pos p2; have c1 := fuchsC_pos hp p1; have c2 := fuchsC_pos hp p2
  have q1 := fuchsG_pos hp p1; have q2 := fuchsG_pos hp p2
  have hden := (fuchsVal_den_pos hp p1 p2 hc).ne'
  unfold fuchsVal
  have e0 : fuchsG s (m1 x) * fuchsG s (m1 x) + fuchsG s (m2 x) * fuchsG s (m2 x) ≠ 0 := by positivity
  have e3 : fuchsC s (m1 x) * fuchsC s (m1 x) + fuchsC s (m2 x) * fuchsC s (m2 x) ≠ 0 := by positivity
  have e1 : diam (m1 x) + diam (m2 x) + 2 * sqrt (fuchsG s (m1 x) * fuchsG s (m1 x) + fuchsG s (m2 x) * fuchsG s (m2 x)) ≠ 0 := by positivity
  have e2 : sqrt (fuchsC s (m1 x) * fuchsC s (m1 x) + fuchsC s (m2 x) * fuchsC s (m2 x)) * (diam (m1 x) + diam (m2 x)) ≠ 0 := by positivity
  have cd := (diam_smooth h1 p1).add (diam_smooth h2 p2)
  have cD := (fD_smooth hp h1 p1).add (fD_smooth hp h2 p2)
  have g1 := fG_smooth hp h1 p1; have g2 := fG_smooth hp h2 p2
  have k1 := fC_smooth hp h1 p1; have k2 := fC_smooth hp h2 p2
  exact ((contDiffAt_const.mul cD).mul cd).div ((cd.div (cd.add (contDiffAt_const.mul (((g1.mul g1).add (g2.mul g2)).sqrt e0))) e1).add
    ((contDiffAt_const.mul cD).div ((((k1.mul k1).add (k2.mul k2)).sqrt e3).mul cd) e2)) hden

theorem core_smooth {c : Coag} (hc : 0 < c.fmMult) {s : State} (hp : s.Phys) {m1 m2 : E → ℝ} (h1 : ContDiffAt ℝ 1 m1 x)
    (h2 : ContDiffAt ℝ 1 m2 x) (p1 : 0 < m1 x) (p2 : 0 < m2 x) : ContDiffAt ℝ 1 (fun y => core c s (m1 y) (m2 y)) x := by
  unfold core
  have a := fm_smooth c s h1 h2 p1 p2; have b := hm_smooth hp h1 h2 p1 p2
  have a' := fmVal_pos hp hc p1 p2; have b' := hmContVal_pos hp p1 p2
  rcases c.mech
  · exact contDiffAt_const
  · exact a
  · exact cont_smooth s h1 h2 p1 p2
  · exact (a.mul b).div (a.add b) (by positivity)
  · exact fuchs_smooth hc hp h1 h2 p1 p2

/-- The kernel, cutoff included, is continuously differentiable wherever neither mass is the cutoff mass. -/
theorem val_smooth {c : Coag} (hc : 0 < c.fmMult) {s : State} (hp : s.Phys) {m1 m2 : E → ℝ} (h1 : ContDiffAt ℝ 1 m1 x)
    (h2 : ContDiffAt ℝ 1 m2 x) (n1 : m1 x ≠ mmin) (n2 : m2 x ≠ mmin) : ContDiffAt ℝ 1 (fun y => c.val s (m1 y) (m2 y)) x := by
  rcases n1.lt_or_gt with l1 | l1
  · refine contDiffAt_const (c := (0 : ℝ)) |>.congr_of_eventuallyEq ?_
    filter_upwards [h1.continuousAt.eventually (gt_mem_nhds l1)] with y hy using val_zero c s (.inl (le_of_lt hy))
  rcases n2.lt_or_gt with l2 | l2
  · refine contDiffAt_const (c := (0 : ℝ)) |>.congr_of_eventuallyEq ?_
    filter_upwards [h2.continuousAt.eventually (gt_mem_nhds l2)] with y hy using val_zero c s (.inr (le_of_lt hy))
  · refine (core_smooth hc hp h1 h2 (mmin_pos.trans l1) (mmin_pos.trans l2)).congr_of_eventuallyEq ?_
    filter_upwards [h1.continuousAt.eventually (lt_mem_nhds l1), h2.continuousAt.eventually (lt_mem_nhds l2)] with y a b using val_core c s a b

end Smooth

end Soot
