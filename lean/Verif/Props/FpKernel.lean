import Verif.Props.FpAcc
import Verif.Props.Coag
import Verif.Props.Fp
import Verif.Props.FpMass
import Mathlib.Analysis.Real.Pi.Bounds

/-!
# C99: the coagulation kernels are accurate in floating point

Specification: every operation and library function of the processor has a relative error of at most `ε` (`Fp.Accurate`).  The theorems bound
the relative error of the kernel as the program computes it against the kernel in exact arithmetic.  The masses may already carry one rounding error
(C102 uses this); exact masses are a special case.
-/

namespace Soot

open Dbl
open scoped Classical

namespace FpK

variable {F : Fp} {ε : ℝ}

/-- The state of the program (doubles) and the same state in exact arithmetic, of ordinary size.  `MWGas` is computed by the program. -/
structure Pair (ε : ℝ) (s : State) (D : DState) : Prop where
  T : D.T = fin s.T
  rho : D.rhoGas = fin s.rhoGas
  mu : D.muGas = fin s.muGas
  mw : Acc ε 6 (-13) 15 s.MWGas D.MWGas
  T0 : (10 : ℝ) ^ (0 : ℤ) ≤ s.T
  T1 : s.T ≤ (10 : ℝ) ^ (5 : ℤ)
  rho0 : (10 : ℝ) ^ (-6 : ℤ) ≤ s.rhoGas
  rho1 : s.rhoGas ≤ (10 : ℝ) ^ (3 : ℤ)
  mu0 : (10 : ℝ) ^ (-8 : ℤ) ≤ s.muGas
  mu1 : s.muGas ≤ (10 : ℝ) ^ (2 : ℤ)

section

variable (hF : F.Accurate ε) (hε : Sm ε)
include hF hε

theorem lit_pi : Acc ε 1 0 1 Real.pi (F.rnd Real.pi) :=
  .lit hF hε (by have := Real.pi_gt_three; norm_num; linarith) (by have := Real.pi_lt_four; norm_num; linarith) (by norm_num) (by norm_num)

theorem lit_rho : Acc ε 1 3 4 rhoSoot (F.rnd rhoSoot) := .lit hF hε (by norm_num [rhoSoot]) (by norm_num [rhoSoot]) (by norm_num) (by norm_num)

theorem lit_kb : Acc ε 1 (-23) (-22) kb (F.rnd kb) := .lit hF hε (by norm_num [kb]) (by norm_num [kb]) (by norm_num) (by norm_num)

theorem lit_one : Acc ε 1 0 0 1 (F.rnd 1) := .lit hF hε (by norm_num) (by norm_num) (by norm_num) (by norm_num)
theorem lit_two : Acc ε 1 0 1 2 (F.rnd 2) := .lit hF hε (by norm_num) (by norm_num) (by norm_num) (by norm_num)
theorem lit_three : Acc ε 1 0 1 3 (F.rnd 3) := .lit hF hε (by norm_num) (by norm_num) (by norm_num) (by norm_num)
theorem lit_six : Acc ε 1 0 1 6 (F.rnd 6) := .lit hF hε (by norm_num) (by norm_num) (by norm_num) (by norm_num)
theorem lit_eight : Acc ε 1 0 1 8 (F.rnd 8) := .lit hF hε (by norm_num) (by norm_num) (by norm_num) (by norm_num)
theorem lit_half : Acc ε 1 (-1) 0 0.5 (F.rnd 0.5) := .lit hF hε (by norm_num) (by norm_num) (by norm_num) (by norm_num)
theorem lit_slip : Acc ε 1 0 1 1.657 (F.rnd 1.657) := .lit hF hε (by norm_num) (by norm_num) (by norm_num) (by norm_num)
theorem lit_eps : Acc ε 1 0 1 epsC (F.rnd epsC) := .lit hF hε (by norm_num [epsC]) (by norm_num [epsC]) (by norm_num) (by norm_num)

theorem acc_third : Acc ε 3 (-1) 0 onethird F.third :=
  (Acc.div hF hε (lit_one hF hε) (lit_three hF hε) (by norm_num) (by norm_num) (by norm_num)).range (by norm_num [onethird]) (by norm_num [onethird])

theorem acc_twothird : Acc ε 3 (-1) 0 twothird F.twoThird :=
  (Acc.div hF hε (lit_two hF hε) (lit_three hF hε) (by norm_num) (by norm_num) (by norm_num)).range (by norm_num [twothird]) (by norm_num [twothird])

theorem acc_Rg : Acc ε 3 3 5 Rg (F.mul (F.rnd Na) (F.rnd kb)) :=
  Acc.mul hF hε (.lit hF hε (a := 26) (b := 27) (by norm_num [Na]) (by norm_num [Na]) (by norm_num) (by norm_num)) (lit_kb hF hε) (by norm_num) (by norm_num) (by norm_num)

/-- `M_PI*rhoSoot` -/
theorem acc_pirho : Acc ε 3 3 5 (Real.pi * rhoSoot) (F.mul (F.rnd Real.pi) (F.rnd rhoSoot)) :=
  Acc.mul hF hε (lit_pi hF hε) (lit_rho hF hε) (by norm_num) (by norm_num) (by norm_num)

/-- The diameter. -/
theorem acc_diam {m : ℝ} {M : Dbl} (hm : Acc ε 1 (-26) 3 m M) : Acc ε 83 (-11) 1 (diam m) (diamD F M) := by
  have a1 : Acc ε 3 (-26) 4 (6 * m) (F.mul (F.rnd 6) M) := .mul hF hε (lit_six hF hε) hm (by norm_num) (by norm_num) (by norm_num)
  have a2 : Acc ε 7 (-31) 1 (6 * m / (Real.pi * rhoSoot)) (F.div (F.mul (F.rnd 6) M) (F.mul (F.rnd Real.pi) (F.rnd rhoSoot))) :=
    .div hF hε a1 (acc_pirho hF hε) (by norm_num) (by norm_num) (by norm_num)
  exact a2.pow hF hε (acc_third hF hε) 82 (-11) 1 31 (by norm_num) (by norm_num) (by norm_num [onethird]) (by norm_num) (by norm_num [onethird])
    (by norm_num [onethird]) (by norm_num) (by norm_num)

variable {s : State} {D : DState} (hp : Pair ε s D)
include hp

theorem acc_T : Acc ε 0 0 5 s.T D.T := hp.T ▸ .exact hp.T0 hp.T1
theorem acc_mu : Acc ε 0 (-8) 2 s.muGas D.muGas := hp.mu ▸ .exact hp.mu0 hp.mu1
theorem acc_rho : Acc ε 0 (-6) 3 s.rhoGas D.rhoGas := hp.rho ▸ .exact hp.rho0 hp.rho1

/-- The mean free path. -/
theorem acc_mfp : Acc ε 18 (-23) 15 s.mfpVal (D.mfp F) := by
  have hT := acc_T hF hε hp
  have a1 : Acc ε 1 (-11) 8 (s.muGas / s.rhoGas) _ := .div hF hε (acc_mu hF hε hp) (acc_rho hF hε hp) (by norm_num) (by norm_num) (by norm_num)
  have a2 : Acc ε 8 (-13) 16 (Real.pi * s.MWGas) _ := .mul hF hε (lit_pi hF hε) hp.mw (by norm_num) (by norm_num) (by norm_num)
  have a3 : Acc ε 5 3 6 (2 * Rg) _ := .mul hF hε (lit_two hF hε) (acc_Rg hF hε) (by norm_num) (by norm_num) (by norm_num)
  have a4 : Acc ε 6 3 11 (2 * Rg * s.T) _ := .mul hF hε a3 hT (by norm_num) (by norm_num) (by norm_num)
  have a5 : Acc ε 15 (-24) 13 (Real.pi * s.MWGas / (2 * Rg * s.T)) _ := .div hF hε a2 a4 (by norm_num) (by norm_num) (by norm_num)
  have a6 : Acc ε 16 (-12) 7 _ _ := a5.sqrt hF hε (-12) 7 (by norm_num) (by norm_num) (by norm_num) (by norm_num) (by norm_num)
  exact a1.mul hF hε a6 (by norm_num) (by norm_num) (by norm_num)

/-- `2*mfp/d` -/
theorem acc_kn {m : ℝ} {M : Dbl} (hm : Acc ε 1 (-26) 3 m M) :
    Acc ε 104 (-24) 27 (2 * s.mfpVal / diam m) (F.div (F.mul (F.rnd 2) (D.mfp F)) (diamD F M)) := by
  have a1 : Acc ε 20 (-23) 16 (2 * s.mfpVal) _ := .mul hF hε (lit_two hF hε) (acc_mfp hF hε hp) (by norm_num) (by norm_num) (by norm_num)
  exact a1.div hF hε (acc_diam hF hε hm) (by norm_num) (by norm_num) (by norm_num)

/-- The slip correction of a particle. -/
theorem acc_slip {m : ℝ} {M : Dbl} (hm : Acc ε 1 (-26) 3 m M) :
    Acc ε 218 0 29 (cunningham (2 * s.mfpVal / diam m)) (cunninghamD F (F.div (F.mul (F.rnd 2) (D.mfp F)) (diamD F M))) := by
  have k := acc_kn hF hε hp hm
  have a1 := slip_inner hF hε k (by norm_num) (by norm_num) (by norm_num)
  have a2 : Acc ε 217 (-24) 28 _ _ := k.mul hF hε a1 (by norm_num) (by norm_num) (by norm_num)
  have a3 : Acc ε 218 0 29 _ _ := (lit_one hF hε).add hF hε a2 217 0 29 (by norm_num) (by norm_num) (by norm_num) (by norm_num) (by norm_num)
    (by norm_num) (by norm_num) (by norm_num)
  refine a3.of_eq ?_
  rw [cunningham, if_neg k.pos.ne']

variable {m1 m2 c : ℝ} {M1 M2 : Dbl} (hm1 : Acc ε 1 (-26) 3 m1 M1) (hm2 : Acc ε 1 (-26) 3 m2 M2)
include hm1 hm2

theorem acc_ds : Acc ε 84 (-11) 2 (diam m1 + diam m2) (F.add (diamD F M1) (diamD F M2)) :=
  (acc_diam hF hε hm1).add hF hε (acc_diam hF hε hm2) 83 (-11) 2 (by norm_num) (by norm_num) (by norm_num) (by norm_num) (by norm_num)
    (by norm_num) (by norm_num) (by norm_num)

theorem acc_CONT : Acc ε 285 (-38) 35 (contVal s m1 m2) (rateCONTD F D M1 M2) := by
  have hT := acc_T hF hε hp
  have a1 : Acc ε 3 (-23) (-21) (2 * kb) _ := .mul hF hε (lit_two hF hε) (lit_kb hF hε) (by norm_num) (by norm_num) (by norm_num)
  have a2 : Acc ε 4 (-23) (-16) (2 * kb * s.T) _ := .mul hF hε a1 hT (by norm_num) (by norm_num) (by norm_num)
  have a3 : Acc ε 2 (-8) 3 (3 * s.muGas) _ := .mul hF hε (lit_three hF hε) (acc_mu hF hε hp) (by norm_num) (by norm_num) (by norm_num)
  have a4 : Acc ε 7 (-26) (-8) (kcVal s) (kcD F D) := .div hF hε a2 a3 (by norm_num) (by norm_num) (by norm_num)
  have b : ∀ {m : ℝ} {M : Dbl} (hm : Acc ε 1 (-26) 3 m M), Acc ε 191 (-1) 40 ((1 + 1.657 * (2 * s.mfpVal / diam m)) / diam m)
      (F.div (F.add (F.rnd 1) (F.mul (F.rnd 1.657) (F.div (F.mul (F.rnd 2) (D.mfp F)) (diamD F M)))) (diamD F M)) := by
    intro m M hm
    have c1 : Acc ε 106 (-24) 28 (1.657 * (2 * s.mfpVal / diam m)) _ := .mul hF hε (lit_slip hF hε) (acc_kn hF hε hp hm) (by norm_num) (by norm_num) (by norm_num)
    have c2 : Acc ε 107 0 29 (1 + 1.657 * (2 * s.mfpVal / diam m)) _ := .add hF hε (lit_one hF hε) c1 106 0 29 (by norm_num) (by norm_num) (by norm_num)
      (by norm_num) (by norm_num) (by norm_num) (by norm_num) (by norm_num)
    exact c2.div hF hε (acc_diam hF hε hm) (by norm_num) (by norm_num) (by norm_num)
  have b12 : Acc ε 192 (-1) 41 _ _ := (b hm1).add hF hε (b hm2) 191 (-1) 41 (by norm_num) (by norm_num) (by norm_num)
      (by norm_num) (by norm_num) (by norm_num) (by norm_num) (by norm_num)
  have d1 : Acc ε 200 (-27) 33 _ _ := a4.mul hF hε b12 (by norm_num) (by norm_num) (by norm_num)
  exact d1.mul hF hε (acc_ds hF hε hp hm1 hm2) (by norm_num) (by norm_num) (by norm_num)

variable (c0 : (10 : ℝ) ^ (-6 : ℤ) ≤ c) (c1 : c ≤ (10 : ℝ) ^ (6 : ℤ)) (k : CoagMech)
include c0 c1

theorem acc_FM : Acc ε 190 (-65) 28 (fmVal ⟨k, c⟩ s m1 m2) (rateFMD F D (fin c) M1 M2) := by
  have hT := acc_T hF hε hp
  have a1 : Acc ε 2 (-6) 7 (c * epsC) _ := .mul hF hε (.exact c0 c1) (lit_eps hF hε) (by norm_num) (by norm_num) (by norm_num)
  have a2 : Acc ε 3 (-1) 1 (0.5 * Real.pi) _ := .mul hF hε (lit_half hF hε) (lit_pi hF hε) (by norm_num) (by norm_num) (by norm_num)
  have a3 : Acc ε 5 (-24) (-21) (0.5 * Real.pi * kb) _ := .mul hF hε a2 (lit_kb hF hε) (by norm_num) (by norm_num) (by norm_num)
  have a4 : Acc ε 6 (-24) (-16) (0.5 * Real.pi * kb * s.T) _ := .mul hF hε a3 hT (by norm_num) (by norm_num) (by norm_num)
  have a5 : Acc ε 7 (-12) (-8) _ _ := a4.sqrt hF hε (-12) (-8) (by norm_num) (by norm_num) (by norm_num) (by norm_num) (by norm_num)
  have a6 : Acc ε 10 (-18) (-1) _ _ := a1.mul hF hε a5 (by norm_num) (by norm_num) (by norm_num)
  have a7 : Acc ε 5 (-5) (-2) (6 / (Real.pi * rhoSoot)) _ := .div hF hε (lit_six hF hε) (acc_pirho hF hε) (by norm_num) (by norm_num) (by norm_num)
  have a8 : Acc ε 31 (-4) (-1) ((6 / (Real.pi * rhoSoot)) ^ twothird) _ := a7.pow hF hε (acc_twothird hF hε) 30 (-4) (-1) 5 (by norm_num) (by norm_num)
    (by norm_num [twothird]) (by norm_num) (by norm_num [twothird]) (by norm_num [twothird]) (by norm_num) (by norm_num)
  have a9 : Acc ε 42 (-22) (-2) (Coag.kfmVal ⟨k, c⟩ s) (kfmD F D (fin c)) := a6.mul hF hε a8 (by norm_num) (by norm_num) (by norm_num)
  have i : ∀ {m : ℝ} {M : Dbl} (hm : Acc ε 1 (-26) 3 m M), Acc ε 3 (-3) 26 (1 / m) (F.div (F.rnd 1) M) :=
    fun hm => .div hF hε (lit_one hF hε) hm (by norm_num) (by norm_num) (by norm_num)
  have b1 : Acc ε 4 (-3) 27 (1 / m1 + 1 / m2) _ := .add hF hε (i hm1) (i hm2) 3 (-3) 27 (by norm_num) (by norm_num) (by norm_num)
      (by norm_num) (by norm_num) (by norm_num) (by norm_num) (by norm_num)
  have b2 : Acc ε 5 (-2) 14 _ _ := b1.sqrt hF hε (-2) 14 (by norm_num) (by norm_num) (by norm_num) (by norm_num) (by norm_num)
  have r : ∀ {m : ℝ} {M : Dbl} (hm : Acc ε 1 (-26) 3 m M), Acc ε 69 (-9) 1 (m ^ onethird) (F.pow M F.third) :=
    fun hm => hm.pow hF hε (acc_third hF hε) 68 (-9) 1 26 (by norm_num) (by norm_num) (by norm_num [onethird]) (by norm_num)
      (by norm_num [onethird]) (by norm_num [onethird]) (by norm_num) (by norm_num)
  have b3 : Acc ε 70 (-9) 2 _ _ := (r hm1).add hF hε (r hm2) 69 (-9) 2 (by norm_num) (by norm_num) (by norm_num)
      (by norm_num) (by norm_num) (by norm_num) (by norm_num) (by norm_num)
  have d1 : Acc ε 48 (-24) 12 _ _ := a9.mul hF hε b2 (by norm_num) (by norm_num) (by norm_num)
  have d2 : Acc ε 119 (-33) 14 _ _ := d1.mul hF hε b3 (by norm_num) (by norm_num) (by norm_num)
  have d3 : Acc ε 190 (-42) 16 _ _ := d2.mul hF hε b3 (by norm_num) (by norm_num) (by norm_num)
  exact d3.mono hε (by norm_num) (by norm_num) (by norm_num)

theorem acc_HM : Acc ε 982 (-140) 150 (fmVal ⟨k, c⟩ s m1 m2 * hmContVal s m1 m2 / (fmVal ⟨k, c⟩ s m1 m2 + hmContVal s m1 m2))
    (rateHMD F D (fin c) M1 M2) := by
  have hT := acc_T hF hε hp
  have p1 : 0 < m1 := hm1.pos
  have p2 : 0 < m2 := hm2.pos
  have ds := acc_ds hF hε hp hm1 hm2
  have a1 : Acc ε 3 (-52) 6 (m1 * m2) _ := .mul hF hε hm1 hm2 (by norm_num) (by norm_num) (by norm_num)
  have a2 : Acc ε 2 (-26) 4 (m1 + m2) _ := .add hF hε hm1 hm2 1 (-26) 4 (by norm_num) (by norm_num) (by norm_num)
      (by norm_num) (by norm_num) (by norm_num) (by norm_num) (by norm_num)
  have a3 : Acc ε 6 (-56) 32 (m1 * m2 / (m1 + m2)) _ := .div hF hε a1 a2 (by norm_num) (by norm_num) (by norm_num)
  have b1 : Acc ε 3 (-23) (-21) (Real.pi * kb) _ := .mul hF hε (lit_pi hF hε) (lit_kb hF hε) (by norm_num) (by norm_num) (by norm_num)
  have b2 : Acc ε 4 (-23) (-16) (Real.pi * kb * s.T) _ := .mul hF hε b1 hT (by norm_num) (by norm_num) (by norm_num)
  have b3 : Acc ε 6 (-24) (-16) (Real.pi * kb * s.T * 0.5) _ := .mul hF hε b2 (lit_half hF hε) (by norm_num) (by norm_num) (by norm_num)
  have b4 : Acc ε 13 (-56) 40 _ _ := b3.div hF hε a3 (by norm_num) (by norm_num) (by norm_num)
  have b5 : Acc ε 14 (-28) 20 _ _ := b4.sqrt hF hε (-28) 20 (by norm_num) (by norm_num) (by norm_num) (by norm_num) (by norm_num)
  have b6 : Acc ε 16 (-28) 21 _ _ := (lit_eps hF hε).mul hF hε b5 (by norm_num) (by norm_num) (by norm_num)
  have b7 : Acc ε 101 (-39) 23 _ _ := b6.mul hF hε ds (by norm_num) (by norm_num) (by norm_num)
  have b8 : Acc ε 186 (-50) 25 _ _ := b7.mul hF hε ds (by norm_num) (by norm_num) (by norm_num)
  have b9 : Acc ε 187 (-56) 31 (hmFmVal ⟨k, c⟩ s m1 m2) _ := b8.mul hF hε (.exact c0 c1) (by norm_num) (by norm_num) (by norm_num)
  have sl : ∀ {m : ℝ} {M : Dbl} (hm : Acc ε 1 (-26) 3 m M), Acc ε 302 (-1) 40 (cunningham (2 * s.mfpVal / diam m) / diam m)
      (F.div (cunninghamD F (F.div (F.mul (F.rnd 2) (D.mfp F)) (diamD F M))) (diamD F M)) :=
    fun hm => (acc_slip hF hε hp hm).div hF hε (acc_diam hF hε hm) (by norm_num) (by norm_num) (by norm_num)
  have d1 : Acc ε 303 (-1) 41 _ _ := (sl hm1).add hF hε (sl hm2) 302 (-1) 41 (by norm_num) (by norm_num) (by norm_num)
      (by norm_num) (by norm_num) (by norm_num) (by norm_num) (by norm_num)
  have d2 : Acc ε 5 (-24) (-22) (twothird * kb) _ := .mul hF hε (acc_twothird hF hε) (lit_kb hF hε) (by norm_num) (by norm_num) (by norm_num)
  have d3 : Acc ε 6 (-24) (-17) (twothird * kb * s.T) _ := .mul hF hε d2 hT (by norm_num) (by norm_num) (by norm_num)
  have d4 : Acc ε 7 (-26) (-9) (twothird * kb * s.T / s.muGas) _ := .div hF hε d3 (acc_mu hF hε hp) (by norm_num) (by norm_num) (by norm_num)
  have d5 : Acc ε 311 (-27) 32 _ _ := d4.mul hF hε d1 (by norm_num) (by norm_num) (by norm_num)
  have d6 : Acc ε 396 (-38) 34 (hmContVal s m1 m2) _ := d5.mul hF hε ds (by norm_num) (by norm_num) (by norm_num)
  have e1 : Acc ε 584 (-94) 65 _ _ := b9.mul hF hε d6 (by norm_num) (by norm_num) (by norm_num)
  have e2 : Acc ε 397 (-38) 35 _ _ := b9.add hF hε d6 396 (-38) 35 (by norm_num) (by norm_num) (by norm_num)
      (by norm_num) (by norm_num) (by norm_num) (by norm_num) (by norm_num)
  have e3 : Acc ε 982 (-129) 103 _ _ := e1.div hF hε e2 (by norm_num) (by norm_num) (by norm_num)
  rw [← hmFmVal_eq ⟨k, c⟩ s p1 p2]
  exact e3.mono hε (by norm_num) (by norm_num) (by norm_num)

end

end FpK

end Soot
