import Verif.Fp
import Verif.Mech

/-!
# Floating point: nucleation, growth and oxidation rates over extended doubles

The rate formulas of the mechanisms, with every operation rounded (see `Fp.lean`).  Not included: PAH and AJ_RED/BROWN nucleation and the HACA
mechanisms (which use `tanh` and `log10`).  The sectional sums of `moments01` are not included either: the moments are read from `sootVar`.
-/

namespace Soot

open Res
open scoped Classical

section

variable (F : Fp) (s : DState)

/-- state.h:62 -/
noncomputable def DState.gasP (sp : GasSp) : Res Dbl := do
  let y ← idx s.yGas sp.toNat
  ok (F.mul (F.div (F.mul y s.MWGas) (F.rnd (gasMW sp))) s.P)

/-- `exp(A / T)` -/
noncomputable def arrD (A : ℝ) (T : Dbl) : Dbl := F.exp (F.div (F.rnd A) T)

/-- `k * exp(A / T) * c * n * Na / cMin` -/
noncomputable def nucRateD (k A n : ℝ) (T c : Dbl) : Dbl :=
  F.div (F.mul (F.mul (F.mul (F.mul (F.rnd k) (arrD F A T)) c) (F.rnd n)) (F.rnd Na)) s.cMin

/-- `getNucleationSootRate` of the mechanisms without PAH and tar; `nonfin` marks the mechanisms that are not modelled here. -/
noncomputable def nuclRateD (mech : NuclMech) : Res Dbl :=
  match mech with
  | .NONE => ok (F.rnd 0)
  | .LL => do            -- nucleationModel_LL.cc:34-36
    let c ← s.gasC F .C2H2
    ok (nucRateD F s 0.1E5 (-21100) 2 s.T c)
  | .LIN => do           -- nucleationModel_LIN.cc:35
    let c ← s.gasC F .C2H2
    ok (nucRateD F s 0.63E4 (-21100) 2 s.T c)
  | .LINA1 => do         -- nucleationModel_LINA1.cc:38
    let c ← s.gasC F .C6H6
    ok (nucRateD F s 0.75E5 (-21100) 6 s.T c)
  | .FAIR => do          -- nucleationModel_FAIR.cc:36
    let c ← s.gasC F .C2H2
    ok (nucRateD F s 1.35E6 (-41E3) 2 (F.mul s.T (F.rnd 1.987)) c)
  | .MB => do            -- nucleationModel_MB.cc:34
    let c ← s.gasC F .C2H2
    ok (F.mul (F.mul (F.mul (F.rnd 54) (F.rnd Na)) c) (arrD F (-21000) s.T))
  | _ => nonfin

/-- `M_PI * pow(6 / (M_PI * rhoSoot) * M1 / M0, 2.0/3.0) * M0` (growthModel_LL.cc:49-50), 0 without particles -/
noncomputable def areaD (M0 M1 : Dbl) : Dbl :=
  if (Dbl.fin 0).lt M0 then
    F.mul (F.mul (F.rnd Real.pi) (F.pow (F.div (F.mul (F.div (F.rnd 6) (F.mul (F.rnd Real.pi) (F.rnd rhoSoot))) M1) M0) F.twoThird)) M0
  else .fin 0

/-- `getGrowthSootRate` of the mechanisms other than HACA, for the models that store moments -/
noncomputable def growRateD (mech : GrowMech) : Res Dbl :=
  match mech with
  | .NONE => ok (F.rnd 0)
  | .LL => do           -- growthModel_LL.cc:33-57
    let M0 ← idx s.sootVar 0
    let M1 ← idx s.sootVar 1
    let A := areaD F M0 M1
    if (Dbl.fin 0).lt A then do
      let c ← s.gasC F .C2H2
      ok (F.mul (F.mul (F.div (F.mul (F.mul (F.rnd 0.6E3) (arrD F (-12100) s.T)) c) (F.sqrt A)) (F.rnd 2)) (F.rnd (gasMW .C)))
    else ok (F.rnd 0)
  | .FAIR => do         -- growthModel_FAIR.cc:33-57
    let M0 ← idx s.sootVar 0
    let M1 ← idx s.sootVar 1
    let A := areaD F M0 M1
    if (Dbl.fin 0).lt A then do
      let c ← s.gasC F .C2H2
      ok (F.mul (F.mul (F.mul (F.rnd 5E2) (arrD F (-24E3) (F.mul s.T (F.rnd 1.987)))) c) (F.rnd (gasMW .C)))
    else ok (F.rnd 0)
  | .MB => do           -- growthModel_MB.cc:34-60
    let M0 ← idx s.sootVar 0
    let M1 ← idx s.sootVar 1
    let A := areaD F M0 M1
    if (Dbl.fin 0).lt A then do
      let c ← s.gasC F .C2H2
      ok (F.mul (F.mul (F.rnd 430) (F.pow c F.twoThird)) (arrD F (-12100) s.T))
    else ok (F.rnd 0)
  | .LIN => do          -- growthModel_LIN.cc:33-34
    let c ← s.gasC F .C2H2
    ok (F.mul (F.mul (F.mul (F.mul (F.rnd 750) (arrD F (-12100) s.T)) c) (F.rnd 2)) (F.rnd (gasMW .C)))
  | .HACA => nonfin

/-- `coef*[OH]*sqrt(Rg*T/(2*pi*MW_OH))*MW_C` (oxidationModel_{LEE_NEOH,OPTJ,OPTG}.cc) -/
noncomputable def ohRateD (coef : ℝ) : Res Dbl := do
  let c ← s.gasC F .OH
  ok (F.mul (F.mul (F.mul (F.rnd coef) c)
    (F.sqrt (F.div (F.mul (F.mul (F.rnd Na) (F.rnd kb)) s.T) (F.mul (F.mul (F.rnd 2) (F.rnd Real.pi)) (F.rnd (gasMW .OH))))))
    (F.rnd (gasMW .C)))

/-- `k * p / sqrt(T) * exp(A / T) / 1000` -/
noncomputable def o2RateD (k A : ℝ) (p : Dbl) : Dbl :=
  F.div (F.mul (F.div (F.mul (F.rnd k) p) (F.sqrt s.T)) (arrD F A s.T)) (F.rnd 1000)

/-- oxidationModel_NSC_NEOH.cc:41-54 from the partial pressures in atm -/
noncomputable def nscRateD (p q : Dbl) : Dbl :=
  let kA := F.mul (F.rnd 20) (arrD F (-15098) s.T)
  let kB := F.mul (F.rnd 4.46E-3) (arrD F (-7650) s.T)
  let kT := F.mul (F.rnd 1.51E5) (arrD F (-48817) s.T)
  let kz := F.mul (F.rnd 21.3) (arrD F 2063 s.T)
  let x := F.div (F.rnd 1) (F.add (F.rnd 1) (F.div kT (F.mul kB p)))
  let nsc := F.add (F.div (F.mul (F.mul kA p) x) (F.add (F.rnd 1) (F.mul kz p))) (F.mul (F.mul kB p) (F.sub (F.rnd 1) x))
  F.add (F.mul nsc (F.rnd rhoSoot)) (F.div (F.mul (F.mul (F.rnd 1290) (F.rnd 0.13)) q) (F.sqrt s.T))

/-- `getOxidationSootRate` of the classes other than HACA -/
noncomputable def oxidRateD (cls : OxidMech) : Res Dbl :=
  match cls with
  | .NONE => ok (F.rnd 0)
  | .LL => do           -- oxidationModel_LL.cc:34-35
    let c ← s.gasC F .O2
    ok (F.mul (F.mul (F.mul (F.mul (F.rnd 0.1E5) (F.sqrt s.T)) (arrD F (-19680) s.T)) c) (F.rnd (gasMW .C)))
  | .FAIR => do         -- oxidationModel_FAIR.cc:34-35
    let c ← s.gasC F .O2
    ok (F.mul (F.mul (F.mul (F.rnd 1.78E4) (F.sqrt s.T)) (arrD F 39E3 (F.mul s.T (F.rnd 1.987)))) c)
  | .LEE_NEOH => do     -- oxidationModel_LEE_NEOH.cc:40-47
    let p ← s.gasP F .O2
    let oh ← ohRateD F s 0.13
    ok (F.add (o2RateD F s 1.085E4 (-1.977824E4) (F.div p (F.rnd 101325))) oh)
  | .OPTJ => do         -- oxidationModel_OPTJ.cc:41-48
    let p ← s.gasP F .O2
    let oh ← ohRateD F s 0.15
    ok (F.add (o2RateD F s 0.798 (-2.1294E4) p) oh)
  | .OPTG => do         -- oxidationModel_OPTG.cc:41-48
    let p ← s.gasP F .O2
    let oh ← ohRateD F s 0.1
    ok (F.add (o2RateD F s 15.8 (-2.345E4) p) oh)
  | .MB => do           -- oxidationModel_MB.cc:45-59 (M0, M1 are read and unused)
    let _ ← idx s.sootVar 0
    let _ ← idx s.sootVar 1
    let c ← s.gasC F .OH
    ok (F.mul (F.mul (F.rnd 4.2325) c) (F.sqrt s.T))
  | .BROWN => do        -- oxidationModel_BROWN.cc:29-32
    let p ← s.gasP F .O2
    ok (F.mul (F.mul (F.div p (F.sqrt s.T)) (F.div (F.rnd 1.09E5) (F.rnd 101325)))
      (arrD F (-1.645E8) (F.mul (F.mul (F.rnd Na) (F.rnd kb)) s.T)))
  | .AJ_RED => do       -- oxidationModel_AJ_RED.cc:34
    let p ← s.gasP F .O2
    let q ← s.gasP F .OH
    ok (F.mul (F.div (F.rnd 1) (F.sqrt s.T))
      (F.add (F.mul (F.mul (F.rnd 1.92E-3) p) (arrD F (-1.16E5) (F.mul (F.mul (F.rnd Na) (F.rnd kb)) s.T))) (F.mul (F.rnd 2.93E-3) q)))
  | .NSC_NEOH => do     -- oxidationModel_NSC_NEOH.cc:41-54
    let p ← s.gasP F .O2
    let q ← s.gasP F .OH
    ok (nscRateD F s (F.div p (F.rnd 101325)) (F.div q (F.rnd 101325)))
  | .HACA => nonfin

end

end Soot
