import Verif.Coag
import Mathlib.Analysis.SpecialFunctions.Trigonometric.Deriv

/-!
# Nucleation, growth, oxidation and tar mechanisms

`/repo/src/nucleationModels`, `/repo/src/growthModels`, `/repo/src/oxidationModels`,
`/repo/src/tarModels`.
-/

namespace Soot

open Res Real
open scoped Classical

/-- What a mechanism reads through its back pointer `SM`: particle-size-distribution type, number of soot
variables and bin masses of the owning soot model (sootModel.h:30-45). -/
structure Ctx where
  psd : PsdMech
  nsoot : ℕ
  mBins : List ℝ

/-- `exp(a/b)` -/
noncomputable def cexpDiv (a b : ℝ) : Res ℝ := do
  let q ← cdiv a b
  ok (exp q)

theorem cexpDiv_ok {a b : ℝ} (h : b ≠ 0) : cexpDiv a b = ok (exp (a / b)) := by
  rw [cexpDiv, cdiv_ok h]; rfl

/-- The gas rate loop shared (textually) by nucleationModel.cc:16-26, growthModel.cc:16-27 and
oxidationModel.cc:16-26; the output vector is zero before the call (all call sites). -/
noncomputable def gasRates (ratio : GasSp → ℝ) (mdot : ℝ) : Res (GasSp → ℝ) :=
  if ratio .C * gasMW .C = 0 then nonfin else
  ok fun sp => if sp = .C then 0 else mdot * ratio sp * gasMW sp / (ratio .C * gasMW .C)

/-! ## Nucleation -/

/-- sootDefs.h:172-176 -/
structure Dimer where
  mDimer : ℝ
  nDimer : ℝ
  nDotD : ℝ

/-- nucleationModel.h:20-45 -/
structure Nucl where
  mech : NuclMech
  ratio : GasSp → ℝ
  pahRates : PahSp → ℝ
  dimer : Dimer

/-- Reaction ratios set by the constructors nucleationModel_X.cc (and nucleationModel_NONE.h:29). -/
noncomputable def nuclRatio : NuclMech → GasSp → ℝ
  | .NONE, .C => 1
  | .NONE, _ => 0
  | .PAH, _ => 0
  | .LINA1, .C6H6 => -1
  | .LINA1, .H2 => 3
  | .LINA1, .C => 6
  | .LINA1, _ => 0
  | _, .C2H2 => -1
  | _, .H2 => 1
  | _, .C => 2
  | _, _ => 0

/-- Constructors of the nucleation classes. -/
noncomputable def Nucl.new (m : NuclMech) : Nucl := ⟨m, nuclRatio m, fun _ => 0, ⟨0, 0, 0⟩⟩

/-- Accumulators of the PAH loop, nucleationModel_PAH.cc:49-53 -/
structure PahAcc where
  nDotD : ℝ
  mDimer : ℝ
  cMin : ℝ
  hMin : ℝ
  rates : PahSp → ℝ

/-- nucleationModel_PAH.cc:64-76, loop body for the remaining species -/
noncomputable def pahLoop (s : State) (pre : ℝ) : List PahSp → PahAcc → Res PahAcc
  | [], a => ok a
  | sp :: t, a => do
    let y ← idx s.yPah sp.toNat
    let Ni := s.rhoGas * y / pahMW sp * Na
    let nd := pahGamma sp * pre * (pahMW sp / Na) ^ ((1 : ℝ) / 6) * Ni * Ni
    pahLoop s pre t
      { nDotD := a.nDotD + 0.5 * nd
        mDimer := a.mDimer + nd * pahNC sp * gasMW .C / Na
        cMin := a.cMin + nd * 2 * pahNC sp
        hMin := a.hMin + nd * 2 * pahNH sp
        rates := Function.update a.rates sp (-nd * pahMW sp / Na) }

/-- `for (int sp=0; sp<(int)pahSp::size; sp++)` -/
def pahAll : List PahSp := [.C10H8, .C12H8, .C12H10, .C14H10, .C16H10, .C18H10]

/-- nucleationModel_PAH.cc:60-61 -/
noncomputable def pahPreFac (s : State) : Res ℝ := do
  let r ← csqrt (π * kb * s.T)
  ok (4 * r * (6 / (π * rhoSoot)) ^ twothird)

/-- nucleationModel_PAH.cc:78-82: normalisation -/
noncomputable def pahNormalize (a : PahAcc) : PahAcc :=
  if a.nDotD > 0 then
    { a with mDimer := a.mDimer / (2 * a.nDotD), cMin := a.cMin / (2 * a.nDotD),
             hMin := a.hMin / (2 * a.nDotD) }
  else a

/-- nucleationModel_PAH.cc:47-124.  `ibeta` is lines 99-108: either the soot model's
`pahSootCollisionRatePerDimer` (LOGN, MOMIC, SECT) or the sum over quadrature nodes; it is passed in
because it belongs to the soot model and may read `nucl->DIMER.mDimer`, which equals its argument. -/
noncomputable def nuclPAH (n : Nucl) (ibeta : State → ℝ → Res ℝ) (s : State) :
    Res (ℝ × Nucl × State) := do
  let pre ← pahPreFac s
  let a0 ← pahLoop s pre pahAll ⟨0, 0, s.cMin, 0, n.pahRates⟩
  let a := pahNormalize a0
  let s' := { s with cMin := a.cMin }
  let h2 ← cdiv (a.hMin / 2) a.cMin
  let ratio := Function.update (Function.update n.ratio .C 1) .H2 h2
  let m16 ← cpow a.mDimer ((1 : ℝ) / 6)
  let betaDD := pre * m16
  let I ← ibeta s' a.mDimer
  let nD ← (if a.nDotD > 0 ∧ a.mDimer > 0 then do
      let r ← csqrt (I * I + 4 * betaDD * a.nDotD)
      cdiv (2 * a.nDotD) (I + r)
    else ok 0)
  ok (0.5 * betaDD * nD * nD,
    { n with ratio := ratio, pahRates := a.rates, dimer := ⟨a.mDimer, nD, a.nDotD⟩ }, s')

/-- nucleationModel_PAH.cc:104-108: the branch for MONO, QMOM (and HMOM) -/
noncomputable def ibetaNodes (c : Coag) (s : State) (mD : ℝ) : Res ℝ :=
  sumLoop s.absc.length fun i => do
    let w ← idx s.wts i
    let a ← idx s.absc i
    let k ← c.rate s mD a
    ok (|w| * k)

/-- `getNucleationSootRate` of every nucleation class (nucleationModel_X.cc, body of the function).
Returns the rate, the updated mechanism object and the updated state (both change only for PAH). -/
noncomputable def Nucl.rate (n : Nucl) (ibeta : State → ℝ → Res ℝ) (s : State) :
    Res (ℝ × Nucl × State) :=
  match n.mech with
  | .NONE => ok (0, n, s)
  | .LL => do            -- nucleationModel_LL.cc:34-36
    let e ← cexpDiv (-21100) s.T
    let c ← s.gasC .C2H2
    let r ← cdiv (0.1E5 * e * c * 2 * Na) s.cMin
    ok (r, n, s)
  | .LIN => do           -- nucleationModel_LIN.cc:35
    let e ← cexpDiv (-21100) s.T
    let c ← s.gasC .C2H2
    let r ← cdiv (0.63E4 * e * c * 2 * Na) s.cMin
    ok (r, n, s)
  | .LINA1 => do         -- nucleationModel_LINA1.cc:38
    let e ← cexpDiv (-21100) s.T
    let c ← s.gasC .C6H6
    let r ← cdiv (0.75E5 * e * c * 6 * Na) s.cMin
    ok (r, n, s)
  | .MB => do            -- nucleationModel_MB.cc:34
    let e ← cexpDiv (-21000) s.T
    let c ← s.gasC .C2H2
    ok (54 * Na * c * e, n, s)
  | .FAIR => do          -- nucleationModel_FAIR.cc:36
    let e ← cexpDiv (-41E3) (s.T * 1.987)
    let c ← s.gasC .C2H2
    let r ← cdiv (1.35E6 * e * c * 2 * Na) s.cMin
    ok (r, n, s)
  | .AJ_RED => do        -- nucleationModel_AJ_RED.cc:32-46
    let da := 1.395E-10 * sqrt 3
    let q ← csqrt (2 * s.mtar / (3 * 12.011))
    let dtar := da * q
    let u ← cdiv (8 * π * kb * s.T) s.mtar
    let v ← csqrt (u / Na)
    let Bt := dtar * dtar * v
    let t ← idx s.tarVar 0
    let r ← cdiv (2.2 * Bt * t * t * 2 * Na) s.cMin
    ok (r, n, s)
  | .BROWN => do         -- nucleationModel_BROWN.cc:29-34
    let t ← idx s.tarVar 0
    let e ← cexpDiv (-1.989E8) (Rg * s.T)
    let r ← cdiv (t * 5.02E8 * e / gasMW .C * Na) s.cMin
    ok (r, n, s)
  | .PAH => nuclPAH n ibeta s

/-! ## Growth -/

/-- growthModel.h:17-39 -/
structure Grow where
  mech : GrowMech
  ratio : GasSp → ℝ

/-- Ratios set by growthModel_X.cc constructors and growthModel_NONE.h:29 -/
noncomputable def growRatio : GrowMech → GasSp → ℝ
  | .NONE, .C => 1
  | .NONE, _ => 0
  | .HACA, .OH => -1
  | .HACA, .H => -1
  | .HACA, .H2 => 1
  | .HACA, .H2O => 1
  | .HACA, .C2H2 => -1
  | .HACA, .C => 2
  | .HACA, _ => 0
  | _, .C2H2 => -1
  | _, .H2 => 1
  | _, .C => 2
  | _, _ => 0

noncomputable def Grow.new (m : GrowMech) : Grow := ⟨m, growRatio m⟩

/-- sootModel_SECT.cc:327-333 -/
noncomputable def m0Sectional (x : Ctx) (s : State) : Res ℝ :=
  sumLoop x.nsoot fun k => idx s.sootVar k

/-- sootModel_SECT.cc:341-347 -/
noncomputable def m1Sectional (x : Ctx) (s : State) : Res ℝ :=
  sumLoop x.nsoot fun k => do
    let n ← idx s.sootVar k
    let m ← idx x.mBins k
    ok (n * m)

/-- The `M0`, `M1` block of growthModel_{LL,FAIR,MB}.cc and oxidationModel_{HACA,MB}.cc -/
noncomputable def moments01 (x : Ctx) (s : State) : Res (ℝ × ℝ) :=
  if x.psd = .SECT then do
    let M0 ← m0Sectional x s
    let M1 ← m1Sectional x s
    ok (M0, M1)
  else do
    let M0 ← idx s.sootVar 0
    let M1 ← idx s.sootVar 1
    ok (M0, M1)

/-- Surface area per volume of `M0` equal spheres of total mass `M1`:
`M0 > 0 ? M_PI*pow(6/(M_PI*rhoSoot)*M1/M0, 2/3)*M0 : 0` -/
noncomputable def areaMono (M0 M1 : ℝ) : Res ℝ :=
  if M0 > 0 then do
    let p ← cpow (6 / (π * rhoSoot) * M1 / M0) twothird
    ok (π * p * M0)
  else ok 0

/-- growthModel_HACA.cc:63-76 (moments; note `state.nsoot`, an `int`, as loop bound) -/
noncomputable def hacaMoments (x : Ctx) (s : State) : Res (ℝ × ℝ) := do
  let M0 ← idx s.sootVar 0
  let M1 ← idx s.sootVar 1
  if x.psd = .SECT then
    -- a negative `int` bound converts to a huge unsigned one
    if s.nsoot < 0 then ub else do
    let M0 ← sumLoop s.nsoot.toNat fun k => idx s.sootVar k
    let M1 ← sumLoop s.nsoot.toNat fun k => do
      let n ← idx s.sootVar k
      let m ← idx x.mBins k
      ok (n * m)
    ok (M0, M1)
  else ok (M0, M1)

/-- `tanh(a/log10(x) + b)` in IEEE arithmetic for finite `x = M1/M0`:
`x < 0` NaN; `x = 0` gives `log10 = -Inf`, hence `tanh(b)`; `x = 1` gives `a/0`. -/
noncomputable def hacaTanh (a b x : ℝ) : Res ℝ :=
  if x < 0 then nonfin else
  if x = 0 then ok (tanh b) else
  if x = 1 then (if 0 < a then ok 1 else if a < 0 then ok (-1) else nonfin) else
  ok (tanh (a / logb 10 x + b))

/-- growthModel_HACA.cc:100-103 = oxidationModel_HACA.cc: the steric factor -/
noncomputable def hacaAlpha (T M0 M1 : ℝ) : Res ℝ := do
  let a := 33.167 - 0.0154 * T
  let b := -2.5786 + 0.00112 * T
  let al ← (if M0 > 0 then hacaTanh a b (M1 / M0) else ok 1)
  ok (if al < 0 then 1 else al)

/-- Rates of growthModel_HACA.cc:86-97 needed below -/
structure HacaRates where
  fR4 : ℝ
  fR5 : ℝ
  chiS : ℝ

/-- growthModel_HACA.cc:80-97 (identical text in oxidationModel_HACA.cc) -/
noncomputable def hacaRates (s : State) : Res HacaRates := do
  let RT := 1.9872036E-3 * s.T
  let chiCH := 2.3E15
  let e1 ← cexpDiv (-13) RT
  let cH ← s.gasC .H
  let fR1 := 4.2E13 * e1 * cH / 1000
  let e2 ← cexpDiv (-11) RT
  let cH2 ← s.gasC .H2
  let rR1 := 3.9E12 * e2 * cH2 / 1000
  let p2 ← cpow s.T 0.734
  let e3 ← cexpDiv (-1.43) RT
  let cOH ← s.gasC .OH
  let fR2 := 1E10 * p2 * e3 * cOH / 1000
  let p3 ← cpow s.T 1.139
  let e4 ← cexpDiv (-17.1) RT
  let cH2O ← s.gasC .H2O
  let rR2 := 3.68E8 * p3 * e4 * cH2O / 1000
  let fR3 := 2E13 * cH / 1000
  let p4 ← cpow s.T 1.56
  let e5 ← cexpDiv (-3.8) RT
  let cC2H2 ← s.gasC .C2H2
  let fR4 := 8E7 * p4 * e5 * cC2H2 / 1000
  let e6 ← cexpDiv (-7.5) RT
  let cO2 ← s.gasC .O2
  let fR5 := 2.2E12 * e6 * cO2 / 1000
  let denom := rR1 + rR2 + fR3 + fR4 + fR5
  let chiS := if denom = 0 then 0 else 2 * chiCH * (fR1 + fR2) / denom
  ok ⟨fR4, fR5, chiS⟩

/-- `getGrowthSootRate` of every growth class -/
noncomputable def Grow.rate (g : Grow) (x : Ctx) (s : State) : Res ℝ :=
  match g.mech with
  | .NONE => ok 0
  | .LL => do           -- growthModel_LL.cc:33-57
    let (M0, M1) ← moments01 x s
    let A ← areaMono M0 M1
    if A > 0 then do
      let e ← cexpDiv (-12100) s.T
      let c ← s.gasC .C2H2
      ok (0.6E3 * e * c / sqrt A * 2 * gasMW .C)
    else ok 0
  | .FAIR => do         -- growthModel_FAIR.cc:33-57
    let (M0, M1) ← moments01 x s
    let A ← areaMono M0 M1
    if A > 0 then do
      let e ← cexpDiv (-24E3) (s.T * 1.987)
      let c ← s.gasC .C2H2
      ok (5E2 * e * c * gasMW .C)
    else ok 0
  | .MB => do           -- growthModel_MB.cc:33-60
    let (M0, M1) ← moments01 x s
    let A ← areaMono M0 M1
    if A > 0 then do
      let c ← s.gasC .C2H2
      let p ← cpow c (2 / 3)
      let e ← cexpDiv (-12100) s.T
      ok (430 * p * e)
    else ok 0
  | .LIN => do          -- growthModel_LIN.cc:32-35
    let e ← cexpDiv (-12100) s.T
    let c ← s.gasC .C2H2
    ok (750 * e * c * 2 * gasMW .C)
  | .HACA => do         -- growthModel_HACA.cc:63-106
    let (M0, M1) ← hacaMoments x s
    let h ← hacaRates s
    let al ← hacaAlpha s.T M0 M1
    let rxns := h.fR4 * al * h.chiS * 1E4
    ok (2 * rxns * gasMW .C / Na)

/-! ## Oxidation -/

/-- oxidationModel.h:18-42.  `cls` is the dynamic class, `mechType` the reported type (they differ for
FAIR). -/
structure Oxid where
  cls : OxidMech
  mechType : OxidMech
  ratio : GasSp → ℝ

/-- Ratios set by oxidationModel_X.cc constructors and oxidationModel_NONE.h:31 -/
noncomputable def oxidRatio : OxidMech → GasSp → ℝ
  | .NONE, .C => 1
  | .NONE, _ => 0
  | .MB, .H => 1
  | .MB, .OH => -1
  | .MB, .CO => 1
  | .MB, .C => -1
  | .MB, _ => 0
  | .HACA, .O2 => -1
  | .HACA, .OH => -1
  | .HACA, .H => 1
  | .HACA, .CO => 3
  | .HACA, .C => -3
  | .HACA, _ => 0
  | .LEE_NEOH, .CO => 2
  | .LEE_NEOH, .H => 1
  | .LEE_NEOH, .OH => -1
  | .LEE_NEOH, .O2 => -0.5
  | .LEE_NEOH, .C => -2
  | .LEE_NEOH, _ => 0
  | .NSC_NEOH, .CO => 2
  | .NSC_NEOH, .H => 1
  | .NSC_NEOH, .OH => -1
  | .NSC_NEOH, .O2 => -0.5
  | .NSC_NEOH, .C => -2
  | .NSC_NEOH, _ => 0
  | .OPTJ, .CO => 2
  | .OPTJ, .H => 1
  | .OPTJ, .OH => -1
  | .OPTJ, .O2 => -0.5
  | .OPTJ, .C => -2
  | .OPTJ, _ => 0
  | .OPTG, .CO => 2
  | .OPTG, .H => 1
  | .OPTG, .OH => -1
  | .OPTG, .O2 => -0.5
  | .OPTG, .C => -2
  | .OPTG, _ => 0
  | _, .CO => 1
  | _, .O2 => -0.5
  | _, .C => -1
  | _, _ => 0

/-- `mechType` assigned by each constructor; oxidationModel_FAIR.cc:15 assigns LL. -/
def oxidMechType : OxidMech → OxidMech
  | .FAIR => .LL
  | m => m

noncomputable def Oxid.new (m : OxidMech) : Oxid := ⟨m, oxidMechType m, oxidRatio m⟩

/-- `coef*[OH]*sqrt(Rg*T/(2*pi*MW_OH))*MW_C` (oxidationModel_{LEE_NEOH,OPTJ,OPTG,HACA}.cc) -/
noncomputable def ohRate (coef : ℝ) (s : State) : Res ℝ := do
  let c ← s.gasC .OH
  let r ← csqrt (Rg * s.T / (2 * π * gasMW .OH))
  ok (coef * c * r * gasMW .C)

/-- oxidationModel_NSC_NEOH.cc: `x = 1/(1 + kT/(kB*pO2))`; for `kB*pO2 = 0` IEEE gives `1/Inf = 0`
(`kT > 0`). -/
noncomputable def nscX (kT kBp : ℝ) : Res ℝ :=
  if kBp = 0 then ok 0 else cdiv 1 (1 + kT / kBp)

/-- `getOxidationSootRate` of every oxidation class (selected by dynamic class) -/
noncomputable def Oxid.rate (o : Oxid) (x : Ctx) (s : State) : Res ℝ :=
  match o.cls with
  | .NONE => ok 0
  | .LL => do           -- oxidationModel_LL.cc
    let r ← csqrt s.T
    let e ← cexpDiv (-19680) s.T
    let c ← s.gasC .O2
    ok (0.1E5 * r * e * c * gasMW .C)
  | .FAIR => do         -- oxidationModel_FAIR.cc
    let r ← csqrt s.T
    let e ← cexpDiv 39E3 (s.T * 1.987)
    let c ← s.gasC .O2
    ok (1.78E4 * r * e * c)
  | .LEE_NEOH => do     -- oxidationModel_LEE_NEOH.cc
    let p ← s.gasP .O2
    let r ← csqrt s.T
    let e ← cexpDiv (-1.977824E4) s.T
    let q ← cdiv (1.085E4 * (p / 101325)) r
    let oh ← ohRate 0.13 s
    ok (q * e / 1000 + oh)
  | .OPTJ => do         -- oxidationModel_OPTJ.cc
    let p ← s.gasP .O2
    let r ← csqrt s.T
    let e ← cexpDiv (-2.1294E4) s.T
    let q ← cdiv (0.798 * p) r
    let oh ← ohRate 0.15 s
    ok (q * e / 1000 + oh)
  | .OPTG => do         -- oxidationModel_OPTG.cc
    let p ← s.gasP .O2
    let r ← csqrt s.T
    let e ← cexpDiv (-2.345E4) s.T
    let q ← cdiv (15.8 * p) r
    let oh ← ohRate 0.1 s
    ok (q * e / 1000 + oh)
  | .MB => do           -- oxidationModel_MB.cc (M0, M1 are read and unused)
    let _ ← moments01 x s
    let c ← s.gasC .OH
    let r ← csqrt s.T
    ok (4.2325 * c * r)
  | .BROWN => do        -- oxidationModel_BROWN.cc
    let p ← s.gasP .O2
    let r ← csqrt s.T
    let q ← cdiv p r
    let e ← cexpDiv (-1.645E8) (Rg * s.T)
    ok (q * (1.09E5 / 101325) * e)
  | .AJ_RED => do       -- oxidationModel_AJ_RED.cc
    let r ← csqrt s.T
    let q ← cdiv 1 r
    let p ← s.gasP .O2
    let e ← cexpDiv (-1.16E5) (Rg * s.T)
    let poh ← s.gasP .OH
    ok (q * (1.92E-3 * p * e + 2.93E-3 * poh))
  | .NSC_NEOH => do     -- oxidationModel_NSC_NEOH.cc:39-55
    let po2 ← s.gasP .O2
    let poh ← s.gasP .OH
    let p := po2 / 101325
    let q := poh / 101325
    let eA ← cexpDiv (-15098) s.T
    let eB ← cexpDiv (-7650) s.T
    let eT ← cexpDiv (-48817) s.T
    let eZ ← cexpDiv 2063 s.T
    let kA := 20 * eA
    let kB := 4.46E-3 * eB
    let kT := 1.51E5 * eT
    let kz := 21.3 * eZ
    let x ← nscX kT (kB * p)
    let t ← cdiv (kA * p * x) (1 + kz * p)
    let nsc := t + kB * p * (1 - x)
    let r ← csqrt s.T
    let oh ← cdiv (1290 * 0.13 * q) r
    ok (nsc * rhoSoot + oh)
  | .HACA => do         -- oxidationModel_HACA.cc:34-80
    let (M0, M1) ← moments01 x s
    let h ← hacaRates s
    let al ← hacaAlpha s.T M0 M1
    let rxns := h.fR5 * al * h.chiS * 1E4
    let oh ← ohRate 0.13 s
    ok (2 * rxns * gasMW .C / Na + oh)

/-! ## Tar -/

/-- tarModel_AJ_RED.cc:36-68.  Integer divisions `1/6`, `1/3`, `50/128`, `14/92` are 0 in C++; the
products `0*tanh(..)` vanish, but `0*pow(..)` is evaluated, so a negative concentration is NaN. -/
noncomputable def ajCracking (s : State) : Res ℝ := do
  let N0 ← idx s.tarVar 0
  let Cl := if N0 > 0 then logb 10 N0 else 0
  let e1 ← cexpDiv (-1E8) (Rg * s.T)
  let e3 ← cexpDiv (-3.24E8) (Rg * s.T)
  let e4 ← cexpDiv (-2.47E8) (Rg * s.T)
  let e5 ← cexpDiv (-2.2E8) (Rg * s.T)
  let k1 := 1E7 * e1
  let k2 := 1E8 * e1
  let k3 := 1.58E12 * e3
  let k4 := 1.04E12 * e4
  let k5 := 4.4E8 * e5
  let T := s.T
  let xphe := ((1 / 6 : ℤ) : ℝ) * tanh (5.73 - 0.00384 * T - 0.159 * Cl) - 0.218 + 0.0277 * Cl
  let xnap := 0.5 * tanh (-1.98 + 6.18E-4 * T + 0.124 * Cl - 0.00285 * Cl * Cl + 4.14E-7 * T * T
      - 4.97E-5 * T * Cl) - 0.576 + 0.000233 * T - 1.69E-7 * T * T
  let xtol := ((1 / 3 : ℤ) : ℝ) * tanh (17.3 - 0.00869 * T + Cl * (-1.08 + 0.000365 * T + 0.0199 * Cl))
      + 2.65E-4 * T + Cl * (-1.11E-4 * Cl - 9.32E-6 * T)
  let xben := 1 - xphe - xnap - xtol
  let r1 := 31.1 / 94 * k1 * xphe
  let r2 := k2 * xphe
  let h2 ← s.gasC .H2
  let p3 ← cpow h2 0.4
  let r3 := ((50 / 128 : ℤ) : ℝ) * k3 * xnap * p3
  let p4 ← cpow h2 0.5
  let r4 := ((14 / 92 : ℤ) : ℝ) * k4 * xtol * p4
  let r5 := k5 * xben
  ok (N0 * (r1 + r2 + r3 + r4 + r5))

/-- tarModel_AJ_RED.cc:70-90.  With `sootVar[1] <= 0` the (possibly NaN) intermediates before the guard
do not reach the result `eps*0*N0*sootVar[0]`. -/
noncomputable def ajDeposition (s : State) : Res ℝ := do
  let N0 ← idx s.tarVar 0
  let M1 ← idx s.sootVar 1
  let M0 ← idx s.sootVar 0
  if M1 > 0 then do
    let msoot ← cdiv M1 M0
    let da := sqrt (1.395E-10 * 3)
    let dsoot ← cpow (6 * msoot / (π * rhoSoot)) onethird
    let q ← csqrt (2 * s.mtar / (3 * 12.011))
    let dtar := da * q
    let mu ← cdiv (s.mtar / Na * msoot) (s.mtar / Na + msoot)
    let u ← cdiv (π * kb * s.T) (2 * mu)
    let v ← csqrt u
    let Bts := (dsoot + dtar) ^ 2 * v
    ok (2.2 * Bts * N0 * M0)
  else ok 0

/-- tarModel_AJ_RED.cc:92-100 -/
noncomputable def ajSurface (s : State) : Res ℝ := do
  let pco2 ← s.gasP .CO2
  let r ← csqrt pco2
  let e1 ← cexpDiv (-5.55E6) (Rg * s.T)
  let ph2o ← s.gasP .H2O
  let p ← cpow ph2o 1.21
  let rt ← csqrt s.T
  let q ← cdiv (1.92E-3 * p) rt
  let e2 ← cexpDiv (-4.17E8) (Rg * s.T)
  ok (1.92E-3 * r * s.T * s.T * e1 + q * e2)

/-- tarModel_BROWN.cc: oxidation ("cracking") of tar -/
noncomputable def brownCracking (s : State) : Res ℝ := do
  let c ← s.gasC .O2
  let t ← idx s.tarVar 0
  let e ← cexpDiv (-5.23E7) (Rg * s.T)
  ok (t * (c * gasMW .O2) * 6.77E5 * e)

/-- tarModel_BROWN.cc: gasification of tar -/
noncomputable def brownSurface (s : State) : Res ℝ := do
  let t ← idx s.tarVar 0
  let e ← cexpDiv (-2.869E8) (Rg * s.T)
  ok (t * 9.77E10 * e)

end Soot
