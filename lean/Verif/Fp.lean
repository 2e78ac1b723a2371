import Verif.Coag

/-!
# Floating point: `setState` and the coagulation kernels over extended doubles

The rest of the model idealises `double` as `ℝ`.  This file models two pieces of code again, over values that include infinities and NaN and with
an arbitrary rounding of every result.  Signed zeros are not distinguished (they compare equal; a division by zero takes the sign of the
numerator).  Every operation is rounded on its own (no contraction to fused multiply-add).
-/

namespace Soot

open Res
open scoped Classical

/-- A `double`. -/
inductive Dbl where
  | fin (x : ℝ)
  | pinf
  | ninf
  | nan

namespace Dbl

/-- `x < y`: false if an operand is NaN. -/
def lt : Dbl → Dbl → Prop
  | fin x, fin y => x < y
  | fin _, pinf => True
  | ninf, fin _ => True
  | ninf, pinf => True
  | _, _ => False

/-- `x <= y`: false if an operand is NaN. -/
def le : Dbl → Dbl → Prop
  | fin x, fin y => x ≤ y
  | fin _, pinf => True
  | ninf, fin _ => True
  | ninf, pinf => True
  | ninf, ninf => True
  | pinf, pinf => True
  | _, _ => False

/-- `-x` -/
noncomputable def neg : Dbl → Dbl
  | fin x => fin (-x)
  | pinf => ninf
  | ninf => pinf
  | nan => nan

/-- An infinity with the sign of a number; zero times infinity is NaN. -/
noncomputable def infTimes (x : ℝ) : Dbl := if x = 0 then nan else if 0 < x then pinf else ninf

end Dbl

/-- An arithmetic: how a finite exact result is rounded (possibly to an infinity), and the library functions.  Nothing is assumed about them. -/
structure Fp where
  rnd : ℝ → Dbl
  sqrt : Dbl → Dbl
  exp : Dbl → Dbl
  pow : Dbl → Dbl → Dbl

namespace Fp

open Dbl

/-- `x + y` -/
noncomputable def add (F : Fp) : Dbl → Dbl → Dbl
  | fin x, fin y => F.rnd (x + y)
  | nan, _ => nan
  | _, nan => nan
  | pinf, ninf => nan
  | ninf, pinf => nan
  | pinf, _ => pinf
  | _, pinf => pinf
  | ninf, _ => ninf
  | _, ninf => ninf

/-- `x - y` -/
noncomputable def sub (F : Fp) (x y : Dbl) : Dbl := F.add x (neg y)

/-- `x * y` -/
noncomputable def mul (F : Fp) : Dbl → Dbl → Dbl
  | fin x, fin y => F.rnd (x * y)
  | nan, _ => nan
  | _, nan => nan
  | fin x, pinf => infTimes x
  | pinf, fin x => infTimes x
  | fin x, ninf => infTimes (-x)
  | ninf, fin x => infTimes (-x)
  | pinf, pinf => pinf
  | ninf, ninf => pinf
  | pinf, ninf => ninf
  | ninf, pinf => ninf

/-- `x / y` -/
noncomputable def div (F : Fp) : Dbl → Dbl → Dbl
  | fin x, fin y => if y = 0 then infTimes x else F.rnd (x / y)
  | nan, _ => nan
  | _, nan => nan
  | fin _, pinf => fin 0
  | fin _, ninf => fin 0
  | pinf, fin y => if 0 ≤ y then pinf else ninf
  | ninf, fin y => if 0 ≤ y then ninf else pinf
  | _, _ => nan

/-- Exact arithmetic. -/
noncomputable def exact : Fp where
  rnd := fin
  sqrt
    | fin x => if 0 ≤ x then fin (Real.sqrt x) else nan
    | pinf => pinf
    | _ => nan
  exp
    | fin x => fin (Real.exp x)
    | pinf => pinf
    | ninf => fin 0
    | nan => nan
  pow
    | fin x, fin y => if 0 < x then fin (x ^ y) else nan
    | _, _ => nan

end Fp

/-! ## `setState` -/

/-- The members of `state` that `setState` uses (state.h:23-45). -/
structure DState where
  T : Dbl
  P : Dbl
  rhoGas : Dbl
  MWGas : Dbl
  muGas : Dbl
  yGas : List Dbl
  yPah : List Dbl
  nsoot : ℤ
  sootVar : List Dbl
  cMin : Dbl
  Ntar : ℤ
  tarVar : List Dbl

/-- The arguments (state.h:50-54). -/
structure DArgs where
  T : Dbl
  P : Dbl
  rhoGas : Dbl
  muGas : Dbl
  yGas : List Dbl
  yPah : List Dbl
  sootVar : List Dbl
  nsoot : ℤ
  tarVar : List Dbl
  Ntar : ℤ
  cMin : Dbl

/-- state.cc:65-67 and 76-78 -/
noncomputable def clampD : ℕ → List Dbl → Res (List Dbl)
  | 0, v => ok v
  | n + 1, v => do
    let v ← clampD n v
    let x ← idx v n
    if x.lt (.fin 0) then setIdx v n (.fin 0) else ok v

/-- state.cc:63-119 -/
noncomputable def setStateVecD (F : Fp) (s : DState) (a : DArgs) : DState × Res Unit :=
  match clampD s.nsoot.toNat a.sootVar with
  | .exn e => (s, .exn e)
  | .ub => (s, .ub)
  | .nonfin => (s, .nonfin)
  | .ok sv =>
  let s := { s with nsoot := a.nsoot }
  if ∃ x ∈ sv, x.lt (.fin 0) then (s, exn (.domain "Unphysical state value input: negative soot moment(s)")) else
  let s := { s with sootVar := sv }
  match clampD s.Ntar.toNat a.tarVar with
  | .exn e => (s, .exn e)
  | .ub => (s, .ub)
  | .nonfin => (s, .nonfin)
  | .ok tv =>
  let s := { s with Ntar := a.Ntar }
  if ∃ x ∈ tv, x.lt (.fin 0) then (s, exn (.domain "Unphysical state value input: negative tar moment(s)")) else
  let s := { s with tarVar := tv }
  if ∃ y ∈ a.yGas, (Dbl.fin 1).lt (if y.lt (.fin 0) then .fin 0 else y) then
    (s, exn (.domain "Unphysical state value input: gas species mass fraction > 1.0")) else
  let s := { s with yGas := a.yGas }
  if a.yPah.length ≠ s.yPah.length then (s, exn (.domain "Invalid input vector size: PAH species mass fractions")) else
  if ∃ y ∈ a.yPah, y.lt (.fin 0) ∨ (Dbl.fin 1).lt y then
    (s, exn (.domain "Unphysical state value input: PAH species mass fraction(s)")) else
  if (Dbl.fin 1).lt (a.yPah.foldl F.add (.fin 0)) then
    (s, exn (.domain "Unphysical state value input: sum of PAH species mass fractions greater than one")) else
  ({ s with yPah := a.yPah }, ok ())

/-- state.cc:36-140, statement by statement; `Rg` (sootDefs.h:17) is the rounded product of the rounded literals. -/
noncomputable def setStateD (F : Fp) (s : DState) (a : DArgs) : DState × Res Unit :=
  if a.T.le (.fin 0) then (s, exn (.domain "Unphysical state value input: T")) else
  let s := { s with T := a.T }
  if a.P.le (.fin 0) then (s, exn (.domain "Unphysical state value input: P")) else
  let s := { s with P := a.P }
  if a.rhoGas.le (.fin 0) then (s, exn (.domain "Unphysical state value input: rhoGas")) else
  let s := { s with rhoGas := a.rhoGas }
  if a.muGas.le (.fin 0) then (s, exn (.domain "Unphysical state value input: muGas")) else
  let s := { s with muGas := a.muGas }
  if a.cMin.le (.fin 0) then (s, exn (.domain "Unphysical state value input: cMin")) else
  let s := { s with cMin := a.cMin }
  let s := { s with MWGas := F.div (F.mul (F.mul s.rhoGas (F.mul (F.rnd Na) (F.rnd kb))) s.T) s.P }
  setStateVecD F s a

/-- state.h:59 -/
noncomputable def DState.gasC (F : Fp) (s : DState) (sp : GasSp) : Res Dbl := do
  let y ← idx s.yGas sp.toNat
  ok (F.div (F.mul s.rhoGas y) (F.rnd (gasMW sp)))

/-- state.h:65: `muGas/rhoGas*sqrt(M_PI*MWGas/(2.0*Rg*T))` -/
noncomputable def DState.mfp (F : Fp) (s : DState) : Dbl :=
  F.mul (F.div s.muGas s.rhoGas)
    (F.sqrt (F.div (F.mul (F.rnd Real.pi) s.MWGas) (F.mul (F.mul (F.rnd 2) (F.mul (F.rnd Na) (F.rnd kb))) s.T)))

/-! ## Coagulation kernels -/

section Kernels

variable (F : Fp) (s : DState) (fm : Dbl)

/-- sootDefs.h:24-26 -/
noncomputable def Fp.third : Dbl := F.div (F.rnd 1) (F.rnd 3)
noncomputable def Fp.twoThird : Dbl := F.div (F.rnd 2) (F.rnd 3)
noncomputable def Fp.root2 : Dbl := F.sqrt (F.rnd 2)

/-- `pow(6.*m/(M_PI*rhoSoot), onethird)` -/
noncomputable def diamD (m : Dbl) : Dbl := F.pow (F.div (F.mul (F.rnd 6) m) (F.mul (F.rnd Real.pi) (F.rnd rhoSoot))) F.third

/-- coagulationModel.h:34-36 -/
noncomputable def kfmD : Dbl :=
  F.mul (F.mul (F.mul fm (F.rnd epsC)) (F.sqrt (F.mul (F.mul (F.mul (F.rnd 0.5) (F.rnd Real.pi)) (F.rnd kb)) s.T)))
    (F.pow (F.div (F.rnd 6) (F.mul (F.rnd Real.pi) (F.rnd rhoSoot))) F.twoThird)

/-- coagulationModel.h:38-40 -/
noncomputable def kcD : Dbl := F.div (F.mul (F.mul (F.rnd 2) (F.rnd kb)) s.T) (F.mul (F.rnd 3) s.muGas)

/-- `1 + Kn*(1.257 + 0.4*exp(-1.1/Kn))` -/
noncomputable def cunninghamD (Kn : Dbl) : Dbl :=
  F.add (F.rnd 1) (F.mul Kn (F.add (F.rnd 1.257) (F.mul (F.rnd 0.4) (F.exp (F.div (F.rnd (-1.1)) Kn)))))

/-- coagulationModel_FM.cc:25-27 -/
noncomputable def rateFMD (m1 m2 : Dbl) : Dbl :=
  let m13 := F.add (F.pow m1 F.third) (F.pow m2 F.third)
  F.mul (F.mul (F.mul (kfmD F s fm) (F.sqrt (F.add (F.div (F.rnd 1) m1) (F.div (F.rnd 1) m2)))) m13) m13

/-- coagulationModel_CONTINUUM.cc:25-39 -/
noncomputable def rateCONTD (m1 m2 : Dbl) : Dbl :=
  let d1 := diamD F m1
  let d2 := diamD F m2
  let ds := F.add d1 d2
  let mfp := s.mfp F
  let Kn1 := F.div (F.mul (F.rnd 2) mfp) d1
  let Kn2 := F.div (F.mul (F.rnd 2) mfp) d2
  let Cc1 := F.add (F.rnd 1) (F.mul (F.rnd 1.657) Kn1)
  let Cc2 := F.add (F.rnd 1) (F.mul (F.rnd 1.657) Kn2)
  F.mul (F.mul (kcD F s) (F.add (F.div Cc1 d1) (F.div Cc2 d2))) ds

/-- coagulationModel_HM.cc:28-50 -/
noncomputable def rateHMD (m1 m2 : Dbl) : Dbl :=
  let d1 := diamD F m1
  let d2 := diamD F m2
  let ds := F.add d1 d2
  let mR := F.div (F.mul m1 m2) (F.add m1 m2)
  let KFM := F.mul (F.mul (F.mul (F.mul (F.rnd epsC)
    (F.sqrt (F.div (F.mul (F.mul (F.mul (F.rnd Real.pi) (F.rnd kb)) s.T) (F.rnd 0.5)) mR))) ds) ds) fm
  let mfp := s.mfp F
  let Cc1 := cunninghamD F (F.div (F.mul (F.rnd 2) mfp) d1)
  let Cc2 := cunninghamD F (F.div (F.mul (F.rnd 2) mfp) d2)
  let KC := F.mul (F.mul (F.div (F.mul (F.mul F.twoThird (F.rnd kb)) s.T) s.muGas) (F.add (F.div Cc1 d1) (F.div Cc2 d2))) ds
  F.div (F.mul KFM KC) (F.add KFM KC)

/-- coagulationModel_FUCHS.cc:32-52 for one particle: `d`, `D`, `c`, `g` -/
noncomputable def fuchsPartD (m : Dbl) : Dbl × Dbl × Dbl × Dbl :=
  let d := diamD F m
  let Cc := cunninghamD F (F.div (F.mul (F.rnd 2) (s.mfp F)) d)
  let D := F.div (F.mul (F.div (F.mul (F.rnd kb) s.T) (F.mul (F.mul (F.rnd 3) (F.rnd Real.pi)) s.muGas)) Cc) d
  let c := F.sqrt (F.div (F.mul (F.mul (F.rnd 8) (F.rnd kb)) s.T) (F.mul (F.rnd Real.pi) m))
  let l := F.div (F.mul (F.rnd 8) D) (F.mul (F.rnd Real.pi) c)
  let g := F.sub (F.mul (F.div F.root2 (F.mul (F.mul (F.rnd 3) d) l))
    (F.sub (F.pow (F.add d l) (F.rnd 3)) (F.pow (F.add (F.mul d d) (F.mul l l)) (F.rnd 1.5)))) (F.mul F.root2 d)
  (d, D, c, g)

/-- coagulationModel_FUCHS.cc:54-58 -/
noncomputable def fuchsCombD (p q : Dbl × Dbl × Dbl × Dbl) : Dbl :=
  let (d1, D1, c1, g1) := p
  let (d2, D2, c2, g2) := q
  let dd := F.add d1 d2
  let DD := F.add D1 D2
  F.div (F.mul (F.mul (F.mul (F.rnd 2) (F.rnd Real.pi)) DD) dd)
    (F.add (F.div dd (F.add dd (F.mul (F.rnd 2) (F.sqrt (F.add (F.mul g1 g1) (F.mul g2 g2))))))
      (F.div (F.mul (F.div (F.rnd 8) (F.mul (F.rnd epsC) fm)) DD) (F.mul (F.sqrt (F.add (F.mul c1 c1) (F.mul c2 c2))) dd)))

/-- `getCoagulationSootRate` -/
noncomputable def coagRateD (mech : CoagMech) (m1 m2 : Dbl) : Dbl :=
  if mech = .NONE then F.rnd 0 else
  if m1.le (F.rnd mmin) ∨ m2.le (F.rnd mmin) then F.rnd 0 else
  match mech with
  | .NONE => F.rnd 0
  | .FM => rateFMD F s fm m1 m2
  | .CONTINUUM => rateCONTD F s m1 m2
  | .HM => rateHMD F s fm m1 m2
  | .FUCHS => fuchsCombD F fm (fuchsPartD F s m1) (fuchsPartD F s m2)

end Kernels

end Soot
