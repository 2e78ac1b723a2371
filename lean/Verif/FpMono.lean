import Verif.FpMass
import Verif.FpRate
import Verif.Model

/-!
# Floating point: the source terms of the monodisperse model over extended doubles

`sootModel_MONO::setSourceTerms` without tar and without PAH nucleation, with every operation rounded (see `Fp.lean`).  The rates are those of
`FpRate.lean` (so HACA is not included) and the kernels those of `Fp.lean`.
-/

namespace Soot

open Res Dbl
open scoped Classical

/-- sootModel_MONO.cc:79-88 and 201-276.  `w` and `a` are `wts[0]` and `absc[0]` before the call.  Of the model object only the mechanisms, the
stoichiometric ratios and `FM_multiplier` are used.  The result is `sootSources[0]`, `sootSources[1]` and `gasSources`. -/
noncomputable def monoSourcesD (F : Fp) (s : DState) (m : Model) (w a : Dbl) : Res (Dbl × Dbl × (GasSp → Dbl)) := do
  let M0 ← idx s.sootVar 0
  let M1 ← idx s.sootVar 1
  let w := if (fin 0).lt M0 then M0 else w
  let a := if (fin 0).lt M0 then F.div M1 M0 else a
  let jNuc ← nuclRateD F s m.nucl.mech
  let kGrw ← growRateD F s m.grow.mech
  let kOxi ← oxidRateD F s m.oxid.cls
  let coa := coagRateD F s (fin m.coag.fmMult) m.coag.mech a a
  let N0 := if m.nucl.mech ≠ .NONE then jNuc else fin 0
  let N1 := if m.nucl.mech ≠ .NONE then F.div (F.mul (F.mul jNuc s.cMin) (F.rnd (gasMW .C))) (F.rnd Na) else fin 0
  let A := areaD F M0 M1
  let G1 := if m.grow.mech ≠ .NONE then F.mul kGrw A else fin 0
  let X1 := if m.oxid.mechType ≠ .NONE then F.mul (neg kOxi) A else fin 0
  let C0 := if m.coag.mech ≠ .NONE then F.mul (F.mul (F.mul (neg (F.rnd 0.5)) coa) w) w else fin 0
  ok (F.add (F.add (F.add (F.add N0 (fin 0)) (fin 0)) (fin 0)) C0, sootMassD F N1 (fin 0) G1 X1,
    gasSourcesD F m.nucl.ratio m.grow.ratio m.oxid.ratio N1 G1 X1)

end Soot
