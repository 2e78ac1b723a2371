import Verif.Fp
import Verif.Mech

/-!
# Floating point: the gas rates and the sums that put the sources together

The last part of `setSourceTerms`, over doubles: from the mass rates of nucleation, condensation, growth and oxidation
to `sources.sootSources[1]` and `sources.gasSources`.
-/

namespace Soot

open Dbl
open scoped Classical

/-- nucleationModel.cc:16-26, growthModel.cc:16-27, oxidationModel.cc:16-26 over doubles.  The stoichiometric ratios are
multiples of 1/2 up to 6, which are doubles; the molar masses (sootDefs.h:79-92) are rounded literals.  The output vector
is zero before the call. -/
noncomputable def gasRatesD (F : Fp) (ratio : GasSp → ℝ) (mdot : Dbl) (sp : GasSp) : Dbl :=
  if sp = .C then fin 0 else
    F.add (fin 0) (F.div (F.mul (F.mul mdot (fin (ratio sp))) (F.rnd (gasMW sp)))
      (F.mul (fin (ratio .C)) (F.rnd (gasMW .C))))

/-- sootModel_MONO.cc:266-275, sootModel_LOGN.cc:309-318, sootModel_QMOM.cc:187-196, sootModel_MOMIC.cc:226-235,
sootModel_HMOM.cc:296-305: `sources.gasSources`.  `n1`, `g1`, `x1` are the mass rates of nucleation, growth and
oxidation. -/
noncomputable def gasSourcesD (F : Fp) (rN rG rX : GasSp → ℝ) (n1 g1 x1 : Dbl) (sp : GasSp) : Dbl :=
  F.add (F.add (gasRatesD F rN n1 sp) (gasRatesD F rG g1 sp)) (gasRatesD F rX x1 sp)

/-- `sources.sootSources[1]`: `N1 + Cnd1 + G1 + X1 + C1` (sootModel_MONO.cc:262, sootModel_QMOM.cc:183,
sootModel_MOMIC.cc:222, sootModel_HMOM.cc:291).  The mass rate `C1` of coagulation is the initial zero. -/
noncomputable def sootMassD (F : Fp) (n1 c1 g1 x1 : Dbl) : Dbl :=
  F.add (F.add (F.add (F.add n1 c1) g1) x1) (fin 0)

/-- The same sum in the order of sootModel_LOGN.cc:302. -/
noncomputable def sootMassLognD (F : Fp) (n1 c1 g1 x1 : Dbl) : Dbl :=
  F.add (F.add (F.add (F.add n1 g1) c1) x1) (fin 0)

end Soot
