import Verif.FpSect
import Verif.FpRate

/-!
# Floating point: the source terms of the sectional model

`sootModel_SECT::setSourceTerms` without PAH nucleation, put together from the rates (`FpRate.lean`), the kernels (`Fp.lean`) and the transport and
coagulation loops (`FpSect.lean`), with every operation rounded.
-/

namespace Soot

open Res Dbl
open scoped Classical

/-- sootModel_SECT.cc:185-187: `M_PI*pow(6.*mBins[k]/(M_PI*rhoSoot), twothird)*state.sootVar[k]` -/
noncomputable def binAreaD (F : Fp) (b N : Dbl) : Dbl :=
  F.mul (F.mul (F.rnd Real.pi) (F.pow (F.div (F.mul (F.rnd 6) b) (F.mul (F.rnd Real.pi) (F.rnd rhoSoot))) F.twoThird)) N

/-- sootModel_SECT.cc:162-333.  `tgt i j` is the section found by line 275 (see C88 for the rounding in it).  The section masses are doubles.  Mechanisms that look at
the contents of the sections (growth LL, FAIR, MB, HACA and oxidation MB) are not modelled here, nor is PAH nucleation: `nonfin`.  The result is `sootSources` and `gasSources`. -/
noncomputable def sectSourcesD (F : Fp) (s : DState) (m : Model) (tgt : ℕ → ℕ → ℕ) : Res ((ℕ → Dbl) × (GasSp → Dbl)) := do
  let jNuc ← nuclRateD F s m.nucl.mech
  let kGrw ← if m.grow.mech = .NONE ∨ m.grow.mech = .LIN then growRateD F s m.grow.mech else nonfin
  let kOxi ← if m.oxid.cls = .MB then nonfin else oxidRateD F s m.oxid.cls
  let b : ℕ → Dbl := fun k => fin (m.mBins.getD k 0)
  let N : ℕ → Dbl := fun k => s.sootVar.getD k (fin 0)
  let mNuc := F.div (F.mul s.cMin (F.rnd (gasMW .C))) (F.rnd Na)
  let nuc : ℕ → Dbl := fun k => if m.nucl.mech ≠ .NONE ∧ k = 0 then F.div (F.mul jNuc mNuc) (b 0) else fin 0
  let A : ℕ → Dbl := fun k => if k < m.nsoot then binAreaD F (b k) (N k) else fin 0
  let grw : ℕ → Dbl := if m.grow.mech ≠ .NONE then sectUpD F m.nsoot b fun k => F.mul kGrw (A k) else fun _ => fin 0
  let oxi : ℕ → Dbl := if m.oxid.mechType ≠ .NONE then sectDownD F m.nsoot b fun k => F.mul kOxi (A k) else fun _ => fin 0
  let coa : ℕ → Dbl := if m.coag.mech ≠ .NONE then
    coagLoopD F m.nsoot b (fun i j => F.mul (F.mul (coagRateD F s (fin m.coag.fmMult) m.coag.mech (b i) (b j)) (N i)) (N j)) tgt (pairs m.nsoot) fun _ => fin 0
    else fun _ => fin 0
  ok (sectSumD F nuc grw (fun _ => fin 0) oxi coa,
    gasSourcesD F m.nucl.ratio m.grow.ratio m.oxid.ratio (mdotD F b nuc m.nsoot) (mdotD F b grw m.nsoot) (mdotD F b oxi m.nsoot))

end Soot
