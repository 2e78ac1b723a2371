import Verif.Mech

/-!
# The soot model object

`/repo/src/sootModel.h`, `/repo/src/sootModel.cc`, the constructors of `/repo/src/sootModel_*.cc`, and the
common final part of every `setSourceTerms`.
-/

namespace Soot

open Res Real
open scoped Classical

/-- sootDefs.h:180-193 (`tarGasSources` is never written by any model and is omitted). -/
structure Sources where
  soot : List ℝ
  gas : GasSp → ℝ
  pah : PahSp → ℝ
  tar : List ℝ

/-- sootDefs.h:188-192 -/
noncomputable def Sources.new (nsoot Ntar : ℕ) : Sources :=
  ⟨List.replicate nsoot 0, fun _ => 0, fun _ => 0, List.replicate Ntar 0⟩

/-- sootModel.h:30-46 and the sectional member `binGrowthFactor` (sootModel_SECT.h:19).  The chemistry
pointers are represented by the objects they point to; ownership is modelled separately in
`Verif/Own.lean`.  MOMIC/HMOM work arrays (`diffTable`, `Mp6`, ...) are recomputed before every use and
are local values in the model. -/
structure Model where
  psd : PsdMech
  nsoot : ℕ
  Ntar : ℕ
  nucl : Nucl
  grow : Grow
  oxid : Oxid
  coag : Coag
  tar : TarMech
  mBins : List ℝ
  binF : ℝ
  sources : Sources

/-- What the mechanisms see through `SM` -/
def Model.ctx (m : Model) : Ctx := ⟨m.psd, m.nsoot, m.mBins⟩

/-- The argument checks of the derived constructors, in order: sootModel_MONO.cc:29-30,
sootModel_LOGN.cc:28-37, sootModel_QMOM.cc:34-38, sootModel_MOMIC.cc:32-41, sootModel_HMOM.cc:35-44,
sootModel_SECT.cc:33-37 (the enum variants repeat the same text). -/
def ctorCheck (psd : PsdMech) (nsoot : ℕ) (coag : CoagMech) (tar : TarMech) : Res Unit :=
  let coag3 := coag = .FM ∨ coag = .CONTINUUM ∨ coag = .HM
  match psd with
  | .NONE => ub   -- there is no such class
  | .MONO => if nsoot ≠ 2 then exn (.runtime "MONO requires nsoot=2") else ok ()
  | .LOGN =>
    if nsoot ≠ 3 then exn (.runtime "LOGN requires nsoot=3") else
    if ¬ tar = .NONE then exn (.runtime "LOGN currently does not handle tar models") else
    if ¬ coag3 then exn (.runtime "LOGN requires coagulation to be FM or CONTINUUM or HM") else ok ()
  | .QMOM =>
    if nsoot % 2 = 1 ∨ nsoot < 1 then
      exn (.runtime "Invalid number of soot moments requested: must be even number") else
    if ¬ tar = .NONE then exn (.runtime "QMOM currently does not handle tar models") else ok ()
  | .MOMIC =>
    if nsoot < 3 ∨ nsoot > 8 then exn (.runtime "MOMIC requires 3-8 moments") else
    if ¬ tar = .NONE then exn (.runtime "MOMIC currently does not handle tar models") else
    if ¬ coag3 then exn (.runtime "MOMIC coagulation requires FM or CONTINUUM or HM") else ok ()
  | .HMOM =>
    if nsoot < 4 ∨ nsoot > 9 then
      exn (.runtime "HMOM requires 4-9 soot variables (3-8 moments + 1 weight)") else
    if ¬ tar = .NONE then exn (.runtime "HMOM currently does not handle tar models") else
    if ¬ coag3 then exn (.runtime "HMOM coagulation requires FM or CONTINUUM or HM") else ok ()
  | .SECT =>
    if nsoot < 2 then exn (.runtime "SECT requires nsoot>1") else
    if ¬ tar = .NONE then exn (.runtime "SECT currently does not handle tar models") else ok ()

/-- sootModel_SECT.cc:96-101; `pow(F, k)` with an integral exponent is the integral power. -/
noncomputable def binMasses (nsoot : ℕ) (F : ℝ) (cMin : ℤ) : List ℝ :=
  (List.range nsoot).map fun k => cMin * F ^ k * gasMW .C / Na

/-- The pointer constructors (sootModel.cc:60-74 and sootModel_X.cc).  `checkSpec` only prints. -/
noncomputable def Model.newPtr (psd : PsdMech) (nsoot : ℕ) (n : Nucl) (g : Grow) (o : Oxid) (c : Coag)
    (Ntar : ℕ) (t : TarMech) (F : ℝ := 2) (cMin : ℤ := 100) : Res Model := do
  ctorCheck psd nsoot c.mech t
  ok { psd := psd, nsoot := nsoot, Ntar := Ntar, nucl := n, grow := g, oxid := o, coag := c, tar := t
       mBins := if psd = .SECT then binMasses nsoot F cMin else []
       binF := F, sources := Sources.new nsoot Ntar }

/-- The enum constructors (sootModel.cc:90-180 and sootModel_X.cc).  The `default` branches of the switches
are reached only for `size`, which the enumerations here omit. -/
noncomputable def Model.new (psd : PsdMech) (nsoot : ℕ) (n : NuclMech) (g : GrowMech) (o : OxidMech)
    (c : CoagMech) (Ntar : ℕ := 0) (t : TarMech := .NONE) (F : ℝ := 2) (cMin : ℤ := 100) : Res Model :=
  Model.newPtr psd nsoot (Nucl.new n) (Grow.new g) (Oxid.new o) (Coag.new c) Ntar t F cMin

/-- The final block of every `setSourceTerms`: gas sources from the three soot mass rates, and the PAH
sources if nucleation is PAH (e.g. sootModel_MONO.cc:266-280, sootModel_SECT.cc:297-318). -/
noncomputable def Model.finish (m : Model) (n : Nucl) (soot tar : List ℝ) (N1 G1 X1 : ℝ) : Res Model := do
  let gn ← gasRates n.ratio N1
  let gg ← gasRates m.grow.ratio G1
  let go ← gasRates m.oxid.ratio X1
  ok { m with
       nucl := n
       sources :=
        { soot := soot
          gas := fun sp => gn sp + gg sp + go sp
          pah := if n.mech = .PAH then n.pahRates else m.sources.pah
          tar := tar } }

/-! ## MONO -/

/-- Rates and terms common to both branches of sootModel_MONO.cc:90-199 and 201-282. -/
structure MonoTerms where
  N0 : ℝ
  N1 : ℝ
  Cnd1 : ℝ
  A : ℝ
  G1 : ℝ
  X1 : ℝ
  C0 : ℝ
  nucl : Nucl
  st : State

/-- sootModel_MONO.cc:79-88 -/
noncomputable def monoNodes (s : State) : Res (ℝ × ℝ × State) := do
  let M0 ← idx s.sootVar 0
  let M1 ← idx s.sootVar 1
  if M0 > 0 then do
    let w ← setIdx s.wts 0 M0
    let a ← setIdx s.absc 0 (M1 / M0)
    ok (M0, M1, { s with wts := w, absc := a })
  else ok (M0, M1, s)

/-- sootModel_MONO.cc:93-144 = 202-252 -/
noncomputable def monoTerms (m : Model) (M0 M1 : ℝ) (s : State) : Res MonoTerms := do
  let (j, n, s) ← m.nucl.rate (ibetaNodes m.coag) s
  let kG ← m.grow.rate m.ctx s
  let kO ← m.oxid.rate m.ctx s
  let a0 ← idx s.absc 0
  let coa ← m.coag.rate s a0 a0
  let N0 := if n.mech ≠ .NONE then j else 0
  let N1 := if n.mech ≠ .NONE then j * s.cMin * gasMW .C / Na else 0
  let Cnd1 ← (if n.mech = .PAH then do
      let k ← m.coag.rate s n.dimer.mDimer a0
      let w0 ← idx s.wts 0
      ok (k * w0 * n.dimer.nDimer * n.dimer.mDimer)
    else ok 0)
  let A ← areaMono M0 M1
  let G1 := if m.grow.mech ≠ .NONE then kG * A else 0
  let X1 := if m.oxid.mechType ≠ .NONE then -kO * A else 0
  let C0 ← (if m.coag.mech ≠ .NONE then do
      let w0 ← idx s.wts 0
      ok (-0.5 * coa * w0 * w0)
    else ok 0)
  ok ⟨N0, N1, Cnd1, A, G1, X1, C0, n, s⟩

/-- sootModel_MONO.cc:74-283 -/
noncomputable def monoSources (m : Model) (s : State) : Res (Model × State) := do
  let (M0, M1, s) ← monoNodes s
  match m.tar with
  | .NONE => do                              -- 201-282
    let t ← monoTerms m M0 M1 s
    let v ← setIdx m.sources.soot 0 (t.N0 + 0 + 0 + 0 + t.C0)
    let v ← setIdx v 1 (t.N1 + t.Cnd1 + t.G1 + t.X1 + 0)
    let m' ← m.finish t.nucl v m.sources.tar t.N1 t.G1 t.X1
    ok (m', t.st)
  | .AJ_RED => do                            -- 152-161
    let Ntar0 ← idx s.tarVar 0
    let t ← monoTerms m M0 M1 s
    let crack ← ajCracking t.st
    let gasify ← ajSurface t.st
    let depo ← ajDeposition t.st
    let T0 := -depo - crack + 2508 * Ntar0 * (t.G1 + t.X1 - gasify) - 2 * t.N0
    let T1 := t.N0 + t.C0
    let T2 := (t.st.mtar * depo + t.A * (t.G1 + t.X1 - gasify)) + t.Cnd1 + 2 * t.st.mtar * t.N0
    let v ← setIdx m.sources.soot 0 T1
    let v ← setIdx v 1 T2
    let w ← setIdx m.sources.tar 0 T0
    let m' ← m.finish t.nucl v w t.N1 t.G1 t.X1
    ok (m', t.st)
  | .BROWN => do                             -- 163-173
    let _ ← idx s.tarVar 0
    let t ← monoTerms m M0 M1 s
    let ox ← brownCracking t.st
    let gasify ← brownSurface t.st
    let q ← csqrt (6 * kb * t.st.T / rhoSoot)
    let p1 ← cpow (M1 / gasMW .C) (1 / 6)
    let p0 ← cpow M0 (11 / 6)
    let rAN := 2 * 3 * (6 * gasMW .C / (π * rhoSoot)) ^ ((1 : ℝ) / 6) * q * p1 * p0
    let T0 := -t.N1 - gasify - ox
    let T1 := t.N0 - rAN
    let T2 := t.N1 + t.X1
    let v ← setIdx m.sources.soot 0 T1
    let v ← setIdx v 1 T2
    let w ← setIdx m.sources.tar 0 T0
    let m' ← m.finish t.nucl v w t.N1 t.G1 t.X1
    ok (m', t.st)

end Soot
