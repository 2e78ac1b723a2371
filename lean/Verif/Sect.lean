import Verif.Model

/-!
# The sectional model (`/repo/src/sootModel_SECT.cc`)

Arrays of length `nsoot` local to `setSourceTerms` are functions `ℕ → ℝ`; every index used is checked
against `nsoot` or obtained from `idx`.
-/

namespace Soot

open Res Real
open scoped Classical

/-- `log(x)`: NaN or -Inf for `x <= 0` -/
noncomputable def clog (x : ℝ) : Res ℝ := if x ≤ 0 then nonfin else ok (log x)

/-- `static_cast<size_t>(x)`: truncation; undefined when the truncated value is not representable. -/
noncomputable def toSizeT (x : ℝ) : Res ℕ := if x ≤ -1 ∨ 2 ^ 64 ≤ x then ub else ok ⌊x⌋₊

/-- `a[k] += v` on an array of length `n` -/
noncomputable def bump (n : ℕ) (S : ℕ → ℝ) (k : ℕ) (v : ℝ) : Res (ℕ → ℝ) :=
  if k < n then ok (Function.update S k (S k + v)) else ub

/-- `c[k]/(mBins[k+1]-mBins[k])`, e.g. sootModel_SECT.cc:199 -/
noncomputable def fluxUp (bins : List ℝ) (c : ℕ → ℝ) (k : ℕ) : Res ℝ := do
  let b ← idx bins (k + 1)
  let a ← idx bins k
  cdiv (c k) (b - a)

/-- sootModel_SECT.cc:193-201 (growth) and 214-224 (condensation): first bin and the interior loop up to
bin `k`; returns the carried `term` and the array. -/
noncomputable def upLoop (bins : List ℝ) (c : ℕ → ℝ) : ℕ → Res (ℝ × (ℕ → ℝ))
  | 0 => do
    let t ← fluxUp bins c 0
    ok (t, Function.update (fun _ => 0) 0 (-t))
  | k + 1 => do
    let (t, S) ← upLoop bins c k
    let t' ← fluxUp bins c (k + 1)
    ok (t', Function.update S (k + 1) (t - t'))

/-- sootModel_SECT.cc:193-204, 214-229 for `n = nsoot >= 2` bins -/
noncomputable def sectUp (n : ℕ) (bins : List ℝ) (c : ℕ → ℝ) : Res (ℕ → ℝ) := do
  let (t, S) ← upLoop bins c (n - 2)
  let m ← idx bins (n - 1)
  let q ← cdiv (c (n - 1)) m
  ok (Function.update S (n - 1) (t + q))

/-- `c[k]/(mBins[k]-mBins[k-1])`, e.g. sootModel_SECT.cc:243 (`k >= 1`) -/
noncomputable def fluxDown (bins : List ℝ) (c : ℕ → ℝ) (k : ℕ) : Res ℝ := do
  let b ← idx bins k
  let a ← idx bins (k - 1)
  cdiv (c k) (b - a)

/-- sootModel_SECT.cc:237-245: last bin, then `d` interior bins downwards -/
noncomputable def downLoop (n : ℕ) (bins : List ℝ) (c : ℕ → ℝ) : ℕ → Res (ℝ × (ℕ → ℝ))
  | 0 => do
    let t ← fluxDown bins c (n - 1)
    ok (t, Function.update (fun _ => 0) (n - 1) (-t))
  | d + 1 => do
    let (t, S) ← downLoop n bins c d
    let t' ← fluxDown bins c (n - 1 - (d + 1))
    ok (t', Function.update S (n - 1 - (d + 1)) (t - t'))

/-- sootModel_SECT.cc:237-247 -/
noncomputable def sectDown (n : ℕ) (bins : List ℝ) (c : ℕ → ℝ) : Res (ℕ → ℝ) := do
  let (t, S) ← downLoop n bins c (n - 2)
  let m ← idx bins 0
  let q ← cdiv (c 0) m
  ok (Function.update S 0 (t - q))

/-- sootModel_SECT.cc:124-125: `beta_DSi` (the member array; recomputed here from the same inputs wherever it
is read, sootModel_SECT.cc:215-228, because nothing changes in between) -/
noncomputable def betaDS (m : Model) (s : State) (mD : ℝ) : Res (ℕ → ℝ) :=
  tabLoop m.nsoot fun k => do
    let b ← idx m.mBins k
    m.coag.rate s mD b

/-- sootModel_SECT.cc:132-140: carried `term1` and running sum after bin `k` -/
noncomputable def ibetaLoop (bins : List ℝ) (c : ℕ → ℝ) : ℕ → Res (ℝ × ℝ)
  | 0 => do
    let t ← fluxUp bins c 0
    let m0 ← idx bins 0
    ok (t, 0 - t * m0)
  | k + 1 => do
    let (t, I) ← ibetaLoop bins c k
    let t' ← fluxUp bins c (k + 1)
    let mk ← idx bins (k + 1)
    ok (t', I + mk * (t - t'))

/-- sootModel_SECT.cc:118-148 -/
noncomputable def sectIbeta (m : Model) (s : State) (mD : ℝ) : Res ℝ := do
  let beta ← betaDS m s mD
  let N ← tabLoop m.nsoot fun k => idx s.sootVar k
  let (t, I) ← ibetaLoop m.mBins (fun k => beta k * N k) (m.nsoot - 2)
  let b ← idx m.mBins (m.nsoot - 1)
  let t2 ← cdiv (beta (m.nsoot - 1) * N (m.nsoot - 1)) b
  ok (I + b * (t + t2))

/-- sootModel_SECT.cc:264-285: one colliding pair -/
noncomputable def coagPair (n : ℕ) (bins : List ℝ) (c : Coag) (s : State) (ilnF : ℝ) (i j : ℕ) (S : ℕ → ℝ) :
    Res (ℕ → ℝ) := do
  let mi ← idx bins i
  let mj ← idx bins j
  let K ← c.rate s mi mj
  let ni ← idx s.sootVar i
  let nj ← idx s.sootVar j
  let term := K * ni * nj
  let S ← bump n S i (-term)
  let S ← (if j > i then bump n S j (-term) else ok S)
  let term := if i = j then term * 0.5 else term
  let m0 ← idx bins 0
  let q ← cdiv (mi + mj) m0
  let l ← clog q
  let k ← toSizeT (ilnF * l)
  let k := if k ≥ n then n - 1 else k
  if k = n - 1 then do
    let mk ← idx bins k
    let g ← cdiv (term * (mi + mj)) mk
    bump n S k g
  else do
    let b ← idx bins (k + 1)
    let a ← idx bins k
    let X ← cdiv (b - (mi + mj)) (b - a)
    let S ← bump n S k (X * term)
    bump n S (k + 1) ((1 - X) * term)

/-- The pairs in the order of the two loops sootModel_SECT.cc:259-260 -/
def pairs (n : ℕ) : List (ℕ × ℕ) :=
  (List.range n).flatMap fun i => (List.range' i (n - i)).map fun j => (i, j)

/-- sootModel_SECT.cc:259-287 -/
noncomputable def coagLoop (n : ℕ) (bins : List ℝ) (c : Coag) (s : State) (ilnF : ℝ) :
    List (ℕ × ℕ) → (ℕ → ℝ) → Res (ℕ → ℝ)
  | [], S => ok S
  | (i, j) :: t, S => do
    let S ← coagPair n bins c s ilnF i j S
    coagLoop n bins c s ilnF t S

/-- sootModel_SECT.cc:256: the function-local static, initialised by the first call that reaches it in the
whole process; `none` before that. -/
noncomputable def ilnFStatic (glob : Option ℝ) (F : ℝ) : Res ℝ :=
  match glob with
  | some v => ok v
  | none => do
    let l ← clog F
    cdiv 1 l

/-- sootModel_SECT.cc:253-288 -/
noncomputable def sectCoag (m : Model) (glob : Option ℝ) (s : State) : Res ((ℕ → ℝ) × Option ℝ) :=
  if m.coag.mech ≠ .NONE then do
    let f ← ilnFStatic glob m.binF
    let S ← coagLoop m.nsoot m.mBins m.coag s f (pairs m.nsoot) fun _ => 0
    ok (S, some f)
  else ok (fun _ => 0, glob)

/-- The five contributions of sootModel_SECT.cc:162-288 -/
structure SectTerms where
  nuc : ℕ → ℝ
  grw : ℕ → ℝ
  cnd : ℕ → ℝ
  oxi : ℕ → ℝ
  coa : ℕ → ℝ
  nucl : Nucl
  st : State
  glob : Option ℝ

/-- sootModel_SECT.cc:164-288 -/
noncomputable def sectTerms (m : Model) (glob : Option ℝ) (s : State) : Res SectTerms := do
  let (j, n, s) ← m.nucl.rate (sectIbeta m) s
  let kG ← m.grow.rate m.ctx s
  let kO ← m.oxid.rate m.ctx s
  let nuc ← (if n.mech ≠ .NONE then do
      let m0 ← idx m.mBins 0
      let q ← cdiv (j * (s.cMin * gasMW .C / Na)) m0
      ok (Function.update (fun _ => (0 : ℝ)) 0 q)
    else ok fun _ => 0)
  let A ← tabLoop m.nsoot fun k => do
    let b ← idx m.mBins k
    let p ← cpow (6 * b / (π * rhoSoot)) twothird
    let N ← idx s.sootVar k
    ok (π * p * N)
  let grw ← (if m.grow.mech ≠ .NONE then sectUp m.nsoot m.mBins fun k => kG * A k else ok fun _ => 0)
  let cnd ← (if n.mech = .PAH then do
      let beta ← betaDS m s n.dimer.mDimer
      let N ← tabLoop m.nsoot fun k => idx s.sootVar k
      sectUp m.nsoot m.mBins fun k => beta k * N k * n.dimer.nDimer * n.dimer.mDimer
    else ok fun _ => 0)
  let oxi ← (if m.oxid.mechType ≠ .NONE then sectDown m.nsoot m.mBins fun k => kO * A k else ok fun _ => 0)
  let (coa, glob) ← sectCoag m glob s
  ok ⟨nuc, grw, cnd, oxi, coa, n, s, glob⟩

/-- sootModel_SECT.cc:162-319 -/
noncomputable def sectSources (m : Model) (glob : Option ℝ) (s : State) : Res (Model × State × Option ℝ) := do
  let t ← sectTerms m glob s
  let soot := (List.range m.nsoot).map fun k => t.nuc k + t.grw k + t.cnd k + t.oxi k + t.coa k
  let mN ← sumLoop m.nsoot fun k => do let b ← idx m.mBins k; ok (t.nuc k * b)
  let mG ← sumLoop m.nsoot fun k => do let b ← idx m.mBins k; ok (t.grw k * b)
  let mO ← sumLoop m.nsoot fun k => do let b ← idx m.mBins k; ok (t.oxi k * b)
  let m' ← m.finish t.nucl soot m.sources.tar mN mG mO
  ok (m', t.st, t.glob)

end Soot
