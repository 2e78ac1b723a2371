import Verif.Inv
import Mathlib.Data.Nat.Choose.Sum

/-!
# Quadrature method of moments (`/repo/src/sootModel_QMOM.cc`, `/repo/src/binomial.h`)
-/

namespace Soot

open Res Real
open scoped Classical

/-! ## binomial.h -/

/-- binomial.h:25-61 -/
def factorials : List ℕ := [1, 1, 2, 6, 24, 120, 720, 5040, 40320, 362880, 3628800, 39916800, 479001600, 6227020800,
  87178291200, 1307674368000, 20922789888000, 355687428096000, 6402373705728000, 121645100408832000,
  2432902008176640000, 51090942171709440000, 1124000727777607680000, 25852016738884976640000,
  620448401733239439360000, 15511210043330985984000000, 403291461126605635584000000, 10888869450418352160768000000,
  304888344611713860501504000000, 8841761993739701954543616000000, 265252859812191058636308480000000,
  8222838654177922817725562880000000, 263130836933693530167218012160000000, 8683317618811886495518194401280000000,
  295232799039604140847618609643520000000]

/-- binomial.h:24-67.  The arguments are 32-bit `unsigned`, so `r - k` wraps around.  The literals of the table
are the exact real numbers written there (as doubles the ones beyond 22! are rounded). -/
noncomputable def binom (r k : ℕ) : Res ℝ :=
  let rk := (2 ^ 32 + r - k) % 2 ^ 32
  if r ≥ 35 ∨ k ≥ 35 ∨ rk ≥ 35 then exn (.runtime "binomial coefficient parameters out of bounds") else do
    let a ← idx factorials r
    let b ← idx factorials k
    let c ← idx factorials rk
    cdiv (a : ℝ) ((b : ℝ) * (c : ℝ))

/-! ## Moment inversion -/

/-- What is used of the result of LAPACK `dstev`: eigenvalues and the first component of each eigenvector;
`none` stands for a non-finite entry. -/
structure EigOut where
  val : ℕ → Option ℝ
  vec0 : ℕ → Option ℝ

/-- LAPACK `dstev` as an arbitrary function of matrix size and matrix (diagonal and off-diagonal, the latter
indexed from 1).  When the recursion has divided by zero the matrix has non-finite entries; the argument is then
`none`, and the outcome may be anything (also depending on the moments). -/
abbrev Eig := ℕ → List ℝ → Option ((ℕ → ℝ) × (ℕ → ℝ)) → EigOut

/-- Loop state of the recursion in `wheeler`: rows `sigma[i-1]`, `sigma[i]`, and the arrays `a`, `b`. -/
structure WhSt where
  sp : ℕ → ℝ
  sc : ℕ → ℝ
  a : ℕ → ℝ
  b : ℕ → ℝ

/-- One pass of the loop at sootModel_QMOM.cc:303-308; `none` on a zero denominator. -/
noncomputable def whStep (N i : ℕ) (t : WhSt) : Option WhSt :=
  let sn : ℕ → ℝ := fun j =>
    if i ≤ j ∧ j < 2 * N - i then t.sc (j + 1) - t.a (i - 1) * t.sc j - t.b (i - 1) * t.sp j else 0
  if t.sc (i - 1) = 0 ∨ sn i = 0 then none else
    some ⟨t.sc, sn, Function.update t.a i (-t.sc i / t.sc (i - 1) + sn (i + 1) / sn i),
      Function.update t.b i (sn i / t.sc (i - 1))⟩

/-- sootModel_QMOM.cc:290-308 after `i = 1 .. n`.  Called with `M[0] > 0` and `2N` moments available, so the
accesses `m[i]` and the division `m[1]/m[0]` are safe. -/
noncomputable def whRun (M : List ℝ) (N : ℕ) : ℕ → Option WhSt
  | 0 => some ⟨fun _ => 0, fun j => if j < 2 * N then M.getD j 0 else 0,
      Function.update (fun _ => 0) 0 (M.getD 1 0 / M.getD 0 0), fun _ => 0⟩
  | n + 1 => (whRun M N n).bind (whStep N (n + 1))

/-- sootModel_QMOM.cc:310-312: the Jacobi matrix handed to `dstev`. -/
noncomputable def jacobi (M : List ℝ) (N : ℕ) : Option ((ℕ → ℝ) × (ℕ → ℝ)) :=
  (whRun M N (N - 1)).map fun t => (t.a, fun i => -sqrt |t.b i|)

/-- sootModel_QMOM.cc:288-331: `(w, x)`. -/
noncomputable def wheeler (eig : Eig) (M : List ℝ) (N : ℕ) : (ℕ → Option ℝ) × (ℕ → Option ℝ) :=
  let o := eig N M (jacobi M N)
  (fun i => (o.vec0 i).map fun z => z ^ 2 * M.getD 0 0, o.val)

/-- sootModel_QMOM.cc:248-252: no bad value among the first `N`. -/
def goodVals (N : ℕ) (v : ℕ → Option ℝ) : Prop := ∀ i < N, ∃ x, v i = some x ∧ 0 ≤ x

/-- The downselection loop at sootModel_QMOM.cc:232-263: final node count, weights, abscissas. -/
noncomputable def downselect (eig : Eig) (M : List ℝ) : ℕ → ℕ × (ℕ → ℝ) × (ℕ → ℝ)
  | 0 => (0, fun _ => 0, fun _ => 0)
  | 1 => (1, fun _ => M.getD 0 0, fun _ => M.getD 1 0 / M.getD 0 0)
  | n + 2 =>
    if goodVals (n + 2) (wheeler eig M (n + 2)).1 ∧ goodVals (n + 2) (wheeler eig M (n + 2)).2 then
      (n + 2, fun i => ((wheeler eig M (n + 2)).1 i).getD 0, fun i => ((wheeler eig M (n + 2)).2 i).getD 0)
    else downselect eig M (n + 1)

/-- sootModel_QMOM.cc:266-269 together with the zero fill at 220-221. -/
noncomputable def padded (L N : ℕ) (v : ℕ → ℝ) : List ℝ :=
  (List.range L).map fun i => if i < N then (if 0 ≤ v i then v i else 0) else 0

/-- sootModel_QMOM.cc:218-270: new weights and abscissas.  With a single moment `N*2-1` wraps around and the
copy loop leaves the array. -/
noncomputable def getWtsAbs (eig : Eig) (M wts absc : List ℝ) : Res (List ℝ × List ℝ) := do
  let M0 ← idx M 0
  if M0 ≤ 0 then ok (List.replicate wts.length 0, List.replicate absc.length 0) else
    if M.length / 2 = 0 then ub else
      let d := downselect eig M (M.length / 2)
      if d.1 ≤ wts.length ∧ d.1 ≤ absc.length then ok (padded wts.length d.1 d.2.1, padded absc.length d.1 d.2.2)
      else ub

/-- sootModel_QMOM.cc:344-354, the loop from index `i` on with `n` passes left. -/
noncomputable def qmomMrLoop (r : ℝ) (wts absc : List ℝ) : ℕ → ℕ → ℝ → Res ℝ
  | 0, _, acc => ok acc
  | n + 1, i, acc => do
    let w ← idx wts i
    if w ≤ 0 then ok 0 else do
      let a ← idx absc i
      if a ≤ 0 then ok 0 else do
        let p ← cpow a r
        qmomMrLoop r wts absc n (i + 1) (acc + w * p)

/-- sootModel_QMOM.cc:344-354 -/
noncomputable def qmomMr (r : ℝ) (wts absc : List ℝ) : Res ℝ := qmomMrLoop r wts absc wts.length 0 0

/-! ## Source terms -/

/-- Terms of one evaluation of a moment model, by moment order. -/
structure MomTerms where
  nuc : ℕ → ℝ
  cnd : ℕ → ℝ
  grw : ℕ → ℝ
  oxi : ℕ → ℝ
  coa : ℕ → ℝ
  nucl : Nucl
  st : State

/-- sootModel_QMOM.cc:133 -/
noncomputable def acoef : ℝ := π * (6 / (π * rhoSoot)) ^ twothird

/-- sootModel_QMOM.cc:118-127 -/
noncomputable def qmomCnd (m : Model) (n : Nucl) (s : State) : Res (ℕ → ℝ) :=
  if n.mech = .PAH then
    tabLoop m.nsoot fun k => if k = 0 then ok 0 else do
      let S ← sumLoop s.absc.length fun i => do
        let a ← idx s.absc i
        let b ← m.coag.rate s n.dimer.mDimer a
        let w ← idx s.wts i
        ok (b * w * (if k = 1 then 1 else if k = 2 then a else a ^ (k - 1)))
      ok (S * (k * n.dimer.nDimer * n.dimer.mDimer))
  else ok fun _ => 0

/-- sootModel_QMOM.cc:133-137 and 141-145: `K*Acoef*k*Mr(k-1/3)`. -/
noncomputable def qmomSurf (m : Model) (s : State) (on : Prop) (K : ℝ) : Res (ℕ → ℝ) :=
  if on then
    tabLoop m.nsoot fun k => if k = 0 then ok 0 else do
      let M ← qmomMr (k - onethird) s.wts s.absc
      ok (K * acoef * k * M)
  else ok fun _ => 0

/-- sootModel_QMOM.cc:151-178 for one moment `r ≠ 1`. -/
noncomputable def qmomCoagR (m : Model) (s : State) (r : ℕ) : Res ℝ := do
  let off ← sumLoop s.absc.length fun i => sumLoop i fun j => do
    let ai ← idx s.absc i
    let aj ← idx s.absc j
    let S ← sumLoop (r - 1) fun k => do
      let c ← binom r (k + 1)
      ok (c * ai ^ (k + 1) * aj ^ (r - (k + 1)))
    let K ← m.coag.rate s ai aj
    let wi ← idx s.wts i
    let wj ← idx s.wts j
    ok (K * wi * wj * ((if r = 0 then -1 else 0) + S))
  let S ← sumLoop (r - 1) fun k => binom r (k + 1)
  let diag ← sumLoop s.absc.length fun i => do
    let ai ← idx s.absc i
    let K ← m.coag.rate s ai ai
    let wi ← idx s.wts i
    ok (0.5 * K * wi * wi * ((if r = 0 then -1 else 0) + S) * (if r = 0 then 1 else ai ^ r))
  ok (off + diag)

/-- sootModel_QMOM.cc:149-178 -/
noncomputable def qmomCoag (m : Model) (s : State) : Res (ℕ → ℝ) :=
  if m.coag.mech ≠ .NONE then tabLoop m.nsoot fun r => if r = 1 then ok 0 else qmomCoagR m s r
  else ok fun _ => 0

/-- sootModel_QMOM.cc:101-178 -/
noncomputable def qmomTerms (m : Model) (s : State) : Res MomTerms := do
  let (j, n, s) ← m.nucl.rate (ibetaNodes m.coag) s
  let kG ← m.grow.rate m.ctx s
  let kO ← m.oxid.rate m.ctx s
  let nuc : ℕ → ℝ := fun i => if n.mech ≠ .NONE then (s.cMin * gasMW .C / Na) ^ i * j else 0
  let cnd ← qmomCnd m n s
  let grw ← qmomSurf m s (m.grow.mech ≠ .NONE) kG
  let oxi ← qmomSurf m s (m.oxid.mechType ≠ .NONE) (-kO)
  let coa ← qmomCoag m s
  ok ⟨nuc, cnd, grw, oxi, coa, n, s⟩

/-- Soot sources by moment, then the common final block (sootModel_QMOM.cc:180-202 = sootModel_MOMIC.cc:218-242);
the source vector has `nsoot` entries. -/
noncomputable def momFinish (m : Model) (t : MomTerms) : Res (Model × State) := do
  let m' ← m.finish t.nucl ((List.range m.nsoot).map fun i => t.nuc i + t.cnd i + t.grw i + t.oxi i + t.coa i)
    m.sources.tar (t.nuc 1) (t.grw 1) (t.oxi 1)
  ok (m', t.st)

/-- sootModel_QMOM.cc:95-202 -/
noncomputable def qmomSources (eig : Eig) (m : Model) (s : State) : Res (Model × State) := do
  let (w, a) ← getWtsAbs eig s.sootVar s.wts s.absc
  let t ← qmomTerms m { s with wts := w, absc := a }
  momFinish m t

end Soot
