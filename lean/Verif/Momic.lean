import Verif.MomInv

/-!
# Method of moments with interpolative closure (`/repo/src/sootModel_MOMIC.cc`)
-/

namespace Soot

open Res Real
open scoped Classical

/-- `for (k = 0; k < n; k++)` with loop-carried variables. -/
def forLoop {σ : Type} : ℕ → (ℕ → σ → Res σ) → σ → Res σ
  | 0, _, x => ok x
  | n + 1, f, x => do
    let y ← forLoop n f x
    f n y

/-- The member `diffTable` (sootModel_MOMIC.h, sized in sootModel_MOMIC.cc:45-47): row `k` has `n - k` entries.
`none` stands for a non-finite entry. -/
structure Tri where
  n : ℕ
  v : ℕ → ℕ → Option ℝ

/-- `diffTable[i][j]` -/
def Tri.get (T : Tri) (i j : ℕ) : Res (Option ℝ) := if i < T.n ∧ j < T.n - i then ok (T.v i j) else ub

/-- `diffTable[i][j] = x` -/
def Tri.set (T : Tri) (i j : ℕ) (x : Option ℝ) : Res Tri :=
  if i < T.n ∧ j < T.n - i then ok { T with v := fun a b => if a = i ∧ b = j then x else T.v a b } else ub

/-- `log10(x)`: `-Inf` for zero, NaN below. -/
noncomputable def olog10 (x : ℝ) : Option ℝ := if 0 < x then some (logb 10 x) else none

/-- Sum, product with a finite number, difference: a non-finite operand gives a non-finite result. -/
noncomputable def oadd (a b : Option ℝ) : Option ℝ := a.bind fun x => b.map fun y => x + y
noncomputable def osub (a b : Option ℝ) : Option ℝ := a.bind fun x => b.map fun y => x - y
noncomputable def osmul (c : ℝ) (a : Option ℝ) : Option ℝ := a.map fun x => c * x

/-- sootModel_MOMIC.cc:624-636 -/
noncomputable def setDiffTable (T : Tri) (M : List ℝ) : Res Tri := do
  let T ← forLoop T.n (fun k T => do
    let x ← idx M k
    T.set k 0 (olog10 x)) T
  forLoop (T.n - 1) (fun j T => forLoop (T.n - (j + 1)) (fun i T => do
    let a ← T.get (i + 1) j
    let b ← T.get i j
    T.set i (j + 1) (osub a b)) T) T

/-- sootModel_MOMIC.cc:658-670.  Overflow of `pow` on finite arguments is outside the model (`double` is `ℝ`), so the
`isfinite` test only catches non-finite table entries. -/
noncomputable def momicMr (T : Tri) (r : ℝ) : Res ℝ := do
  let l0 ← T.get 0 0
  let p ← forLoop ((if 0 ≤ r then T.n else 3) - 1) (fun k (p : Option ℝ × ℝ) => do
    let d ← T.get 0 (k + 1)
    ok (oadd p.1 (osmul p.2 d), p.2 * ((r - (k + 1 : ℕ)) / ((k + 2 : ℕ) : ℝ)))) (l0, r)
  match p.1 with
  | some x => ok (10 ^ x)
  | none => ok 0

/-- sootModel_MOMIC.cc:52-53 -/
def momicNp : List ℕ := [4, 4, 7, 10, 13, 16, 19, 22]
def momicNq : List ℕ := [12, 12, 15, 18, 21, 24, 27, 30]

/-- sootModel_MOMIC.cc:689-693.  The array was created with 22 zeros (line 50) and only its first `np[Nmom]` entries are ever
written, all of them on each call. -/
noncomputable def momicP (T : Tri) : Res (List ℝ) := do
  let n ← idx momicNp T.n
  forLoop n (fun i v => do
    let x ← momicMr T ((2 * i - 4) / 6)
    setIdx v i x) (List.replicate 22 0)

/-- sootModel_MOMIC.cc:695-697; as `momicP`, with 30 entries (line 51). -/
noncomputable def momicQ (T : Tri) : Res (List ℝ) := do
  let n ← idx momicNq T.n
  forLoop n (fun i v => do
    let x ← momicMr T ((2 * i - 3) / 6)
    setIdx v i x) (List.replicate 30 0)

/-- A sum of products `c * Q[xi+i] * Q[yi+j]`. -/
noncomputable def bilin (Q : List ℝ) (xi yi : ℕ) : List (ℝ × ℕ × ℕ) → Res ℝ
  | [] => ok 0
  | (c, i, j) :: ts => do
    let a ← idx Q (xi + i)
    let b ← idx Q (yi + j)
    let r ← bilin Q xi yi ts
    ok (c * a * b + r)

/-- sootModel_MOMIC.cc:318-338: `f0 .. f3` (without the factor 2) for equal arguments. -/
noncomputable def fSym : Fin 4 → List (ℝ × ℕ × ℕ)
  | 0 => [(1, 0, 2), (1, 1, 1)]
  | 1 => [(1, 0, 5), (2, 1, 4), (1, 2, 3)]
  | 2 => [(1, 0, 8), (2, 1, 7), (1, 2, 6), (2, 3, 5), (2, 4, 4)]
  | 3 => [(1, 0, 11), (2, 1, 10), (1, 2, 9), (3, 3, 8), (6, 4, 7), (3, 5, 6)]

/-- sootModel_MOMIC.cc:342-376: `f0 .. f3` for different arguments. -/
noncomputable def fFull : Fin 4 → List (ℝ × ℕ × ℕ)
  | 0 => [(1, 0, 2), (2, 1, 1), (1, 2, 0)]
  | 1 => [(1, 0, 5), (2, 1, 4), (1, 2, 3), (1, 3, 2), (2, 4, 1), (1, 5, 0)]
  | 2 => [(1, 0, 8), (2, 1, 7), (1, 2, 6), (2, 3, 5), (4, 4, 4), (2, 5, 3), (1, 6, 2), (2, 7, 1), (1, 8, 0)]
  | 3 => [(1, 0, 11), (2, 1, 10), (1, 2, 9), (3, 3, 8), (6, 4, 7), (3, 5, 6), (3, 6, 5), (6, 7, 4), (3, 8, 3),
      (1, 9, 2), (2, 10, 1), (1, 11, 0)]

/-- sootModel_MOMIC.cc:310-377: grid point `f_l` -/
noncomputable def fPt (Q : List ℝ) (x y : ℕ) (l : Fin 4) : Res ℝ :=
  if x = y then do
    let v ← bilin Q (x * 3) (y * 3) (fSym l)
    ok (2 * v)
  else bilin Q (x * 3) (y * 3) (fFull l)

/-- sootModel_MOMIC.cc:379-389 and 456-466: interpolation to 1/2 with as many grid points as are computed. -/
noncomputable def gridHalf (y : ℕ) (f : Fin 4 → Res ℝ) : Res ℝ := do
  let f0 ← f 0
  let f1 ← f 1
  if y ≤ 2 then do
    let f2 ← f 2
    let f3 ← f 3
    let p0 ← cpow f0 (5 / 16)
    let p1 ← cpow f1 (15 / 16)
    let p2 ← cpow f2 (-5 / 16)
    let p3 ← cpow f3 (1 / 16)
    ok (p0 * p1 * p2 * p3)
  else if y ≤ 3 then do
    let f2 ← f 2
    let p0 ← cpow f0 (3 / 8)
    let p1 ← cpow f1 (3 / 4)
    let p2 ← cpow f2 (-1 / 8)
    ok (p0 * p1 * p2)
  else do
    let p0 ← cpow f0 (1 / 2)
    let p1 ← cpow f1 (1 / 2)
    ok (p0 * p1)

/-- sootModel_MOMIC.cc:308-390 -/
noncomputable def fGrid (Q : List ℝ) (x y : ℕ) : Res ℝ := gridHalf y (fPt Q x y)

/-- A sum of products `c * mD^(p/6) * Q[yi+i]`.  The powers are computed once in `set_mDimerPowers`
(sootModel_MOMIC.cc:707-727) for the same dimer mass; recomputing them gives the same numbers. -/
noncomputable def dimlin (Q : List ℝ) (mD : ℝ) (yi : ℕ) : List (ℝ × ℤ × ℕ) → Res ℝ
  | [] => ok 0
  | (c, p, i) :: ts => do
    let a ← cpow mD (p / 6)
    let b ← idx Q (yi + i)
    let r ← dimlin Q mD yi ts
    ok (c * a * b + r)

/-- sootModel_MOMIC.cc:420-454: `g0 .. g3` -/
noncomputable def gTerms : Fin 4 → List (ℝ × ℤ × ℕ)
  | 0 => [(1, 1, 0), (2, -1, 1), (1, -3, 2)]
  | 1 => [(1, 7, 0), (2, 5, 1), (1, 3, 2), (1, 1, 3), (2, -1, 4), (1, -3, 5)]
  | 2 => [(1, 13, 0), (2, 11, 1), (1, 9, 2), (2, 7, 3), (4, 5, 4), (2, 3, 5), (1, 1, 6), (2, -1, 7), (1, -3, 8)]
  | 3 => [(1, 19, 0), (2, 17, 1), (1, 15, 2), (3, 13, 3), (6, 11, 4), (3, 9, 5), (3, 7, 6), (6, 5, 7), (3, 3, 8),
      (1, 1, 9), (2, -1, 10), (1, -3, 11)]

/-- sootModel_MOMIC.cc:413-467.  For `y = 0` the index shift is `-3`, so the first access is outside the array. -/
noncomputable def gGrid (Q : List ℝ) (mD : ℝ) (y : ℕ) : Res ℝ :=
  if y = 0 then ub else gridHalf y fun l => dimlin Q mD ((y - 1) * 3) (gTerms l)

/-- sootModel_MOMIC.cc:173-180 and 581-588: the bracket of the continuum dimer collision rate (always taken at
index shift 0: in `setSourceTerms` the shift `kk` is initialised once and never advanced). -/
noncomputable def dimerC (P : List ℝ) (mD Kcp : ℝ) : Res ℝ := do
  let mD26 ← cpow mD (2 / 6)
  let mDn26 ← cpow mD (-2 / 6)
  let mDn46 ← cpow mD (-4 / 6)
  let P0 ← idx P 0
  let P1 ← idx P 1
  let P2 ← idx P 2
  let P3 ← idx P 3
  ok (mD26 * P1 + 2 * P2 + mDn26 * P3 + Kcp * (mD26 * P0 + P1 + mDn26 * P2 + mDn46 * P3))

/-- sootModel_MOMIC.cc:569-599.  The powers are those of `nucl->DIMER.mDimer`, which nucleationModel_PAH.cc:98 sets to
the value it passes. -/
noncomputable def momicIbeta (m : Model) (P Q : List ℝ) (s : State) (mD : ℝ) : Res ℝ :=
  if m.nucl.mech ≠ .PAH then ok 0 else do
    let Kc ← m.coag.kc s
    let Kcp ← m.coag.kcp s
    let b ← dimerC P mD Kcp
    let Kfm ← m.coag.kfm s
    let g ← gGrid Q mD 1
    cdiv (Kfm * g * (Kc * b)) (Kfm * g + Kc * b)

/-- sootModel_MOMIC.cc:155-193 -/
noncomputable def momicCnd (m : Model) (n : Nucl) (P Q : List ℝ) (s : State) : Res (ℕ → ℝ) :=
  if n.mech = .PAH then do
    let Kc ← m.coag.kc s
    let Kcp ← m.coag.kcp s
    let mD := n.dimer.mDimer
    let nD := n.dimer.nDimer
    let C ← tabLoop m.nsoot fun k => if k = 0 then ok 0 else do
      let b ← dimerC P mD Kcp
      ok (k * Kc * nD * mD * b)
    let Kfm ← m.coag.kfm s
    let FM ← tabLoop m.nsoot fun k => if k = 0 then ok 0 else do
      let g ← gGrid Q mD k
      ok (k * Kfm * nD * mD * g)
    tabLoop m.nsoot fun k => if k = 0 then ok 0 else cdiv (FM k * C k) (FM k + C k)
  else ok fun _ => 0

/-- sootModel_MOMIC.cc:197-210: `K*Acoef*k*Mr(k-1/3)` -/
noncomputable def momicSurf (m : Model) (T : Tri) (on : Prop) (K : ℝ) : Res (ℕ → ℝ) :=
  if on then
    tabLoop m.nsoot fun k => if k = 0 then ok 0 else do
      let M ← momicMr T (k - onethird)
      ok (K * acoef * k * M)
  else ok fun _ => 0

/-- sootModel_MOMIC.cc:489-504 -/
noncomputable def momicFM (c : Coag) (s : State) (N : ℕ) (Q : List ℝ) : Res (ℕ → ℝ) := do
  let Kfm ← c.kfm s
  tabLoop N fun r => if r = 1 then ok 0 else if r = 0 then do
      let f ← fGrid Q 0 0
      ok (-0.5 * Kfm * f)
    else do
      let S ← sumLoop (r - 1) fun k => do
        let b ← binom r (k + 1)
        let f ← fGrid Q (k + 1) (r - (k + 1))
        ok (b * f)
      ok (S * (0.5 * Kfm))

/-- sootModel_MOMIC.cc:525-533: the pair term for `k` and `r-k`. -/
noncomputable def pairC (P : List ℝ) (Kcp : ℝ) (k q : ℕ) : Res ℝ := do
  let a0 ← idx P (k * 3 + 0)
  let a1 ← idx P (k * 3 + 1)
  let a2 ← idx P (k * 3 + 2)
  let a3 ← idx P (k * 3 + 3)
  let b0 ← idx P (q * 3 + 0)
  let b1 ← idx P (q * 3 + 1)
  let b2 ← idx P (q * 3 + 2)
  let b3 ← idx P (q * 3 + 3)
  ok (a1 * b3 + 2 * a2 * b2 + a3 * b1 + Kcp * (a0 * b3 + a1 * b2 + a2 * b1 + a3 * b0))

/-- sootModel_MOMIC.cc:508-537.  Line 525 assigns (`=`), it does not accumulate. -/
noncomputable def momicC (c : Coag) (s : State) (N : ℕ) (P : List ℝ) : Res (ℕ → ℝ) := do
  let Kc ← c.kc s
  let Kcp ← c.kcp s
  tabLoop N fun r => if r = 1 then ok 0 else if r = 0 then do
      let p0 ← idx P 0
      let p1 ← idx P 1
      let p2 ← idx P 2
      let p3 ← idx P 3
      ok (-Kc * (p2 * p2 + p1 * p3 + Kcp * (p1 * p2 + p0 * p3)))
    else do
      let R ← forLoop (r - 1) (fun k _ => do
        let b ← binom r (k + 1)
        let t ← pairC P Kcp (k + 1) (r - (k + 1))
        ok (b * t)) (0 : ℝ)
      ok (R * (0.5 * Kc))

/-- sootModel_MOMIC.cc:479-552 -/
noncomputable def momicCoagRates (c : Coag) (s : State) (N : ℕ) (M P Q : List ℝ) : Res (ℕ → ℝ) := do
  let M0 ← idx M 0
  if M0 ≤ 0 then ok fun _ => 0 else do
    let FM ← (if c.mech = .FM ∨ c.mech = .HM then momicFM c s N Q else ok fun _ => 0)
    let C ← (if c.mech = .CONTINUUM ∨ c.mech = .HM then momicC c s N P else ok fun _ => 0)
    tabLoop N fun r => if r = 1 then ok 0 else
      if c.mech = .FM then ok (FM r) else if c.mech = .CONTINUUM then ok (C r) else cdiv (FM r * C r) (FM r + C r)

/-- sootModel_MOMIC.cc:121-219, from the fractional moments on. -/
noncomputable def momicTerms (m : Model) (T : Tri) (P Q : List ℝ) (s : State) : Res MomTerms := do
  let (j, n, s) ← m.nucl.rate (momicIbeta m P Q) s
  let kG ← m.grow.rate m.ctx s
  let kO ← m.oxid.rate m.ctx s
  let nuc : ℕ → ℝ := fun i => if n.mech ≠ .NONE then (s.cMin * gasMW .C / Na) ^ i * j else 0
  let cnd ← momicCnd m n P Q s
  let grw ← momicSurf m T (m.grow.mech ≠ .NONE) kG
  let oxi ← momicSurf m T (m.oxid.mechType ≠ .NONE) (-kO)
  let coa ← (if m.coag.mech ≠ .NONE then momicCoagRates m.coag s m.nsoot s.sootVar P Q else ok fun _ => 0)
  ok ⟨nuc, cnd, grw, oxi, coa, n, s⟩

/-- sootModel_MOMIC.cc:121-242.  `Nmom` is `nsoot` (sootModel_MOMIC.cc:49); `downselectIfNeeded` is commented out at
132 and never called.  The table is rewritten completely, so its old contents play no role. -/
noncomputable def momicSources (m : Model) (s : State) : Res (Model × State) := do
  let T ← setDiffTable ⟨m.nsoot, fun _ _ => none⟩ s.sootVar
  let P ← momicP T
  let Q ← momicQ T
  let t ← momicTerms m T P Q s
  momFinish m t

end Soot
