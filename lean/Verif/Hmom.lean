import Verif.Momic

/-!
# Hybrid method of moments (`/repo/src/sootModel_HMOM.cc`)

The helpers `set_diffTable_L`, `Mr_L`, `f_grid_L`, `HMOMCoagulationRates_LL` (393-413, 495-570, 593-661) are the same code as
in MOMIC, applied to the large-mode moments; the MOMIC definitions are reused.
-/

namespace Soot

open Res Real
open scoped Classical

/-- sootModel_HMOM.cc:129-136, the guards applied in place, in increasing order. -/
noncomputable def largeGuard (raw : ℕ → ℝ) (mNuc : ℝ) : ℕ → ℝ
  | 0 => if raw 0 ≤ 0 then 1E-20 else raw 0
  | k + 1 => if raw (k + 1) ≤ 0 then largeGuard raw mNuc k * mNuc * 1.5 else raw (k + 1)

/-- sootModel_HMOM.cc:123-136: the large-mode moments `M_L` (`N` is `Nmom`). -/
noncomputable def hmomLarge (s : State) (N : ℕ) (N0 mNuc : ℝ) : Res (List ℝ) := do
  let raw ← tabLoop N fun k => do
    let v ← idx s.sootVar k
    ok (max (v - N0 * mNuc ^ k) 0)
  ok ((List.range N).map (largeGuard raw mNuc))

/-- sootModel_HMOM.cc:56-57 -/
def hmomNp : List ℕ := [4, 4, 7, 10, 13, 16, 19, 22, 25]
def hmomNq : List ℕ := [12, 12, 15, 18, 21, 24, 27, 30, 33]

/-- sootModel_HMOM.cc:416-418, into the 25 zeros of line 54 (entries past `np[Nmom]` are never written) -/
noncomputable def hmomP (T : Tri) : Res (List ℝ) := do
  let n ← idx hmomNp T.n
  forLoop n (fun i v => do
    let x ← momicMr T ((2 * i - 4) / 6)
    setIdx v i x) (List.replicate 25 0)

/-- sootModel_HMOM.cc:420-422, into the 33 zeros of line 55 -/
noncomputable def hmomQ (T : Tri) : Res (List ℝ) := do
  let n ← idx hmomNq T.n
  forLoop n (fun i v => do
    let x ← momicMr T ((2 * i - 3) / 6)
    setIdx v i x) (List.replicate 33 0)

/-- The bracket of the continuum rate of one particle of mass `m` against the large mode at index shift `kk`
(sootModel_HMOM.cc:212-219, 351-358, 582-583). -/
noncomputable def contBr (P : List ℝ) (m Kcp : ℝ) (kk : ℕ) : Res ℝ := do
  let m26 ← cpow m (2 / 6)
  let mn26 ← cpow m (-2 / 6)
  let mn46 ← cpow m (-4 / 6)
  let P0 ← idx P (kk + 0)
  let P1 ← idx P (kk + 1)
  let P2 ← idx P (kk + 2)
  let P3 ← idx P (kk + 3)
  ok (m26 * P1 + 2 * P2 + mn26 * P3 + Kcp * (m26 * P0 + P1 + mn26 * P2 + mn46 * P3))

/-- sootModel_HMOM.cc:318-385.  `g_grid_dimer_L` (360-379 and 185-204) is the function `g_grid` of MOMIC. -/
noncomputable def hmomIbeta (m : Model) (N0 : ℝ) (P Q : List ℝ) (s : State) (mD : ℝ) : Res ℝ :=
  if m.nucl.mech ≠ .PAH then ok 0 else do
    let b ← m.coag.rate s mD (s.cMin * gasMW .C / Na)
    let Kc ← m.coag.kc s
    let Kcp ← m.coag.kcp s
    let Kfm ← m.coag.kfm s
    let c ← contBr P mD Kcp 0
    let g ← gGrid Q mD 1
    let L ← cdiv (Kfm * g * (Kc * c)) (Kfm * g + Kc * c)
    ok (b * N0 + L)

/-- sootModel_HMOM.cc:156-226.  The entry `N` (that is `Nmom`) is the small-mode term `N0_cond`. -/
noncomputable def hmomCnd (m : Model) (n : Nucl) (N : ℕ) (N0 mNuc : ℝ) (P Q : List ℝ) (s : State) : Res (ℕ → ℝ) :=
  if n.mech = .PAH then do
    let mD := n.dimer.mDimer
    let nD := n.dimer.nDimer
    let b ← m.coag.rate s mD mNuc
    let Kc ← m.coag.kc s
    let Kcp ← m.coag.kcp s
    let Kfm ← m.coag.kfm s
    let L ← tabLoop N fun k => if k = 0 then ok 0 else do
      let c ← contBr P mD Kcp ((k - 1) * 3)
      let g ← gGrid Q mD k
      let h ← cdiv (k * Kfm * nD * mD * g * (k * Kc * nD * mD * c)) (k * Kfm * nD * mD * g + k * Kc * nD * mD * c)
      ok (k * mNuc ^ (k - 1) * b * nD * mD * N0 + h)
    ok fun k => if k = N then -b * nD * N0 else L k
  else ok fun _ => 0

/-- sootModel_HMOM.cc:230-251 with `K = Kgrw`, `K0 = -Kgrw` (growth) and `K = -Koxi`, `K0 = -Koxi` (oxidation); the entry
`N` is `N0_sg` or `N0_ox`. -/
noncomputable def hmomSurf (T : Tri) (on : Prop) (K K0 : ℝ) (N : ℕ) (N0 mNuc : ℝ) : Res (ℕ → ℝ) :=
  if on then do
    let p ← cpow mNuc (-1.0 / 3.0)
    let L ← tabLoop N fun k => if k = 0 then ok 0 else do
      let q ← cpow mNuc (k - onethird)
      let M ← momicMr T (k - onethird)
      ok (K * acoef * k * (q * N0 + M))
    ok fun k => if k = N then K0 * acoef * p * N0 else L k
  else ok fun _ => 0

/-- sootModel_HMOM.cc:444-493, the function `g_grid` of MOMIC at the small-mode mass `m0`.  For `k = 0` the code reads
`Mq6_L[-3]`: with `read = none` that is undefined behaviour, with `read = some x` the call is taken to deliver some
number `x`. -/
noncomputable def hmomG (read : Option ℝ) (Q : List ℝ) (m0 : ℝ) (k : ℕ) : Res ℝ :=
  match k, read with
  | 0, some x => ok x
  | k, _ => gGrid Q m0 k

/-- sootModel_HMOM.cc:572-591 -/
noncomputable def hmomIk (c : Coag) (s : State) (P Q : List ℝ) (m0 : ℝ) (read : Option ℝ) (k : ℕ) : Res ℝ := do
  let Kc ← c.kc s
  let Kcp ← c.kcp s
  let Kfm ← c.kfm s
  let g ← hmomG read Q m0 k
  let b ← contBr P m0 Kcp (k * 3)
  if c.mech = .FM then ok (Kfm * g) else if c.mech = .CONTINUUM then ok (Kc * b) else
    cdiv (Kfm * g * (Kc * b)) (Kfm * g + Kc * b)

/-- sootModel_HMOM.cc:254-287; the entry `N` is `N0_coag`. -/
noncomputable def hmomCoag (c : Coag) (s : State) (N : ℕ) (N0 mNuc : ℝ) (M P Q : List ℝ) (read : Option ℝ) : Res (ℕ → ℝ) :=
  if c.mech ≠ .NONE then do
    let b00 ← c.rate s mNuc mNuc
    let b0L ← hmomIk c s P Q mNuc read 0
    let LL ← momicCoagRates c s N M P Q
    let R ← tabLoop N fun r => if r = 1 then ok 0 else do
      let SL ← (if 2 ≤ r then do
          let S ← sumLoop (r - 1) fun k => do
            let b ← binom r (k + 1)
            let I ← hmomIk c s P Q mNuc read (k + 1)
            ok (b * mNuc ^ (r - (k + 1)) * I)
          ok (N0 * S)
        else if r = 0 then ok (-b0L * N0) else ok 0)
      ok (0.5 * b00 * N0 * N0 * (2 ^ r - 2) * mNuc ^ r + SL + LL r)
    ok fun r => if r = N then -b00 * N0 * N0 + -b0L * N0 else R r
  else ok fun _ => 0

/-- sootModel_HMOM.cc:142-287.  `mNuc` is computed (line 120) before the nucleation call changes `state.cMin`. -/
noncomputable def hmomTerms (read : Option ℝ) (m : Model) (N : ℕ) (N0 mNuc : ℝ) (M : List ℝ) (T : Tri) (P Q : List ℝ)
    (s : State) : Res MomTerms := do
  let (j, n, s) ← m.nucl.rate (hmomIbeta m N0 P Q) s
  let kG ← m.grow.rate m.ctx s
  let kO ← m.oxid.rate m.ctx s
  let nuc : ℕ → ℝ := fun i => if n.mech ≠ .NONE then (if i = N then j else mNuc ^ i * j) else 0
  let cnd ← hmomCnd m n N N0 mNuc P Q s
  let grw ← hmomSurf T (m.grow.mech ≠ .NONE) kG (-kG) N N0 mNuc
  let oxi ← hmomSurf T (m.oxid.mechType ≠ .NONE) (-kO) (-kO) N N0 mNuc
  let coa ← hmomCoag m.coag s N N0 mNuc M P Q read
  ok ⟨nuc, cnd, grw, oxi, coa, n, s⟩

/-- sootModel_HMOM.cc:114-310, with the outcome of `g_grid_L(0)` left open (see `hmomG`).  `Nmom` is `nsoot - 1` (line 48); the powers of
`set_m0Powers` (425-442) are recomputed where they are used.  The soot source vector has the small-mode number as
its last entry (line 293). -/
noncomputable def hmomSourcesAt (read : Option ℝ) (m : Model) (s : State) : Res (Model × State) := do
  let N0 ← idx s.sootVar (m.nsoot - 1)
  let mNuc := s.cMin * gasMW .C / Na
  let M ← hmomLarge s (m.nsoot - 1) N0 mNuc
  let T ← setDiffTable ⟨m.nsoot - 1, fun _ _ => none⟩ M
  let P ← hmomP T
  let Q ← hmomQ T
  let t ← hmomTerms read m (m.nsoot - 1) N0 mNuc M T P Q s
  momFinish m t

/-- sootModel_HMOM.cc:114-310 as written: `g_grid_L(0)` (444-455) reads `Mq6_L[-3]`. -/
noncomputable def hmomSources (m : Model) (s : State) : Res (Model × State) := hmomSourcesAt none m s

end Soot
