import Verif.FpMass
import Verif.SectInv

/-!
# Floating point: the sectional model

Size transport, the sum over the processes and the gas sources of `sootModel_SECT::setSourceTerms`, over doubles with an
arbitrary rounding of every operation (Fp.lean).  The memory accesses are those of Sect.lean and are not checked again.
-/

namespace Soot

open Dbl
open scoped Classical

/-- `c[k]/(mBins[k+1]-mBins[k])`, sootModel_SECT.cc:194, 199, 215-216, 221-222.  `c[k]` is the product on the left of the
division sign, which the language evaluates first. -/
noncomputable def fluxUpD (F : Fp) (b c : ℕ → Dbl) (k : ℕ) : Dbl := F.div (c k) (F.sub (b (k + 1)) (b k))

/-- sootModel_SECT.cc:193-201 and 214-224; as `upLoop`. -/
noncomputable def upLoopD (F : Fp) (b c : ℕ → Dbl) : ℕ → Dbl × (ℕ → Dbl)
  | 0 => (fluxUpD F b c 0, Function.update (fun _ => fin 0) 0 (neg (fluxUpD F b c 0)))
  | k + 1 => (fluxUpD F b c (k + 1),
      Function.update (upLoopD F b c k).2 (k + 1) (F.sub (upLoopD F b c k).1 (fluxUpD F b c (k + 1))))

/-- sootModel_SECT.cc:193-204 and 214-229, `n = nsoot` bins; as `sectUp`. -/
noncomputable def sectUpD (F : Fp) (n : ℕ) (b c : ℕ → Dbl) : ℕ → Dbl :=
  Function.update (upLoopD F b c (n - 2)).2 (n - 1) (F.add (upLoopD F b c (n - 2)).1 (F.div (c (n - 1)) (b (n - 1))))

/-- `c[k]/(mBins[k]-mBins[k-1])`, sootModel_SECT.cc:238, 243 -/
noncomputable def fluxDownD (F : Fp) (b c : ℕ → Dbl) (k : ℕ) : Dbl := F.div (c k) (F.sub (b k) (b (k - 1)))

/-- sootModel_SECT.cc:237-245; as `downLoop`. -/
noncomputable def downLoopD (F : Fp) (n : ℕ) (b c : ℕ → Dbl) : ℕ → Dbl × (ℕ → Dbl)
  | 0 => (fluxDownD F b c (n - 1), Function.update (fun _ => fin 0) (n - 1) (neg (fluxDownD F b c (n - 1))))
  | d + 1 => (fluxDownD F b c (n - 1 - (d + 1)), Function.update (downLoopD F n b c d).2 (n - 1 - (d + 1))
      (F.sub (downLoopD F n b c d).1 (fluxDownD F b c (n - 1 - (d + 1)))))

/-- sootModel_SECT.cc:237-247; as `sectDown`. -/
noncomputable def sectDownD (F : Fp) (n : ℕ) (b c : ℕ → Dbl) : ℕ → Dbl :=
  Function.update (downLoopD F n b c (n - 2)).2 0 (F.sub (downLoopD F n b c (n - 2)).1 (F.div (c 0) (b 0)))

/-- `S[k] += v` -/
noncomputable def addD (F : Fp) (S : ℕ → Dbl) (k : ℕ) (v : Dbl) : ℕ → Dbl := Function.update S k (F.add (S k) v)

/-- sootModel_SECT.cc:264-285: one colliding pair; `t i j` is the computed `K12*state.sootVar[i]*state.sootVar[j]` and `tgt i j` the
computed bin (line 275; see C88 for the rounding in it). -/
noncomputable def coagPairD (F : Fp) (n : ℕ) (b : ℕ → Dbl) (t : ℕ → ℕ → Dbl) (tgt : ℕ → ℕ → ℕ) (i j : ℕ) (S : ℕ → Dbl) : ℕ → Dbl :=
  let S := addD F S i (neg (t i j))
  let S := if j > i then addD F S j (neg (t i j)) else S
  let e := if i = j then F.mul (t i j) (fin 0.5) else t i j
  let k := if tgt i j ≥ n then n - 1 else tgt i j
  if k = n - 1 then addD F S k (F.div (F.mul e (F.add (b i) (b j))) (b k))
  else
    let X := F.div (F.sub (b (k + 1)) (F.add (b i) (b j))) (F.sub (b (k + 1)) (b k))
    addD F (addD F S k (F.mul X e)) (k + 1) (F.mul (F.sub (fin 1) X) e)

/-- sootModel_SECT.cc:259-287 -/
noncomputable def coagLoopD (F : Fp) (n : ℕ) (b : ℕ → Dbl) (t : ℕ → ℕ → Dbl) (tgt : ℕ → ℕ → ℕ) : List (ℕ × ℕ) → (ℕ → Dbl) → ℕ → Dbl
  | [], S => S
  | (i, j) :: l, S => coagLoopD F n b t tgt l (coagPairD F n b t tgt i j S)

/-- sootModel_SECT.cc:292-293: `Snuc[k] + Sgrw[k] + Scnd[k] + Soxi[k] + Scoa[k]` -/
noncomputable def sectSumD (F : Fp) (nuc grw cnd oxi coa : ℕ → Dbl) (k : ℕ) : Dbl :=
  F.add (F.add (F.add (F.add (nuc k) (grw k)) (cnd k)) (oxi k)) (coa k)

/-- sootModel_SECT.cc:297-302: `mdot += S[k]*mBins[k]` over the first `n` bins, from zero -/
noncomputable def mdotD (F : Fp) (b S : ℕ → Dbl) : ℕ → Dbl
  | 0 => fin 0
  | k + 1 => F.add (mdotD F b S k) (F.mul (S k) (b k))

end Soot
