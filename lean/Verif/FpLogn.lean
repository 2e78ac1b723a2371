import Verif.FpMass
import Verif.FpRate
import Verif.Model

/-!
# Floating point: the source terms of the lognormal model over extended doubles

`sootModel_LOGN::setSourceTerms` without PAH nucleation, with every operation rounded (see `Fp.lean`).  The rates are those of `FpRate.lean` (so HACA is
not included).
-/

namespace Soot

open Res Dbl
open scoped Classical

section

variable (F : Fp)

/-- The literal expression `k.0/6.0`. -/
noncomputable def sixthD (k : ℤ) : Dbl := F.div (if k < 0 then neg (F.rnd ((-k : ℤ) : ℝ)) else F.rnd (k : ℝ)) (F.rnd 6)

/-- sootModel_LOGN.cc:338-351 -/
noncomputable def lognMrD (r M0 M1 M2 : Dbl) : Dbl :=
  if M0.le (fin 0) then fin 0 else
  let e0 := F.add (F.rnd 1) (F.mul (F.mul (F.rnd 0.5) r) (F.sub r (F.rnd 3)))
  let e1 := F.mul r (F.sub (F.rnd 2) r)
  let e2 := F.mul (F.mul (F.rnd 0.5) r) (F.sub r (F.rnd 1))
  if (M0.le (fin 0) ∧ e0.le (fin 0)) ∨ (M1.le (fin 0) ∧ e1.le (fin 0)) ∨ (M2.le (fin 0) ∧ e2.le (fin 0)) then fin 0
  else F.mul (F.mul (F.pow M0 e0) (F.pow M1 e1)) (F.pow M2 e2)

/-- coagulationModel.h:42-44 -/
noncomputable def kcpD (s : DState) : Dbl :=
  F.mul (F.mul (F.mul (F.rnd 2) (F.rnd 1.657)) (s.mfp F)) (F.pow (F.div (F.mul (F.rnd Real.pi) (F.rnd rhoSoot)) (F.rnd 6)) F.third)

/-- sootModel_LOGN.cc:271: `C0_fm`.  `M k` is the moment of order `k/6`. -/
noncomputable def lognC0fmD (s : DState) (fm : Dbl) (M : ℤ → Dbl) (M0 : Dbl) : Dbl :=
  F.mul (F.mul (neg (kfmD F s fm)) (F.rnd bCoag))
    (F.add (F.add (F.mul M0 (M 1)) (F.mul (F.mul (F.rnd 2) (M 2)) (M (-1)))) (F.mul (M 4) (M (-3))))

/-- sootModel_LOGN.cc:272: `C2_fm` -/
noncomputable def lognC2fmD (s : DState) (fm : Dbl) (M : ℤ → Dbl) (M1 : Dbl) : Dbl :=
  F.mul (F.mul (F.mul (F.rnd 2) (kfmD F s fm)) (F.rnd bCoag))
    (F.add (F.add (F.mul M1 (M 7)) (F.mul (F.mul (F.rnd 2) (M 8)) (M 5))) (F.mul (M 10) (M 3)))

/-- sootModel_LOGN.cc:279: `C0_c` -/
noncomputable def lognC0cD (s : DState) (M : ℤ → Dbl) (M0 : Dbl) : Dbl :=
  F.mul (neg (kcD F s))
    (F.add (F.add (F.mul M0 M0) (F.mul (M 2) (M (-2)))) (F.mul (kcpD F s) (F.add (F.mul M0 (M (-2))) (F.mul (M 2) (M (-4))))))

/-- sootModel_LOGN.cc:280: `C2_c` -/
noncomputable def lognC2cD (s : DState) (M : ℤ → Dbl) (M1 : Dbl) : Dbl :=
  F.mul (F.mul (F.rnd 2) (kcD F s))
    (F.add (F.add (F.mul M1 M1) (F.mul (M 4) (M 8))) (F.mul (kcpD F s) (F.add (F.mul M1 (M 4)) (F.mul (M 2) (M 8)))))

/-- sootModel_LOGN.cc:295-296: the harmonic mean, 0 unless one of the two is positive. -/
noncomputable def lognHmD (x y : Dbl) : Dbl :=
  if (fin 0).lt x ∨ (fin 0).lt y then F.div (F.mul x y) (F.add x y) else fin 0

/-- sootModel_LOGN.cc:262-297: `(C0, C2)`.  FUCHS would read uninitialised variables. -/
noncomputable def lognCoagD (s : DState) (fm : Dbl) (k : CoagMech) (M : ℤ → Dbl) (M0 M1 : Dbl) : Res (Dbl × Dbl) :=
  match k with
  | .NONE => ok (fin 0, fin 0)
  | .FM => ok (lognC0fmD F s fm M M0, lognC2fmD F s fm M M1)
  | .CONTINUUM => ok (lognC0cD F s M M0, lognC2cD F s M M1)
  | .HM => ok (lognHmD F (lognC0fmD F s fm M M0) (lognC0cD F s M M0), lognHmD F (lognC2fmD F s fm M M1) (lognC2cD F s M M1))
  | .FUCHS => ub

/-- `K*M_PI*pow(6./(M_PI*rhoSoot), twothird)*Mr` (sootModel_LOGN.cc:245, 256) -/
noncomputable def lognSurfD (K Mr : Dbl) : Dbl :=
  F.mul (F.mul (F.mul K (F.rnd Real.pi)) (F.pow (F.div (F.rnd 6) (F.mul (F.rnd Real.pi) (F.rnd rhoSoot))) F.twoThird)) Mr

/-- sootModel_LOGN.cc:153-325 without PAH nucleation.  Of the model object only the mechanisms, the stoichiometric ratios and `FM_multiplier` are used.  The
result is `sootSources[0..2]` and `gasSources`. -/
noncomputable def lognSourcesD (s : DState) (m : Model) : Res (Dbl × Dbl × Dbl × (GasSp → Dbl)) := do
  let M0 ← idx s.sootVar 0
  let M1 ← idx s.sootVar 1
  let M2 ← idx s.sootVar 2
  let M := fun k : ℤ => lognMrD F (sixthD F k) M0 M1 M2
  let jNuc ← nuclRateD F s m.nucl.mech
  let mMin := F.div (F.mul s.cMin (F.rnd (gasMW .C))) (F.rnd Na)
  let N0 := if m.nucl.mech ≠ .NONE then jNuc else fin 0
  let N1 := if m.nucl.mech ≠ .NONE then F.mul jNuc mMin else fin 0
  let N2 := if m.nucl.mech ≠ .NONE then F.mul (F.mul jNuc mMin) mMin else fin 0
  let kGrw ← growRateD F s m.grow.mech
  let G1 := if m.grow.mech ≠ .NONE then lognSurfD F kGrw (M 4) else fin 0
  let G2 := if m.grow.mech ≠ .NONE then F.mul (lognSurfD F kGrw (M 10)) (F.rnd 2) else fin 0
  let kOxi ← oxidRateD F s m.oxid.cls
  let X1 := if m.oxid.mechType ≠ .NONE then lognSurfD F (neg kOxi) (M 4) else fin 0
  let X2 := if m.oxid.mechType ≠ .NONE then F.mul (lognSurfD F (neg kOxi) (M 10)) (F.rnd 2) else fin 0
  let (C0, C2) ← lognCoagD F s (fin m.coag.fmMult) m.coag.mech M M0 M1
  ok (F.add (F.sub (F.add (F.add N0 (fin 0)) (fin 0)) (fin 0)) C0, sootMassLognD F N1 (fin 0) G1 X1,
    F.add (F.add (F.add (F.add N2 G2) (fin 0)) X2) C2, gasSourcesD F m.nucl.ratio m.grow.ratio m.oxid.ratio N1 G1 X1)

end

end Soot
