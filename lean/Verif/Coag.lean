import Verif.State

/-!
# Coagulation kernels (`/repo/src/coagulationModels`)
-/

namespace Soot

open Res Real
open scoped Classical

/-- coagulationModel.h:20-26: `mechType` and `FM_multiplier`. -/
structure Coag where
  mech : CoagMech
  fmMult : ℝ

/-- Constructors coagulationModel_X.h: `FM_multiplier = 1.0`. -/
noncomputable def Coag.new (m : CoagMech) : Coag := ⟨m, 1.0⟩

/-- coagulationModel.h:46-48 -/
def Coag.setFM (c : Coag) (x : ℝ) : Coag := { c with fmMult := x }

/-- coagulationModel.h:34-36 -/
noncomputable def Coag.kfm (c : Coag) (s : State) : Res ℝ := do
  let r ← csqrt (0.5 * π * kb * s.T)
  ok (c.fmMult * epsC * r * (6 / (π * rhoSoot)) ^ twothird)

/-- coagulationModel.h:38-40 -/
noncomputable def Coag.kc (_ : Coag) (s : State) : Res ℝ := cdiv (2 * kb * s.T) (3 * s.muGas)

/-- coagulationModel.h:42-44 -/
noncomputable def Coag.kcp (_ : Coag) (s : State) : Res ℝ := do
  let l ← s.mfp
  ok (2 * 1.657 * l * (π * rhoSoot / 6) ^ onethird)

/-- `pow(6.*m/(M_PI*rhoSoot), onethird)`: sphere diameter for `m > 0` -/
noncomputable def diam (m : ℝ) : ℝ := (6 * m / (π * rhoSoot)) ^ onethird

/-- `1 + Kn*(1.257 + 0.4*exp(-1.1/Kn))`; for `Kn = 0` IEEE gives `exp(-Inf) = 0`. -/
noncomputable def cunningham (Kn : ℝ) : ℝ :=
  1 + Kn * (1.257 + 0.4 * (if Kn = 0 then 0 else exp (-1.1 / Kn)))

/-- coagulationModel_FM.cc:19-28, after the guard (`m1, m2 > mmin > 0`) -/
noncomputable def rateFM (c : Coag) (s : State) (m1 m2 : ℝ) : Res ℝ := do
  let k ← c.kfm s
  let m13 := m1 ^ onethird + m2 ^ onethird
  ok (k * sqrt (1 / m1 + 1 / m2) * m13 * m13)

/-- coagulationModel_CONTINUUM.cc:25-39, after the guard -/
noncomputable def rateCONT (c : Coag) (s : State) (m1 m2 : ℝ) : Res ℝ := do
  let d1 := diam m1
  let d2 := diam m2
  let ds := d1 + d2
  let mfp ← s.mfp
  let Kn1 := 2 * mfp / d1
  let Kn2 := 2 * mfp / d2
  let Cc1 := 1 + 1.657 * Kn1
  let Cc2 := 1 + 1.657 * Kn2
  let kc ← c.kc s
  ok (kc * (Cc1 / d1 + Cc2 / d2) * ds)

/-- coagulationModel_HM.cc:28-50, after the guard -/
noncomputable def rateHM (c : Coag) (s : State) (m1 m2 : ℝ) : Res ℝ := do
  let d1 := diam m1
  let d2 := diam m2
  let ds := d1 + d2
  let mR := m1 * m2 / (m1 + m2)
  let r ← csqrt (π * kb * s.T * 0.5 / mR)
  let KFM := epsC * r * ds * ds * c.fmMult
  let mfp ← s.mfp
  let Cc1 := cunningham (2 * mfp / d1)
  let Cc2 := cunningham (2 * mfp / d2)
  let q ← cdiv (twothird * kb * s.T) s.muGas
  let KC := q * (Cc1 / d1 + Cc2 / d2) * ds
  cdiv (KFM * KC) (KFM + KC)

/-- Per-particle quantities of the Fuchs kernel: diameter, diffusivity, mean speed, `g`. -/
structure FuchsPart where
  d : ℝ
  D : ℝ
  c : ℝ
  g : ℝ

/-- coagulationModel_FUCHS.cc:32-52 for one particle -/
noncomputable def fuchsPart (s : State) (m : ℝ) : Res FuchsPart := do
  let d := diam m
  let mfp ← s.mfp
  let Cc := cunningham (2 * mfp / d)
  let q ← cdiv (kb * s.T) (3 * π * s.muGas)
  let D := q * Cc / d
  let c ← csqrt (8 * kb * s.T / (π * m))
  let l ← cdiv (8 * D) (π * c)
  let pre ← cdiv root2 (3 * d * l)
  ok ⟨d, D, c, pre * ((d + l) ^ 3 - (d * d + l * l) ^ (1.5 : ℝ)) - root2 * d⟩

/-- coagulationModel_FUCHS.cc:54-58 -/
noncomputable def fuchsComb (fm : ℝ) (p q : FuchsPart) : Res ℝ := do
  let e ← cdiv 8 (epsC * fm)
  let t ← cdiv (e * (p.D + q.D)) (sqrt (p.c * p.c + q.c * q.c) * (p.d + q.d))
  cdiv (2 * π * (p.D + q.D) * (p.d + q.d))
    ((p.d + q.d) / (p.d + q.d + 2 * sqrt (p.g * p.g + q.g * q.g)) + t)

/-- coagulationModel_FUCHS.cc:26-59, after the guard -/
noncomputable def rateFUCHS (c : Coag) (s : State) (m1 m2 : ℝ) : Res ℝ := do
  let p ← fuchsPart s m1
  let q ← fuchsPart s m2
  fuchsComb c.fmMult p q

/-- `getCoagulationSootRate` of every mechanism; the mass guard is the first statement of FM, CONTINUUM,
HM and FUCHS; coagulationModel_NONE.h returns 0. -/
noncomputable def Coag.rate (c : Coag) (s : State) (m1 m2 : ℝ) : Res ℝ :=
  if c.mech = .NONE then ok 0 else
  if m1 ≤ mmin ∨ m2 ≤ mmin then ok 0 else
  match c.mech with
  | .NONE => ok 0
  | .FM => rateFM c s m1 m2
  | .CONTINUUM => rateCONT c s m1 m2
  | .HM => rateHM c s m1 m2
  | .FUCHS => rateFUCHS c s m1 m2

/-! ### Values on physical states -/

noncomputable def Coag.kfmVal (c : Coag) (s : State) : ℝ :=
  c.fmMult * epsC * sqrt (0.5 * π * kb * s.T) * (6 / (π * rhoSoot)) ^ twothird
noncomputable def kcVal (s : State) : ℝ := 2 * kb * s.T / (3 * s.muGas)
noncomputable def kcpVal (s : State) : ℝ := 2 * 1.657 * s.mfpVal * (π * rhoSoot / 6) ^ onethird

theorem Coag.kfm_ok (c : Coag) {s : State} (h : s.Phys) : c.kfm s = ok (c.kfmVal s) := by
  have := h.T; have := kb_pos
  rw [Coag.kfm, csqrt_ok (by positivity)]; rfl
theorem Coag.kc_ok (c : Coag) {s : State} (h : s.Phys) : c.kc s = ok (kcVal s) := by
  have := h.mu
  rw [Coag.kc, cdiv_ok (by positivity)]; rfl
theorem Coag.kcp_ok (c : Coag) {s : State} (h : s.Phys) : c.kcp s = ok (kcpVal s) := by
  rw [Coag.kcp, h.mfp_ok]; rfl

theorem Coag.kfmVal_pos {c : Coag} {s : State} (h : s.Phys) (hc : 0 < c.fmMult) : 0 < c.kfmVal s := by
  have := h.T; have := kb_pos; have := epsC_pos; have := rhoSoot_pos
  unfold Coag.kfmVal; positivity
theorem Coag.kfmVal_nonneg {c : Coag} {s : State} (h : s.Phys) (hc : 0 ≤ c.fmMult) :
    0 ≤ c.kfmVal s := by
  have := h.T; have := kb_pos; have := epsC_pos; have := rhoSoot_pos
  unfold Coag.kfmVal; positivity
theorem kcVal_pos {s : State} (h : s.Phys) : 0 < kcVal s := by
  have := h.T; have := h.mu; have := kb_pos
  unfold kcVal; positivity
theorem kcpVal_pos {s : State} (h : s.Phys) : 0 < kcpVal s := by
  have := h.mfpVal_pos; have := rhoSoot_pos
  unfold kcpVal; positivity

theorem diam_pos {m : ℝ} (h : 0 < m) : 0 < diam m := by
  have := rhoSoot_pos
  unfold diam; positivity

theorem cunningham_ge_one {Kn : ℝ} (h : 0 ≤ Kn) : 1 ≤ cunningham Kn := by
  unfold cunningham
  have : 0 ≤ (if Kn = 0 then (0 : ℝ) else exp (-1.1 / Kn)) := by split_ifs <;> positivity
  have : 0 ≤ Kn * (1.257 + 0.4 * (if Kn = 0 then 0 else exp (-1.1 / Kn))) := by positivity
  linarith

theorem cunningham_le {Kn : ℝ} (h : 0 ≤ Kn) : cunningham Kn ≤ 1 + 1.657 * Kn := by
  unfold cunningham
  have h1 : (if Kn = 0 then (0 : ℝ) else exp (-1.1 / Kn)) ≤ 1 := by
    split_ifs
    · norm_num
    · exact exp_le_one_iff.mpr (div_nonpos_of_nonpos_of_nonneg (by norm_num) h)
  nlinarith

/-- Free-molecular kernel value -/
noncomputable def fmVal (c : Coag) (s : State) (m1 m2 : ℝ) : ℝ :=
  c.kfmVal s * sqrt (1 / m1 + 1 / m2) * (m1 ^ onethird + m2 ^ onethird) *
    (m1 ^ onethird + m2 ^ onethird)

/-- Continuum kernel value of the CONTINUUM mechanism -/
noncomputable def contVal (s : State) (m1 m2 : ℝ) : ℝ :=
  kcVal s * ((1 + 1.657 * (2 * s.mfpVal / diam m1)) / diam m1 +
    (1 + 1.657 * (2 * s.mfpVal / diam m2)) / diam m2) * (diam m1 + diam m2)

/-- Continuum part of the HM mechanism (full slip correction) -/
noncomputable def hmContVal (s : State) (m1 m2 : ℝ) : ℝ :=
  twothird * kb * s.T / s.muGas * (cunningham (2 * s.mfpVal / diam m1) / diam m1 +
    cunningham (2 * s.mfpVal / diam m2) / diam m2) * (diam m1 + diam m2)

/-- Free-molecular part of the HM mechanism as written there -/
noncomputable def hmFmVal (c : Coag) (s : State) (m1 m2 : ℝ) : ℝ :=
  epsC * sqrt (π * kb * s.T * 0.5 / (m1 * m2 / (m1 + m2))) * (diam m1 + diam m2) *
    (diam m1 + diam m2) * c.fmMult

theorem hmFmVal_eq (c : Coag) (s : State) {m1 m2 : ℝ} (h1 : 0 < m1) (h2 : 0 < m2) :
    hmFmVal c s m1 m2 = fmVal c s m1 m2 := by
  have hr := rhoSoot_pos
  have hd : ∀ m : ℝ, 0 < m → diam m = (6 / (π * rhoSoot)) ^ onethird * m ^ onethird := by
    intro m hm
    rw [diam, ← mul_rpow (by positivity) hm.le]; congr 1; ring
  have h23 : (6 / (π * rhoSoot)) ^ twothird =
      (6 / (π * rhoSoot)) ^ onethird * (6 / (π * rhoSoot)) ^ onethird := by
    rw [← rpow_add (by positivity)]; norm_num [onethird, twothird]
  have hs : sqrt (π * kb * s.T * 0.5 / (m1 * m2 / (m1 + m2))) =
      sqrt (0.5 * π * kb * s.T) * sqrt (1 / m1 + 1 / m2) := by
    rw [← sqrt_mul' _ (by positivity)]; congr 1; field_simp; ring
  rw [hmFmVal, fmVal, Coag.kfmVal, hs, hd m1 h1, hd m2 h2, h23]; ring

theorem fmVal_pos {c : Coag} {s : State} (h : s.Phys) (hc : 0 < c.fmMult) {m1 m2 : ℝ} (h1 : 0 < m1)
    (h2 : 0 < m2) : 0 < fmVal c s m1 m2 := by
  have := Coag.kfmVal_pos h hc
  unfold fmVal; positivity

theorem contVal_pos {s : State} (h : s.Phys) {m1 m2 : ℝ} (h1 : 0 < m1)
    (h2 : 0 < m2) : 0 < contVal s m1 m2 := by
  have := kcVal_pos h; have := diam_pos h1; have := diam_pos h2; have := h.mfpVal_pos
  unfold contVal; positivity

theorem hmContVal_pos {s : State} (h : s.Phys) {m1 m2 : ℝ} (h1 : 0 < m1)
    (h2 : 0 < m2) : 0 < hmContVal s m1 m2 := by
  have := kb_pos; have := h.T; have := h.mu
  have := diam_pos h1; have := diam_pos h2; have := h.mfpVal_pos
  have a1 := cunningham_ge_one (Kn := 2 * s.mfpVal / diam m1) (by positivity)
  have a2 := cunningham_ge_one (Kn := 2 * s.mfpVal / diam m2) (by positivity)
  have a1 : 0 < cunningham (2 * s.mfpVal / diam m1) := by linarith
  have a2 : 0 < cunningham (2 * s.mfpVal / diam m2) := by linarith
  unfold hmContVal twothird; positivity

theorem rateFM_ok (c : Coag) {s : State} (h : s.Phys) (m1 m2 : ℝ) :
    rateFM c s m1 m2 = ok (fmVal c s m1 m2) := by
  rw [rateFM, c.kfm_ok h]; rfl

theorem rateCONT_ok (c : Coag) {s : State} (h : s.Phys) (m1 m2 : ℝ) :
    rateCONT c s m1 m2 = ok (contVal s m1 m2) := by
  simp only [rateCONT, h.mfp_ok, c.kc_ok h, ok_bind, contVal]

theorem rateHM_ok (c : Coag) {s : State} (h : s.Phys) {m1 m2 : ℝ} (h1 : 0 < m1) (h2 : 0 < m2)
    (hc : 0 ≤ c.fmMult) :
    rateHM c s m1 m2 = ok (fmVal c s m1 m2 * hmContVal s m1 m2 /
      (fmVal c s m1 m2 + hmContVal s m1 m2)) := by
  have hk := kb_pos; have hT := h.T
  have hsq : 0 ≤ π * kb * s.T * 0.5 / (m1 * m2 / (m1 + m2)) := by positivity
  have hf : 0 ≤ fmVal c s m1 m2 := by
    have := Coag.kfmVal_nonneg h hc
    unfold fmVal; positivity
  have hne : fmVal c s m1 m2 + hmContVal s m1 m2 ≠ 0 := by
    have := hmContVal_pos h h1 h2; positivity
  rw [← hmFmVal_eq c s h1 h2] at hne ⊢
  simp only [rateHM, csqrt_ok hsq, h.mfp_ok, cdiv_ok h.mu.ne', ok_bind]
  exact cdiv_ok hne

/-! Fuchs -/

noncomputable def fuchsD (s : State) (m : ℝ) : ℝ :=
  kb * s.T / (3 * π * s.muGas) * cunningham (2 * s.mfpVal / diam m) / diam m
noncomputable def fuchsC (s : State) (m : ℝ) : ℝ := sqrt (8 * kb * s.T / (π * m))
noncomputable def fuchsL (s : State) (m : ℝ) : ℝ := 8 * fuchsD s m / (π * fuchsC s m)
noncomputable def fuchsG (s : State) (m : ℝ) : ℝ :=
  root2 / (3 * diam m * fuchsL s m) * ((diam m + fuchsL s m) ^ 3 -
    (diam m * diam m + fuchsL s m * fuchsL s m) ^ (1.5 : ℝ)) - root2 * diam m
noncomputable def fuchsVal (c : Coag) (s : State) (m1 m2 : ℝ) : ℝ :=
  2 * π * (fuchsD s m1 + fuchsD s m2) * (diam m1 + diam m2) /
    ((diam m1 + diam m2) / (diam m1 + diam m2 +
        2 * sqrt (fuchsG s m1 * fuchsG s m1 + fuchsG s m2 * fuchsG s m2)) +
      8 / (epsC * c.fmMult) * (fuchsD s m1 + fuchsD s m2) /
        (sqrt (fuchsC s m1 * fuchsC s m1 + fuchsC s m2 * fuchsC s m2) * (diam m1 + diam m2)))

theorem fuchsD_pos {s : State} (h : s.Phys) {m : ℝ} (hm : 0 < m) : 0 < fuchsD s m := by
  have := kb_pos; have := h.T; have := h.mu
  have := diam_pos hm; have := h.mfpVal_pos
  have a1 := cunningham_ge_one (Kn := 2 * s.mfpVal / diam m) (by positivity)
  have a1 : 0 < cunningham (2 * s.mfpVal / diam m) := by linarith
  unfold fuchsD; positivity
theorem fuchsC_pos {s : State} (h : s.Phys) {m : ℝ} (hm : 0 < m) : 0 < fuchsC s m := by
  have := kb_pos; have := h.T
  unfold fuchsC; positivity
theorem fuchsL_pos {s : State} (h : s.Phys) {m : ℝ} (hm : 0 < m) : 0 < fuchsL s m := by
  have := fuchsD_pos h hm; have := fuchsC_pos h hm
  unfold fuchsL; positivity

theorem fuchsPart_ok {s : State} (h : s.Phys) {m : ℝ} (hm : 0 < m) :
    fuchsPart s m = ok ⟨diam m, fuchsD s m, fuchsC s m, fuchsG s m⟩ := by
  have hk := kb_pos; have hT := h.T; have hmu := h.mu
  have hc := fuchsC_pos h hm; have hl := fuchsL_pos h hm; have hd := diam_pos hm
  have e1 : (3 : ℝ) * π * s.muGas ≠ 0 := by positivity
  have e2 : 0 ≤ 8 * kb * s.T / (π * m) := by positivity
  have e3 : π * sqrt (8 * kb * s.T / (π * m)) ≠ 0 := by
    have : 0 < sqrt (8 * kb * s.T / (π * m)) := hc
    positivity
  have e4 : 3 * diam m * fuchsL s m ≠ 0 := by positivity
  simp only [fuchsPart, h.mfp_ok, cdiv_ok e1, csqrt_ok e2, ok_bind, cdiv_ok e3]
  change (cdiv root2 (3 * diam m * fuchsL s m) >>= _) = _
  rw [cdiv_ok e4]; rfl

theorem fuchsVal_den_pos {c : Coag} {s : State} (h : s.Phys) {m1 m2 : ℝ} (h1 : 0 < m1) (h2 : 0 < m2)
    (hc : 0 < c.fmMult) :
    0 < (diam m1 + diam m2) / (diam m1 + diam m2 +
        2 * sqrt (fuchsG s m1 * fuchsG s m1 + fuchsG s m2 * fuchsG s m2)) +
      8 / (epsC * c.fmMult) * (fuchsD s m1 + fuchsD s m2) /
        (sqrt (fuchsC s m1 * fuchsC s m1 + fuchsC s m2 * fuchsC s m2) * (diam m1 + diam m2)) := by
  have := fuchsD_pos h h1; have := fuchsD_pos h h2; have := fuchsC_pos h h1
  have := fuchsC_pos h h2; have := diam_pos h1; have := diam_pos h2; have := epsC_pos
  positivity

theorem rateFUCHS_ok {c : Coag} {s : State} (h : s.Phys) {m1 m2 : ℝ} (h1 : 0 < m1) (h2 : 0 < m2)
    (hc : 0 < c.fmMult) : rateFUCHS c s m1 m2 = ok (fuchsVal c s m1 m2) := by
  have := fuchsD_pos h h1; have := fuchsD_pos h h2; have c1 := fuchsC_pos h h1
  have c2 := fuchsC_pos h h2; have := diam_pos h1; have := diam_pos h2; have := epsC_pos
  have e1 : epsC * c.fmMult ≠ 0 := by positivity
  have e2 : sqrt (fuchsC s m1 * fuchsC s m1 + fuchsC s m2 * fuchsC s m2) * (diam m1 + diam m2) ≠ 0 := by
    positivity
  simp only [rateFUCHS, fuchsPart_ok h h1, fuchsPart_ok h h2, ok_bind, fuchsComb, cdiv_ok e1, cdiv_ok e2]
  exact cdiv_ok (fuchsVal_den_pos h h1 h2 hc).ne'

theorem fuchsVal_pos {c : Coag} {s : State} (h : s.Phys) {m1 m2 : ℝ} (h1 : 0 < m1) (h2 : 0 < m2)
    (hc : 0 < c.fmMult) : 0 < fuchsVal c s m1 m2 := by
  have := fuchsD_pos h h1; have := fuchsD_pos h h2; have := diam_pos h1; have := diam_pos h2
  exact div_pos (by positivity) (fuchsVal_den_pos h h1 h2 hc)

/-! ### The kernel as a number -/

/-- Kernel value on physical states. -/
noncomputable def Coag.val (c : Coag) (s : State) (m1 m2 : ℝ) : ℝ :=
  if m1 ≤ mmin ∨ m2 ≤ mmin then 0 else
  match c.mech with
  | .NONE => 0
  | .FM => fmVal c s m1 m2
  | .CONTINUUM => contVal s m1 m2
  | .HM => fmVal c s m1 m2 * hmContVal s m1 m2 / (fmVal c s m1 m2 + hmContVal s m1 m2)
  | .FUCHS => fuchsVal c s m1 m2

theorem Coag.rate_ok {c : Coag} {s : State} (h : s.Phys) (hc : 0 < c.fmMult) (m1 m2 : ℝ) :
    c.rate s m1 m2 = ok (c.val s m1 m2) := by
  unfold Coag.rate Coag.val
  by_cases hm : m1 ≤ mmin ∨ m2 ≤ mmin
  · simp [hm]
  · simp only [hm, if_false]
    push Not at hm
    have h1 := mmin_pos.trans hm.1
    have h2 := mmin_pos.trans hm.2
    rcases hx : c.mech <;> simp only [reduceCtorEq, if_false, if_true]
    · exact rateFM_ok c h m1 m2
    · exact rateCONT_ok c h m1 m2
    · exact rateHM_ok c h h1 h2 hc.le
    · exact rateFUCHS_ok h h1 h2 hc

theorem Coag.val_nonneg {c : Coag} {s : State} (h : s.Phys) (hc : 0 < c.fmMult) (m1 m2 : ℝ) :
    0 ≤ c.val s m1 m2 := by
  unfold Coag.val
  split_ifs with hm
  · exact le_rfl
  · push Not at hm
    have h1 := mmin_pos.trans hm.1
    have h2 := mmin_pos.trans hm.2
    rcases hx : c.mech <;> simp only
    · exact le_rfl
    · exact (fmVal_pos h hc h1 h2).le
    · exact (contVal_pos h h1 h2).le
    · have := fmVal_pos h hc h1 h2; have := hmContVal_pos h h1 h2; positivity
    · exact (fuchsVal_pos h h1 h2 hc).le

theorem Coag.val_comm (c : Coag) (s : State) (m1 m2 : ℝ) : c.val s m1 m2 = c.val s m2 m1 := by
  have hf : fmVal c s m1 m2 = fmVal c s m2 m1 := by unfold fmVal; rw [add_comm (1 / m1)]; ring
  have hh : hmContVal s m1 m2 = hmContVal s m2 m1 := by unfold hmContVal; ring
  have hk : contVal s m1 m2 = contVal s m2 m1 := by unfold contVal; ring
  have hu : fuchsVal c s m1 m2 = fuchsVal c s m2 m1 := by
    unfold fuchsVal
    rw [add_comm (fuchsD s m1), add_comm (diam m1), add_comm (fuchsG s m1 * _),
      add_comm (fuchsC s m1 * _)]
  unfold Coag.val
  by_cases hm : m1 ≤ mmin ∨ m2 ≤ mmin
  · rw [if_pos hm, if_pos hm.symm]
  · rw [if_neg hm, if_neg (fun h => hm h.symm), hf, hh, hk, hu]

end Soot
