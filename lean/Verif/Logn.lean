import Verif.Inv

/-!
# Lognormal model (`/repo/src/sootModel_LOGN.cc`)
-/

namespace Soot

open Res Real
open scoped Classical

/-- sootModel_LOGN.cc:338-351.  Soot variables are non-negative after `setState`, so the integral-exponent
convention of `pow` for negative bases plays no role; `cpow` reports such a call as not finite. -/
noncomputable def lognMr (r M0 M1 M2 : ℝ) : Res ℝ :=
  if M0 ≤ 0 then ok 0 else
  if (M0 ≤ 0 ∧ 1 + 0.5 * r * (r - 3) ≤ 0) ∨ (M1 ≤ 0 ∧ r * (2 - r) ≤ 0) ∨ (M2 ≤ 0 ∧ 0.5 * r * (r - 1) ≤ 0) then
    ok 0
  else do
    let p0 ← cpow M0 (1 + 0.5 * r * (r - 3))
    let p1 ← cpow M1 (r * (2 - r))
    let p2 ← cpow M2 (0.5 * r * (r - 1))
    ok (p0 * p1 * p2)

/-- sootModel_LOGN.cc:104-134 (in `pahSootCollisionRatePerDimer`) and, with the same text, 201-229 (in
`setSourceTerms`): free-molecular and continuum collision rate of a dimer with the soot. -/
noncomputable def lognI1 (c : Coag) (s : State) (M0 M1 M2 mD : ℝ) : Res (ℝ × ℝ) := do
  let M26 ← lognMr (2 / 6) M0 M1 M2
  let M46 ← lognMr (4 / 6) M0 M1 M2
  let Mn36 ← lognMr (-3 / 6) M0 M1 M2
  let Mn16 ← lognMr (-1 / 6) M0 M1 M2
  let Mn26 ← lognMr (-2 / 6) M0 M1 M2
  let Mn46 ← lognMr (-4 / 6) M0 M1 M2
  let M16 ← lognMr (1 / 6) M0 M1 M2
  let mD16 ← cpow mD (1 / 6)
  let mDn16 ← cpow mD (-1 / 6)
  let mDn36 ← cpow mD (-0.5)
  let mD26 ← cpow mD onethird
  let mDn26 ← cpow mD (-onethird)
  let mD46 ← cpow mD twothird
  let mDn46 ← cpow mD (-twothird)
  let Kfm ← c.kfm s
  let Ifm1 := Kfm * bCoag * (M0 * mD16 + 2 * M26 * mDn16 + M46 * mDn36 + 2 * Mn16 * mD26 + Mn36 * mD46 + M16)
  let Kc ← c.kc s
  let Kcp ← c.kcp s
  let Ic1 := Kc * (2 * M0 + Mn26 * mD26 + M26 * mDn26 + Kcp * (M0 * mDn26 + Mn26 + M26 * mDn46 + Mn46 * mD26))
  ok (Ifm1, Ic1)

/-- sootModel_LOGN.cc:219-221 and 232-233: the same for the second moment. -/
noncomputable def lognI2 (c : Coag) (s : State) (M0 M1 M2 mD : ℝ) : Res (ℝ × ℝ) := do
  let M86 ← lognMr (8 / 6) M0 M1 M2
  let M106 ← lognMr (10 / 6) M0 M1 M2
  let M56 ← lognMr (5 / 6) M0 M1 M2
  let M36 ← lognMr (3 / 6) M0 M1 M2
  let M76 ← lognMr (7 / 6) M0 M1 M2
  let M46 ← lognMr (4 / 6) M0 M1 M2
  let M26 ← lognMr (2 / 6) M0 M1 M2
  let mD16 ← cpow mD (1 / 6)
  let mDn16 ← cpow mD (-1 / 6)
  let mDn36 ← cpow mD (-0.5)
  let mD26 ← cpow mD onethird
  let mDn26 ← cpow mD (-onethird)
  let mD46 ← cpow mD twothird
  let mDn46 ← cpow mD (-twothird)
  let Kfm ← c.kfm s
  let Ifm2 := 2 * Kfm * bCoag * (M1 * mD16 + 2 * M86 * mDn16 + M106 * mDn36 + 2 * M56 * mD26 + M36 * mD46 + M76)
  let Kc ← c.kc s
  let Kcp ← c.kcp s
  let Ic2 := 2 * Kc * (2 * M1 + M46 * mD26 + M86 * mDn26 + Kcp * (M1 * mDn26 + M46 + M86 * mDn46 + M26 * mD26))
  ok (Ifm2, Ic2)

/-- sootModel_LOGN.cc:93-139 -/
noncomputable def lognIbeta (m : Model) (s : State) (mD : ℝ) : Res ℝ :=
  if m.nucl.mech ≠ .PAH then ok 0 else do
    let M0 ← idx s.sootVar 0
    let M1 ← idx s.sootVar 1
    let M2 ← idx s.sootVar 2
    let (Ifm1, Ic1) ← lognI1 m.coag s M0 M1 M2 mD
    cdiv (Ifm1 * Ic1) (Ifm1 + Ic1)

/-- sootModel_LOGN.cc:268-273 -/
noncomputable def lognCoagFM (c : Coag) (s : State) (M0 M1 M2 : ℝ) : Res (ℝ × ℝ) := do
  let M26 ← lognMr (2 / 6) M0 M1 M2
  let M46 ← lognMr (4 / 6) M0 M1 M2
  let Mn36 ← lognMr (-3 / 6) M0 M1 M2
  let Mn16 ← lognMr (-1 / 6) M0 M1 M2
  let M86 ← lognMr (8 / 6) M0 M1 M2
  let M106 ← lognMr (10 / 6) M0 M1 M2
  let M36 ← lognMr (3 / 6) M0 M1 M2
  let M56 ← lognMr (5 / 6) M0 M1 M2
  let M76 ← lognMr (7 / 6) M0 M1 M2
  let M16 ← lognMr (1 / 6) M0 M1 M2
  let Kfm ← c.kfm s
  ok (-Kfm * bCoag * (M0 * M16 + 2 * M26 * Mn16 + M46 * Mn36),
    2 * Kfm * bCoag * (M1 * M76 + 2 * M86 * M56 + M106 * M36))

/-- sootModel_LOGN.cc:275-281 -/
noncomputable def lognCoagC (c : Coag) (s : State) (M0 M1 M2 : ℝ) : Res (ℝ × ℝ) := do
  let M26 ← lognMr (2 / 6) M0 M1 M2
  let M46 ← lognMr (4 / 6) M0 M1 M2
  let Mn26 ← lognMr (-2 / 6) M0 M1 M2
  let Mn46 ← lognMr (-4 / 6) M0 M1 M2
  let M86 ← lognMr (8 / 6) M0 M1 M2
  let Kc ← c.kc s
  let Kcp ← c.kcp s
  ok (-Kc * (M0 * M0 + M26 * Mn26 + Kcp * (M0 * Mn26 + M26 * Mn46)),
    2 * Kc * (M1 * M1 + M46 * M86 + Kcp * (M1 * M46 + M26 * M86)))

/-- sootModel_LOGN.cc:262-297: `(C0, C2)`.  For FUCHS (which the constructors refuse) the `else` branch would
read uninitialised variables. -/
noncomputable def lognCoag (c : Coag) (s : State) (M0 M1 M2 : ℝ) : Res (ℝ × ℝ) :=
  match c.mech with
  | .NONE => ok (0, 0)
  | .FM => lognCoagFM c s M0 M1 M2
  | .CONTINUUM => lognCoagC c s M0 M1 M2
  | .HM => do
    let (C0fm, C2fm) ← lognCoagFM c s M0 M1 M2
    let (C0c, C2c) ← lognCoagC c s M0 M1 M2
    let C0 ← (if C0fm > 0 ∨ C0c > 0 then cdiv (C0fm * C0c) (C0fm + C0c) else ok 0)
    let C2 ← (if C2fm > 0 ∨ C2c > 0 then cdiv (C2fm * C2c) (C2fm + C2c) else ok 0)
    ok (C0, C2)
  | .FUCHS => ub

/-- Terms of one LOGN evaluation (`k` is the moment order). -/
structure LognTerms where
  N : ℕ → ℝ
  Cnd1 : ℝ
  Cnd2 : ℝ
  G1 : ℝ
  G2 : ℝ
  X1 : ℝ
  X2 : ℝ
  C0 : ℝ
  C2 : ℝ
  nucl : Nucl
  st : State

/-- sootModel_LOGN.cc:161-297.  The twelve fractional moments (169-180) are evaluated before the nucleation
call; they are re-evaluated where used, which is the same since `Mr` is a pure function of the moments. -/
noncomputable def lognTerms (m : Model) (s : State) : Res LognTerms := do
  let M0 ← idx s.sootVar 0
  let M1 ← idx s.sootVar 1
  let M2 ← idx s.sootVar 2
  let M46 ← lognMr (4 / 6) M0 M1 M2
  let M106 ← lognMr (10 / 6) M0 M1 M2
  let (J, n, s) ← m.nucl.rate (lognIbeta m) s
  let mMin := s.cMin * gasMW .C / Na
  let N : ℕ → ℝ := fun k => if n.mech ≠ .NONE then J * mMin ^ k else 0
  let (Cnd1, Cnd2) ← (if n.mech = .PAH then do
      let mD := n.dimer.mDimer
      let nD := n.dimer.nDimer
      let (Ifm1, Ic1) ← lognI1 m.coag s M0 M1 M2 mD
      let (Ifm2, Ic2) ← lognI2 m.coag s M0 M1 M2 mD
      let q1 ← cdiv (mD * nD * (Ifm1 * Ic1)) (Ifm1 + Ic1)
      let q2 ← cdiv (mD * nD * (Ifm2 * Ic2)) (Ifm2 + Ic2)
      ok (q1, q2)
    else ok (0, 0) : Res (ℝ × ℝ))
  let (G1, G2) ← (if m.grow.mech ≠ .NONE then do
      let K ← m.grow.rate m.ctx s
      ok (K * π * (6 / (π * rhoSoot)) ^ twothird * M46, K * π * (6 / (π * rhoSoot)) ^ twothird * M106 * 2)
    else ok (0, 0) : Res (ℝ × ℝ))
  let (X1, X2) ← (if m.oxid.mechType ≠ .NONE then do
      let K ← m.oxid.rate m.ctx s
      ok (-K * π * (6 / (π * rhoSoot)) ^ twothird * M46, -K * π * (6 / (π * rhoSoot)) ^ twothird * M106 * 2)
    else ok (0, 0) : Res (ℝ × ℝ))
  let (C0, C2) ← lognCoag m.coag s M0 M1 M2
  ok ⟨N, Cnd1, Cnd2, G1, G2, X1, X2, C0, C2, n, s⟩

/-- sootModel_LOGN.cc:153-325 -/
noncomputable def lognSources (m : Model) (s : State) : Res (Model × State) := do
  let t ← lognTerms m s
  let v ← setIdx m.sources.soot 0 (t.N 0 + 0 + 0 - 0 + t.C0)
  let v ← setIdx v 1 (t.N 1 + t.G1 + t.Cnd1 + t.X1 + 0)
  let v ← setIdx v 2 (t.N 2 + t.G2 + t.Cnd2 + t.X2 + t.C2)
  let m' ← m.finish t.nucl v m.sources.tar (t.N 1) t.G1 t.X1
  ok (m', t.st)

/-! ## Values on non-negative moments -/

/-- The fractional moment formula on non-negative moments. -/
noncomputable def lognMrVal (r M0 M1 M2 : ℝ) : ℝ :=
  if M0 ≤ 0 ∨ (M1 ≤ 0 ∧ r * (2 - r) ≤ 0) ∨ (M2 ≤ 0 ∧ 0.5 * r * (r - 1) ≤ 0) then 0
  else M0 ^ (1 + 0.5 * r * (r - 3)) * M1 ^ (r * (2 - r)) * M2 ^ (0.5 * r * (r - 1))

theorem lognMr_ok {M1 M2 : ℝ} (h1 : 0 ≤ M1) (h2 : 0 ≤ M2) (r M0 : ℝ) :
    lognMr r M0 M1 M2 = ok (lognMrVal r M0 M1 M2) := by
  unfold lognMr lognMrVal
  by_cases h0 : M0 ≤ 0
  · simp [h0]
  · simp only [h0, if_false, false_and, false_or]
    by_cases hb : (M1 ≤ 0 ∧ r * (2 - r) ≤ 0) ∨ (M2 ≤ 0 ∧ 0.5 * r * (r - 1) ≤ 0)
    · simp only [if_pos hb]
    · simp only [if_neg hb]
      push Not at hb
      have key : ∀ x p : ℝ, 0 ≤ x → (x ≤ 0 → 0 < p) → cpow x p = ok (x ^ p) := by
        intro x p hx hp
        rcases hx.eq_or_lt with rfl | hx
        · exact cpow_ok' le_rfl (hp le_rfl).le
        · exact cpow_ok hx
      rw [cpow_ok (not_le.mp h0), ok_bind, key _ _ h1 hb.1, ok_bind, key _ _ h2 hb.2, ok_bind]

theorem lognMrVal_nonneg {M1 M2 : ℝ} (h1 : 0 ≤ M1) (h2 : 0 ≤ M2) (r M0 : ℝ) : 0 ≤ lognMrVal r M0 M1 M2 := by
  unfold lognMrVal
  split_ifs with h
  · exact le_rfl
  · push Not at h
    have := h.1
    positivity

theorem lognMrVal_zero {M0 : ℝ} (h : M0 ≤ 0) (r M1 M2 : ℝ) : lognMrVal r M0 M1 M2 = 0 := by
  simp [lognMrVal, h]

theorem lognMrVal_pos {M0 M1 M2 : ℝ} (h0 : 0 < M0) (h1 : 0 < M1) (h2 : 0 < M2) (r : ℝ) :
    lognMrVal r M0 M1 M2 = M0 ^ (1 + 0.5 * r * (r - 3)) * M1 ^ (r * (2 - r)) * M2 ^ (0.5 * r * (r - 1)) := by
  simp [lognMrVal, not_le.mpr h0, not_le.mpr h1, not_le.mpr h2]

noncomputable def lognFm1 (c : Coag) (s : State) (M : ℝ → ℝ) (mD : ℝ) : ℝ :=
  c.kfmVal s * bCoag * (M 0 * mD ^ ((1 : ℝ) / 6) + 2 * M (2 / 6) * mD ^ ((-1 : ℝ) / 6) + M (4 / 6) * mD ^ (-0.5 : ℝ) +
    2 * M (-1 / 6) * mD ^ onethird + M (-3 / 6) * mD ^ twothird + M (1 / 6))
noncomputable def lognC1 (s : State) (M : ℝ → ℝ) (mD : ℝ) : ℝ :=
  kcVal s * (2 * M 0 + M (-2 / 6) * mD ^ onethird + M (2 / 6) * mD ^ (-onethird) +
    kcpVal s * (M 0 * mD ^ (-onethird) + M (-2 / 6) + M (2 / 6) * mD ^ (-twothird) + M (-4 / 6) * mD ^ onethird))
noncomputable def lognFm2 (c : Coag) (s : State) (M : ℝ → ℝ) (mD : ℝ) : ℝ :=
  2 * c.kfmVal s * bCoag * (M 1 * mD ^ ((1 : ℝ) / 6) + 2 * M (8 / 6) * mD ^ ((-1 : ℝ) / 6) + M (10 / 6) * mD ^ (-0.5 : ℝ) +
    2 * M (5 / 6) * mD ^ onethird + M (3 / 6) * mD ^ twothird + M (7 / 6))
noncomputable def lognC2 (s : State) (M : ℝ → ℝ) (mD : ℝ) : ℝ :=
  2 * kcVal s * (2 * M 1 + M (4 / 6) * mD ^ onethird + M (8 / 6) * mD ^ (-onethird) +
    kcpVal s * (M 1 * mD ^ (-onethird) + M (4 / 6) + M (8 / 6) * mD ^ (-twothird) + M (2 / 6) * mD ^ onethird))
noncomputable def lognCoa0Fm (c : Coag) (s : State) (M : ℝ → ℝ) : ℝ :=
  c.kfmVal s * bCoag * (M 0 * M (1 / 6) + 2 * M (2 / 6) * M (-1 / 6) + M (4 / 6) * M (-3 / 6))
noncomputable def lognCoa2Fm (c : Coag) (s : State) (M : ℝ → ℝ) : ℝ :=
  2 * c.kfmVal s * bCoag * (M 1 * M (7 / 6) + 2 * M (8 / 6) * M (5 / 6) + M (10 / 6) * M (3 / 6))
noncomputable def lognCoa0C (s : State) (M : ℝ → ℝ) : ℝ :=
  kcVal s * (M 0 * M 0 + M (2 / 6) * M (-2 / 6) + kcpVal s * (M 0 * M (-2 / 6) + M (2 / 6) * M (-4 / 6)))
noncomputable def lognCoa2C (s : State) (M : ℝ → ℝ) : ℝ :=
  2 * kcVal s * (M 1 * M 1 + M (4 / 6) * M (8 / 6) + kcpVal s * (M 1 * M (4 / 6) + M (2 / 6) * M (8 / 6)))

/-- The moments LOGN works with: the transported ones and the fractional formula. -/
noncomputable def lognM (M0 M1 M2 : ℝ) (r : ℝ) : ℝ :=
  if r = 0 then M0 else if r = 1 then M1 else lognMrVal r M0 M1 M2

theorem lognM_zero (M0 M1 M2 : ℝ) : lognM M0 M1 M2 0 = M0 := by simp [lognM]
theorem lognM_one (M0 M1 M2 : ℝ) : lognM M0 M1 M2 1 = M1 := by simp [lognM]
theorem lognM_frac (M0 M1 M2 : ℝ) {r : ℝ} (h0 : r ≠ 0) (h1 : r ≠ 1) : lognM M0 M1 M2 r = lognMrVal r M0 M1 M2 := by
  simp [lognM, h0, h1]

theorem lognM_nonneg {M0 M1 M2 : ℝ} (h0 : 0 ≤ M0) (h1 : 0 ≤ M1) (h2 : 0 ≤ M2) (r : ℝ) : 0 ≤ lognM M0 M1 M2 r := by
  unfold lognM; split_ifs
  · exact h0
  · exact h1
  · exact lognMrVal_nonneg h1 h2 r M0

section
variable {c : Coag} {s : State} {M0 M1 M2 : ℝ}

theorem lognI1_ok (hp : s.Phys) (h1 : 0 ≤ M1) (h2 : 0 ≤ M2) {mD : ℝ} (hD : 0 < mD) :
    lognI1 c s M0 M1 M2 mD = ok (lognFm1 c s (lognM M0 M1 M2) mD, lognC1 s (lognM M0 M1 M2) mD) := by
  simp only [lognI1, lognMr_ok h1 h2, cpow_ok hD, Coag.kfm_ok c hp, Coag.kc_ok c hp, Coag.kcp_ok c hp, ok_bind]
  simp only [lognFm1, lognC1, lognM_zero]
  rw [lognM_frac _ _ _ (r := 2 / 6) (by norm_num) (by norm_num), lognM_frac _ _ _ (r := 4 / 6) (by norm_num) (by norm_num),
    lognM_frac _ _ _ (r := -1 / 6) (by norm_num) (by norm_num), lognM_frac _ _ _ (r := -3 / 6) (by norm_num) (by norm_num),
    lognM_frac _ _ _ (r := 1 / 6) (by norm_num) (by norm_num), lognM_frac _ _ _ (r := -2 / 6) (by norm_num) (by norm_num),
    lognM_frac _ _ _ (r := -4 / 6) (by norm_num) (by norm_num)]

theorem lognI2_ok (hp : s.Phys) (h1 : 0 ≤ M1) (h2 : 0 ≤ M2) {mD : ℝ} (hD : 0 < mD) :
    lognI2 c s M0 M1 M2 mD = ok (lognFm2 c s (lognM M0 M1 M2) mD, lognC2 s (lognM M0 M1 M2) mD) := by
  simp only [lognI2, lognMr_ok h1 h2, cpow_ok hD, Coag.kfm_ok c hp, Coag.kc_ok c hp, Coag.kcp_ok c hp, ok_bind]
  simp only [lognFm2, lognC2, lognM_one]
  rw [lognM_frac _ _ _ (r := 2 / 6) (by norm_num) (by norm_num), lognM_frac _ _ _ (r := 4 / 6) (by norm_num) (by norm_num),
    lognM_frac _ _ _ (r := 8 / 6) (by norm_num) (by norm_num), lognM_frac _ _ _ (r := 10 / 6) (by norm_num) (by norm_num),
    lognM_frac _ _ _ (r := 5 / 6) (by norm_num) (by norm_num), lognM_frac _ _ _ (r := 3 / 6) (by norm_num) (by norm_num),
    lognM_frac _ _ _ (r := 7 / 6) (by norm_num) (by norm_num)]

theorem lognCoagFM_ok (hp : s.Phys) (h1 : 0 ≤ M1) (h2 : 0 ≤ M2) :
    lognCoagFM c s M0 M1 M2 = ok (-lognCoa0Fm c s (lognM M0 M1 M2), lognCoa2Fm c s (lognM M0 M1 M2)) := by
  simp only [lognCoagFM, lognMr_ok h1 h2, Coag.kfm_ok c hp, ok_bind]
  simp only [lognCoa0Fm, lognCoa2Fm, lognM_one, lognM_zero]
  rw [lognM_frac _ _ _ (r := 2 / 6) (by norm_num) (by norm_num), lognM_frac _ _ _ (r := 4 / 6) (by norm_num) (by norm_num),
    lognM_frac _ _ _ (r := 8 / 6) (by norm_num) (by norm_num), lognM_frac _ _ _ (r := 10 / 6) (by norm_num) (by norm_num),
    lognM_frac _ _ _ (r := 5 / 6) (by norm_num) (by norm_num), lognM_frac _ _ _ (r := 3 / 6) (by norm_num) (by norm_num),
    lognM_frac _ _ _ (r := 7 / 6) (by norm_num) (by norm_num), lognM_frac _ _ _ (r := 1 / 6) (by norm_num) (by norm_num),
    lognM_frac _ _ _ (r := -1 / 6) (by norm_num) (by norm_num), lognM_frac _ _ _ (r := -3 / 6) (by norm_num) (by norm_num)]
  congr 2; ring

theorem lognCoagC_ok (hp : s.Phys) (h1 : 0 ≤ M1) (h2 : 0 ≤ M2) :
    lognCoagC c s M0 M1 M2 = ok (-lognCoa0C s (lognM M0 M1 M2), lognCoa2C s (lognM M0 M1 M2)) := by
  simp only [lognCoagC, lognMr_ok h1 h2, Coag.kc_ok c hp, Coag.kcp_ok c hp, ok_bind]
  simp only [lognCoa0C, lognCoa2C, lognM_one, lognM_zero]
  rw [lognM_frac _ _ _ (r := 2 / 6) (by norm_num) (by norm_num), lognM_frac _ _ _ (r := 4 / 6) (by norm_num) (by norm_num),
    lognM_frac _ _ _ (r := 8 / 6) (by norm_num) (by norm_num), lognM_frac _ _ _ (r := -2 / 6) (by norm_num) (by norm_num),
    lognM_frac _ _ _ (r := -4 / 6) (by norm_num) (by norm_num)]
  congr 2; ring

variable {M : ℝ → ℝ} (hM : ∀ r, 0 ≤ M r)
include hM

theorem lognFm1_nonneg (hp : s.Phys) (hc : 0 < c.fmMult) {mD : ℝ} (hD : 0 < mD) : 0 ≤ lognFm1 c s M mD := by
  have := c.kfmVal_pos hp hc; have := bCoag_pos
  have := hM 0; have := hM (2/6); have := hM (4/6); have := hM (-1/6); have := hM (-3/6); have := hM (1/6)
  unfold lognFm1; positivity
theorem lognC1_ge (hp : s.Phys) {mD : ℝ} (hD : 0 < mD) : 2 * kcVal s * M 0 ≤ lognC1 s M mD := by
  have h1 := kcVal_pos hp; have := kcpVal_pos hp
  have := hM 0; have := hM (2/6); have := hM (-2/6); have := hM (-4/6)
  have : 0 ≤ M (-2 / 6) * mD ^ onethird + M (2 / 6) * mD ^ (-onethird) +
    kcpVal s * (M 0 * mD ^ (-onethird) + M (-2 / 6) + M (2 / 6) * mD ^ (-twothird) + M (-4 / 6) * mD ^ onethird) := by
    positivity
  have := mul_nonneg h1.le this
  unfold lognC1; linarith
theorem lognFm2_nonneg (hp : s.Phys) (hc : 0 < c.fmMult) {mD : ℝ} (hD : 0 < mD) : 0 ≤ lognFm2 c s M mD := by
  have := c.kfmVal_pos hp hc; have := bCoag_pos
  have := hM 1; have := hM (8/6); have := hM (10/6); have := hM (5/6); have := hM (3/6); have := hM (7/6)
  unfold lognFm2; positivity
theorem lognC2_ge (hp : s.Phys) {mD : ℝ} (hD : 0 < mD) : 4 * kcVal s * M 1 ≤ lognC2 s M mD := by
  have h1 := kcVal_pos hp; have := kcpVal_pos hp
  have := hM 1; have := hM (2/6); have := hM (4/6); have := hM (8/6)
  have : 0 ≤ M (4 / 6) * mD ^ onethird + M (8 / 6) * mD ^ (-onethird) +
    kcpVal s * (M 1 * mD ^ (-onethird) + M (4 / 6) + M (8 / 6) * mD ^ (-twothird) + M (2 / 6) * mD ^ onethird) := by
    positivity
  have := mul_nonneg h1.le this
  unfold lognC2; linarith
theorem lognCoa0Fm_nonneg (hp : s.Phys) (hc : 0 < c.fmMult) : 0 ≤ lognCoa0Fm c s M := by
  have := c.kfmVal_pos hp hc; have := bCoag_pos
  have := hM 0; have := hM (2/6); have := hM (4/6); have := hM (-1/6); have := hM (-3/6); have := hM (1/6)
  unfold lognCoa0Fm; positivity
theorem lognCoa2Fm_nonneg (hp : s.Phys) (hc : 0 < c.fmMult) : 0 ≤ lognCoa2Fm c s M := by
  have := c.kfmVal_pos hp hc; have := bCoag_pos
  have := hM 1; have := hM (8/6); have := hM (10/6); have := hM (5/6); have := hM (3/6); have := hM (7/6)
  unfold lognCoa2Fm; positivity
theorem lognCoa0C_ge (hp : s.Phys) : kcVal s * (M 0 * M 0) ≤ lognCoa0C s M := by
  have h1 := kcVal_pos hp; have := kcpVal_pos hp
  have := hM 0; have := hM (2/6); have := hM (-2/6); have := hM (-4/6)
  have : 0 ≤ M (2 / 6) * M (-2 / 6) + kcpVal s * (M 0 * M (-2 / 6) + M (2 / 6) * M (-4 / 6)) := by positivity
  have := mul_nonneg h1.le this
  unfold lognCoa0C; linarith
theorem lognCoa2C_nonneg (hp : s.Phys) : 0 ≤ lognCoa2C s M := by
  have h1 := kcVal_pos hp; have := kcpVal_pos hp
  have := hM 1; have := hM (2/6); have := hM (4/6); have := hM (8/6)
  unfold lognCoa2C; positivity
end

/-- Values of the two coagulation terms. -/
noncomputable def lognCoagVal (c : Coag) (s : State) (M : ℝ → ℝ) : ℝ × ℝ :=
  match c.mech with
  | .FM => (-lognCoa0Fm c s M, lognCoa2Fm c s M)
  | .CONTINUUM => (-lognCoa0C s M, lognCoa2C s M)
  | .HM => (0, lognCoa2Fm c s M * lognCoa2C s M / (lognCoa2Fm c s M + lognCoa2C s M))
  | _ => (0, 0)

theorem lognCoag_ok {c : Coag} {s : State} {M0 M1 M2 : ℝ} (hp : s.Phys) (hc : 0 < c.fmMult) (hk : c.mech ≠ .FUCHS)
    (h0 : 0 ≤ M0) (h1 : 0 ≤ M1) (h2 : 0 ≤ M2) :
    lognCoag c s M0 M1 M2 = ok (lognCoagVal c s (lognM M0 M1 M2)) := by
  have hM := lognM_nonneg h0 h1 h2
  unfold lognCoag lognCoagVal
  rcases hm : c.mech <;> simp only [lognCoagFM_ok hp h1 h2, lognCoagC_ok hp h1 h2, ok_bind]
  · have a1 : ¬ (-lognCoa0Fm c s (lognM M0 M1 M2) > 0 ∨ -lognCoa0C s (lognM M0 M1 M2) > 0) := by
      have := lognCoa0Fm_nonneg hM hp hc
      have := lognCoa0C_ge hM hp
      have : 0 ≤ kcVal s * (lognM M0 M1 M2 0 * lognM M0 M1 M2 0) :=
        mul_nonneg (kcVal_pos hp).le (mul_self_nonneg _)
      push Not; constructor <;> linarith
    have b1 := lognCoa2Fm_nonneg hM hp hc
    have b2 := lognCoa2C_nonneg hM hp
    rw [if_neg a1, ok_bind]
    split_ifs with h
    · rw [cdiv_ok (by rcases h with h | h <;> linarith), ok_bind]
    · push Not at h
      have e1 : lognCoa2Fm c s (lognM M0 M1 M2) = 0 := le_antisymm h.1 b1
      rw [e1]; simp
  · exact absurd hm hk

theorem lognCoagVal_sign {c : Coag} {s : State} (hp : s.Phys) (hc : 0 < c.fmMult) {M : ℝ → ℝ} (hM : ∀ r, 0 ≤ M r) :
    (lognCoagVal c s M).1 ≤ 0 ∧ 0 ≤ (lognCoagVal c s M).2 := by
  have a1 := lognCoa0Fm_nonneg hM hp hc
  have a2 := lognCoa2Fm_nonneg hM hp hc
  have a3 := lognCoa0C_ge hM hp
  have : 0 ≤ kcVal s * (M 0 * M 0) := mul_nonneg (kcVal_pos hp).le (mul_self_nonneg _)
  have a4 := lognCoa2C_nonneg hM hp
  unfold lognCoagVal
  cases c.mech <;> refine ⟨?_, ?_⟩ <;> simp only <;> first | positivity | linarith

end Soot
