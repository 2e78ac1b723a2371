import Verif.Defs

/-!
# `state` (`/repo/src/state.h`, `/repo/src/state.cc`)
-/

namespace Soot

open Res
open scoped Classical

/-- state.h:23-45.  `nsoot`, `Ntar` are `int` in the source. -/
structure State where
  T : ℝ
  P : ℝ
  rhoGas : ℝ
  MWGas : ℝ
  muGas : ℝ
  yGas : List ℝ
  yPah : List ℝ
  nsoot : ℤ
  sootVar : List ℝ
  absc : List ℝ
  wts : List ℝ
  sootScales : List ℝ
  cMin : ℝ
  Ntar : ℤ
  tarVar : List ℝ
  yBio : List ℝ
  mtar : ℝ
  ytar : ℝ
  OC : ℝ
  HC : ℝ
  V : ℝ

/-- state.h:94-103 (constructor) with the member initialisers of state.h:23-45. -/
noncomputable def State.mk' (nsoot Ntar : ℕ) : State where
  T := 0
  P := 0
  rhoGas := 0
  MWGas := 0
  muGas := 0
  yGas := List.replicate nGas 0
  yPah := List.replicate nPah 0
  nsoot := nsoot
  sootVar := List.replicate nsoot 0
  absc := List.replicate (nsoot / 2) 0
  wts := List.replicate (nsoot / 2) 0
  sootScales := List.replicate nsoot 1
  cMin := 100
  Ntar := Ntar
  tarVar := List.replicate Ntar 0
  yBio := []
  mtar := 0
  ytar := 0
  OC := 0
  HC := 0
  V := 0

/-- Arguments of `setState`, state.h:50-54 (by value, hence local copies). -/
structure SetArgs where
  T : ℝ
  P : ℝ
  rhoGas : ℝ
  muGas : ℝ
  yGas : List ℝ
  yPah : List ℝ
  sootVar : List ℝ
  nsoot : ℤ := 2
  tarVar : List ℝ := []
  Ntar : ℤ := 0
  cMin : ℝ := 100

/-- state.cc:65-67 and 76-78: `for(int i=0;i<n;i++) if(v[i]<0) v[i]=0.0;` (`n` iterations). -/
noncomputable def clampLoop : ℕ → List ℝ → Res (List ℝ)
  | 0, v => ok v
  | n + 1, v => do
    let v ← clampLoop n v
    let x ← idx v n
    if x < 0 then setIdx v n 0 else ok v

/-- state.cc:63-119: the vector part of `setState` (`s` already holds the new scalars). -/
noncomputable def setStateVec (s : State) (a : SetArgs) : State × Res Unit :=
  -- 65-67: the loop bound is the OLD nsoot
  match clampLoop s.nsoot.toNat a.sootVar with
  | .exn e => (s, .exn e)
  | .ub => (s, .ub)
  | .nonfin => (s, .nonfin)
  | .ok sv =>
  -- 69
  let s := { s with nsoot := a.nsoot }
  -- 70-72
  if ∃ x ∈ sv, x < 0 then
    (s, exn (.domain "Unphysical state value input: negative soot moment(s)")) else
  -- 74
  let s := { s with sootVar := sv }
  -- 76-78: the loop bound is the OLD Ntar
  match clampLoop s.Ntar.toNat a.tarVar with
  | .exn e => (s, .exn e)
  | .ub => (s, .ub)
  | .nonfin => (s, .nonfin)
  | .ok tv =>
  -- 80
  let s := { s with Ntar := a.Ntar }
  -- 81-83
  if ∃ x ∈ tv, x < 0 then
    (s, exn (.domain "Unphysical state value input: negative tar moment(s)")) else
  -- 85
  let s := { s with tarVar := tv }
  -- 88-94: `for (double y : yGas_)` assigns to a copy; only the upper bound has an effect
  if ∃ y ∈ a.yGas, (if y < 0 then (0 : ℝ) else y) > 1 then
    (s, exn (.domain "Unphysical state value input: gas species mass fraction > 1.0")) else
  -- 102
  let s := { s with yGas := a.yGas }
  -- 106-107
  if a.yPah.length ≠ s.yPah.length then
    (s, exn (.domain "Invalid input vector size: PAH species mass fractions")) else
  -- 109-111
  if ∃ y ∈ a.yPah, y < 0 ∨ y > 1 then
    (s, exn (.domain "Unphysical state value input: PAH species mass fraction(s)")) else
  -- 113-117
  if a.yPah.foldl (· + ·) 0 > 1 then
    (s, exn (.domain
      "Unphysical state value input: sum of PAH species mass fractions greater than one")) else
  -- 119
  ({ s with yPah := a.yPah }, ok ())

/-- state.cc:36-140, statement by statement.  The first component is the object after the call,
also when the call throws. -/
noncomputable def setState (s : State) (a : SetArgs) : State × Res Unit :=
  -- 43-44
  if a.T ≤ 0 then (s, exn (.domain "Unphysical state value input: T")) else
  let s := { s with T := a.T }
  -- 46-47
  if a.P ≤ 0 then (s, exn (.domain "Unphysical state value input: P")) else
  let s := { s with P := a.P }
  -- 49-50
  if a.rhoGas ≤ 0 then (s, exn (.domain "Unphysical state value input: rhoGas")) else
  let s := { s with rhoGas := a.rhoGas }
  -- 52-53
  if a.muGas ≤ 0 then (s, exn (.domain "Unphysical state value input: muGas")) else
  let s := { s with muGas := a.muGas }
  -- 56-57
  if a.cMin ≤ 0 then (s, exn (.domain "Unphysical state value input: cMin")) else
  let s := { s with cMin := a.cMin }
  -- 61 (P is positive here)
  let s := { s with MWGas := s.rhoGas * Rg * s.T / s.P }
  -- 63-119
  setStateVec s a

/-- state.h:59 -/
noncomputable def State.gasC (s : State) (sp : GasSp) : Res ℝ := do
  let y ← idx s.yGas sp.toNat
  ok (s.rhoGas * y / gasMW sp)

/-- state.h:62 -/
noncomputable def State.gasP (s : State) (sp : GasSp) : Res ℝ := do
  let y ← idx s.yGas sp.toNat
  ok (y * s.MWGas / gasMW sp * s.P)

/-- state.h:65 -/
noncomputable def State.mfp (s : State) : Res ℝ := do
  let a ← cdiv s.muGas s.rhoGas
  let b ← cdiv (Real.pi * s.MWGas) (2.0 * Rg * s.T)
  let c ← csqrt b
  ok (a * c)

/-- state.h:68 -/
noncomputable def State.pahC (s : State) (sp : PahSp) : Res ℝ := do
  let y ← idx s.yPah sp.toNat
  ok (s.rhoGas * y / pahMW sp)

/-- state.h:71 -/
noncomputable def State.pahP (s : State) (sp : PahSp) : Res ℝ := do
  let y ← idx s.yPah sp.toNat
  ok (y * s.MWGas / pahMW sp * s.P)

/-- state.h:74 -/
def State.setSootScales (s : State) (v : List ℝ) : State := { s with sootScales := v }

/-- state.h:80 (`getyBio`, which sets) -/
def State.setYBio (s : State) (v : List ℝ) : State := { s with yBio := v }

/-- state.cc:198-202 (`get_coal`, which sets) -/
def State.setCoal (s : State) (OC HC V : ℝ) : State := { s with OC := OC, HC := HC, V := V }

/-- The scalar part of a state as left by a successful `setState`. -/
structure State.Phys (s : State) : Prop where
  T : 0 < s.T
  P : 0 < s.P
  rho : 0 < s.rhoGas
  mu : 0 < s.muGas
  cMin : 0 < s.cMin
  mw : s.MWGas = s.rhoGas * Rg * s.T / s.P

theorem State.Phys.mw_pos {s : State} (h : s.Phys) : 0 < s.MWGas := by
  rw [h.mw]; have := h.T; have := h.P; have := h.rho; have := Rg_pos; positivity

/-- Mean free path of a physical state as a plain number. -/
noncomputable def State.mfpVal (s : State) : ℝ :=
  s.muGas / s.rhoGas * Real.sqrt (Real.pi * s.MWGas / (2 * Rg * s.T))

theorem State.Phys.mfp_ok {s : State} (h : s.Phys) : s.mfp = ok s.mfpVal := by
  have hT := h.T; have := h.mw_pos; have hR := Rg_pos
  have h2 : (2.0 : ℝ) * Rg * s.T ≠ 0 := by positivity
  have h3 : 0 ≤ Real.pi * s.MWGas / (2.0 * Rg * s.T) := by positivity
  simp only [State.mfp, cdiv_ok h.rho.ne', ok_bind, cdiv_ok h2, csqrt_ok h3, State.mfpVal]
  norm_num

theorem State.Phys.mfpVal_pos {s : State} (h : s.Phys) : 0 < s.mfpVal := by
  have hT := h.T; have := h.mw_pos; have hR := Rg_pos; have := h.rho; have := h.mu
  unfold State.mfpVal; positivity

/-- The object after the scalar part of an accepted call. -/
noncomputable def State.withScalars (s : State) (a : SetArgs) : State :=
  { s with T := a.T, P := a.P, rhoGas := a.rhoGas, muGas := a.muGas, cMin := a.cMin,
           MWGas := a.rhoGas * Rg * a.T / a.P }

theorem setState_scalars {s : State} {a : SetArgs} (h1 : 0 < a.T) (h2 : 0 < a.P)
    (h3 : 0 < a.rhoGas) (h4 : 0 < a.muGas) (h5 : 0 < a.cMin) :
    setState s a = setStateVec (s.withScalars a) a := by
  simp only [setState, not_le.mpr h1, not_le.mpr h2, not_le.mpr h3, not_le.mpr h4, not_le.mpr h5,
    if_false]
  rfl

theorem setState_ok_scalars {s : State} {a : SetArgs} (h : (setState s a).2 = ok ()) :
    0 < a.T ∧ 0 < a.P ∧ 0 < a.rhoGas ∧ 0 < a.muGas ∧ 0 < a.cMin := by
  by_cases h1 : a.T ≤ 0
  · simp only [setState, if_pos h1] at h; cases h
  by_cases h2 : a.P ≤ 0
  · simp only [setState, if_neg h1, if_pos h2] at h; cases h
  by_cases h3 : a.rhoGas ≤ 0
  · simp only [setState, if_neg h1, if_neg h2, if_pos h3] at h; cases h
  by_cases h4 : a.muGas ≤ 0
  · simp only [setState, if_neg h1, if_neg h2, if_neg h3, if_pos h4] at h; cases h
  by_cases h5 : a.cMin ≤ 0
  · simp only [setState, if_neg h1, if_neg h2, if_neg h3, if_neg h4, if_pos h5] at h; cases h
  exact ⟨not_le.mp h1, not_le.mp h2, not_le.mp h3, not_le.mp h4, not_le.mp h5⟩

/-! ### The clamp loop -/

/-- What the clamp loop computes when it stays in range. -/
theorem clampLoop_ok (n : ℕ) (v : List ℝ) (h : n ≤ v.length) :
    clampLoop n v = ok (v.mapIdx fun i x => if i < n then max x 0 else x) := by
  induction n with
  | zero => simp only [clampLoop]; congr 1; apply List.ext_getElem <;> simp
  | succ n ih =>
    have hn : n < (v.mapIdx fun i x => if i < n then max x 0 else x).length := by simpa using h
    simp only [clampLoop, ih (by omega), ok_bind, idx_ok hn, List.getElem_mapIdx, lt_irrefl,
      if_false, setIdx, hn, if_true]
    split_ifs with hx
    · congr 1
      apply List.ext_getElem
      · simp
      · intro i h1 h2
        simp only [List.getElem_set, List.getElem_mapIdx]
        by_cases hi : n = i
        · subst hi; simp [hx.le]
        · simp only [hi, if_false]
          have : (i < n + 1) = (i < n) := by simp; omega
          simp [this]
    · congr 1
      apply List.ext_getElem
      · simp
      · intro i h1 h2
        simp only [List.getElem_mapIdx]
        by_cases hi : n = i
        · subst hi; simp [not_lt.mp hx]
        · have : (i < n + 1) = (i < n) := by simp; omega
          simp [this]

/-- A bound beyond the vector is an out-of-range access. -/
theorem clampLoop_ub (n : ℕ) (v : List ℝ) (h : v.length < n) : clampLoop n v = ub := by
  induction n with
  | zero => omega
  | succ n ih =>
    by_cases hn : v.length < n
    · simp [clampLoop, ih hn]
    · have : n = v.length := by omega
      subst this
      rw [clampLoop, clampLoop_ok _ _ le_rfl, ok_bind, idx_ub (by simp)]; rfl

end Soot
