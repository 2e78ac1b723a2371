import Verif.State

/-!
# Properties C01-C07 (`setState` and the accessors)
-/

namespace Soot

open Res
open scoped Classical

/-- Independent specification of the inputs a state accepts.  `n`/`m` are the soot and tar counts the
object declared before the call, `p` the size of its PAH vector. -/
structure Admissible (n m p : ℕ) (a : SetArgs) : Prop where
  T : 0 < a.T
  P : 0 < a.P
  rho : 0 < a.rhoGas
  mu : 0 < a.muGas
  cMin : 0 < a.cMin
  soot : ∀ i (h : i < a.sootVar.length), n ≤ i → 0 ≤ a.sootVar[i]
  tar : ∀ i (h : i < a.tarVar.length), m ≤ i → 0 ≤ a.tarVar[i]
  gas : ∀ y ∈ a.yGas, y ≤ 1
  pahSize : a.yPah.length = p
  pah : ∀ y ∈ a.yPah, 0 ≤ y ∧ y ≤ 1
  pahSum : a.yPah.sum ≤ 1

/-- Independent specification of the object after an accepted call. -/
noncomputable def stateAfter (s : State) (a : SetArgs) : State :=
  { s with
    T := a.T, P := a.P, rhoGas := a.rhoGas, muGas := a.muGas, cMin := a.cMin
    MWGas := a.rhoGas * Rg * a.T / a.P
    nsoot := a.nsoot, sootVar := a.sootVar.map (max · 0)
    Ntar := a.Ntar, tarVar := a.tarVar.map (max · 0)
    yGas := a.yGas, yPah := a.yPah }

private theorem clamp_neg_iff (n : ℕ) (v : List ℝ) :
    (∃ x ∈ v.mapIdx (fun i x => if i < n then max x 0 else x), x < 0) ↔
      ¬ ∀ i (h : i < v.length), n ≤ i → 0 ≤ v[i] := by
  constructor
  · rintro ⟨x, hx, hneg⟩ hall
    obtain ⟨i, hi, rfl⟩ := List.mem_iff_getElem.mp hx
    simp only [List.getElem_mapIdx] at hneg
    have hi' : i < v.length := by simpa using hi
    split_ifs at hneg with h
    · exact absurd (le_max_right v[i] 0) (not_le.mpr hneg)
    · exact absurd (hall i hi' (not_lt.mp h)) (not_le.mpr hneg)
  · intro h
    push Not at h
    obtain ⟨i, hi, hni, hneg⟩ := h
    refine ⟨v[i], ?_, hneg⟩
    rw [List.mem_iff_getElem]
    exact ⟨i, by simpa using hi, by simp [not_lt.mpr hni]⟩

private theorem clamp_eq_map (n : ℕ) (v : List ℝ)
    (h : ∀ i (h : i < v.length), n ≤ i → 0 ≤ v[i]) :
    v.mapIdx (fun i x => if i < n then max x 0 else x) = v.map (max · 0) := by
  apply List.ext_getElem
  · simp
  · intro i h1 h2
    simp only [List.getElem_mapIdx, List.getElem_map]
    split_ifs with hi
    · rfl
    · exact (max_eq_left (h i (by simpa using h1) (not_lt.mp hi))).symm

private theorem gas_iff (l : List ℝ) :
    (∃ y ∈ l, (if y < 0 then (0 : ℝ) else y) > 1) ↔ ¬ ∀ y ∈ l, y ≤ 1 := by
  push Not
  constructor
  · rintro ⟨y, hy, h⟩; refine ⟨y, hy, ?_⟩; split_ifs at h <;> linarith
  · rintro ⟨y, hy, h⟩; refine ⟨y, hy, ?_⟩; rw [if_neg (by linarith)]; exact h

private theorem pah_iff (l : List ℝ) :
    (∃ y ∈ l, y < 0 ∨ y > 1) ↔ ¬ ∀ y ∈ l, 0 ≤ y ∧ y ≤ 1 := by
  push Not
  refine exists_congr fun y => and_congr_right fun _ => ?_
  constructor
  · rintro (h | h)
    · intro h'; linarith
    · intro _; exact h
  · intro h; by_cases h0 : y < 0
    · exact Or.inl h0
    · exact Or.inr (h (not_lt.mp h0))

private theorem foldl_sum (l : List ℝ) : l.foldl (· + ·) 0 = l.sum := by
  rw [List.sum_eq_foldl]

/-- **C01, first half.** In range, an admissible call succeeds and produces exactly `stateAfter`. -/
theorem C01_setState_accepts (s : State) (a : SetArgs)
    (hs : s.nsoot.toNat ≤ a.sootVar.length) (ht : s.Ntar.toNat ≤ a.tarVar.length)
    (h : Admissible s.nsoot.toNat s.Ntar.toNat s.yPah.length a) :
    setState s a = (stateAfter s a, ok ()) := by
  have e1 := (not_congr (clamp_neg_iff s.nsoot.toNat a.sootVar)).mpr (not_not.mpr h.soot)
  have e2 := (not_congr (clamp_neg_iff s.Ntar.toNat a.tarVar)).mpr (not_not.mpr h.tar)
  have e3 := (not_congr (gas_iff a.yGas)).mpr (not_not.mpr h.gas)
  have e4 := (not_congr (pah_iff a.yPah)).mpr (not_not.mpr h.pah)
  have e5 : ¬ a.yPah.foldl (· + ·) 0 > 1 := by rw [foldl_sum]; exact not_lt.mpr h.pahSum
  have e6 : ¬ a.yPah.length ≠ s.yPah.length := not_not.mpr h.pahSize
  rw [clamp_eq_map _ _ h.soot] at e1
  rw [clamp_eq_map _ _ h.tar] at e2
  rw [setState_scalars h.T h.P h.rho h.mu h.cMin]
  simp only [setStateVec, State.withScalars, clampLoop_ok _ _ hs, clampLoop_ok _ _ ht,
    clamp_eq_map _ _ h.soot, clamp_eq_map _ _ h.tar, if_neg e1, if_neg e2, if_neg e3, if_neg e4,
    if_neg e5, if_neg e6, stateAfter]

/-- **C01, second half.** In range, a call that is not admissible throws `std::domain_error`; in
particular it is never undefined behaviour. -/
theorem C01_setState_rejects (s : State) (a : SetArgs)
    (hs : s.nsoot.toNat ≤ a.sootVar.length) (ht : s.Ntar.toNat ≤ a.tarVar.length)
    (h : ¬ Admissible s.nsoot.toNat s.Ntar.toNat s.yPah.length a) :
    ∃ m, (setState s a).2 = exn (.domain m) := by
  by_cases h1 : a.T ≤ 0
  · simp only [setState, if_pos h1]; exact ⟨_, rfl⟩
  by_cases h2 : a.P ≤ 0
  · simp only [setState, if_neg h1, if_pos h2]; exact ⟨_, rfl⟩
  by_cases h3 : a.rhoGas ≤ 0
  · simp only [setState, if_neg h1, if_neg h2, if_pos h3]; exact ⟨_, rfl⟩
  by_cases h4 : a.muGas ≤ 0
  · simp only [setState, if_neg h1, if_neg h2, if_neg h3, if_pos h4]; exact ⟨_, rfl⟩
  by_cases h5 : a.cMin ≤ 0
  · simp only [setState, if_neg h1, if_neg h2, if_neg h3, if_neg h4, if_pos h5]; exact ⟨_, rfl⟩
  rw [setState_scalars (not_le.mp h1) (not_le.mp h2) (not_le.mp h3) (not_le.mp h4) (not_le.mp h5)]
  simp only [setStateVec, State.withScalars, clampLoop_ok _ _ hs, clampLoop_ok _ _ ht, foldl_sum]
  split_ifs with h6 h7 h8 h9 h10 h11
  all_goals first | exact ⟨_, rfl⟩ | skip
  rw [clamp_neg_iff, not_not] at h6 h7
  rw [gas_iff, not_not] at h8
  rw [pah_iff, not_not] at h10
  exact absurd ⟨not_le.mp h1, not_le.mp h2, not_le.mp h3, not_le.mp h4, not_le.mp h5,
    h6, h7, h8, not_not.mp h9, h10, not_lt.mp h11⟩ h

/-- **C01.** Success is equivalent to admissibility. -/
theorem C01_setState_iff (s : State) (a : SetArgs)
    (hs : s.nsoot.toNat ≤ a.sootVar.length) (ht : s.Ntar.toNat ≤ a.tarVar.length) :
    (setState s a).2 = ok () ↔ Admissible s.nsoot.toNat s.Ntar.toNat s.yPah.length a := by
  constructor
  · intro hok
    by_contra hn
    obtain ⟨m, hm⟩ := C01_setState_rejects s a hs ht hn
    rw [hm] at hok; cases hok
  · intro h; rw [C01_setState_accepts s a hs ht h]

/-- A concrete admissible call used as a witness: hot combustion products with three soot values,
one of them (a round-off) negative, and one slightly negative gas fraction. -/
noncomputable def argsEx : SetArgs where
  T := 2100
  P := 101325
  rhoGas := 0.1
  muGas := 1E-5
  yGas := [0.1, 0, 0.01, 0.002, -0.001, 0.01, 0.02, 0.05, 0.001, 0, 0.1]
  yPah := [0, 0, 0.001, 0, 0, 0]
  sootVar := [1E15, -1E-30, 1E-20]
  nsoot := 3

theorem argsEx_admissible : Admissible 3 0 6 argsEx where
  T := by norm_num [argsEx]
  P := by norm_num [argsEx]
  rho := by norm_num [argsEx]
  mu := by norm_num [argsEx]
  cMin := by norm_num [argsEx]
  soot := by intro i h hi; simp [argsEx] at h; omega
  tar := by intro i h; simp [argsEx] at h
  gas := by intro y hy; simp [argsEx] at hy; rcases hy with h|h|h|h|h|h|h|h|h|h|h <;> subst h <;> norm_num
  pahSize := by simp [argsEx]
  pah := by intro y hy; simp [argsEx] at hy; rcases hy with h|h|h <;> subst h <;> norm_num
  pahSum := by norm_num [argsEx]

/-- The hypotheses of C01 are satisfiable: a fresh 3-variable state and `argsEx`. -/
example : setState (State.mk' 3 0) argsEx = (stateAfter (State.mk' 3 0) argsEx, ok ()) :=
  C01_setState_accepts _ _ (by simp [State.mk', argsEx]) (by simp [State.mk'])
    (by simpa [State.mk', nPah] using argsEx_admissible)

/-- The rejection branch is inhabited as well. -/
example : ∃ m, (setState (State.mk' 3 0) { argsEx with T := -1 }).2 = exn (.domain m) :=
  C01_setState_rejects _ _ (by simp [State.mk', argsEx]) (by simp [State.mk'])
    (fun h => by have := h.T; norm_num at this)

/-- If a call succeeded, the loop bounds were in range. -/
theorem setState_ok_range {s : State} {a : SetArgs} (h : (setState s a).2 = ok ()) :
    s.nsoot.toNat ≤ a.sootVar.length ∧ s.Ntar.toNat ≤ a.tarVar.length := by
  obtain ⟨h1, h2, h3, h4, h5⟩ := setState_ok_scalars h
  rw [setState_scalars h1 h2 h3 h4 h5] at h
  by_cases hs : s.nsoot.toNat ≤ a.sootVar.length
  · refine ⟨hs, ?_⟩
    by_contra hc
    simp only [setStateVec, State.withScalars, clampLoop_ok _ _ hs,
      clampLoop_ub _ _ (not_le.mp hc)] at h
    split_ifs at h
  · simp only [setStateVec, State.withScalars, clampLoop_ub _ _ (not_le.mp hs)] at h
    cases h

/-- **C02.** A successful call stores only valid values, whatever was stored before. -/
theorem C02_setState_valid (s : State) (a : SetArgs) (h : (setState s a).2 = ok ()) :
    let s' := (setState s a).1
    (s'.T = a.T ∧ s'.P = a.P ∧ s'.rhoGas = a.rhoGas ∧ s'.muGas = a.muGas ∧ s'.cMin = a.cMin) ∧
    s'.Phys ∧ 0 < s'.MWGas ∧
    (s'.sootVar = a.sootVar.map (max · 0) ∧ ∀ x ∈ s'.sootVar, 0 ≤ x) ∧
    (s'.tarVar = a.tarVar.map (max · 0) ∧ ∀ x ∈ s'.tarVar, 0 ≤ x) ∧
    (s'.nsoot = a.nsoot ∧ s'.Ntar = a.Ntar) ∧
    s'.yPah = a.yPah ∧ (∀ y ∈ s'.yPah, 0 ≤ y ∧ y ≤ 1) ∧ s'.yPah.sum ≤ 1 := by
  obtain ⟨hs, ht⟩ := setState_ok_range h
  have ha := (C01_setState_iff s a hs ht).mp h
  rw [C01_setState_accepts s a hs ht ha]
  have hph : (stateAfter s a).Phys := ⟨ha.T, ha.P, ha.rho, ha.mu, ha.cMin, rfl⟩
  refine ⟨⟨rfl, rfl, rfl, rfl, rfl⟩, hph, hph.mw_pos, ⟨rfl, ?_⟩, ⟨rfl, ?_⟩, ⟨rfl, rfl⟩, rfl, ha.pah, ha.pahSum⟩
  · intro x hx; simp only [stateAfter, List.mem_map] at hx; obtain ⟨y, _, rfl⟩ := hx; exact le_max_right _ _
  · intro x hx; simp only [stateAfter, List.mem_map] at hx; obtain ⟨y, _, rfl⟩ := hx; exact le_max_right _ _

example : (setState (State.mk' 3 0) argsEx).2 = ok () := by
  rw [C01_setState_accepts _ _ (by simp [State.mk', argsEx]) (by simp [State.mk'])
    (by simpa [State.mk', nPah] using argsEx_admissible)]

/-- **C03 (refuted).** Not every accepted gas fraction vector is stored within `[0,1]`: a negative mass
fraction passes and is stored as it is. -/
theorem C03_gas_not_clamped :
    ¬ ∀ (s : State) (a : SetArgs), (setState s a).2 = ok () →
      ∀ y ∈ (setState s a).1.yGas, 0 ≤ y ∧ y ≤ 1 := by
  intro hall
  have hacc := C01_setState_accepts (State.mk' 3 0) argsEx (by simp [State.mk', argsEx])
    (by simp [State.mk']) (by simpa [State.mk', nPah] using argsEx_admissible)
  have := hall (State.mk' 3 0) argsEx (by rw [hacc]) (-0.001) (by
    rw [hacc]; simp [stateAfter, argsEx])
  norm_num at this

/-- **C03 (what holds).** Full statement: after success all stored gas fractions lie in `[0,1]`.
Missing: the lower bound.  The vector is stored verbatim and only the upper bound is enforced; the
lower bound holds if the caller supplied it. -/
theorem C03_gas_upper_partial (s : State) (a : SetArgs) (h : (setState s a).2 = ok ()) :
    (setState s a).1.yGas = a.yGas ∧ (∀ y ∈ (setState s a).1.yGas, y ≤ 1) ∧
    ((∀ y ∈ a.yGas, 0 ≤ y) → ∀ y ∈ (setState s a).1.yGas, 0 ≤ y ∧ y ≤ 1) := by
  obtain ⟨hs, ht⟩ := setState_ok_range h
  have ha := (C01_setState_iff s a hs ht).mp h
  rw [C01_setState_accepts s a hs ht ha]
  exact ⟨rfl, ha.gas, fun h0 y hy => ⟨h0 y hy, ha.gas y hy⟩⟩

/-- **C04 (refuted).** A throwing `setState` can leave a changed object: the temperature (accepted)
is already overwritten when the pressure is rejected. -/
theorem C04_setState_not_atomic :
    ¬ ∀ (s : State) (a : SetArgs) (e : Exn), (setState s a).2 = exn e → (setState s a).1 = s := by
  intro hall
  have h : setState (State.mk' 0 0) { argsEx with P := -1 } =
      ({ State.mk' 0 0 with T := 2100 }, exn (.domain "Unphysical state value input: P")) := by
    simp only [setState]
    rw [if_neg (by norm_num [argsEx]), if_pos (by norm_num)]
    simp [argsEx]
  have := hall _ _ _ (by rw [h])
  rw [h] at this
  have := congrArg State.T this
  norm_num [State.mk'] at this

/-- A field after a call is the old value, or the value a successful call stores. -/
def oldOrNew {α : Type} (old new cur : α) : Prop := cur = old ∨ cur = new

/-- `cur` mixes fields of `old` and `new` only. -/
structure TornUpdate (old new cur : State) : Prop where
  T : oldOrNew old.T new.T cur.T
  P : oldOrNew old.P new.P cur.P
  rho : oldOrNew old.rhoGas new.rhoGas cur.rhoGas
  mu : oldOrNew old.muGas new.muGas cur.muGas
  cMin : oldOrNew old.cMin new.cMin cur.cMin
  mw : oldOrNew old.MWGas new.MWGas cur.MWGas
  nsoot : oldOrNew old.nsoot new.nsoot cur.nsoot
  soot : oldOrNew old.sootVar new.sootVar cur.sootVar
  Ntar : oldOrNew old.Ntar new.Ntar cur.Ntar
  tar : oldOrNew old.tarVar new.tarVar cur.tarVar
  gas : oldOrNew old.yGas new.yGas cur.yGas
  pah : oldOrNew old.yPah new.yPah cur.yPah
  absc : cur.absc = old.absc
  wts : cur.wts = old.wts
  scales : cur.sootScales = old.sootScales
  mtar : cur.mtar = old.mtar
  ytar : cur.ytar = old.ytar
  yBio : cur.yBio = old.yBio

/-- **C04 (what holds).** Full statement: a throwing call leaves the object unchanged.  Missing: the
fields checked before the failing one are already replaced.  Every field is either its old value or
exactly the value a successful call would have stored (never anything else), and the weights,
abscissas, scales and tar properties are never touched. -/
theorem C04_setState_torn_partial (s : State) (a : SetArgs) :
    TornUpdate s (stateAfter s a) (setState s a).1 := by
  unfold stateAfter
  have cm : ∀ (n : ℕ) (v : List ℝ),
      (¬ ∃ x ∈ v.mapIdx (fun i x => if i < n then max x 0 else x), x < 0) →
      v.mapIdx (fun i x => if i < n then max x 0 else x) = v.map (max · 0) := fun n v h =>
    clamp_eq_map n v (by rw [clamp_neg_iff, not_not] at h; exact h)
  have L : ∀ {α : Type} (x y : α), oldOrNew x y x := fun _ _ => Or.inl rfl
  have R : ∀ {α : Type} (x y : α), oldOrNew x y y := fun _ _ => Or.inr rfl
  by_cases h1 : a.T ≤ 0
  · simp only [setState, if_pos h1]
    constructor <;>
      first | with_reducible rfl | with_reducible exact L _ _ | with_reducible exact R _ _
  by_cases h2 : a.P ≤ 0
  · simp only [setState, if_neg h1, if_pos h2]
    constructor <;>
      first | with_reducible rfl | with_reducible exact L _ _ | with_reducible exact R _ _
  by_cases h3 : a.rhoGas ≤ 0
  · simp only [setState, if_neg h1, if_neg h2, if_pos h3]
    constructor <;>
      first | with_reducible rfl | with_reducible exact L _ _ | with_reducible exact R _ _
  by_cases h4 : a.muGas ≤ 0
  · simp only [setState, if_neg h1, if_neg h2, if_neg h3, if_pos h4]
    constructor <;>
      first | with_reducible rfl | with_reducible exact L _ _ | with_reducible exact R _ _
  by_cases h5 : a.cMin ≤ 0
  · simp only [setState, if_neg h1, if_neg h2, if_neg h3, if_neg h4, if_pos h5]
    constructor <;>
      first | with_reducible rfl | with_reducible exact L _ _ | with_reducible exact R _ _
  by_cases hs : s.nsoot.toNat ≤ a.sootVar.length
  · by_cases ht : s.Ntar.toNat ≤ a.tarVar.length
    · rw [setState_scalars (not_le.mp h1) (not_le.mp h2) (not_le.mp h3) (not_le.mp h4)
        (not_le.mp h5)]
      simp only [setStateVec, State.withScalars, clampLoop_ok _ _ hs, clampLoop_ok _ _ ht]
      by_cases h6 : ∃ x ∈ a.sootVar.mapIdx
          (fun i x => if i < s.nsoot.toNat then max x 0 else x), x < 0
      · rw [if_pos h6]
        constructor <;> first | with_reducible rfl | with_reducible exact L _ _ | with_reducible exact R _ _
      have e6 := cm _ _ h6
      rw [if_neg h6]
      simp only [e6]
      by_cases h7 : ∃ x ∈ a.tarVar.mapIdx
          (fun i x => if i < s.Ntar.toNat then max x 0 else x), x < 0
      · rw [if_pos h7]
        constructor <;> first | with_reducible rfl | with_reducible exact L _ _ | with_reducible exact R _ _
      have e7 := cm _ _ h7
      rw [if_neg h7]
      simp only [e7]
      by_cases h8 : ∃ y ∈ a.yGas, (if y < 0 then (0 : ℝ) else y) > 1
      · rw [if_pos h8]
        constructor <;> first | with_reducible rfl | with_reducible exact L _ _ | with_reducible exact R _ _
      rw [if_neg h8]
      by_cases h9 : a.yPah.length ≠ s.yPah.length
      · rw [if_pos h9]
        constructor <;> first | with_reducible rfl | with_reducible exact L _ _ | with_reducible exact R _ _
      rw [if_neg h9]
      by_cases h10 : ∃ y ∈ a.yPah, y < 0 ∨ y > 1
      · rw [if_pos h10]
        constructor <;> first | with_reducible rfl | with_reducible exact L _ _ | with_reducible exact R _ _
      rw [if_neg h10]
      by_cases h11 : a.yPah.foldl (· + ·) 0 > 1
      · rw [if_pos h11]
        constructor <;> first | with_reducible rfl | with_reducible exact L _ _ | with_reducible exact R _ _
      rw [if_neg h11]
      constructor <;> first | with_reducible rfl | with_reducible exact L _ _ | with_reducible exact R _ _
    · rw [setState_scalars (not_le.mp h1) (not_le.mp h2) (not_le.mp h3) (not_le.mp h4)
        (not_le.mp h5)]
      simp only [setStateVec, State.withScalars, clampLoop_ok _ _ hs, clampLoop_ub _ _ (not_le.mp ht)]
      split_ifs with h6 <;>
      constructor <;>
      first | with_reducible rfl | with_reducible exact L _ _ | with_reducible exact R _ _ | exact Or.inr (cm _ _ h6)
  · rw [setState_scalars (not_le.mp h1) (not_le.mp h2) (not_le.mp h3) (not_le.mp h4)
      (not_le.mp h5)]
    simp only [setStateVec, State.withScalars, clampLoop_ub _ _ (not_le.mp hs)]
    constructor <;>
      first | with_reducible rfl | with_reducible exact L _ _ | with_reducible exact R _ _

/-- **C04 (what holds, vectors).** If a scalar is rejected, all vectors are as before the call. -/
theorem C04_scalar_reject_keeps_vectors_partial (s : State) (a : SetArgs)
    (h : a.T ≤ 0 ∨ a.P ≤ 0 ∨ a.rhoGas ≤ 0 ∨ a.muGas ≤ 0 ∨ a.cMin ≤ 0) :
    let s' := (setState s a).1
    (∃ m, (setState s a).2 = exn (.domain m)) ∧ s'.sootVar = s.sootVar ∧ s'.tarVar = s.tarVar ∧
    s'.yGas = s.yGas ∧ s'.yPah = s.yPah ∧ s'.nsoot = s.nsoot ∧ s'.Ntar = s.Ntar ∧
    s'.MWGas = s.MWGas := by
  by_cases h1 : a.T ≤ 0
  · simp only [setState, if_pos h1]; exact ⟨⟨_, rfl⟩, by simp⟩
  by_cases h2 : a.P ≤ 0
  · simp only [setState, if_neg h1, if_pos h2]; exact ⟨⟨_, rfl⟩, by simp⟩
  by_cases h3 : a.rhoGas ≤ 0
  · simp only [setState, if_neg h1, if_neg h2, if_pos h3]
    exact ⟨⟨_, rfl⟩, by simp⟩
  by_cases h4 : a.muGas ≤ 0
  · simp only [setState, if_neg h1, if_neg h2, if_neg h3, if_pos h4]
    exact ⟨⟨_, rfl⟩, by simp⟩
  by_cases h5 : a.cMin ≤ 0
  · simp only [setState, if_neg h1, if_neg h2, if_neg h3, if_neg h4, if_pos h5]
    exact ⟨⟨_, rfl⟩, by simp⟩
  exfalso; tauto

/-- The hypothesis is satisfiable with other fields accepted. -/
example : ∃ m, (setState (State.mk' 3 0) { argsEx with muGas := 0 }).2 = exn (.domain m) :=
  (C04_scalar_reject_keeps_vectors_partial (State.mk' 3 0) { argsEx with muGas := 0 }
    (by norm_num)).1

/-- **C05.** Last call wins: two objects with the same declared counts (and PAH size) agree on every
field `setState` writes after a successful call with the same arguments, and one of the calls
succeeds exactly when the other does.  Weights, abscissas and scales keep their old values. -/
theorem C05_setState_last_wins (s₁ s₂ : State) (a : SetArgs)
    (hn : s₁.nsoot = s₂.nsoot) (ht : s₁.Ntar = s₂.Ntar) (hp : s₁.yPah.length = s₂.yPah.length) :
    ((setState s₁ a).2 = ok () ↔ (setState s₂ a).2 = ok ()) ∧
    ((setState s₁ a).2 = ok () →
      (setState s₂ a).1 =
        { (setState s₁ a).1 with
          absc := s₂.absc, wts := s₂.wts, sootScales := s₂.sootScales, yBio := s₂.yBio,
          mtar := s₂.mtar, ytar := s₂.ytar, OC := s₂.OC, HC := s₂.HC, V := s₂.V }) := by
  have key : (setState s₁ a).2 = ok () ↔ (setState s₂ a).2 = ok () := by
    constructor <;> intro h
    · obtain ⟨h1, h2⟩ := setState_ok_range h
      rw [C01_setState_iff _ _ h1 h2, hn, ht, hp] at h
      rwa [C01_setState_iff _ _ (hn ▸ h1) (ht ▸ h2)]
    · obtain ⟨h1, h2⟩ := setState_ok_range h
      rw [C01_setState_iff _ _ h1 h2, ← hn, ← ht, ← hp] at h
      rwa [C01_setState_iff _ _ (hn ▸ h1) (ht ▸ h2)]
  refine ⟨key, fun h => ?_⟩
  obtain ⟨h1, h2⟩ := setState_ok_range h
  have h' := key.mp h
  rw [C01_setState_accepts _ _ h1 h2 ((C01_setState_iff _ _ h1 h2).mp h),
    C01_setState_accepts _ _ (hn ▸ h1) (ht ▸ h2) ((C01_setState_iff _ _ (hn ▸ h1) (ht ▸ h2)).mp h')]
  rfl

/-- C05 is not vacuous: two different objects satisfying its hypotheses with a succeeding call. -/
example : ∃ s₁ s₂ : State, s₁ ≠ s₂ ∧ s₁.nsoot = s₂.nsoot ∧ s₁.Ntar = s₂.Ntar ∧
    s₁.yPah.length = s₂.yPah.length ∧ (setState s₁ argsEx).2 = ok () := by
  refine ⟨State.mk' 3 0, { State.mk' 3 0 with T := 1 }, ?_, rfl, rfl, rfl, ?_⟩
  · intro h; have := congrArg State.T h; norm_num [State.mk'] at this
  · rw [C01_setState_accepts _ _ (by simp [State.mk', argsEx]) (by simp [State.mk'])
      (by simpa [State.mk', nPah] using argsEx_admissible)]

/-- **C05 (the count precondition is needed).** The outcome does depend on the previously declared
soot count: the same arguments are accepted by one object and rejected by another. -/
theorem C05_old_count_matters :
    ∃ (s₁ s₂ : State) (a : SetArgs), s₁.yPah.length = s₂.yPah.length ∧ s₁.Ntar = s₂.Ntar ∧
      (setState s₁ a).2 = ok () ∧ ∃ m, (setState s₂ a).2 = exn (.domain m) := by
  refine ⟨State.mk' 3 0, State.mk' 0 0, argsEx, rfl, rfl, ?_, ?_⟩
  · rw [C01_setState_accepts _ _ (by simp [State.mk', argsEx]) (by simp [State.mk'])
      (by simpa [State.mk', nPah] using argsEx_admissible)]
  · refine C01_setState_rejects _ _ (by simp [State.mk']) (by simp [State.mk']) fun h => ?_
    have := h.soot 1 (by simp [argsEx]) (by simp [State.mk'])
    norm_num [argsEx] at this

/-- **C06.** Undefined behaviour happens exactly when the scalars are accepted and the soot vector is
shorter than the previously declared count, or everything up to the soot vector is accepted and
the tar vector is too short. -/
theorem C06_setState_ub_iff (s : State) (a : SetArgs) :
    (setState s a).2 = ub ↔
      (0 < a.T ∧ 0 < a.P ∧ 0 < a.rhoGas ∧ 0 < a.muGas ∧ 0 < a.cMin) ∧
      (a.sootVar.length < s.nsoot.toNat ∨
        (a.tarVar.length < s.Ntar.toNat ∧
          ∀ i (h : i < a.sootVar.length), s.nsoot.toNat ≤ i → 0 ≤ a.sootVar[i])) := by
  by_cases hsc : 0 < a.T ∧ 0 < a.P ∧ 0 < a.rhoGas ∧ 0 < a.muGas ∧ 0 < a.cMin
  · rw [setState_scalars hsc.1 hsc.2.1 hsc.2.2.1 hsc.2.2.2.1 hsc.2.2.2.2]
    simp only [hsc, true_and, and_self]
    by_cases hs : s.nsoot.toNat ≤ a.sootVar.length
    · have hs' := not_lt.mpr hs
      simp only [hs', false_or]
      by_cases ht : s.Ntar.toNat ≤ a.tarVar.length
      · have ht' := not_lt.mpr ht
        simp only [ht', false_and, iff_false]
        rw [← setState_scalars hsc.1 hsc.2.1 hsc.2.2.1 hsc.2.2.2.1 hsc.2.2.2.2]
        by_cases h : Admissible s.nsoot.toNat s.Ntar.toNat s.yPah.length a
        · rw [C01_setState_accepts s a hs ht h]; simp
        · obtain ⟨m, hm⟩ := C01_setState_rejects s a hs ht h; rw [hm]; simp
      · simp only [setStateVec, State.withScalars, clampLoop_ok _ _ hs,
          clampLoop_ub _ _ (not_le.mp ht), not_le.mp ht, true_and]
        split_ifs with h6
        · rw [clamp_neg_iff] at h6; simp only [reduceCtorEq, false_iff]; exact h6
        · rw [clamp_neg_iff, not_not] at h6; simpa using h6
    · simp only [setStateVec, State.withScalars, clampLoop_ub _ _ (not_le.mp hs), not_le.mp hs,
        true_or]
  · have hex : ∃ m, (setState s a).2 = exn (.domain m) :=
      (C04_scalar_reject_keeps_vectors_partial s a (by
        by_contra hc; push Not at hc; exact hsc hc)).1
    obtain ⟨m, hm⟩ := hex
    simp [hm, hsc]

/-- Both sides of C06 are inhabited: shrinking the soot vector from 3 to 2 values is UB. -/
example : (setState (State.mk' 3 0) { argsEx with sootVar := [1, 1], nsoot := 2 }).2 = ub :=
  (C06_setState_ub_iff _ _).mpr ⟨by norm_num [argsEx], Or.inl (by simp [State.mk'])⟩

/-- **C07.** Ideal-gas consistency of the accessors on every accepted state: for every gas species with a
supplied mass fraction, `p = C·Rg·T`, `C·MW = rho·y`; the same for every PAH; and the mean free
path is positive. -/
theorem C07_ideal_gas (s₀ : State) (a : SetArgs) (h : (setState s₀ a).2 = ok ())
    (hp : s₀.yPah.length = nPah) :
    let s := (setState s₀ a).1
    (∀ sp : GasSp, sp.toNat < a.yGas.length → ∃ c p y, a.yGas[sp.toNat]? = some y ∧
      s.gasC sp = ok c ∧ s.gasP sp = ok p ∧ p = c * Rg * a.T ∧ c * gasMW sp = a.rhoGas * y) ∧
    (∀ sp : PahSp, ∃ c p y, a.yPah[sp.toNat]? = some y ∧
      s.pahC sp = ok c ∧ s.pahP sp = ok p ∧ p = c * Rg * a.T ∧ c * pahMW sp = a.rhoGas * y ∧
      0 ≤ c) ∧
    ∃ l, s.mfp = ok l ∧ 0 < l := by
  obtain ⟨hs, ht⟩ := setState_ok_range h
  have ha := (C01_setState_iff s₀ a hs ht).mp h
  rw [C01_setState_accepts s₀ a hs ht ha]
  have hph : (stateAfter s₀ a).Phys := ⟨ha.T, ha.P, ha.rho, ha.mu, ha.cMin, rfl⟩
  have hP := ha.P.ne'
  refine ⟨fun sp hsp => ?_, fun sp => ?_, _, hph.mfp_ok, hph.mfpVal_pos⟩
  · have hw := (gasMW_pos sp).ne'
    refine ⟨a.rhoGas * a.yGas[sp.toNat] / gasMW sp,
      a.yGas[sp.toNat] * (a.rhoGas * Rg * a.T / a.P) / gasMW sp * a.P, a.yGas[sp.toNat],
      by simp [hsp], ?_, ?_, ?_, ?_⟩
    · simp [State.gasC, stateAfter, idx_ok hsp]
    · simp [State.gasP, stateAfter, idx_ok hsp]
    · field_simp
    · field_simp
  · have hw := (pahMW_pos sp).ne'
    have hsp : sp.toNat < a.yPah.length := by rw [ha.pahSize, hp]; exact sp.toNat_lt
    refine ⟨a.rhoGas * a.yPah[sp.toNat] / pahMW sp,
      a.yPah[sp.toNat] * (a.rhoGas * Rg * a.T / a.P) / pahMW sp * a.P, a.yPah[sp.toNat],
      by simp [hsp], ?_, ?_, ?_, ?_, ?_⟩
    · simp [State.pahC, stateAfter, idx_ok hsp]
    · simp [State.pahP, stateAfter, idx_ok hsp]
    · field_simp
    · field_simp
    · have := (ha.pah _ (List.getElem_mem hsp)).1
      have := ha.rho; have := pahMW_pos sp; positivity

end Soot
