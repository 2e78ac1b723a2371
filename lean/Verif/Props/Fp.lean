import Verif.Fp
import Verif.Props.State
import Verif.Props.Coag

/-!
# Properties C77 (non-finite inputs) and C78 (kernels in floating point)
-/

namespace Soot

open Res
open scoped Classical

/-! ## Specification -/

/-- The inputs accepted for a quantity that must be positive. -/
def Dbl.PassPos (x : Dbl) : Prop := x = .nan ∨ x = .pinf ∨ ∃ r, 0 < r ∧ x = .fin r
/-- The inputs accepted for a quantity that must not be negative. -/
def Dbl.PassNonneg (x : Dbl) : Prop := x = .nan ∨ x = .pinf ∨ ∃ r, 0 ≤ r ∧ x = .fin r
/-- The gas mass fractions accepted. -/
def Dbl.PassGas (x : Dbl) : Prop := x = .nan ∨ x = .ninf ∨ ∃ r, r ≤ 1 ∧ x = .fin r
/-- The PAH mass fractions accepted. -/
def Dbl.PassPah (x : Dbl) : Prop := x = .nan ∨ ∃ r, 0 ≤ r ∧ r ≤ 1 ∧ x = .fin r

/-- A number as the code computes with it: neither infinite nor NaN. -/
def Dbl.Finite (x : Dbl) : Prop := ∃ r, x = .fin r

/-- The inputs `setState` accepts; compare `Admissible` (C01) for real inputs. -/
structure AdmissibleD (F : Fp) (n m p : ℕ) (a : DArgs) : Prop where
  T : a.T.PassPos
  P : a.P.PassPos
  rho : a.rhoGas.PassPos
  mu : a.muGas.PassPos
  cMin : a.cMin.PassPos
  soot : ∀ i (h : i < a.sootVar.length), n ≤ i → a.sootVar[i].PassNonneg
  tar : ∀ i (h : i < a.tarVar.length), m ≤ i → a.tarVar[i].PassNonneg
  gas : ∀ y ∈ a.yGas, y.PassGas
  pahSize : a.yPah.length = p
  pah : ∀ y ∈ a.yPah, y.PassPah
  pahSum : ¬ (Dbl.fin 1).lt (a.yPah.foldl F.add (.fin 0))

/-- All numbers of a call are finite. -/
structure DArgs.Finite (a : DArgs) : Prop where
  T : a.T.Finite
  P : a.P.Finite
  rho : a.rhoGas.Finite
  mu : a.muGas.Finite
  cMin : a.cMin.Finite
  gas : ∀ y ∈ a.yGas, y.Finite
  pah : ∀ y ∈ a.yPah, y.Finite
  soot : ∀ y ∈ a.sootVar, y.Finite
  tar : ∀ y ∈ a.tarVar, y.Finite

/-- `y` is `x` or NaN. -/
def OrNan (x y : Dbl) : Prop := y = x ∨ y = .nan

/-- `b` is the call `a` with some of its numbers, any number of them, replaced by NaN. -/
structure NanAt (a b : DArgs) : Prop where
  T : OrNan a.T b.T
  P : OrNan a.P b.P
  rho : OrNan a.rhoGas b.rhoGas
  mu : OrNan a.muGas b.muGas
  cMin : OrNan a.cMin b.cMin
  gas : List.Forall₂ OrNan a.yGas b.yGas
  pah : List.Forall₂ OrNan a.yPah b.yPah
  soot : List.Forall₂ OrNan a.sootVar b.sootVar
  tar : List.Forall₂ OrNan a.tarVar b.tarVar
  nsoot : b.nsoot = a.nsoot
  Ntar : b.Ntar = a.Ntar

/-- A real state and real arguments as doubles. -/
noncomputable def State.toD (s : State) : DState :=
  ⟨.fin s.T, .fin s.P, .fin s.rhoGas, .fin s.MWGas, .fin s.muGas, s.yGas.map .fin, s.yPah.map .fin, s.nsoot, s.sootVar.map .fin, .fin s.cMin,
    s.Ntar, s.tarVar.map .fin⟩
noncomputable def SetArgs.toD (a : SetArgs) : DArgs :=
  ⟨.fin a.T, .fin a.P, .fin a.rhoGas, .fin a.muGas, a.yGas.map .fin, a.yPah.map .fin, a.sootVar.map .fin, a.nsoot, a.tarVar.map .fin, a.Ntar,
    .fin a.cMin⟩

namespace FpState

@[simp] theorem le_fin (x y : ℝ) : (Dbl.fin x).le (.fin y) ↔ x ≤ y := Iff.rfl
@[simp] theorem lt_fin (x y : ℝ) : (Dbl.fin x).lt (.fin y) ↔ x < y := Iff.rfl
@[simp] theorem exact_add (x y : ℝ) : Fp.exact.add (.fin x) (.fin y) = .fin (x + y) := rfl
@[simp] theorem exact_mul (x y : ℝ) : Fp.exact.mul (.fin x) (.fin y) = .fin (x * y) := rfl
@[simp] theorem exact_sub (x y : ℝ) : Fp.exact.sub (.fin x) (.fin y) = .fin (x - y) := by
  simp [Fp.sub, Dbl.neg, sub_eq_add_neg]
theorem exact_div {y : ℝ} (h : y ≠ 0) (x : ℝ) : Fp.exact.div (.fin x) (.fin y) = .fin (x / y) := by
  simp [Fp.div, h, Fp.exact]
@[simp] theorem exact_rnd (x : ℝ) : Fp.exact.rnd x = .fin x := rfl

theorem not_le_zero (x : Dbl) : ¬ x.le (.fin 0) ↔ x.PassPos := by
  cases x <;> simp [Dbl.le, Dbl.PassPos]

theorem not_lt_zero (x : Dbl) : ¬ x.lt (.fin 0) ↔ x.PassNonneg := by
  cases x <;> simp [Dbl.lt, Dbl.PassNonneg]

theorem not_gt_one (x : Dbl) : ¬ (Dbl.fin 1).lt (if x.lt (.fin 0) then .fin 0 else x) ↔ x.PassGas := by
  cases x with
  | fin r =>
    by_cases h : r < 0
    · simp [h, Dbl.PassGas, Dbl.lt]; linarith
    · simp [h, Dbl.PassGas, Dbl.lt]
  | _ => simp [Dbl.lt, Dbl.PassGas]

theorem not_pah (x : Dbl) : ¬ (x.lt (.fin 0) ∨ (Dbl.fin 1).lt x) ↔ x.PassPah := by
  cases x <;> simp [Dbl.lt, Dbl.PassPah]

/-- What the clamp does to one entry. -/
noncomputable def relu (x : Dbl) : Dbl := if x.lt (.fin 0) then .fin 0 else x

theorem relu_nonneg (x : Dbl) : ¬ (relu x).lt (.fin 0) := by
  unfold relu
  split_ifs with h
  · simp
  · exact h

theorem clamp_ok (n : ℕ) (v : List Dbl) (h : n ≤ v.length) : clampD n v = ok (v.mapIdx fun i x => if i < n then relu x else x) := by
  induction n with
  | zero => simp only [clampD]; congr 1; apply List.ext_getElem <;> simp
  | succ n ih =>
    have hn : n < (v.mapIdx fun i x => if i < n then relu x else x).length := by simpa using h
    simp only [clampD, ih (by omega), ok_bind, idx_ok hn, List.getElem_mapIdx, lt_irrefl, if_false, setIdx, hn, if_true]
    split_ifs with hx
    · congr 1
      apply List.ext_getElem
      · simp
      · intro i h1 h2
        simp only [List.getElem_set, List.getElem_mapIdx]
        by_cases hi : n = i
        · subst hi; simp [relu, hx]
        · simp only [hi, if_false]
          have : (i < n + 1) = (i < n) := by simp; omega
          simp [this]
    · congr 1
      apply List.ext_getElem
      · simp
      · intro i h1 h2
        simp only [List.getElem_mapIdx]
        by_cases hi : n = i
        · subst hi; simp [relu, hx]
        · have : (i < n + 1) = (i < n) := by simp; omega
          simp [this]

theorem clamp_ub (n : ℕ) (v : List Dbl) (h : v.length < n) : clampD n v = ub := by
  induction n with
  | zero => omega
  | succ n ih =>
    by_cases hn : v.length < n
    · simp [clampD, ih hn]
    · have : n = v.length := by omega
      subst this
      rw [clampD, clamp_ok _ _ le_rfl, ok_bind, idx_ub (by simp)]; rfl

theorem clamp_neg (n : ℕ) (v : List Dbl) :
    (¬ ∃ x ∈ v.mapIdx (fun i x => if i < n then relu x else x), x.lt (.fin 0)) ↔ ∀ i (h : i < v.length), n ≤ i → v[i].PassNonneg := by
  constructor
  · intro hno i hi hn
    rw [← not_lt_zero]
    intro hl
    refine hno ⟨v[i], ?_, hl⟩
    rw [List.mem_iff_getElem]
    exact ⟨i, by simpa using hi, by simp [not_lt.mpr hn]⟩
  · rintro hall ⟨x, hx, hl⟩
    obtain ⟨i, hi, rfl⟩ := List.mem_iff_getElem.mp hx
    simp only [List.getElem_mapIdx] at hl
    have hi' : i < v.length := by simpa using hi
    split_ifs at hl with h
    · exact relu_nonneg _ hl
    · exact (not_lt_zero _).2 (hall i hi' (not_lt.mp h)) hl

theorem clamp_map (n : ℕ) (v : List Dbl) (h : ∀ i (h : i < v.length), n ≤ i → v[i].PassNonneg) :
    v.mapIdx (fun i x => if i < n then relu x else x) = v.map relu := by
  apply List.ext_getElem
  · simp
  · intro i h1 h2
    simp only [List.getElem_mapIdx, List.getElem_map]
    split_ifs with hi
    · rfl
    · rw [relu, if_neg ((not_lt_zero _).2 (h i (by simpa using h1) (not_lt.mp hi)))]

theorem add_nan (F : Fp) (x : Dbl) : F.add x .nan = .nan := by cases x <;> rfl
theorem nan_add (F : Fp) (x : Dbl) : F.add .nan x = .nan := rfl

theorem fold_nan (F : Fp) : ∀ (l : List Dbl) (z : Dbl), z = .nan ∨ .nan ∈ l → l.foldl F.add z = .nan
  | [], z, h => by simpa using h
  | x :: l, z, h => by
    rw [List.foldl_cons]
    refine fold_nan F l _ ?_
    rcases h with rfl | h
    · exact .inl rfl
    · rcases List.mem_cons.1 h with rfl | h
      · exact .inl (add_nan F z)
      · exact .inr h

end FpState

open FpState

/-- The object after an accepted call. -/
noncomputable def stateAfterD (F : Fp) (a : DArgs) : DState where
  T := a.T
  P := a.P
  rhoGas := a.rhoGas
  MWGas := F.div (F.mul (F.mul a.rhoGas (F.mul (F.rnd Na) (F.rnd kb))) a.T) a.P
  muGas := a.muGas
  yGas := a.yGas
  yPah := a.yPah
  nsoot := a.nsoot
  sootVar := a.sootVar.map fun x => if x.lt (.fin 0) then .fin 0 else x
  cMin := a.cMin
  Ntar := a.Ntar
  tarVar := a.tarVar.map fun x => if x.lt (.fin 0) then .fin 0 else x

/-! ## C77 -/

/-- **C77 (what is accepted).** For every rounding: a call with vectors of sufficient length is accepted exactly if it passes the comparisons,
which every NaN does; an accepted call stores its arguments unchanged except that negative soot and tar variables become zero. -/
theorem C77_accepts_iff (F : Fp) (s : DState) (a : DArgs) (hs : s.nsoot.toNat ≤ a.sootVar.length) (ht : s.Ntar.toNat ≤ a.tarVar.length) :
    ((setStateD F s a).2 = ok () ↔ AdmissibleD F s.nsoot.toNat s.Ntar.toNat s.yPah.length a) ∧
      ((setStateD F s a).2 = ok () → (setStateD F s a).1 = stateAfterD F a) := by
  unfold setStateD
  by_cases h1 : a.T.le (.fin 0)
  · rw [if_pos h1]
    exact ⟨⟨fun h => (by cases h), fun h => absurd h1 ((not_le_zero _).2 h.T)⟩, fun h => (by cases h)⟩
  rw [if_neg h1]
  by_cases h2 : a.P.le (.fin 0)
  · simp only [if_pos h2]
    exact ⟨⟨fun h => (by cases h), fun h => absurd h2 ((not_le_zero _).2 h.P)⟩, fun h => (by cases h)⟩
  simp only [if_neg h2]
  by_cases h3 : a.rhoGas.le (.fin 0)
  · simp only [if_pos h3]
    exact ⟨⟨fun h => (by cases h), fun h => absurd h3 ((not_le_zero _).2 h.rho)⟩, fun h => (by cases h)⟩
  simp only [if_neg h3]
  by_cases h4 : a.muGas.le (.fin 0)
  · simp only [if_pos h4]
    exact ⟨⟨fun h => (by cases h), fun h => absurd h4 ((not_le_zero _).2 h.mu)⟩, fun h => (by cases h)⟩
  simp only [if_neg h4]
  by_cases h5 : a.cMin.le (.fin 0)
  · simp only [if_pos h5]
    exact ⟨⟨fun h => (by cases h), fun h => absurd h5 ((not_le_zero _).2 h.cMin)⟩, fun h => (by cases h)⟩
  simp only [if_neg h5, setStateVecD, clamp_ok _ _ hs, clamp_ok _ _ ht]
  by_cases h6 : ∃ x ∈ a.sootVar.mapIdx (fun i x => if i < s.nsoot.toNat then relu x else x), x.lt (.fin 0)
  · rw [if_pos h6]
    exact ⟨⟨fun h => (by cases h), fun h => absurd h6 ((clamp_neg _ _).2 h.soot)⟩, fun h => (by cases h)⟩
  rw [if_neg h6]
  by_cases h7 : ∃ x ∈ a.tarVar.mapIdx (fun i x => if i < s.Ntar.toNat then relu x else x), x.lt (.fin 0)
  · rw [if_pos h7]
    exact ⟨⟨fun h => (by cases h), fun h => absurd h7 ((clamp_neg _ _).2 h.tar)⟩, fun h => (by cases h)⟩
  rw [if_neg h7]
  by_cases h8 : ∃ y ∈ a.yGas, (Dbl.fin 1).lt (if y.lt (.fin 0) then .fin 0 else y)
  · rw [if_pos h8]
    refine ⟨⟨fun h => (by cases h), fun h => ?_⟩, fun h => (by cases h)⟩
    obtain ⟨y, hy, hl⟩ := h8
    exact absurd hl ((not_gt_one y).2 (h.gas y hy))
  rw [if_neg h8]
  by_cases h9 : a.yPah.length ≠ s.yPah.length
  · rw [if_pos h9]
    exact ⟨⟨fun h => (by cases h), fun h => absurd h.pahSize h9⟩, fun h => (by cases h)⟩
  rw [if_neg h9]
  by_cases h10 : ∃ y ∈ a.yPah, y.lt (.fin 0) ∨ (Dbl.fin 1).lt y
  · rw [if_pos h10]
    refine ⟨⟨fun h => (by cases h), fun h => ?_⟩, fun h => (by cases h)⟩
    obtain ⟨y, hy, hl⟩ := h10
    exact absurd hl ((not_pah y).2 (h.pah y hy))
  rw [if_neg h10]
  by_cases h11 : (Dbl.fin 1).lt (a.yPah.foldl F.add (.fin 0))
  · rw [if_pos h11]
    exact ⟨⟨fun h => (by cases h), fun h => absurd h11 h.pahSum⟩, fun h => (by cases h)⟩
  rw [if_neg h11]
  have q1 := (clamp_neg _ _).1 h6
  have q2 := (clamp_neg _ _).1 h7
  refine ⟨⟨fun _ => ⟨(not_le_zero _).1 h1, (not_le_zero _).1 h2, (not_le_zero _).1 h3, (not_le_zero _).1 h4, (not_le_zero _).1 h5, q1, q2,
    fun y hy => (not_gt_one y).1 fun hl => h8 ⟨y, hy, hl⟩, not_not.1 h9, fun y hy => (not_pah y).1 fun hl => h10 ⟨y, hy, hl⟩, h11⟩,
    fun _ => rfl⟩, fun _ => ?_⟩
  rw [clamp_map _ _ q1, clamp_map _ _ q2]
  rfl

/-- **C77 (refutation, general form).** Replacing any numbers of an accepted call by NaN gives an accepted call. -/
theorem C77_nan_accepted (F : Fp) (s : DState) (a b : DArgs) (hs : s.nsoot.toNat ≤ a.sootVar.length) (ht : s.Ntar.toNat ≤ a.tarVar.length)
    (hok : (setStateD F s a).2 = ok ()) (hab : NanAt a b) : (setStateD F s b).2 = ok () ∧ (setStateD F s b).1 = stateAfterD F b := by
  have h := (C77_accepts_iff F s a hs ht).1.1 hok
  have l1 := hab.soot.length_eq
  have l2 := hab.tar.length_eq
  have el : ∀ {l m : List Dbl}, List.Forall₂ OrNan l m → ∀ i (h : i < m.length) (h' : i < l.length), OrNan l[i] m[i] :=
    fun q i h h' => q.get h' h
  have mem : ∀ {l m : List Dbl}, List.Forall₂ OrNan l m → ∀ y ∈ m, y = .nan ∨ y ∈ l := by
    intro l m q y hy
    obtain ⟨i, hi, rfl⟩ := List.mem_iff_getElem.1 hy
    have hi' : i < l.length := by rw [q.length_eq]; exact hi
    rcases el q i hi hi' with e | e
    · exact .inr (e ▸ List.getElem_mem hi')
    · exact .inl e
  have pos : ∀ {x y : Dbl}, x.PassPos → OrNan x y → y.PassPos := by
    rintro x y hx (rfl | rfl)
    · exact hx
    · exact .inl rfl
  have adm : AdmissibleD F s.nsoot.toNat s.Ntar.toNat s.yPah.length b := by
    refine ⟨pos h.T hab.T, pos h.P hab.P, pos h.rho hab.rho, pos h.mu hab.mu, pos h.cMin hab.cMin, fun i hi hn => ?_, fun i hi hn => ?_,
      fun y hy => ?_, hab.pah.length_eq.symm.trans h.pahSize, fun y hy => ?_, ?_⟩
    · rcases el hab.soot i hi (by omega) with e | e
      · rw [e]; exact h.soot i (by omega) hn
      · exact .inl e
    · rcases el hab.tar i hi (by omega) with e | e
      · rw [e]; exact h.tar i (by omega) hn
      · exact .inl e
    · rcases mem hab.gas y hy with e | e
      · exact .inl e
      · exact h.gas y e
    · rcases mem hab.pah y hy with e | e
      · exact .inl e
      · exact h.pah y e
    · by_cases hn : Dbl.nan ∈ b.yPah
      · rw [fold_nan F _ _ (.inr hn)]; exact fun h => h
      · have : b.yPah = a.yPah := by
          apply List.ext_getElem hab.pah.length_eq.symm
          intro i h1 h2
          rcases el hab.pah i h1 h2 with e | e
          · exact e
          · exact absurd (e ▸ List.getElem_mem h1) hn
        rw [this]; exact h.pahSum
  have q := C77_accepts_iff F s b (by omega) (by omega)
  exact ⟨q.1.2 adm, q.2 (q.1.2 adm)⟩

/-- **C77 (partial: finite inputs).** On finite numbers with exact arithmetic the floating-point version is the real one of C01-C06. -/
theorem C77_agrees_partial (s : State) (a : SetArgs) :
    setStateD .exact s.toD a.toD = ((setState s a).1.toD, (setState s a).2) := by
  have cl : ∀ n v, clampD n (v.map .fin) = Res.map' (List.map Dbl.fin) (clampLoop n v) := by
    intro n v
    by_cases h : n ≤ v.length
    · rw [clampLoop_ok n v h, clamp_ok n _ (by simpa using h), map'_ok]
      congr 1
      apply List.ext_getElem
      · simp
      · intro i h1 h2
        simp only [List.getElem_mapIdx, List.getElem_map]
        split_ifs
        · by_cases hx : v[i]'(by simpa using h1) < 0
          · simp [relu, hx, hx.le]
          · simp [relu, hx, not_lt.1 hx]
        · rfl
    · rw [clampLoop_ub n v (by omega), clamp_ub n _ (by simpa using h)]; rfl
  have ex0 : ∀ v : List ℝ, (∃ x ∈ v.map Dbl.fin, x.lt (.fin 0)) ↔ ∃ x ∈ v, x < 0 := by intro v; simp
  have exg : ∀ v : List ℝ, (∃ y ∈ v.map Dbl.fin, (Dbl.fin 1).lt (if y.lt (.fin 0) then .fin 0 else y)) ↔ ∃ y ∈ v, (if y < 0 then (0 : ℝ) else y) > 1 := by
    intro v
    simp only [List.mem_map, exists_exists_and_eq_and, lt_fin]
    refine exists_congr fun y => and_congr_right fun _ => ?_
    split_ifs <;> simp
  have exp : ∀ v : List ℝ, (∃ y ∈ v.map Dbl.fin, y.lt (.fin 0) ∨ (Dbl.fin 1).lt y) ↔ ∃ y ∈ v, y < 0 ∨ y > 1 := by intro v; simp
  have fo : ∀ (v : List ℝ) z, (v.map Dbl.fin).foldl Fp.exact.add (.fin z) = .fin (v.foldl (· + ·) z) := by
    intro v
    induction v with
    | nil => intro z; rfl
    | cons x v ih => intro z; rw [List.map_cons, List.foldl_cons, exact_add, ih, List.foldl_cons]
  have vec : ∀ (s : State), setStateVecD .exact s.toD a.toD = ((setStateVec s a).1.toD, (setStateVec s a).2) := by
    intro s
    unfold setStateVecD setStateVec
    simp only [SetArgs.toD, State.toD, cl]
    cases h1 : clampLoop s.nsoot.toNat a.sootVar with
    | exn e => rfl
    | ub => rfl
    | nonfin => rfl
    | ok sv =>
      simp only [map'_ok, ex0]
      by_cases g1 : ∃ x ∈ sv, x < 0
      · simp only [if_pos g1]
      simp only [if_neg g1]
      cases h2 : clampLoop s.Ntar.toNat a.tarVar with
      | exn e => rfl
      | ub => rfl
      | nonfin => rfl
      | ok tv =>
        simp only [map'_ok, ex0, exg, exp, fo, List.length_map, lt_fin, gt_iff_lt]
        split_ifs <;> rfl
  unfold setStateD setState
  have hT : a.toD.T = .fin a.T := rfl
  have hP : a.toD.P = .fin a.P := rfl
  have hr : a.toD.rhoGas = .fin a.rhoGas := rfl
  have hm : a.toD.muGas = .fin a.muGas := rfl
  have hc : a.toD.cMin = .fin a.cMin := rfl
  simp only [hT, hP, hr, hm, hc, le_fin]
  split_ifs with h1 h2 h3 h4 h5
  · rfl
  · rfl
  · rfl
  · rfl
  · rfl
  · rw [← vec]
    simp only [exact_rnd, exact_mul, exact_div (not_le.1 h2).ne']
    rfl

/-- A concrete accepted call, as doubles. -/
theorem argsEx_D : (setStateD .exact (State.mk' 3 0).toD argsEx.toD).2 = ok () := by
  rw [C77_agrees_partial]
  rw [C01_setState_accepts _ _ (by simp [State.mk', argsEx]) (by simp [State.mk']) (by simpa [State.mk', nPah] using argsEx_admissible)]

/-- **C77 (refutation).** NaN for the temperature is accepted and stored; so is an infinite temperature. -/
theorem C77_finite_false :
    (∃ s a, (setStateD .exact s a).2 = ok () ∧ ¬ a.Finite ∧ (setStateD .exact s a).1.T = .nan) ∧
      ∃ s a, (setStateD .exact s a).2 = ok () ∧ ¬ a.Finite ∧ (setStateD .exact s a).1.T = .pinf := by
  have hs : (State.mk' 3 0).toD.nsoot.toNat ≤ argsEx.toD.sootVar.length := by simp [State.mk', State.toD, SetArgs.toD, argsEx]
  have ht : (State.mk' 3 0).toD.Ntar.toNat ≤ argsEx.toD.tarVar.length := by simp [State.mk', State.toD]
  have r : ∀ l : List Dbl, List.Forall₂ OrNan l l := fun l => by induction l with
    | nil => exact .nil
    | cons x l ih => exact .cons (.inl rfl) ih
  constructor
  · obtain ⟨h1, h2⟩ := C77_nan_accepted .exact _ argsEx.toD { argsEx.toD with T := .nan } hs ht argsEx_D
      ⟨.inr rfl, .inl rfl, .inl rfl, .inl rfl, .inl rfl, r _, r _, r _, r _, rfl, rfl⟩
    refine ⟨_, _, h1, fun h => ?_, by rw [h2]; rfl⟩
    obtain ⟨x, hx⟩ := h.T
    cases hx
  · have q := (C77_accepts_iff .exact (State.mk' 3 0).toD argsEx.toD hs ht).1.1 argsEx_D
    have q2 := C77_accepts_iff .exact (State.mk' 3 0).toD { argsEx.toD with T := .pinf } hs ht
    have h1 := q2.1.2 ⟨.inr (.inl rfl), q.P, q.rho, q.mu, q.cMin, q.soot, q.tar, q.gas, q.pahSize, q.pah, q.pahSum⟩
    refine ⟨_, _, h1, fun h => ?_, by rw [q2.2 h1]; rfl⟩
    obtain ⟨x, hx⟩ := h.T
    cases hx

/-- **C77 (partial: what is rejected).** Minus infinity for a scalar, plus infinity for a gas or PAH mass fraction and minus infinity for a PAH
mass fraction are never accepted. -/
theorem C77_rejects_partial (F : Fp) (s : DState) (a : DArgs) (hs : s.nsoot.toNat ≤ a.sootVar.length) (ht : s.Ntar.toNat ≤ a.tarVar.length)
    (h : a.T = .ninf ∨ a.P = .ninf ∨ a.rhoGas = .ninf ∨ a.muGas = .ninf ∨ a.cMin = .ninf ∨ .pinf ∈ a.yGas ∨ .pinf ∈ a.yPah ∨ .ninf ∈ a.yPah) :
    (setStateD F s a).2 ≠ ok () := by
  intro hok
  have q := (C77_accepts_iff F s a hs ht).1.1 hok
  have n : ¬ Dbl.ninf.PassPos := by simp [Dbl.PassPos]
  rcases h with h | h | h | h | h | h | h | h
  · exact n (h ▸ q.T)
  · exact n (h ▸ q.P)
  · exact n (h ▸ q.rho)
  · exact n (h ▸ q.mu)
  · exact n (h ▸ q.cMin)
  · simpa [Dbl.PassGas] using q.gas _ h
  · simpa [Dbl.PassPah] using q.pah _ h
  · simpa [Dbl.PassPah] using q.pah _ h

/-- **C77 (consequence).** After accepting a NaN density every gas concentration read from the object is NaN. -/
theorem C77_nan_spreads (F : Fp) (s : DState) (a : DArgs) (hs : s.nsoot.toNat ≤ a.sootVar.length) (ht : s.Ntar.toNat ≤ a.tarVar.length)
    (hok : (setStateD F s a).2 = ok ()) (hr : a.rhoGas = .nan) (sp : GasSp) (y : Dbl) :
    (setStateD F s a).1.gasC F sp = ok y → y = .nan := by
  rw [(C77_accepts_iff F s a hs ht).2 hok]
  intro h
  simp only [DState.gasC, bind_eq_ok] at h
  obtain ⟨z, _, h⟩ := h
  rw [ok.injEq] at h
  rw [← h, show (stateAfterD F a).rhoGas = .nan from hr]
  rfl

/-- **C77 (consequence for an infinite density).** Plus infinity is accepted for the density. If the rounded gas constant is a positive number and
the temperature is finite, the stored molar mass is then infinite for a finite pressure and NaN for an infinite one, the concentration of every
absent species is NaN and that of every species with a positive mass fraction is infinite. -/
theorem C77_infinite_density (F : Fp) (s : DState) (a : DArgs) (hs : s.nsoot.toNat ≤ a.sootVar.length) (ht : s.Ntar.toNat ≤ a.tarVar.length)
    (hok : (setStateD F s a).2 = ok ()) (hr : a.rhoGas = .pinf) {t r : ℝ} (hT : a.T = .fin t) (hR : F.mul (F.rnd Na) (F.rnd kb) = .fin r) (r0 : 0 < r) :
    ((∃ p, a.P = .fin p) → (setStateD F s a).1.MWGas = .pinf) ∧ (a.P = .pinf → (setStateD F s a).1.MWGas = .nan) ∧
    ∀ (sp : GasSp) (y : ℝ) (m : ℝ), 0 < m → F.rnd (gasMW sp) = .fin m → a.yGas[sp.toNat]? = some (.fin y) →
      (y = 0 → (setStateD F s a).1.gasC F sp = ok .nan) ∧ (0 < y → (setStateD F s a).1.gasC F sp = ok .pinf) := by
  have q := (C77_accepts_iff F s a hs ht).1.1 hok
  rw [(C77_accepts_iff F s a hs ht).2 hok]
  have t0 : 0 < t := by
    have := q.T
    rw [hT] at this
    simpa [Dbl.PassPos] using this
  have e1 : F.mul (F.mul .pinf (.fin r)) (.fin t) = .pinf := by
    rw [show F.mul .pinf (.fin r) = Dbl.infTimes r from rfl, Dbl.infTimes, if_neg r0.ne', if_pos r0]
    rw [show F.mul .pinf (.fin t) = Dbl.infTimes t from rfl, Dbl.infTimes, if_neg t0.ne', if_pos t0]
  refine ⟨fun ⟨p, hp⟩ => ?_, fun hp => ?_, fun sp y m m0 hm hy => ?_⟩
  · have p0 : 0 < p := by
      have := q.P
      rw [hp] at this
      simpa [Dbl.PassPos] using this
    simp only [stateAfterD, hr, hT, hR, hp, e1]
    exact if_pos p0.le
  · simp only [stateAfterD, hr, hT, hR, hp, e1]
    rfl
  · have hi : idx (stateAfterD F a).yGas sp.toNat = ok (.fin y) := by
      have hl : sp.toNat < a.yGas.length := by
        by_contra hc
        rw [List.getElem?_eq_none (by omega)] at hy
        cases hy
      rw [List.getElem?_eq_getElem hl, Option.some.injEq] at hy
      show idx a.yGas sp.toNat = _
      rw [idx_ok hl, hy]
    have hr' : (stateAfterD F a).rhoGas = .pinf := hr
    simp only [DState.gasC, hi, ok_bind, hr', hm]
    rw [show F.mul .pinf (.fin y) = Dbl.infTimes y from rfl]
    refine ⟨fun h => ?_, fun h => ?_⟩
    · rw [Dbl.infTimes, if_pos h]; rfl
    · rw [Dbl.infTimes, if_neg h.ne', if_pos h]
      exact congrArg ok (if_pos m0.le)

/-- The hypotheses hold in exact arithmetic. -/
example : Fp.exact.mul (Fp.exact.rnd Na) (Fp.exact.rnd kb) = .fin (Na * kb) ∧ 0 < Na * kb ∧ Fp.exact.rnd (gasMW .O2) = .fin (gasMW .O2) ∧
    (setStateD .exact (State.mk' 3 0).toD { argsEx.toD with rhoGas := .pinf }).2 = ok () := by
  have hs : (State.mk' 3 0).toD.nsoot.toNat ≤ argsEx.toD.sootVar.length := by simp [State.mk', State.toD, SetArgs.toD, argsEx]
  have ht : (State.mk' 3 0).toD.Ntar.toNat ≤ argsEx.toD.tarVar.length := by simp [State.mk', State.toD]
  have q := (C77_accepts_iff .exact (State.mk' 3 0).toD argsEx.toD hs ht).1.1 argsEx_D
  exact ⟨rfl, by unfold Na kb; norm_num, rfl, (C77_accepts_iff .exact (State.mk' 3 0).toD { argsEx.toD with rhoGas := .pinf } hs ht).1.2
    ⟨q.T, q.P, .inr (.inl rfl), q.mu, q.cMin, q.soot, q.tar, q.gas, q.pahSize, q.pah, q.pahSum⟩⟩

end Soot
