import Verif.MomicDown
import Verif.Props.MomicInterp
import Mathlib.Algebra.Order.BigOperators.Ring.Finset

/-!
# C90: the moment downselection of MOMIC

Specification: the vector after repair is `repaired M`, and the result is the longest run of positive moments at its
beginning, `List.takeWhile`.
-/

namespace Soot

open Res Real
open scoped Classical

/-- Moments 1 and 2 replaced, where not positive, by those of the lognormal distribution with the given `M0`, median mass
`1e-21` kg and `σ = 3`. -/
noncomputable def repaired : List ℝ → List ℝ
  | a :: b :: c :: l =>
    a :: (if 0 < b then b else lognormalMoment a (log 1E-21) 3 1) ::
      (if 0 < c then c else lognormalMoment a (log 1E-21) 3 2) :: l
  | l => l

namespace MDown

theorem prep_ok {M : List ℝ} (h3 : 3 ≤ M.length) (h0 : 0 < M.getD 0 0) : downPrep M = ok (some (repaired M)) := by
  obtain ⟨a, b, c, l, rfl⟩ : ∃ a b c l, M = a :: b :: c :: l := by
    match M, h3 with
    | a :: b :: c :: l, _ => exact ⟨a, b, c, l, rfl⟩
  have ha : 0 < a := by simpa using h0
  have e : exp (log 1E-21) = (1E-21 : ℝ) := exp_log (by norm_num)
  have e1 : lognormalMoment a (log 1E-21) 3 1 = a * 1E-21 * exp (0.5 * 3 ^ 2) := by
    rw [lognormalMoment, exp_add, one_mul, e, ← mul_assoc]; congr 2; norm_num
  have e2 : lognormalMoment a (log 1E-21) 3 2 = a * 1E-21 ^ 2 * exp (0.5 * 4 * 3 ^ 2) := by
    rw [lognormalMoment, exp_add, two_mul (log _), exp_add, e, show (2 : ℝ) ^ 2 * 3 ^ 2 / 2 = 0.5 * 4 * 3 ^ 2 by norm_num]
    ring
  rw [repaired, e1, e2]
  by_cases hb : b ≤ 0 <;> by_cases hc : c ≤ 0 <;>
    simp [downPrep, idx, setIdx, hb, hc, not_le.2 ha, not_lt.2, not_le.1, *]

theorem pass_ok {L : List ℝ} {p : ℕ} (hp : p ≤ L.length) (hpos : ∀ i (h : i < L.length), i < p → 0 < L[i]) :
    ∀ d i N z, N - i = d → p ≤ N → N ≤ L.length → ∃ N' z', downPass L i N z = ok (N', z') ∧ p ≤ N' ∧ N' ≤ N ∧
      (z = true → z' = true) ∧ (N' < N → z' = true) ∧ (z = false → z' = true → N' < N) ∧
      (z' = false → ∀ j (h : j < L.length), i ≤ j → j < N' → 0 < L[j]) := by
  intro d
  induction d using Nat.strong_induction_on with
  | _ d ih =>
    intro i N z hd hpN hN
    rw [downPass]
    by_cases hi : i < N
    · rw [if_pos hi, idx_ok (by omega), ok_bind]
      by_cases hx : L[i] ≤ 0
      · rw [if_pos hx]
        have hip : p ≤ i := by
          by_contra hc
          exact absurd (hpos i (by omega) (by omega)) (not_lt.2 hx)
        obtain ⟨N', z', h1, h2, h3, h4, h5, h6, h7⟩ := ih (N - 1 - (i + 1)) (by omega) (i + 1) (N - 1) true rfl
          (by omega) (by omega)
        have hz : z' = true := h4 rfl
        exact ⟨N', z', h1, h2, by omega, fun _ => hz, fun _ => hz, fun _ _ => by omega, fun h => by simp [hz] at h⟩
      · rw [if_neg hx]
        obtain ⟨N', z', h1, h2, h3, h4, h5, h6, h7⟩ := ih (N - (i + 1)) (by omega) (i + 1) N z rfl hpN hN
        refine ⟨N', z', h1, h2, h3, h4, h5, h6, fun hz j hj hij hjN => ?_⟩
        rcases Nat.eq_or_lt_of_le hij with rfl | h
        · exact not_le.1 hx
        · exact h7 hz j hj h hjN
    · rw [if_neg hi]
      exact ⟨N, z, rfl, hpN, le_rfl, id, fun h => absurd h (lt_irrefl _), fun h h' => by simp [h] at h',
        fun _ j _ h1 h2 => by omega⟩

/-- The loop ends at the first non-positive moment, whatever the order in which entries are dropped. -/
theorem loop_ok {L : List ℝ} {p : ℕ} (h3 : 3 ≤ p) (hp : p ≤ L.length)
    (hpos : ∀ i (h : i < L.length), i < p → 0 < L[i]) (hend : ∀ h : p < L.length, L[p] ≤ 0) :
    ∀ d N, N = d → p ≤ N → N ≤ L.length → DoWhile (downBody L) N (ok p) := by
  intro d
  induction d using Nat.strong_induction_on with
  | _ d ih =>
    intro N hd hpN hN
    obtain ⟨N', z', h1, h2, h3', -, h5, h6, h7⟩ := pass_ok hp hpos (N - 0) 0 N false rfl hpN hN
    have hb : downBody L N = ok (N', decide (3 < N') && z') := by rw [downBody, h1]; rfl
    cases hz : z' with
    | false =>
      have : N' = p := by
        by_contra hne
        have hlt : p < L.length := by omega
        exact absurd (h7 hz p hlt (by omega) (by omega)) (not_lt.2 (hend hlt))
      rw [hz, Bool.and_false, this] at hb
      exact .stop hb
    | true =>
      have hlt := h6 rfl hz
      by_cases h3N : 3 < N'
      · rw [hz, decide_eq_true h3N] at hb
        exact .again hb (ih N' (by omega) N' rfl h2 (by omega))
      · rw [hz, decide_eq_false h3N] at hb
        have : N' = p := by omega
        rw [this] at hb
        exact .stop hb

theorem doWhile_unique {σ : Type} {body : σ → Res (σ × Bool)} {x : σ} {r r' : Res σ} (h : DoWhile body x r)
    (h' : DoWhile body x r') : r = r' := by
  induction h with
  | stop e =>
    cases h' with
    | stop e' => have := e.symm.trans e'; simp at this; rw [this]
    | again e' _ => have := e.symm.trans e'; simp at this
    | ub e' => have := e.symm.trans e'; simp at this
  | again e _ ih =>
    cases h' with
    | stop e' => have := e.symm.trans e'; simp at this
    | again e' h2 =>
      have := e.symm.trans e'; simp at this; subst this; exact ih h2
    | ub e' => have := e.symm.trans e'; simp at this
  | ub e =>
    cases h' with
    | stop e' => have := e.symm.trans e'; simp at this
    | again e' _ => have := e.symm.trans e'; simp at this
    | ub _ => rfl

theorem down_unique {N : ℕ} {M : List ℝ} {r r' : Res (ℕ × List ℝ)} (h : MomicDown N M r) (h' : MomicDown N M r') :
    r = r' := by
  cases h with
  | prepUb e =>
    cases h' with
    | prepUb _ => rfl
    | early e' => have := e.symm.trans e'; simp at this
    | loop e' _ => have := e.symm.trans e'; simp at this
    | loopUb e' _ => rfl
  | early e =>
    cases h' with
    | prepUb e' => have := e.symm.trans e'; simp at this
    | early _ => rfl
    | loop e' _ => have := e.symm.trans e'; simp at this
    | loopUb e' _ => have := e.symm.trans e'; simp at this
  | loop e h =>
    cases h' with
    | prepUb e' => have := e.symm.trans e'; simp at this
    | early e' => have := e.symm.trans e'; simp at this
    | loop e' h' =>
      have := e.symm.trans e'; simp at this; subst this
      have := doWhile_unique h h'; simp at this; rw [this]
    | loopUb e' h' =>
      have := e.symm.trans e'; simp at this; subst this
      have := doWhile_unique h h'; simp at this
  | loopUb e h =>
    cases h' with
    | prepUb e' => rfl
    | early e' => have := e.symm.trans e'; simp at this
    | loop e' h' =>
      have := e.symm.trans e'; simp at this; subst this
      have := doWhile_unique h h'; simp at this
    | loopUb e' h' => rfl

theorem run_facts (L : List ℝ) : (L.takeWhile fun x => decide (0 < x)).length ≤ L.length ∧
    (∀ i (h : i < L.length), i < (L.takeWhile fun x => decide (0 < x)).length → 0 < L[i]) ∧
    (∀ h : (L.takeWhile fun x => decide (0 < x)).length < L.length,
      L[(L.takeWhile fun x => decide (0 < x)).length] ≤ 0) ∧
    L.take (L.takeWhile fun x => decide (0 < x)).length = L.takeWhile fun x => decide (0 < x) := by
  induction L with
  | nil => simp
  | cons a l ih =>
    by_cases ha : 0 < a
    · simp only [List.takeWhile_cons, decide_eq_true ha, if_true, List.length_cons, List.take_succ_cons,
        List.getElem_cons_succ]
      obtain ⟨h1, h2, h3, h4⟩ := ih
      refine ⟨by omega, ?_, fun h => h3 (by omega), by rw [h4]⟩
      intro i h hi
      cases i with
      | zero => simpa using ha
      | succ i => simpa using h2 i (by omega) (by omega)
    · simp [ha, not_lt.1 ha]

theorem repaired_length (M : List ℝ) : (repaired M).length = M.length := by
  match M with
  | [] => rfl
  | [_] => rfl
  | [_, _] => rfl
  | _ :: _ :: _ :: _ => rfl

theorem repaired_three {M : List ℝ} (h3 : 3 ≤ M.length) (h0 : 0 < M.getD 0 0) :
    3 ≤ ((repaired M).takeWhile fun x => decide (0 < x)).length := by
  match M, h3 with
  | a :: b :: c :: l, _ =>
    have ha : 0 < a := by simpa using h0
    have hl : ∀ r, 0 < lognormalMoment a (log 1E-21) 3 r := fun r => by unfold lognormalMoment; positivity
    have hb : 0 < (if 0 < b then b else lognormalMoment a (log 1E-21) 3 1) := by split_ifs with h <;> [exact h; exact hl 1]
    have hc : 0 < (if 0 < c then c else lognormalMoment a (log 1E-21) 3 2) := by split_ifs with h <;> [exact h; exact hl 2]
    simp only [repaired, List.takeWhile_cons, decide_eq_true ha, decide_eq_true hb, decide_eq_true hc, if_true,
      List.length_cons]
    omega

end MDown

/-- **C90.** From three moments on, with `M0` positive, the function ends in exactly one way: `Nmom` and the vector hold
the longest run of positive moments at the beginning of the repaired vector, at least three and at most as many as were
given.  Nothing depends on the earlier value of `Nmom`. -/
theorem C90_downselect (Nmom : ℕ) (M : List ℝ) (h3 : 3 ≤ M.length) (h0 : 0 < M.getD 0 0) :
    ∃ k L, (∀ r, MomicDown Nmom M r ↔ r = ok (k, L)) ∧ L = (repaired M).takeWhile (fun x => decide (0 < x)) ∧
      k = L.length ∧ 3 ≤ k ∧ k ≤ M.length := by
  obtain ⟨h1, h2, h4, h5⟩ := MDown.run_facts (repaired M)
  have hr := MDown.repaired_three h3 h0
  have hlen := MDown.repaired_length M
  have hw := MDown.loop_ok hr h1 h2 h4 _ (repaired M).length rfl h1 le_rfl
  have hd := MomicDown.loop (Nmom := Nmom) (MDown.prep_ok h3 h0) hw
  have he : resizeTo (repaired M) ((repaired M).takeWhile fun x => decide (0 < x)).length =
      (repaired M).takeWhile fun x => decide (0 < x) := by
    rw [resizeTo, h5, Nat.sub_eq_zero_of_le h1]; simp
  rw [he] at hd
  refine ⟨_, _, fun r => ⟨fun h => MDown.down_unique h hd, fun h => h ▸ hd⟩, rfl, rfl, hr, by omega⟩

/-- **C90.** What it leaves can always be inverted: the difference table of the kept moments is built, and every
fractional moment of every real order is positive. -/
theorem C90_closure (Nmom : ℕ) (M : List ℝ) (h3 : 3 ≤ M.length) (h0 : 0 < M.getD 0 0) (k : ℕ) (L : List ℝ)
    (h : MomicDown Nmom M (ok (k, L))) :
    ∃ T, setDiffTable ⟨k, fun _ _ => none⟩ L = ok T ∧ ∀ r, ∃ v, momicMr T r = ok v ∧ 0 < v := by
  obtain ⟨k', L', hi, hL, hk, hk3, -⟩ := C90_downselect Nmom M h3 h0
  have e := (hi _).1 h
  simp at e
  obtain ⟨rfl, rfl⟩ := e
  obtain ⟨T, hT, hr⟩ := C32_momic_interpolation k L hk3 hk.symm
  refine ⟨T, hT, fun r => ?_⟩
  obtain ⟨v, hv, hp, -⟩ := hr r
  refine ⟨v, hv, (hp fun j hj _ => ?_).1⟩
  have hm : L[j] ∈ (repaired M).takeWhile fun x => decide (0 < x) := by rw [← hL]; exact List.getElem_mem hj
  obtain ⟨h1, h2, -, h5⟩ := MDown.run_facts (repaired M)
  obtain ⟨i, hi, he⟩ := List.mem_iff_getElem.1 hm
  have hi' : i < (repaired M).length := by omega
  have e2 : ((repaired M).takeWhile fun x => decide (0 < x))[i] = (repaired M)[i] := by
    have := congrArg (fun l : List ℝ => l[i]?) h5
    simp only [List.getElem?_take, if_pos hi] at this
    rw [List.getElem?_eq_getElem hi', List.getElem?_eq_getElem hi] at this
    simpa using this.symm
  rw [← he, e2]
  exact h2 i hi' hi

/-- **C90.** Without particles the function changes nothing, not even `Nmom`; then every fractional moment of a vector
of at least three moments is zero, not an error. -/
theorem C90_empty (Nmom : ℕ) (M : List ℝ) (h3 : 3 ≤ M.length) (h0 : M.getD 0 0 ≤ 0) :
    (∀ r, MomicDown Nmom M r ↔ r = ok (Nmom, M)) ∧
      ∃ T, setDiffTable ⟨M.length, fun _ _ => none⟩ M = ok T ∧ ∀ r, momicMr T r = ok 0 := by
  have hg : M.getD 0 0 = M[0] := getD_of_lt (by omega)
  have hp : downPrep M = ok none := by
    rw [downPrep, idx_ok (by omega), ok_bind, if_pos (hg ▸ h0)]
  refine ⟨fun r => ⟨fun h => MDown.down_unique h (.early hp), fun h => h ▸ .early hp⟩, ?_⟩
  obtain ⟨T, hT, hr⟩ := C32_momic_interpolation M.length M h3 rfl
  refine ⟨T, hT, fun r => ?_⟩
  obtain ⟨v, hv, -, hz⟩ := hr r
  rw [hv, hz ⟨0, by omega, .inr (by omega), hg ▸ h0⟩]

/-- **C90.** With one or two moments and `M0` positive the function reads past the end of the vector. -/
theorem C90_short (Nmom : ℕ) (M : List ℝ) (h3 : M.length < 3) (h0 : 0 < M.getD 0 0) (r : Res (ℕ × List ℝ)) :
    MomicDown Nmom M r ↔ r = ub := by
  have hp : downPrep M = ub := by
    match M, h3 with
    | [], _ => simp at h0
    | [a], _ =>
      have ha : 0 < a := by simpa using h0
      simp [downPrep, idx, not_le.2 ha]
    | [a, b], _ =>
      have ha : 0 < a := by simpa using h0
      by_cases hb : b ≤ 0 <;> simp [downPrep, idx, setIdx, not_le.2 ha, hb]
  exact ⟨fun h => MDown.down_unique h (.prepUb hp), fun h => h ▸ .prepUb hp⟩

/-- Moments 0, 1 and 2 of finitely many particles of mass `m i`, in numbers `w i`. -/
def Moments3 (a b c : ℝ) : Prop :=
  ∃ (n : ℕ) (w m : ℕ → ℝ), (∀ i < n, 0 ≤ w i) ∧ a = ∑ i ∈ Finset.range n, w i ∧
    b = ∑ i ∈ Finset.range n, w i * m i ∧ c = ∑ i ∈ Finset.range n, w i * m i ^ 2

/-- **C90.** Positive is not the same as possible: repairing one moment beside a given one can leave three moments that
no particle population has, so the invalid inversion the function is there to avoid remains. -/
theorem C90_unrealisable (Nmom : ℕ) : ∃ M a b c : ℝ, MomicDown Nmom [M, 0, 1E-60] (ok (3, [a, b, c])) ∧ 0 < M ∧
    ¬ Moments3 a b c := by
  obtain ⟨k, L, hi, hL, hk, hk3, hk'⟩ := C90_downselect Nmom [1, 0, 1E-60] (by simp) (by simp)
  have hl : ∀ r, 0 < lognormalMoment 1 (log 1E-21) 3 r := fun r => by unfold lognormalMoment; positivity
  have hc : (0 : ℝ) < 1E-60 := by norm_num
  have hL' : L = [1, lognormalMoment 1 (log 1E-21) 3 1, 1E-60] := by
    rw [hL, repaired, if_neg (lt_irrefl _), if_pos hc]
    simp only [List.takeWhile_cons, decide_eq_true (hl 1), decide_eq_true hc, decide_eq_true (one_pos (α := ℝ)), if_true,
      List.takeWhile_nil]
  refine ⟨1, 1, lognormalMoment 1 (log 1E-21) 3 1, 1E-60, (hi _).2 ?_, one_pos, ?_⟩
  · rw [hL', hk, hL']; rfl
  · rintro ⟨n, w, m, hw, h0, h1, h2⟩
    have cs := Finset.sum_sq_le_sum_mul_sum_of_sq_eq_mul (Finset.range n) (r := fun i => w i * m i) (f := w)
      (g := fun i => w i * m i ^ 2) (fun i hi => hw i (Finset.mem_range.1 hi))
      (fun i hi => mul_nonneg (hw i (Finset.mem_range.1 hi)) (sq_nonneg _)) (fun i _ => by ring)
    rw [← h0, ← h1, ← h2] at cs
    have e : exp (log 1E-21) = (1E-21 : ℝ) := exp_log (by norm_num)
    have hge : (1E-21 : ℝ) ≤ lognormalMoment 1 (log 1E-21) 3 1 := by
      rw [lognormalMoment, exp_add, one_mul, one_mul, e]
      have : (1 : ℝ) ≤ exp (1 ^ 2 * 3 ^ 2 / 2) := one_le_exp (by norm_num)
      nlinarith
    have : (1E-21 : ℝ) ^ 2 ≤ lognormalMoment 1 (log 1E-21) 3 1 ^ 2 := by
      apply pow_le_pow_left₀ (by norm_num) hge
    norm_num at this cs
    linarith

/-- Five moments with a bad one in the middle: the last two go, although the very last is positive. -/
example (N : ℕ) : MomicDown N [1, 2, 5, -1, 7] (ok (3, [1, 2, 5])) := by
  obtain ⟨k, L, hi, hL, hk, -, -⟩ := C90_downselect N [1, 2, 5, -1, 7] (by simp) (by simp)
  have : L = [1, 2, 5] := by rw [hL, repaired]; norm_num [List.takeWhile_cons]
  rw [hi, hk, this]; rfl

/-- No particles: nothing changes. -/
example : MomicDown 6 [0, 1, 1] (ok (6, [0, 1, 1])) := ((C90_empty 6 [0, 1, 1] (by simp) (by simp)).1 _).2 rfl

end Soot
