import Verif.Momic
import Verif.Props.Logn
import Mathlib.Algebra.Group.ForwardDiff

/-!
# MOMIC: difference table and fractional moments (C32, C55)
-/

namespace Soot

open Res Real
open scoped Classical

theorem forLoop_inv {σ : Type} {n : ℕ} {f : ℕ → σ → Res σ} {x : σ} (I : ℕ → σ → Prop) (h0 : I 0 x)
    (hs : ∀ k < n, ∀ y, I k y → ∃ z, f k y = ok z ∧ I (k + 1) z) : ∃ z, forLoop n f x = ok z ∧ I n z := by
  induction n with
  | zero => exact ⟨x, rfl, h0⟩
  | succ n ih =>
    obtain ⟨y, hy, hI⟩ := ih fun k hk => hs k (by omega)
    obtain ⟨z, hz, hI'⟩ := hs n (by omega) y hI
    exact ⟨z, by rw [forLoop, hy, ok_bind, hz], hI'⟩

/-- Decimal logarithms of the moments. -/
noncomputable def logM (M : List ℝ) (k : ℕ) : ℝ := logb 10 (M.getD k 0)

/-- What `diffTable[i][j]` holds after `set_diffTable`. -/
noncomputable def diffVal (M : List ℝ) (i j : ℕ) : Option ℝ :=
  if ∀ k ≤ j, 0 < M.getD (i + k) 0 then some ((fwdDiff 1)^[j] (logM M) i) else none

theorem diffVal_zero (M : List ℝ) (i : ℕ) : olog10 (M.getD i 0) = diffVal M i 0 := by
  simp [olog10, diffVal, logM]

theorem diffVal_succ (M : List ℝ) (i j : ℕ) : osub (diffVal M (i + 1) j) (diffVal M i j) = diffVal M i (j + 1) := by
  unfold diffVal osub
  by_cases h : ∀ k ≤ j + 1, 0 < M.getD (i + k) 0
  · rw [if_pos h, if_pos (fun k hk => h k (by omega)),
      if_pos (fun k hk => by have := h (k + 1) (by omega); rwa [show i + (k + 1) = i + 1 + k by ring] at this)]
    simp only [Option.bind_some, Option.map_some, Option.some.injEq]
    rw [Function.iterate_succ_apply', fwdDiff]
  · rw [if_neg h]
    by_cases h1 : ∀ k ≤ j, 0 < M.getD (i + k) 0
    · rw [if_neg (c := ∀ k ≤ j, 0 < M.getD (i + 1 + k) 0)]
      · rfl
      · intro h2
        apply h
        intro k hk
        rcases Nat.eq_zero_or_pos k with rfl | hk0
        · exact h1 0 (by omega)
        · have := h2 (k - 1) (by omega)
          rwa [show i + 1 + (k - 1) = i + k by omega] at this
    · rw [if_neg h1]
      split_ifs <;> rfl

theorem Tri.set_ok {T : Tri} {i j : ℕ} (h : i + j < T.n) (x : Option ℝ) :
    T.set i j x = ok ⟨T.n, fun a b => if a = i ∧ b = j then x else T.v a b⟩ := by
  rw [Tri.set, if_pos (by omega)]

theorem Tri.get_ok {T : Tri} {i j : ℕ} (h : i + j < T.n) : T.get i j = ok (T.v i j) := by
  rw [Tri.get, if_pos (by omega)]

/-- The table is a triangle: an access is undefined exactly outside `i + j < n`. -/
theorem Tri.ub_iff (T : Tri) (i j : ℕ) (x : Option ℝ) : (T.get i j = ub ↔ T.n ≤ i + j) ∧ (T.set i j x = ub ↔ T.n ≤ i + j) := by
  by_cases h : i + j < T.n
  · rw [Tri.get_ok h, Tri.set_ok h]; simp [h]
  · rw [Tri.get, Tri.set, if_neg (by omega), if_neg (by omega)]; simp [not_lt.mp h]

theorem setDiffTable_ok {M : List ℝ} (T : Tri) (h : T.n ≤ M.length) :
    ∃ T', setDiffTable T M = ok T' ∧ T'.n = T.n ∧ ∀ i j, i + j < T.n → T'.v i j = diffVal M i j := by
  obtain ⟨T1, h1, e1, v1⟩ := forLoop_inv (n := T.n) (x := T) (f := fun k T => do
      let x ← idx M k
      T.set k 0 (olog10 x)) (fun k T' => T'.n = T.n ∧ ∀ i < k, T'.v i 0 = diffVal M i 0) ⟨rfl, by simp⟩ (by
    rintro k hk T' ⟨hn, hv⟩
    refine ⟨⟨T'.n, fun a b => if a = k ∧ b = 0 then olog10 (M.getD k 0) else T'.v a b⟩,
      by rw [idx_getD (by omega), ok_bind, Tri.set_ok (by omega)], hn, fun i hi => ?_⟩
    simp only
    by_cases hik : i = k
    · subst hik; rw [if_pos (by simp)]; exact diffVal_zero M i
    · rw [if_neg (by tauto)]; exact hv i (by omega))
  obtain ⟨T2, h2, e2, v2⟩ := forLoop_inv (n := T1.n - 1) (x := T1)
    (f := fun j T => forLoop (T.n - (j + 1)) (fun i T => do
      let a ← T.get (i + 1) j
      let b ← T.get i j
      T.set i (j + 1) (osub a b)) T)
    (fun j T' => T'.n = T.n ∧ ∀ i b, b ≤ j → i + b < T.n → T'.v i b = diffVal M i b)
    ⟨e1, fun i b hb hi => by obtain rfl : b = 0 := by omega
                             exact v1 i (by omega)⟩ (by
    rintro j hj T' ⟨hn, hv⟩
    obtain ⟨T3, h3, e3, v3, w3⟩ := forLoop_inv (n := T'.n - (j + 1)) (x := T') (f := fun i T => do
        let a ← T.get (i + 1) j
        let b ← T.get i j
        T.set i (j + 1) (osub a b))
      (fun k T'' => T''.n = T.n ∧ (∀ i b, b ≤ j → i + b < T.n → T''.v i b = diffVal M i b) ∧
        ∀ i < k, T''.v i (j + 1) = diffVal M i (j + 1)) ⟨hn, hv, by simp⟩ (by
      rintro k hk T'' ⟨a1, a2, a3⟩
      refine ⟨⟨T''.n, fun a b => if a = k ∧ b = j + 1 then osub (T''.v (k + 1) j) (T''.v k j) else T''.v a b⟩,
        by rw [Tri.get_ok (by omega), ok_bind, Tri.get_ok (by omega), ok_bind, Tri.set_ok (by omega)], a1,
        fun i b hb hi => ?_, fun i hi => ?_⟩
      · simp only; rw [if_neg (by omega)]; exact a2 i b hb hi
      · simp only
        by_cases hik : i = k
        · subst hik
          rw [if_pos (by simp), a2 _ _ le_rfl (by omega), a2 _ _ le_rfl (by omega), diffVal_succ]
        · rw [if_neg (by tauto)]; exact a3 i (by omega))
    refine ⟨T3, h3, e3, fun i b hb hi => ?_⟩
    rcases hb.eq_or_lt with rfl | hlt
    · exact w3 i (by omega)
    · exact v3 i b (by omega) hi)
  refine ⟨T2, ?_, e2, fun i j hij => v2 i j (by omega) hij⟩
  rw [setDiffTable]
  exact (congrArg (· >>= _) h1).trans h2

/-- The table is what `set_diffTable` makes of the moments `M`. -/
structure TabOf (M : List ℝ) (T : Tri) : Prop where
  len : T.n ≤ M.length
  tab : ∀ i j, i + j < T.n → T.v i j = diffVal M i j

/-- Generalised binomial coefficient `r(r-1)…(r-k+1)/k!`. -/
noncomputable def rchoose (r : ℝ) (k : ℕ) : ℝ := ∏ i ∈ Finset.range k, (r - i) / (i + 1)

/-- Number of moments used for order `r`: all for non-negative orders, three for negative ones. -/
noncomputable def used (N : ℕ) (r : ℝ) : ℕ := if 0 ≤ r then N else 3

/-- Newton forward polynomial through the logarithms of the moments used. -/
noncomputable def newton (M : List ℝ) (n : ℕ) (r : ℝ) : ℝ :=
  ∑ k ∈ Finset.range n, rchoose r k * (fwdDiff 1)^[k] (logM M) 0

/-- Fractional moment of order `r`. -/
noncomputable def mrVal (M : List ℝ) (N : ℕ) (r : ℝ) : ℝ :=
  if ∀ k < used N r, 0 < M.getD k 0 then 10 ^ newton M (used N r) r else 0

theorem momicMr_ok {M : List ℝ} {T : Tri} (h : TabOf M T) (h3 : 3 ≤ T.n) (r : ℝ) :
    momicMr T r = ok (mrVal M T.n r) := by
  have hu : used T.n r ≤ T.n := by unfold used; split_ifs <;> omega
  have hu1 : 1 ≤ used T.n r := by unfold used; split_ifs <;> omega
  have hd : ∀ k, diffVal M 0 k = if ∀ j ≤ k, 0 < M.getD j 0 then some ((fwdDiff 1)^[k] (logM M) 0) else none := by
    intro k; simp only [diffVal, Nat.zero_add]
  obtain ⟨p, hp, hI⟩ := forLoop_inv (n := used T.n r - 1) (x := (T.v 0 0, r))
    (f := fun k (p : Option ℝ × ℝ) => do
      let d ← T.get 0 (k + 1)
      ok (oadd p.1 (osmul p.2 d), p.2 * ((r - (k + 1 : ℕ)) / ((k + 2 : ℕ) : ℝ))))
    (fun k p => p = (if ∀ j ≤ k, 0 < M.getD j 0 then some (newton M (k + 1) r) else none, rchoose r (k + 1)))
    (by rw [h.tab 0 0 (by omega), hd]; simp [newton, rchoose]) (by
      rintro k hk p rfl
      refine ⟨_, by rw [Tri.get_ok (by omega), ok_bind], ?_⟩
      rw [h.tab _ _ (by omega), hd]
      simp only [Prod.mk.injEq]
      constructor
      · by_cases hpos : ∀ j ≤ k + 1, 0 < M.getD j 0
        · rw [if_pos hpos, if_pos hpos, if_pos (fun j hj => hpos j (by omega))]
          simp only [oadd, osmul, Option.map_some, Option.bind_some, Option.some.injEq]
          conv_rhs => rw [newton, Finset.sum_range_succ]
          rfl
        · rw [if_neg hpos, if_neg hpos]
          split_ifs <;> rfl
      · rw [rchoose, rchoose, Finset.prod_range_succ _ (k + 1)]
        push_cast
        ring)
  have hle : (∀ j ≤ used T.n r - 1, 0 < M.getD j 0) ↔ ∀ k < used T.n r, 0 < M.getD k 0 :=
    ⟨fun hx k hk => hx k (by omega), fun hx k hk => hx k (by omega)⟩
  rw [momicMr, Tri.get_ok (by omega), ok_bind]
  rw [show (if 0 ≤ r then T.n else 3) = used T.n r from rfl, hp, ok_bind, hI]
  simp only [hle, Nat.sub_add_cancel hu1, mrVal]
  split_ifs <;> rfl

theorem mrVal_nonneg (M : List ℝ) (N : ℕ) (r : ℝ) : 0 ≤ mrVal M N r := by
  unfold mrVal; split_ifs <;> positivity

theorem mrVal_pos {M : List ℝ} {N : ℕ} {r : ℝ} (h : ∀ k < used N r, 0 < M.getD k 0) : 0 < mrVal M N r := by
  rw [mrVal, if_pos h]; positivity

theorem rchoose_nat (n k : ℕ) : rchoose n k = n.choose k := by
  induction k with
  | zero => simp [rchoose]
  | succ k ih =>
    have : rchoose n (k + 1) = rchoose n k * ((n - k) / (k + 1)) := by
      rw [rchoose, Finset.prod_range_succ]; rfl
    rw [this, ih]
    have hk : ((k : ℝ) + 1) ≠ 0 := by positivity
    have := Nat.choose_succ_right_eq n k
    by_cases hle : k ≤ n
    · have e : ((n.choose (k + 1) : ℕ) : ℝ) * (k + 1) = n.choose k * (n - k) := by
        rw [← Nat.cast_sub hle]; exact_mod_cast this
      field_simp
      linarith
    · rw [Nat.choose_eq_zero_of_lt (by omega), Nat.choose_eq_zero_of_lt (by omega)]; simp

theorem newton_nat (M : List ℝ) {n j : ℕ} (h : j < n) : newton M n j = logM M j := by
  have e := shift_eq_sum_fwdDiff_iter (h := 1) (f := logM M) (n := j) (y := 0)
  simp only [smul_eq_mul, mul_one, Nat.zero_add, nsmul_eq_mul] at e
  rw [e, newton]
  symm
  refine (Finset.sum_subset (Finset.range_mono (by omega)) fun k _ hk => ?_).trans
    (Finset.sum_congr rfl fun k _ => by rw [rchoose_nat])
  rw [Nat.choose_eq_zero_of_lt (by simp at hk; omega)]; simp

/-- **C32.** For every number `N ≥ 3` of moments and every moment vector, building the difference table and
interpolating succeeds for every real order `r`; if the moments used (all of them for `r ≥ 0`, the first three for
`r < 0`) are positive the result is positive, and it equals the transported moment when `r` is an integer below
`N`; if one of the moments used is not positive, the result is zero. -/
theorem C32_momic_interpolation (N : ℕ) (M : List ℝ) (h3 : 3 ≤ N) (hl : M.length = N) :
    ∃ T, setDiffTable ⟨N, fun _ _ => none⟩ M = ok T ∧ ∀ r, ∃ v, momicMr T r = ok v ∧
      ((∀ k, (h : k < M.length) → (0 ≤ r ∨ k < 3) → 0 < M[k]) → 0 < v ∧ ∀ j, (h : j < M.length) → r = (j : ℝ) → v = M[j]) ∧
      ((∃ k, ∃ h : k < M.length, (0 ≤ r ∨ k < 3) ∧ M[k] ≤ 0) → v = 0) := by
  obtain ⟨T, hT, hn, hv⟩ := setDiffTable_ok (M := M) ⟨N, fun _ _ => none⟩ (by simp [hl])
  simp only at hn hv
  have ht : TabOf M T := ⟨by omega, fun i j hij => hv i j (by omega)⟩
  refine ⟨T, hT, fun r => ⟨_, momicMr_ok ht (by omega) r, fun hp => ?_, ?_⟩⟩
  · have hp' : ∀ k < used T.n r, 0 < M.getD k 0 := by
      intro k hk
      have hkl : k < M.length := by unfold used at hk; split_ifs at hk <;> omega
      rw [getD_of_lt hkl]
      refine hp k hkl ?_
      unfold used at hk; split_ifs at hk with h0
      · exact .inl h0
      · exact .inr hk
    refine ⟨mrVal_pos hp', fun j hj hr => ?_⟩
    subst hr
    have hu : used T.n (j : ℝ) = N := by rw [used, if_pos (by positivity), hn]
    rw [mrVal, if_pos hp', hu, newton_nat M (by omega), logM, getD_of_lt hj,
      rpow_logb (by norm_num) (by norm_num)]
    have := hp' j (by rw [hu]; omega)
    rwa [getD_of_lt hj] at this
  · rintro ⟨k, hk, h0, hM⟩
    rw [mrVal, if_neg]
    intro hx
    have := hx k (by
      unfold used
      split_ifs with h
      · omega
      · rcases h0 with h0 | h0
        · exact absurd h0 h
        · exact h0)
    rw [getD_of_lt hk] at this
    linarith

example : ∃ T, setDiffTable ⟨4, fun _ _ => none⟩ [1E15, 1E-6, 2E-27, 1E-47] = ok T ∧ momicMr T 2 = ok 2E-27 := by
  obtain ⟨T, hT, h⟩ := C32_momic_interpolation 4 [1E15, 1E-6, 2E-27, 1E-47] (by norm_num) rfl
  obtain ⟨v, h1, h2, _⟩ := h 2
  refine ⟨T, hT, ?_⟩
  rw [h1, ((h2 (by
    intro k hk _
    simp only [List.length_cons, List.length_nil] at hk
    interval_cases k <;> norm_num)).2 2 (by simp) (by norm_num))]
  norm_num

example : ∃ T, setDiffTable ⟨4, fun _ _ => none⟩ [1E15, 0, 2E-27, 1E-47] = ok T ∧ momicMr T (2 / 6) = ok 0 := by
  obtain ⟨T, hT, h⟩ := C32_momic_interpolation 4 [1E15, 0, 2E-27, 1E-47] (by norm_num) rfl
  obtain ⟨v, h1, _, h2⟩ := h (2 / 6)
  exact ⟨T, hT, by rw [h1, h2 ⟨1, by simp, .inl (by norm_num), by simp⟩]⟩

theorem fwdDiff_quad (a b c : ℝ) :
    (fwdDiff 1 fun k : ℕ => a + b * k + c * (k : ℝ) ^ 2) = fun k : ℕ => (b + c) + 2 * c * k := by
  funext k; simp only [fwdDiff]; push_cast; ring

theorem fwdDiff_lin (a b : ℝ) : (fwdDiff 1 fun k : ℕ => a + b * (k : ℝ)) = fun _ : ℕ => b := by
  funext k; simp only [fwdDiff]; push_cast; ring

theorem fwdDiff_zero (n : ℕ) : ((fwdDiff (1 : ℕ))^[n] fun _ : ℕ => (0 : ℝ)) = fun _ => 0 := by
  induction n with
  | zero => rfl
  | succ n ih => rw [Function.iterate_succ_apply', ih]; funext k; simp [fwdDiff]

theorem newton_congr {M : List ℝ} {f : ℕ → ℝ} {n : ℕ} (h : ∀ k < n, logM M k = f k) (r : ℝ) :
    newton M n r = ∑ k ∈ Finset.range n, rchoose r k * (fwdDiff 1)^[k] f 0 := by
  refine Finset.sum_congr rfl fun k hk => ?_
  rw [Finset.mem_range] at hk
  rw [fwdDiff_iter_eq_sum_shift, fwdDiff_iter_eq_sum_shift]
  congr 1
  refine Finset.sum_congr rfl fun j hj => ?_
  rw [Finset.mem_range] at hj
  rw [h _ (by simp; omega)]

theorem newton_quad {M : List ℝ} {a b c : ℝ} {n : ℕ} (hn : 3 ≤ n)
    (h : ∀ k < n, logM M k = a + b * k + c * (k : ℝ) ^ 2) (r : ℝ) : newton M n r = a + b * r + c * r ^ 2 := by
  obtain ⟨p, rfl⟩ : ∃ p, n = 3 + p := ⟨n - 3, by omega⟩
  rw [newton_congr h]
  have hz : ∀ k, (fwdDiff 1)^[3 + k] (fun k : ℕ => a + b * k + c * (k : ℝ) ^ 2) 0 = 0 := by
    intro k
    rw [Nat.add_comm, Function.iterate_add_apply]
    have : (fwdDiff (1 : ℕ))^[3] (fun k : ℕ => a + b * k + c * (k : ℝ) ^ 2) = fun _ => 0 := by
      rw [Function.iterate_succ_apply, Function.iterate_succ_apply, Function.iterate_succ_apply, fwdDiff_quad,
        fwdDiff_lin, Function.iterate_zero, id]
      funext k; simp [fwdDiff]
    rw [this, fwdDiff_zero]
  rw [Finset.sum_range_add]
  simp only [hz, mul_zero, Finset.sum_const_zero, add_zero]
  rw [Finset.sum_range_succ, Finset.sum_range_succ, Finset.sum_range_one]
  simp only [Function.iterate_zero, id, Function.iterate_succ_apply, fwdDiff_quad, fwdDiff_lin]
  simp only [rchoose, Finset.prod_range_succ, Finset.prod_range_zero]
  push_cast
  ring

/-- **C55.** If the transported moments are those of a lognormal distribution, the interpolated moment is the exact
moment of that distribution for every real order, negative orders included. -/
theorem C55_momic_exact_for_lognormal (N : ℕ) (M : List ℝ) (h3 : 3 ≤ N) (hl : M.length = N) (n μ σ : ℝ) (hn : 0 < n)
    (hM : ∀ k, (h : k < M.length) → M[k] = lognormalMoment n μ σ k) :
    ∃ T, setDiffTable ⟨N, fun _ _ => none⟩ M = ok T ∧ ∀ r, momicMr T r = ok (lognormalMoment n μ σ r) := by
  obtain ⟨T, hT, hTn, hv⟩ := setDiffTable_ok (M := M) ⟨N, fun _ _ => none⟩ (by simp [hl])
  simp only at hTn hv
  have ht : TabOf M T := ⟨by omega, fun i j hij => hv i j (by omega)⟩
  have hm : ∀ k, lognormalMoment n μ σ k = exp (log n + (k * μ + k ^ 2 * σ ^ 2 / 2)) := by
    intro k; rw [exp_add, exp_log hn, lognormalMoment]
  have hpos : ∀ k < N, 0 < M.getD k 0 := by
    intro k hk; rw [getD_of_lt (by omega), hM k (by omega), hm]; exact exp_pos _
  have h10 : (0 : ℝ) < log 10 := log_pos (by norm_num)
  refine ⟨T, hT, fun r => ?_⟩
  have hu : used T.n r ≤ N := by unfold used; split_ifs <;> omega
  have hu3 : 3 ≤ used T.n r := by unfold used; split_ifs <;> omega
  rw [momicMr_ok ht (by omega), mrVal, if_pos (fun k hk => hpos k (by omega)),
    newton_quad (a := log n / log 10) (b := μ / log 10) (c := σ ^ 2 / 2 / log 10) hu3, hm,
    rpow_def_of_pos (by norm_num)]
  · congr 2; field_simp; ring
  · intro k hk
    rw [logM, getD_of_lt (by omega), hM k (by omega), hm, logb, log_exp]
    field_simp; ring

example : ∃ T, setDiffTable ⟨5, fun _ _ => none⟩ ((List.range 5).map fun k : ℕ => lognormalMoment 1E15 (-50) 0.7 k) = ok T ∧
    momicMr T (-4 / 6) = ok (lognormalMoment 1E15 (-50) 0.7 (-4 / 6)) := by
  obtain ⟨T, h1, h2⟩ := C55_momic_exact_for_lognormal 5
    ((List.range 5).map fun k : ℕ => lognormalMoment 1E15 (-50) 0.7 k) (by norm_num) (by simp) 1E15 (-50) 0.7
    (by norm_num) (by intro k hk; simp)
  exact ⟨T, h1, h2 _⟩

end Soot
