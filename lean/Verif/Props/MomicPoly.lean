import Verif.Props.MomicExact
import Mathlib.LinearAlgebra.Lagrange

/-!
# Property C93: MOMIC interpolates logarithms by the polynomial through them
-/

namespace Soot

open Res Real Polynomial
open scoped Classical

/-- `p` is the polynomial through the points `(0, y 0), …, (d - 1, y (d - 1))`. -/
def Through (d : ℕ) (y : ℕ → ℝ) (p : ℝ[X]) : Prop := p.degree < d ∧ ∀ k < d, p.eval (k : ℝ) = y k

namespace MomicPoly

theorem unique {d : ℕ} {y : ℕ → ℝ} : ∃! p, Through d y p := by
  have hv : Set.InjOn (fun k : ℕ => (k : ℝ)) (Finset.range d) := fun a _ b _ h => Nat.cast_injective h
  refine ⟨Lagrange.interpolate (Finset.range d) (fun k : ℕ => (k : ℝ)) y, ⟨?_, fun k hk => ?_⟩, fun p hp => ?_⟩
  · have := Lagrange.degree_interpolate_lt (r := y) hv
    rwa [Finset.card_range] at this
  · exact Lagrange.eval_interpolate_at_node y hv (by simpa using hk)
  · exact Lagrange.eq_interpolate_of_eval_eq y hv (by rw [Finset.card_range]; exact hp.1) fun i hi => hp.2 i (by simpa using hi)

/-- The generalised binomial coefficient as a polynomial in `r`. -/
noncomputable def chooseP (k : ℕ) : ℝ[X] := ∏ i ∈ Finset.range k, C (1 / ((i : ℝ) + 1)) * (X - C (i : ℝ))

theorem chooseP_eval (r : ℝ) (k : ℕ) : (chooseP k).eval r = rchoose r k := by
  rw [chooseP, eval_prod, rchoose]
  refine Finset.prod_congr rfl fun i _ => ?_
  rw [eval_mul, eval_C, eval_sub, eval_X, eval_C]
  have : (i : ℝ) + 1 ≠ 0 := by positivity
  field_simp

theorem chooseP_degree (k : ℕ) : (chooseP k).degree ≤ k := by
  refine (degree_prod_le _ _).trans ((Finset.sum_le_card_nsmul _ _ 1 fun i _ => ?_).trans (by simp))
  refine (degree_mul_le _ _).trans ?_
  rw [degree_X_sub_C]
  exact (add_le_add degree_C_le le_rfl).trans (by simp)

/-- The Newton forward polynomial. -/
noncomputable def newtonP (M : List ℝ) (n : ℕ) : ℝ[X] := ∑ k ∈ Finset.range n, C ((fwdDiff 1)^[k] (logM M) 0) * chooseP k

theorem newtonP_eval (M : List ℝ) (n : ℕ) (r : ℝ) : (newtonP M n).eval r = newton M n r := by
  rw [newtonP, eval_finsetSum, newton]
  refine Finset.sum_congr rfl fun k _ => ?_
  rw [eval_mul, eval_C, chooseP_eval]; ring

theorem newtonP_degree (M : List ℝ) (n : ℕ) : (newtonP M n).degree < n := by
  rw [← mem_degreeLT]
  refine Submodule.sum_mem _ fun k hk => ?_
  rw [mem_degreeLT]
  have hk' : k < n := by simpa using hk
  calc (C ((fwdDiff 1)^[k] (logM M) 0) * chooseP k).degree ≤ _ + _ := degree_mul_le _ _
    _ ≤ 0 + (k : WithBot ℕ) := add_le_add degree_C_le (chooseP_degree k)
    _ = k := zero_add _
    _ < n := by exact_mod_cast hk'

theorem newtonP_through (M : List ℝ) (n : ℕ) : Through n (logM M) (newtonP M n) :=
  ⟨newtonP_degree M n, fun k hk => by rw [newtonP_eval, newton_nat M hk]⟩

theorem smul {d : ℕ} {y : ℕ → ℝ} {p : ℝ[X]} (h : Through d y p) (c : ℝ) : Through d (fun k => c * y k) (C c * p) :=
  ⟨(degree_mul_le _ _).trans_lt ((add_le_add degree_C_le le_rfl).trans_lt (by rw [zero_add]; exact h.1)),
    fun k hk => by rw [eval_mul, eval_C, h.2 k hk]⟩

theorem congr {d : ℕ} {y z : ℕ → ℝ} {p : ℝ[X]} (h : Through d y p) (e : ∀ k < d, y k = z k) : Through d z p :=
  ⟨h.1, fun k hk => by rw [h.2 k hk, e k hk]⟩

end MomicPoly

/-- **C93 (fractional moments).** For any number `N ≥ 3` of positive moments and every real order `r`, the fractional moment MOMIC computes is `exp (p r)`
with `p` the one polynomial of degree below `N` (below 3 for `r < 0`) through the points `(k, log M_k)`, as docs/models/5_momic.md says. -/
theorem C93_moments (N : ℕ) (M : List ℝ) (h3 : 3 ≤ N) (hl : M.length = N) (hp : AllPos M) :
    ∃ T, setDiffTable ⟨N, fun _ _ => none⟩ M = ok T ∧ ∀ (r : ℝ) (d : ℕ), d = (if 0 ≤ r then N else 3) →
      ∃! p : ℝ[X], Through d (fun k => log (M.getD k 0)) p ∧ momicMr T r = ok (exp (p.eval r)) := by
  obtain ⟨T, hT, hn, hv⟩ := setDiffTable_ok (M := M) ⟨N, fun _ _ => none⟩ (by simp [hl])
  simp only at hn hv
  have ht : TabOf M T := ⟨by omega, fun i j hij => hv i j (by omega)⟩
  refine ⟨T, hT, fun r d hd => ?_⟩
  have hu : used T.n r = d := by rw [used, hn, hd]
  have hdl : d ≤ M.length := by rw [hd]; split_ifs <;> omega
  have pos : ∀ k < d, 0 < M.getD k 0 := fun k hk => by rw [getD_of_lt (by omega)]; exact hp _ (List.getElem_mem _)
  have l10 : log 10 ≠ 0 := (log_pos (by norm_num)).ne'
  have h1 := MomicPoly.congr (MomicPoly.smul (MomicPoly.newtonP_through M d) (log 10)) (z := fun k => log (M.getD k 0)) fun k _ => by
    rw [logM, logb]; field_simp
  refine ⟨C (log 10) * MomicPoly.newtonP M d, ⟨h1, ?_⟩, fun q hq => MomicPoly.unique.unique hq.1 h1⟩
  rw [momicMr_ok ht (by omega), mrVal, hu, if_pos pos, eval_mul, eval_C, MomicPoly.newtonP_eval, rpow_def_of_pos (by norm_num)]

/-- **C93 (grid functions).** The value at 1/2 that MOMIC interpolates from grid functions `v 0, v 1, … > 0` is `exp (p (1/2))` with `p` the one polynomial
through the points `(l, log (v l))`: four of them for the order `y ≤ 2`, three for `y = 3`, two beyond. The other points are not computed. -/
theorem C93_grid (y : ℕ) (f : Fin 4 → Res ℝ) (v : ℕ → ℝ) (hv : ∀ l, 0 < v l) (d : ℕ) (hd : d = if y ≤ 2 then 4 else if y ≤ 3 then 3 else 2)
    (hf : ∀ l : Fin 4, (l : ℕ) < d → f l = ok (v l)) :
    ∃! p : ℝ[X], Through d (fun l => log (v l)) p ∧ gridHalf y f = ok (exp (p.eval (1 / 2))) := by
  have key : ∃ p : ℝ[X], Through d (fun l => log (v l)) p ∧ gridHalf y f = ok (exp (p.eval (1 / 2))) := by
    have f0 : f 0 = ok (v 0) := hf 0 (by rw [hd]; split_ifs <;> decide)
    have f1 : f 1 = ok (v 1) := hf 1 (by rw [hd]; split_ifs <;> decide)
    have c : ∀ l p, cpow (v l) p = ok (exp (p * log (v l))) := fun l p => by
      rw [cpow_ok (hv l), rpow_def_of_pos (hv l), mul_comm]
    have dl : ∀ (a b : ℝ), (C a * X + C b).degree < ((2 : ℕ) : WithBot ℕ) := fun a b => degree_linear_le.trans_lt (by decide)
    have dq : ∀ (a b e : ℝ), (C a * X ^ 2 + C b * X + C e).degree < ((3 : ℕ) : WithBot ℕ) := fun a b e =>
      degree_quadratic_le.trans_lt (by decide)
    have dc : ∀ (a b e g : ℝ), (C a * X ^ 3 + C b * X ^ 2 + C e * X + C g).degree < ((4 : ℕ) : WithBot ℕ) := fun a b e g =>
      degree_cubic_le.trans_lt (by decide)
    rcases Nat.lt_or_ge 2 y with h2 | h2
    · rcases Nat.lt_or_ge 3 y with h3 | h3
      · rw [if_neg (by omega), if_neg (by omega)] at hd
        subst hd
        refine ⟨C (log (v 1) - log (v 0)) * X + C (log (v 0)), ⟨dl _ _, fun k hk => ?_⟩, ?_⟩
        · interval_cases k <;> simp
        · rw [gridHalf, f0, ok_bind, f1, ok_bind, if_neg (by omega), if_neg (by omega), c, ok_bind, c, ok_bind, ← exp_add]
          simp only [eval_add, eval_mul, eval_C, eval_X]
          congr 2; ring
      · rw [if_neg (by omega), if_pos (by omega)] at hd
        subst hd
        have f2 : f 2 = ok (v 2) := hf 2 (by decide)
        refine ⟨C ((log (v 2) - 2 * log (v 1) + log (v 0)) / 2) * X ^ 2 + C ((-log (v 2) + 4 * log (v 1) - 3 * log (v 0)) / 2) * X + C (log (v 0)),
          ⟨dq _ _ _, fun k hk => ?_⟩, ?_⟩
        · interval_cases k <;> simp only [eval_add, eval_mul, eval_C, eval_X, eval_pow] <;> push_cast <;> ring
        · rw [gridHalf, f0, ok_bind, f1, ok_bind, if_neg (by omega), if_pos (by omega), f2, ok_bind, c, ok_bind, c, ok_bind, c, ok_bind, ← exp_add,
            ← exp_add]
          simp only [eval_add, eval_mul, eval_C, eval_X, eval_pow]
          congr 2; ring
    · rw [if_pos (by omega)] at hd
      subst hd
      have f2 : f 2 = ok (v 2) := hf 2 (by decide)
      have f3 : f 3 = ok (v 3) := hf 3 (by decide)
      refine ⟨C ((log (v 3) - 3 * log (v 2) + 3 * log (v 1) - log (v 0)) / 6) * X ^ 3 +
        C ((-log (v 3) + 4 * log (v 2) - 5 * log (v 1) + 2 * log (v 0)) / 2) * X ^ 2 +
        C ((2 * log (v 3) - 9 * log (v 2) + 18 * log (v 1) - 11 * log (v 0)) / 6) * X + C (log (v 0)), ⟨dc _ _ _ _, fun k hk => ?_⟩, ?_⟩
      · interval_cases k <;> simp only [eval_add, eval_mul, eval_C, eval_X, eval_pow] <;> push_cast <;> ring
      · rw [gridHalf, f0, ok_bind, f1, ok_bind, if_pos (by omega), f2, ok_bind, f3, ok_bind, c, ok_bind, c, ok_bind, c, ok_bind, c, ok_bind, ← exp_add,
          ← exp_add, ← exp_add]
        simp only [eval_add, eval_mul, eval_C, eval_X, eval_pow]
        congr 2; ring
  obtain ⟨p, h1, h2⟩ := key
  exact ⟨p, ⟨h1, h2⟩, fun q hq => MomicPoly.unique.unique hq.1 h1⟩

/-- **C93 (collision terms).** Put together: with the exact fractional moments of any discrete distribution of sizes `a i > 0` and numbers `w i > 0`, the grid
function of the pair `(x, y)` is `exp (p (1/2))` with `p` the polynomial through `(l, log (Σ Σ w_i w_j φ_l(a_i, a_j)))`, where `φ_l` is the collision
integrand with `(a_i + a_j)^l` for the `(a_i + a_j)^(1/2)` of the kernel. -/
theorem C93_collision (n : ℕ) (w a : ℕ → ℝ) (hn : 0 < n) (hw : ∀ i < n, 0 < w i) (ha : ∀ i < n, 0 < a i) (Q : List ℝ) (L x y : ℕ) (hQ : L ≤ Q.length)
    (hq : ∀ i < L, Q.getD i 0 = discMoment n w a ((2 * (i : ℝ) - 3) / 6)) (hL : 3 * (x + y) + 12 ≤ L) (d : ℕ)
    (hd : d = if y ≤ 2 then 4 else if y ≤ 3 then 3 else 2) :
    ∃! p : ℝ[X], Through d (fun l => log (pairSum n w a (fmPair l x y))) p ∧ fGrid Q x y = ok (exp (p.eval (1 / 2))) := by
  refine C93_grid y (fPt Q x y) (fun l => pairSum n w a (fmPair l x y)) (fun l => ?_) d hd fun l _ => ?_
  · have : (Finset.range n).Nonempty := Finset.nonempty_range_iff.mpr hn.ne'
    refine Finset.sum_pos (fun i hi => Finset.sum_pos (fun j hj => ?_) this) this
    have hi' := Finset.mem_range.mp hi; have hj' := Finset.mem_range.mp hj
    have := fmPair_pos (ha i hi') (ha j hj') l x y
    have := hw i hi'; have := hw j hj'
    positivity
  · rw [← C57_momic_grid n w a ha x y l]
    refine fPt_ok hQ hq ?_ ?_ <;> omega

/-! ## Concrete cases -/

/-- Five moments that are not lognormal. -/
example : ∃ T, setDiffTable ⟨5, fun _ _ => none⟩ [1E15, 1E-6, 2E-27, 9E-48, 1E-67] = ok T ∧
    ∃ p : ℝ[X], p.degree < (5 : ℕ) ∧ p.eval 0 = log 1E15 ∧ momicMr T (2 / 3) = ok (exp (p.eval (2 / 3))) := by
  obtain ⟨T, h, hr⟩ := C93_moments 5 [1E15, 1E-6, 2E-27, 9E-48, 1E-67] (by norm_num) rfl (by intro x hx; simp at hx; rcases hx with rfl | rfl | rfl | rfl | rfl <;> norm_num)
  obtain ⟨p, ⟨hp, e⟩, _⟩ := hr (2 / 3) 5 (by norm_num)
  exact ⟨T, h, p, hp.1, by have := hp.2 0 (by norm_num); simpa using this, e⟩

/-- Two sizes; the fractional moments of orders -1/2 to 3. -/
example : ∃ Q : List ℝ, ∃ p : ℝ[X], p.degree < (4 : ℕ) ∧ fGrid Q 0 0 = ok (exp (p.eval (1 / 2))) := by
  obtain ⟨p, ⟨hp, e⟩, _⟩ := C93_collision 2 (fun i => i + 1) (fun i => i + 1) (by norm_num) (fun i _ => by positivity) (fun i _ => by positivity)
    ((List.range 12).map fun i : ℕ => discMoment 2 (fun i => i + 1) (fun i => i + 1) ((2 * (i : ℝ) - 3) / 6)) 12 0 0 (by simp)
    (fun i hi => by rw [getD_of_lt (by simpa using hi)]; simp) (by norm_num) 4 rfl
  exact ⟨_, p, hp.1, e⟩

end Soot
