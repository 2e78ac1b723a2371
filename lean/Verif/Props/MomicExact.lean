import Verif.Props.MomicModel
import Verif.Props.Qmom

/-!
# MOMIC collision terms against the kernels: C57, C58, C59
-/

namespace Soot

open Res Real
open scoped Classical

/-- Moment of real order `r` of a discrete distribution: `n` kinds of particles, `w i` of them of mass `a i`. -/
noncomputable def discMoment (n : ℕ) (w a : ℕ → ℝ) (r : ℝ) : ℝ := ∑ i ∈ Finset.range n, w i * a i ^ r

/-- Sum over all pairs of particles. -/
noncomputable def pairSum (n : ℕ) (w a : ℕ → ℝ) (F : ℝ → ℝ → ℝ) : ℝ :=
  ∑ i ∈ Finset.range n, ∑ j ∈ Finset.range n, w i * w j * F (a i) (a j)

theorem pairSum_congr {n : ℕ} {w a : ℕ → ℝ} {F G : ℝ → ℝ → ℝ} (ha : ∀ i < n, 0 < a i)
    (h : ∀ x y, 0 < x → 0 < y → F x y = G x y) : pairSum n w a F = pairSum n w a G :=
  Finset.sum_congr rfl fun i hi => Finset.sum_congr rfl fun j hj => by
    rw [h _ _ (ha i (Finset.mem_range.mp hi)) (ha j (Finset.mem_range.mp hj))]

theorem discMoment_mul (n : ℕ) (w a : ℕ → ℝ) (p q : ℝ) :
    discMoment n w a p * discMoment n w a q = pairSum n w a fun x y => x ^ p * y ^ q := by
  unfold discMoment pairSum
  rw [Finset.sum_mul_sum]
  exact Finset.sum_congr rfl fun i _ => Finset.sum_congr rfl fun j _ => by ring

theorem pairSum_add (n : ℕ) (w a : ℕ → ℝ) (F G : ℝ → ℝ → ℝ) :
    pairSum n w a F + pairSum n w a G = pairSum n w a fun x y => F x y + G x y := by
  unfold pairSum
  simp only [mul_add, Finset.sum_add_distrib]

theorem pairSum_mul (n : ℕ) (w a : ℕ → ℝ) (c : ℝ) (F : ℝ → ℝ → ℝ) :
    c * pairSum n w a F = pairSum n w a fun x y => c * F x y := by
  unfold pairSum
  simp only [Finset.mul_sum]
  exact Finset.sum_congr rfl fun i _ => Finset.sum_congr rfl fun j _ => by ring

/-! ## Continuum kernel -/

/-- The continuum kernel in powers of the masses. -/
theorem contVal_eq {s : State} {x y : ℝ} (hx : 0 < x) (hy : 0 < y) :
    contVal s x y = kcVal s * ((1 / x ^ (1 / 3 : ℝ) + 1 / y ^ (1 / 3 : ℝ)) * (x ^ (1 / 3 : ℝ) + y ^ (1 / 3 : ℝ)) +
      kcpVal s * ((1 / (x ^ (1 / 3 : ℝ)) ^ 2 + 1 / (y ^ (1 / 3 : ℝ)) ^ 2) * (x ^ (1 / 3 : ℝ) + y ^ (1 / 3 : ℝ)))) := by
  have hr := rhoSoot_pos
  have hd : ∀ m : ℝ, 0 < m → diam m = (6 / (π * rhoSoot)) ^ onethird * m ^ (1 / 3 : ℝ) := by
    intro m hm
    rw [diam, show (1 / 3 : ℝ) = onethird from rfl, ← mul_rpow (by positivity) hm.le]; congr 1; ring
  have hD : (π * rhoSoot / 6) ^ onethird = 1 / (6 / (π * rhoSoot)) ^ onethird := by
    rw [← one_div_div, div_rpow (by norm_num) (by positivity), one_rpow]
  have hD0 : 0 < (6 / (π * rhoSoot)) ^ onethird := by positivity
  have hx0 : 0 < x ^ (1 / 3 : ℝ) := by positivity
  have hy0 : 0 < y ^ (1 / 3 : ℝ) := by positivity
  rw [contVal, kcpVal, hD, hd x hx, hd y hy]
  generalize (6 / (π * rhoSoot)) ^ onethird = D at *
  generalize x ^ (1 / 3 : ℝ) = u at *
  generalize y ^ (1 / 3 : ℝ) = v at *
  field_simp
  ring

theorem rpow_third {x : ℝ} (hx : 0 < x) (k : ℕ) (j : ℕ) :
    x ^ ((k : ℝ) + j / 3) = x ^ k * (x ^ (1 / 3 : ℝ)) ^ j := by
  rw [rpow_add hx, rpow_natCast, ← rpow_natCast (x ^ (1 / 3 : ℝ)), ← rpow_mul hx.le]
  congr 2; ring

theorem rpow_third_neg {x : ℝ} (hx : 0 < x) (k : ℕ) (j : ℕ) :
    x ^ ((k : ℝ) - j / 3) = x ^ k / (x ^ (1 / 3 : ℝ)) ^ j := by
  rw [rpow_sub hx, rpow_natCast, ← rpow_natCast (x ^ (1 / 3 : ℝ)), ← rpow_mul hx.le]
  congr 2; ring

/-- **C57 (continuum).** With the exact moments of any discrete distribution, the pair term of MOMIC times `Kc` is the
sum over all pairs of particles of the rate returned by the CONTINUUM kernel times `m1^k m2^q`. -/
theorem C57_momic_continuum (s : State) (n : ℕ) (w a : ℕ → ℝ) (ha : ∀ i < n, 0 < a i) (k q : ℕ) :
    kcVal s * contPair (discMoment n w a) (kcpVal s) k q =
      pairSum n w a fun x y => contVal s x y * x ^ k * y ^ q := by
  simp only [contPair, mul_assoc, discMoment_mul]
  rw [pairSum_mul n w a 2]
  simp only [pairSum_add, pairSum_mul]
  refine pairSum_congr ha fun x y hx hy => ?_
  have p1 := fun k => rpow_third hx k 1
  have m1 := fun k => rpow_third_neg hx k 1
  have m2 := fun k => rpow_third_neg hx k 2
  have p1' := fun k => rpow_third hy k 1
  have m1' := fun k => rpow_third_neg hy k 1
  have m2' := fun k => rpow_third_neg hy k 2
  push_cast at p1 m1 m2 p1' m1' m2'
  rw [p1, m1, m2, p1', m1', m2', rpow_natCast, rpow_natCast, contVal_eq hx hy]
  have hx0 : 0 < x ^ (1 / 3 : ℝ) := by positivity
  have hy0 : 0 < y ^ (1 / 3 : ℝ) := by positivity
  generalize x ^ (1 / 3 : ℝ) = u at *
  generalize y ^ (1 / 3 : ℝ) = v at *
  field_simp
  ring

/-! ## Free-molecular kernel -/

theorem rpow_sixth {x : ℝ} (hx : 0 < x) (k j : ℕ) :
    x ^ ((2 * ((k * 3 + j : ℕ) : ℝ) - 3) / 6) = x ^ k * x ^ (-1 / 2 : ℝ) * (x ^ (1 / 3 : ℝ)) ^ j := by
  rw [← rpow_natCast x, ← rpow_natCast (x ^ (1 / 3 : ℝ)), ← rpow_mul hx.le, ← rpow_add hx, ← rpow_add hx]
  congr 1; push_cast; ring

theorem third_cube {x : ℝ} (hx : 0 < x) : (x ^ (1 / 3 : ℝ)) ^ 3 = x := by
  rw [← rpow_natCast, ← rpow_mul hx.le]; norm_num

theorem bilV_pairSum (n : ℕ) (w a : ℕ → ℝ) (e : ℕ → ℝ) (xi yi : ℕ) (ts : List (ℝ × ℕ × ℕ)) :
    bilV (fun i => discMoment n w a (e i)) xi yi ts =
      pairSum n w a fun x y => (ts.map fun t => t.1 * (x ^ e (xi + t.2.1) * y ^ e (yi + t.2.2))).sum := by
  induction ts with
  | nil => simp [bilV, pairSum]
  | cons t ts ih =>
    have : bilV (fun i => discMoment n w a (e i)) xi yi (t :: ts) =
      t.1 * (discMoment n w a (e (xi + t.2.1)) * discMoment n w a (e (yi + t.2.2))) +
        bilV (fun i => discMoment n w a (e i)) xi yi ts := by simp [bilV, mul_assoc]
    rw [this, ih, discMoment_mul, pairSum_mul, pairSum_add]
    simp

/-- The family of sums through which the code interpolates: the free-molecular kernel without its temperature factor,
with the square root of `m1 + m2` replaced by the power `l`. -/
noncomputable def fmPair (l : ℝ) (k q : ℕ) (x y : ℝ) : ℝ :=
  (x ^ (1 / 3 : ℝ) + y ^ (1 / 3 : ℝ)) ^ 2 * (x ^ (-1 / 2 : ℝ) * y ^ (-1 / 2 : ℝ)) * (x + y) ^ l * x ^ k * y ^ q

/-- At `l = 1/2` this is the free-molecular kernel. -/
theorem fmPair_half (c : Coag) (s : State) (k q : ℕ) {x y : ℝ} (hx : 0 < x) (hy : 0 < y) :
    c.kfmVal s * fmPair (1 / 2) k q x y = fmVal c s x y * x ^ k * y ^ q := by
  have e : sqrt (1 / x + 1 / y) = x ^ (-1 / 2 : ℝ) * y ^ (-1 / 2 : ℝ) * (x + y) ^ (1 / 2 : ℝ) := by
    rw [sqrt_eq_rpow, show (-1 / 2 : ℝ) = -(1 / 2) by norm_num, rpow_neg hx.le, rpow_neg hy.le, ← inv_rpow hx.le,
      ← inv_rpow hy.le, ← mul_rpow (by positivity) (by positivity), ← mul_rpow (by positivity) (by positivity)]
    congr 1; field_simp; ring
  rw [fmVal, fmPair, e]; unfold onethird; ring

/-- **C57 (free molecular).** With the exact moments of any discrete distribution, the grid value `f_l` of the pair
`(k, q)` is the pair sum of `fmPair l k q`, for `l = 0, 1, 2, 3`. -/
theorem C57_momic_grid (n : ℕ) (w a : ℕ → ℝ) (ha : ∀ i < n, 0 < a i) (k q : ℕ) (l : Fin 4) :
    fPtV (fun i => discMoment n w a ((2 * (i : ℝ) - 3) / 6)) k q l = pairSum n w a (fmPair (l : ℕ) k q) := by
  have e := bilV_pairSum n w a (fun i => (2 * (i : ℝ) - 3) / 6) (k * 3) (q * 3) (fFull l)
  rw [fPtV, e]
  refine pairSum_congr ha fun x y hx hy => ?_
  simp only [rpow_sixth hx, rpow_sixth hy, fmPair, rpow_natCast]
  have cx := third_cube hx
  have cy := third_cube hy
  have exy : x + y = (x ^ (1 / 3 : ℝ)) ^ 3 + (y ^ (1 / 3 : ℝ)) ^ 3 := by rw [cx, cy]
  rw [exy]
  generalize x ^ (1 / 3 : ℝ) = u
  generalize y ^ (1 / 3 : ℝ) = v
  generalize x ^ (-1 / 2 : ℝ) = f
  generalize y ^ (-1 / 2 : ℝ) = g
  fin_cases l <;> simp [fFull] <;> ring

theorem dimV_sum (n : ℕ) (w a : ℕ → ℝ) (e : ℕ → ℝ) (mD : ℝ) (yi : ℕ) (ts : List (ℝ × ℤ × ℕ)) :
    dimV (fun i => discMoment n w a (e i)) mD yi ts =
      ∑ i ∈ Finset.range n, w i * (ts.map fun t => t.1 * (mD ^ ((t.2.1 : ℝ) / 6) * a i ^ e (yi + t.2.2))).sum := by
  induction ts with
  | nil => simp [dimV]
  | cons t ts ih =>
    have : dimV (fun i => discMoment n w a (e i)) mD yi (t :: ts) =
      t.1 * mD ^ ((t.2.1 : ℝ) / 6) * discMoment n w a (e (yi + t.2.2)) +
        dimV (fun i => discMoment n w a (e i)) mD yi ts := by simp [dimV]
    rw [this, ih, discMoment, Finset.mul_sum, ← Finset.sum_add_distrib]
    refine Finset.sum_congr rfl fun i _ => ?_
    simp; ring

/-- **C57 (dimer grid).** The grid value `g_l` of order `k` is the sum over all particles of the dimer–particle term
times `m^(k-1)`. -/
theorem C57_momic_dimer_grid (n : ℕ) (w a : ℕ → ℝ) (ha : ∀ i < n, 0 < a i) (mD : ℝ) (hD : 0 < mD) (k : ℕ) (l : Fin 4) :
    gPtV (fun i => discMoment n w a ((2 * (i : ℝ) - 3) / 6)) mD k l =
      ∑ i ∈ Finset.range n, w i * fmPair (l : ℕ) 0 (k - 1) mD (a i) := by
  have e := dimV_sum n w a (fun i => (2 * (i : ℝ) - 3) / 6) mD ((k - 1) * 3) (gTerms l)
  rw [gPtV, e]
  refine Finset.sum_congr rfl fun i hi => ?_
  congr 1
  have hy := ha i (Finset.mem_range.mp hi)
  have hd : ∀ p : ℤ, mD ^ ((p : ℝ) / 6) = mD ^ (-1 / 2 : ℝ) * mD ^ (((p : ℝ) + 3) / 6) := fun p => by
    rw [← rpow_add hD]; congr 1; ring
  have hd2 : ∀ j : ℕ, mD ^ ((j : ℝ) / 3) = (mD ^ (1 / 3 : ℝ)) ^ j := fun j => by
    rw [← rpow_natCast, ← rpow_mul hD.le]; congr 1; ring
  have q0 : ∀ (p : ℤ) (j : ℕ), (p : ℝ) + 3 = 2 * j → mD ^ ((p : ℝ) / 6) = mD ^ (-1 / 2 : ℝ) * (mD ^ (1 / 3 : ℝ)) ^ j :=
    fun p j hpj => by rw [hd, hpj, ← hd2]; congr 2; ring
  have r1 := q0 (-3) 0 (by norm_num)
  have r2 := q0 (-1) 1 (by norm_num)
  have r3 := q0 1 2 (by norm_num)
  have r4 := q0 3 3 (by norm_num)
  have r5 := q0 5 4 (by norm_num)
  have r6 := q0 7 5 (by norm_num)
  have r7 := q0 9 6 (by norm_num)
  have r8 := q0 11 7 (by norm_num)
  have r9 := q0 13 8 (by norm_num)
  have r10 := q0 15 9 (by norm_num)
  have r11 := q0 17 10 (by norm_num)
  have r12 := q0 19 11 (by norm_num)
  simp only [rpow_sixth hy, fmPair, rpow_natCast]
  have cx := third_cube hD
  have cy := third_cube hy
  have exy : mD + a i = (mD ^ (1 / 3 : ℝ)) ^ 3 + (a i ^ (1 / 3 : ℝ)) ^ 3 := by rw [cx, cy]
  rw [exy]
  fin_cases l <;>
    simp only [gTerms, List.map_cons, List.map_nil, List.sum_cons, List.sum_nil, r1, r2, r3, r4, r5, r6, r7, r8, r9, r10,
      r11, r12]
  all_goals
    generalize mD ^ (1 / 3 : ℝ) = u
    generalize a i ^ (1 / 3 : ℝ) = v
    generalize mD ^ (-1 / 2 : ℝ) = f
    generalize a i ^ (-1 / 2 : ℝ) = g
    simp
    ring

/-- The interpolation to the half point is exact for geometric grid values. -/
theorem gridV_geom (y : ℕ) {A B : ℝ} (hA : 0 < A) (hB : 0 < B) :
    gridV y (fun l => A * B ^ (l : ℕ)) = A * B ^ (1 / 2 : ℝ) := by
  have e : ∀ (j : ℕ) (p : ℝ), (A * B ^ j) ^ p = exp (p * log A + p * j * log B) := fun j p => by
    rw [rpow_def_of_pos (by positivity), log_mul hA.ne' (by positivity), log_pow]; congr 1; ring
  have e' : A * B ^ (1 / 2 : ℝ) = exp (log A + 1 / 2 * log B) := by
    rw [exp_add, exp_log hA, rpow_def_of_pos hB]; congr 2; ring
  unfold gridV
  simp only [e, e', ← exp_add]
  split_ifs
  all_goals
    congr 1
    norm_num
    ring

/-! ## Monodisperse moments -/

/-- `M` holds the moments of `n` particles per volume, all of mass `m`. -/
def MonoMoments (M : List ℝ) (n m : ℝ) : Prop := ∀ k, (h : k < M.length) → M[k] = n * m ^ k

theorem MonoMoments.pos {M : List ℝ} {n m : ℝ} (h : MonoMoments M n m) (hn : 0 < n) (hm : 0 < m) : AllPos M := by
  intro x hx
  obtain ⟨i, hi, rfl⟩ := List.getElem_of_mem hx
  rw [h i hi]; positivity

theorem MonoMoments.mr {M : List ℝ} {N : ℕ} {n m : ℝ} (h : MonoMoments M n m) (hn : 0 < n) (hm : 0 < m)
    (hl : M.length = N) (h3 : 3 ≤ N) (r : ℝ) : mrVal M N r = n * m ^ r := by
  have hl0 : ∀ r, lognormalMoment n (log m) 0 r = n * m ^ r := fun r => by
    rw [lognormalMoment, rpow_def_of_pos hm]; congr 2; ring
  obtain ⟨T, hT, hv⟩ := C55_momic_exact_for_lognormal N M h3 hl n (log m) 0 hn (fun k hk => by
    rw [h k hk, hl0, rpow_natCast])
  obtain ⟨T', hT', hTn, hv'⟩ := setDiffTable_ok (M := M) ⟨N, fun _ _ => none⟩ (by simp [hl])
  cases hT.symm.trans hT'
  simp only at hTn hv'
  have ht : TabOf M T := ⟨by omega, fun i j hij => hv' i j (by omega)⟩
  have := hv r
  rw [momicMr_ok ht (by omega), hTn, hl0] at this
  exact ok.inj this

theorem MonoMoments.q {M : List ℝ} {N : ℕ} {n m : ℝ} (h : MonoMoments M n m) (hn : 0 < n) (hm : 0 < m)
    (hl : M.length = N) (h3 : 3 ≤ N) :
    qv M N = fun i : ℕ => discMoment 1 (fun _ => n) (fun _ => m) ((2 * (i : ℝ) - 3) / 6) := by
  funext i
  rw [qv, h.mr hn hm hl h3, discMoment, Finset.sum_range_one]

theorem fmPair_geom {x y : ℝ} (hx : 0 < x) (hy : 0 < y) (k q l : ℕ) :
    fmPair l k q x y = fmPair 0 k q x y * (x + y) ^ l := by
  simp only [fmPair, rpow_natCast, rpow_zero]; ring

theorem fmPair_pos {x y : ℝ} (hx : 0 < x) (hy : 0 < y) (l : ℝ) (k q : ℕ) : 0 < fmPair l k q x y := by
  unfold fmPair; positivity

theorem fV_mono {M : List ℝ} {N : ℕ} {n m : ℝ} (h : MonoMoments M n m) (hn : 0 < n) (hm : 0 < m)
    (hl : M.length = N) (h3 : 3 ≤ N) (x y : ℕ) : fV (qv M N) x y = n ^ 2 * fmPair (1 / 2) x y m m := by
  have e : fPtV (qv M N) x y = fun l : Fin 4 => n ^ 2 * fmPair 0 x y m m * (m + m) ^ (l : ℕ) := by
    funext l
    rw [h.q hn hm hl h3, C57_momic_grid 1 (fun _ => n) (fun _ => m) (fun _ _ => hm)]
    simp only [pairSum, Finset.sum_range_one]
    rw [fmPair_geom hm hm]; ring
  have := fmPair_pos hm hm 0 x y
  rw [fV, e, gridV_geom y (by positivity) (by positivity)]
  unfold fmPair; rw [rpow_zero]; ring

/-- **C58.** For the moments of a monodisperse population MOMIC's free-molecular coagulation is exact: the
coagulation source of every moment `r` is `½ K(m,m) n² ((2m)^r - 2 m^r)` with `K` the free-molecular kernel. -/
theorem C58_momic_mono (md : Model) (s : State) (n m : ℝ) (h : MomicReady md s) (hf : MomicFin md s)
    (hc : md.coag.mech = .FM) (hn : 0 < n) (hm : 0 < m) (hM : MonoMoments s.sootVar n m) :
    ∃ m' m'' s', momicSources md s = ok (m', s') ∧
      momicSources { md with coag := { md.coag with mech := .NONE } } s = ok (m'', s') ∧
      ∀ r < md.nsoot, ∃ x, m''.sources.soot[r]? = some x ∧ m'.sources.soot[r]? =
        some (x + 1 / 2 * fmVal md.coag s m m * n ^ 2 * ((m + m) ^ r - m ^ r - m ^ r)) := by
  obtain ⟨m', m'', s', e1, e2, _, _, e5⟩ := momic_coag_diff md s h hf
  have h3 := h.three
  have h0 : 0 < s.sootVar.getD 0 0 := by
    have : 0 < s.sootVar.length := by rw [h.len]; omega
    rw [getD_of_lt this]; exact hM.pos hn hm _ (List.getElem_mem _)
  refine ⟨m', m'', s', e1, e2, fun r hr => ?_⟩
  obtain ⟨x, a, b⟩ := e5 r hr
  refine ⟨x, a, ?_⟩
  rw [b, if_pos h0]
  congr 2
  have hfp : ∀ k q, md.coag.kfmVal s * fV (qv s.sootVar md.nsoot) k q = fmVal md.coag s m m * n ^ 2 * (m ^ k * m ^ q) :=
    fun k q => by
      rw [fV_mono hM hn hm h.len h3]
      have := fmPair_half md.coag s k q hm hm
      linear_combination n ^ 2 * this
  by_cases h1 : r = 1
  · subst h1; rw [momicCoagV_one]; ring
  rw [momicCoagV, if_neg h1, hc]
  simp only
  rcases Nat.eq_zero_or_pos r with rfl | hr0
  · rw [fmCoagV, if_pos rfl]
    have := hfp 0 0
    linear_combination -1 / 2 * this
  · rw [fmCoagV, if_neg (by omega), ← binom_sum hr0 m m, Finset.mul_sum, Finset.mul_sum]
    refine Finset.sum_congr rfl fun k _ => ?_
    have := hfp (k + 1) (r - (k + 1))
    linear_combination (r.choose (k + 1) : ℝ) / 2 * this

theorem exMono_moments : MonoMoments [1E15, 1E15 * 1E-21, 1E15 * 1E-21 ^ 2, 1E15 * 1E-21 ^ 3] 1E15 1E-21 := by
  intro k hk
  simp only [List.length_cons, List.length_nil] at hk
  obtain rfl | rfl | rfl | rfl : k = 0 ∨ k = 1 ∨ k = 2 ∨ k = 3 := by omega
  all_goals simp

/-- Monodisperse moments. -/
def exMonoMom : List ℝ := [1E15, 1E15 * 1E-21, 1E15 * 1E-21 ^ 2, 1E15 * 1E-21 ^ 3]

theorem exMonoMom_pos : ∀ x ∈ exMonoMom, 0 < x :=
  exMono_moments.pos (by norm_num) (by norm_num)

theorem exMono_ready (nu : NuclMech) (hn : nu ≠ .AJ_RED) (hb : nu ≠ .BROWN) (g : GrowMech) (o : OxidMech) (c : CoagMech)
    (hc : c ≠ .FUCHS) : MomicReady (exModel .MOMIC 4 nu g o c) (exSt exMonoMom false) ∧
      MomicFin (exModel .MOMIC 4 nu g o c) (exSt exMonoMom false) ∧
      MonoMoments (exSt exMonoMom false).sootVar 1E15 1E-21 := by
  have e : (exSt exMonoMom false).sootVar = exMonoMom := exSt_sootVar _ fun x hx => (exMonoMom_pos x hx).le
  have hA : AllPos (exSt exMonoMom false).sootVar := by rw [e]; exact exMonoMom_pos
  exact ⟨exMomicReady 4 nu hn hb g o c exMonoMom false (by norm_num) (by norm_num) (by simp [exMonoMom])
    (fun x hx => (exMonoMom_pos x hx).le) hc, ⟨fun _ => ⟨hA, exSt_pah _⟩, fun _ _ => hA⟩, by rw [e]; exact exMono_moments⟩

example : ∃ m' s', momicSources (exModel .MOMIC 4 .LL .LL .LL .FM) (exSt exMonoMom false) = ok (m', s') := by
  obtain ⟨h1, h2, h3⟩ := exMono_ready .LL (by simp) (by simp) .LL .LL .FM (by simp)
  obtain ⟨m', _, s', e, _⟩ := C58_momic_mono _ _ _ _ h1 h2 rfl (by norm_num) (by norm_num) h3
  exact ⟨m', s', e⟩

/-! ## Condensation -/

theorem gV_mono {M : List ℝ} {N : ℕ} {n m mD : ℝ} (h : MonoMoments M n m) (hn : 0 < n) (hm : 0 < m) (hD : 0 < mD)
    (hl : M.length = N) (h3 : 3 ≤ N) (c : Coag) (s : State) (k : ℕ) :
    c.kfmVal s * gV (qv M N) mD k = fmVal c s mD m * (n * m ^ (k - 1)) := by
  have e : gPtV (qv M N) mD k = fun l : Fin 4 => n * fmPair 0 0 (k - 1) mD m * (mD + m) ^ (l : ℕ) := by
    funext l
    rw [h.q hn hm hl h3, C57_momic_dimer_grid 1 (fun _ => n) (fun _ => m) (fun _ _ => hm) mD hD, Finset.sum_range_one]
    rw [fmPair_geom hD hm]; ring
  have := fmPair_pos hD hm 0 0 (k - 1)
  rw [gV, e, gridV_geom k (by positivity) (by positivity)]
  have e2 := fmPair_half c s 0 (k - 1) hD hm
  have e3 : fmPair 0 0 (k - 1) mD m * (mD + m) ^ (1 / 2 : ℝ) = fmPair (1 / 2) 0 (k - 1) mD m := by
    unfold fmPair; rw [rpow_zero]; ring
  rw [pow_zero, mul_one] at e2
  linear_combination n * e2 + c.kfmVal s * n * e3

theorem dimerCV_mono {M : List ℝ} {N : ℕ} {n m mD : ℝ} (h : MonoMoments M n m) (hn : 0 < n) (hm : 0 < m) (hD : 0 < mD)
    (hl : M.length = N) (h3 : 3 ≤ N) (s : State) :
    kcVal s * dimerCV (pv M N) mD (kcpVal s) = contVal s mD m * n := by
  have hp : ∀ i, pv M N i = n * m ^ ((2 * (i : ℝ) - 4) / 6) := fun i => by rw [pv, h.mr hn hm hl h3]
  have p1 := rpow_third hm 0 1
  have m1 := rpow_third_neg hm 0 1
  have m2 := rpow_third_neg hm 0 2
  have d1 := rpow_third hD 0 1
  have d2 := rpow_third_neg hD 0 1
  have d3 := rpow_third_neg hD 0 2
  rw [contVal_eq hD hm, dimerCV, hp, hp, hp, hp]
  rw [show ((2 * ((0 : ℕ) : ℝ) - 4) / 6) = ((0 : ℕ) : ℝ) - ((2 : ℕ) : ℝ) / 3 by norm_num,
    show ((2 * ((1 : ℕ) : ℝ) - 4) / 6) = ((0 : ℕ) : ℝ) - ((1 : ℕ) : ℝ) / 3 by norm_num,
    show ((2 * ((2 : ℕ) : ℝ) - 4) / 6) = 0 by norm_num,
    show ((2 * ((3 : ℕ) : ℝ) - 4) / 6) = ((0 : ℕ) : ℝ) + ((1 : ℕ) : ℝ) / 3 by norm_num,
    show ((2 / 6 : ℝ)) = ((0 : ℕ) : ℝ) + ((1 : ℕ) : ℝ) / 3 by norm_num,
    show ((-2 / 6 : ℝ)) = ((0 : ℕ) : ℝ) - ((1 : ℕ) : ℝ) / 3 by norm_num,
    show ((-4 / 6 : ℝ)) = ((0 : ℕ) : ℝ) - ((2 : ℕ) : ℝ) / 3 by norm_num,
    p1, m1, m2, d1, d2, d3, rpow_zero]
  have hx0 : 0 < mD ^ (1 / 3 : ℝ) := by positivity
  have hy0 : 0 < m ^ (1 / 3 : ℝ) := by positivity
  generalize mD ^ (1 / 3 : ℝ) = u at *
  generalize m ^ (1 / 3 : ℝ) = v at *
  field_simp
  ring

theorem contVal_pos' {s : State} (hs : s.Phys) {x y : ℝ} (hx : 0 < x) (hy : 0 < y) : 0 < contVal s x y := by
  have := kcVal_pos hs; have := kcpVal_pos hs
  rw [contVal_eq hx hy]; positivity

theorem fmVal_pos' {c : Coag} {s : State} (hs : s.Phys) (hc : 0 < c.fmMult) {x y : ℝ} (hx : 0 < x) (hy : 0 < y) :
    0 < fmVal c s x y := by
  have := Coag.kfmVal_pos hs hc
  unfold fmVal; positivity

/-- The condensation source of moment `k` for `n` particles of mass `m`: each of them gains dimers of mass `mD`,
concentration `nD`, at the harmonic-mean collision rate. -/
noncomputable def condMono (c : Coag) (s : State) (n m nD mD : ℝ) (k : ℕ) : ℝ :=
  k * nD * mD * hmean (fmVal c s mD m) (contVal s mD m) * (n * m ^ (k - 1))

/-- **C59 is false of the code.** For monodisperse moments the condensation source of moment 1 is the exact
`condMono`, but that of every moment of order two and more is strictly too large (for particles below 1 kg), because
the index shift of the continuum part is never advanced.  The condensation source is what remains of the moment source
after removing nucleation, surface reactions and coagulation. -/
theorem C59_momic_condensation (md : Model) (s : State) (n m : ℝ) (h : MomicReady md s) (hf : MomicFin md s)
    (hp : md.nucl.mech = .PAH) (hn : 0 < n) (hm : 0 < m) (hm1 : m < 1) (hM : MonoMoments s.sootVar n m) :
    ∃ m' m'' s' J n' kG kO, momicSources md s = ok (m', s') ∧
      momicSources { md with coag := { md.coag with mech := .NONE } } s = ok (m'', s') ∧ m'.nucl = n' ∧
      J = betaDD s n'.dimer.mDimer * n'.dimer.nDimer ^ 2 / 2 ∧
      md.grow.rate md.ctx s' = ok kG ∧ md.oxid.rate md.ctx s' = ok kO ∧ 0 < n'.dimer.nDimer ∧ 0 < n'.dimer.mDimer ∧
      ∀ k < md.nsoot, ∃ x, m''.sources.soot[k]? = some (J * (s'.cMin * gasMW .C / Na) ^ k + x +
          (kG - kO) * (acoef * k * (n * m ^ (k - onethird : ℝ)))) ∧
        (k ≤ 1 → x = condMono md.coag s n m n'.dimer.nDimer n'.dimer.mDimer k) ∧
        (2 ≤ k → condMono md.coag s n m n'.dimer.nDimer n'.dimer.mDimer k < x) := by
  have h' := h.noCoag
  have hf' : MomicFin { md with coag := { md.coag with mech := .NONE } } s := ⟨hf.pah, fun _ hx => by simp at hx⟩
  obtain ⟨T, P, Q, hT, hP, hQ, ht, hTn, hF⟩ := momicSetup h
  obtain ⟨m', s', J, n', kG, kO, e1, e2, e3, hc, e4, e5, _, _, _, _, hdim, _, _, e6, e7⟩ :=
    momic_eval_at h hf hT hP hQ ht hTn hF
  obtain ⟨m'', s'', J', n'', kG', kO', k1, k2, k3, kc, k4, k5, _, _, _, _, _, _, _, k6, k7⟩ :=
    momic_eval_at h' hf' hT hP hQ ht hTn hF
  have k2' : md.nucl.rate (momicIbeta md P Q) s = ok (J', n'', s'') := k2
  cases e2.symm.trans k2'
  have k4' : md.grow.rate md.ctx s' = ok kG' := k4
  cases e4.symm.trans k4'
  have k5' : md.oxid.rate md.ctx s' = ok kO' := k5
  cases e5.symm.trans k5'
  have h3 := h.three
  have hA := hM.pos hn hm
  obtain ⟨hD, hN⟩ := hdim hp
  have hph := h.gas.acc.phys
  have hy := (hf.pah hp).2
  have hr2 : Ready md s' := by rw [e3]; exact h.toReady.upd hc _ _
  obtain ⟨i1, i2⟩ := momicIbeta_ok (m := md) hr2.gas.acc.phys h.fm hF h3 h.len hA hp hD
  obtain ⟨_, _, _, b4⟩ := dimer_balance h.gas.acc h.pah hp e2 i1 i2.le hy
  have hn' : m'.nucl = n' := by
    obtain ⟨_, _, _, _, _, _, e⟩ := Model.finish_inv e6; rw [e]
  refine ⟨m', m'', s', J, n', kG, kO, e1, k1, hn', b4.symm ▸ rfl, e4, e5, hN, hD, fun k hk => ?_⟩
  have hk' : k < ({ md with coag := { md.coag with mech := .NONE } } : Model).nsoot := hk
  have hbeta : momicBeta md.coag s s.sootVar md.nsoot n'.dimer.mDimer k =
      hmean (fmVal md.coag s n'.dimer.mDimer m * (n * m ^ (k - 1))) (contVal s n'.dimer.mDimer m * n) := by
    rw [momicBeta, gV_mono hM hn hm hD h.len h3, dimerCV_mono hM hn hm hD h.len h3]
  refine ⟨k * (n'.dimer.mDimer * n'.dimer.nDimer * momicBeta md.coag s s.sootVar md.nsoot n'.dimer.mDimer k), ?_, ?_, ?_⟩
  · have z : momicCoagV { md.coag with mech := .NONE } s s.sootVar md.nsoot k = 0 := by
      simp [momicCoagV]
    have zb : momicBeta { md.coag with mech := .NONE } = momicBeta md.coag := rfl
    rw [k7]
    simp only [List.getElem?_map, List.getElem?_range hk', Option.map_some, momicSoot, z, zb, ite_self, add_zero, if_pos hp]
    rw [hM.mr hn hm h.len h3]
  · intro hk1
    rcases Nat.le_one_iff_eq_zero_or_eq_one.mp hk1 with rfl | rfl
    · simp [condMono]
    · rw [hbeta, condMono, hmean, hmean]
      have a1 := fmVal_pos' hph h.fm hD hm
      have a2 := contVal_pos' hph hD hm
      simp only [Nat.sub_self, pow_zero, mul_one]
      field_simp
  · intro hk2
    have a1 := fmVal_pos' hph h.fm hD hm
    have a2 := contVal_pos' hph hD hm
    have hk0 : (0 : ℝ) < k := by exact_mod_cast (show 0 < k by omega)
    have ht0 : 0 < m ^ (k - 1) := by positivity
    have ht1 : m ^ (k - 1) < 1 := pow_lt_one₀ hm.le hm1 (by omega)
    rw [hbeta, condMono]
    generalize m ^ (k - 1) = t at *
    generalize fmVal md.coag s n'.dimer.mDimer m = a at *
    generalize contVal s n'.dimer.mDimer m = b at *
    have key : hmean a b * t < hmean (a * t) b := by
      unfold hmean
      rw [div_mul_eq_mul_div, div_lt_div_iff₀ (by positivity) (by positivity)]
      have : a * b * t * (a * t) < a * b * t * a := by
        apply mul_lt_mul_of_pos_left _ (by positivity)
        nlinarith
      nlinarith
    have e : hmean (a * (n * t)) (b * n) = n * hmean (a * t) b := by
      unfold hmean; field_simp
    rw [e]
    have : 0 < (k : ℝ) * n'.dimer.nDimer * n'.dimer.mDimer * n := by positivity
    nlinarith

example : ∃ m' s', momicSources (exModel .MOMIC 4 .PAH .LL .LL .HM) (exSt exMonoMom false) = ok (m', s') := by
  obtain ⟨h1, h2, h3⟩ := exMono_ready .PAH (by simp) (by simp) .LL .LL .HM (by simp)
  obtain ⟨m', _, s', _, _, _, _, e, _⟩ := C59_momic_condensation _ _ _ _ h1 h2 rfl (by norm_num) (by norm_num) (by norm_num) h3
  exact ⟨m', s', e⟩

end Soot
