import Verif.FpSect
import Verif.Props.FpMass

/-!
# C96: mass in the sectional model under rounding

As for C91, rounding changes a number of at most `Ω` by at most `u` of its size plus `η`.
-/

namespace Soot

open Dbl
open scoped Classical

namespace FpSect

open FpMass

theorem sub_fin (F : Fp) (x y : ℝ) : F.sub (fin x) (fin y) = F.rnd (x - y) := by
  simp [Fp.sub, neg, Fp.add, sub_eq_add_neg]

/-- A rounded difference of masses, as divisor. -/
theorem quot_near {F : Fp} {u η Ω : ℝ} (hF : F.Std u η Ω) (ho : Ok u η Ω) {c D d : ℝ} (hD : 0 < D)
    (nd : Near D d (2 * u) 0) (hq : |c / D| ≤ Ω / 8) :
    ∃ t, F.div (fin c) (fin d) = fin t ∧ Near (c / D) t (3.1 * u) η := by
  obtain ⟨u0, η0, u1, ηu, hΩ⟩ := ho
  obtain ⟨d0, nI⟩ := nd.inv hD.ne' (by linarith) (by linarith)
  have nI' : Near D⁻¹ d⁻¹ (2.01 * u) 0 := nI.mono (by rw [div_le_iff₀ (by linarith)]; nlinarith) le_rfl
  have nQ := ((Near.refl c).mul nI' (by linarith : 0 ≤ 2.01 * u)).mono (show _ ≤ 2.01 * u by linarith) (show _ ≤ (0 : ℝ) by simp)
  rw [← div_eq_mul_inv, ← div_eq_mul_inv] at nQ
  have q0 := abs_nonneg (c / D)
  have b := nQ.abs
  obtain ⟨t, ht, et⟩ := hF (c / d) (by nlinarith)
  refine ⟨t, by simp only [Fp.div, if_neg d0, ht], (nQ.rnd u0 et).mono (by nlinarith) (by linarith)⟩

theorem diff_near {F : Fp} {u η Ω : ℝ} (hF : F.Std u η Ω) {x y : ℝ} (hxy : x < y) (hη : η ≤ u * (y - x)) (hΩ : y - x ≤ Ω) :
    ∃ d, F.sub (fin y) (fin x) = fin d ∧ Near (y - x) d (2 * u) 0 := by
  have hp : 0 < y - x := by linarith
  obtain ⟨d, hd, ed⟩ := hF (y - x) (by rw [abs_of_pos hp]; exact hΩ)
  refine ⟨d, by rw [sub_fin, hd], ?_⟩
  unfold Near
  rw [abs_of_pos hp] at *
  linarith

/-- Difference of two approximate fluxes. -/
theorem step_near {F : Fp} {u η Ω : ℝ} (hF : F.Std u η Ω) (ho : Ok u η Ω) {x x' y y' : ℝ} (hx : Near x x' (3.1 * u) η)
    (hy : Near y y' (3.1 * u) η) (bx : |x| ≤ Ω / 8) (by' : |y| ≤ Ω / 8) :
    (∃ z, F.sub (fin x') (fin y') = fin z ∧ |z - (x - y)| ≤ 4.2 * u * (|x| + |y|) + 3.1 * η) ∧
    ∃ z, F.add (fin x') (fin y') = fin z ∧ |z - (x + y)| ≤ 4.2 * u * (|x| + |y|) + 3.1 * η := by
  have ho' := ho
  obtain ⟨u0, η0, u1, ηu, hΩ⟩ := ho
  have x0 := abs_nonneg x
  have y0 := abs_nonneg y
  have ux : u * |x| ≤ 1 / 1000 * |x| := mul_le_mul_of_nonneg_right u1 x0
  have uy : u * |y| ≤ 1 / 1000 * |y| := mul_le_mul_of_nonneg_right u1 y0
  have uux := mul_le_mul_of_nonneg_left ux u0
  have uuy := mul_le_mul_of_nonneg_left uy u0
  have uη : u * η ≤ 1 / 1000 * η := mul_le_mul_of_nonneg_right u1 η0
  have px := mul_nonneg u0 x0
  have py := mul_nonneg u0 y0
  unfold Near at hx hy
  have hy' : |(-y') - (-y)| ≤ 3.1 * u * |y| + η := by rwa [neg_sub_neg, abs_sub_comm]
  have key : (1 + u) * (3.1 * u * |x| + η + (3.1 * u * |y| + η)) + u * (|x| + |y|) + η ≤ 4.2 * u * (|x| + |y|) + 3.1 * η := by
    nlinarith
  constructor
  · obtain ⟨z, hz, ez⟩ := add_near hF ho' hx hy' (by rw [abs_neg]) (by linarith)
    exact ⟨z, by rw [Fp.sub, neg, hz], by rw [sub_eq_add_neg x y]; exact ez.trans key⟩
  · obtain ⟨z, hz, ez⟩ := add_near hF ho' hx hy le_rfl (by linarith)
    exact ⟨z, hz, ez.trans key⟩

/-! ## The loops in closed form -/

theorem upLoopD_eq (F : Fp) (b c : ℕ → Dbl) (K : ℕ) : upLoopD F b c K = (fluxUpD F b c K, fun k =>
    if k = 0 then neg (fluxUpD F b c 0) else if k ≤ K then F.sub (fluxUpD F b c (k - 1)) (fluxUpD F b c k) else fin 0) := by
  induction K with
  | zero =>
    rw [upLoopD]; congr 1; funext k
    by_cases h : k = 0
    · subst h; simp
    · simp [Function.update_of_ne h, h]
  | succ K ih =>
    rw [upLoopD, ih]; congr 1; funext k
    by_cases h : k = K + 1
    · subst h; simp
    · rw [Function.update_of_ne h]
      have : k ≤ K + 1 ↔ k ≤ K := by omega
      simp only [this]

theorem sectUpD_eq (F : Fp) {n : ℕ} (hn : 2 ≤ n) (b c : ℕ → Dbl) (k : ℕ) : sectUpD F n b c k =
    if k = 0 then neg (fluxUpD F b c 0) else if k + 1 < n then F.sub (fluxUpD F b c (k - 1)) (fluxUpD F b c k)
    else if k + 1 = n then F.add (fluxUpD F b c (k - 1)) (F.div (c k) (b k)) else fin 0 := by
  rw [sectUpD, upLoopD_eq]
  by_cases h : k = n - 1
  · subst h
    rw [Function.update_self, if_neg (by omega), if_neg (by omega), if_pos (by omega)]
    rfl
  · rw [Function.update_of_ne h]
    dsimp only
    by_cases h0 : k = 0
    · simp [h0]
    · rw [if_neg h0, if_neg h0]
      by_cases h1 : k + 1 < n
      · rw [if_pos (by omega), if_pos h1]
      · rw [if_neg (by omega), if_neg h1, if_neg (by omega)]

theorem downLoopD_eq (F : Fp) {n : ℕ} (b c : ℕ → Dbl) (d : ℕ) (hd : d + 1 < n) : downLoopD F n b c d = (fluxDownD F b c (n - 1 - d), fun k =>
    if k = n - 1 then neg (fluxDownD F b c (n - 1)) else if n - 1 - d ≤ k ∧ k < n then F.sub (fluxDownD F b c (k + 1)) (fluxDownD F b c k)
    else fin 0) := by
  induction d with
  | zero =>
    rw [downLoopD]; congr 1; funext k
    by_cases h : k = n - 1
    · subst h; simp
    · rw [Function.update_of_ne h, if_neg h, if_neg (by omega)]
  | succ d ih =>
    rw [downLoopD, ih (by omega)]; congr 1; funext k
    by_cases h : k = n - 1 - (d + 1)
    · subst h
      rw [Function.update_self, if_neg (by omega), if_pos (by omega)]
      rw [show n - 1 - (d + 1) + 1 = n - 1 - d by omega]
    · rw [Function.update_of_ne h]
      have : (n - 1 - (d + 1) ≤ k ∧ k < n) ↔ (n - 1 - d ≤ k ∧ k < n) := by omega
      simp only [this]

theorem sectDownD_eq (F : Fp) {n : ℕ} (hn : 2 ≤ n) (b c : ℕ → Dbl) (k : ℕ) : sectDownD F n b c k =
    if k = 0 then F.sub (fluxDownD F b c 1) (F.div (c 0) (b 0)) else if k + 1 < n then F.sub (fluxDownD F b c (k + 1)) (fluxDownD F b c k)
    else if k + 1 = n then neg (fluxDownD F b c k) else fin 0 := by
  rw [sectDownD, downLoopD_eq F b c (n - 2) (by omega)]
  by_cases h0 : k = 0
  · subst h0
    rw [Function.update_self, if_pos rfl, show n - 1 - (n - 2) = 1 by omega]
  · rw [Function.update_of_ne h0, if_neg h0]
    dsimp only
    by_cases h : k = n - 1
    · subst h
      rw [if_pos rfl, if_neg (by omega), if_pos (by omega)]
    · rw [if_neg h]
      by_cases h1 : k + 1 < n
      · rw [if_pos (by omega), if_pos h1]
      · rw [if_neg (by omega), if_neg h1, if_neg (by omega)]

/-! ## Size transport -/

/-- Bins growing by at least the factor `g`, none too small for the arithmetic, and rates `c` that do not overflow. -/
structure Grid (u η Ω g : ℝ) (n : ℕ) (bins : List ℝ) (c : ℕ → ℝ) : Prop where
  inc : Bins n bins
  one : 1 < g
  geo : ∀ k, k + 1 < n → g * bins.getD k 0 ≤ bins.getD (k + 1) 0
  fine : η ≤ u * (min (g - 1) 1 * bins.getD 0 0)
  top : bins.getD (n - 1) 0 ≤ Ω
  rate : ∀ k < n, |c k| ≤ Ω / 8 * (min (g - 1) 1 * bins.getD 0 0)

section
variable {F : Fp} {u η Ω g : ℝ} {n : ℕ} {bins : List ℝ} {c : ℕ → ℝ}

theorem Grid.w0 (h : Grid u η Ω g n bins c) : 0 < min (g - 1) 1 * bins.getD 0 0 :=
  mul_pos (lt_min (by linarith [h.one]) one_pos) h.inc.pos0

theorem Grid.diff (h : Grid u η Ω g n bins c) {k : ℕ} (hk : k + 1 < n) :
    min (g - 1) 1 * bins.getD 0 0 ≤ bins.getD (k + 1) 0 - bins.getD k 0 := by
  have h1 := h.geo k hk
  have h2 := h.inc.le (Nat.zero_le k) (by omega : k < n)
  have h3 : min (g - 1) 1 * bins.getD 0 0 ≤ (g - 1) * bins.getD 0 0 :=
    mul_le_mul_of_nonneg_right (min_le_left _ _) h.inc.pos0.le
  nlinarith [h.one]

theorem Grid.low (h : Grid u η Ω g n bins c) {k : ℕ} (hk : k < n) : min (g - 1) 1 * bins.getD 0 0 ≤ bins.getD k 0 := by
  have h2 := h.inc.le (Nat.zero_le k) hk
  have h3 : min (g - 1) 1 * bins.getD 0 0 ≤ 1 * bins.getD 0 0 :=
    mul_le_mul_of_nonneg_right (min_le_right _ _) h.inc.pos0.le
  linarith

theorem Grid.div (h : Grid u η Ω g n bins c) (ho : Ok u η Ω) {k : ℕ} (hk : k < n) {D : ℝ} (hD : min (g - 1) 1 * bins.getD 0 0 ≤ D) :
    |c k / D| ≤ Ω / 8 := by
  have hw := h.w0
  have h1 := h.rate k hk
  have h2 := ho.Ω1
  rw [abs_div, abs_of_pos (by linarith : 0 < D), div_le_iff₀ (by linarith)]
  exact h1.trans (mul_le_mul_of_nonneg_left hD (by linarith))

/-- One flux between neighbouring bins. -/
theorem Grid.flux (h : Grid u η Ω g n bins c) (hF : F.Std u η Ω) (ho : Ok u η Ω) {j k : ℕ} (hj : j < n) (hk : k + 1 < n) :
    ∃ t, F.div (fin (c j)) (F.sub (fin (bins.getD (k + 1) 0)) (fin (bins.getD k 0))) = fin t ∧
      Near (c j / (bins.getD (k + 1) 0 - bins.getD k 0)) t (3.1 * u) η := by
  have hd := h.diff hk
  have hw := h.w0
  have h1 := h.inc.pos (by omega : k < n)
  have h2 := h.inc.le (by omega : k + 1 ≤ n - 1) (by omega)
  obtain ⟨d, e, nd⟩ := diff_near hF (h.inc.mono k hk) (h.fine.trans (mul_le_mul_of_nonneg_left hd ho.u0)) (by linarith [h.top])
  rw [e]
  exact quot_near hF ho (by linarith) nd (h.div ho hj hd)

/-- Flux into or out of an end bin. -/
theorem Grid.endFlux (h : Grid u η Ω g n bins c) (hF : F.Std u η Ω) (ho : Ok u η Ω) {k : ℕ} (hk : k < n) :
    ∃ t, F.div (fin (c k)) (fin (bins.getD k 0)) = fin t ∧ Near (c k / bins.getD k 0) t (3.1 * u) η := by
  refine quot_near hF ho (h.inc.pos hk) ?_ (h.div ho hk (h.low hk))
  have := ho.u0
  unfold Near
  rw [sub_self, abs_zero]; positivity

/-- What leaves bin `k` upwards; the last bin keeps it. -/
noncomputable def outUp (n : ℕ) (bins : List ℝ) (c : ℕ → ℝ) (k : ℕ) : ℝ :=
  if k + 1 < n then fUp bins c k else c k / bins.getD k 0

/-- What enters bin `k` from above. -/
noncomputable def inDown (n : ℕ) (bins : List ℝ) (c : ℕ → ℝ) (k : ℕ) : ℝ := if k + 1 < n then fDown bins c (k + 1) else 0

theorem neg_near {x t u η : ℝ} (hu : 0 ≤ u) (hη : 0 ≤ η) (h : Near x t (3.1 * u) η) :
    |-t - (0 - x)| ≤ 4.2 * u * (|(0 : ℝ)| + |x|) + 3.1 * η := by
  unfold Near at h
  rw [show -t - (0 - x) = -(t - x) by ring, abs_neg, abs_zero]
  have := mul_nonneg hu (abs_nonneg x)
  linarith

theorem up_near (h : Grid u η Ω g n bins c) (hF : F.Std u η Ω) (ho : Ok u η Ω) :
    ∃ S : ℕ → ℝ, ∀ k < n, sectUpD F n (fun k => fin (bins.getD k 0)) (fun k => fin (c k)) k = fin (S k) ∧
      |S k - upVal n bins c k| ≤ 4.2 * u * (|fIn bins c k| + |outUp n bins c k|) + 3.1 * η := by
  have key : ∀ k < n, ∃ y, sectUpD F n (fun k => fin (bins.getD k 0)) (fun k => fin (c k)) k = fin y ∧
      |y - upVal n bins c k| ≤ 4.2 * u * (|fIn bins c k| + |outUp n bins c k|) + 3.1 * η := by
    intro k hk
    have h2 := h.inc.two
    rw [sectUpD_eq F h2]
    by_cases h0 : k = 0
    · subst h0
      obtain ⟨t, e, nt⟩ := h.flux hF ho (j := 0) (k := 0) (by omega) (by omega)
      refine ⟨-t, by rw [if_pos rfl, fluxUpD, e]; rfl, ?_⟩
      rw [upVal, if_pos (by omega), outUp, if_pos (by omega), fIn, if_pos rfl]
      exact neg_near ho.u0 ho.η0 nt
    · obtain ⟨j, rfl⟩ : ∃ j, k = j + 1 := ⟨k - 1, by omega⟩
      rw [if_neg h0]
      obtain ⟨t, e, nt⟩ := h.flux hF ho (j := j) (k := j) (by omega) (by omega)
      have bt : |c j / (bins.getD (j + 1) 0 - bins.getD j 0)| ≤ Ω / 8 := h.div ho (by omega) (h.diff (by omega))
      have ef : fIn bins c (j + 1) = c j / (bins.getD (j + 1) 0 - bins.getD j 0) := by simp [fIn, fUp]
      by_cases h1 : j + 1 + 1 < n
      · obtain ⟨t', e', nt'⟩ := h.flux hF ho (j := j + 1) (k := j + 1) (by omega) h1
        obtain ⟨⟨z, hz, ez⟩, -⟩ := step_near hF ho nt nt' bt (h.div ho (by omega) (h.diff h1))
        refine ⟨z, by rw [if_pos h1, fluxUpD, fluxUpD, Nat.add_sub_cancel, e, e', hz], ?_⟩
        rw [upVal, if_pos h1, outUp, if_pos h1, ef]
        exact ez
      · obtain ⟨t', e', nt'⟩ := h.endFlux hF ho (k := j + 1) (by omega)
        obtain ⟨-, ⟨z, hz, ez⟩⟩ := step_near hF ho nt nt' bt (h.div ho (by omega) (h.low (by omega)))
        refine ⟨z, by rw [if_neg h1, if_pos (by omega), fluxUpD, Nat.add_sub_cancel, e, e', hz], ?_⟩
        rw [upVal, if_neg h1, if_pos (by omega), outUp, if_neg h1, ef]
        exact ez
  choose! S hS using key
  exact ⟨S, hS⟩

theorem down_near (h : Grid u η Ω g n bins c) (hF : F.Std u η Ω) (ho : Ok u η Ω) :
    ∃ S : ℕ → ℝ, ∀ k < n, sectDownD F n (fun k => fin (bins.getD k 0)) (fun k => fin (c k)) k = fin (S k) ∧
      |S k - downVal n bins c k| ≤ 4.2 * u * (|inDown n bins c k| + |fDown bins c k|) + 3.1 * η := by
  have key : ∀ k < n, ∃ y, sectDownD F n (fun k => fin (bins.getD k 0)) (fun k => fin (c k)) k = fin y ∧
      |y - downVal n bins c k| ≤ 4.2 * u * (|inDown n bins c k| + |fDown bins c k|) + 3.1 * η := by
    intro k hk
    have h2 := h.inc.two
    have edv : downVal n bins c k = inDown n bins c k - fDown bins c k := by rw [downVal, if_pos hk]; rfl
    rw [sectDownD_eq F h2, edv]
    have ed : ∀ j, fDown bins c (j + 1) = c (j + 1) / (bins.getD (j + 1) 0 - bins.getD j 0) := fun j => by simp [fDown]
    by_cases h1 : k + 1 < n
    · obtain ⟨t, e, nt⟩ := h.flux hF ho (j := k + 1) (k := k) h1 h1
      have bt : |c (k + 1) / (bins.getD (k + 1) 0 - bins.getD k 0)| ≤ Ω / 8 := h.div ho h1 (h.diff h1)
      have ei : inDown n bins c k = c (k + 1) / (bins.getD (k + 1) 0 - bins.getD k 0) := by rw [inDown, if_pos h1, ed]
      rw [ei]
      by_cases h0 : k = 0
      · subst h0
        obtain ⟨t', e', nt'⟩ := h.endFlux hF ho (k := 0) (by omega)
        obtain ⟨⟨z, hz, ez⟩, -⟩ := step_near hF ho nt nt' bt (h.div ho (by omega) (h.low (by omega)))
        refine ⟨z, ?_, ?_⟩
        · rw [if_pos rfl, fluxDownD]
          simp only [zero_add, Nat.sub_self] at *
          rw [e, e', hz]
        · rw [fDown, if_pos rfl]; exact ez
      · obtain ⟨j, rfl⟩ : ∃ j, k = j + 1 := ⟨k - 1, by omega⟩
        obtain ⟨t', e', nt'⟩ := h.flux hF ho (j := j + 1) (k := j) hk hk
        obtain ⟨⟨z, hz, ez⟩, -⟩ := step_near hF ho nt nt' bt (h.div ho hk (h.diff hk))
        refine ⟨z, by rw [if_neg h0, if_pos h1, fluxDownD, fluxDownD, Nat.add_sub_cancel, Nat.add_sub_cancel, e, e', hz], ?_⟩
        rw [ed]; exact ez
    · obtain ⟨j, rfl⟩ : ∃ j, k = j + 1 := ⟨k - 1, by omega⟩
      obtain ⟨t, e, nt⟩ := h.flux hF ho (j := j + 1) (k := j) hk hk
      refine ⟨-t, by rw [if_neg (by omega), if_neg h1, if_pos (by omega), fluxDownD, Nat.add_sub_cancel, e]; rfl, ?_⟩
      have ei : inDown n bins c (j + 1) = 0 := by rw [inDown, if_neg h1]
      rw [ei, ed]
      exact neg_near ho.u0 ho.η0 nt
  choose! S hS using key
  exact ⟨S, hS⟩

theorem ratio_le (h : Grid u η Ω g n bins c) {k : ℕ} (hk : k + 1 < n) (x : ℝ) :
    (bins.getD k 0 + bins.getD (k + 1) 0) * |x / (bins.getD (k + 1) 0 - bins.getD k 0)| ≤ (g + 1) / (g - 1) * |x| := by
  have hp := h.inc.mono k hk
  have hg := h.geo k hk
  have h1 := h.one
  rw [abs_div, abs_of_pos (by linarith : 0 < bins.getD (k + 1) 0 - bins.getD k 0), mul_div_left_comm, mul_comm]
  refine mul_le_mul_of_nonneg_right ?_ (abs_nonneg x)
  rw [div_le_div_iff₀ (by linarith) (by linarith)]
  nlinarith

theorem up_size (h : Grid u η Ω g n bins c) :
    ∑ k ∈ Finset.range n, bins.getD k 0 * (|fIn bins c k| + |outUp n bins c k|) ≤ (g + 1) / (g - 1) * ∑ k ∈ Finset.range n, |c k| := by
  have h1 := h.one
  obtain ⟨N, rfl⟩ : ∃ N, n = N + 1 := ⟨n - 1, by have := h.inc.two; omega⟩
  simp only [mul_add, Finset.sum_add_distrib]
  rw [Finset.sum_range_succ' (fun k => bins.getD k 0 * |fIn bins c k|), Finset.sum_range_succ (fun k => bins.getD k 0 * |outUp (N + 1) bins c k|),
    Finset.sum_range_succ (fun k => |c k|), mul_add, Finset.mul_sum]
  have e1 : ∑ k ∈ Finset.range N, bins.getD (k + 1) 0 * |fIn bins c (k + 1)| + ∑ k ∈ Finset.range N, bins.getD k 0 * |outUp (N + 1) bins c k| ≤
      ∑ k ∈ Finset.range N, (g + 1) / (g - 1) * |c k| := by
    rw [← Finset.sum_add_distrib]
    refine Finset.sum_le_sum fun k hk => ?_
    have hk := Finset.mem_range.1 hk
    have := ratio_le h (k := k) (by omega) (c k)
    have e : fIn bins c (k + 1) = c k / (bins.getD (k + 1) 0 - bins.getD k 0) := by simp [fIn, fUp]
    rw [outUp, if_pos (by omega), e, fUp]
    linarith
  have e2 : bins.getD N 0 * |outUp (N + 1) bins c N| = |c N| := by
    have hp := h.inc.pos (k := N) (by omega)
    rw [outUp, if_neg (by omega), abs_div, abs_of_pos hp]
    field_simp
  have e3 : |c N| ≤ (g + 1) / (g - 1) * |c N| := by
    have : 1 ≤ (g + 1) / (g - 1) := by rw [le_div_iff₀ (by linarith)]; linarith
    nlinarith [abs_nonneg (c N)]
  have e4 : bins.getD 0 0 * |fIn bins c 0| = 0 := by simp [fIn]
  linarith

theorem down_size (h : Grid u η Ω g n bins c) :
    ∑ k ∈ Finset.range n, bins.getD k 0 * (|inDown n bins c k| + |fDown bins c k|) ≤ (g + 1) / (g - 1) * ∑ k ∈ Finset.range n, |c k| := by
  have h1 := h.one
  obtain ⟨N, rfl⟩ : ∃ N, n = N + 1 := ⟨n - 1, by have := h.inc.two; omega⟩
  simp only [mul_add, Finset.sum_add_distrib]
  rw [Finset.sum_range_succ (fun k => bins.getD k 0 * |inDown (N + 1) bins c k|), Finset.sum_range_succ' (fun k => bins.getD k 0 * |fDown bins c k|),
    Finset.sum_range_succ' (fun k => |c k|), mul_add, Finset.mul_sum]
  have e1 : ∑ k ∈ Finset.range N, bins.getD k 0 * |inDown (N + 1) bins c k| + ∑ k ∈ Finset.range N, bins.getD (k + 1) 0 * |fDown bins c (k + 1)| ≤
      ∑ k ∈ Finset.range N, (g + 1) / (g - 1) * |c (k + 1)| := by
    rw [← Finset.sum_add_distrib]
    refine Finset.sum_le_sum fun k hk => ?_
    have hk := Finset.mem_range.1 hk
    have := ratio_le h (k := k) (by omega) (c (k + 1))
    have e : fDown bins c (k + 1) = c (k + 1) / (bins.getD (k + 1) 0 - bins.getD k 0) := by simp [fDown]
    rw [inDown, if_pos (by omega), e]
    linarith
  have e2 : bins.getD 0 0 * |fDown bins c 0| = |c 0| := by
    have hp := h.inc.pos0
    rw [fDown, if_pos rfl, abs_div, abs_of_pos hp]
    field_simp
  have e3 : |c 0| ≤ (g + 1) / (g - 1) * |c 0| := by
    have : 1 ≤ (g + 1) / (g - 1) := by rw [le_div_iff₀ (by linarith)]; linarith
    nlinarith [abs_nonneg (c 0)]
  have e4 : bins.getD N 0 * |inDown (N + 1) bins c N| = 0 := by simp [inDown]
  linarith

/-- A weighted sum of pointwise errors. -/
theorem weigh {n : ℕ} {b S E A : ℕ → ℝ} {u η : ℝ} (hb : ∀ k < n, 0 ≤ b k) (h : ∀ k < n, |S k - E k| ≤ 4.2 * u * A k + 3.1 * η) :
    |∑ k ∈ Finset.range n, b k * S k - ∑ k ∈ Finset.range n, b k * E k| ≤
      4.2 * u * (∑ k ∈ Finset.range n, b k * A k) + 3.1 * η * ∑ k ∈ Finset.range n, b k := by
  rw [← Finset.sum_sub_distrib, Finset.mul_sum, Finset.mul_sum, ← Finset.sum_add_distrib]
  refine (Finset.abs_sum_le_sum_abs _ _).trans (Finset.sum_le_sum fun k hk => ?_)
  have hk := Finset.mem_range.1 hk
  rw [← mul_sub, abs_mul, abs_of_nonneg (hb k hk)]
  have := mul_le_mul_of_nonneg_left (h k hk) (hb k hk)
  linarith

end

/-! ## Sources and gas rates -/

/-- The sum over the five processes. -/
theorem sum5 {F : Fp} {u η Ω : ℝ} (hF : F.Std u η Ω) (ho : Ok u η Ω) {a b c d e : ℝ} (ha : |a| ≤ Ω / 1000)
    (hb : |b| ≤ Ω / 1000) (hc : |c| ≤ Ω / 1000) (hd : |d| ≤ Ω / 1000) (he : |e| ≤ Ω / 1000) :
    ∃ z, F.add (F.add (F.add (F.add (fin a) (fin b)) (fin c)) (fin d)) (fin e) = fin z ∧
      |z - (a + b + c + d + e)| ≤ 4.1 * u * (|a| + |b| + |c| + |d| + |e|) + 4.1 * η := by
  have ho' := ho
  obtain ⟨u0, η0, u1, ηu, hΩ⟩ := ho
  have a0 := abs_nonneg a
  have b0 := abs_nonneg b
  have c0 := abs_nonneg c
  have d0 := abs_nonneg d
  have e0 := abs_nonneg e
  have z (x : ℝ) : |x - x| ≤ 0 := by simp
  have k (x : ℝ) (hx : 0 ≤ x) : u * x ≤ 1 / 1000 * x := mul_le_mul_of_nonneg_right u1 hx
  have ka := k _ a0
  have kb := k _ b0
  have kc := k _ c0
  have kd := k _ d0
  have kη := k _ η0
  have pa := mul_nonneg u0 a0
  have pb := mul_nonneg u0 b0
  have pc := mul_nonneg u0 c0
  have pd := mul_nonneg u0 d0
  have pe := mul_nonneg u0 e0
  have qa := k _ pa
  have qb := k _ pb
  have qc := k _ pc
  have qd := k _ pd
  obtain ⟨s1, h1, e1⟩ := add_near hF ho' (z a) (z b) le_rfl (by linarith)
  have e1' : |s1 - (a + b)| ≤ u * (|a| + |b|) + η := by linarith
  obtain ⟨s2, h2, e2⟩ := add_near hF ho' e1' (z c) (add_le_add_left (abs_add_le a b) _) (by linarith)
  have e2' : |s2 - (a + b + c)| ≤ 2.01 * u * (|a| + |b| + |c|) + 2.01 * η := by nlinarith
  have t2 : |a + b + c| ≤ |a| + |b| + |c| := (abs_add_le _ _).trans (add_le_add_left (abs_add_le a b) _)
  obtain ⟨s3, h3, e3⟩ := add_near hF ho' e2' (z d) (add_le_add_left t2 _) (by linarith)
  have e3' : |s3 - (a + b + c + d)| ≤ 3.03 * u * (|a| + |b| + |c| + |d|) + 3.03 * η := by nlinarith
  have t3 : |a + b + c + d| ≤ |a| + |b| + |c| + |d| := (abs_add_le _ _).trans (add_le_add_left t2 _)
  obtain ⟨s4, h4, e4⟩ := add_near hF ho' e3' (z e) (add_le_add_left t3 _) (by linarith)
  exact ⟨s4, by rw [h1, h2, h3, h4], by nlinarith⟩

/-- The running sum `mdot`. -/
theorem mdot_near {F : Fp} {u η Ω : ℝ} (hF : F.Std u η Ω) (ho : Ok u η Ω) (b S : ℕ → ℝ) (n : ℕ) (hn : (n + 1) * u ≤ 1 / 20)
    (hX : ∑ k ∈ Finset.range n, |S k * b k| ≤ Ω / 4000) :
    ∃ y, mdotD F (fun k => fin (b k)) (fun k => fin (S k)) n = fin y ∧
      |y - ∑ k ∈ Finset.range n, S k * b k| ≤ 1.1 * (n + 1) * u * (∑ k ∈ Finset.range n, |S k * b k|) + 2.2 * n * η := by
  induction n with
  | zero => exact ⟨0, rfl, by simp⟩
  | succ n ih =>
    have ho' := ho
    obtain ⟨u0, η0, u1, ηu, hΩ⟩ := ho
    rw [Finset.sum_range_succ] at hX ⊢
    rw [Finset.sum_range_succ]
    push_cast at hn ⊢
    have p0 : 0 ≤ ∑ k ∈ Finset.range n, |S k * b k| := Finset.sum_nonneg fun _ _ => abs_nonneg _
    have x0 := abs_nonneg (S n * b n)
    have n0 : (0 : ℝ) ≤ n := Nat.cast_nonneg n
    obtain ⟨y, hy, ey⟩ := ih (by nlinarith) (by linarith)
    set X := ∑ k ∈ Finset.range n, |S k * b k| with hXd
    set T := ∑ k ∈ Finset.range n, S k * b k with hT
    have hTX : |T| ≤ X := Finset.abs_sum_le_sum_abs _ _
    set x := S n * b n with hx
    obtain ⟨p, hp, ep⟩ := hF x (by linarith)
    have nη : n * η ≤ n * u := mul_le_mul_of_nonneg_left ηu n0
    have nuX : (n + 1) * u * X ≤ 1 / 20 * X := mul_le_mul_of_nonneg_right (by nlinarith) p0
    have ux : u * |x| ≤ 1 / 1000 * |x| := mul_le_mul_of_nonneg_right u1 x0
    obtain ⟨z, hz, ez⟩ := add_near hF ho' ey ep (add_le_add_left hTX _) (by nlinarith)
    refine ⟨z, by simp only [mdotD, hy, Fp.mul, ← hx, hp, hz], ez.trans ?_⟩
    have h1 : u * ((n + 1) * u * X) ≤ u * (1 / 20 * X) := mul_le_mul_of_nonneg_left nuX u0
    have h2 : u * (u * |x|) ≤ u * (1 / 1000 * |x|) := mul_le_mul_of_nonneg_left ux u0
    have h3 : n * u * η ≤ 1 / 20 * η := mul_le_mul_of_nonneg_right (by nlinarith) η0
    have h4 : u * η ≤ 1 / 1000 * η := mul_le_mul_of_nonneg_right u1 η0
    have uX := mul_nonneg u0 p0
    have uxx := mul_nonneg u0 x0
    have nux : 0 ≤ n * (u * |x|) := mul_nonneg n0 uxx
    nlinarith

theorem mdot_zero {F : Fp} (h0 : F.rnd 0 = fin 0) (b S : ℕ → ℝ) (n : ℕ) (hS : ∀ k < n, S k = 0) :
    mdotD F (fun k => fin (b k)) (fun k => fin (S k)) n = fin 0 := by
  induction n with
  | zero => rfl
  | succ n ih => simp [mdotD, ih fun k hk => hS k (by omega), hS n (by omega), Fp.mul, Fp.add, h0]

end FpSect

open FpSect in
/-- **C96.** Size transport under rounding.  The bins grow by at least the factor `g`; `c k` is the mass rate of bin `k` (surface growth,
condensation or oxidation).  The computed transport terms are finite, and the mass they carry is the sum of the rates up to
`4.2 (g+1)/(g-1)` rounding units (12.6 for the default factor 2). -/
theorem C96_transport (F : Fp) (u η Ω g : ℝ) (hF : F.Std u η Ω) (ho : FpMass.Ok u η Ω) (n : ℕ) (bins : List ℝ) (c : ℕ → ℝ)
    (h : Grid u η Ω g n bins c) :
    ∃ U D : ℕ → ℝ,
      (∀ k < n, sectUpD F n (fun k => fin (bins.getD k 0)) (fun k => fin (c k)) k = fin (U k)) ∧
      (∀ k < n, sectDownD F n (fun k => fin (bins.getD k 0)) (fun k => fin (c k)) k = fin (D k)) ∧
      |∑ k ∈ Finset.range n, bins.getD k 0 * U k - ∑ k ∈ Finset.range n, c k| ≤
        4.2 * ((g + 1) / (g - 1)) * u * (∑ k ∈ Finset.range n, |c k|) + 3.1 * η * ∑ k ∈ Finset.range n, bins.getD k 0 ∧
      |∑ k ∈ Finset.range n, bins.getD k 0 * D k + ∑ k ∈ Finset.range n, c k| ≤
        4.2 * ((g + 1) / (g - 1)) * u * (∑ k ∈ Finset.range n, |c k|) + 3.1 * η * ∑ k ∈ Finset.range n, bins.getD k 0 := by
  obtain ⟨U, hU⟩ := up_near h hF ho
  obtain ⟨D, hD⟩ := down_near h hF ho
  have hb : ∀ k < n, 0 ≤ bins.getD k 0 := fun k hk => (h.inc.pos hk).le
  refine ⟨U, D, fun k hk => (hU k hk).1, fun k hk => (hD k hk).1, ?_, ?_⟩
  · have := weigh hb fun k hk => (hU k hk).2
    rw [upVal_mass h.inc] at this
    have := mul_le_mul_of_nonneg_left (up_size h) (show 0 ≤ 4.2 * u by linarith [ho.u0])
    linarith
  · have := weigh hb fun k hk => (hD k hk).2
    rw [downVal_mass h.inc, sub_neg_eq_add] at this
    have := mul_le_mul_of_nonneg_left (down_size h) (show 0 ≤ 4.2 * u by linarith [ho.u0])
    linarith

open FpMass FpSect in
/-- **C96.** Soot and gas together.  Whatever (finite) terms the processes have put into the bins, what the `n` bins gain in mass by nucleation,
growth and oxidation is taken from the gas, up to `1.1 n + 74` rounding units of the mass moved.  Condensation and coagulation take nothing
from the gas species, so their mass `Σ m_k (cnd_k + coa_k)` remains.  A mechanism NONE contributes zero terms. -/
theorem C96_balance (F : Fp) (u η Ω : ℝ) (hF : F.Std u η Ω) (ho : FpMass.Ok u η Ω) (hz : F.rnd 0 = fin 0) (N : NuclMech) (G : GrowMech)
    (X : OxidMech) (hN : N ≠ .PAH) (n : ℕ) (hn : (n + 1) * u ≤ 1 / 20) (b nuc grw cnd oxi coa : ℕ → ℝ) (hb : ∀ k < n, 0 ≤ b k)
    (hn0 : N = .NONE → ∀ k < n, nuc k = 0) (hg0 : G = .NONE → ∀ k < n, grw k = 0) (hx0 : X = .NONE → ∀ k < n, oxi k = 0)
    (hs : ∀ k < n, |nuc k| ≤ Ω / 1000 ∧ |grw k| ≤ Ω / 1000 ∧ |cnd k| ≤ Ω / 1000 ∧ |oxi k| ≤ Ω / 1000 ∧ |coa k| ≤ Ω / 1000)
    (hXn : ∑ k ∈ Finset.range n, |nuc k * b k| ≤ Ω / 4000) (hXg : ∑ k ∈ Finset.range n, |grw k * b k| ≤ Ω / 4000)
    (hXx : ∑ k ∈ Finset.range n, |oxi k * b k| ≤ Ω / 4000) :
    ∃ (S : ℕ → ℝ) (gas : GasSp → ℝ),
      (∀ k < n, sectSumD F (fun k => fin (nuc k)) (fun k => fin (grw k)) (fun k => fin (cnd k)) (fun k => fin (oxi k)) (fun k => fin (coa k)) k =
        fin (S k)) ∧
      (∀ sp, gasSourcesD F (Nucl.new N).ratio (Grow.new G).ratio (Oxid.new X).ratio
        (mdotD F (fun k => fin (b k)) (fun k => fin (nuc k)) n) (mdotD F (fun k => fin (b k)) (fun k => fin (grw k)) n)
        (mdotD F (fun k => fin (b k)) (fun k => fin (oxi k)) n) sp = fin (gas sp)) ∧
      |∑ k ∈ Finset.range n, b k * S k + ∑ sp, gas sp - ∑ k ∈ Finset.range n, b k * (cnd k + coa k)| ≤
        (1.1 * n + 74) * u * (∑ k ∈ Finset.range n, |nuc k * b k| + ∑ k ∈ Finset.range n, |grw k * b k| + ∑ k ∈ Finset.range n, |oxi k * b k|) +
        4.1 * u * (∑ k ∈ Finset.range n, |cnd k * b k| + ∑ k ∈ Finset.range n, |coa k * b k|) +
        (6.6 * n + 452 + 4.1 * ∑ k ∈ Finset.range n, b k) * η := by
  have ho' := ho
  obtain ⟨u0, η0, u1, ηu, hΩ⟩ := ho
  obtain ⟨yn, hyn, en⟩ := mdot_near hF ho' b nuc n hn hXn
  obtain ⟨yg, hyg, eg⟩ := mdot_near hF ho' b grw n hn hXg
  obtain ⟨yx, hyx, ex⟩ := mdot_near hF ho' b oxi n hn hXx
  have n0 : (0 : ℝ) ≤ n := Nat.cast_nonneg n
  have nη : n * η ≤ n * u := mul_le_mul_of_nonneg_left ηu n0
  have big : ∀ (S : ℕ → ℝ) (y : ℝ), |y - ∑ k ∈ Finset.range n, S k * b k| ≤
      1.1 * (n + 1) * u * (∑ k ∈ Finset.range n, |S k * b k|) + 2.2 * n * η →
      |y| ≤ 1.06 * (∑ k ∈ Finset.range n, |S k * b k|) + 2.2 * n * η := by
    intro S y h
    have p0 : 0 ≤ ∑ k ∈ Finset.range n, |S k * b k| := Finset.sum_nonneg fun _ _ => abs_nonneg _
    have hT : |∑ k ∈ Finset.range n, S k * b k| ≤ ∑ k ∈ Finset.range n, |S k * b k| := Finset.abs_sum_le_sum_abs _ _
    have h1 := abs_add_le (y - ∑ k ∈ Finset.range n, S k * b k) (∑ k ∈ Finset.range n, S k * b k)
    rw [sub_add_cancel] at h1
    have := mul_le_mul_of_nonneg_right hn p0
    linarith
  have bn := big _ _ en
  have bg := big _ _ eg
  have bx := big _ _ ex
  have small : ∀ {y x : ℝ}, |y| ≤ 1.06 * x + 2.2 * n * η → x ≤ Ω / 4000 → |y| ≤ Ω / 1000 := by
    intro y x h h'
    nlinarith
  choose gas hgas egas using gas_near hF ho' (nucl_stoich hN) (grow_stoich G) (oxid_stoich X) (small bn hXn) (small bg hXg) (small bx hXx)
  have bN : Balanced (Nucl.new N).ratio yn := nucl_balanced hN fun h => by
    have := mdot_zero hz b nuc n (hn0 h)
    rw [hyn, Dbl.fin.injEq] at this; exact this
  have bG : Balanced (Grow.new G).ratio yg := grow_balanced fun h => by
    have := mdot_zero hz b grw n (hg0 h)
    rw [hyg, Dbl.fin.injEq] at this; exact this
  have bX : Balanced (Oxid.new X).ratio yx := oxid_balanced fun h => by
    have := mdot_zero hz b oxi n (hx0 h)
    rw [hyx, Dbl.fin.injEq] at this; exact this
  have hsum : |∑ sp, gas sp + (yn + yg + yx)| ≤ 64 * u * (|yn| + |yg| + |yx|) + 429 * η := by
    have e : ∑ sp, gas sp + (yn + yg + yx) = ∑ sp, (gas sp - (term (Nucl.new N).ratio yn sp + term (Grow.new G).ratio yg sp +
        term (Oxid.new X).ratio yx sp)) := by
      rw [Finset.sum_sub_distrib, Finset.sum_add_distrib, Finset.sum_add_distrib, bN.sum, bG.sum, bX.sum]; ring
    rw [e]
    refine (Finset.abs_sum_le_sum_abs _ _).trans ((Finset.sum_le_sum fun sp _ => egas sp).trans ?_)
    rw [Finset.sum_add_distrib, ← Finset.mul_sum, Finset.sum_add_distrib, Finset.sum_add_distrib]
    have hc : ∑ _sp : GasSp, 39 * η = 429 * η := by
      rw [Finset.sum_const, show (Finset.univ : Finset GasSp).card = 11 from rfl, nsmul_eq_mul]; push_cast; ring
    rw [hc]
    have := mul_le_mul_of_nonneg_left (add_le_add (add_le_add bN.abs bG.abs) bX.abs) (show 0 ≤ 16 * u by linarith)
    linarith
  have key : ∀ k < n, ∃ z, sectSumD F (fun k => fin (nuc k)) (fun k => fin (grw k)) (fun k => fin (cnd k)) (fun k => fin (oxi k))
      (fun k => fin (coa k)) k = fin z ∧ |z - (nuc k + grw k + cnd k + oxi k + coa k)| ≤
        4.1 * u * (|nuc k| + |grw k| + |cnd k| + |oxi k| + |coa k|) + 4.1 * η := fun k hk =>
    sum5 hF ho' (hs k hk).1 (hs k hk).2.1 (hs k hk).2.2.1 (hs k hk).2.2.2.1 (hs k hk).2.2.2.2
  choose! S hS eS using key
  refine ⟨S, gas, hS, fun sp => by rw [hyn, hyg, hyx]; exact hgas sp, ?_⟩
  have hb' : |∑ k ∈ Finset.range n, (b k * S k - b k * (nuc k + grw k + cnd k + oxi k + coa k))| ≤
      4.1 * u * (∑ k ∈ Finset.range n, |nuc k * b k| + ∑ k ∈ Finset.range n, |grw k * b k| + ∑ k ∈ Finset.range n, |cnd k * b k| +
        ∑ k ∈ Finset.range n, |oxi k * b k| + ∑ k ∈ Finset.range n, |coa k * b k|) + 4.1 * η * ∑ k ∈ Finset.range n, b k := by
    rw [← Finset.sum_add_distrib, ← Finset.sum_add_distrib, ← Finset.sum_add_distrib, ← Finset.sum_add_distrib, Finset.mul_sum, Finset.mul_sum,
      ← Finset.sum_add_distrib]
    refine (Finset.abs_sum_le_sum_abs _ _).trans (Finset.sum_le_sum fun k hk => ?_)
    have hk := Finset.mem_range.1 hk
    have := mul_le_mul_of_nonneg_left (eS k hk) (hb k hk)
    simp only [← mul_sub, abs_mul, abs_of_nonneg (hb k hk)]
    linarith
  have e : ∑ k ∈ Finset.range n, b k * S k + ∑ sp, gas sp - ∑ k ∈ Finset.range n, b k * (cnd k + coa k) =
      ∑ k ∈ Finset.range n, (b k * S k - b k * (nuc k + grw k + cnd k + oxi k + coa k)) + (∑ sp, gas sp + (yn + yg + yx)) -
      ((yn - ∑ k ∈ Finset.range n, nuc k * b k) + (yg - ∑ k ∈ Finset.range n, grw k * b k) + (yx - ∑ k ∈ Finset.range n, oxi k * b k)) := by
    have : ∀ k ∈ Finset.range n, b k * (nuc k + grw k + cnd k + oxi k + coa k) = nuc k * b k + grw k * b k + oxi k * b k + b k * (cnd k + coa k) :=
      fun k _ => by ring
    rw [Finset.sum_sub_distrib, Finset.sum_congr rfl this, Finset.sum_add_distrib, Finset.sum_add_distrib, Finset.sum_add_distrib]
    ring
  rw [e]
  have t1 := abs_sub (∑ k ∈ Finset.range n, (b k * S k - b k * (nuc k + grw k + cnd k + oxi k + coa k)) + (∑ sp, gas sp + (yn + yg + yx)))
    ((yn - ∑ k ∈ Finset.range n, nuc k * b k) + (yg - ∑ k ∈ Finset.range n, grw k * b k) + (yx - ∑ k ∈ Finset.range n, oxi k * b k))
  have t2 := abs_add_le (∑ k ∈ Finset.range n, (b k * S k - b k * (nuc k + grw k + cnd k + oxi k + coa k))) (∑ sp, gas sp + (yn + yg + yx))
  have t3 := abs_add_three (yn - ∑ k ∈ Finset.range n, nuc k * b k) (yg - ∑ k ∈ Finset.range n, grw k * b k) (yx - ∑ k ∈ Finset.range n, oxi k * b k)
  have nuη : n * u * η ≤ 1 / 20 * η := mul_le_mul_of_nonneg_right (by nlinarith) η0
  have pn : 0 ≤ u * ∑ k ∈ Finset.range n, |nuc k * b k| := mul_nonneg u0 (Finset.sum_nonneg fun _ _ => abs_nonneg _)
  have pg : 0 ≤ u * ∑ k ∈ Finset.range n, |grw k * b k| := mul_nonneg u0 (Finset.sum_nonneg fun _ _ => abs_nonneg _)
  have px : 0 ≤ u * ∑ k ∈ Finset.range n, |oxi k * b k| := mul_nonneg u0 (Finset.sum_nonneg fun _ _ => abs_nonneg _)
  have un := mul_le_mul_of_nonneg_left bn u0
  have ug := mul_le_mul_of_nonneg_left bg u0
  have ux := mul_le_mul_of_nonneg_left bx u0
  nlinarith

open FpSect in
/-- **C96.** With exact arithmetic the transport over doubles is the one of the model over the real numbers. -/
theorem C96_exact (n : ℕ) (bins : List ℝ) (h : Bins n bins) (c : ℕ → ℝ) : ∃ U D : ℕ → ℝ, sectUp n bins c = Res.ok U ∧
    sectDown n bins c = Res.ok D ∧
    (∀ k < n, sectUpD Fp.exact n (fun k => fin (bins.getD k 0)) (fun k => fin (c k)) k = fin (U k)) ∧
    ∀ k < n, sectDownD Fp.exact n (fun k => fin (bins.getD k 0)) (fun k => fin (c k)) k = fin (D k) := by
  refine ⟨_, _, sectUp_ok h c, sectDown_ok h c, fun k hk => ?_, fun k hk => ?_⟩
  · have hf : ∀ j, j + 1 < n → fluxUpD Fp.exact (fun k => fin (bins.getD k 0)) (fun k => fin (c k)) j = fin (fUp bins c j) := by
      intro j hj
      have := h.mono j hj
      rw [fluxUpD, sub_fin]
      simp only [Fp.exact, Fp.div, if_neg (show bins.getD (j + 1) 0 - bins.getD j 0 ≠ 0 by linarith)]
      rfl
    have hp := (h.pos hk).ne'
    have h2 := h.two
    rw [sectUpD_eq _ h2, upVal, fIn]
    by_cases h0 : k = 0
    · subst h0
      rw [if_pos rfl, if_pos (by omega), if_pos rfl, hf 0 (by omega), zero_sub]; rfl
    · rw [if_neg h0, if_neg h0]
      by_cases h1 : k + 1 < n
      · rw [if_pos h1, if_pos h1, hf _ h1, hf (k - 1) (by omega), sub_fin]; rfl
      · rw [if_neg h1, if_neg h1, if_pos (by omega), if_pos (by omega), hf (k - 1) (by omega)]
        simp only [Fp.exact, Fp.div, if_neg hp, Fp.add]
  · have hf : ∀ j, 0 < j → j < n → fluxDownD Fp.exact (fun k => fin (bins.getD k 0)) (fun k => fin (c k)) j = fin (fDown bins c j) := by
      intro j h0 hj
      obtain ⟨i, rfl⟩ : ∃ i, j = i + 1 := ⟨j - 1, by omega⟩
      have := h.mono i hj
      rw [fluxDownD, Nat.add_sub_cancel, sub_fin]
      simp only [Fp.exact, Fp.div, if_neg (show bins.getD (i + 1) 0 - bins.getD i 0 ≠ 0 by linarith)]
      simp [fDown]
    have hp := h.pos0.ne'
    have h2 := h.two
    rw [sectDownD_eq _ h2, downVal, if_pos hk]
    by_cases h0 : k = 0
    · subst h0
      rw [if_pos rfl, if_pos (by omega), hf 1 (by omega) (by omega)]
      simp only [Fp.exact, Fp.div, if_neg hp]
      rw [← Fp.exact, sub_fin]
      simp [fDown, Fp.exact]
    · rw [if_neg h0]
      by_cases h1 : k + 1 < n
      · rw [if_pos h1, if_pos h1, hf _ (by omega) h1, hf k (by omega) hk, sub_fin]; rfl
      · rw [if_neg h1, if_neg h1, if_pos (by omega), hf k (by omega) hk, zero_sub]; rfl

theorem binary64_zero : binary64.rnd 0 = fin 0 := by
  have : (0 : ℝ) ≤ maxDbl := by linarith [C91_binary64.2.2.2.2.2]
  simp [binary64, this]

open FpSect in
/-- Three bins of soot particles in binary64. -/
theorem exGrid : Grid (2 ^ (-53 : ℤ)) (2 ^ (-1075 : ℤ)) maxDbl 2 3 [1e-24, 2e-24, 4e-24] (fun k => 1e-6 * (k + 1)) := by
  have hm : (2 : ℝ) ^ (100 : ℕ) ≤ maxDbl := by
    unfold maxDbl
    have h1 : (2 : ℝ) ^ (100 : ℕ) ≤ 2 ^ (971 : ℤ) := by
      rw [← zpow_natCast]; exact zpow_le_zpow_right₀ (by norm_num) (by norm_num)
    have h2 : (1 : ℝ) ≤ 2 ^ 53 - 1 := by norm_num
    calc (2 : ℝ) ^ (100 : ℕ) = 1 * 2 ^ (100 : ℕ) := (one_mul _).symm
      _ ≤ _ := mul_le_mul h2 h1 (by positivity) (by linarith)
  refine ⟨⟨rfl, by norm_num, by norm_num, ?_⟩, by norm_num, ?_, ?_, ?_, ?_⟩
  · intro k hk
    have hk : k < 2 := by omega
    interval_cases k <;> norm_num
  · intro k hk
    have hk : k < 2 := by omega
    interval_cases k <;> norm_num
  · have h1 : (2 : ℝ) ^ (-1075 : ℤ) ≤ 2 ^ (-53 : ℤ) * 2 ^ (-100 : ℤ) := by
      rw [← zpow_add₀ (by norm_num)]; exact zpow_le_zpow_right₀ (by norm_num) (by norm_num)
    refine h1.trans (mul_le_mul_of_nonneg_left ?_ (by positivity))
    norm_num
  · refine le_trans ?_ hm
    norm_num
  · intro k hk
    have h3 : |(1e-6 : ℝ) * (k + 1)| ≤ 3e-6 := by
      interval_cases k <;> norm_num
    refine h3.trans ?_
    have : (3e-6 : ℝ) ≤ 2 ^ 100 / 8 * (min (2 - 1) 1 * 1e-24) := by norm_num
    refine this.trans ?_
    simp only [List.getD_cons_zero]
    have : (0 : ℝ) ≤ min (2 - 1) 1 * 1e-24 := by norm_num
    nlinarith

/-- The theorems apply to binary64: growth of these particles keeps the mass up to 12.6 rounding units. -/
example : ∃ U : ℕ → ℝ, (∀ k < 3, sectUpD binary64 3 (fun k => fin (([1e-24, 2e-24, 4e-24] : List ℝ).getD k 0)) (fun k => fin (1e-6 * (k + 1))) k = fin (U k)) ∧
    |∑ k ∈ Finset.range 3, ([1e-24, 2e-24, 4e-24] : List ℝ).getD k 0 * U k - 6e-6| ≤ 4.2 * 3 * 2 ^ (-53 : ℤ) * 6e-6 + 3.1 * 2 ^ (-1075 : ℤ) * 7e-24 := by
  have hb := C91_binary64
  obtain ⟨U, D, hU, hD, e, -⟩ := C96_transport binary64 _ _ _ 2 hb.1 ⟨hb.2.1, hb.2.2.1, hb.2.2.2.1, hb.2.2.2.2.1, hb.2.2.2.2.2⟩ 3 _ _ exGrid
  refine ⟨U, hU, ?_⟩
  have e1 : ∑ k ∈ Finset.range 3, (1e-6 : ℝ) * ((k : ℕ) + 1) = 6e-6 := by norm_num [Finset.sum_range_succ]
  have e2 : ∑ k ∈ Finset.range 3, |(1e-6 : ℝ) * ((k : ℕ) + 1)| = 6e-6 := by
    rw [← e1]; exact Finset.sum_congr rfl fun k _ => abs_of_nonneg (by positivity)
  have e3 : ∑ k ∈ Finset.range 3, ([1e-24, 2e-24, 4e-24] : List ℝ).getD k 0 = 7e-24 := by norm_num [Finset.sum_range_succ]
  rw [e1, e2, e3] at e
  refine e.trans (le_of_eq ?_)
  norm_num

/-- The balance theorem applies to binary64 with three bins. -/
example : ∃ S : ℕ → ℝ, ∀ k < 3, sectSumD binary64 (fun _ => fin 1) (fun _ => fin (-2)) (fun _ => fin 0) (fun _ => fin 3) (fun _ => fin 0) k = fin (S k) := by
  have hb := C91_binary64
  have hΩ := hb.2.2.2.2.2
  have hm : (100000 : ℝ) ≤ maxDbl := by
    unfold maxDbl
    have : (1 : ℝ) ≤ 2 ^ (971 : ℤ) := one_le_zpow₀ (by norm_num) (by norm_num)
    calc (100000 : ℝ) = 100000 * 1 := by norm_num
      _ ≤ _ := mul_le_mul (by norm_num) this (by norm_num) (by norm_num)
  have a : ∀ {x : ℝ}, |x| ≤ 3 → |x| ≤ maxDbl / 1000 := fun h => h.trans (by linarith)
  obtain ⟨S, -, h, -⟩ := C96_balance binary64 _ _ _ hb.1 ⟨hb.2.1, hb.2.2.1, hb.2.2.2.1, hb.2.2.2.2.1, hb.2.2.2.2.2⟩ binary64_zero .LL .LL .LL
    (by simp) 3 (by norm_num) (fun _ => 1) (fun _ => 1) (fun _ => -2) (fun _ => 0) (fun _ => 3) (fun _ => 0) (fun _ _ => by norm_num)
    (fun h => by cases h) (fun h => by cases h) (fun h => by cases h) (fun _ _ => ⟨a (by norm_num), a (by norm_num), a (by norm_num), a (by norm_num), a (by norm_num)⟩)
    (by norm_num; linarith) (by norm_num; linarith) (by norm_num; linarith)
  exact ⟨S, h⟩

end Soot
