import Verif.Props.FpSect
import Verif.Props.SectRound

/-!
# C96: coagulation in the sectional model under rounding
-/

namespace Soot

open Dbl
open scoped Classical

namespace FpSect

open FpMass

theorem sum_change {n m : ℕ} (hm : m < n) {f f' : ℕ → ℝ} (h : ∀ k, k ≠ m → f' k = f k) :
    ∑ k ∈ Finset.range n, f' k = ∑ k ∈ Finset.range n, f k - f m + f' m := by
  have hm := Finset.mem_range.2 hm
  rw [← Finset.add_sum_erase _ _ hm, ← Finset.add_sum_erase _ f hm, Finset.sum_congr rfl fun k hk => h k (Finset.ne_of_mem_erase hk)]
  ring

/-- `S` holds finite numbers that approximate `E` with a total mass error of at most `W`; the terms added so far have mass `Q`. -/
def Acc (n : ℕ) (bins : List ℝ) (S : ℕ → Dbl) (E : ℕ → ℝ) (W Q : ℝ) : Prop :=
  ∃ s A : ℕ → ℝ, (∀ k < n, S k = fin (s k)) ∧ (∀ k < n, |E k| ≤ A k) ∧
    ∑ k ∈ Finset.range n, bins.getD k 0 * |s k - E k| ≤ W ∧ ∑ k ∈ Finset.range n, bins.getD k 0 * A k ≤ Q

theorem Acc.zero {n : ℕ} {bins : List ℝ} : Acc n bins (fun _ => fin 0) (fun _ => 0) 0 0 :=
  ⟨fun _ => 0, fun _ => 0, fun _ _ => rfl, fun _ _ => by simp, by simp, by simp⟩

theorem Acc.mono {n : ℕ} {bins : List ℝ} {S : ℕ → Dbl} {E : ℕ → ℝ} {W Q W' Q' : ℝ} (h : Acc n bins S E W Q) (hW : W ≤ W') (hQ : Q ≤ Q') :
    Acc n bins S E W' Q' := by
  obtain ⟨s, A, h1, h2, h3, h4⟩ := h
  exact ⟨s, A, h1, h2, h3.trans hW, h4.trans hQ⟩

/-- One rounded addition to a bin. -/
theorem Acc.add {F : Fp} {u η Ω : ℝ} (hF : F.Std u η Ω) (ho : Ok u η Ω) {n : ℕ} {bins : List ℝ} (hb : Bins n bins) {S : ℕ → Dbl} {E : ℕ → ℝ}
    {W Q : ℝ} (h : Acc n bins S E W Q) {m : ℕ} (hm : m < n) {δ δ' ε : ℝ} (hδ : |δ' - δ| ≤ ε)
    (hΩ : Q + W + bins.getD m 0 * (|δ| + ε) ≤ Ω * bins.getD 0 0) :
    Acc n bins (addD F S m (fin δ')) (addAt E m δ) ((1 + u) * (W + bins.getD m 0 * ε) + u * (Q + bins.getD m 0 * |δ|) + bins.getD m 0 * η)
      (Q + bins.getD m 0 * |δ|) := by
  obtain ⟨s, A, h1, h2, h3, h4⟩ := h
  have p0 := hb.pos0
  have pm := hb.pos hm
  have le0 := hb.le (Nat.zero_le m) hm
  have hA : bins.getD m 0 * A m ≤ Q := le_trans (Finset.single_le_sum (f := fun k => bins.getD k 0 * A k)
    (fun k hk => mul_nonneg (hb.pos (Finset.mem_range.1 hk)).le ((abs_nonneg _).trans (h2 k (Finset.mem_range.1 hk)))) (Finset.mem_range.2 hm)) h4
  have hW : bins.getD m 0 * |s m - E m| ≤ W := le_trans (Finset.single_le_sum (f := fun k => bins.getD k 0 * |s k - E k|)
    (fun k hk => mul_nonneg (hb.pos (Finset.mem_range.1 hk)).le (abs_nonneg _)) (Finset.mem_range.2 hm)) h3
  have ε0 : 0 ≤ ε := (abs_nonneg _).trans hδ
  have big : A m + |δ| + |s m - E m| + ε ≤ Ω := by
    have e : bins.getD m 0 * (A m + |δ| + |s m - E m| + ε) ≤ Ω * bins.getD 0 0 := by nlinarith
    have : bins.getD m 0 * (A m + |δ| + |s m - E m| + ε) ≤ bins.getD m 0 * Ω := by
      have := ho.Ω1
      nlinarith
    exact le_of_mul_le_mul_left this pm
  obtain ⟨z, hz, ez⟩ := add_near hF ho (le_refl |s m - E m|) hδ (add_le_add_left (h2 m hm) |δ|) big
  refine ⟨Function.update s m z, Function.update A m (A m + |δ|), ?_, ?_, ?_, ?_⟩
  · intro k hk
    by_cases e : k = m
    · subst e; rw [addD, Function.update_self, Function.update_self, h1 k hk, hz]
    · rw [addD, Function.update_of_ne e, Function.update_of_ne e, h1 k hk]
  · intro k hk
    by_cases e : k = m
    · subst e; rw [addAt, Function.update_self, Function.update_self]
      exact (abs_add_le _ _).trans (add_le_add_left (h2 k hk) _)
    · rw [addAt, Function.update_of_ne e, Function.update_of_ne e]; exact h2 k hk
  · rw [sum_change hm (f := fun k => bins.getD k 0 * |s k - E k|) (fun k hk => by rw [addAt, Function.update_of_ne hk, Function.update_of_ne hk])]
    rw [addAt, Function.update_self, Function.update_self]
    have := mul_le_mul_of_nonneg_left ez pm.le
    have := mul_le_mul_of_nonneg_left hA ho.u0
    have := mul_le_mul_of_nonneg_left hW ho.u0
    nlinarith
  · rw [sum_change hm (f := fun k => bins.getD k 0 * A k) (fun k hk => by rw [Function.update_of_ne hk]), Function.update_self]
    linarith

/-- Bins with ratios between `g` and `G`, none too small or too large for the arithmetic. -/
structure CGrid (u η Ω g G : ℝ) (n : ℕ) (bins : List ℝ) : Prop where
  inc : Bins n bins
  one : 1 < g
  geo : ∀ k, k + 1 < n → g * bins.getD k 0 ≤ bins.getD (k + 1) 0
  geoUp : ∀ k, k + 1 < n → bins.getD (k + 1) 0 ≤ G * bins.getD k 0
  fine : η ≤ u * (min (g - 1) 1 * bins.getD 0 0)
  top : 4 * bins.getD (n - 1) 0 ≤ Ω
  ratio : g / (g - 1) ≤ Ω / 100
  uratio : u * (g / (g - 1)) ≤ 1 / 100

section
variable {F : Fp} {u η Ω g G : ℝ} {n : ℕ} {bins : List ℝ}

theorem CGrid.toGrid (h : CGrid u η Ω g G n bins) (ho : Ok u η Ω) : Grid u η Ω g n bins (fun _ => 0) :=
  ⟨h.inc, h.one, h.geo, h.fine, by have := h.top; have := h.inc.pos (k := n - 1) (by have := h.inc.two; omega); linarith,
    fun k hk => by
      have := ho.Ω1; have := h.inc.pos0; have := h.one
      have : 0 < min (g - 1) 1 := lt_min (by linarith) one_pos
      rw [abs_zero]; positivity⟩

/-- The collision mass. -/
theorem mass_near (h : CGrid u η Ω g G n bins) (hF : F.Std u η Ω) (ho : Ok u η Ω) {i j : ℕ} (hi : i < n) (hj : j < n) :
    ∃ M, F.add (fin (bins.getD i 0)) (fin (bins.getD j 0)) = fin M ∧ Near (bins.getD i 0 + bins.getD j 0) M (2 * u) 0 := by
  have gi := (h.toGrid ho).low hi
  have pi := h.inc.pos hi
  have pj := h.inc.pos hj
  have hn : n - 1 < n := by omega
  have ti := h.inc.le (by omega : i ≤ n - 1) hn
  have tj := h.inc.le (by omega : j ≤ n - 1) hn
  have hp : 0 < bins.getD i 0 + bins.getD j 0 := by linarith
  obtain ⟨M, hM, eM⟩ := hF (bins.getD i 0 + bins.getD j 0) (by rw [abs_of_pos hp]; linarith [h.top])
  refine ⟨M, by simp only [Fp.add, hM], ?_⟩
  unfold Near
  rw [abs_of_pos hp] at *
  have := h.fine.trans (mul_le_mul_of_nonneg_left gi ho.u0)
  have := mul_nonneg ho.u0 pj.le
  linarith

/-- What enters the last bin. -/
theorem top_near (hF : F.Std u η Ω) (ho : Ok u η Ω) {e e' M M' b : ℝ} (he : Near e e' u η) (hM : Near M M' (2 * u) 0) (M0 : 0 < M) (b0 : 0 < b)
    (h1 : |e| * M ≤ Ω / 100) (h2 : |e| * M ≤ Ω / 100 * b) (h3 : (2 * M + 2) * η ≤ Ω / 100) (h4 : (2 * M + 2) * η ≤ Ω / 100 * b) :
    ∃ q, F.div (F.mul (fin e') (fin M')) (fin b) = fin q ∧ b * |q - e * M / b| ≤ 5.3 * u * (|e| * M) + (1.1 * M + 1.1 + b) * η := by
  obtain ⟨u0, η0, u1, ηu, hΩ⟩ := ho
  have e0 := abs_nonneg e
  have m0 : 0 ≤ |e| * M := by positivity
  have Mη : 0 ≤ M * η := by positivity
  have nP := (he.mul hM (by linarith : 0 ≤ 2 * u)).mono (show _ ≤ 3.01 * u by nlinarith) (show η * ((1 + 2 * u) * |M|) ≤ 1.01 * M * η by
    rw [abs_of_pos M0]; nlinarith)
  have aM : |e * M| = |e| * M := by rw [abs_mul, abs_of_pos M0]
  have bP := nP.abs
  rw [aM] at bP
  obtain ⟨p, hp, ep⟩ := hF (e' * M') (by nlinarith)
  have nP' := (nP.rnd u0 ep).mono (show _ ≤ 4.1 * u by nlinarith) (show _ ≤ (1.02 * M + 1) * η by nlinarith)
  have bp := nP'.abs
  rw [aM] at bp
  have ediv : ∀ x y : ℝ, b * |x / b - y / b| = |x - y| := by
    intro x y
    rw [← sub_div, abs_div, abs_of_pos b0]; field_simp
  have bq : b * |p / b| = |p| := by rw [abs_div, abs_of_pos b0]; field_simp
  have hpb : |p / b| ≤ Ω := by
    have : b * |p / b| ≤ b * Ω := by rw [bq]; nlinarith
    exact le_of_mul_le_mul_left this b0
  obtain ⟨q, hq, eq⟩ := hF (p / b) hpb
  refine ⟨q, by simp only [Fp.mul, hp, Fp.div, if_neg b0.ne', hq], ?_⟩
  have t1 : |q - e * M / b| ≤ |q - p / b| + |p / b - e * M / b| := by
    have := abs_add_le (q - p / b) (p / b - e * M / b)
    rwa [sub_add_sub_cancel] at this
  have t2 := mul_le_mul_of_nonneg_left t1 b0.le
  rw [mul_add, ediv] at t2
  have t3 := mul_le_mul_of_nonneg_left eq b0.le
  unfold Near at nP'
  rw [aM] at nP'
  have t4 : b * (u * |p / b| + η) = u * |p| + b * η := by rw [← bq]; ring
  rw [t4] at t3
  have := mul_le_mul_of_nonneg_left bp u0
  have um := mul_nonneg u0 m0
  have uum : u * (u * (|e| * M)) ≤ 1 / 1000 * (u * (|e| * M)) := mul_le_mul_of_nonneg_right u1 um
  have uη : u * η ≤ 1 / 1000 * η := mul_le_mul_of_nonneg_right u1 η0
  have uMη : u * (M * η) ≤ 1 / 1000 * (M * η) := mul_le_mul_of_nonneg_right u1 Mη
  nlinarith

/-- A product of an approximate fraction with the events. -/
theorem frac_near (hF : F.Std u η Ω) (ho : Ok u η Ω) {e e' x x' r : ℝ} (he : Near e e' u η) (hx : |x' - x| ≤ r) (x1 : |x| ≤ 1.05)
    (hr : r ≤ 0.11) (h1 : |e| ≤ Ω / 100) :
    ∃ z, F.mul (fin x') (fin e') = fin z ∧ |z - x * e| ≤ (1.01 * r + 2.3 * u) * |e| + 2.3 * η := by
  obtain ⟨u0, η0, u1, ηu, hΩ⟩ := ho
  have e0 := abs_nonneg e
  have r0 : 0 ≤ r := (abs_nonneg _).trans hx
  have be := he.abs
  unfold Near at he
  have ue : u * |e| ≤ 1 / 1000 * |e| := mul_le_mul_of_nonneg_right u1 e0
  have bx : |x'| ≤ 1.16 := by
    have := abs_add_le (x' - x) x
    rw [sub_add_cancel] at this
    linarith
  have pe : |x' * e'| ≤ 1.17 * |e| + 1.16 * η := by
    rw [abs_mul]
    have := mul_le_mul bx be (abs_nonneg _) (by norm_num)
    linarith
  obtain ⟨z, hz, ez⟩ := hF (x' * e') (by linarith)
  refine ⟨z, by simp only [Fp.mul, hz], ?_⟩
  have t1 : |z - x * e| ≤ |z - x' * e'| + |x' * e' - x * e| := by
    have := abs_add_le (z - x' * e') (x' * e' - x * e)
    rwa [sub_add_sub_cancel] at this
  have t2 : |x' * e' - x * e| ≤ r * |e'| + 1.05 * |e' - e| := by
    rw [show x' * e' - x * e = (x' - x) * e' + x * (e' - e) by ring]
    refine (abs_add_le _ _).trans ?_
    rw [abs_mul, abs_mul]
    have := mul_le_mul_of_nonneg_right hx (abs_nonneg e')
    have := mul_le_mul_of_nonneg_right x1 (abs_nonneg (e' - e))
    linarith
  have t3 := mul_le_mul_of_nonneg_left be r0
  have t4 := mul_le_mul_of_nonneg_left pe u0
  have t5 : r * (u * |e|) ≤ r * (1 / 1000 * |e|) := mul_le_mul_of_nonneg_left ue r0
  have t6 : r * η ≤ 0.11 * η := mul_le_mul_of_nonneg_right hr η0
  have t7 : u * η ≤ 1 / 1000 * η := mul_le_mul_of_nonneg_right u1 η0
  have t8 := mul_nonneg r0 e0
  have t9 := mul_nonneg u0 e0
  linarith

/-- `M` lies between the bins `a` and `b`, up to a twentieth of the distance (times `a/b`): the bin search may be off by a rounding. -/
def Between (a b M : ℝ) : Prop := a - (b - a) * a / (20 * b) ≤ M ∧ M ≤ b + (b - a) * a / (20 * b)

/-- The exact fraction. -/
theorem Between.frac {a b M : ℝ} (h : Between a b M) (ha : 0 < a) (hab : a < b) : |(b - M) / (b - a)| ≤ 1.05 ∧
    |1 - (b - M) / (b - a)| ≤ 1.05 ∧ |b - M| ≤ 1.05 * b ∧ M ≤ 1.05 * b ∧ a ≤ 1.06 * M ∧
    a * |(b - M) / (b - a)| + b * |1 - (b - M) / (b - a)| ≤ 1.22 * M := by
  obtain ⟨h1, h2⟩ := h
  have hb : 0 < b := by linarith
  have hD : 0 < b - a := by linarith
  set s := (b - a) * a / (20 * b) with hs
  have s0 : 0 ≤ s := by positivity
  have sb : b * s = (b - a) * a / 20 := by rw [hs]; field_simp
  have sD : s ≤ (b - a) / 20 := by
    rw [hs, div_le_div_iff₀ (by positivity) (by norm_num)]; nlinarith
  have sa : s ≤ a / 20 := by
    rw [hs, div_le_div_iff₀ (by positivity) (by norm_num)]; nlinarith
  set x := (b - M) / (b - a) with hx
  have ex : x * (b - a) = b - M := by rw [hx]; field_simp
  have x0 : -0.05 ≤ x := by rw [hx, le_div_iff₀ hD]; linarith
  have x1 : x ≤ 1.05 := by rw [hx, div_le_iff₀ hD]; linarith
  refine ⟨abs_le.2 ⟨by linarith, x1⟩, abs_le.2 ⟨by linarith, by linarith⟩, abs_le.2 ⟨by linarith, by linarith⟩, by linarith, by linarith, ?_⟩
  have em : x * a + (1 - x) * b = M := by linarith
  have t1 : |x| ≤ x + 0.1 := abs_le.2 ⟨by linarith, by linarith⟩
  have t2 : b * |1 - x| ≤ b * (1 - x) + 0.1 * a := by
    by_cases hp : 0 ≤ 1 - x
    · rw [abs_of_nonneg hp]; linarith
    · rw [abs_of_neg (not_le.1 hp)]
      have h3 : (x - 1) * (b - a) ≤ s := by linarith
      have h4 : b * ((x - 1) * (b - a)) ≤ (b - a) * a / 20 := by rw [← sb]; exact mul_le_mul_of_nonneg_left h3 hb.le
      have h5 : (b - a) * (b * (x - 1)) ≤ (b - a) * (a / 20) := by linarith
      have h6 := le_of_mul_le_mul_left h5 hD
      linarith
  have t3 := mul_le_mul_of_nonneg_left t1 ha.le
  linarith

/-- The fraction that goes to the lower bin. -/
theorem split_near (hF : F.Std u η Ω) (ho : Ok u η Ω) {a b M M' R : ℝ} (ha : 0 < a) (hab : a < b) (hη : η ≤ u * (b - a)) (hΩ : 4 * b ≤ Ω)
    (hM : Near M M' (2 * u) 0) (hB : Between a b M) (hR : b / (b - a) ≤ R) (hRΩ : R ≤ Ω / 100) (huR : u * R ≤ 1 / 100) :
    ∃ X Y, F.div (F.sub (fin b) (fin M')) (F.sub (fin b) (fin a)) = fin X ∧
      F.sub (fin 1) (fin X) = fin Y ∧ |X - (b - M) / (b - a)| ≤ 8.5 * u * R ∧ |Y - (1 - (b - M) / (b - a))| ≤ 10.6 * u * R := by
  obtain ⟨fx, fy, fN, fM, fa, -⟩ := hB.frac ha hab
  obtain ⟨u0, η0, u1, ηu, hΩ1⟩ := ho
  have hD : 0 < b - a := by linarith
  have M0 : 0 < M := by linarith
  have R1 : 1 ≤ R := le_trans (by rw [le_div_iff₀ hD]; linarith) hR
  obtain ⟨d, hd, nd⟩ := diff_near hF hab hη (by linarith)
  obtain ⟨d0, nI⟩ := nd.inv hD.ne' (by linarith) (by linarith)
  have nI' : Near (b - a)⁻¹ d⁻¹ (2.01 * u) 0 := nI.mono (by rw [div_le_iff₀ (by linarith)]; nlinarith) le_rfl
  have i0 : 0 < (b - a)⁻¹ := inv_pos.2 hD
  unfold Near at hM nI'
  rw [abs_of_pos M0] at hM
  rw [abs_of_pos i0] at nI'
  have uM : u * M ≤ u * (1.05 * b) := mul_le_mul_of_nonneg_left fM u0
  have ub : 0 ≤ u * b := mul_nonneg u0 (by linarith)
  have uub : u * (u * b) ≤ 1 / 1000 * (u * b) := mul_le_mul_of_nonneg_right u1 ub
  have ηb : η ≤ u * b := hη.trans (mul_le_mul_of_nonneg_left (by linarith) u0)
  have kb : u * b ≤ 1 / 1000 * b := mul_le_mul_of_nonneg_right u1 (by linarith)
  have hN : |(b - M') - (b - M)| ≤ 2 * u * M := by rw [show (b - M') - (b - M) = -(M' - M) by ring, abs_neg]; linarith
  have aN : |b - M'| ≤ 1.05 * b + 2 * u * M := by
    have := abs_add_le ((b - M') - (b - M)) (b - M)
    rw [sub_add_cancel] at this
    linarith
  obtain ⟨N, hNr, eN⟩ := hF (b - M') (by linarith)
  have eN' : |N - (b - M)| ≤ 4.2 * u * b := by
    have := abs_add_le (N - (b - M')) ((b - M') - (b - M))
    rw [sub_add_sub_cancel] at this
    have := mul_le_mul_of_nonneg_left aN u0
    have : u * (u * M) ≤ u * (u * (1.05 * b)) := mul_le_mul_of_nonneg_left uM u0
    linarith
  have hbD : b * (b - a)⁻¹ ≤ R := by rw [← div_eq_mul_inv]; exact hR
  have bI : |d⁻¹| ≤ 1.01 * (b - a)⁻¹ := by
    have := abs_add_le (d⁻¹ - (b - a)⁻¹) (b - a)⁻¹
    rw [sub_add_cancel, abs_of_pos i0] at this
    have : u * (b - a)⁻¹ ≤ 1 / 1000 * (b - a)⁻¹ := mul_le_mul_of_nonneg_right u1 i0.le
    linarith
  have uR0 : 0 ≤ u * R := mul_nonneg u0 (by linarith)
  have eq : |N / d - (b - M) / (b - a)| ≤ 6.4 * u * R := by
    rw [show N / d - (b - M) / (b - a) = (N - (b - M)) * d⁻¹ + (b - M) * (d⁻¹ - (b - a)⁻¹) by
      rw [div_eq_mul_inv, div_eq_mul_inv]; ring]
    refine (abs_add_le _ _).trans ?_
    rw [abs_mul, abs_mul]
    have t1 : |N - (b - M)| * |d⁻¹| ≤ (4.2 * u * b) * (1.01 * (b - a)⁻¹) := mul_le_mul eN' bI (abs_nonneg _) (by linarith)
    have t2 : |b - M| * |d⁻¹ - (b - a)⁻¹| ≤ (1.05 * b) * (2.01 * u * (b - a)⁻¹) := mul_le_mul fN (by linarith) (abs_nonneg _) (by linarith)
    have t3 := mul_le_mul_of_nonneg_left hbD u0
    linarith
  have aq : |N / d| ≤ 1.05 + 6.4 * u * R := by
    have := abs_add_le (N / d - (b - M) / (b - a)) ((b - M) / (b - a))
    rw [sub_add_cancel] at this
    linarith
  obtain ⟨X, hX, eX⟩ := hF (N / d) (by linarith)
  have uuR : u * (u * R) ≤ 1 / 1000 * (u * R) := mul_le_mul_of_nonneg_right u1 uR0
  have uR : u ≤ u * R := by nlinarith
  have eX' : |X - (b - M) / (b - a)| ≤ 8.5 * u * R := by
    have := abs_add_le (X - N / d) (N / d - (b - M) / (b - a))
    rw [sub_add_sub_cancel] at this
    have := mul_le_mul_of_nonneg_left aq u0
    linarith
  have a1 : |1 - X| ≤ 1.05 + 8.5 * u * R := by
    have := abs_add_le (1 - (b - M) / (b - a)) (-(X - (b - M) / (b - a)))
    rw [show 1 - (b - M) / (b - a) + -(X - (b - M) / (b - a)) = 1 - X by ring, abs_neg] at this
    linarith
  obtain ⟨Y, hY, eY⟩ := hF (1 - X) (by linarith)
  refine ⟨X, Y, ?_, by rw [sub_fin, hY], eX', ?_⟩
  · rw [hd, sub_fin, hNr]
    simp only [Fp.div, if_neg d0, hX]
  · have := abs_add_le (Y - (1 - X)) (-(X - (b - M) / (b - a)))
    rw [show Y - (1 - X) + -(X - (b - M) / (b - a)) = Y - (1 - (b - M) / (b - a)) by ring, abs_neg] at this
    have := mul_le_mul_of_nonneg_left a1 u0
    linarith

/-- `Acc.add` with the bounds used below: `Q'` for the mass added at the end, `w` for the error of the new term. -/
theorem Acc.step (hF : F.Std u η Ω) (ho : Ok u η Ω) (hb : Bins n bins) {S : ℕ → Dbl} {E : ℕ → ℝ} {W Q : ℝ} (h : Acc n bins S E W Q) (W0 : 0 ≤ W)
    {m : ℕ} (hm : m < n) {δ δ' ε w q Q' : ℝ} (hδ : |δ' - δ| ≤ ε) (hw : bins.getD m 0 * ε ≤ w) (hq : bins.getD m 0 * |δ| ≤ q) (hQ : Q + q ≤ Q')
    (hΩ : Q' + (1 + u) * (W + w + u * Q' + bins.getD (n - 1) 0 * η) ≤ Ω * bins.getD 0 0) :
    Acc n bins (addD F S m (fin δ')) (addAt E m δ) ((1 + u) * (W + w + u * Q' + bins.getD (n - 1) 0 * η)) (Q + q) := by
  have ε0 : 0 ≤ ε := (abs_nonneg _).trans hδ
  have pm := hb.pos hm
  have hB := hb.le (by omega : m ≤ n - 1) (by omega : n - 1 < n)
  have Q0 : 0 ≤ Q := by
    obtain ⟨s, A, h1, h2, h3, h4⟩ := h
    exact (Finset.sum_nonneg fun k hk => mul_nonneg (hb.pos (Finset.mem_range.1 hk)).le ((abs_nonneg _).trans (h2 k (Finset.mem_range.1 hk)))).trans h4
  have q0 : 0 ≤ bins.getD m 0 * |δ| := by positivity
  have w0 : 0 ≤ bins.getD m 0 * ε := by positivity
  have hBη : bins.getD m 0 * η ≤ bins.getD (n - 1) 0 * η := mul_le_mul_of_nonneg_right hB ho.η0
  have b0 : 0 ≤ bins.getD m 0 * η := mul_nonneg pm.le ho.η0
  have uQ : u * (Q + bins.getD m 0 * |δ|) ≤ u * Q' := mul_le_mul_of_nonneg_left (by linarith) ho.u0
  have uQ0 : 0 ≤ u * Q' := mul_nonneg ho.u0 (by linarith)
  have e1 : (0 : ℝ) ≤ u * (W + w + u * Q' + bins.getD (n - 1) 0 * η) := mul_nonneg ho.u0 (by linarith)
  have e2 : 0 ≤ u * (w - bins.getD m 0 * ε) := mul_nonneg ho.u0 (by linarith)
  have e3 : 0 ≤ u * (u * Q') := mul_nonneg ho.u0 uQ0
  have e4 : 0 ≤ u * (bins.getD (n - 1) 0 * η) := mul_nonneg ho.u0 (by linarith)
  refine (h.add hF ho hb hm hδ (by linarith)).mono (by linarith) (by linarith)

/-- The number of events as computed. -/
theorem events_near (hF : F.Std u η Ω) (ho : Ok u η Ω) (t : ℝ) (i j : ℕ) (h : |pairEvents t i j| ≤ Ω) :
    ∃ e', (if i = j then F.mul (fin t) (fin 0.5) else fin t) = fin e' ∧ Near (pairEvents t i j) e' u η := by
  unfold pairEvents at *
  by_cases hij : i = j
  · rw [if_pos hij] at h ⊢
    rw [if_pos hij]
    obtain ⟨z, hz, ez⟩ := hF _ h
    exact ⟨z, by simp only [Fp.mul, hz], ez⟩
  · rw [if_neg hij] at h ⊢
    rw [if_neg hij]
    refine ⟨t, rfl, ?_⟩
    unfold Near
    rw [sub_self, abs_zero]
    have := mul_nonneg ho.u0 (abs_nonneg t)
    linarith [ho.η0]

/-- The mass of the particles made by the collisions of bins `i` and `j`. -/
noncomputable def moved (bins : List ℝ) (t : ℕ → ℕ → ℝ) (p : ℕ × ℕ) : ℝ :=
  |pairEvents (t p.1 p.2) p.1 p.2| * (bins.getD p.1 0 + bins.getD p.2 0)

theorem moved_eq (h : CGrid u η Ω g G n bins) {i j : ℕ} (hij : i ≤ j) (hj : j < n) (t : ℕ → ℕ → ℝ) :
    bins.getD i 0 * |t i j| + (if j > i then bins.getD j 0 * |t i j| else 0) = moved bins t (i, j) := by
  unfold moved pairEvents
  by_cases e : j > i
  · simp only [if_pos e, if_neg (show ¬ i = j by omega)]; ring
  · have : i = j := by omega
    subst this
    simp only [lt_irrefl, gt_iff_lt, if_false, if_true, abs_mul]
    norm_num; ring

theorem grow2 {u W q b : ℝ} (u0 : 0 ≤ u) (u1 : u ≤ 1 / 1000) (W0 : 0 ≤ W) (q0 : 0 ≤ q) (b0 : 0 ≤ b) :
    (1 + u) * ((1 + u) * (W + 0 + q + b) + 0 + q + b) ≤ (1 + 2.01 * u) * W + 2.01 * (q + b) := by
  have := mul_nonneg u0 W0
  have := mul_le_mul_of_nonneg_right u1 (mul_nonneg u0 W0)
  have := mul_le_mul_of_nonneg_right u1 q0
  have := mul_le_mul_of_nonneg_right u1 b0
  have := mul_le_mul_of_nonneg_right u1 (mul_nonneg u0 q0)
  have := mul_le_mul_of_nonneg_right u1 (mul_nonneg u0 b0)
  linarith

theorem grow4 {u W W2 q b w3 w4 w : ℝ} (u0 : 0 ≤ u) (u1 : u ≤ 1 / 1000) (W20 : 0 ≤ W2) (W0 : 0 ≤ W) (q0 : 0 ≤ q) (b0 : 0 ≤ b) (h3 : 0 ≤ w3)
    (h4 : 0 ≤ w4) (hW : W2 ≤ (1 + 2.01 * u) * W + 2.01 * (q + b)) (hw : w3 + w4 ≤ w) :
    (1 + u) * ((1 + u) * (W2 + w3 + q + b) + w4 + q + b) ≤ (1 + 4.1 * u) * W + 4.03 * (q + b) + 1.003 * w := by
  have v : ∀ {x : ℝ}, 0 ≤ x → u * x ≤ 1 / 1000 * x := fun hx => mul_le_mul_of_nonneg_right u1 hx
  have hx : 0 ≤ W2 + w3 + q + b := by linarith
  have hy : 0 ≤ w4 + q + b := by linarith
  have a1 := v hx
  have a2 := v (mul_nonneg u0 hx)
  have a3 := v hy
  have a4 := mul_nonneg u0 hx
  have a5 : u * W2 ≤ u * ((1 + 2.01 * u) * W + 2.01 * (q + b)) := mul_le_mul_of_nonneg_left hW u0
  have a6 := v (mul_nonneg u0 W0)
  have a7 := v (add_nonneg q0 b0)
  have a8 := v h3
  have a9 := mul_nonneg u0 W0
  have a10 : (1 + u) * ((1 + u) * (W2 + w3 + q + b) + w4 + q + b) ≤ (1 + 2.01 * u) * (W2 + w3 + q + b) + 1.001 * (w4 + q + b) := by linarith
  linarith

/-- The losses of one pair. -/
theorem loss_near (h : CGrid u η Ω g G n bins) (hF : F.Std u η Ω) (ho : Ok u η Ω) {t : ℕ → ℕ → ℝ} {i j : ℕ} (hij : i ≤ j)
    (hj : j < n) {S : ℕ → Dbl} {E : ℕ → ℝ} {W Q Q' : ℝ} (hA : Acc n bins S E W Q) (W0 : 0 ≤ W) (Q0 : 0 ≤ Q)
    (hQ' : Q + moved bins t (i, j) ≤ Q')
    (hΩ : Q' + (1 + u) * ((1 + u) * (W + 0 + u * Q' + bins.getD (n - 1) 0 * η) + 0 + u * Q' + bins.getD (n - 1) 0 * η) ≤ Ω * bins.getD 0 0) :
    Acc n bins (if j > i then addD F (addD F S i (fin (-t i j))) j (fin (-t i j)) else addD F S i (fin (-t i j))) (pairLoss (t i j) i j E)
      ((1 + u) * ((1 + u) * (W + 0 + u * Q' + bins.getD (n - 1) 0 * η) + 0 + u * Q' + bins.getD (n - 1) 0 * η)) (Q + moved bins t (i, j)) := by
  have hb := h.inc
  have hi : i < n := by omega
  have pi := hb.pos hi
  have pj := hb.pos hj
  have B0 := hb.pos (by omega : n - 1 < n)
  have u0 := ho.u0
  have η0 := ho.η0
  have hloss := moved_eq h hij hj t
  have ti : 0 ≤ bins.getD i 0 * |t i j| := by positivity
  have tj : 0 ≤ bins.getD j 0 * |t i j| := by positivity
  have tj' : 0 ≤ if j > i then bins.getD j 0 * |t i j| else 0 := by split_ifs <;> [exact tj; exact le_rfl]
  have Q'0 : 0 ≤ Q' := by linarith
  have c0 : 0 ≤ u * Q' + bins.getD (n - 1) 0 * η := by positivity
  have W10 : 0 ≤ (1 + u) * (W + 0 + u * Q' + bins.getD (n - 1) 0 * η) := by positivity
  have W12 : (1 + u) * (W + 0 + u * Q' + bins.getD (n - 1) 0 * η) ≤
      (1 + u) * ((1 + u) * (W + 0 + u * Q' + bins.getD (n - 1) 0 * η) + 0 + u * Q' + bins.getD (n - 1) 0 * η) := by
    have := mul_nonneg u0 W10
    have := mul_nonneg u0 c0
    linarith
  have l1 := hA.step hF ho hb W0 hi (δ := -t i j) (δ' := -t i j) (ε := 0) (w := 0) (q := bins.getD i 0 * |t i j|) (Q' := Q') (by simp) (by simp)
    (by rw [abs_neg]) (by linarith) (by linarith)
  unfold pairLoss
  by_cases e : j > i
  · rw [if_pos e, if_pos e]
    rw [if_pos e] at hloss
    rw [← hloss, ← add_assoc]
    exact l1.step hF ho hb W10 hj (δ := -t i j) (δ' := -t i j) (ε := 0) (w := 0) (q := bins.getD j 0 * |t i j|) (Q' := Q') (by simp) (by simp)
      (by rw [abs_neg]) (by linarith) (by linarith)
  · rw [if_neg e, if_neg e]
    rw [if_neg e, add_zero] at hloss
    rw [← hloss]
    exact l1.mono W12 le_rfl

set_option maxHeartbeats 800000 in
/-- The gains of one pair. -/
theorem gain_near (h : CGrid u η Ω g G n bins) (hF : F.Std u η Ω) (ho : Ok u η Ω) {e e' M M' : ℝ} (ne : Near e e' u η) (nM : Near M M' (2 * u) 0)
    (M0 : bins.getD 0 0 ≤ M) (MB : M ≤ 2 * bins.getD (n - 1) 0) {k : ℕ} (hk : k + 1 < n → Between (bins.getD k 0) (bins.getD (k + 1) 0) M)
    {S : ℕ → Dbl} {E : ℕ → ℝ} {W Q Q' T : ℝ} (hA : Acc n bins S E W Q) (W0 : 0 ≤ W) (Q'0 : 0 ≤ Q') (hQ : Q + 1.22 * (|e| * M) ≤ Q')
    (hV : |e| * M ≤ Ω / 100) (hV' : |e| * M ≤ Ω / 100 * bins.getD 0 0) (hη : (4 * bins.getD (n - 1) 0 + 2) * η ≤ Ω / 100 * bins.getD 0 0)
    (hT : ∀ w3 w4 : ℝ, 0 ≤ w3 → 0 ≤ w4 → w3 + w4 ≤ 13.9 * ((1 + G) * (g / (g - 1)) * (u * (|e| * M))) + (4.6 * bins.getD (n - 1) 0 + 1.1) * η →
      (1 + u) * ((1 + u) * (W + w3 + u * Q' + bins.getD (n - 1) 0 * η) + w4 + u * Q' + bins.getD (n - 1) 0 * η) ≤ T)
    (hΩ : Q' + T ≤ Ω * bins.getD 0 0) :
    Acc n bins (if (if k ≥ n then n - 1 else k) = n - 1 then
        addD F S (if k ≥ n then n - 1 else k) (F.div (F.mul (fin e') (fin M')) (fin (bins.getD (if k ≥ n then n - 1 else k) 0)))
      else
        addD F (addD F S (if k ≥ n then n - 1 else k) (F.mul (F.div (F.sub (fin (bins.getD ((if k ≥ n then n - 1 else k) + 1) 0)) (fin M'))
            (F.sub (fin (bins.getD ((if k ≥ n then n - 1 else k) + 1) 0)) (fin (bins.getD (if k ≥ n then n - 1 else k) 0)))) (fin e')))
          ((if k ≥ n then n - 1 else k) + 1) (F.mul (F.sub (fin 1) (F.div (F.sub (fin (bins.getD ((if k ≥ n then n - 1 else k) + 1) 0)) (fin M'))
            (F.sub (fin (bins.getD ((if k ≥ n then n - 1 else k) + 1) 0)) (fin (bins.getD (if k ≥ n then n - 1 else k) 0))))) (fin e')))
      (pairGain n bins e M k E) T (Q + 1.22 * (|e| * M)) := by
  have hb := h.inc
  have h2 := hb.two
  have hn : n - 1 < n := by omega
  have u0 := ho.u0
  have η0 := ho.η0
  have p0 := hb.pos0
  have B0 := hb.pos hn
  have M0' : 0 < M := by linarith
  have e0 := abs_nonneg e
  have μ0 : 0 ≤ |e| * M := by positivity
  have hg1 := h.one
  have R1 : 1 ≤ g / (g - 1) := by rw [le_div_iff₀ (by linarith)]; linarith
  have G1 : 1 ≤ G := by
    have := h.geo 0 (by omega)
    have := h.geoUp 0 (by omega)
    nlinarith
  have uμ := mul_nonneg u0 μ0
  have c0 : 0 ≤ u * Q' + bins.getD (n - 1) 0 * η := by positivity
  have GR : 2 ≤ (1 + G) * (g / (g - 1)) := by nlinarith
  have P1 : 2 * (u * (|e| * M)) ≤ (1 + G) * (g / (g - 1)) * (u * (|e| * M)) := mul_le_mul_of_nonneg_right GR uμ
  unfold pairGain
  by_cases hkn : n - 1 ≤ k
  · have ek : (if k ≥ n then n - 1 else k) = n - 1 := by split_ifs <;> omega
    simp only [ek, if_true, if_pos hkn]
    have le0 := hb.le (Nat.zero_le (n - 1)) hn
    have hΩ100 : 0 ≤ Ω / 100 := by linarith [ho.Ω1]
    have le0' := mul_le_mul_of_nonneg_left le0 hΩ100
    have Mη := mul_le_mul_of_nonneg_right MB η0
    have hηu : (2 * M + 2) * η ≤ Ω / 100 := by
      have t1 : η ≤ 1 / 1000 := ho.ηu.trans ho.u1
      have t2 : (2 * M + 2) * η ≤ (2 * M + 2) * (1 / 1000) := mul_le_mul_of_nonneg_left t1 (by linarith)
      linarith [h.top, ho.Ω1]
    obtain ⟨q, hq, eq⟩ := top_near hF ho ne nM M0' B0 hV (hV'.trans le0') hηu (by linarith)
    rw [hq]
    set w3 := 5.3 * u * (|e| * M) + (1.1 * M + 1.1 + bins.getD (n - 1) 0) * η with hw3
    have w30 : 0 ≤ w3 := (mul_nonneg B0.le (abs_nonneg _)).trans eq
    have w3le : w3 + 0 ≤ 13.9 * ((1 + G) * (g / (g - 1)) * (u * (|e| * M))) + (4.6 * bins.getD (n - 1) 0 + 1.1) * η := by
      have := mul_nonneg B0.le η0
      rw [hw3]; linarith
    have tT := hT w3 0 w30 le_rfl w3le
    have W30 : 0 ≤ (1 + u) * (W + w3 + u * Q' + bins.getD (n - 1) 0 * η) := by
      have : 0 ≤ W + w3 + u * Q' + bins.getD (n - 1) 0 * η := by linarith
      positivity
    have W3T : (1 + u) * (W + w3 + u * Q' + bins.getD (n - 1) 0 * η) ≤ T := by
      have := mul_nonneg u0 W30
      have := mul_nonneg u0 c0
      linarith
    have hqm : bins.getD (n - 1) 0 * |e * M / bins.getD (n - 1) 0| ≤ 1.22 * (|e| * M) := by
      rw [abs_div, abs_of_pos B0, abs_mul, abs_of_pos M0', mul_div_cancel₀ _ B0.ne']; linarith
    exact (hA.step hF ho hb W0 hn (le_refl _) eq hqm hQ (by linarith)).mono W3T le_rfl
  · have ek : (if k ≥ n then n - 1 else k) = k := by split_ifs <;> omega
    have hk1 : k + 1 < n := by omega
    have hkn' : k < n := by omega
    simp only [ek, if_neg (show ¬ k = n - 1 by omega), if_neg hkn]
    have hB := hk hk1
    have pa := hb.pos hkn'
    have pb := hb.pos hk1
    have hab := hb.mono k hk1
    have aB := hb.le (by omega : k ≤ n - 1) hn
    have bB := hb.le (by omega : k + 1 ≤ n - 1) hn
    obtain ⟨fx, fy, fN, fM, fa, fs⟩ := hB.frac pa hab
    have hgb := h.geoUp k hk1
    have hR : bins.getD (k + 1) 0 / (bins.getD (k + 1) 0 - bins.getD k 0) ≤ g / (g - 1) := by
      rw [div_le_div_iff₀ (by linarith) (by linarith)]
      have := h.geo k hk1
      linarith
    obtain ⟨X, Y, hX, hY, eX, eY⟩ := split_near hF ho pa hab ((h.fine.trans (mul_le_mul_of_nonneg_left ((h.toGrid ho).diff hk1) u0)))
      (by linarith [h.top]) nM hB hR h.ratio h.uratio
    set R := g / (g - 1) with hRd
    set a := bins.getD k 0 with had
    set b := bins.getD (k + 1) 0 with hbd
    set x := (b - M) / (b - a) with hxd
    have uR := h.uratio
    have be : |e| ≤ Ω / 100 := by
      have : |e| * bins.getD 0 0 ≤ Ω / 100 * bins.getD 0 0 := by nlinarith
      exact le_of_mul_le_mul_right this p0
    obtain ⟨z1, hz1, e1⟩ := frac_near hF ho ne eX fx (by linarith) be
    obtain ⟨z2, hz2, e2⟩ := frac_near hF ho ne eY fy (by linarith) be
    rw [hX, hY, hz1, hz2]
    have uR1 : u ≤ u * R := by nlinarith
    have s1 : (1.01 * (8.5 * u * R) + 2.3 * u) * |e| ≤ 11 * (u * R) * |e| := mul_le_mul_of_nonneg_right (by linarith) e0
    have s2 : (1.01 * (10.6 * u * R) + 2.3 * u) * |e| ≤ 13.1 * (u * R) * |e| := mul_le_mul_of_nonneg_right (by linarith) e0
    set w3 := a * (11 * (u * R) * |e| + 2.3 * η) with hw3
    set w4 := b * (13.1 * (u * R) * |e| + 2.3 * η) with hw4
    have uRe : 0 ≤ u * R * |e| := by positivity
    have w30 : 0 ≤ w3 := mul_nonneg pa.le (by linarith)
    have w40 : 0 ≤ w4 := mul_nonneg pb.le (by linarith)
    have hw : w3 + w4 ≤ 13.9 * ((1 + G) * R * (u * (|e| * M))) + (4.6 * bins.getD (n - 1) 0 + 1.1) * η := by
      have t1 : a * (u * R * |e|) ≤ 1.06 * M * (u * R * |e|) := mul_le_mul_of_nonneg_right fa uRe
      have t2 : b * (u * R * |e|) ≤ G * a * (u * R * |e|) := mul_le_mul_of_nonneg_right hgb uRe
      have t3 : G * (a * (u * R * |e|)) ≤ G * (1.06 * M * (u * R * |e|)) := mul_le_mul_of_nonneg_left t1 (by linarith)
      have t4 := mul_le_mul_of_nonneg_right aB η0
      have t5 := mul_le_mul_of_nonneg_right bB η0
      have t6 : 0 ≤ M * (u * R * |e|) := by positivity
      have t7 : 0 ≤ G * (M * (u * R * |e|)) := mul_nonneg (by linarith) t6
      rw [hw3, hw4]
      linarith
    have tT := hT w3 w4 w30 w40 hw
    have W30 : 0 ≤ (1 + u) * (W + w3 + u * Q' + bins.getD (n - 1) 0 * η) := by
      have : 0 ≤ W + w3 + u * Q' + bins.getD (n - 1) 0 * η := by linarith
      positivity
    have W3T : (1 + u) * (W + w3 + u * Q' + bins.getD (n - 1) 0 * η) ≤ T := by
      have := mul_nonneg u0 W30
      have := mul_nonneg u0 c0
      have := mul_nonneg u0 w40
      linarith
    have m1 : a * |x * e| + b * |(1 - x) * e| ≤ 1.22 * (|e| * M) := by
      rw [abs_mul, abs_mul]
      have := mul_le_mul_of_nonneg_right fs e0
      linarith
    have m2 : 0 ≤ b * |(1 - x) * e| := by positivity
    have l1 := hA.step hF ho hb W0 hkn' e1 (w := w3) (mul_le_mul_of_nonneg_left (by linarith) pa.le) (le_refl (a * |x * e|)) (Q' := Q') (by linarith)
      (by linarith)
    have l2 := l1.step hF ho hb W30 hk1 e2 (w := w4) (mul_le_mul_of_nonneg_left (by linarith) pb.le) (le_refl (b * |(1 - x) * e|)) (Q' := Q')
      (by linarith) (by linarith)
    exact l2.mono tT (by linarith)

/-- The error after one more pair. -/
noncomputable def nextErr (u η G R B : ℝ) (W Q' μ : ℝ) : ℝ := (1 + 4.1 * u) * W + 4.1 * (u * Q') + 14 * ((1 + G) * R * (u * μ)) + (9 * B + 2) * η

/-- One pair. -/
theorem pair_near (h : CGrid u η Ω g G n bins) (hF : F.Std u η Ω) (ho : Ok u η Ω) {t : ℕ → ℕ → ℝ} {tgt : ℕ → ℕ → ℕ} {i j : ℕ} (hij : i ≤ j)
    (hj : j < n) (hk : tgt i j + 1 < n → Between (bins.getD (tgt i j) 0) (bins.getD (tgt i j + 1) 0) (bins.getD i 0 + bins.getD j 0))
    {S : ℕ → Dbl} {E : ℕ → ℝ} {W Q : ℝ} (hA : Acc n bins S E W Q) (W0 : 0 ≤ W) (Q0 : 0 ≤ Q)
    (hV : moved bins t (i, j) ≤ Ω / 100) (hV' : moved bins t (i, j) ≤ Ω / 100 * bins.getD 0 0)
    (hη : (4 * bins.getD (n - 1) 0 + 2) * η ≤ Ω / 100 * bins.getD 0 0)
    (hΩ : Q + 2.3 * moved bins t (i, j) + nextErr u η G (g / (g - 1)) (bins.getD (n - 1) 0) W (Q + 2.3 * moved bins t (i, j)) (moved bins t (i, j)) ≤
      Ω * bins.getD 0 0) :
    Acc n bins (coagPairD F n (fun k => fin (bins.getD k 0)) (fun i j => fin (t i j)) tgt i j S)
      (pairGain n bins (pairEvents (t i j) i j) (bins.getD i 0 + bins.getD j 0) (tgt i j) (pairLoss (t i j) i j E))
      (nextErr u η G (g / (g - 1)) (bins.getD (n - 1) 0) W (Q + 2.3 * moved bins t (i, j)) (moved bins t (i, j)))
      (Q + 2.3 * moved bins t (i, j)) := by
  have hb := h.inc
  have hi : i < n := by omega
  have hn : n - 1 < n := by omega
  have u0 := ho.u0
  have η0 := ho.η0
  have p0 := hb.pos0
  have B0 := hb.pos hn
  have pi := hb.pos hi
  have pj := hb.pos hj
  have iB := hb.le (by omega : i ≤ n - 1) hn
  have jB := hb.le (by omega : j ≤ n - 1) hn
  have i0 := hb.le (Nat.zero_le i) hi
  obtain ⟨M', hM', nM⟩ := mass_near h hF ho hi hj
  have hμ : |pairEvents (t i j) i j| * (bins.getD i 0 + bins.getD j 0) = moved bins t (i, j) := rfl
  have be : |pairEvents (t i j) i j| ≤ Ω / 100 := by
    have : |pairEvents (t i j) i j| * bins.getD 0 0 ≤ Ω / 100 * bins.getD 0 0 := by
      have := abs_nonneg (pairEvents (t i j) i j)
      nlinarith
    exact le_of_mul_le_mul_right this p0
  obtain ⟨e', he', ne⟩ := events_near hF ho (t i j) i j (by linarith [ho.Ω1])
  have μ0 : 0 ≤ moved bins t (i, j) := by rw [← hμ]; positivity
  have Q'0 : 0 ≤ Q + 2.3 * moved bins t (i, j) := by linarith
  have hBη : 0 ≤ bins.getD (n - 1) 0 * η := by positivity
  have uQ := mul_nonneg u0 Q'0
  have hg1 := h.one
  have G1 : 1 ≤ G := by
    have h2 := hb.two
    have := h.geo 0 (by omega)
    have := h.geoUp 0 (by omega)
    nlinarith
  have P0 : 0 ≤ (1 + G) * (g / (g - 1)) * (u * moved bins t (i, j)) := by
    have : 0 < g - 1 := by linarith
    have : 0 < g := by linarith
    have : 0 ≤ 1 + G := by linarith
    positivity
  have W2le := grow2 u0 ho.u1 W0 uQ hBη
  have W20 : 0 ≤ (1 + u) * ((1 + u) * (W + 0 + u * (Q + 2.3 * moved bins t (i, j)) + bins.getD (n - 1) 0 * η) + 0 +
      u * (Q + 2.3 * moved bins t (i, j)) + bins.getD (n - 1) 0 * η) := by positivity
  have uW := mul_nonneg u0 W0
  have l2 := loss_near h hF ho (t := t) hij hj hA W0 Q0 (Q' := Q + 2.3 * moved bins t (i, j)) (by linarith) (by
    unfold nextErr at hΩ
    refine le_trans ?_ hΩ
    linarith)
  have l3 := gain_near h hF ho ne nM (by linarith) (by linarith) (k := tgt i j) hk l2 W20 (Q' := Q + 2.3 * moved bins t (i, j))
    (T := nextErr u η G (g / (g - 1)) (bins.getD (n - 1) 0) W (Q + 2.3 * moved bins t (i, j)) (moved bins t (i, j))) Q'0
    (by rw [hμ]; linarith) hV hV' hη
    (fun w3 w4 h3 h4 hw => (grow4 u0 ho.u1 W20 W0 uQ hBη h3 h4 W2le hw).trans (by unfold nextErr; rw [hμ]; linarith)) hΩ
  have l4 := l3.mono le_rfl (show _ ≤ Q + 2.3 * moved bins t (i, j) by rw [hμ]; linarith)
  unfold coagPairD
  simp only [neg, hM', he']
  exact l4

theorem moved_nonneg (hb : Bins n bins) (t : ℕ → ℕ → ℝ) {p : ℕ × ℕ} (h1 : p.1 < n) (h2 : p.2 < n) : 0 ≤ moved bins t p := by
  unfold moved
  have := hb.pos h1
  have := hb.pos h2
  positivity

theorem pairs_length (n : ℕ) : 2 * (pairs n).length = n * (n + 1) := by
  unfold pairs
  simp only [List.length_flatMap, List.length_map, List.length_range']
  have : ∀ m ≤ n, 2 * ((List.range m).map fun i => n - i).sum + (n - m) * (n - m + 1) = n * (n + 1) := by
    intro m
    induction m with
    | zero => simp
    | succ m ih =>
      intro hm
      have := ih (by omega)
      rw [List.range_succ, List.map_append, List.sum_append]
      obtain ⟨d, rfl⟩ : ∃ d, n = m + 1 + d := ⟨n - (m + 1), by omega⟩
      have e1 : m + 1 + d - m = d + 1 := by omega
      have e2 : m + 1 + d - (m + 1) = d := by omega
      simp only [List.map_cons, List.map_nil, List.sum_cons, List.sum_nil, e1, e2] at this ⊢
      nlinarith
  simpa using this n le_rfl

/-- What the pair `p` adds to bin `k` in exact arithmetic: the events times their share of the bin, less the particles that collide. -/
noncomputable def effect (n : ℕ) (bins : List ℝ) (t : ℕ → ℕ → ℝ) (tgt : ℕ → ℕ → ℕ) (k : ℕ) (p : ℕ × ℕ) : ℝ :=
  pairEvents (t p.1 p.2) p.1 p.2 * SRound.gainAt n bins (bins.getD p.1 0 + bins.getD p.2 0) (tgt p.1 p.2) k - SRound.lossAt (t p.1 p.2) p.1 p.2 k

/-- The pairs that follow. -/
theorem loop_near (h : CGrid u η Ω g G n bins) (hF : F.Std u η Ω) (ho : Ok u η Ω) {t : ℕ → ℕ → ℝ} {tgt : ℕ → ℕ → ℕ} (P : ℕ)
    (hu : (10 * P + 14 * ((1 + G) * (g / (g - 1)))) * u ≤ 1 / 10) {Vmax : ℝ} (hV : Vmax ≤ Ω / 100) (hV' : Vmax ≤ Ω / 100 * bins.getD 0 0)
    (hη : 1.1 * P * ((9 * bins.getD (n - 1) 0 + 2) * η) ≤ Ω / 100 * bins.getD 0 0) (l : List (ℕ × ℕ)) :
    ∀ {S : ℕ → Dbl} {E : ℕ → ℝ} {V : ℝ} {p : ℕ}, (∀ q ∈ l, q.1 ≤ q.2 ∧ q.2 < n) →
    (∀ q ∈ l, tgt q.1 q.2 + 1 < n → Between (bins.getD (tgt q.1 q.2) 0) (bins.getD (tgt q.1 q.2 + 1) 0) (bins.getD q.1 0 + bins.getD q.2 0)) →
    0 ≤ V → V + (l.map (moved bins t)).sum ≤ Vmax → p + l.length ≤ P → ∑ k ∈ Finset.range n, bins.getD k 0 * E k = 0 →
    Acc n bins S E ((10 * p + 14 * ((1 + G) * (g / (g - 1)))) * u * V + 1.1 * p * ((9 * bins.getD (n - 1) 0 + 2) * η)) (2.3 * V) →
    ∃ E', (∀ k, E' k = E k + (l.map (effect n bins t tgt k)).sum) ∧ ∑ k ∈ Finset.range n, bins.getD k 0 * E' k = 0 ∧
      Acc n bins (coagLoopD F n (fun k => fin (bins.getD k 0)) (fun i j => fin (t i j)) tgt l S) E'
        ((10 * (p + l.length) + 14 * ((1 + G) * (g / (g - 1)))) * u * (V + (l.map (moved bins t)).sum) +
          1.1 * (p + l.length) * ((9 * bins.getD (n - 1) 0 + 2) * η)) (2.3 * (V + (l.map (moved bins t)).sum)) := by
  induction l with
  | nil =>
    intro S E V p _ _ _ _ _ hE hA
    refine ⟨E, fun k => by simp, hE, ?_⟩
    simpa [coagLoopD] using hA
  | cons q l ih =>
    intro S E V p hl hk V0 hVs hp hE hA
    obtain ⟨i, j⟩ := q
    obtain ⟨hij, hj⟩ := hl (i, j) (by simp)
    have hb := h.inc
    have hg1 := h.one
    have u0 := ho.u0
    have η0 := ho.η0
    have p0 := hb.pos0
    have B0 := hb.pos (by omega : n - 1 < n)
    have G1 : 1 ≤ G := by
      have h2 := hb.two
      have := h.geo 0 (by omega)
      have := h.geoUp 0 (by omega)
      nlinarith
    have c0 : 0 ≤ (1 + G) * (g / (g - 1)) := by
      have : 0 < g - 1 := by linarith
      have : 0 < g := by linarith
      have : 0 ≤ 1 + G := by linarith
      positivity
    have μ0 := moved_nonneg hb t (p := (i, j)) (by omega) hj
    have r0 : 0 ≤ (l.map (moved bins t)).sum := List.sum_nonneg fun x hx => by
      obtain ⟨q, hq, rfl⟩ := List.mem_map.1 hx
      have := hl q (by simp [hq])
      exact moved_nonneg hb t (by omega) this.2
    simp only [List.map_cons, List.sum_cons, List.length_cons] at hVs hp ⊢
    have hP : ((p + 1 : ℕ) : ℝ) ≤ P := by exact_mod_cast (by omega : p + 1 ≤ P)
    push_cast at hP
    have pn : (0 : ℝ) ≤ p := Nat.cast_nonneg p
    set c := (1 + G) * (g / (g - 1)) with hc
    set D := (9 * bins.getD (n - 1) 0 + 2) * η with hD
    set μ := moved bins t (i, j) with hμ
    have D0 : 0 ≤ D := by rw [hD]; positivity
    have pu : (p + 1) * u ≤ P * u := mul_le_mul_of_nonneg_right hP u0
    have cu : 0 ≤ c * u := mul_nonneg c0 u0
    have puu : 0 ≤ p * u := mul_nonneg pn u0
    have hpc : (10 * p + 14 * c) * u ≤ 1 / 10 := by linarith
    -- the new error bound
    have key : nextErr u η G (g / (g - 1)) (bins.getD (n - 1) 0) ((10 * p + 14 * c) * u * V + 1.1 * p * D) (2.3 * V + 2.3 * μ) μ ≤
        (10 * ((p + 1 : ℕ) : ℝ) + 14 * c) * u * (V + μ) + 1.1 * ((p + 1 : ℕ) : ℝ) * D := by
      unfold nextErr
      rw [← hc, ← hD]
      push_cast
      have t1 : u * ((10 * p + 14 * c) * u * V) ≤ u * (1 / 10 * V) := mul_le_mul_of_nonneg_left (mul_le_mul_of_nonneg_right hpc V0) u0
      have t2 : p * u * D ≤ 1 / 100 * D := mul_le_mul_of_nonneg_right (by linarith) D0
      have t3 := mul_nonneg u0 V0
      have t4 := mul_nonneg u0 μ0
      have t5 := mul_nonneg puu μ0
      linarith
    have hpD : 1.1 * ((p + 1 : ℕ) : ℝ) * D ≤ Ω / 100 * bins.getD 0 0 := by
      refine le_trans ?_ hη
      push_cast
      have := mul_le_mul_of_nonneg_right hP D0
      linarith
    have hlast : (10 * ((p + 1 : ℕ) : ℝ) + 14 * c) * u * (V + μ) ≤ 1 / 10 * (V + μ) := by
      push_cast
      exact mul_le_mul_of_nonneg_right (by linarith) (by linarith)
    have hη' : (4 * bins.getD (n - 1) 0 + 2) * η ≤ Ω / 100 * bins.getD 0 0 := by
      refine le_trans ?_ hpD
      push_cast
      have t6 := mul_nonneg pn D0
      have t7 : (4 * bins.getD (n - 1) 0 + 2) * η ≤ D := mul_le_mul_of_nonneg_right (by linarith) η0
      linarith
    have W0 : 0 ≤ (10 * p + 14 * c) * u * V + 1.1 * p * D := by positivity
    have hΩp : 0 ≤ Ω * bins.getD 0 0 := mul_nonneg (by linarith [ho.Ω1]) p0.le
    have step := pair_near h hF ho hij hj (t := t) (tgt := tgt) (hk (i, j) (by simp)) hA W0 (by linarith) (by linarith) (by linarith) hη' (by linarith)
    have step' := step.mono key (show 2.3 * V + 2.3 * moved bins t (i, j) ≤ 2.3 * (V + μ) by linarith)
    obtain ⟨E', hE1, hE', hA'⟩ := ih (p := p + 1) (fun q hq => hl q (by simp [hq])) (fun q hq => hk q (by simp [hq])) (by linarith) (by linarith) (by omega) (by
      rw [pairGain_mass hb, pairLoss_sum (by omega) hj hij (fun k => bins.getD k 0), hE]; ring) step'
    refine ⟨E', fun k => ?_, hE', ?_⟩
    · rw [hE1 k, SRound.gain_apply, SRound.loss_apply]
      unfold effect
      ring
    rw [coagLoopD]
    push_cast at hA' ⊢
    rw [show (p : ℝ) + (l.length + 1) = p + 1 + l.length by ring, ← add_assoc V]
    exact hA'

end

end FpSect

open FpSect in
/-- **C96.** Coagulation under rounding.  The bins grow by factors between `g` and `G`, `t i j` is the computed collision term of the pair
`i ≤ j` and `tgt i j` the computed bin, whose neighbours hold the combined mass up to a small part of their distance.  All `n` computed
coagulation terms are finite, and the mass they create or destroy is at most `5 n (n+1) + 14 (1+G) g/(g-1)` rounding units (84 plus
`5 n (n+1)` for the default factor 2) of the mass that changes bins. -/
theorem C96_coagulation (F : Fp) (u η Ω g G : ℝ) (hF : F.Std u η Ω) (ho : FpMass.Ok u η Ω) (n : ℕ) (bins : List ℝ) (h : CGrid u η Ω g G n bins)
    (t : ℕ → ℕ → ℝ) (tgt : ℕ → ℕ → ℕ)
    (hk : ∀ i j, i ≤ j → j < n → tgt i j + 1 < n →
      Between (bins.getD (tgt i j) 0) (bins.getD (tgt i j + 1) 0) (bins.getD i 0 + bins.getD j 0))
    (hu : (5 * n * (n + 1) + 14 * ((1 + G) * (g / (g - 1)))) * u ≤ 1 / 10)
    (hV : ((pairs n).map (moved bins t)).sum ≤ Ω / 100) (hV' : ((pairs n).map (moved bins t)).sum ≤ Ω / 100 * bins.getD 0 0)
    (hη : 0.55 * n * (n + 1) * ((9 * bins.getD (n - 1) 0 + 2) * η) ≤ Ω / 100 * bins.getD 0 0) :
    ∃ S E : ℕ → ℝ, (∀ k < n, coagLoopD F n (fun k => fin (bins.getD k 0)) (fun i j => fin (t i j)) tgt (pairs n) (fun _ => fin 0) k = fin (S k)) ∧
      (∀ k, E k = ((pairs n).map (effect n bins t tgt k)).sum) ∧ ∑ k ∈ Finset.range n, bins.getD k 0 * E k = 0 ∧
      ∑ k ∈ Finset.range n, bins.getD k 0 * |S k - E k| ≤ (5 * n * (n + 1) + 14 * ((1 + G) * (g / (g - 1)))) * u * ((pairs n).map (moved bins t)).sum +
        0.55 * n * (n + 1) * ((9 * bins.getD (n - 1) 0 + 2) * η) ∧
      |∑ k ∈ Finset.range n, bins.getD k 0 * S k| ≤ (5 * n * (n + 1) + 14 * ((1 + G) * (g / (g - 1)))) * u * ((pairs n).map (moved bins t)).sum +
        0.55 * n * (n + 1) * ((9 * bins.getD (n - 1) 0 + 2) * η) := by
  have hlen : (2 : ℝ) * (pairs n).length = n * (n + 1) := by exact_mod_cast pairs_length n
  have e1 : (10 * ((pairs n).length : ℝ)) = 5 * n * (n + 1) := by linarith
  have e2 : 1.1 * ((pairs n).length : ℝ) = 0.55 * n * (n + 1) := by linarith
  obtain ⟨E, hE1, hE, s, A, hs, -, hW, -⟩ := loop_near h hF ho (t := t) (tgt := tgt) (pairs n).length (by rw [e1]; exact hu) hV hV' (by rw [e2]; exact hη)
    (pairs n) (S := fun _ => fin 0) (E := fun _ => 0) (V := 0) (p := 0) (fun q hq => mem_pairs.1 hq)
    (fun q hq => hk q.1 q.2 (mem_pairs.1 hq).1 (mem_pairs.1 hq).2) le_rfl (by rw [zero_add]) (by omega) (by simp) (by simpa using Acc.zero)
  rw [Nat.cast_zero, zero_add, zero_add, e1, e2] at hW
  refine ⟨s, E, hs, fun k => by rw [hE1, zero_add], hE, hW, le_trans ?_ hW⟩
  have : ∑ k ∈ Finset.range n, bins.getD k 0 * s k = ∑ k ∈ Finset.range n, (bins.getD k 0 * s k - bins.getD k 0 * E k) := by
    rw [Finset.sum_sub_distrib, hE, sub_zero]
  rw [this]
  refine (Finset.abs_sum_le_sum_abs _ _).trans (Finset.sum_le_sum fun k hk => ?_)
  rw [← mul_sub, abs_mul, abs_of_nonneg (h.inc.pos (Finset.mem_range.1 hk)).le]

open FpSect in
/-- **C96.** The exact values to which `C96_coagulation` compares are those of the model: they are what `sectCoagR` (and without rounding of the
bin search `sectCoag`) returns for the collision terms `K*N_i*N_j`; and a bin search whose logarithms are off by at most `δ` satisfies the
hypothesis about the computed bin as soon as `F^δ ≤ 1 + (F-1)/(20 F²)`. -/
theorem C96_coag_model (m : Model) (s : State) (glob : Option ℝ) (h : SectReady m s) (hg : GeoBins m) (hgl : OwnFactor m glob)
    (hc : m.coag.mech ≠ .NONE) (δ : ℝ) (hδ : m.binF ^ δ ≤ 1 + (m.binF - 1) / (20 * m.binF ^ 2)) (rnd : ℕ → ℕ → ℝ → ℝ) (hr : Within δ rnd)
    (hp : ∀ i j, i ≤ j → j < m.nsoot → -1 < rnd i j (exactPos m i j) ∧ rnd i j (exactPos m i j) < 2 ^ 64) :
    (∃ S glob', sectCoagR rnd m glob s = Res.ok (S, glob') ∧ ∀ k, S k = ((pairs m.nsoot).map (effect m.nsoot m.mBins
      (fun i j => m.coag.val s (m.mBins.getD i 0) (m.mBins.getD j 0) * s.sootVar.getD i 0 * s.sootVar.getD j 0)
      (fun i j => ⌊rnd i j (exactPos m i j)⌋₊) k)).sum) ∧
    ∀ i j, i ≤ j → j < m.nsoot → ⌊rnd i j (exactPos m i j)⌋₊ + 1 < m.nsoot →
      Between (m.mBins.getD ⌊rnd i j (exactPos m i j)⌋₊ 0) (m.mBins.getD (⌊rnd i j (exactPos m i j)⌋₊ + 1) 0)
        (m.mBins.getD i 0 + m.mBins.getD j 0) := by
  constructor
  · obtain ⟨S, h1, h2, -⟩ := SRound.loopR_ok h hp (pairs m.nsoot) (fun q hq => mem_pairs.1 hq) fun _ => 0
    unfold sectCoagR
    simp only [ne_eq, hc, not_false_eq_true, if_true, hgl.static hg.one, Res.ok_bind, h1]
    refine ⟨_, _, rfl, fun k => ?_⟩
    rw [h2 k, zero_add]
    congr 1
    refine List.map_congr_left fun q _ => ?_
    unfold effect
    rw [SRound.events_eq]
  · intro i j hij hj hk
    obtain ⟨q0, -, hM⟩ := SRound.pos_props h.bins hg (show i < m.nsoot by omega) hj
    have hd := abs_le.1 (hr i j (exactPos m i j))
    have δ0 : 0 ≤ δ := (abs_nonneg _).trans (hr i j (exactPos m i j))
    set x := exactPos m i j with hx
    set k := ⌊rnd i j x⌋₊ with hkd
    have hF1 := hg.one
    have F0 : 0 < m.binF := by linarith
    have p0 := h.bins.pos0
    have k1 : (k : ℝ) ≤ x + δ := by
      by_cases hs : 0 ≤ rnd i j x
      · have := Nat.floor_le hs; linarith [hd.2]
      · have : k = 0 := Nat.floor_of_nonpos (by linarith)
        rw [this, Nat.cast_zero]; linarith
    have k2 : x ≤ (k + 1 : ℕ) + δ := by
      have := Nat.lt_floor_add_one (rnd i j x)
      push_cast; linarith [hd.1]
    have ea : m.mBins.getD k 0 = m.mBins.getD 0 0 * m.binF ^ k := hg.geo k (by omega)
    have eb : m.mBins.getD (k + 1) 0 = m.mBins.getD k 0 * m.binF := by rw [hg.geo (k + 1) hk, ea, pow_succ]; ring
    have pa := h.bins.pos (show k < m.nsoot by omega)
    have s1 : m.mBins.getD k 0 ≤ (m.mBins.getD i 0 + m.mBins.getD j 0) * m.binF ^ δ := by
      rw [hM, ea, mul_assoc, ← Real.rpow_add F0, ← Real.rpow_natCast]
      exact mul_le_mul_of_nonneg_left (Real.rpow_le_rpow_of_exponent_le hF1.le k1) p0.le
    have s2 : m.mBins.getD i 0 + m.mBins.getD j 0 ≤ m.mBins.getD (k + 1) 0 * m.binF ^ δ := by
      rw [hM, hg.geo (k + 1) hk, mul_assoc, ← Real.rpow_natCast, ← Real.rpow_add F0]
      exact mul_le_mul_of_nonneg_left (Real.rpow_le_rpow_of_exponent_le hF1.le k2) p0.le
    unfold Between
    rw [eb] at s2 ⊢
    set a := m.mBins.getD k 0 with had
    set M := m.mBins.getD i 0 + m.mBins.getD j 0 with hMd
    set f := m.binF with hf
    have M0 : 0 < M := by
      have h1 := h.bins.pos (show i < m.nsoot by omega)
      have h2 := h.bins.pos hj
      rw [hMd]; linarith
    have es : (a * f - a) * a / (20 * (a * f)) = a * ((f - 1) / (20 * f)) := by field_simp
    rw [es]
    have hs0 : 0 ≤ (f - 1) / (20 * f ^ 2) := div_nonneg (by linarith) (by positivity)
    have ef : f * ((f - 1) / (20 * f ^ 2)) = (f - 1) / (20 * f) := by field_simp
    have hle : (f - 1) / (20 * f ^ 2) ≤ (f - 1) / (20 * f) := by rw [← ef]; nlinarith
    constructor
    · have h1 : a ≤ M * (1 + (f - 1) / (20 * f)) := s1.trans (mul_le_mul_of_nonneg_left (by linarith) M0.le)
      set r := (f - 1) / (20 * f) with hrd
      have r1 : r ≤ 1 := by rw [hrd, div_le_one (by positivity)]; linarith
      have h2 : a * (1 - r) ≤ M * (1 + r) * (1 - r) := mul_le_mul_of_nonneg_right h1 (by linarith)
      have h3 : 0 ≤ M * r ^ 2 := by positivity
      nlinarith
    · have h1 : M ≤ a * f * (1 + (f - 1) / (20 * f ^ 2)) := s2.trans (mul_le_mul_of_nonneg_left hδ (by positivity))
      rw [← ef]
      linarith

open FpSect in
/-- Three bins of soot particles in binary64. -/
theorem exCGrid : CGrid (2 ^ (-53 : ℤ)) (2 ^ (-1075 : ℤ)) maxDbl 2 2 3 [1e-24, 2e-24, 4e-24] := by
  have hm : (2 : ℝ) ^ (100 : ℕ) ≤ maxDbl := by
    unfold maxDbl
    have h1 : (2 : ℝ) ^ (100 : ℕ) ≤ 2 ^ (971 : ℤ) := by
      rw [← zpow_natCast]; exact zpow_le_zpow_right₀ (by norm_num) (by norm_num)
    have h2 : (1 : ℝ) ≤ 2 ^ 53 - 1 := by norm_num
    calc (2 : ℝ) ^ (100 : ℕ) = 1 * 2 ^ (100 : ℕ) := (one_mul _).symm
      _ ≤ _ := mul_le_mul h2 h1 (by positivity) (by linarith)
  refine ⟨exGrid.inc, exGrid.one, exGrid.geo, ?_, exGrid.fine, ?_, ?_, ?_⟩
  · intro k hk
    have hk : k < 2 := by omega
    interval_cases k <;> norm_num
  · refine le_trans ?_ hm
    norm_num
  · have : (2 : ℝ) / (2 - 1) ≤ 2 ^ 100 / 100 := by norm_num
    linarith
  · norm_num

open FpSect in
/-- The coagulation theorem applies to binary64: one collision term of size 1 for each pair of three bins. -/
example : ∃ S : ℕ → ℝ, (∀ k < 3, coagLoopD binary64 3 (fun k => fin (([1e-24, 2e-24, 4e-24] : List ℝ).getD k 0)) (fun _ _ => fin 1)
      (fun i j => if i + j ≤ 1 then 1 else 2) (pairs 3) (fun _ => fin 0) k = fin (S k)) ∧
    |∑ k ∈ Finset.range 3, ([1e-24, 2e-24, 4e-24] : List ℝ).getD k 0 * S k| ≤ 144 * 2 ^ (-53 : ℤ) * 2.1e-23 + 13.3 * 2 ^ (-1075 : ℤ) := by
  have hb := C91_binary64
  have hm : (2 : ℝ) ^ (100 : ℕ) ≤ maxDbl := by
    unfold maxDbl
    have h1 : (2 : ℝ) ^ (100 : ℕ) ≤ 2 ^ (971 : ℤ) := by
      rw [← zpow_natCast]; exact zpow_le_zpow_right₀ (by norm_num) (by norm_num)
    have h2 : (1 : ℝ) ≤ 2 ^ 53 - 1 := by norm_num
    calc (2 : ℝ) ^ (100 : ℕ) = 1 * 2 ^ (100 : ℕ) := (one_mul _).symm
      _ ≤ _ := mul_le_mul h2 h1 (by positivity) (by linarith)
  have hp : pairs 3 = [(0, 0), (0, 1), (0, 2), (1, 1), (1, 2), (2, 2)] := by decide
  have hs : ((pairs 3).map (moved [1e-24, 2e-24, 4e-24] fun _ _ => 1)).sum = 2.1e-23 := by
    rw [hp]
    norm_num [moved, pairEvents]
  obtain ⟨S, E, h1, -, -, -, h2⟩ := C96_coagulation binary64 _ _ _ 2 2 hb.1 ⟨hb.2.1, hb.2.2.1, hb.2.2.2.1, hb.2.2.2.2.1, hb.2.2.2.2.2⟩ 3 _ exCGrid
    (fun _ _ => 1) (fun i j => if i + j ≤ 1 then 1 else 2) (by
      intro i j hij hj hk
      beta_reduce at hk ⊢
      have h01 : i + j ≤ 1 := by
        by_contra hh
        rw [if_neg hh] at hk; omega
      rw [if_pos h01]
      have hi0 : i = 0 := by omega
      subst hi0
      have hj2 : j < 2 := by omega
      unfold Between
      interval_cases j <;> norm_num) (by norm_num) (by
      rw [hs]
      have : (2.1e-23 : ℝ) ≤ 2 ^ 100 / 100 := by norm_num
      linarith) (by
      rw [hs]
      simp only [List.getD_cons_zero]
      have : (2.1e-23 : ℝ) ≤ 2 ^ 100 / 100 * 1e-24 := by norm_num
      linarith) (by
      have h3 : (2 : ℝ) ^ (-1075 : ℤ) ≤ 2 ^ (-100 : ℤ) := zpow_le_zpow_right₀ (by norm_num) (by norm_num)
      have h4 : (0.55 * (3 : ℕ) * ((3 : ℕ) + 1) * ((9 * ([1e-24, 2e-24, 4e-24] : List ℝ).getD (3 - 1) 0 + 2) * 2 ^ (-100 : ℤ)) : ℝ) ≤ 2 ^ 100 / 100 * 1e-24 := by
        norm_num
      have h5 : (0.55 * (3 : ℕ) * ((3 : ℕ) + 1) * ((9 * ([1e-24, 2e-24, 4e-24] : List ℝ).getD (3 - 1) 0 + 2) * 2 ^ (-1075 : ℤ)) : ℝ) ≤
          0.55 * (3 : ℕ) * ((3 : ℕ) + 1) * ((9 * ([1e-24, 2e-24, 4e-24] : List ℝ).getD (3 - 1) 0 + 2) * 2 ^ (-100 : ℤ)) := by
        refine mul_le_mul_of_nonneg_left (mul_le_mul_of_nonneg_left h3 (by norm_num)) (by norm_num)
      refine (h5.trans h4).trans ?_
      simp only [List.getD_cons_zero]
      linarith)
  refine ⟨S, h1, h2.trans ?_⟩
  rw [hs]
  have hη : (0 : ℝ) ≤ 2 ^ (-1075 : ℤ) := by positivity
  have e1 : (5 * (3 : ℕ) * ((3 : ℕ) + 1) + 14 * ((1 + 2) * (2 / (2 - 1))) : ℝ) = 144 := by norm_num
  have e2 : (0.55 * (3 : ℕ) * ((3 : ℕ) + 1) * (9 * ([1e-24, 2e-24, 4e-24] : List ℝ).getD (3 - 1) 0 + 2) : ℝ) ≤ 13.3 := by norm_num
  rw [e1, ← mul_assoc (0.55 * ((3 : ℕ) : ℝ) * (((3 : ℕ) : ℝ) + 1))]
  exact add_le_add_right (mul_le_mul_of_nonneg_right e2 hη) _

end Soot
