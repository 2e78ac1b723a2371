import Verif.Props.FpSectErr
import Verif.Props.MonoAccuracy
import Verif.FpSectAll

/-!
# Floating point: adding up the processes of the sectional model

From terms of nucleation, growth, oxidation and coagulation that are near their exact values (in the mass-weighted norm `nrm`) to the section and gas sources.
-/

namespace Soot

open Res Dbl FpMass
open scoped Classical

namespace FpSect

variable {F : Fp} {u η Ω : ℝ} {n : ℕ} {bins : List ℝ}

theorem nrm_point (hb : Bins n bins) (f : ℕ → ℝ) {k : ℕ} (hk : k < n) : bins.getD 0 0 * |f k| ≤ nrm n bins f := by
  refine (mul_le_mul_of_nonneg_right (hb.le (Nat.zero_le k) hk) (abs_nonneg _)).trans ?_
  exact Finset.single_le_sum (f := fun k => bins.getD k 0 * |f k|) (fun j hj => mul_nonneg (hb.pos (Finset.mem_range.1 hj)).le (abs_nonneg _)) (Finset.mem_range.2 hk)

theorem nrm_zero : nrm n bins (fun _ => 0) = 0 := by simp [nrm]

theorem nrm_near (hb : Bins n bins) {f P : ℕ → ℝ} {B e : ℝ} (hP : nrm n bins P ≤ B) (he : nrm n bins (fun k => f k - P k) ≤ e) : nrm n bins f ≤ B + e := by
  have := nrm_tri hb P fun k => f k - P k
  rw [nrm_congr (h := f) fun k _ => by ring] at this
  linarith

theorem mdotD_congr (F : Fp) (b : ℕ → Dbl) {S S' : ℕ → Dbl} (n : ℕ) (h : ∀ k < n, S k = S' k) : mdotD F b S n = mdotD F b S' n := by
  induction n with
  | zero => rfl
  | succ n ih => rw [mdotD, mdotD, ih fun k hk => h k (by omega), h n (by omega)]

/-- The section sources. -/
theorem soot_sum (hF : F.Std u η Ω) (ho : Ok u η Ω) (hb : Bins n bins) {a b d e : ℕ → ℝ} {A B D E ea eb ed ee : ℝ} {P Q R S : ℕ → ℝ}
    (hP : nrm n bins P ≤ A) (hQ : nrm n bins Q ≤ B) (hR : nrm n bins R ≤ D) (hS : nrm n bins S ≤ E)
    (ha : nrm n bins (fun k => a k - P k) ≤ ea) (hb' : nrm n bins (fun k => b k - Q k) ≤ eb) (hd : nrm n bins (fun k => d k - R k) ≤ ed)
    (he : nrm n bins (fun k => e k - S k) ≤ ee) (ba : A + ea ≤ bins.getD 0 0 * (Ω / 1000)) (bb : B + eb ≤ bins.getD 0 0 * (Ω / 1000))
    (bd : D + ed ≤ bins.getD 0 0 * (Ω / 1000)) (be : E + ee ≤ bins.getD 0 0 * (Ω / 1000)) :
    ∃ y : ℕ → ℝ, (∀ k < n, sectSumD F (fun k => fin (a k)) (fun k => fin (b k)) (fun _ => fin 0) (fun k => fin (d k)) (fun k => fin (e k)) k = fin (y k)) ∧
      nrm n bins (fun k => y k - (P k + Q k + R k + S k)) ≤ ea + eb + ed + ee + 4.1 * u * (A + ea + (B + eb) + (D + ed) + (E + ee)) +
        4.1 * η * ∑ k ∈ Finset.range n, bins.getD k 0 := by
  have na := nrm_near hb hP ha
  have nb := nrm_near hb hQ hb'
  have nd := nrm_near hb hR hd
  have ne := nrm_near hb hS he
  have small : ∀ {f : ℕ → ℝ} {x : ℝ}, nrm n bins f ≤ x → x ≤ bins.getD 0 0 * (Ω / 1000) → ∀ k < n, |f k| ≤ Ω / 1000 := fun h1 h2 k hk =>
    le_of_mul_le_mul_left ((nrm_point hb _ hk).trans (h1.trans h2)) hb.pos0
  have z0 : |(0 : ℝ)| ≤ Ω / 1000 := by rw [abs_zero]; linarith [ho.Ω1]
  have s := fun k (hk : k < n) => sum5 hF ho (small na ba k hk) (small nb bb k hk) z0 (small nd bd k hk) (small ne be k hk)
  let y : ℕ → ℝ := fun k => if hk : k < n then (s k hk).choose else 0
  have hy : ∀ k (hk : k < n), F.add (F.add (F.add (F.add (fin (a k)) (fin (b k))) (fin 0)) (fin (d k))) (fin (e k)) = fin (y k) ∧
      |y k - (a k + b k + 0 + d k + e k)| ≤ 4.1 * u * (|a k| + |b k| + |0| + |d k| + |e k|) + 4.1 * η := fun k hk => by
    have := (s k hk).choose_spec
    simp only [y, dif_pos hk]
    exact this
  refine ⟨y, fun k hk => (hy k hk).1, ?_⟩
  have e1 : nrm n bins (fun k => y k - (a k + b k + d k + e k)) ≤ 4.1 * u * (A + ea + (B + eb) + (D + ed) + (E + ee)) + 4.1 * η * ∑ k ∈ Finset.range n, bins.getD k 0 := by
    refine (nrm_le hb (h := fun k => 4.1 * u * (|a k| + |b k| + |d k| + |e k|) + 4.1 * η) fun k hk => ?_).trans ?_
    · have := (hy k hk).2
      rw [abs_zero, add_zero, add_zero] at this
      exact this
    · have ex : ∑ k ∈ Finset.range n, bins.getD k 0 * (4.1 * u * (|a k| + |b k| + |d k| + |e k|) + 4.1 * η) =
          4.1 * u * (nrm n bins a + nrm n bins b + nrm n bins d + nrm n bins e) + 4.1 * η * ∑ k ∈ Finset.range n, bins.getD k 0 := by
        unfold nrm
        rw [← Finset.sum_add_distrib, ← Finset.sum_add_distrib, ← Finset.sum_add_distrib, Finset.mul_sum, Finset.mul_sum, ← Finset.sum_add_distrib]
        exact Finset.sum_congr rfl fun k _ => by ring
      rw [ex]
      have := mul_le_mul_of_nonneg_left (show nrm n bins a + nrm n bins b + nrm n bins d + nrm n bins e ≤ A + ea + (B + eb) + (D + ed) + (E + ee) by linarith)
        (show 0 ≤ 4.1 * u by linarith [ho.u0])
      linarith
  have t1 := nrm_tri hb (fun k => y k - (a k + b k + d k + e k)) (fun k => (a k - P k) + (b k - Q k) + (d k - R k) + (e k - S k))
  have t2 := nrm_tri hb (fun k => (a k - P k) + (b k - Q k) + (d k - R k)) (fun k => e k - S k)
  have t3 := nrm_tri hb (fun k => (a k - P k) + (b k - Q k)) (fun k => d k - R k)
  have t4 := nrm_tri hb (fun k => a k - P k) (fun k => b k - Q k)
  rw [nrm_congr (h := fun k => y k - (P k + Q k + R k + S k)) fun k _ => by ring] at t1
  linarith

/-- The mass of one process. -/
theorem mdot_err (hF : F.Std u η Ω) (ho : Ok u η Ω) (hb : Bins n bins) (hn : (n + 1) * u ≤ 1 / 20) {a P : ℕ → ℝ} {A ea M : ℝ} (hP : nrm n bins P ≤ A)
    (ha : nrm n bins (fun k => a k - P k) ≤ ea) (ba : A + ea ≤ Ω / 4000) (hM : ∑ k ∈ Finset.range n, bins.getD k 0 * P k = M) :
    ∃ y, mdotD F (fun k => fin (bins.getD k 0)) (fun k => fin (a k)) n = fin y ∧ |y - M| ≤ ea + 1.1 * (n + 1) * u * (A + ea) + 2.2 * n * η := by
  have na := nrm_near hb hP ha
  have ex : ∀ f : ℕ → ℝ, ∑ k ∈ Finset.range n, |f k * bins.getD k 0| = nrm n bins f := fun f =>
    Finset.sum_congr rfl fun k hk => by rw [abs_mul, abs_of_pos (hb.pos (Finset.mem_range.1 hk)), mul_comm]
  obtain ⟨y, hy, ey⟩ := mdot_near hF ho (fun k => bins.getD k 0) a n hn (by rw [ex]; linarith)
  refine ⟨y, hy, ?_⟩
  rw [ex] at ey
  have d : |∑ k ∈ Finset.range n, a k * bins.getD k 0 - M| ≤ ea := by
    refine le_trans ?_ ha
    rw [← hM, ← Finset.sum_sub_distrib]
    refine (Finset.abs_sum_le_sum_abs _ _).trans (Finset.sum_le_sum fun k hk => le_of_eq ?_)
    rw [show a k * bins.getD k 0 - bins.getD k 0 * P k = bins.getD k 0 * (a k - P k) by ring, abs_mul, abs_of_pos (hb.pos (Finset.mem_range.1 hk))]
  have n0 : (0 : ℝ) ≤ n := Nat.cast_nonneg n
  have c0 : 0 ≤ 1.1 * (n + 1) * u := by have := ho.u0; positivity
  have := mul_le_mul_of_nonneg_left na c0
  have t := abs_sub_le y (∑ k ∈ Finset.range n, a k * bins.getD k 0) M
  linarith

theorem term_one {r : GasSp → ℝ} (hr : Stoich r) (sp : GasSp) : |term r 1 sp| ≤ 40 := by
  unfold term
  split_ifs
  · simp
  · have h1 := hr.le sp
    have h2 := hr.one
    have h3 := mw_bounds sp
    have h4 : (12 : ℝ) ≤ gasMW .C := by norm_num [gasMW]
    rw [one_mul, abs_div, abs_mul, abs_mul, abs_of_nonneg (by linarith : 0 ≤ gasMW sp), abs_of_nonneg (by linarith : 0 ≤ gasMW .C), div_le_iff₀ (by nlinarith)]
    have : |r sp| * gasMW sp ≤ 6 * 79 := mul_le_mul h1 h3.2 (by linarith) (by norm_num)
    nlinarith

/-- One gas term: relative error `δ` of the mass and absolute error `τ`. -/
theorem term_err {r : GasSp → ℝ} (hr : Stoich r) {y M δ τ : ℝ} (hτ : 0 ≤ τ) (h : |y - M| ≤ δ * |M| + τ) (sp : GasSp) :
    |term r y sp - term r M sp| ≤ δ * |term r M sp| + 40 * τ ∧ |term r y sp| ≤ (1 + δ) * |term r M sp| + 40 * τ := by
  have e : |term r y sp - term r M sp| ≤ δ * |term r M sp| + |term r 1 sp| * τ := by
    rw [FpK.term_lin, abs_mul, term_abs r M]
    have := mul_le_mul_of_nonneg_right h (abs_nonneg (term r 1 sp))
    linarith
  have := mul_le_mul_of_nonneg_right (term_one hr sp) hτ
  have t := abs_sub_abs_le_abs_sub (term r y sp) (term r M sp)
  constructor <;> linarith

/-- The gas sources. -/
theorem gas_err (hF : F.Std u η Ω) (ho : Ok u η Ω) {rN rG rX : GasSp → ℝ} (sN : Stoich rN) (sG : Stoich rG) (sX : Stoich rX) {n g x N G X a b c τ : ℝ}
    (hτ : 0 ≤ τ) (hn : |n - N| ≤ a * |N| + τ) (hg : |g - G| ≤ b * |G| + τ) (hx : |x - X| ≤ c * |X| + τ) (a1 : a ≤ 1 / 20) (b1 : b ≤ 1 / 20) (c1 : c ≤ 1 / 20)
    (n1 : |n| ≤ Ω / 1000) (g1 : |g| ≤ Ω / 1000) (x1 : |x| ≤ Ω / 1000) (sp : GasSp) :
    ∃ y, gasSourcesD F rN rG rX (fin n) (fin g) (fin x) sp = fin y ∧ |y - (term rN N sp + term rG G sp + term rX X sp)| ≤
      (a + 17 * u) * |term rN N sp| + (b + 17 * u) * |term rG G sp| + (c + 17 * u) * |term rX X sp| + 122 * τ + 39 * η := by
  obtain ⟨y, hy, ey⟩ := gas_near hF ho sN sG sX n1 g1 x1 sp
  obtain ⟨p1, p2⟩ := term_err sN hτ hn sp
  obtain ⟨q1, q2⟩ := term_err sG hτ hg sp
  obtain ⟨r1, r2⟩ := term_err sX hτ hx sp
  refine ⟨y, hy, ?_⟩
  have u0 := ho.u0
  have u1 := ho.u1
  have k : ∀ {z t d : ℝ}, 0 ≤ t → d ≤ 1 / 20 → z ≤ (1 + d) * t + 40 * τ → 16 * u * z ≤ 17 * u * t + 2 / 3 * τ := by
    intro z t d t0 hd h
    have h1 := mul_le_mul_of_nonneg_left h (show 0 ≤ 16 * u by linarith)
    have h2 : 16 * u * (d * t) ≤ 16 * u * (1 / 20 * t) := mul_le_mul_of_nonneg_left (mul_le_mul_of_nonneg_right hd t0) (by linarith)
    have h3 : u * τ ≤ 1 / 1000 * τ := mul_le_mul_of_nonneg_right u1 hτ
    have h4 := mul_nonneg u0 t0
    linarith
  have k1 := k (abs_nonneg _) a1 p2
  have k2 := k (abs_nonneg _) b1 q2
  have k3 := k (abs_nonneg _) c1 r2
  have t : |y - (term rN N sp + term rG G sp + term rX X sp)| ≤ |y - (term rN n sp + term rG g sp + term rX x sp)| +
      (|term rN n sp - term rN N sp| + |term rG g sp - term rG G sp| + |term rX x sp - term rX X sp|) := by
    have e : y - (term rN N sp + term rG G sp + term rX X sp) = (y - (term rN n sp + term rG g sp + term rX x sp)) +
      ((term rN n sp - term rN N sp) + (term rG g sp - term rG G sp) + (term rX x sp - term rX X sp)) := by ring
    rw [e]
    refine (abs_add_le _ _).trans (add_le_add_right ((abs_add_le _ _).trans (add_le_add_left (abs_add_le _ _) _)) _)
  linarith

set_option maxHeartbeats 2000000 in
/-- All processes with their relative errors. -/
theorem sect_total (hF : F.Std u η Ω) (ho : Ok u η Ω) (u1 : u ≤ 1 / 10 ^ 8) (η1 : η ≤ 1) (hb : Bins n bins) (n1 : n ≤ 1000) (bt : bins.getD (n - 1) 0 ≤ 1000)
    (hL : (5 * n * (n + 1) + 84) * u ≤ 1 / 10) {Z : ℝ} (Z0 : 0 ≤ Z) (hZ : 20 * Z + 10 ^ 12 ≤ bins.getD 0 0 * (Ω / 1000)) (hZ' : 20 * Z + 10 ^ 12 ≤ Ω / 4000)
    {rN rG rX : GasSp → ℝ} (sN : Stoich rN) (sG : Stoich rG) (sX : Stoich rX) {a b d e Q R S : ℕ → ℝ} {M G X V N κ x : ℝ} (N0 : 0 ≤ N) (N1 : N ≤ 8200) (κ0 : 0 ≤ κ)
    (κ1 : κ ≤ 1 / 100) (M0 : 0 ≤ M) (G0 : 0 ≤ G) (X0 : 0 ≤ X) (V0 : 0 ≤ V) (M1 : M ≤ Z) (G1 : G ≤ Z) (X1 : X ≤ Z) (V1 : V ≤ Z)
    (ha : ∀ k < n, a k = if k = 0 then x else 0) (hx : |x - M / bins.getD 0 0| ≤ 306 * u * (M / bins.getD 0 0))
    (hQ : nrm n bins Q ≤ 3 * G) (eQ : nrm n bins (fun k => b k - Q k) ≤ 3 * ((1050 * u + 4.3 * u) * G) + 3.1 * η * ∑ k ∈ Finset.range n, bins.getD k 0)
    (mQ : ∑ k ∈ Finset.range n, bins.getD k 0 * Q k = G)
    (hR : nrm n bins R ≤ 3 * X) (eR : nrm n bins (fun k => d k - R k) ≤ 3 * (((N + 360) * u + 4.3 * u) * X) + 3.1 * η * ∑ k ∈ Finset.range n, bins.getD k 0)
    (mR : ∑ k ∈ Finset.range n, bins.getD k 0 * R k = -X)
    (hS : nrm n bins S ≤ 2.3 * V) (eS : nrm n bins (fun k => e k - S k) ≤ (2.3 * κ + 1.01 * ((5 * n * (n + 1) + 84) * u)) * V +
      0.55 * n * (n + 1) * ((9 * bins.getD (n - 1) 0 + 2) * η)) :
    (∃ y : ℕ → ℝ, (∀ k < n, sectSumD F (fun k => fin (a k)) (fun k => fin (b k)) (fun _ => fin 0) (fun k => fin (d k)) (fun k => fin (e k)) k = fin (y k)) ∧
      nrm n bins (fun k => y k - ((if k = 0 then M / bins.getD 0 0 else 0) + Q k + R k + S k)) ≤ 311 * u * M + 3180 * u * G + (3 * N + 1110) * u * X +
        (2.3 * κ + (5.05 * n * (n + 1) + 95) * u) * V + n * (n + 1) * (9 * bins.getD (n - 1) 0 + 2) * η) ∧
    ∃ Y : GasSp → ℝ, ∀ sp, gasSourcesD F rN rG rX (mdotD F (fun k => fin (bins.getD k 0)) (fun k => fin (a k)) n) (mdotD F (fun k => fin (bins.getD k 0)) (fun k => fin (b k)) n)
        (mdotD F (fun k => fin (bins.getD k 0)) (fun k => fin (d k)) n) sp = fin (Y sp) ∧
      |Y sp - (term rN M sp + term rG G sp + term rX (-X) sp)| ≤ (323 + 1.2 * (n + 1)) * u * |term rN M sp| + (3180 + 3.4 * (n + 1)) * u * |term rG G sp| +
        (3 * N + 1110 + 3.4 * (n + 1)) * u * |term rX (-X) sp| + (n * (403 * bins.getD (n - 1) 0 + 269) + 39) * η := by
  have u0 := ho.u0
  have η0 := ho.η0
  have n2 : (2 : ℝ) ≤ n := by exact_mod_cast hb.two
  have n1' : (n : ℝ) ≤ 1000 := by exact_mod_cast n1
  have p0 := hb.pos0
  have nn : 0 < n := by have := hb.two; omega
  have pt := hb.pos (show n - 1 < n by omega)
  set B := ∑ k ∈ Finset.range n, bins.getD k 0 with hBd
  set t := bins.getD (n - 1) 0 with ht
  set P : ℕ → ℝ := fun k => if k = 0 then M / bins.getD 0 0 else 0 with hPd
  have B0 : 0 ≤ B := Finset.sum_nonneg fun k hk => (hb.pos (Finset.mem_range.1 hk)).le
  have B1 : B ≤ n * t := by
    have := Finset.sum_le_card_nsmul (Finset.range n) (fun k => bins.getD k 0) t fun k hk => hb.le (by have := Finset.mem_range.1 hk; omega) (by omega)
    rw [Finset.card_range, nsmul_eq_mul] at this
    exact this
  have ηB : η * B ≤ η * (n * t) := mul_le_mul_of_nonneg_left B1 η0
  have ηB0 := mul_nonneg η0 B0
  have ηnt0 : 0 ≤ η * (n * t) := by positivity
  have ηnt : η * (n * t) ≤ 10 ^ 6 := by
    have : n * t ≤ 1000 * 1000 := mul_le_mul n1' bt pt.le (by norm_num)
    have h2 : η * (n * t) ≤ 1 * (n * t) := mul_le_mul_of_nonneg_right η1 (by positivity)
    norm_num; linarith
  have nη : n * η ≤ 1000 := by have := mul_le_mul_of_nonneg_left η1 (show (0 : ℝ) ≤ n by linarith only [n2]); linarith only [this, n1']
  have nη0 : 0 ≤ n * η := by positivity
  -- the norms of nucleation
  have one : ∀ q : ℝ, nrm n bins (fun k => if k = 0 then q else 0) = bins.getD 0 0 * |q| := by
    intro q
    unfold nrm
    rw [Finset.sum_eq_single 0]
    · simp
    · intro k _ hk; simp [hk]
    · intro h; exact absurd (Finset.mem_range.2 nn) h
  have hP : nrm n bins P ≤ M := by
    rw [hPd, one, abs_of_nonneg (by positivity), mul_div_cancel₀ _ p0.ne']
  have eP : nrm n bins (fun k => a k - P k) ≤ 306 * u * M := by
    rw [nrm_congr (h := fun k => if k = 0 then x - M / bins.getD 0 0 else 0) fun k hk => by
      rw [ha k hk, hPd]; by_cases h : k = 0 <;> simp [h]]
    rw [one]
    have := mul_le_mul_of_nonneg_left hx p0.le
    have e : bins.getD 0 0 * (306 * u * (M / bins.getD 0 0)) = 306 * u * M := by field_simp
    linarith
  have mP : ∑ k ∈ Finset.range n, bins.getD k 0 * P k = M := by
    rw [Finset.sum_eq_single 0]
    · rw [hPd]; simp only [if_true]; exact mul_div_cancel₀ _ p0.ne'
    · intro k _ hk; simp [hPd, hk]
    · intro h; exact absurd (Finset.mem_range.2 nn) h
  -- small products
  have uM := mul_nonneg u0 M0
  have uG := mul_nonneg u0 G0
  have uX := mul_nonneg u0 X0
  have uV := mul_nonneg u0 V0
  have s1 : ∀ {z : ℝ}, 0 ≤ z → u * z ≤ 1 / 10 ^ 8 * z := fun h => mul_le_mul_of_nonneg_right u1 h
  have NX : N * (u * X) ≤ 8200 * (u * X) := mul_le_mul_of_nonneg_right N1 uX
  have NX0 : 0 ≤ N * (u * X) := mul_nonneg N0 uX
  have κV : κ * V ≤ 1 / 100 * V := mul_le_mul_of_nonneg_right κ1 V0
  have κV0 := mul_nonneg κ0 V0
  set L : ℝ := 5 * n * (n + 1) + 84 with hLd
  have L0 : 0 ≤ L := by positivity
  have LV : L * u * V ≤ 1 / 10 * V := mul_le_mul_of_nonneg_right hL V0
  have LV0 : 0 ≤ L * u * V := by positivity
  set W := 0.55 * n * (n + 1) * ((9 * t + 2) * η) with hWd
  have W0 : 0 ≤ W := by positivity
  have W1 : W ≤ 10 ^ 11 := by
    have h1 : (n : ℝ) * (n + 1) ≤ 1000 * 1001 := mul_le_mul n1' (by linarith only [n1']) (by linarith only [n2]) (by norm_num)
    have h2 : (9 * t + 2) * η ≤ 9002 := by have := mul_le_mul_of_nonneg_left η1 (show 0 ≤ 9 * t + 2 by linarith only [pt]); linarith only [this, bt]
    have h3 : (n : ℝ) * (n + 1) * ((9 * t + 2) * η) ≤ 1000 * 1001 * 9002 := mul_le_mul h1 h2 (by positivity) (by norm_num)
    rw [hWd]
    norm_num at h3 ⊢; linarith only [h3]
  have hu' : (n + 1) * u ≤ 1 / 20 := by
    have : (n + 1) * u ≤ L / 2 * u := mul_le_mul_of_nonneg_right (by
      have : 2 * ((n : ℝ) + 1) ≤ n * (n + 1) := mul_le_mul_of_nonneg_right n2 (by linarith only [n2])
      rw [hLd]; linarith only [this, n2]) u0
    linarith
  have hu2 : (n + 1) * u ≤ 1 / 10 ^ 4 := by
    have : (n + 1) * u ≤ 1001 * (1 / 10 ^ 8) := mul_le_mul (by linarith) u1 u0 (by norm_num)
    norm_num at this ⊢; linarith
  have m1 := s1 M0
  have g1 := s1 G0
  have x1 := s1 X0
  have v1 := s1 V0
  have m2 := s1 uM
  have g2 := s1 uG
  have x2 := s1 uX
  have x3 := s1 NX0
  have b2 := s1 ηB0
  have w2 := s1 W0
  norm_num at m1 g1 x1 v1 m2 g2 x2 x3 b2 w2
  have kv2 : u * (κ * V) ≤ 1 / 100 * (u * V) := by
    have := mul_le_mul_of_nonneg_left κV u0; linarith
  have lv2 : u * (L * u * V) ≤ 1 / 10 * (u * V) := by
    have := mul_le_mul_of_nonneg_left LV u0; linarith
  constructor
  · obtain ⟨y, hy, ey⟩ := soot_sum hF ho hb hP hQ hR hS eP eQ eR eS (by linarith) (by linarith) (by linarith) (by linarith)
    refine ⟨y, hy, ey.trans ?_⟩
    have L' : L * u * V = 5 * (n * (n + 1) * u * V) + 84 * (u * V) := by rw [hLd]; ring
    have W' : W = 4.95 * (n * (n + 1) * t * η) + 1.1 * (n * (n + 1) * η) := by rw [hWd]; ring
    have q1 : η * (n * t) ≤ 1 / 3 * (n * (n + 1) * t * η) := by
      have : 3 * (η * (n * t)) ≤ (n + 1) * (η * (n * t)) := mul_le_mul_of_nonneg_right (by linarith) ηnt0
      linarith
    have q2 : 0 ≤ n * (n + 1) * t * η := by positivity
    have q3 : 0 ≤ n * (n + 1) * η := by positivity
    linarith
  · have c1 := mul_nonneg (mul_nonneg (show (0 : ℝ) ≤ n + 1 by linarith) u0) M0
    have c2 := mul_nonneg (mul_nonneg (show (0 : ℝ) ≤ n + 1 by linarith) u0) G0
    have c3 := mul_nonneg (mul_nonneg (show (0 : ℝ) ≤ n + 1 by linarith) u0) X0
    have d1 : (n + 1) * u * (u * M) ≤ 1 / 10 ^ 8 * ((n + 1) * u * M) := by have := s1 c1; linarith
    have d2 : (n + 1) * u * (u * G) ≤ 1 / 10 ^ 8 * ((n + 1) * u * G) := by have := s1 c2; linarith
    have d3 : (n + 1) * u * (u * X) ≤ 1 / 10 ^ 8 * ((n + 1) * u * X) := by have := s1 c3; linarith
    have d4 : (n + 1) * u * (N * (u * X)) ≤ 8200 * (1 / 10 ^ 8 * ((n + 1) * u * X)) := by
      have := mul_le_mul_of_nonneg_left NX (mul_nonneg (show (0 : ℝ) ≤ n + 1 by linarith) u0)
      linarith
    have d5 : (n + 1) * u * (η * B) ≤ 1 / 20 * (η * B) := mul_le_mul_of_nonneg_right hu' ηB0
    norm_num at d1 d2 d3 d4
    have τ0 : 0 ≤ n * (3.3 * t + 2.2) * η := by positivity
    have τ1 : n * (3.3 * t + 2.2) * η ≤ 10 ^ 8 := by norm_num at ηnt ⊢; linarith
    obtain ⟨yn, hyn, en⟩ := mdot_err hF ho hb hu' hP eP (by linarith) mP
    obtain ⟨yg, hyg, eg⟩ := mdot_err hF ho hb hu' hQ eQ (by norm_num at hZ'; linarith) mQ
    obtain ⟨yx, hyx, ex⟩ := mdot_err hF ho hb hu' hR eR (by norm_num at hZ'; linarith) mR
    have fn : |yn - M| ≤ ((306 + 1.2 * (n + 1)) * u) * |M| + n * (3.3 * t + 2.2) * η := by
      rw [abs_of_nonneg M0]; linarith
    have fg : |yg - G| ≤ ((3163 + 3.4 * (n + 1)) * u) * |G| + n * (3.3 * t + 2.2) * η := by
      rw [abs_of_nonneg G0]; linarith
    have fx : |yx - -X| ≤ ((3 * N + 1093 + 3.4 * (n + 1)) * u) * |-X| + n * (3.3 * t + 2.2) * η := by
      rw [abs_neg, abs_of_nonneg X0]; linarith
    have Nu : N * u ≤ 8200 * u := mul_le_mul_of_nonneg_right N1 u0
    have r1 : (306 + 1.2 * (n + 1)) * u ≤ 1 / 20 := by norm_num at u1 hu2 ⊢; linarith
    have r2 : (3163 + 3.4 * (n + 1)) * u ≤ 1 / 20 := by norm_num at u1 hu2 ⊢; linarith
    have r3 : (3 * N + 1093 + 3.4 * (n + 1)) * u ≤ 1 / 20 := by norm_num at u1 hu2 ⊢; linarith
    have big : ∀ {q Q δ : ℝ}, |Q| ≤ Z → |q - Q| ≤ δ * |Q| + n * (3.3 * t + 2.2) * η → δ ≤ 1 / 20 → |q| ≤ Ω / 1000 := by
      intro q Q δ hQ h hd
      have := abs_sub_abs_le_abs_sub q Q
      have := mul_le_mul_of_nonneg_right hd (abs_nonneg Q)
      norm_num at hZ' τ1
      linarith
    have gs := fun sp => gas_err hF ho sN sG sX τ0 fn fg fx r1 r2 r3 (big (by rwa [abs_of_nonneg M0]) fn r1) (big (by rwa [abs_of_nonneg G0]) fg r2)
      (big (by rwa [abs_neg, abs_of_nonneg X0]) fx r3) sp
    choose Y hY eY using gs
    refine ⟨Y, fun sp => ⟨by rw [hyn, hyg, hyx]; exact hY sp, (eY sp).trans ?_⟩⟩
    have k1 := abs_nonneg (term rN M sp)
    have k2 := abs_nonneg (term rG G sp)
    have k3 := abs_nonneg (term rX (-X) sp)
    have := mul_nonneg ηnt0 zero_le_one
    linarith

end FpSect

end Soot
