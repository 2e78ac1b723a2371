import Verif.FpMono
import Verif.Props.RateAccuracy
import Verif.Props.Mono

/-!
# C102: tools for sums with cancellation

The sources of the monodisperse model are sums of gains and losses.  Each process has a small relative error (`AccZ`: or is exactly zero); the error of
the sum is bounded by the sizes of the processes.
-/

namespace Soot

open Dbl Res
open scoped Classical

namespace FpK

variable {F : Fp} {ε : ℝ}

/-- Rounding with both signs changed. -/
noncomputable def flip (F : Fp) : Fp := { F with rnd := fun x => neg (F.rnd (-x)) }

theorem flip_accurate (hF : F.Accurate ε) : (flip F).Accurate ε where
  rnd x h1 h2 := by
    obtain ⟨y, hy, e⟩ := hF.rnd (-x) (by rwa [abs_neg]) (by rwa [abs_neg])
    refine ⟨-y, by show neg (F.rnd (-x)) = _; rw [hy]; rfl, ?_⟩
    rw [abs_neg] at e
    rw [show -y - x = -(y - -x) by ring, abs_neg]
    exact e
  small x h1 := by
    obtain ⟨y, hy, e⟩ := hF.small (-x) (by rwa [abs_neg])
    refine ⟨-y, by show neg (F.rnd (-x)) = _; rw [hy]; rfl, ?_⟩
    rw [show -y - x = -(y - -x) by ring, abs_neg]
    exact e
  sqrt := hF.sqrt
  pow := hF.pow
  exp := hF.exp

theorem Acc.mulN (hF : F.Accurate ε) (hε : Sm ε) {m n : ℕ} {a b c d : ℤ} {x y : ℝ} {X Y : Dbl} (hx : Acc ε m a b x (neg X)) (hy : Acc ε n c d y Y)
    (hn : m + n ≤ 10000) (la : -299 ≤ a + c) (lb : b + d ≤ 299) : Acc ε (m + n + 1) (a + c) (b + d) (x * y) (neg (F.mul X Y)) := by
  have h := Acc.mul (flip_accurate hF) hε hx hy hn la lb
  obtain ⟨x', hx', -⟩ := hx.val
  obtain ⟨y', rfl, -⟩ := hy.val
  rcases X with X | _ | _ | _ <;> simp only [neg, reduceCtorEq, fin.injEq] at hx'
  have e : (flip F).mul (neg (fin X)) (fin y') = neg (F.mul (fin X) (fin y')) := by
    show neg (F.rnd (-(-X * y'))) = neg (F.rnd (X * y'))
    rw [neg_mul, neg_neg]
  rwa [e] at h

/-- An accurate positive number, or an exact zero. -/
def AccZ (ε : ℝ) (n : ℕ) (a b : ℤ) (x : ℝ) (d : Dbl) : Prop := Acc ε n a b x d ∨ (x = 0 ∧ d = fin 0)

theorem Acc.z {n : ℕ} {a b : ℤ} {x : ℝ} {d : Dbl} (h : Acc ε n a b x d) : AccZ ε n a b x d := .inl h

theorem AccZ.mono {n n' : ℕ} {a b a' b' : ℤ} {x : ℝ} {d : Dbl} (hε : Sm ε) (h : AccZ ε n a b x d) (hn : n ≤ n') (ha : a' ≤ a) (hb : b ≤ b') :
    AccZ ε n' a' b' x d := h.imp (fun h => h.mono hε hn ha hb) id

theorem AccZ.finite {n : ℕ} {a b : ℤ} {x : ℝ} {d : Dbl} (h : AccZ ε n a b x d) : ∃ y, d = fin y := by
  rcases h with h | ⟨-, h⟩
  · obtain ⟨y, hy, -⟩ := h.val; exact ⟨y, hy⟩
  · exact ⟨0, h⟩

theorem AccZ.mul (hF : F.Accurate ε) (hε : Sm ε) (h0 : F.rnd 0 = fin 0) {m n : ℕ} {a b c d : ℤ} {x y : ℝ} {X Y : Dbl} (hx : AccZ ε m a b x X)
    (hy : AccZ ε n c d y Y) (hn : m + n ≤ 10000) (la : -299 ≤ a + c) (lb : b + d ≤ 299) : AccZ ε (m + n + 1) (a + c) (b + d) (x * y) (F.mul X Y) := by
  obtain ⟨x', hx'⟩ := hx.finite
  obtain ⟨y', hy'⟩ := hy.finite
  rcases hx with hx | ⟨rfl, rfl⟩
  · rcases hy with hy | ⟨rfl, rfl⟩
    · exact .inl (hx.mul hF hε hy hn la lb)
    · refine .inr ⟨mul_zero _, ?_⟩
      rw [hx']; show F.rnd (x' * 0) = _; rw [mul_zero, h0]
  · refine .inr ⟨zero_mul _, ?_⟩
    rw [hy']; show F.rnd (0 * y') = _; rw [zero_mul, h0]

theorem AccZ.mulN (hF : F.Accurate ε) (hε : Sm ε) (h0 : F.rnd 0 = fin 0) {m n : ℕ} {a b c d : ℤ} {x y : ℝ} {X Y : Dbl} (hx : AccZ ε m a b x (neg X))
    (hy : AccZ ε n c d y Y) (hn : m + n ≤ 10000) (la : -299 ≤ a + c) (lb : b + d ≤ 299) : AccZ ε (m + n + 1) (a + c) (b + d) (x * y) (neg (F.mul X Y)) := by
  obtain ⟨x', hx'⟩ := hx.finite
  obtain ⟨y', hy'⟩ := hy.finite
  have z : neg (fin 0) = fin 0 := by simp [neg]
  rcases X with X | _ | _ | _ <;> simp only [neg, reduceCtorEq, fin.injEq] at hx'
  rcases hx with hx | ⟨rfl, h⟩
  · rcases hy with hy | ⟨rfl, rfl⟩
    · exact .inl (hx.mulN hF hε hy hn la lb)
    · refine .inr ⟨mul_zero _, ?_⟩
      show neg (F.rnd (X * 0)) = _; rw [mul_zero, h0, z]
  · refine .inr ⟨zero_mul _, ?_⟩
    have X0 : X = 0 := by simpa [neg] using h
    rw [hy', X0]; show neg (F.rnd (0 * y')) = _; rw [zero_mul, h0, z]

theorem AccZ.div (hF : F.Accurate ε) (hε : Sm ε) (h0 : F.rnd 0 = fin 0) {m n : ℕ} {a b c d : ℤ} {x y : ℝ} {X Y : Dbl} (hx : AccZ ε m a b x X)
    (hy : Acc ε n c d y Y) (hn : m + n ≤ 10000) (la : -299 ≤ a - d) (lb : b - c ≤ 299) : AccZ ε (m + n + 1) (a - d) (b - c) (x / y) (F.div X Y) := by
  rcases hx with hx | ⟨rfl, rfl⟩
  · exact .inl (hx.div hF hε hy hn la lb)
  · refine .inr ⟨zero_div _, ?_⟩
    obtain ⟨y', rfl, h1, -⟩ := hy.val
    have : y' ≠ 0 := (lt_of_lt_of_le (mul_pos hy.pos (hε.pw _)) h1).ne'
    simp [Fp.div, this, h0]

theorem AccZ.final (hε : Sm ε) {n : ℕ} {N : ℝ} {a b : ℤ} {x : ℝ} {d : Dbl} (h : AccZ ε n a b x d) (hn : n ≤ 10000) (hN : 1.001 * n ≤ N) :
    ∃ y, d = fin y ∧ |y - x| ≤ N * ε * x ∧ 0 ≤ x ∧ x ≤ (10 : ℝ) ^ b := by
  rcases h with h | ⟨rfl, rfl⟩
  · obtain ⟨y, hy, h1, h2⟩ := h.val
    exact ⟨y, hy, (rel_err hε hn h.pos h1 h2).trans (mul_le_mul_of_nonneg_right (mul_le_mul_of_nonneg_right hN hε.pos) h.pos.le), h.pos.le, h.hi⟩
  · exact ⟨0, rfl, by simp, le_rfl, by positivity⟩

/-! ## The sums -/

/-- `N0 + 0 + 0 + 0 + C0` -/
theorem num_sum {η Ω : ℝ} (hS : F.Std ε η Ω) (ho : FpMass.Ok ε η Ω) {n c : ℝ} (hn : |n| ≤ Ω / 1000) (hc : |c| ≤ Ω / 1000) :
    ∃ z, F.add (F.add (F.add (F.add (fin n) (fin 0)) (fin 0)) (fin 0)) (fin c) = fin z ∧ |z - (n + c)| ≤ 4.1 * ε * (|n| + |c|) + 4.1 * η := by
  obtain ⟨u0, η0, u1, ηu, hΩ⟩ := ho
  have n0 := abs_nonneg n
  have c0 := abs_nonneg c
  obtain ⟨a, ha, ea⟩ := hS (n + 0) (by rw [add_zero]; linarith)
  rw [add_zero] at ea
  have a1 : |a| ≤ |n| + (ε * |n| + η) := by have := abs_sub_abs_le_abs_sub a n; linarith
  have q1 : ε * |n| ≤ 1 / 1000 * |n| := mul_le_mul_of_nonneg_right u1 n0
  have q2 : η ≤ 1 / 1000 := ηu.trans u1
  obtain ⟨b, hb, eb⟩ := hS (a + 0) (by rw [add_zero]; linarith)
  rw [add_zero] at eb
  have q3 : ε * |a| ≤ ε * (1.001 * |n| + η) := mul_le_mul_of_nonneg_left (by linarith) u0
  have q4 : ε * η ≤ 1 / 1000 * η := mul_le_mul_of_nonneg_right u1 η0
  have q5 : ε * (1.001 * |n| + η) ≤ 1.001 * (ε * |n|) + η / 1000 := by linarith
  have b1 : |b| ≤ |a| + (ε * |a| + η) := by have := abs_sub_abs_le_abs_sub b a; linarith
  obtain ⟨d, hd, ed⟩ := hS (b + 0) (by rw [add_zero]; linarith)
  rw [add_zero] at ed
  have q6 : ε * |b| ≤ ε * (1.003 * |n| + 2.1 * η) := mul_le_mul_of_nonneg_left (by linarith) u0
  have d1 : |d| ≤ |b| + (ε * |b| + η) := by have := abs_sub_abs_le_abs_sub d b; linarith
  have s1 : |d + c| ≤ |d| + |c| := abs_add_le d c
  obtain ⟨z, hz, ez⟩ := hS (d + c) (by linarith)
  have q7 : ε * |d + c| ≤ ε * (1.005 * |n| + 3.2 * η + |c|) := mul_le_mul_of_nonneg_left (by linarith) u0
  refine ⟨z, ?_, ?_⟩
  · show F.add (F.add (F.add (F.rnd (n + 0)) (fin 0)) (fin 0)) (fin c) = _
    rw [ha]
    show F.add (F.add (F.rnd (a + 0)) (fin 0)) (fin c) = _
    rw [hb]
    show F.add (F.rnd (b + 0)) (fin c) = _
    rw [hd]
    exact hz
  · have p1 : 0 ≤ ε * |n| := mul_nonneg u0 n0
    have p2 : 0 ≤ ε * |c| := mul_nonneg u0 c0
    have t : |z - (n + c)| ≤ |z - (d + c)| + |d - b| + |b - a| + |a - n| := by
      have := abs_add_le (z - (d + c)) (d - b)
      have := abs_add_le (z - (d + c) + (d - b)) (b - a)
      have := abs_add_le (z - (d + c) + (d - b) + (b - a)) (a - n)
      rw [show z - (d + c) + (d - b) + (b - a) + (a - n) = z - (n + c) by ring] at this
      linarith
    linarith

/-- A sum of a gain and a loss. -/
theorem sum_two {η Ω κ : ℝ} (hS : F.Std ε η Ω) (ho : FpMass.Ok ε η Ω) (hε : Sm ε) {J C n c : ℝ} (J0 : 0 ≤ J) (C0 : 0 ≤ C) (hJ : J ≤ Ω / 2000)
    (hC : C ≤ Ω / 2000) (κ0 : 0 ≤ κ) (κ1 : κ ≤ 1 / 100) (en : |n - J| ≤ 295 * ε * J) (ec : |c - C| ≤ κ * C) :
    ∃ z, F.add (F.add (F.add (F.add (fin n) (fin 0)) (fin 0)) (fin 0)) (fin (-c)) = fin z ∧
      |z - (J - C)| ≤ 300 * ε * J + (κ + 5 * ε) * C + 5 * η := by
  have e1 := hε.le
  have n1 : |n| ≤ 1.01 * J := by
    have := abs_sub_abs_le_abs_sub n J
    rw [abs_of_nonneg J0] at this
    have : 295 * ε * J ≤ 0.01 * J := mul_le_mul_of_nonneg_right (by norm_num at e1 ⊢; linarith) J0
    linarith
  have c1 : |c| ≤ 1.01 * C := by
    have := abs_sub_abs_le_abs_sub c C
    rw [abs_of_nonneg C0] at this
    have : κ * C ≤ 0.01 * C := mul_le_mul_of_nonneg_right (by norm_num at κ1 ⊢; linarith) C0
    linarith
  have Ω0 := ho.Ω1
  have η0 := ho.η0
  obtain ⟨z, hz, ez⟩ := num_sum hS ho (n := n) (c := -c) (by linarith) (by rw [abs_neg]; linarith)
  refine ⟨z, hz, ?_⟩
  rw [abs_neg] at ez
  have q1 : ε * |n| ≤ ε * (1.01 * J) := mul_le_mul_of_nonneg_left n1 hε.pos
  have q2 : ε * |c| ≤ ε * (1.01 * C) := mul_le_mul_of_nonneg_left c1 hε.pos
  have p1 : 0 ≤ ε * J := mul_nonneg hε.pos J0
  have p2 : 0 ≤ ε * C := mul_nonneg hε.pos C0
  rw [abs_le] at en ec ez ⊢
  constructor <;> linarith

/-- A sum of two gains and a loss: the mass. -/
theorem sum_three {η Ω κ : ℝ} (hS : F.Std ε η Ω) (ho : FpMass.Ok ε η Ω) (hε : Sm ε) {N G X n g x : ℝ} (N0 : 0 ≤ N) (G0 : 0 ≤ G) (X0 : 0 ≤ X)
    (hN : N ≤ Ω / 2000) (hG : G ≤ Ω / 2000) (hX : X ≤ Ω / 2000) (κ0 : 0 ≤ κ) (κ1 : κ ≤ 10000) (en : |n - N| ≤ 300 * ε * N) (eg : |g - G| ≤ 1050 * ε * G)
    (ex : |x - X| ≤ κ * ε * X) :
    ∃ z, sootMassD F (fin n) (fin 0) (fin g) (fin (-x)) = fin z ∧
      |z - (N + G - X)| ≤ 305 * ε * N + 1055 * ε * G + (κ + 5) * ε * X + 5 * η := by
  have e1 := hε.le
  have e0 := hε.pos
  have n1 : |n| ≤ 1.01 * N := by
    have := abs_sub_abs_le_abs_sub n N
    rw [abs_of_nonneg N0] at this
    have : 300 * ε * N ≤ 0.01 * N := mul_le_mul_of_nonneg_right (by norm_num at e1 ⊢; linarith) N0
    linarith
  have g1 : |g| ≤ 1.01 * G := by
    have := abs_sub_abs_le_abs_sub g G
    rw [abs_of_nonneg G0] at this
    have : 1050 * ε * G ≤ 0.01 * G := mul_le_mul_of_nonneg_right (by norm_num at e1 ⊢; linarith) G0
    linarith
  have x1 : |x| ≤ 1.01 * X := by
    have := abs_sub_abs_le_abs_sub x X
    rw [abs_of_nonneg X0] at this
    have h : κ * ε ≤ 10000 * ε := mul_le_mul_of_nonneg_right κ1 e0
    have : κ * ε * X ≤ 0.01 * X := mul_le_mul_of_nonneg_right (by norm_num at e1 ⊢; linarith) X0
    linarith
  have Ω0 := ho.Ω1
  have η0 := ho.η0
  obtain ⟨z, hz, ez⟩ := FpMass.sum_near hS ho (a := n) (b := 0) (c := g) (d := -x) (by linarith) (by rw [abs_zero]; linarith) (by linarith) (by rw [abs_neg]; linarith)
  refine ⟨z, hz, ?_⟩
  rw [abs_neg, abs_zero] at ez
  have q1 : ε * |n| ≤ ε * (1.01 * N) := mul_le_mul_of_nonneg_left n1 e0
  have q2 : ε * |g| ≤ ε * (1.01 * G) := mul_le_mul_of_nonneg_left g1 e0
  have q3 : ε * |x| ≤ ε * (1.01 * X) := mul_le_mul_of_nonneg_left x1 e0
  have p1 : 0 ≤ ε * N := mul_nonneg e0 N0
  have p2 : 0 ≤ ε * G := mul_nonneg e0 G0
  have p3 : 0 ≤ ε * X := mul_nonneg e0 X0
  rw [abs_le] at en eg ex ez ⊢
  constructor <;> linarith

theorem term_lin (r : GasSp → ℝ) (m k : ℝ) (sp : GasSp) : FpMass.term r m sp - FpMass.term r k sp = (m - k) * FpMass.term r 1 sp := by
  unfold FpMass.term; split_ifs
  · ring
  · ring

theorem term_rel {r : GasSp → ℝ} {n N δ : ℝ} (h : |n - N| ≤ δ * |N|) (sp : GasSp) :
    |FpMass.term r n sp - FpMass.term r N sp| ≤ δ * |FpMass.term r N sp| := by
  rw [term_lin, abs_mul, FpMass.term_abs r N, ← mul_assoc]
  exact mul_le_mul_of_nonneg_right h (abs_nonneg _)

/-- The gas sources. -/
theorem gas_sum {η Ω κ : ℝ} (hS : F.Std ε η Ω) (ho : FpMass.Ok ε η Ω) (hε : Sm ε) {N G X n g x : ℝ} (N0 : 0 ≤ N) (G0 : 0 ≤ G) (X0 : 0 ≤ X)
    (hN : N ≤ Ω / 2000) (hG : G ≤ Ω / 2000) (hX : X ≤ Ω / 2000) (κ1 : κ ≤ 10000) (en : |n - N| ≤ 300 * ε * N) (eg : |g - G| ≤ 1050 * ε * G)
    (ex : |x - X| ≤ κ * ε * X) {rN rG rX : GasSp → ℝ} (sN : FpMass.Stoich rN) (sG : FpMass.Stoich rG) (sX : FpMass.Stoich rX) (sp : GasSp) :
    ∃ z, gasSourcesD F rN rG rX (fin n) (fin g) (fin (-x)) sp = fin z ∧
      |z - (FpMass.term rN N sp + FpMass.term rG G sp + FpMass.term rX (-X) sp)| ≤
        317 * ε * |FpMass.term rN N sp| + 1067 * ε * |FpMass.term rG G sp| + (κ + 17) * ε * |FpMass.term rX (-X) sp| + 39 * η := by
  have e1 := hε.le
  have e0 := hε.pos
  have tn := term_rel (r := rN) (by rwa [abs_of_nonneg N0] : |n - N| ≤ 300 * ε * |N|) sp
  have tg := term_rel (r := rG) (by rwa [abs_of_nonneg G0] : |g - G| ≤ 1050 * ε * |G|) sp
  have tx := term_rel (r := rX) (n := -x) (N := -X) (δ := κ * ε) (by
    rw [abs_neg, abs_of_nonneg X0, show -x - -X = -(x - X) by ring, abs_neg]; exact ex) sp
  have kk : κ * ε ≤ 10000 * ε := mul_le_mul_of_nonneg_right κ1 e0
  have big : ∀ {q Q δ : ℝ}, 0 ≤ Q → |q - Q| ≤ δ * Q → δ ≤ 1 / 100 → Q ≤ Ω / 2000 → |q| ≤ Ω / 1000 := by
    intro q Q δ Q0 h hd hQ
    have := abs_sub_abs_le_abs_sub q Q
    rw [abs_of_nonneg Q0] at this
    have := mul_le_mul_of_nonneg_right hd Q0
    have := ho.Ω1
    linarith
  have b1 := big N0 en (by norm_num at e1 ⊢; linarith) hN
  have b2 := big G0 eg (by norm_num at e1 ⊢; linarith) hG
  have b3 := big X0 ex (by norm_num at e1 ⊢; linarith) hX
  obtain ⟨z, hz, ez⟩ := FpMass.gas_near hS ho sN sG sX b1 b2 (by rw [abs_neg]; exact b3) sp
  refine ⟨z, hz, ?_⟩
  generalize FpMass.term rN n sp = n' at *
  generalize FpMass.term rN N sp = N' at *
  generalize FpMass.term rG g sp = g' at *
  generalize FpMass.term rG G sp = G' at *
  generalize FpMass.term rX (-x) sp = x' at *
  generalize FpMass.term rX (-X) sp = X' at *
  have grow : ∀ {q Q δ : ℝ}, |q - Q| ≤ δ * |Q| → δ ≤ 1 / 100 → ε * |q| ≤ 1.01 * (ε * |Q|) := by
    intro q Q δ h hd
    have := abs_sub_abs_le_abs_sub q Q
    have := mul_le_mul_of_nonneg_right hd (abs_nonneg Q)
    have : |q| ≤ 1.01 * |Q| := by norm_num at *; linarith
    have := mul_le_mul_of_nonneg_left this e0
    linarith
  have g1 := grow tn (by norm_num at e1 ⊢; linarith)
  have g2 := grow tg (by norm_num at e1 ⊢; linarith)
  have g3 := grow tx (by norm_num at e1 ⊢; linarith)
  have p1 : 0 ≤ ε * |N'| := mul_nonneg e0 (abs_nonneg _)
  have p2 : 0 ≤ ε * |G'| := mul_nonneg e0 (abs_nonneg _)
  have p3 : 0 ≤ ε * |X'| := mul_nonneg e0 (abs_nonneg _)
  have ez' : |z - (n' + g' + x')| ≤ 16.2 * (ε * |N'|) + 16.2 * (ε * |G'|) + 16.2 * (ε * |X'|) + 39 * η := by linarith
  have tx' : |x' - X'| ≤ κ * (ε * |X'|) := by rw [← mul_assoc]; exact tx
  have e3 : (κ + 17) * ε * |X'| = κ * (ε * |X'|) + 17 * (ε * |X'|) := by ring
  rw [e3]
  generalize κ * (ε * |X'|) = kx at *
  rw [abs_le] at tn tg tx' ez' ⊢
  constructor <;> linarith

end FpK

end Soot
