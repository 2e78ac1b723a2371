import Verif.Props.FpRate

/-!
# C101: the nucleation, growth and oxidation rates are accurate in floating point
-/

namespace Soot

open Dbl Res
open scoped Classical

namespace FpK

variable {F : Fp} {ε : ℝ}

section

variable (hF : F.Accurate ε) (hε : Sm ε) {s : State} {D : DState} (hp : PairR ε s D)
include hF hε hp

theorem acc_Tc : Acc ε 2 0 6 (s.T * 1.987) (F.mul D.T (F.rnd 1.987)) :=
  (acc_T hF hε hp.toPair).mul hF hε (.lit hF hε (a := 0) (b := 1) (by norm_num) (by norm_num) (by norm_num) (by norm_num)) (by norm_num) (by norm_num) (by norm_num)

theorem acc_RT : Acc ε 4 3 10 (Rg * s.T) (F.mul (F.mul (F.rnd Na) (F.rnd kb)) D.T) :=
  (acc_Rg hF hε).mul hF hε (acc_T hF hε hp.toPair) (by norm_num) (by norm_num) (by norm_num)

theorem acc_sqrtT : Acc ε 1 0 3 (Real.sqrt s.T) (F.sqrt D.T) :=
  (acc_T hF hε hp.toPair).sqrt hF hε 0 3 (by norm_num) (by norm_num) (by norm_num) (by norm_num) (by norm_num)

/-- `k * exp(A / u) * c * n * Na / cMin` -/
theorem acc_nuc {k A q : ℝ} {u : ℝ} {U : Dbl} {j : ℕ} (hk0 : (10 : ℝ) ^ (0 : ℤ) ≤ k) (hk1 : k ≤ (10 : ℝ) ^ (7 : ℤ)) (hq0 : (10 : ℝ) ^ (0 : ℤ) ≤ q)
    (hq1 : q ≤ (10 : ℝ) ^ (1 : ℤ)) (ha : Acc ε j (-40) 0 (Real.exp (A / u)) (arrD F A U)) (hj : j ≤ 500) {c : ℝ} {C : Dbl} (hc : Acc ε 3 (-108) 3 c C)
    (c0 : (10 : ℝ) ^ (0 : ℤ) ≤ s.cMin) (c1 : s.cMin ≤ (10 : ℝ) ^ (6 : ℤ)) :
    Acc ε (j + 11) (-130) 50 (k * Real.exp (A / u) * c * q * Na / s.cMin) (nucRateD F D k A q U C) := by
  have hN : Acc ε 1 26 27 Na (F.rnd Na) := .lit hF hε (by norm_num [Na]) (by norm_num [Na]) (by norm_num) (by norm_num)
  have a1 := (Acc.lit hF hε hk0 hk1 (by norm_num) (by norm_num)).mul hF hε ha (by omega) (by norm_num) (by norm_num)
  have a2 := a1.mul hF hε hc (by omega) (by norm_num) (by norm_num)
  have a3 := a2.mul hF hε (.lit hF hε hq0 hq1 (by norm_num) (by norm_num)) (by omega) (by norm_num) (by norm_num)
  have a4 := a3.mul hF hε hN (by omega) (by norm_num) (by norm_num)
  have a5 : Acc ε 0 0 6 s.cMin D.cMin := hp.cMin ▸ .exact c0 c1
  exact (a4.div hF hε a5 (by omega) (by norm_num) (by norm_num)).mono hε (by omega) (by norm_num) (by norm_num)

omit hp in
theorem lit_C : Acc ε 1 1 2 (gasMW .C) (F.rnd (gasMW .C)) := .lit hF hε (by norm_num [gasMW]) (by norm_num [gasMW]) (by norm_num) (by norm_num)

omit hp in
/-- The surface area of the particles. -/
theorem area_acc {M0 M1 : ℝ} (m00 : (10 : ℝ) ^ (0 : ℤ) ≤ M0) (m01 : M0 ≤ (10 : ℝ) ^ (30 : ℤ)) (m10 : (10 : ℝ) ^ (-30 : ℤ) ≤ M1)
    (m11 : M1 ≤ (10 : ℝ) ^ (3 : ℤ)) : ∃ A, areaMono M0 M1 = ok A ∧ Acc ε 346 (-44) 33 A (areaD F (fin M0) (fin M1)) := by
  have M0p : 0 < M0 := lt_of_lt_of_le (by positivity) m00
  have a1 := (lit_six hF hε).div hF hε (acc_pirho hF hε) (by norm_num) (by norm_num) (by norm_num)
  have a2 := a1.mul hF hε (.exact m10 m11) (by norm_num) (by norm_num) (by norm_num)
  have a3 := a2.div hF hε (.exact m00 m01) (by norm_num) (by norm_num) (by norm_num)
  have a4 := a3.pow hF hε (acc_twothird hF hε) 340 (-44) 1 65 (by norm_num) (by norm_num) (by norm_num [twothird]) (by norm_num) (by norm_num [twothird])
    (by norm_num [twothird]) (by norm_num) (by norm_num)
  have a5 := (lit_pi hF hε).mul hF hε a4 (by norm_num) (by norm_num) (by norm_num)
  have a6 := a5.mul hF hε (.exact m00 m01) (by norm_num) (by norm_num) (by norm_num)
  refine ⟨_, by rw [areaMono, if_pos M0p, cpow_ok a3.pos]; rfl, ?_⟩
  rw [areaD, if_pos (show (fin 0).lt (fin M0) from M0p)]
  exact a6.mono hε (by norm_num) (by norm_num) (by norm_num)

omit hF hp in
theorem pos_lt {n : ℕ} {a b : ℤ} {x : ℝ} {X : Dbl} (h : Acc ε n a b x X) : (fin 0).lt X := by
  obtain ⟨y, rfl, h1, -⟩ := h.val
  exact lt_of_lt_of_le (mul_pos h.pos (hε.pw n)) h1

variable (hE : F.AccurateExp ε)
include hE

theorem grow_acc (x : Ctx) (hx : x.psd ≠ .SECT) {M0 M1 : ℝ} (hv : ∃ t, s.sootVar = M0 :: M1 :: t) (m00 : (10 : ℝ) ^ (0 : ℤ) ≤ M0) (m01 : M0 ≤ (10 : ℝ) ^ (30 : ℤ))
    (m10 : (10 : ℝ) ^ (-30 : ℤ) ≤ M1) (m11 : M1 ≤ (10 : ℝ) ^ (3 : ℤ)) (mech : GrowMech) (hm : mech ∈ [.LL, .LIN, .MB, .FAIR]) (hs : Present s .C2H2) :
    ∃ r R, (Grow.new mech).rate x s = Res.ok r ∧ growRateD F D mech = Res.ok R ∧ Acc ε 700 (-160) 50 r R := by
  have hT := acc_T hF hε hp.toPair
  have hTc := acc_Tc hF hε hp
  have T0 : s.T ≠ 0 := hT.pos.ne'
  have Tc0 : s.T * 1.987 ≠ 0 := hTc.pos.ne'
  have w := hp.warm
  have e1 := acc_arr_neg hF hE hε hT (A := -12100) 12100 (by norm_num) 40.4 81 (-18) (c := 0) (d := 5) (by norm_num) (by norm_num)
    (by norm_num; linarith) (by norm_num) (by norm_num) (by norm_num) (by norm_num) (by norm_num) (by norm_num) (by norm_num) (by norm_num) (by norm_num)
  have e2 := acc_arr_neg hF hE hε hTc (A := -24E3) 24000 (by norm_num) 40.4 162 (-18) (c := 0) (d := 5) (by norm_num) (by norm_num)
    (by norm_num; linarith) (by norm_num) (by norm_num) (by norm_num) (by norm_num) (by norm_num) (by norm_num) (by norm_num) (by norm_num) (by norm_num)
  obtain ⟨c, C, hc, hC, hcC⟩ := acc_gasC hF hε hp hs (by norm_num [gasMW]) (by norm_num [gasMW])
  obtain ⟨t, ht⟩ := hv
  have i0 : idx s.sootVar 0 = ok M0 := by simp [idx, ht]
  have i1 : idx s.sootVar 1 = ok M1 := by simp [idx, ht]
  have j0 : idx D.sootVar 0 = ok (fin M0) := by simp [idx, hp.soot, ht]
  have j1 : idx D.sootVar 1 = ok (fin M1) := by simp [idx, hp.soot, ht]
  have hmom : moments01 x s = ok (M0, M1) := by simp only [moments01, if_neg hx, i0, i1, ok_bind]
  obtain ⟨A, hA, hAA⟩ := area_acc hF hε m00 m01 m10 m11
  have A0 : A > 0 := hAA.pos
  have A1 := pos_lt hε hAA
  simp only [List.mem_cons, List.not_mem_nil, or_false] at hm
  rcases hm with rfl | rfl | rfl | rfl
  · refine ⟨_, _, by simp only [Grow.rate, Grow.new, hmom, hA, ok_bind, if_pos A0, cexpDiv_ok T0, hc]; rfl,
      by simp only [growRateD, j0, j1, ok_bind, if_pos A1, hC]; rfl, ?_⟩
    have a1 := (Acc.lit hF hε (x := 0.6E3) (a := 2) (b := 3) (by norm_num) (by norm_num) (by norm_num) (by norm_num)).mul hF hε e1 (by norm_num) (by norm_num) (by norm_num)
    have a2 := a1.mul hF hε hcC (by norm_num) (by norm_num) (by norm_num)
    have a3 := a2.div hF hε (hAA.sqrt hF hε (-22) 17 (by norm_num) (by norm_num) (by norm_num) (by norm_num) (by norm_num)) (by norm_num) (by norm_num) (by norm_num)
    have a4 := a3.mul hF hε (lit_two hF hε) (by norm_num) (by norm_num) (by norm_num)
    exact (a4.mul hF hε (lit_C hF hε) (by norm_num) (by norm_num) (by norm_num)).mono hε (by norm_num) (by norm_num) (by norm_num)
  · refine ⟨_, _, by simp only [Grow.rate, Grow.new, ok_bind, cexpDiv_ok T0, hc]; rfl, by simp only [growRateD, ok_bind, hC]; rfl, ?_⟩
    have a1 := (Acc.lit hF hε (x := 750) (a := 2) (b := 3) (by norm_num) (by norm_num) (by norm_num) (by norm_num)).mul hF hε e1 (by norm_num) (by norm_num) (by norm_num)
    have a2 := a1.mul hF hε hcC (by norm_num) (by norm_num) (by norm_num)
    have a4 := a2.mul hF hε (lit_two hF hε) (by norm_num) (by norm_num) (by norm_num)
    exact (a4.mul hF hε (lit_C hF hε) (by norm_num) (by norm_num) (by norm_num)).mono hε (by norm_num) (by norm_num) (by norm_num)
  · refine ⟨_, _, by simp only [Grow.rate, Grow.new, hmom, hA, ok_bind, if_pos A0, cexpDiv_ok T0, hc, cpow_ok hcC.pos]; rfl,
      by simp only [growRateD, j0, j1, ok_bind, if_pos A1, hC]; rfl, ?_⟩
    have a0 := hcC.pow hF hε (acc_twothird hF hε) 560 (-72) 2 108 (by norm_num) (by norm_num) (by norm_num [twothird]) (by norm_num) (by norm_num [twothird])
      (by norm_num [twothird]) (by norm_num) (by norm_num)
    have a1 := (Acc.lit hF hε (x := 430) (a := 2) (b := 3) (by norm_num) (by norm_num) (by norm_num) (by norm_num)).mul hF hε a0 (by norm_num) (by norm_num) (by norm_num)
    exact ((a1.mul hF hε e1 (by norm_num) (by norm_num) (by norm_num)).mono hε (by norm_num) (by norm_num) (by norm_num)).of_eq (by norm_num [twothird])
  · refine ⟨_, _, by simp only [Grow.rate, Grow.new, hmom, hA, ok_bind, if_pos A0, cexpDiv_ok Tc0, hc]; rfl,
      by simp only [growRateD, j0, j1, ok_bind, if_pos A1, hC]; rfl, ?_⟩
    have a1 := (Acc.lit hF hε (x := 5E2) (a := 2) (b := 3) (by norm_num) (by norm_num) (by norm_num) (by norm_num)).mul hF hε e2 (by norm_num) (by norm_num) (by norm_num)
    have a2 := a1.mul hF hε hcC (by norm_num) (by norm_num) (by norm_num)
    exact (a2.mul hF hε (lit_C hF hε) (by norm_num) (by norm_num) (by norm_num)).mono hε (by norm_num) (by norm_num) (by norm_num)

theorem nuc_acc (ib : State → ℝ → Res ℝ) (c0 : (10 : ℝ) ^ (0 : ℤ) ≤ s.cMin) (c1 : s.cMin ≤ (10 : ℝ) ^ (6 : ℤ)) (mech : NuclMech)
    (hm : (mech ∈ [.LL, .LIN, .MB, .FAIR] ∧ Present s .C2H2) ∨ (mech = .LINA1 ∧ Present s .C6H6)) :
    ∃ x X, (Nucl.new mech).rate ib s = Res.ok (x, Nucl.new mech, s) ∧ nuclRateD F D mech = Res.ok X ∧ Acc ε 294 (-130) 50 x X := by
  have hT := acc_T hF hε hp.toPair
  have hTc := acc_Tc hF hε hp
  have T0 : s.T ≠ 0 := hT.pos.ne'
  have Tc0 : s.T * 1.987 ≠ 0 := hTc.pos.ne'
  have cM : s.cMin ≠ 0 := (lt_of_lt_of_le (by norm_num) c0).ne'
  have w := hp.warm
  have e1 : Acc ε 143 (-40) 0 _ _ := (acc_arr_neg hF hE hε hT (A := -21100) 21100 (by norm_num) 70.4 142 (-40) (c := 0) (d := 5) (by norm_num) (by norm_num)
    (by norm_num; linarith) (by norm_num) (by norm_num) (by norm_num) (by norm_num) (by norm_num) (by norm_num) (by norm_num) (by norm_num) (by norm_num))
  have e2 : Acc ε 143 (-40) 0 _ _ := (acc_arr_neg hF hE hε hT (A := -21000) 21000 (by norm_num) 70.4 142 (-40) (c := 0) (d := 5) (by norm_num) (by norm_num)
    (by norm_num; linarith) (by norm_num) (by norm_num) (by norm_num) (by norm_num) (by norm_num) (by norm_num) (by norm_num) (by norm_num) (by norm_num))
  have e3 : Acc ε 283 (-40) 0 _ _ := (acc_arr_neg hF hE hε hTc (A := -41E3) 41000 (by norm_num) 70.4 282 (-40) (c := 0) (d := 5) (by norm_num) (by norm_num)
    (by norm_num; linarith) (by norm_num) (by norm_num) (by norm_num) (by norm_num) (by norm_num) (by norm_num) (by norm_num) (by norm_num) (by norm_num))
  rcases hm with ⟨hm, hs⟩ | ⟨rfl, hs⟩
  · obtain ⟨c, C, hc, hC, hcC⟩ := acc_gasC hF hε hp hs (by norm_num [gasMW]) (by norm_num [gasMW])
    simp only [List.mem_cons, List.not_mem_nil, or_false] at hm
    rcases hm with rfl | rfl | rfl | rfl
    · refine ⟨_, _, by simp only [Nucl.rate, Nucl.new, cexpDiv_ok T0, hc, ok_bind, cdiv_ok cM]; rfl, by simp only [nuclRateD, hC, ok_bind]; rfl, ?_⟩
      exact (acc_nuc hF hε hp (k := 0.1E5) (q := 2) (by norm_num) (by norm_num) (by norm_num) (by norm_num) e1 (by norm_num) hcC c0 c1).mono hε (by norm_num) le_rfl le_rfl
    · refine ⟨_, _, by simp only [Nucl.rate, Nucl.new, cexpDiv_ok T0, hc, ok_bind, cdiv_ok cM]; rfl, by simp only [nuclRateD, hC, ok_bind]; rfl, ?_⟩
      exact (acc_nuc hF hε hp (k := 0.63E4) (q := 2) (by norm_num) (by norm_num) (by norm_num) (by norm_num) e1 (by norm_num) hcC c0 c1).mono hε (by norm_num) le_rfl le_rfl
    · refine ⟨_, _, by simp only [Nucl.rate, Nucl.new, cexpDiv_ok T0, hc, ok_bind]; rfl, by simp only [nuclRateD, hC, ok_bind]; rfl, ?_⟩
      have hN : Acc ε 1 26 27 Na (F.rnd Na) := .lit hF hε (by norm_num [Na]) (by norm_num [Na]) (by norm_num) (by norm_num)
      have a1 := (Acc.lit hF hε (x := 54) (a := 0) (b := 2) (by norm_num) (by norm_num) (by norm_num) (by norm_num)).mul hF hε hN (by norm_num) (by norm_num) (by norm_num)
      have a2 := a1.mul hF hε hcC (by norm_num) (by norm_num) (by norm_num)
      exact (a2.mul hF hε e2 (by norm_num) (by norm_num) (by norm_num)).mono hε (by norm_num) (by norm_num) (by norm_num)
    · refine ⟨_, _, by simp only [Nucl.rate, Nucl.new, cexpDiv_ok Tc0, hc, ok_bind, cdiv_ok cM]; rfl, by simp only [nuclRateD, hC, ok_bind]; rfl, ?_⟩
      exact (acc_nuc hF hε hp (k := 1.35E6) (q := 2) (by norm_num) (by norm_num) (by norm_num) (by norm_num) e3 (by norm_num) hcC c0 c1).mono hε (by norm_num) le_rfl le_rfl
  · obtain ⟨c, C, hc, hC, hcC⟩ := acc_gasC hF hε hp hs (by norm_num [gasMW]) (by norm_num [gasMW])
    refine ⟨_, _, by simp only [Nucl.rate, Nucl.new, cexpDiv_ok T0, hc, ok_bind, cdiv_ok cM]; rfl, by simp only [nuclRateD, hC, ok_bind]; rfl, ?_⟩
    exact (acc_nuc hF hε hp (k := 0.75E5) (q := 6) (by norm_num) (by norm_num) (by norm_num) (by norm_num) e1 (by norm_num) hcC c0 c1).mono hε (by norm_num) le_rfl le_rfl

omit hE in
/-- `k * p / sqrt(T) * exp(A / T) / 1000` -/
theorem acc_o2 {k A p : ℝ} {P : Dbl} {j m : ℕ} (hk0 : (10 : ℝ) ^ (-1 : ℤ) ≤ k) (hk1 : k ≤ (10 : ℝ) ^ (5 : ℤ))
    (ha : Acc ε j (-40) 0 (Real.exp (A / s.T)) (arrD F A D.T)) (hj : j ≤ 200) (hP : Acc ε m (-123) 25 p P) (hm : m ≤ 12) :
    Acc ε 220 (-180) 45 (k * p / Real.sqrt s.T * Real.exp (A / s.T) / 1000) (o2RateD F D k A P) := by
  have a1 := (Acc.lit hF hε hk0 hk1 (by norm_num) (by norm_num)).mul hF hε hP (by omega) (by norm_num) (by norm_num)
  have a2 := a1.div hF hε (acc_sqrtT hF hε hp) (by omega) (by norm_num) (by norm_num)
  have a3 := a2.mul hF hε ha (by omega) (by norm_num) (by norm_num)
  exact (a3.div hF hε (.lit hF hε (x := 1000) (a := 3) (b := 3) (by norm_num) (by norm_num) (by norm_num) (by norm_num)) (by omega) (by norm_num) (by norm_num)).mono hε (by omega) (by norm_num) (by norm_num)

omit hE in
/-- `coef*[OH]*sqrt(Rg*T/(2*pi*MW_OH))*MW_C` -/
theorem acc_oh (hs : Present s .OH) {k : ℝ} (hk0 : (10 : ℝ) ^ (-1 : ℤ) ≤ k) (hk1 : k ≤ (10 : ℝ) ^ (0 : ℤ)) :
    ∃ r R, ohRate k s = ok r ∧ ohRateD F D k = ok R ∧ Acc ε 20 (-118) 20 r R := by
  obtain ⟨c, C, hc, hC, hcC⟩ := acc_gasC hF hε hp hs (by norm_num [gasMW]) (by norm_num [gasMW])
  have b1 := (lit_two hF hε).mul hF hε (lit_pi hF hε) (by norm_num) (by norm_num) (by norm_num)
  have b2 := b1.mul hF hε (.lit hF hε (x := gasMW .OH) (a := 1) (b := 2) (by norm_num [gasMW]) (by norm_num [gasMW]) (by norm_num) (by norm_num)) (by norm_num) (by norm_num) (by norm_num)
  have b3 := (acc_RT hF hε hp).div hF hε b2 (by norm_num) (by norm_num) (by norm_num)
  have b4 := b3.sqrt hF hε (-3) 6 (by norm_num) (by norm_num) (by norm_num) (by norm_num) (by norm_num)
  have a1 := (Acc.lit hF hε hk0 hk1 (by norm_num) (by norm_num)).mul hF hε hcC (by norm_num) (by norm_num) (by norm_num)
  have a2 := a1.mul hF hε b4 (by norm_num) (by norm_num) (by norm_num)
  have a3 := a2.mul hF hε (lit_C hF hε) (by norm_num) (by norm_num) (by norm_num)
  refine ⟨_, _, by rw [ohRate, hc, ok_bind, csqrt_ok b3.pos.le]; rfl, by rw [ohRateD, hC]; rfl, ?_⟩
  exact a3.mono hε (by norm_num) (by norm_num) (by norm_num)

theorem oxid_acc (x : Ctx) (hx : x.psd ≠ .SECT) (h2 : 2 ≤ s.sootVar.length) (o : Oxid)
    (hm : o.cls ∈ [.LL, .FAIR, .LEE_NEOH, .OPTJ, .OPTG, .MB, .BROWN, .AJ_RED]) (hs : Present s .O2) (hs2 : Present s .OH) :
    ∃ r R, o.rate x s = Res.ok r ∧ oxidRateD F D o.cls = Res.ok R ∧ Acc ε 450 (-200) 50 r R := by
  have hT := acc_T hF hε hp.toPair
  have hTc := acc_Tc hF hε hp
  have hRT := acc_RT hF hε hp
  have hr := acc_sqrtT hF hε hp
  have T0 : s.T ≠ 0 := hT.pos.ne'
  have Tc0 : s.T * 1.987 ≠ 0 := hTc.pos.ne'
  have RT0 : Rg * s.T ≠ 0 := hRT.pos.ne'
  have w := hp.warm
  have wR : 8314 * s.T ≤ Rg * s.T := mul_le_mul_of_nonneg_right (by norm_num [Rg, Na, kb]) hT.pos.le
  obtain ⟨c, C, hc, hC, hcC⟩ := acc_gasC hF hε hp hs (by norm_num [gasMW]) (by norm_num [gasMW])
  obtain ⟨c', C', hc', hC', hcC'⟩ := acc_gasC hF hε hp hs2 (by norm_num [gasMW]) (by norm_num [gasMW])
  obtain ⟨p, P, hP, hP', hPP⟩ := acc_gasP hF hε hp hs (by norm_num [gasMW]) (by norm_num [gasMW])
  obtain ⟨p2, P2, hP2, hP2', hPP2⟩ := acc_gasP hF hε hp hs2 (by norm_num [gasMW]) (by norm_num [gasMW])
  have hsq := csqrt_ok hT.pos.le
  have r0 := hr.pos.ne'
  rcases o with ⟨cls, mt⟩
  simp only [List.mem_cons, List.not_mem_nil, or_false] at hm
  rcases hm with rfl | rfl | rfl | rfl | rfl | rfl | rfl | rfl
  · have e := acc_arr_neg hF hE hε hT (A := -19680) 19680 (by norm_num) 65.7 132 (-29) (c := 0) (d := 5) (by norm_num) (by norm_num)
      (by norm_num; linarith) (by norm_num) (by norm_num) (by norm_num) (by norm_num) (by norm_num) (by norm_num) (by norm_num) (by norm_num) (by norm_num)
    refine ⟨_, _, by simp only [Oxid.rate, hsq, ok_bind, cexpDiv_ok T0, hc]; rfl, by simp only [oxidRateD, ok_bind, hC]; rfl, ?_⟩
    have a1 := (Acc.lit hF hε (x := 0.1E5) (a := 4) (b := 4) (by norm_num) (by norm_num) (by norm_num) (by norm_num)).mul hF hε hr (by norm_num) (by norm_num) (by norm_num)
    have a2 := a1.mul hF hε e (by norm_num) (by norm_num) (by norm_num)
    have a3 := a2.mul hF hε hcC (by norm_num) (by norm_num) (by norm_num)
    exact (a3.mul hF hε (lit_C hF hε) (by norm_num) (by norm_num) (by norm_num)).mono hε (by norm_num) (by norm_num) (by norm_num)
  · have e := acc_arr_pos hF hE hε hTc 39E3 65.5 263 29 (c := 0) (d := 5) (by norm_num) (by norm_num)
      (by norm_num; linarith) (by norm_num) (by norm_num) (by norm_num) (by norm_num) (by norm_num) (by norm_num) (by norm_num) (by norm_num) (by norm_num)
    refine ⟨_, _, by simp only [Oxid.rate, hsq, ok_bind, cexpDiv_ok Tc0, hc]; rfl, by simp only [oxidRateD, ok_bind, hC]; rfl, ?_⟩
    have a1 := (Acc.lit hF hε (x := 1.78E4) (a := 4) (b := 5) (by norm_num) (by norm_num) (by norm_num) (by norm_num)).mul hF hε hr (by norm_num) (by norm_num) (by norm_num)
    have a2 := a1.mul hF hε e (by norm_num) (by norm_num) (by norm_num)
    exact (a2.mul hF hε hcC (by norm_num) (by norm_num) (by norm_num)).mono hε (by norm_num) (by norm_num) (by norm_num)
  · have e := acc_arr_neg hF hE hε hT (A := -1.977824E4) 1.977824E4 (by norm_num) 66 133 (-30) (c := 0) (d := 5) (by norm_num) (by norm_num)
      (by norm_num; linarith) (by norm_num) (by norm_num) (by norm_num) (by norm_num) (by norm_num) (by norm_num) (by norm_num) (by norm_num) (by norm_num)
    obtain ⟨oh, OH, h1, h2, h3⟩ := acc_oh hF hε hp hs2 (k := 0.13) (by norm_num) (by norm_num)
    have q := hPP.div hF hε (Acc.lit hF hε (x := 101325) (a := 5) (b := 6) (by norm_num) (by norm_num) (by norm_num) (by norm_num)) (by norm_num) (by norm_num) (by norm_num)
    have g := acc_o2 hF hε hp (k := 1.085E4) (by norm_num) (by norm_num) (e.mono hε le_rfl (by norm_num) (by norm_num)) (by norm_num) (q.mono hε le_rfl (by norm_num) (by norm_num)) (by norm_num)
    refine ⟨_, _, by simp only [Oxid.rate, hP, hsq, ok_bind, cexpDiv_ok T0, cdiv_ok r0, h1]; rfl, by simp only [oxidRateD, ok_bind, hP', h2]; rfl, ?_⟩
    exact (g.add hF hε h3 220 (-180) 46 (by norm_num) (by norm_num) (by norm_num) (by norm_num) (by norm_num) (by norm_num) (by norm_num) (by norm_num)).mono hε (by norm_num) (by norm_num) (by norm_num)
  · have e := acc_arr_neg hF hE hε hT (A := -2.1294E4) 2.1294E4 (by norm_num) 71 143 (-32) (c := 0) (d := 5) (by norm_num) (by norm_num)
      (by norm_num; linarith) (by norm_num) (by norm_num) (by norm_num) (by norm_num) (by norm_num) (by norm_num) (by norm_num) (by norm_num) (by norm_num)
    obtain ⟨oh, OH, h1, h2, h3⟩ := acc_oh hF hε hp hs2 (k := 0.15) (by norm_num) (by norm_num)
    have q := hPP
    have g := acc_o2 hF hε hp (k := 0.798) (by norm_num) (by norm_num) (e.mono hε le_rfl (by norm_num) (by norm_num)) (by norm_num) (q.mono hε le_rfl (by norm_num) (by norm_num)) (by norm_num)
    refine ⟨_, _, by simp only [Oxid.rate, hP, hsq, ok_bind, cexpDiv_ok T0, cdiv_ok r0, h1]; rfl, by simp only [oxidRateD, ok_bind, hP', h2]; rfl, ?_⟩
    exact (g.add hF hε h3 220 (-180) 46 (by norm_num) (by norm_num) (by norm_num) (by norm_num) (by norm_num) (by norm_num) (by norm_num) (by norm_num)).mono hε (by norm_num) (by norm_num) (by norm_num)
  · have e := acc_arr_neg hF hE hε hT (A := -2.345E4) 2.345E4 (by norm_num) 78.3 157 (-35) (c := 0) (d := 5) (by norm_num) (by norm_num)
      (by norm_num; linarith) (by norm_num) (by norm_num) (by norm_num) (by norm_num) (by norm_num) (by norm_num) (by norm_num) (by norm_num) (by norm_num)
    obtain ⟨oh, OH, h1, h2, h3⟩ := acc_oh hF hε hp hs2 (k := 0.1) (by norm_num) (by norm_num)
    have q := hPP
    have g := acc_o2 hF hε hp (k := 15.8) (by norm_num) (by norm_num) (e.mono hε le_rfl (by norm_num) (by norm_num)) (by norm_num) (q.mono hε le_rfl (by norm_num) (by norm_num)) (by norm_num)
    refine ⟨_, _, by simp only [Oxid.rate, hP, hsq, ok_bind, cexpDiv_ok T0, cdiv_ok r0, h1]; rfl, by simp only [oxidRateD, ok_bind, hP', h2]; rfl, ?_⟩
    exact (g.add hF hε h3 220 (-180) 46 (by norm_num) (by norm_num) (by norm_num) (by norm_num) (by norm_num) (by norm_num) (by norm_num) (by norm_num)).mono hε (by norm_num) (by norm_num) (by norm_num)
  · obtain ⟨M0, M1, t, ht⟩ : ∃ M0 M1 t, s.sootVar = M0 :: M1 :: t := by
      rcases hl : s.sootVar with _ | ⟨M0, _ | ⟨M1, t⟩⟩ <;> simp [hl] at h2 ⊢
    have i0 : idx s.sootVar 0 = ok M0 := by simp [idx, ht]
    have i1 : idx s.sootVar 1 = ok M1 := by simp [idx, ht]
    have j0 : idx D.sootVar 0 = ok (fin M0) := by simp [idx, hp.soot, ht]
    have j1 : idx D.sootVar 1 = ok (fin M1) := by simp [idx, hp.soot, ht]
    have hmom : moments01 x s = ok (M0, M1) := by simp only [moments01, if_neg hx, i0, i1, ok_bind]
    refine ⟨_, _, by simp only [Oxid.rate, hmom, hsq, ok_bind, hc']; rfl, by simp only [oxidRateD, ok_bind, j0, j1, hC']; rfl, ?_⟩
    have a1 := (Acc.lit hF hε (x := 4.2325) (a := 0) (b := 1) (by norm_num) (by norm_num) (by norm_num) (by norm_num)).mul hF hε hcC' (by norm_num) (by norm_num) (by norm_num)
    exact (a1.mul hF hε hr (by norm_num) (by norm_num) (by norm_num)).mono hε (by norm_num) (by norm_num) (by norm_num)
  · have e := acc_arr_neg hF hE hε hRT (A := -1.645E8) 1.645E8 (by norm_num) 66 397 (-30) (c := 0) (d := 9) (by norm_num) (by norm_num)
      (by norm_num; linarith) (by norm_num) (by norm_num) (by norm_num) (by norm_num) (by norm_num) (by norm_num) (by norm_num) (by norm_num) (by norm_num)
    refine ⟨_, _, by simp only [Oxid.rate, hP, hsq, ok_bind, cexpDiv_ok RT0, cdiv_ok r0]; rfl, by simp only [oxidRateD, ok_bind, hP']; rfl, ?_⟩
    have a1 := hPP.div hF hε hr (by norm_num) (by norm_num) (by norm_num)
    have a2 := (Acc.lit hF hε (x := 1.09E5) (a := 5) (b := 6) (by norm_num) (by norm_num) (by norm_num) (by norm_num)).div hF hε (Acc.lit hF hε (x := 101325) (a := 5) (b := 6) (by norm_num) (by norm_num) (by norm_num) (by norm_num)) (by norm_num) (by norm_num) (by norm_num)
    have a3 := a1.mul hF hε a2 (by norm_num) (by norm_num) (by norm_num)
    exact (a3.mul hF hε e (by norm_num) (by norm_num) (by norm_num)).mono hε (by norm_num) (by norm_num) (by norm_num)
  · have e := acc_arr_neg hF hE hε hRT (A := -1.16E5) 1.16E5 (by norm_num) 0.1 1 (-1) (c := 0) (d := 9) (by norm_num) (by norm_num)
      (by norm_num; linarith) (by norm_num) (by norm_num) (by norm_num) (by norm_num) (by norm_num) (by norm_num) (by norm_num) (by norm_num) (by norm_num)
    refine ⟨_, _, by simp only [Oxid.rate, hP, hP2, hsq, ok_bind, cexpDiv_ok RT0, cdiv_ok r0]; rfl, by simp only [oxidRateD, ok_bind, hP', hP2']; rfl, ?_⟩
    have a1 := (Acc.lit hF hε (x := 1) (a := 0) (b := 0) (by norm_num) (by norm_num) (by norm_num) (by norm_num)).div hF hε hr (by norm_num) (by norm_num) (by norm_num)
    have a2 := (Acc.lit hF hε (x := 1.92E-3) (a := -3) (b := -2) (by norm_num) (by norm_num) (by norm_num) (by norm_num)).mul hF hε hPP (by norm_num) (by norm_num) (by norm_num)
    have a3 := a2.mul hF hε e (by norm_num) (by norm_num) (by norm_num)
    have a4 := (Acc.lit hF hε (x := 2.93E-3) (a := -3) (b := -2) (by norm_num) (by norm_num) (by norm_num) (by norm_num)).mul hF hε hPP2 (by norm_num) (by norm_num) (by norm_num)
    have a5 := a3.add hF hε a4 20 (-121) 30 (by norm_num) (by norm_num) (by norm_num) (by norm_num) (by norm_num) (by norm_num) (by norm_num) (by norm_num)
    exact (a1.mul hF hε a5 (by norm_num) (by norm_num) (by norm_num)).mono hε (by norm_num) (by norm_num) (by norm_num)

end

end FpK

end Soot
