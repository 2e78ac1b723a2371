import Verif.Props.FpNsc

/-!
# C101: the nucleation, growth and oxidation rates are accurate in floating point

`Usual` (FpKernelAcc.lean) bounds the scalar arguments of `setState`.  The rates are compared with the exact ones of `Mech.lean`, whose formulas are
pinned by C66 and C67.
-/

namespace Soot

open Dbl Res
open scoped Classical

/-- The species has a mass fraction that is not vanishingly small. -/
def Contains (a : SetArgs) (sp : GasSp) : Prop := ∃ y, a.yGas[sp.toNat]? = some y ∧ (10 : ℝ) ^ (-100 : ℤ) ≤ y ∧ y ≤ 1

/-- Moments of a usual size: between 1 and `10^30` particles and between `10^-30` and `10^3` kg per cubic metre. -/
def UsualMoments (a : SetArgs) : Prop :=
  ∃ M0 M1 t, a.sootVar = M0 :: M1 :: t ∧ 1 ≤ M0 ∧ M0 ≤ 10 ^ 30 ∧ (10 : ℝ) ^ (-30 : ℤ) ≤ M1 ∧ M1 ≤ 10 ^ 3

namespace FpK

variable {F : Fp} {ε : ℝ}

theorem pairR_of (hF : F.Accurate ε) (hε : Sm ε) {s₀ : State} {a : SetArgs} (hs : (setState s₀ a).2 = Res.ok ())
    (hD : (setStateD F s₀.toD a.toD).2 = Res.ok ()) (hu : Usual a) (hT : 300 ≤ a.T) :
    PairR ε (setState s₀ a).1 (setStateD F s₀.toD a.toD).1 ∧ (setState s₀ a).1.yGas = a.yGas ∧ (setState s₀ a).1.sootVar = a.sootVar.map (max · 0) ∧
      (setState s₀ a).1.cMin = a.cMin ∧ (setState s₀ a).1.T = a.T := by
  have hp := pair_of hF hε hs hD hu
  obtain ⟨r1, r2⟩ := setState_ok_range hs
  have adm := (C01_setState_iff s₀ a r1 r2).1 hs
  have e := C01_setState_accepts s₀ a r1 r2 adm
  have eD := (C77_accepts_iff F s₀.toD a.toD (by simpa [State.toD, SetArgs.toD] using r1) (by simpa [State.toD, SetArgs.toD] using r2)).2 hD
  rw [eD, e] at hp ⊢
  refine ⟨⟨hp, rfl, rfl, rfl, ?_, ?_, ?_, hT⟩, rfl, rfl, rfl, rfl⟩
  · show List.map _ (a.sootVar.map fin) = List.map fin (List.map _ _)
    rw [List.map_map, List.map_map]
    apply List.map_congr_left
    intro x _
    simp only [Function.comp]
    by_cases h : x < 0
    · rw [if_pos (show (fin x).lt (fin 0) from h), max_eq_right h.le]
    · rw [if_neg (show ¬ (fin x).lt (fin 0) from h), max_eq_left (not_lt.1 h)]
  · show (10 : ℝ) ^ (-2 : ℤ) ≤ a.P
    have := hu.P0; norm_num at this ⊢; linarith
  · show a.P ≤ (10 : ℝ) ^ (10 : ℤ)
    have := hu.P1; norm_num at this ⊢; linarith

theorem moments_of {a : SetArgs} (h : UsualMoments a) : ∃ M0 M1 t, a.sootVar.map (max · 0) = M0 :: M1 :: t ∧ (10 : ℝ) ^ (0 : ℤ) ≤ M0 ∧ M0 ≤ (10 : ℝ) ^ (30 : ℤ) ∧
    (10 : ℝ) ^ (-30 : ℤ) ≤ M1 ∧ M1 ≤ (10 : ℝ) ^ (3 : ℤ) := by
  obtain ⟨M0, M1, t, e, h1, h2, h3, h4⟩ := h
  have p : (0 : ℝ) < 10 ^ (-30 : ℤ) := by positivity
  have q : (0 : ℝ) ≤ M1 := by linarith
  refine ⟨M0, M1, t.map (max · 0), ?_, by simpa using h1, ?_, h3, ?_⟩
  · rw [e, List.map_cons, List.map_cons, max_eq_left (by linarith : 0 ≤ M0), max_eq_left q]
  · norm_num at h2 ⊢; linarith
  · norm_num at h4 ⊢; linarith

end FpK

open FpK

/-! ## C101 -/

/-- **C101 (nucleation).** For every arithmetic with relative error `ε`: after a call of `setState` with arguments of a usual size at 300 K or more, the
computed nucleation rate of the acetylene and benzene mechanisms has a relative error of at most `295 ε`. -/
theorem C101_nucleation (F : Fp) (ε : ℝ) (hF : F.Accurate ε) (hE : F.AccurateExp ε) (ε0 : 0 ≤ ε) (ε1 : ε ≤ 1 / 10 ^ 8) (s₀ : State) (a : SetArgs)
    (hs : (setState s₀ a).2 = Res.ok ()) (hD : (setStateD F s₀.toD a.toD).2 = Res.ok ()) (hu : Usual a) (hT : 300 ≤ a.T) (c0 : 1 ≤ a.cMin)
    (c1 : a.cMin ≤ 10 ^ 6) (ib : State → ℝ → Res ℝ) (mech : NuclMech)
    (hm : (mech ∈ [.LL, .LIN, .MB, .FAIR] ∧ Contains a .C2H2) ∨ (mech = .LINA1 ∧ Contains a .C6H6)) :
    ∃ x x' : ℝ, (Nucl.new mech).rate ib (setState s₀ a).1 = Res.ok (x, Nucl.new mech, (setState s₀ a).1) ∧ 0 < x ∧
      nuclRateD F (setStateD F s₀.toD a.toD).1 mech = Res.ok (fin x') ∧ |x' - x| ≤ 295 * ε * x := by
  have hε : Sm ε := ⟨ε0, ε1⟩
  obtain ⟨hp, eg, -, ec, -⟩ := pairR_of hF hε hs hD hu hT
  have hm' : (mech ∈ [.LL, .LIN, .MB, .FAIR] ∧ Present (setState s₀ a).1 .C2H2) ∨ (mech = .LINA1 ∧ Present (setState s₀ a).1 .C6H6) := by
    simpa only [Present, eg, Contains] using hm
  obtain ⟨x, X, h1, h2, h3⟩ := nuc_acc hF hε hp hE ib (by rw [ec]; simpa using c0) (by rw [ec]; norm_num at c1 ⊢; exact c1) mech hm'
  obtain ⟨y, rfl, e⟩ := h3.final (N := 295) hε (by norm_num) (by norm_num)
  exact ⟨x, y, h1, h3.pos, h2, by exact_mod_cast e⟩

/-- **C101 (growth).** Likewise for the growth rate of the mechanisms other than HACA with a model that stores moments. -/
theorem C101_growth (F : Fp) (ε : ℝ) (hF : F.Accurate ε) (hE : F.AccurateExp ε) (ε0 : 0 ≤ ε) (ε1 : ε ≤ 1 / 10 ^ 8) (s₀ : State) (a : SetArgs)
    (hs : (setState s₀ a).2 = Res.ok ()) (hD : (setStateD F s₀.toD a.toD).2 = Res.ok ()) (hu : Usual a) (hT : 300 ≤ a.T) (hM : UsualMoments a) (c : Ctx)
    (hc : c.psd ≠ .SECT) (mech : GrowMech) (hm : mech ∈ [.LL, .LIN, .MB, .FAIR]) (hy : Contains a .C2H2) :
    ∃ x x' : ℝ, (Grow.new mech).rate c (setState s₀ a).1 = Res.ok x ∧ 0 < x ∧
      growRateD F (setStateD F s₀.toD a.toD).1 mech = Res.ok (fin x') ∧ |x' - x| ≤ 701 * ε * x := by
  have hε : Sm ε := ⟨ε0, ε1⟩
  obtain ⟨hp, eg, es, -⟩ := pairR_of hF hε hs hD hu hT
  obtain ⟨M0, M1, t, hv, m00, m01, m10, m11⟩ := moments_of hM
  obtain ⟨x, X, h1, h2, h3⟩ := grow_acc hF hε hp hE c hc ⟨t, es.trans hv⟩ m00 m01 m10 m11 mech hm (by simpa only [Present, eg, Contains] using hy)
  obtain ⟨y, rfl, e⟩ := h3.final (N := 701) hε (by norm_num) (by norm_num)
  exact ⟨x, y, h1, h3.pos, h2, by exact_mod_cast e⟩

/-- **C101 (oxidation).** Likewise for the oxidation rate of the mechanisms other than HACA and NSC_NEOH. -/
theorem C101_oxidation (F : Fp) (ε : ℝ) (hF : F.Accurate ε) (hE : F.AccurateExp ε) (ε0 : 0 ≤ ε) (ε1 : ε ≤ 1 / 10 ^ 8) (s₀ : State) (a : SetArgs)
    (hs : (setState s₀ a).2 = Res.ok ()) (hD : (setStateD F s₀.toD a.toD).2 = Res.ok ()) (hu : Usual a) (hT : 300 ≤ a.T) (hM : 2 ≤ a.sootVar.length) (c : Ctx)
    (hc : c.psd ≠ .SECT) (o : Oxid) (hm : o.cls ∈ [.LL, .FAIR, .LEE_NEOH, .OPTJ, .OPTG, .MB, .BROWN, .AJ_RED]) (hy : Contains a .O2) (hz : Contains a .OH) :
    ∃ x x' : ℝ, o.rate c (setState s₀ a).1 = Res.ok x ∧ 0 < x ∧
      oxidRateD F (setStateD F s₀.toD a.toD).1 o.cls = Res.ok (fin x') ∧ |x' - x| ≤ 451 * ε * x := by
  have hε : Sm ε := ⟨ε0, ε1⟩
  obtain ⟨hp, eg, es, -⟩ := pairR_of hF hε hs hD hu hT
  obtain ⟨x, X, h1, h2, h3⟩ := oxid_acc hF hε hp hE c hc (by rw [es, List.length_map]; exact hM) o hm (by simpa only [Present, eg, Contains] using hy)
    (by simpa only [Present, eg, Contains] using hz)
  obtain ⟨y, rfl, e⟩ := h3.final (N := 451) hε (by norm_num) (by norm_num)
  exact ⟨x, y, h1, h3.pos, h2, by exact_mod_cast e⟩

/-- **C101 (NSC_NEOH).** The Nagle--Strickland-Constable rate contains the difference `1 - x`.  Its error is at most `(610 + 20 r) ε`, where `r` bounds
the ratio of the rate constants of the two kinds of sites, `kB (1 + kz p) ≤ r kA`. -/
theorem C101_nsc (F : Fp) (ε : ℝ) (hF : F.Accurate ε) (hE : F.AccurateExp ε) (hS : F.Std ε (ε * 10 ^ (-250 : ℤ)) (10 ^ (300 : ℤ))) (ε0 : 0 ≤ ε)
    (ε1 : ε ≤ 1 / 10 ^ 8) (s₀ : State) (a : SetArgs) (hs : (setState s₀ a).2 = Res.ok ()) (hD : (setStateD F s₀.toD a.toD).2 = Res.ok ()) (hu : Usual a)
    (hT : 300 ≤ a.T) (c : Ctx) (o : Oxid) (ho : o.cls = .NSC_NEOH) (hy : Contains a .O2) (hz : Contains a .OH) (p : ℝ)
    (hp : (setState s₀ a).1.gasP .O2 = Res.ok (p * 101325)) (p0 : 1 / 10 ^ 20 ≤ p) (r : ℕ) (r0 : 1 ≤ r) (r1 : r ≤ 400)
    (hr : 4.46E-3 * Real.exp (-7650 / a.T) * (1 + 21.3 * Real.exp (2063 / a.T) * p) ≤ r * (20 * Real.exp (-15098 / a.T))) :
    ∃ x x' : ℝ, o.rate c (setState s₀ a).1 = Res.ok x ∧ 0 < x ∧
      oxidRateD F (setStateD F s₀.toD a.toD).1 o.cls = Res.ok (fin x') ∧ |x' - x| ≤ (610 + 20 * r) * ε * x := by
  have hε : Sm ε := ⟨ε0, ε1⟩
  obtain ⟨hp', eg, -, -, eT⟩ := pairR_of hF hε hs hD hu hT
  obtain ⟨x, X, h1, h2, h3⟩ := nsc_acc hF hε hE hS hp' c o ho (by simpa only [Present, eg, Contains] using hy)
    (by simpa only [Present, eg, Contains] using hz) hp (by norm_num at p0 ⊢; linarith) r r0 r1
    (by rw [eT, mul_div_cancel_right₀ p (by norm_num : (101325 : ℝ) ≠ 0)]; exact hr)
  obtain ⟨y, rfl, e⟩ := h3.final (N := 610 + 20 * r) hε (by omega) (by
    push_cast
    have : (r : ℝ) ≤ 400 := by exact_mod_cast r1
    have : (1 : ℝ) ≤ r := by exact_mod_cast r0
    norm_num
    linarith)
  exact ⟨x, y, h1, h3.pos, h2, by push_cast at e; exact e⟩

theorem exp_ratio_le {T w : ℝ} (hT : 1000 ≤ T) (k n : ℕ) (hk : k ≠ 0) (hw : w * k ≤ 1000 * n) (B : ℝ) (B0 : 0 ≤ B)
    (h : (2.7182818286 : ℝ) ^ n ≤ B ^ k) : Real.exp (w / T) ≤ B := by
  have T0 : 0 < T := by linarith
  have e1 : Real.exp 1 ≤ 2.7182818286 := Real.exp_one_lt_d9.le
  refine (pow_le_pow_iff_left₀ (Real.exp_pos _).le B0 hk).1 ?_
  rw [← Real.exp_nat_mul]
  refine le_trans ?_ h
  have : (k : ℝ) * (w / T) ≤ n := by
    rw [← mul_div_assoc, div_le_iff₀ T0]
    have : (n : ℝ) * 1000 ≤ n * T := mul_le_mul_of_nonneg_left hT (Nat.cast_nonneg n)
    linarith
  calc Real.exp (k * (w / T)) ≤ Real.exp n := Real.exp_le_exp.2 this
    _ = Real.exp 1 ^ n := by rw [← Real.exp_nat_mul, mul_one]
    _ ≤ _ := pow_le_pow_left₀ (Real.exp_pos _).le e1 n

/-- The ratio is small at the temperatures of a flame: at 1000 K or more and up to one atmosphere of oxygen it is at most 75. -/
theorem C101_nsc_ratio (T p : ℝ) (hT : 1000 ≤ T) (p0 : 0 ≤ p) (hp : p ≤ 1) :
    4.46E-3 * Real.exp (-7650 / T) * (1 + 21.3 * Real.exp (2063 / T) * p) ≤ (75 : ℕ) * (20 * Real.exp (-15098 / T)) := by
  have e1 : Real.exp (-7650 / T) = Real.exp (7448 / T) * Real.exp (-15098 / T) := by rw [← Real.exp_add]; congr 1; ring
  have h1 : Real.exp (7448 / T) ≤ 1810 := exp_ratio_le hT 2 15 (by norm_num) (by norm_num) _ (by norm_num) (by norm_num)
  have h2 : Real.exp (2063 / T) ≤ 8.2 := exp_ratio_le hT 10 21 (by norm_num) (by norm_num) _ (by norm_num) (by norm_num)
  have h3 := mul_le_mul h2 hp p0 (by norm_num)
  have z0 : 0 ≤ Real.exp (2063 / T) * p := mul_nonneg (Real.exp_pos _).le p0
  have h4 := mul_le_mul h1 (show 1 + 21.3 * (Real.exp (2063 / T) * p) ≤ 1 + 21.3 * (8.2 * 1) by norm_num at h3 ⊢; linarith) (by positivity) (by norm_num)
  have h5 := mul_le_mul_of_nonneg_right h4 (Real.exp_pos (-15098 / T)).le
  rw [e1]
  have x0 := Real.exp_pos (-15098 / T)
  calc _ = 4.46E-3 * (Real.exp (7448 / T) * (1 + 21.3 * (Real.exp (2063 / T) * p)) * Real.exp (-15098 / T)) := by ring
    _ ≤ 4.46E-3 * (1810 * (1 + 21.3 * (8.2 * 1)) * Real.exp (-15098 / T)) := mul_le_mul_of_nonneg_left h5 (by norm_num)
    _ ≤ _ := by push_cast; norm_num; linarith

/-- **C101 (binary64).** Rounding to nearest in binary64 with exact library functions meets the assumptions with `ε = 2⁻⁵²`. -/
theorem C101_binary64 : binary64.AccurateExp (2 ^ (-52 : ℤ)) ∧ binary64.Std (2 ^ (-52 : ℤ)) (2 ^ (-52 : ℤ) * 10 ^ (-250 : ℤ)) (10 ^ (300 : ℤ)) := by
  constructor
  · intro x _
    exact ⟨Real.exp x, rfl, by simp; positivity⟩
  · intro x hx
    have big : (10 : ℝ) ^ (300 : ℤ) ≤ maxDbl := by
      unfold maxDbl
      have h1 : (10 : ℝ) ^ (300 : ℤ) = 1000 ^ (100 : ℤ) := by rw [show (1000 : ℝ) = 10 ^ (3 : ℤ) by norm_num, ← zpow_mul]; norm_num
      have h2 : (1000 : ℝ) ^ (100 : ℤ) ≤ 1024 ^ (100 : ℤ) := zpow_le_zpow_left₀ (by norm_num) (by norm_num) (by norm_num)
      have h3 : (1024 : ℝ) ^ (100 : ℤ) = 2 ^ (1000 : ℤ) := by rw [show (1024 : ℝ) = 2 ^ (10 : ℤ) by norm_num, ← zpow_mul]; norm_num
      have h4 : (2 : ℝ) ^ (1000 : ℤ) = 2 ^ (29 : ℤ) * 2 ^ (971 : ℤ) := by rw [← zpow_add₀ (by norm_num)]; norm_num
      rw [h1]
      refine h2.trans ?_
      rw [h3, h4]
      exact mul_le_mul_of_nonneg_right (by norm_num) (by positivity)
    obtain ⟨y, hy, e⟩ := C91_binary64.1 x (hx.trans big)
    · refine ⟨y, hy, e.trans (add_le_add (mul_le_mul_of_nonneg_right (zpow_le_zpow_right₀ (by norm_num) (by norm_num)) (abs_nonneg _)) ?_)⟩
      have h1 : (2 : ℝ) ^ (-1000 : ℤ) ≤ 10 ^ (-250 : ℤ) := by
        have : (2 : ℝ) ^ (-1000 : ℤ) = (2 ^ (4 : ℤ)) ^ (-250 : ℤ) := by rw [← zpow_mul]; norm_num
        rw [this, zpow_neg, zpow_neg]
        exact inv_anti₀ (by positivity) (zpow_le_zpow_left₀ (by norm_num) (by norm_num) (by norm_num))
      calc (2 : ℝ) ^ (-1075 : ℤ) ≤ 2 ^ (-1052 : ℤ) := zpow_le_zpow_right₀ (by norm_num) (by norm_num)
        _ = 2 ^ (-52 : ℤ) * 2 ^ (-1000 : ℤ) := by rw [← zpow_add₀ (by norm_num)]; norm_num
        _ ≤ _ := mul_le_mul_of_nonneg_left h1 (by positivity)

/-- **C101 (twelve digits).** In binary64 the rates have a relative error below `10⁻¹²`; for NSC_NEOH, at 1000 K or more and up to one atmosphere of oxygen. -/
theorem C101_digits (s₀ : State) (a : SetArgs) (hs : (setState s₀ a).2 = Res.ok ()) (hD : (setStateD binary64 s₀.toD a.toD).2 = Res.ok ()) (hu : Usual a)
    (hT : 300 ≤ a.T) (c0 : 1 ≤ a.cMin) (c1 : a.cMin ≤ 10 ^ 6) (hM : UsualMoments a) (c : Ctx) (hc : c.psd ≠ .SECT) (ib : State → ℝ → Res ℝ)
    (hA : Contains a .C2H2) (hB : Contains a .C6H6) (hO : Contains a .O2) (hH : Contains a .OH) :
    (∀ mech ∈ [NuclMech.LL, .LIN, .MB, .FAIR, .LINA1], ∃ x x' : ℝ,
      (Nucl.new mech).rate ib (setState s₀ a).1 = Res.ok (x, Nucl.new mech, (setState s₀ a).1) ∧ 0 < x ∧
      nuclRateD binary64 (setStateD binary64 s₀.toD a.toD).1 mech = Res.ok (fin x') ∧ |x' - x| ≤ 1 / 10 ^ 12 * x) ∧
    (∀ mech ∈ [GrowMech.LL, .LIN, .MB, .FAIR], ∃ x x' : ℝ, (Grow.new mech).rate c (setState s₀ a).1 = Res.ok x ∧ 0 < x ∧
      growRateD binary64 (setStateD binary64 s₀.toD a.toD).1 mech = Res.ok (fin x') ∧ |x' - x| ≤ 1 / 10 ^ 12 * x) ∧
    (∀ o : Oxid, o.cls ∈ [.LL, .FAIR, .LEE_NEOH, .OPTJ, .OPTG, .MB, .BROWN, .AJ_RED] ∨
        (o.cls = .NSC_NEOH ∧ 1000 ≤ a.T ∧ ∃ p, (setState s₀ a).1.gasP .O2 = Res.ok (p * 101325) ∧ 1 / 10 ^ 20 ≤ p ∧ p ≤ 1) →
      ∃ x x' : ℝ, o.rate c (setState s₀ a).1 = Res.ok x ∧ 0 < x ∧
      oxidRateD binary64 (setStateD binary64 s₀.toD a.toD).1 o.cls = Res.ok (fin x') ∧ |x' - x| ≤ 1 / 10 ^ 12 * x) := by
  have b := C99_binary64.1
  obtain ⟨be, bs⟩ := C101_binary64
  have e1 : (2 : ℝ) ^ (-52 : ℤ) ≤ 1 / 10 ^ 8 := by norm_num
  have e0 : (0 : ℝ) ≤ 2 ^ (-52 : ℤ) := by positivity
  refine ⟨fun mech hm => ?_, fun mech hm => ?_, fun o ho => ?_⟩
  · obtain ⟨x, x', h1, h2, h3, h4⟩ := C101_nucleation _ _ b be e0 e1 s₀ a hs hD hu hT c0 c1 ib mech (by
      simp only [List.mem_cons, List.not_mem_nil, or_false] at hm ⊢
      rcases hm with h | h | h | h | h
      exacts [.inl ⟨.inl h, hA⟩, .inl ⟨.inr (.inl h), hA⟩, .inl ⟨.inr (.inr (.inl h)), hA⟩, .inl ⟨.inr (.inr (.inr h)), hA⟩, .inr ⟨h, hB⟩])
    exact ⟨x, x', h1, h2, h3, h4.trans (mul_le_mul_of_nonneg_right (by norm_num) h2.le)⟩
  · obtain ⟨x, x', h1, h2, h3, h4⟩ := C101_growth _ _ b be e0 e1 s₀ a hs hD hu hT hM c hc mech hm hA
    exact ⟨x, x', h1, h2, h3, h4.trans (mul_le_mul_of_nonneg_right (by norm_num) h2.le)⟩
  · rcases ho with ho | ⟨ho, hot, p, hp, p0, p1⟩
    · obtain ⟨M0, M1, t, e, -⟩ := hM
      obtain ⟨x, x', h1, h2, h3, h4⟩ := C101_oxidation _ _ b be e0 e1 s₀ a hs hD hu hT (by simp [e]) c hc o ho hO hH
      exact ⟨x, x', h1, h2, h3, h4.trans (mul_le_mul_of_nonneg_right (by norm_num) h2.le)⟩
    · have p0' : 0 ≤ p := le_trans (by norm_num) p0
      obtain ⟨x, x', h1, h2, h3, h4⟩ := C101_nsc _ _ b be bs e0 e1 s₀ a hs hD hu hT c o ho hO hH p hp p0 75 (by norm_num) (by norm_num)
        (C101_nsc_ratio _ _ hot p0' p1)
      exact ⟨x, x', h1, h2, h3, h4.trans (mul_le_mul_of_nonneg_right (by norm_num) h2.le)⟩

/-! ## Without the species -/

/-- **C101 (absent species).** Without the precursor the rates are zero, in floating point too, whatever the rounding (if it keeps zero). -/
theorem C101_absent (F : Fp) (ε : ℝ) (hF : F.Accurate ε) (hE : F.AccurateExp ε) (h0 : F.rnd 0 = fin 0) (ε0 : 0 ≤ ε) (ε1 : ε ≤ 1 / 10 ^ 8) (s₀ : State)
    (a : SetArgs) (hs : (setState s₀ a).2 = Res.ok ()) (hD : (setStateD F s₀.toD a.toD).2 = Res.ok ()) (hu : Usual a) (hT : 300 ≤ a.T) (c0 : 1 ≤ a.cMin)
    (ib : State → ℝ → Res ℝ) (mech : NuclMech)
    (hm : (mech ∈ [.LL, .LIN, .MB, .FAIR] ∧ a.yGas[GasSp.C2H2.toNat]? = some 0) ∨ (mech = .LINA1 ∧ a.yGas[GasSp.C6H6.toNat]? = some 0)) :
    (Nucl.new mech).rate ib (setState s₀ a).1 = Res.ok (0, Nucl.new mech, (setState s₀ a).1) ∧
      nuclRateD F (setStateD F s₀.toD a.toD).1 mech = Res.ok (fin 0) := by
  have hε : Sm ε := ⟨ε0, ε1⟩
  obtain ⟨hp, eg, -, ec, -⟩ := pairR_of hF hε hs hD hu hT
  generalize (setState s₀ a).1 = s at *
  generalize (setStateD F s₀.toD a.toD).1 = D at *
  have hTT := acc_T hF hε hp.toPair
  have hTc := acc_Tc hF hε hp
  have T0 : s.T ≠ 0 := hTT.pos.ne'
  have Tc0 : s.T * 1.987 ≠ 0 := hTc.pos.ne'
  have cM : s.cMin ≠ 0 := by rw [ec]; linarith
  have w := hp.warm
  have mul0 : ∀ x : ℝ, F.mul (fin x) (fin 0) = fin 0 := fun x => by show F.rnd (x * 0) = _; rw [mul_zero, h0]
  have mul0' : ∀ x : ℝ, F.mul (fin 0) (fin x) = fin 0 := fun x => by show F.rnd (0 * x) = _; rw [zero_mul, h0]
  have div0 : ∀ x : ℝ, x ≠ 0 → F.div (fin 0) (fin x) = fin 0 := fun x hx => by simp [Fp.div, hx, h0]
  have gas0 : ∀ sp : GasSp, (10 : ℝ) ^ (0 : ℤ) ≤ gasMW sp → gasMW sp ≤ (10 : ℝ) ^ (2 : ℤ) → a.yGas[sp.toNat]? = some 0 →
      s.gasC sp = Res.ok 0 ∧ D.gasC F sp = Res.ok (fin 0) := by
    intro sp m0 m1 hy
    have i1 : idx s.yGas sp.toNat = Res.ok 0 := by simp [idx, eg, hy]
    have i2 : idx D.yGas sp.toNat = Res.ok (fin 0) := by simp [idx, hp.gas, eg, hy]
    obtain ⟨r, hr, -⟩ := (acc_rho hF hε hp.toPair).val
    have hM := Acc.lit hF hε m0 m1 (by norm_num) (by norm_num)
    obtain ⟨m, hm, m2, -⟩ := hM.val
    have mp : m ≠ 0 := (lt_of_lt_of_le (mul_pos hM.pos (hε.pw _)) m2).ne'
    refine ⟨by rw [State.gasC, i1]; simp, ?_⟩
    rw [DState.gasC, i2]
    simp [hr, hm, mul0, div0 m mp]
  have fin_of : ∀ {n x y} {v : ℝ} {d : Dbl}, Acc ε n x y v d → ∃ z, d = fin z := fun h => let ⟨z, hz, _⟩ := h.val; ⟨z, hz⟩

  have e1 := acc_arr_neg hF hE hε hTT (A := -21100) 21100 (by norm_num) 70.4 141 (-32) (c := 0) (d := 5) (by norm_num) (by norm_num)
    (by norm_num; linarith) (by norm_num) (by norm_num) (by norm_num) (by norm_num) (by norm_num) (by norm_num) (by norm_num) (by norm_num) (by norm_num)
  have e2 := acc_arr_neg hF hE hε hTc (A := -41E3) 41E3 (by norm_num) 69 277 (-31) (c := 0) (d := 5) (by norm_num) (by norm_num)
    (by norm_num; linarith) (by norm_num) (by norm_num) (by norm_num) (by norm_num) (by norm_num) (by norm_num) (by norm_num) (by norm_num) (by norm_num)
  have e3 := acc_arr_neg hF hE hε hTT (A := -21000) 21000 (by norm_num) 70.1 141 (-31) (c := 0) (d := 5) (by norm_num) (by norm_num)
    (by norm_num; linarith) (by norm_num) (by norm_num) (by norm_num) (by norm_num) (by norm_num) (by norm_num) (by norm_num) (by norm_num) (by norm_num)
  have hN := Acc.lit hF hε (x := Na) (a := 26) (b := 27) (by norm_num [Na]) (by norm_num [Na]) (by norm_num) (by norm_num)
  have nz : ∀ {k A q : ℝ} {U : Dbl} {n : ℕ} {e : ℤ} {v : ℝ}, (10 : ℝ) ^ (0 : ℤ) ≤ k → k ≤ (10 : ℝ) ^ (7 : ℤ) → (10 : ℝ) ^ (0 : ℤ) ≤ q → q ≤ (10 : ℝ) ^ (1 : ℤ) →
      Acc ε n e 0 v (arrD F A U) → n ≤ 500 → -100 ≤ e → nucRateD F D k A q U (fin 0) = fin 0 := by
    intro k A q U n e v k0 k1 q0 q1 h hn he
    obtain ⟨x, hx⟩ := fin_of ((Acc.lit hF hε k0 k1 (by norm_num) (by norm_num)).mul hF hε h (by omega) (by omega) (by norm_num))
    obtain ⟨y, hy⟩ := fin_of (Acc.lit hF hε q0 q1 (by norm_num) (by norm_num))
    obtain ⟨z, hz⟩ := fin_of hN
    rw [nucRateD, hx, hy, hz, mul0, mul0', mul0', hp.cMin, div0 _ cM]
  rcases hm with ⟨hm, hy⟩ | ⟨rfl, hy⟩
  · obtain ⟨g1, g2⟩ := gas0 .C2H2 (by norm_num [gasMW]) (by norm_num [gasMW]) hy
    simp only [List.mem_cons, List.not_mem_nil, or_false] at hm
    rcases hm with rfl | rfl | rfl | rfl
    · refine ⟨by simp [Nucl.rate, Nucl.new, g1, cexpDiv_ok T0, cdiv_ok cM, ok_bind], ?_⟩
      simp only [nuclRateD, g2, ok_bind]
      rw [nz (by norm_num) (by norm_num) (by norm_num) (by norm_num) e1 (by norm_num) (by norm_num)]
    · refine ⟨by simp [Nucl.rate, Nucl.new, g1, cexpDiv_ok T0, cdiv_ok cM, ok_bind], ?_⟩
      simp only [nuclRateD, g2, ok_bind]
      rw [nz (by norm_num) (by norm_num) (by norm_num) (by norm_num) e1 (by norm_num) (by norm_num)]
    · refine ⟨by simp [Nucl.rate, Nucl.new, g1, cexpDiv_ok T0, ok_bind], ?_⟩
      simp only [nuclRateD, g2, ok_bind]
      obtain ⟨x, hx⟩ := fin_of ((Acc.lit hF hε (x := 54) (a := 1) (b := 2) (by norm_num) (by norm_num) (by norm_num) (by norm_num)).mul hF hε hN (by norm_num) (by norm_num) (by norm_num))
      obtain ⟨y, hy⟩ := fin_of e3
      rw [hx, hy, mul0, mul0']
    · refine ⟨by simp [Nucl.rate, Nucl.new, g1, cexpDiv_ok Tc0, cdiv_ok cM, ok_bind], ?_⟩
      simp only [nuclRateD, g2, ok_bind]
      rw [nz (by norm_num) (by norm_num) (by norm_num) (by norm_num) e2 (by norm_num) (by norm_num)]
  · obtain ⟨g1, g2⟩ := gas0 .C6H6 (by norm_num [gasMW]) (by norm_num [gasMW]) hy
    refine ⟨by simp [Nucl.rate, Nucl.new, g1, cexpDiv_ok T0, cdiv_ok cM, ok_bind], ?_⟩
    simp only [nuclRateD, g2, ok_bind]
    rw [nz (by norm_num) (by norm_num) (by norm_num) (by norm_num) e1 (by norm_num) (by norm_num)]

/-- **C101, no particles.** Where the stored number of particles is zero, the growth rates that use the area are exactly zero in both. -/
theorem C101_no_particles (F : Fp) (ε : ℝ) (hF : F.Accurate ε) (h0 : F.rnd 0 = fin 0) (ε0 : 0 ≤ ε) (ε1 : ε ≤ 1 / 10 ^ 8) (s₀ : State)
    (a : SetArgs) (hs : (setState s₀ a).2 = Res.ok ()) (hD : (setStateD F s₀.toD a.toD).2 = Res.ok ()) (hu : Usual a) (hT : 300 ≤ a.T) (c : Ctx)
    (hc : c.psd ≠ .SECT) (M0 M1 : ℝ) (t : List ℝ) (hv : a.sootVar = M0 :: M1 :: t) (hM : M0 ≤ 0) (mech : GrowMech) (hm : mech ∈ [.NONE, .LL, .MB, .FAIR]) :
    (Grow.new mech).rate c (setState s₀ a).1 = Res.ok 0 ∧ growRateD F (setStateD F s₀.toD a.toD).1 mech = Res.ok (fin 0) := by
  have hε : Sm ε := ⟨ε0, ε1⟩
  obtain ⟨hp, -, es, -⟩ := pairR_of hF hε hs hD hu hT
  rw [hv, List.map_cons, List.map_cons, max_eq_right hM] at es
  have eD := hp.soot
  rw [es] at eD
  have i0 : idx (setState s₀ a).1.sootVar 0 = Res.ok 0 := by rw [es]; rfl
  have i1 : idx (setState s₀ a).1.sootVar 1 = Res.ok (max M1 0) := by rw [es]; rfl
  have d0 : idx (setStateD F s₀.toD a.toD).1.sootVar 0 = Res.ok (fin 0) := by rw [eD]; rfl
  have d1 : idx (setStateD F s₀.toD a.toD).1.sootVar 1 = Res.ok (fin (max M1 0)) := by rw [eD]; rfl
  have m : moments01 c (setState s₀ a).1 = Res.ok (0, max M1 0) := by simp [moments01, i0, i1, hc, ok_bind]
  have A : areaMono 0 (max M1 0) = Res.ok 0 := by simp [areaMono]
  have AD : areaD F (fin 0) (fin (max M1 0)) = fin 0 := by simp [areaD, Dbl.lt]
  have nl : ¬ (fin 0).lt (fin 0) := lt_irrefl (0 : ℝ)
  simp only [List.mem_cons, List.not_mem_nil, or_false] at hm
  rcases hm with rfl | rfl | rfl | rfl
  · exact ⟨rfl, by rw [growRateD, h0]⟩
  all_goals
    refine ⟨by simp [Grow.rate, Grow.new, m, A, ok_bind], ?_⟩
    simp only [growRateD, d0, d1, ok_bind, AD, if_neg nl, h0]

/-! ## An example -/

/-- The products of `argsEx2` without PAHs. -/
noncomputable def argsBurn : SetArgs := { argsEx2 with yPah := List.replicate 6 0 }

theorem argsBurn_ok : (setState (State.mk' 2 0) argsBurn).2 = Res.ok () ∧ (setStateD binary64 (State.mk' 2 0).toD argsBurn.toD).2 = Res.ok () := by
  have q := argsEx2_admissible
  have adm : Admissible 2 0 6 argsBurn := ⟨q.T, q.P, q.rho, q.mu, q.cMin, q.soot, q.tar, q.gas, by simp [argsBurn], by simp [argsBurn], by simp [argsBurn]⟩
  have h1 : (setState (State.mk' 2 0) argsBurn).2 = Res.ok () := by
    rw [C01_setState_accepts _ _ (by simp [State.mk', argsBurn, argsEx2]) (by simp [State.mk']) (by simpa [State.mk', nPah] using adm)]
  refine ⟨h1, ?_⟩
  have hs : (State.mk' 2 0).toD.nsoot.toNat ≤ argsBurn.toD.sootVar.length := by simp [State.mk', State.toD, argsBurn, argsEx2, SetArgs.toD]
  have ht : (State.mk' 2 0).toD.Ntar.toNat ≤ argsBurn.toD.tarVar.length := by simp [State.mk', State.toD]
  have q := (C77_accepts_iff .exact (State.mk' 2 0).toD argsBurn.toD hs ht).1.1 (by rw [C77_agrees_partial]; exact h1)
  refine (C77_accepts_iff binary64 (State.mk' 2 0).toD argsBurn.toD hs ht).1.2
    ⟨q.T, q.P, q.rho, q.mu, q.cMin, q.soot, q.tar, q.gas, q.pahSize, q.pah, ?_⟩
  have z : binary64.add (fin 0) (fin 0) = fin 0 := by show binary64.rnd (0 + 0) = _; rw [add_zero, binary64_zero]
  have e : argsBurn.toD.yPah.foldl binary64.add (fin 0) = fin 0 := by
    simp [SetArgs.toD, argsBurn, List.replicate, z]
  rw [e]
  show ¬ (1 : ℝ) < 0
  norm_num

/-- The same gas without soot: nothing grows, in exact and in rounded arithmetic. -/
example (c : Ctx) (hc : c.psd ≠ .SECT) :
    (Grow.new .LL).rate c (setState (State.mk' 2 0) { argsBurn with sootVar := [0, 0] }).1 = Res.ok 0 ∧
      growRateD binary64 (setStateD binary64 (State.mk' 2 0).toD ({ argsBurn with sootVar := [0, 0] } : SetArgs).toD).1 .LL = Res.ok (fin 0) := by
  have q := argsEx2_admissible
  have adm : Admissible 2 0 6 { argsBurn with sootVar := [0, 0] } :=
    ⟨q.T, q.P, q.rho, q.mu, q.cMin, fun i h k => absurd h (by simp at h ⊢; omega), q.tar, q.gas, by simp [argsBurn], by simp [argsBurn], by simp [argsBurn]⟩
  have h1 : (setState (State.mk' 2 0) { argsBurn with sootVar := [0, 0] }).2 = Res.ok () := by
    rw [C01_setState_accepts _ _ (by simp [State.mk']) (by simp [State.mk']) (by simpa [State.mk', nPah] using adm)]
  have hs : (State.mk' 2 0).toD.nsoot.toNat ≤ ({ argsBurn with sootVar := [0, 0] } : SetArgs).toD.sootVar.length := by simp [State.mk', State.toD, SetArgs.toD]
  have ht : (State.mk' 2 0).toD.Ntar.toNat ≤ ({ argsBurn with sootVar := [0, 0] } : SetArgs).toD.tarVar.length := by simp [State.mk', State.toD]
  have q := (C77_accepts_iff .exact (State.mk' 2 0).toD _ hs ht).1.1 (by rw [C77_agrees_partial]; exact h1)
  have z : binary64.add (fin 0) (fin 0) = fin 0 := by show binary64.rnd (0 + 0) = _; rw [add_zero, binary64_zero]
  have h2 := (C77_accepts_iff binary64 (State.mk' 2 0).toD _ hs ht).1.2 ⟨q.T, q.P, q.rho, q.mu, q.cMin, q.soot, q.tar, q.gas, q.pahSize, q.pah, by
    rw [show ({ argsBurn with sootVar := [0, 0] } : SetArgs).toD.yPah.foldl binary64.add (fin 0) = fin 0 by simp [SetArgs.toD, argsBurn, List.replicate, z]]
    show ¬ (1 : ℝ) < 0
    norm_num⟩
  exact C101_no_particles binary64 (2 ^ (-52 : ℤ)) C99_binary64.1 binary64_zero (by positivity) (by norm_num) _ _ h1 h2
    (by constructor <;> norm_num [argsBurn, argsEx2, argsEx]) (by norm_num [argsBurn, argsEx2, argsEx]) c hc 0 0 [] rfl le_rfl .LL (by simp)

/-- Every rate of these products is right to twelve digits. -/
example (c : Ctx) (hc : c.psd ≠ .SECT) (ib : State → ℝ → Res ℝ) : ∃ x x' : ℝ, (Oxid.new .NSC_NEOH).rate c (setState (State.mk' 2 0) argsBurn).1 = Res.ok x ∧ 0 < x ∧
    oxidRateD binary64 (setStateD binary64 (State.mk' 2 0).toD argsBurn.toD).1 .NSC_NEOH = Res.ok (fin x') ∧ |x' - x| ≤ 1 / 10 ^ 12 * x := by
  have pr : ∀ sp : GasSp, ∀ y, argsBurn.yGas[sp.toNat]? = some y → 1 / 10 ^ 100 ≤ y → y ≤ 1 → Contains argsBurn sp := fun sp y h1 h2 h3 =>
    ⟨y, h1, by rw [zpow_neg, ← one_div]; exact_mod_cast h2, h3⟩
  refine (C101_digits (State.mk' 2 0) argsBurn argsBurn_ok.1 argsBurn_ok.2 (by constructor <;> norm_num [argsBurn, argsEx2, argsEx]) (by norm_num [argsBurn, argsEx2, argsEx])
    (by norm_num [argsBurn, argsEx2, argsEx]) (by norm_num [argsBurn, argsEx2, argsEx]) ⟨1E15, 1E-8, [], rfl, by norm_num, by norm_num, by norm_num, by norm_num⟩ c hc ib
    (pr _ 0.05 rfl (by norm_num) (by norm_num)) (pr _ 0.001 rfl (by norm_num) (by norm_num)) (pr _ 0.1 rfl (by norm_num) (by norm_num))
    (pr _ 0.001 rfl (by norm_num) (by norm_num))).2.2 (Oxid.new .NSC_NEOH) (.inr ⟨rfl, by norm_num [argsBurn, argsEx2, argsEx], ?_⟩)
  obtain ⟨⟨e1, e2, e3, e4, -⟩, hph, -⟩ := C02_setState_valid _ _ argsBurn_ok.1
  have eg := (pairR_of C99_binary64.1 ⟨by positivity, by norm_num⟩ argsBurn_ok.1 argsBurn_ok.2 (by constructor <;> norm_num [argsBurn, argsEx2, argsEx])
    (by norm_num [argsBurn, argsEx2, argsEx])).2.1
  have i1 : idx (setState (State.mk' 2 0) argsBurn).1.yGas GasSp.O2.toNat = Res.ok 0.1 := by rw [eg]; rfl
  have mw := hph.mw
  rw [e1, e2, e3, show argsBurn.T = 2100 from rfl, show argsBurn.P = 101325 from rfl, show argsBurn.rhoGas = 0.1 from rfl] at mw
  refine ⟨0.1 * (setState (State.mk' 2 0) argsBurn).1.MWGas / gasMW .O2, ?_, ?_, ?_⟩
  · rw [State.gasP, i1]
    show Res.ok (_ * (setState (State.mk' 2 0) argsBurn).1.P) = _
    rw [e2]; rfl
  · rw [mw]; norm_num [gasMW, Rg, Na, kb]
  · rw [mw]; norm_num [gasMW, Rg, Na, kb]

end Soot
