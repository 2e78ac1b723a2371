import Verif.Props.FpSectSum

/-!
# C116: the source terms of the sectional model are accurate in floating point

`setState` followed by `sootModel_SECT::setSourceTerms`, both over doubles, compared with the sources in exact arithmetic.  The sources of a section are
differences of what enters and leaves it, so the bound is relative to the size of the processes.  Errors are weighted with the particle mass of the section.
-/

namespace Soot

open Dbl Res
open scoped Classical

/-- Oxidation mechanisms that do not look at the sections, with a relative error of the rate of about `N ε`. -/
def SectOxidUsual (a : SetArgs) (s : State) (o : OxidMech) (N : ℕ) : Prop := o ≠ .MB ∧ OxidUsual a s o N

/-- Coagulation kernels for which C99 bounds the relative error at all pairs of sections by about `κ`. -/
def SectCoagUsual (F : Fp) (ε : ℝ) (s : State) (k : CoagMech) (n : ℕ) (bins : List ℝ) (κ : ℝ) : Prop :=
  (k = .NONE ∧ 0 ≤ κ) ∨ (k ∈ [.FM, .CONTINUUM, .HM] ∧ 1000 * ε ≤ κ) ∨
    (k = .FUCHS ∧ F.rnd 3 = fin 3 ∧ F.rnd 1.5 = fin 1.5 ∧ ∃ r : ℝ, (∀ i < n, ∃ d, IsSphere (bins.getD i 0) d ∧ d ≤ r * specStop s (bins.getD i 0) d ∧
      specStop s (bins.getD i 0) d ≤ r * d) ∧ 4 * r ^ 2 * ε ≤ 1 / 10 ^ 9 ∧ 2800 * r * ε ≤ κ)

namespace FpK

variable {F : Fp} {ε : ℝ}

theorem count_z {N : ℝ} (h : N = 0 ∨ (1 ≤ N ∧ N ≤ 10 ^ 30)) : AccZ ε 0 0 30 N (fin N) := by
  rcases h with rfl | ⟨h1, h2⟩
  · exact .inr ⟨rfl, rfl⟩
  · exact (Acc.exact (by simpa using h1) (by norm_num at h2 ⊢; linarith)).z

section

variable (hF : F.Accurate ε) (hε : Sm ε)
include hF hε

/-- The surface of the particles of one section. -/
theorem binArea_acc (h0 : F.rnd 0 = fin 0) {b N : ℝ} (b0 : (10 : ℝ) ^ (-26 : ℤ) ≤ b) (b1 : b ≤ (10 : ℝ) ^ (3 : ℤ)) (hN : N = 0 ∨ (1 ≤ N ∧ N ≤ 10 ^ 30)) :
    AccZ ε 346 (-44) 33 (Real.pi * (6 * b / (Real.pi * rhoSoot)) ^ twothird * N) (binAreaD F (fin b) (fin N)) := by
  have a2 := (lit_six hF hε).mul hF hε (.exact b0 b1) (by norm_num) (by norm_num) (by norm_num)
  have a3 := a2.div hF hε (acc_pirho hF hε) (by norm_num) (by norm_num) (by norm_num)
  have a4 := a3.pow hF hε (acc_twothird hF hε) 340 (-44) 1 65 (by norm_num) (by norm_num) (by norm_num [twothird]) (by norm_num) (by norm_num [twothird])
    (by norm_num [twothird]) (by norm_num) (by norm_num)
  have a5 := (lit_pi hF hε).mul hF hε a4 (by norm_num) (by norm_num) (by norm_num)
  exact (a5.z.mul hF hε h0 (count_z hN) (by norm_num) (by norm_num) (by norm_num)).mono hε (by norm_num) (by norm_num) (by norm_num)

variable {s : State} {D : DState}

/-- Growth by the mechanism that does not look at the sections. -/
theorem lin_acc (hp : PairR ε s D) (hE : F.AccurateExp ε) (x : Ctx) (hs : Present s .C2H2) :
    ∃ r R, (Grow.new .LIN).rate x s = Res.ok r ∧ growRateD F D .LIN = Res.ok R ∧ Acc ε 700 (-160) 50 r R := by
  have hT := acc_T hF hε hp.toPair
  have T0 : s.T ≠ 0 := hT.pos.ne'
  have w := hp.warm
  have e1 := acc_arr_neg hF hE hε hT (A := -12100) 12100 (by norm_num) 40.4 81 (-18) (c := 0) (d := 5) (by norm_num) (by norm_num)
    (by norm_num; linarith) (by norm_num) (by norm_num) (by norm_num) (by norm_num) (by norm_num) (by norm_num) (by norm_num) (by norm_num) (by norm_num)
  obtain ⟨c, C, hc, hC, hcC⟩ := acc_gasC hF hε hp hs (by norm_num [gasMW]) (by norm_num [gasMW])
  refine ⟨_, _, by simp only [Grow.rate, Grow.new, ok_bind, cexpDiv_ok T0, hc]; rfl, by simp only [growRateD, ok_bind, hC]; rfl, ?_⟩
  have a1 := (Acc.lit hF hε (x := 750) (a := 2) (b := 3) (by norm_num) (by norm_num) (by norm_num) (by norm_num)).mul hF hε e1 (by norm_num) (by norm_num) (by norm_num)
  have a2 := a1.mul hF hε hcC (by norm_num) (by norm_num) (by norm_num)
  have a4 := a2.mul hF hε (lit_two hF hε) (by norm_num) (by norm_num) (by norm_num)
  exact (a4.mul hF hε (lit_C hF hε) (by norm_num) (by norm_num) (by norm_num)).mono hε (by norm_num) (by norm_num) (by norm_num)

/-- Oxidation by mechanisms that do not look at the sections. -/
theorem sect_oxid_acc (hp : PairR ε s D) (hE : F.AccurateExp ε) (x : Ctx) (h2 : 2 ≤ s.sootVar.length) (o : Oxid)
    (hm : o.cls ∈ [.LL, .FAIR, .LEE_NEOH, .OPTJ, .OPTG, .MB, .BROWN, .AJ_RED]) (hMB : o.cls ≠ .MB) (hs : Present s .O2) (hs2 : Present s .OH) :
    ∃ r R, o.rate x s = Res.ok r ∧ oxidRateD F D o.cls = Res.ok R ∧ Acc ε 450 (-200) 50 r R := by
  obtain ⟨r, R, h1, h⟩ := oxid_acc hF hε hp hE { x with psd := .MONO } (by simp) h2 o hm hs hs2
  refine ⟨r, R, ?_, h⟩
  rw [← h1]
  rcases o with ⟨cls, mt⟩
  simp only [List.mem_cons, List.not_mem_nil, or_false] at hm
  rcases hm with rfl | rfl | rfl | rfl | rfl | rfl | rfl | rfl
  all_goals first | rfl | exact absurd rfl hMB

/-- One collision rate `K N_i N_j`. -/
theorem pair_acc (hp : Pair ε s D) (h0 : F.rnd 0 = fin 0) (hph : s.Phys) {c : ℝ} (c0 : (10 : ℝ) ^ (-6 : ℤ) ≤ c) (c1 : c ≤ (10 : ℝ) ^ (6 : ℤ)) (k : CoagMech)
    {κ : ℝ} {n : ℕ} {bins : List ℝ} (hk : SectCoagUsual F ε s k n bins κ) (hn : k ≠ .NONE) (hb : ∀ i < n, mmin * (1 + 3 * ε) < bins.getD i 0 ∧ bins.getD i 0 ≤ 10 ^ 3)
    {i j : ℕ} (hi : i < n) (hj : j < n) {N N' : ℝ} (hN : N = 0 ∨ (1 ≤ N ∧ N ≤ 10 ^ 30)) (hN' : N' = 0 ∨ (1 ≤ N' ∧ N' ≤ 10 ^ 30)) :
    ∃ y, F.mul (F.mul (coagRateD F D (fin c) k (fin (bins.getD i 0)) (fin (bins.getD j 0))) (fin N)) (fin N') = fin y ∧
      |y - Coag.val ⟨k, c⟩ s (bins.getD i 0) (bins.getD j 0) * N * N'| ≤ κ * (Coag.val ⟨k, c⟩ s (bins.getD i 0) (bins.getD j 0) * N * N') ∧
      0 ≤ Coag.val ⟨k, c⟩ s (bins.getD i 0) (bins.getD j 0) * N * N' ∧
      Coag.val ⟨k, c⟩ s (bins.getD i 0) (bins.getD j 0) * N * N' ≤ (10 : ℝ) ^ (210 : ℤ) := by
  have ε0 := hε.pos
  have acc : ∀ i < n, Acc ε 1 (-26) 3 (bins.getD i 0) (fin (bins.getD i 0)) := fun i hi => by
    have l1 : (10 : ℝ) ^ (-26 : ℤ) ≤ mmin := by norm_num [mmin]
    have l2 : mmin ≤ mmin * (1 + 3 * ε) := le_mul_of_one_le_right mmin_pos.le (by linarith only [ε0])
    have h2 : bins.getD i 0 ≤ (10 : ℝ) ^ (3 : ℤ) := by have := (hb i hi).2; norm_num at this ⊢; linarith
    exact (Acc.exact (l1.trans (l2.trans (hb i hi).1.le)) h2).mono hε (by norm_num) le_rfl le_rfl
  have above : ∀ i < n, mmin < bins.getD i 0 := fun i hi => by
    have := mul_nonneg mmin_pos.le ε0
    linarith [(hb i hi).1]
  have h1 : ¬ (bins.getD i 0 ≤ mmin ∨ bins.getD j 0 ≤ mmin) := by
    push Not; exact ⟨above i hi, above j hj⟩
  have h2 : ¬ ((fin (bins.getD i 0)).le (F.rnd mmin) ∨ (fin (bins.getD j 0)).le (F.rnd mmin)) := by
    push Not; exact ⟨above_acc hF hε (acc i hi) (hb i hi).1, above_acc hF hε (acc j hj) (hb j hj).1⟩
  suffices H : ∃ (δ : ℝ) (q : ℕ), Sm δ ∧ F.Accurate δ ∧ q ≤ 1381 ∧ (1.001 * (q + 2 : ℕ)) * δ ≤ κ ∧
      Acc δ q (-140) 150 (Coag.val ⟨k, c⟩ s (bins.getD i 0) (bins.getD j 0)) (coagRateD F D (fin c) k (fin (bins.getD i 0)) (fin (bins.getD j 0))) by
    obtain ⟨δ, q, hδ, hA, hq, hκ, a⟩ := H
    have b1 := a.z.mul hA hδ h0 (count_z hN) (by omega) (by norm_num) (by norm_num)
    have b2 := b1.mul hA hδ h0 (count_z hN') (by omega) (by norm_num) (by norm_num)
    obtain ⟨y, hy, ey, p0, p1⟩ := b2.final (N := 1.001 * (q + 2 : ℕ)) hδ (by omega) (by push_cast; linarith)
    exact ⟨y, hy, ey.trans (mul_le_mul_of_nonneg_right hκ p0), p0, p1⟩
  rcases hk with ⟨hk, -⟩ | ⟨hk, hκ⟩ | ⟨rfl, h3, h15, r, hr, hrε, hκ⟩
  · exact absurd hk hn
  · refine ⟨ε, 982, hε, hF, by norm_num, by norm_num; linarith, ?_⟩
    simp only [List.mem_cons, List.not_mem_nil, or_false] at hk
    rcases hk with rfl | rfl | rfl
    · rw [coagRateD, if_neg (by simp), if_neg h2, Coag.val, if_neg h1]
      exact (acc_FM hF hε hp (acc i hi) (acc j hj) c0 c1 .FM).mono hε (by norm_num) (by norm_num) (by norm_num)
    · rw [coagRateD, if_neg (by simp), if_neg h2, Coag.val, if_neg h1]
      exact (acc_CONT hF hε hp (acc i hi) (acc j hj)).mono hε (by norm_num) (by norm_num) (by norm_num)
    · rw [coagRateD, if_neg (by simp), if_neg h2, Coag.val, if_neg h1]
      exact (acc_HM hF hε hp (acc i hi) (acc j hj) c0 c1 .HM).mono hε (by norm_num) (by norm_num) (by norm_num)
  · have cond : ∀ i < n, 1 ≤ r ∧ (diam (bins.getD i 0) + fuchsL s (bins.getD i 0)) ^ 2 ≤ 2 * (2 * r) * (diam (bins.getD i 0) * fuchsL s (bins.getD i 0)) := by
      intro i hi
      obtain ⟨d, sp, hr⟩ := hr i hi
      have dp := sp.1
      have L := fuchsL_pos hph (acc i hi).pos
      rw [← specStop_eq hph sp] at hr
      rw [diam_of_sphere sp]
      have rone : 1 ≤ r := by
        rcases le_total d (fuchsL s (bins.getD i 0)) with h | h
        · exact le_of_mul_le_mul_right (by linarith [hr.2]) dp
        · exact le_of_mul_le_mul_right (by linarith [hr.1]) L
      refine ⟨rone, ?_⟩
      generalize fuchsL s (bins.getD i 0) = l at *
      have f1 : d * l ≤ r * (d * l) := le_mul_of_one_le_left (mul_pos dp L).le rone
      rcases le_total d l with h | h
      · have e1 := mul_le_mul_of_nonneg_left hr.2 L.le
        have e2 := mul_le_mul_of_nonneg_left h dp.le
        nlinarith
      · have e1 := mul_le_mul_of_nonneg_left hr.1 dp.le
        have e2 := mul_le_mul_of_nonneg_left h L.le
        nlinarith
    have rone := (cond i hi).1
    have hε' : Sm (2 * r * ε) := by
      refine ⟨by positivity, ?_⟩
      have : 2 * r * ε ≤ 4 * r ^ 2 * ε := mul_le_mul_of_nonneg_right (by nlinarith) ε0
      have e : (1 : ℝ) / 10 ^ 9 ≤ 1 / 10 ^ 8 := by norm_num
      linarith
    have hF' : F.Accurate (2 * r * ε) := accurate_mono (by nlinarith) hF
    refine ⟨2 * r * ε, 1381, hε', hF', le_rfl, by norm_num; nlinarith [mul_nonneg (by linarith : 0 ≤ r) ε0], ?_⟩
    rw [coagRateD, if_neg (by simp), if_neg h2, Coag.val, if_neg h1]
    exact (acc_FUCHS (R := 2 * r) hF hε hp h3 h15 (acc i hi) (acc j hj) c0 c1 .FUCHS (cond i hi).2 (cond j hj).2
      (by rw [mul_pow]; norm_num at hrε ⊢; exact hrε)).mono hε' (by norm_num) (by norm_num) (by norm_num)

end

end FpK

namespace FpSect

open FpK FpMass

variable {F : Fp} {ε η : ℝ} {m : Model} {s : State} {D : DState}

theorem om : (10 : ℝ) ^ (300 : ℤ) = 10 ^ (240 : ℤ) * 10 ^ (60 : ℤ) := by rw [← zpow_add₀ (by norm_num)]; norm_num

theorem cgrid_of (ε0 : 0 ≤ ε) (ε1 : ε ≤ 1 / 10 ^ 8) (η1 : η ≤ ε * 10 ^ (-250 : ℤ)) (hb : Bins m.nsoot m.mBins) (hg : GeoBins m) (h2 : m.binF = 2)
    (b0 : (10 : ℝ) ^ (-26 : ℤ) ≤ m.mBins.getD 0 0) (b1 : m.mBins.getD (m.nsoot - 1) 0 ≤ 10 ^ 3) : CGrid ε η (10 ^ (300 : ℤ)) 2 2 m.nsoot m.mBins := by
  have e : ∀ k, k + 1 < m.nsoot → m.mBins.getD (k + 1) 0 = 2 * m.mBins.getD k 0 := fun k hk => by
    rw [hg.geo (k + 1) hk, hg.geo k (by omega), h2, pow_succ]; ring
  refine ⟨hb, by norm_num, fun k hk => (e k hk).ge, fun k hk => (e k hk).le, ?_, ?_, by rw [om]; norm_num, ?_⟩
  · rw [show min ((2 : ℝ) - 1) 1 = 1 by norm_num, one_mul]
    refine η1.trans (mul_le_mul_of_nonneg_left (le_trans ?_ b0) ε0)
    exact zpow_le_zpow_right₀ (by norm_num) (by norm_num)
  · have : (4 : ℝ) * 10 ^ 3 ≤ 10 ^ (300 : ℤ) := by rw [om]; norm_num
    generalize (10 : ℝ) ^ (300 : ℤ) = q at *
    linarith
  · norm_num at ε1 ⊢; linarith

theorem soot_getD (hp : PairR ε s D) (k : ℕ) : D.sootVar.getD k (fin 0) = fin (s.sootVar.getD k 0) := by
  rw [hp.soot]
  simp only [List.getD_eq_getElem?_getD, List.getElem?_map]
  cases s.sootVar[k]? <;> rfl

/-- The areas of the sections. -/
theorem area_part (hF : F.Accurate ε) (hε : Sm ε) (h0 : F.rnd 0 = fin 0) (hb : Bins m.nsoot m.mBins) (b0 : (10 : ℝ) ^ (-26 : ℤ) ≤ m.mBins.getD 0 0)
    (b1 : m.mBins.getD (m.nsoot - 1) 0 ≤ 10 ^ 3) (hN : ∀ k < m.nsoot, s.sootVar.getD k 0 = 0 ∨ (1 ≤ s.sootVar.getD k 0 ∧ s.sootVar.getD k 0 ≤ 10 ^ 30)) (k : ℕ) :
    AccZ ε 346 (-44) 33 (binArea m s k) (if k < m.nsoot then binAreaD F (fin (m.mBins.getD k 0)) (fin (s.sootVar.getD k 0)) else fin 0) := by
  unfold binArea
  split_ifs with hk
  · refine binArea_acc hF hε h0 (b0.trans (hb.le (Nat.zero_le k) hk)) ((hb.le (by omega : k ≤ m.nsoot - 1) (by omega)).trans (b1.trans (by norm_num))) (hN k hk)
  · exact .inr ⟨rfl, rfl⟩

section

variable (hF : F.Accurate ε) (hε : Sm ε) (h0 : F.rnd 0 = fin 0) (hS : F.Std ε η (10 ^ (300 : ℤ))) (ho : Ok ε η (10 ^ (300 : ℤ)))
  {n : ℕ} {bins : List ℝ} (hc : CGrid ε η (10 ^ (300 : ℤ)) 2 2 n bins) (b0 : (10 : ℝ) ^ (-26 : ℤ) ≤ bins.getD 0 0) (n1 : n ≤ 1000) {A : ℕ → ℝ} {AD : ℕ → Dbl}
  (aA : ∀ k, AccZ ε 346 (-44) 33 (A k) (AD k))
include hF hε h0 hS ho hc b0 n1 aA

theorem up_part {kG : ℝ} {gD : Dbl} (ag : AccZ ε 700 (-160) 50 kG gD) {p : Prop} [Decidable p] (hp : ¬ p → kG = 0) :
    ∃ U : ℕ → ℝ, (∀ k < n, (if p then sectUpD F n (fun k => fin (bins.getD k 0)) (fun k => F.mul gD (AD k)) else fun _ => fin 0) k = fin (U k)) ∧
      nrm n bins (fun k => U k - upVal n bins (fun k => kG * A k) k) ≤
        3 * ((1050 * ε + 4.3 * ε) * (kG * ∑ k ∈ Finset.range n, A k)) + 3.1 * η * ∑ k ∈ Finset.range n, bins.getD k 0 ∧
      nrm n bins (upVal n bins (fun k => kG * A k)) ≤ 3 * (kG * ∑ k ∈ Finset.range n, A k) ∧
      ∑ k ∈ Finset.range n, bins.getD k 0 * upVal n bins (fun k => kG * A k) k = kG * ∑ k ∈ Finset.range n, A k ∧
      0 ≤ kG * ∑ k ∈ Finset.range n, A k ∧ kG * ∑ k ∈ Finset.range n, A k ≤ (10 : ℝ) ^ (230 : ℤ) := by
  have aG := fun k => (ag.mul hF hε h0 (aA k) (by norm_num) (by norm_num) (by norm_num)).final (N := 1050) hε (by norm_num) (by norm_num)
  choose c' h1 e c0 c1 using aG
  have e1 := hε.le
  have sz : ∀ k, kG * A k ≤ (10 : ℝ) ^ (83 : ℤ) := fun k => (c1 k).trans (by norm_num)
  have g : Grid ε η (10 ^ (300 : ℤ)) 2 n bins (fun k => 2 * (kG * A k)) := by
    have t := hc.toGrid ho
    refine ⟨t.inc, t.one, t.geo, t.fine, t.top, fun k _ => ?_⟩
    rw [abs_of_nonneg (by linarith [c0 k]), show min ((2 : ℝ) - 1) 1 = 1 by norm_num, one_mul]
    refine le_trans (mul_le_mul_of_nonneg_left (sz k) (by norm_num)) (le_trans ?_ (mul_le_mul_of_nonneg_left b0 (by positivity)))
    rw [om]; norm_num
  obtain ⟨U, u1, u2, u3⟩ := up_err hS ho g (fun k _ => c0 k) (ρ := 1050 * ε) (by norm_num at e1 ⊢; linarith) (fun k _ => e k)
  rw [show ((2 : ℝ) + 1) / (2 - 1) = 3 by norm_num, ← Finset.mul_sum] at u2 u3
  have S0 : 0 ≤ kG * ∑ k ∈ Finset.range n, A k := by rw [Finset.mul_sum]; exact Finset.sum_nonneg fun k _ => c0 k
  have S1 : kG * ∑ k ∈ Finset.range n, A k ≤ (10 : ℝ) ^ (230 : ℤ) := by
    rw [Finset.mul_sum]
    have := Finset.sum_le_card_nsmul (Finset.range n) (fun k => kG * A k) _ fun k _ => sz k
    rw [Finset.card_range, nsmul_eq_mul] at this
    refine this.trans ((mul_le_mul_of_nonneg_right (show (n : ℝ) ≤ 1000 by exact_mod_cast n1) (by positivity)).trans (by norm_num))
  have mass : ∑ k ∈ Finset.range n, bins.getD k 0 * upVal n bins (fun k => kG * A k) k = kG * ∑ k ∈ Finset.range n, A k := by
    rw [upVal_mass hc.inc, Finset.mul_sum]
  by_cases hpp : p
  · refine ⟨U, fun k hk => ?_, u2, u3, mass, S0, S1⟩
    rw [if_pos hpp, show (fun k => F.mul gD (AD k)) = fun k => fin (c' k) from funext h1]
    exact u1 k hk
  · have z := hp hpp
    subst z
    refine ⟨fun _ => 0, fun k _ => by rw [if_neg hpp], ?_, u3, mass, S0, S1⟩
    simp only [zero_mul, upVal_zero, sub_zero, mul_zero, zero_add, nrm_zero]
    have := Finset.sum_nonneg fun k (hk : k ∈ Finset.range n) => (hc.inc.pos (Finset.mem_range.1 hk)).le
    have := ho.η0
    positivity

theorem down_part {N : ℕ} (N1 : N ≤ 8200) {kO : ℝ} {oD : Dbl} (ao : AccZ ε N (-210) 120 kO oD) {p : Prop} [Decidable p] (hp : ¬ p → kO = 0) :
    ∃ U : ℕ → ℝ, (∀ k < n, (if p then sectDownD F n (fun k => fin (bins.getD k 0)) (fun k => F.mul oD (AD k)) else fun _ => fin 0) k = fin (U k)) ∧
      nrm n bins (fun k => U k - downVal n bins (fun k => kO * A k) k) ≤
        3 * (((N + 360) * ε + 4.3 * ε) * (kO * ∑ k ∈ Finset.range n, A k)) + 3.1 * η * ∑ k ∈ Finset.range n, bins.getD k 0 ∧
      nrm n bins (downVal n bins (fun k => kO * A k)) ≤ 3 * (kO * ∑ k ∈ Finset.range n, A k) ∧
      ∑ k ∈ Finset.range n, bins.getD k 0 * downVal n bins (fun k => kO * A k) k = -(kO * ∑ k ∈ Finset.range n, A k) ∧
      0 ≤ kO * ∑ k ∈ Finset.range n, A k ∧ kO * ∑ k ∈ Finset.range n, A k ≤ (10 : ℝ) ^ (230 : ℤ) := by
  have N8 : (N : ℝ) ≤ 8200 := by exact_mod_cast N1
  have aG := fun k => (ao.mul hF hε h0 (aA k) (by omega) (by norm_num) (by norm_num)).final (N := N + 360) hε (by omega) (by push_cast; linarith)
  choose c' h1 e c0 c1 using aG
  have e1 := hε.le
  have e0 := hε.pos
  have sz : ∀ k, kO * A k ≤ (10 : ℝ) ^ (153 : ℤ) := fun k => (c1 k).trans (by norm_num)
  have g : Grid ε η (10 ^ (300 : ℤ)) 2 n bins (fun k => 2 * (kO * A k)) := by
    have t := hc.toGrid ho
    refine ⟨t.inc, t.one, t.geo, t.fine, t.top, fun k _ => ?_⟩
    rw [abs_of_nonneg (by linarith [c0 k]), show min ((2 : ℝ) - 1) 1 = 1 by norm_num, one_mul]
    refine le_trans (mul_le_mul_of_nonneg_left (sz k) (by norm_num)) (le_trans ?_ (mul_le_mul_of_nonneg_left b0 (by positivity)))
    rw [om]; norm_num
  have Nε : N * ε ≤ 8200 * ε := mul_le_mul_of_nonneg_right N8 e0
  obtain ⟨U, u1, u2, u3⟩ := down_err hS ho g (fun k _ => c0 k) (ρ := (N + 360) * ε) (by norm_num at e1 ⊢; linarith) (fun k _ => e k)
  rw [show ((2 : ℝ) + 1) / (2 - 1) = 3 by norm_num, ← Finset.mul_sum] at u2 u3
  have S0 : 0 ≤ kO * ∑ k ∈ Finset.range n, A k := by rw [Finset.mul_sum]; exact Finset.sum_nonneg fun k _ => c0 k
  have S1 : kO * ∑ k ∈ Finset.range n, A k ≤ (10 : ℝ) ^ (230 : ℤ) := by
    rw [Finset.mul_sum]
    have := Finset.sum_le_card_nsmul (Finset.range n) (fun k => kO * A k) _ fun k _ => sz k
    rw [Finset.card_range, nsmul_eq_mul] at this
    refine this.trans ((mul_le_mul_of_nonneg_right (show (n : ℝ) ≤ 1000 by exact_mod_cast n1) (by positivity)).trans (by norm_num))
  have mass : ∑ k ∈ Finset.range n, bins.getD k 0 * downVal n bins (fun k => kO * A k) k = -(kO * ∑ k ∈ Finset.range n, A k) := by
    rw [downVal_mass hc.inc, Finset.mul_sum]
  by_cases hpp : p
  · refine ⟨U, fun k hk => ?_, u2, u3, mass, S0, S1⟩
    rw [if_pos hpp, show (fun k => F.mul oD (AD k)) = fun k => fin (c' k) from funext h1]
    exact u1 k hk
  · have z := hp hpp
    subst z
    refine ⟨fun _ => 0, fun k _ => by rw [if_neg hpp], ?_, u3, mass, S0, S1⟩
    simp only [zero_mul, downVal_zero, sub_zero, mul_zero, zero_add, nrm_zero]
    have := Finset.sum_nonneg fun k (hk : k ∈ Finset.range n) => (hc.inc.pos (Finset.mem_range.1 hk)).le
    have := ho.η0
    positivity

end

/-- The mass that collides per second, each pair of sections once. -/
noncomputable def collMass (m : Model) (s : State) : ℝ := ((pairs m.nsoot).map fun p => collisions m s p.1 p.2 * (m.mBins.getD p.1 0 + m.mBins.getD p.2 0)).sum

theorem moved_sum (h : SectReady m s) : ((pairs m.nsoot).map (moved m.mBins fun i j => m.coag.val s (m.mBins.getD i 0) (m.mBins.getD j 0) * s.sootVar.getD i 0 *
    s.sootVar.getD j 0)).sum = collMass m s := by
  unfold collMass
  congr 1
  refine List.map_congr_left fun p _ => ?_
  rw [moved, SRound.events_eq, abs_of_nonneg (SRound.collisions_nonneg h _ _)]

theorem coag_part (hF : F.Accurate ε) (hε : Sm ε) (h0 : F.rnd 0 = fin 0) (hS : F.Std ε η (10 ^ (300 : ℤ))) (ho : Ok ε η (10 ^ (300 : ℤ))) (η1 : η ≤ 1)
    (hp : Pair ε s D) (hsD : ∀ k, D.sootVar.getD k (fin 0) = fin (s.sootVar.getD k 0))
    (h : SectReady m s) (hg : GeoBins m) (h2 : m.binF = 2) {glob glob' : Option ℝ} (hgl : OwnFactor m glob)
    (hc : CGrid ε η (10 ^ (300 : ℤ)) 2 2 m.nsoot m.mBins) (n1 : m.nsoot ≤ 1000)
    (hb : mmin * (1 + 3 * ε) < m.mBins.getD 0 0) (b1 : m.mBins.getD (m.nsoot - 1) 0 ≤ 10 ^ 3)
    (hN : ∀ k < m.nsoot, s.sootVar.getD k 0 = 0 ∨ (1 ≤ s.sootVar.getD k 0 ∧ s.sootVar.getD k 0 ≤ 10 ^ 30))
    (f0 : 1 / 10 ^ 6 ≤ m.coag.fmMult) (f1 : m.coag.fmMult ≤ 10 ^ 6) {κ : ℝ} (κ1 : κ ≤ 1 / 100) (hk : SectCoagUsual F ε s m.coag.mech m.nsoot m.mBins κ)
    (hL : (5 * m.nsoot * (m.nsoot + 1) + 84) * ε ≤ 1 / 10) {δ : ℝ} (hδ : 0 ≤ δ) (δ1 : δ ≤ 1 / 100) (hn : δ * 2 ^ m.nsoot < 1) {rnd : ℕ → ℕ → ℝ → ℝ}
    (hr : Within δ rnd) {C : ℕ → ℝ} (hC : sectCoag m glob s = Res.ok (C, glob')) :
    0 ≤ κ ∧ ∃ E : ℕ → ℝ, (∀ k < m.nsoot, (if m.coag.mech ≠ .NONE then
      coagLoopD F m.nsoot (fun k => fin (m.mBins.getD k 0)) (fun i j => F.mul (F.mul (coagRateD F D (fin m.coag.fmMult) m.coag.mech (fin (m.mBins.getD i 0))
        (fin (m.mBins.getD j 0))) (D.sootVar.getD i (fin 0))) (D.sootVar.getD j (fin 0))) (fun i j => ⌊rnd i j (exactPos m i j)⌋₊) (pairs m.nsoot) fun _ => fin 0
      else fun _ => fin 0) k = fin (E k)) ∧
      nrm m.nsoot m.mBins (fun k => E k - C k) ≤ (2.3 * κ + 1.01 * ((5 * m.nsoot * (m.nsoot + 1) + 84) * ε)) * collMass m s +
        0.55 * m.nsoot * (m.nsoot + 1) * ((9 * m.mBins.getD (m.nsoot - 1) 0 + 2) * η) ∧
      nrm m.nsoot m.mBins C ≤ 2.3 * collMass m s ∧ 0 ≤ collMass m s ∧ collMass m s ≤ (10 : ℝ) ^ (230 : ℤ) := by
  have ε0 := hε.pos
  have η0 := ho.η0
  have two := h.bins.two
  have pt := h.bins.pos (show m.nsoot - 1 < m.nsoot by omega)
  have nR : (m.nsoot : ℝ) ≤ 1000 := by exact_mod_cast n1
  have n0 : (0 : ℝ) ≤ m.nsoot := Nat.cast_nonneg _
  have κ0 : 0 ≤ κ := by
    rcases hk with ⟨-, hκ⟩ | ⟨-, hκ⟩ | ⟨-, -, -, r, hr, -, hκ⟩
    · exact hκ
    · exact le_trans (by positivity) hκ
    · obtain ⟨d, sp, q1, q2⟩ := hr 0 (by omega)
      have : 0 ≤ r := by
        by_contra hx
        push Not at hx
        have L := fuchsL_pos h.gas.acc.phys h.bins.pos0
        rw [specStop_eq h.gas.acc.phys sp] at L
        have := mul_neg_of_neg_of_pos hx L
        linarith [sp.1]
      exact le_trans (by positivity) hκ
  refine ⟨κ0, ?_⟩
  set V := collMass m s with hV
  by_cases hno : m.coag.mech = .NONE
  · have z : V = 0 := by
      rw [hV, collMass]
      refine List.sum_eq_zero fun x hx => ?_
      obtain ⟨q, -, rfl⟩ := List.mem_map.1 hx
      simp [collisions, Coag.val, hno]
    have hC' : C = fun _ => 0 := by
      rw [sectCoag, if_neg (by simp [hno])] at hC
      simp only [Res.ok.injEq, Prod.mk.injEq] at hC
      exact hC.1.symm
    refine ⟨fun _ => 0, fun k _ => by rw [if_neg (by simp [hno])], ?_, ?_, z.ge, ?_⟩
    · rw [hC', z]; simp only [sub_zero, nrm_zero]
      positivity
    · rw [hC', z, nrm_zero]; simp
    · rw [z]; positivity
  -- the collision rates
  set t : ℕ → ℕ → ℝ := fun i j => m.coag.val s (m.mBins.getD i 0) (m.mBins.getD j 0) * s.sootVar.getD i 0 * s.sootVar.getD j 0 with ht
  have bb : ∀ i < m.nsoot, mmin * (1 + 3 * ε) < m.mBins.getD i 0 ∧ m.mBins.getD i 0 ≤ 10 ^ 3 := fun i hi =>
    ⟨hb.trans_le (h.bins.le (Nat.zero_le i) hi), (h.bins.le (show i ≤ m.nsoot - 1 by omega) (by omega)).trans b1⟩
  have pr := fun i j (hi : i < m.nsoot) (hj : j < m.nsoot) => pair_acc hF hε hp h0 h.gas.acc.phys (c := m.coag.fmMult) (by norm_num at f0 ⊢; linarith)
    (by norm_num at f1 ⊢; linarith) m.coag.mech hk hno bb hi hj (hN i hi) (hN j hj)
  let t' : ℕ → ℕ → ℝ := fun i j => if hij : i < m.nsoot ∧ j < m.nsoot then (pr i j hij.1 hij.2).choose else 0
  have pr' : ∀ i j, i < m.nsoot → j < m.nsoot →
      F.mul (F.mul (coagRateD F D (fin m.coag.fmMult) m.coag.mech (fin (m.mBins.getD i 0)) (fin (m.mBins.getD j 0))) (fin (s.sootVar.getD i 0))) (fin (s.sootVar.getD j 0)) = fin (t' i j) ∧
      |t' i j - t i j| ≤ κ * t i j ∧ 0 ≤ t i j ∧ t i j ≤ (10 : ℝ) ^ (210 : ℤ) := fun i j hi hj => by
    have := (pr i j hi hj).choose_spec
    simp only [t', dif_pos (show i < m.nsoot ∧ j < m.nsoot from ⟨hi, hj⟩)]
    exact this
  have eV := moved_sum h
  rw [← hV] at eV
  have V0 : 0 ≤ V := by
    rw [← eV]
    refine List.sum_nonneg fun x hx => ?_
    obtain ⟨q, hq, rfl⟩ := List.mem_map.1 hx
    have := mem_pairs.1 hq
    exact moved_nonneg h.bins _ (by omega) this.2
  have V1 : V ≤ (10 : ℝ) ^ (230 : ℤ) := by
    have sz : ∀ x ∈ (pairs m.nsoot).map (moved m.mBins t), x ≤ (10 : ℝ) ^ (214 : ℤ) := by
      intro x hx
      obtain ⟨q, hq, rfl⟩ := List.mem_map.1 hx
      have hq := mem_pairs.1 hq
      obtain ⟨-, -, q0, q1⟩ := pr' q.1 q.2 (by omega) hq.2
      have s1 := (bb q.1 (by omega)).2
      have s2 := (bb q.2 hq.2).2
      have e1 : |pairEvents (t q.1 q.2) q.1 q.2| ≤ (10 : ℝ) ^ (210 : ℤ) := by
        unfold pairEvents
        split_ifs
        · rw [abs_of_nonneg (by norm_num; exact q0)]; norm_num at q0 q1 ⊢; linarith
        · rw [abs_of_nonneg q0]; exact q1
      have p1 := h.bins.pos (show q.1 < m.nsoot by omega)
      have p2 := h.bins.pos hq.2
      refine (mul_le_mul e1 (show m.mBins.getD q.1 0 + m.mBins.getD q.2 0 ≤ 2 * 10 ^ 3 by linarith) (by linarith) (by positivity)).trans ?_
      norm_num
    have := List.sum_le_card_nsmul _ _ sz
    rw [List.length_map, nsmul_eq_mul, eV] at this
    have len : (2 : ℝ) * (pairs m.nsoot).length = m.nsoot * (m.nsoot + 1) := by exact_mod_cast pairs_length m.nsoot
    have l1 : (m.nsoot : ℝ) * (m.nsoot + 1) ≤ 1000 * 1001 := mul_le_mul nR (by linarith) (by linarith) (by norm_num)
    have l2 : ((pairs m.nsoot).length : ℝ) ≤ 10 ^ 6 := by linarith only [len, l1]
    refine this.trans ((mul_le_mul_of_nonneg_right l2 (by positivity)).trans (by norm_num))
  have b26 : (10 : ℝ) ^ (-26 : ℤ) ≤ m.mBins.getD 0 0 := by
    have l1 : (10 : ℝ) ^ (-26 : ℤ) ≤ mmin := by norm_num [mmin]
    have l2 : mmin ≤ mmin * (1 + 3 * ε) := le_mul_of_one_le_right mmin_pos.le (by linarith only [ε0])
    exact l1.trans (l2.trans hb.le)
  have d2 : m.binF ^ δ ≤ 1 + (m.binF - 1) / (20 * m.binF ^ 2) := by
    rw [h2]
    have e1 : (2 : ℝ) ^ δ ≤ 2 ^ (1 / 100 : ℝ) := Real.rpow_le_rpow_of_exponent_le (by norm_num) δ1
    have e2 : (2 : ℝ) ^ (1 / 100 : ℝ) ≤ ((81 / 80 : ℝ) ^ (100 : ℕ)) ^ (1 / 100 : ℝ) := Real.rpow_le_rpow (by norm_num) (by norm_num) (by norm_num)
    have e3 : ((81 / 80 : ℝ) ^ (100 : ℕ)) ^ (1 / 100 : ℝ) = 81 / 80 := by
      rw [← Real.rpow_natCast, ← Real.rpow_mul (by norm_num)]; norm_num
    rw [e3] at e2
    exact (e1.trans e2).trans (by norm_num)
  have fits : ∀ i j, i ≤ j → j < m.nsoot → -1 < rnd i j (exactPos m i j) ∧ rnd i j (exactPos m i j) < 2 ^ 64 := by
    intro i j hij hj
    obtain ⟨q0, -, hM⟩ := SRound.pos_props h.bins hg (show i < m.nsoot by omega) hj
    have hd := abs_le.1 (hr i j (exactPos m i j))
    refine ⟨by linarith, ?_⟩
    have q1 : exactPos m i j ≤ m.nsoot + 1 := by
      by_contra hx
      push Not at hx
      have g1 := (bb i (by omega)).1
      have e1 : m.mBins.getD i 0 + m.mBins.getD j 0 ≤ m.mBins.getD 0 0 * 2 ^ (m.nsoot + 1) := by
        have a1 := hg.geo i (by omega)
        have a2 := hg.geo j hj
        rw [h2] at a1 a2
        have c1 : (2 : ℝ) ^ i ≤ 2 ^ m.nsoot := pow_le_pow_right₀ (by norm_num) (by omega)
        have c2 : (2 : ℝ) ^ j ≤ 2 ^ m.nsoot := pow_le_pow_right₀ (by norm_num) (by omega)
        have c3 := mul_le_mul_of_nonneg_left c1 h.bins.pos0.le
        have c4 := mul_le_mul_of_nonneg_left c2 h.bins.pos0.le
        rw [pow_succ]; linarith
      rw [hM, h2] at e1
      have e2 := le_of_mul_le_mul_left e1 h.bins.pos0
      have e3 : (2 : ℝ) ^ (m.nsoot + 1) < 2 ^ exactPos m i j := by
        rw [← Real.rpow_natCast]
        exact Real.rpow_lt_rpow_of_exponent_lt (by norm_num) (by push_cast; linarith)
      linarith
    linarith [show (2 : ℝ) ^ 64 > 2000 by norm_num]
  obtain ⟨⟨S1, g1, hS1, eS1⟩, btw⟩ := C96_coag_model m s glob h hg hgl hno δ d2 rnd hr fits
  obtain ⟨S2, S3, g2, hS2, hS3, e23⟩ := C88_exact m s glob h hg hgl h2 δ hδ hn rnd hr (by linarith [show (2 : ℝ) ^ 64 > 2000 by norm_num])
  have eC : C = S1 := by
    rw [hC, Res.ok.injEq, Prod.mk.injEq] at hS2
    rw [hS1, Res.ok.injEq, Prod.mk.injEq] at hS3
    rw [hS2.1, ← e23, ← hS3.1]
  have e84 : (5 * (m.nsoot : ℝ) * (m.nsoot + 1) + 14 * ((1 + 2) * (2 / (2 - 1)))) = 5 * m.nsoot * (m.nsoot + 1) + 84 := by norm_num
  have bigΩ : (10 : ℝ) ^ (230 : ℤ) ≤ 10 ^ (300 : ℤ) / 200 := by rw [om]; norm_num
  have bigΩ' : (10 : ℝ) ^ (230 : ℤ) ≤ 10 ^ (300 : ℤ) / 200 * 10 ^ (-26 : ℤ) := by rw [om]; norm_num
  have bigW : (10 : ℝ) ^ 11 ≤ 10 ^ (300 : ℤ) / 100 * 10 ^ (-26 : ℤ) := by rw [om]; norm_num
  have Ωp : (0 : ℝ) < 10 ^ (300 : ℤ) := by positivity
  have W1 : 0.55 * m.nsoot * (m.nsoot + 1) * ((9 * m.mBins.getD (m.nsoot - 1) 0 + 2) * η) ≤ 10 ^ 11 := by
    have h1 : (m.nsoot : ℝ) * (m.nsoot + 1) ≤ 1000 * 1001 := mul_le_mul nR (by linarith) (by linarith) (by norm_num)
    have h2 : (9 * m.mBins.getD (m.nsoot - 1) 0 + 2) * η ≤ 9002 := by
      have := mul_le_mul_of_nonneg_left η1 (show 0 ≤ 9 * m.mBins.getD (m.nsoot - 1) 0 + 2 by linarith only [pt])
      linarith only [this, b1]
    have h3 : (m.nsoot : ℝ) * (m.nsoot + 1) * ((9 * m.mBins.getD (m.nsoot - 1) 0 + 2) * η) ≤ 1000 * 1001 * 9002 := mul_le_mul h1 h2 (by positivity) (by norm_num)
    linarith only [h3]
  obtain ⟨E, hE, n3, n4, -⟩ := coag_err hS ho hc (t := t) (t' := t') btw κ1 (fun i j hij hj => (pr' i j (by omega) hj).2.2.1) (fun i j hij hj => (pr' i j (by omega) hj).2.1)
    (by rw [e84]; exact hL) (by rw [eV]; exact V1.trans bigΩ)
    (by rw [eV]; exact V1.trans (bigΩ'.trans (mul_le_mul_of_nonneg_left b26 (by positivity))))
    (W1.trans (bigW.trans (mul_le_mul_of_nonneg_left b26 (by positivity))))
  rw [eV, e84] at n3
  rw [eV] at n4
  have eC' : ∀ k, ((pairs m.nsoot).map (effect m.nsoot m.mBins t (fun i j => ⌊rnd i j (exactPos m i j)⌋₊) k)).sum = C k := fun k => by rw [eC, eS1 k]
  simp only [eC'] at n3 n4
  refine ⟨E, fun k hk => ?_, n3, n4, V0, V1⟩
  rw [if_pos hno, ← hE k hk]
  refine congrFun (coagLoopD_congr F _ _ _ _ _ fun q hq => ?_) k
  have hq := mem_pairs.1 hq
  rw [hsD, hsD]
  exact (pr' q.1 q.2 (by omega) hq.2).1

end FpSect

open FpK FpSect

/-! ## C116 -/

set_option maxHeartbeats 2000000 in
/-- **C116.** For every arithmetic with relative error `ε` and underflow error `η`: after a call of `setState` with arguments of a usual size at 300 K or
more, the sources that SECT computes on bins growing by a factor of two differ from the exact ones by at most about `310 ε` of the nucleation, `3200 ε` of the
growth, `(3 N + 1100) ε` of the oxidation and `2.3 κ + 5 n (n + 1) ε` of the coagulation, where the error of a section is weighted with its particle mass.
`J`, `kG`, `kO` are the exact rates, `A k` is the exact area of section `k` and `collMass` is the mass that collides. -/
theorem C116_sect_accuracy (F : Fp) (ε η : ℝ) (hF : F.Accurate ε) (hE : F.AccurateExp ε) (hS : F.Std ε η (10 ^ (300 : ℤ))) (h0 : F.rnd 0 = fin 0)
    (ε0 : 0 ≤ ε) (ε1 : ε ≤ 1 / 10 ^ 8) (η0 : 0 ≤ η) (η1 : η ≤ ε * 10 ^ (-250 : ℤ)) (s₀ : State) (a : SetArgs) (hs : (setState s₀ a).2 = Res.ok ())
    (hD : (setStateD F s₀.toD a.toD).2 = Res.ok ()) (hu : Usual a) (hT : 300 ≤ a.T) (c0 : 1 ≤ a.cMin) (c1 : a.cMin ≤ 10 ^ 6) (m : Model) (glob : Option ℝ)
    (hm : SectReady m (setState s₀ a).1) (hg : GeoBins m) (h2 : m.binF = 2) (hgl : OwnFactor m glob) (n1 : m.nsoot ≤ 1000)
    (hL : (5 * m.nsoot * (m.nsoot + 1) + 84) * ε ≤ 1 / 10)
    (hb : mmin * (1 + 3 * ε) < m.mBins.getD 0 0) (hb' : m.mBins.getD (m.nsoot - 1) 0 ≤ 10 ^ 3)
    (hc : ∀ k < m.nsoot, (setState s₀ a).1.sootVar.getD k 0 = 0 ∨ (1 ≤ (setState s₀ a).1.sootVar.getD k 0 ∧ (setState s₀ a).1.sootVar.getD k 0 ≤ 10 ^ 30))
    (f0 : 1 / 10 ^ 6 ≤ m.coag.fmMult) (f1 : m.coag.fmMult ≤ 10 ^ 6)
    (hn : m.nucl.mech = .NONE ∨ (m.nucl.mech ∈ [.LL, .LIN, .MB, .FAIR] ∧ Contains a .C2H2) ∨ (m.nucl.mech = .LINA1 ∧ Contains a .C6H6))
    (hgr : m.grow.mech = .NONE ∨ (m.grow.mech = .LIN ∧ Contains a .C2H2))
    (N : ℕ) (N1 : N ≤ 8200) (ho : SectOxidUsual a (setState s₀ a).1 m.oxid.cls N)
    (κ : ℝ) (κ1 : κ ≤ 1 / 100) (hk : SectCoagUsual F ε (setState s₀ a).1 m.coag.mech m.nsoot m.mBins κ)
    (δ : ℝ) (δ0 : 0 ≤ δ) (δ1 : δ ≤ 1 / 100) (hδ : δ * 2 ^ m.nsoot < 1) (rnd : ℕ → ℕ → ℝ → ℝ) (hr : Within δ rnd) :
    ∃ (m' : Model) (glob' : Option ℝ) (J kG kO : ℝ) (A y : ℕ → ℝ) (gn gg go Y : GasSp → ℝ) (f : ℕ → Dbl),
      sectSources m glob (setState s₀ a).1 = Res.ok (m', (setState s₀ a).1, glob') ∧
      m.nucl.rate (sectIbeta m) (setState s₀ a).1 = Res.ok (J, m.nucl, (setState s₀ a).1) ∧ m.grow.rate m.ctx (setState s₀ a).1 = Res.ok kG ∧
      m.oxid.rate m.ctx (setState s₀ a).1 = Res.ok kO ∧ 0 ≤ J ∧ 0 ≤ kG ∧ 0 ≤ kO ∧ (∀ k, 0 ≤ A k) ∧
      (∀ k < m.nsoot, ∀ d, IsSphere (m.mBins.getD k 0) d → A k = (setState s₀ a).1.sootVar.getD k 0 * (Real.pi * d ^ 2)) ∧
      gasRates m.nucl.ratio (J * (a.cMin * gasMW .C / Na)) = Res.ok gn ∧ gasRates m.grow.ratio (kG * ∑ k ∈ Finset.range m.nsoot, A k) = Res.ok gg ∧
      gasRates m.oxid.ratio (-(kO * ∑ k ∈ Finset.range m.nsoot, A k)) = Res.ok go ∧ (∀ sp, m'.sources.gas sp = gn sp + gg sp + go sp) ∧
      sectSourcesD F (setStateD F s₀.toD a.toD).1 m (fun i j => ⌊rnd i j (exactPos m i j)⌋₊) = Res.ok (f, fun sp => fin (Y sp)) ∧
      (∀ k < m.nsoot, f k = fin (y k)) ∧
      ∑ k ∈ Finset.range m.nsoot, m.mBins.getD k 0 * |y k - m'.sources.soot.getD k 0| ≤
        311 * ε * (J * (a.cMin * gasMW .C / Na)) + 3180 * ε * (kG * ∑ k ∈ Finset.range m.nsoot, A k) +
        (3 * N + 1110) * ε * (kO * ∑ k ∈ Finset.range m.nsoot, A k) +
        (2.3 * κ + (5.05 * m.nsoot * (m.nsoot + 1) + 95) * ε) * collMass m (setState s₀ a).1 +
        m.nsoot * (m.nsoot + 1) * (9 * m.mBins.getD (m.nsoot - 1) 0 + 2) * η ∧
      ∀ sp, |Y sp - m'.sources.gas sp| ≤ (323 + 1.2 * (m.nsoot + 1)) * ε * |gn sp| + (3180 + 3.4 * (m.nsoot + 1)) * ε * |gg sp| +
        (3 * N + 1110 + 3.4 * (m.nsoot + 1)) * ε * |go sp| + (m.nsoot * (403 * m.mBins.getD (m.nsoot - 1) 0 + 269) + 39) * η := by
  have hε : Sm ε := ⟨ε0, ε1⟩
  have e250 : (10 : ℝ) ^ (-250 : ℤ) ≤ 1 := zpow_le_one_of_nonpos₀ (by norm_num) (by norm_num)
  have ηε : η ≤ ε := η1.trans (mul_le_of_le_one_right ε0 e250)
  have ηone : η ≤ 1 := ηε.trans (ε1.trans (by norm_num))
  have okk : FpMass.Ok ε η (10 ^ (300 : ℤ)) := by
    refine ⟨ε0, η0, ?_, ηε, ?_⟩
    · norm_num at ε1 ⊢; linarith
    · rw [om]; norm_num
  have hS' : F.Std ε (ε * 10 ^ (-250 : ℤ)) (10 ^ (300 : ℤ)) := fun x hx => by
    obtain ⟨y, hy, e⟩ := hS x hx
    exact ⟨y, hy, by linarith⟩
  obtain ⟨hp, eg, es, ec, eT⟩ := pairR_of hF hε hs hD hu hT
  generalize hst : (setState s₀ a).1 = s at *
  generalize hdt : (setStateD F s₀.toD a.toD).1 = D at *
  have two := hm.bins.two
  obtain ⟨m', s', glob', J, n', kG, kO, C, r1, r2, r3, r4, r5, r6, rC, J0, G0, O0, -, r8, r9⟩ := sect_eval hm (hgl.globOk hm.bins hg)
  have wf := hm.wf
  have notPah : m.nucl.mech ≠ .PAH := by
    rcases hn with h | ⟨h, -⟩ | ⟨h, -⟩
    · rw [h]; simp
    · intro h'; rw [h'] at h; simp at h
    · rw [h]; simp
  have nnew := wf.nucl.new notPah
  have gnew := wf.grow
  have onew := wf.oxid
  have c0' : (10 : ℝ) ^ (0 : ℤ) ≤ s.cMin := by rw [ec]; simpa using c0
  have c1' : s.cMin ≤ (10 : ℝ) ^ (6 : ℤ) := by rw [ec]; norm_num at c1 ⊢; exact c1
  have pr : ∀ {sp}, Contains a sp → Present s sp := fun h => by simpa only [Present, eg, Contains] using h
  have b26 : (10 : ℝ) ^ (-26 : ℤ) ≤ m.mBins.getD 0 0 := by
    have l1 : (10 : ℝ) ^ (-26 : ℤ) ≤ mmin := by norm_num [mmin]
    have l2 : mmin ≤ mmin * (1 + 3 * ε) := le_mul_of_one_le_right mmin_pos.le (by linarith only [ε0])
    exact l1.trans (l2.trans hb.le)
  have b3 : m.mBins.getD 0 0 ≤ (10 : ℝ) ^ (3 : ℤ) := by
    have := (hm.bins.le (Nat.zero_le (m.nsoot - 1)) (by omega)).trans hb'
    exact this.trans (by norm_num)
  -- nucleation
  obtain ⟨jD, hj, aj, ns⟩ : ∃ jD, nuclRateD F D m.nucl.mech = Res.ok jD ∧ AccZ ε 294 (-130) 50 J jD ∧ n' = m.nucl ∧ s = s' := by
    rcases hn with h | h
    · refine ⟨fin 0, by rw [h]; simp [nuclRateD, h0], ?_⟩
      rw [nnew, h] at r2 ⊢
      simp only [Nucl.rate, Nucl.new, Res.ok.injEq, Prod.mk.injEq] at r2
      obtain ⟨q1, q2, q3⟩ := r2
      exact ⟨.inr ⟨q1.symm, rfl⟩, q2.symm, q3⟩
    · obtain ⟨x, X, q1, q2, q3⟩ := nuc_acc hF hε hp hE (sectIbeta m) c0' c1' m.nucl.mech (h.imp (fun h => ⟨h.1, pr h.2⟩) (fun h => ⟨h.1, pr h.2⟩))
      rw [← nnew, r2, Res.ok.injEq, Prod.mk.injEq, Prod.mk.injEq] at q1
      obtain ⟨e1, e2, e3⟩ := q1
      exact ⟨X, q2, by rw [e1]; exact .inl q3, e2, e3.symm⟩
  obtain ⟨ns, ss⟩ := ns
  subst ss
  subst ns
  -- growth
  obtain ⟨gD, hgD, ag⟩ : ∃ gD, growRateD F D m.grow.mech = Res.ok gD ∧
      AccZ ε 700 (-160) 50 kG gD := by
    rcases hgr with h | ⟨h, hC⟩
    · refine ⟨fin 0, by rw [h]; simp [growRateD, h0], .inr ⟨?_, rfl⟩⟩
      rw [gnew, h] at r5
      simp only [Grow.rate, Grow.new, Res.ok.injEq] at r5
      exact r5.symm
    · obtain ⟨x, X, q1, q2, q3⟩ := lin_acc hF hε hp hE m.ctx (pr hC)
      rw [← h, ← gnew, r5, Res.ok.injEq] at q1
      exact ⟨X, by rw [h]; exact q2, by rw [q1]; exact .inl q3⟩
  -- oxidation
  have hgP : m.grow.mech = .NONE ∨ m.grow.mech = .LIN := hgr.imp id And.left
  obtain ⟨nMB, ho⟩ := ho
  obtain ⟨oD, hoD, ao⟩ : ∃ oD, oxidRateD F D m.oxid.cls = Res.ok oD ∧ AccZ ε N (-210) 120 kO oD := by
    rcases ho with h | ⟨h, hO, hH, hN⟩ | ⟨h, hO, hH, p, r, hpp, p0, rr0, rr1, hr, hN⟩
    · refine ⟨fin 0, by rw [h]; simp [oxidRateD, h0], .inr ⟨?_, rfl⟩⟩
      rw [onew, h] at r6
      simp only [Oxid.rate, Oxid.new, Res.ok.injEq] at r6
      exact r6.symm
    · obtain ⟨x, X, q1, q2, q3⟩ := sect_oxid_acc hF hε hp hE m.ctx (two.trans hm.len) m.oxid h nMB (pr hO) (pr hH)
      rw [r6, Res.ok.injEq] at q1
      exact ⟨X, q2, by rw [q1]; exact .inl (q3.mono hε hN (by norm_num) (by norm_num))⟩
    · obtain ⟨x, X, q1, q2, q3⟩ := nsc_acc hF hε hE hS' hp m.ctx m.oxid h (pr hO) (pr hH) (pO := p * 101325) hpp
        (by norm_num at p0 ⊢; linarith) r rr0 rr1 (by rw [eT, mul_div_cancel_right₀ p (by norm_num : (101325 : ℝ) ≠ 0)]; exact hr)
      rw [r6, Res.ok.injEq] at q1
      exact ⟨X, q2, by rw [q1]; exact .inl (q3.mono hε hN (by norm_num) (by norm_num))⟩
  -- the transport
  have cg := cgrid_of (m := m) ε0 ε1 η1 hm.bins hg h2 b26 hb'
  have aA := area_part (m := m) (s := s) hF hε h0 hm.bins b26 hb' hc
  have kGN : ¬ m.grow.mech ≠ .NONE → kG = 0 := fun h => by
    rw [not_not] at h
    rw [gnew, h] at r5
    simp only [Grow.rate, Grow.new, Res.ok.injEq] at r5
    exact r5.symm
  have kON : ¬ m.oxid.mechType ≠ .NONE → kO = 0 := fun h => by
    have hcl : m.oxid.cls = .NONE := by
      rw [not_not, onew] at h
      generalize m.oxid.cls = c at h ⊢
      cases c <;> simp [Oxid.new, oxidMechType] at h ⊢
    rw [onew, hcl] at r6
    simp only [Oxid.rate, Oxid.new, Res.ok.injEq] at r6
    exact r6.symm
  obtain ⟨U, hU, eU, nU, mU, G0', G1'⟩ := up_part hF hε h0 hS okk cg b26 n1 aA ag kGN
  obtain ⟨W, hW, eW, nW, mW, X0', X1'⟩ := down_part hF hε h0 hS okk cg b26 n1 aA N1 ao kON
  obtain ⟨κ0, E, hE', eE, nE, V0, V1⟩ := coag_part hF hε h0 hS okk ηone hp.toPair (soot_getD hp) hm hg h2 hgl cg n1 hb hb' hc f0 f1 κ1 hk hL δ0 δ1 hδ hr rC
  -- the mass of nucleation
  have hMC : Acc ε 1 1 2 (gasMW .C) (F.rnd (gasMW .C)) := .lit hF hε (by norm_num [gasMW]) (by norm_num [gasMW]) (by norm_num) (by norm_num)
  have hNa : Acc ε 1 26 27 Na (F.rnd Na) := .lit hF hε (by norm_num [Na]) (by norm_num [Na]) (by norm_num) (by norm_num)
  have aM := ((Acc.exact c0' c1').z.mul hF hε h0 hMC.z (by norm_num) (by norm_num) (by norm_num)).div hF hε h0 hNa (by norm_num) (by norm_num) (by norm_num)
  have aJM := aj.mul hF hε h0 aM (by norm_num) (by norm_num) (by norm_num)
  have aX := aJM.div hF hε h0 (Acc.exact b26 b3) (by norm_num) (by norm_num) (by norm_num)
  obtain ⟨-, -, -, n0, bn⟩ := aJM.final (N := 302) hε (by norm_num) (by norm_num)
  obtain ⟨x, hx, ex, -, -⟩ := aX.final (N := 306) hε (by norm_num) (by norm_num)
  have cx : ∀ k, (if m.nucl.mech ≠ .NONE ∧ k = 0 then F.div (F.mul jD (F.div (F.mul (fin s.cMin) (F.rnd (gasMW .C))) (F.rnd Na))) (fin (m.mBins.getD 0 0)) else fin 0) =
      fin (if k = 0 then x else 0) := by
    intro k
    by_cases h : m.nucl.mech = .NONE
    · rw [if_neg (by simp [h])]
      have : x = 0 := by
        have : J = 0 := by
          rw [nnew, h] at r2
          simp only [Nucl.rate, Nucl.new, Res.ok.injEq, Prod.mk.injEq] at r2
          exact r2.1.symm
        rw [this] at ex
        simpa using ex
      rw [this]; simp
    · by_cases hk0 : k = 0
      · rw [if_pos ⟨h, hk0⟩, if_pos hk0]; exact hx
      · rw [if_neg (by simp [hk0]), if_neg hk0]
  have sN : FpMass.Stoich m.nucl.ratio := by rw [nnew]; exact FpMass.nucl_stoich notPah
  have sG : FpMass.Stoich m.grow.ratio := by rw [gnew]; exact FpMass.grow_stoich _
  have sX : FpMass.Stoich m.oxid.ratio := by rw [onew]; exact FpMass.oxid_stoich _
  have N8 : (N : ℝ) ≤ 8200 := by exact_mod_cast N1
  have hZ : 20 * (10 : ℝ) ^ (230 : ℤ) + 10 ^ 12 ≤ m.mBins.getD 0 0 * (10 ^ (300 : ℤ) / 1000) := by
    refine le_trans ?_ (mul_le_mul_of_nonneg_right b26 (by positivity))
    rw [om]; norm_num
  have hZ' : 20 * (10 : ℝ) ^ (230 : ℤ) + 10 ^ 12 ≤ 10 ^ (300 : ℤ) / 4000 := by rw [om]; norm_num
  obtain ⟨⟨y, hy, ey⟩, Y, hY⟩ := sect_total (M := J * (s.cMin * gasMW .C / Na)) (x := x) (N := N) hS okk ε1 ηone hm.bins n1 (hb'.trans (by norm_num)) hL
    (Z := (10 : ℝ) ^ (230 : ℤ)) (by positivity) hZ hZ' sN sG sX (Nat.cast_nonneg N) N8 κ0 κ1 n0 G0' X0' V0 (bn.trans (by norm_num)) G1' X1' V1
    (a := fun k => if k = 0 then x else 0) (fun _ _ => rfl) (by exact_mod_cast ex) nU eU mU nW eW mW nE eE
  obtain ⟨gn, gg, go, t1, t2, t3, t4⟩ := Model.finish_inv r8
  have gasE : ∀ sp, m'.sources.gas sp = gn sp + gg sp + go sp := fun sp => by rw [t4]
  have sD := soot_getD hp
  rw [ec] at t1
  simp only [ec] at hY ey
  obtain ⟨f, hf, hfk⟩ : ∃ f, sectSourcesD F D m (fun i j => ⌊rnd i j (exactPos m i j)⌋₊) = Res.ok (f, fun sp => fin (Y sp)) ∧ ∀ k < m.nsoot, f k = fin (y k) := by
    simp only [sectSourcesD, if_pos hgP, if_neg nMB, hj, hgD, hoD, ok_bind, hp.cMin, sD, cx]
    refine ⟨_, congrArg Res.ok (Prod.ext rfl ?_), fun k hk' => ?_⟩
    · funext sp
      refine Eq.trans ?_ (hY sp).1
      show gasSourcesD F _ _ _ _ _ _ sp = _
      congr 1
      · exact mdotD_congr F _ _ hU
      · exact mdotD_congr F _ _ hW
    · rw [← hy k hk']
      have e := hE' k hk'
      simp only [sD] at e
      unfold sectSumD
      rw [hU k hk', hW k hk', e]
  refine ⟨m', glob', J, kG, kO, binArea m s, y, gn, gg, go, Y, f, r1, r2, r5, r6, J0, G0, O0, binArea_nonneg hm,
    fun k hk' d hd => binArea_spec hm.bins s hk' hd.1.le (by rw [hd.2]; ring), t1, t2, t3, gasE, hf, hfk, ?_, ?_⟩
  · refine le_trans (le_of_eq (Finset.sum_congr rfl fun k hk' => ?_)) ey
    have hk' := Finset.mem_range.1 hk'
    have e : m'.sources.soot.getD k 0 = (if k = 0 then J * (a.cMin * gasMW .C / Na) / m.mBins.getD 0 0 else 0) +
        upVal m.nsoot m.mBins (fun k => kG * binArea m s k) k + downVal m.nsoot m.mBins (fun k => kO * binArea m s k) k + C k := by
      rw [r9, List.getD_eq_getElem?_getD, List.getElem?_map, List.getElem?_range hk']
      simp only [Option.map_some, Option.getD_some, if_neg notPah, ec, add_zero]
    rw [e]
  · intro sp
    have q := (hY sp).2
    rw [gasE, gasRates_term t1, gasRates_term t2, gasRates_term t3]
    exact q

set_option maxHeartbeats 1000000 in
/-- **C116 (binary64).** In IEEE double precision, with up to 39 sections, the sources of SECT are right to eleven digits of the processes that make them up. -/
theorem C116_digits (s₀ : State) (a : SetArgs) (hs : (setState s₀ a).2 = Res.ok ()) (hD : (setStateD binary64 s₀.toD a.toD).2 = Res.ok ()) (hu : Usual a)
    (hT : 300 ≤ a.T) (c0 : 1 ≤ a.cMin) (c1 : a.cMin ≤ 10 ^ 6) (m : Model) (glob : Option ℝ)
    (hm : SectReady m (setState s₀ a).1) (hg : GeoBins m) (h2 : m.binF = 2) (hgl : OwnFactor m glob) (n1 : m.nsoot ≤ 39)
    (hb : mmin * (1 + 1 / 10 ^ 15) ≤ m.mBins.getD 0 0) (hb' : m.mBins.getD (m.nsoot - 1) 0 ≤ 10 ^ 3)
    (hc : ∀ k < m.nsoot, (setState s₀ a).1.sootVar.getD k 0 = 0 ∨ (1 ≤ (setState s₀ a).1.sootVar.getD k 0 ∧ (setState s₀ a).1.sootVar.getD k 0 ≤ 10 ^ 30))
    (f0 : 1 / 10 ^ 6 ≤ m.coag.fmMult) (f1 : m.coag.fmMult ≤ 10 ^ 6) (hA : Contains a .C2H2) (hB : Contains a .C6H6) (hO : Contains a .O2)
    (hH : Contains a .OH) (hn : m.nucl.mech ∈ [.NONE, .LL, .LIN, .MB, .FAIR, .LINA1]) (hgr : m.grow.mech ∈ [.NONE, .LIN])
    (ho : m.oxid.cls ∈ [.NONE, .LL, .FAIR, .LEE_NEOH, .OPTJ, .OPTG, .BROWN, .AJ_RED]) (hk : m.coag.mech ∈ [.NONE, .FM, .CONTINUUM, .HM])
    (rnd : ℕ → ℕ → ℝ → ℝ) (hr : Within (1 / 10 ^ 12) rnd) :
    ∃ (m' : Model) (glob' : Option ℝ) (J kG kO : ℝ) (A y : ℕ → ℝ) (gn gg go Y : GasSp → ℝ) (f : ℕ → Dbl),
      sectSources m glob (setState s₀ a).1 = Res.ok (m', (setState s₀ a).1, glob') ∧
      m.nucl.rate (sectIbeta m) (setState s₀ a).1 = Res.ok (J, m.nucl, (setState s₀ a).1) ∧ m.grow.rate m.ctx (setState s₀ a).1 = Res.ok kG ∧
      m.oxid.rate m.ctx (setState s₀ a).1 = Res.ok kO ∧ 0 ≤ J ∧ 0 ≤ kG ∧ 0 ≤ kO ∧ (∀ k, 0 ≤ A k) ∧
      (∀ k < m.nsoot, ∀ d, IsSphere (m.mBins.getD k 0) d → A k = (setState s₀ a).1.sootVar.getD k 0 * (Real.pi * d ^ 2)) ∧
      gasRates m.nucl.ratio (J * (a.cMin * gasMW .C / Na)) = Res.ok gn ∧ gasRates m.grow.ratio (kG * ∑ k ∈ Finset.range m.nsoot, A k) = Res.ok gg ∧
      gasRates m.oxid.ratio (-(kO * ∑ k ∈ Finset.range m.nsoot, A k)) = Res.ok go ∧ (∀ sp, m'.sources.gas sp = gn sp + gg sp + go sp) ∧
      sectSourcesD binary64 (setStateD binary64 s₀.toD a.toD).1 m (fun i j => ⌊rnd i j (exactPos m i j)⌋₊) = Res.ok (f, fun sp => fin (Y sp)) ∧
      (∀ k < m.nsoot, f k = fin (y k)) ∧
      ∑ k ∈ Finset.range m.nsoot, m.mBins.getD k 0 * |y k - m'.sources.soot.getD k 0| ≤
        3 / 10 ^ 12 * (J * (a.cMin * gasMW .C / Na) + kG * ∑ k ∈ Finset.range m.nsoot, A k + kO * ∑ k ∈ Finset.range m.nsoot, A k +
          collMass m (setState s₀ a).1) + 1 / 10 ^ 200 ∧
      ∀ sp, |Y sp - m'.sources.gas sp| ≤ 1 / 10 ^ 12 * (|gn sp| + |gg sp| + |go sp|) + 1 / 10 ^ 200 := by
  obtain ⟨be, bs⟩ := C101_binary64
  have e0 : (0 : ℝ) ≤ 2 ^ (-52 : ℤ) := by positivity
  have e : mmin * (1 + 3 * 2 ^ (-52 : ℤ)) < mmin * (1 + 1 / 10 ^ 15) := mul_lt_mul_of_pos_left (by norm_num) mmin_pos
  have hη : (2 : ℝ) ^ (-52 : ℤ) * 10 ^ (-250 : ℤ) ≤ 1 / 10 ^ 210 := by
    have h1 : (10 : ℝ) ^ (-250 : ℤ) ≤ 10 ^ (-210 : ℤ) := zpow_le_zpow_right₀ (by norm_num) (by norm_num)
    have h2 : (10 : ℝ) ^ (-210 : ℤ) = 1 / 10 ^ 210 := by rw [zpow_neg, one_div]; rfl
    have h3 : (2 : ℝ) ^ (-52 : ℤ) ≤ 1 := by norm_num
    have h4 : (0 : ℝ) ≤ 10 ^ (-250 : ℤ) := by positivity
    rw [← h2]
    exact (mul_le_of_le_one_left h4 h3).trans h1
  have hη0 : (0 : ℝ) ≤ (2 : ℝ) ^ (-52 : ℤ) * 10 ^ (-250 : ℤ) := by positivity
  have hq : (10 : ℝ) ^ 9 * (1 / 10 ^ 210) ≤ 1 / 10 ^ 200 := by norm_num
  have nR : (m.nsoot : ℝ) ≤ 39 := by exact_mod_cast n1
  have n0 : (0 : ℝ) ≤ m.nsoot := Nat.cast_nonneg _
  have nn : (m.nsoot : ℝ) * (m.nsoot + 1) ≤ 39 * 40 := mul_le_mul nR (by linarith) (by linarith) (by norm_num)
  have pw : (1 : ℝ) / 10 ^ 12 * 2 ^ m.nsoot < 1 := by
    have : (2 : ℝ) ^ m.nsoot ≤ 2 ^ 39 := pow_le_pow_right₀ (by norm_num) n1
    exact (mul_le_mul_of_nonneg_left this (by positivity)).trans_lt (by norm_num)
  have two := hm.bins.two
  have pt := hm.bins.pos (show m.nsoot - 1 < m.nsoot by omega)
  simp only [List.mem_cons, List.not_mem_nil, or_false] at hn hgr ho hk
  obtain ⟨m', glob', J, kG, kO, A, y, gn, gg, go, Y, f, r1, r2, r3, r4, J0, G0, O0, Ak, r5, r6, r7, r8, r9, r10, r11, r12, r13⟩ :=
    C116_sect_accuracy binary64 _ _ C99_binary64.1 be bs binary64_zero e0 (by norm_num) hη0 le_rfl s₀ a hs hD hu hT c0 c1 m glob hm hg h2 hgl (by omega)
      (by
        have : (5 * (m.nsoot : ℝ) * (m.nsoot + 1) + 84) * 2 ^ (-52 : ℤ) ≤ (5 * (39 * 40) + 84) * 2 ^ (-52 : ℤ) := mul_le_mul_of_nonneg_right (by linarith) e0
        exact this.trans (by norm_num))
      (e.trans_le hb) hb' hc f0 f1
      (by
        rcases hn with h | h | h | h | h | h
        · exact .inl h
        all_goals simp [h, hA, hB])
      (by
        rcases hgr with h | h
        · exact .inl h
        · exact .inr ⟨h, hA⟩)
      450 (by norm_num)
      (by
        rcases ho with h | h | h | h | h | h | h | h
        · exact ⟨by rw [h]; simp, .inl h⟩
        all_goals exact ⟨by rw [h]; simp, .inr (.inl (by simp [h, hO, hH]))⟩)
      (1000 * 2 ^ (-52 : ℤ)) (by norm_num)
      (by
        rcases hk with h | h | h | h
        · exact .inl ⟨h, by positivity⟩
        all_goals exact .inr (.inl (by simp [h])))
      _ (by positivity) (by norm_num) pw rnd hr
  refine ⟨m', glob', J, kG, kO, A, y, gn, gg, go, Y, f, r1, r2, r3, r4, J0, G0, O0, Ak, r5, r6, r7, r8, r9, r10, r11, r12.trans ?_, fun sp => (r13 sp).trans ?_⟩
  · have cp : 0 ≤ J * (a.cMin * gasMW .C / Na) := mul_nonneg J0 (div_nonneg (mul_nonneg (by linarith) (by norm_num [gasMW])) (by norm_num [Na]))
    have A0 : 0 ≤ ∑ k ∈ Finset.range m.nsoot, A k := Finset.sum_nonneg fun k _ => Ak k
    have V0 : 0 ≤ collMass m (setState s₀ a).1 := by
      rw [← moved_sum hm]
      refine List.sum_nonneg fun x hx => ?_
      obtain ⟨q, hq, rfl⟩ := List.mem_map.1 hx
      have := mem_pairs.1 hq
      exact moved_nonneg hm.bins _ (by omega) this.2
    have q1 := mul_le_mul_of_nonneg_right (show 311 * (2 : ℝ) ^ (-52 : ℤ) ≤ 3 / 10 ^ 12 by norm_num) cp
    have q2 := mul_le_mul_of_nonneg_right (show 3180 * (2 : ℝ) ^ (-52 : ℤ) ≤ 3 / 10 ^ 12 by norm_num) (mul_nonneg G0 A0)
    have q3 := mul_le_mul_of_nonneg_right (show (3 * ((450 : ℕ) : ℝ) + 1110) * (2 : ℝ) ^ (-52 : ℤ) ≤ 3 / 10 ^ 12 by norm_num) (mul_nonneg O0 A0)
    have q4 := mul_le_mul_of_nonneg_right (show 2.3 * (1000 * (2 : ℝ) ^ (-52 : ℤ)) + (5.05 * m.nsoot * (m.nsoot + 1) + 95) * 2 ^ (-52 : ℤ) ≤ 3 / 10 ^ 12 by
      have : (5.05 * (m.nsoot : ℝ) * (m.nsoot + 1) + 95) * 2 ^ (-52 : ℤ) ≤ (5.05 * (39 * 40) + 95) * 2 ^ (-52 : ℤ) := mul_le_mul_of_nonneg_right (by linarith) e0
      refine (add_le_add_right this _).trans (by norm_num)) V0
    have q5 : m.nsoot * (m.nsoot + 1) * (9 * m.mBins.getD (m.nsoot - 1) 0 + 2) * ((2 : ℝ) ^ (-52 : ℤ) * 10 ^ (-250 : ℤ)) ≤ 1 / 10 ^ 200 := by
      have h1 : (m.nsoot : ℝ) * (m.nsoot + 1) * (9 * m.mBins.getD (m.nsoot - 1) 0 + 2) ≤ 10 ^ 9 :=
        (mul_le_mul nn (show 9 * m.mBins.getD (m.nsoot - 1) 0 + 2 ≤ 9 * 10 ^ 3 + 2 by linarith) (by linarith) (by norm_num)).trans (by norm_num)
      exact (mul_le_mul h1 hη hη0 (by positivity)).trans hq
    exact (add_le_add (add_le_add (add_le_add (add_le_add q1 q2) q3) q4) q5).trans (le_of_eq (by ring))
  · have q1 := mul_le_mul_of_nonneg_right (show (323 + 1.2 * ((m.nsoot : ℝ) + 1)) * (2 : ℝ) ^ (-52 : ℤ) ≤ 1 / 10 ^ 12 from
      (mul_le_mul_of_nonneg_right (show (323 + 1.2 * ((m.nsoot : ℝ) + 1)) ≤ 371 by linarith) e0).trans (by norm_num)) (abs_nonneg (gn sp))
    have q2 := mul_le_mul_of_nonneg_right (show (3180 + 3.4 * ((m.nsoot : ℝ) + 1)) * (2 : ℝ) ^ (-52 : ℤ) ≤ 1 / 10 ^ 12 from
      (mul_le_mul_of_nonneg_right (show (3180 + 3.4 * ((m.nsoot : ℝ) + 1)) ≤ 3316 by linarith) e0).trans (by norm_num)) (abs_nonneg (gg sp))
    have q3 := mul_le_mul_of_nonneg_right (show (3 * ((450 : ℕ) : ℝ) + 1110 + 3.4 * ((m.nsoot : ℝ) + 1)) * (2 : ℝ) ^ (-52 : ℤ) ≤ 1 / 10 ^ 12 from
      (mul_le_mul_of_nonneg_right (show (3 * ((450 : ℕ) : ℝ) + 1110 + 3.4 * ((m.nsoot : ℝ) + 1)) ≤ 2596 by push_cast; linarith) e0).trans (by norm_num)) (abs_nonneg (go sp))
    have q5 : (m.nsoot * (403 * m.mBins.getD (m.nsoot - 1) 0 + 269) + 39) * ((2 : ℝ) ^ (-52 : ℤ) * 10 ^ (-250 : ℤ)) ≤ 1 / 10 ^ 200 := by
      have h1 : (m.nsoot : ℝ) * (403 * m.mBins.getD (m.nsoot - 1) 0 + 269) + 39 ≤ 10 ^ 9 := by
        have := mul_le_mul nR (show 403 * m.mBins.getD (m.nsoot - 1) 0 + 269 ≤ 403 * 10 ^ 3 + 269 by linarith) (by linarith) (by norm_num)
        linarith
      exact (mul_le_mul h1 hη hη0 (by positivity)).trans hq
    exact (add_le_add (add_le_add (add_le_add q1 q2) q3) q5).trans (le_of_eq (by ring))

/-! ## An example -/

/-- The gas of `argsBurn` with four sections. -/
noncomputable def argsBurn4 : SetArgs := { argsBurn with sootVar := [1E15, 1E14, 0, 1E13], nsoot := 4 }

theorem argsBurn4_ok : (setState (State.mk' 4 0) argsBurn4).2 = Res.ok () ∧ (setStateD binary64 (State.mk' 4 0).toD argsBurn4.toD).2 = Res.ok () := by
  have q := argsEx2_admissible
  have adm : Admissible 4 0 6 argsBurn4 := ⟨q.T, q.P, q.rho, q.mu, q.cMin, by
    intro i h k
    simp [argsBurn4] at h
    omega, q.tar, q.gas, by simp [argsBurn4, argsBurn], by simp [argsBurn4, argsBurn], by simp [argsBurn4, argsBurn]⟩
  have h1 : (setState (State.mk' 4 0) argsBurn4).2 = Res.ok () := by
    rw [C01_setState_accepts _ _ (by simp [State.mk', argsBurn4]) (by simp [State.mk']) (by simpa [State.mk', nPah] using adm)]
  refine ⟨h1, ?_⟩
  have hs : (State.mk' 4 0).toD.nsoot.toNat ≤ argsBurn4.toD.sootVar.length := by simp [State.mk', State.toD, argsBurn4, SetArgs.toD]
  have ht : (State.mk' 4 0).toD.Ntar.toNat ≤ argsBurn4.toD.tarVar.length := by simp [State.mk', State.toD]
  have q := (C77_accepts_iff .exact (State.mk' 4 0).toD argsBurn4.toD hs ht).1.1 (by rw [C77_agrees_partial]; exact h1)
  refine (C77_accepts_iff binary64 (State.mk' 4 0).toD argsBurn4.toD hs ht).1.2
    ⟨q.T, q.P, q.rho, q.mu, q.cMin, q.soot, q.tar, q.gas, q.pahSize, q.pah, ?_⟩
  have z : binary64.add (fin 0) (fin 0) = fin 0 := by show binary64.rnd (0 + 0) = _; rw [add_zero, binary64_zero]
  have e : argsBurn4.toD.yPah.foldl binary64.add (fin 0) = fin 0 := by
    simp [SetArgs.toD, argsBurn4, argsBurn, List.replicate, z]
  rw [e]
  show ¬ (1 : ℝ) < 0
  norm_num

theorem argsBurn4_eq : (setState (State.mk' 4 0) argsBurn4).1 = stateAfter (State.mk' 4 0) argsBurn4 := by
  obtain ⟨r1, r2⟩ := setState_ok_range argsBurn4_ok.1
  rw [C01_setState_accepts _ _ r1 r2 ((C01_setState_iff _ _ r1 r2).1 argsBurn4_ok.1)]

theorem argsBurn4_ready : SectReady (exModel .SECT 4 .LL .LIN .LL .HM) (setState (State.mk' 4 0) argsBurn4).1 := by
  have eq := argsBurn4_eq
  have R := exSectReady 4 .LL (by simp) (by simp) .LIN .LL .HM [0, 0, 0, 0] false rfl (by norm_num) (by simp)
  exact {
    wf := R.wf
    fm := by norm_num [exModel, Coag.new]
    gas := by
      refine ⟨⟨_, _, argsBurn4_ok.1 ▸ rfl, rfl⟩, ?_, ?_⟩
      · rw [eq]; simp [stateAfter, argsBurn4, argsBurn, argsEx2, nGas]
      · rw [eq]
        intro y hy; simp [stateAfter, argsBurn4, argsBurn, argsEx2] at hy
        rcases hy with h|h|h|h|h|h|h|h|h|h|h <;> subst h <;> norm_num
    pah := by rw [eq]; simp [stateAfter, argsBurn4, argsBurn, nPah]
    sized := by
      rw [eq]
      exact ⟨by simp [stateAfter, argsBurn4], fun h => ⟨by simp [Model.ctx, exModel, stateAfter, argsBurn4], (R.sized.sect h).2.1, by simp [Model.ctx, exModel, stateAfter, State.mk', argsBurn4]⟩, R.sized.bins⟩
    sing := by simp [exModel, Grow.new, Oxid.new]
    tar := by simp [exModel, Nucl.new]
    mtar := by simp [exModel, Nucl.new]
    psd := rfl
    bins := R.bins }

/-- Four sections with nucleation, growth, oxidation and harmonic-mean coagulation in burnt products: the sources computed in double precision are finite. -/
example : ∃ (m' : Model) (glob' : Option ℝ) (y : ℕ → ℝ) (Y : GasSp → ℝ) (f : ℕ → Dbl),
    sectSources (exModel .SECT 4 .LL .LIN .LL .HM) none (setState (State.mk' 4 0) argsBurn4).1 = Res.ok (m', (setState (State.mk' 4 0) argsBurn4).1, glob') ∧
    sectSourcesD binary64 (setStateD binary64 (State.mk' 4 0).toD argsBurn4.toD).1 (exModel .SECT 4 .LL .LIN .LL .HM)
      (fun i j => ⌊exactPos (exModel .SECT 4 .LL .LIN .LL .HM) i j⌋₊) = Res.ok (f, fun sp => fin (Y sp)) ∧ ∀ k < 4, f k = fin (y k) := by
  have pr : ∀ sp : GasSp, ∀ y, argsBurn4.yGas[sp.toNat]? = some y → 1 / 10 ^ 100 ≤ y → y ≤ 1 → Contains argsBurn4 sp := fun sp y h1 h2 h3 =>
    ⟨y, h1, by rw [zpow_neg, ← one_div]; exact_mod_cast h2, h3⟩
  have hb : ∀ k < 4, (exModel .SECT 4 .LL .LIN .LL .HM).mBins.getD k 0 = 100 * gasMW .C / Na * 2 ^ k := fun k hk => by
    simp only [exModel, if_true]
    rw [binMasses_getD hk]; ring
  have sv : (setState (State.mk' 4 0) argsBurn4).1.sootVar = [1E15, 1E14, 0, 1E13] := by
    rw [argsBurn4_eq]; norm_num [stateAfter, argsBurn4]
  obtain ⟨m', glob', _, _, _, _, y, _, _, _, Y, f, h1, _, _, _, _, _, _, _, _, _, _, _, _, h2, h3, _⟩ :=
    C116_digits (State.mk' 4 0) _ argsBurn4_ok.1 argsBurn4_ok.2 (by constructor <;> norm_num [argsBurn4, argsBurn, argsEx2, argsEx])
    (by norm_num [argsBurn4, argsBurn, argsEx2, argsEx]) (by norm_num [argsBurn4, argsBurn, argsEx2, argsEx]) (by norm_num [argsBurn4, argsBurn, argsEx2, argsEx])
    _ none argsBurn4_ready (exGeoBins 4 .LL .LIN .LL .HM (by norm_num)) rfl (.inl rfl) (by simp [exModel])
    (by rw [hb 0 (by norm_num)]; norm_num [mmin, gasMW, Na]) (by rw [show (exModel .SECT 4 .LL .LIN .LL .HM).nsoot - 1 = 3 from rfl, hb 3 (by norm_num)]; norm_num [gasMW, Na])
    (by
      intro k hk
      have hk : k < 4 := hk
      rw [sv]
      interval_cases k <;> norm_num)
    (by norm_num [exModel, Coag.new]) (by norm_num [exModel, Coag.new])
    (pr _ 0.05 rfl (by norm_num) (by norm_num)) (pr _ 0.001 rfl (by norm_num) (by norm_num)) (pr _ 0.1 rfl (by norm_num) (by norm_num))
    (pr _ 0.001 rfl (by norm_num) (by norm_num)) (by simp [exModel, Nucl.new]) (by simp [exModel, Grow.new]) (by simp [exModel, Oxid.new]) (by simp [exModel, Coag.new])
    (fun _ _ x => x) (fun _ _ _ => by norm_num)
  exact ⟨m', glob', y, Y, f, h1, h2, h3⟩

end Soot
