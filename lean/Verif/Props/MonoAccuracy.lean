import Verif.Props.FpMono

/-!
# C102: the source terms of the monodisperse model are accurate in floating point

`setState` followed by `sootModel_MONO::setSourceTerms`, both over doubles, compared with the sources in exact arithmetic (whose formulas C24 pins).  The
sources are differences of gains and losses, so the bound is relative to the size of each process, not to the difference.
-/

namespace Soot

open Dbl Res
open scoped Classical

/-- Oxidation mechanisms for which C101 bounds the relative error of the rate by about `N ε`. -/
def OxidUsual (a : SetArgs) (s : State) (o : OxidMech) (N : ℕ) : Prop :=
  o = .NONE ∨ (o ∈ [.LL, .FAIR, .LEE_NEOH, .OPTJ, .OPTG, .MB, .BROWN, .AJ_RED] ∧ Contains a .O2 ∧ Contains a .OH ∧ 450 ≤ N) ∨
    (o = .NSC_NEOH ∧ Contains a .O2 ∧ Contains a .OH ∧ ∃ (p : ℝ) (r : ℕ), s.gasP .O2 = Res.ok (p * 101325) ∧ 1 / 10 ^ 20 ≤ p ∧ 1 ≤ r ∧ r ≤ 400 ∧
      4.46E-3 * Real.exp (-7650 / a.T) * (1 + 21.3 * Real.exp (2063 / a.T) * p) ≤ r * (20 * Real.exp (-15098 / a.T)) ∧ 600 + 19 * r ≤ N)

/-- Coagulation kernels for which C99 bounds the relative error at mass `m` by about `κ`. -/
def CoagUsual (F : Fp) (ε : ℝ) (s : State) (k : CoagMech) (m κ : ℝ) : Prop :=
  (k = .NONE ∧ 0 ≤ κ) ∨ (k ∈ [.FM, .CONTINUUM, .HM] ∧ 1000 * ε ≤ κ) ∨
    (k = .FUCHS ∧ F.rnd 3 = fin 3 ∧ F.rnd 1.5 = fin 1.5 ∧ ∃ d r : ℝ, IsSphere m d ∧ (d ≤ r * specStop s m d ∧ specStop s m d ≤ r * d) ∧
      4 * r ^ 2 * ε ≤ 1 / 10 ^ 9 ∧ 2800 * r * ε ≤ κ)

namespace FpK

variable {F : Fp} {ε : ℝ}

theorem above_acc (hF : F.Accurate ε) (hε : Sm ε) {m : ℝ} {M : Dbl} (hm : Acc ε 1 (-26) 3 m M) (h : mmin * (1 + 3 * ε) < m) : ¬ M.le (F.rnd mmin) := by
  obtain ⟨x, hx, e⟩ := cut_acc hF
  obtain ⟨y, rfl, h1, -⟩ := hm.val
  rw [hx]
  rw [abs_le] at e
  rw [pow_one] at h1
  show ¬ y ≤ x
  have e0 := hε.pos
  have e1 := hε.le
  have p := mmin_pos
  have q : mmin * (1 + 3 * ε) * (1 - ε) ≤ m * (1 - ε) := mul_le_mul_of_nonneg_right h.le hε.one.le
  have q' : mmin * (1 + 3 * ε) * (1 - ε) < m * (1 - ε) := mul_lt_mul_of_pos_right h hε.one
  have r : mmin * (1 + ε) ≤ mmin * (1 + 3 * ε) * (1 - ε) := by
    rw [mul_assoc]
    refine mul_le_mul_of_nonneg_left ?_ p.le
    have : ε * ε ≤ 1 / 10 ^ 8 * ε := mul_le_mul_of_nonneg_right e1 e0
    norm_num at this
    nlinarith
  linarith

section

variable (hF : F.Accurate ε) (hε : Sm ε) {s : State} {D : DState} (hp : Pair ε s D) {m c : ℝ} {M : Dbl} (hm : Acc ε 1 (-26) 3 m M)
  (cut : mmin * (1 + 3 * ε) < m) (c0 : (10 : ℝ) ^ (-6 : ℤ) ≤ c) (c1 : c ≤ (10 : ℝ) ^ (6 : ℤ))
include hF hε hp hm cut c0 c1

theorem coag_acc (k : CoagMech) (hk : k ∈ [.FM, .CONTINUUM, .HM]) :
    Acc ε 982 (-140) 150 (Coag.val ⟨k, c⟩ s m m) (coagRateD F D (fin c) k M M) := by
  have p : mmin < m := by have := mul_nonneg mmin_pos.le hε.pos; linarith
  have h1 : ¬ (m ≤ mmin ∨ m ≤ mmin) := by simpa using p
  have h2 : ¬ (M.le (F.rnd mmin) ∨ M.le (F.rnd mmin)) := by rw [or_self]; exact above_acc hF hε hm cut
  simp only [List.mem_cons, List.not_mem_nil, or_false] at hk
  rcases hk with rfl | rfl | rfl
  · rw [coagRateD, if_neg (by simp), if_neg h2, Coag.val, if_neg h1]
    exact (acc_FM hF hε hp hm hm c0 c1 .FM).mono hε (by norm_num) (by norm_num) (by norm_num)
  · rw [coagRateD, if_neg (by simp), if_neg h2, Coag.val, if_neg h1]
    exact (acc_CONT hF hε hp hm hm).mono hε (by norm_num) (by norm_num) (by norm_num)
  · rw [coagRateD, if_neg (by simp), if_neg h2, Coag.val, if_neg h1]
    exact (acc_HM hF hε hp hm hm c0 c1 .HM).mono hε (by norm_num) (by norm_num) (by norm_num)

theorem coag_acc_fuchs (hph : s.Phys) (h3 : F.rnd 3 = fin 3) (h15 : F.rnd 1.5 = fin 1.5) {d r : ℝ} (sp : IsSphere m d)
    (hr : d ≤ r * specStop s m d ∧ specStop s m d ≤ r * d) (hrε : 4 * r ^ 2 * ε ≤ 1 / 10 ^ 9) :
    1 ≤ r ∧ Sm (2 * r * ε) ∧ Acc (2 * r * ε) 1381 (-140) 150 (Coag.val ⟨.FUCHS, c⟩ s m m) (coagRateD F D (fin c) .FUCHS M M) := by
  have p : mmin < m := by have := mul_nonneg mmin_pos.le hε.pos; linarith
  have h1 : ¬ (m ≤ mmin ∨ m ≤ mmin) := by simpa using p
  have h2 : ¬ (M.le (F.rnd mmin) ∨ M.le (F.rnd mmin)) := by rw [or_self]; exact above_acc hF hε hm cut
  have dp := sp.1
  have L := fuchsL_pos hph hm.pos
  rw [← specStop_eq hph sp] at hr
  have ε0 := hε.pos
  have rone : 1 ≤ r := by
    rcases le_total d (fuchsL s m) with h | h
    · exact le_of_mul_le_mul_right (by linarith [hr.2]) dp
    · exact le_of_mul_le_mul_right (by linarith [hr.1]) L
  have hε' : Sm (2 * r * ε) := by
    refine ⟨by positivity, ?_⟩
    have : 2 * r * ε ≤ 4 * r ^ 2 * ε := mul_le_mul_of_nonneg_right (by nlinarith) ε0
    have e : (1 : ℝ) / 10 ^ 9 ≤ 1 / 10 ^ 8 := by norm_num
    linarith
  have cond : (d + fuchsL s m) ^ 2 ≤ 2 * (2 * r) * (d * fuchsL s m) := by
    generalize fuchsL s m = l at *
    have f1 : d * l ≤ r * (d * l) := le_mul_of_one_le_left (mul_pos dp L).le rone
    rcases le_total d l with h | h
    · have e1 := mul_le_mul_of_nonneg_left hr.2 L.le
      have e2 := mul_le_mul_of_nonneg_left h dp.le
      nlinarith
    · have e1 := mul_le_mul_of_nonneg_left hr.1 dp.le
      have e2 := mul_le_mul_of_nonneg_left h L.le
      nlinarith
  refine ⟨rone, hε', ?_⟩
  rw [coagRateD, if_neg (by simp), if_neg h2, Coag.val, if_neg h1]
  exact (acc_FUCHS (R := 2 * r) hF hε hp h3 h15 hm hm c0 c1 .FUCHS (by rw [diam_of_sphere sp]; exact cond) (by rw [diam_of_sphere sp]; exact cond)
    (by rw [mul_pow]; norm_num at hrε ⊢; exact hrε)).mono hε' (by norm_num) (by norm_num) (by norm_num)

/-- The loss of particles by coagulation, `0.5 K w²`. -/
theorem loss_acc (hph : s.Phys) (k : CoagMech) {κ w : ℝ} (hk : CoagUsual F ε s k m κ) (w0 : (10 : ℝ) ^ (0 : ℤ) ≤ w)
    (w1 : w ≤ (10 : ℝ) ^ (30 : ℤ)) :
    0 ≤ Coag.val ⟨k, c⟩ s m m ∧ Coag.val ⟨k, c⟩ s m m * w ^ 2 / 2 ≤ (10 : ℝ) ^ (220 : ℤ) ∧ ∃ κ₀ y : ℝ, 0 ≤ κ₀ ∧ κ₀ ≤ 1 / 100 ∧
      (κ₀ + 5 * ε ≤ κ ∨ Coag.val ⟨k, c⟩ s m m * w ^ 2 / 2 = 0) ∧
      (if k ≠ .NONE then F.mul (F.mul (F.mul (neg (F.rnd 0.5)) (coagRateD F D (fin c) k M M)) (fin w)) (fin w) else fin 0) = fin (-y) ∧
      |y - Coag.val ⟨k, c⟩ s m m * w ^ 2 / 2| ≤ κ₀ * (Coag.val ⟨k, c⟩ s m m * w ^ 2 / 2) := by
  have fin_neg : ∀ {d : Dbl} {y : ℝ}, neg d = fin y → d = fin (-y) := by
    intro d y h
    rcases d with d | _ | _ | _ <;> simp only [neg, reduceCtorEq, fin.injEq] at h
    rw [← h, neg_neg]
  rcases hk with ⟨rfl, κ0⟩ | ⟨hk, hκ⟩ | ⟨rfl, h3, h15, d, r, sp, hr, hrε, hκ⟩
  · have z : Coag.val ⟨.NONE, c⟩ s m m = 0 := by simp [Coag.val]
    rw [z]
    refine ⟨le_rfl, by simp, 0, 0, le_rfl, by norm_num, .inr (by simp), by simp, by simp⟩
  · have a := coag_acc hF hε hp hm cut c0 c1 k hk
    have hn : k ≠ .NONE := by rintro rfl; simp at hk
    have hl : Acc ε 1 (-1) 0 0.5 (neg (neg (F.rnd 0.5))) := by
      obtain ⟨x, hx, h⟩ := (lit_half hF hε).val
      refine ⟨(lit_half hF hε).lo, (lit_half hF hε).hi, x, by rw [hx]; simp [neg], h⟩
    have b1 := hl.mulN hF hε a (by norm_num) (by norm_num) (by norm_num)
    have b2 := b1.mulN hF hε (.exact w0 w1) (by norm_num) (by norm_num) (by norm_num)
    have b3 := b2.mulN hF hε (.exact w0 w1) (by norm_num) (by norm_num) (by norm_num)
    have e : (0.5 : ℝ) * Coag.val ⟨k, c⟩ s m m * w * w = Coag.val ⟨k, c⟩ s m m * w ^ 2 / 2 := by ring
    rw [e] at b3
    obtain ⟨y, hy, ey⟩ := b3.final (N := 988) hε (by norm_num) (by norm_num)
    have e0 := hε.pos
    have e1 := hε.le
    refine ⟨a.pos.le, b3.hi.trans (zpow_le_zpow_right₀ (by norm_num) (by norm_num)), 988 * ε, y, by positivity, by norm_num at e1 ⊢; linarith, .inl (by linarith), ?_, by exact_mod_cast ey⟩
    rw [if_pos hn]
    exact fin_neg hy
  · obtain ⟨rone, hε', a⟩ := coag_acc_fuchs hF hε hp hm cut c0 c1 hph h3 h15 sp hr hrε
    have ε0 := hε.pos
    have hF' : F.Accurate (2 * r * ε) := accurate_mono (by nlinarith) hF
    have hl : Acc (2 * r * ε) 1 (-1) 0 0.5 (neg (neg (F.rnd 0.5))) := by
      obtain ⟨x, hx, h⟩ := (lit_half hF' hε').val
      refine ⟨(lit_half hF' hε').lo, (lit_half hF' hε').hi, x, by rw [hx]; simp [neg], h⟩
    have b1 := hl.mulN hF' hε' a (by norm_num) (by norm_num) (by norm_num)
    have b2 := b1.mulN hF' hε' (.exact w0 w1) (by norm_num) (by norm_num) (by norm_num)
    have b3 := b2.mulN hF' hε' (.exact w0 w1) (by norm_num) (by norm_num) (by norm_num)
    have e : (0.5 : ℝ) * Coag.val ⟨.FUCHS, c⟩ s m m * w * w = Coag.val ⟨.FUCHS, c⟩ s m m * w ^ 2 / 2 := by ring
    rw [e] at b3
    obtain ⟨y, hy, ey⟩ := b3.final (N := 1390) hε' (by norm_num) (by norm_num)
    have e1 := hε'.le
    have e2 : ε ≤ r * ε := le_mul_of_one_le_left ε0 rone
    refine ⟨a.pos.le, b3.hi.trans (zpow_le_zpow_right₀ (by norm_num) (by norm_num)), 1390 * (2 * r * ε), y, by positivity, by norm_num at e1 ⊢; linarith, .inl (by linarith), ?_, by exact_mod_cast ey⟩
    rw [if_pos (by simp)]
    exact fin_neg hy

end

theorem PairR.upd {s : State} {D : DState} (hp : PairR ε s D) (w a : List ℝ) : PairR ε { s with wts := w, absc := a } D :=
  ⟨⟨hp.T, hp.rho, hp.mu, hp.mw, hp.T0, hp.T1, hp.rho0, hp.rho1, hp.mu0, hp.mu1⟩, hp.P, hp.cMin, hp.gas, hp.soot, hp.P0, hp.P1, hp.warm⟩

theorem gasRates_term {r : GasSp → ℝ} {x : ℝ} {g : GasSp → ℝ} (h : gasRates r x = Res.ok g) (sp : GasSp) : g sp = FpMass.term r x sp := by
  unfold gasRates at h
  split_ifs at h
  rw [Res.ok.injEq] at h
  rw [← h]
  rfl

end FpK

open FpK

/-! ## C102 -/

set_option maxHeartbeats 1000000 in
/-- **C102.** For every arithmetic with relative error `ε` and underflow error `η`: after a call of `setState` with arguments of a usual size at 300 K or
more, the sources that MONO computes differ from the exact ones by at most about `300 ε` of the nucleation, `1060 ε` of the growth, `(N + 365) ε` of the
oxidation and `κ` of the coagulation, and `39 η`.  `J`, `kG`, `kO`, `K` are the exact rates and `A` is the exact area. -/
theorem C102_mono_accuracy (F : Fp) (ε η : ℝ) (hF : F.Accurate ε) (hE : F.AccurateExp ε) (hS : F.Std ε η (10 ^ (300 : ℤ))) (h0 : F.rnd 0 = fin 0)
    (ε0 : 0 ≤ ε) (ε1 : ε ≤ 1 / 10 ^ 8) (η0 : 0 ≤ η) (η1 : η ≤ ε * 10 ^ (-250 : ℤ)) (s₀ : State) (a : SetArgs) (hs : (setState s₀ a).2 = Res.ok ())
    (hD : (setStateD F s₀.toD a.toD).2 = Res.ok ()) (hu : Usual a) (hT : 300 ≤ a.T) (c0 : 1 ≤ a.cMin) (c1 : a.cMin ≤ 10 ^ 6) (m : Model) (M0 M1 w b : ℝ)
    (hm : MonoReady m (setState s₀ a).1 M0 M1 w b) (m00 : 1 ≤ M0) (m01 : M0 ≤ 10 ^ 30) (hmass : mmin * (1 + 3 * ε) < M1 / M0) (hmass' : M1 / M0 ≤ 10 ^ 3)
    (m10 : (10 : ℝ) ^ (-30 : ℤ) ≤ M1) (m11 : M1 ≤ 10 ^ 3) (f0 : 1 / 10 ^ 6 ≤ m.coag.fmMult) (f1 : m.coag.fmMult ≤ 10 ^ 6)
    (hn : m.nucl.mech = .NONE ∨ (m.nucl.mech ∈ [.LL, .LIN, .MB, .FAIR] ∧ Contains a .C2H2) ∨ (m.nucl.mech = .LINA1 ∧ Contains a .C6H6))
    (hg : m.grow.mech = .NONE ∨ (m.grow.mech ∈ [.LL, .LIN, .MB, .FAIR] ∧ Contains a .C2H2))
    (N : ℕ) (N1 : N ≤ 8200) (ho : OxidUsual a (setState s₀ a).1 m.oxid.cls N)
    (κ : ℝ) (hk : CoagUsual F ε (setState s₀ a).1 m.coag.mech (M1 / M0) κ) :
    ∃ (m' : Model) (s' : State) (J kG kO K A y0 y1 : ℝ) (gn gg go Y : GasSp → ℝ),
      monoSources m (setState s₀ a).1 = Res.ok (m', s') ∧
      m.nucl.rate (ibetaNodes m.coag) s' = Res.ok (J, m.nucl, s') ∧ m.grow.rate m.ctx s' = Res.ok kG ∧ m.oxid.rate m.ctx s' = Res.ok kO ∧
      m.coag.rate s' (M1 / M0) (M1 / M0) = Res.ok K ∧ IsArea M0 M1 A ∧ 0 ≤ J ∧ 0 ≤ kG ∧ 0 ≤ kO ∧ 0 ≤ K ∧ 0 ≤ A ∧
      gasRates m.nucl.ratio (J * (a.cMin * gasMW .C / Na)) = Res.ok gn ∧ gasRates m.grow.ratio (kG * A) = Res.ok gg ∧
      gasRates m.oxid.ratio (-(kO * A)) = Res.ok go ∧
      m'.sources.soot = [J - K * M0 ^ 2 / 2, J * (a.cMin * gasMW .C / Na) + kG * A - kO * A] ∧ (∀ sp, m'.sources.gas sp = gn sp + gg sp + go sp) ∧
      monoSourcesD F (setStateD F s₀.toD a.toD).1 m (fin w) (fin b) = Res.ok (fin y0, fin y1, fun sp => fin (Y sp)) ∧
      |y0 - (J - K * M0 ^ 2 / 2)| ≤ 300 * ε * J + κ * (K * M0 ^ 2 / 2) + 5 * η ∧
      |y1 - (J * (a.cMin * gasMW .C / Na) + kG * A - kO * A)| ≤
        305 * ε * (J * (a.cMin * gasMW .C / Na)) + 1055 * ε * (kG * A) + (N + 365) * ε * (kO * A) + 5 * η ∧
      ∀ sp, |Y sp - m'.sources.gas sp| ≤ 317 * ε * |gn sp| + 1067 * ε * |gg sp| + (N + 377) * ε * |go sp| + 39 * η := by
  have hε : Sm ε := ⟨ε0, ε1⟩
  have okk : FpMass.Ok ε η (10 ^ (300 : ℤ)) := by
    refine ⟨ε0, η0, ?_, ?_, ?_⟩
    · norm_num at ε1 ⊢; linarith
    · refine η1.trans (mul_le_of_le_one_right ε0 ?_)
      exact zpow_le_one_of_nonpos₀ (by norm_num) (by norm_num)
    · calc (1000 : ℝ) = 10 ^ (3 : ℤ) := by norm_num
        _ ≤ _ := zpow_le_zpow_right₀ (by norm_num) (by norm_num)
  have hS' : F.Std ε (ε * 10 ^ (-250 : ℤ)) (10 ^ (300 : ℤ)) := fun x hx => by
    obtain ⟨y, hy, e⟩ := hS x hx
    exact ⟨y, hy, by linarith⟩
  obtain ⟨hp₀, eg, es, ec, eT⟩ := pairR_of hF hε hs hD hu hT
  have big : ∀ {x : ℝ} {k : ℤ}, x ≤ (10 : ℝ) ^ k → k ≤ 290 → x ≤ (10 : ℝ) ^ (300 : ℤ) / 2000 := by
    intro x k h hk
    refine h.trans ((zpow_le_zpow_right₀ (by norm_num) hk).trans ?_)
    rw [show (300 : ℤ) = 290 + 10 by norm_num, zpow_add₀ (by norm_num)]
    have : (0 : ℝ) < 10 ^ (290 : ℤ) := by positivity
    generalize (10 : ℝ) ^ (290 : ℤ) = q at *
    norm_num
    linarith
  generalize hst : (setState s₀ a).1 = s at *
  generalize hdt : (setStateD F s₀.toD a.toD).1 = D at *
  have M0p : 0 < M0 := by linarith
  have ew : monoW M0 w = M0 := if_pos M0p
  have ea : monoA M0 M1 b = M1 / M0 := if_pos M0p
  obtain ⟨m', s', J, n', kG, kO, A, r1, r2, r3, r4, r5, r6, r7, A0, J0, G0, O0, r8, r9⟩ := mono_eval hm
  rw [ew, ea] at r2 r3 r9
  have hp := hp₀.upd [M0] [M1 / M0]
  have wf := hm.wf
  have notPah : m.nucl.mech ≠ .PAH := by
    rcases hn with h | ⟨h, -⟩ | ⟨h, -⟩
    · rw [h]; simp
    · intro h'; rw [h'] at h; simp at h
    · rw [h]; simp
  have nnew := wf.nucl.new notPah
  have gnew := wf.grow
  have onew := wf.oxid
  generalize hs1 : ({ s with wts := [M0], absc := [M1 / M0] } : State) = s1 at *
  have eg1 : s1.yGas = a.yGas := by rw [← hs1]; exact eg
  have ec1 : s1.cMin = a.cMin := by rw [← hs1]; exact ec
  have es1 : s1.sootVar = [M0, M1] := by rw [← hs1]; exact hm.soot
  have eT1 : s1.T = a.T := by rw [← hs1]; exact eT
  have ph1 : s1.Phys := by
    have := (hm.toReady.upd hm.gas.acc.phys.cMin [M0] [M1 / M0]).gas.acc.phys
    rw [← hs1]; exact this
  have c0' : (10 : ℝ) ^ (0 : ℤ) ≤ s1.cMin := by rw [ec1]; simpa using c0
  have c1' : s1.cMin ≤ (10 : ℝ) ^ (6 : ℤ) := by rw [ec1]; norm_num at c1 ⊢; exact c1
  have m00' : (10 : ℝ) ^ (0 : ℤ) ≤ M0 := by simpa using m00
  have m01' : M0 ≤ (10 : ℝ) ^ (30 : ℤ) := by norm_num at m01 ⊢; linarith
  have m11' : M1 ≤ (10 : ℝ) ^ (3 : ℤ) := by norm_num at m11 ⊢; linarith
  have pr : ∀ {sp}, Contains a sp → Present s1 sp := fun h => by simpa only [Present, eg1, Contains] using h
  -- nucleation
  obtain ⟨jD, hj, aj, ns⟩ : ∃ jD, nuclRateD F D m.nucl.mech = Res.ok jD ∧ AccZ ε 294 (-130) 50 J jD ∧ n' = m.nucl ∧ s1 = s' := by
    rcases hn with h | h
    · refine ⟨fin 0, by rw [h]; simp [nuclRateD, h0], ?_⟩
      rw [nnew, h] at r2 ⊢
      simp only [Nucl.rate, Nucl.new, Res.ok.injEq, Prod.mk.injEq] at r2
      obtain ⟨q1, q2, q3⟩ := r2
      exact ⟨.inr ⟨q1.symm, rfl⟩, q2.symm, q3⟩
    · obtain ⟨x, X, q1, q2, q3⟩ := nuc_acc hF hε hp hE (ibetaNodes m.coag) c0' c1' m.nucl.mech (h.imp (fun h => ⟨h.1, pr h.2⟩) (fun h => ⟨h.1, pr h.2⟩))
      rw [← nnew, r2, Res.ok.injEq, Prod.mk.injEq, Prod.mk.injEq] at q1
      obtain ⟨e1, e2, e3⟩ := q1
      exact ⟨X, q2, by rw [e1]; exact .inl q3, e2, e3.symm⟩
  obtain ⟨ns, ss⟩ := ns
  subst ss
  subst ns
  -- growth
  obtain ⟨gD, hgD, ag⟩ : ∃ gD, growRateD F D m.grow.mech = Res.ok gD ∧ AccZ ε 700 (-160) 50 kG gD := by
    rcases hg with h | ⟨h, hC⟩
    · refine ⟨fin 0, by rw [h]; simp [growRateD, h0], .inr ⟨?_, rfl⟩⟩
      rw [gnew, h] at r5
      simp only [Grow.rate, Grow.new, Res.ok.injEq] at r5
      exact r5.symm
    · obtain ⟨x, X, q1, q2, q3⟩ := grow_acc hF hε hp hE m.ctx (by simp [Model.ctx, hm.psd]) ⟨[], es1⟩ m00' m01' m10 m11' m.grow.mech h (pr hC)
      rw [← gnew, r5, Res.ok.injEq] at q1
      exact ⟨X, q2, by rw [q1]; exact .inl q3⟩
  -- oxidation
  obtain ⟨oD, hoD, ao⟩ : ∃ oD, oxidRateD F D m.oxid.cls = Res.ok oD ∧ AccZ ε N (-210) 120 kO oD := by
    rcases ho with h | ⟨h, hO, hH, hN⟩ | ⟨h, hO, hH, p, r, hpp, p0, rr0, rr1, hr, hN⟩
    · refine ⟨fin 0, by rw [h]; simp [oxidRateD, h0], .inr ⟨?_, rfl⟩⟩
      rw [onew, h] at r6
      simp only [Oxid.rate, Oxid.new, Res.ok.injEq] at r6
      exact r6.symm
    · obtain ⟨x, X, q1, q2, q3⟩ := oxid_acc hF hε hp hE m.ctx (by simp [Model.ctx, hm.psd]) (by rw [es1]; simp) m.oxid h (pr hO) (pr hH)
      rw [r6, Res.ok.injEq] at q1
      exact ⟨X, q2, by rw [q1]; exact .inl (q3.mono hε hN (by norm_num) (by norm_num))⟩
    · obtain ⟨x, X, q1, q2, q3⟩ := nsc_acc hF hε hE hS' hp m.ctx m.oxid h (pr hO) (pr hH) (pO := p * 101325) (by rw [← hs1]; exact hpp)
        (by norm_num at p0 ⊢; linarith) r rr0 rr1 (by rw [eT1, mul_div_cancel_right₀ p (by norm_num : (101325 : ℝ) ≠ 0)]; exact hr)
      rw [r6, Res.ok.injEq] at q1
      exact ⟨X, q2, by rw [q1]; exact .inl (q3.mono hε hN (by norm_num) (by norm_num))⟩
  -- the area
  obtain ⟨A', hA', aA⟩ := area_acc hF hε m00' m01' m10 m11'
  have eA : A = A' := isArea_unique M0p.le (le_trans (by positivity) m10) r7 (areaMono_isArea hA')
  subst eA
  -- the mass of a particle
  have mm : Acc ε 1 (-26) 3 (M1 / M0) (F.div (fin M1) (fin M0)) := by
    have q := (Acc.exact (ε := ε) m10 m11').div hF hε (.exact m00' m01') (by norm_num) (by norm_num) (by norm_num)
    refine q.range ?_ (by norm_num at hmass' ⊢; linarith)
    have l1 : (10 : ℝ) ^ (-26 : ℤ) ≤ mmin := by norm_num [mmin]
    have l2 : mmin ≤ mmin * (1 + 3 * ε) := le_mul_of_one_le_right mmin_pos.le (by linarith only [ε0])
    exact l1.trans (l2.trans hmass.le)
  -- coagulation
  have hk' : CoagUsual F ε s1 m.coag.mech (M1 / M0) κ := by
    rw [← hs1]; exact hk
  obtain ⟨K0, Kb, κ₀, yc, kk0, kk1, kk2, hyc, eyc⟩ := loss_acc hF hε hp.toPair mm hmass (c := m.coag.fmMult) (by norm_num at f0 ⊢; linarith) (by norm_num at f1 ⊢; linarith)
    ph1 m.coag.mech hk' m00' m01'
  have ecg : (⟨m.coag.mech, m.coag.fmMult⟩ : Coag) = m.coag := rfl
  rw [ecg] at K0 Kb kk2 eyc
  -- the processes
  have hMC : Acc ε 1 1 2 (gasMW .C) (F.rnd (gasMW .C)) := .lit hF hε (by norm_num [gasMW]) (by norm_num [gasMW]) (by norm_num) (by norm_num)
  have hNa : Acc ε 1 26 27 Na (F.rnd Na) := .lit hF hε (by norm_num [Na]) (by norm_num [Na]) (by norm_num) (by norm_num)
  have aN1 := ((aj.mul hF hε h0 (Acc.exact c0' c1').z (by norm_num) (by norm_num) (by norm_num)).mul hF hε h0 hMC.z (by norm_num) (by norm_num) (by norm_num)).div
    hF hε h0 hNa (by norm_num) (by norm_num) (by norm_num)
  have aG1 := ag.mul hF hε h0 aA.z (by norm_num) (by norm_num) (by norm_num)
  have aO : AccZ ε N (-210) 120 kO (neg (neg oD)) := by
    obtain ⟨x, hx⟩ := ao.finite
    rw [hx] at ao ⊢
    simpa [neg] using ao
  have aX1 := aO.mulN hF hε h0 aA.z (by omega) (by norm_num) (by norm_num)
  obtain ⟨yj, hyj, eyj, -, bj⟩ := aj.final (N := 295) hε (by norm_num) (by norm_num)
  obtain ⟨yn, hyn, eyn, n0, bn⟩ := aN1.final (N := 300) hε (by norm_num) (by norm_num)
  obtain ⟨yg, hyg, eyg, g0, bg⟩ := aG1.final (N := 1050) hε (by norm_num) (by norm_num)
  obtain ⟨yx, hyx, eyx, x0, bx⟩ := aX1.final (N := N + 360) hε (by omega) (by
    push_cast
    have : (N : ℝ) ≤ 8200 := by exact_mod_cast N1
    linarith)
  have N8 : (N : ℝ) ≤ 8200 := by exact_mod_cast N1
  have fin_neg : ∀ {d : Dbl} {y : ℝ}, neg d = fin y → d = fin (-y) := by
    intro d y h
    rcases d with d | _ | _ | _ <;> simp only [neg, reduceCtorEq, fin.injEq] at h
    rw [← h, neg_neg]
  -- the sums
  have C0 : 0 ≤ m.coag.val s1 (M1 / M0) (M1 / M0) * M0 ^ 2 / 2 := by positivity
  obtain ⟨y0, hy0, ey0⟩ := sum_two hS okk hε J0 C0 (big bj (by norm_num)) (big Kb (by norm_num)) kk0 kk1 eyj eyc
  obtain ⟨y1, hy1, ey1⟩ := sum_three hS okk hε n0 g0 x0 (big bn (by norm_num)) (big bg (by norm_num)) (big bx (by norm_num))
    (κ := N + 360) (by positivity) (by linarith) eyn eyg eyx
  obtain ⟨gn, gg, go, t1, t2, t3, t4⟩ := Model.finish_inv r8
  have sN : FpMass.Stoich m.nucl.ratio := by rw [nnew]; exact FpMass.nucl_stoich notPah
  have sG : FpMass.Stoich m.grow.ratio := by rw [gnew]; exact FpMass.grow_stoich _
  have sX : FpMass.Stoich m.oxid.ratio := by rw [onew]; exact FpMass.oxid_stoich _
  have gs := fun sp => gas_sum hS okk hε n0 g0 x0 (big bn (by norm_num)) (big bg (by norm_num)) (big bx (by norm_num)) (κ := N + 360) (by linarith)
    eyn eyg eyx sN sG sX sp
  choose Y hY eY using gs
  have eN : J * s1.cMin * gasMW .C / Na = J * (a.cMin * gasMW .C / Na) := by rw [ec1]; ring
  rw [eN] at t1 r9 ey1
  simp only [eN] at eY
  have gasE : ∀ sp, m'.sources.gas sp = gn sp + gg sp + go sp := fun sp => by rw [t4]
  refine ⟨m', s1, J, kG, kO, m.coag.val s1 (M1 / M0) (M1 / M0), A, y0, y1, gn, gg, go, Y, r1, ?_, r5, r6, Coag.rate_ok ph1 hm.fm _ _, r7, J0, G0, O0, K0, A0, t1, t2,
    by rw [← neg_mul]; exact t3, ?_, gasE, ?_, ?_, ?_, ?_⟩
  · exact r2
  · rw [r9, if_neg notPah]
    congr 2; ring
  · have i0 : idx D.sootVar 0 = Res.ok (fin M0) := by rw [hp.soot, es1]; rfl
    have i1 : idx D.sootVar 1 = Res.ok (fin M1) := by rw [hp.soot, es1]; rfl
    have lt0 : (fin 0).lt (fin M0) := M0p
    have cN : (if m.nucl.mech ≠ .NONE then jD else fin 0) = fin yj := by
      split_ifs with h
      · exact hyj
      · rw [not_not] at h
        rw [h] at hj
        simp only [nuclRateD, h0, Res.ok.injEq] at hj
        rw [hj]; exact hyj
    have cN1 : (if m.nucl.mech ≠ .NONE then F.div (F.mul (F.mul jD D.cMin) (F.rnd (gasMW .C))) (F.rnd Na) else fin 0) = fin yn := by
      rw [hp.cMin]
      split_ifs with h
      · exact hyn
      · rw [not_not] at h
        rw [h] at hj
        simp only [nuclRateD, h0, Res.ok.injEq] at hj
        rw [← hj] at hyn
        rw [← hyn]
        obtain ⟨u, hu, v, -⟩ := hMC.val
        obtain ⟨u', hu', v', -⟩ := hNa.val
        have : u' ≠ 0 := (lt_of_lt_of_le (mul_pos hNa.pos (hε.pw _)) v').ne'
        rw [hu, hu']
        show _ = F.div (F.mul (F.rnd (0 * s1.cMin)) (fin u)) (fin u')
        rw [zero_mul, h0]
        show _ = F.div (F.rnd (0 * u)) (fin u')
        rw [zero_mul, h0]
        simp [Fp.div, this, h0]
    have cG : (if m.grow.mech ≠ .NONE then F.mul gD (areaD F (fin M0) (fin M1)) else fin 0) = fin yg := by
      split_ifs with h
      · exact hyg
      · rw [not_not] at h
        rw [h] at hgD
        simp only [growRateD, h0, Res.ok.injEq] at hgD
        rw [← hgD] at hyg
        obtain ⟨u, hu⟩ := aA.z.finite
        rw [← hyg, hu]
        show _ = F.rnd (0 * u)
        rw [zero_mul, h0]
    have cX : (if m.oxid.mechType ≠ .NONE then F.mul (neg oD) (areaD F (fin M0) (fin M1)) else fin 0) = fin (-yx) := by
      split_ifs with h
      · exact fin_neg hyx
      · have hcl : m.oxid.cls = .NONE := by
          rw [not_not, onew] at h
          generalize m.oxid.cls = c at h ⊢
          cases c <;> simp [Oxid.new, oxidMechType] at h ⊢
        rw [hcl] at hoD
        simp only [oxidRateD, h0, Res.ok.injEq] at hoD
        rw [← fin_neg hyx, ← hoD]
        obtain ⟨u, hu⟩ := aA.z.finite
        rw [hu]
        show _ = F.rnd (-0 * u)
        rw [neg_zero, zero_mul, h0]
    simp only [monoSourcesD, i0, i1, ok_bind, if_pos lt0, hj, hgD, hoD, cN, cN1, cG, cX, hyc, hy0, hy1]
    congr 3
    funext sp
    exact hY sp
  · refine ey0.trans ?_
    have : (κ₀ + 5 * ε) * (m.coag.val s1 (M1 / M0) (M1 / M0) * M0 ^ 2 / 2) ≤ κ * (m.coag.val s1 (M1 / M0) (M1 / M0) * M0 ^ 2 / 2) := by
      rcases kk2 with h | h
      · exact mul_le_mul_of_nonneg_right h C0
      · rw [h]; simp
    linarith
  · refine ey1.trans (le_of_eq ?_)
    ring
  · intro sp
    have q := eY sp
    rw [gasE, gasRates_term t1, gasRates_term t2, gasRates_term t3]
    rw [neg_mul]
    refine q.trans (le_of_eq ?_)
    ring

/-- **C102 (binary64).** In IEEE double precision the number and mass sources of MONO are right to twelve digits of the processes that make them up. -/
theorem C102_digits (s₀ : State) (a : SetArgs) (hs : (setState s₀ a).2 = Res.ok ()) (hD : (setStateD binary64 s₀.toD a.toD).2 = Res.ok ()) (hu : Usual a)
    (hT : 300 ≤ a.T) (c0 : 1 ≤ a.cMin) (c1 : a.cMin ≤ 10 ^ 6) (m : Model) (M0 M1 w b : ℝ) (hm : MonoReady m (setState s₀ a).1 M0 M1 w b) (m00 : 1 ≤ M0)
    (m01 : M0 ≤ 10 ^ 30) (hmass : mmin * (1 + 1 / 10 ^ 15) ≤ M1 / M0) (hmass' : M1 / M0 ≤ 10 ^ 3) (m10 : (10 : ℝ) ^ (-30 : ℤ) ≤ M1) (m11 : M1 ≤ 10 ^ 3)
    (f0 : 1 / 10 ^ 6 ≤ m.coag.fmMult) (f1 : m.coag.fmMult ≤ 10 ^ 6) (hA : Contains a .C2H2) (hB : Contains a .C6H6) (hO : Contains a .O2)
    (hH : Contains a .OH) (hn : m.nucl.mech ∈ [.NONE, .LL, .LIN, .MB, .FAIR, .LINA1]) (hg : m.grow.mech ∈ [.NONE, .LL, .LIN, .MB, .FAIR])
    (ho : m.oxid.cls ∈ [.NONE, .LL, .FAIR, .LEE_NEOH, .OPTJ, .OPTG, .MB, .BROWN, .AJ_RED]) (hk : m.coag.mech ∈ [.NONE, .FM, .CONTINUUM, .HM]) :
    ∃ (m' : Model) (s' : State) (J kG kO K A y0 y1 : ℝ) (gn gg go Y : GasSp → ℝ),
      monoSources m (setState s₀ a).1 = Res.ok (m', s') ∧
      m.nucl.rate (ibetaNodes m.coag) s' = Res.ok (J, m.nucl, s') ∧ m.grow.rate m.ctx s' = Res.ok kG ∧ m.oxid.rate m.ctx s' = Res.ok kO ∧
      m.coag.rate s' (M1 / M0) (M1 / M0) = Res.ok K ∧ IsArea M0 M1 A ∧ 0 ≤ J ∧ 0 ≤ kG ∧ 0 ≤ kO ∧ 0 ≤ K ∧ 0 ≤ A ∧
      gasRates m.nucl.ratio (J * (a.cMin * gasMW .C / Na)) = Res.ok gn ∧ gasRates m.grow.ratio (kG * A) = Res.ok gg ∧
      gasRates m.oxid.ratio (-(kO * A)) = Res.ok go ∧
      m'.sources.soot = [J - K * M0 ^ 2 / 2, J * (a.cMin * gasMW .C / Na) + kG * A - kO * A] ∧ (∀ sp, m'.sources.gas sp = gn sp + gg sp + go sp) ∧
      monoSourcesD binary64 (setStateD binary64 s₀.toD a.toD).1 m (fin w) (fin b) = Res.ok (fin y0, fin y1, fun sp => fin (Y sp)) ∧
      |y0 - (J - K * M0 ^ 2 / 2)| ≤ 1 / 10 ^ 12 * (J + K * M0 ^ 2 / 2) + 1 / 10 ^ 200 ∧
      |y1 - (J * (a.cMin * gasMW .C / Na) + kG * A - kO * A)| ≤ 1 / 10 ^ 12 * (J * (a.cMin * gasMW .C / Na) + kG * A + kO * A) + 1 / 10 ^ 200 ∧
      ∀ sp, |Y sp - m'.sources.gas sp| ≤ 1 / 10 ^ 12 * (|gn sp| + |gg sp| + |go sp|) + 1 / 10 ^ 200 := by
  obtain ⟨be, bs⟩ := C101_binary64
  have e0 : (0 : ℝ) ≤ 2 ^ (-52 : ℤ) := by positivity
  have e : mmin * (1 + 3 * 2 ^ (-52 : ℤ)) < mmin * (1 + 1 / 10 ^ 15) := mul_lt_mul_of_pos_left (by norm_num) mmin_pos
  have hη : (2 : ℝ) ^ (-52 : ℤ) * 10 ^ (-250 : ℤ) ≤ 1 / 10 ^ 202 := by
    have h1 : (10 : ℝ) ^ (-250 : ℤ) ≤ 10 ^ (-202 : ℤ) := zpow_le_zpow_right₀ (by norm_num) (by norm_num)
    have h2 : (10 : ℝ) ^ (-202 : ℤ) = 1 / 10 ^ 202 := by rw [zpow_neg, one_div]; rfl
    have h3 : (2 : ℝ) ^ (-52 : ℤ) ≤ 1 := by norm_num
    have h4 : (0 : ℝ) ≤ 10 ^ (-250 : ℤ) := by positivity
    rw [← h2]
    exact (mul_le_of_le_one_left h4 h3).trans h1
  have h39 : (39 : ℝ) * (1 / 10 ^ 202) ≤ 1 / 10 ^ 200 := by norm_num
  have p200 : (0 : ℝ) ≤ 1 / 10 ^ 202 := by positivity
  simp only [List.mem_cons, List.not_mem_nil, or_false] at hn hg ho hk
  obtain ⟨m', s', J, kG, kO, K, A, y0, y1, gn, gg, go, Y, r1, r2, r3, r4, r5, r6, J0, G0, O0, K0, A0, r7, r8, r9, r10, r11, r12, r13, r14, r15⟩ :=
    C102_mono_accuracy binary64 _ _ C99_binary64.1 be bs binary64_zero e0 (by norm_num) (by positivity) le_rfl s₀ a hs hD hu hT c0 c1 m M0 M1 w b hm m00 m01
      (e.trans_le hmass) hmass' m10 m11 f0 f1
      (by
        rcases hn with h | h | h | h | h | h
        · exact .inl h
        all_goals simp [h, hA, hB])
      (by
        rcases hg with h | h | h | h | h
        · exact .inl h
        all_goals simp [h, hA])
      450 (by norm_num)
      (by
        rcases ho with h | h | h | h | h | h | h | h | h
        · exact .inl h
        all_goals exact .inr (.inl (by simp [h, hO, hH])))
      (1000 * 2 ^ (-52 : ℤ))
      (by
        rcases hk with h | h | h | h
        · exact .inl ⟨h, by positivity⟩
        all_goals exact .inr (.inl (by simp [h])))
  generalize hη' : (2 : ℝ) ^ (-52 : ℤ) * 10 ^ (-250 : ℤ) = η at *
  refine ⟨m', s', J, kG, kO, K, A, y0, y1, gn, gg, go, Y, r1, r2, r3, r4, r5, r6, J0, G0, O0, K0, A0, r7, r8, r9, r10, r11, r12, r13.trans ?_, r14.trans ?_,
    fun sp => (r15 sp).trans ?_⟩
  · have q1 : 300 * (2 : ℝ) ^ (-52 : ℤ) * J ≤ 1 / 10 ^ 12 * J := mul_le_mul_of_nonneg_right (by norm_num) J0
    have q2 : 1000 * (2 : ℝ) ^ (-52 : ℤ) * (K * M0 ^ 2 / 2) ≤ 1 / 10 ^ 12 * (K * M0 ^ 2 / 2) := mul_le_mul_of_nonneg_right (by norm_num) (by positivity)
    rw [mul_add]
    generalize (1 : ℝ) / 10 ^ 200 = q at *
    generalize (1 : ℝ) / 10 ^ 202 = q' at *
    linarith
  · have cp : 0 ≤ J * (a.cMin * gasMW .C / Na) := mul_nonneg J0 (div_nonneg (mul_nonneg (by linarith) (by norm_num [gasMW])) (by norm_num [Na]))
    have q1 : 305 * (2 : ℝ) ^ (-52 : ℤ) * (J * (a.cMin * gasMW .C / Na)) ≤ 1 / 10 ^ 12 * (J * (a.cMin * gasMW .C / Na)) := mul_le_mul_of_nonneg_right (by norm_num) cp
    have q2 : 1055 * (2 : ℝ) ^ (-52 : ℤ) * (kG * A) ≤ 1 / 10 ^ 12 * (kG * A) := mul_le_mul_of_nonneg_right (by norm_num) (by positivity)
    have q3 : ((450 : ℕ) + 365) * (2 : ℝ) ^ (-52 : ℤ) * (kO * A) ≤ 1 / 10 ^ 12 * (kO * A) := mul_le_mul_of_nonneg_right (by norm_num) (by positivity)
    rw [mul_add, mul_add]
    generalize (1 : ℝ) / 10 ^ 200 = q at *
    generalize (1 : ℝ) / 10 ^ 202 = q' at *
    linarith
  · have q1 : 317 * (2 : ℝ) ^ (-52 : ℤ) * |gn sp| ≤ 1 / 10 ^ 12 * |gn sp| := mul_le_mul_of_nonneg_right (by norm_num) (abs_nonneg _)
    have q2 : 1067 * (2 : ℝ) ^ (-52 : ℤ) * |gg sp| ≤ 1 / 10 ^ 12 * |gg sp| := mul_le_mul_of_nonneg_right (by norm_num) (abs_nonneg _)
    have q3 : ((450 : ℕ) + 377) * (2 : ℝ) ^ (-52 : ℤ) * |go sp| ≤ 1 / 10 ^ 12 * |go sp| := mul_le_mul_of_nonneg_right (by norm_num) (abs_nonneg _)
    rw [mul_add, mul_add]
    generalize (1 : ℝ) / 10 ^ 200 = q at *
    generalize (1 : ℝ) / 10 ^ 202 = q' at *
    linarith

/-! ## An example -/

theorem argsBurn_eq : (setState (State.mk' 2 0) argsBurn).1 = stateAfter (State.mk' 2 0) argsBurn := by
  obtain ⟨r1, r2⟩ := setState_ok_range argsBurn_ok.1
  rw [C01_setState_accepts _ _ r1 r2 ((C01_setState_iff _ _ r1 r2).1 argsBurn_ok.1)]

theorem argsBurn_ready (c : CoagMech) : MonoReady { monoEx with coag := Coag.new c } (setState (State.mk' 2 0) argsBurn).1 1E15 1E-8 0 0 where
  wf := ⟨Nucl.new_wf _, rfl, rfl, fun _ => rfl, fun _ => rfl, rfl, rfl, rfl⟩
  fm := by norm_num [Coag.new]
  gas := by
    refine ⟨⟨_, _, argsBurn_ok.1 ▸ rfl, rfl⟩, ?_, ?_⟩
    · rw [argsBurn_eq]; simp [stateAfter, argsBurn, argsEx2, nGas]
    · rw [argsBurn_eq]
      intro y hy; simp [stateAfter, argsBurn, argsEx2] at hy
      rcases hy with h|h|h|h|h|h|h|h|h|h|h <;> subst h <;> norm_num
  pah := by rw [argsBurn_eq]; simp [stateAfter, argsBurn, nPah]
  sized := by
    rw [argsBurn_eq]
    exact ⟨by simp [stateAfter, argsBurn, argsEx2], by simp [Model.ctx, monoEx], by simp [Model.ctx, monoEx]⟩
  sing := by simp [monoEx, Grow.new, Oxid.new]
  tar := by simp [monoEx, Nucl.new]
  mtar := by simp [monoEx, Nucl.new]
  psd := rfl
  notar := rfl
  len := rfl
  soot := by rw [argsBurn_eq]; simp [stateAfter, argsBurn, argsEx2]; norm_num
  wts := by rw [argsBurn_eq]; simp [stateAfter, State.mk']
  absc := by rw [argsBurn_eq]; simp [stateAfter, State.mk']

/-- The Leung--Lindstedt model with harmonic-mean coagulation on burnt products: both sources are finite and within the bound. -/
example : ∃ (m' : Model) (s' : State) (y0 y1 : ℝ) (Y : GasSp → ℝ), monoSources { monoEx with coag := Coag.new .HM } (setState (State.mk' 2 0) argsBurn).1 = Res.ok (m', s') ∧
    monoSourcesD binary64 (setStateD binary64 (State.mk' 2 0).toD argsBurn.toD).1 { monoEx with coag := Coag.new .HM } (fin 0) (fin 0) =
      Res.ok (fin y0, fin y1, fun sp => fin (Y sp)) := by
  have pr : ∀ sp : GasSp, ∀ y, argsBurn.yGas[sp.toNat]? = some y → 1 / 10 ^ 100 ≤ y → y ≤ 1 → Contains argsBurn sp := fun sp y h1 h2 h3 =>
    ⟨y, h1, by rw [zpow_neg, ← one_div]; exact_mod_cast h2, h3⟩
  obtain ⟨m', s', _, _, _, _, _, y0, y1, _, _, _, Y, h1, _, _, _, _, _, _, _, _, _, _, _, _, _, _, _, h2, _⟩ :=
    C102_digits (State.mk' 2 0) argsBurn argsBurn_ok.1 argsBurn_ok.2 (by constructor <;> norm_num [argsBurn, argsEx2, argsEx]) (by norm_num [argsBurn, argsEx2, argsEx])
    (by norm_num [argsBurn, argsEx2, argsEx]) (by norm_num [argsBurn, argsEx2, argsEx]) _ _ _ _ _ (argsBurn_ready .HM) (by norm_num) (by norm_num)
    (by norm_num [mmin]) (by norm_num) (by norm_num) (by norm_num) (by norm_num [Coag.new]) (by norm_num [Coag.new])
    (pr _ 0.05 rfl (by norm_num) (by norm_num)) (pr _ 0.001 rfl (by norm_num) (by norm_num)) (pr _ 0.1 rfl (by norm_num) (by norm_num))
    (pr _ 0.001 rfl (by norm_num) (by norm_num)) (by simp [monoEx, Nucl.new]) (by simp [monoEx, Grow.new]) (by simp [monoEx, Oxid.new]) (by simp [Coag.new])
  exact ⟨m', s', y0, y1, Y, h1, h2⟩

end Soot
