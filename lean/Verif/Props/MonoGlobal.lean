import Verif.Props.LognGlobal
import Verif.Props.Regimes

/-!
# The MONO moments in a nucleating gas, for all times (C114)

Specification: `MonoEvolution` (C105), written with `monoSources` only, and the limits in the statements.
-/

namespace Soot

open Res Real Filter Topology Cont
open scoped Classical

namespace MonoGlobal

/-! ## Curves on a half line -/

/-- A quantity that falls at no less than a fixed rate wherever it is above `b` ends up below `b`. -/
theorem trap {f f' : ℝ → ℝ} {b c T : ℝ} (c0 : 0 < c) (hc : ContinuousOn f (Set.Ici T)) (hd : ∀ t, T ≤ t → HasDerivWithinAt f (f' t) (Set.Ici t) t)
    (h : ∀ t, T ≤ t → b ≤ f t → f' t ≤ -c) : ∀ᶠ t in atTop, f t ≤ b := by
  have hit : ∃ t1, T ≤ t1 ∧ f t1 ≤ b := by
    by_contra hx
    push Not at hx
    set t := T + (f T - b) / c with ht
    have fT := hx T le_rfl
    have tT : T ≤ t := by rw [ht]; have := div_pos (sub_pos.2 fT) c0; linarith
    have := image_le_of_deriv_right_le_deriv_boundary (f := f) (f' := f') (B := fun u => f T - c * (u - T)) (B' := fun _ => -c) (a := T) (b := t)
      (hc.mono Set.Icc_subset_Ici_self) (fun u hu => hd u hu.1) (by simp) (by fun_prop)
      (fun u _ => by simpa using ((((hasDerivAt_id u).sub_const T).const_mul c).const_sub (f T)).hasDerivWithinAt)
      (fun u hu => h u hu.1 (hx u hu.1).le) ⟨tT, le_rfl⟩
    have e : f T - c * (t - T) = b := by rw [ht]; field_simp; ring
    have := hx t tT
    simp only [e] at *
    linarith
  obtain ⟨t1, h1, h2⟩ := hit
  filter_upwards [eventually_ge_atTop t1] with t ht
  exact image_le_of_deriv_right_lt_deriv_boundary' (f := f) (f' := f') (B := fun _ => b) (B' := fun _ => 0) (a := t1) (b := t)
    (hc.mono fun u hu => h1.trans hu.1) (fun u hu => hd u (h1.trans hu.1)) h2 continuousOn_const (fun u _ => hasDerivWithinAt_const _ _ _)
    (fun u hu e => (h u (h1.trans hu.1) e.ge).trans_lt (by linarith)) ⟨ht, le_rfl⟩

/-- The number in a balance of a steady gain `J` and a loss `k N² / 2` whose coefficient settles. -/
theorem balance {N k : ℝ → ℝ} {J L : ℝ} (J0 : 0 < J) (L0 : 0 < L) (hc : ContinuousOn N (Set.Ici 0)) (hp : ∀ t, 0 ≤ t → 0 < N t)
    (hd : ∀ t, 0 ≤ t → HasDerivWithinAt N (J - k t * N t ^ 2 / 2) (Set.Ici t) t) (hk : Tendsto k atTop (𝓝 L)) :
    Tendsto N atTop (𝓝 (sqrt (2 * J / L))) := by
  set r := sqrt (2 * J / L) with hr
  have r0 : 0 < r := by positivity
  have r2 : L * r ^ 2 = 2 * J := by rw [hr, sq_sqrt (by positivity)]; field_simp
  have up : ∀ b, r < b → ∀ᶠ t in atTop, N t ≤ b := fun b hb => by
    have hb0 := r0.trans hb
    have lt : 2 * J / b ^ 2 < L := by
      rw [div_lt_iff₀ (by positivity), ← r2]
      exact mul_lt_mul_of_pos_left (by gcongr) L0
    obtain ⟨q, q1, q2⟩ := exists_between lt
    obtain ⟨T, hT⟩ := eventually_atTop.1 (hk.eventually (lt_mem_nhds q2))
    rw [div_lt_iff₀ (by positivity)] at q1
    refine trap (T := max T 0) (c := q * b ^ 2 / 2 - J) (by linarith) (hc.mono (Set.Ici_subset_Ici.2 (le_max_right _ _)))
      (fun t ht => hd t ((le_max_right _ _).trans ht)) fun t ht hb' => ?_
    have k1 := (hT t ((le_max_left _ _).trans ht)).le
    have q0 : 0 < q := by
      by_contra hx
      nlinarith [mul_nonpos_of_nonpos_of_nonneg (not_lt.1 hx) (sq_nonneg b)]
    have : q * b ^ 2 ≤ k t * N t ^ 2 := mul_le_mul k1 (by gcongr) (by positivity) (q0.le.trans k1)
    linarith
  have lo : ∀ b, b < r → ∀ᶠ t in atTop, b ≤ N t := fun b hb => by
    rcases le_or_gt b 0 with b0 | b0
    · exact eventually_atTop.2 ⟨0, fun t ht => b0.trans (hp t ht).le⟩
    have lt : L < 2 * J / b ^ 2 := by
      rw [lt_div_iff₀ (by positivity), ← r2]
      exact mul_lt_mul_of_pos_left (by gcongr) L0
    obtain ⟨q, q1, q2⟩ := exists_between lt
    obtain ⟨T, hT⟩ := eventually_atTop.1 (hk.eventually (gt_mem_nhds q1))
    rw [lt_div_iff₀ (by positivity)] at q2
    have := trap (f := fun t => -N t) (f' := fun t => -(J - k t * N t ^ 2 / 2)) (b := -b) (T := max T 0) (c := J - q * b ^ 2 / 2) (by linarith)
      (hc.mono (Set.Ici_subset_Ici.2 (le_max_right _ _))).neg
      (fun t ht => (hd t ((le_max_right _ _).trans ht)).neg) fun t ht hb' => by
        have t0 := (le_max_right T 0).trans ht
        have k1 := (hT t ((le_max_left _ _).trans ht)).le
        have n0 := hp t t0
        have nb : N t ≤ b := by linarith
        have : k t * N t ^ 2 ≤ q * b ^ 2 := mul_le_mul k1 (by gcongr) (by positivity) (L0.le.trans q1.le)
        linarith
    exact this.mono fun t ht => by linarith
  rw [tendsto_order]
  refine ⟨fun b hb => ?_, fun b hb => ?_⟩
  · obtain ⟨q, q1, q2⟩ := exists_between hb
    exact (lo q q2).mono fun t ht => q1.trans_le ht
  · obtain ⟨q, q1, q2⟩ := exists_between hb
    exact (up q q1).mono fun t ht => ht.trans_lt q2

/-- With a loss coefficient that grows without bound nothing is left. -/
theorem balance_zero {N k : ℝ → ℝ} {J : ℝ} (hc : ContinuousOn N (Set.Ici 0)) (hp : ∀ t, 0 ≤ t → 0 < N t)
    (hd : ∀ t, 0 ≤ t → HasDerivWithinAt N (J - k t * N t ^ 2 / 2) (Set.Ici t) t) (hk : Tendsto k atTop atTop) : Tendsto N atTop (𝓝 0) := by
  have up : ∀ b, 0 < b → ∀ᶠ t in atTop, N t ≤ b := fun b hb => by
    obtain ⟨T, hT⟩ := eventually_atTop.1 (hk.eventually_ge_atTop (2 * (|J| + 1) / b ^ 2))
    refine trap (T := max T 0) (c := 1) one_pos (hc.mono (Set.Ici_subset_Ici.2 (le_max_right _ _)))
      (fun t ht => hd t ((le_max_right _ _).trans ht)) fun t ht hb' => ?_
    have k1 := hT t ((le_max_left _ _).trans ht)
    have : 2 * (|J| + 1) / b ^ 2 * b ^ 2 ≤ k t * N t ^ 2 := mul_le_mul k1 (by gcongr) (by positivity) (le_trans (by positivity) k1)
    rw [div_mul_cancel₀ _ (by positivity)] at this
    linarith [le_abs_self J]
  rw [tendsto_order]
  refine ⟨fun b hb => eventually_atTop.2 ⟨0, fun t ht => hb.trans (hp t ht)⟩, fun b hb => ?_⟩
  obtain ⟨q, q1, q2⟩ := exists_between hb
  exact (up q q1).mono fun t ht => ht.trans_lt q2

/-- With a loss coefficient that stays away from zero the number stays bounded in the end. -/
theorem balance_bound {N k : ℝ → ℝ} {J κ : ℝ} (κ0 : 0 < κ) (hc : ContinuousOn N (Set.Ici 0))
    (hd : ∀ t, 0 ≤ t → HasDerivWithinAt N (J - k t * N t ^ 2 / 2) (Set.Ici t) t) (hk : ∀ t, 0 ≤ t → κ ≤ k t) {b : ℝ} (b0 : 0 < b) (hb : 2 * J < κ * b ^ 2) :
    ∀ᶠ t in atTop, N t ≤ b := by
  refine trap (T := 0) (c := κ * b ^ 2 / 2 - J) (by linarith) hc hd fun t ht hb' => ?_
  have : κ * b ^ 2 ≤ k t * N t ^ 2 := mul_le_mul (hk t ht) (by gcongr) (by positivity) (κ0.le.trans (hk t ht))
  linarith

/-! ## The kernel of equal particles -/

theorem diam_sphere {x : ℝ} (hx : 0 < x) : sphereMass (diam x) = x := by
  have := rhoSoot_pos
  have h0 : 0 ≤ 6 * x / (π * rhoSoot) := by positivity
  have e : diam x ^ 3 = 6 * x / (π * rhoSoot) := by
    unfold diam onethird
    rw [← rpow_natCast, ← rpow_mul h0]; norm_num
  rw [sphereMass, e]; field_simp

theorem diam_large : Tendsto diam atTop atTop := by
  have := rhoSoot_pos
  have h : Tendsto (fun x : ℝ => 6 * x / (π * rhoSoot)) atTop atTop :=
    (tendsto_id.const_mul_atTop (by norm_num : (0 : ℝ) < 6)).atTop_div_const (by positivity)
  exact (tendsto_rpow_atTop (by norm_num [onethird])).comp h

/-- Rate of the collisions of large equal particles. -/
noncomputable def kInf (s : State) : ℝ := 8 * kb * s.T / (3 * s.muGas)

theorem kInf_pos {s : State} (h : s.Phys) : 0 < kInf s := by
  have := h.T; have := h.mu; have := kb_pos; unfold kInf; positivity

theorem val_large {c : Coag} (hc : 0 < c.fmMult) {s : State} (hs : Accepted s) :
    (c.mech = .FM → Tendsto (fun x => c.val s x x) atTop atTop) ∧
    (c.mech = .CONTINUUM ∨ c.mech = .HM ∨ c.mech = .FUCHS → Tendsto (fun x => c.val s x x) atTop (𝓝 (kInf s))) := by
  have h := C87_continuum s hs c.fmMult hc 1 1 one_pos one_pos
  have K : 2 * kb * s.T / (3 * s.muGas) * (1 / 1 + 1 / 1) * (1 + 1) = kInf s := by unfold kInf; ring
  simp only [one_mul, K] at h
  have go : ∀ {mech : CoagMech} {G : Filter ℝ}, c.mech = mech → Tends (fun x => (⟨mech, c.fmMult⟩ : Coag).rate s (sphereMass x) (sphereMass x)) atTop G →
      Tendsto (fun x => c.val s x x) atTop G := fun {mech G} e ⟨k, k1, k2⟩ => by
    have ec : (⟨mech, c.fmMult⟩ : Coag) = c := by rw [← e]
    rw [ec] at k1
    refine (k2.comp diam_large).congr' ?_
    filter_upwards [diam_large.eventually k1, eventually_gt_atTop 0] with x hx x0
    simp only [diam_sphere x0, Coag.rate_ok hs.phys hc, ok.injEq] at hx
    exact hx.symm
  refine ⟨fun e => go e h.2.2.2, fun e => ?_⟩
  rcases e with e | e | e
  exacts [go e h.1, go e h.2.1, go e h.2.2.1]

theorem val_pos {c : Coag} (hc : 0 < c.fmMult) (hn : c.mech ≠ .NONE) {s : State} (h : s.Phys) {x : ℝ} (hx : mmin < x) : 0 < c.val s x x := by
  have x0 := mmin_pos.trans hx
  rw [val_core c s hx hx]
  exact core_pos hc hn h x0 x0

theorem val_cont {c : Coag} (hc : 0 < c.fmMult) {s : State} (h : s.Phys) {x : ℝ} (hx : mmin < x) : ContinuousAt (fun x => c.val s x x) x :=
  (Smooth.val_smooth hc h contDiffAt_id contDiffAt_id hx.ne' hx.ne').continuousAt

/-- Above any mass over the cutoff the kernel stays away from zero. -/
theorem val_low {c : Coag} (hc : 0 < c.fmMult) (hn : c.mech ≠ .NONE) {s : State} (hs : Accepted s) {μ : ℝ} (hμ : mmin < μ) :
    ∃ κ > 0, ∀ x, μ ≤ x → κ ≤ c.val s x x := by
  have far : ∃ q > 0, ∀ᶠ x in atTop, q ≤ c.val s x x := by
    obtain ⟨h1, h2⟩ := val_large hc hs
    rcases hx : c.mech with _ | _ | _ | _ | _
    · exact absurd hx hn
    · exact ⟨1, one_pos, (h1 hx).eventually_ge_atTop 1⟩
    all_goals
      have k0 := kInf_pos hs.phys
      exact ⟨kInf s / 2, by positivity, ((h2 (by simp [hx])).eventually (lt_mem_nhds (by linarith))).mono fun x hx => le_of_lt hx⟩
  obtain ⟨q, q0, hq⟩ := far
  obtain ⟨R, hR⟩ := eventually_atTop.1 hq
  obtain ⟨z, hz, hz'⟩ := (isCompact_Icc (a := μ) (b := max μ R)).exists_isMinOn ⟨μ, le_rfl, le_max_left _ _⟩
    (f := fun x => c.val s x x) fun x hx => (val_cont hc hs.phys (hμ.trans_le hx.1)).continuousWithinAt
  refine ⟨min q (c.val s z z), lt_min q0 (val_pos hc hn hs.phys (hμ.trans_le hz.1)), fun x hx => ?_⟩
  rcases le_total x (max μ R) with h | h
  · exact (min_le_right _ _).trans (hz' ⟨hx, h⟩)
  · exact (min_le_left _ _).trans (hR x ((le_max_right _ _).trans h))

/-! ## Bounds along a run -/

section
variable {m : Model} {s : State}

/-- Bounds up to time `τ` for every curve of the field without oxidation, the nucleated particles and the first ones weighing at least `μ`. -/
theorem apriori (hp : s.Phys) (fm : 0 < m.coag.fmMult) (hg : ∃ k, 0 ≤ k ∧ ∀ A, 0 ≤ A → 0 ≤ growFlux m.grow.mech s A ∧ growFlux m.grow.mech s A ≤ k * (1 + A))
    {J mN μ τ : ℝ} (J0 : 0 ≤ J) (hτ : 0 ≤ τ) (μ0 : 0 < μ) (hμ : μ ≤ mN) {n0 c0 : ℝ} (hn0 : 0 < n0) (hc0 : μ * n0 ≤ c0) :
    ∃ l R, 0 < l ∧ l ≤ n0 ∧ n0 ≤ R ∧ c0 ≤ R ∧ ∀ x ≤ τ, ∀ n c : ℝ → ℝ, ContinuousOn n (Set.Icc 0 x) → ContinuousOn c (Set.Icc 0 x) → n 0 = n0 → c 0 = c0 →
      (∀ t ∈ Set.Icc 0 x, 0 < n t ∧ 0 < c t) →
      (∀ t ∈ Set.Ico 0 x, HasDerivWithinAt n (J - m.coag.val s (c t / n t) (c t / n t) * n t ^ 2 / 2) (Set.Ici t) t) →
      (∀ t ∈ Set.Ico 0 x, HasDerivWithinAt c (J * mN + growFlux m.grow.mech s (areaFn (n t) (c t))) (Set.Ici t) t) →
      ∀ t ∈ Set.Icc 0 x, l ≤ n t ∧ n t ≤ R ∧ c t ≤ R ∧ μ * n t ≤ c t ∧ c0 + J * mN * t ≤ c t := by
  obtain ⟨k, k0, hg⟩ := hg
  have A := LognGlobal.a3_pos
  have mN0 : 0 < mN := μ0.trans_le hμ
  have c00 : 0 < c0 := (mul_pos μ0 hn0).trans_le hc0
  set X := n0 + J * τ with hX
  have X0 : n0 ≤ X := by have := mul_nonneg J0 hτ; linarith
  set a := J * mN + k * (1 + LognGlobal.a3 * X) with ha
  set b := k * LognGlobal.a3 with hb
  have b0 : 0 ≤ b := by positivity
  have a0 : 0 ≤ a := by have : 0 ≤ X := hn0.le.trans X0; positivity
  set Y := (c0 + a * τ) * exp (b * τ) with hY
  have Y0 : c0 ≤ Y := by
    have h1 : 1 ≤ exp (b * τ) := one_le_exp (by positivity)
    have h2 : c0 ≤ c0 + a * τ := by have := mul_nonneg a0 hτ; linarith
    calc c0 ≤ c0 + a * τ := h2
      _ = (c0 + a * τ) * 1 := (mul_one _).symm
      _ ≤ _ := mul_le_mul_of_nonneg_left h1 (c00.le.trans h2)
  set C := |kernBound m.coag s| * Y / 2 with hC
  have C0 : 0 ≤ C := by have := c00.le.trans Y0; positivity
  refine ⟨n0 * exp (-(C * τ)), max X Y, by positivity, ?_, X0.trans (le_max_left _ _), Y0.trans (le_max_right _ _), fun x hx n c cn cc en ec pos dn dc => ?_⟩
  · have : exp (-(C * τ)) ≤ 1 := exp_le_one_iff.2 (by have := mul_nonneg C0 hτ; linarith)
    exact mul_le_of_le_one_right hn0.le this
  have ico : ∀ {t}, t ∈ Set.Ico 0 x → t ∈ Set.Icc 0 x := fun ht => ⟨ht.1, ht.2.le⟩
  have K0 : ∀ t, 0 ≤ m.coag.val s (c t / n t) (c t / n t) := fun t => Coag.val_nonneg hp fm _ _
  have G0 : ∀ t ∈ Set.Icc 0 x, 0 ≤ growFlux m.grow.mech s (areaFn (n t) (c t)) := fun t ht =>
    (hg _ (LognGlobal.areaFn_le (pos t ht).1 (pos t ht).2).1.le).1
  have z0 : ∀ {t}, t ∈ Set.Icc 0 x → (0 : ℝ) ∈ Set.Icc 0 x := fun ht => ⟨le_rfl, ht.1.trans ht.2⟩
  have nUp : ∀ t ∈ Set.Icc 0 x, n t ≤ X := fun t ht => by
    have := antitone_of_right (f := fun t => n t - J * t) (f' := fun t => J - m.coag.val s (c t / n t) (c t / n t) * n t ^ 2 / 2 - J) (τ := x) (cn.sub (by fun_prop))
      (fun t ht => (dn t ht).sub (by simpa using ((hasDerivAt_id t).const_mul J).hasDerivWithinAt)) (fun t ht => by
        have := mul_nonneg (K0 t) (sq_nonneg (n t)); linarith) (z0 ht) ht ht.1
    simp only [mul_zero, sub_zero, en] at this
    have := mul_le_mul_of_nonneg_left (ht.2.trans hx) J0
    linarith
  have cUp : ∀ t ∈ Set.Icc 0 x, c t ≤ Y := fun t ht => by
    have := LognGlobal.gronwall a0 b0 cc dc (fun t ht => by
      obtain ⟨p1, p2⟩ := pos t (ico ht)
      obtain ⟨A0, A1⟩ := LognGlobal.areaFn_le p1 p2
      have h1 := (hg _ A0.le).2
      have h2 := mul_le_mul_of_nonneg_left A1 k0
      have h3 := mul_le_mul_of_nonneg_left (nUp t (ico ht)) b0
      rw [ha]
      have e : k * (LognGlobal.a3 * (n t + c t)) = b * n t + b * c t := by rw [hb]; ring
      have e' : k * (1 + LognGlobal.a3 * X) = k + b * X := by rw [hb]; ring
      rw [e', ]
      linarith) t ht
    refine this.trans ?_
    rw [ec, hY]
    have t1 := ht.2.trans hx
    have := ht.1
    gcongr
  have low : ∀ t ∈ Set.Icc 0 x, μ * n t ≤ c t := fun t ht => by
    have := antitone_of_right (f := fun t => μ * n t - c t)
      (f' := fun t => μ * (J - m.coag.val s (c t / n t) (c t / n t) * n t ^ 2 / 2) - (J * mN + growFlux m.grow.mech s (areaFn (n t) (c t)))) (τ := x)
      ((continuousOn_const.mul cn).sub cc) (fun t ht => ((dn t ht).const_mul μ).sub (dc t ht)) (fun t ht => by
        have h1 := mul_nonneg μ0.le (mul_nonneg (K0 t) (sq_nonneg (n t)))
        have h2 := G0 t (ico ht)
        have h3 := mul_le_mul_of_nonneg_left hμ J0
        linarith) (z0 ht) ht ht.1
    simp only [en, ec] at this
    linarith
  have cLow : ∀ t ∈ Set.Icc 0 x, c0 + J * mN * t ≤ c t := fun t ht => by
    have := antitone_of_right (f := fun t => J * mN * t - c t)
      (f' := fun t => J * mN - (J * mN + growFlux m.grow.mech s (areaFn (n t) (c t)))) (τ := x)
      ((by fun_prop : ContinuousOn (fun t : ℝ => J * mN * t) _).sub cc)
      (fun t ht => (by simpa using ((hasDerivAt_id t).const_mul (J * mN)).hasDerivWithinAt : HasDerivWithinAt (fun t => J * mN * t) (J * mN) _ t).sub (dc t ht))
      (fun t ht => by have := G0 t (ico ht); linarith) (z0 ht) ht ht.1
    simp only [mul_zero, zero_sub, ec] at this
    linarith
  have nLow : ∀ t ∈ Set.Icc 0 x, n0 * exp (-(C * τ)) ≤ n t := fun t ht => by
    have he : ∀ t, HasDerivAt (fun t => exp (C * t)) (exp (C * t) * C) t := fun t => by
      simpa using ((hasDerivAt_id t).const_mul C).exp
    have := antitone_of_right (f := fun t => -(n t * exp (C * t)))
      (f' := fun t => -((J - m.coag.val s (c t / n t) (c t / n t) * n t ^ 2 / 2) * exp (C * t) + n t * (exp (C * t) * C))) (τ := x)
      ((cn.mul (by fun_prop)).neg) (fun t ht => ((dn t ht).mul (he t).hasDerivWithinAt).neg) (fun t ht => by
        obtain ⟨p1, p2⟩ := pos t (ico ht)
        have k1 := val_lin fm hp (div_nonneg p2.le p1.le) (c := m.coag)
        have k2 : m.coag.val s (c t / n t) (c t / n t) * n t ^ 2 / 2 ≤ C * n t := by
          calc _ ≤ kernBound m.coag s * (c t / n t) * n t ^ 2 / 2 := by gcongr
            _ = kernBound m.coag s * c t / 2 * n t := by field_simp
            _ ≤ |kernBound m.coag s| * Y / 2 * n t := by
              have := cUp t (ico ht)
              have := le_abs_self (kernBound m.coag s)
              gcongr
        have k3 := mul_nonneg (show 0 ≤ J - m.coag.val s (c t / n t) (c t / n t) * n t ^ 2 / 2 + C * n t by linarith) (exp_pos (C * t)).le
        rw [add_mul] at k3
        linarith) (z0 ht) ht ht.1
    simp only [mul_zero, exp_zero, mul_one, en, neg_le_neg_iff] at this
    have e : n0 * exp (-(C * τ)) ≤ n0 * exp (-(C * t)) := by
      have := ht.2.trans hx
      gcongr
    refine e.trans ?_
    rw [exp_neg, ← div_eq_mul_inv, div_le_iff₀ (exp_pos _)]
    exact this
  exact fun t ht => ⟨nLow t ht, (nUp t ht).trans (le_max_left _ _), (cUp t ht).trans (le_max_right _ _), low t ht, cLow t ht⟩

/-- The sources without oxidation, `J` being the nucleation rate of the gas. -/
theorem field (h : MonoGas m s) (hn : m.nucl.mech ≠ .PAH) (hg : m.grow.mech ≠ .HACA) (ho : m.oxid.cls = .NONE) :
    ∃ J, 0 ≤ J ∧ m.nucl.rate (ibetaNodes m.coag) s = ok (J, m.nucl, s) ∧
      ∀ M0 M1, 0 < M0 → 0 ≤ M1 → ∃ m' s', monoSources m { s with sootVar := [M0, M1] } = ok (m', s') ∧
        m'.sources.soot = [(monoF m s J 0 (M0, M1)).1, (monoF m s J 0 (M0, M1)).2] := by
  have ho' : m.oxid.cls ≠ .HACA := by simp [ho]
  obtain ⟨w, a, h⟩ := h
  have h0 := h 0 0 le_rfl le_rfl
  set g : State := { s with sootVar := [0, 0], wts := [monoW 0 w], absc := [monoA 0 0 a] } with hgd
  have rr : Ready m g := h0.toReady.upd h0.gas.acc.phys.cMin _ _
  obtain ⟨v, v1, -⟩ := C103_nucleation_continuous m.nucl.mech hn (ibetaNodes m.coag) (fun _ : Unit => g) () (fun _ => rr.gas) continuousAt_const
    continuousAt_const continuousAt_const continuousAt_const (fun _ => continuousAt_const)
    (fun h => ⟨fun _ => rr.tar h, continuousAt_const⟩) (fun h => ⟨fun _ => rr.mtar h, continuousAt_const⟩)
  rw [← h0.wf.nucl.new hn] at v1
  have v1 : m.nucl.rate (ibetaNodes m.coag) g = ok (v (), m.nucl, g) := v1 ()
  obtain ⟨m', s', J, n', kG, kO, A, -, b2, b3, -, -, b6, -, -, b8, -, b10, -, -⟩ := mono_eval h0
  have b2 : m.nucl.rate (ibetaNodes m.coag) g = ok (J, n', s') := b2
  rw [v1] at b2
  simp only [ok.injEq, Prod.mk.injEq] at b2
  obtain ⟨rfl, rfl, rfl⟩ := b2
  refine ⟨v (), b8, nucl_rate_soot hn v1 s.sootVar s.wts s.absc, fun M0 M1 p0 p1 => ?_⟩
  have k0 : kO = 0 := by simp only [Oxid.rate, ho, ok.injEq] at b6; exact b6.symm
  have hr := h M0 M1 p0.le p1
  have rM := hr.toReady.upd hr.gas.acc.phys.cMin [monoW M0 w] [monoA M0 M1 a]
  have hJ := nucl_rate_soot hn v1 [M0, M1] [monoW M0 w] [monoA M0 M1 a]
  have hO := (oxid_rate_soot ho' rr.sized (l := [M0, M1]) (w := [monoW M0 w]) (a := [monoA M0 M1 a]) rM.sized).trans b6
  obtain ⟨m', s', e1, e2, -⟩ := mono_plain hr hn hg hJ hO
  refine ⟨m', s', e1, ?_⟩
  rw [e2, monoW, monoA, if_pos p0, if_pos p0, growFlux_soot, val_soot, k0]
  rfl

theorem phys (h : MonoGas m s) : s.Phys ∧ 0 < m.coag.fmMult := by
  obtain ⟨w, a, h⟩ := h
  have hr := h 0 0 le_rfl le_rfl
  exact ⟨by obtain ⟨a, b, c, d, e, f⟩ := hr.gas.acc.phys; exact ⟨a, b, c, d, e, f⟩, hr.fm⟩

theorem flux (h : MonoGas m s) : ∃ k, 0 ≤ k ∧ ∀ A, 0 ≤ A → 0 ≤ growFlux m.grow.mech s A ∧ growFlux m.grow.mech s A ≤ k * (1 + A) := by
  obtain ⟨w, a, h⟩ := h
  obtain ⟨k, k0, hk⟩ := LognGlobal.growFlux_le m.grow.mech (h 0 0 le_rfl le_rfl).gas
  exact ⟨k, k0, fun A hA => by have := hk A hA; rwa [growFlux_soot] at this⟩

theorem F_two (J : ℝ) (p : ℝ × ℝ) : (monoF m s J 0 p).2 = J * (s.cMin * gasMW .C / Na) + growFlux m.grow.mech s (areaFn p.1 p.2) := by
  simp only [monoF]; ring

set_option maxHeartbeats 800000 in
/-- An evolution up to any time. -/
theorem exist (h : MonoGas m s) (hn : m.nucl.mech ≠ .PAH) (hg : m.grow.mech ≠ .HACA) (ho : m.oxid.cls = .NONE) (hN : mmin < s.cMin * gasMW .C / Na)
    {n0 c0 : ℝ} (hn0 : 0 < n0) (hc0 : mmin < c0 / n0) {τ : ℝ} (hτ : 0 ≤ τ) :
    ∃ M, MonoEvolution m s τ M ∧ M 0 = (n0, c0) ∧ ∀ t ∈ Set.Icc 0 τ, 0 < (M t).1 ∧ mmin < (M t).2 / (M t).1 := by
  obtain ⟨J, J0, -, hF⟩ := field h hn hg ho
  obtain ⟨hp, fm⟩ := phys h
  set mN := s.cMin * gasMW .C / Na with hmN
  set μ := min mN (c0 / n0) with hμ
  have μm : mmin < μ := lt_min hN hc0
  have m0 := mmin_pos
  have μc : μ * n0 ≤ c0 := by rw [← le_div_iff₀ hn0]; exact min_le_right _ _
  obtain ⟨l, R, l0, ln, nR, cR, ap⟩ := apriori hp fm (flux h) J0 hτ (m0.trans μm) (min_le_left _ _) hn0 μc
  obtain ⟨ν, ν1, ν2⟩ := exists_between μm
  have ν0 := m0.trans ν1
  set q : (Fin 2 → ℝ) → ℝ × ℝ := fun p => (p 0, p 1 + ν * p 0) with hq
  have sq : ∀ p : Fin 2 → ℝ, 0 < p 0 → 0 ≤ p 1 → Sooty (q p) ∧ mmin < (q p).2 / (q p).1 := fun p h0 h1 => by
    have : mmin < (q p).2 / (q p).1 := by
      simp only [hq]; rw [lt_div_iff₀ h0]; have := mul_lt_mul_of_pos_right ν1 h0; linarith
    exact ⟨⟨h0, by simp only [hq]; positivity, this.ne'⟩, this⟩
  obtain ⟨P, P0, cP, lP, dP⟩ := LognGlobal.box_exists (ι := Fin 2)
    (F := fun p => ![(monoF m s J 0 (q p)).1, (monoF m s J 0 (q p)).2 - ν * (monoF m s J 0 (q p)).1])
    (l := ![l, (μ - ν) * l]) (l' := ![l / 2, 0]) (r := ![R, R]) (r' := ![R + 1, R + 1]) (v := ![n0, c0 - ν * n0]) hτ
    (fun k => by
      have := mul_pos (sub_pos.2 ν2) l0
      fin_cases k
      · show l / 2 < l; linarith
      · show 0 < (μ - ν) * l; linarith)
    (fun k => by fin_cases k <;> show R < R + 1 <;> linarith)
    (fun k => by
      have e1 := mul_le_mul_of_nonneg_left ln (sub_pos.2 ν2).le
      have e2 := mul_pos ν0 hn0
      fin_cases k
      · exact ⟨ln, nR⟩
      · show (μ - ν) * l ≤ c0 - ν * n0 ∧ c0 - ν * n0 ≤ R
        constructor <;> linarith)
    (fun p hl => by
      have h0 : 0 < p 0 := by have : l / 2 ≤ p 0 := hl 0; linarith
      have h1 : 0 ≤ p 1 := hl 1
      have c0 : ContDiffAt ℝ 1 (fun p : Fin 2 → ℝ => p 0) p := (contDiff_apply ℝ ℝ (0 : Fin 2)).contDiffAt
      have c1 : ContDiffAt ℝ 1 (fun p : Fin 2 → ℝ => p 1) p := (contDiff_apply ℝ ℝ (1 : Fin 2)).contDiffAt
      have cq : ContDiffAt ℝ 1 q p := c0.prodMk (c1.add (contDiffAt_const.mul c0))
      have cF : ContDiffAt ℝ 1 (fun p => monoF m s J 0 (q p)) p := (monoF_smooth fm hp J 0 (sq p h0 h1).1).comp p cq
      refine contDiffAt_pi.2 fun k => ?_
      fin_cases k
      · exact contDiffAt_fst.comp p cF
      · exact (contDiffAt_snd.comp p cF).sub (contDiffAt_const.mul (contDiffAt_fst.comp p cF)))
    (fun x hx P cP eP lP dP t ht => by
      have p0 : ∀ t ∈ Set.Icc 0 x, 0 < P t 0 := fun t ht => by have : l / 2 ≤ P t 0 := lP t ht 0; linarith
      have p1 : ∀ t ∈ Set.Icc 0 x, 0 ≤ P t 1 := fun t ht => lP t ht 1
      have c0' := continuousOn_pi.1 cP 0
      have c1' := continuousOn_pi.1 cP 1
      have d0 : ∀ t ∈ Set.Ico 0 x, HasDerivWithinAt (fun t => P t 0) (monoF m s J 0 (q (P t))).1 (Set.Ici t) t := fun t ht => hasDerivWithinAt_pi.1 (dP t ht) 0
      have d1 : ∀ t ∈ Set.Ico 0 x, HasDerivWithinAt (fun t => P t 1) ((monoF m s J 0 (q (P t))).2 - ν * (monoF m s J 0 (q (P t))).1) (Set.Ici t) t :=
        fun t ht => hasDerivWithinAt_pi.1 (dP t ht) 1
      obtain ⟨b1, b2, b3, b4, -⟩ := ap x hx (fun t => P t 0) (fun t => P t 1 + ν * P t 0) c0' (c1'.add (continuousOn_const.mul c0')) (by simp [eP]) (by simp [eP])
        (fun t ht => ⟨p0 t ht, by have := p0 t ht; have := p1 t ht; positivity⟩) d0
        (fun t ht => by
          have := (d1 t ht).add ((d0 t ht).const_mul ν)
          refine this.congr_deriv ?_
          rw [sub_add_cancel, F_two]) t ht
      have e1 := mul_le_mul_of_nonneg_left b1 (sub_pos.2 ν2).le
      have e2 := mul_pos ν0 (p0 t ht)
      intro k
      fin_cases k
      · exact ⟨b1, b2⟩
      · show (μ - ν) * l ≤ P t 1 ∧ P t 1 ≤ R
        constructor <;> linarith)
  have p0 : ∀ t ∈ Set.Icc 0 τ, 0 < P t 0 := fun t ht => by have : l / 2 ≤ P t 0 := lP t ht 0; linarith
  have p1 : ∀ t ∈ Set.Icc 0 τ, 0 ≤ P t 1 := fun t ht => lP t ht 1
  have c0' := continuousOn_pi.1 cP 0
  have c1' := continuousOn_pi.1 cP 1
  refine ⟨fun t => q (P t), ⟨c0'.prodMk (c1'.add (continuousOn_const.mul c0')), fun t ht => ?_⟩, by simp [hq, P0],
    fun t ht => ⟨p0 t ht, (sq _ (p0 t ht) (p1 t ht)).2⟩⟩
  have ht' : t ∈ Set.Icc 0 τ := ⟨ht.1, ht.2.le⟩
  have d0 : HasDerivWithinAt (fun t => P t 0) (monoF m s J 0 (q (P t))).1 (Set.Ici t) t := hasDerivWithinAt_pi.1 (dP t ht) 0
  have d1 : HasDerivWithinAt (fun t => P t 1) ((monoF m s J 0 (q (P t))).2 - ν * (monoF m s J 0 (q (P t))).1) (Set.Ici t) t := hasDerivWithinAt_pi.1 (dP t ht) 1
  obtain ⟨m', s', e1, e2⟩ := hF _ _ (p0 t ht') (sq _ (p0 t ht') (p1 t ht')).1.2.1.le
  refine ⟨m', s', e1, ?_⟩
  rw [e2]
  refine (d0.prodMk (d1.add (d0.const_mul ν))).congr_deriv ?_
  rw [sub_add_cancel]
  rfl

end

end MonoGlobal

section
variable {m : Model} {s : State}

theorem MonoEvolution.restrict {τ τ' : ℝ} {M : ℝ → ℝ × ℝ} (h : MonoEvolution m s τ M) (hτ : τ' ≤ τ) : MonoEvolution m s τ' M :=
  ⟨h.cont.mono (Set.Icc_subset_Icc_right hτ), fun t ht => h.rate t ⟨ht.1, ht.2.trans_le hτ⟩⟩

theorem MonoEvolution.congr {τ : ℝ} {M M' : ℝ → ℝ × ℝ} (h : MonoEvolution m s τ M) (e : Set.EqOn M' M (Set.Icc 0 τ)) : MonoEvolution m s τ M' := by
  refine ⟨h.cont.congr e, fun t ht => ?_⟩
  have ht' : t ∈ Set.Icc 0 τ := ⟨ht.1, ht.2.le⟩
  obtain ⟨m', s', r1, r2⟩ := h.rate t ht
  rw [← e ht'] at r1
  refine ⟨m', s', r1, r2.congr_of_eventuallyEq ?_ (e ht')⟩
  filter_upwards [Icc_mem_nhdsGE_of_mem ht] with u hu using e hu

/-- **C114 (one evolution, for ever).** In a gas that stays as it is, without oxidation, with any nucleation except PAH, any growth except HACA and any kernel: when the
particles that are there and the ones that nucleate weigh more than the cutoff mass, there is an evolution of number and mass for all times, it keeps particles above the
cutoff mass, and every evolution from the same start agrees with it for as long as it lasts. -/
theorem C114_global (h : MonoGas m s) (hn : m.nucl.mech ≠ .PAH) (hg : m.grow.mech ≠ .HACA) (ho : m.oxid.cls = .NONE) (hN : mmin < s.cMin * gasMW .C / Na)
    {M0 M1 : ℝ} (n0 : 0 < M0) (c0 : mmin < M1 / M0) :
    ∃ M, M 0 = (M0, M1) ∧ (∀ τ, MonoEvolution m s τ M) ∧ (∀ t, 0 ≤ t → 0 < (M t).1 ∧ mmin < (M t).2 / (M t).1) ∧
      ∀ τ M', MonoEvolution m s τ M' → M' 0 = (M0, M1) → Set.EqOn M' M (Set.Icc 0 τ) := by
  choose R hR R0 Rp using fun n : ℕ => MonoGlobal.exist h hn hg ho hN n0 c0 n.cast_nonneg
  have ho' : m.oxid.cls ≠ .HACA := by simp [ho]
  have mp := mmin_pos
  have good : ∀ p : ℝ × ℝ, 0 < p.1 → mmin < p.2 / p.1 → Sooty p := fun p h1 h2 =>
    ⟨h1, by rw [lt_div_iff₀ h1] at h2; exact (mul_pos mp h1).trans h2, h2.ne'⟩
  have uniq : ∀ (n : ℕ) (τ : ℝ) M', τ ≤ n → MonoEvolution m s τ M' → M' 0 = (M0, M1) → Set.EqOn (R n) M' (Set.Icc 0 τ) := fun n τ M' hτ h' e' =>
    C105_unique_partial m s h hn hg ho' τ (R n) M' ((hR n).restrict hτ) h' (fun t ht => good _ (Rp n t ⟨ht.1, ht.2.le.trans hτ⟩).1 (Rp n t ⟨ht.1, ht.2.le.trans hτ⟩).2)
      ((R0 n).trans e'.symm)
  set M : ℝ → ℝ × ℝ := fun t => R ⌈t⌉₊ t with hM
  have eM : ∀ n : ℕ, Set.EqOn M (R n) (Set.Icc 0 n) := fun n t ht => by
    have hc : (⌈t⌉₊ : ℝ) ≤ n := by exact_mod_cast Nat.ceil_le.2 ht.2
    exact uniq ⌈t⌉₊ ⌈t⌉₊ (R n) le_rfl ((hR n).restrict hc) (R0 n) ⟨ht.1, Nat.le_ceil t⟩
  refine ⟨M, by simp only [hM]; exact R0 _, fun τ => ((hR ⌈τ⌉₊).congr (eM _)).restrict (Nat.le_ceil τ), fun t ht => Rp ⌈t⌉₊ t ⟨ht, Nat.le_ceil t⟩, fun τ M' h' e' t ht => ?_⟩
  rw [← uniq ⌈τ⌉₊ τ M' (Nat.le_ceil τ) h' e' ht]
  exact (eM ⌈τ⌉₊ ⟨ht.1, ht.2.trans (Nat.le_ceil τ)⟩).symm

/-- **C114 (where nucleation and coagulation lead).** In such a gas, `J` being the rate of nucleation, every evolution that lasts for ever lets the mean particle mass grow
without bound.  The free-molecular kernel removes all particles although nucleation goes on; with the continuum, the harmonic mean and the Fuchs kernel the number tends to
`sqrt (3 μ J / (4 k T))` whatever was there at first. -/
theorem C114_coagulation (h : MonoGas m s) (hn : m.nucl.mech ≠ .PAH) (hg : m.grow.mech ≠ .HACA) (ho : m.oxid.cls = .NONE) (hN : mmin < s.cMin * gasMW .C / Na)
    {J : ℝ} (hJ : m.nucl.rate (ibetaNodes m.coag) s = ok (J, m.nucl, s)) (hk : m.coag.mech ≠ .NONE)
    {M : ℝ → ℝ × ℝ} (hM : ∀ τ, MonoEvolution m s τ M) (n0 : 0 < (M 0).1) (c0 : mmin < (M 0).2 / (M 0).1) :
    Tendsto (fun t => (M t).2 / (M t).1) atTop atTop ∧
    (m.coag.mech = .FM → Tendsto (fun t => (M t).1) atTop (𝓝 0)) ∧
    (m.coag.mech = .CONTINUUM ∨ m.coag.mech = .HM ∨ m.coag.mech = .FUCHS → Tendsto (fun t => (M t).1) atTop (𝓝 (sqrt (3 * s.muGas * J / (4 * kb * s.T))))) := by
  obtain ⟨J', J0, eJ, hF⟩ := MonoGlobal.field h hn hg ho
  rw [hJ] at eJ
  simp only [ok.injEq, Prod.mk.injEq, and_true] at eJ
  subst eJ
  obtain ⟨hp, fm⟩ := MonoGlobal.phys h
  obtain ⟨G, -, -, Gp, Gu⟩ := C114_global h hn hg ho hN n0 c0
  have pos : ∀ t, 0 ≤ t → 0 < (M t).1 ∧ mmin < (M t).2 / (M t).1 := fun t ht => by rw [Gu t M (hM t) rfl ⟨ht, le_rfl⟩]; exact Gp t ht
  have mp := mmin_pos
  have pos2 : ∀ t, 0 ≤ t → 0 < (M t).2 := fun t ht => by
    obtain ⟨h1, h2⟩ := pos t ht
    rw [lt_div_iff₀ h1] at h2; exact (mul_pos mp h1).trans h2
  have der : ∀ t, 0 ≤ t → HasDerivWithinAt M (monoF m s J 0 (M t)) (Set.Ici t) t := fun t ht =>
    (hM (t + 1)).field hF ⟨ht, by linarith⟩ (pos t ht).1 (pos2 t ht).le
  have dn : ∀ t, 0 ≤ t → HasDerivWithinAt (fun t => (M t).1) (J - m.coag.val s ((M t).2 / (M t).1) ((M t).2 / (M t).1) * (M t).1 ^ 2 / 2) (Set.Ici t) t :=
    fun t ht => (der t ht).fst
  have dc : ∀ t, 0 ≤ t → HasDerivWithinAt (fun t => (M t).2) (J * (s.cMin * gasMW .C / Na) + growFlux m.grow.mech s (areaFn (M t).1 (M t).2)) (Set.Ici t) t :=
    fun t ht => by rw [← MonoGlobal.F_two]; exact (der t ht).snd
  have cM : ∀ τ, ContinuousOn (fun t => (M t).1) (Set.Icc 0 τ) := fun τ => continuous_fst.comp_continuousOn (hM τ).cont
  have cM2 : ∀ τ, ContinuousOn (fun t => (M t).2) (Set.Icc 0 τ) := fun τ => continuous_snd.comp_continuousOn (hM τ).cont
  have cn : ContinuousOn (fun t => (M t).1) (Set.Ici 0) := fun t ht =>
    ((cM (t + 1)) t ⟨ht, by linarith⟩).mono_of_mem_nhdsWithin (by
      rw [← Set.Ici_inter_Iic]
      exact inter_mem_nhdsWithin _ (Iic_mem_nhds (by linarith)))
  set μ := min (s.cMin * gasMW .C / Na) ((M 0).2 / (M 0).1) with hμ
  have μm : mmin < μ := lt_min hN c0
  have μc : μ * (M 0).1 ≤ (M 0).2 := by rw [← le_div_iff₀ n0]; exact min_le_right _ _
  have bd : ∀ t, 0 ≤ t → μ * (M t).1 ≤ (M t).2 ∧ (M 0).2 + J * (s.cMin * gasMW .C / Na) * t ≤ (M t).2 := fun t ht => by
    obtain ⟨l, R, -, -, -, -, ap⟩ := MonoGlobal.apriori hp fm (MonoGlobal.flux h) J0 ht (mp.trans μm) (min_le_left _ _) n0 μc
    have := ap t le_rfl (fun t => (M t).1) (fun t => (M t).2) (cM t) (cM2 t) rfl rfl (fun u hu => ⟨(pos u hu.1).1, pos2 u hu.1⟩) (fun u hu => dn u hu.1)
      (fun u hu => dc u hu.1) t ⟨ht, le_rfl⟩
    exact ⟨this.2.2.2.1, this.2.2.2.2⟩
  obtain ⟨w, a, hr⟩ := id h
  have acc := (hr 0 0 le_rfl le_rfl).gas.acc
  obtain ⟨κ, κ0, hκ⟩ := MonoGlobal.val_low (c := m.coag) fm hk acc μm
  have hκ : ∀ x, μ ≤ x → κ ≤ m.coag.val s x x := hκ
  have kt : ∀ t, 0 ≤ t → κ ≤ m.coag.val s ((M t).2 / (M t).1) ((M t).2 / (M t).1) := fun t ht =>
    hκ _ (by rw [le_div_iff₀ (pos t ht).1]; exact (bd t ht).1)
  have c00 := pos2 0 le_rfl
  have mean : Tendsto (fun t => (M t).2 / (M t).1) atTop atTop := by
    rcases J0.eq_or_lt with e | J1
    · have z : Tendsto (fun t => (M t).1) atTop (𝓝[>] 0) := by
        refine tendsto_nhdsWithin_iff.2 ⟨?_, eventually_atTop.2 ⟨0, fun t ht => (pos t ht).1⟩⟩
        rw [tendsto_order]
        refine ⟨fun b hb => eventually_atTop.2 ⟨0, fun t ht => hb.trans (pos t ht).1⟩, fun b hb => ?_⟩
        obtain ⟨q, q1, q2⟩ := exists_between hb
        exact (MonoGlobal.balance_bound κ0 cn dn kt q1 (by rw [← e]; simp only [mul_zero]; positivity)).mono fun t ht => ht.trans_lt q2
      refine tendsto_atTop_mono' _ (eventually_atTop.2 ⟨0, fun t ht => ?_⟩) (z.inv_tendsto_nhdsGT_zero.const_mul_atTop c00)
      have := (bd t ht).2
      rw [← e] at this
      simp only [zero_mul, add_zero] at this
      show (M 0).2 * (M t).1⁻¹ ≤ _
      rw [← div_eq_mul_inv]
      exact div_le_div_of_nonneg_right this (pos t ht).1.le
    · have b0 : 0 < sqrt (4 * J / κ) := by positivity
      have ev := MonoGlobal.balance_bound κ0 cn dn kt b0 (by rw [sq_sqrt (by positivity)]; field_simp; linarith)
      have mN0 := mp.trans hN
      have lin : Tendsto (fun t : ℝ => J * (s.cMin * gasMW .C / Na) / sqrt (4 * J / κ) * t) atTop atTop := tendsto_id.const_mul_atTop (by positivity)
      refine tendsto_atTop_mono' _ ?_ lin
      filter_upwards [ev, eventually_ge_atTop 0] with t h1 h2
      have p := (pos t h2).1
      have := (bd t h2).2
      have q : 0 ≤ J * (s.cMin * gasMW .C / Na) * t := by positivity
      rw [div_mul_eq_mul_div]
      exact div_le_div₀ (pos2 t h2).le (by linarith) p h1
  have large := MonoGlobal.val_large (c := m.coag) fm acc
  refine ⟨mean, fun e => MonoGlobal.balance_zero cn (fun t ht => (pos t ht).1) dn ((large.1 e).comp mean), fun e => ?_⟩
  have k0 := MonoGlobal.kInf_pos hp
  rcases J0.eq_or_lt with e0 | J1
  · rw [← e0]
    simp only [mul_zero, zero_div, sqrt_zero]
    rw [tendsto_order]
    refine ⟨fun b hb => eventually_atTop.2 ⟨0, fun t ht => hb.trans (pos t ht).1⟩, fun b hb => ?_⟩
    obtain ⟨q, q1, q2⟩ := exists_between hb
    exact (MonoGlobal.balance_bound κ0 cn dn kt q1 (by rw [← e0]; simp only [mul_zero]; positivity)).mono fun t ht => ht.trans_lt q2
  · have := MonoGlobal.balance J1 k0 cn (fun t ht => (pos t ht).1) dn ((large.2 e).comp mean)
    have eq : 2 * J / MonoGlobal.kInf s = 3 * s.muGas * J / (4 * kb * s.T) := by
      have := hp.T; have := hp.mu; have := kb_pos
      unfold MonoGlobal.kInf; field_simp; ring
    rwa [eq] at this

/-- **C114 (mass and number without growth and coagulation).** Nucleation adds mass at a steady rate whatever coagulates, and without coagulation it adds particles at a
steady rate whatever grows. -/
theorem C114_nucleation (h : MonoGas m s) (hn : m.nucl.mech ≠ .PAH) (hg : m.grow.mech ≠ .HACA) (ho : m.oxid.cls = .NONE) (hN : mmin < s.cMin * gasMW .C / Na)
    {J : ℝ} (hJ : m.nucl.rate (ibetaNodes m.coag) s = ok (J, m.nucl, s))
    {τ : ℝ} {M : ℝ → ℝ × ℝ} (hM : MonoEvolution m s τ M) (n0 : 0 < (M 0).1) (c0 : mmin < (M 0).2 / (M 0).1) :
    (m.grow.mech = .NONE → ∀ t ∈ Set.Icc 0 τ, (M t).2 = (M 0).2 + J * (s.cMin * gasMW .C / Na) * t) ∧
    (m.coag.mech = .NONE → ∀ t ∈ Set.Icc 0 τ, (M t).1 = (M 0).1 + J * t) := by
  obtain ⟨J', J0, eJ, hF⟩ := MonoGlobal.field h hn hg ho
  rw [hJ] at eJ
  simp only [ok.injEq, Prod.mk.injEq, and_true] at eJ
  subst eJ
  obtain ⟨G, -, -, Gp, Gu⟩ := C114_global h hn hg ho hN n0 c0
  have pos : ∀ t ∈ Set.Icc 0 τ, 0 < (M t).1 ∧ mmin < (M t).2 / (M t).1 := fun t ht => by rw [Gu τ M hM rfl ht]; exact Gp t ht.1
  have der : ∀ t ∈ Set.Ico 0 τ, HasDerivWithinAt M (monoF m s J 0 (M t)) (Set.Ici t) t := fun t ht => by
    obtain ⟨h1, h2⟩ := pos t ⟨ht.1, ht.2.le⟩
    rw [lt_div_iff₀ h1] at h2
    exact hM.field hF ht h1 ((mul_pos mmin_pos h1).trans h2).le
  have line : ∀ {f : ℝ → ℝ} {k : ℝ}, ContinuousOn f (Set.Icc 0 τ) → (∀ t ∈ Set.Ico 0 τ, HasDerivWithinAt f k (Set.Ici t) t) → ∀ t ∈ Set.Icc 0 τ, f t = f 0 + k * t :=
    fun {f k} hc hd t ht => by
      have := constant_of_has_deriv_right_zero (f := fun t => f t - k * t) (hc.sub (by fun_prop))
        (fun u hu => ((hd u hu).sub ((hasDerivAt_id u).const_mul k).hasDerivWithinAt).congr_deriv (by simp)) t ht
      simp only [mul_zero, sub_zero] at this
      linarith
  refine ⟨fun e => line (continuous_snd.comp_continuousOn hM.cont) fun t ht => ?_, fun e => line (continuous_fst.comp_continuousOn hM.cont) fun t ht => ?_⟩
  · have : HasDerivWithinAt (fun t => (M t).2) (monoF m s J 0 (M t)).2 (Set.Ici t) t := (der t ht).snd
    rw [MonoGlobal.F_two, e] at this
    simpa only [growFlux, add_zero] using this
  · have : HasDerivWithinAt (fun t => (M t).1) (monoF m s J 0 (M t)).1 (Set.Ici t) t := (der t ht).fst
    have v0 : m.coag.val s ((M t).2 / (M t).1) ((M t).2 / (M t).1) = 0 := by simp [Coag.val, e]
    simpa only [monoF, v0, zero_mul, zero_div, sub_zero] using this

/-! ## Concrete cases -/

theorem exMono_cmin : mmin < (exSt [0, 0] false).cMin * gasMW .C / Na := by
  rw [exSt_eq]; norm_num [stateAfter, exArgs, argsEx2, argsEx, gasMW, mmin, Na]

/-- Nucleation by LL in the burning gas. -/
theorem exMono_J (g : GrowMech) (c : CoagMech) : ∃ J > 0, (exModel .MONO 2 .LL g .NONE c).nucl.rate (ibetaNodes (exModel .MONO 2 .LL g .NONE c).coag) (exSt [0, 0] false) =
    ok (J, (exModel .MONO 2 .LL g .NONE c).nucl, exSt [0, 0] false) := by
  obtain ⟨w, a, h⟩ := exMonoGas .LL (by decide) (by decide) g .NONE c false
  have hr := h 0 0 le_rfl le_rfl
  have e : { exSt [0, 0] false with sootVar := [0, 0] } = exSt [0, 0] false := by
    rw [exSt_eq]; simp [stateAfter, exArgs]
  rw [e] at hr
  have T0 := hr.gas.acc.phys.T
  have C0 := hr.gas.acc.phys.cMin
  have y := exSt_c2h2 [0, 0]
  have c0 : 0 < cVal (exSt [0, 0] false) .C2H2 := by have := hr.gas.acc.phys.rho; have := gasMW_pos .C2H2; unfold cVal; positivity
  have n0 := Na_pos
  refine ⟨_, ?_, by simp only [exModel, Nucl.new, Nucl.rate, cexpDiv_ok T0.ne', hr.gas.gasC, cdiv_ok C0.ne', ok_bind]; rfl⟩
  positivity

/-- 1E15 particles of 1E-23 kg in the burning gas, nucleation by LL, growth by LIN and the Fuchs kernel: there is one evolution for all times, and the number tends to a
positive limit that does not depend on the start. -/
example : ∃ L > 0, ∃ M, M 0 = (1E15, 1E-8) ∧ (∀ τ, MonoEvolution (exModel .MONO 2 .LL .LIN .NONE .FUCHS) (exSt [0, 0] false) τ M) ∧
    Tendsto (fun t => (M t).1) atTop (𝓝 L) := by
  have h := exMonoGas .LL (by decide) (by decide) .LIN .NONE .FUCHS false
  obtain ⟨J, J0, hJ⟩ := exMono_J .LIN .FUCHS
  have n0 : (0 : ℝ) < 1E15 := by norm_num
  have c0 : mmin < 1E-8 / 1E15 := by norm_num [mmin]
  obtain ⟨M, e, hM, -⟩ := C114_global h (by simp [exModel, Nucl.new]) (by simp [exModel, Grow.new]) rfl exMono_cmin n0 c0
  have hp := (MonoGlobal.phys h).1
  have := hp.T; have := hp.mu; have := kb_pos
  exact ⟨_, by positivity, M, e, hM, (C114_coagulation h (by simp [exModel, Nucl.new]) (by simp [exModel, Grow.new]) rfl exMono_cmin hJ (by simp [exModel, Coag.new]) hM
    (by rw [e]; exact n0) (by rw [e]; exact c0)).2.2 (.inr (.inr rfl))⟩

/-- The same without growth and with the free-molecular kernel: the mass rises steadily and the particles go. -/
example : ∃ J > 0, ∃ M, M 0 = (1E15, 1E-8) ∧ (∀ τ, MonoEvolution (exModel .MONO 2 .LL .NONE .NONE .FM) (exSt [0, 0] false) τ M) ∧
    (∀ t, 0 ≤ t → (M t).2 = 1E-8 + J * t) ∧ Tendsto (fun t => (M t).1) atTop (𝓝 0) := by
  have h := exMonoGas .LL (by decide) (by decide) .NONE .NONE .FM false
  obtain ⟨J, J0, hJ⟩ := exMono_J .NONE .FM
  have n0 : (0 : ℝ) < 1E15 := by norm_num
  have c0 : mmin < 1E-8 / 1E15 := by norm_num [mmin]
  obtain ⟨M, e, hM, -⟩ := C114_global h (by simp [exModel, Nucl.new]) (by simp [exModel, Grow.new]) rfl exMono_cmin n0 c0
  have mN := mmin_pos.trans exMono_cmin
  refine ⟨J * ((exSt [0, 0] false).cMin * gasMW .C / Na), by positivity, M, e, hM, fun t ht => ?_, ?_⟩
  · have := (C114_nucleation h (by simp [exModel, Nucl.new]) (by simp [exModel, Grow.new]) rfl exMono_cmin hJ (hM t) (by rw [e]; exact n0) (by rw [e]; exact c0)).1 rfl
      t ⟨ht, le_rfl⟩
    rwa [e] at this
  · exact (C114_coagulation h (by simp [exModel, Nucl.new]) (by simp [exModel, Grow.new]) rfl exMono_cmin hJ (by simp [exModel, Coag.new]) hM
      (by rw [e]; exact n0) (by rw [e]; exact c0)).2.1 rfl

end

end Soot
