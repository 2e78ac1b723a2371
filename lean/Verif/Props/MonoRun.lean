import Verif.Props.SectEvolution

/-!
# MONO driven by a reactor (C109)

A reactor hands the two moments to `setState` of one state object and lets them change at the rates MONO reports.  `setState` replaces negative moments by zero, and
MONO does not refresh the quadrature node of the object when the number is zero.
-/

namespace Soot

open Res Real Filter Topology Cont
open scoped Classical

/-- Specification: the moments evolve on `[0, τ]`.  At every instant `setState` of the object `o` accepts the gas `a` with the current moments, `setSourceTerms`
succeeds, and the moments change at the rates it reports. -/
structure MonoRun (m : Model) (o : State) (a : SetArgs) (τ : ℝ) (M : ℝ → ℝ × ℝ) : Prop where
  cont : ContinuousOn M (Set.Icc 0 τ)
  rate : ∀ t ∈ Set.Ico 0 τ, ∃ s m' s', setState o { a with sootVar := [(M t).1, (M t).2] } = (s, ok ()) ∧ monoSources m s = ok (m', s') ∧
    HasDerivWithinAt M (m'.sources.soot.getD 0 0, m'.sources.soot.getD 1 0) (Set.Ici t) t

/-- `setState` of `o`, whose node is `(w, x)`, accepts any moments with the gas `a`, and MONO can be evaluated in the state it leaves. -/
def MonoAny (m : Model) (o : State) (a : SetArgs) (w x : ℝ) : Prop :=
  ∀ M0 M1, ∃ s, setState o { a with sootVar := [M0, M1] } = (s, ok ()) ∧ MonoReady m s (max M0 0) (max M1 0) w x

/-- The states a reactor can reach differ in the moments only. -/
theorem MonoAny.gas {m : Model} {o : State} {a : SetArgs} {w x : ℝ} (h : MonoAny m o a w x) :
    ∃ s0, MonoGas m s0 ∧ ∀ M0 M1 s, setState o { a with sootVar := [M0, M1] } = (s, ok ()) → s = { s0 with sootVar := [max M0 0, max M1 0] } := by
  obtain ⟨s0, e0, r0⟩ := h 0 0
  have key : ∀ M0 M1 s, setState o { a with sootVar := [M0, M1] } = (s, ok ()) → s = { s0 with sootVar := [max M0 0, max M1 0] } := by
    intro M0 M1 s hs
    obtain ⟨s', e', r⟩ := h M0 M1
    rw [hs] at e'
    simp only [Prod.mk.injEq, and_true] at e'
    subst e'
    have := setState_contents e0 hs
    rwa [r.soot] at this
  refine ⟨s0, ⟨w, x, fun M0 M1 p0 p1 => ?_⟩, key⟩
  obtain ⟨s', e', r⟩ := h M0 M1
  have := key _ _ _ e'
  rw [max_eq_left p0, max_eq_left p1] at this r
  rwa [this] at r

/-- **C109, with particles.** Moments that start with particles keep them, and the mass is never negative, as long as the gas stays as it is.  (Without PAH and
HACA.) -/
theorem C109_with_particles_partial (m : Model) (o : State) (a : SetArgs) (w x : ℝ) (h : MonoAny m o a w x) (hn : m.nucl.mech ≠ .PAH) (hg : m.grow.mech ≠ .HACA)
    (ho : m.oxid.cls ≠ .HACA) (τ : ℝ) (M : ℝ → ℝ × ℝ) (hM : MonoRun m o a τ M) (h0 : 0 < (M 0).1) (h1 : 0 ≤ (M 0).2) :
    ∀ t ∈ Set.Icc 0 τ, 0 < (M t).1 ∧ 0 ≤ (M t).2 := by
  obtain ⟨s, hG, hs⟩ := h.gas
  obtain ⟨J, kO, J0, -, -, -, -, hF⟩ := monoF_ok hG hn hg ho
  obtain ⟨w', a', h'⟩ := hG
  have hr := h' 0 0 le_rfl le_rfl
  have hp : s.Phys := by obtain ⟨a, b, c, d, e, f⟩ := hr.gas.acc.phys; exact ⟨a, b, c, d, e, f⟩
  have cM0 : ContinuousOn (fun t => (M t).1) (Set.Icc 0 τ) := continuous_fst.comp_continuousOn hM.cont
  have cM1 : ContinuousOn (fun t => (M t).2) (Set.Icc 0 τ) := continuous_snd.comp_continuousOn hM.cont
  obtain ⟨B, hB⟩ := isCompact_Icc.exists_bound_of_continuousOn cM1
  choose st m' s' r0 r1 r2 using hM.rate
  have hd : ∀ t, ∃ d : ℝ × ℝ, ∀ ht : t ∈ Set.Ico 0 τ, d = ((m' t ht).sources.soot.getD 0 0, (m' t ht).sources.soot.getD 1 0) := fun t => by
    by_cases ht : t ∈ Set.Ico 0 τ
    · exact ⟨((m' t ht).sources.soot.getD 0 0, (m' t ht).sources.soot.getD 1 0), fun _ => rfl⟩
    · exact ⟨0, fun h => absurd h ht⟩
  choose d hd using hd
  have val : ∀ t ∈ Set.Ico 0 τ, 0 < (M t).1 → d t = monoF m s J kO ((M t).1, max (M t).2 0) := fun t ht p => by
    obtain ⟨m'', s'', e1, e2⟩ := hF (M t).1 (max (M t).2 0) p (le_max_right _ _)
    have e3 := r1 t ht
    rw [hs _ _ _ (r0 t ht), max_eq_left p.le, e1] at e3
    simp only [ok.injEq, Prod.mk.injEq] at e3
    rw [hd t ht, ← e3.1, e2]
    simp
  have bt : ∀ t ∈ Set.Icc 0 τ, max (M t).2 0 ≤ |B| := fun t ht => max_le ((le_abs_self _).trans ((hB t ht).trans (le_abs_self B))) (abs_nonneg B)
  set C := |kernBound m.coag s| * |B| / 2 with hC
  set f : ℝ → ℝ := fun t => (M 0).1 * exp (-(C + 1) * t) with hf
  have fp : ∀ t, 0 < f t := fun t => by positivity
  have fd : ∀ t, HasDerivAt f (-(C + 1) * f t) t := fun t => by
    have := (((hasDerivAt_id t).const_mul (-(C + 1))).exp).const_mul (M 0).1
    refine this.congr_deriv ?_
    simp only [hf, id]; ring
  have num : ∀ t ∈ Set.Icc 0 τ, 0 < (M t).1 := by
    have := image_le_of_deriv_right_lt_deriv_boundary' (f := f) (f' := fun t => -(C + 1) * f t) (a := 0) (b := τ)
      (B := fun t => (M t).1) (B' := fun t => (d t).1) (fun t _ => (fd t).continuousAt.continuousWithinAt)
      (fun t _ => (fd t).hasDerivWithinAt) (by simp [hf]) cM0 (fun t ht => hd t ht ▸ (r2 t ht).fst) (fun t ht e => by
        have ht' : t ∈ Set.Icc 0 τ := ⟨ht.1, ht.2.le⟩
        have a0 : 0 < (M t).1 := e ▸ fp t
        have b0 : 0 ≤ max (M t).2 0 := le_max_right _ _
        rw [val t ht a0, e]
        simp only [monoF]
        have k1 := val_lin hr.fm hp (div_nonneg b0 a0.le) (c := m.coag)
        have k2 : m.coag.val s (max (M t).2 0 / (M t).1) (max (M t).2 0 / (M t).1) * (M t).1 ^ 2 / 2 ≤ C * (M t).1 := by
          calc _ ≤ kernBound m.coag s * (max (M t).2 0 / (M t).1) * (M t).1 ^ 2 / 2 := by gcongr
            _ = kernBound m.coag s * max (M t).2 0 / 2 * (M t).1 := by field_simp
            _ ≤ |kernBound m.coag s| * |B| / 2 * (M t).1 := by
              have := bt t ht'
              have := le_abs_self (kernBound m.coag s)
              gcongr
        linarith)
    exact fun t ht => (fp t).trans_le (this ht)
  refine fun t ht => ⟨num t ht, ?_⟩
  refine nonneg_of_inward (n := 1) (N := fun t _ => (M t).2) (d := fun t _ => (d t).2) (continuousOn_pi.2 fun _ => cM1)
    (fun t ht => hasDerivWithinAt_pi.2 fun _ => hd t ht ▸ (r2 t ht).snd) 0 (fun t ht neg => ?_) h1 t ht
  have a0 := num t ⟨ht.1, ht.2.le⟩
  rw [val t ht a0, max_eq_right neg.le]
  have A0 : areaFn (M t).1 0 = 0 := by unfold areaFn; rw [zero_rpow (by norm_num)]; ring
  simp only [monoF, A0, growFlux_zero]
  have := hp.cMin; have := Na_pos; have := gasMW_pos .C
  have : 0 ≤ J * s.cMin * gasMW .C / Na := by positivity
  linarith

/-- **C109, refutation.** A state object that has seen soot keeps the node `(w, x)` of that soot.  Used where there is no soot and nothing nucleates, MONO makes the
number of particles fall below zero at once and for ever, at a constant rate, although the reactor starts at zero and `setState` accepts every step. -/
theorem C109_number_falls_below_zero (m : Model) (o : State) (a : SetArgs) (w x : ℝ) (h : MonoAny m o a w x) (hn : m.nucl.mech = .NONE) (hg : m.grow.mech ≠ .HACA)
    (ho : m.oxid.cls ≠ .HACA) (hc : m.coag.mech ≠ .NONE) (hw : 0 < w) (hx : mmin < x) :
    ∃ c > 0, ∀ τ, MonoRun m o a τ fun t => (-(c * t), 0) := by
  obtain ⟨s, e0, r⟩ := h 0 0
  rw [max_self] at r
  set g : State := { s with wts := [monoW 0 w], absc := [monoA 0 0 x] } with hgd
  have rr : Ready m g := r.toReady.upd r.gas.acc.phys.cMin _ _
  have hJ : m.nucl.rate (ibetaNodes m.coag) g = ok (0, m.nucl, g) := by simp only [Nucl.rate, hn]
  obtain ⟨O, O1, -⟩ := C103_oxidation_continuous_partial m.oxid.cls m.ctx (fun _ : Unit => g) () (fun _ => rr.gas) (fun _ => rr.sized) continuousAt_const
    continuousAt_const continuousAt_const continuousAt_const (fun _ => continuousAt_const) ho
  rw [← r.wf.oxid] at O1
  obtain ⟨m', s', e1, e2, -⟩ := mono_plain r (by simp [hn]) hg hJ (O1 ())
  have A0 : areaFn 0 0 = 0 := by unfold areaFn; rw [zero_rpow (by norm_num)]; ring
  simp only [monoW, monoA, gt_iff_lt, lt_irrefl, if_false, A0, growFlux_zero, mul_zero, zero_mul, zero_div, zero_sub, sub_zero, add_zero] at e2
  have K := core_pos r.fm hc r.gas.acc.phys (mmin_pos.trans hx) (mmin_pos.trans hx)
  rw [val_core _ _ hx hx] at e2
  refine ⟨core m.coag s x x * w ^ 2 / 2, by positivity, fun τ => ⟨by fun_prop, fun t ht => ?_⟩⟩
  set c := core m.coag s x x * w ^ 2 / 2 with hcd
  have c0 : 0 < c := by positivity
  obtain ⟨s1, q1, q2⟩ := h (-(c * t)) 0
  have es := setState_contents e0 q1
  have hneg : -(c * t) ≤ 0 := by have := mul_nonneg c0.le ht.1; linarith
  have e3 : s1 = s := by
    rw [es, q2.soot, max_eq_right hneg, max_self, ← r.soot]
  refine ⟨s1, m', s', q1, e3 ▸ e1, ?_⟩
  rw [e2]
  have d1 : HasDerivAt (fun t : ℝ => -(c * t)) (-c) t := by simpa using ((hasDerivAt_id t).const_mul c).fun_neg
  exact (d1.prodMk (hasDerivAt_const t (0 : ℝ))).hasDerivWithinAt

/-! ## The hypotheses are satisfiable -/

/-- A fresh object whose node is `(w, x)`, as a call with soot leaves it. -/
noncomputable def exObj (w x : ℝ) : State := { State.mk' 2 0 with wts := [w], absc := [x] }

theorem exMonoAny (n : NuclMech) (hn : n ≠ .AJ_RED) (hb : n ≠ .BROWN) (g : GrowMech) (o : OxidMech) (c : CoagMech) (clean : Bool) (w x : ℝ) :
    MonoAny (exModel .MONO 2 n g o c) (exObj w x) (exArgs [0, 0] clean) w x := by
  intro M0 M1
  have hr := exMonoReady2 n hn hb g o c (le_max_right M0 0) (le_max_right M1 0) clean
  have he : exSt [max M0 0, max M1 0] clean = stateAfter (State.mk' 2 0) (exArgs [M0, M1] clean) := by
    rw [exSt_eq]; cases clean <;> simp [stateAfter, exArgs]
  have adm : Admissible 2 0 6 (exArgs [M0, M1] clean) := exArgs_admissible [M0, M1] clean
  have ea : { exArgs [0, 0] clean with sootVar := [M0, M1] } = exArgs [M0, M1] clean := by cases clean <;> rfl
  refine ⟨{ exSt [max M0 0, max M1 0] clean with wts := [w], absc := [x] }, ?_, ?_⟩
  · rw [ea, C01_setState_accepts (exObj w x) (exArgs [M0, M1] clean) (by simp [exObj, State.mk', exArgs]) (by simp [exObj, State.mk']) (by simpa [exObj, State.mk', nPah] using adm), he]
    rfl
  · exact { toReady := hr.toReady.upd hr.gas.acc.phys.cMin _ _, psd := hr.psd, notar := hr.notar, len := hr.len, soot := hr.soot, wts := rfl, absc := rfl }

/-- The node a call with 1E15 particles of 1E-23 kg leaves in the object makes the number fall below zero in a cell without soot. -/
example : ∃ c > 0, ∀ τ, MonoRun (exModel .MONO 2 .NONE .LL .LL .FUCHS) (exObj 1E15 1E-23) (exArgs [0, 0] false) τ fun t => (-(c * t), 0) :=
  C109_number_falls_below_zero _ _ _ _ _ (exMonoAny .NONE (by simp) (by simp) .LL .LL .FUCHS false 1E15 1E-23) rfl (by simp [exModel, Grow.new])
    (by simp [exModel, Oxid.new]) (by simp [exModel, Coag.new]) (by norm_num) (by norm_num [mmin])

/-- 1E15 particles of 1E-23 kg that nucleate, grow, burn and coagulate for some time stay particles. -/
example : ∃ τ > 0, ∃ M, MonoRun (exModel .MONO 2 .LL .LL .LL .FUCHS) (exObj 0 0) (exArgs [0, 0] false) τ M ∧ M 0 = (1E15, 1E-8) ∧
    ∀ t ∈ Set.Icc 0 τ, 0 < (M t).1 ∧ 0 ≤ (M t).2 := by
  have h := exMonoGas .LL (by decide) (by decide) .LL .LL .FUCHS false
  obtain ⟨τ, τ0, M, h1, h2, h3⟩ := C105_exists_partial _ _ h (by simp [exModel, Nucl.new]) (by simp [exModel, Grow.new]) (by simp [exModel, Oxid.new]) 1E15 1E-8
    (by norm_num) (by norm_num) (by norm_num [mmin])
  have hr : MonoRun (exModel .MONO 2 .LL .LL .LL .FUCHS) (exObj 0 0) (exArgs [0, 0] false) τ M := by
    refine ⟨h1.cont, fun t ht => ?_⟩
    obtain ⟨m', s', e1, e2⟩ := h1.rate t ht
    obtain ⟨p0, p1, -⟩ := h3 t ⟨ht.1, ht.2.le⟩
    refine ⟨_, m', s', ?_, e1, e2⟩
    have ea : { exArgs [0, 0] false with sootVar := [(M t).1, (M t).2] } = exArgs [(M t).1, (M t).2] false := rfl
    have := exSt_set [(M t).1, (M t).2] false
    rw [ea, show exObj 0 0 = State.mk' 2 0 by rfl]
    refine this.trans ?_
    rw [exSt_eq]
    simp [stateAfter, exArgs, p0.le, p1.le]
  exact ⟨τ, τ0, M, hr, h2, C109_with_particles_partial _ _ _ 0 0 (exMonoAny .LL (by decide) (by decide) .LL .LL .FUCHS false 0 0) (by simp [exModel, Nucl.new])
    (by simp [exModel, Grow.new]) (by simp [exModel, Oxid.new]) τ M hr (by rw [h2]; norm_num) (by rw [h2]; norm_num)⟩

end Soot
