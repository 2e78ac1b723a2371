import Verif.Props.KernelSmooth
import Verif.Props.SourceCont
import Verif.Props.Agree
import Mathlib.Analysis.ODE.ExistUnique
import Mathlib.Analysis.Calculus.ContDiff.RCLike
import Mathlib.Topology.Order.IntermediateValue

/-!
# The evolution of the soot in a given gas (C105)

The sources are meant to be integrated in time: `d sootVar / dt = sources.soot`.  This file states what a MONO evolution in a gas of fixed temperature,
pressure and composition is, and proves when it exists and is determined by its start.
-/

namespace Soot

open Res Real Filter Topology Cont
open scoped Classical

/-- Specification: the moments `M = (M0, M1)` evolve on `[0, τ]` by the MONO sources, the gas being that of `s`.  At every instant the state handed to
`setSourceTerms` is `s` with the current moments, the call succeeds, and the moments change at the rates it reports. -/
structure MonoEvolution (m : Model) (s : State) (τ : ℝ) (M : ℝ → ℝ × ℝ) : Prop where
  cont : ContinuousOn M (Set.Icc 0 τ)
  rate : ∀ t ∈ Set.Ico 0 τ, ∃ m' s', monoSources m { s with sootVar := [(M t).1, (M t).2] } = ok (m', s') ∧
    HasDerivWithinAt M (m'.sources.soot.getD 0 0, m'.sources.soot.getD 1 0) (Set.Ici t) t

/-! ## The rates as functions of the moments -/

theorem nucl_rate_soot {n : Nucl} (hn : n.mech ≠ .PAH) {ib : State → ℝ → Res ℝ} {s : State} {J : ℝ} (h : n.rate ib s = ok (J, n, s)) (l w a : List ℝ) :
    n.rate ib { s with sootVar := l, wts := w, absc := a } = ok (J, n, { s with sootVar := l, wts := w, absc := a }) := by
  rcases hx : n.mech <;> simp only [Nucl.rate, hx, bind_eq_ok, ok.injEq, Prod.mk.injEq, and_true] at h ⊢ <;> first | exact h | exact absurd hx hn

theorem oxid_rate_soot {o : Oxid} (ho : o.cls ≠ .HACA) {x : Ctx} {s : State} (h1 : Sized x s) {l w a : List ℝ}
    (h2 : Sized x { s with sootVar := l, wts := w, absc := a }) : o.rate x { s with sootVar := l, wts := w, absc := a } = o.rate x s := by
  rcases hx : o.cls <;> simp only [Oxid.rate, hx] <;> first | exact absurd hx ho | rfl | skip
  all_goals rw [moments01_ok h1, moments01_ok h2]; rfl

/-- The MONO sources at positive number as a function of the moments. -/
noncomputable def monoF (m : Model) (s : State) (J kO : ℝ) (p : ℝ × ℝ) : ℝ × ℝ :=
  (J - m.coag.val s (p.2 / p.1) (p.2 / p.1) * p.1 ^ 2 / 2,
    J * s.cMin * gasMW .C / Na + (growFlux m.grow.mech s (areaFn p.1 p.2) - kO * areaFn p.1 p.2))

theorem growFlux_soot (g : GrowMech) (s : State) (l : List ℝ) (A : ℝ) : growFlux g { s with sootVar := l } A = growFlux g s A := by
  cases g <;> rfl

theorem val_soot (c : Coag) (s : State) (l : List ℝ) (a b : ℝ) : c.val { s with sootVar := l } a b = c.val s a b := rfl

/-- `s` carries a gas in which MONO can be evaluated with any moments. -/
def MonoGas (m : Model) (s : State) : Prop := ∃ w a, ∀ M0 M1, 0 ≤ M0 → 0 ≤ M1 → MonoReady m { s with sootVar := [M0, M1] } M0 M1 w a

theorem monoF_ok {m : Model} {s : State} (h : MonoGas m s) (hn : m.nucl.mech ≠ .PAH) (hg : m.grow.mech ≠ .HACA) (ho : m.oxid.cls ≠ .HACA) :
    ∃ J kO, 0 ≤ J ∧ 0 ≤ kO ∧ (m.nucl.mech = .NONE → J = 0) ∧ (m.oxid.cls = .NONE → kO = 0) ∧
      (∀ M0 M1, 0 ≤ M0 → 0 ≤ M1 → m.oxid.rate m.ctx { s with sootVar := [M0, M1] } = ok kO) ∧
      ∀ M0 M1, 0 < M0 → 0 ≤ M1 → ∃ m' s', monoSources m { s with sootVar := [M0, M1] } = ok (m', s') ∧
        m'.sources.soot = [(monoF m s J kO (M0, M1)).1, (monoF m s J kO (M0, M1)).2] := by
  obtain ⟨w, a, h⟩ := h
  have h0 := h 0 0 le_rfl le_rfl
  set g : State := { s with sootVar := [0, 0], wts := [monoW 0 w], absc := [monoA 0 0 a] } with hgd
  have rr : Ready m g := h0.toReady.upd h0.gas.acc.phys.cMin _ _
  obtain ⟨v, v1, -⟩ := C103_nucleation_continuous m.nucl.mech hn (ibetaNodes m.coag) (fun _ : Unit => g) () (fun _ => rr.gas) continuousAt_const
    continuousAt_const continuousAt_const continuousAt_const (fun _ => continuousAt_const)
    (fun h => ⟨fun _ => rr.tar h, continuousAt_const⟩) (fun h => ⟨fun _ => rr.mtar h, continuousAt_const⟩)
  rw [← h0.wf.nucl.new hn] at v1
  have v1 : m.nucl.rate (ibetaNodes m.coag) g = ok (v (), m.nucl, g) := v1 ()
  obtain ⟨m', s', J, n', kG, kO, A, -, b2, b3, -, -, b6, -, -, b8, -, b10, -, -⟩ := mono_eval h0
  have b2 : m.nucl.rate (ibetaNodes m.coag) g = ok (J, n', s') := b2
  rw [v1] at b2
  simp only [ok.injEq, Prod.mk.injEq] at b2
  obtain ⟨rfl, rfl, rfl⟩ := b2
  refine ⟨v (), kO, b8, b10, fun e => ?_, fun e => ?_, fun M0 M1 p0 p1 => ?_, fun M0 M1 p0 p1 => ?_⟩
  · simp only [Nucl.rate, e, ok.injEq, Prod.mk.injEq] at v1; exact v1.1.symm
  · simp only [Oxid.rate, e, ok.injEq] at b6; exact b6.symm
  · have hr := h M0 M1 p0 p1
    exact (oxid_rate_soot ho rr.sized (l := [M0, M1]) (w := s.wts) (a := s.absc) hr.sized).trans b6
  · have hr := h M0 M1 p0.le p1
    have rM := hr.toReady.upd hr.gas.acc.phys.cMin [monoW M0 w] [monoA M0 M1 a]
    have hJ := nucl_rate_soot hn v1 [M0, M1] [monoW M0 w] [monoA M0 M1 a]
    have hO := (oxid_rate_soot ho rr.sized (l := [M0, M1]) (w := [monoW M0 w]) (a := [monoA M0 M1 a]) rM.sized).trans b6
    obtain ⟨m', s', e1, e2, -⟩ := mono_plain hr hn hg hJ hO
    refine ⟨m', s', e1, ?_⟩
    rw [e2, monoW, monoA, if_pos p0, if_pos p0, growFlux_soot, val_soot]
    rfl

/-- Moments of a state with soot: particles, mass, and a mean mass away from the coagulation cutoff. -/
def Sooty (p : ℝ × ℝ) : Prop := 0 < p.1 ∧ 0 < p.2 ∧ p.2 / p.1 ≠ mmin

theorem sooty_open : IsOpen {p | Sooty p} := by
  rw [isOpen_iff_mem_nhds]
  rintro p ⟨h1, h2, h3⟩
  have c : ContinuousAt (fun q : ℝ × ℝ => q.2 / q.1) p := continuousAt_snd.div continuousAt_fst h1.ne'
  filter_upwards [continuousAt_fst.eventually (lt_mem_nhds h1), continuousAt_snd.eventually (lt_mem_nhds h2), c.eventually_ne h3] with q a b c using ⟨a, b, c⟩

theorem monoF_smooth {m : Model} {s : State} (fm : 0 < m.coag.fmMult) (hs : s.Phys) (J kO : ℝ) {p : ℝ × ℝ} (hp : Sooty p) :
    ContDiffAt ℝ 1 (monoF m s J kO) p := by
  obtain ⟨h1, h2, h3⟩ := hp
  have c1 : ContDiffAt ℝ 1 (fun q : ℝ × ℝ => q.1) p := contDiffAt_fst
  have c2 : ContDiffAt ℝ 1 (fun q : ℝ × ℝ => q.2) p := contDiffAt_snd
  have cm : ContDiffAt ℝ 1 (fun q : ℝ × ℝ => q.2 / q.1) p := c2.div c1 h1.ne'
  have cK := Smooth.val_smooth fm hs cm cm h3 h3
  have cA : ContDiffAt ℝ 1 (fun q : ℝ × ℝ => areaFn q.1 q.2) p := by
    unfold areaFn
    exact contDiffAt_const.mul ((c2.rpow_const_of_ne h2.ne').mul (c1.rpow_const_of_ne h1.ne'))
  have A0 : areaFn p.1 p.2 ≠ 0 := by unfold areaFn; have := rhoSoot_pos; positivity
  have cG : ContDiffAt ℝ 1 (fun q : ℝ × ℝ => growFlux m.grow.mech s (areaFn q.1 q.2)) p := by
    rcases m.grow.mech <;> simp only [growFlux]
    · exact contDiffAt_const
    · exact ((contDiffAt_const.mul (cA.sqrt A0)).mul contDiffAt_const).mul contDiffAt_const
    all_goals first | exact contDiffAt_const.mul cA | exact contDiffAt_const
  exact (contDiffAt_const.sub ((cK.mul (c1.pow 2)).div_const 2)).prodMk (contDiffAt_const.add (cG.sub (contDiffAt_const.mul cA)))

/-! ## Uniqueness and existence -/

/-- Two curves with the same start that follow a vector field which is smooth along the first of them coincide. -/
theorem curve_unique {E : Type*} [NormedAddCommGroup E] [NormedSpace ℝ E] {F : E → E} {U : Set E} (hU : IsOpen U) {f g : ℝ → E} {τ : ℝ}
    (cf : ContinuousOn f (Set.Icc 0 τ)) (cg : ContinuousOn g (Set.Icc 0 τ)) (hfU : ∀ t ∈ Set.Ico 0 τ, f t ∈ U) (hF : ∀ p ∈ U, ContDiffAt ℝ 1 F p)
    (hf : ∀ t ∈ Set.Ico 0 τ, f t ∈ U → HasDerivWithinAt f (F (f t)) (Set.Ici t) t)
    (hg : ∀ t ∈ Set.Ico 0 τ, g t ∈ U → HasDerivWithinAt g (F (g t)) (Set.Ici t) t) (h0 : f 0 = g 0) : Set.EqOn f g (Set.Icc 0 τ) := by
  have hcl : IsClosed ({t | f t = g t} ∩ Set.Icc 0 τ) := by
    have := (cf.sub cg).preimage_isClosed_of_isClosed isClosed_Icc (isClosed_singleton (x := (0 : E)))
    convert this using 1
    ext t; simp only [Set.mem_inter_iff, Set.mem_ofPred_eq, Set.mem_preimage, Set.mem_singleton_iff, Pi.sub_apply, sub_eq_zero]
    exact and_comm
  refine hcl.Icc_subset_of_forall_mem_nhdsWithin h0 ?_
  rintro x ⟨hx, xI⟩
  have hx : f x = g x := hx
  obtain ⟨K, V, hV, hL⟩ := (hF _ (hfU x xI)).exists_lipschitzOnWith
  have hVU : V ∩ U ∈ 𝓝 (f x) := inter_mem hV (hU.mem_nhds (hfU x xI))
  have n1 : ∀ᶠ t in 𝓝[Set.Icc 0 τ] x, f t ∈ V ∩ U := (cf x ⟨xI.1, xI.2.le⟩) hVU
  have n2 : ∀ᶠ t in 𝓝[Set.Icc 0 τ] x, g t ∈ V ∩ U := (cg x ⟨xI.1, xI.2.le⟩) (hx ▸ hVU)
  obtain ⟨δ, δ0, hδ⟩ := Metric.mem_nhdsWithin_iff.1 (n1.and n2)
  set b := min τ (x + δ) with hb
  have xb : x < b := lt_min xI.2 (by linarith)
  have bτ : b ≤ τ := min_le_left _ _
  have sub : Set.Icc x b ⊆ Set.Icc 0 τ := fun t ht => ⟨xI.1.trans ht.1, ht.2.trans bτ⟩
  have inV : ∀ t ∈ Set.Ico x b, f t ∈ V ∩ U ∧ g t ∈ V ∩ U := fun t ht => hδ ⟨by
    rw [Metric.mem_ball, dist_eq, abs_lt]
    have := ht.2.trans_le (min_le_right τ (x + δ))
    exact ⟨by linarith [ht.1], by linarith⟩, sub ⟨ht.1, ht.2.le⟩⟩
  have ico : ∀ t ∈ Set.Ico x b, t ∈ Set.Ico 0 τ := fun t ht => ⟨xI.1.trans ht.1, ht.2.trans_le bτ⟩
  have := ODE_solution_unique_of_mem_Icc_right (v := fun _ => F) (s := fun _ => V) (fun _ _ => hL) (cf.mono sub)
    (fun t ht => hf t (ico t ht) (inV t ht).1.2) (fun t ht => (inV t ht).1.1) (cg.mono sub)
    (fun t ht => hg t (ico t ht) (inV t ht).2.2) (fun t ht => (inV t ht).2.1) hx
  exact mem_of_superset (Ioc_mem_nhdsGT xb) fun t ht => this ⟨ht.1.le, ht.2⟩

theorem MonoEvolution.field {m : Model} {s : State} {τ : ℝ} {M : ℝ → ℝ × ℝ} (h : MonoEvolution m s τ M) {F : ℝ × ℝ → ℝ × ℝ}
    (hF : ∀ M0 M1, 0 < M0 → 0 ≤ M1 → ∃ m' s', monoSources m { s with sootVar := [M0, M1] } = ok (m', s') ∧
      m'.sources.soot = [(F (M0, M1)).1, (F (M0, M1)).2]) {t : ℝ} (ht : t ∈ Set.Ico 0 τ) (h0 : 0 < (M t).1) (h1 : 0 ≤ (M t).2) :
    HasDerivWithinAt M (F (M t)) (Set.Ici t) t := by
  obtain ⟨m', s', e1, e2⟩ := hF _ _ h0 h1
  obtain ⟨m'', s'', f1, f2⟩ := h.rate t ht
  rw [e1] at f1
  simp only [ok.injEq, Prod.mk.injEq] at f1
  obtain ⟨rfl, rfl⟩ := f1
  rw [e2] at f2
  exact f2

/-- **C105, uniqueness.** Without PAH nucleation and the HACA mechanisms: when an evolution has particles, mass and a mean mass different from the cutoff
mass at all times, every other evolution in the same gas that starts from the same moments coincides with it.  What is missing for the full property:
states without mass (`C105_not_unique`), the cutoff mass, PAH and HACA. -/
theorem C105_unique_partial (m : Model) (s : State) (h : MonoGas m s) (hn : m.nucl.mech ≠ .PAH) (hg : m.grow.mech ≠ .HACA) (ho : m.oxid.cls ≠ .HACA)
    (τ : ℝ) (M N : ℝ → ℝ × ℝ) (hM : MonoEvolution m s τ M) (hN : MonoEvolution m s τ N)
    (hs : ∀ t ∈ Set.Ico 0 τ, 0 < (M t).1 ∧ 0 < (M t).2 ∧ (M t).2 / (M t).1 ≠ mmin) (h0 : M 0 = N 0) : ∀ t ∈ Set.Icc 0 τ, M t = N t := by
  obtain ⟨J, kO, -, -, -, -, -, hF⟩ := monoF_ok h hn hg ho
  obtain ⟨w, a, h⟩ := h
  have hr := h 0 0 le_rfl le_rfl
  exact curve_unique sooty_open hM.cont hN.cont hs (fun p hp => monoF_smooth hr.fm (s := s) (by obtain ⟨a, b, c, d, e, f⟩ := hr.gas.acc.phys; exact ⟨a, b, c, d, e, f⟩) J kO hp)
    (fun t ht hp => hM.field hF ht hp.1 hp.2.1.le) (fun t ht hp => hN.field hF ht hp.1 hp.2.1.le) h0

/-- **C105, existence.** From particles with mass, the mean mass not being the cutoff mass, the soot can evolve for some time. -/
theorem C105_exists_partial (m : Model) (s : State) (h : MonoGas m s) (hn : m.nucl.mech ≠ .PAH) (hg : m.grow.mech ≠ .HACA) (ho : m.oxid.cls ≠ .HACA)
    (M0 M1 : ℝ) (h0 : 0 < M0) (h1 : 0 < M1) (hc : M1 / M0 ≠ mmin) :
    ∃ τ > 0, ∃ M, MonoEvolution m s τ M ∧ M 0 = (M0, M1) ∧ ∀ t ∈ Set.Icc 0 τ, 0 < (M t).1 ∧ 0 < (M t).2 ∧ (M t).2 / (M t).1 ≠ mmin := by
  obtain ⟨J, kO, -, -, -, -, -, hF⟩ := monoF_ok h hn hg ho
  obtain ⟨w, a, h⟩ := h
  have hr := h 0 0 le_rfl le_rfl
  have hp : s.Phys := by obtain ⟨a, b, c, d, e, f⟩ := hr.gas.acc.phys; exact ⟨a, b, c, d, e, f⟩
  obtain ⟨M, e0, ε, ε0, hM⟩ :=
    (monoF_smooth hr.fm hp J kO (p := (M0, M1)) ⟨h0, h1, hc⟩).exists_forall_mem_closedBall_exists_eq_forall_mem_Ioo_hasDerivAt₀ 0
  have c0 : ContinuousAt M 0 := (hM 0 (by simp [ε0])).continuousAt
  have n : ∀ᶠ t in 𝓝 (0 : ℝ), Sooty (M t) := c0.eventually (sooty_open.mem_nhds (by rw [e0]; exact ⟨h0, h1, hc⟩))
  obtain ⟨δ, δ0, hδ⟩ := Metric.eventually_nhds_iff.1 n
  set τ := min ε δ / 2 with hτ
  have m0 : 0 < min ε δ := lt_min ε0 δ0
  have τ0 : 0 < τ := by positivity
  have τε : τ < ε := by have := min_le_left ε δ; linarith
  have τδ : τ < δ := by have := min_le_right ε δ; linarith
  have good : ∀ t ∈ Set.Icc 0 τ, Sooty (M t) := fun t ht => hδ (by
    rw [dist_eq, sub_zero, abs_of_nonneg ht.1]; linarith [ht.2])
  have der : ∀ t ∈ Set.Icc 0 τ, HasDerivAt M (monoF m s J kO (M t)) t := fun t ht => hM t ⟨by linarith [ht.1], by linarith [ht.2]⟩
  refine ⟨τ, τ0, M, ⟨fun t ht => (der t ht).continuousAt.continuousWithinAt, fun t ht => ?_⟩, e0, good⟩
  have ht' : t ∈ Set.Icc 0 τ := ⟨ht.1, ht.2.le⟩
  obtain ⟨m', s', e1, e2⟩ := hF _ _ (good t ht').1 (good t ht').2.1.le
  refine ⟨m', s', e1, ?_⟩
  rw [e2]
  exact (der t ht').hasDerivWithinAt

/-! ## Particles without mass -/

/-- Growth of `N` particles as a power of their mass. -/
theorem growFlux_power {g : GrowMech} (g1 : g ≠ .NONE) (g2 : g ≠ .HACA) {s : State} (hs : s.Phys) (hy : 0 < s.yGas.getD GasSp.C2H2.toNat 0) {N : ℝ} (hN : 0 < N) :
    ∃ D q : ℝ, 0 < D ∧ 0 < q ∧ q < 1 ∧ ∀ x, 0 ≤ x → growFlux g s (areaFn N x) = D * x ^ q := by
  have c0 : 0 < cVal s .C2H2 := by have := hs.rho; have := gasMW_pos .C2H2; unfold cVal; positivity
  have w0 := gasMW_pos .C
  have r0 := rhoSoot_pos
  set K := π * (6 / (π * rhoSoot)) ^ ((2 : ℝ) / 3) with hK
  have K0 : 0 < K := by positivity
  have hA : ∀ x, areaFn N x = K * N ^ ((1 : ℝ) / 3) * x ^ ((2 : ℝ) / 3) := fun x => by rw [areaFn]; ring
  have lin : ∀ {κ : ℝ}, 0 < κ → (∀ A, growFlux g s A = κ * A) →
      ∃ D q : ℝ, 0 < D ∧ 0 < q ∧ q < 1 ∧ ∀ x, 0 ≤ x → growFlux g s (areaFn N x) = D * x ^ q := fun {κ} k0 h =>
    ⟨κ * (K * N ^ ((1 : ℝ) / 3)), 2 / 3, by positivity, by norm_num, by norm_num, fun x _ => by rw [h, hA, ← mul_assoc]⟩
  cases g with
  | NONE => exact absurd rfl g1
  | HACA => exact absurd rfl g2
  | LL =>
    refine ⟨0.6E3 * exp (-12100 / s.T) * cVal s .C2H2 * sqrt (K * N ^ ((1 : ℝ) / 3)) * 2 * gasMW .C, 1 / 3, by positivity, by norm_num, by norm_num, fun x x0 => ?_⟩
    have e : sqrt (x ^ ((2 : ℝ) / 3)) = x ^ ((1 : ℝ) / 3) := by
      rw [sqrt_eq_rpow, ← rpow_mul x0]; norm_num
    simp only [growFlux]
    rw [hA, sqrt_mul (by positivity), e]; ring
  | LIN => exact lin (by positivity) fun A => rfl
  | MB => exact lin (by positivity) fun A => rfl
  | FAIR => exact lin (by positivity) fun A => rfl

/-- The growth equation `y' = D yᑫ` has a solution that leaves zero. -/
theorem power_curve {D q : ℝ} (D0 : 0 < D) (q0 : 0 < q) (q1 : q < 1) :
    ∃ y : ℝ → ℝ, y 0 = 0 ∧ (∀ t, 0 < t → 0 < y t) ∧ ∀ t, 0 ≤ t → HasDerivAt y (D * y t ^ q) t := by
  have p0 : 0 < 1 - q := by linarith
  refine ⟨fun t => ((1 - q) * D * t) ^ (1 / (1 - q)), ?_, fun t ht => by positivity, fun t ht => ?_⟩
  · simp only [mul_zero]; exact zero_rpow (by positivity)
  · have h1 : HasDerivAt (fun t => (1 - q) * D * t) ((1 - q) * D) t := by simpa using (hasDerivAt_id t).const_mul ((1 - q) * D)
    have h2 := h1.rpow_const (p := 1 / (1 - q)) (.inr (by rw [le_div_iff₀ p0]; linarith))
    convert h2 using 1
    rw [← rpow_mul (by positivity)]
    have e : 1 / (1 - q) * q = 1 / (1 - q) - 1 := by field_simp; ring
    rw [e]; field_simp

/-- **C105, refutation.** Particles without mass in a gas with acetylene, growing by any mechanism that reads the area, without nucleation and oxidation: they
may stay without mass forever or start to grow at once, and both curves follow the sources.  The start does not determine the evolution. -/
theorem C105_not_unique (m : Model) (s : State) (h : MonoGas m s) (hn : m.nucl.mech = .NONE) (g1 : m.grow.mech ≠ .NONE) (g2 : m.grow.mech ≠ .HACA)
    (ho : m.oxid.cls = .NONE) (hy : 0 < s.yGas.getD GasSp.C2H2.toNat 0) (N : ℝ) (hN : 0 < N) :
    ∃ τ > 0, ∃ A B, MonoEvolution m s τ A ∧ MonoEvolution m s τ B ∧ A 0 = (N, 0) ∧ B 0 = (N, 0) ∧
      ∀ t ∈ Set.Ioc 0 τ, (A t).2 = 0 ∧ 0 < (B t).2 := by
  obtain ⟨J, kO, -, -, J0, k0, -, hF⟩ := monoF_ok h (by simp [hn]) g2 (by simp [ho])
  obtain rfl := J0 hn
  obtain rfl := k0 ho
  obtain ⟨w, a, h⟩ := h
  have hr := h 0 0 le_rfl le_rfl
  have hp : s.Phys := by obtain ⟨a, b, c, d, e, f⟩ := hr.gas.acc.phys; exact ⟨a, b, c, d, e, f⟩
  obtain ⟨D, q, D0, q0, q1, hD⟩ := growFlux_power g1 g2 hp hy hN
  obtain ⟨y, y0, yp, hy'⟩ := power_curve D0 q0 q1
  have Fv : ∀ x, 0 ≤ x → x ≤ N * mmin → monoF m s 0 0 (N, x) = (0, D * x ^ q) := fun x x0 x1 => by
    have : x / N ≤ mmin := by rw [div_le_iff₀ hN, mul_comm]; exact x1
    simp only [monoF, val_zero m.coag s (.inl this), hD x x0]
    simp
  have nn : ∀ᶠ t in 𝓝 (0 : ℝ), y t < N * mmin :=
    (hy' 0 le_rfl).continuousAt.eventually (gt_mem_nhds (by rw [y0]; have := mmin_pos; positivity))
  obtain ⟨δ, δ0, hδ⟩ := Metric.eventually_nhds_iff.1 nn
  have evol : ∀ z : ℝ → ℝ, (∀ t, 0 ≤ t → 0 ≤ z t) → (∀ t, 0 ≤ t → t < δ → z t ≤ N * mmin) → (∀ t, 0 ≤ t → HasDerivAt z (D * z t ^ q) t) →
      MonoEvolution m s (δ / 2) fun t => (N, z t) := fun z z0 z1 z2 =>
    { cont := fun t ht => (continuousAt_const.prodMk (z2 t ht.1).continuousAt).continuousWithinAt
      rate := fun t ht => by
        obtain ⟨m', s', e1, e2⟩ := hF N (z t) hN (z0 t ht.1)
        refine ⟨m', s', e1, ?_⟩
        rw [e2, Fv _ (z0 t ht.1) (z1 t ht.1 (by linarith [ht.2]))]
        exact ((hasDerivAt_const t N).prodMk (z2 t ht.1)).hasDerivWithinAt }
  have yn : ∀ t, 0 ≤ t → 0 ≤ y t := fun t ht => ht.eq_or_lt.elim (fun e => by rw [← e, y0]) fun e => (yp t e).le
  refine ⟨δ / 2, by positivity, fun t => (N, 0), fun t => (N, y t), evol _ (fun _ _ => le_rfl) (fun _ _ _ => by have := mmin_pos; positivity)
    (fun t _ => by rw [zero_rpow q0.ne', mul_zero]; exact hasDerivAt_const t 0), evol y yn (fun t t0 t1 => (hδ (by
      rw [dist_eq, sub_zero, abs_of_nonneg t0]; exact t1)).le) hy', rfl, by simp only [y0], fun t ht => ⟨rfl, yp t ht.1⟩⟩

/-! ## Number and mass during the evolution (C106) -/

/-- **C106, particles survive.** Whatever burns and coagulates, an evolution that starts with particles has particles at all times.  (Without PAH and HACA.) -/
theorem C106_particles_survive (m : Model) (s : State) (h : MonoGas m s) (hn : m.nucl.mech ≠ .PAH) (hg : m.grow.mech ≠ .HACA) (ho : m.oxid.cls ≠ .HACA)
    (τ : ℝ) (M : ℝ → ℝ × ℝ) (hM : MonoEvolution m s τ M) (h1 : ∀ t ∈ Set.Icc 0 τ, 0 ≤ (M t).2) (h0 : 0 < (M 0).1) :
    ∀ t ∈ Set.Icc 0 τ, 0 < (M t).1 := by
  obtain ⟨J, kO, J0, -, -, -, -, hF⟩ := monoF_ok h hn hg ho
  obtain ⟨w, a, h⟩ := h
  have hr := h 0 0 le_rfl le_rfl
  have hp : s.Phys := by obtain ⟨a, b, c, d, e, f⟩ := hr.gas.acc.phys; exact ⟨a, b, c, d, e, f⟩
  have cM0 : ContinuousOn (fun t => (M t).1) (Set.Icc 0 τ) := continuous_fst.comp_continuousOn hM.cont
  have cM1 : ContinuousOn (fun t => (M t).2) (Set.Icc 0 τ) := continuous_snd.comp_continuousOn hM.cont
  obtain ⟨B, hB⟩ := isCompact_Icc.exists_bound_of_continuousOn cM1
  set C := |kernBound m.coag s| * B / 2 with hC
  set f : ℝ → ℝ := fun t => (M 0).1 * exp (-(C + 1) * t) with hf
  have fp : ∀ t, 0 < f t := fun t => by positivity
  have fd : ∀ t, HasDerivAt f (-(C + 1) * f t) t := fun t => by
    have := (((hasDerivAt_id t).const_mul (-(C + 1))).exp).const_mul (M 0).1
    refine this.congr_deriv ?_
    simp only [hf, id]; ring
  choose m' s' r1 r2 using hM.rate
  have hd : ∀ t, ∃ d, ∀ ht : t ∈ Set.Ico 0 τ, d = (m' t ht).sources.soot.getD 0 0 := fun t => by
    by_cases ht : t ∈ Set.Ico 0 τ
    · exact ⟨(m' t ht).sources.soot.getD 0 0, fun _ => rfl⟩
    · exact ⟨0, fun h => absurd h ht⟩
  choose d hd using hd
  have := image_le_of_deriv_right_lt_deriv_boundary' (f := f) (f' := fun t => -(C + 1) * f t) (a := 0) (b := τ)
    (B := fun t => (M t).1) (B' := d) (fun t _ => (fd t).continuousAt.continuousWithinAt)
    (fun t _ => (fd t).hasDerivWithinAt) (by simp [hf]) cM0 (fun t ht => hd t ht ▸ (r2 t ht).fst) (fun t ht e => by
      have ht' : t ∈ Set.Icc 0 τ := ⟨ht.1, ht.2.le⟩
      have a0 : 0 < (M t).1 := e ▸ fp t
      have b0 := h1 t ht'
      obtain ⟨m'', s'', e1, e2⟩ := hF _ _ a0 b0
      have e3 := (r1 t ht).symm.trans e1
      simp only [ok.injEq, Prod.mk.injEq] at e3
      rw [hd t ht, e3.1, e2, e]
      simp only [List.getD_cons_zero, monoF]
      have k1 := val_lin hr.fm hp (div_nonneg b0 a0.le) (c := m.coag)
      have k2 : m.coag.val s ((M t).2 / (M t).1) ((M t).2 / (M t).1) * (M t).1 ^ 2 / 2 ≤ C * (M t).1 := by
        calc _ ≤ kernBound m.coag s * ((M t).2 / (M t).1) * (M t).1 ^ 2 / 2 := by gcongr
          _ = kernBound m.coag s * (M t).2 / 2 * (M t).1 := by field_simp
          _ ≤ |kernBound m.coag s| * B / 2 * (M t).1 := by
            have : (M t).2 ≤ B := (le_abs_self _).trans (hB t ht')
            have := le_abs_self (kernBound m.coag s)
            gcongr
      linarith)
  exact fun t ht => (fp t).trans_le (this ht)

/-- **C106, burn-out.** `N` particles of total mass `M1` that only burn, at the rate `k` per area: the number stays `N`, the mass is gone after a finite time, and
from then on the state has `N` particles without mass. -/
theorem C106_burnout (m : Model) (s : State) (h : MonoGas m s) (hn : m.nucl.mech = .NONE) (hg : m.grow.mech = .NONE) (hc : m.coag.mech = .NONE)
    (ho : m.oxid.cls ≠ .HACA) (N M1 k : ℝ) (hN : 0 < N) (h1 : 0 < M1) (hk : m.oxid.rate m.ctx { s with sootVar := [N, M1] } = ok k) (k0 : 0 < k) :
    ∃ M : ℝ → ℝ × ℝ, M 0 = (N, M1) ∧ (∀ τ, MonoEvolution m s τ M) ∧ (∀ t, (M t).1 = N) ∧
      ∃ T > 0, (∀ t, 0 ≤ t → t < T → 0 < (M t).2) ∧ ∀ t, T ≤ t → (M t).2 = 0 := by
  obtain ⟨J, kO, -, -, J0, -, kE, hF⟩ := monoF_ok h (by simp [hn]) (by simp [hg]) ho
  obtain rfl := J0 hn
  have := (kE N M1 hN.le h1.le).symm.trans hk
  simp only [ok.injEq] at this
  subst this
  have r0 := rhoSoot_pos
  set K := kO * (π * (6 / (π * rhoSoot)) ^ ((2 : ℝ) / 3) * N ^ ((1 : ℝ) / 3)) with hK
  have K0 : 0 < K := by positivity
  have Fv : ∀ x, 0 ≤ x → monoF m s 0 kO (N, x) = (0, -(K * x ^ ((2 : ℝ) / 3))) := fun x x0 => by
    have : ∀ a, m.coag.val s a a = 0 := fun a => by simp [Coag.val, hc]
    simp only [monoF, this, hg, growFlux, areaFn, hK]
    ext <;> simp
    ring
  set r := M1 ^ ((1 : ℝ) / 3) with hr
  have rp : 0 < r := by positivity
  set u : ℝ → ℝ := fun t => r - K / 3 * t with hu
  have du : ∀ t, HasDerivAt u (-(K / 3)) t := fun t => by simpa using ((hasDerivAt_id t).const_mul (K / 3)).const_sub r
  have cub : ∀ x : ℝ, 0 ≤ x → (x ^ 3) ^ ((2 : ℝ) / 3) = x ^ 2 := fun x hx => by
    rw [← rpow_natCast, ← rpow_mul hx, ← rpow_natCast]; norm_num
  have dy : ∀ t, HasDerivWithinAt (fun t => (max 0 (u t)) ^ 3) (-(K * ((max 0 (u t)) ^ 3) ^ ((2 : ℝ) / 3))) (Set.Ici t) t := fun t => by
    rw [cub _ (le_max_left _ _)]
    rcases lt_or_ge 0 (u t) with hp | hp
    · rw [max_eq_right hp.le]
      have d3 := ((du t).pow 3).hasDerivWithinAt (s := Set.Ici t)
      refine (d3.congr_of_eventuallyEq ?_ ?_).congr_deriv ?_
      · filter_upwards [mem_nhdsWithin_of_mem_nhds ((du t).continuousAt.eventually (lt_mem_nhds hp))] with v hv
        rw [max_eq_right (le_of_lt hv)]; rfl
      · rw [max_eq_right hp.le]; rfl
      · norm_num; ring
    · rw [max_eq_left hp]
      refine ((hasDerivWithinAt_const t (Set.Ici t) (0 : ℝ)).congr (fun v hv => ?_) ?_).congr_deriv (by simp)
      · have : u v ≤ 0 := by
          have : K / 3 * t ≤ K / 3 * v := by have hv : t ≤ v := hv; gcongr
          simp only [hu] at hp ⊢; linarith
        simp [max_eq_left this]
      · simp [max_eq_left hp]
  have cu : Continuous fun t => (N, (max 0 (u t)) ^ 3) := by fun_prop
  refine ⟨fun t => (N, (max 0 (u t)) ^ 3), ?_, fun τ => ⟨cu.continuousOn, fun t ht => ?_⟩, fun t => rfl, 3 * r / K, by positivity, fun t t0 t1 => ?_, fun t t1 => ?_⟩
  · have : u 0 = r := by simp [hu]
    simp only [this, max_eq_right rp.le]
    rw [hr, ← rpow_natCast, ← rpow_mul h1.le]; norm_num
  · have y0 : 0 ≤ (max 0 (u t)) ^ 3 := by positivity
    obtain ⟨m', s', e1, e2⟩ := hF N _ hN y0
    refine ⟨m', s', e1, ?_⟩
    rw [e2, Fv _ y0]
    exact (hasDerivWithinAt_const t _ N).prodMk (dy t)
  · have : 0 < u t := by rw [lt_div_iff₀ K0] at t1; simp only [hu]; linarith
    simp only [max_eq_right this.le]; positivity
  · have : u t ≤ 0 := by rw [div_le_iff₀ K0] at t1; simp only [hu]; linarith
    simp [max_eq_left this]

/-! ## Concrete cases -/

theorem exMonoGas (n : NuclMech) (hn : n ≠ .AJ_RED) (hb : n ≠ .BROWN) (g : GrowMech) (o : OxidMech) (c : CoagMech) (clean : Bool) :
    MonoGas (exModel .MONO 2 n g o c) (exSt [0, 0] clean) := by
  refine ⟨0, 0, fun M0 M1 h0 h1 => ?_⟩
  have e : { exSt [0, 0] clean with sootVar := [M0, M1] } = exSt [M0, M1] clean := by
    rw [exSt_eq, exSt_eq]; simp [stateAfter, exArgs, h0, h1]
  rw [e]
  exact exMonoReady2 n hn hb g o c h0 h1 clean

/-- Nucleation, growth, oxidation and FUCHS coagulation in the burning gas: 1E15 particles of 1E-23 kg evolve for some time, and in one way only. -/
example : ∃ τ > 0, ∃ M, MonoEvolution (exModel .MONO 2 .LL .LL .LL .FUCHS) (exSt [0, 0] false) τ M ∧ M 0 = (1E15, 1E-8) ∧
    ∀ N, MonoEvolution (exModel .MONO 2 .LL .LL .LL .FUCHS) (exSt [0, 0] false) τ N → N 0 = (1E15, 1E-8) → ∀ t ∈ Set.Icc 0 τ, M t = N t := by
  have h := exMonoGas .LL (by decide) (by decide) .LL .LL .FUCHS false
  obtain ⟨τ, τ0, M, h1, h2, h3⟩ := C105_exists_partial _ _ h (by simp [exModel, Nucl.new]) (by simp [exModel, Grow.new]) (by simp [exModel, Oxid.new]) 1E15 1E-8
    (by norm_num) (by norm_num) (by norm_num [mmin])
  exact ⟨τ, τ0, M, h1, h2, fun N hN e => C105_unique_partial _ _ h (by simp [exModel, Nucl.new]) (by simp [exModel, Grow.new]) (by simp [exModel, Oxid.new]) τ M N h1 hN
    (fun t ht => h3 t ⟨ht.1, ht.2.le⟩) (h2.trans e.symm)⟩

theorem exSt_c2h2 (v : List ℝ) : 0 < (exSt v false).yGas.getD GasSp.C2H2.toNat 0 := by
  rw [exSt_eq]; norm_num [stateAfter, exArgs, argsEx2, GasSp.toNat]

/-- 1E15 particles without mass in the same gas, growing by LL: two evolutions. -/
example : ∃ τ > 0, ∃ A B, MonoEvolution (exModel .MONO 2 .NONE .LL .NONE .FM) (exSt [0, 0] false) τ A ∧
    MonoEvolution (exModel .MONO 2 .NONE .LL .NONE .FM) (exSt [0, 0] false) τ B ∧ A 0 = (1E15, 0) ∧ B 0 = (1E15, 0) ∧
      ∀ t ∈ Set.Ioc 0 τ, (A t).2 = 0 ∧ 0 < (B t).2 :=
  C105_not_unique _ _ (exMonoGas .NONE (by decide) (by decide) .LL .NONE .FM false) rfl (by simp [exModel, Grow.new]) (by simp [exModel, Grow.new]) rfl
    (exSt_c2h2 _) 1E15 (by norm_num)

/-- The evolution above keeps its particles. -/
example : ∃ τ > 0, ∃ M, MonoEvolution (exModel .MONO 2 .LL .LL .LL .FUCHS) (exSt [0, 0] false) τ M ∧ M 0 = (1E15, 1E-8) ∧ ∀ t ∈ Set.Icc 0 τ, 0 < (M t).1 := by
  have h := exMonoGas .LL (by decide) (by decide) .LL .LL .FUCHS false
  obtain ⟨τ, τ0, M, h1, h2, h3⟩ := C105_exists_partial _ _ h (by simp [exModel, Nucl.new]) (by simp [exModel, Grow.new]) (by simp [exModel, Oxid.new]) 1E15 1E-8
    (by norm_num) (by norm_num) (by norm_num [mmin])
  exact ⟨τ, τ0, M, h1, h2, C106_particles_survive _ _ h (by simp [exModel, Nucl.new]) (by simp [exModel, Grow.new]) (by simp [exModel, Oxid.new]) τ M h1
    (fun t ht => (h3 t ht).2.1.le) (by rw [h2]; norm_num)⟩

/-- 1E15 particles of 1E-23 kg that burn by the LL rate: the mass goes, the particles stay. -/
example : ∃ M : ℝ → ℝ × ℝ, M 0 = (1E15, 1E-8) ∧ (∀ τ, MonoEvolution (exModel .MONO 2 .NONE .NONE .LL .NONE) (exSt [0, 0] false) τ M) ∧ (∀ t, (M t).1 = 1E15) ∧
    ∃ T > 0, (∀ t, 0 ≤ t → t < T → 0 < (M t).2) ∧ ∀ t, T ≤ t → (M t).2 = 0 := by
  have h := exMonoGas .NONE (by decide) (by decide) .NONE .LL .NONE false
  obtain ⟨w, a, hr⟩ := h
  have hr := hr 1E15 1E-8 (by norm_num) (by norm_num)
  have T0 := hr.gas.acc.phys.T
  have o2 : 0 < cVal (exSt [1E15, 1E-8] false) .O2 := by
    have := gasMW_pos .O2
    rw [exSt_eq]; simp only [cVal, stateAfter, exArgs, argsEx2, argsEx, GasSp.toNat]; norm_num; positivity
  have e : { exSt [0, 0] false with sootVar := [1E15, 1E-8] } = exSt [1E15, 1E-8] false := by
    rw [exSt_eq, exSt_eq]; norm_num [stateAfter, exArgs]
  rw [e] at hr T0
  have w0 := gasMW_pos .C
  refine C106_burnout _ _ (exMonoGas .NONE (by decide) (by decide) .NONE .LL .NONE false) rfl rfl rfl (by simp [exModel, Oxid.new]) 1E15 1E-8 (by norm_num) (by norm_num)
    (k := 0.1E5 * sqrt (exSt [1E15, 1E-8] false).T * exp (-19680 / (exSt [1E15, 1E-8] false).T) * cVal (exSt [1E15, 1E-8] false) .O2 * gasMW .C) ?_ (by positivity)
  rw [e]
  simp only [exModel, Oxid.new, Oxid.rate, csqrt_ok T0.le, cexpDiv_ok T0.ne', hr.gas.gasC, ok_bind]

end Soot
