import Verif.Props.Agree

/-!
# Property C100: continuity of the coagulation kernels and of the number source of MONO

A source term that an ODE integrator is given should depend continuously on the state. The kernels do so above the cutoff mass
`mmin`, but the guard `if (m1 <= mmin || m2 <= mmin) return 0;` makes every one of them jump at the cutoff.
-/

namespace Soot

open Res Real Filter Topology
open scoped Classical

namespace Cont

variable {X : Type*} [TopologicalSpace X] {x : X}

/-- The scalar members the kernels read depend continuously on the parameter. -/
structure ContSt (f : X → State) (x : X) : Prop where
  T : ContinuousAt (fun y => (f y).T) x
  P : ContinuousAt (fun y => (f y).P) x
  rho : ContinuousAt (fun y => (f y).rhoGas) x
  mu : ContinuousAt (fun y => (f y).muGas) x

theorem diam_cont {m : X → ℝ} (hm : ContinuousAt m x) : ContinuousAt (fun y => diam (m y)) x := by
  unfold diam
  exact ContinuousAt.rpow_const (by fun_prop) (Or.inr (by norm_num [onethird]))

theorem mfp_cont {f : X → State} (hp : ∀ y, (f y).Phys) (h : ContSt f x) : ContinuousAt (fun y => (f y).mfpVal) x := by
  have e : (fun y => (f y).mfpVal) = fun y => (f y).muGas / (f y).rhoGas * Real.sqrt (Real.pi * ((f y).rhoGas * Rg * (f y).T / (f y).P) / (2 * Rg * (f y).T)) := by
    funext y; rw [State.mfpVal, (hp y).mw]
  rw [e]
  have h1 := (hp x).T; have h2 := (hp x).P; have h3 := (hp x).rho; have hR := Rg_pos
  have hmw : ContinuousAt (fun y => (f y).rhoGas * Rg * (f y).T / (f y).P) x :=
    ((h.rho.mul continuousAt_const).mul h.T).div h.P h2.ne'
  exact (h.mu.div h.rho h3.ne').mul
    (ContinuousAt.sqrt ((continuousAt_const.mul hmw).div (continuousAt_const.mul h.T) (by positivity)))

theorem kfm_cont (c : Coag) {f : X → State} (h : ContSt f x) : ContinuousAt (fun y => c.kfmVal (f y)) x := by
  unfold Coag.kfmVal
  exact (continuousAt_const.mul (ContinuousAt.sqrt (continuousAt_const.mul h.T))).mul continuousAt_const

theorem fm_cont (c : Coag) {f : X → State} (h : ContSt f x) {m1 m2 : X → ℝ} (h1 : ContinuousAt m1 x) (h2 : ContinuousAt m2 x)
    (p1 : 0 < m1 x) (p2 : 0 < m2 x) : ContinuousAt (fun y => fmVal c (f y) (m1 y) (m2 y)) x := by
  unfold fmVal
  have r : ContinuousAt (fun y => (m1 y) ^ onethird + (m2 y) ^ onethird) x :=
    (h1.rpow_const (Or.inl p1.ne')).add (h2.rpow_const (Or.inl p2.ne'))
  exact (((kfm_cont c h).mul (ContinuousAt.sqrt ((continuousAt_const.div h1 p1.ne').add (continuousAt_const.div h2 p2.ne')))).mul r).mul r

theorem cont_cont {f : X → State} (hp : ∀ y, (f y).Phys) (h : ContSt f x) {m1 m2 : X → ℝ} (h1 : ContinuousAt m1 x) (h2 : ContinuousAt m2 x)
    (p1 : 0 < m1 x) (p2 : 0 < m2 x) : ContinuousAt (fun y => contVal (f y) (m1 y) (m2 y)) x := by
  unfold contVal kcVal
  have hl := mfp_cont hp h
  have hmu := (hp x).mu
  have e3 : 3 * (f x).muGas ≠ 0 := by positivity
  have one : ∀ {m : X → ℝ}, ContinuousAt m x → 0 < m x →
      ContinuousAt (fun y => (1 + 1.657 * (2 * (f y).mfpVal / diam (m y))) / diam (m y)) x := fun hm p =>
    (continuousAt_const.add (continuousAt_const.mul ((continuousAt_const.mul hl).div (diam_cont hm) (diam_pos p).ne'))).div
      (diam_cont hm) (diam_pos p).ne'
  exact (((continuousAt_const.mul h.T).div (continuousAt_const.mul h.mu) e3).mul ((one h1 p1).add (one h2 p2))).mul
    ((diam_cont h1).add (diam_cont h2))

theorem cunn_cont {k : X → ℝ} (hk : ContinuousAt k x) (p : 0 < k x) : ContinuousAt (fun y => cunningham (k y)) x := by
  have e : (fun y => cunningham (k y)) =ᶠ[𝓝 x] fun y => 1 + k y * (1.257 + 0.4 * exp (-1.1 / k y)) := by
    filter_upwards [hk.eventually (lt_mem_nhds p)] with y hy
    have hy : (0 : ℝ) < k y := hy
    simp [cunningham, hy.ne']
  rw [continuousAt_congr e]
  exact continuousAt_const.add (hk.mul (continuousAt_const.add (continuousAt_const.mul
    (Real.continuous_exp.continuousAt.comp (continuousAt_const.div hk p.ne')))))

theorem slip_cont {f : X → State} (hp : ∀ y, (f y).Phys) (h : ContSt f x) {m : X → ℝ} (hm : ContinuousAt m x) (p : 0 < m x) :
    ContinuousAt (fun y => cunningham (2 * (f y).mfpVal / diam (m y))) x := by
  have := (hp x).mfpVal_pos; have := diam_pos p
  exact cunn_cont ((continuousAt_const.mul (mfp_cont hp h)).div (diam_cont hm) (by positivity)) (by positivity)

theorem hm_cont {f : X → State} (hp : ∀ y, (f y).Phys) (h : ContSt f x) {m1 m2 : X → ℝ} (h1 : ContinuousAt m1 x) (h2 : ContinuousAt m2 x)
    (p1 : 0 < m1 x) (p2 : 0 < m2 x) : ContinuousAt (fun y => hmContVal (f y) (m1 y) (m2 y)) x := by
  unfold hmContVal
  exact (((continuousAt_const.mul h.T).div h.mu (hp x).mu.ne').mul
    (((slip_cont hp h h1 p1).div (diam_cont h1) (diam_pos p1).ne').add ((slip_cont hp h h2 p2).div (diam_cont h2) (diam_pos p2).ne'))).mul
    ((diam_cont h1).add (diam_cont h2))

theorem fD_cont {f : X → State} (hp : ∀ y, (f y).Phys) (h : ContSt f x) {m : X → ℝ} (hm : ContinuousAt m x) (p : 0 < m x) :
    ContinuousAt (fun y => fuchsD (f y) (m y)) x := by
  unfold fuchsD
  have := (hp x).mu
  have e3 : 3 * π * (f x).muGas ≠ 0 := by positivity
  exact (((continuousAt_const.mul h.T).div (continuousAt_const.mul h.mu) e3).mul (slip_cont hp h hm p)).div
    (diam_cont hm) (diam_pos p).ne'

theorem fC_cont {f : X → State} (h : ContSt f x) {m : X → ℝ} (hm : ContinuousAt m x) (p : 0 < m x) :
    ContinuousAt (fun y => fuchsC (f y) (m y)) x := by
  unfold fuchsC
  exact ContinuousAt.sqrt ((continuousAt_const.mul h.T).div (continuousAt_const.mul hm) (by positivity))

theorem fL_cont {f : X → State} (hp : ∀ y, (f y).Phys) (h : ContSt f x) {m : X → ℝ} (hm : ContinuousAt m x) (p : 0 < m x) :
    ContinuousAt (fun y => fuchsL (f y) (m y)) x := by
  unfold fuchsL
  have := fuchsC_pos (hp x) p
  have e3 : π * fuchsC (f x) (m x) ≠ 0 := by positivity
  exact (continuousAt_const.mul (fD_cont hp h hm p)).div (continuousAt_const.mul (fC_cont h hm p)) e3

theorem fG_cont {f : X → State} (hp : ∀ y, (f y).Phys) (h : ContSt f x) {m : X → ℝ} (hm : ContinuousAt m x) (p : 0 < m x) :
    ContinuousAt (fun y => fuchsG (f y) (m y)) x := by
  unfold fuchsG
  have hl := fuchsL_pos (hp x) p; have hd := diam_pos p
  have e3 : 3 * diam (m x) * fuchsL (f x) (m x) ≠ 0 := by positivity
  have cl := fL_cont hp h hm p; have cd := diam_cont (x := x) hm
  exact ((continuousAt_const.div ((continuousAt_const.mul cd).mul cl) e3).mul
    (((cd.add cl).pow 3).sub (((cd.mul cd).add (cl.mul cl)).rpow_const (Or.inr (by norm_num))))).sub (continuousAt_const.mul cd)

theorem fuchs_cont {c : Coag} (hc : 0 < c.fmMult) {f : X → State} (hp : ∀ y, (f y).Phys) (h : ContSt f x) {m1 m2 : X → ℝ} (h1 : ContinuousAt m1 x)
    (h2 : ContinuousAt m2 x) (p1 : 0 < m1 x) (p2 : 0 < m2 x) : ContinuousAt (fun y => fuchsVal c (f y) (m1 y) (m2 y)) x := by
  have d1 := diam_pos p1; have d2 := diam_pos p2; have c1 := fuchsC_pos (hp x) p1; have c2 := fuchsC_pos (hp x) p2
  have hden := (fuchsVal_den_pos (hp x) p1 p2 hc).ne'
  unfold fuchsVal
  have e1 : diam (m1 x) + diam (m2 x) + 2 * sqrt (fuchsG (f x) (m1 x) * fuchsG (f x) (m1 x) + fuchsG (f x) (m2 x) * fuchsG (f x) (m2 x)) ≠ 0 := by
    positivity
  have e2 : sqrt (fuchsC (f x) (m1 x) * fuchsC (f x) (m1 x) + fuchsC (f x) (m2 x) * fuchsC (f x) (m2 x)) * (diam (m1 x) + diam (m2 x)) ≠ 0 := by
    positivity
  have cd := (diam_cont h1).add (diam_cont h2)
  have cD := (fD_cont hp h h1 p1).add (fD_cont hp h h2 p2)
  have g1 := fG_cont hp h h1 p1; have g2 := fG_cont hp h h2 p2
  have k1 := fC_cont h h1 p1; have k2 := fC_cont h h2 p2
  refine ((continuousAt_const.mul cD).mul cd).div ((cd.div (cd.add (continuousAt_const.mul (ContinuousAt.sqrt ((g1.mul g1).add (g2.mul g2))))) ?_).add
    ((continuousAt_const.mul cD).div ((ContinuousAt.sqrt ((k1.mul k1).add (k2.mul k2))).mul cd) ?_)) hden
  · exact e1
  · exact e2

/-- The kernel without its guard. -/
noncomputable def core (c : Coag) (s : State) (m1 m2 : ℝ) : ℝ :=
  match c.mech with
  | .NONE => 0
  | .FM => fmVal c s m1 m2
  | .CONTINUUM => contVal s m1 m2
  | .HM => fmVal c s m1 m2 * hmContVal s m1 m2 / (fmVal c s m1 m2 + hmContVal s m1 m2)
  | .FUCHS => fuchsVal c s m1 m2

theorem core_pos {c : Coag} (hc : 0 < c.fmMult) (hn : c.mech ≠ .NONE) {s : State} (h : s.Phys) {m1 m2 : ℝ} (p1 : 0 < m1) (p2 : 0 < m2) :
    0 < core c s m1 m2 := by
  unfold core
  have a := fmVal_pos h hc p1 p2; have b := hmContVal_pos h p1 p2
  rcases hx : c.mech
  · exact absurd hx hn
  · exact a
  · exact contVal_pos h p1 p2
  · positivity
  · exact fuchsVal_pos h p1 p2 hc

theorem core_cont {c : Coag} (hc : 0 < c.fmMult) {f : X → State} (hp : ∀ y, (f y).Phys) (h : ContSt f x) {m1 m2 : X → ℝ} (h1 : ContinuousAt m1 x)
    (h2 : ContinuousAt m2 x) (p1 : 0 < m1 x) (p2 : 0 < m2 x) : ContinuousAt (fun y => core c (f y) (m1 y) (m2 y)) x := by
  unfold core
  have a := fm_cont c h h1 h2 p1 p2; have b := hm_cont hp h h1 h2 p1 p2
  have a' := fmVal_pos (hp x) hc p1 p2; have b' := hmContVal_pos (hp x) p1 p2
  rcases c.mech
  · exact continuousAt_const
  · exact a
  · exact cont_cont hp h h1 h2 p1 p2
  · exact (a.mul b).div (a.add b) (by positivity)
  · exact fuchs_cont hc hp h h1 h2 p1 p2

theorem val_core (c : Coag) (s : State) {m1 m2 : ℝ} (h1 : mmin < m1) (h2 : mmin < m2) : c.val s m1 m2 = core c s m1 m2 := by
  rw [Coag.val, if_neg (by simp [h1, h2]), core]; rcases c.mech <;> rfl

theorem val_zero (c : Coag) (s : State) {m1 m2 : ℝ} (h : m1 ≤ mmin ∨ m2 ≤ mmin) : c.val s m1 m2 = 0 := by
  simp [Coag.val, h]

end Cont

open Cont

/-- C100 (true part). Above the cutoff mass every kernel is continuous, jointly in temperature, pressure, density, viscosity and the two
masses, along any parameter. Missing for the full property: the points where a mass equals the cutoff, see `C100_kernel_jump`. -/
theorem C100_kernel_continuous_partial {X : Type*} [TopologicalSpace X] (c : Coag) (hc : 0 < c.fmMult) (f : X → State)
    (hf : ∀ y, Accepted (f y)) (m1 m2 : X → ℝ) (x : X)
    (hT : ContinuousAt (fun y => (f y).T) x) (hP : ContinuousAt (fun y => (f y).P) x)
    (hr : ContinuousAt (fun y => (f y).rhoGas) x) (hmu : ContinuousAt (fun y => (f y).muGas) x)
    (h1 : ContinuousAt m1 x) (h2 : ContinuousAt m2 x) (p1 : m1 x ≠ mmin) (p2 : m2 x ≠ mmin) :
    ∃ v : X → ℝ, (∀ y, c.rate (f y) (m1 y) (m2 y) = ok (v y)) ∧ ContinuousAt v x := by
  have hp : ∀ y, (f y).Phys := fun y => (hf y).phys
  refine ⟨fun y => c.val (f y) (m1 y) (m2 y), fun y => Coag.rate_ok (hp y) hc _ _, ?_⟩
  by_cases h : mmin < m1 x ∧ mmin < m2 x
  · have e : (fun y => c.val (f y) (m1 y) (m2 y)) =ᶠ[𝓝 x] fun y => core c (f y) (m1 y) (m2 y) := by
      filter_upwards [h1.eventually (lt_mem_nhds h.1), h2.eventually (lt_mem_nhds h.2)] with y a b
      exact val_core c _ a b
    rw [continuousAt_congr e]
    exact core_cont hc hp ⟨hT, hP, hr, hmu⟩ h1 h2 (mmin_pos.trans h.1) (mmin_pos.trans h.2)
  · have e : (fun y => c.val (f y) (m1 y) (m2 y)) =ᶠ[𝓝 x] fun _ => 0 := by
      rcases not_and_or.mp h with h | h
      · filter_upwards [h1.eventually (gt_mem_nhds (lt_of_le_of_ne (not_lt.mp h) p1))] with y a
        exact val_zero c _ (Or.inl (le_of_lt a))
      · filter_upwards [h2.eventually (gt_mem_nhds (lt_of_le_of_ne (not_lt.mp h) p2))] with y a
        exact val_zero c _ (Or.inr (le_of_lt a))
    rw [continuousAt_congr e]
    exact continuousAt_const

/-- C100 (refutation). In every accepted state, every kernel but NONE returns 0 for two particles of exactly the cutoff mass and a rate that
tends to a positive limit `L` as their common mass decreases to the cutoff: the kernel is not continuous there. The same holds when only one
of the masses decreases to the cutoff. -/
theorem C100_kernel_jump (c : Coag) (hc : 0 < c.fmMult) (hn : c.mech ≠ .NONE) (s : State) (hs : Accepted s) :
    (∃ v L, (∀ m, c.rate s m m = ok (v m)) ∧ v mmin = 0 ∧ 0 < L ∧ Tendsto v (𝓝[>] mmin) (𝓝 L) ∧ ¬ ContinuousAt v mmin) ∧
    ∀ m2, mmin < m2 →
      ∃ v L, (∀ m, c.rate s m m2 = ok (v m)) ∧ v mmin = 0 ∧ 0 < L ∧ Tendsto v (𝓝[>] mmin) (𝓝 L) ∧ ¬ ContinuousAt v mmin := by
  have hp := hs.phys
  have key : ∀ g : ℝ → ℝ, ContinuousAt g mmin → 0 < g mmin → (∀ m, mmin < m → mmin < g m) →
      ∃ v L, (∀ m, c.rate s m (g m) = ok (v m)) ∧ v mmin = 0 ∧ 0 < L ∧ Tendsto v (𝓝[>] mmin) (𝓝 L) ∧ ¬ ContinuousAt v mmin := by
    intro g hg g0 hg'
    have hL := core_pos hc hn hp mmin_pos g0
    have z : c.val s mmin (g mmin) = 0 := val_zero c s (Or.inl le_rfl)
    have ht : Tendsto (fun m => c.val s m (g m)) (𝓝[>] mmin) (𝓝 (core c s mmin (g mmin))) := by
      have hcore : ContinuousAt (fun m => core c s m (g m)) mmin :=
        core_cont (f := fun _ => s) hc (fun _ => hp) ⟨continuousAt_const, continuousAt_const, continuousAt_const, continuousAt_const⟩
          continuousAt_id hg mmin_pos g0
      refine (hcore.tendsto.mono_left nhdsWithin_le_nhds).congr' ?_
      filter_upwards [self_mem_nhdsWithin] with m hm
      exact (val_core c s hm (hg' m hm)).symm
    refine ⟨fun m => c.val s m (g m), _, fun m => Coag.rate_ok hp hc _ _, z, hL, ht, fun hcon => ?_⟩
    have := tendsto_nhds_unique (hcon.tendsto.mono_left nhdsWithin_le_nhds) ht
    rw [z] at this
    exact hL.ne this
  exact ⟨key (fun m => m) continuousAt_id mmin_pos fun _ h => h, fun m2 h2 => key (fun _ => m2) continuousAt_const (mmin_pos.trans h2) fun _ _ => h2⟩

/-- C100 (consequence). The number source of MONO, as a function of the mean particle mass at a fixed number density and a fixed gas, jumps at
the cutoff: at the cutoff it is the nucleation rate `J`, just above it is lower by nearly `L`. `st m` is the state with number density `n` and
mean mass `m`, `k` the model. -/
theorem C100_mono_jump (k : Model) (n w a : ℝ) (hn : 0 < n) (st : ℝ → State) (hk : ∀ m, 0 < m → MonoReady k (st m) n (n * m) w a)
    (hg : ∀ m, 0 < m → SameGas (st mmin) (st m)) (hp : k.nucl.mech ≠ .PAH) (hc : 0 < k.coag.fmMult) (hm : k.coag.mech ≠ .NONE) :
    ∃ (v : ℝ → ℝ) (J L : ℝ),
      (∀ m, 0 < m → ∃ k' s', monoSources k (st m) = ok (k', s') ∧ k'.sources.soot[0]? = some (v m)) ∧
      (∀ m, 0 < m → m ≤ mmin → v m = J) ∧ 0 < L ∧ Tendsto v (𝓝[>] mmin) (𝓝 (J - L)) := by
  have hw : monoW n w = n := by rw [monoW, if_pos hn]
  have ha : ∀ m, monoA n (n * m) a = m := fun m => by rw [monoA, if_pos hn]; field_simp
  have h0 := hk mmin mmin_pos
  have hph := h0.gas.acc.phys
  obtain ⟨_, s0, J, n0, _, _, _, -, a2, -, -, -, -, -, -, -, -, -, -, -⟩ := mono_eval h0
  refine ⟨fun m => J - k.coag.val (st mmin) m m * n ^ 2 / 2, J, core k.coag (st mmin) mmin mmin * n ^ 2 / 2, ?_, ?_, ?_, ?_⟩
  · intro m m0
    obtain ⟨k', s', J', n', kG, kO, A, b1, b2, b3, -, -, -, -, -, -, -, -, -, b13⟩ := mono_eval (hk m m0)
    have hg' := hg m m0
    have g : SameGas { st mmin with wts := [monoW n w], absc := [monoA n (n * mmin) a] } { st m with wts := [monoW n w], absc := [monoA n (n * m) a] } := by
      rw [SameGas]; rw [SameGas] at hg'; conv_lhs => rw [hg']
    rw [Agree.nucl hp g, a2, map'_ok, ok.injEq] at b2
    have hJ : J = J' := congrArg Prod.fst b2
    refine ⟨k', s', b1, ?_⟩
    have hv : k.coag.val s' m m = k.coag.val (st mmin) m m := by rw [b3, hg']; rfl
    rw [b13, ha, hw, hv, ← hJ]; rfl
  · intro m _ hm'
    simp [val_zero k.coag (st mmin) (Or.inl hm' : m ≤ mmin ∨ m ≤ mmin)]
  · have := core_pos hc hm hph mmin_pos mmin_pos
    positivity
  · have hcore : ContinuousAt (fun m => core k.coag (st mmin) m m) mmin :=
      core_cont (f := fun _ => st mmin) hc (fun _ => hph) ⟨continuousAt_const, continuousAt_const, continuousAt_const, continuousAt_const⟩
        continuousAt_id continuousAt_id mmin_pos mmin_pos
    have : ContinuousAt (fun m => J - core k.coag (st mmin) m m * n ^ 2 / 2) mmin :=
      continuousAt_const.sub ((hcore.mul continuousAt_const).div_const 2)
    refine (this.tendsto.mono_left nhdsWithin_le_nhds).congr' ?_
    filter_upwards [self_mem_nhdsWithin] with m hm'
    rw [val_core k.coag (st mmin) hm' hm']

/-- For a million billion particles per cubic metre in the example gas, all nuclei models but PAH, all surface mechanisms and the Fuchs kernel. -/
example (nu : NuclMech) (hn : nu ≠ .AJ_RED) (hb : nu ≠ .BROWN) (hp : nu ≠ .PAH) (g : GrowMech) (o : OxidMech) :
    ∃ (v : ℝ → ℝ) (J L : ℝ),
      (∀ m, 0 < m → ∃ k' s', monoSources (exModel .MONO 2 nu g o .FUCHS) (exSt [1E15, 1E15 * m] false) = ok (k', s') ∧ k'.sources.soot[0]? = some (v m)) ∧
      (∀ m, 0 < m → m ≤ mmin → v m = J) ∧ 0 < L ∧ Tendsto v (𝓝[>] mmin) (𝓝 (J - L)) :=
  C100_mono_jump _ 1E15 0 0 (by norm_num) (fun m => exSt [1E15, 1E15 * m] false)
    (fun m h => exMonoReady2 nu hn hb g o .FUCHS (by norm_num) (by positivity) false) (fun _ _ => exSame _ _ _) hp
    (exMonoReady2 nu hn hb g o .FUCHS (M0 := 0) (M1 := 0) le_rfl le_rfl false).fm (by simp [exModel, Coag.new])

/-- The kernels in the example state: continuous in the mass at 1E-21 kg, not at the cutoff. -/
example : ∃ s, Accepted s ∧ (∃ v : ℝ → ℝ, (∀ m, (Coag.mk .FUCHS 2.2).rate s m 1E-21 = ok (v m)) ∧ ContinuousAt v 1E-21) ∧
    ∃ v : ℝ → ℝ, (∀ m, (Coag.mk .FUCHS 2.2).rate s m 1E-21 = ok (v m)) ∧ ¬ ContinuousAt v mmin := by
  have hs : Accepted (exSt [1E15, 1E-6] false) :=
    (exMonoReady2 .NONE (by decide) (by decide) .NONE .NONE .NONE (M0 := 1E15) (M1 := 1E-6) (by norm_num) (by norm_num) false).gas.acc
  obtain ⟨v, L, h1, _, _, _, h2⟩ := (C100_kernel_jump (Coag.mk .FUCHS 2.2) (by norm_num) (by decide) _ hs).2 1E-21 mmin_lt_ex
  refine ⟨_, hs, ?_, v, h1, h2⟩
  exact C100_kernel_continuous_partial (Coag.mk .FUCHS 2.2) (by norm_num) (fun _ : ℝ => exSt [1E15, 1E-6] false) (fun _ => hs) (fun m => m) (fun _ => 1E-21) 1E-21
    continuousAt_const continuousAt_const continuousAt_const continuousAt_const continuousAt_id continuousAt_const mmin_lt_ex.ne' mmin_lt_ex.ne'

end Soot
