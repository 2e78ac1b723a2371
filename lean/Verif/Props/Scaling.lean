import Verif.Props.Agree

/-!
# Property C84: how the sources scale with the amount of soot
-/

namespace Soot

open Res Real
open scoped Classical

/-- The same gas holding `c` times as much soot of the same sizes. -/
noncomputable def moreSoot (c : ℝ) (s : State) : State := { s with sootVar := s.sootVar.map (c * ·) }

/-- The soot mass held in a vector of soot variables. -/
noncomputable def massVec (m : Model) (v : ℕ → ℝ) : ℝ := if m.psd = .SECT then ∑ k ∈ Finset.range m.nsoot, m.mBins.getD k 0 * v k else v 1

/-- What the sources of `c` times as much soot must look like: nucleation `nuc` does not notice the soot, growth and oxidation are in
proportion to it (to its root for LL growth, whose rate falls with the root of the area), coagulation goes with its square; each part is
absent when its mechanism is.  Coagulation does not change the mass, growth and oxidation do not change the number (in the moment
models).  The gas sees no coagulation. -/
def ScaleLaw (m : Model) (nuc : ℕ → ℝ) (run : ℝ → Sources → Prop) : Prop :=
  ∃ (g p q : ℕ → ℝ) (a b d : GasSp → ℝ),
    (m.grow.mech ≠ .LL → (∀ k, g k = 0) ∧ ∀ sp, b sp = 0) ∧
    (m.grow.mech = .NONE → m.oxid.mechType = .NONE → (∀ k, p k = 0) ∧ ∀ sp, d sp = 0) ∧
    (m.coag.mech = .NONE → ∀ k, q k = 0) ∧ massVec m q = 0 ∧ (m.psd ≠ .SECT → g 0 = 0 ∧ p 0 = 0) ∧
    ∀ c > 0, ∃ S, run c S ∧
      (∀ k < m.nsoot, S.soot.getD k 0 = nuc k + sqrt c * g k + c * p k + c ^ 2 * q k) ∧
      ∀ sp, S.gas sp = a sp + sqrt c * b sp + c * d sp

namespace Scaling

theorem getD_map (c : ℝ) (v : List ℝ) (k : ℕ) : (v.map (c * ·)).getD k 0 = c * v.getD k 0 := by
  by_cases h : k < v.length
  · simp [List.getD, h]
  · simp [List.getD, h]

theorem accepted {s : State} (h : Accepted s) {c : ℝ} (hc : 0 < c) : Accepted (moreSoot c s) := by
  have hnn := h.sootVar_nonneg
  obtain ⟨s₀, x, h1, h2⟩ := h
  obtain ⟨hs, ht⟩ := setState_ok_range h1
  have hx := (C01_setState_iff s₀ x hs ht).mp h1
  rw [C01_setState_accepts s₀ x hs ht hx] at h2
  have e : s.sootVar = x.sootVar.map (max · 0) := by rw [← h2]; rfl
  have hl : x.sootVar.length = (s.sootVar.map (c * ·)).length := by rw [e]; simp
  have hp : ∀ y ∈ s.sootVar.map (c * ·), 0 ≤ y := by
    intro y hy
    obtain ⟨z, hz, rfl⟩ := List.mem_map.mp hy
    exact mul_nonneg hc.le (hnn z hz)
  refine ⟨s₀, { x with sootVar := s.sootVar.map (c * ·) }, ?_⟩
  rw [C01_setState_accepts s₀ { x with sootVar := s.sootVar.map (c * ·) } (by dsimp only; rw [← hl]; exact hs) ht
    ⟨hx.T, hx.P, hx.rho, hx.mu, hx.cMin, fun i hi _ => hp _ (List.getElem_mem hi), hx.tar, hx.gas, hx.pahSize, hx.pah, hx.pahSum⟩]
  refine ⟨rfl, ?_⟩
  have : (s.sootVar.map (c * ·)).map (max · 0) = s.sootVar.map (c * ·) := by
    conv_rhs => rw [← List.map_id (s.sootVar.map (c * ·))]
    exact List.map_congr_left fun y hy => max_eq_left (hp y hy)
  subst h2
  change State.mk .. = State.mk ..
  rw [this]
  rfl

theorem numOf_more (x : Ctx) (s : State) (c : ℝ) : numOf x (moreSoot c s) = c * numOf x s := by
  unfold numOf moreSoot
  simp only [getD_map]
  split_ifs
  · rw [Finset.mul_sum]
  · rfl

theorem massOf_more (x : Ctx) (s : State) (c : ℝ) : massOf x (moreSoot c s) = c * massOf x s := by
  unfold massOf moreSoot
  simp only [getD_map]
  split_ifs
  · rw [Finset.mul_sum]; exact Finset.sum_congr rfl fun _ _ => by ring
  · rfl

theorem sized {x : Ctx} {s : State} (h : Sized x s) (c : ℝ) : Sized x (moreSoot c s) :=
  ⟨by simpa [moreSoot] using h.two, fun hx => by simpa [moreSoot] using h.sect hx, h.bins⟩

theorem ready {m : Model} {s : State} (h : Ready m s) {c : ℝ} (hc : 0 < c) : Ready m (moreSoot c s) := by
  refine ⟨h.wf, h.fm, ⟨accepted h.gas.acc hc, h.gas.len, h.gas.nonneg⟩, h.pah, sized h.sized c, fun hh hs => h.sing hh ?_, h.tar, h.mtar⟩
  obtain ⟨h1, h2, h3⟩ := hs
  rw [numOf_more] at h1
  rw [numOf_more, massOf_more] at h2
  exact ⟨(mul_pos_iff_of_pos_left hc).mp h1, mul_left_cancel₀ hc.ne' h2, h3⟩

theorem area {M0 M1 c : ℝ} (hc : 0 < c) (h1 : 0 ≤ M1) :
    areaMono M0 M1 = ok (if M0 > 0 then π * (6 / (π * rhoSoot) * M1 / M0) ^ twothird * M0 else 0) ∧
    areaMono (c * M0) (c * M1) = ok (c * if M0 > 0 then π * (6 / (π * rhoSoot) * M1 / M0) ^ twothird * M0 else 0) := by
  refine ⟨areaMono_ok h1, ?_⟩
  rw [areaMono_ok (by positivity)]
  by_cases h : M0 > 0
  · rw [if_pos h, if_pos (by positivity), show 6 / (π * rhoSoot) * (c * M1) / (c * M0) = 6 / (π * rhoSoot) * M1 / M0 by
      rw [show 6 / (π * rhoSoot) * (c * M1) / (c * M0) = (c * (6 / (π * rhoSoot) * M1)) / (c * M0) by ring, mul_div_mul_left _ _ hc.ne']]
    congr 1; ring
  · rw [if_neg h, if_neg (by intro h'; exact h ((mul_pos_iff_of_pos_left hc).mp h')), mul_zero]

theorem alpha (T M0 M1 : ℝ) {c : ℝ} (hc : 0 < c) : hacaAlpha T (c * M0) (c * M1) = hacaAlpha T M0 M1 := by
  unfold hacaAlpha
  have h : (c * M0 > 0) = (M0 > 0) := propext (mul_pos_iff_of_pos_left hc)
  simp only [mul_div_mul_left _ _ hc.ne', h]

/-- How the growth rate per area changes. -/
noncomputable def gf (m : GrowMech) (c : ℝ) : ℝ := if m = .LL then 1 / sqrt c else 1

theorem grow (g : Grow) {x : Ctx} {s t : State} (hx : Sized x s) (hy : Sized x t) (h : SameGas s t) {c : ℝ} (hc : 0 < c)
    (h0 : numOf x t = c * numOf x s) (h1 : massOf x t = c * massOf x s) (hm : 0 ≤ massOf x s) {k : ℝ} (hk : g.rate x s = ok k) :
    g.rate x t = ok (k * gf g.mech c) := by
  have a := moments01_ok hx; have b := moments01_ok hy
  have d := hacaMoments_ok hx; have e := hacaMoments_ok hy
  rw [h0, h1] at b e
  obtain ⟨ar1, ar2⟩ := area (M0 := numOf x s) hc hm
  revert ar1 ar2
  generalize (if numOf x s > 0 then π * (6 / (π * rhoSoot) * massOf x s / numOf x s) ^ twothird * numOf x s else 0) = A
  intro ar1 ar2
  have hA : c * A > 0 ↔ A > 0 := mul_pos_iff_of_pos_left hc
  obtain ⟨e1, e2, e3, e4, e5, rfl⟩ : ∃ a b c d e, t = { s with nsoot := a, sootVar := b, wts := c, absc := d, sootScales := e } := ⟨_, _, _, _, _, h⟩
  unfold Grow.rate at hk ⊢
  rcases hg : g.mech <;> simp only [hg] at hk ⊢
  case NONE => cases hk; simp
  case LIN => rw [gf, if_neg (by decide), mul_one]; exact hk
  case HACA =>
    rw [gf, if_neg (by decide), mul_one, ← hk, d, e, ok_bind, ok_bind]
    simp only [alpha _ _ _ hc]
    rfl
  case FAIR =>
    rw [gf, if_neg (by decide), mul_one, ← hk, a, b, ok_bind, ok_bind]
    simp only [ar1, ar2, ok_bind, hA]; rfl
  case MB =>
    rw [gf, if_neg (by decide), mul_one, ← hk, a, b, ok_bind, ok_bind]
    simp only [ar1, ar2, ok_bind, hA]; rfl
  case LL =>
    rw [a, ok_bind] at hk
    rw [b, ok_bind]
    simp only [ar1, ar2, ok_bind, hA] at hk ⊢
    by_cases h : A > 0
    · rw [if_pos h] at hk ⊢
      simp only [bind_eq_ok] at hk
      obtain ⟨u, hu, v, hv, hk⟩ := hk
      have hv' : State.gasC { s with nsoot := e1, sootVar := e2, wts := e3, absc := e4, sootScales := e5 } .C2H2 = ok v := hv
      rw [hu, ok_bind, hv', ok_bind]
      cases hk
      rw [gf, if_pos rfl, sqrt_mul hc.le]
      congr 1
      have : sqrt c ≠ 0 := (sqrt_pos.mpr hc).ne'
      have : sqrt A ≠ 0 := (sqrt_pos.mpr h).ne'
      field_simp
    · rw [if_neg h] at hk ⊢
      cases hk; simp

theorem oxid (g : Oxid) {x : Ctx} {s t : State} (hx : Sized x s) (hy : Sized x t) (h : SameGas s t) {c : ℝ} (hc : 0 < c)
    (h0 : numOf x t = c * numOf x s) (h1 : massOf x t = c * massOf x s) : g.rate x t = g.rate x s := by
  have a := moments01_ok hx; have b := moments01_ok hy
  rw [h0, h1] at b
  obtain ⟨e, f, u, v, z, rfl⟩ : ∃ a b c d e, t = { s with nsoot := a, sootVar := b, wts := c, absc := d, sootScales := e } := ⟨_, _, _, _, _, h⟩
  unfold Oxid.rate
  rw [a, b]
  rcases g.cls <;> simp only [ok_bind, alpha _ _ _ hc] <;> rfl

theorem rates {m : Model} (hp : m.nucl.mech ≠ .PAH) {ib ib' : State → ℝ → Res ℝ} {s t s' t' : State} (hg : SameGas s t) (h : Ready m s)
    (h' : Ready m t) {c : ℝ} (hc : 0 < c) (h0 : numOf m.ctx t = c * numOf m.ctx s) (h1 : massOf m.ctx t = c * massOf m.ctx s)
    {J J' kG kG' kO kO' : ℝ} {n n' : Nucl}
    (a1 : m.nucl.rate ib s = ok (J, n, s')) (a2 : m.grow.rate m.ctx s' = ok kG) (a3 : m.oxid.rate m.ctx s' = ok kO)
    (b1 : m.nucl.rate ib' t = ok (J', n', t')) (b2 : m.grow.rate m.ctx t' = ok kG') (b3 : m.oxid.rate m.ctx t' = ok kO') :
    J' = J ∧ n' = m.nucl ∧ t' = t ∧ kG' = kG * gf m.grow.mech c ∧ kO' = kO := by
  obtain ⟨rfl, rfl⟩ := (Nucl.rate_inv a1).2.1 hp
  obtain ⟨rfl, rfl⟩ := (Nucl.rate_inv b1).2.1 hp
  rw [Agree.nucl hp hg, a1, map'_ok, ok.injEq] at b1
  rw [grow m.grow h.sized h'.sized hg hc h0 h1 (massOf_nonneg h.gas.acc h.sized) a2, ok.injEq] at b2
  rw [oxid m.oxid h.sized h'.sized hg hc h0 h1, a3, ok.injEq] at b3
  exact ⟨(congrArg Prod.fst b1).symm, rfl, rfl, b2.symm, b3.symm⟩

/-- Nucleation other than by PAH asks the model for nothing. -/
theorem nucl_any {n : Nucl} (hp : n.mech ≠ .PAH) {ib : State → ℝ → Res ℝ} {s t s' : State} (hg : SameGas t s) {J : ℝ} {n' : Nucl}
    (h : n.rate ib t = ok (J, n', s')) (ib' : State → ℝ → Res ℝ) : n.rate ib' s = ok (J, n, s) := by
  obtain ⟨rfl, rfl⟩ := (Nucl.rate_inv h).2.1 hp
  rw [Agree.nucl hp hg, h, map'_ok]
  rw [SameGas] at hg
  rw [← hg]

theorem gas_lin {r : GasSp → ℝ} {x : ℝ} {g : GasSp → ℝ} (h : gasRates r x = ok g) (sp : GasSp) :
    g sp = x * (if sp = .C then 0 else r sp * gasMW sp / (r .C * gasMW .C)) := by
  unfold gasRates at h
  split_ifs at h
  cases h
  by_cases h : sp = .C
  · simp [h]
  · simp only [if_neg h]; ring

theorem mul_gf {c : ℝ} (hc : 0 < c) (m : GrowMech) : gf m c * c = if m = .LL then sqrt c else c := by
  unfold gf
  split_ifs
  · rw [one_div_mul_eq_div, div_sqrt]
  · ring

theorem core {m : Model} {nuc SG SO Q : ℕ → ℝ} {kG kO N1 A : ℝ} {run : ℝ → Sources → Prop}
    (hG : m.grow.mech = .NONE → kG = 0) (hO : m.oxid.mechType = .NONE → kO = 0) (hQ : m.coag.mech = .NONE → ∀ k, Q k = 0)
    (hM : massVec m Q = 0) (h0 : m.psd ≠ .SECT → SG 0 = 0 ∧ SO 0 = 0)
    (hr : ∀ c > 0, ∃ m' v w, run c m'.sources ∧
      m.finish m.nucl v w N1 (kG * gf m.grow.mech c * (c * A)) (-(kO * (c * A))) = ok m' ∧
      ∀ k < m.nsoot, m'.sources.soot.getD k 0 = nuc k + kG * gf m.grow.mech c * (c * SG k) + kO * (c * SO k) + c ^ 2 * Q k) :
    ScaleLaw m nuc run := by
  set γ : (GasSp → ℝ) → GasSp → ℝ := fun r sp => if sp = .C then 0 else r sp * gasMW sp / (r .C * gasMW .C)
  refine ⟨fun k => if m.grow.mech = .LL then kG * SG k else 0, fun k => (if m.grow.mech = .LL then 0 else kG * SG k) + kO * SO k, Q,
    fun sp => N1 * γ m.nucl.ratio sp, fun sp => if m.grow.mech = .LL then kG * A * γ m.grow.ratio sp else 0,
    fun sp => (if m.grow.mech = .LL then 0 else kG * A * γ m.grow.ratio sp) - kO * A * γ m.oxid.ratio sp,
    fun h => ⟨fun _ => if_neg h, fun _ => if_neg h⟩, fun h1 h2 => ?_, hQ, hM, fun hs => ?_, fun c hc => ?_⟩
  · simp [hG h1, hO h2]
  · simp [h0 hs]
  obtain ⟨m', v, w, h1, h2, h3⟩ := hr c hc
  have hm := mul_gf hc m.grow.mech
  refine ⟨_, h1, fun k hk => ?_, fun sp => ?_⟩
  · rw [h3 k hk, show kG * gf m.grow.mech c * (c * SG k) = (gf m.grow.mech c * c) * (kG * SG k) by ring, hm]
    split_ifs <;> ring
  · obtain ⟨gn, gg, go, e1, e2, e3, rfl⟩ := Model.finish_inv h2
    simp only [gas_lin e1, gas_lin e2, gas_lin e3]
    rw [show kG * gf m.grow.mech c * (c * A) = (gf m.grow.mech c * c) * (kG * A) by ring, hm]
    simp only [γ]
    split_ifs <;> ring

theorem none_grow {g : Grow} {x : Ctx} {s : State} {k : ℝ} (h : g.rate x s = ok k) (hg : g.mech = .NONE) : k = 0 := by
  simp only [Grow.rate, hg] at h; cases h; rfl

theorem none_oxid {m : Model} (hw : m.WF) {x : Ctx} {s : State} {k : ℝ} (h : m.oxid.rate x s = ok k) (hg : m.oxid.mechType = .NONE) : k = 0 := by
  have hc : m.oxid.cls = .NONE := by
    have := hw.oxid
    rw [this] at hg
    revert hg
    rcases m.oxid.cls <;> simp [Oxid.new, oxidMechType]
  simp only [Oxid.rate, hc] at h; cases h; rfl

theorem same (c : ℝ) (s : State) (w a : List ℝ) (w' a' : List ℝ) :
    SameGas { s with wts := w, absc := a } { moreSoot c s with wts := w', absc := a' } := rfl

theorem isArea {M0 M1 A A' c : ℝ} (hc : 0 < c) (h1 : 0 ≤ M1) (h0 : 0 ≤ M0) (h : IsArea M0 M1 A) (h' : IsArea (c * M0) (c * M1) A') : A' = c * A := by
  rcases h0.eq_or_lt with h0 | h0
  · rw [h.1 h0.symm, h'.1 (by rw [← h0, mul_zero]), mul_zero]
  · have hr := rhoSoot_pos
    have hd : 0 ≤ M1 / (M0 * rhoSoot * (π / 6)) := by positivity
    have e : M0 * rhoSoot * (π / 6) * ((M1 / (M0 * rhoSoot * (π / 6))) ^ (1 / 3 : ℝ)) ^ 3 = M1 := by
      rw [← rpow_natCast, ← rpow_mul hd]; norm_num; field_simp
    have hd' : 0 ≤ (M1 / (M0 * rhoSoot * (π / 6))) ^ (1 / 3 : ℝ) := by positivity
    revert e hd'
    generalize (M1 / (M0 * rhoSoot * (π / 6))) ^ (1 / 3 : ℝ) = d
    intro e hd'
    rw [h.2 h0 d hd' e, h'.2 (by positivity) d hd' (by rw [← e]; ring)]
    ring

end Scaling

open Scaling

/-- **C84 (MONO).** A MONO model without PAH nucleation, on a state with fresh quadrature (`hw`), follows the scaling law. -/
theorem C84_mono (m : Model) (s : State) (M0 M1 w a : ℝ) (h : MonoReady m s M0 M1 w a) (hn : m.nsoot = 2) (hp : m.nucl.mech ≠ .PAH)
    (hw : M0 = 0 → w = 0) :
    ∃ J, (∀ ib, m.nucl.rate ib s = ok (J, m.nucl, s)) ∧
      ScaleLaw m (fun k => J * (s.cMin * gasMW .C / Na) ^ k)
        (fun c S => ∃ m' s', monoSources m (moreSoot c s) = ok (m', s') ∧ m'.sources = S) := by
  have hM0 : 0 ≤ M0 := h.gas.acc.sootVar_nonneg M0 (by simp [h.soot])
  have hM1 : 0 ≤ M1 := h.gas.acc.sootVar_nonneg M1 (by simp [h.soot])
  obtain ⟨m1, s1, J, n1, kG, kO, A, a1, a2, a3, a4, a5, a6, a7, a8, a9, a10, a11, a12, a13⟩ := mono_eval h
  refine ⟨J, nucl_any hp (by exact rfl) a2, core (kG := kG) (kO := kO) (A := A) (N1 := J * s.cMin * gasMW .C / Na)
    (SG := fun k => if k = 1 then A else 0) (SO := fun k => if k = 1 then -A else 0)
    (Q := fun k => if k = 0 then -(m.coag.val s (monoA M0 M1 a) (monoA M0 M1 a) * monoW M0 w ^ 2 / 2) else 0)
    (none_grow a5) (none_oxid h.wf a6) (fun hc k => ?_) (by simp [massVec, h.psd]) (fun _ => by simp) fun c hc => ?_⟩
  · simp [Coag.val, hc]
  have h' : MonoReady m (moreSoot c s) (c * M0) (c * M1) w a :=
    ⟨ready h.toReady hc, h.psd, h.notar, h.len, by simp [moreSoot, h.soot], h.wts, h.absc⟩
  obtain ⟨m2, s2, J', n2, kG', kO', A', b1, b2, b3, b4, b5, b6, b7, b8, b9, b10, b11, b12, b13⟩ := mono_eval h'
  have hcm := h.gas.acc.phys.cMin
  have r1 : Ready m { s with wts := [monoW M0 w], absc := [monoA M0 M1 a] } := h.toReady.upd hcm _ _
  have r2 : Ready m { moreSoot c s with wts := [monoW (c * M0) w], absc := [monoA (c * M0) (c * M1) a] } := h'.toReady.upd hcm _ _
  obtain ⟨rfl, rfl, rfl, rfl, rfl⟩ := rates hp (same c s _ _ _ _) r1 r2 hc (numOf_more m.ctx s c) (massOf_more m.ctx s c) a2 a5 a6 b2 b5 b6
  have hA := isArea hc hM1 hM0 a7 b7
  subst hA
  have eW : monoW (c * M0) w = c * monoW M0 w := by
    unfold monoW
    by_cases h0 : M0 > 0
    · rw [if_pos h0, if_pos (by positivity)]
    · rw [if_neg h0, if_neg (by intro h'; exact h0 ((mul_pos_iff_of_pos_left hc).mp h')), hw (le_antisymm (not_lt.mp h0) hM0), mul_zero]
  have eA : monoA (c * M0) (c * M1) a = monoA M0 M1 a := by
    unfold monoA
    rw [mul_div_mul_left _ _ hc.ne']
    simp only [gt_iff_lt, mul_pos_iff_of_pos_left hc]
  refine ⟨m2, m2.sources.soot, m.sources.tar, ⟨_, _, b1, rfl⟩, by rw [neg_mul] at b12; exact b12, fun k hk => ?_⟩
  rw [b13, eW, eA, if_neg hp, hn] at *
  have hv : m.coag.val { moreSoot c s with wts := [c * monoW M0 w], absc := [monoA M0 M1 a] } = m.coag.val s := rfl
  interval_cases k
  · simp [hv]; ring
  · simp [moreSoot]; ring

namespace Scaling

theorem getD_range_map {n k : ℕ} (hk : k < n) (f : ℕ → ℝ) : ((List.range n).map f).getD k 0 = f k := by
  simp [List.getD, List.getElem?_map, List.getElem?_range hk]

theorem self (c : ℝ) (s : State) : SameGas s (moreSoot c s) := rfl

theorem lognMr_more {M0 M1 M2 c : ℝ} (hc : 0 < c) (h1 : 0 ≤ M1) (h2 : 0 ≤ M2) (r : ℝ) :
    lognMrVal r (c * M0) (c * M1) (c * M2) = c * lognMrVal r M0 M1 M2 := by
  have l : ∀ x, c * x ≤ 0 ↔ x ≤ 0 := fun x => by
    rw [← not_lt, ← not_lt, mul_pos_iff_of_pos_left hc]
  unfold lognMrVal
  simp only [l]
  split_ifs with h
  · rw [mul_zero]
  · push Not at h
    rw [mul_rpow hc.le h.1.le, mul_rpow hc.le h1, mul_rpow hc.le h2]
    have : c ^ (1 + 0.5 * r * (r - 3)) * c ^ (r * (2 - r)) * c ^ (0.5 * r * (r - 1)) = c := by
      rw [← rpow_add hc, ← rpow_add hc]
      conv_rhs => rw [← rpow_one c]
      congr 1; ring
    calc _ = (c ^ (1 + 0.5 * r * (r - 3)) * c ^ (r * (2 - r)) * c ^ (0.5 * r * (r - 1))) *
          (M0 ^ (1 + 0.5 * r * (r - 3)) * M1 ^ (r * (2 - r)) * M2 ^ (0.5 * r * (r - 1))) := by ring
      _ = _ := by rw [this]

theorem lognM_more {M0 M1 M2 c : ℝ} (hc : 0 < c) (h1 : 0 ≤ M1) (h2 : 0 ≤ M2) :
    lognM (c * M0) (c * M1) (c * M2) = fun r => c * lognM M0 M1 M2 r := by
  funext r
  unfold lognM
  rw [lognMr_more hc h1 h2]
  split_ifs <;> rfl

theorem hmean_more {c : ℝ} (hc : c ≠ 0) (x y : ℝ) : hmean (c * x) (c * y) = c * hmean x y := by
  unfold hmean
  rw [show c * x * (c * y) = c * (c * (x * y)) by ring, ← mul_add, mul_div_mul_left _ _ hc, mul_div_assoc]

theorem logn_coag {k : Coag} {s : State} {M : ℝ → ℝ} {c : ℝ} (hc : 0 < c) :
    lognCoagVal k s (fun r => c * M r) = (c ^ 2 * (lognCoagVal k s M).1, c ^ 2 * (lognCoagVal k s M).2) := by
  have e1 : lognCoa0Fm k s (fun r => c * M r) = c ^ 2 * lognCoa0Fm k s M := by unfold lognCoa0Fm; ring
  have e2 : lognCoa2Fm k s (fun r => c * M r) = c ^ 2 * lognCoa2Fm k s M := by unfold lognCoa2Fm; ring
  have e3 : lognCoa0C s (fun r => c * M r) = c ^ 2 * lognCoa0C s M := by unfold lognCoa0C; ring
  have e4 : lognCoa2C s (fun r => c * M r) = c ^ 2 * lognCoa2C s M := by unfold lognCoa2C; ring
  have e5 := hmean_more (c := c ^ 2) (by positivity) (lognCoa2Fm k s M) (lognCoa2C s M)
  unfold hmean at e5
  unfold lognCoagVal
  rcases k.mech <;> simp only [e1, e2, e3, e4, e5] <;> norm_num

end Scaling

/-- **C84 (LOGN).** A LOGN model without PAH nucleation follows the scaling law. -/
theorem C84_logn (m : Model) (s : State) (M0 M1 M2 : ℝ) (h : LognReady m s M0 M1 M2) (hp : m.nucl.mech ≠ .PAH) :
    ∃ J, (∀ ib, m.nucl.rate ib s = ok (J, m.nucl, s)) ∧
      ScaleLaw m (fun k => J * (s.cMin * gasMW .C / Na) ^ k)
        (fun c S => ∃ m' s', lognSources m (moreSoot c s) = ok (m', s') ∧ m'.sources = S) := by
  have hP : ∀ s M0 M1, LognPah m s M0 M1 := fun _ _ _ hx => absurd hx hp
  obtain ⟨m1, s1, J, n1, kG, kO, a1, a2, a3, a4, a5, a6, a7, a8, a9, a10, a11, a12, a13⟩ := logn_eval h (hP _ _ _)
  refine ⟨J, nucl_any hp (by exact rfl) a2, core (kG := kG) (kO := kO) (A := lognArea M0 M1 M2 (4 / 6)) (N1 := J * (s.cMin * gasMW .C / Na))
    (SG := fun k => if k = 1 then lognArea M0 M1 M2 (4 / 6) else if k = 2 then 2 * lognArea M0 M1 M2 (10 / 6) else 0)
    (SO := fun k => if k = 1 then -lognArea M0 M1 M2 (4 / 6) else if k = 2 then -(2 * lognArea M0 M1 M2 (10 / 6)) else 0)
    (Q := fun k => if k = 0 then (lognCoagVal m.coag s (lognM M0 M1 M2)).1 else if k = 2 then (lognCoagVal m.coag s (lognM M0 M1 M2)).2 else 0)
    (none_grow a5) (none_oxid h.wf a6) (fun hc k => ?_) (by simp [massVec, h.psd]) (fun _ => by simp) fun c hc => ?_⟩
  · simp [lognCoagVal, hc]
  have h' : LognReady m (moreSoot c s) (c * M0) (c * M1) (c * M2) :=
    ⟨ready h.toReady hc, h.psd, h.nsoot, h.notar, h.kernel, by simp [moreSoot, h.soot]⟩
  obtain ⟨m2, s2, J', n2, kG', kO', b1, b2, b3, b4, b5, b6, b7, b8, b9, b10, b11, b12, b13⟩ := logn_eval h' (hP _ _ _)
  obtain ⟨rfl, rfl, rfl, rfl, rfl⟩ := rates hp (self c s) h.toReady h'.toReady hc (numOf_more m.ctx s c) (massOf_more m.ctx s c) a2 a5 a6 b2 b5 b6
  have eA : ∀ r, lognArea (c * M0) (c * M1) (c * M2) r = c * lognArea M0 M1 M2 r := fun r => by
    unfold lognArea; rw [lognM_more hc h.m1 h.m2]; ring
  have hv : lognCoagVal m.coag (moreSoot c s) = lognCoagVal m.coag s := rfl
  rw [lognM_more hc h.m1 h.m2, hv, logn_coag hc] at b13
  simp only [eA, if_neg hp] at b12 b13
  refine ⟨m2, m2.sources.soot, m.sources.tar, ⟨_, _, b1, rfl⟩, b12, fun k hk => ?_⟩
  rw [b13]
  rw [h.nsoot] at hk
  interval_cases k
  · simp
  · simp [moreSoot]; ring
  · simp [moreSoot]; ring

namespace Scaling

theorem diff_more (M : List ℝ) {c : ℝ} (hc : 0 < c) : ∀ k j, (∀ i ≤ k, 0 < M.getD (j + i) 0) →
    (fwdDiff 1)^[k] (logM (M.map (c * ·))) j = (fwdDiff 1)^[k] (logM M) j + if k = 0 then logb 10 c else 0 := by
  intro k
  induction k with
  | zero =>
    intro j h
    have := h 0 le_rfl
    simp only [Function.iterate_zero, id, logM, getD_map, if_true]
    rw [logb_mul hc.ne' (by simpa using this.ne')]; ring
  | succ k ih =>
    intro j h
    rw [Function.iterate_succ_apply', Function.iterate_succ_apply', fwdDiff, fwdDiff, ih j fun i hi => h i (by omega),
      ih (j + 1) fun i hi => by have := h (i + 1) (by omega); rwa [show j + 1 + i = j + (i + 1) by ring]]
    simp

theorem mrVal_more (M : List ℝ) {N : ℕ} (hN : 3 ≤ N) {c : ℝ} (hc : 0 < c) (r : ℝ) : mrVal (M.map (c * ·)) N r = c * mrVal M N r := by
  unfold mrVal
  simp only [getD_map, mul_pos_iff_of_pos_left hc]
  split_ifs with h
  · have hu : 0 < used N r := by unfold used; split_ifs <;> omega
    have : newton (M.map (c * ·)) (used N r) r = logb 10 c + newton M (used N r) r := by
      unfold newton
      rw [Finset.sum_congr rfl fun k hk => by
        rw [diff_more M hc k 0 fun i hi => by rw [zero_add]; exact h i (by have := Finset.mem_range.mp hk; omega), mul_add]]
      rw [Finset.sum_add_distrib, add_comm]
      congr 1
      rw [Finset.sum_eq_single 0 (fun k _ hk => by rw [if_neg hk, mul_zero]) (fun hn => absurd (Finset.mem_range.mpr hu) hn)]
      simp [rchoose]
    rw [this, rpow_add (by norm_num), rpow_logb (by norm_num) (by norm_num) hc]
  · rw [mul_zero]

theorem bil_more (q : ℕ → ℝ) (c : ℝ) (x y : ℕ) (ts : List (ℝ × ℕ × ℕ)) : bilV (fun i => c * q i) x y ts = c ^ 2 * bilV q x y ts := by
  unfold bilV
  rw [← List.sum_map_mul_left]
  congr 1
  exact List.map_congr_left fun t _ => by ring

theorem grid_more {c : ℝ} (hc : 0 < c) (y : ℕ) {v : Fin 4 → ℝ} (hv : ∀ l, 0 ≤ v l) : gridV y (fun l => c * v l) = c * gridV y v := by
  have e : ∀ p l, (c * v l) ^ (p : ℝ) = c ^ p * v l ^ p := fun p l => mul_rpow hc.le (hv l)
  unfold gridV
  simp only [e]
  split_ifs
  · have : c ^ (5 / 16 : ℝ) * c ^ (15 / 16 : ℝ) * c ^ (-5 / 16 : ℝ) * c ^ (1 / 16 : ℝ) = c := by
      rw [← rpow_add hc, ← rpow_add hc, ← rpow_add hc]; norm_num
    conv_rhs => rw [← this]
    ring
  · have : c ^ (3 / 8 : ℝ) * c ^ (3 / 4 : ℝ) * c ^ (-1 / 8 : ℝ) = c := by
      rw [← rpow_add hc, ← rpow_add hc]; norm_num
    conv_rhs => rw [← this]
    ring
  · have : c ^ (1 / 2 : ℝ) * c ^ (1 / 2 : ℝ) = c := by
      rw [← rpow_add hc]; norm_num
    conv_rhs => rw [← this]
    ring

theorem fV_more {q : ℕ → ℝ} (hq : ∀ i, 0 ≤ q i) {c : ℝ} (hc : 0 < c) (x y : ℕ) : fV (fun i => c * q i) x y = c ^ 2 * fV q x y := by
  have : fPtV (fun i => c * q i) x y = fun l => c ^ 2 * fPtV q x y l := by
    funext l; exact bil_more q c _ _ _
  rw [fV, this, grid_more (by positivity) y (fPtV_nonneg hq x y), fV]

theorem pair_more (p : ℕ → ℝ) (K c : ℝ) (k q : ℕ) : pairV (fun i => c * p i) K k q = c ^ 2 * pairV p K k q := by
  unfold pairV; ring

theorem momic_coag (k : Coag) (s : State) (M : List ℝ) {N : ℕ} (hN : 3 ≤ N) {c : ℝ} (hc : 0 < c) (r : ℕ) :
    momicCoagV k s (M.map (c * ·)) N r = c ^ 2 * momicCoagV k s M N r := by
  have eq : qv (M.map (c * ·)) N = fun i => c * qv M N i := by funext i; exact mrVal_more M hN hc _
  have ep : pv (M.map (c * ·)) N = fun i => c * pv M N i := by funext i; exact mrVal_more M hN hc _
  have e1 : fmCoagV (k.kfmVal s) (fun i => c * qv M N i) r = c ^ 2 * fmCoagV (k.kfmVal s) (qv M N) r := by
    unfold fmCoagV
    simp only [fV_more (qv_nonneg M N) hc]
    split_ifs
    · ring
    · simp only [Finset.mul_sum]
      exact Finset.sum_congr rfl fun _ _ => by ring
  have e2 : cCoagV (kcVal s) (kcpVal s) (fun i => c * pv M N i) r = c ^ 2 * cCoagV (kcVal s) (kcpVal s) (pv M N) r := by
    unfold cCoagV
    simp only [pair_more]
    split_ifs <;> ring
  unfold momicCoagV
  rw [eq, ep, e1, e2, hmean_more (by positivity)]
  split_ifs
  · ring
  · rcases k.mech <;> simp

end Scaling

/-- **C84 (MOMIC).** A MOMIC model without PAH nucleation follows the scaling law wherever its evaluation is finite (`MomicFin`). -/
theorem C84_momic (m : Model) (s : State) (h : MomicReady m s) (hf : MomicFin m s) (hp : m.nucl.mech ≠ .PAH) :
    ∃ J, (∀ ib, m.nucl.rate ib s = ok (J, m.nucl, s)) ∧
      ScaleLaw m (fun k => J * (s.cMin * gasMW .C / Na) ^ k)
        (fun c S => ∃ m' s', momicSources m (moreSoot c s) = ok (m', s') ∧ m'.sources = S) := by
  obtain ⟨P, Q, m1, s1, J, n1, kG, kO, a0, a1, a2, a3, a4, a5, a6, a7, a8, a9, a10, a11, a12, a13, a14, a15⟩ := momic_eval h hf
  refine ⟨J, nucl_any hp (by exact rfl) a2, core (kG := kG) (kO := kO) (A := acoef * mrVal s.sootVar m.nsoot twothird)
    (N1 := J * (s.cMin * gasMW .C / Na))
    (SG := fun k => acoef * k * mrVal s.sootVar m.nsoot (k - onethird))
    (SO := fun k => -(acoef * k * mrVal s.sootVar m.nsoot (k - onethird)))
    (Q := fun k => if 0 < s.sootVar.getD 0 0 then momicCoagV m.coag s s.sootVar m.nsoot k else 0)
    (none_grow a5) (none_oxid h.wf a6) (fun hc k => ?_) (by simp [massVec, h.psd, momicCoagV]) (fun _ => by simp) fun c hc => ?_⟩
  · simp [momicCoagV, hc]
  have h' : MomicReady m (moreSoot c s) := ⟨ready h.toReady hc, h.psd, h.three, h.seven, h.notar, h.kernel, by simpa [moreSoot] using h.len⟩
  have hpos : AllPos s.sootVar → AllPos (moreSoot c s).sootVar := fun ha x hx => by
    obtain ⟨y, hy, rfl⟩ := List.mem_map.mp hx
    exact mul_pos hc (ha y hy)
  have h0 : ((moreSoot c s).sootVar.getD 0 0 > 0) = (s.sootVar.getD 0 0 > 0) := by
    rw [moreSoot, getD_map]; exact propext (mul_pos_iff_of_pos_left hc)
  have hf' : MomicFin m (moreSoot c s) := ⟨fun hx => absurd hx hp, fun hx hk => hpos (hf.coag (by rw [gt_iff_lt, gt_iff_lt] at h0; rwa [h0] at hx) hk)⟩
  obtain ⟨P', Q', m2, s2, J', n2, kG', kO', b0, b1, b2, b3, b4, b5, b6, b7, b8, b9, b10, b11, b12, b13, b14, b15⟩ := momic_eval h' hf'
  obtain ⟨rfl, rfl, rfl, rfl, rfl⟩ := rates hp (self c s) h.toReady h'.toReady hc (numOf_more m.ctx s c) (massOf_more m.ctx s c) a2 a5 a6 b2 b5 b6
  have eM : ∀ r, mrVal (moreSoot c s).sootVar m.nsoot r = c * mrVal s.sootVar m.nsoot r := mrVal_more _ h.three hc
  refine ⟨m2, m2.sources.soot, m.sources.tar, ⟨_, _, b1, rfl⟩, ?_, fun k hk => ?_⟩
  · rw [eM, mul_left_comm acoef c] at b14; exact b14
  · have hv : momicCoagV m.coag (moreSoot c s) (moreSoot c s).sootVar m.nsoot k = c ^ 2 * momicCoagV m.coag s s.sootVar m.nsoot k :=
      momic_coag m.coag s s.sootVar h.three hc k
    rw [b15, getD_range_map hk, momicSoot, if_neg hp, eM, hv]
    rw [gt_iff_lt, gt_iff_lt] at h0
    simp only [h0]
    split_ifs
    · simp only [moreSoot]; ring
    · simp only [moreSoot]; ring

namespace Scaling

/-- One pass of the recursion with the new row given. -/
noncomputable def whOut (i : ℕ) (t : WhSt) (sn : ℕ → ℝ) : Option WhSt :=
  if t.sc (i - 1) = 0 ∨ sn i = 0 then none else
    some ⟨t.sc, sn, Function.update t.a i (-t.sc i / t.sc (i - 1) + sn (i + 1) / sn i), Function.update t.b i (sn i / t.sc (i - 1))⟩

theorem whOut_more {c : ℝ} (hc : 0 < c) (i : ℕ) (t : WhSt) (sn : ℕ → ℝ) :
    whOut i ⟨fun j => c * t.sp j, fun j => c * t.sc j, t.a, t.b⟩ (fun j => c * sn j) =
      (whOut i t sn).map fun t => ⟨fun j => c * t.sp j, fun j => c * t.sc j, t.a, t.b⟩ := by
  have hz : ∀ x, c * x = 0 ↔ x = 0 := fun x => by simp [hc.ne']
  have hd : ∀ x y : ℝ, c * x / (c * y) = x / y := fun x y => mul_div_mul_left _ _ hc.ne'
  have hd' : ∀ x y : ℝ, -(c * x) / (c * y) = -x / y := fun x y => by rw [neg_div, hd, neg_div]
  unfold whOut
  simp only [hz, hd, hd']
  split_ifs <;> rfl

/-- The recursion of the moment inversion is linear in the moments, its coefficients do not notice the scale. -/
theorem whRun_more (M : List ℝ) (N : ℕ) {c : ℝ} (hc : 0 < c) (n : ℕ) :
    whRun (M.map (c * ·)) N n = (whRun M N n).map fun t => ⟨fun j => c * t.sp j, fun j => c * t.sc j, t.a, t.b⟩ := by
  induction n with
  | zero =>
    simp only [whRun, getD_map, Option.map_some, mul_zero, mul_div_mul_left _ _ hc.ne']
    congr 2
    funext j
    split_ifs <;> simp
  | succ n ih =>
    rw [whRun, whRun, ih]
    rcases whRun M N n with _ | t
    · rfl
    · have e : (fun j => if n + 1 ≤ j ∧ j < 2 * N - (n + 1) then c * t.sc (j + 1) - t.a (n + 1 - 1) * (c * t.sc j) - t.b (n + 1 - 1) * (c * t.sp j) else 0) =
          fun j => c * if n + 1 ≤ j ∧ j < 2 * N - (n + 1) then t.sc (j + 1) - t.a (n + 1 - 1) * t.sc j - t.b (n + 1 - 1) * t.sp j else 0 := by
        funext j; split_ifs <;> ring
      rw [Option.map_some, Option.bind_some, Option.bind_some]
      have := whOut_more hc (n + 1) t fun j => if n + 1 ≤ j ∧ j < 2 * N - (n + 1) then t.sc (j + 1) - t.a (n + 1 - 1) * t.sc j - t.b (n + 1 - 1) * t.sp j else 0
      rw [← e] at this
      exact this

theorem wheeler_more {eig : Eig} {M : List ℝ} {c : ℝ} (hc : 0 < c) (hE : ∀ N p, eig N (M.map (c * ·)) p = eig N M p) (N : ℕ) :
    wheeler eig (M.map (c * ·)) N = (fun i => ((wheeler eig M N).1 i).map (c * ·), (wheeler eig M N).2) := by
  have e : jacobi (M.map (c * ·)) N = jacobi M N := by
    rw [jacobi, whRun_more M N hc, jacobi, Option.map_map]; rfl
  simp only [wheeler, e, hE, getD_map, Option.map_map]
  congr 1
  funext i
  congr 1
  funext z
  simp only [Function.comp]; ring

theorem opt_good {c : ℝ} (hc : 0 < c) (o : Option ℝ) : (∃ x, o.map (c * ·) = some x ∧ 0 ≤ x) ↔ ∃ x, o = some x ∧ 0 ≤ x := by
  rcases o with _ | x
  · simp
  · simp [mul_nonneg_iff_of_pos_left hc]

theorem opt_getD (c : ℝ) (o : Option ℝ) : (o.map (c * ·)).getD 0 = c * o.getD 0 := by
  rcases o with _ | x <;> simp

theorem down_more {eig : Eig} {M : List ℝ} {c : ℝ} (hc : 0 < c) (hE : ∀ N p, eig N (M.map (c * ·)) p = eig N M p) (N : ℕ) :
    downselect eig (M.map (c * ·)) N = ((downselect eig M N).1, fun i => c * (downselect eig M N).2.1 i, (downselect eig M N).2.2) := by
  match N with
  | 0 => simp [downselect]
  | 1 => simp only [downselect, getD_map, mul_div_mul_left _ _ hc.ne']
  | n + 2 =>
    have hg : goodVals (n + 2) (fun i => ((wheeler eig M (n + 2)).1 i).map (c * ·)) = goodVals (n + 2) (wheeler eig M (n + 2)).1 := by
      unfold goodVals
      exact propext (forall₂_congr fun i _ => opt_good hc _)
    rw [downselect, downselect, wheeler_more hc hE, hg, down_more hc hE (n + 1)]
    split_ifs
    · congr 2
      funext i
      exact opt_getD c _
    · rfl

theorem padded_more {c : ℝ} (hc : 0 < c) (L N : ℕ) (v : ℕ → ℝ) : padded L N (fun i => c * v i) = (padded L N v).map (c * ·) := by
  unfold padded
  rw [List.map_map]
  refine List.map_congr_left fun i _ => ?_
  simp only [Function.comp, mul_nonneg_iff_of_pos_left hc]
  split_ifs <;> simp

theorem nodes_more {eig : Eig} {M : List ℝ} {c : ℝ} (hc : 0 < c) (hE : ∀ N p, eig N (M.map (c * ·)) p = eig N M p) {w a w' a' : List ℝ}
    (h : getWtsAbs eig M w a = ok (w', a')) : getWtsAbs eig (M.map (c * ·)) w a = ok (w'.map (c * ·), a') := by
  unfold getWtsAbs at h ⊢
  rw [bind_eq_ok] at h
  obtain ⟨M0, h0, h⟩ := h
  have hl : 0 < M.length := by
    rcases M with _ | ⟨x, l⟩
    · simp [idx] at h0
    · simp
  have h0' : idx (M.map (c * ·)) 0 = ok (c * M0) := by
    rw [idx_getD hl, ok.injEq] at h0
    rw [idx_getD (by simpa using hl), getD_map, h0]
  rw [h0', ok_bind]
  have hz : c * M0 ≤ 0 ↔ M0 ≤ 0 := by rw [← not_lt, ← not_lt, mul_pos_iff_of_pos_left hc]
  simp only [hz, List.length_map, down_more hc hE, padded_more hc] at h ⊢
  by_cases i1 : M0 ≤ 0
  · rw [if_pos i1] at h ⊢
    cases h; simp
  · rw [if_neg i1] at h ⊢
    by_cases i2 : M.length / 2 = 0
    · rw [if_pos i2] at h; cases h
    · rw [if_neg i2] at h ⊢
      by_cases i3 : (downselect eig M (M.length / 2)).1 ≤ w.length ∧ (downselect eig M (M.length / 2)).1 ≤ a.length
      · rw [if_pos i3] at h ⊢
        cases h; rfl
      · rw [if_neg i3] at h; cases h

theorem node_more {c : ℝ} (hc : 0 < c) (w a : List ℝ) (r : ℝ) : nodeMr (w.map (c * ·)) a r = c * nodeMr w a r := by
  have hz : ∀ x, c * x ≤ 0 ↔ x ≤ 0 := fun x => by rw [← not_lt, ← not_lt, mul_pos_iff_of_pos_left hc]
  unfold nodeMr
  simp only [List.length_map, getD_map, hz]
  split_ifs
  · rw [mul_zero]
  · rw [Finset.mul_sum]; exact Finset.sum_congr rfl fun _ _ => by ring

theorem coll_more (c : ℝ) (K : ℝ → ℝ → ℝ) (w a : List ℝ) (r : ℕ) : collisionSum K (w.map (c * ·)) a r = c ^ 2 * collisionSum K w a r := by
  unfold collisionSum
  simp only [getD_map, Finset.mul_sum]
  exact Finset.sum_congr rfl fun _ _ => Finset.sum_congr rfl fun _ _ => by ring

end Scaling

/-- **C84 (QMOM).** A QMOM model without PAH nucleation follows the scaling law.  The eigenvalue routine sees only the matrix, which does not change with the amount of soot: `hE`. -/
theorem C84_qmom (eig : Eig) (m : Model) (s : State) (h : QmomReady m s) (hp : m.nucl.mech ≠ .PAH)
    (hE : ∀ N p c, 0 < c → eig N (s.sootVar.map (c * ·)) p = eig N s.sootVar p) :
    ∃ J, (∀ ib, m.nucl.rate ib s = ok (J, m.nucl, s)) ∧
      ScaleLaw m (fun k => J * (s.cMin * gasMW .C / Na) ^ k)
        (fun c S => ∃ m' s', qmomSources eig m (moreSoot c s) = ok (m', s') ∧ m'.sources = S) := by
  obtain ⟨w, a, m1, s1, J, n1, kG, kO, a0, aw, aa, aw0, aa0, a1, a2, a3, a4, a5, a6, a7, a8, a9, a10, a11, a12, a13, a14, a15⟩ := qmom_eval eig h
  refine ⟨J, nucl_any hp (by exact rfl) a2, core (kG := kG) (kO := kO) (A := acoef * nodeMr w a twothird)
    (N1 := J * (s.cMin * gasMW .C / Na))
    (SG := fun k => acoef * k * nodeMr w a (k - onethird))
    (SO := fun k => -(acoef * k * nodeMr w a (k - onethird)))
    (Q := fun k => collisionSum (m.coag.val s) w a k)
    (none_grow a5) (none_oxid h.wf a6) (fun hc k => ?_) (by simp [massVec, h.psd, collisionSum_one]) (fun _ => by simp) fun c hc => ?_⟩
  · have : m.coag.val s = fun _ _ => 0 := by funext x y; simp [Coag.val, hc]
    simp [collisionSum, this]
  have h' : QmomReady m (moreSoot c s) :=
    ⟨ready h.toReady hc, h.psd, h.even, h.two, h.notar, by simpa [moreSoot] using h.len, h.wlen, h.alen, h.table⟩
  obtain ⟨w', a', m2, s2, J', n2, kG', kO', b0, bw, ba, bw0, ba0, b1, b2, b3, b4, b5, b6, b7, b8, b9, b10, b11, b12, b13, b14, b15⟩ := qmom_eval eig h'
  have hE' : ∀ N p, eig N (s.sootVar.map (c * ·)) p = eig N s.sootVar p := fun N p => hE N p c hc
  have hnod : getWtsAbs eig (moreSoot c s).sootVar (moreSoot c s).wts (moreSoot c s).absc = ok (w.map (c * ·), a) := nodes_more hc hE' a0
  obtain ⟨rfl, rfl⟩ : w.map (c * ·) = w' ∧ a = a' := by have := hnod.symm.trans b0; simpa using this
  have hcm := h.gas.acc.phys.cMin
  have r1 : Ready m { s with wts := w, absc := a } := h.toReady.upd hcm _ _
  have r2 : Ready m { moreSoot c s with wts := w.map (c * ·), absc := a } := h'.toReady.upd hcm _ _
  obtain ⟨rfl, rfl, rfl, rfl, rfl⟩ := rates hp (same c s _ _ _ _) r1 r2 hc (numOf_more m.ctx s c) (massOf_more m.ctx s c) a2 a5 a6 b2 b5 b6
  refine ⟨m2, m2.sources.soot, m.sources.tar, ⟨_, _, b1, rfl⟩, ?_, fun k hk => ?_⟩
  · rw [node_more hc, mul_left_comm acoef c] at b14; exact b14
  · have hv : m.coag.val (moreSoot c s) = m.coag.val s := rfl
    rw [b15, getD_range_map hk, qmomSoot, if_neg hp, node_more hc, coll_more, hv]
    simp only [moreSoot]; ring

namespace Scaling

theorem up_mul (n : ℕ) (bins : List ℝ) (f : ℕ → ℝ) (x : ℝ) (k : ℕ) : upVal n bins (fun k => x * f k) k = x * upVal n bins f k := by
  unfold upVal fIn fUp
  split_ifs <;> ring

theorem down_mul (n : ℕ) (bins : List ℝ) (f : ℕ → ℝ) (x : ℝ) (k : ℕ) : downVal n bins (fun k => x * f k) k = x * downVal n bins f k := by
  unfold downVal fDown
  split_ifs <;> ring

theorem doc_more (n : ℕ) (b N : ℕ → ℝ) (β : ℝ → ℝ → ℝ) (c : ℝ) (k : ℕ) :
    SectDoc.coag n b β (fun k => c * N k) k = c ^ 2 * SectDoc.coag n b β N k := by
  unfold SectDoc.coag
  rw [mul_sub]
  congr 1
  · simp only [Finset.mul_sum]
    exact Finset.sum_congr rfl fun _ _ => Finset.sum_congr rfl fun _ _ => by ring
  · simp only [Finset.mul_sum]
    exact Finset.sum_congr rfl fun _ _ => by ring

end Scaling

/-- **C84 (SECT).** A sectional model without PAH nucleation follows the scaling law.  Nuclei enter the first bin by mass. -/
theorem C84_sect (m : Model) (s : State) (glob : Option ℝ) (h : SectReady m s) (hg : GeoBins m) (hgl : OwnFactor m glob) (hp : m.nucl.mech ≠ .PAH) :
    ∃ J, (∀ ib, m.nucl.rate ib s = ok (J, m.nucl, s)) ∧
      ScaleLaw m (fun k => if k = 0 then J * (s.cMin * gasMW .C / Na) / m.mBins.getD 0 0 else 0)
        (fun c S => ∃ m' s' glob', sectSources m glob (moreSoot c s) = ok (m', s', glob') ∧ m'.sources = S) := by
  obtain ⟨m1, s1, g1, J, n1, kG, kO, C1, a1, a2, a3, a4, a5, a6, a7, a8, a9, a10, a11, a12, a13⟩ := sect_eval h (hgl.globOk h.bins hg)
  refine ⟨J, nucl_any hp (by exact rfl) a2, core (kG := kG) (kO := kO) (A := ∑ k ∈ Finset.range m.nsoot, binArea m s k)
    (N1 := J * (s.cMin * gasMW .C / Na))
    (SG := fun k => upVal m.nsoot m.mBins (binArea m s) k)
    (SO := fun k => downVal m.nsoot m.mBins (binArea m s) k)
    (Q := fun k => SectDoc.coag m.nsoot (fun k => m.mBins.getD k 0) (m.coag.val s) (fun k => s.sootVar.getD k 0) k)
    (none_grow a5) (none_oxid h.wf a6) (fun hc k => ?_) ?_ (fun hx => absurd h.psd hx) fun c hc => ?_⟩
  · have : m.coag.val s = fun _ _ => 0 := by funext x y; simp [Coag.val, hc]
    simp [SectDoc.coag, this]
  · obtain ⟨C, gl, c1, c2, c3⟩ := sectCoag_doc h hg hgl
    obtain ⟨C', gl', d1, d2⟩ := sectCoag_ok h (hgl.globOk h.bins hg)
    obtain ⟨rfl, rfl⟩ : C = C' ∧ gl = gl' := by have := c1.symm.trans d1; simpa using this
    rw [massVec, if_pos h.psd]
    refine Eq.trans ?_ d2.1
    exact Finset.sum_congr rfl fun k hk => by rw [c3 k (Finset.mem_range.mp hk)]
  have h' : SectReady m (moreSoot c s) := ⟨ready h.toReady hc, h.psd, h.bins⟩
  obtain ⟨m2, s2, g2, J', n2, kG', kO', C2, b1, b2, b3, b4, b5, b6, b7, b8, b9, b10, b11, b12, b13⟩ := sect_eval h' (hgl.globOk h.bins hg)
  obtain ⟨rfl, rfl, rfl, rfl, rfl⟩ := rates hp (self c s) h.toReady h'.toReady hc (numOf_more m.ctx s c) (massOf_more m.ctx s c) a2 a5 a6 b2 b5 b6
  obtain ⟨C, gl, c1, c2, c3⟩ := sectCoag_doc h' hg hgl
  obtain ⟨rfl, rfl⟩ : C = C2 ∧ gl = g2 := by have := c1.symm.trans b7; simpa using this
  have eA : binArea m (moreSoot c s) = fun k => c * binArea m s k := by
    funext k
    unfold binArea moreSoot
    simp only [getD_map]
    split_ifs <;> ring
  have hv : m.coag.val (moreSoot c s) = m.coag.val s := rfl
  refine ⟨m2, m2.sources.soot, m.sources.tar, ⟨_, _, _, b1, rfl⟩, ?_, fun k hk => ?_⟩
  · simp only [eA, ← Finset.mul_sum] at b12; exact b12
  · rw [b13, getD_range_map hk, if_neg hp, eA, c3 k hk, hv]
    have e1 : (fun k => (moreSoot c s).sootVar.getD k 0) = fun k => c * s.sootVar.getD k 0 := by funext k; exact getD_map c _ k
    rw [e1, doc_more, up_mul, up_mul, down_mul, down_mul]
    simp only [moreSoot]; ring

/-- MONO with LL growth, OPTJ oxidation and free-molecular coagulation. -/
example : ∃ J, ScaleLaw (exModel .MONO 2 .LL .LL .OPTJ .FM) (fun k => J * ((exSt [1E15, 1E-6] false).cMin * gasMW .C / Na) ^ k)
    (fun c S => ∃ m' s', monoSources (exModel .MONO 2 .LL .LL .OPTJ .FM) (moreSoot c (exSt [1E15, 1E-6] false)) = ok (m', s') ∧ m'.sources = S) := by
  obtain ⟨J, _, h⟩ := C84_mono _ _ 1E15 1E-6 0 0 (exMonoReady2 .LL (by simp) (by simp) .LL .OPTJ .FM (by norm_num) (by norm_num) false) rfl
    (by simp [exModel, Nucl.new]) (fun _ => rfl)
  exact ⟨J, h⟩

/-- LOGN with HACA growth and continuum coagulation. -/
example : ∃ J, ScaleLaw (exModel .LOGN 3 .LL .HACA .NSC_NEOH .CONTINUUM) (fun k => J * ((exSt [1E15, 1E-6, 2E-27] false).cMin * gasMW .C / Na) ^ k)
    (fun c S => ∃ m' s', lognSources (exModel .LOGN 3 .LL .HACA .NSC_NEOH .CONTINUUM) (moreSoot c (exSt [1E15, 1E-6, 2E-27] false)) = ok (m', s') ∧
      m'.sources = S) := by
  obtain ⟨J, _, h⟩ := C84_logn _ _ _ _ _ (exLognReady .LL (by simp) (by simp) .HACA .NSC_NEOH .CONTINUUM (by simp) (M0 := 1E15) (M1 := 1E-6) (M2 := 2E-27)
    (by norm_num) (by norm_num) (by norm_num) false) (by simp [exModel, Nucl.new])
  exact ⟨J, h⟩

/-- MOMIC with four moments, LIN growth and harmonic-mean coagulation. -/
example : ∃ J, ScaleLaw (exModel .MOMIC 4 .LL .LIN .LL .HM) (fun k => J * ((exSt [1E15, 1E-6, 2E-27, 8E-48] false).cMin * gasMW .C / Na) ^ k)
    (fun c S => ∃ m' s', momicSources (exModel .MOMIC 4 .LL .LIN .LL .HM) (moreSoot c (exSt [1E15, 1E-6, 2E-27, 8E-48] false)) = ok (m', s') ∧
      m'.sources = S) := by
  obtain ⟨J, _, h⟩ := C84_momic _ _ (exMomicReady 4 .LL (by simp) (by simp) .LIN .LL .HM [1E15, 1E-6, 2E-27, 8E-48] false (by norm_num) (by norm_num) rfl
    (by norm_num) (by simp)) ⟨fun hx => by simp [exModel, Nucl.new] at hx, fun _ _ => by
      rw [exSt_sootVar _ (by norm_num)]; norm_num [AllPos]⟩ (by simp [exModel, Nucl.new])
  exact ⟨J, h⟩

/-- QMOM with four moments, FAIR growth and Fuchs coagulation; any routine that looks at the matrix alone. -/
example (f : ℕ → Option ((ℕ → ℝ) × (ℕ → ℝ)) → EigOut) :
    ∃ J, ScaleLaw (exModel .QMOM (2 * 2) .LL .FAIR .LL .FUCHS) (fun k => J * ((exSt [1E15, 1E-6, 2E-27, 8E-48] false).cMin * gasMW .C / Na) ^ k)
    (fun c S => ∃ m' s', qmomSources (fun N _ p => f N p) (exModel .QMOM (2 * 2) .LL .FAIR .LL .FUCHS)
      (moreSoot c (exSt [1E15, 1E-6, 2E-27, 8E-48] false)) = ok (m', s') ∧ m'.sources = S) := by
  obtain ⟨J, _, h⟩ := C84_qmom (fun N _ p => f N p) _ _ (exQmomReady 2 .LL (by simp) (by simp) .FAIR .LL .FUCHS [1E15, 1E-6, 2E-27, 8E-48] false
    (by norm_num) rfl (by norm_num) (by norm_num)) (by simp [exModel, Nucl.new]) (fun _ _ _ _ => rfl)
  exact ⟨J, h⟩

/-- SECT with four bins and LL growth. -/
example : ∃ J, ScaleLaw (exModel .SECT 4 .LL .LL .LL .FUCHS)
    (fun k => if k = 0 then J * ((exSt [1E15, 1E14, 1E13, 0] false).cMin * gasMW .C / Na) / (exModel .SECT 4 .LL .LL .LL .FUCHS).mBins.getD 0 0 else 0)
    (fun c S => ∃ m' s' glob', sectSources (exModel .SECT 4 .LL .LL .LL .FUCHS) none (moreSoot c (exSt [1E15, 1E14, 1E13, 0] false)) = ok (m', s', glob') ∧
      m'.sources = S) := by
  obtain ⟨J, _, h⟩ := C84_sect _ _ none (exSectReady 4 .LL (by simp) (by simp) .LL .LL .FUCHS [1E15, 1E14, 1E13, 0] false rfl (by norm_num) (by norm_num))
    (exGeoBins 4 .LL .LL .LL .FUCHS (by norm_num)) (Or.inl rfl) (by simp [exModel, Nucl.new])
  exact ⟨J, h⟩

end Soot
