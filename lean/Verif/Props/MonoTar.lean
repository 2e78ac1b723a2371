import Verif.Props.Mono

/-!
# MONO with a tar model (C61 BROWN, C62 AJ_RED)
-/

namespace Soot

open Res Real
open scoped Classical

/-- A MONO model with tar as produced by its constructors and a state it can be evaluated on. -/
structure TarReady (m : Model) (s : State) (M0 M1 w a : ℝ) : Prop extends Ready m s where
  psd : m.psd = .MONO
  len : m.sources.soot.length = 2
  tlen : 0 < m.sources.tar.length
  soot : s.sootVar = [M0, M1]
  wts : s.wts = [w]
  absc : s.absc = [a]
  tarVar : 0 < s.tarVar.length

/-! ## Tar rates (specification) -/

/-- Tar oxidation of the BROWN model: second order in tar and oxygen. -/
noncomputable def brownOx (s : State) : ℝ := 6.77E5 * exp (-5.23E7 / (Rg * s.T)) * s.tarVar.getD 0 0 * (cVal s .O2 * gasMW .O2)
/-- Tar gasification of the BROWN model: first order in tar. -/
noncomputable def brownGas (s : State) : ℝ := 9.77E10 * exp (-2.869E8 / (Rg * s.T)) * s.tarVar.getD 0 0
/-- Particle aggregation rate hard-coded in the BROWN branch. -/
noncomputable def brownAgg (T M0 M1 : ℝ) : ℝ :=
  6 * (6 * gasMW .C / (π * rhoSoot)) ^ ((1 : ℝ) / 6) * sqrt (6 * kb * T / rhoSoot) * (M1 / gasMW .C) ^ ((1 : ℝ) / 6) *
    M0 ^ ((11 : ℝ) / 6)

theorem brownAgg_pos {T M0 M1 : ℝ} (hT : 0 < T) (h0 : 0 < M0) (h1 : 0 < M1) : 0 < brownAgg T M0 M1 := by
  have := gasMW_pos .C; have := rhoSoot_pos; have := kb_pos
  unfold brownAgg; positivity

theorem brownCracking_ok {s : State} (h : GasOk s) (ht : 0 < s.tarVar.length) : brownCracking s = ok (brownOx s) := by
  have hR : Rg * s.T ≠ 0 := by have := Rg_pos; have := h.acc.phys.T; positivity
  rw [brownCracking, h.gasC, ok_bind, idx_getD ht, ok_bind, cexpDiv_ok hR, ok_bind, brownOx]
  congr 1; ring

theorem brownSurface_ok {s : State} (h : GasOk s) (ht : 0 < s.tarVar.length) : brownSurface s = ok (brownGas s) := by
  have hR : Rg * s.T ≠ 0 := by have := Rg_pos; have := h.acc.phys.T; positivity
  rw [brownSurface, idx_getD ht, ok_bind, cexpDiv_ok hR, ok_bind, brownGas]
  congr 1; ring

theorem tar_nonneg {s : State} (h : Accepted s) : 0 ≤ s.tarVar.getD 0 0 := by
  obtain ⟨s₀, x, h1, rfl⟩ := h
  obtain ⟨hs, ht⟩ := setState_ok_range h1
  have hx := (C01_setState_iff s₀ x hs ht).mp h1
  rw [C01_setState_accepts s₀ x hs ht hx]
  refine getD_nonneg ?_ _
  intro y hy
  simp only [stateAfter, List.mem_map] at hy
  obtain ⟨z, _, rfl⟩ := hy
  exact le_max_right _ _

theorem soot_pair {m : Model} (h : m.sources.soot.length = 2) (x y : ℝ) {k : List ℝ → Res (Model × State)} :
    (do let v ← setIdx m.sources.soot 0 x; let v ← setIdx v 1 y; k v) = k [x, y] := by
  match hx : m.sources.soot, h with
  | [p, q], _ => simp [setIdx]

/-! ## C61: BROWN -/

/-- **C61, evaluation.** A ready MONO model with BROWN tar completes; its sources are as stated: the number source uses the
hard-coded aggregation rate, the soot mass source has nucleation and oxidation only, nucleation is taken from the tar as well as from the
gas. -/
theorem C61_brown_equations (m : Model) (s : State) (M0 M1 w a : ℝ) (h : TarReady m s M0 M1 w a) (hb : m.tar = .BROWN) :
    ∃ m' s' J n' kG kO A,
      monoSources m s = ok (m', s') ∧
      m.nucl.rate (ibetaNodes m.coag) { s with wts := [monoW M0 w], absc := [monoA M0 M1 a] } = ok (J, n', s') ∧
      s' = { s with wts := [monoW M0 w], absc := [monoA M0 M1 a], cMin := s'.cMin } ∧ 0 < s'.cMin ∧
      m.grow.rate m.ctx s' = ok kG ∧ m.oxid.rate m.ctx s' = ok kO ∧ IsArea M0 M1 A ∧ 0 ≤ A ∧ 0 ≤ J ∧ 0 ≤ kG ∧ 0 ≤ kO ∧
      m.finish n' m'.sources.soot m'.sources.tar (J * (s'.cMin * gasMW .C / Na)) (kG * A) (-(kO * A)) = ok m' ∧
      m'.sources.soot = [J - brownAgg s.T M0 M1, J * (s'.cMin * gasMW .C / Na) - kO * A] ∧
      m'.sources.tar = m.sources.tar.set 0 (-(J * (s'.cMin * gasMW .C / Na)) - brownGas s - brownOx s) := by
  obtain ⟨s', J, n', kG, kO, A, hnodes, hJ, hs', hc', hG, hO, hA, hA0, hJ0, hG0, hO0, hg, hterms⟩ :=
    mono_terms h.toReady h.soot h.wts h.absc
  have hM1 : 0 ≤ M1 := h.gas.acc.sootVar_nonneg M1 (by simp [h.soot])
  have hM0 : 0 ≤ M0 := h.gas.acc.sootVar_nonneg M0 (by simp [h.soot])
  have hT := h.gas.acc.phys.T
  have hMW := gasMW_pos .C; have hrho := rhoSoot_pos; have hkb := kb_pos
  have hg' : GasOk s' := by rw [hs']; exact h.gas.upd hc' _ _
  have ht' : s'.tarVar = s.tarVar := by rw [hs']
  have hT' : s'.T = s.T := by rw [hs']
  have e1 := brownCracking_ok hg' (by rw [ht']; exact h.tarVar)
  have e2 := brownSurface_ok hg' (by rw [ht']; exact h.tarVar)
  have o1 : brownOx s' = brownOx s := by rw [hs']; rfl
  have o2 : brownGas s' = brownGas s := by rw [hs']; rfl
  have e3 : csqrt (6 * kb * s'.T / rhoSoot) = ok (sqrt (6 * kb * s.T / rhoSoot)) := by
    rw [hT', csqrt_ok (by positivity)]
  have e4 : cpow (M1 / gasMW .C) (1 / 6) = ok ((M1 / gasMW .C) ^ ((1 : ℝ) / 6)) := cpow_ok' (by positivity) (by norm_num)
  have e5 : cpow M0 (11 / 6) = ok (M0 ^ ((11 : ℝ) / 6)) := cpow_ok' hM0 (by norm_num)
  obtain ⟨x0, hx0⟩ : ∃ x, idx s.tarVar 0 = ok x := ⟨_, idx_getD h.tarVar⟩
  obtain ⟨m', hf⟩ := Model.finish_ok (n := n') [J - brownAgg s.T M0 M1, J * s'.cMin * gasMW .C / Na + -kO * A]
    (m.sources.tar.set 0 (-(J * s'.cMin * gasMW .C / Na) - brownGas s - brownOx s))
    (J * s'.cMin * gasMW .C / Na) (kG * A) (-kO * A) h.wf (hg _)
  obtain ⟨_, hsoot, htar⟩ := Model.finish_gasC hf
  have r1 : J * s'.cMin * gasMW .C / Na = J * (s'.cMin * gasMW .C / Na) := by ring
  refine ⟨m', s', J, n', kG, kO, A, ?_, hJ, hs', hc', hG, hO, areaMono_isArea hA, hA0, hJ0, hG0, hO0, ?_, ?_, ?_⟩
  · simp only [monoSources, hnodes, ok_bind, hb, hterms, hx0, e1, e2, e3, e4, e5]
    rw [soot_pair h.len]
    have e6 : J - 2 * 3 * (6 * gasMW .C / (π * rhoSoot)) ^ ((1 : ℝ) / 6) * sqrt (6 * kb * s.T / rhoSoot) *
        (M1 / gasMW .C) ^ ((1 : ℝ) / 6) * M0 ^ ((11 : ℝ) / 6) = J - brownAgg s.T M0 M1 := by rw [brownAgg]; ring
    simp only [setIdx, if_pos h.tlen, ok_bind, e6, o1, o2, hf]
  · rw [hsoot, htar, ← r1, ← neg_mul]; exact hf
  · rw [hsoot, ← r1]; congr 2; ring
  · rw [htar, ← r1]

/-- **C61, gas and soot.** Without PAH, gas sources and soot mass source do not cancel: the mass taken from the gas by growth never
reaches the soot.  Including the tar, nucleated mass is taken twice. -/
theorem C61_brown_balance (m : Model) (s : State) (M0 M1 w a : ℝ) (h : TarReady m s M0 M1 w a) (hb : m.tar = .BROWN)
    (hp : m.nucl.mech ≠ .PAH) :
    ∃ m' s' J n' kG A M1dot tardot,
      monoSources m s = ok (m', s') ∧ m.nucl.rate (ibetaNodes m.coag) { s with wts := s'.wts, absc := s'.absc } = ok (J, n', s') ∧
      m.grow.rate m.ctx s' = ok kG ∧ IsArea M0 M1 A ∧ m'.sources.soot[1]? = some M1dot ∧ m'.sources.tar[0]? = some tardot ∧
      (∑ sp, m'.sources.gas sp) + M1dot = -(kG * A) ∧
      (∑ sp, m'.sources.gas sp) + M1dot + tardot = -(kG * A) - J * (s'.cMin * gasMW .C / Na) - brownGas s - brownOx s := by
  obtain ⟨m', s', J, n', kG, kO, A, e, hJ, hs', hc', hG, hO, hA, hA0, hJ0, hG0, hO0, hF, hS, hT⟩ :=
    C61_brown_equations m s M0 M1 w a h hb
  obtain ⟨hn1, _, hn3, _⟩ := Nucl.rate_inv hJ
  have hr2 : Ready m s' := by rw [hs']; exact h.toReady.upd hc' _ _
  obtain ⟨kG', hG', _, hGN, _⟩ := hr2.grow
  obtain ⟨kO', hO', _, hON⟩ := hr2.oxid
  have : kG' = kG := by simpa [hG] using hG'.symm
  subst this
  have : kO' = kO := by simpa [hO] using hO'.symm
  subst this
  have hbal := Model.finish_balance h.wf (n := n') (hn1 ▸ hp) (Nucl.rate_wf h.wf.nucl hJ)
    (fun hx => by rw [hn3 (hn1 ▸ hx)]; ring) (fun hx => by rw [hGN hx]; ring) (fun hx => by rw [hON hx]; ring) hF
  have hw1 : s'.wts = [monoW M0 w] := by rw [hs']
  have ha1 : s'.absc = [monoA M0 M1 a] := by rw [hs']
  refine ⟨m', s', J, n', kG', A, _, _, e, by rw [hw1, ha1]; exact hJ, hG, hA, by rw [hS]; rfl,
    by rw [hT, List.getElem?_set_self h.tlen], ?_, ?_⟩
  · rw [hbal]; ring
  · rw [hbal]; ring

/-- **C61, coagulation.** The BROWN branch ignores the coagulation mechanism: without PAH two ready models that differ only in it have
identical soot sources, and particles are lost even with coagulation `NONE`. -/
theorem C61_brown_coag (m : Model) (c : Coag) (s : State) (M0 M1 w a : ℝ) (h : TarReady m s M0 M1 w a)
    (h' : TarReady { m with coag := c } s M0 M1 w a) (hb : m.tar = .BROWN) (hp : m.nucl.mech ≠ .PAH) (h0 : 0 < M0) (h1 : 0 < M1) :
    ∃ m' m'' s' J n', monoSources m s = ok (m', s') ∧ monoSources { m with coag := c } s = ok (m'', s') ∧
      m.nucl.rate (ibetaNodes m.coag) { s with wts := s'.wts, absc := s'.absc } = ok (J, n', s') ∧
      m''.sources.soot = m'.sources.soot ∧ ∃ N, m'.sources.soot[0]? = some N ∧ N < J := by
  obtain ⟨m', s', J, n', kG, kO, A, e, hJ, hs', hc', hG, hO, hA, hA0, hJ0, hG0, hO0, hF, hS, hT⟩ :=
    C61_brown_equations m s M0 M1 w a h hb
  obtain ⟨m2, s2, J2, n2, kG2, kO2, A2, e2, hJ2, hs2, hc2, hG2, hO2, hA2, _, _, _, _, hF2, hS2, hT2⟩ :=
    C61_brown_equations _ s M0 M1 w a h' hb
  have hib : m.nucl.rate (ibetaNodes c) { s with wts := [monoW M0 w], absc := [monoA M0 M1 a] } =
      m.nucl.rate (ibetaNodes m.coag) { s with wts := [monoW M0 w], absc := [monoA M0 M1 a] } := by
    cases hm : m.nucl.mech <;> simp only [Nucl.rate, hm] <;> exact absurd hm hp
  have ee : ok (J2, n2, s2) = ok (J, n', s') := by rw [← hJ2, ← hJ]; exact hib
  simp only [ok.injEq, Prod.mk.injEq] at ee
  obtain ⟨rfl, rfl, rfl⟩ := ee
  have : kO2 = kO := by
    have e3 : ok kO2 = ok kO := by rw [← hO2, ← hO]; rfl
    simpa using e3
  subst this
  have hAA : A2 = A := isArea_unique h0.le h1.le hA2 hA
  have hw1 : s2.wts = [monoW M0 w] := by rw [hs']
  have ha1 : s2.absc = [monoA M0 M1 a] := by rw [hs']
  refine ⟨m', m2, s2, J2, n2, e, e2, by rw [hw1, ha1]; exact hJ, by rw [hS2, hS, hAA], _, by rw [hS]; rfl, ?_⟩
  have := brownAgg_pos h.gas.acc.phys.T h0 h1
  linarith

/-! ## C62: AJ_RED -/

theorem ajSurface_ok {s : State} (h : GasOk s) : ∃ g, ajSurface s = ok g ∧ 0 ≤ g := by
  have hT := h.acc.phys.T
  have hR : Rg * s.T ≠ 0 := by have := Rg_pos; positivity
  have h1 := h.pVal_nonneg .CO2
  have h2 := h.pVal_nonneg .H2O
  rw [ajSurface, h.gasP, ok_bind, csqrt_ok h1, ok_bind, cexpDiv_ok hR, ok_bind, h.gasP, ok_bind, cpow_ok' h2 (by norm_num), ok_bind,
    csqrt_ok hT.le, ok_bind, cdiv_ok (by positivity), ok_bind, cexpDiv_ok hR, ok_bind]
  exact ⟨_, rfl, by positivity⟩

theorem ajCracking_ok {s : State} (h : GasOk s) (ht : 0 < s.tarVar.length) : ∃ c, ajCracking s = ok c := by
  have hT := h.acc.phys.T
  have hR : Rg * s.T ≠ 0 := by have := Rg_pos; positivity
  have hc := h.cVal_nonneg .H2
  simp only [ajCracking, idx_getD ht, ok_bind, cexpDiv_ok hR, h.gasC, cpow_ok' hc (show (0 : ℝ) ≤ 0.4 by norm_num),
    cpow_ok' hc (show (0 : ℝ) ≤ 0.5 by norm_num)]
  exact ⟨_, rfl⟩

theorem ajDeposition_ok {s : State} {M0 M1 : ℝ} (h : GasOk s) (ht : 0 < s.tarVar.length) (hs : s.sootVar = [M0, M1]) (hm : 0 < s.mtar)
    (h0 : 0 < M1 → 0 < M0) (hM0 : 0 ≤ M0) : ∃ d, ajDeposition s = ok d ∧ 0 ≤ d := by
  have hT := h.acc.phys.T
  have i0 : idx s.sootVar 0 = ok M0 := by rw [hs]; rfl
  have i1 : idx s.sootVar 1 = ok M1 := by rw [hs]; rfl
  have := Na_pos; have := kb_pos; have := rhoSoot_pos; have htn := tar_nonneg h.acc
  rw [ajDeposition, idx_getD ht, ok_bind, i1, ok_bind, i0, ok_bind]
  by_cases h1 : M1 > 0
  · have hM := h0 h1
    have hq : 0 < M1 / M0 := by positivity
    rw [if_pos h1, cdiv_ok hM.ne', ok_bind]
    rw [cpow_ok (by positivity), ok_bind, csqrt_ok (by positivity), ok_bind]
    rw [cdiv_ok (by positivity), ok_bind, cdiv_ok (by positivity), ok_bind, csqrt_ok (by positivity), ok_bind]
    exact ⟨_, rfl, by positivity⟩
  · rw [if_neg h1]; exact ⟨0, rfl, le_rfl⟩

/-- **C62, evaluation.** A ready MONO model with AJ_RED tar completes; its soot mass source multiplies the area-integrated surface rates
by the area a second time, while the gas sources use them once. -/
theorem C62_ajred_equations (m : Model) (s : State) (M0 M1 w a : ℝ) (h : TarReady m s M0 M1 w a) (hb : m.tar = .AJ_RED)
    (hm : 0 < s.mtar) (h01 : 0 < M1 → 0 < M0) :
    ∃ m' s' J n' kG kO A depo gasify crack Cnd,
      monoSources m s = ok (m', s') ∧
      m.nucl.rate (ibetaNodes m.coag) { s with wts := [monoW M0 w], absc := [monoA M0 M1 a] } = ok (J, n', s') ∧
      s' = { s with wts := [monoW M0 w], absc := [monoA M0 M1 a], cMin := s'.cMin } ∧ 0 < s'.cMin ∧
      m.grow.rate m.ctx s' = ok kG ∧ m.oxid.rate m.ctx s' = ok kO ∧ IsArea M0 M1 A ∧ 0 ≤ A ∧ 0 ≤ J ∧ 0 ≤ kG ∧ 0 ≤ kO ∧
      ajDeposition s' = ok depo ∧ ajSurface s' = ok gasify ∧ ajCracking s' = ok crack ∧ 0 ≤ depo ∧ 0 ≤ gasify ∧
      (m.nucl.mech ≠ .PAH → Cnd = 0) ∧
      m.finish n' m'.sources.soot m'.sources.tar (J * (s'.cMin * gasMW .C / Na)) (kG * A) (-(kO * A)) = ok m' ∧
      m'.sources.soot =
        [J - m.coag.val s' (monoA M0 M1 a) (monoA M0 M1 a) * monoW M0 w ^ 2 / 2,
         2 * s.mtar * J + s.mtar * depo + A * ((kG - kO) * A - gasify) + Cnd] ∧
      m'.sources.tar = m.sources.tar.set 0
        (-depo - crack + 2508 * s.tarVar.getD 0 0 * ((kG - kO) * A - gasify) - 2 * J) := by
  obtain ⟨s', J, n', kG, kO, A, hnodes, hJ, hs', hc', hG, hO, hA, hA0, hJ0, hG0, hO0, hg, hterms⟩ :=
    mono_terms h.toReady h.soot h.wts h.absc
  have hM0 : 0 ≤ M0 := h.gas.acc.sootVar_nonneg M0 (by simp [h.soot])
  have hg' : GasOk s' := by rw [hs']; exact h.gas.upd hc' _ _
  have ht' : s'.tarVar = s.tarVar := by rw [hs']
  have hm' : s'.mtar = s.mtar := by rw [hs']
  have hv' : s'.sootVar = [M0, M1] := by rw [hs', ← h.soot]
  obtain ⟨crack, e1⟩ := ajCracking_ok hg' (by rw [ht']; exact h.tarVar)
  obtain ⟨gasify, e2, hgn⟩ := ajSurface_ok hg'
  obtain ⟨depo, e3, hdn⟩ := ajDeposition_ok hg' (by rw [ht']; exact h.tarVar) hv' (hm' ▸ hm) h01 hM0
  set Cnd := (if n'.mech = .PAH then m.coag.val s' n'.dimer.mDimer (monoA M0 M1 a) * monoW M0 w * n'.dimer.nDimer * n'.dimer.mDimer
    else 0) with hCnd
  set K := m.coag.val s' (monoA M0 M1 a) (monoA M0 M1 a) with hK
  have hx0 : idx s.tarVar 0 = ok (s.tarVar.getD 0 0) := idx_getD h.tarVar
  obtain ⟨m', hf⟩ := Model.finish_ok (n := n') [J - K * monoW M0 w ^ 2 / 2,
      2 * s.mtar * J + s.mtar * depo + A * ((kG - kO) * A - gasify) + Cnd]
    (m.sources.tar.set 0 (-depo - crack + 2508 * s.tarVar.getD 0 0 * ((kG - kO) * A - gasify) - 2 * J))
    (J * s'.cMin * gasMW .C / Na) (kG * A) (-kO * A) h.wf (hg _)
  obtain ⟨_, hsoot, htar⟩ := Model.finish_gasC hf
  have r1 : J * s'.cMin * gasMW .C / Na = J * (s'.cMin * gasMW .C / Na) := by ring
  have hn1 := (Nucl.rate_inv hJ).1
  refine ⟨m', s', J, n', kG, kO, A, depo, gasify, crack, Cnd, ?_, hJ, hs', hc', hG, hO, areaMono_isArea hA, hA0, hJ0, hG0, hO0, e3, e2,
    e1, hdn, hgn, fun hp => if_neg (hn1 ▸ hp), ?_, hsoot, htar⟩
  · simp only [monoSources, hnodes, ok_bind, hb, hterms, hx0, e1, e2, e3]
    rw [soot_pair h.len]
    have q1 : J + -(K * monoW M0 w ^ 2 / 2) = J - K * monoW M0 w ^ 2 / 2 := by ring
    have q2 : s'.mtar * depo + A * (kG * A + -kO * A - gasify) + Cnd + 2 * s'.mtar * J =
        2 * s.mtar * J + s.mtar * depo + A * ((kG - kO) * A - gasify) + Cnd := by rw [hm']; ring
    have q3 : -depo - crack + 2508 * s.tarVar.getD 0 0 * (kG * A + -kO * A - gasify) - 2 * J =
        -depo - crack + 2508 * s.tarVar.getD 0 0 * ((kG - kO) * A - gasify) - 2 * J := by ring
    simp only [setIdx, if_pos h.tlen, ok_bind, q1, q2, q3, hf]
  · rw [hsoot, htar, ← r1, ← neg_mul]; exact hf

/-- **C62, balance.** Without PAH, gas plus soot mass sources leave the stated remainder; the growth and oxidation part of it,
`(kG - kO) (A² - A)`, vanishes only for `A = 0` or `A = 1`. -/
theorem C62_ajred_balance (m : Model) (s : State) (M0 M1 w a : ℝ) (h : TarReady m s M0 M1 w a) (hb : m.tar = .AJ_RED)
    (hm : 0 < s.mtar) (h01 : 0 < M1 → 0 < M0) (hp : m.nucl.mech ≠ .PAH) :
    ∃ m' s' J n' kG kO A depo gasify M1dot,
      monoSources m s = ok (m', s') ∧ m.nucl.rate (ibetaNodes m.coag) { s with wts := s'.wts, absc := s'.absc } = ok (J, n', s') ∧
      m.grow.rate m.ctx s' = ok kG ∧ m.oxid.rate m.ctx s' = ok kO ∧ IsArea M0 M1 A ∧
      ajDeposition s' = ok depo ∧ ajSurface s' = ok gasify ∧ m'.sources.soot[1]? = some M1dot ∧
      (∑ sp, m'.sources.gas sp) + M1dot =
        (2 * s.mtar - s'.cMin * gasMW .C / Na) * J + s.mtar * depo - A * gasify + (kG - kO) * (A ^ 2 - A) := by
  obtain ⟨m', s', J, n', kG, kO, A, depo, gasify, crack, Cnd, e, hJ, hs', hc', hG, hO, hA, hA0, hJ0, hG0, hO0, e3, e2, e1, _, _, hC, hF, hS, hT⟩ :=
    C62_ajred_equations m s M0 M1 w a h hb hm h01
  obtain ⟨hn1, _, hn3, _⟩ := Nucl.rate_inv hJ
  have hr2 : Ready m s' := by rw [hs']; exact h.toReady.upd hc' _ _
  obtain ⟨kG', hG', _, hGN, _⟩ := hr2.grow
  obtain ⟨kO', hO', _, hON⟩ := hr2.oxid
  have : kG' = kG := by simpa [hG] using hG'.symm
  subst this
  have : kO' = kO := by simpa [hO] using hO'.symm
  subst this
  have hbal := Model.finish_balance h.wf (n := n') (hn1 ▸ hp) (Nucl.rate_wf h.wf.nucl hJ)
    (fun hx => by rw [hn3 (hn1 ▸ hx)]; ring) (fun hx => by rw [hGN hx]; ring) (fun hx => by rw [hON hx]; ring) hF
  have hw1 : s'.wts = [monoW M0 w] := by rw [hs']
  have ha1 : s'.absc = [monoA M0 M1 a] := by rw [hs']
  refine ⟨m', s', J, n', kG', kO', A, depo, gasify, _, e, by rw [hw1, ha1]; exact hJ, hG, hO, hA, e3, e2, by rw [hS]; rfl, ?_⟩
  rw [hbal, hC hp]; ring

/-- **C62, growth.** Switching growth on changes the soot mass source by `kG A²` but the gas by `-kG A`. -/
theorem C62_ajred_growth (m : Model) (s : State) (M0 M1 w a : ℝ) (h : TarReady m s M0 M1 w a)
    (h' : TarReady { m with grow := Grow.new .NONE } s M0 M1 w a) (hb : m.tar = .AJ_RED)
    (hm : 0 < s.mtar) (h01 : 0 < M1 → 0 < M0) (hp : m.nucl.mech ≠ .PAH) :
    ∃ m' m'' s' kG A x y, monoSources m s = ok (m', s') ∧ monoSources { m with grow := Grow.new .NONE } s = ok (m'', s') ∧
      m.grow.rate m.ctx s' = ok kG ∧ IsArea M0 M1 A ∧ m'.sources.soot[1]? = some x ∧ m''.sources.soot[1]? = some y ∧
      x - y = kG * A ^ 2 ∧ (∑ sp, m'.sources.gas sp) - (∑ sp, m''.sources.gas sp) = -(kG * A) := by
  have hM0 : 0 ≤ M0 := h.gas.acc.sootVar_nonneg M0 (by simp [h.soot])
  have hM1 : 0 ≤ M1 := h.gas.acc.sootVar_nonneg M1 (by simp [h.soot])
  obtain ⟨m', s', J, n', kG, kO, A, depo, gasify, x, e, hJ, hG, hO, hA, e3, e2, hx, hbal⟩ :=
    C62_ajred_balance m s M0 M1 w a h hb hm h01 hp
  obtain ⟨m1, s1, J1, n1, kG1, kO1, A1, depo1, gasify1, crack1, Cnd1, f, fJ, fs1, _, fG, fO, fA, _, _, _, _, f3, f2, f1, _, _, fC, fF, fS, fT⟩ :=
    C62_ajred_equations m s M0 M1 w a h hb hm h01
  obtain ⟨m2, s2, J2, n2, kG2, kO2, A2, depo2, gasify2, y, g, gJ, gG, gO, gA, g3, g2, gy, gbal⟩ :=
    C62_ajred_balance _ s M0 M1 w a h' hb hm h01 hp
  obtain ⟨m3, s3, J3, n3, kG3, kO3, A3, depo3, gasify3, crack3, Cnd3, k, kJ, ks1, _, kG', kO', kA, _, _, _, _, k3, k2, k1, _, _, kC, kF, kS, kT⟩ :=
    C62_ajred_equations _ s M0 M1 w a h' hb hm h01
  have a1 : ok (m1, s1) = ok (m', s') := f.symm.trans e
  have a2 : ok (m3, s3) = ok (m2, s2) := k.symm.trans g
  simp only [ok.injEq, Prod.mk.injEq] at a1 a2
  obtain ⟨rfl, rfl⟩ := a1
  obtain ⟨rfl, rfl⟩ := a2
  have a3 : ok (J3, n3, s3) = ok (J1, n1, s1) := kJ.symm.trans fJ
  simp only [ok.injEq, Prod.mk.injEq] at a3
  obtain ⟨rfl, rfl, rfl⟩ := a3
  have a4 : ok (J, n', s3) = ok (J2, n2, s3) := by rw [← hJ, ← gJ]
  simp only [ok.injEq, Prod.mk.injEq] at a4
  have r {p q : ℝ} {u : Res ℝ} (h1 : u = ok p) (h2 : u = ok q) : p = q := by
    have : ok p = ok q := h1.symm.trans h2
    simpa using this
  have hkO : kO2 = kO := r (u := m.oxid.rate m.ctx s3) gO hO
  have hd : depo2 = depo := r g3 e3
  have hgf : gasify2 = gasify := r g2 e2
  have hAA : A2 = A := isArea_unique hM0 hM1 gA hA
  have hz : kG2 = 0 := r gG rfl
  have hAA1 : A1 = A := isArea_unique hM0 hM1 fA hA
  have hAA3 : A3 = A := isArea_unique hM0 hM1 kA hA
  have hkG1 : kG1 = kG := r fG hG
  have hkO1 : kO1 = kO := r fO hO
  have hkO3 : kO3 = kO := r (u := m.oxid.rate m.ctx s3) kO' hO
  have hkG3 : kG3 = 0 := r kG' rfl
  have hd1 : depo1 = depo := r f3 e3
  have hg1 : gasify1 = gasify := r f2 e2
  have hd3 : depo3 = depo := r k3 e3
  have hg3 : gasify3 = gasify := r k2 e2
  have hxv : x = 2 * s.mtar * J3 + s.mtar * depo1 + A1 * ((kG1 - kO1) * A1 - gasify1) + Cnd1 := by
    rw [fS] at hx; simpa using hx.symm
  have hyv : y = 2 * s.mtar * J3 + s.mtar * depo3 + A3 * ((kG3 - kO3) * A3 - gasify3) + Cnd3 := by
    rw [kS] at gy; simpa using gy.symm
  have hxy : x - y = kG * A ^ 2 := by
    rw [hxv, hyv, hAA1, hAA3, hkG1, hkO1, hkG3, hkO3, hd1, hd3, hg1, hg3, fC hp, kC hp]; ring
  refine ⟨m1, m3, s3, kG, A, x, y, e, g, hG, hA, hx, gy, hxy, ?_⟩
  have b1 : (∑ sp, m1.sources.gas sp) - (∑ sp, m3.sources.gas sp) = -(x - y) + kG * (A ^ 2 - A) := by
    rw [hkO, hd, hgf, hAA, hz, ← a4.1] at gbal
    linear_combination hbal - gbal
  rw [b1, hxy]; ring

/-! ## Concrete models -/

/-- Inputs with one tar variable. -/
noncomputable def tarArgs : SetArgs := { exArgs [1E15, 1E-6] false with tarVar := [1E-3], Ntar := 1 }

/-- A state object with one tar variable after an accepted call; `mtar` as `get_mtar_ytar` would leave it. -/
noncomputable def tarSt : State := (setState { State.mk' 2 1 with mtar := 350 } tarArgs).1

theorem tarArgs_admissible : Admissible 2 1 6 tarArgs :=
  have h := exArgs_admissible [1E15, 1E-6] false
  ⟨h.T, h.P, h.rho, h.mu, h.cMin, h.soot, by intro i hi h1; simp [tarArgs] at hi; omega, h.gas, h.pahSize, h.pah, h.pahSum⟩

theorem tarSt_set : setState { State.mk' 2 1 with mtar := 350 } tarArgs =
    (stateAfter { State.mk' 2 1 with mtar := 350 } tarArgs, ok ()) :=
  C01_setState_accepts _ _ (by simp [State.mk', tarArgs, exArgs]) (by simp [State.mk', tarArgs])
    (by simpa [State.mk', nPah] using tarArgs_admissible)

theorem tarSt_eq : tarSt = stateAfter { State.mk' 2 1 with mtar := 350 } tarArgs := by rw [tarSt, tarSt_set]

noncomputable def tarModel (t : TarMech) (n : NuclMech) (g : GrowMech) (o : OxidMech) (c : CoagMech) : Model :=
  { psd := .MONO, nsoot := 2, Ntar := 1, nucl := Nucl.new n, grow := Grow.new g, oxid := Oxid.new o, coag := Coag.new c, tar := t
    mBins := [], binF := 2, sources := Sources.new 2 1 }

theorem tarModel_new (t : TarMech) (n : NuclMech) (g : GrowMech) (o : OxidMech) (c : CoagMech) :
    Model.new .MONO 2 n g o c 1 t = ok (tarModel t n g o c) := by
  simp [Model.new, Model.newPtr, ctorCheck, tarModel]

theorem tarSt_soot : tarSt.sootVar = [1E15, 1E-6] := by
  rw [tarSt_eq]; norm_num [stateAfter, tarArgs, exArgs]

theorem tarReadyEx (t : TarMech) (n : NuclMech) (g : GrowMech) (o : OxidMech) (c : CoagMech) :
    TarReady (tarModel t n g o c) tarSt 1E15 1E-6 0 0 where
  wf := ⟨Nucl.new_wf n, rfl, rfl, fun _ => rfl, fun _ => rfl, rfl, rfl, by simp [tarModel, Sources.new]⟩
  fm := by norm_num [Coag.new, tarModel]
  gas :=
    { acc := ⟨_, _, by rw [tarSt_set], rfl⟩
      len := by simp [tarSt_eq, stateAfter, tarArgs, exArgs, argsEx2, nGas]
      nonneg := by
        intro y hy; simp [tarSt_eq, stateAfter, tarArgs, exArgs, argsEx2] at hy
        rcases hy with h|h|h|h|h|h|h|h|h|h|h <;> subst h <;> norm_num }
  pah := by simp [tarSt_eq, stateAfter, tarArgs, exArgs, argsEx2, argsEx, nPah]
  sized := ⟨by rw [tarSt_soot]; simp, by simp [tarModel, Model.ctx], by simp [tarModel, Model.ctx]⟩
  sing := by
    rintro _ ⟨_, _, h⟩
    rw [tarSt_eq] at h; norm_num [stateAfter, tarArgs, exArgs, argsEx2, argsEx] at h
  tar := by simp [tarSt_eq, stateAfter, tarArgs]
  mtar := by simp [tarSt_eq, stateAfter]
  psd := rfl
  len := by simp [tarModel, Sources.new]
  tlen := by simp [tarModel, Sources.new]
  soot := tarSt_soot
  wts := by simp [tarSt_eq, stateAfter, State.mk']
  absc := by simp [tarSt_eq, stateAfter, State.mk']
  tarVar := by simp [tarSt_eq, stateAfter, tarArgs]

theorem tarSt_num (x : Ctx) (hx : x.psd = .MONO) : 0 < numOf x tarSt := by
  rw [numOf, if_neg (by simp [hx]), tarSt_soot]; norm_num
theorem tarSt_mass (x : Ctx) (hx : x.psd = .MONO) : 0 < massOf x tarSt := by
  rw [massOf, if_neg (by simp [hx]), tarSt_soot]; norm_num
theorem tarSt_C2H2 : 0 < cVal tarSt .C2H2 := by
  have := (tarReadyEx .NONE .NONE .NONE .NONE .NONE).gas.acc.phys.rho; have := gasMW_pos .C2H2
  have : (0 : ℝ) < tarSt.yGas.getD GasSp.C2H2.toNat 0 := by
    norm_num [tarSt_eq, stateAfter, tarArgs, exArgs, argsEx2, GasSp.toNat]
  unfold cVal; positivity

/-- **C10 refuted for BROWN.** Every mechanism `NONE`, yet the number source is negative. -/
theorem C10_brown_false : ∃ m s m' s' N, Model.new .MONO 2 .NONE .NONE .NONE .NONE 1 .BROWN = ok m ∧ Accepted s ∧
    monoSources m s = ok (m', s') ∧ m'.sources.soot[0]? = some N ∧ N < 0 := by
  have hr := tarReadyEx .BROWN .NONE .NONE .NONE .NONE
  obtain ⟨m', _, s', J, n', e, _, hJ, _, N, hN, hlt⟩ :=
    C61_brown_coag (tarModel .BROWN .NONE .NONE .NONE .NONE) (Coag.new .NONE) tarSt _ _ _ _ hr hr rfl (by simp [tarModel, Nucl.new])
      (by norm_num) (by norm_num)
  have hJ0 : J = 0 := (Nucl.rate_inv hJ).2.2.1 rfl
  exact ⟨_, _, m', s', N, tarModel_new _ _ _ _ _, hr.gas.acc, e, hN, hJ0 ▸ hlt⟩

theorem isArea_pos {M0 M1 A : ℝ} (h0 : 0 < M0) (h1 : 0 < M1) (h : IsArea M0 M1 A) : 0 < A := by
  have hr := rhoSoot_pos
  have hd : M0 * rhoSoot * (π / 6) * ((6 / (π * rhoSoot) * M1 / M0) ^ ((1 : ℝ) / 3)) ^ 3 = M1 := by
    rw [← rpow_natCast, ← rpow_mul (by positivity)]
    norm_num
    field_simp
  rw [h.2 h0 _ (by positivity) hd]; positivity

theorem grow_FAIR_pos {x : Ctx} {s : State} {k : ℝ} (h : GasOk s) (hx : Sized x s) (hn : 0 < numOf x s) (hm : 0 < massOf x s)
    (hc : 0 < cVal s .C2H2) (hk : (Grow.new .FAIR).rate x s = ok k) : 0 < k := by
  have hT := h.acc.phys.T
  have hA := areaMono_ok (M0 := numOf x s) hm.le
  rw [if_pos hn] at hA
  have := rhoSoot_pos; have := gasMW_pos .C
  simp only [Grow.new, Grow.rate, moments01_ok hx, ok_bind, hA, h.gasC] at hk
  rw [if_pos (by positivity), cexpDiv_ok (by positivity), ok_bind] at hk
  simp only [ok.injEq] at hk
  rw [← hk]; positivity

/-- **C11 refuted for BROWN.** Growth removes gas mass that no soot gains. -/
theorem C61_brown_false : ∃ m s m' s' M1dot, Model.new .MONO 2 .BROWN .FAIR .BROWN .FM 1 .BROWN = ok m ∧ Accepted s ∧
    monoSources m s = ok (m', s') ∧ m'.sources.soot[1]? = some M1dot ∧ (∑ sp, m'.sources.gas sp) + M1dot < 0 := by
  have hr := tarReadyEx .BROWN .BROWN .FAIR .BROWN .FM
  obtain ⟨m', s', J, n', kG, A, M1dot, tardot, e, hJ, hG, hA, hM, _, hb, _⟩ :=
    C61_brown_balance _ tarSt _ _ _ _ hr rfl (by simp [tarModel, Nucl.new])
  have hs' := (Nucl.rate_inv hJ).2.2.2
  have hApos := isArea_pos (by norm_num) (by norm_num) hA
  refine ⟨_, _, m', s', M1dot, tarModel_new _ _ _ _ _, hr.gas.acc, e, hM, ?_⟩
  rw [hb]
  have hG' : (Grow.new .FAIR).rate (tarModel .BROWN .BROWN .FAIR .BROWN .FM).ctx tarSt = ok kG := by
    rw [← hG, hs']; rfl
  have hk : 0 < kG := by
    refine grow_FAIR_pos hr.gas hr.sized ?_ ?_ ?_ hG'
    · exact tarSt_num _ rfl
    · exact tarSt_mass _ rfl
    · exact tarSt_C2H2
  have := mul_pos hk hApos
  linarith

/-- The particle area of the concrete state is not 1. -/
theorem tarSt_area {A : ℝ} (hA : IsArea 1E15 1E-6 A) : A ≠ 1 := by
  have hr := rhoSoot_pos
  set d := (6 / (π * rhoSoot) * 1E-6 / 1E15) ^ ((1 : ℝ) / 3) with hd
  have h3 : (1E15 : ℝ) * rhoSoot * (π / 6) * d ^ 3 = 1E-6 := by
    rw [hd, ← rpow_natCast, ← rpow_mul (by positivity)]
    norm_num
    field_simp
  have h0 : 0 ≤ d := by positivity
  have hv := hA.2 (by norm_num) d h0 h3
  intro h1
  have h2 : π * d ^ 2 = 1E-15 := by rw [h1] at hv; linarith
  have h4 : rhoSoot / 6 * d = 1E-6 := by
    have : (1E15 : ℝ) * rhoSoot * (π / 6) * d ^ 3 = 1E15 * (rhoSoot / 6) * d * (π * d ^ 2) := by ring
    rw [this, h2] at h3
    linarith
  have h5 : rhoSoot = 1850 := by norm_num [rhoSoot]
  have h6 : d = 6E-6 / 1850 := by rw [h5] at h4; linarith
  rw [h6] at h2
  have := pi_le_four
  norm_num at h2
  linarith

/-- **C62 refuted.** Growth of soot differs from the loss of gas it causes. -/
theorem C62_ajred_false : ∃ m m₀ s m' m'' s' x y, Model.new .MONO 2 .AJ_RED .FAIR .AJ_RED .FM 1 .AJ_RED = ok m ∧
    Model.new .MONO 2 .AJ_RED .NONE .AJ_RED .FM 1 .AJ_RED = ok m₀ ∧ Accepted s ∧
    monoSources m s = ok (m', s') ∧ monoSources m₀ s = ok (m'', s') ∧
    m'.sources.soot[1]? = some x ∧ m''.sources.soot[1]? = some y ∧
    x - y ≠ -((∑ sp, m'.sources.gas sp) - ∑ sp, m''.sources.gas sp) := by
  have hr := tarReadyEx .AJ_RED .AJ_RED .FAIR .AJ_RED .FM
  have hr' := tarReadyEx .AJ_RED .AJ_RED .NONE .AJ_RED .FM
  obtain ⟨m', m'', s', kG, A, x, y, e, e', hG, hA, hx, hy, h1, h2⟩ := C62_ajred_growth _ tarSt _ _ _ _ hr hr' rfl
    (by norm_num [tarSt_eq, stateAfter]) (by norm_num) (by simp [tarModel, Nucl.new])
  refine ⟨_, _, _, m', m'', s', x, y, tarModel_new _ _ _ _ _, tarModel_new _ _ _ _ _, hr.gas.acc, e, e', hx, hy, ?_⟩
  obtain ⟨_, _, _, _, _, _, _, _, _, _, _, f, fJ, fs, fc, fG, _⟩ := C62_ajred_equations _ tarSt _ _ _ _ hr rfl
    (by norm_num [tarSt_eq, stateAfter]) (by norm_num)
  have a1 := f.symm.trans e
  simp only [ok.injEq, Prod.mk.injEq] at a1
  obtain ⟨rfl, rfl⟩ := a1
  have hG' : (Grow.new .FAIR).rate (tarModel .AJ_RED .AJ_RED .FAIR .AJ_RED .FM).ctx tarSt = ok kG := by
    rw [← hG, fs]; rfl
  have hk : 0 < kG := grow_FAIR_pos hr.gas hr.sized (tarSt_num _ rfl) (tarSt_mass _ rfl) tarSt_C2H2 hG'
  have hApos := isArea_pos (by norm_num) (by norm_num) hA
  rw [h1, h2, neg_neg]
  intro h3
  have h4 : A * A = A := by
    have : kG * (A * A) = kG * A := by rw [← h3]; ring
    exact mul_left_cancel₀ hk.ne' this
  exact tarSt_area hA (mul_left_cancel₀ hApos.ne' (by rw [h4, mul_one]))

example : ∃ m' s', monoSources (tarModel .AJ_RED .AJ_RED .HACA .AJ_RED .FM) tarSt = ok (m', s') := by
  obtain ⟨m', s', _, _, _, _, _, _, _, _, _, e, _⟩ := C62_ajred_equations _ _ _ _ _ _ (tarReadyEx .AJ_RED .AJ_RED .HACA .AJ_RED .FM) rfl
    (by norm_num [tarSt_eq, stateAfter]) (by norm_num)
  exact ⟨m', s', e⟩

end Soot
