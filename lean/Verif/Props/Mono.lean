import Verif.Inv
import Verif.Props.Ex

/-!
# Properties of the monodisperse model (C10, C11, C16, C17, C20-C24, C51 for MONO)
-/

namespace Soot

open Res Real
open scoped Classical

/-- A MONO model object without tar as produced by its constructors (`C43`), together with a state it can
be evaluated on: two soot variables and one quadrature node. -/
structure MonoReady (m : Model) (s : State) (M0 M1 w a : ℝ) : Prop extends Ready m s where
  psd : m.psd = .MONO
  notar : m.tar = .NONE
  len : m.sources.soot.length = 2
  soot : s.sootVar = [M0, M1]
  wts : s.wts = [w]
  absc : s.absc = [a]

/-- Surface area per volume of `M0` equal spheres of total mass `M1` (specification): `M0 π d²` for the
diameter `d` with `M0 ρ π/6 d³ = M1`; no particles, no area. -/
def IsArea (M0 M1 A : ℝ) : Prop :=
  (M0 = 0 → A = 0) ∧ (0 < M0 → ∀ d : ℝ, 0 ≤ d → M0 * rhoSoot * (π / 6) * d ^ 3 = M1 → A = M0 * (π * d ^ 2))

theorem areaMono_isArea {M0 M1 A : ℝ} (h : areaMono M0 M1 = ok A) : IsArea M0 M1 A := by
  refine ⟨fun h0 => ?_, fun h0 d hd he => ?_⟩
  · simp [areaMono, h0] at h; exact h.symm
  · have hM1 : 0 ≤ M1 := by rw [← he]; have := rhoSoot_pos; positivity
    rw [areaMono_ok hM1, if_pos h0, ok.injEq] at h
    have hr := rhoSoot_pos
    have e : 6 / (π * rhoSoot) * M1 / M0 = d ^ 3 := by
      rw [← he]; field_simp
    rw [← h, e, ← rpow_natCast d 3, ← rpow_mul hd]
    have : ((3 : ℕ) : ℝ) * twothird = (2 : ℕ) := by norm_num [twothird]
    rw [this, rpow_natCast]; ring

theorem isArea_unique {M0 M1 A B : ℝ} (h0 : 0 ≤ M0) (h1 : 0 ≤ M1) (hA : IsArea M0 M1 A) (hB : IsArea M0 M1 B) :
    A = B := by
  rcases h0.eq_or_lt with h | h
  · rw [hA.1 h.symm, hB.1 h.symm]
  · have hr := rhoSoot_pos
    have hd : M0 * rhoSoot * (π / 6) * ((6 / (π * rhoSoot) * M1 / M0) ^ ((1 : ℝ) / 3)) ^ 3 = M1 := by
      rw [← rpow_natCast, ← rpow_mul (by positivity)]
      norm_num
      field_simp
    rw [hA.2 h _ (by positivity) hd, hB.2 h _ (by positivity) hd]

/-- The quadrature node MONO uses: recomputed when there are particles, else the stored one. -/
noncomputable def monoW (M0 w : ℝ) : ℝ := if M0 > 0 then M0 else w
noncomputable def monoA (M0 M1 a : ℝ) : ℝ := if M0 > 0 then M1 / M0 else a

/-- The node set-up and the mechanism terms of MONO (common to the tar and no-tar branches) on a ready state. -/
theorem mono_terms {m : Model} {s : State} {M0 M1 w a : ℝ} (h : Ready m s) (hsoot : s.sootVar = [M0, M1]) (hwts : s.wts = [w])
    (habsc : s.absc = [a]) :
    ∃ s' J n' kG kO A,
      monoNodes s = ok (M0, M1, { s with wts := [monoW M0 w], absc := [monoA M0 M1 a] }) ∧
      m.nucl.rate (ibetaNodes m.coag) { s with wts := [monoW M0 w], absc := [monoA M0 M1 a] } = ok (J, n', s') ∧
      s' = { s with wts := [monoW M0 w], absc := [monoA M0 M1 a], cMin := s'.cMin } ∧ 0 < s'.cMin ∧
      m.grow.rate m.ctx s' = ok kG ∧ m.oxid.rate m.ctx s' = ok kO ∧ areaMono M0 M1 = ok A ∧ 0 ≤ A ∧
      0 ≤ J ∧ 0 ≤ kG ∧ 0 ≤ kO ∧ (∀ x, ∃ g, gasRates n'.ratio x = ok g) ∧
      monoTerms m M0 M1 { s with wts := [monoW M0 w], absc := [monoA M0 M1 a] } =
        ok ⟨J, J * s'.cMin * gasMW .C / Na,
          (if n'.mech = .PAH then m.coag.val s' n'.dimer.mDimer (monoA M0 M1 a) * monoW M0 w * n'.dimer.nDimer * n'.dimer.mDimer
            else 0), A, kG * A, -kO * A, -(m.coag.val s' (monoA M0 M1 a) (monoA M0 M1 a) * monoW M0 w ^ 2 / 2), n', s'⟩ := by
  have hM1 : 0 ≤ M1 := h.gas.acc.sootVar_nonneg M1 (by simp [hsoot])
  have hcm := h.gas.acc.phys.cMin
  have hr1 : Ready m { s with wts := [monoW M0 w], absc := [monoA M0 M1 a] } := h.upd hcm _ _
  obtain ⟨J, n', s', hJ, hJ0, hs', hc', hJN, hd, hg⟩ := hr1.nucl (ibetaNodes m.coag) (by
    intro _ c mD hc _
    have hp : State.Phys { s with wts := [monoW M0 w], absc := [monoA M0 M1 a], cMin := c } :=
      (h.gas.acc.upd hc _ _).phys
    exact ⟨_, ibetaNodes_ok hp h.fm (by simp) mD,
      Finset.sum_nonneg fun i _ => mul_nonneg (abs_nonneg _) (Coag.val_nonneg hp h.fm _ _)⟩)
  have hr2 : Ready m s' := by rw [hs']; exact hr1.upd hc' _ _
  obtain ⟨kG, hG, hG0, hGN, _⟩ := hr2.grow
  obtain ⟨kO, hO, hO0, hON⟩ := hr2.oxid
  obtain ⟨A, hA, hA0⟩ : ∃ A, areaMono M0 M1 = ok A ∧ 0 ≤ A := by
    refine ⟨_, areaMono_ok hM1, ?_⟩
    split_ifs with h0
    · have := rhoSoot_pos; positivity
    · exact le_rfl
  obtain ⟨hn1, hn2, hn3, _⟩ := Nucl.rate_inv hJ
  have hw' : s'.wts = [monoW M0 w] := by rw [hs']
  have ha' : s'.absc = [monoA M0 M1 a] := by rw [hs']
  have hnodes : monoNodes s = ok (M0, M1, { s with wts := [monoW M0 w], absc := [monoA M0 M1 a] }) := by
    have i0 : idx s.sootVar 0 = ok M0 := by rw [hsoot]; rfl
    have i1 : idx s.sootVar 1 = ok M1 := by rw [hsoot]; rfl
    rw [monoNodes, i0, i1]
    simp only [ok_bind]
    split_ifs with h0
    · simp [hwts, habsc, setIdx, monoW, monoA, h0]
    · simp only [monoW, monoA, if_neg h0, ← hwts, ← habsc]
  set K := m.coag.val s' (monoA M0 M1 a) (monoA M0 M1 a) with hK
  set B := m.coag.val s' n'.dimer.mDimer (monoA M0 M1 a) with hB
  have hN0 : (if n'.mech ≠ .NONE then J else 0) = J := by
    split_ifs with hx
    · rfl
    · rw [hJN (by rw [← hn1]; exact not_not.mp hx)]
  have hN1 : (if n'.mech ≠ .NONE then J * s'.cMin * gasMW .C / Na else 0) = J * s'.cMin * gasMW .C / Na := by
    split_ifs with hx
    · rfl
    · rw [hJN (by rw [← hn1]; exact not_not.mp hx)]; simp
  have hG1 : (if m.grow.mech ≠ .NONE then kG * A else 0) = kG * A := by
    split_ifs with hx
    · rfl
    · rw [hGN (not_not.mp hx)]; simp
  have hX1 : (if m.oxid.mechType ≠ .NONE then -kO * A else 0) = -kO * A := by
    split_ifs with hx
    · rfl
    · rw [hON (not_not.mp hx)]; simp
  have hC0 : (if m.coag.mech ≠ .NONE then (idx s'.wts 0 >>= fun w0 => ok (-0.5 * K * w0 * w0)) else ok 0) =
      ok (-(K * monoW M0 w ^ 2 / 2)) := by
    split_ifs with hx
    · rw [hw']; simp only [idx_cons_zero, ok_bind]; congr 1; ring
    · have : K = 0 := by rw [hK, Coag.val]; simp [not_not.mp hx]
      simp [this]
  have hCn : (if n'.mech = .PAH then (do
      let k ← m.coag.rate s' n'.dimer.mDimer (monoA M0 M1 a)
      let w0 ← idx s'.wts 0
      ok (k * w0 * n'.dimer.nDimer * n'.dimer.mDimer)) else ok 0) =
      ok (if n'.mech = .PAH then B * monoW M0 w * n'.dimer.nDimer * n'.dimer.mDimer else 0) := by
    split_ifs with hx
    · rw [hr2.coag, ok_bind, hw']; simp only [idx_cons_zero, ok_bind]; rfl
    · rfl
  have hterms : monoTerms m M0 M1 { s with wts := [monoW M0 w], absc := [monoA M0 M1 a] } =
      ok ⟨J, J * s'.cMin * gasMW .C / Na,
        (if n'.mech = .PAH then B * monoW M0 w * n'.dimer.nDimer * n'.dimer.mDimer else 0), A, kG * A, -kO * A,
        -(K * monoW M0 w ^ 2 / 2), n', s'⟩ := by
    simp only [monoTerms]
    rw [hJ]; simp only [ok_bind]
    rw [hG, ok_bind, hO, ok_bind, ha']
    simp only [idx_cons_zero, ok_bind]
    rw [hr2.coag, ok_bind, hCn, ok_bind, hA, ok_bind]
    simp only [← hK]
    rw [hC0, ok_bind, hN0, hN1, hG1, hX1]
  exact ⟨s', J, n', kG, kO, A, hnodes, hJ, hs', hc', hG, hO, hA, hA0, hJ0, hG0, hO0, hg, hterms⟩

/-- Complete evaluation of MONO on a ready state. -/
theorem mono_eval {m : Model} {s : State} {M0 M1 w a : ℝ} (h : MonoReady m s M0 M1 w a) :
    ∃ m' s' J n' kG kO A,
      monoSources m s = ok (m', s') ∧
      m.nucl.rate (ibetaNodes m.coag) { s with wts := [monoW M0 w], absc := [monoA M0 M1 a] } = ok (J, n', s') ∧
      s' = { s with wts := [monoW M0 w], absc := [monoA M0 M1 a], cMin := s'.cMin } ∧ 0 < s'.cMin ∧
      m.grow.rate m.ctx s' = ok kG ∧ m.oxid.rate m.ctx s' = ok kO ∧ IsArea M0 M1 A ∧ 0 ≤ A ∧
      0 ≤ J ∧ 0 ≤ kG ∧ 0 ≤ kO ∧
      m.finish n' m'.sources.soot m.sources.tar (J * s'.cMin * gasMW .C / Na) (kG * A) (-kO * A) = ok m' ∧
      m'.sources.soot =
        [J - m.coag.val s' (monoA M0 M1 a) (monoA M0 M1 a) * monoW M0 w ^ 2 / 2,
         J * s'.cMin * gasMW .C / Na +
          (if n'.mech = .PAH then m.coag.val s' n'.dimer.mDimer (monoA M0 M1 a) * monoW M0 w *
            n'.dimer.nDimer * n'.dimer.mDimer else 0) + (kG - kO) * A] := by
  obtain ⟨s', J, n', kG, kO, A, hnodes, hJ, hs', hc', hG, hO, hA, hA0, hJ0, hG0, hO0, hg, hterms⟩ :=
    mono_terms h.toReady h.soot h.wts h.absc
  set K := m.coag.val s' (monoA M0 M1 a) (monoA M0 M1 a) with hK
  set B := m.coag.val s' n'.dimer.mDimer (monoA M0 M1 a) with hB
  obtain ⟨p, q, hpq⟩ : ∃ p q, m.sources.soot = [p, q] := by
    have hl := h.len
    match hx : m.sources.soot, hl with
    | [p, q], _ => exact ⟨p, q, rfl⟩
  obtain ⟨m', hf⟩ := Model.finish_ok (n := n')
    [J - K * monoW M0 w ^ 2 / 2, J * s'.cMin * gasMW .C / Na +
          (if n'.mech = .PAH then B * monoW M0 w * n'.dimer.nDimer * n'.dimer.mDimer else 0) + (kG - kO) * A]
    m.sources.tar (J * s'.cMin * gasMW .C / Na) (kG * A) (-kO * A) h.wf (hg _)
  have hsoot := (Model.finish_gasC hf).2.1
  refine ⟨m', s', J, n', kG, kO, A, ?_, hJ, hs', hc', hG, hO, areaMono_isArea hA, hA0, hJ0, hG0, hO0, by rw [hsoot]; exact hf, hsoot⟩
  simp only [monoSources, hnodes, ok_bind, h.notar, hterms, hpq]
  have e1 : J + 0 + 0 + 0 + -(K * monoW M0 w ^ 2 / 2) = J - K * monoW M0 w ^ 2 / 2 := by ring
  have e2 : J * s'.cMin * gasMW .C / Na +
          (if n'.mech = .PAH then B * monoW M0 w * n'.dimer.nDimer * n'.dimer.mDimer else 0) + kG * A + -kO * A + 0 =
      J * s'.cMin * gasMW .C / Na +
          (if n'.mech = .PAH then B * monoW M0 w * n'.dimer.nDimer * n'.dimer.mDimer else 0) + (kG - kO) * A := by ring
  rw [e1, e2]
  simp only [setIdx, List.length_cons, List.length_nil]
  simp only [Nat.zero_lt_succ, if_true, List.set_cons_zero, ok_bind, List.set_cons_succ, List.length_cons, List.length_nil]
  simp only [zero_add, Nat.reduceAdd, Nat.one_lt_ofNat, if_true, ok_bind, hf]

/-! ## C24 -/

/-- **C24.** On every ready state with two soot variables, one node and no tar (weights fresh if there are
no particles), MONO finishes and its sources are the monodisperse equations: `J - K M0²/2` and
`J m_nuc + cond + (kG - kO) A`, where `J`, `kG`, `kO`, `K`, `B` are what the selected mechanisms return and
`A` is the area of `M0` equal spheres of total mass `M1`. -/
theorem C24_mono_equations (m : Model) (s : State) (M0 M1 w a : ℝ) (h : MonoReady m s M0 M1 w a)
    (hfresh : M0 = 0 → w = 0) :
    ∃ m' s' J n' kG kO A K B,
      monoSources m s = ok (m', s') ∧
      m.nucl.rate (ibetaNodes m.coag) { s with wts := s'.wts, absc := s'.absc } = ok (J, n', s') ∧
      s'.wts = [M0] ∧ (0 < M0 → s'.absc = [M1 / M0]) ∧
      m.grow.rate m.ctx s' = ok kG ∧ m.oxid.rate m.ctx s' = ok kO ∧
      (0 < M0 → m.coag.rate s' (M1 / M0) (M1 / M0) = ok K ∧ m.coag.rate s' n'.dimer.mDimer (M1 / M0) = ok B) ∧
      IsArea M0 M1 A ∧
      m'.sources.soot =
        [J - K * M0 ^ 2 / 2,
         J * (s'.cMin * gasMW .C / Na) +
          (if m.nucl.mech = .PAH then B * M0 * n'.dimer.nDimer * n'.dimer.mDimer else 0) + (kG - kO) * A] := by
  obtain ⟨m', s', J, n', kG, kO, A, h1, h2, h3, h4, h5, h6, h7, _, _, _, _, _, h8⟩ := mono_eval h
  have hM0 : 0 ≤ M0 := h.gas.acc.sootVar_nonneg M0 (by simp [h.soot])
  have hw : monoW M0 w = M0 := by
    unfold monoW; split_ifs with h0
    · rfl
    · have : M0 = 0 := le_antisymm (not_lt.mp h0) hM0
      rw [hfresh this, this]
  have hn := (Nucl.rate_inv h2).1
  have hws : s'.wts = [M0] := by rw [h3, hw]
  have has : s'.absc = [monoA M0 M1 a] := by rw [h3]
  have hr2 : Ready m s' := by rw [h3]; exact h.toReady.upd h4 _ _
  refine ⟨m', s', J, n', kG, kO, A, m.coag.val s' (monoA M0 M1 a) (monoA M0 M1 a),
    m.coag.val s' n'.dimer.mDimer (monoA M0 M1 a), h1, ?_, hws, fun h0 => ?_, h5, h6, fun h0 => ?_, h7, ?_⟩
  · have hws2 : s'.wts = [monoW M0 w] := by rw [h3]
    rw [hws2, has]; exact h2
  · rw [has, monoA, if_pos h0]
  · have : monoA M0 M1 a = M1 / M0 := by rw [monoA, if_pos h0]
    rw [this]; exact ⟨hr2.coag _ _, hr2.coag _ _⟩
  · rw [h8, hw, hn]; congr 2; ring

/-- A constructed MONO model (Leung–Lindstedt chemistry, Fuchs coagulation). -/
noncomputable def monoEx : Model :=
  { psd := .MONO, nsoot := 2, Ntar := 0, nucl := Nucl.new .LL, grow := Grow.new .LL, oxid := Oxid.new .LL
    coag := Coag.new .FUCHS, tar := .NONE, mBins := [], binF := 2, sources := Sources.new 2 0 }

theorem monoEx_new : Model.new .MONO 2 .LL .LL .LL .FUCHS = ok monoEx := by
  simp [Model.new, Model.newPtr, ctorCheck, monoEx, Coag.new]

theorem stEx2_yPah : stEx2.yPah.length = nPah := by simp [stEx2_eq', stateAfter, argsEx2, argsEx, nPah]

/-- Any MONO model with freshly constructed mechanisms, on the concrete state `stEx2`. -/
theorem monoReadyEx (n : NuclMech) (hn : n ≠ .AJ_RED) (hb : n ≠ .BROWN) (g : GrowMech) (o : OxidMech) (c : CoagMech) :
    MonoReady { monoEx with nucl := Nucl.new n, grow := Grow.new g, oxid := Oxid.new o, coag := Coag.new c }
      stEx2 1E15 1E-8 0 0 where
  wf := ⟨Nucl.new_wf n, rfl, rfl, fun _ => rfl, fun _ => rfl, rfl, rfl, rfl⟩
  fm := by norm_num [Coag.new]
  gas := stEx2_gasOk
  pah := stEx2_yPah
  sized := stEx2_sized _ rfl rfl
  sing := by
    rintro _ ⟨_, h, _⟩
    simp [massOf, numOf, stEx2_sootVar, Model.ctx, monoEx] at h
    norm_num at h
  tar := by simp [Nucl.new, hn, hb]
  mtar := by simp [Nucl.new, hn]
  psd := rfl
  notar := rfl
  len := rfl
  soot := stEx2_sootVar
  wts := by simp [stEx2_eq', stateAfter, State.mk']
  absc := by simp [stEx2_eq', stateAfter, State.mk']

/-- C24 applies to a constructed model and an accepted state with soot, also with PAH nucleation. -/
example : ∃ m' s', monoSources { monoEx with nucl := Nucl.new .PAH } stEx2 = ok (m', s') ∧ s'.wts = [1E15] := by
  obtain ⟨m', s', _, _, _, _, _, _, _, h, _, h2, _⟩ :=
    C24_mono_equations _ stEx2 _ _ _ _ (monoReadyEx .PAH (by simp) (by simp) .LL .LL .FUCHS) (by norm_num)
  exact ⟨m', s', h, h2⟩

/-! ## C11, C16, C17, C10 for MONO -/

/-- **C11 (MONO).** Whenever an evaluation without PAH and tar finishes, gas sources plus soot mass source
vanish. -/
theorem C11_mono (m m' : Model) (s s' : State) (hw : m.WF) (hp : m.nucl.mech ≠ .PAH) (ht : m.tar = .NONE)
    (h : monoSources m s = ok (m', s')) :
    ∃ M1dot, m'.sources.soot[1]? = some M1dot ∧ (∑ sp, m'.sources.gas sp) + M1dot = 0 := by
  obtain ⟨M0, M1, s1, t, _, ht2, _, hl, hf⟩ := monoSources_inv ht h
  obtain ⟨j, kG, kO, a0, coa, hj, _, _, _, _, _, hN1, _, hG1, hX1, _, _, _, hc⟩ := monoTerms_inv ht2
  obtain ⟨hn1, _⟩ := Nucl.rate_inv hj
  have hp' : t.nucl.mech ≠ .PAH := hn1 ▸ hp
  have hb := Model.finish_balance hw hp' (Nucl.rate_wf hw.nucl hj) (fun hx => by rw [hN1]; simp [hx])
    (fun hx => by rw [hG1]; simp [hx]) (fun hx => by rw [hX1]; simp [hx]) hf
  refine ⟨t.N1 + t.Cnd1 + t.G1 + t.X1, ?_, ?_⟩
  · rw [(Model.finish_gasC hf).2.1]; simp [hl]
  · rw [hb, hc hp']; ring

example : ∃ m' s', monoSources monoEx stEx2 = ok (m', s') ∧ (∑ sp, m'.sources.gas sp) +
    m'.sources.soot.getD 1 0 = 0 := by
  have hr := monoReadyEx .LL (by simp) (by simp) .LL .LL .FUCHS
  obtain ⟨m', s', _, _, _, _, _, h, _⟩ := mono_eval hr
  obtain ⟨x, hx, hb⟩ := C11_mono _ m' _ s' hr.wf (by simp [Nucl.new]) rfl h
  exact ⟨m', s', h, by simpa [List.getD_eq_getElem?_getD, hx] using hb⟩

/-- **C16, C17 (MONO).** Two ready MONO models that differ only in their coagulation mechanism (no PAH):
their mass sources agree, and relative to the one with coagulation NONE the number source is not larger. -/
theorem C16_C17_mono (m : Model) (c : Coag) (s : State) (M0 M1 w a : ℝ) (hp : m.nucl.mech ≠ .PAH)
    (h : MonoReady m s M0 M1 w a) (h' : MonoReady { m with coag := c } s M0 M1 w a) :
    ∃ m' m'' s', monoSources m s = ok (m', s') ∧ monoSources { m with coag := c } s = ok (m'', s') ∧
      m''.sources.soot[1]? = m'.sources.soot[1]? ∧ m''.sources.gas = m'.sources.gas ∧
      (m.coag.mech = .NONE → ∃ x y, m'.sources.soot[0]? = some x ∧ m''.sources.soot[0]? = some y ∧ y ≤ x) := by
  obtain ⟨m', s', J, n', kG, kO, A, h1, h2, h3, h4, h5, h6, h7, _, _, _, _, h9, h8⟩ := mono_eval h
  obtain ⟨m'', s'', J', n'', kG', kO', A', g1, g2, g3, g4, g5, g6, g7, _, _, _, _, g9, g8⟩ := mono_eval h'
  obtain ⟨hn1, hn2, _⟩ := Nucl.rate_inv h2
  obtain ⟨gn1, gn2, _⟩ := Nucl.rate_inv g2
  obtain ⟨rfl, hs⟩ := hn2 hp
  obtain ⟨rfl, gs⟩ := gn2 hp
  have hss : s'' = s' := by rw [hs, gs]
  subst hss
  have hJ : J' = J := by
    have e : ∀ ib ib' st, m.nucl.rate ib st = m.nucl.rate ib' st := by
      intro ib ib' st
      rcases hm : m.nucl.mech <;> simp only [Nucl.rate, hm] at hp ⊢
      exact absurd rfl hp
    have g2' : m.nucl.rate (ibetaNodes c) { s with wts := [monoW M0 w], absc := [monoA M0 M1 a] } =
      ok (J', m.nucl, s'') := g2
    rw [e _ (ibetaNodes m.coag), h2] at g2'
    cases g2'; rfl
  have hG : kG' = kG := by
    have g5' : m.grow.rate m.ctx s'' = ok kG' := g5
    rw [h5] at g5'; cases g5'; rfl
  have hO : kO' = kO := by
    have g6' : m.oxid.rate m.ctx s'' = ok kO' := g6
    rw [h6] at g6'; cases g6'; rfl
  have hM0 : 0 ≤ M0 := h.gas.acc.sootVar_nonneg M0 (by simp [h.soot])
  have hM1 : 0 ≤ M1 := h.gas.acc.sootVar_nonneg M1 (by simp [h.soot])
  have hA : A' = A := isArea_unique hM0 hM1 g7 h7
  subst hJ hG hO hA
  refine ⟨m', m'', s'', h1, g1, ?_, ?_, fun hc => ?_⟩
  · rw [h8, g8]; simp [hp]
  · obtain ⟨a1, a2, a3, b1, b2, b3, e1⟩ := Model.finish_inv h9
    obtain ⟨c1, c2, c3, d1, d2, d3, e2⟩ := Model.finish_inv g9
    have hb1 : a1 = c1 := by
      have d1' : gasRates m.nucl.ratio (J' * s''.cMin * gasMW .C / Na) = ok c1 := d1
      rw [b1] at d1'; cases d1'; rfl
    have hb2 : a2 = c2 := by
      have d2' : gasRates m.grow.ratio (kG' * A') = ok c2 := d2
      rw [b2] at d2'; cases d2'; rfl
    have hb3 : a3 = c3 := by
      have d3' : gasRates m.oxid.ratio (-kO' * A') = ok c3 := d3
      rw [b3] at d3'; cases d3'; rfl
    rw [e1, e2, hb1, hb2, hb3]
  · refine ⟨_, _, by rw [h8]; rfl, by rw [g8]; rfl, ?_⟩
    have e0 : m.coag.val s'' (monoA M0 M1 a) (monoA M0 M1 a) = 0 := by rw [Coag.val]; simp [hc]
    have hph : State.Phys s'' := by rw [h3]; exact (h.gas.acc.upd h4 _ _).phys
    have := Coag.val_nonneg hph h'.fm (monoA M0 M1 a) (monoA M0 M1 a)
    have h10 : 0 ≤ c.val s'' (monoA M0 M1 a) (monoA M0 M1 a) * monoW M0 w ^ 2 / 2 := by
      have h11 : 0 ≤ c.val s'' (monoA M0 M1 a) (monoA M0 M1 a) := this
      positivity
    rw [e0]
    show J' - c.val s'' (monoA M0 M1 a) (monoA M0 M1 a) * monoW M0 w ^ 2 / 2 ≤ _
    linarith

example : ∃ m' m'' s', monoSources { monoEx with coag := Coag.new .NONE } stEx2 = ok (m', s') ∧
    monoSources { monoEx with coag := Coag.new .FM } stEx2 = ok (m'', s') ∧ m''.sources.gas = m'.sources.gas := by
  obtain ⟨m', m'', s', h1, h2, _, h3, _⟩ := C16_C17_mono _ (Coag.new .FM) stEx2 _ _ _ _ (by simp [Nucl.new])
    (monoReadyEx .LL (by simp) (by simp) .LL .LL .NONE) (monoReadyEx .LL (by simp) (by simp) .LL .LL .FM)
  exact ⟨m', m'', s', h1, h2, h3⟩

/-! ## C20, C23: dependence on earlier calls -/

theorem State.nodes_eq {s : State} {w a : List ℝ} (h1 : s.wts = w) (h2 : s.absc = a) :
    { s with wts := w, absc := a } = s := by subst h1 h2; rfl

/-- `m'` results from `m` by any number of successful MONO evaluations on any states. -/
def MonoHist (m m' : Model) : Prop :=
  Relation.ReflTransGen (fun a b => ∃ s s', monoSources a s = ok (b, s')) m m'

theorem MonoHist.wf {m m' : Model} (hw : m.WF) (h : MonoHist m m') : m'.WF ∧ m'.canon = m.canon := by
  induction h with
  | refl => exact ⟨hw, rfl⟩
  | tail _ hs ih =>
    obtain ⟨s, s', hs⟩ := hs
    obtain ⟨h1, h2⟩ := monoSources_wf ih.1 hs
    exact ⟨h1, h2.canon_eq.trans ih.2⟩

theorem monoNodes_idem {s s1 : State} {M0 M1 : ℝ} (h : monoNodes s = ok (M0, M1, s1)) :
    monoNodes s1 = ok (M0, M1, s1) := by
  simp only [monoNodes, bind_eq_ok] at h
  obtain ⟨x, h1, y, h2, h⟩ := h
  split_ifs at h with h0
  · simp only [bind_eq_ok, setIdx_eq_ok] at h
    obtain ⟨w, ⟨hw, rfl⟩, a, ⟨ha, rfl⟩, h⟩ := h
    cases h
    simp only [monoNodes, h1, h2, ok_bind, if_pos h0]
    simp [setIdx, hw, ha]
  · cases h
    simp only [monoNodes, h1, h2, ok_bind, if_neg h0]

/-- **C20 (MONO).** Without PAH nucleation, evaluating again on the unmodified state changes nothing: the
model and the state are a fixed point, so any number of repetitions gives the same sources. -/
theorem C20_mono (m m' : Model) (s s' : State) (hw : m.WF) (hn : m.nsoot = 2) (hp : m.nucl.mech ≠ .PAH)
    (h : monoSources m s = ok (m', s')) : monoSources m' s' = ok (m', s') := by
  obtain ⟨hw', hs⟩ := monoSources_wf hw h
  rw [monoSources_canon hw' (hs.nsoot.trans hn), hs.canon_eq, ← monoSources_canon hw hn, ← h]
  simp only [monoSources, bind_eq_ok] at h
  obtain ⟨⟨M0, M1, s1⟩, h1, h⟩ := h
  have key : ∀ {t : MonoTerms}, monoTerms m M0 M1 s1 = ok t → t.st = s1 := by
    intro t ht
    obtain ⟨j, kG, kO, a0, coa, hj, _⟩ := monoTerms_inv ht
    exact ((Nucl.rate_inv hj).2.1 hp).2
  have hs1 : s' = s1 := by
    rcases ht : m.tar <;> simp only [ht, bind_eq_ok] at h
    · obtain ⟨t, h2, v, _, v', _, m1, h4, h⟩ := h
      cases h; exact key h2
    · obtain ⟨_, _, t, h2, _, _, _, _, _, _, v, _, v', _, w, _, m1, h4, h⟩ := h
      cases h; exact key h2
    · obtain ⟨_, _, t, h2, _, _, _, _, _, _, _, _, _, _, v, _, v', _, w, _, m1, h4, h⟩ := h
      cases h; exact key h2
  subst hs1
  simp only [monoSources, h1, monoNodes_idem h1]

/-- **C23.** With particles present, MONO sources, resulting object and resulting state depend only on the
constructed model and the current inputs: any two evaluation histories `m₁`, `m₂` of one constructed model
and any two contents of the node arrays give the same outcome. -/
theorem C23_history_independent_partial (m₀ m₁ m₂ : Model) (hw : m₀.WF) (hn : m₀.nsoot = 2)
    (h₁ : MonoHist m₀ m₁) (h₂ : MonoHist m₀ m₂) (s : State) (w a w' a' : ℝ)
    (hM : 0 < s.sootVar.getD 0 0) :
    monoSources m₁ { s with wts := [w], absc := [a] } = monoSources m₂ { s with wts := [w'], absc := [a'] } := by
  obtain ⟨w1, c1⟩ := h₁.wf hw
  obtain ⟨w2, c2⟩ := h₂.wf hw
  have n1 : m₁.nsoot = 2 := by
    have : m₁.canon.nsoot = m₀.canon.nsoot := by rw [c1]
    exact this.trans hn
  have n2 : m₂.nsoot = 2 := by
    have : m₂.canon.nsoot = m₀.canon.nsoot := by rw [c2]
    exact this.trans hn
  rw [monoSources_canon w1 n1, monoSources_canon w2 n2, c1, c2]
  have hl : 0 < s.sootVar.length := by
    rcases hx : s.sootVar with _ | ⟨x, l⟩
    · rw [hx] at hM; simp at hM
    · simp
  have e : monoNodes { s with wts := [w], absc := [a] } = monoNodes { s with wts := [w'], absc := [a'] } := by
    simp only [monoNodes, idx_getD hl, ok_bind, if_pos hM]
    simp [setIdx]
  simp only [monoSources, e]

/-- All-NONE chemistry with free-molecular coagulation. -/
noncomputable def monoFM : Model :=
  { monoEx with nucl := Nucl.new .NONE, grow := Grow.new .NONE, oxid := Oxid.new .NONE, coag := Coag.new .FM }

/-- C23's theorem applies to a constructed model, an evaluation history of length one and a state with soot. -/
example : ∃ m₁, MonoHist monoFM m₁ ∧ monoSources m₁ stEx2 = monoSources monoFM stEx2 ∧
    (monoSources monoFM stEx2).isOk := by
  have hr := monoReadyEx .NONE (by simp) (by simp) .NONE .NONE .FM
  obtain ⟨m₁, s', _, _, _, _, _, h, _⟩ := mono_eval hr
  have hm : MonoHist monoFM m₁ := .single ⟨stEx2, s', h⟩
  refine ⟨m₁, hm, ?_, ?_⟩
  · have := C23_history_independent_partial monoFM m₁ monoFM hr.wf rfl hm .refl stEx2 0 0 0 0
      (by rw [stEx2_sootVar]; norm_num)
    rwa [State.nodes_eq hr.wts hr.absc] at this
  · have h : monoSources monoFM stEx2 = ok (m₁, s') := h
    rw [h]; simp

/-- The inputs of `stEx2` with the soot removed. -/
noncomputable def argsZero : SetArgs := { argsEx2 with sootVar := [0, 0] }

theorem argsZero_admissible : Admissible 2 0 6 argsZero where
  T := argsEx2_admissible.T
  P := argsEx2_admissible.P
  rho := argsEx2_admissible.rho
  mu := argsEx2_admissible.mu
  cMin := argsEx2_admissible.cMin
  soot := by intro i h hi; simp [argsZero] at h; omega
  tar := argsEx2_admissible.tar
  gas := argsEx2_admissible.gas
  pahSize := argsEx2_admissible.pahSize
  pah := argsEx2_admissible.pah
  pahSum := argsEx2_admissible.pahSum

/-- `setState` with zero soot on the state object `stEx2` whose node arrays hold `w`, `a`. -/
theorem setState_zero (s₀ : State) (h1 : s₀.nsoot = 2) (h2 : s₀.Ntar = 0) (h3 : s₀.yPah.length = 6) :
    setState s₀ argsZero = (stateAfter s₀ argsZero, ok ()) :=
  C01_setState_accepts _ _ (by simp [h1, argsZero, argsEx2]) (by simp [h2])
    (by rw [h1, h2, h3]; exact argsZero_admissible)

/-- The MONO readiness of a soot-free state whose node arrays hold `w`, `a`. -/
theorem monoReadyZero (n : NuclMech) (hn : n ≠ .AJ_RED) (hb : n ≠ .BROWN) (g : GrowMech) (o : OxidMech) (c : CoagMech)
    (s₀ : State) (w a : ℝ) (h1 : s₀.nsoot = 2) (h2 : s₀.Ntar = 0) (h3 : s₀.yPah.length = 6)
    (hw : s₀.wts = [w]) (ha : s₀.absc = [a]) :
    MonoReady { monoEx with nucl := Nucl.new n, grow := Grow.new g, oxid := Oxid.new o, coag := Coag.new c }
      (setState s₀ argsZero).1 0 0 w a := by
  have hs := setState_zero s₀ h1 h2 h3
  have hacc : Accepted (setState s₀ argsZero).1 := ⟨_, _, by rw [hs], rfl⟩
  rw [hs] at hacc ⊢
  have hsv : (stateAfter s₀ argsZero).sootVar = [0, 0] := by simp [stateAfter, argsZero]
  have hg : GasOk (stateAfter s₀ argsZero) := ⟨hacc, by simpa [stEx2_eq', stateAfter, argsZero] using stEx2_gasOk.len,
    by simpa [stEx2_eq', stateAfter, argsZero] using stEx2_gasOk.nonneg⟩
  exact
    { wf := ⟨Nucl.new_wf n, rfl, rfl, fun _ => rfl, fun _ => rfl, rfl, rfl, rfl⟩
      fm := by norm_num [Coag.new]
      gas := hg
      pah := by simp [stateAfter, argsZero, argsEx2, argsEx, nPah]
      sized := ⟨by simp [hsv], by simp [Model.ctx, monoEx], by simp [Model.ctx, monoEx]⟩
      sing := by
        rintro _ ⟨h, _, _⟩
        simp [numOf, hsv, Model.ctx, monoEx] at h
      tar := by simp [Nucl.new, hn, hb]
      mtar := by simp [Nucl.new, hn]
      psd := rfl
      notar := rfl
      len := rfl
      soot := hsv
      wts := by simpa [stateAfter] using hw
      absc := by simpa [stateAfter] using ha }

/-- **C23 is false without particles.** After an evaluation on `stEx2`, setting the soot to zero and
evaluating again gives a strictly negative number source; the same inputs on a fresh state give zero. -/
theorem C23_history_dependent_at_zero :
    ∃ (s' : State) (m₁ m₂ m₃ : Model) (s₂ s₃ : State) (x : ℝ),
      monoSources monoFM stEx2 = ok (m₁, s') ∧
      (setState s' argsZero).2 = ok () ∧
      monoSources m₁ (setState s' argsZero).1 = ok (m₂, s₂) ∧
      (setState (State.mk' 2 0) argsZero).2 = ok () ∧
      monoSources monoFM (setState (State.mk' 2 0) argsZero).1 = ok (m₃, s₃) ∧
      m₂.sources.soot[0]? = some x ∧ x < 0 ∧ m₃.sources.soot[0]? = some 0 := by
  have hr := monoReadyEx .NONE (by simp) (by simp) .NONE .NONE .FM
  obtain ⟨m₁, s', J, n', kG, kO, A, h1, h2, h3, h4, _⟩ := mono_eval hr
  have e1 : s'.nsoot = 2 := by rw [h3]; simp [stEx2_eq', stateAfter, argsEx2]
  have e2 : s'.Ntar = 0 := by rw [h3]; simp [stEx2_eq', stateAfter, argsEx2, argsEx]
  have e3 : s'.yPah.length = 6 := by rw [h3]; exact stEx2_yPah
  have e4 : s'.wts = [1E15] := by rw [h3]; norm_num [monoW]
  have e5 : s'.absc = [1E-8 / 1E15] := by rw [h3]; norm_num [monoA]
  have hz := monoReadyZero .NONE (by simp) (by simp) .NONE .NONE .FM s' _ _ e1 e2 e3 e4 e5
  obtain ⟨m₂, s₂, J₂, n₂, _, _, _, g1, g2, g3, g4, _, _, _, _, _, _, _, _, g8⟩ := mono_eval hz
  have hz' := monoReadyZero .NONE (by simp) (by simp) .NONE .NONE .FM (State.mk' 2 0) 0 0 rfl rfl
    (by simp [State.mk', nPah]) rfl rfl
  obtain ⟨m₃, s₃, J₃, n₃, _, _, _, k1, k2, k3, k4, _, _, _, _, _, _, _, _, k8⟩ := mono_eval hz'
  have j2 : J₂ = 0 := (Nucl.rate_inv g2).2.2.1 rfl
  have j3 : J₃ = 0 := (Nucl.rate_inv k2).2.2.1 rfl
  obtain ⟨hw1, hsp⟩ := monoSources_wf hr.wf h1
  refine ⟨s', m₁, m₂, m₃, s₂, s₃, _, h1, by rw [setState_zero s' e1 e2 e3], ?_, by
    rw [setState_zero _ rfl rfl (by simp [State.mk', nPah])], k1, by rw [g8]; rfl, ?_, ?_⟩
  · rw [monoSources_canon hw1 (hsp.nsoot.trans rfl), hsp.canon_eq, ← monoSources_canon hr.wf rfl]
    exact g1
  · have hph : State.Phys s₂ := by
      rw [g3]; exact (hz.gas.acc.upd g4 _ _).phys
    have hm : mmin < 1E-8 / 1E15 := by norm_num [mmin]
    have hK : 0 < (Coag.new .FM).val s₂ (1E-8 / 1E15) (1E-8 / 1E15) := by
      rw [Coag.val, if_neg (by push Not; exact ⟨hm, hm⟩)]
      exact fmVal_pos hph (by norm_num [Coag.new]) (mmin_pos.trans hm) (mmin_pos.trans hm)
    rw [j2]
    have : monoA 0 0 (1E-8 / 1E15) = 1E-8 / 1E15 := by simp [monoA]
    have hw : monoW 0 (1E15) = 1E15 := by simp [monoW]
    rw [this, hw]
    show 0 - (Coag.new .FM).val s₂ (1E-8 / 1E15) (1E-8 / 1E15) * 1E15 ^ 2 / 2 < 0
    have : 0 < (Coag.new .FM).val s₂ (1E-8 / 1E15) (1E-8 / 1E15) * 1E15 ^ 2 / 2 := by positivity
    linarith
  · rw [k8, j3]; simp [monoW]

/-! ## C51 -/

/-- **C51 (MONO).** No soot, no stored weight, no acetylene, benzene, PAH or tar: all soot and gas sources
are zero. -/
theorem C51_mono (m : Model) (s : State) (a : ℝ) (h : MonoReady m s 0 0 0 a)
    (h1 : Absent s .C2H2) (h2 : Absent s .C6H6) (h3 : ∀ y ∈ s.yPah, y = 0) (h4 : ∀ y ∈ s.tarVar, y = 0) :
    ∃ m' s', monoSources m s = ok (m', s') ∧ m'.sources.soot = [0, 0] ∧ m'.sources.gas = fun _ => 0 := by
  obtain ⟨m', s', J, n', kG, kO, A, e1, e2, e3, e4, e5, e6, e7, _, _, _, _, e9, e8⟩ := mono_eval h
  have hA : A = 0 := e7.1 rfl
  have hw : monoW 0 0 = 0 := by simp [monoW]
  have hr1 : Ready m { s with wts := [monoW 0 0], absc := [monoA 0 0 a] } :=
    h.toReady.upd h.gas.acc.phys.cMin _ _
  have hJ : J = 0 := (hr1.nucl_zero (ibetaNodes m.coag) (by
    intro _ c mD hc _
    have hp : State.Phys { s with wts := [monoW 0 0], absc := [monoA 0 0 a], cMin := c } :=
      (h.gas.acc.upd hc _ _).phys
    exact ⟨_, ibetaNodes_ok hp h.fm (by simp) mD,
      Finset.sum_nonneg fun i _ => mul_nonneg (abs_nonneg _) (Coag.val_nonneg hp h.fm _ _)⟩) h1 h2 h3 h4 e2).1
  refine ⟨m', s', e1, ?_, ?_⟩
  · rw [e8, hJ, hA, hw]; simp
  · obtain ⟨a1, a2, a3, b1, b2, b3, e⟩ := Model.finish_inv e9
    rw [hJ] at b1; rw [hA] at b2 b3
    simp only [zero_mul, zero_div, mul_zero] at b1 b2 b3
    rw [e, gasRates_zero b1, gasRates_zero b2, gasRates_zero b3]; simp

/-- C51 applies to a constructed model with PAH nucleation on a soot-free state without precursors. -/
example : ∃ m' s', monoSources (exModel .MONO 2 .PAH .HACA .NSC_NEOH .FUCHS) (exSt [0, 0] true) = ok (m', s') ∧
    m'.sources.soot = [0, 0] := by
  have hr := exReady .MONO 2 .PAH (by simp) (by simp) .HACA .NSC_NEOH .FUCHS [0, 0] true rfl (by simp) (by simp)
  obtain ⟨m', s', h, h1, _⟩ := C51_mono _ _ 0
    { hr with psd := rfl, notar := rfl, len := rfl, soot := exSt_sootVar _ (by simp), wts := by simp [exSt_wts], absc := by simp [exSt_absc] }
    (exSt_absent _).1 (exSt_absent _).2 (exSt_noPah _) (exSt_noTar _ _)
  exact ⟨m', s', h, h1⟩

end Soot
