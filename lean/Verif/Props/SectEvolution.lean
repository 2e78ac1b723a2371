import Verif.Props.Evolution
import Verif.Props.SectCont
import Verif.Props.SectOrder
import Verif.Props.SectEq

/-!
# The evolution of the sections (C107, C108)

A reactor hands its section contents to `setState`, calls `setSourceTerms` and lets the contents change at the reported rates.  This file states what such an
evolution is, the gas following any history, and proves that no section becomes negative, what coagulation keeps, and when the evolution exists for all times
and is determined by its start.
-/

namespace Soot

open Res Real Filter Topology Cont
open scoped Classical

/-- Specification: the section contents `N` evolve on `[0, τ]`.  At every instant `setState` accepts the gas `a t` with the contents `N t`, whatever the object
`o t` held before, `setSourceTerms` succeeds with the process-wide factor `G t`, and the contents change at the rates it reports. -/
structure SectEvolution (m : Model) (o : ℝ → State) (G : ℝ → Option ℝ) (a : ℝ → SetArgs) (τ : ℝ) (N : ℝ → Fin m.nsoot → ℝ) : Prop where
  cont : ContinuousOn N (Set.Icc 0 τ)
  rate : ∀ t ∈ Set.Ico 0 τ, ∃ s m' s' g', setState (o t) { a t with sootVar := List.ofFn (N t) } = (s, ok ()) ∧ sectSources m (G t) s = ok (m', s', g') ∧
    HasDerivWithinAt N (fun k => m'.sources.soot.getD k 0) (Set.Ici t) t

/-- Every accepted call along the history leaves a state the model can be evaluated in. -/
def SectCalls (m : Model) (o : ℝ → State) (a : ℝ → SetArgs) (τ : ℝ) : Prop :=
  ∀ t ∈ Set.Ico 0 τ, ∀ v : Fin m.nsoot → ℝ, ∀ s, setState (o t) { a t with sootVar := List.ofFn v } = (s, ok ()) → SectReady m s

/-! ## Curves with a right derivative -/

/-- A curve whose components are pushed upwards where they are negative stays non-negative. -/
theorem nonneg_of_inward {n : ℕ} {N d : ℝ → Fin n → ℝ} {τ : ℝ} (hc : ContinuousOn N (Set.Icc 0 τ))
    (hd : ∀ t ∈ Set.Ico 0 τ, HasDerivWithinAt N (d t) (Set.Ici t) t) (k : Fin n) (hin : ∀ t ∈ Set.Ico 0 τ, N t k < 0 → 0 ≤ d t k) (h0 : 0 ≤ N 0 k) :
    ∀ t ∈ Set.Icc 0 τ, 0 ≤ N t k := by
  intro t ht
  by_contra hneg
  push Not at hneg
  have t0 : 0 ≤ t := ht.1
  set ε : ℝ := -N t k / (2 * (1 + t)) with hε
  have ε0 : 0 < ε := div_pos (by linarith) (by linarith)
  have hf : ∀ x : ℝ, HasDerivAt (fun t => -(ε * (1 + t))) (-ε) x := fun x => by
    simpa using (((hasDerivAt_id x).const_add 1).const_mul ε).fun_neg
  have := image_le_of_deriv_right_lt_deriv_boundary' (f := fun t => -(ε * (1 + t))) (f' := fun _ => -ε) (a := 0) (b := τ)
    (B := fun t => N t k) (B' := fun t => d t k) (fun x _ => (hf x).continuousAt.continuousWithinAt) (fun x _ => (hf x).hasDerivWithinAt)
    (by simp only [add_zero, mul_one]; linarith) (continuousOn_pi.1 hc k) (fun x hx => hasDerivWithinAt_pi.1 (hd x hx) k)
    (fun x hx e => by
      have hx0 : 0 ≤ x := hx.1
      have : N x k < 0 := by rw [← e]; have := mul_pos ε0 (show 0 < 1 + x by linarith); linarith
      linarith [hin x hx this]) ht
  have e : ε * (1 + t) = -N t k / 2 := by rw [hε]; field_simp
  simp only [e] at this
  linarith

/-- A non-positive right derivative makes a continuous function fall. -/
theorem antitone_of_right {f f' : ℝ → ℝ} {τ : ℝ} (hc : ContinuousOn f (Set.Icc 0 τ)) (hd : ∀ t ∈ Set.Ico 0 τ, HasDerivWithinAt f (f' t) (Set.Ici t) t)
    (h : ∀ t ∈ Set.Ico 0 τ, f' t ≤ 0) : AntitoneOn f (Set.Icc 0 τ) := by
  intro x hx y hy hxy
  have hs : Set.Icc x y ⊆ Set.Icc 0 τ := Set.Icc_subset_Icc hx.1 hy.2
  have hs' : Set.Ico x y ⊆ Set.Ico 0 τ := Set.Ico_subset_Ico hx.1 hy.2
  exact image_le_of_deriv_right_le_deriv_boundary (f := f) (f' := f') (B := fun _ => f x) (B' := fun _ => 0) (a := x) (b := y) (hc.mono hs)
    (fun t ht => hd t (hs' ht)) le_rfl continuousOn_const (fun t _ => hasDerivWithinAt_const _ _ _) (fun t ht => h t (hs' ht)) ⟨hxy, le_rfl⟩

/-! ## Any history of the gas -/

/-- What `setState` stores of the contents. -/
theorem contents_stored {o s : State} {a : SetArgs} {n : ℕ} {v : Fin n → ℝ} (h : setState o { a with sootVar := List.ofFn v } = (s, ok ())) (k : Fin n) :
    s.sootVar.getD k 0 = max (v k) 0 := by
  have := (C02_setState_valid o { a with sootVar := List.ofFn v } (by rw [h])).2.2.2.1.1
  rw [h] at this
  simp only at this
  rw [this, List.getD_eq_getElem _ _ (by simp), List.getElem_map, List.getElem_ofFn]

/-- **C107 (no section becomes negative).** Whatever the mechanisms and whatever the gas goes through, sections that are not negative at the start are never
negative. -/
theorem C107_sect_nonneg (m : Model) (o : ℝ → State) (G : ℝ → Option ℝ) (a : ℝ → SetArgs) (τ : ℝ) (N : ℝ → Fin m.nsoot → ℝ) (hg : GeoBins m)
    (hG : ∀ t ∈ Set.Ico 0 τ, OwnFactor m (G t)) (hr : SectCalls m o a τ) (h : SectEvolution m o G a τ N) (k : Fin m.nsoot) (h0 : 0 ≤ N 0 k) :
    ∀ t ∈ Set.Icc 0 τ, 0 ≤ N t k := by
  obtain ⟨hc, h⟩ := h
  choose s m' s' g' r1 r2 r3 using h
  set d : ℝ → Fin m.nsoot → ℝ := fun t k => if ht : t ∈ Set.Ico 0 τ then (m' t ht).sources.soot.getD k 0 else 0 with hdd
  have hd : ∀ t (ht : t ∈ Set.Ico 0 τ), d t = fun k : Fin m.nsoot => (m' t ht).sources.soot.getD k 0 := fun t ht => by
    funext k; simp only [hdd, dif_pos ht]
  refine nonneg_of_inward (d := d) hc (fun t ht => hd t ht ▸ r3 t ht) k (fun t ht hn => ?_) h0
  obtain ⟨m'', s'', g'', J, n', kG, kO, β, mD, nD, e1, -, -, -, -, -, h7⟩ := C71_sect_positive m (s t ht) (G t) (hr t ht _ _ (r1 t ht)) hg (hG t ht)
  have e := (r2 t ht).symm.trans e1
  simp only [ok.injEq, Prod.mk.injEq] at e
  rw [hd t ht]
  beta_reduce
  rw [e.1]
  refine (h7 k k.2).2.2.1 ?_
  rw [contents_stored (r1 t ht) k, max_eq_right hn.le]

/-- **C107 (coagulation alone).** With coagulation alone, whatever the gas goes through, the mass in the sections is the same at all times, their number and every
moment of order at most one never rises, and no moment of order one or higher ever falls. -/
theorem C107_sect_coagulation (m : Model) (o : ℝ → State) (G : ℝ → Option ℝ) (a : ℝ → SetArgs) (τ : ℝ) (N : ℝ → Fin m.nsoot → ℝ) (hg : GeoBins m)
    (hG : ∀ t ∈ Set.Ico 0 τ, OwnFactor m (G t)) (hr : SectCalls m o a τ) (hn : m.nucl.mech = .NONE) (hgr : m.grow.mech = .NONE) (ho : m.oxid.cls = .NONE)
    (h : SectEvolution m o G a τ N) :
    (∀ t ∈ Set.Icc 0 τ, ∑ k : Fin m.nsoot, m.mBins.getD k 0 * N t k = ∑ k : Fin m.nsoot, m.mBins.getD k 0 * N 0 k) ∧
    AntitoneOn (fun t => ∑ k, N t k) (Set.Icc 0 τ) ∧
    (∀ p : ℝ, 0 ≤ p → p ≤ 1 → AntitoneOn (fun t => ∑ k : Fin m.nsoot, m.mBins.getD k 0 ^ p * N t k) (Set.Icc 0 τ)) ∧
    (∀ p : ℝ, 1 ≤ p → MonotoneOn (fun t => ∑ k : Fin m.nsoot, m.mBins.getD k 0 ^ p * N t k) (Set.Icc 0 τ)) := by
  obtain ⟨hc, h⟩ := h
  choose s m' s' g' r1 r2 r3 using h
  set d : ℝ → Fin m.nsoot → ℝ := fun t k => if ht : t ∈ Set.Ico 0 τ then (m' t ht).sources.soot.getD k 0 else 0 with hdd
  have hd : ∀ t (ht : t ∈ Set.Ico 0 τ), d t = fun k : Fin m.nsoot => (m' t ht).sources.soot.getD k 0 := fun t ht => by
    funext k; simp only [hdd, dif_pos ht]
  have cT : ∀ φ : ℝ → ℝ, ContinuousOn (fun t => ∑ k : Fin m.nsoot, φ (m.mBins.getD k 0) * N t k) (Set.Icc 0 τ) := fun φ =>
    continuousOn_finsetSum _ fun k _ => continuousOn_const.mul (continuousOn_pi.1 hc k)
  have dT : ∀ (φ : ℝ → ℝ), ∀ t ∈ Set.Ico 0 τ, HasDerivWithinAt (fun t => ∑ k : Fin m.nsoot, φ (m.mBins.getD k 0) * N t k) (∑ k : Fin m.nsoot, φ (m.mBins.getD k 0) * d t k)
      (Set.Ici t) t := fun φ t ht =>
    HasDerivWithinAt.fun_sum fun k _ => (hasDerivWithinAt_pi.1 (hd t ht ▸ r3 t ht) k).const_mul _
  have tot : ∀ t (ht : t ∈ Set.Ico 0 τ), ∃ T : (ℝ → ℝ) → ℝ, (∀ φ : ℝ → ℝ, ∑ k : Fin m.nsoot, φ (m.mBins.getD k 0) * d t k = T φ) ∧
      T (fun _ => 1) ≤ 0 ∧ T (fun x => x) = 0 ∧ (∀ p : ℝ, 0 ≤ p → p ≤ 1 → T (fun x => x ^ p) ≤ 0) ∧ (∀ p : ℝ, 1 ≤ p → 0 ≤ T (fun x => x ^ p)) := by
    intro t ht
    obtain ⟨m'', s'', g'', e1, q1, -, q2, q3, q4⟩ := C95_coag_only m (s t ht) (G t) (hr t ht _ _ (r1 t ht)) hg (hG t ht) hn hgr ho
    have e := (r2 t ht).symm.trans e1
    simp only [ok.injEq, Prod.mk.injEq] at e
    refine ⟨fun φ => total m.nsoot (fun k => m.mBins.getD k 0) φ (fun k => m''.sources.soot.getD k 0), fun φ => ?_, q1, q2, q3, q4⟩
    rw [hd t ht, e.1]
    exact Fin.sum_univ_eq_sum_range (fun k => φ (m.mBins.getD k 0) * m''.sources.soot.getD k 0) m.nsoot
  have anti : ∀ φ : ℝ → ℝ, (∀ t ∈ Set.Ico 0 τ, ∑ k : Fin m.nsoot, φ (m.mBins.getD k 0) * d t k ≤ 0) →
      AntitoneOn (fun t => ∑ k : Fin m.nsoot, φ (m.mBins.getD k 0) * N t k) (Set.Icc 0 τ) := fun φ hφ => antitone_of_right (cT φ) (dT φ) hφ
  have mono : ∀ φ : ℝ → ℝ, (∀ t ∈ Set.Ico 0 τ, 0 ≤ ∑ k : Fin m.nsoot, φ (m.mBins.getD k 0) * d t k) →
      MonotoneOn (fun t => ∑ k : Fin m.nsoot, φ (m.mBins.getD k 0) * N t k) (Set.Icc 0 τ) := fun φ hφ x hx y hy hxy => by
    have := antitone_of_right (f := fun t => -∑ k : Fin m.nsoot, φ (m.mBins.getD k 0) * N t k) (f' := fun t => -∑ k : Fin m.nsoot, φ (m.mBins.getD k 0) * d t k) (cT φ).neg
      (fun t ht => (dT φ t ht).neg) (fun t ht => neg_nonpos.2 (hφ t ht)) hx hy hxy
    simpa using this
  refine ⟨fun t ht => ?_, ?_, fun p p0 p1 => ?_, fun p p1 => ?_⟩
  · have h0 : (0 : ℝ) ∈ Set.Icc 0 τ := ⟨le_rfl, ht.1.trans ht.2⟩
    have z : ∀ t ∈ Set.Ico 0 τ, ∑ k : Fin m.nsoot, m.mBins.getD k 0 * d t k = 0 := fun t ht => by
      obtain ⟨T, hT, -, q, -⟩ := tot t ht
      exact (hT fun x => x).trans q
    exact le_antisymm (anti (fun x => x) (fun t ht => (z t ht).le) h0 ht ht.1) (mono (fun x => x) (fun t ht => (z t ht).ge) h0 ht ht.1)
  · have := anti (fun _ => 1) fun t ht => by
      obtain ⟨T, hT, q, -⟩ := tot t ht
      exact (hT _).trans_le q
    simpa using this
  · exact anti (fun x => x ^ p) fun t ht => by
      obtain ⟨T, hT, -, -, q, -⟩ := tot t ht
      exact (hT _).trans_le (q p p0 p1)
  · exact mono (fun x => x ^ p) fun t ht => by
      obtain ⟨T, hT, -, -, -, q⟩ := tot t ht
      exact (q p p1).trans_eq (hT _).symm

/-! ## A gas that stays as it is -/

/-- `setState` of the object `o` with the gas `a` accepts any contents, and the model can be evaluated in the state it leaves. -/
def SectGas (m : Model) (o : State) (a : SetArgs) : Prop :=
  ∀ v : Fin m.nsoot → ℝ, ∃ s, setState o { a with sootVar := List.ofFn v } = (s, ok ()) ∧ SectReady m s

theorem SectGas.calls {m : Model} {o : State} {a : SetArgs} (h : SectGas m o a) (τ : ℝ) : SectCalls m (fun _ => o) (fun _ => a) τ := by
  intro t _ v s hs
  obtain ⟨s', e, hr⟩ := h v
  rw [hs] at e
  simp only [Prod.mk.injEq, and_true] at e
  exact e ▸ hr

/-- Two accepted calls that differ in the contents leave states that differ in the contents. -/
theorem setState_contents {o s s' : State} {a : SetArgs} {l l' : List ℝ} (h : setState o { a with sootVar := l } = (s, ok ()))
    (h' : setState o { a with sootVar := l' } = (s', ok ())) : s' = { s with sootVar := s'.sootVar } := by
  obtain ⟨a1, a2⟩ := setState_ok_range (s := o) (a := { a with sootVar := l }) (by rw [h])
  obtain ⟨b1, b2⟩ := setState_ok_range (s := o) (a := { a with sootVar := l' }) (by rw [h'])
  have e := C01_setState_accepts o { a with sootVar := l } a1 a2 ((C01_setState_iff o _ a1 a2).1 (by rw [h]))
  have e' := C01_setState_accepts o { a with sootVar := l' } b1 b2 ((C01_setState_iff o _ b1 b2).1 (by rw [h']))
  rw [h] at e
  rw [h'] at e'
  simp only [Prod.mk.injEq, and_true] at e e'
  rw [e, e']
  rfl

/-- Contents as a sequence. -/
noncomputable def ext {n : ℕ} (v : Fin n → ℝ) (i : ℕ) : ℝ := if h : i < n then v ⟨i, h⟩ else 0

theorem ext_fin {n : ℕ} (v : Fin n → ℝ) (k : Fin n) : ext v k = v k := by simp [ext]

/-- The sources as a function of the contents when no rate depends on the contents. -/
noncomputable def sectF (m : Model) (β : ℝ → ℝ → ℝ) (J mN kG kO : ℝ) (v : Fin m.nsoot → ℝ) (k : Fin m.nsoot) : ℝ :=
  SectDoc.source m.nsoot (fun k => m.mBins.getD k 0) (ext v) β J mN kG kO 0 0 k

theorem SectDoc.source_congr {n : ℕ} {b N N' : ℕ → ℝ} {β : ℝ → ℝ → ℝ} {J mN kG kG' kO : ℝ} (hN : ∀ k < n, N k = N' k)
    (hG : ∀ k < n, kG * SectDoc.area (b k) * N k = kG' * SectDoc.area (b k) * N k) {k : ℕ} (hk : k < n) :
    SectDoc.source n b N β J mN kG kO 0 0 k = SectDoc.source n b N' β J mN kG' kO 0 0 k := by
  have c : SectDoc.coag n b β N k = SectDoc.coag n b β N' k := by
    unfold SectDoc.coag
    rw [hN k hk]
    congr 2
    · refine Finset.sum_congr rfl fun i hi => Finset.sum_congr rfl fun j hj => ?_
      rw [hN i (Finset.mem_range.1 hi), hN j (Finset.mem_range.1 hj)]
    · exact Finset.sum_congr rfl fun j hj => by rw [hN j (Finset.mem_range.1 hj)]
  have o : SectDoc.oxidation n b (fun k => kO * SectDoc.area (b k) * N k) k = SectDoc.oxidation n b (fun k => kO * SectDoc.area (b k) * N' k) k := by
    unfold SectDoc.oxidation
    by_cases h : k + 1 < n
    · simp only [if_pos h, hN k hk, hN _ h]
    · simp only [if_neg h, hN k hk]
  rw [SectDoc.source, SectDoc.source, c, o, growth_congr (g := fun k => kG * SectDoc.area (b k) * N k) (g' := fun k => kG' * SectDoc.area (b k) * N' k)
    (fun k hk => by rw [hG k hk, hN k hk]) hk, growth_congr (g := fun k => β 0 (b k) * N k * 0 * 0) (g' := fun k => β 0 (b k) * N' k * 0 * 0)
    (fun k hk => by simp) hk]

/-- Growth rate per area where there is soot. -/
noncomputable def growRate (g : GrowMech) (s : State) : ℝ := growFlux g s 1

theorem growFlux_linear {g : GrowMech} (h1 : g ≠ .LL) (s : State) (A : ℝ) : growFlux g s A = growRate g s * A := by
  cases g <;> simp [growFlux, growRate] at h1 ⊢

theorem sectF_ok {m : Model} {o : State} {a : SetArgs} (h : SectGas m o a) (hg : GeoBins m) (hn : m.nucl.mech ≠ .PAH) (hL : m.grow.mech ≠ .LL)
    (hH : m.grow.mech ≠ .HACA) (ho : m.oxid.cls ≠ .HACA) :
    ∃ β J mN kG kO, (∀ x y, 0 ≤ β x y) ∧ (∀ x y, β x y = β y x) ∧ 0 ≤ J ∧ 0 ≤ mN ∧ 0 ≤ kG ∧ 0 ≤ kO ∧
      ∀ (v : Fin m.nsoot → ℝ) (s : State) (glob : Option ℝ), setState o { a with sootVar := List.ofFn v } = (s, ok ()) → OwnFactor m glob →
        ∃ m' s' g', sectSources m glob s = ok (m', s', g') ∧
          ∀ k : Fin m.nsoot, m'.sources.soot.getD k 0 = sectF m β J mN kG kO (fun k => max (v k) 0) k := by
  obtain ⟨s0, e0, r0⟩ := h fun _ => 0
  obtain ⟨J, J1, -⟩ := C103_nucleation_continuous m.nucl.mech hn (sectIbeta m) (fun _ : Unit => s0) () (fun _ => r0.gas) continuousAt_const
    continuousAt_const continuousAt_const continuousAt_const (fun _ => continuousAt_const)
    (fun h => ⟨fun _ => r0.tar h, continuousAt_const⟩) (fun h => ⟨fun _ => r0.mtar h, continuousAt_const⟩)
  rw [← r0.wf.nucl.new hn] at J1
  have J1 : m.nucl.rate (sectIbeta m) s0 = ok (J (), m.nucl, s0) := J1 ()
  obtain ⟨_, s1, _, J', n', kG, kO, β, mD, nD, -, -, q1, q2, q3, q4, q5, q6, ⟨p1, p2, p3, p4, -, -, p7⟩, -, -⟩ := C70_sect_equations m s0 none r0 hg (Or.inl rfl)
  rw [J1] at q1
  simp only [ok.injEq, Prod.mk.injEq] at q1
  obtain ⟨rfl, rfl, rfl⟩ := q1
  have hb : β = m.coag.val s0 := by
    funext x y
    have := (q5 x y).symm.trans (r0.coag x y)
    simpa using this
  have := Na_pos; have := gasMW_pos .C
  refine ⟨β, J (), s0.cMin * (gasMW .C / Na), growRate m.grow.mech s0, kO, p7, fun x y => ?_, p1, by positivity,
    growFlux_nonneg r0.gas _ zero_le_one, p4, fun v s glob hs hgl => ?_⟩
  · have := (q5 x y).symm.trans ((C12_kernel_symmetric m.coag s0 x y).trans (q5 y x))
    simpa using this
  obtain ⟨s', e', r⟩ := h v
  rw [hs] at e'
  simp only [Prod.mk.injEq, and_true] at e'
  subst e'
  have es := setState_contents e0 hs
  set l := s.sootVar with hl
  have hJ := nucl_rate_soot hn J1 l s0.wts s0.absc
  have hO := oxid_rate_soot ho r0.sized (l := l) (w := s0.wts) (a := s0.absc) (by have := r.sized; rwa [es] at this)
  have es' : s = { s0 with sootVar := l, wts := s0.wts, absc := s0.absc } := es
  rw [← es'] at hJ hO
  obtain ⟨m', s', g', J', n', kG', kO', β', mD', nD', w1, -, w2, w3, w4, w5, w6, w7, -, -, w8⟩ := C70_sect_equations m s glob r hg hgl
  rw [hJ] at w2
  simp only [ok.injEq, Prod.mk.injEq] at w2
  obtain ⟨rfl, rfl, rfl⟩ := w2
  rw [hO, q4] at w5
  simp only [ok.injEq] at w5
  subst w5
  rw [if_neg hn] at w7
  obtain ⟨rfl, rfl⟩ := w7
  have hb' : β' = β := by
    rw [hb]
    funext x y
    have := (w6 x y).symm.trans (r.coag x y)
    rw [es] at this
    exact ok.inj this
  refine ⟨m', s, g', w1, fun k => ?_⟩
  have ec : s.cMin = s0.cMin := by rw [es]
  rw [w8 k k.2, hb', ec, sectF]
  refine SectDoc.source_congr (fun i hi => ?_) (fun i hi => ?_) k.2
  · have := contents_stored hs ⟨i, hi⟩
    simp only at this
    rw [this, ext, dif_pos hi]
  · obtain ⟨b0, b1⟩ := binArea_le r i
    have eA : ∀ c : ℝ, c * binArea m s i = c * SectDoc.area (m.mBins.getD i 0) * s.sootVar.getD i 0 := by
      intro c
      rw [binArea, if_pos hi, SectDoc.area, twothird]; ring
    rw [← eA, ← eA]
    have A0 := areaFn_nonneg (numOf_nonneg (x := m.ctx) r.gas.acc) (massOf_nonneg r.gas.acc r.sized)
    rw [r.wf.grow] at w4
    have q := growFlux_eq hH r.gas r.sized w4
    rw [growFlux_linear hL] at q
    have ge : growRate m.grow.mech s = growRate m.grow.mech s0 := by rw [es, growRate, growFlux_soot, growRate]
    rcases A0.eq_or_lt with z | z
    · have : binArea m s i = 0 := le_antisymm (b1.trans z.symm.le) b0
      rw [this]; simp
    · rw [mul_right_cancel₀ z.ne' q, ge]

/-! ### The field -/

theorem ext_smooth (n i : ℕ) : ContDiff ℝ 1 (fun v : Fin n → ℝ => ext v i) := by
  unfold ext
  split_ifs
  · exact contDiff_apply _ _ _
  · exact contDiff_const

theorem sectF_smooth (m : Model) (β : ℝ → ℝ → ℝ) (J mN kG kO : ℝ) : ContDiff ℝ 1 (sectF m β J mN kG kO) := by
  refine contDiff_pi.2 fun k => ?_
  have e := ext_smooth m.nsoot
  have g : ∀ c : ℕ → ℝ, ContDiff ℝ 1 (fun v : Fin m.nsoot → ℝ => SectDoc.growth m.nsoot (fun k => m.mBins.getD k 0) (fun k => c k * ext v k) k) := fun c => by
    unfold SectDoc.growth
    refine ContDiff.add ?_ ?_
    · split_ifs
      · exact (contDiff_const.mul (e _)).div_const _
      · exact contDiff_const
    · split_ifs
      · exact ((contDiff_const.mul (e _)).div_const _).neg
      · exact (contDiff_const.mul (e _)).div_const _
  have x : ∀ c : ℕ → ℝ, ContDiff ℝ 1 (fun v : Fin m.nsoot → ℝ => SectDoc.oxidation m.nsoot (fun k => m.mBins.getD k 0) (fun k => c k * ext v k) k) := fun c => by
    unfold SectDoc.oxidation
    refine ContDiff.sub ?_ ?_
    · split_ifs
      · exact (contDiff_const.mul (e _)).div_const _
      · exact contDiff_const
    · split_ifs
      · exact (contDiff_const.mul (e _)).div_const _
      · exact (contDiff_const.mul (e _)).div_const _
  have c : ContDiff ℝ 1 (fun v : Fin m.nsoot → ℝ => SectDoc.coag m.nsoot (fun k => m.mBins.getD k 0) β (ext v) k) := by
    unfold SectDoc.coag
    refine ContDiff.sub (contDiff_const.mul (ContDiff.sum fun i _ => ContDiff.sum fun j _ => ?_)) ((e _).mul (ContDiff.sum fun j _ => contDiff_const.mul (e _)))
    exact ((contDiff_const.mul (e _)).mul (e _)).mul contDiff_const
  have z : ∀ v : Fin m.nsoot → ℝ, SectDoc.growth m.nsoot (fun k => m.mBins.getD k 0) (fun i => β 0 (m.mBins.getD i 0) * ext v i * 0 * 0) k = 0 := fun v => by
    simp [SectDoc.growth]
  unfold sectF SectDoc.source
  simp only [z, add_zero]
  exact ((contDiff_const.add (g _)).add (x _)).add c

/-- The total number changes at most by nucleation and by what the growth of the last section adds. -/
theorem sectF_total {m : Model} (hb : Bins m.nsoot m.mBins) {β : ℝ → ℝ → ℝ} (h1 : ∀ x y, 0 ≤ β x y) (h2 : ∀ x y, β x y = β y x) {J mN kG kO : ℝ} (hJ : 0 ≤ J)
    (hmN : 0 ≤ mN) (hG : 0 ≤ kG) (hO : 0 ≤ kO) :
    ∃ C, 0 ≤ C ∧ ∀ v : Fin m.nsoot → ℝ, (∀ k, 0 ≤ v k) → ∑ k, sectF m β J mN kG kO v k ≤ C * (1 + ∑ k, v k) := by
  set b : ℕ → ℝ := fun k => m.mBins.getD k 0 with hbd
  set n := m.nsoot with hnd
  have n2 : 2 ≤ n := hb.two
  have hp : ∀ k < n, 0 < b k := fun k hk => hb.pos hk
  have hm : ∀ k, k + 1 < n → b k < b (k + 1) := fun k hk => hb.mono k hk
  have hA : ∀ k < n, 0 ≤ SectDoc.area (b k) := fun k hk => SectDoc.area_nonneg (hp k hk).le
  have b0 := hp 0 (by omega)
  have bt := hp (n - 1) (by omega)
  have At := hA (n - 1) (by omega)
  refine ⟨J * mN / b 0 + kG * SectDoc.area (b (n - 1)) / b (n - 1), by positivity, fun v hv => ?_⟩
  have e0 : ∀ i, 0 ≤ ext v i := fun i => by unfold ext; split_ifs <;> simp [hv]
  have S0 : 0 ≤ ∑ k, v k := Finset.sum_nonneg fun k _ => hv k
  have top : ext v (n - 1) ≤ ∑ k, v k := by
    rw [ext, dif_pos (by omega)]
    exact Finset.single_le_sum (f := v) (fun k _ => hv k) (Finset.mem_univ _)
  have eT : ∑ k, sectF m β J mN kG kO v k = total n b (fun _ => 1) (SectDoc.source n b (ext v) β J mN kG kO 0 0) := by
    simp only [total, one_mul]
    exact Fin.sum_univ_eq_sum_range (fun k => SectDoc.source n b (ext v) β J mN kG kO 0 0 k) n
  have sp : total n b (fun _ => 1) (SectDoc.source n b (ext v) β J mN kG kO 0 0) =
      J * mN / b 0 + total n b (fun _ => 1) (SectDoc.growth n b (fun k => kG * SectDoc.area (b k) * ext v k)) +
      total n b (fun _ => 1) (SectDoc.oxidation n b (fun k => kO * SectDoc.area (b k) * ext v k)) + total n b (fun _ => 1) (SectDoc.coag n b β (ext v)) := by
    have z : ∀ k, SectDoc.growth n b (fun i => β 0 (b i) * ext v i * 0 * 0) k = 0 := fun k => by simp [SectDoc.growth]
    have nu : J * mN / b 0 = ∑ k ∈ Finset.range n, if k = 0 then J * mN / b 0 else 0 := by
      rw [Finset.sum_ite_eq' (Finset.range n) 0 (fun _ => J * mN / b 0), if_pos (Finset.mem_range.2 (by omega))]
    rw [nu]
    simp only [total, one_mul, SectDoc.source, z, add_zero, Finset.sum_add_distrib]
  have gr : total n b (fun _ => 1) (SectDoc.growth n b (fun k => kG * SectDoc.area (b k) * ext v k)) = kG * SectDoc.area (b (n - 1)) * ext v (n - 1) / b (n - 1) := by
    rw [total_growth]
    rw [Finset.sum_eq_single (n - 1)]
    · rw [if_neg (by omega)]; ring
    · intro k hk hne
      have := Finset.mem_range.1 hk
      rw [if_pos (by omega)]; simp
    · intro hh; exact absurd (Finset.mem_range.2 (by omega)) hh
  have ox : total n b (fun _ => 1) (SectDoc.oxidation n b (fun k => kO * SectDoc.area (b k) * ext v k)) ≤ 0 := by
    rw [total_oxidation]
    refine neg_nonpos.2 (Finset.sum_nonneg fun k hk => ?_)
    have hk := Finset.mem_range.1 hk
    refine mul_nonneg (mul_nonneg (mul_nonneg hO (hA k hk)) (e0 k)) ?_
    split_ifs
    · simp
    · exact div_nonneg zero_le_one (hp k hk).le
  have co : total n b (fun _ => 1) (SectDoc.coag n b β (ext v)) ≤ 0 :=
    coag_concave n2 hp hm h2 h1 (fun k _ => e0 k) (concaveOn_const 1 (convex_Ici 0)) zero_le_one
  rw [eT, sp, gr]
  have g2 : kG * SectDoc.area (b (n - 1)) * ext v (n - 1) / b (n - 1) ≤ kG * SectDoc.area (b (n - 1)) / b (n - 1) * (∑ k, v k) := by
    rw [mul_div_right_comm]
    exact mul_le_mul_of_nonneg_left top (by positivity)
  have g3 : 0 ≤ J * mN / b 0 * ∑ k, v k := by positivity
  have g4 : 0 ≤ kG * SectDoc.area (b (n - 1)) / b (n - 1) := by positivity
  nlinarith

theorem sectF_inward {m : Model} (hb : Bins m.nsoot m.mBins) {β : ℝ → ℝ → ℝ} (h1 : ∀ x y, 0 ≤ β x y) {J mN kG kO : ℝ} (hJ : 0 ≤ J)
    (hmN : 0 ≤ mN) (hG : 0 ≤ kG) (hO : 0 ≤ kO) {v : Fin m.nsoot → ℝ} (hv : ∀ k, 0 ≤ v k) {k : Fin m.nsoot} (hk : v k = 0) : 0 ≤ sectF m β J mN kG kO v k := by
  have e0 : ∀ i, 0 ≤ ext v i := fun i => by unfold ext; split_ifs <;> simp [hv]
  have := SectDoc.source_lower (n := m.nsoot) (b := fun k => m.mBins.getD k 0) (N := ext v) (β := β) (J := J) (mN := mN) (kG := kG) (kO := kO) (mD := 0) (nD := 0)
    (fun k hk => hb.mono k hk) (fun k hk => hb.pos hk) (fun k _ => e0 k) h1 hJ hmN hG hO le_rfl le_rfl k.2
  rw [ext_fin, hk, zero_mul, neg_zero] at this
  exact this

/-- **C108 (one evolution only).** In a gas that stays as it is, with no rate depending on the contents, two evolutions that start with the same non-negative
contents are the same. -/
theorem C108_sect_unique_partial (m : Model) (o : State) (G : ℝ → Option ℝ) (a : SetArgs) (τ : ℝ) (N₁ N₂ : ℝ → Fin m.nsoot → ℝ) (h : SectGas m o a) (hg : GeoBins m)
    (hG : ∀ t, OwnFactor m (G t)) (hn : m.nucl.mech ≠ .PAH) (hL : m.grow.mech ≠ .LL) (hH : m.grow.mech ≠ .HACA) (ho : m.oxid.cls ≠ .HACA)
    (h1 : SectEvolution m (fun _ => o) G (fun _ => a) τ N₁) (h2 : SectEvolution m (fun _ => o) G (fun _ => a) τ N₂) (h0 : ∀ k, 0 ≤ N₁ 0 k) (e : N₁ 0 = N₂ 0) :
    Set.EqOn N₁ N₂ (Set.Icc 0 τ) := by
  obtain ⟨β, J, mN, kG, kO, q1, q2, q3, q4, q5, q6, q⟩ := sectF_ok h hg hn hL hH ho
  have key : ∀ N, SectEvolution m (fun _ => o) G (fun _ => a) τ N → (∀ k, 0 ≤ N 0 k) → ∀ t ∈ Set.Ico 0 τ,
      HasDerivWithinAt N (sectF m β J mN kG kO (N t)) (Set.Ici t) t := by
    intro N hN hN0 t ht
    obtain ⟨s, m', s', g', r1, r2, r3⟩ := hN.rate t ht
    obtain ⟨m'', s'', g'', w1, w2⟩ := q (N t) s (G t) r1 (hG t)
    have ee := r2.symm.trans w1
    simp only [ok.injEq, Prod.mk.injEq] at ee
    convert r3 using 1
    funext k
    rw [ee.1, w2 k]
    congr 1
    funext i
    exact (max_eq_left (C107_sect_nonneg m _ G _ τ N hg (fun t _ => hG t) (h.calls τ) hN i (hN0 i) t ⟨ht.1, ht.2.le⟩)).symm
  exact curve_unique (U := Set.univ) isOpen_univ h1.cont h2.cont (fun _ _ => trivial) (fun p _ => (sectF_smooth m β J mN kG kO).contDiffAt)
    (fun t ht _ => key N₁ h1 h0 t ht) (fun t ht _ => key N₂ h2 (e ▸ h0) t ht) e

/-- Contents cut to `[0, R]`. -/
noncomputable def cut {n : ℕ} (R : ℝ) (v : Fin n → ℝ) (k : Fin n) : ℝ := max 0 (min (v k) R)

/-- **C108 (there is an evolution).** In a gas that stays as it is, with no rate depending on the contents, there is an evolution from any non-negative contents,
for as long as wanted. -/
theorem C108_sect_exists_partial (m : Model) (o : State) (glob : Option ℝ) (a : SetArgs) (τ : ℝ) (hτ : 0 ≤ τ) (h : SectGas m o a) (hg : GeoBins m)
    (hG : OwnFactor m glob) (hn : m.nucl.mech ≠ .PAH) (hL : m.grow.mech ≠ .LL) (hH : m.grow.mech ≠ .HACA) (ho : m.oxid.cls ≠ .HACA)
    (N₀ : Fin m.nsoot → ℝ) (h0 : ∀ k, 0 ≤ N₀ k) :
    ∃ N, N 0 = N₀ ∧ SectEvolution m (fun _ => o) (fun _ => glob) (fun _ => a) τ N := by
  obtain ⟨β, J, mN, kG, kO, q1, q2, q3, q4, q5, q6, q⟩ := sectF_ok h hg hn hL hH ho
  obtain ⟨s0, -, r0⟩ := h N₀
  obtain ⟨C, C0, hC⟩ := sectF_total r0.bins q1 q2 q3 q4 q5 q6
  set F := sectF m β J mN kG kO with hF
  set S0 := ∑ k, N₀ k with hS0
  have S00 : 0 ≤ S0 := Finset.sum_nonneg fun k _ => h0 k
  set R := (S0 + 1) * exp ((2 * C + 1) * τ) with hR
  have R0 : 0 ≤ R := by positivity
  have sm : ContDiff ℝ 1 F := sectF_smooth m β J mN kG kO
  set D : Set (Fin m.nsoot → ℝ) := Set.Icc 0 (fun _ => R) with hD
  have cD : IsCompact D := isCompact_Icc
  have cutD : ∀ v, cut R v ∈ D := fun v => ⟨fun k => le_max_left _ _, fun k => max_le R0 (min_le_right _ _)⟩
  have cutL : LipschitzWith 1 (cut (n := m.nsoot) R) := by
    refine LipschitzWith.of_dist_le_mul fun v w => ?_
    rw [NNReal.coe_one, one_mul, dist_pi_le_iff dist_nonneg]
    intro k
    refine le_trans ?_ (dist_le_pi_dist v w k)
    have := ((LipschitzWith.id.min_const R).const_max 0).dist_le_mul (v k) (w k)
    simpa [cut] using this
  obtain ⟨K, hK⟩ := (sm.locallyLipschitz.locallyLipschitzOn (s := D)).exists_lipschitzOnWith_of_compact cD
  obtain ⟨L, hL'⟩ := cD.exists_bound_of_continuousOn sm.continuous.continuousOn
  have FL : LipschitzWith K (fun v => F (cut R v)) := by
    have := hK.comp (cutL.lipschitzOnWith (s := Set.univ)) (fun v _ => cutD v)
    rw [mul_one] at this
    exact lipschitzOnWith_univ.1 this
  have pl : IsPicardLindelof (fun _ v => F (cut R v)) (tmin := 0) (tmax := τ) ⟨0, le_rfl, hτ⟩ N₀ (Real.toNNReal L * Real.toNNReal τ) 0 (Real.toNNReal L) K := by
    refine ⟨fun _ _ => FL.lipschitzOnWith, fun _ _ => continuousOn_const, fun _ _ v _ => (hL' _ (cutD v)).trans (Real.le_coe_toNNReal L), ?_⟩
    simp only [sub_zero, sub_self, max_eq_left hτ, NNReal.coe_mul, NNReal.coe_zero, Real.coe_toNNReal _ hτ, le_refl]
  obtain ⟨N, e0, hN⟩ := pl.exists_eq_forall_mem_Icc_hasDerivWithinAt₀
  have e0 : N 0 = N₀ := e0
  have cN : ContinuousOn N (Set.Icc 0 τ) := fun t ht => (hN t ht).continuousWithinAt
  have dN : ∀ t ∈ Set.Ico 0 τ, HasDerivWithinAt N (F (cut R (N t))) (Set.Ici t) t := fun t ht =>
    (hN t ⟨ht.1, ht.2.le⟩).mono_of_mem_nhdsWithin (Icc_mem_nhdsGE_of_mem ht)
  have pos : ∀ k, ∀ t ∈ Set.Icc 0 τ, 0 ≤ N t k := fun k =>
    nonneg_of_inward (d := fun t => F (cut R (N t))) cN dN k (fun t ht hneg => sectF_inward r0.bins q1 q3 q4 q5 q6 (fun i => (cutD (N t)).1 i)
      (by rw [cut, max_eq_left ((min_le_left _ _).trans hneg.le)])) (by rw [e0]; exact h0 k)
  have cutle : ∀ t ∈ Set.Icc 0 τ, ∀ k, cut R (N t) k ≤ N t k := fun t ht k => max_le (pos k t ht) (min_le_left _ _)
  have cS : ContinuousOn (fun t => ∑ k, N t k) (Set.Icc 0 τ) := continuousOn_finsetSum _ fun k _ => continuousOn_pi.1 cN k
  have dS : ∀ t ∈ Set.Ico 0 τ, HasDerivWithinAt (fun t => ∑ k, N t k) (∑ k, F (cut R (N t)) k) (Set.Ici t) t := fun t ht =>
    HasDerivWithinAt.fun_sum fun k _ => hasDerivWithinAt_pi.1 (dN t ht) k
  have fd : ∀ x : ℝ, HasDerivAt (fun t => (S0 + 1) * exp ((2 * C + 1) * t)) ((S0 + 1) * (exp ((2 * C + 1) * x) * (2 * C + 1))) x := fun x => by
    have := (((hasDerivAt_id x).const_mul (2 * C + 1)).exp).const_mul (S0 + 1)
    simpa using this
  have bd : ∀ t ∈ Set.Icc 0 τ, ∑ k, N t k ≤ (S0 + 1) * exp ((2 * C + 1) * t) := by
    intro t ht
    refine image_le_of_deriv_right_lt_deriv_boundary' (f := fun t => ∑ k, N t k) (f' := fun t => ∑ k, F (cut R (N t)) k) (a := 0) (b := τ)
      (B := fun t => (S0 + 1) * exp ((2 * C + 1) * t)) (B' := fun x => (S0 + 1) * (exp ((2 * C + 1) * x) * (2 * C + 1))) cS dS
      (by rw [e0]; simp [hS0]) (fun x _ => (fd x).continuousAt.continuousWithinAt) (fun x _ => (fd x).hasDerivWithinAt) (fun x hx ex => ?_) ht
    have hx' : x ∈ Set.Icc 0 τ := ⟨hx.1, hx.2.le⟩
    have e1 : 1 ≤ exp ((2 * C + 1) * x) := one_le_exp (mul_nonneg (by linarith) hx.1)
    have one : 1 ≤ ∑ k, N x k := by
      rw [ex]
      nlinarith
    calc ∑ k, F (cut R (N x)) k ≤ C * (1 + ∑ k, cut R (N x) k) := hC _ fun k => (cutD (N x)).1 k
      _ ≤ C * (1 + ∑ k, N x k) := by
        have : ∑ k, cut R (N x) k ≤ ∑ k, N x k := Finset.sum_le_sum fun k _ => cutle x hx' k
        gcongr
      _ ≤ 2 * C * ∑ k, N x k := by nlinarith
      _ < (2 * C + 1) * ∑ k, N x k := by nlinarith
      _ = _ := by rw [ex]; ring
  refine ⟨N, e0, cN, fun t ht => ?_⟩
  have ht' : t ∈ Set.Icc 0 τ := ⟨ht.1, ht.2.le⟩
  obtain ⟨s, hs, -⟩ := h (N t)
  obtain ⟨m', s', g', w1, w2⟩ := q (N t) s glob hs hG
  refine ⟨s, m', s', g', hs, w1, ?_⟩
  convert dN t ht using 1
  funext k
  rw [w2 k]
  have le : ∀ i, N t i ≤ R := fun i => by
    refine (Finset.single_le_sum (f := N t) (fun i _ => pos i t ht') (Finset.mem_univ i)).trans ((bd t ht').trans ?_)
    rw [hR]
    have := ht.2.le
    gcongr
  congr 1
  funext i
  rw [cut, min_eq_left (le i), max_comm]

/-! ### Growth by LL out of nothing -/

/-- Sources when only the last section is occupied, without nucleation, condensation and oxidation. -/
theorem source_top {n : ℕ} {b N : ℕ → ℝ} {β : ℝ → ℝ → ℝ} {mN kG y : ℝ} (hn : 2 ≤ n) (hp : ∀ k < n, 0 < b k) (hb : ∀ k, k + 1 < n → b k < b (k + 1))
    (hN : ∀ k < n, N k = if k = n - 1 then y else 0) {k : ℕ} (hk : k < n) :
    SectDoc.source n b N β 0 mN kG 0 0 0 k = if k = n - 1 then kG * SectDoc.area (b (n - 1)) * y / b (n - 1) else 0 := by
  have bt := hp (n - 1) (by omega)
  have c : SectDoc.coag n b β N k = 0 := by
    unfold SectDoc.coag
    have e1 : ∑ i ∈ Finset.range n, ∑ j ∈ Finset.range n, β (b i) (b j) * N i * N j * SectDoc.share n b k (b i + b j) =
        β (b (n - 1)) (b (n - 1)) * y * y * (if k = n - 1 then 2 else 0) := by
      rw [Finset.sum_eq_single (n - 1)]
      · rw [Finset.sum_eq_single (n - 1)]
        · rw [hN (n - 1) (by omega), if_pos rfl, SectDoc.share_top hb hn (by linarith) k hk]
          congr 1
          split_ifs
          · field_simp; ring
          · rfl
        · intro j hj hne
          rw [hN j (Finset.mem_range.1 hj), if_neg hne]; ring
        · intro hh; exact absurd (Finset.mem_range.2 (by omega)) hh
      · intro i hi hne
        refine Finset.sum_eq_zero fun j _ => ?_
        rw [hN i (Finset.mem_range.1 hi), if_neg hne]; ring
      · intro hh; exact absurd (Finset.mem_range.2 (by omega)) hh
    have e2 : ∑ j ∈ Finset.range n, β (b k) (b j) * N j = β (b k) (b (n - 1)) * y := by
      rw [Finset.sum_eq_single (n - 1)]
      · rw [hN (n - 1) (by omega), if_pos rfl]
      · intro j hj hne
        rw [hN j (Finset.mem_range.1 hj), if_neg hne]; ring
      · intro hh; exact absurd (Finset.mem_range.2 (by omega)) hh
    rw [e1, e2, hN k hk]
    split_ifs with e
    · rw [e]; ring
    · ring
  have o : SectDoc.oxidation n b (fun k => 0 * SectDoc.area (b k) * N k) k = 0 := by simp [SectDoc.oxidation]
  have z : SectDoc.growth n b (fun k => β 0 (b k) * N k * 0 * 0) k = 0 := by simp [SectDoc.growth]
  rw [SectDoc.source, c, o, z, SectDoc.growth]
  by_cases e : k = n - 1
  · subst e
    rw [if_pos (show 0 < n - 1 by omega), if_neg (show ¬ n - 1 + 1 < n by omega), if_pos rfl, hN (n - 1 - 1) (by omega), if_neg (show ¬ n - 1 - 1 = n - 1 by omega),
      hN (n - 1) (by omega), if_pos rfl]
    simp
  · have e1 : (if 0 < k then kG * SectDoc.area (b (k - 1)) * N (k - 1) / (b k - b (k - 1)) else 0) = 0 := by
      rw [hN (k - 1) (by omega), if_neg (show ¬ k - 1 = n - 1 by omega)]; simp
    rw [e1, if_pos (show k + 1 < n by omega), hN k hk, if_neg e, if_neg e]
    simp

/-- **C108, refutation.** Without any soot, without nucleation and oxidation, in a gas with acetylene and with the growth mechanism LL, the sections may stay empty
forever, or the last one may start to fill at once; both curves follow the sources. -/
theorem C108_sect_not_unique (m : Model) (o : State) (glob : Option ℝ) (a : SetArgs) (τ : ℝ) (h : SectGas m o a) (hg : GeoBins m) (hG : OwnFactor m glob)
    (hn : m.nucl.mech = .NONE) (hL : m.grow.mech = .LL) (ho : m.oxid.cls = .NONE) (hy : 0 < a.yGas.getD GasSp.C2H2.toNat 0) :
    ∃ A B, SectEvolution m (fun _ => o) (fun _ => glob) (fun _ => a) τ A ∧ SectEvolution m (fun _ => o) (fun _ => glob) (fun _ => a) τ B ∧
      A 0 = B 0 ∧ ∀ t ∈ Set.Ioc 0 τ, (∀ k, A t k = 0) ∧ ∃ k, 0 < B t k := by
  obtain ⟨s0, e0, r0⟩ := h fun _ => 0
  set n := m.nsoot with hnd
  have n2 : 2 ≤ n := r0.bins.two
  set b : ℕ → ℝ := fun k => m.mBins.getD k 0 with hbd
  have hp : ∀ k < n, 0 < b k := fun k hk => r0.bins.pos hk
  have bt := hp (n - 1) (by omega)
  have Ap : 0 < SectDoc.area (b (n - 1)) := by
    have := rhoSoot_pos
    unfold SectDoc.area; positivity
  set top : Fin n := ⟨n - 1, by omega⟩ with htop
  set c : ℝ := 0.6E3 * exp (-12100 / s0.T) * cVal s0 .C2H2 * 2 * gasMW .C with hc
  set D : ℝ := c * sqrt (SectDoc.area (b (n - 1))) / b (n - 1) with hD
  have c0 : 0 < c := by
    have y0 : s0.yGas = a.yGas := by
      obtain ⟨a1, a2⟩ := setState_ok_range (s := o) (a := { a with sootVar := List.ofFn fun _ : Fin n => (0 : ℝ) }) (by rw [e0])
      have := C01_setState_accepts o _ a1 a2 ((C01_setState_iff o _ a1 a2).1 (by rw [e0]))
      rw [e0] at this
      simp only [Prod.mk.injEq, and_true] at this
      rw [this, stateAfter]
    have := r0.gas.acc.phys.rho
    have := gasMW_pos .C; have := gasMW_pos .C2H2
    have : 0 < cVal s0 .C2H2 := by unfold cVal; rw [y0]; positivity
    positivity
  have D0 : 0 < D := div_pos (mul_pos c0 (sqrt_pos.2 Ap)) bt
  have key : ∀ y, 0 ≤ y → ∃ s m' s' g', setState o { a with sootVar := List.ofFn fun k : Fin n => if k = top then y else 0 } = (s, ok ()) ∧
      sectSources m glob s = ok (m', s', g') ∧ ∀ k : Fin n, m'.sources.soot.getD k 0 = if k = top then D * y ^ ((1 : ℝ) / 2) else 0 := by
    intro y y0
    obtain ⟨s, e, r⟩ := h fun k => if k = top then y else 0
    have es := setState_contents e0 e
    obtain ⟨m', s', g', J, n', kG, kO, β, mD, nD, w1, -, w2, w3, w4, w5, w6, w7, ⟨-, -, -, -, -, -, -⟩, -, w8⟩ := C70_sect_equations m s glob r hg hG
    simp only [Nucl.rate, hn, ok.injEq, Prod.mk.injEq] at w2
    obtain ⟨rfl, rfl, rfl⟩ := w2
    simp only [Oxid.rate, ho, ok.injEq] at w5
    subst w5
    rw [hn] at w7
    simp only [reduceCtorEq, if_false] at w7
    obtain ⟨rfl, rfl⟩ := w7
    have hN : ∀ k < n, s.sootVar.getD k 0 = if k = n - 1 then y else 0 := fun k hk => by
      have := contents_stored e ⟨k, hk⟩
      simp only [htop, Fin.mk.injEq] at this
      rw [this]
      split_ifs
      · exact max_eq_left y0
      · exact max_self 0
    refine ⟨s, m', s, g', e, w1, fun k => ?_⟩
    rw [w8 k k.2, source_top (y := y) n2 hp (fun k hk => r.bins.mono k hk) hN k.2]
    have ek : (k : ℕ) = n - 1 ↔ k = top := by rw [htop, Fin.ext_iff]
    simp only [ek]
    split_ifs
    swap
    · rfl
    have hs : m.ctx.psd = .SECT := r.psd
    have num : numOf m.ctx s = y := by
      rw [numOf, if_pos hs]
      show ∑ k ∈ Finset.range n, s.sootVar.getD k 0 = y
      rw [Finset.sum_eq_single (n - 1)]
      · rw [hN _ (by omega), if_pos rfl]
      · intro j hj hne
        rw [hN j (Finset.mem_range.1 hj), if_neg hne]
      · intro hh; exact absurd (Finset.mem_range.2 (by omega)) hh
    have mass : massOf m.ctx s = y * b (n - 1) := by
      rw [massOf, if_pos hs]
      show ∑ k ∈ Finset.range n, s.sootVar.getD k 0 * b k = y * b (n - 1)
      rw [Finset.sum_eq_single (n - 1)]
      · rw [hN _ (by omega), if_pos rfl]
      · intro j hj hne
        rw [hN j (Finset.mem_range.1 hj), if_neg hne, zero_mul]
      · intro hh; exact absurd (Finset.mem_range.2 (by omega)) hh
    have eA : areaFn y (y * b (n - 1)) = SectDoc.area (b (n - 1)) * y := by
      have hr := rhoSoot_pos
      unfold areaFn SectDoc.area
      rw [mul_rpow y0 bt.le, show 6 * b (n - 1) / (π * rhoSoot) = 6 / (π * rhoSoot) * b (n - 1) by ring, mul_rpow (by positivity) bt.le]
      have : y ^ ((2 : ℝ) / 3) * y ^ ((1 : ℝ) / 3) = y := by
        rw [← rpow_add_of_nonneg y0 (by norm_num) (by norm_num)]; norm_num
      calc _ = π * (6 / (π * rhoSoot)) ^ ((2 : ℝ) / 3) * b (n - 1) ^ ((2 : ℝ) / 3) * (y ^ ((2 : ℝ) / 3) * y ^ ((1 : ℝ) / 3)) := by ring
        _ = _ := by rw [this]; ring
    rw [r.wf.grow] at w4
    have q := growFlux_eq (by rw [hL]; simp) r.gas r.sized w4
    rw [num, mass, eA, hL] at q
    rw [mul_assoc, q, growFlux, hD, hc, sqrt_mul Ap.le, ← sqrt_eq_rpow y, es]
    simp only [cVal]
    ring
  obtain ⟨y, y0, yp, hy'⟩ := power_curve D0 (show (0 : ℝ) < 1 / 2 by norm_num) (by norm_num)
  have evol : ∀ z : ℝ → ℝ, (∀ t, 0 ≤ t → 0 ≤ z t) → (∀ t, 0 ≤ t → HasDerivAt z (D * z t ^ ((1 : ℝ) / 2)) t) →
      SectEvolution m (fun _ => o) (fun _ => glob) (fun _ => a) τ fun t k => if k = top then z t else 0 := fun z z0 z2 =>
    { cont := continuousOn_pi.2 fun k => by
        split_ifs
        · exact fun t ht => (z2 t ht.1).continuousAt.continuousWithinAt
        · exact continuousOn_const
      rate := fun t ht => by
        obtain ⟨s, m', s', g', e1, e2, e3⟩ := key (z t) (z0 t ht.1)
        refine ⟨s, m', s', g', e1, e2, hasDerivWithinAt_pi.2 fun k => ?_⟩
        rw [e3 k]
        by_cases hk : k = top
        · simp only [if_pos hk]; exact (z2 t ht.1).hasDerivWithinAt
        · simp only [if_neg hk]; exact hasDerivWithinAt_const _ _ _ }
  have yn : ∀ t, 0 ≤ t → 0 ≤ y t := fun t ht => ht.eq_or_lt.elim (fun e => by rw [← e, y0]) fun e => (yp t e).le
  refine ⟨_, _, evol (fun _ => 0) (fun _ _ => le_rfl) (fun t _ => by rw [zero_rpow (by norm_num), mul_zero]; exact hasDerivAt_const t 0), evol y yn hy', ?_,
    fun t ht => ⟨fun k => by simp, top, ?_⟩⟩
  · funext k; simp [y0]
  · simp only [if_true]; exact yp t ht.1

/-! ## The hypotheses are satisfiable -/

theorem exSectGas (nsoot : ℕ) (n : NuclMech) (hn : n ≠ .AJ_RED) (hb : n ≠ .BROWN) (g : GrowMech) (o : OxidMech) (c : CoagMech) (clean : Bool) (h2 : 2 ≤ nsoot) :
    SectGas (exModel .SECT nsoot n g o c) (State.mk' nsoot 0) (exArgs (List.replicate nsoot 0) clean) := by
  intro v
  have hv : ∀ x ∈ (List.ofFn v).map (max · 0), (0 : ℝ) ≤ x := by
    intro x hx
    obtain ⟨y, -, rfl⟩ := List.mem_map.1 hx
    exact le_max_right _ _
  have l1 : (List.ofFn v).length = nsoot := List.length_ofFn
  have l2 : ((List.ofFn v).map (max · 0)).length = nsoot := by rw [List.length_map, l1]
  have hr := exSectReady nsoot n hn hb g o c ((List.ofFn v).map (max · 0)) clean l2 h2 hv
  have e := exSt_set (List.ofFn v) clean
  have e2 : exSt ((List.ofFn v).map (max · 0)) clean = stateAfter (State.mk' (List.ofFn v).length 0) (exArgs (List.ofFn v) clean) := by
    rw [exSt_eq, l1, l2]
    have : ((List.ofFn v).map (max · (0 : ℝ))).map (max · 0) = (List.ofFn v).map (max · 0) := by
      rw [List.map_map]; congr 1; funext x; simp
    cases clean <;> simp only [stateAfter, exArgs, this, List.length_map]
  rw [e2] at hr
  refine ⟨_, ?_, hr⟩
  rw [← e, l1]
  cases clean <;> simp [exArgs, l1]

/-- Four sections with nucleation, growth, oxidation and coagulation evolve for an hour, in one way only, without becoming negative. -/
example : ∃ N, N 0 = ![1E15, 0, 1E13, 0] ∧ SectEvolution (exModel .SECT 4 .LL .LIN .NSC_NEOH .FUCHS) (fun _ => State.mk' 4 0) (fun _ => none)
    (fun _ => exArgs (List.replicate 4 0) false) 3600 N ∧ (∀ k, ∀ t ∈ Set.Icc 0 (3600 : ℝ), 0 ≤ N t k) ∧
    ∀ N', N' 0 = N 0 → SectEvolution (exModel .SECT 4 .LL .LIN .NSC_NEOH .FUCHS) (fun _ => State.mk' 4 0) (fun _ => none) (fun _ => exArgs (List.replicate 4 0) false) 3600 N' →
      Set.EqOn N N' (Set.Icc 0 3600) := by
  have hg := exGeoBins 4 .LL .LIN .NSC_NEOH .FUCHS (by norm_num)
  have h := exSectGas 4 .LL (by simp) (by simp) .LIN .NSC_NEOH .FUCHS false (by norm_num)
  have h0 : ∀ k : Fin 4, (0 : ℝ) ≤ (![1E15, 0, 1E13, 0] : Fin 4 → ℝ) k := fun k => by fin_cases k <;> norm_num
  obtain ⟨N, e, hN⟩ := C108_sect_exists_partial _ _ none _ 3600 (by norm_num) h hg (Or.inl rfl) (by simp [exModel, Nucl.new, Grow.new, Oxid.new]) (by simp [exModel, Nucl.new, Grow.new, Oxid.new]) (by simp [exModel, Nucl.new, Grow.new, Oxid.new])
    (by simp [exModel, Nucl.new, Grow.new, Oxid.new]) ![1E15, 0, 1E13, 0] h0
  exact ⟨N, e, hN, fun k => C107_sect_nonneg _ _ _ _ _ N hg (fun _ _ => Or.inl rfl) (h.calls _) hN k (e ▸ h0 k),
    fun N' e' hN' => C108_sect_unique_partial _ _ _ _ _ N N' h hg (fun _ => Or.inl rfl) (by simp [exModel, Nucl.new, Grow.new, Oxid.new]) (by simp [exModel, Nucl.new, Grow.new, Oxid.new]) (by simp [exModel, Nucl.new, Grow.new, Oxid.new])
      (by simp [exModel, Nucl.new, Grow.new, Oxid.new]) hN hN' (e ▸ h0) e'.symm⟩

/-- Coagulation alone keeps the mass. -/
example : ∃ N, N 0 = ![1E15, 0, 1E13, 0] ∧ SectEvolution (exModel .SECT 4 .NONE .NONE .NONE .FUCHS) (fun _ => State.mk' 4 0) (fun _ => none)
    (fun _ => exArgs (List.replicate 4 0) false) 3600 N ∧ AntitoneOn (fun t => ∑ k, N t k) (Set.Icc 0 3600) := by
  have hg := exGeoBins 4 .NONE .NONE .NONE .FUCHS (by norm_num)
  have h := exSectGas 4 .NONE (by simp) (by simp) .NONE .NONE .FUCHS false (by norm_num)
  have h0 : ∀ k : Fin 4, (0 : ℝ) ≤ (![1E15, 0, 1E13, 0] : Fin 4 → ℝ) k := fun k => by fin_cases k <;> norm_num
  obtain ⟨N, e, hN⟩ := C108_sect_exists_partial _ _ none _ 3600 (by norm_num) h hg (Or.inl rfl) (by simp [exModel, Nucl.new, Grow.new, Oxid.new]) (by simp [exModel, Nucl.new, Grow.new, Oxid.new]) (by simp [exModel, Nucl.new, Grow.new, Oxid.new])
    (by simp [exModel, Nucl.new, Grow.new, Oxid.new]) ![1E15, 0, 1E13, 0] h0
  exact ⟨N, e, hN, (C107_sect_coagulation _ _ _ _ _ N hg (fun _ _ => Or.inl rfl) (h.calls _) (by simp [exModel, Nucl.new, Grow.new, Oxid.new]) (by simp [exModel, Nucl.new, Grow.new, Oxid.new]) (by simp [exModel, Nucl.new, Grow.new, Oxid.new]) hN).2.1⟩

/-- Four empty sections in a gas with acetylene, growing by LL: two evolutions. -/
example : ∃ A B, SectEvolution (exModel .SECT 4 .NONE .LL .NONE .FUCHS) (fun _ => State.mk' 4 0) (fun _ => none) (fun _ => exArgs (List.replicate 4 0) false) 1 A ∧
    SectEvolution (exModel .SECT 4 .NONE .LL .NONE .FUCHS) (fun _ => State.mk' 4 0) (fun _ => none) (fun _ => exArgs (List.replicate 4 0) false) 1 B ∧
      A 0 = B 0 ∧ ∀ t ∈ Set.Ioc 0 (1 : ℝ), (∀ k, A t k = 0) ∧ ∃ k, 0 < B t k :=
  C108_sect_not_unique _ _ none _ 1 (exSectGas 4 .NONE (by simp) (by simp) .LL .NONE .FUCHS false (by norm_num))
    (exGeoBins 4 .NONE .LL .NONE .FUCHS (by norm_num)) (Or.inl rfl) rfl rfl rfl (by norm_num [exArgs, argsEx2, GasSp.toNat])

end Soot
