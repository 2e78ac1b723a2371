import Verif.Props.Trace
import Verif.Props.Mono
import Verif.Props.Logn
import Verif.Props.QmomModel
import Verif.Props.MomicModel
import Verif.Props.SectEq

/-!
# C97: a flow solver that integrates the source terms keeps its mass and its elements

The client: a computational cell that holds the mass of every gas species and the soot variables.  Every call of
`setState`/`setSourceTerms` (with whatever arguments the client likes) is followed by an update of the cell with a multiple of the returned
sources.  Forward Euler is one evaluation per step; an explicit Runge-Kutta step is several evaluations at stage states, each weighted into the
cell; operator splitting and sub-cycling are further instances.
-/

namespace Soot

open Res Real
open scoped Classical

/-! ## One evaluation -/

/-- Solid carbon mass of a vector of soot variables: `Σ m_k N_k` for bins, the first mass moment otherwise. -/
noncomputable def sootMass (m : Model) (v : List ℝ) : ℝ :=
  if m.psd = .SECT then ∑ k ∈ Finset.range m.nsoot, m.mBins.getD k 0 * v.getD k 0 else v.getD 1 0

theorem elemRate_add (g g' : GasSp → ℝ) (x x' : ℝ) (e : Elem) :
    elemRate (fun sp => g sp + g' sp) (x + x') e = elemRate g x e + elemRate g' x' e := by
  simp only [elemRate, add_div, add_mul, Finset.sum_add_distrib]
  split_ifs <;> ring

theorem elemRate_mul (c : ℝ) (g : GasSp → ℝ) (x : ℝ) (e : Elem) :
    elemRate (fun sp => c * g sp) (c * x) e = c * elemRate g x e := by
  simp only [elemRate, mul_add, Finset.mul_sum]
  congr 1
  · exact Finset.sum_congr rfl fun sp _ => by ring
  · split_ifs <;> ring

/-- The gas rates of one mechanism and the solid they leave behind hold every element fixed, NONE included. -/
theorem mech_elements (e : Elem) (x : ℝ) (g : GasSp → ℝ) :
    (∀ m : NuclMech, m ≠ .PAH → gasRates (Nucl.new m).ratio x = ok g → elemRate g (-∑ sp, g sp) e = 0) ∧
    (∀ m : GrowMech, gasRates (Grow.new m).ratio x = ok g → elemRate g (-∑ sp, g sp) e = 0) ∧
    (∀ m : OxidMech, gasRates (Oxid.new m).ratio x = ok g → elemRate g (-∑ sp, g sp) e = 0) := by
  have hz : elemRate (fun _ => 0) (-∑ _sp : GasSp, (0 : ℝ)) e = 0 := by simp [elemRate]
  refine ⟨fun m hp h => ?_, fun m h => ?_, fun m h => ?_⟩
  · by_cases hm : m = .NONE
    · subst hm
      rw [gasRates_nucl _ hp] at h; cases h
      convert hz using 2
      · funext sp; cases sp <;> simp [nuclRatio]
      · rw [neg_inj]; exact Finset.sum_congr rfl fun sp _ => by cases sp <;> simp [nuclRatio]
    · obtain ⟨g1, h1, h2⟩ := (C09_elements_conserved x e).1 m hm hp
      obtain ⟨g2, h3, h4⟩ := (C08_mass_conserved x).1 m hm hp
      rw [h] at h1 h3; cases h1; cases h3
      rw [h4, neg_neg]; exact h2
  · by_cases hm : m = .NONE
    · subst hm
      rw [gasRates_grow] at h; cases h
      convert hz using 2
      · funext sp; cases sp <;> simp [growRatio]
      · rw [neg_inj]; exact Finset.sum_congr rfl fun sp _ => by cases sp <;> simp [growRatio]
    · obtain ⟨g1, h1, h2⟩ := (C09_elements_conserved x e).2.1 m hm
      obtain ⟨g2, h3, h4⟩ := (C08_mass_conserved x).2.1 m hm
      rw [h] at h1 h3; cases h1; cases h3
      rw [h4, neg_neg]; exact h2
  · by_cases hm : m = .NONE
    · subst hm
      rw [gasRates_oxid] at h; cases h
      convert hz using 2
      · funext sp; cases sp <;> simp [oxidRatio]
      · rw [neg_inj]; exact Finset.sum_congr rfl fun sp _ => by cases sp <;> simp [oxidRatio]
    · obtain ⟨g1, h1, h2⟩ := (C09_elements_conserved x e).2.2 m hm
      obtain ⟨g2, h3, h4⟩ := (C08_mass_conserved x).2.2 m hm
      rw [h] at h1 h3; cases h1; cases h3
      rw [h4, neg_neg]; exact h2

theorem finish_elements {m m' : Model} {n : Nucl} {v w : List ℝ} {N1 G1 X1 : ℝ} (hw : m.WF) (hn : n.WF) (hp : n.mech ≠ .PAH)
    (h : m.finish n v w N1 G1 X1 = ok m') (e : Elem) : elemRate m'.sources.gas (-∑ sp, m'.sources.gas sp) e = 0 := by
  obtain ⟨gn, gg, go, h1, h2, h3, rfl⟩ := Model.finish_inv h
  rw [hn.new hp] at h1
  rw [hw.grow] at h2
  rw [hw.oxid] at h3
  have e1 := (mech_elements e N1 gn).1 _ hp h1
  have e2 := (mech_elements e G1 gg).2.1 _ h2
  have e3 := (mech_elements e X1 go).2.2 _ h3
  simp only [Finset.sum_add_distrib, neg_add]
  rw [elemRate_add (fun sp => gn sp + gg sp) go, elemRate_add gn gg, e1, e2, e3]; norm_num

/-- Every evaluation that completes ends with the common final block. -/
theorem sourceTerms_finish {eig : Eig} {m m' : Model} {s s' : State} {glob glob' : Option ℝ} (hw : m.WF) (h2 : 2 ≤ m.nsoot) (ht : m.tar = .NONE)
    (hh : m.psd ≠ .HMOM) (h : sourceTerms eig m glob s = ok (m', s', glob')) :
    ∃ n v w N1 G1 X1, n.WF ∧ n.mech = m.nucl.mech ∧ m.finish n v w N1 G1 X1 = ok m' := by
  unfold sourceTerms at h
  cases hp : m.psd <;> simp only [hp] at h hh
  · cases h
  · simp only [bind_eq_ok] at h
    obtain ⟨⟨m1, s1⟩, h1, h⟩ := h
    cases h
    obtain ⟨M0, M1, s1, t, _, ht2, _, _, hf⟩ := monoSources_inv ht h1
    obtain ⟨j, kG, kO, a0, coa, hj, _⟩ := monoTerms_inv ht2
    exact ⟨_, _, _, _, _, _, Nucl.rate_wf hw.nucl hj, (Nucl.rate_inv hj).1, hf⟩
  · simp only [bind_eq_ok] at h
    obtain ⟨⟨m1, s1⟩, h1, h⟩ := h
    cases h
    obtain ⟨t, ht2, _, _, hf⟩ := lognSources_inv h1
    obtain ⟨j, hj⟩ := lognTerms_nucl ht2
    exact ⟨_, _, _, _, _, _, Nucl.rate_wf hw.nucl hj, (Nucl.rate_inv hj).1, hf⟩
  · simp only [bind_eq_ok] at h
    obtain ⟨⟨m1, s1⟩, h1, h⟩ := h
    cases h
    obtain ⟨w, x, t, _, k2, k3⟩ := qmomSources_inv h1
    obtain ⟨j, hj⟩ := (qmomTerms_sound k2 h2).nucl
    exact ⟨_, _, _, _, _, _, Nucl.rate_wf hw.nucl hj, (Nucl.rate_inv hj).1, (momFinish_inv k3).2⟩
  · simp only [bind_eq_ok] at h
    obtain ⟨⟨m1, s1⟩, h1, h⟩ := h
    cases h
    obtain ⟨T, P, Q, t, _, _, _, k1, k2⟩ := momicSources_inv h1
    obtain ⟨j, hj⟩ := (momicTerms_sound k1 h2).nucl
    exact ⟨_, _, _, _, _, _, Nucl.rate_wf hw.nucl hj, (Nucl.rate_inv hj).1, (momFinish_inv k2).2⟩
  · simp only [sectSources, bind_eq_ok] at h
    obtain ⟨t, ht2, mN, _, mG, _, mO, _, m1, hf, h⟩ := h
    cases h
    obtain ⟨j, hj⟩ := sectTerms_nucl ht2
    exact ⟨_, _, _, _, _, _, Nucl.rate_wf hw.nucl hj, (Nucl.rate_inv hj).1, hf⟩
  · exact absurd rfl hh

/-- What the balance needs of a model object: it came from a constructor without PAH and tar. -/
structure Balanced (m : Model) : Prop where
  wf : m.WF
  two : 2 ≤ m.nsoot
  pah : m.nucl.mech ≠ .PAH
  tar : m.tar = .NONE
  hmom : m.psd ≠ .HMOM
  bins : m.psd = .SECT → Bins m.nsoot m.mBins

theorem Balanced.next {m m' : Model} (h : Balanced m) (hw : m'.WF) (hs : m.SameSpec m') : Balanced m' :=
  ⟨hw, by rw [hs.nsoot]; exact h.two, by rw [hs.nmech]; exact h.pah, by rw [hs.tar]; exact h.tar, by rw [hs.psd]; exact h.hmom,
    by rw [hs.psd, hs.nsoot, hs.mBins]; exact h.bins⟩

/-- One evaluation: the solid mass gained is what the gas loses, and every element balances. -/
theorem sourceTerms_balance {eig : Eig} {m m' : Model} {s s' : State} {glob glob' : Option ℝ} (hb : Balanced m)
    (hl : m.nsoot ≤ s.sootVar.length) (h : sourceTerms eig m glob s = ok (m', s', glob')) :
    (∑ sp, m'.sources.gas sp) + sootMass m m'.sources.soot = 0 ∧
      ∀ e, elemRate m'.sources.gas (sootMass m m'.sources.soot) e = 0 := by
  have key : (∑ sp, m'.sources.gas sp) + sootMass m m'.sources.soot = 0 := by
    have hh := hb.hmom
    have hbb := hb.bins
    have fin : ∀ y, m.psd ≠ .SECT → m'.sources.soot[1]? = some y → (∑ sp, m'.sources.gas sp) + y = 0 →
        (∑ sp, m'.sources.gas sp) + sootMass m m'.sources.soot = 0 := by
      intro y h1 h2 h3
      rw [sootMass, if_neg h1, List.getD_eq_getElem?_getD, h2]; exact h3
    have hf := sourceTerms_frame hb.wf hb.two hh h
    unfold sourceTerms at h
    cases hp : m.psd <;> simp only [hp] at h hh
    · cases h
    · simp only [bind_eq_ok] at h
      obtain ⟨⟨m1, s1⟩, h1, h⟩ := h
      cases h
      obtain ⟨y, e1, e2⟩ := C11_mono _ _ _ _ hb.wf hb.pah hb.tar h1
      exact fin y (by simp [hp]) e1 e2
    · simp only [bind_eq_ok] at h
      obtain ⟨⟨m1, s1⟩, h1, h⟩ := h
      cases h
      obtain ⟨y, e1, e2⟩ := C11_logn _ _ _ _ hb.wf hb.pah h1
      exact fin y (by simp [hp]) e1 e2
    · simp only [bind_eq_ok] at h
      obtain ⟨⟨m1, s1⟩, h1, h⟩ := h
      cases h
      obtain ⟨y, e1, e2⟩ := C11_qmom _ _ _ _ _ hb.wf hb.two hb.pah h1
      exact fin y (by simp [hp]) e1 e2
    · simp only [bind_eq_ok] at h
      obtain ⟨⟨m1, s1⟩, h1, h⟩ := h
      cases h
      obtain ⟨y, e1, e2⟩ := C11_momic _ _ _ _ hb.wf hb.two hb.pah h1
      exact fin y (by simp [hp]) e1 e2
    · have e := C11_sect _ _ _ _ _ _ hb.wf (hbb hp) hl hb.pah h
      rw [sectMassSource, hf.2.1.nsoot, hf.2.1.mBins] at e
      rw [sootMass, if_pos hp]; exact e
    · exact absurd rfl hh
  refine ⟨key, fun e => ?_⟩
  obtain ⟨n, v, w, N1, G1, X1, h1, h2, h3⟩ := sourceTerms_finish hb.wf hb.two hb.tar hb.hmom h
  have := finish_elements hb.wf h1 (h2 ▸ hb.pah) h3 e
  rwa [show sootMass m m'.sources.soot = -∑ sp, m'.sources.gas sp by linarith]

/-! ## The client -/

namespace Reactor

/-- What the client stores: the mass of every gas species and the soot variables. -/
structure Cell where
  gas : GasSp → ℝ
  soot : List ℝ

/-- Cell, library objects and the static. -/
structure Sim where
  m : Model
  s : State
  glob : Option ℝ
  cell : Cell

/-- One evaluation: the arguments of `setState`, and the weight of the sources in the update of the cell. -/
structure Eval where
  a : SetArgs
  dt : ℝ

/-- `S.setState(...); SM.setSourceTerms(S); gas += dt*gasSources; soot += dt*sootSources;` (the first two calls as in examples/simple_example.cc:37-41). -/
noncomputable def advance (eig : Eig) (x : Sim) (e : Eval) : Res Sim :=
  match setState x.s e.a with
  | (_, .ub) => ub
  | (_, .nonfin) => nonfin
  | (_, .exn q) => exn q
  | (s, .ok _) => do
    let (m', s', g) ← sourceTerms eig x.m x.glob s
    ok ⟨m', s', g, ⟨fun sp => x.cell.gas sp + e.dt * m'.sources.gas sp,
      List.zipWith (fun v q => v + e.dt * q) x.cell.soot m'.sources.soot⟩⟩

/-- A time integration. -/
noncomputable def integrate (eig : Eig) : Sim → List Eval → Res Sim
  | x, [] => ok x
  | x, e :: t => do
    let x ← advance eig x e
    integrate eig x t

/-- Mass in the cell. -/
noncomputable def Cell.mass (c : Cell) (m : Model) : ℝ := (∑ sp, c.gas sp) + sootMass m c.soot

/-- Amount (kmol) of element `e` in the cell, soot being pure carbon. -/
noncomputable def Cell.elem (c : Cell) (m : Model) (e : Elem) : ℝ :=
  ∑ sp, c.gas sp / gasMW sp * atoms sp e + if e = .C then sootMass m c.soot / gasMW .C else 0

theorem zip_getD (dt : ℝ) : ∀ {v q : List ℝ}, v.length = q.length → ∀ k,
    (List.zipWith (fun v q => v + dt * q) v q).getD k 0 = v.getD k 0 + dt * q.getD k 0
  | [], [], _, k => by simp
  | [], _ :: _, h, _ => by simp at h
  | _ :: _, [], h, _ => by simp at h
  | _ :: v, _ :: q, h, 0 => by simp
  | _ :: v, _ :: q, h, k + 1 => by
    simpa using zip_getD dt (v := v) (q := q) (by simpa using h) k

theorem sootMass_step {m : Model} {v q : List ℝ} (h : v.length = q.length) (dt : ℝ) :
    sootMass m (List.zipWith (fun v q => v + dt * q) v q) = sootMass m v + dt * sootMass m q := by
  unfold sootMass
  split_ifs
  · simp only [zip_getD dt h, mul_add, Finset.sum_add_distrib, Finset.mul_sum]
    congr 1
    exact Finset.sum_congr rfl fun k _ => by ring
  · exact zip_getD dt h 1

theorem sootMass_spec {m m' : Model} (h : m.SameSpec m') (v : List ℝ) : sootMass m' v = sootMass m v := by
  rw [sootMass, sootMass, h.psd, h.nsoot, h.mBins]

theorem advance_inv {eig : Eig} {x y : Sim} {e : Eval} (h : advance eig x e = ok y) :
    (setState x.s e.a).2 = ok () ∧ ∃ m' s' g, sourceTerms eig x.m x.glob (setState x.s e.a).1 = ok (m', s', g) ∧
      y = ⟨m', s', g, ⟨fun sp => x.cell.gas sp + e.dt * m'.sources.gas sp,
        List.zipWith (fun v q => v + e.dt * q) x.cell.soot m'.sources.soot⟩⟩ := by
  unfold advance at h
  rcases hs : setState x.s e.a with ⟨s1, r⟩
  rw [hs] at h
  cases r <;> simp only [bind_eq_ok] at h
  · obtain ⟨⟨m', s', g⟩, h1, h2⟩ := h
    cases h2
    exact ⟨rfl, m', s', g, h1, rfl⟩
  all_goals cases h

theorem advance_conserves {eig : Eig} {x y : Sim} {e : Eval} (hb : Balanced x.m) (hc : x.cell.soot.length = x.m.nsoot)
    (hl : x.m.nsoot ≤ e.a.sootVar.length) (h : advance eig x e = ok y) :
    Balanced y.m ∧ x.m.SameSpec y.m ∧ y.cell.soot.length = y.m.nsoot ∧ y.cell.mass y.m = x.cell.mass x.m ∧
      ∀ el, y.cell.elem y.m el = x.cell.elem x.m el := by
  obtain ⟨h1, m', s', g, h2, rfl⟩ := advance_inv h
  obtain ⟨hw, hs, -, -⟩ := sourceTerms_frame hb.wf hb.two hb.hmom h2
  have hl' : x.m.nsoot ≤ (setState x.s e.a).1.sootVar.length := by
    rw [(C02_setState_valid _ _ h1).2.2.2.1.1, List.length_map]; exact hl
  obtain ⟨e1, e2⟩ := sourceTerms_balance hb hl' h2
  have hlen : x.cell.soot.length = m'.sources.soot.length := by rw [hw.srcLen, hs.nsoot, hc]
  refine ⟨hb.next hw hs, hs, ?_, ?_, fun el => ?_⟩
  · show (List.zipWith _ _ _).length = m'.nsoot
    rw [List.length_zipWith, ← hlen, min_self, hc, hs.nsoot]
  · simp only [Cell.mass, sootMass_spec hs, sootMass_step hlen, Finset.sum_add_distrib, ← Finset.mul_sum]
    linear_combination e.dt * e1
  · have e3 := e2 el
    simp only [Cell.elem, sootMass_spec hs, sootMass_step hlen]
    have := elemRate_add x.cell.gas (fun sp => e.dt * m'.sources.gas sp) (sootMass x.m x.cell.soot) (e.dt * sootMass x.m m'.sources.soot) el
    rw [elemRate_mul, e3, mul_zero, add_zero] at this
    exact this

theorem integrate_conserves {eig : Eig} {es : List Eval} : ∀ {x y : Sim}, Balanced x.m → x.cell.soot.length = x.m.nsoot →
    (∀ e ∈ es, x.m.nsoot ≤ e.a.sootVar.length) → integrate eig x es = ok y →
    y.cell.mass x.m = x.cell.mass x.m ∧ ∀ el, y.cell.elem x.m el = x.cell.elem x.m el := by
  induction es with
  | nil => intro x y _ _ _ h; cases h; exact ⟨rfl, fun _ => rfl⟩
  | cons e t ih =>
    intro x y hb hc hl h
    simp only [integrate, bind_eq_ok] at h
    obtain ⟨z, h1, h2⟩ := h
    obtain ⟨k1, k2, k3, k4, k5⟩ := advance_conserves hb hc (hl e (by simp)) h1
    obtain ⟨j1, j2⟩ := ih k1 k3 (fun e' he => by rw [k2.nsoot]; exact hl e' (by simp [he])) h2
    have em : ∀ c : Cell, c.mass z.m = c.mass x.m := fun c => by rw [Cell.mass, Cell.mass, sootMass_spec k2]
    have ee : ∀ (c : Cell) el, c.elem z.m el = c.elem x.m el := fun c el => by rw [Cell.elem, Cell.elem, sootMass_spec k2]
    exact ⟨by rw [← em, j1, k4], fun el => by rw [← ee, j2, k5]⟩

end Reactor

open Reactor

/-- **C97.** Take any model object the enum constructors return without PAH nucleation and without tar (sectional models with bin factor above one
and a positive smallest size), any state object, any content of the static, any cell.  Whatever arguments and weights the client uses, and
however many evaluations it makes: if all of them complete, the cell ends with the mass and the amounts of carbon, hydrogen and oxygen it
started with. -/
theorem C97_integration_conserves (eig : Eig) (psd : PsdMech) (k : ℕ) (n : NuclMech) (g : GrowMech) (o : OxidMech) (c : CoagMech) (N : ℕ)
    (F : ℝ) (cm : ℤ) (m : Model) (hm : Model.new psd k n g o c N .NONE F cm = ok m) (hn : n ≠ .PAH) (hF : psd = .SECT → 1 < F ∧ 0 < cm)
    (s : State) (glob : Option ℝ) (cell : Cell) (hc : cell.soot.length = k) (es : List Eval) (hl : ∀ e ∈ es, k ≤ e.a.sootVar.length)
    (y : Sim) (h : integrate eig ⟨m, s, glob, cell⟩ es = ok y) :
    y.cell.mass m = cell.mass m ∧ ∀ el, y.cell.elem m el = cell.elem m el := by
  have hnw := hm
  simp only [Model.new, Model.newPtr, bind_eq_ok] at hm
  obtain ⟨_, h1, h2⟩ := hm
  cases h2
  cases es with
  | nil => cases h; exact ⟨rfl, fun _ => rfl⟩
  | cons e t =>
    have hp0 : psd ≠ .NONE := by
      rintro rfl
      simp only [integrate, bind_eq_ok] at h
      obtain ⟨z, h3, _⟩ := h
      obtain ⟨_, _, _, _, h4, _⟩ := advance_inv h3
      simp only [sourceTerms] at h4
      cases h4
    have hh : psd ≠ .HMOM := by
      rintro rfl
      simp only [integrate, bind_eq_ok] at h
      obtain ⟨z, h3, _⟩ := h
      obtain ⟨_, _, _, _, h4, _⟩ := advance_inv h3
      simp only [sourceTerms, bind_eq_ok] at h4
      obtain ⟨r, h5, _⟩ := h4
      exact C35_hmom_false _ _ _ _ _ _ _ _ hnw _ r h5
    have hd : Documented psd k c .NONE := by
      by_contra hx
      obtain ⟨msg, hx⟩ := (ctorCheck_iff psd hp0 k c .NONE).2 hx
      rw [show (Coag.new c).mech = c from rfl, hx] at h1; cases h1
    have two : 2 ≤ k := by cases hd <;> omega
    refine integrate_conserves ?_ hc hl h
    refine ⟨⟨Nucl.new_wf n, rfl, rfl, fun _ => rfl, fun _ => rfl, by simp [Sources.new], by simp [Sources.new], by simp [Sources.new]⟩,
      two, ?_, rfl, hh, fun hp => ?_⟩
    · show (Nucl.new n).mech ≠ _
      exact hn
    · have hp : psd = .SECT := hp
      obtain ⟨f1, f2⟩ := hF hp
      show Bins k (if psd = .SECT then binMasses k F cm else [])
      rw [if_pos hp]
      exact binMasses_bins two f1 f2

/-- One step of a lognormal model with every process active, from any gas composition of the cell. -/
example (eig : Eig) (gas : GasSp → ℝ) : ∃ (m : Model) (y : Sim), Model.new .LOGN 3 .LL .HACA .NSC_NEOH .HM = ok m ∧
    integrate eig ⟨m, State.mk' 3 0, none, ⟨gas, [1E15, 1E-6, 2E-27]⟩⟩ [⟨exArgs [1E15, 1E-6, 2E-27] false, 1E-3⟩] = ok y ∧
    y.cell.mass m = Cell.mass ⟨gas, [1E15, 1E-6, 2E-27]⟩ m := by
  have hm := exModel_new (psd := .LOGN) (nsoot := 3) (c := .HM) (by simp [ctorCheck]) .LL .HACA .NSC_NEOH
  have hr := exLognReady .LL (by simp) (by simp) .HACA .NSC_NEOH .HM (by simp) (M0 := 1E15) (M1 := 1E-6) (M2 := 2E-27)
    (by norm_num) (by norm_num) (by norm_num) false
  obtain ⟨m', h, _⟩ := C26_logn_total_partial _ _ _ _ _ hr (by simp [exModel, Nucl.new])
  have hst := exSt_set [1E15, 1E-6, 2E-27] false
  rw [← exSt_eq, show ([1E15, 1E-6, 2E-27] : List ℝ).length = 3 from rfl] at hst
  have hi : ∃ y, integrate eig ⟨exModel .LOGN 3 .LL .HACA .NSC_NEOH .HM, State.mk' 3 0, none, ⟨gas, [1E15, 1E-6, 2E-27]⟩⟩
      [⟨exArgs [1E15, 1E-6, 2E-27] false, 1E-3⟩] = ok y := by
    simp only [integrate, advance, hst, sourceTerms, show (exModel .LOGN 3 .LL .HACA .NSC_NEOH .HM).psd = .LOGN from rfl, h, ok_bind]
    exact ⟨_, rfl⟩
  obtain ⟨y, hy⟩ := hi
  exact ⟨_, y, hm, hy, (C97_integration_conserves eig .LOGN 3 .LL .HACA .NSC_NEOH .HM 0 2 100 _ hm (by simp) (by simp) _ _ _ rfl _
    (fun e he => by simp at he; subst he; simp [exArgs]) y hy).1⟩

/-! ## Sectional runs stay positive -/

namespace Reactor

/-- The surroundings of the soot at one time step. -/
structure Env where
  T : ℝ
  P : ℝ
  rho : ℝ
  mu : ℝ
  cMin : ℝ
  yGas : List ℝ
  yPah : List ℝ

/-- The arguments of `setState` when the soot variables are those of the cell and there is no tar. -/
def Env.args (v : Env) (soot : List ℝ) : SetArgs :=
  { T := v.T, P := v.P, rhoGas := v.rho, muGas := v.mu, yGas := v.yGas, yPah := v.yPah, sootVar := soot, nsoot := soot.length,
    tarVar := [], Ntar := 0, cMin := v.cMin }

/-- Physical surroundings; HACA has one temperature at which its steric factor can be `0/0`. -/
structure Env.Ok (v : Env) (g : GrowMech) (o : OxidMech) : Prop where
  T : 0 < v.T
  P : 0 < v.P
  rho : 0 < v.rho
  mu : 0 < v.mu
  cMin : 0 < v.cMin
  len : v.yGas.length = nGas
  gas : ∀ y ∈ v.yGas, 0 ≤ y ∧ y ≤ 1
  plen : v.yPah.length = nPah
  pah : ∀ y ∈ v.yPah, 0 ≤ y ∧ y ≤ 1
  psum : v.yPah.sum ≤ 1
  haca : g = .HACA ∨ o = .HACA → 33.167 - 0.0154 * v.T ≠ 0

/-- Forward Euler: each step evaluates the sources at the cell's own soot variables. -/
noncomputable def euler (eig : Eig) : Sim → List (Env × ℝ) → Res Sim
  | x, [] => ok x
  | x, e :: t => do
    let x ← advance eig x ⟨e.1.args x.cell.soot, e.2⟩
    euler eig x t

/-- The step is not longer than the reciprocal of any bin's loss frequency (`SectDoc.loss`, the documented rates at which
particles leave a bin by coagulation, growth, oxidation and dimer condensation). -/
def StepOk (x : Sim) (v : Env) (dt : ℝ) : Prop :=
  0 ≤ dt ∧ ∀ J n' s' kG kO β mD nD,
    x.m.nucl.rate (sectIbeta x.m) (setState x.s (v.args x.cell.soot)).1 = ok (J, n', s') →
    x.m.grow.rate x.m.ctx s' = ok kG → x.m.oxid.rate x.m.ctx s' = ok kO → (∀ a b, x.m.coag.rate s' a b = ok (β a b)) →
    (if n'.mech = .PAH then mD = n'.dimer.mDimer ∧ nD = n'.dimer.nDimer else mD = 0 ∧ nD = 0) →
    ∀ k < x.m.nsoot, dt * SectDoc.loss x.m.nsoot (fun k => x.m.mBins.getD k 0) (fun k => x.cell.soot.getD k 0) β kG kO mD nD k ≤ 1

/-- Every step of the run obeys the limit at the point where it is taken. -/
def Limited (eig : Eig) : Sim → List (Env × ℝ) → Prop
  | _, [] => True
  | x, e :: t => StepOk x e.1 e.2 ∧ ∀ y, advance eig x ⟨e.1.args x.cell.soot, e.2⟩ = ok y → Limited eig y t

/-- Invariant of a sectional run. -/
structure SectOk (g : GrowMech) (o : OxidMech) (x : Sim) : Prop where
  wf : x.m.WF
  two : 2 ≤ x.m.nsoot
  psd : x.m.psd = .SECT
  bins : Bins x.m.nsoot x.m.mBins
  geo : GeoBins x.m
  fm : 0 < x.m.coag.fmMult
  grow : x.m.grow.mech = g
  oxid : x.m.oxid.cls = o
  n1 : x.m.nucl.mech ≠ .AJ_RED
  n2 : x.m.nucl.mech ≠ .BROWN
  own : OwnFactor x.m x.glob
  ns : x.s.nsoot = x.m.nsoot
  nt : x.s.Ntar = 0
  np : x.s.yPah.length = nPah
  clen : x.cell.soot.length = x.m.nsoot
  cell : ∀ z ∈ x.cell.soot, 0 ≤ z

section
variable {g : GrowMech} {o : OxidMech} {x : Sim} {v : Env}

theorem SectOk.set (h : SectOk g o x) (hv : v.Ok g o) :
    setState x.s (v.args x.cell.soot) = (stateAfter x.s (v.args x.cell.soot), ok ()) := by
  refine C01_setState_accepts _ _ ?_ ?_ ⟨hv.T, hv.P, hv.rho, hv.mu, hv.cMin, fun i hi _ => ?_, fun i hi _ => ?_, fun y hy => (hv.gas y hy).2, ?_, hv.pah, hv.psum⟩
  · show x.s.nsoot.toNat ≤ x.cell.soot.length
    rw [h.ns, h.clen]; simp
  · show x.s.Ntar.toNat ≤ _
    rw [h.nt]; simp
  · exact h.cell _ (List.getElem_mem _)
  · simp [Env.args] at hi
  · show v.yPah.length = x.s.yPah.length
    rw [h.np, hv.plen]

theorem SectOk.sv (h : SectOk g o x) : (stateAfter x.s (v.args x.cell.soot)).sootVar = x.cell.soot := by
  show x.cell.soot.map (max · 0) = _
  conv_rhs => rw [← List.map_id x.cell.soot]
  exact List.map_congr_left fun z hz => max_eq_left (h.cell z hz)

theorem SectOk.ready (h : SectOk g o x) (hv : v.Ok g o) : SectReady x.m (stateAfter x.s (v.args x.cell.soot)) where
  wf := h.wf
  fm := h.fm
  gas := ⟨⟨x.s, v.args x.cell.soot, by rw [h.set hv], by rw [h.set hv]⟩, hv.len, fun y hy => (hv.gas y hy).1⟩
  pah := hv.plen
  sized := by
    refine ⟨by rw [h.sv, h.clen]; exact h.two, fun _ => ⟨?_, ?_, ?_⟩, fun b hb => ?_⟩
    · rw [h.sv, h.clen]; exact le_rfl
    · exact h.bins.len.ge
    · show ((x.cell.soot.length : ℕ) : ℤ) = _
      rw [h.clen]; rfl
    · obtain ⟨k, hk, rfl⟩ := List.getElem_of_mem hb
      have hk : k < x.m.mBins.length := hk
      have := h.bins.pos (k := k) (by rw [← h.bins.len]; exact hk)
      rw [List.getD_eq_getElem _ _ hk] at this
      exact this.le
  sing := by
    rw [h.grow, h.oxid]
    rintro hx ⟨_, _, hs⟩
    exact hv.haca hx hs
  tar := by
    rintro (hx | hx)
    · exact absurd hx h.n1
    · exact absurd hx h.n2
  mtar := fun hx => absurd hx h.n1
  psd := h.psd
  bins := h.bins

theorem rates_unique {m : Model} {s s' t' : State} {J J' kG kG' kO kO' mD mD' nD nD' : ℝ} {n n' : Nucl} {β β' : ℝ → ℝ → ℝ}
    (h1 : m.nucl.rate (sectIbeta m) s = ok (J, n, s')) (h1' : m.nucl.rate (sectIbeta m) s = ok (J', n', t'))
    (h2 : m.grow.rate m.ctx s' = ok kG) (h2' : m.grow.rate m.ctx t' = ok kG')
    (h3 : m.oxid.rate m.ctx s' = ok kO) (h3' : m.oxid.rate m.ctx t' = ok kO')
    (h4 : ∀ a b, m.coag.rate s' a b = ok (β a b)) (h4' : ∀ a b, m.coag.rate t' a b = ok (β' a b))
    (h5 : if n.mech = .PAH then mD = n.dimer.mDimer ∧ nD = n.dimer.nDimer else mD = 0 ∧ nD = 0)
    (h5' : if n'.mech = .PAH then mD' = n'.dimer.mDimer ∧ nD' = n'.dimer.nDimer else mD' = 0 ∧ nD' = 0) :
    kG = kG' ∧ kO = kO' ∧ β = β' ∧ mD = mD' ∧ nD = nD' := by
  cases h1.symm.trans h1'
  cases h2.symm.trans h2'
  cases h3.symm.trans h3'
  have hb : β = β' := by
    funext a b
    have := (h4 a b).symm.trans (h4' a b)
    exact ok.inj this
  refine ⟨rfl, rfl, hb, ?_⟩
  split_ifs at h5 h5' <;> exact ⟨h5.1.trans h5'.1.symm, h5.2.trans h5'.2.symm⟩

/-- Some positive step length is always allowed. -/
theorem SectOk.limit (h : SectOk g o x) (hv : v.Ok g o) : ∃ D > 0, ∀ dt, 0 ≤ dt → dt ≤ D → StepOk x v dt := by
  obtain ⟨m', s', glob', J, n', kG, kO, β, mD, nD, -, h2, h3, h4, h5, h6, h7⟩ := C71_sect_positive _ _ _ (h.ready hv) h.geo h.own
  have hL : ∀ k < x.m.nsoot, 0 ≤ SectDoc.loss x.m.nsoot (fun k => x.m.mBins.getD k 0) (fun k => x.cell.soot.getD k 0) β kG kO mD nD k := by
    intro k hk
    have := (h7 k hk).1
    rwa [h.sv] at this
  have hS : 0 ≤ ∑ k ∈ Finset.range x.m.nsoot,
      SectDoc.loss x.m.nsoot (fun k => x.m.mBins.getD k 0) (fun k => x.cell.soot.getD k 0) β kG kO mD nD k :=
    Finset.sum_nonneg fun k hk => hL k (Finset.mem_range.1 hk)
  refine ⟨1 / (1 + ∑ k ∈ Finset.range x.m.nsoot,
      SectDoc.loss x.m.nsoot (fun k => x.m.mBins.getD k 0) (fun k => x.cell.soot.getD k 0) β kG kO mD nD k), by positivity, fun dt h0 hD => ⟨h0, ?_⟩⟩
  intro J₁ n₁ s₁ kG₁ kO₁ β₁ mD₁ nD₁ e1 e2 e3 e4 e5 k hk
  rw [h.set hv] at e1
  obtain ⟨rfl, rfl, rfl, rfl, rfl⟩ := rates_unique h2 e1 h3 e2 h4 e3 h5 e4 h6 e5
  have hle : SectDoc.loss x.m.nsoot (fun k => x.m.mBins.getD k 0) (fun k => x.cell.soot.getD k 0) β kG kO mD nD k ≤ ∑ k ∈ Finset.range x.m.nsoot,
      SectDoc.loss x.m.nsoot (fun k => x.m.mBins.getD k 0) (fun k => x.cell.soot.getD k 0) β kG kO mD nD k :=
    Finset.single_le_sum (f := fun k => SectDoc.loss x.m.nsoot (fun k => x.m.mBins.getD k 0) (fun k => x.cell.soot.getD k 0) β kG kO mD nD k)
      (fun k hk => hL k (Finset.mem_range.1 hk)) (Finset.mem_range.2 hk)
  rw [le_div_iff₀ (by positivity)] at hD
  nlinarith [mul_le_mul_of_nonneg_left hle h0]

theorem SectOk.step (eig : Eig) {dt : ℝ} (h : SectOk g o x) (hv : v.Ok g o) (hd : StepOk x v dt) :
    ∃ y, advance eig x ⟨v.args x.cell.soot, dt⟩ = ok y ∧ SectOk g o y ∧ x.m.SameSpec y.m := by
  obtain ⟨m', s', glob', J, n', kG, kO, β, mD, nD, k1, h2, h3, h4, h5, h6, h7⟩ := C71_sect_positive _ _ _ (h.ready hv) h.geo h.own
  obtain ⟨m₁, s₁, glob₁, _, _, _, _, _, _, _, k1', kown, -⟩ := C70_sect_equations _ _ _ (h.ready hv) h.geo h.own
  cases k1.symm.trans k1'
  have hsrc : sourceTerms eig x.m x.glob (stateAfter x.s (v.args x.cell.soot)) = ok (m', s', glob') := by
    simp only [sourceTerms, h.psd]; exact k1
  obtain ⟨hw, hs, ⟨c, w, a, es, -, -⟩, -⟩ := sourceTerms_frame h.wf h.two (by simp [h.psd]) hsrc
  have hlen : x.cell.soot.length = m'.sources.soot.length := by rw [hw.srcLen, hs.nsoot, h.clen]
  refine ⟨⟨m', s', glob', ⟨fun sp => x.cell.gas sp + dt * m'.sources.gas sp,
    List.zipWith (fun v q => v + dt * q) x.cell.soot m'.sources.soot⟩⟩, by simp only [advance, h.set hv, hsrc, ok_bind], ?_, hs⟩
  have hz : ∀ k < x.m.nsoot, 0 ≤ (List.zipWith (fun v q => v + dt * q) x.cell.soot m'.sources.soot).getD k 0 := by
    intro k hk
    rw [zip_getD dt hlen]
    have := (h7 k hk).2.2.2 dt hd.1
    rw [h.sv] at this
    exact this (hd.2 J n' s' kG kO β mD nD (by rw [h.set hv]; exact h2) h3 h4 h5 h6 k hk)
  have hzl : (List.zipWith (fun v q => v + dt * q) x.cell.soot m'.sources.soot).length = x.m.nsoot := by
    rw [List.length_zipWith, ← hlen, min_self, h.clen]
  exact {
    wf := hw
    two := by show 2 ≤ m'.nsoot; rw [hs.nsoot]; exact h.two
    psd := by show m'.psd = _; rw [hs.psd]; exact h.psd
    bins := by show Bins m'.nsoot m'.mBins; rw [hs.nsoot, hs.mBins]; exact h.bins
    geo := by
      show GeoBins m'
      exact ⟨by rw [hs.binF]; exact h.geo.one, by rw [hs.nsoot, hs.mBins, hs.binF]; exact h.geo.geo, by rw [hs.nsoot, hs.binF]; exact h.geo.fits⟩
    fm := by show 0 < m'.coag.fmMult; rw [hs.coag]; exact h.fm
    grow := by show m'.grow.mech = _; rw [hs.grow]; exact h.grow
    oxid := by show m'.oxid.cls = _; rw [hs.oxid]; exact h.oxid
    n1 := by show m'.nucl.mech ≠ _; rw [hs.nmech]; exact h.n1
    n2 := by show m'.nucl.mech ≠ _; rw [hs.nmech]; exact h.n2
    own := by
      show OwnFactor m' glob'
      rw [OwnFactor, hs.binF]; exact kown
    ns := by
      show s'.nsoot = (m'.nsoot : ℤ)
      rw [es, hs.nsoot]
      show ((x.cell.soot.length : ℕ) : ℤ) = _
      rw [h.clen]
    nt := by show s'.Ntar = 0; rw [es]; rfl
    np := by show s'.yPah.length = nPah; rw [es]; exact hv.plen
    clen := by show (List.zipWith _ _ _).length = m'.nsoot; rw [hs.nsoot]; exact hzl
    cell := by
      intro z hz'
      obtain ⟨k, hk, rfl⟩ := List.getElem_of_mem hz'
      have := hz k (by rw [← hzl]; exact hk)
      rwa [List.getD_eq_getElem _ _ hk] at this }

end

theorem euler_ok (eig : Eig) {g : GrowMech} {o : OxidMech} : ∀ {es : List (Env × ℝ)} {x : Sim}, SectOk g o x → (∀ e ∈ es, e.1.Ok g o) →
    Limited eig x es → ∃ y, euler eig x es = ok y ∧ SectOk g o y ∧ x.m.SameSpec y.m ∧
      (x.m.nucl.mech ≠ .PAH → x.m.tar = .NONE →
        y.cell.mass x.m = x.cell.mass x.m ∧ ∀ el, y.cell.elem x.m el = x.cell.elem x.m el)
  | [], x, h, _, _ => ⟨x, rfl, h, ⟨rfl, rfl, rfl, rfl, rfl, rfl, rfl, rfl, rfl, rfl⟩, fun _ _ => ⟨rfl, fun _ => rfl⟩⟩
  | e :: t, x, h, hv, hL => by
    obtain ⟨z, h1, h2, h3⟩ := h.step eig (hv e (by simp)) hL.1
    obtain ⟨y, k1, k2, k3, k4⟩ := euler_ok eig h2 (fun e he => hv e (by simp [he])) (hL.2 z h1)
    refine ⟨y, by rw [euler, h1, ok_bind]; exact k1, k2, ⟨k3.psd.trans h3.psd, k3.nsoot.trans h3.nsoot, k3.Ntar.trans h3.Ntar, k3.nmech.trans h3.nmech,
      k3.grow.trans h3.grow, k3.oxid.trans h3.oxid, k3.coag.trans h3.coag, k3.tar.trans h3.tar, k3.mBins.trans h3.mBins, k3.binF.trans h3.binF⟩,
      fun hp ht => ?_⟩
    obtain ⟨j1, j2⟩ := k4 (by rw [h3.nmech]; exact hp) (by rw [h3.tar]; exact ht)
    obtain ⟨-, -, -, i1, i2⟩ := advance_conserves ⟨h.wf, h.two, hp, ht, by simp [h.psd], fun _ => h.bins⟩ h.clen
      (by show x.m.nsoot ≤ x.cell.soot.length; rw [h.clen]) h1
    have em : ∀ c : Cell, c.mass z.m = c.mass x.m := fun c => by rw [Cell.mass, Cell.mass, sootMass_spec h3]
    have ee : ∀ (c : Cell) el, c.elem z.m el = c.elem x.m el := fun c el => by rw [Cell.elem, Cell.elem, sootMass_spec h3]
    exact ⟨by rw [← em, j1, i1], fun el => by rw [← ee, j2, i2]⟩

theorem limited_exists (eig : Eig) {g : GrowMech} {o : OxidMech} : ∀ {vs : List Env} {x : Sim}, SectOk g o x → (∀ v ∈ vs, v.Ok g o) →
    ∃ dts : List ℝ, dts.length = vs.length ∧ (∀ d ∈ dts, 0 < d) ∧ Limited eig x (vs.zip dts)
  | [], _, _, _ => ⟨[], rfl, by simp, trivial⟩
  | v :: t, x, h, hv => by
    obtain ⟨D, hD, hs⟩ := h.limit (hv v (by simp))
    have hst := hs D hD.le le_rfl
    obtain ⟨z, h1, h2, -⟩ := h.step eig (hv v (by simp)) hst
    obtain ⟨dts, k1, k2, k3⟩ := limited_exists eig (vs := t) h2 (fun v hv' => hv v (by simp [hv']))
    refine ⟨D :: dts, by simp [k1], by simpa using ⟨hD, k2⟩, hst, fun y hy => ?_⟩
    have hy : advance eig x ⟨v.args x.cell.soot, D⟩ = ok y := hy
    cases h1.symm.trans hy
    exact k3

theorem sectOk_start {k : ℕ} {n : NuclMech} {g : GrowMech} {o : OxidMech} {c : CoagMech} {N : ℕ} {F : ℝ} {cm : ℤ} {m : Model}
    (hm : Model.new .SECT k n g o c N .NONE F cm = ok m) (h1 : n ≠ .AJ_RED) (h2 : n ≠ .BROWN) (hF : 1 < F) (hcm : 0 < cm)
    (hbig : k + log 2 / log F < 2 ^ 64) {cell : Cell} (hc : cell.soot.length = k) (hz : ∀ z ∈ cell.soot, 0 ≤ z) :
    SectOk g o ⟨m, State.mk' k 0, none, cell⟩ ∧ m.nucl.mech = n ∧ m.tar = .NONE := by
  have hg := newPtr_geoBins hF hcm hm hbig
  simp only [Model.new, Model.newPtr, bind_eq_ok] at hm
  obtain ⟨_, h3, h4⟩ := hm
  cases h4
  have two : 2 ≤ k := by
    have hd : Documented .SECT k c .NONE := by
      by_contra hx
      obtain ⟨msg, hx⟩ := (ctorCheck_iff .SECT (by simp) k c .NONE).2 hx
      rw [show (Coag.new c).mech = c from rfl, hx] at h3; cases h3
    cases hd; assumption
  refine ⟨⟨⟨Nucl.new_wf n, rfl, rfl, fun _ => rfl, fun _ => rfl, by simp [Sources.new], by simp [Sources.new], by simp [Sources.new]⟩, two, rfl,
    ?_, hg, by norm_num [Coag.new], rfl, rfl, h1, h2, Or.inl rfl, rfl, rfl, ?_, hc, hz⟩, rfl, rfl⟩
  · show Bins k (if PsdMech.SECT = .SECT then binMasses k F cm else [])
    rw [if_pos rfl]; exact binMasses_bins two hF hcm
  · simp [State.mk']

end Reactor

/-- **C97 (sectional runs).** A forward Euler integration with a freshly built sectional model and state object (nucleation not AJ_RED or BROWN),
through any sequence of physical surroundings, with every step at most the reciprocal of the fastest documented loss frequency: every call
completes, no bin ever becomes negative, and without PAH the mass and every element in the cell are what they were. -/
theorem C97_sect_euler (eig : Eig) (k : ℕ) (n : NuclMech) (g : GrowMech) (o : OxidMech) (c : CoagMech) (N : ℕ) (F : ℝ) (cm : ℤ) (m : Model)
    (hm : Model.new .SECT k n g o c N .NONE F cm = ok m) (h1 : n ≠ .AJ_RED) (h2 : n ≠ .BROWN) (hF : 1 < F) (hcm : 0 < cm)
    (hbig : k + log 2 / log F < 2 ^ 64) (cell : Cell) (hc : cell.soot.length = k) (hz : ∀ z ∈ cell.soot, 0 ≤ z)
    (es : List (Env × ℝ)) (hv : ∀ e ∈ es, e.1.Ok g o) (hL : Limited eig ⟨m, State.mk' k 0, none, cell⟩ es) :
    ∃ y, euler eig ⟨m, State.mk' k 0, none, cell⟩ es = ok y ∧ y.cell.soot.length = k ∧ (∀ z ∈ y.cell.soot, 0 ≤ z) ∧
      (n ≠ .PAH → y.cell.mass m = cell.mass m ∧ ∀ el, y.cell.elem m el = cell.elem m el) := by
  obtain ⟨hs, e1, e2⟩ := sectOk_start hm h1 h2 hF hcm hbig hc hz
  obtain ⟨y, k1, k2, k3, k4⟩ := euler_ok eig hs hv hL
  refine ⟨y, k1, ?_, k2.cell, fun hp => k4 (by rw [e1]; exact hp) e2⟩
  have := hs.clen
  rw [k2.clen, k3.nsoot, ← this, hc]

/-- **C97 (the step limit is never zero).** For every finite sequence of physical surroundings there are positive step lengths that obey the
limit. -/
theorem C97_sect_steps_exist (eig : Eig) (k : ℕ) (n : NuclMech) (g : GrowMech) (o : OxidMech) (c : CoagMech) (N : ℕ) (F : ℝ) (cm : ℤ) (m : Model)
    (hm : Model.new .SECT k n g o c N .NONE F cm = ok m) (h1 : n ≠ .AJ_RED) (h2 : n ≠ .BROWN) (hF : 1 < F) (hcm : 0 < cm)
    (hbig : k + log 2 / log F < 2 ^ 64) (cell : Cell) (hc : cell.soot.length = k) (hz : ∀ z ∈ cell.soot, 0 ≤ z)
    (vs : List Env) (hv : ∀ v ∈ vs, v.Ok g o) :
    ∃ dts : List ℝ, dts.length = vs.length ∧ (∀ d ∈ dts, 0 < d) ∧ Limited eig ⟨m, State.mk' k 0, none, cell⟩ (vs.zip dts) :=
  limited_exists eig (sectOk_start hm h1 h2 hF hcm hbig hc hz).1 hv

/-- Surroundings of the running example. -/
noncomputable def exEnv : Env :=
  { T := (exArgs [] false).T, P := (exArgs [] false).P, rho := (exArgs [] false).rhoGas, mu := (exArgs [] false).muGas, cMin := (exArgs [] false).cMin,
    yGas := (exArgs [] false).yGas, yPah := (exArgs [] false).yPah }

theorem exEnv_ok (g : GrowMech) (o : OxidMech) : exEnv.Ok g o := by
  have ha := exArgs_admissible [] false
  have hg := exSt_gasOk [] false
  have e : exSt [] false = stateAfter (State.mk' 0 0) (exArgs [] false) := by
    have := C01_setState_accepts (State.mk' 0 0) (exArgs [] false) (by simp [State.mk']) (by simp [State.mk']) ha
    exact congrArg Prod.fst this
  rw [e] at hg
  refine ⟨ha.T, ha.P, ha.rho, ha.mu, ha.cMin, hg.len, fun y hy => ⟨hg.nonneg y hy, ha.gas y hy⟩, ha.pahSize, ha.pah, ha.pahSum, fun _ => ?_⟩
  have := exSt_T [] false
  rw [e] at this
  have : exEnv.T = _ := this
  rw [this]; norm_num

/-- A hundred steps with every process active: the run completes, stays non-negative and conserves mass and elements. -/
example (eig : Eig) (gas : GasSp → ℝ) : ∃ (m : Model) (dts : List ℝ) (y : Sim),
    Model.new .SECT 4 .LL .HACA .NSC_NEOH .FUCHS = ok m ∧ dts.length = 100 ∧ (∀ d ∈ dts, 0 < d) ∧
    euler eig ⟨m, State.mk' 4 0, none, ⟨gas, [1E15, 1E14, 0, 1E13]⟩⟩ ((List.replicate 100 exEnv).zip dts) = ok y ∧
    (∀ z ∈ y.cell.soot, 0 ≤ z) ∧ y.cell.mass m = Cell.mass ⟨gas, [1E15, 1E14, 0, 1E13]⟩ m := by
  have hm := exModel_new (psd := .SECT) (nsoot := 4) (c := .FUCHS) (by simp [ctorCheck]) .LL .HACA .NSC_NEOH
  have hz : ∀ z ∈ ([1E15, 1E14, 0, 1E13] : List ℝ), 0 ≤ z := by
    intro z hz; simp at hz; rcases hz with rfl | rfl | rfl | rfl <;> norm_num
  have hbig : ((4 : ℕ) : ℝ) + log 2 / log 2 < 2 ^ 64 := by
    rw [div_self (log_pos (by norm_num)).ne']; norm_num
  have hv : ∀ v ∈ List.replicate 100 exEnv, v.Ok .HACA .NSC_NEOH := fun v hv => by rw [List.eq_of_mem_replicate hv]; exact exEnv_ok _ _
  obtain ⟨dts, d1, d2, d3⟩ := C97_sect_steps_exist eig 4 .LL .HACA .NSC_NEOH .FUCHS 0 2 100 _ hm (by simp) (by simp) (by norm_num) (by norm_num) hbig
    ⟨gas, [1E15, 1E14, 0, 1E13]⟩ rfl hz _ hv
  obtain ⟨y, y1, y2, y3, y4⟩ := C97_sect_euler eig 4 .LL .HACA .NSC_NEOH .FUCHS 0 2 100 _ hm (by simp) (by simp) (by norm_num) (by norm_num) hbig
    ⟨gas, [1E15, 1E14, 0, 1E13]⟩ rfl hz _ (fun e he => hv _ (List.of_mem_zip he).1) d3
  exact ⟨_, dts, y, hm, by rw [d1]; simp, d2, y1, y3, (y4 (by simp)).1⟩

end Soot
