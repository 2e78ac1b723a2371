import Verif.Burner
import Verif.Props.Interp
import Verif.Props.Reads
import Verif.Props.QmomDown

/-!
# C74, C75: the burner flame examples
-/

namespace Soot

open Res Real
open scoped Classical

/-! ## Specification -/

/-- Physical profiles: at least two rows, strictly increasing positions, positive velocity, temperature, density and viscosity, mass fractions
in [0, 1]. -/
structure Flame (p : Profiles) : Prop where
  incr : Incr p.z
  two : 2 ≤ p.z.length
  len : ∀ c, (p.col c).length = p.z.length
  pos : ∀ c ∈ [Col.v, .T, .rho, .mu], ∀ y ∈ p.col c, 0 < y
  frac : ∀ c ∈ gasFull, ∀ y ∈ p.col c, 0 ≤ y ∧ y ≤ 1

/-- Mechanisms that need neither benzene nor tar; with HACA the flame stays below the temperature at which its steric factor can be `0/0` (C47). -/
structure BurnMechs (p : Profiles) (n : NuclMech) (g : GrowMech) (o : OxidMech) : Prop where
  nucl : n ∈ [NuclMech.NONE, .LL, .LIN, .MB, .FAIR, .PAH]
  cool : g = .HACA ∨ o = .HACA → ∀ T ∈ p.col .T, T < 33.167 / 0.0154

/-- The configurations of the example file: the classes named in it except MOMIC, within the limits of the classes (C26, C31, C41). -/
structure BurnCfg (p : Profiles) (psd : PsdMech) (nsoot : ℕ) (n : NuclMech) (g : GrowMech) (o : OxidMech) (c : CoagMech) : Prop
    extends BurnMechs p n g o where
  doc : Documented psd nsoot c .NONE
  cls : psd ∈ [PsdMech.MONO, .LOGN, .QMOM, .SECT]
  logn : psd = .LOGN → n ≠ .PAH
  qmom : psd = .QMOM → c ≠ .NONE → nsoot ≤ 35
  sect : psd = .SECT → nsoot < 2 ^ 63

/-- The right-hand side the program integrates, `d(M/rho)/dz = S/(rho v)`, with gas mass fractions taken from `cols`, evaluated with new objects. -/
noncomputable def slope (eig : Eig) (p : Profiles) (psd : PsdMech) (nsoot : ℕ) (n : NuclMech) (g : GrowMech) (o : OxidMech) (c : CoagMech)
    (cols : List Col) (x : ℝ) (Mh : List ℝ) : Res (List ℝ) := do
  let m ← Model.new psd nsoot n g o c
  let y ← p.row x cols
  let rho ← p.at .rho x
  let T ← p.at .T x
  let mu ← p.at .mu x
  let v ← p.at .v x
  let r := setState (State.mk' nsoot 0) { T := T, P := 101325, rhoGas := rho, muGas := mu, yGas := y, yPah := List.replicate nPah 0
                                          sootVar := Mh.map (· * rho), nsoot := nsoot, tarVar := [], Ntar := 0, cMin := 1667 }
  r.2
  let r ← sourceTerms eig { m with coag := m.coag.setFM (9.0 / 2.0 / 2.2) } none r.1
  ok (r.1.sources.soot.map (· / rho / v))

/-- `a + d b`, entry by entry. -/
noncomputable def axpy (a : List ℝ) (d : ℝ) (b : List ℝ) : List ℝ := List.zipWith (fun x y => x + d * y) a b

/-- `N` steps of a two-stage method: half an Euler step with `f`, then a full step with the slope `f'` at the half step. -/
def TwoStage (f f' : ℝ → List ℝ → Res (List ℝ)) (z0 dz : ℝ) (N : ℕ) (M : ℕ → List ℝ) : Prop :=
  ∀ i < N, ∃ k1 k2, f (z0 + i * dz) (M i) = ok k1 ∧ f' (z0 + i * dz + dz / 2) (axpy (M i) (dz / 2) k1) = ok k2 ∧ M (i + 1) = axpy (M i) dz k2

/-- The midpoint method for `f`. -/
def Midpoint (f : ℝ → List ℝ → Res (List ℝ)) := TwoStage f f

namespace Burn

/-! ## Tables -/

section
variable {p : Profiles}

theorem turnLoop_ok {X : List ℝ} (hX : Incr X) : ∀ n i, 1 ≤ i → i + n + 1 ≤ X.length → turnLoop X n i = ok (some ())
  | 0, _, _, _ => rfl
  | n + 1, i, h1, h2 => by
    have a := hX (i - 1) i (by omega) (by omega)
    have b := hX i (i + 1) (by omega) (by omega)
    have e : turnAt X i = ok False := by
      rw [turnAt, idx_getD' (by omega), ok_bind, idx_getD' (by omega), ok_bind, idx_getD' (by omega), ok_bind]
      congr 1
      simp only [eq_iff_iff, iff_false, not_or, not_and, not_lt]
      exact ⟨a.ne', b.ne, fun h => absurd h (not_lt.mpr a.le), fun _ => b.le⟩
    rw [turnLoop, e, ok_bind, if_neg not_false]
    exact turnLoop_ok hX n (i + 1) (by omega) (by omega)

theorem table_ok (h : Flame p) (c : Col) : p.table c = ok (some ⟨p.z, p.col c, p.z.length⟩) := by
  have h2 := h.two
  rw [Profiles.table, Interp.new, if_neg (by simp [h.len c]), turnLoop_ok h.incr _ 1 le_rfl (by omega), ok_bind]

theorem tables_ok (h : Flame p) : ∀ l, p.tables l = ok (some ())
  | [] => rfl
  | c :: l => by rw [Profiles.tables, table_ok h, ok_bind]; exact tables_ok h l

/-- Position inside the profile. -/
def Inside (p : Profiles) (x : ℝ) : Prop := p.z.getD 0 0 ≤ x ∧ x ≤ p.z.getD (p.z.length - 1) 0

/-- Inside the profile every table returns a value in the range of its entries. -/
theorem at_ok (h : Flame p) {x : ℝ} (hx : Inside p x) (c : Col) : ∃ y, p.at c x = ok y ∧
    (∀ lo, (∀ y ∈ p.col c, lo < y) → lo < y) ∧ (∀ lo, (∀ y ∈ p.col c, lo ≤ y) → lo ≤ y) ∧ (∀ hi, (∀ y ∈ p.col c, y ≤ hi) → y ≤ hi) := by
  obtain ⟨i, y, hi, _, _, h3, _, h5, h6⟩ := C52_interp_between h.incr (h.len c) h.two hx.1 hx.2
  have m1 : (p.col c).getD i 0 ∈ p.col c := by
    rw [List.getD_eq_getElem _ _ (by rw [h.len c]; omega)]; exact List.getElem_mem _
  have m2 : (p.col c).getD (i + 1) 0 ∈ p.col c := by
    rw [List.getD_eq_getElem _ _ (by rw [h.len c]; omega)]; exact List.getElem_mem _
  exact ⟨y, h3, fun lo hl => (lt_min (hl _ m1) (hl _ m2)).trans_le h5, fun lo hl => (le_min (hl _ m1) (hl _ m2)).trans h5,
    fun hi hl => h6.trans (max_le (hl _ m1) (hl _ m2))⟩

theorem temp_le (h : Flame p) {x : ℝ} (hx : Inside p x) : ∃ T, p.at .T x = ok T ∧ 0 < T ∧ ∃ T' ∈ p.col .T, T ≤ T' := by
  obtain ⟨y, h1, h2, _, h4⟩ := at_ok h hx .T
  refine ⟨y, h1, h2 0 (h.pos .T (by simp)), ?_⟩
  by_contra hn
  push Not at hn
  obtain ⟨i, _, hi, _, _, h3, _, _, h6⟩ := C52_interp_between h.incr (h.len .T) h.two hx.1 hx.2
  rw [show p.at .T x = _ from h3, ok.injEq] at h1
  subst h1
  have m1 : (p.col .T).getD i 0 ∈ p.col .T := by
    rw [List.getD_eq_getElem _ _ (by rw [h.len .T]; omega)]; exact List.getElem_mem _
  have m2 : (p.col .T).getD (i + 1) 0 ∈ p.col .T := by
    rw [List.getD_eq_getElem _ _ (by rw [h.len .T]; omega)]; exact List.getElem_mem _
  exact absurd h6 (not_le.2 (max_lt (hn _ m1) (hn _ m2)))

theorem pos_ok (h : Flame p) {x : ℝ} (hx : Inside p x) {c : Col} (hc : c ∈ [Col.v, .T, .rho, .mu]) : ∃ y, p.at c x = ok y ∧ 0 < y := by
  obtain ⟨y, h1, h2, _⟩ := at_ok h hx c
  exact ⟨y, h1, h2 0 (h.pos c hc)⟩

theorem row_ok (h : Flame p) {x : ℝ} (hx : Inside p x) : ∀ cols, (∀ c ∈ cols, c ∈ gasFull) →
    ∃ ys, p.row x cols = ok ys ∧ ys.length = cols.length ∧ ∀ y ∈ ys, 0 ≤ y ∧ y ≤ 1
  | [], _ => ⟨[], rfl, rfl, by simp⟩
  | c :: l, hc => by
    obtain ⟨y, h1, _, h2, h3⟩ := at_ok h hx c
    obtain ⟨ys, e1, e2, e3⟩ := row_ok h hx l fun c hc' => hc c (by simp [hc'])
    have hf := h.frac c (hc c (by simp))
    refine ⟨y :: ys, by simp [Profiles.row, h1, e1], by simp [e2], ?_⟩
    simp only [List.forall_mem_cons]
    exact ⟨⟨h2 0 fun y hy => (hf y hy).1, h3 1 fun y hy => (hf y hy).2⟩, e3⟩

end

/-! ## One evaluation -/

/-- The model as built at burner_flame.cc:68-82. -/
noncomputable def model (psd : PsdMech) (nsoot : ℕ) (n : NuclMech) (g : GrowMech) (o : OxidMech) (c : CoagMech) : Model :=
  { exModel psd nsoot n g o c with coag := (Coag.new c).setFM (9.0 / 2.0 / 2.2) }

section
variable {p : Profiles} {psd : PsdMech} {nsoot : ℕ} {n : NuclMech} {g : GrowMech} {o : OxidMech} {c : CoagMech}

theorem _root_.Soot.BurnCfg.two (h : BurnCfg p psd nsoot n g o c) : 2 ≤ nsoot := by
  have hd := h.doc
  cases hd <;> omega

theorem _root_.Soot.BurnCfg.new (h : BurnCfg p psd nsoot n g o c) : Model.new psd nsoot n g o c = ok (exModel psd nsoot n g o c) :=
  exModel_new ((ctorCheck_iff psd (by have := h.cls; rintro rfl; simp at this) nsoot c .NONE).1 h.doc) n g o

/-- What is true of the objects between two evaluations. -/
structure Ok (M : Model) (m : Model) (s : State) (gl : Option ℝ) : Prop where
  wf : m.WF
  spec : M.SameSpec m
  wts : s.wts.length = M.nsoot / 2
  absc : s.absc.length = M.nsoot / 2
  pah : s.yPah.length = nPah
  nsoot : s.nsoot = M.nsoot
  ntar : s.Ntar = 0
  own : M.psd = .SECT → OwnFactor M gl

theorem ok_start (psd : PsdMech) (nsoot : ℕ) (n : NuclMech) (g : GrowMech) (o : OxidMech) (c : CoagMech) :
    Ok (model psd nsoot n g o c) (model psd nsoot n g o c) (State.mk' nsoot 0) none where
  wf := ⟨Nucl.new_wf n, rfl, rfl, fun _ => rfl, fun _ => rfl, rfl, rfl, by simp [model, exModel, Sources.new]⟩
  spec := ⟨rfl, rfl, rfl, rfl, rfl, rfl, rfl, rfl, rfl, rfl⟩
  wts := by simp [State.mk', model, exModel]
  absc := by simp [State.mk', model, exModel]
  pah := by simp [State.mk']
  nsoot := rfl
  ntar := rfl
  own := fun _ => .inl rfl

/-- The eight mass fractions, extended to all species. -/
def pad (y : List ℝ) : List ℝ := y ++ [0, 0, 0]

theorem sameAt_pad (h : BurnMechs p n g o) {y : List ℝ} (hy : y.length = 8) : SameAt (reads n g o .NONE) y (pad y) := by
  intro sp hs
  refine (List.getElem?_append_left ?_).symm
  have hn := h.nucl
  simp only [List.mem_cons, List.not_mem_nil, or_false] at hn
  rw [hy]
  simp only [reads, List.mem_append] at hs
  rcases hs with ((hs | hs) | hs) | hs
  · rcases hn with rfl | rfl | rfl | rfl | rfl | rfl <;> simp [nuclReads] at hs <;> subst hs <;> decide
  · cases g <;> simp [growReads] at hs <;> rcases hs with rfl | rfl | rfl | rfl | rfl | rfl <;> decide
  · cases o <;> simp [oxidReads] at hs <;> (try rcases hs with rfl | rfl | rfl | rfl | rfl | rfl) <;> decide
  · simp [tarReads] at hs

variable {m : Model} {s : State} {gl : Option ℝ}

/-- The inputs of one `setState` call of the program. -/
structure ArgsOk (p : Profiles) (nsoot : ℕ) (T rho mu : ℝ) (y M : List ℝ) : Prop where
  le : ∃ T' ∈ p.col .T, T ≤ T'
  T : 0 < T
  rho : 0 < rho
  mu : 0 < mu
  ylen : y.length = 8
  y : ∀ x ∈ y, 0 ≤ x ∧ x ≤ 1
  M : M.length = nsoot

variable {T rho mu : ℝ} {y V : List ℝ}

theorem set_ok' (hk : Ok (model psd nsoot n g o c) m s gl) (ha : ArgsOk p nsoot T rho mu y V) (z : List ℝ) (hz : ∀ x ∈ z, x ≤ 1) :
    setState s (burnArgs m.nsoot T rho mu z V) = (stateAfter s (burnArgs m.nsoot T rho mu z V), ok ()) := by
  have e : s.nsoot = (nsoot : ℤ) := hk.nsoot
  have e2 := hk.ntar
  refine C01_setState_accepts s _ (by rw [e]; simp [burnArgs, ha.M]) (by rw [e2]; simp) ⟨ha.T, by norm_num [burnArgs], ha.rho, ha.mu,
    by norm_num [burnArgs], fun i hi hl => ?_, fun i hi _ => by simp [burnArgs] at hi, hz, by simp [burnArgs, hk.pah], by simp [burnArgs],
    by simp [burnArgs]⟩
  rw [e] at hl
  simp only [burnArgs, ha.M] at hi
  simp at hl; omega

theorem ready (h : BurnMechs p n g o) (h2 : 2 ≤ nsoot) (hk : Ok (model psd nsoot n g o c) m s gl) (ha : ArgsOk p nsoot T rho mu y V) :
    Ready m (stateAfter s (burnArgs m.nsoot T rho mu (pad y) V)) := by
  have hz : ∀ x ∈ pad y, 0 ≤ x ∧ x ≤ 1 := by
    intro x hx
    rcases List.mem_append.1 hx with hx | hx
    · exact ha.y x hx
    · simp at hx; subst hx; norm_num
  have hs := set_ok' hk ha (pad y) fun x hx => (hz x hx).2
  have hn := h.nucl
  have en : m.nucl.mech = n := hk.spec.nmech
  have ens : m.nsoot = nsoot := hk.spec.nsoot
  refine ⟨hk.wf, by rw [hk.spec.coag]; norm_num [model, Coag.setFM, exModel], ⟨⟨s, _, by rw [hs], by rw [hs]⟩, ?_, fun x hx => (hz x hx).1⟩,
    by simp [stateAfter, burnArgs], ⟨?_, ?_, ?_⟩, ?_, ?_, ?_⟩
  · show (pad y).length = nGas
    simp [pad, ha.ylen, nGas]
  · show 2 ≤ (V.map _).length
    rw [List.length_map, ha.M]; exact h2
  · intro hp
    have hp : m.psd = .SECT := hp
    rw [hk.spec.psd] at hp
    have hp : psd = .SECT := hp
    refine ⟨?_, ?_, ?_⟩
    · show m.nsoot ≤ (V.map _).length
      rw [List.length_map, ha.M, ens]
    · show m.nsoot ≤ m.mBins.length
      rw [hk.spec.mBins, ens]
      simp [model, exModel, hp, binMasses]
    · rfl
  · intro x hx
    have hx : x ∈ m.mBins := hx
    rw [hk.spec.mBins] at hx
    simp only [model, exModel] at hx
    split_ifs at hx
    · simp only [binMasses, List.mem_map] at hx
      obtain ⟨k, _, rfl⟩ := hx
      have := gasMW_pos .C; have := Na_pos
      positivity
    · simp at hx
  · rw [hk.spec.grow, hk.spec.oxid]
    rintro hx ⟨_, _, hsing⟩
    obtain ⟨T', hT', hle⟩ := ha.le
    have := h.cool (by simpa [model, exModel, Grow.new, Oxid.new] using hx) T' hT'
    rw [lt_div_iff₀ (by norm_num)] at this
    change (33.167 : ℝ) - 0.0154 * T = 0 at hsing
    linarith
  · rw [en]; rintro (rfl | rfl) <;> simp at hn
  · rw [en]; rintro rfl; simp at hn

/-- With all eleven mass fractions the evaluation returns, and the objects stay as required. -/
theorem eval_pad (eig : Eig) (h : BurnCfg p psd nsoot n g o c) (hk : Ok (model psd nsoot n g o c) m s gl) (ha : ArgsOk p nsoot T rho mu y V) :
    ∃ m' s' gl', sourceTerms eig m gl (stateAfter s (burnArgs m.nsoot T rho mu (pad y) V)) = ok (m', s', gl') ∧
      Ok (model psd nsoot n g o c) m' s' gl' := by
  have hr := ready h.toBurnMechs h.two hk ha
  have ep : m.psd = psd := hk.spec.psd
  have ens : m.nsoot = nsoot := hk.spec.nsoot
  have et : m.tar = .NONE := hk.spec.tar
  have en : m.nucl.mech = n := hk.spec.nmech
  have ec : m.coag.mech = c := by rw [hk.spec.coag]; rfl
  have hw : s.wts.length = nsoot / 2 := hk.wts
  have hab : s.absc.length = nsoot / 2 := hk.absc
  have hl := ha.M
  have hd := h.doc
  have trans : ∀ {m' : Model}, m.SameSpec m' → (model psd nsoot n g o c).SameSpec m' := fun q =>
    ⟨q.psd.trans hk.spec.psd, q.nsoot.trans hk.spec.nsoot, q.Ntar.trans hk.spec.Ntar, q.nmech.trans hk.spec.nmech, q.grow.trans hk.spec.grow,
      q.oxid.trans hk.spec.oxid, q.coag.trans hk.spec.coag, q.tar.trans hk.spec.tar, q.mBins.trans hk.spec.mBins, q.binF.trans hk.spec.binF⟩
  unfold sourceTerms
  rw [ep]
  generalize hS : stateAfter s (burnArgs m.nsoot T rho mu (pad y) V) = S at hr ⊢
  have hSs : S.sootVar = V.map (max · 0) := by rw [← hS]; rfl
  have hSw : S.wts = s.wts := by rw [← hS]; rfl
  have hSa : S.absc = s.absc := by rw [← hS]; rfl
  have hSp : S.yPah.length = nPah := hr.pah
  have hSn : S.nsoot = ((model psd nsoot n g o c).nsoot : ℤ) := by rw [← hS]; show (m.nsoot : ℤ) = nsoot; rw [ens]
  have hSt : S.Ntar = 0 := by rw [← hS]; rfl
  cases hd with
  | mono c t =>
    obtain ⟨w, hw'⟩ := List.length_eq_one_iff.1 (hSw ▸ hw)
    obtain ⟨a, ha'⟩ := List.length_eq_one_iff.1 (hSa ▸ hab)
    obtain ⟨M0, M1, hV⟩ := List.length_eq_two.1 (show S.sootVar.length = 2 by rw [hSs, List.length_map, hl])
    obtain ⟨m', s', _, _, _, _, _, e, _, e2, _⟩ := mono_eval (M0 := M0) (M1 := M1) (w := w) (a := a)
      ⟨hr, ep, et, by rw [hr.wf.srcLen, ens], hV, hw', ha'⟩
    obtain ⟨q1, q2⟩ := monoSources_wf hr.wf e
    refine ⟨m', s', gl, by simp only [e, ok_bind], ⟨q1, trans q2, ?_, ?_, ?_, ?_, ?_, fun hx => by cases hx⟩⟩ <;> rw [e2]
    · simp [model, exModel]
    · simp [model, exModel]
    · exact hSp
    · exact hSn
    · exact hSt
  | logn c hc =>
    obtain ⟨M0, M1, M2, hV⟩ := List.length_eq_three.1 (show S.sootVar.length = 3 by rw [hSs, List.length_map, hl])
    obtain ⟨m', e, _⟩ := C26_logn_total_partial m S M0 M1 M2 ⟨hr, ep, ens, et, by rw [ec]; simpa using hc, hV⟩ (by rw [en]; exact h.logn rfl)
    obtain ⟨q1, q2⟩ := lognSources_wf hr.wf e
    exact ⟨m', S, gl, by simp only [e, ok_bind], q1, trans q2, by rw [hSw]; exact hw, by rw [hSa]; exact hab, hSp, hSn, hSt, fun hx => by cases hx⟩
  | qmom k hk1 c =>
    obtain ⟨w, a, m', s', _, _, _, _, _, e1, e2, _, _, e, _, e3, _⟩ := qmom_eval eig (m := m) (s := S)
      ⟨hr, ep, by rw [ens]; omega, by rw [ens]; omega, et, by rw [hSs, List.length_map, hl, ens], by rw [hSw, ens, hw], by rw [hSa, ens, hab],
        by rw [ec, ens]; exact h.qmom rfl⟩
    obtain ⟨q1, q2⟩ := qmomSources_wf hr.wf (by rw [ens]; omega) e
    rw [ens] at e1 e2
    refine ⟨m', s', gl, by simp only [e, ok_bind], ⟨q1, trans q2, ?_, ?_, ?_, ?_, ?_, fun hx => by cases hx⟩⟩ <;> rw [e3]
    · exact e1
    · exact e2
    · exact hSp
    · exact hSn
    · exact hSt
  | sect k hk1 c =>
    have eb : m.mBins = binMasses nsoot 2 100 := by rw [hk.spec.mBins]; simp [model, exModel]
    have eF : m.binF = 2 := hk.spec.binF
    have hg : GeoBins m := by
      refine ⟨by rw [eF]; norm_num, fun j hj => ?_, ?_⟩
      · rw [ens] at hj
        rw [eb, eF, binMasses_getD hj, binMasses_getD (by omega)]; ring
      · rw [eF, ens, div_self (log_pos (by norm_num)).ne']
        have : (nsoot : ℝ) < 2 ^ 63 := by exact_mod_cast h.sect rfl
        linarith [show (2 : ℝ) ^ 64 > 2 ^ 63 + 1 by norm_num]
    have hgl : OwnFactor m gl := by
      have := hk.own rfl
      unfold OwnFactor at this ⊢
      rw [hk.spec.binF]; exact this
    obtain ⟨m', s', gl', _, _, _, _, _, _, _, e, e1, _, e2, _⟩ := C70_sect_equations m S gl
      ⟨hr, ep, by rw [eb, ens]; exact binMasses_bins hk1 (by norm_num) (by norm_num)⟩ hg hgl
    obtain ⟨q1, q2⟩ := sectSources_wf hr.wf e
    refine ⟨m', s', gl', e, ⟨q1, trans q2, ?_, ?_, ?_, ?_, ?_, fun _ => ?_⟩⟩
    · rw [e2]; show S.wts.length = _; rw [hSw]; exact hw
    · rw [e2]; show S.absc.length = _; rw [hSa]; exact hab
    · rw [e2]; exact hSp
    · rw [e2]; exact hSn
    · rw [e2]; exact hSt
    · unfold OwnFactor at e1 ⊢
      rw [hk.spec.binF] at e1; exact e1
  | momic => exact absurd h.cls (by simp)
  | hmom => exact absurd h.cls (by simp)

/-- With the eight mass fractions of the program. -/
theorem eval (eig : Eig) (h : BurnCfg p psd nsoot n g o c) (hk : Ok (model psd nsoot n g o c) m s gl) (ha : ArgsOk p nsoot T rho mu y V) :
    ∃ m' s' gl', sourceTerms eig m gl (setState s (burnArgs m.nsoot T rho mu y V)).1 = ok (m', s', gl') ∧
      (setState s (burnArgs m.nsoot T rho mu y V)).2 = ok () ∧ Ok (model psd nsoot n g o c) m' s' gl' := by
  obtain ⟨m', s', gl', e, q⟩ := eval_pad eig h hk ha
  have e1 := C73_reads eig m gl (stateAfter s (burnArgs m.nsoot T rho mu (pad y) V)) y (by
    have := sameAt_pad h.toBurnMechs ha.ylen
    rw [hk.spec.nmech, hk.spec.grow, hk.spec.oxid, hk.spec.tar]; exact this)
  rw [set_ok' hk ha y fun x hx => (ha.y x hx).2]
  rw [e, map'_ok] at e1
  exact ⟨m', _, gl', e1, rfl, q.wf, q.spec, q.wts, q.absc, q.pah, q.nsoot, q.ntar, q.own⟩

/-- One evaluation of the program. -/
theorem stage (eig : Eig) {p : Profiles} (hp : Flame p) (h : BurnCfg p psd nsoot n g o c) {b : Burn} (hk : Ok (model psd nsoot n g o c) b.SM b.S b.glob)
    {cols : List Col} (hc : ∀ c ∈ cols, c ∈ gasFull) (hl : cols.length = 8) {Mh : List ℝ} (hM : Mh.length = nsoot) {x : ℝ} (hx : Inside p x) :
    ∃ m' s' gl', burnStage eig p cols b Mh x = ok (m', s', gl') ∧ Ok (model psd nsoot n g o c) m' s' gl' := by
  obtain ⟨ys, e1, e2, e3⟩ := row_ok hp hx cols hc
  obtain ⟨rho, r1, r2⟩ := pos_ok hp hx (c := .rho) (by simp)
  obtain ⟨T, t1, t2, t3⟩ := temp_le hp hx
  obtain ⟨mu, u1, u2⟩ := pos_ok hp hx (c := .mu) (by simp)
  obtain ⟨m', s', gl', q1, q2, q3⟩ := eval eig h hk (T := T) (rho := rho) (mu := mu) (y := ys) (V := Mh.map (· * rho))
    ⟨t3, t2, r2, u2, e2.trans hl, e3, by simp [hM]⟩
  exact ⟨m', s', gl', by simp only [burnStage, e1, r1, t1, u1, ok_bind, q2, q1], q3⟩

theorem advance {p : Profiles} {x d rho v : ℝ} (hr : p.at .rho x = ok rho) (hr0 : rho ≠ 0) (hv : p.at .v x = ok v) (hv0 : v ≠ 0) (src : List ℝ) :
    ∀ (Ms : List ℝ) k, k + Ms.length ≤ src.length →
      burnAdvance p x d src k Ms = ok (List.zipWith (fun M s => M + d * s / rho / v) Ms (src.drop k))
  | [], _, _ => by simp [burnAdvance]
  | M :: Ms, k, h => by
    simp only [List.length_cons] at h
    have hk : k < src.length := by omega
    rw [burnAdvance, idx_ok hk, ok_bind, hr, ok_bind, hv, ok_bind, cdiv_ok hr0, ok_bind, cdiv_ok hv0, ok_bind,
      advance hr hr0 hv hv0 src Ms (k + 1) (by omega), ok_bind, List.drop_eq_getElem_cons hk, List.zipWith_cons_cons]

/-- The loop invariant. -/
structure Inv (M : Model) (p : Profiles) (b : Burn) : Prop where
  obj : Ok M b.SM b.S b.glob
  len : b.Mhat.length = M.nsoot

theorem step_ok (eig : Eig) {p : Profiles} (hp : Flame p) (h : BurnCfg p psd nsoot n g o c) {b : Burn} (hb : Inv (model psd nsoot n g o c) p b) {dz : ℝ}
    (h0 : 0 ≤ dz) (hz : Inside p b.z) (hz' : Inside p (b.z + dz)) (i : ℕ) :
    ∃ b', burnStep eig p dz i b = ok b' ∧ Inv (model psd nsoot n g o c) p b' ∧ b'.z = b.z + dz := by
  have hM : b.Mhat.length = nsoot := hb.len
  have hzh : Inside p (b.z + dz / 2) := ⟨hz.1.trans (by linarith), le_trans (by linarith) hz'.2⟩
  obtain ⟨m1, s1, g1, e1, k1⟩ := stage eig hp h hb.obj (cols := gasFull) (fun _ hc => hc) rfl hM hz
  have l1 : m1.sources.soot.length = nsoot := k1.wf.srcLen.trans k1.spec.nsoot
  obtain ⟨r, hr, hr0⟩ := pos_ok hp hz (c := .rho) (by simp)
  obtain ⟨v, hv, hv0⟩ := pos_ok hp hz (c := .v) (by simp)
  have a1 := advance (d := 0.5 * dz) hr hr0.ne' hv hv0.ne' m1.sources.soot b.Mhat 0 (by omega)
  obtain ⟨m2, s2, g2, e2, k2⟩ := stage eig hp h (b := ⟨b.z, b.Mhat, s1, m1, g1⟩) k1 (cols := gasHalf) (by decide) rfl
    (Mh := List.zipWith (fun M s => M + 0.5 * dz * s / r / v) b.Mhat (m1.sources.soot.drop 0)) (by simp [hM, l1]) hzh
  have l2 : m2.sources.soot.length = nsoot := k2.wf.srcLen.trans k2.spec.nsoot
  obtain ⟨r', hr', hr0'⟩ := pos_ok hp hzh (c := .rho) (by simp)
  obtain ⟨v', hv', hv0'⟩ := pos_ok hp hzh (c := .v) (by simp)
  have a2 := advance (d := dz) hr' hr0'.ne' hv' hv0'.ne' m2.sources.soot b.Mhat 0 (by omega)
  obtain ⟨r3, hr3, _⟩ := pos_ok hp hz' (c := .rho) (by simp)
  refine ⟨⟨b.z + dz, List.zipWith (fun M s => M + dz * s / r' / v') b.Mhat (m2.sources.soot.drop 0), s2, m2, g2⟩, ?_,
    ⟨k2, by simp [hM, l2, model, exModel]⟩, rfl⟩
  rw [burnStep, e1, ok_bind]
  simp only [a1, ok_bind, e2, a2, hr3]
  split_ifs <;> rfl

theorem inside_step {p : Profiles} (hp : Flame p) {N i : ℕ} (hN : 1 ≤ N) (hi : i ≤ N) :
    Inside p (p.z.getD 0 0 + i * ((p.z.getD (p.z.length - 1) 0 - p.z.getD 0 0) / N)) := by
  have h2 := hp.two
  have hz := hp.incr 0 (p.z.length - 1) (by omega) (by omega)
  have hN' : (0 : ℝ) < N := by exact_mod_cast hN
  have hi' : (i : ℝ) ≤ N := by exact_mod_cast hi
  have hL : 0 ≤ (p.z.getD (p.z.length - 1) 0 - p.z.getD 0 0) / N := by
    apply div_nonneg _ hN'.le; linarith
  refine ⟨by nlinarith [(Nat.cast_nonneg i : (0 : ℝ) ≤ i)], ?_⟩
  have := mul_le_mul_of_nonneg_right hi' hL
  rw [mul_div_cancel₀ _ hN'.ne'] at this
  linarith

theorem loop_ok (eig : Eig) {p : Profiles} (hp : Flame p) (h : BurnCfg p psd nsoot n g o c) {N : ℕ} (hN : 1 ≤ N) {dz : ℝ}
    (hd : dz = (p.z.getD (p.z.length - 1) 0 - p.z.getD 0 0) / N) : ∀ k i (b : Burn), i + k = N → Inv (model psd nsoot n g o c) p b →
      b.z = p.z.getD 0 0 + i * dz →
      ∃ b', burnLoop eig p dz k i b = ok b' ∧ Inv (model psd nsoot n g o c) p b' ∧ b'.z = p.z.getD 0 0 + N * dz
  | 0, i, b, hi, hb, hz => ⟨b, rfl, hb, by rw [hz, ← hi]; simp⟩
  | k + 1, i, b, hi, hb, hz => by
    have h2 := hp.two
    have hzz := hp.incr 0 (p.z.length - 1) (by omega) (by omega)
    have hd0 : 0 ≤ dz := by rw [hd]; apply div_nonneg (by linarith) (Nat.cast_nonneg _)
    have hz1 : b.z + dz = p.z.getD 0 0 + ((i + 1 : ℕ) : ℝ) * dz := by rw [hz]; push_cast; ring
    obtain ⟨b1, e1, hb1, hz1'⟩ := step_ok eig hp h hb hd0 (by rw [hz, hd]; exact inside_step hp hN (by omega))
      (by rw [hz1, hd]; exact inside_step hp hN (by omega)) i
    obtain ⟨b2, e2, hb2, hz2⟩ := loop_ok eig hp h hN hd k (i + 1) b1 (by omega) hb1 (hz1'.trans hz1)
    exact ⟨b2, by rw [burnLoop, e1, ok_bind, e2], hb2, hz2⟩

/-! ## The scheme -/

/-- One evaluation of the program gives the slope of the specification, whatever the objects were used for before. -/
theorem stage_slope (eig : Eig) {p : Profiles} (hp : Flame p) (h : BurnCfg p psd nsoot n g o c) (hm : psd ≠ .MONO) {b : Burn}
    (hk : Ok (model psd nsoot n g o c) b.SM b.S b.glob) {cols : List Col} (hc : ∀ c ∈ cols, c ∈ gasFull) (hl : cols.length = 8) {Mh : List ℝ}
    (hM : Mh.length = nsoot) {x : ℝ} (hx : Inside p x) {rho v : ℝ} (r1 : p.at .rho x = ok rho) (v1 : p.at .v x = ok v) {r : Model × State × Option ℝ}
    (e : burnStage eig p cols b Mh x = ok r) : slope eig p psd nsoot n g o c cols x Mh = ok (r.1.sources.soot.map (· / rho / v)) := by
  obtain ⟨ys, e1, e2, e3⟩ := row_ok hp hx cols hc
  obtain ⟨rho', r1', r2⟩ := pos_ok hp hx (c := .rho) (by simp)
  rw [r1] at r1'; cases r1'
  obtain ⟨T, t1, t2, t3⟩ := temp_le hp hx
  obtain ⟨mu, u1, u2⟩ := pos_ok hp hx (c := .mu) (by simp)
  have hA : ArgsOk p nsoot T rho mu ys (Mh.map (· * rho)) := ⟨t3, t2, r2, u2, e2.trans hl, e3, by simp [hM]⟩
  have hk0 := ok_start psd nsoot n g o c
  obtain ⟨m', s', gl', q1, q2, q3⟩ := eval eig h hk hA
  obtain ⟨m0, s0, gl0, w1, w2, w3⟩ := eval eig h hk0 hA
  have ens : b.SM.nsoot = nsoot := hk.spec.nsoot
  have en0 : (model psd nsoot n g o c).nsoot = nsoot := rfl
  have ee : r = (m', s', gl') := by
    simp only [burnStage, e1, r1, t1, u1, ok_bind, q2, q1, ok.injEq] at e
    exact e.symm
  have key := C72_function_of_inputs eig b.SM (model psd nsoot n g o c) hk.wf hk0.wf hk.spec.canon_eq
    (by rw [hk.spec.psd, hk.spec.nsoot, hk.spec.coag, hk.spec.tar]; exact h.doc)
    (by rw [hk.spec.psd]; rintro he; have := h.cls; rw [show psd = .HMOM from he] at this; simp at this)
    b.S (State.mk' nsoot 0) (burnArgs nsoot T rho mu ys (Mh.map (· * rho))) (by rw [← ens]; exact q2) (by rw [← en0]; exact w2)
    (by rw [ens]; exact hk.wts) (by rw [ens]; exact hk.absc) (by rw [ens]; exact hk0.wts) (by rw [ens]; exact hk0.absc)
    (by
      rw [hk.spec.nmech, hk.spec.tar]
      have hn := h.nucl
      rintro (he | he)
      · rw [show n = .AJ_RED from he] at hn; simp at hn
      · exact absurd he (by simp [model, exModel]))
    (by rw [hk.spec.psd]; exact fun he => absurd he hm) b.glob none (fun _ => by rw [hk.spec.binF]; norm_num [model, exModel])
    (fun he => by
      have := hk.own (hk.spec.psd ▸ he)
      unfold OwnFactor at this ⊢
      rw [hk.spec.binF]; exact this) (fun _ => .inl rfl)
  rw [ens] at q1
  rw [en0] at w1 w2
  rw [q1, w1] at key
  simp only [Pure.seen, map'_ok, ok.injEq, Prod.mk.injEq] at key
  have w1' : sourceTerms eig (model psd nsoot n g o c) none (setState (State.mk' nsoot 0) (burnArgs nsoot T rho mu ys (Mh.map (· * rho)))).1 =
    ok (m0, s0, gl0) := w1
  rw [slope, h.new, ok_bind]
  simp only [e1, r1, t1, u1, v1, ok_bind]
  change (setState (State.mk' nsoot 0) (burnArgs nsoot T rho mu ys (Mh.map (· * rho)))).2 >>= _ = _
  rw [w2, ok_bind]
  change sourceTerms eig _ none (setState (State.mk' nsoot 0) (burnArgs nsoot T rho mu ys (Mh.map (· * rho)))).1 >>= _ = _
  rw [show ({ exModel psd nsoot n g o c with coag := (exModel psd nsoot n g o c).coag.setFM (9.0 / 2.0 / 2.2) } : Model) = model psd nsoot n g o c from rfl,
    w1', ok_bind, ee, key.1]

theorem advance_axpy (Ms src : List ℝ) (d rho v : ℝ) :
    List.zipWith (fun M s => M + d * s / rho / v) Ms (src.drop 0) = axpy Ms d (src.map (· / rho / v)) := by
  rw [axpy, List.zipWith_map_right, List.drop_zero]
  congr 1
  funext x y
  ring

theorem step_scheme (eig : Eig) {p : Profiles} (hp : Flame p) (h : BurnCfg p psd nsoot n g o c) (hm : psd ≠ .MONO) {b : Burn}
    (hb : Inv (model psd nsoot n g o c) p b) {dz : ℝ} (h0 : 0 ≤ dz) (hz : Inside p b.z) (hz' : Inside p (b.z + dz)) (i : ℕ) :
    ∃ b' k1 k2, burnStep eig p dz i b = ok b' ∧ Inv (model psd nsoot n g o c) p b' ∧ b'.z = b.z + dz ∧
      slope eig p psd nsoot n g o c gasFull b.z b.Mhat = ok k1 ∧
      slope eig p psd nsoot n g o c gasHalf (b.z + dz / 2) (axpy b.Mhat (dz / 2) k1) = ok k2 ∧ b'.Mhat = axpy b.Mhat dz k2 := by
  have hM : b.Mhat.length = nsoot := hb.len
  have hzh : Inside p (b.z + dz / 2) := ⟨hz.1.trans (by linarith), le_trans (by linarith) hz'.2⟩
  obtain ⟨m1, s1, g1, e1, k1⟩ := stage eig hp h hb.obj (cols := gasFull) (fun _ hc => hc) rfl hM hz
  have l1 : m1.sources.soot.length = nsoot := k1.wf.srcLen.trans k1.spec.nsoot
  obtain ⟨r, hr, hr0⟩ := pos_ok hp hz (c := .rho) (by simp)
  obtain ⟨v, hv, hv0⟩ := pos_ok hp hz (c := .v) (by simp)
  have a1 := advance (d := 0.5 * dz) hr hr0.ne' hv hv0.ne' m1.sources.soot b.Mhat 0 (by omega)
  rw [advance_axpy, show (0.5 : ℝ) * dz = dz / 2 by ring] at a1
  have lh : (axpy b.Mhat (dz / 2) (m1.sources.soot.map (· / r / v))).length = nsoot := by simp [axpy, hM, l1]
  obtain ⟨m2, s2, g2, e2, k2⟩ := stage eig hp h (b := ⟨b.z, b.Mhat, s1, m1, g1⟩) k1 (cols := gasHalf) (by decide) rfl lh hzh
  have l2 : m2.sources.soot.length = nsoot := k2.wf.srcLen.trans k2.spec.nsoot
  obtain ⟨r', hr', hr0'⟩ := pos_ok hp hzh (c := .rho) (by simp)
  obtain ⟨v', hv', hv0'⟩ := pos_ok hp hzh (c := .v) (by simp)
  have a2 := advance (d := dz) hr' hr0'.ne' hv' hv0'.ne' m2.sources.soot b.Mhat 0 (by omega)
  rw [advance_axpy] at a2
  obtain ⟨r3, hr3, _⟩ := pos_ok hp hz' (c := .rho) (by simp)
  refine ⟨⟨b.z + dz, _, s2, m2, g2⟩, _, _, ?_, ⟨k2, ?_⟩, rfl, stage_slope eig hp h hm hb.obj (fun _ hc => hc) rfl hM hz hr hv e1,
    stage_slope eig hp h hm (b := ⟨b.z, b.Mhat, s1, m1, g1⟩) k1 (by decide) rfl lh hzh hr' hv' e2, rfl⟩
  · rw [burnStep, e1, ok_bind]
    simp only [show (0.5 : ℝ) * dz = dz / 2 by ring, a1, ok_bind, e2, a2, hr3]
    split_ifs <;> rfl
  · simp [axpy, hM, l2, model, exModel]

theorem loop_scheme (eig : Eig) {p : Profiles} (hp : Flame p) (h : BurnCfg p psd nsoot n g o c) (hm : psd ≠ .MONO) {N : ℕ} (hN : 1 ≤ N) {dz : ℝ}
    (hd : dz = (p.z.getD (p.z.length - 1) 0 - p.z.getD 0 0) / N) : ∀ k i (b : Burn), i + k = N → Inv (model psd nsoot n g o c) p b →
      b.z = p.z.getD 0 0 + i * dz →
      ∃ b' M, burnLoop eig p dz k i b = ok b' ∧ M 0 = b.Mhat ∧ M k = b'.Mhat ∧
        TwoStage (slope eig p psd nsoot n g o c gasFull) (slope eig p psd nsoot n g o c gasHalf) b.z dz k M
  | 0, i, b, hi, hb, hz => ⟨b, fun _ => b.Mhat, rfl, rfl, rfl, fun i hi => by omega⟩
  | k + 1, i, b, hi, hb, hz => by
    have h2 := hp.two
    have hzz := hp.incr 0 (p.z.length - 1) (by omega) (by omega)
    have hd0 : 0 ≤ dz := by rw [hd]; apply div_nonneg (by linarith) (Nat.cast_nonneg _)
    have hz1 : b.z + dz = p.z.getD 0 0 + ((i + 1 : ℕ) : ℝ) * dz := by rw [hz]; push_cast; ring
    obtain ⟨b1, k1, k2, e1, hb1, hz1', f1, f2, f3⟩ := step_scheme eig hp h hm hb hd0 (by rw [hz, hd]; exact inside_step hp hN (by omega))
      (by rw [hz1, hd]; exact inside_step hp hN (by omega)) i
    obtain ⟨b2, M, e2, hM0, hMk, hM⟩ := loop_scheme eig hp h hm hN hd k (i + 1) b1 (by omega) hb1 (hz1'.trans hz1)
    refine ⟨b2, fun j => if j = 0 then b.Mhat else M (j - 1), by rw [burnLoop, e1, ok_bind, e2], by simp, by simpa using hMk, ?_⟩
    rintro (_ | j) hj
    · exact ⟨k1, k2, by simpa using f1, by simpa using f2, by simpa [hM0] using f3⟩
    · obtain ⟨l1, l2, q1, q2, q3⟩ := hM j (by omega)
      refine ⟨l1, l2, ?_, ?_, by simpa using q3⟩
      · rw [hz1'] at q1
        rw [show b.z + ((j + 1 : ℕ) : ℝ) * dz = b.z + dz + j * dz by push_cast; ring]
        simpa using q1
      · rw [hz1'] at q2
        rw [show b.z + ((j + 1 : ℕ) : ℝ) * dz = b.z + dz + j * dz by push_cast; ring]
        simpa using q2

/-! ## The order of the mass fractions -/

theorem vals {p : Profiles} (hp : Flame p) {x : ℝ} (hx : Inside p x) : ∃ f : Col → ℝ, (∀ c, p.at c x = ok (f c)) ∧
    ∀ cols, p.row x cols = ok (cols.map f) := by
  choose f hf using fun c => (at_ok hp hx c)
  refine ⟨f, fun c => (hf c).1, fun cols => ?_⟩
  induction cols with
  | nil => rfl
  | cons c l ih => rw [Profiles.row, (hf c).1, ok_bind, ih, ok_bind, List.map_cons]

/-- Two orders that agree at the species read give the same slope. -/
theorem slope_swap (eig : Eig) {p : Profiles} (hp : Flame p) (h : BurnCfg p psd nsoot n g o c) {x : ℝ} (hx : Inside p x) {cols cols' : List Col}
    (hc' : ∀ c ∈ cols', c ∈ gasFull) {f : Col → ℝ} (hf : ∀ c, p.at c x = ok (f c)) (hr : ∀ cols, p.row x cols = ok (cols.map f))
    (hs : SameAt (reads n g o .NONE) (cols'.map f) (cols.map f)) {Mh k : List ℝ} (e : slope eig p psd nsoot n g o c cols x Mh = ok k) :
    slope eig p psd nsoot n g o c cols' x Mh = ok k := by
  have hle : ∀ y ∈ cols'.map f, y ≤ 1 := by
    intro y hy
    obtain ⟨ys, e1, _, e3⟩ := row_ok hp hx cols' hc'
    rw [hr, ok.injEq] at e1
    exact (e3 y (e1 ▸ hy)).2
  rw [slope, h.new, ok_bind] at e ⊢
  simp only [hf, hr, ok_bind] at e ⊢
  change (setState (State.mk' nsoot 0) (burnArgs nsoot (f .T) (f .rho) (f .mu) (cols.map f) (Mh.map (· * f .rho)))).2 >>= (fun _ => _) = _ at e
  change (setState (State.mk' nsoot 0) (burnArgs nsoot (f .T) (f .rho) (f .mu) (cols'.map f) (Mh.map (· * f .rho)))).2 >>= (fun _ => _) = _
  rw [bind_eq_ok] at e
  obtain ⟨u, o1, e⟩ := e
  obtain ⟨hs1, ht1⟩ := setState_ok_range o1
  have A := (C01_setState_iff _ _ hs1 ht1).1 o1
  have o2 : (setState (State.mk' nsoot 0) (burnArgs nsoot (f .T) (f .rho) (f .mu) (cols'.map f) (Mh.map (· * f .rho)))).2 = ok () :=
    (C01_setState_iff _ (burnArgs nsoot (f .T) (f .rho) (f .mu) (cols'.map f) (Mh.map (· * f .rho))) hs1 ht1).2 ⟨A.T, A.P, A.rho, A.mu, A.cMin, A.soot, A.tar, hle, A.pahSize, A.pah, A.pahSum⟩
  have key := C73_inputs eig (model psd nsoot n g o c) none (State.mk' nsoot 0)
    (burnArgs nsoot (f .T) (f .rho) (f .mu) (cols.map f) (Mh.map (· * f .rho)))
    (burnArgs nsoot (f .T) (f .rho) (f .mu) (cols'.map f) (Mh.map (· * f .rho))) rfl o1 o2 hs
  rw [o2, ok_bind]
  change sourceTerms eig (model psd nsoot n g o c) none
    (setState (State.mk' nsoot 0) (burnArgs nsoot (f .T) (f .rho) (f .mu) (cols.map f) (Mh.map (· * f .rho)))).1 >>= _ = _ at e
  change sourceTerms eig (model psd nsoot n g o c) none
    (setState (State.mk' nsoot 0) (burnArgs nsoot (f .T) (f .rho) (f .mu) (cols'.map f) (Mh.map (· * f .rho)))).1 >>= _ = _
  rw [bind_eq_ok] at e
  obtain ⟨r, r1, r2⟩ := e
  rw [r1, map'_ok] at key
  rcases hq : sourceTerms eig (model psd nsoot n g o c) none
    (setState (State.mk' nsoot 0) (burnArgs nsoot (f .T) (f .rho) (f .mu) (cols'.map f) (Mh.map (· * f .rho)))).1 with q | _ | _ | _ <;>
    rw [hq] at key <;> simp only [map', ok_bind, exn_bind, ub_bind, nonfin_bind, ok.injEq, reduceCtorEq] at key
  rw [ok_bind, key]
  exact r2

/-- The slope of the QMOM version in terms of its rates. -/
theorem qmom_slope (eig : Eig) {p : Profiles} (hp : Flame p) (h : BurnCfg p .QMOM nsoot n g o c) {x : ℝ} (hx : Inside p x) {cols : List Col}
    (hc : ∀ c ∈ cols, c ∈ gasFull) (hl : cols.length = 8) {f : Col → ℝ} (hf : ∀ c, p.at c x = ok (f c))
    (hr : ∀ cols, p.row x cols = ok (cols.map f)) {Mh : List ℝ} (hM : Mh.length = nsoot) :
    ∃ S w a s' J n' kG kO, S = stateAfter (State.mk' nsoot 0) (burnArgs nsoot (f .T) (f .rho) (f .mu) (pad (cols.map f)) (Mh.map (· * f .rho))) ∧
      getWtsAbs eig ((Mh.map (· * f .rho)).map (max · 0)) (List.replicate (nsoot / 2) 0) (List.replicate (nsoot / 2) 0) = ok (w, a) ∧
      w.length = nsoot / 2 ∧ a.length = nsoot / 2 ∧
      (Nucl.new n).rate (ibetaNodes (model .QMOM nsoot n g o c).coag) { S with wts := w, absc := a } = ok (J, n', s') ∧
      s' = { S with wts := w, absc := a, cMin := s'.cMin } ∧ 0 < s'.cMin ∧
      (Grow.new g).rate (model .QMOM nsoot n g o c).ctx s' = ok kG ∧ (Oxid.new o).rate (model .QMOM nsoot n g o c).ctx s' = ok kO ∧ 0 ≤ J ∧
      slope eig p .QMOM nsoot n g o c cols x Mh = ok (((List.range nsoot).map
        (qmomSoot (model .QMOM nsoot n g o c) S n' w a J kG kO (s'.cMin * gasMW .C / Na))).map (· / f .rho / f .v)) := by
  obtain ⟨ys, e1, e2, e3⟩ := row_ok hp hx cols hc
  rw [hr, ok.injEq] at e1
  subst e1
  obtain ⟨rho, r1, r2⟩ := pos_ok hp hx (c := .rho) (by simp)
  rw [hf, ok.injEq] at r1; subst r1
  obtain ⟨T, t1, t2, t3⟩ := temp_le hp hx
  rw [hf, ok.injEq] at t1; subst t1
  obtain ⟨mu, u1, u2⟩ := pos_ok hp hx (c := .mu) (by simp)
  rw [hf, ok.injEq] at u1; subst u1
  have hA : ArgsOk p nsoot (f .T) (f .rho) (f .mu) (cols.map f) (Mh.map (· * f .rho)) := ⟨t3, t2, r2, u2, e2.trans hl, e3, by simp [hM]⟩
  have hk0 := ok_start .QMOM nsoot n g o c
  have hrd := ready h.toBurnMechs h.two hk0 hA
  have en0 : (model .QMOM nsoot n g o c).nsoot = nsoot := rfl
  have hev : nsoot % 2 = 0 := by
    have hd := h.doc
    cases hd; omega
  obtain ⟨w, a, m', s', J, n', kG, kO, q0, q1, q2, _, _, q3, q4, q5, q6, q7, q8, q9, _, _, _, _, _, _, _, q10⟩ :=
    qmom_eval eig (m := model .QMOM nsoot n g o c) (s := _)
      ⟨hrd, rfl, hev, h.two, rfl, by simp [stateAfter, burnArgs, hM, en0], by simp [stateAfter, State.mk', en0], by simp [stateAfter, State.mk', en0],
        h.qmom rfl⟩
  refine ⟨_, w, a, s', J, n', kG, kO, rfl, q0, q1, q2, q4, q5, q6, q7, q8, q9, ?_⟩
  have hs : sourceTerms eig (model .QMOM nsoot n g o c) none (stateAfter (State.mk' nsoot 0) (burnArgs nsoot (f .T) (f .rho) (f .mu)
      (pad (cols.map f)) (Mh.map (· * f .rho)))) = ok (m', s', none) := by
    have q3' : qmomSources eig (model .QMOM nsoot n g o c) (stateAfter (State.mk' nsoot 0) (burnArgs nsoot (f .T) (f .rho) (f .mu)
      (pad (cols.map f)) (Mh.map (· * f .rho)))) = ok (m', s') := q3
    rw [sourceTerms, show (model .QMOM nsoot n g o c).psd = .QMOM from rfl]
    simp only [q3', ok_bind]
  have hC := C73_reads eig (model .QMOM nsoot n g o c) none (stateAfter (State.mk' nsoot 0) (burnArgs nsoot (f .T) (f .rho) (f .mu)
      (pad (cols.map f)) (Mh.map (· * f .rho)))) (cols.map f) (sameAt_pad h.toBurnMechs hA.ylen)
  rw [hs, map'_ok] at hC
  have hset := set_ok' hk0 hA (cols.map f) fun x hx => (e3 x hx).2
  rw [en0] at hset
  rw [slope, h.new, ok_bind]
  simp only [hf, hr, ok_bind]
  change (setState (State.mk' nsoot 0) (burnArgs nsoot (f .T) (f .rho) (f .mu) (cols.map f) (Mh.map (· * f .rho)))).2 >>= (fun _ => _) = _
  rw [hset, ok_bind]
  change sourceTerms eig (model .QMOM nsoot n g o c) none
    (setState (State.mk' nsoot 0) (burnArgs nsoot (f .T) (f .rho) (f .mu) (cols.map f) (Mh.map (· * f .rho)))).1 >>= _ = _
  rw [hset]
  change sourceTerms eig (model .QMOM nsoot n g o c) none
    (stateAfter (State.mk' nsoot 0) (burnArgs nsoot (f .T) (f .rho) (f .mu) (cols.map f) (Mh.map (· * f .rho)))) = _ at hC
  rw [hC, ok_bind, q10]
  rfl

/-- Oxidation constant of the LL mechanism at a mass fraction of oxygen (oxidationModel_LL.cc). -/
noncomputable def kLL (T rho y : ℝ) : ℝ := 0.1E5 * sqrt T * exp (-19680 / T) * (rho * y / gasMW .O2) * gasMW .C

theorem oxidLL {x : Ctx} {s : State} (hT : 0 < s.T) {y : ℝ} {l : List ℝ} (hy : s.yGas = y :: l) :
    (Oxid.new .LL).rate x s = ok (kLL s.T s.rhoGas y) := by
  simp only [Oxid.rate, Oxid.new, csqrt_ok hT.le, ok_bind, cexpDiv_ok hT.ne', State.gasC, hy, idx, GasSp.toNat, kLL, List.getElem?_cons_zero]

theorem nuclLL {ib : State → ℝ → Res ℝ} {s : State} (hT : 0 < s.T) (hc : 0 < s.cMin) (hr : 0 < s.rhoGas) {y : ℝ} (hy : s.yGas[7]? = some y)
    (hy0 : 0 < y) : ∃ J, 0 < J ∧ (Nucl.new .LL).rate ib s = ok (J, Nucl.new .LL, s) := by
  refine ⟨0.1E5 * exp (-21100 / s.T) * (s.rhoGas * y / gasMW .C2H2) * 2 * Na / s.cMin, ?_, ?_⟩
  · have := gasMW_pos .C2H2; have := Na_pos
    positivity
  · have e : (Nucl.new .LL).mech = .LL := rfl
    simp only [Nucl.rate, e, cexpDiv_ok hT.ne', ok_bind, State.gasC, idx, GasSp.toNat, hy, cdiv_ok hc.ne']

end

end Burn

/-- **C74.** The burner program finishes for every physical set of profiles, every number of steps and every listed configuration, whatever the
eigenvalue routine returns: no table is refused, no call throws, nothing is undefined or non-finite; it ends at the last position of the profile
with one value per soot variable. -/
theorem C74_burner_completes (eig : Eig) (p : Profiles) (hp : Flame p) (psd : PsdMech) (nsoot : ℕ) (n : NuclMech) (g : GrowMech) (o : OxidMech)
    (c : CoagMech) (h : BurnCfg p psd nsoot n g o c) (N : ℕ) (hN : 1 ≤ N) :
    ∃ b, burnMain eig p psd nsoot n g o c N = ok (some b) ∧ b.z = p.z.getD (p.z.length - 1) 0 ∧ b.Mhat.length = nsoot := by
  have h2 := hp.two
  have hN' : (N : ℝ) ≠ 0 := by exact_mod_cast (by omega : N ≠ 0)
  have hin : Burn.Inside p (p.z.getD 0 0) := by simpa using Burn.inside_step hp hN (Nat.zero_le N)
  obtain ⟨r, hr, _⟩ := Burn.pos_ok hp hin (c := .rho) (by simp)
  obtain ⟨b, e, hb, hz⟩ := Burn.loop_ok eig hp h hN rfl N 0 ⟨p.z.getD 0 0, List.replicate nsoot 0, State.mk' nsoot 0, Burn.model psd nsoot n g o c, none⟩
    (by omega) ⟨Burn.ok_start psd nsoot n g o c, by simp [Burn.model, exModel]⟩ (by simp)
  refine ⟨b, ?_, by rw [hz, mul_div_cancel₀ _ hN']; ring, hb.len⟩
  rw [burnMain, Burn.tables_ok hp, ok_bind]
  simp only [h.new, ok_bind, idx_getD (show 0 < p.z.length by omega), idx_getD (show p.z.length - 1 < p.z.length by omega), cdiv_ok hN', hr]
  rw [show ({ exModel psd nsoot n g o c with coag := (exModel psd nsoot n g o c).coag.setFM (9.0 / 2.0 / 2.2) } : Model) =
    Burn.model psd nsoot n g o c from rfl, e, ok_bind]

/-- **C75 (what the program computes).** The program is a two-stage method started from zero, with slopes that depend on position and variables
only (new objects would give the same); the second stage takes the mass fractions in the order of line 129. -/
theorem C75_two_stage (eig : Eig) (p : Profiles) (hp : Flame p) (psd : PsdMech) (nsoot : ℕ) (n : NuclMech) (g : GrowMech) (o : OxidMech)
    (c : CoagMech) (h : BurnCfg p psd nsoot n g o c) (hm : psd ≠ .MONO) (N : ℕ) (hN : 1 ≤ N) :
    ∃ b M, burnMain eig p psd nsoot n g o c N = ok (some b) ∧ M 0 = List.replicate nsoot 0 ∧ M N = b.Mhat ∧
      TwoStage (slope eig p psd nsoot n g o c gasFull) (slope eig p psd nsoot n g o c gasHalf) (p.z.getD 0 0)
        ((p.z.getD (p.z.length - 1) 0 - p.z.getD 0 0) / N) N M := by
  have h2 := hp.two
  have hN' : (N : ℝ) ≠ 0 := by exact_mod_cast (by omega : N ≠ 0)
  have hin : Burn.Inside p (p.z.getD 0 0) := by simpa using Burn.inside_step hp hN (Nat.zero_le N)
  obtain ⟨r, hr, _⟩ := Burn.pos_ok hp hin (c := .rho) (by simp)
  obtain ⟨b, M, e, q1, q2, q3⟩ := Burn.loop_scheme eig hp h hm hN rfl N 0
    ⟨p.z.getD 0 0, List.replicate nsoot 0, State.mk' nsoot 0, Burn.model psd nsoot n g o c, none⟩
    (by omega) ⟨Burn.ok_start psd nsoot n g o c, by simp [Burn.model, exModel]⟩ (by simp)
  refine ⟨b, M, ?_, q1, q2, q3⟩
  rw [burnMain, Burn.tables_ok hp, ok_bind]
  simp only [h.new, ok_bind, idx_getD (show 0 < p.z.length by omega), idx_getD (show p.z.length - 1 < p.z.length by omega), cdiv_ok hN', hr]
  rw [show ({ exModel psd nsoot n g o c with coag := (exModel psd nsoot n g o c).coag.setFM (9.0 / 2.0 / 2.2) } : Model) =
    Burn.model psd nsoot n g o c from rfl, e, ok_bind]

/-- **C75 (where the claim holds).** "Second order midpoint method" (burner_flame.cc:103) is right when oxidation is off or reads OH only: the order of
line 129 differs from line 119 in the first four species, which nothing reads then.  Missing: every oxidation mechanism that reads O2, among
them the one of the example; there the claim is false (`C75_midpoint_false`). -/
theorem C75_midpoint_partial (eig : Eig) (p : Profiles) (hp : Flame p) (psd : PsdMech) (nsoot : ℕ) (n : NuclMech) (g : GrowMech) (o : OxidMech)
    (c : CoagMech) (h : BurnCfg p psd nsoot n g o c) (hm : psd ≠ .MONO) (hg : g ≠ .HACA) (ho : o = .NONE ∨ o = .MB) (N : ℕ) (hN : 1 ≤ N) :
    ∃ b M, burnMain eig p psd nsoot n g o c N = ok (some b) ∧ M 0 = List.replicate nsoot 0 ∧ M N = b.Mhat ∧
      Midpoint (slope eig p psd nsoot n g o c gasFull) (p.z.getD 0 0) ((p.z.getD (p.z.length - 1) 0 - p.z.getD 0 0) / N) N M := by
  obtain ⟨b, M, e1, e2, e3, e4⟩ := C75_two_stage eig p hp psd nsoot n g o c h hm N hN
  refine ⟨b, M, e1, e2, e3, fun i hi => ?_⟩
  obtain ⟨k1, k2, q1, q2, q3⟩ := e4 i hi
  refine ⟨k1, k2, q1, ?_, q3⟩
  have hin : Burn.Inside p (p.z.getD 0 0 + i * ((p.z.getD (p.z.length - 1) 0 - p.z.getD 0 0) / N) +
      ((p.z.getD (p.z.length - 1) 0 - p.z.getD 0 0) / N) / 2) := by
    have a := Burn.inside_step hp hN hi.le
    have b := Burn.inside_step hp hN (show i + 1 ≤ N from hi)
    push_cast at b
    exact ⟨by linarith [a.1, b.1], by linarith [a.2, b.2]⟩
  obtain ⟨f, hf, hr⟩ := Burn.vals hp hin
  refine Burn.slope_swap eig hp h hin (fun _ hc => hc) hf hr ?_ q2
  have hn := h.nucl
  simp only [List.mem_cons, List.not_mem_nil, or_false] at hn
  intro sp hs
  simp only [reads, List.mem_append] at hs
  rcases hs with ((hs | hs) | hs) | hs
  · rcases hn with rfl | rfl | rfl | rfl | rfl | rfl <;> simp [nuclReads] at hs <;> subst hs <;> rfl
  · cases g <;> simp [growReads] at hs hg <;> subst hs <;> rfl
  · rcases ho with rfl | rfl <;> simp [oxidReads] at hs <;> subst hs <;> rfl
  · simp [tarReads] at hs

/-- **C75 (the error of the second stage).** QMOM with the LL oxidation of the example: the slope used in the second stage differs from the slope
at that point by the LL oxidation at `Y_O2 - Y_H`, for every moment. -/
theorem C75_second_stage_error (eig : Eig) (p : Profiles) (hp : Flame p) (nsoot : ℕ) (n : NuclMech) (g : GrowMech) (c : CoagMech)
    (h : BurnCfg p .QMOM nsoot n g .LL c) (hg : g ≠ .HACA) (x : ℝ) (hx : Burn.Inside p x) (Mh : List ℝ) (hM : Mh.length = nsoot) :
    ∃ k k' w a T rho v yO2 yH, p.at .T x = ok T ∧ p.at .rho x = ok rho ∧ p.at .v x = ok v ∧ p.at .yO2 x = ok yO2 ∧ p.at .yH x = ok yH ∧
      slope eig p .QMOM nsoot n g .LL c gasFull x Mh = ok k ∧ slope eig p .QMOM nsoot n g .LL c gasHalf x Mh = ok k' ∧
      getWtsAbs eig (Mh.map fun M => max (M * rho) 0) (List.replicate (nsoot / 2) 0) (List.replicate (nsoot / 2) 0) = ok (w, a) ∧
      k.length = nsoot ∧ k'.length = nsoot ∧
      ∀ r < nsoot, k'.getD r 0 - k.getD r 0 = Burn.kLL T rho (yO2 - yH) * (acoef * r * nodeMr w a (r - onethird)) / rho / v := by
  obtain ⟨f, hf, hr⟩ := Burn.vals hp hx
  obtain ⟨S, w, a, s', J, n', kG, kO, hS, e1, _, _, e2, e3, hc, e4, e5, _, e6⟩ := Burn.qmom_slope eig hp h hx (cols := gasFull) (fun _ hc => hc) rfl hf hr hM
  obtain ⟨S₂, w₂, a₂, s₂', J₂, n₂', kG₂, kO₂, hS₂, e1₂, _, _, e2₂, e3₂, hc₂, e4₂, e5₂, _, e6₂⟩ :=
    Burn.qmom_slope eig hp h hx (cols := gasHalf) (by decide) rfl hf hr hM
  rw [e1] at e1₂
  cases e1₂
  obtain ⟨T, t1, t2⟩ := Burn.pos_ok hp hx (c := .T) (by simp)
  rw [hf, ok.injEq] at t1; subst t1
  have hS' : S₂ = Reads.gas (Burn.pad (gasHalf.map f)) S := by rw [hS, hS₂]; rfl
  have same : ∀ l : List GasSp, (∀ sp ∈ l, 4 ≤ sp.toNat) → SameAt l (Burn.pad (gasHalf.map f)) S.yGas := by
    intro l hl sp hs
    have : S.yGas = Burn.pad (gasFull.map f) := by rw [hS]; rfl
    rw [this]
    have := hl sp hs
    cases sp <;> first | rfl | exact absurd this (by decide)
  have hn := h.nucl
  simp only [List.mem_cons, List.not_mem_nil, or_false] at hn
  have b1 : ({ S₂ with wts := w, absc := a } : State) = Reads.gas (Burn.pad (gasHalf.map f)) { S with wts := w, absc := a } := by rw [hS']; rfl
  rw [b1, Reads.nucl (s := { S with wts := w, absc := a }) (Nucl.new n) (same _ (by rcases hn with rfl | rfl | rfl | rfl | rfl | rfl <;> simp [Nucl.new, nuclReads] <;> decide))
    (fun _ _ => rfl), e2, map'_ok, ok.injEq, Prod.mk.injEq, Prod.mk.injEq] at e2₂
  obtain ⟨rfl, rfl, rfl⟩ := e2₂
  have same' : ∀ l : List GasSp, (∀ sp ∈ l, 4 ≤ sp.toNat) → SameAt l (Burn.pad (gasHalf.map f)) s'.yGas := by
    rw [e3]; exact same
  rw [Reads.grow (Grow.new g) _ (same' _ (by cases g <;> simp [Grow.new, growReads] at hg ⊢ <;> decide)), e4, ok.injEq] at e4₂
  subst e4₂
  have hT' : s'.T = f .T := by rw [e3, hS]; rfl
  have hrho : s'.rhoGas = f .rho := by rw [e3, hS]; rfl
  rw [Burn.oxidLL (by rw [hT']; exact t2) (show s'.yGas = f .yO2 :: _ by rw [e3, hS]; rfl), ok.injEq] at e5
  rw [Burn.oxidLL (by show 0 < s'.T; rw [hT']; exact t2) (show (Reads.gas (Burn.pad (gasHalf.map f)) s').yGas = f .yH :: _ from rfl), ok.injEq] at e5₂
  refine ⟨_, _, w, a, f .T, f .rho, f .v, f .yO2, f .yH, hf _, hf _, hf _, hf _, hf _, e6, e6₂, by rw [← e1, List.map_map]; rfl, by simp, by simp,
    fun r hr => ?_⟩
  have hv : ∀ y z, (Burn.model .QMOM nsoot n g .LL c).coag.val S₂ y z = (Burn.model .QMOM nsoot n g .LL c).coag.val S y z := by
    intro y z; rw [hS']; rfl
  have hv' : (Burn.model .QMOM nsoot n g .LL c).coag.val S₂ = (Burn.model .QMOM nsoot n g .LL c).coag.val S := by funext y z; exact hv y z
  simp only [List.getD_eq_getElem?_getD, List.getElem?_map, List.getElem?_range hr, Option.map_some, Option.getD_some, qmomSoot, hv', ← e5, ← e5₂]
  show _ = _
  have e7 : (Reads.gas (Burn.pad (gasHalf.map f)) s').T = s'.T := rfl
  have e8 : (Reads.gas (Burn.pad (gasHalf.map f)) s').rhoGas = s'.rhoGas := rfl
  have e9 : (Reads.gas (Burn.pad (gasHalf.map f)) s').cMin = s'.cMin := rfl
  rw [e7, e8, e9, hT', hrho]
  simp only [Burn.kLL]
  ring

/-- **C75 (refutation).** The two-moment QMOM version of the example, in one step through any flame with acetylene where O2 exceeds H: whatever
the kernel and the eigenvalue routine, the program ends with more soot mass than the midpoint method. -/
theorem C75_midpoint_false (eig : Eig) (p : Profiles) (hp : Flame p) (hC : ∀ y ∈ p.col .yC2H2, 0 < y) (t : ℝ) (hH : ∀ y ∈ p.col .yH, y ≤ t)
    (hO : ∀ y ∈ p.col .yO2, t < y) (c : CoagMech) :
    ∃ b, burnMain eig p .QMOM 2 .LL .LL .LL c 1 = ok (some b) ∧
      (∃ M, M 0 = [0, 0] ∧ Midpoint (slope eig p .QMOM 2 .LL .LL .LL c gasFull) (p.z.getD 0 0) (p.z.getD (p.z.length - 1) 0 - p.z.getD 0 0) 1 M) ∧
      ∀ M, M 0 = [0, 0] → Midpoint (slope eig p .QMOM 2 .LL .LL .LL c gasFull) (p.z.getD 0 0) (p.z.getD (p.z.length - 1) 0 - p.z.getD 0 0) 1 M →
        (M 1).getD 1 0 < b.Mhat.getD 1 0 := by
  have h : BurnCfg p .QMOM 2 .LL .LL .LL c := ⟨⟨by simp, by simp⟩, .qmom 1 le_rfl c, by simp, by simp, by simp, by simp⟩
  obtain ⟨b, N, q1, q2, q3, q4⟩ := C75_two_stage eig p hp .QMOM 2 .LL .LL .LL c h (by simp) 1 le_rfl
  refine ⟨b, q1, ?_, fun M hM0 hM => ?_⟩
  · have h2 := hp.two
    have hzz := hp.incr 0 (p.z.length - 1) (by omega) (by omega)
    obtain ⟨k, _, _, _, _, _, _, _, _, _, _, _, _, _, a1, _, _, a2, _⟩ :=
      C75_second_stage_error eig p hp 2 .LL .LL c h (by simp) (p.z.getD 0 0) ⟨le_rfl, hzz.le⟩ [0, 0] rfl
    obtain ⟨l, _, _, _, _, _, _, _, _, _, _, _, _, _, b1, _⟩ :=
      C75_second_stage_error eig p hp 2 .LL .LL c h (by simp) (p.z.getD 0 0 + (p.z.getD (p.z.length - 1) 0 - p.z.getD 0 0) / 2)
        ⟨by linarith, by linarith⟩ (axpy [0, 0] ((p.z.getD (p.z.length - 1) 0 - p.z.getD 0 0) / 2) k) (by simp [axpy, a2])
    refine ⟨fun i => if i = 0 then [0, 0] else axpy [0, 0] (p.z.getD (p.z.length - 1) 0 - p.z.getD 0 0) l, by simp, fun i hi => ?_⟩
    obtain rfl : i = 0 := by omega
    exact ⟨k, l, by simpa using a1, by simpa using b1, by simp⟩
  rw [← q3]
  obtain ⟨k1, k2, f1, f2, f3⟩ := q4 0 (by omega)
  obtain ⟨l1, l2, g1, g2, g3⟩ := hM 0 (by omega)
  have hN0 : N 0 = [0, 0] := q2
  simp only [Nat.cast_zero, zero_mul, add_zero, Nat.cast_one, div_one, zero_add, hN0, hM0] at f1 f2 f3 g1 g2 g3
  rw [f1] at g1; cases g1
  rw [f3, g3]
  have h2 := hp.two
  have hzz := hp.incr 0 (p.z.length - 1) (by omega) (by omega)
  set dz := p.z.getD (p.z.length - 1) 0 - p.z.getD 0 0 with hdz
  have hd : 0 < dz := by rw [hdz]; linarith
  have hx0 : Burn.Inside p (p.z.getD 0 0) := ⟨le_rfl, hzz.le⟩
  have hxh : Burn.Inside p (p.z.getD 0 0 + dz / 2) := ⟨by linarith, by rw [hdz] at hd ⊢; linarith⟩
  -- first stage
  obtain ⟨f, hf, hr⟩ := Burn.vals hp hx0
  obtain ⟨S, w, a, s', J, n', kG, kO, hS, e1, lw, la, e2, e3, hc, e4, e5, _, e6⟩ :=
    Burn.qmom_slope eig hp h hx0 (cols := gasFull) (fun _ hc => hc) rfl hf hr (Mh := [0, 0]) rfl
  have pos : ∀ {x} (hx : Burn.Inside p x) {f : Col → ℝ} (hf : ∀ c, p.at c x = ok (f c)), 0 < f .T ∧ 0 < f .rho ∧ 0 < f .v := by
    intro x hx f hf
    obtain ⟨_, t1, t2⟩ := Burn.pos_ok hp hx (c := .T) (by simp)
    obtain ⟨_, r1, r2⟩ := Burn.pos_ok hp hx (c := .rho) (by simp)
    obtain ⟨_, v1, v2⟩ := Burn.pos_ok hp hx (c := .v) (by simp)
    rw [hf, ok.injEq] at t1 r1 v1
    subst t1 r1 v1
    exact ⟨t2, r2, v2⟩
  obtain ⟨pT, pr, pv⟩ := pos hx0 hf
  have pC : 0 < f .yC2H2 := by
    obtain ⟨_, u1, u2, _⟩ := Burn.at_ok hp hx0 .yC2H2
    rw [hf, ok.injEq] at u1; subst u1
    exact u2 0 hC
  obtain ⟨J', hJ', eJ⟩ := Burn.nuclLL (ib := ibetaNodes (Burn.model .QMOM 2 .LL .LL .LL c).coag) (s := { S with wts := w, absc := a })
    (y := f .yC2H2) (by rw [hS]; exact pT) (by rw [hS]; norm_num [stateAfter, burnArgs]) (by rw [hS]; exact pr) (by rw [hS]; rfl) pC
  rw [eJ, ok.injEq, Prod.mk.injEq, Prod.mk.injEq] at e2
  obtain ⟨rfl, rfl, rfl⟩ := e2
  have hw : w = [0] ∧ a = [0] := by
    have : getWtsAbs eig (([0, 0].map (· * f .rho)).map (max · 0)) (List.replicate (2 / 2) 0) (List.replicate (2 / 2) 0) = ok ([0], [0]) := by
      simp [getWtsAbs, idx]
    rw [this, ok.injEq, Prod.mk.injEq] at e1
    exact ⟨e1.1.symm, e1.2.symm⟩
  obtain ⟨rfl, rfl⟩ := hw
  have hn0 : ∀ r, nodeMr [0] [0] r = 0 := fun r => by simp [nodeMr]
  have hc0 : ∀ K r, collisionSum K [0] [0] r = 0 := fun K r => by simp [collisionSum]
  have hcm : (0 : ℝ) < gasMW .C / Na := div_pos (gasMW_pos .C) Na_pos
  have hmn : 0 < ({ S with wts := [0], absc := [0] } : State).cMin * gasMW .C / Na := by
    rw [mul_div_assoc]; exact mul_pos hc hcm
  set mN := ({ S with wts := [0], absc := [0] } : State).cMin * gasMW .C / Na with hmN
  have hk1 : k1 = [J' / f .rho / f .v, J' * mN / f .rho / f .v] := by
    rw [f1, ok.injEq] at e6
    rw [e6]
    simp [List.range_succ, qmomSoot, hn0, hc0, Nucl.new]
  -- second stage
  set A := axpy [0, 0] (dz / 2) k1 with hA
  have hA' : A = [dz / 2 * (J' / f .rho / f .v), dz / 2 * (J' * mN / f .rho / f .v)] := by rw [hA, hk1]; simp [axpy]
  have hA0 : 0 < dz / 2 * (J' / f .rho / f .v) := by positivity
  have hA1 : 0 < dz / 2 * (J' * mN / f .rho / f .v) := by positivity
  obtain ⟨k, k', w, a, T, rho, v, yO, yH, a1, a2, a3, a4, a5, a6, a7, a8, a9, a10, a11⟩ :=
    C75_second_stage_error eig p hp 2 .LL .LL c h (by simp) _ hxh A (by rw [hA']; rfl)
  rw [f2] at a7; cases a7
  rw [g2] at a6; cases a6
  have key := a11 1 (by omega)
  obtain ⟨f', hf', _⟩ := Burn.vals hp hxh
  obtain ⟨pT', pr', pv'⟩ := pos hxh hf'
  rw [hf', ok.injEq] at a1 a2 a3
  subst a1 a2 a3
  have hy : yH < yO := by
    obtain ⟨_, u1, u2, _⟩ := Burn.at_ok hp hxh .yO2
    obtain ⟨_, v1, _, _, v2⟩ := Burn.at_ok hp hxh .yH
    rw [a4, ok.injEq] at u1
    rw [a5, ok.injEq] at v1
    subst u1 v1
    exact (v2 t hH).trans_lt (u2 t hO)
  have hnode : 0 < nodeMr w a (((1 : ℕ) : ℝ) - onethird) := by
    set B := A.map fun M => max (M * f' .rho) 0 with hB
    have hB' : B = [dz / 2 * (J' / f .rho / f .v) * f' .rho, dz / 2 * (J' * mN / f .rho / f .v) * f' .rho] := by
      rw [hB, hA']
      simp only [List.map_cons, List.map_nil]
      rw [max_eq_left (by positivity), max_eq_left (by positivity)]
    have hB0 : 0 < B.getD 0 0 := by rw [hB']; exact mul_pos hA0 pr'
    have hB1 : 0 < B.getD 1 0 := by rw [hB']; exact mul_pos hA1 pr'
    have hBl : B.length = 2 := by rw [hB']; rfl
    obtain ⟨w', a', m, c1, c2, c3, _, _, c4, _, _, c5, c6⟩ := C27_inversion_total eig B (List.replicate (2 / 2) 0) (List.replicate (2 / 2) 0)
      (by intro x hx; rw [hB', List.mem_cons, List.mem_singleton] at hx
          rcases hx with rfl | rfl
          · exact (mul_pos hA0 pr').le
          · exact (mul_pos hA1 pr').le) (by rw [hBl]) (by simp [hBl]) (by simp [hBl])
    rw [a8, ok.injEq, Prod.mk.injEq] at c1
    obtain ⟨rfl, rfl⟩ := c1
    have hm1 : m = 1 := by have := c5 hB0; rw [hBl] at c4; omega
    obtain ⟨d1, d2⟩ := c6 hm1
    have hw0 : 0 < w.getD 0 0 := by rw [d1]; exact hB0
    have ha0 : 0 < a.getD 0 0 := by
      by_contra hx
      have := mul_nonpos_of_nonneg_of_nonpos hw0.le (not_lt.mp hx)
      linarith
    have hwl : w.length = 1 := by rw [c2]; rfl
    rw [nodeMr, if_neg (by
      rintro ⟨i, hi, hx⟩
      have : i = 0 := by omega
      subst this
      rcases hx with hx | hx <;> linarith), hwl, Finset.sum_range_one]
    exact mul_pos hw0 (rpow_pos_of_pos ha0 _)
  have hpos : 0 < k2.getD 1 0 - l2.getD 1 0 := by
    rw [key]
    have hk : 0 < Burn.kLL (f' .T) (f' .rho) (yO - yH) := by
      have := gasMW_pos .O2; have := gasMW_pos .C
      have : 0 < yO - yH := by linarith
      have := sqrt_pos.mpr pT'
      unfold Burn.kLL
      positivity
    have := acoef_pos
    have h1 : (0 : ℝ) < ((1 : ℕ) : ℝ) := by norm_num
    positivity
  obtain ⟨x0, x1, rfl⟩ := List.length_eq_two.1 a10
  obtain ⟨y0, y1, rfl⟩ := List.length_eq_two.1 a9
  have hp' : 0 < x1 - y1 := hpos
  show 0 + dz * y1 < 0 + dz * x1
  nlinarith

/-! ## A flame -/

/-- Two rows, constant composition. -/
noncomputable def exFlame : Profiles where
  z := [0, 1 / 100]
  col
    | .v => [1 / 10, 1 / 10]
    | .T => [1500, 1700]
    | .rho => [1 / 4, 1 / 5]
    | .mu => [5E-5, 5E-5]
    | .yO2 => [1 / 10, 1 / 20]
    | .yC2H2 => [1 / 20, 1 / 30]
    | _ => [0, 1 / 100]

theorem exFlame_ok : Flame exFlame where
  incr := by
    intro i j hij hj
    simp only [exFlame, List.length_cons, List.length_nil] at hj
    obtain ⟨rfl, rfl⟩ : i = 0 ∧ j = 1 := by omega
    norm_num [exFlame]
  two := by simp [exFlame]
  len := by intro c; cases c <;> rfl
  pos := by
    intro c hc
    simp only [List.mem_cons, List.not_mem_nil, or_false] at hc
    rcases hc with rfl | rfl | rfl | rfl <;> norm_num [exFlame]
  frac := by
    intro c hc
    simp only [gasFull, List.mem_cons, List.not_mem_nil, or_false] at hc
    rcases hc with rfl | rfl | rfl | rfl | rfl | rfl | rfl | rfl <;> norm_num [exFlame]

/-- The configuration of the file: six moments, LL, LL, LL, HM, 20000 steps. -/
example (eig : Eig) : ∃ b, burnMain eig exFlame .QMOM 6 .LL .LL .LL .HM 20000 = ok (some b) ∧ b.z = 1 / 100 ∧ b.Mhat.length = 6 :=
  C74_burner_completes eig exFlame exFlame_ok .QMOM 6 .LL .LL .LL .HM
    ⟨⟨by simp, by simp⟩, .qmom 3 (by norm_num) _, by simp, by simp, by simp, by simp⟩ 20000 (by norm_num)

/-- The commented-out sectional version with 40 bins. -/
example (eig : Eig) : ∃ b, burnMain eig exFlame .SECT 40 .LL .LL .LL .HM 20000 = ok (some b) ∧ b.z = 1 / 100 ∧ b.Mhat.length = 40 :=
  C74_burner_completes eig exFlame exFlame_ok .SECT 40 .LL .LL .LL .HM
    ⟨⟨by simp, by simp⟩, .sect 40 (by norm_num) _, by simp, by simp, by simp, by norm_num⟩ 20000 (by norm_num)

example (eig : Eig) : ∃ b M, burnMain eig exFlame .QMOM 6 .LL .LL .MB .HM 20000 = ok (some b) ∧ M 0 = List.replicate 6 0 ∧ M 20000 = b.Mhat ∧
    Midpoint (slope eig exFlame .QMOM 6 .LL .LL .MB .HM gasFull) 0 ((1 / 100 - 0) / (20000 : ℕ)) 20000 M :=
  C75_midpoint_partial eig exFlame exFlame_ok .QMOM 6 .LL .LL .MB .HM
    ⟨⟨by simp, by simp⟩, .qmom 3 (by norm_num) _, by simp, by simp, by simp, by simp⟩ (by simp) (by simp) (.inr rfl) 20000 (by norm_num)

example (eig : Eig) : ∃ b, burnMain eig exFlame .QMOM 2 .LL .LL .LL .HM 1 = ok (some b) ∧
    (∃ M, M 0 = [0, 0] ∧ Midpoint (slope eig exFlame .QMOM 2 .LL .LL .LL .HM gasFull) 0 (1 / 100 - 0) 1 M) ∧
    ∀ M, M 0 = [0, 0] → Midpoint (slope eig exFlame .QMOM 2 .LL .LL .LL .HM gasFull) 0 (1 / 100 - 0) 1 M → (M 1).getD 1 0 < b.Mhat.getD 1 0 :=
  C75_midpoint_false eig exFlame exFlame_ok (by norm_num [exFlame]) (1 / 100) (by norm_num [exFlame]) (by norm_num [exFlame]) .HM

/-- Half way through this flame, with some soot present, both slopes exist. -/
example (eig : Eig) : ∃ k k', slope eig exFlame .QMOM 2 .LL .LL .LL .HM gasFull (1 / 200) [1E15, 1E-3] = ok k ∧
    slope eig exFlame .QMOM 2 .LL .LL .LL .HM gasHalf (1 / 200) [1E15, 1E-3] = ok k' ∧ k.length = 2 ∧ k'.length = 2 := by
  obtain ⟨k, k', _, _, _, _, _, _, _, _, _, _, _, _, a1, a2, _, a3, a4, _⟩ := C75_second_stage_error eig exFlame exFlame_ok 2 .LL .LL .HM
    ⟨⟨by simp, by simp⟩, .qmom 1 le_rfl _, by simp, by simp, by simp, by simp⟩ (by simp) (1 / 200) ⟨by norm_num [exFlame], by norm_num [exFlame]⟩ [1E15, 1E-3] rfl
  exact ⟨k, k', a1, a2, a3, a4⟩

end Soot
