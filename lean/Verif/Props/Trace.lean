import Verif.Trace
import Verif.Props.Safe
import Verif.Props.Ctor
import Verif.Props.State
import Verif.Props.Hmom

/-!
# C68: a caller that keeps vector lengths consistent never causes undefined behaviour

The discipline (`Legal`) looks at counts and lengths only, never at temperatures, moments or mass fractions: rejected, torn and extreme
states are all included.
-/

namespace Soot

open Res Real
open scoped Classical

/-! ## Specification: the caller's bookkeeping -/

/-- What a caller knows of a state object: the two counts it was created with, the length of the biomass vector, and the length of the
shortest gas composition given so far. -/
structure StShape where
  nsoot : ℕ
  Ntar : ℕ
  bio : ℕ
  gas : ℕ

/-- What a caller knows of a model object: the constructor arguments. -/
structure MdShape where
  psd : PsdMech
  nsoot : ℕ
  nucl : NuclMech
  coag : CoagMech
  Ntar : ℕ
  tar : TarMech

structure Shapes where
  st : List StShape
  md : List MdShape

/-- The bookkeeping after a call. -/
noncomputable def Shapes.after (Γ : Shapes) : Call → Shapes
  | .newState n t => { Γ with st := Γ.st ++ [⟨n, t, 0, nGas⟩] }
  | .set i a => { Γ with st := Γ.st.modify i fun σ => { σ with gas := min σ.gas a.yGas.length } }
  | .bio i y => { Γ with st := Γ.st.modify i fun σ => { σ with bio := y.length } }
  | .newModel psd k n _ _ c N t _ _ => if Documented psd k c t then { Γ with md := Γ.md ++ [⟨psd, k, n, c, N, t⟩] } else Γ
  | _ => Γ

/-- Gas species a model reads: O2 to C2H2; C6H6 for LINA1 nucleation; CO2 for the AJ_RED tar mechanism. -/
def gasNeed (n : NuclMech) (t : TarMech) : ℕ := if t = .AJ_RED then 11 else if n = .LINA1 then 9 else 8

/-- The discipline.  `Fmin` is the smallest bin growth factor used anywhere in the program (the sectional search uses the factor of the first
sectional model for all of them). -/
def Legal (Fmin : ℝ) (Γ : Shapes) : Call → Prop
  | .newState _ _ => True
  | .set i a => ∃ σ, Γ.st[i]? = some σ ∧ a.sootVar.length = σ.nsoot ∧ a.nsoot = σ.nsoot ∧ a.tarVar.length = σ.Ntar ∧ a.Ntar = σ.Ntar
  | .bio i _ => i < Γ.st.length
  | .coal i _ _ _ => i < Γ.st.length
  | .tarBio i => ∃ σ, Γ.st[i]? = some σ ∧ 5 ≤ σ.bio
  | .tarCoal i => i < Γ.st.length
  | .newModel psd k _ _ _ _ _ _ F cm => psd ≠ .NONE ∧
      (psd = .SECT → Fmin ≤ F ∧ 0 < cm ∧ log 2 + k * log F < 2 ^ 64 * log Fmin)
  | .sources j i => ∃ μ σ, Γ.md[j]? = some μ ∧ Γ.st[i]? = some σ ∧ μ.nsoot = σ.nsoot ∧ gasNeed μ.nucl μ.tar ≤ σ.gas ∧ μ.psd ≠ .HMOM ∧
      (μ.psd = .MOMIC → μ.nsoot ≤ 7) ∧ (μ.psd = .QMOM → μ.coag ≠ .NONE → μ.nsoot ≤ 35) ∧
      (μ.nucl = .AJ_RED ∨ μ.nucl = .BROWN → 0 < σ.Ntar) ∧ (μ.tar ≠ .NONE → 0 < σ.Ntar ∧ 0 < μ.Ntar)

/-- Every call of the program obeys the discipline. -/
def LegalRun (Fmin : ℝ) : Shapes → List Call → Prop
  | _, [] => True
  | Γ, o :: t => Legal Fmin Γ o ∧ LegalRun Fmin (Γ.after o) t

/-- The bookkeeping after a program. -/
noncomputable def Shapes.afterAll : Shapes → List Call → Shapes
  | Γ, [] => Γ
  | Γ, o :: t => (Γ.after o).afterAll t

/-- A state object has the lengths the caller thinks it has. -/
structure StOk (s : State) (σ : StShape) : Prop where
  gas : σ.gas ≤ s.yGas.length
  pah : s.yPah.length = nPah
  nsoot : s.nsoot = σ.nsoot
  soot : s.sootVar.length = σ.nsoot
  wts : s.wts.length = σ.nsoot / 2
  absc : s.absc.length = σ.nsoot / 2
  Ntar : s.Ntar = σ.Ntar
  tar : s.tarVar.length = σ.Ntar
  bio : s.yBio.length = σ.bio

/-- A model object has the configuration and lengths the caller thinks it has. -/
structure MdOk (Fmin : ℝ) (m : Model) (μ : MdShape) : Prop where
  wf : m.WF
  psd : m.psd = μ.psd
  nsoot : m.nsoot = μ.nsoot
  nucl : m.nucl.mech = μ.nucl
  coag : m.coag.mech = μ.coag
  Ntar : m.Ntar = μ.Ntar
  tar : m.tar = μ.tar
  doc : Documented μ.psd μ.nsoot μ.coag μ.tar
  sect : μ.psd = .SECT → ∃ F cm, m.binF = F ∧ m.mBins = binMasses μ.nsoot F cm ∧ Fmin ≤ F ∧ 0 < cm ∧
    log 2 + μ.nsoot * log F < 2 ^ 64 * log Fmin

/-- The world agrees with the bookkeeping. -/
structure WorldOk (Fmin : ℝ) (w : World) (Γ : Shapes) : Prop where
  st : List.Forall₂ StOk w.st Γ.st
  md : List.Forall₂ (MdOk Fmin) w.md Γ.md
  glob : ∀ f, w.glob = some f → 0 ≤ f ∧ f * log Fmin ≤ 1

/-! ## Lists -/

section
variable {α β : Type} {R : α → β → Prop} {l : List α} {l' : List β}

theorem forall2_idx (h : List.Forall₂ R l l') {i : ℕ} {b : β} (hb : l'[i]? = some b) : ∃ a, idx l i = ok a ∧ R a b := by
  induction h generalizing i with
  | nil => simp at hb
  | cons hr _ ih =>
    cases i with
    | zero => simp at hb; subst hb; exact ⟨_, rfl, hr⟩
    | succ i => simp at hb; exact ih hb

theorem forall2_idx' (h : List.Forall₂ R l l') {i : ℕ} (hi : i < l'.length) : ∃ a b, idx l i = ok a ∧ l'[i]? = some b ∧ R a b := by
  obtain ⟨a, h1, h2⟩ := forall2_idx h (List.getElem?_eq_getElem hi)
  exact ⟨a, _, h1, List.getElem?_eq_getElem hi, h2⟩

theorem forall2_set (h : List.Forall₂ R l l') {i : ℕ} {a : α} {b : β} (hb : l'[i]? = some b) (hr : R a b) : List.Forall₂ R (l.set i a) l' := by
  induction h generalizing i with
  | nil => simp at hb
  | cons hr' ht ih =>
    cases i with
    | zero => simp at hb; subst hb; exact .cons hr ht
    | succ i => simp at hb; exact .cons hr' (ih hb)

theorem forall2_modify (h : List.Forall₂ R l l') {i : ℕ} {a : α} {b : β} {f : β → β} (hb : l'[i]? = some b) (hr : R a (f b)) :
    List.Forall₂ R (l.set i a) (l'.modify i f) := by
  induction h generalizing i with
  | nil => simp at hb
  | cons hr' ht ih =>
    cases i with
    | zero => simp at hb; subst hb; exact .cons hr ht
    | succ i => simp at hb; exact .cons hr' (ih hb)

theorem forall2_snoc (h : List.Forall₂ R l l') {a : α} {b : β} (hr : R a b) : List.Forall₂ R (l ++ [a]) (l' ++ [b]) := by
  induction h with
  | nil => exact .cons hr .nil
  | cons hr' _ ih => exact .cons hr' ih

end

/-! ## setState keeps the lengths, also when it throws -/

theorem setStateVec_pah {s : State} {a : SetArgs} (h : a.yPah.length ≠ s.yPah.length) : (setStateVec s a).1.yPah = s.yPah := by
  unfold setStateVec
  cases clampLoop s.nsoot.toNat a.sootVar <;> try rfl
  simp only
  by_cases h1 : ∃ x ∈ ‹List ℝ›, x < 0
  · rw [if_pos h1]
  rw [if_neg h1]
  cases clampLoop s.Ntar.toNat a.tarVar <;> try rfl
  simp only
  by_cases h2 : ∃ x ∈ ‹List ℝ›, x < 0
  · rw [if_pos h2]
  rw [if_neg h2]
  by_cases h3 : ∃ y ∈ a.yGas, (if y < 0 then (0 : ℝ) else y) > 1
  · rw [if_pos h3]
  rw [if_neg h3, if_pos h]

theorem StOk.set {s : State} {σ : StShape} {a : SetArgs} (h : StOk s σ) (h1 : a.sootVar.length = σ.nsoot) (h2 : a.nsoot = σ.nsoot)
    (h3 : a.tarVar.length = σ.Ntar) (h4 : a.Ntar = σ.Ntar) : StOk (setState s a).1 { σ with gas := min σ.gas a.yGas.length } := by
  have t := C04_setState_torn_partial s a
  obtain ⟨_, _, _, _, _, _, tn, ts, tN, tt, tg, tp, ta, tw, _, _, _, tb⟩ := t
  simp only [stateAfter, oldOrNew] at tn ts tN tt tg tp
  refine ⟨?_, ?_, ?_, ?_, by rw [tw, h.wts], by rw [ta, h.absc], ?_, ?_, by rw [tb, h.bio]⟩
  · rcases tg with e | e <;> rw [e]
    exacts [(min_le_left _ _).trans h.gas, min_le_right _ _]
  · by_cases e : (setState s a).1.yPah = s.yPah
    · rw [e, h.pah]
    · have e' := tp.resolve_left e
      rw [e']
      by_contra hne
      apply e
      have hne' : a.yPah.length ≠ s.yPah.length := by rw [h.pah]; exact hne
      simp only [setState]
      split_ifs <;> try rfl
      exact setStateVec_pah hne'
  · rcases tn with e | e <;> rw [e]
    exacts [h.nsoot, h2]
  · rcases ts with e | e <;> rw [e]
    exacts [h.soot, by simpa using h1]
  · rcases tN with e | e <;> rw [e]
    exacts [h.Ntar, h4]
  · rcases tt with e | e <;> rw [e]
    exacts [h.tar, by simpa using h3]

theorem StOk.set_safe {s : State} {σ : StShape} {a : SetArgs} (h : StOk s σ) (h1 : a.sootVar.length = σ.nsoot)
    (h3 : a.tarVar.length = σ.Ntar) : (setState s a).2 = ok () ∨ ∃ e, (setState s a).2 = exn e := by
  have hs : s.nsoot.toNat ≤ a.sootVar.length := by rw [h.nsoot, h1]; simp
  have ht : s.Ntar.toNat ≤ a.tarVar.length := by rw [h.Ntar, h3]; simp
  by_cases ha : Admissible s.nsoot.toNat s.Ntar.toNat s.yPah.length a
  · exact .inl ((C01_setState_iff s a hs ht).2 ha)
  · obtain ⟨m, e⟩ := C01_setState_rejects s a hs ht ha
    exact .inr ⟨_, e⟩

/-! ## setSourceTerms changes no length -/

theorem monoSources_st {m m' : Model} {s s' : State} (h : monoSources m s = ok (m', s')) :
    ∃ c w a, s' = { s with cMin := c, wts := w, absc := a } ∧ w.length = s.wts.length ∧ a.length = s.absc.length := by
  simp only [monoSources, bind_eq_ok] at h
  obtain ⟨⟨M0, M1, s1⟩, h1, h⟩ := h
  have k1 : ∃ w a, s1 = { s with wts := w, absc := a } ∧ w.length = s.wts.length ∧ a.length = s.absc.length := by
    simp only [monoNodes, bind_eq_ok] at h1
    obtain ⟨x, _, y, _, h1⟩ := h1
    split_ifs at h1
    · simp only [bind_eq_ok, setIdx_eq_ok] at h1
      obtain ⟨w, ⟨_, rfl⟩, a, ⟨_, rfl⟩, h1⟩ := h1
      cases h1; exact ⟨_, _, rfl, by simp, by simp⟩
    · cases h1; exact ⟨_, _, rfl, rfl, rfl⟩
  obtain ⟨w, a, rfl, hw, ha⟩ := k1
  have key : ∀ {t : MonoTerms}, monoTerms m M0 M1 { s with wts := w, absc := a } = ok t →
      ∃ c w a, t.st = { s with cMin := c, wts := w, absc := a } ∧ w.length = s.wts.length ∧ a.length = s.absc.length := by
    intro t ht
    obtain ⟨c, e⟩ := monoTerms_st ht
    exact ⟨c, w, a, e, hw, ha⟩
  rcases ht : m.tar <;> simp only [ht, bind_eq_ok] at h
  · obtain ⟨t, h2, v, _, v', _, m1, h4, h⟩ := h
    cases h; exact key h2
  · obtain ⟨_, _, t, h2, _, _, _, _, _, _, v, _, v', _, w, _, m1, h4, h⟩ := h
    cases h; exact key h2
  · obtain ⟨_, _, t, h2, _, _, _, _, _, _, _, _, _, _, v, _, v', _, w, _, m1, h4, h⟩ := h
    cases h; exact key h2

/-- What a source evaluation does to the objects it touches, in every class that completes. -/
theorem sourceTerms_frame {eig : Eig} {m m' : Model} {s s' : State} {glob glob' : Option ℝ} (hw : m.WF) (h2 : 2 ≤ m.nsoot)
    (hh : m.psd ≠ .HMOM) (h : sourceTerms eig m glob s = ok (m', s', glob')) :
    m'.WF ∧ m.SameSpec m' ∧
    (∃ c w a, s' = { s with cMin := c, wts := w, absc := a } ∧ w.length = s.wts.length ∧ a.length = s.absc.length) ∧
    (glob' = glob ∨ (m.psd = .SECT ∧ ∃ f, glob' = some f ∧ ilnFStatic glob m.binF = ok f)) := by
  have nst : ∀ {n n' : Nucl} {ib : State → ℝ → Res ℝ} {s s' : State} {j : ℝ}, n.rate ib s = ok (j, n', s') →
      ∃ c w a, s' = { s with cMin := c, wts := w, absc := a } ∧ w.length = s.wts.length ∧ a.length = s.absc.length := by
    intro n n' ib s s' j h
    obtain ⟨c, e⟩ := nucl_state h
    exact ⟨c, s.wts, s.absc, e, rfl, rfl⟩
  unfold sourceTerms at h
  cases hp : m.psd <;> simp only [hp] at h hh
  · cases h
  · simp only [bind_eq_ok] at h
    obtain ⟨⟨m1, s1⟩, h1, h⟩ := h
    cases h
    obtain ⟨a, b⟩ := monoSources_wf hw h1
    exact ⟨a, b, monoSources_st h1, .inl rfl⟩
  · simp only [bind_eq_ok] at h
    obtain ⟨⟨m1, s1⟩, h1, h⟩ := h
    cases h
    obtain ⟨a, b⟩ := lognSources_wf hw h1
    obtain ⟨t, ht, e, _⟩ := lognSources_inv h1
    obtain ⟨j, hj⟩ := lognTerms_nucl ht
    exact ⟨a, b, e ▸ nst hj, .inl rfl⟩
  · simp only [bind_eq_ok] at h
    obtain ⟨⟨m1, s1⟩, h1, h⟩ := h
    cases h
    obtain ⟨a, b⟩ := qmomSources_wf hw h2 h1
    obtain ⟨w, x, t, k1, k2, k3⟩ := qmomSources_inv h1
    obtain ⟨lw, la⟩ := getWtsAbs_lens k1
    obtain ⟨j, hj⟩ := (qmomTerms_sound k2 h2).nucl
    obtain ⟨c, e⟩ := nucl_state hj
    refine ⟨a, b, ⟨c, w, x, ?_, lw, la⟩, .inl rfl⟩
    rw [(momFinish_inv k3).1, e]
  · simp only [bind_eq_ok] at h
    obtain ⟨⟨m1, s1⟩, h1, h⟩ := h
    cases h
    obtain ⟨a, b⟩ := momicSources_wf hw h2 h1
    obtain ⟨T, P, Q, t, _, _, _, k1, k2⟩ := momicSources_inv h1
    obtain ⟨j, hj⟩ := (momicTerms_sound k1 h2).nucl
    exact ⟨a, b, (momFinish_inv k2).1 ▸ nst hj, .inl rfl⟩
  · obtain ⟨a, b⟩ := sectSources_wf hw h
    simp only [sectSources, bind_eq_ok] at h
    obtain ⟨t, ht, mN, hN, mG, hG, mO, hO, m1, hf, h⟩ := h
    cases h
    obtain ⟨j, hj⟩ := sectTerms_nucl ht
    refine ⟨a, b, nst hj, ?_⟩
    simp only [sectTerms, bind_eq_ok] at ht
    obtain ⟨⟨j, n, s'⟩, h1, kG, _, kO, _, nuc, _, A, _, grw, _, cnd, _, oxi, _, ⟨coa, g'⟩, h9, ht⟩ := ht
    cases ht
    simp only [sectCoag] at h9
    split_ifs at h9
    · simp only [bind_eq_ok] at h9
      obtain ⟨f, k1, S, _, h9⟩ := h9
      cases h9
      exact .inr ⟨rfl, f, rfl, k1⟩
    · cases h9; exact .inl rfl
  · exact absurd rfl hh

/-! ## The bin search -/

theorem searchable_of {n : ℕ} {F Fmin f : ℝ} {cm : ℤ} (hn : 2 ≤ n) (hm : 1 < Fmin) (hF : Fmin ≤ F) (hc : 0 < cm)
    (hb : log 2 + n * log F < 2 ^ 64 * log Fmin) (h0 : 0 ≤ f) (hf : f * log Fmin ≤ 1) : Searchable n (binMasses n F cm) f := by
  intro i j hi hj
  have hF1 : 1 < F := lt_of_lt_of_le hm hF
  have hlm := log_pos hm
  have hlF := log_pos hF1
  have hw : 0 < gasMW .C / Na := div_pos (gasMW_pos _) (by norm_num [Na])
  have hcR : (0 : ℝ) < cm := by exact_mod_cast hc
  have gd : ∀ k < n, (binMasses n F cm).getD k 0 = cm * F ^ k * gasMW .C / Na := by
    intro k hk
    simp [binMasses, List.getD, hk]
  rw [gd i hi, gd j hj, gd 0 (by omega)]
  have e : (cm * F ^ i * gasMW .C / Na + cm * F ^ j * gasMW .C / Na) / (cm * F ^ 0 * gasMW .C / Na) = F ^ i + F ^ j := by
    have hg := gasMW_pos .C
    have hN : Na ≠ 0 := by norm_num [Na]
    field_simp
  rw [e]
  have p1 : ∀ k, (1 : ℝ) ≤ F ^ k := fun k => one_le_pow₀ hF1.le
  have p2 : ∀ k < n, F ^ k ≤ F ^ n := fun k hk => pow_le_pow_right₀ hF1.le hk.le
  have l0 : 0 ≤ log (F ^ i + F ^ j) := log_nonneg (by linarith [p1 i, p1 j])
  have l1 : log (F ^ i + F ^ j) ≤ log 2 + n * log F := by
    have : log 2 + n * log F = log (2 * F ^ n) := by
      rw [log_mul (by norm_num) (pow_pos (by linarith) _).ne', log_pow]
    rw [this]
    exact log_le_log (by linarith [p1 i, p1 j]) (by linarith [p2 i hi, p2 j hj])
  refine ⟨by linarith [mul_nonneg h0 l0], ?_⟩
  have k1 : f * log (F ^ i + F ^ j) ≤ f * (log 2 + n * log F) := mul_le_mul_of_nonneg_left l1 h0
  rcases h0.eq_or_lt with e0 | h0
  · rw [← e0] at k1 ⊢; norm_num
  have k2 : f * (log 2 + n * log F) < f * (2 ^ 64 * log Fmin) := mul_lt_mul_of_pos_left hb h0
  nlinarith

/-! ## One call -/

theorem StOk.fit {s : State} {σ : StShape} {m : Model} {μ : MdShape} {Fmin : ℝ} (h : StOk s σ) (hm : MdOk Fmin m μ) (h2 : 2 ≤ μ.nsoot)
    (e : μ.nsoot = σ.nsoot) (h8 : gasNeed μ.nucl μ.tar ≤ σ.gas) : Fit m.ctx s where
  gas := by
    refine le_trans ?_ (h8.trans h.gas)
    unfold gasNeed; split_ifs <;> omega
  pah := h.pah.ge
  two := by rw [h.soot]; omega
  sect := by
    intro hp
    have hp' : μ.psd = .SECT := hm.psd ▸ hp
    obtain ⟨F, cm, _, eb, _⟩ := hm.sect hp'
    refine ⟨?_, ?_, ?_⟩
    · show m.nsoot ≤ _
      rw [h.soot, hm.nsoot, e]
    · show m.nsoot ≤ m.mBins.length
      rw [eb, hm.nsoot]; simp [binMasses]
    · show s.nsoot = ((m.nsoot : ℕ) : ℤ)
      rw [h.nsoot, hm.nsoot, e]

theorem Documented.two {psd : PsdMech} {n : ℕ} {c : CoagMech} {t : TarMech} (h : Documented psd n c t) : 2 ≤ n := by
  cases h <;> omega

theorem glob_ok {Fmin F : ℝ} {glob : Option ℝ} {f : ℝ} (hm : 1 < Fmin) (hF : Fmin ≤ F) (hg : ∀ f, glob = some f → 0 ≤ f ∧ f * log Fmin ≤ 1)
    (h : ilnFStatic glob F = ok f) : 0 ≤ f ∧ f * log Fmin ≤ 1 := by
  cases glob with
  | some v => simp only [ilnFStatic, ok.injEq] at h; exact hg f (by rw [h])
  | none =>
    have hlm := log_pos hm
    have hl : log Fmin ≤ log F := log_le_log (by linarith) hF
    have hlF : 0 < log F := lt_of_lt_of_le hlm hl
    rw [ilnFStatic, clog, if_neg (not_le.mpr (by linarith)), ok_bind, cdiv_ok hlF.ne'] at h
    cases h
    refine ⟨by positivity, ?_⟩
    rw [one_div_mul_eq_div, div_le_one hlF]; exact hl

theorem sources_safe {eig : Eig} {Fmin : ℝ} (hF : 1 < Fmin) {w : World} {m : Model} {s : State} {μ : MdShape} {σ : StShape}
    (hm : MdOk Fmin m μ) (hs : StOk s σ) (hg : ∀ f, w.glob = some f → 0 ≤ f ∧ f * log Fmin ≤ 1) (e : μ.nsoot = σ.nsoot) (h8 : gasNeed μ.nucl μ.tar ≤ σ.gas)
    (h1 : μ.psd ≠ .HMOM)
    (h2 : μ.psd = .MOMIC → μ.nsoot ≤ 7) (h3 : μ.psd = .QMOM → μ.coag ≠ .NONE → μ.nsoot ≤ 35)
    (h4 : μ.nucl = .AJ_RED ∨ μ.nucl = .BROWN → 0 < σ.Ntar) (h5 : μ.tar ≠ .NONE → 0 < σ.Ntar ∧ 0 < μ.Ntar) :
    Safe (sourceTerms eig m w.glob s) := by
  have two := hm.doc.two
  have fit := hs.fit hm two e h8
  have g9 : m.nucl.mech = .LINA1 → 9 ≤ s.yGas.length := by
    rw [hm.nucl]
    intro hx
    refine le_trans ?_ (h8.trans hs.gas)
    unfold gasNeed; split_ifs <;> first | omega | contradiction
  have g11 : m.tar = .AJ_RED → 11 ≤ s.yGas.length := by
    rw [hm.tar]
    intro hx
    refine le_trans ?_ (h8.trans hs.gas)
    rw [gasNeed, if_pos hx]
  have tv : m.nucl.mech = .AJ_RED ∨ m.nucl.mech = .BROWN → 0 < s.tarVar.length := by rw [hm.nucl, hs.tar]; exact h4
  have doc := hm.doc
  unfold sourceTerms
  cases hp : m.psd <;> simp only
  · rw [← hm.psd, hp] at doc; cases doc
  · have n2 : μ.nsoot = 2 := by
      have := doc; rw [← hm.psd, hp] at this; cases hx : μ.nsoot; all_goals rw [hx] at this; cases this; try rfl
    refine .bind (.mono ⟨fit, by rw [hs.wts, ← e, n2], by rw [hs.absc, ← e, n2], by rw [hm.wf.srcLen, hm.nsoot, n2], g9, g11, ?_, ?_⟩) fun _ _ => .ok _
    · rw [hm.tar, hm.nucl, hs.tar]
      rintro (h | h)
      exacts [(h5 h).1, h4 h]
    · rw [hm.tar, hm.wf.tarLen, hm.Ntar]; exact fun h => (h5 h).2
  · have key : μ.nsoot = 3 ∧ μ.coag ≠ .FUCHS := by
      have := doc; rw [← hm.psd, hp] at this
      generalize μ.nsoot = k at this; generalize μ.coag = c at this; generalize μ.tar = t at this
      cases this with | logn _ hc => exact ⟨rfl, by rintro rfl; simp at hc⟩
    exact .bind (.logn ⟨fit, by rw [hs.soot, ← e, key.1], by rw [hm.wf.srcLen, hm.nsoot, key.1], g9, tv, by rw [hm.coag]; exact key.2⟩)
      fun _ _ => .ok _
  · exact .bind (.qmom eig ⟨fit, g9, tv, by rw [hs.wts, hs.soot], by rw [hs.absc, hs.soot], by
      rw [hm.coag, hm.nsoot]; exact h3 (by rw [← hm.psd, hp])⟩) fun _ _ => .ok _
  · have key : 3 ≤ μ.nsoot := by
      have := doc; rw [← hm.psd, hp] at this
      generalize μ.nsoot = k at this; generalize μ.coag = c at this; generalize μ.tar = t at this
      cases this with | momic _ hk => exact hk
    exact .bind (.momic ⟨fit, g9, tv, by rw [hm.nsoot]; exact key, by rw [hm.nsoot]; exact h2 (by rw [← hm.psd, hp]), by
      rw [hs.soot, hm.nsoot, e]⟩) fun _ _ => .ok _
  · obtain ⟨F, cm, eF, eb, hF', hc, hbig⟩ := hm.sect (by rw [← hm.psd, hp])
    have hb : Bins m.nsoot m.mBins := by rw [eb, hm.nsoot]; exact binMasses_bins two (lt_of_lt_of_le hF hF') hc
    refine .sect ⟨fit, hb, g9, tv, by rw [hm.nsoot, hs.soot, e]⟩ fun _ f hf => ?_
    obtain ⟨k1, k2⟩ := glob_ok hF (eF ▸ hF') hg hf
    rw [eb, hm.nsoot]
    exact searchable_of two hF hF' hc hbig k1 k2
  · exact absurd (hm.psd ▸ hp) h1

theorem newModel_ok {Fmin : ℝ} {psd : PsdMech} {k : ℕ} {n : NuclMech} {g : GrowMech} {o : OxidMech} {c : CoagMech} {N : ℕ} {t : TarMech} {F : ℝ}
    {cm : ℤ} (hd : Documented psd k c t) (hs : psd = .SECT → Fmin ≤ F ∧ 0 < cm ∧ log 2 + k * log F < 2 ^ 64 * log Fmin) :
    ∃ m, Model.new psd k n g o c N t F cm = ok m ∧ MdOk Fmin m ⟨psd, k, n, c, N, t⟩ := by
  have hp : psd ≠ .NONE := by rintro rfl; cases hd
  have hc : (Coag.new c).mech = c := by cases c <;> rfl
  have hn : (Nucl.new n).mech = n := by cases n <;> rfl
  refine ⟨_, by rw [Model.new, Model.newPtr, hc, (ctorCheck_iff psd hp k c t).1 hd]; exact ok_bind _ _, ?_⟩
  refine ⟨⟨Nucl.new_wf n, by cases g <;> rfl, by cases o <;> rfl, fun _ => rfl, fun _ => rfl, by simp [Sources.new], by simp [Sources.new],
    by simp [Sources.new]⟩, rfl, rfl, hn, hc, rfl, rfl, hd, fun h => ?_⟩
  obtain ⟨h1, h2, h3⟩ := hs h
  exact ⟨F, cm, rfl, if_pos h, h1, h2, h3⟩

theorem step_ok (eig : Eig) {Fmin : ℝ} (hF : 1 < Fmin) {w : World} {Γ : Shapes} (h : WorldOk Fmin w Γ) (op : Call) (hl : Legal Fmin Γ op) :
    Safe (step eig w op) ∧ ∀ w', step eig w op = ok w' → WorldOk Fmin w' (Γ.after op) := by
  cases op with
  | newState n t =>
    refine ⟨.ok _, fun w' e => ?_⟩
    cases e
    refine ⟨forall2_snoc h.st ⟨?_, ?_, rfl, ?_, ?_, ?_, rfl, ?_, rfl⟩, h.md, h.glob⟩ <;> simp [State.mk']
  | set i a =>
    obtain ⟨σ, hi, h1, h2, h3, h4⟩ := hl
    obtain ⟨s, es, hs⟩ := forall2_idx h.st hi
    have hk := hs.set h1 h2 h3 h4
    have k := hs.set_safe h1 h3
    have e : step eig w (.set i a) = ok { w with st := w.st.set i (setState s a).1 } := by
      simp only [step, es, ok_bind]
      rcases hx : setState s a with ⟨s', r⟩
      rw [hx] at k
      rcases k with k | ⟨_, k⟩ <;> (simp only at k; subst k; rfl)
    rw [e]
    refine ⟨.ok _, fun w' e => ?_⟩
    cases e
    exact ⟨forall2_modify h.st hi hk, h.md, h.glob⟩
  | bio i y =>
    obtain ⟨s, σ, es, hi, hs⟩ := forall2_idx' h.st hl
    simp only [step, es, ok_bind]
    refine ⟨.ok _, fun w' e => ?_⟩
    cases e
    exact ⟨forall2_modify h.st hi ⟨hs.gas, hs.pah, hs.nsoot, hs.soot, hs.wts, hs.absc, hs.Ntar, hs.tar, rfl⟩, h.md, h.glob⟩
  | coal i x y z =>
    obtain ⟨s, σ, es, hi, hs⟩ := forall2_idx' h.st hl
    simp only [step, es, ok_bind]
    refine ⟨.ok _, fun w' e => ?_⟩
    cases e
    exact ⟨forall2_set h.st hi ⟨hs.gas, hs.pah, hs.nsoot, hs.soot, hs.wts, hs.absc, hs.Ntar, hs.tar, hs.bio⟩, h.md, h.glob⟩
  | tarBio i =>
    obtain ⟨σ, hi, h5⟩ := hl
    obtain ⟨s, es, hs⟩ := forall2_idx h.st hi
    have hb := hs.bio
    simp only [step, es, ok_bind]
    refine ⟨.bind ?_ fun _ _ => .ok _, fun w' e => ?_⟩
    · unfold getMtarYtar
      refine .bind (.idx (by omega)) fun _ _ => .bind (.idx (by omega)) fun _ _ => .bind (.idx (by omega)) fun _ _ =>
        .bind (.idx (by omega)) fun _ _ => .bind (.idx (by omega)) fun _ _ => ?_
      safe
    · simp only [bind_eq_ok] at e
      obtain ⟨s', e1, e⟩ := e
      cases e
      simp only [getMtarYtar, bind_eq_ok] at e1
      obtain ⟨_, _, _, _, _, _, _, _, _, _, _, _, _, _, _, _, _, _, _, _, _, _, _, _, _, _, _, _, _, _, _, _, e1⟩ := e1
      cases e1
      exact ⟨forall2_set h.st hi ⟨hs.gas, hs.pah, hs.nsoot, hs.soot, hs.wts, hs.absc, hs.Ntar, hs.tar, hs.bio⟩, h.md, h.glob⟩
  | tarCoal i =>
    obtain ⟨s, σ, es, hi, hs⟩ := forall2_idx' h.st hl
    simp only [step, es, ok_bind]
    refine ⟨.bind ?_ fun _ _ => .ok _, fun w' e => ?_⟩
    · unfold getMtarYtarCoal; safe
    · simp only [bind_eq_ok] at e
      obtain ⟨s', e1, e⟩ := e
      cases e
      simp only [getMtarYtarCoal, bind_eq_ok] at e1
      obtain ⟨_, _, _, _, _, _, e1⟩ := e1
      cases e1
      exact ⟨forall2_set h.st hi ⟨hs.gas, hs.pah, hs.nsoot, hs.soot, hs.wts, hs.absc, hs.Ntar, hs.tar, hs.bio⟩, h.md, h.glob⟩
  | newModel psd k n g o c N t F cm =>
    obtain ⟨hp, hsect⟩ := hl
    by_cases hd : Documented psd k c t
    · obtain ⟨m, e, hm⟩ := newModel_ok (n := n) (g := g) (o := o) (N := N) hd hsect
      simp only [step, e, Shapes.after, if_pos hd]
      refine ⟨.ok _, fun w' e => ?_⟩
      cases e
      exact ⟨h.st, forall2_snoc h.md hm, h.glob⟩
    · obtain ⟨msg, e⟩ := (C43_ctor psd hp k n g o c N t F cm).2 hd
      simp only [step, e, Shapes.after, if_neg hd]
      refine ⟨.ok _, fun w' e => ?_⟩
      cases e
      exact h
  | sources j i =>
    obtain ⟨μ, σ, hj, hi, e, h8, h1, h2, h3, h4, h5⟩ := hl
    obtain ⟨s, es, hs⟩ := forall2_idx h.st hi
    obtain ⟨m, em, hm⟩ := forall2_idx h.md hj
    simp only [step, es, em, ok_bind]
    refine ⟨.bind (sources_safe hF hm hs h.glob e h8 h1 h2 h3 h4 h5) fun _ _ => .ok _, fun w' ew => ?_⟩
    simp only [bind_eq_ok] at ew
    obtain ⟨⟨m', s', g⟩, e1, ew⟩ := ew
    cases ew
    obtain ⟨wf, sp, ⟨c, ws, as, rfl, lw, la⟩, hg⟩ := sourceTerms_frame hm.wf (by rw [hm.nsoot]; exact hm.doc.two) (by rw [hm.psd]; exact h1) e1
    refine ⟨forall2_set h.st hi ⟨hs.gas, hs.pah, hs.nsoot, hs.soot, lw.trans hs.wts, la.trans hs.absc, hs.Ntar, hs.tar, hs.bio⟩,
      forall2_set h.md hj ⟨wf, sp.psd.trans hm.psd, sp.nsoot.trans hm.nsoot, sp.nmech.trans hm.nucl, by rw [sp.coag, hm.coag],
        sp.Ntar.trans hm.Ntar, sp.tar.trans hm.tar, hm.doc, fun hx => ?_⟩, fun f hf => ?_⟩
    · rw [sp.binF, sp.mBins]; exact hm.sect hx
    · rcases hg with hg | ⟨hp, f', hg, hf'⟩
      · exact h.glob f (hg ▸ hf)
      · obtain ⟨F, cm, eF, _, hF', _⟩ := hm.sect (hm.psd ▸ hp)
        have : f' = f := by simp only at hf; rw [hg] at hf; exact Option.some.inj hf
        subst this
        exact glob_ok hF (eF ▸ hF') h.glob hf'

theorem run_ok (eig : Eig) {Fmin : ℝ} (hF : 1 < Fmin) (ops : List Call) {w : World} {Γ : Shapes} (h : WorldOk Fmin w Γ) (hl : LegalRun Fmin Γ ops) :
    Safe (run eig w ops) ∧ ∀ w', run eig w ops = ok w' → WorldOk Fmin w' (Γ.afterAll ops) := by
  induction ops generalizing w Γ with
  | nil => exact ⟨.ok _, fun w' e => by cases e; exact h⟩
  | cons o t ih =>
    obtain ⟨h1, h2⟩ := step_ok eig hF h o hl.1
    refine ⟨.bind h1 fun w1 e1 => (ih (h2 w1 e1) hl.2).1, fun w' e => ?_⟩
    simp only [run, bind_eq_ok] at e
    obtain ⟨w1, e1, e⟩ := e
    exact (ih (h2 w1 e1) hl.2).2 w' e

/-- **C68.**  For every program, of any length, over any number of states and models of the five working classes, whatever numbers are passed
to `setState` and whatever the eigenvalue routine returns: if the caller keeps the lengths consistent (`LegalRun`), no call is undefined
behaviour and no exception reaches the caller except from `setState` and the constructors.  If no intermediate value overflows or divides by
zero, the program completes. -/
theorem C68_no_ub (eig : Eig) (Fmin : ℝ) (hF : 1 < Fmin) (ops : List Call) (hl : LegalRun Fmin ⟨[], []⟩ ops) :
    run eig World.start ops ≠ ub ∧ (∀ e, run eig World.start ops ≠ exn e) ∧
      (run eig World.start ops ≠ nonfin → ∃ w, run eig World.start ops = ok w) := by
  obtain ⟨h1, h2⟩ := (run_ok eig hF ops (w := .start) (Γ := ⟨[], []⟩) ⟨.nil, .nil, fun f hf => by cases hf⟩ hl).1
  refine ⟨h1, h2, fun h3 => ?_⟩
  cases hr : run eig World.start ops with
  | ok w => exact ⟨w, rfl⟩
  | exn e => exact absurd hr (h2 e)
  | ub => exact absurd hr h1
  | nonfin => exact absurd hr h3

/-- **C68, invariant.**  After every legal program the objects have exactly the counts, lengths and configuration of the caller's bookkeeping,
also if some `setState` calls threw half way. -/
theorem C68_lengths (eig : Eig) (Fmin : ℝ) (hF : 1 < Fmin) (ops : List Call) (hl : LegalRun Fmin ⟨[], []⟩ ops) (w : World)
    (hw : run eig World.start ops = ok w) :
    List.Forall₂ StOk w.st (Shapes.afterAll ⟨[], []⟩ ops).st ∧ List.Forall₂ (MdOk Fmin) w.md (Shapes.afterAll ⟨[], []⟩ ops).md :=
  have h := (run_ok eig hF ops (w := .start) (Γ := ⟨[], []⟩) ⟨.nil, .nil, fun f hf => by cases hf⟩ hl).2 w hw
  ⟨h.st, h.md⟩

/-- Arguments with the first eight gas species only. -/
noncomputable def argsGas8 : SetArgs := { argsEx with sootVar := [1, 1], nsoot := 2, yGas := List.replicate 8 0.1 }

/-- The discipline is not idle: programs that break one clause of `Legal` and are undefined.  A number that names no object, a soot vector
shorter than before, no biomass composition, MOMIC with eight moments, HMOM; all pass every check the code makes. -/
theorem C68_needed (eig : Eig) : run eig World.start [.sources 0 0] = ub ∧
    run eig World.start [.newState 3 0, .set 0 { argsEx with sootVar := [1, 1], nsoot := 2 }] = ub ∧
    run eig World.start [.newState 3 0, .tarBio 0] = ub ∧
    run eig World.start [.newState 8 0, .newModel .MOMIC 8 .NONE .NONE .NONE .FM 0 .NONE 2 100, .sources 0 0] = ub ∧
    run eig World.start [.newState 0 0, .newModel .HMOM 4 .NONE .NONE .NONE .FM 0 .NONE 2 100, .sources 0 0] = ub ∧
    run eig World.start [.newState 2 0, .newModel .MONO 2 .LINA1 .NONE .NONE .FM 0 .NONE 2 100,
      .set 0 argsGas8, .sources 0 0] = ub := by
  refine ⟨rfl, ?_, rfl, ?_, ?_, ?_⟩
  · have e : (setState (State.mk' 3 0) { argsEx with sootVar := [1, 1], nsoot := 2 }).2 = ub :=
      (C06_setState_ub_iff _ _).mpr ⟨by norm_num [argsEx], Or.inl (by simp [State.mk'])⟩
    rcases hx : setState (State.mk' 3 0) { argsEx with sootVar := [1, 1], nsoot := 2 } with ⟨s', r⟩
    rw [hx] at e
    simp only at e
    subst e
    simp [run, step, World.start, idx, hx]
  · obtain ⟨m, e, _, hn, _⟩ := (C43_ctor .MOMIC (by simp) 8 .NONE .NONE .NONE .FM 0 .NONE 2 100).1 (.momic 8 (by norm_num) (by norm_num) _ (by simp))
    have hp : m.psd = .MOMIC := ‹_›
    have k := C33_momic_false m (State.mk' 8 0) hn (by simp [State.mk'])
    simp [run, step, World.start, e, idx, sourceTerms, hp, k]
  · have e : ctorCheck .HMOM 4 (Coag.new .FM).mech .NONE = ok () := by simp [ctorCheck, Coag.new]
    simp [run, step, World.start, Model.new, Model.newPtr, e, idx, sourceTerms, hmomSources, hmomSourcesAt, State.mk']
  · have e : ctorCheck .MONO 2 (Coag.new .FM).mech .NONE = ok () := by simp [ctorCheck, Coag.new]
    have ha := C01_setState_accepts (State.mk' 2 0) argsGas8
      (by simp [State.mk', argsGas8]) (by simp [State.mk', argsGas8])
      ⟨by norm_num [argsGas8, argsEx], by norm_num [argsGas8, argsEx], by norm_num [argsGas8, argsEx], by norm_num [argsGas8, argsEx], by norm_num [argsGas8, argsEx],
       by simp [State.mk', argsGas8]; intro i h1 h2; omega, by simp [argsGas8, argsEx], by norm_num [argsGas8], by simp [argsGas8, argsEx, State.mk', nPah],
       by norm_num [argsGas8, argsEx], by norm_num [argsGas8, argsEx]⟩
    simp [run, step, World.start, Model.new, Model.newPtr, e, idx]
    rw [ha]
    simp [argsGas8, sourceTerms, monoSources, monoNodes, stateAfter, State.mk', argsEx, idx,
      setIdx, monoTerms, Nucl.new, Nucl.rate, cexpDiv, cdiv, State.gasC, GasSp.toNat]

theorem sumLoop_ub {n k : ℕ} {f : ℕ → Res ℝ} (hk : k < n) (h1 : ∀ j < k, ∃ x, f j = ok x) (h2 : f k = ub) : sumLoop n f = ub := by
  induction n with
  | zero => omega
  | succ n ih =>
    rcases Nat.lt_succ_iff_lt_or_eq.1 hk with hk | rfl
    · rw [sumLoop, ih hk]; rfl
    · choose! x hx using h1
      rw [sumLoop, sumLoop_ok hx, h2]; rfl

/-- **C68 (the count that comes with a state).** HACA growth on a sectional model trusts the number of soot variables that the last `setState` was
given (any `int`, never checked): it is undefined exactly for a negative number and for one beyond the soot variables or the bins. -/
theorem C68_haca_count (x : Ctx) (s : State) (h : x.psd = .SECT) (h2 : 2 ≤ s.sootVar.length) (h8 : 8 ≤ s.yGas.length) :
    (Grow.new .HACA).rate x s = ub ↔ s.nsoot < 0 ∨ (s.sootVar.length : ℤ) < s.nsoot ∨ (x.mBins.length : ℤ) < s.nsoot := by
  have hr : (Grow.new .HACA).rate x s = (hacaMoments x s >>= fun M => hacaRates s >>= fun r => hacaAlpha s.T M.1 M.2 >>= fun al =>
      ok (2 * (r.fR4 * al * r.chiS * 1E4) * gasMW .C / Na)) := rfl
  rw [hr]
  have i0 : ∀ (l : List ℝ) k, k < l.length → idx l k = ok (l.getD k 0) := fun l k hk => by rw [idx_ok hk, getD_of_lt]
  constructor
  · intro e
    by_contra hn
    push Not at hn
    have hf : Safe (hacaMoments x s) := by
      unfold hacaMoments
      simp only [if_pos h, if_neg (not_lt.2 hn.1)]
      refine .bind (.idx (by omega)) fun _ _ => .bind (.idx (by omega)) fun _ _ =>
        .bind (.sumLoop fun k hk => .idx (by omega)) fun _ _ => .bind (.sumLoop fun k hk => ?_) fun _ _ => .ok _
      exact .bind (.idx (by omega)) fun _ _ => .bind (.idx (by omega)) fun _ _ => .ok _
    exact (Safe.bind hf fun _ _ => .bind (Safe.hacaRates h8) fun _ _ => .bind (Safe.hacaAlpha _ _ _) fun _ _ => .ok _).1 e
  · intro hn
    suffices hu : hacaMoments x s = ub by rw [hu]; rfl
    unfold hacaMoments
    rw [i0 _ 0 (by omega), i0 _ 1 (by omega)]
    simp only [ok_bind, if_pos h]
    split_ifs with h0
    · rfl
    rcases lt_or_ge (s.sootVar.length : ℤ) s.nsoot with hs | hs
    · rw [sumLoop_ub (k := s.sootVar.length) (by omega) (fun j hj => ⟨_, i0 _ j hj⟩) (idx_ub le_rfl)]; rfl
    · rw [sumLoop_ok (g := fun k => s.sootVar.getD k 0) fun k hk => i0 _ k (by omega), ok_bind,
        sumLoop_ub (k := x.mBins.length) (by omega) (fun j hj => ⟨s.sootVar.getD j 0 * x.mBins.getD j 0, by
          rw [i0 _ j (by omega), i0 _ j hj]; rfl⟩) (by rw [i0 _ _ (by omega), idx_ub le_rfl]; rfl)]
      rfl

/-- A sectional model with three bins and a state that was given the count -1. -/
example (s : State) (h2 : s.sootVar.length = 3) (h8 : s.yGas.length = nGas) (hn : s.nsoot = -1) :
    (Grow.new .HACA).rate (exModel .SECT 3 .LL .HACA .LL .FM).ctx s = ub :=
  (C68_haca_count _ _ rfl (by omega) (by rw [h8]; decide)).2 (Or.inl (by omega))

/-- A program with two states, three models, a rejected configuration, a rejected state and repeated evaluations. -/
def exProg : List Call :=
  [.newState 3 0, .newState 2 1, .newModel .LOGN 3 .PAH .HACA .NSC_NEOH .HM 0 .NONE 2 100, .newModel .LOGN 2 .LL .LL .LL .HM 0 .NONE 2 100,
   .newModel .SECT 3 .LL .LL .LL .FM 0 .NONE 2 100, .newModel .MONO 2 .BROWN .LL .LL .FM 1 .BROWN 2 100,
   .set 0 { T := 1500, P := 101325, rhoGas := 0.2, muGas := 5E-5, yGas := List.replicate nGas 0.05, yPah := List.replicate nPah 0,
            sootVar := [1, 2, -3], nsoot := 3 },
   .sources 0 0, .sources 1 0, .sources 0 0,
   .set 1 { T := -1, P := 101325, rhoGas := 0.2, muGas := 5E-5, yGas := List.replicate nGas 0.05, yPah := [], sootVar := [0, 0],
            tarVar := [1], Ntar := 1 },
   .bio 1 [1, 0, 0, 0, 0], .tarBio 1, .sources 2 1]

theorem exProg_legal : LegalRun 2 ⟨[], []⟩ exProg := by
  have d1 : Documented .LOGN 3 .HM .NONE := .logn _ (by simp)
  have d2 : ¬ Documented .LOGN 2 .HM .NONE := fun h => by cases h
  have d3 : Documented .SECT 3 .FM .NONE := .sect 3 (by norm_num) _
  have d4 : Documented .MONO 2 .FM .BROWN := .mono _ _
  have hl : log 2 + (3 : ℕ) * log 2 < 2 ^ 64 * log (2 : ℝ) := by
    have := log_pos (show (1 : ℝ) < 2 by norm_num)
    push_cast; nlinarith
  simp only [exProg, LegalRun, Shapes.after, Legal, if_pos d1, if_neg d2, if_pos d3, if_pos d4]
  have hl' : log 2 + 3 * log 2 < 2 ^ 64 * log (2 : ℝ) := by exact_mod_cast hl
  simp [hl', nGas, gasNeed]

example (eig : Eig) : run eig World.start exProg ≠ ub := (C68_no_ub eig 2 (by norm_num) _ exProg_legal).1

end Soot
