import Verif.Props.Mono
import Verif.Props.SectModel
import Verif.Props.Logn
import Verif.Props.QmomModel
import Verif.Props.MomicModel
import Verif.Hmom

/-!
# C10: the mechanisms contribute independently, `NONE` contributes nothing, and the gas-phase carbon source is zero
-/

namespace Soot

open Res Real
open scoped Classical

/-- A freshly constructed model like `m` in which nucleation, growth or oxidation may be replaced by `NONE`. -/
noncomputable def Model.sel (m : Model) (a b c : Bool) : Model :=
  { m with
    nucl := Nucl.new (bif a then m.nucl.mech else .NONE)
    grow := Grow.new (bif b then m.grow.mech else .NONE)
    oxid := Oxid.new (bif c then m.oxid.cls else .NONE)
    sources := Sources.new m.nsoot m.Ntar }

/-- Every selection completes, and every reported source is the sum of one fixed contribution per selected mechanism (plus the coagulation
part `base`, which is zero for coagulation `NONE`); a mechanism replaced by `NONE` contributes exactly zero.  The source of the pseudo
species C is zero. -/
def Superposed (m : Model) (run : Model → Res Model) : Prop :=
  ∃ (base dn dg dx : ℕ → ℝ) (gn gg gx : GasSp → ℝ) (p : PahSp → ℝ),
    (m.coag.mech = .NONE → ∀ k, base k = 0) ∧
    ∀ a b c : Bool, ∃ m', run (m.sel a b c) = ok m' ∧
      m'.sources.soot = (List.range m.nsoot).map (fun k =>
        base k + (if a = true then dn k else 0) + (if b = true then dg k else 0) + (if c = true then dx k else 0)) ∧
      (∀ sp, m'.sources.gas sp =
        (if a = true then gn sp else 0) + (if b = true then gg sp else 0) + (if c = true then gx sp else 0)) ∧
      (∀ sp, m'.sources.pah sp = if a = true then p sp else 0) ∧
      m'.sources.gas .C = 0

/-! ## Growth and oxidation rates do not look at `cMin` -/

theorem grow_rate_cMin (g : Grow) (x : Ctx) (s : State) (c : ℝ) : g.rate x { s with cMin := c } = g.rate x s := rfl
theorem oxid_rate_cMin (o : Oxid) (x : Ctx) (s : State) (c : ℝ) : o.rate x { s with cMin := c } = o.rate x s := rfl

theorem Model.sel_wf (m : Model) (a b c : Bool) : (m.sel a b c).WF where
  nucl := Nucl.new_wf _
  grow := rfl
  oxid := rfl
  srcPah := fun _ => rfl
  srcTar := fun _ => rfl
  tarLen := by simp [Model.sel, Sources.new]
  tarTail := by simp [Model.sel, Sources.new, List.tail_replicate]
  srcLen := by simp [Model.sel, Sources.new]

theorem Model.sel_nucl {m : Model} {a b c : Bool} {k : NuclMech} (hk : k ≠ .NONE) (h : (m.sel a b c).nucl.mech = k) : m.nucl.mech = k := by
  cases a
  · exact absurd h.symm hk
  · exact h

theorem Ready.sel {m : Model} {s : State} (h : Ready m s) (a b c : Bool) : Ready (m.sel a b c) s where
  wf := m.sel_wf a b c
  fm := h.fm
  gas := h.gas
  pah := h.pah
  sized := h.sized
  sing := by
    rintro (hg | ho)
    · cases b
      · cases hg
      · exact h.sing (Or.inl hg)
    · cases c
      · cases ho
      · exact h.sing (Or.inr ho)
  tar := by
    rintro (hn | hn)
    · exact h.tar (Or.inl (Model.sel_nucl (by simp) hn))
    · exact h.tar (Or.inr (Model.sel_nucl (by simp) hn))
  mtar := fun hn => h.mtar (Model.sel_nucl (by simp) hn)

/-- What an evaluation of any selection looks like: the soot source is a nucleation part, a growth part and an oxidation part linear in the
surface rates, and a coagulation part. -/
def EvalForm (m : Model) (s₁ : State) (run : Model → Res Model) (ib : State → ℝ → Res ℝ) (A : ℝ) (nPart : ℝ → Nucl → ℝ → ℕ → ℝ)
    (gc oc base : ℕ → ℝ) : Prop :=
  ∀ a b c : Bool, ∃ (m' : Model) (s' : State) (J : ℝ) (n' : Nucl) (kG kO : ℝ) (ib' : State → ℝ → Res ℝ),
    run (m.sel a b c) = ok m' ∧ (a = true → ib' = ib) ∧
    (m.sel a b c).nucl.rate ib' s₁ = ok (J, n', s') ∧
    (m.sel a b c).grow.rate m.ctx s' = ok kG ∧ (m.sel a b c).oxid.rate m.ctx s' = ok kO ∧
    (m.sel a b c).finish n' m'.sources.soot (m.sel a b c).sources.tar (J * (s'.cMin * gasMW .C / Na)) (kG * A) (-(kO * A)) = ok m' ∧
    m'.sources.soot = (List.range m.nsoot).map fun k => nPart J n' s'.cMin k + kG * gc k + kO * oc k + base k

theorem superposed_of {m : Model} {s₁ : State} {run : Model → Res Model} {ib : State → ℝ → Res ℝ} {A : ℝ}
    {nPart : ℝ → Nucl → ℝ → ℕ → ℝ} {gc oc base : ℕ → ℝ} (h : EvalForm m s₁ run ib A nPart gc oc base)
    (hn : ∀ n c k, n.mech = .NONE → nPart 0 n c k = 0) (hb : m.coag.mech = .NONE → ∀ k, base k = 0) : Superposed m run := by
  obtain ⟨m1, s1, J1, n1, kG1, kO1, ib1, _, hib1, hJ1, hG1, hO1, hF1, _⟩ := h true true true
  have hib1 := hib1 rfl; subst hib1
  obtain ⟨gn, gg, gx, hgn, hgg, hgx, hm1⟩ := Model.finish_inv hF1
  have hs1 := (Nucl.rate_inv hJ1).2.2.2
  refine ⟨base, nPart J1 n1 s1.cMin, fun k => kG1 * gc k, fun k => kO1 * oc k, gn, gg, gx,
    (if n1.mech = .PAH then n1.pahRates else fun _ => 0), hb, ?_⟩
  intro a b c
  obtain ⟨m', s', J, n', kG, kO, ib', hrun, hib, hJ, hG, hO, hF, hsoot⟩ := h a b c
  obtain ⟨gn', gg', gx', hgn', hgg', hgx', hm'⟩ := Model.finish_inv hF
  have hs' := (Nucl.rate_inv hJ).2.2.2
  have hC := (Model.finish_gasC hF).1
  -- the nucleation part
  have hN : (∀ k, nPart J n' s'.cMin k = if a = true then nPart J1 n1 s1.cMin k else 0) ∧ (∀ sp, gn' sp = if a = true then gn sp else 0) ∧
      (∀ sp, m'.sources.pah sp = if a = true then (if n1.mech = .PAH then n1.pahRates else fun _ => 0) sp else 0) := by
    cases a with
    | true =>
      have := hib rfl; subst this
      have e : ok (J, n', s') = ok (J1, n1, s1) := hJ.symm.trans hJ1
      simp only [ok.injEq, Prod.mk.injEq] at e
      obtain ⟨rfl, rfl, rfl⟩ := e
      rw [hgn] at hgn'
      simp only [ok.injEq] at hgn'
      refine ⟨fun k => by simp, fun sp => by rw [hgn']; simp, fun sp => ?_⟩
      rw [hm']
      simp only [if_true]
      rfl
    | false =>
      obtain ⟨hmech, heq, hz, _⟩ := Nucl.rate_inv hJ
      have hJ0 : J = 0 := hz rfl
      have hnn : n'.mech = .NONE := hmech
      rw [hJ0, zero_mul] at hgn'
      refine ⟨fun k => by rw [hJ0, hn _ _ _ hnn]; simp, fun sp => by rw [gasRates_zero hgn']; simp, fun sp => ?_⟩
      rw [hm']
      simp only [hnn]
      rfl
  -- growth
  have hKG : kG = if b = true then kG1 else 0 := by
    cases b with
    | true =>
      have e : ok kG = ok kG1 := by
        rw [← hG, ← hG1, hs', hs1]; rfl
      simpa using e
    | false =>
      have e : ok kG = ok (0 : ℝ) := by rw [← hG]; rfl
      simpa using e
  have hGG : ∀ sp, gg' sp = if b = true then gg sp else 0 := by
    cases b with
    | true =>
      simp only [if_true] at hKG
      subst hKG
      have e : ok gg' = ok gg := hgg'.symm.trans hgg
      simp only [ok.injEq] at e
      intro sp; rw [e]; simp
    | false =>
      simp only [Bool.false_eq_true, if_false] at hKG
      rw [hKG, zero_mul] at hgg'
      intro sp; rw [gasRates_zero hgg']; simp
  have hKO : kO = if c = true then kO1 else 0 := by
    cases c with
    | true =>
      have e : ok kO = ok kO1 := by
        rw [← hO, ← hO1, hs', hs1]; rfl
      simpa using e
    | false =>
      have e : ok kO = ok (0 : ℝ) := by rw [← hO]; rfl
      simpa using e
  have hGX : ∀ sp, gx' sp = if c = true then gx sp else 0 := by
    cases c with
    | true =>
      simp only [if_true] at hKO
      subst hKO
      have e : ok gx' = ok gx := hgx'.symm.trans hgx
      simp only [ok.injEq] at e
      intro sp; rw [e]; simp
    | false =>
      simp only [Bool.false_eq_true, if_false] at hKO
      rw [hKO, zero_mul, neg_zero] at hgx'
      intro sp; rw [gasRates_zero hgx']; simp
  refine ⟨m', hrun, ?_, ?_, hN.2.2, hC⟩
  · rw [hsoot]
    refine List.map_congr_left fun k _ => ?_
    rw [hN.1 k, hKG, hKO]
    cases b <;> cases c <;> simp <;> ring
  · intro sp
    have : m'.sources.gas sp = gn' sp + gg' sp + gx' sp := by rw [hm']
    rw [this, hN.2.1 sp, hGG sp, hGX sp]

/-! ## The five models that complete -/

noncomputable def monoRun (s : State) (m : Model) : Res Model := do let r ← monoSources m s; ok r.1
noncomputable def sectRun (glob : Option ℝ) (s : State) (m : Model) : Res Model := do let r ← sectSources m glob s; ok r.1
noncomputable def lognRun (s : State) (m : Model) : Res Model := do let r ← lognSources m s; ok r.1
noncomputable def qmomRun (eig : Eig) (s : State) (m : Model) : Res Model := do let r ← qmomSources eig m s; ok r.1
noncomputable def momicRun (s : State) (m : Model) : Res Model := do let r ← momicSources m s; ok r.1

/-- C10 for MONO. -/
theorem C10_mono (m : Model) (s : State) (M0 M1 w a : ℝ) (h : MonoReady m s M0 M1 w a) (h2 : m.nsoot = 2) :
    Superposed m (monoRun s) := by
  have hsel : ∀ x y z, MonoReady (m.sel x y z) s M0 M1 w a := fun x y z =>
    ⟨h.toReady.sel x y z, h.psd, h.notar, by simp [Model.sel, Sources.new, h2], h.soot, h.wts, h.absc⟩
  have hM1 : 0 ≤ M1 := h.gas.acc.sootVar_nonneg M1 (by simp [h.soot])
  have hM0 : 0 ≤ M0 := h.gas.acc.sootVar_nonneg M0 (by simp [h.soot])
  obtain ⟨_, _, _, _, _, _, A, _, _, _, _, _, _, hA, _⟩ := mono_eval h
  refine superposed_of (s₁ := { s with wts := [monoW M0 w], absc := [monoA M0 M1 a] }) (ib := ibetaNodes m.coag) (A := A)
    (nPart := fun J n c k => if k = 0 then J else J * c * gasMW .C / Na +
          (if n.mech = .PAH then m.coag.val s n.dimer.mDimer (monoA M0 M1 a) * monoW M0 w * n.dimer.nDimer * n.dimer.mDimer else 0))
    (gc := fun k => if k = 0 then 0 else A) (oc := fun k => if k = 0 then 0 else -A)
    (base := fun k => if k = 0 then -(m.coag.val s (monoA M0 M1 a) (monoA M0 M1 a) * monoW M0 w ^ 2 / 2) else 0) ?_ ?_ ?_
  · intro x y z
    obtain ⟨m', s', J, n', kG, kO, A', e, hJ, hs', hc', hG, hO, hA', _, _, _, _, hF, hS⟩ := mono_eval (hsel x y z)
    have hAA : A' = A := isArea_unique hM0 hM1 hA' hA
    subst hAA
    refine ⟨m', s', J, n', kG, kO, ibetaNodes m.coag, by simp only [monoRun, e, ok_bind], fun _ => rfl, hJ, hG, hO, ?_, ?_⟩
    · rw [← neg_mul, ← mul_div_assoc, ← mul_assoc]; exact hF
    · rw [hS, h2]
      have hv : ∀ u v, (m.sel x y z).coag.val s' u v = m.coag.val s u v := by intro u v; rw [hs']; rfl
      simp only [hv, List.range_succ, List.range_zero, List.nil_append, List.map_append, List.map_cons, List.map_nil,
        List.cons_append, if_true, one_ne_zero, if_false]
      congr 1
      · ring
      · congr 1; ring
  · intro n c k hn
    simp [hn]
  · intro hc k
    have : ∀ u v, m.coag.val s u v = 0 := by intro u v; simp [Coag.val, hc]
    simp [this]

theorem upVal_smul (n : ℕ) (bins : List ℝ) (x : ℝ) (c : ℕ → ℝ) (k : ℕ) :
    upVal n bins (fun k => x * c k) k = x * upVal n bins c k := by
  simp only [upVal, fIn, fUp]
  split_ifs <;> ring

theorem downVal_smul (n : ℕ) (bins : List ℝ) (x : ℝ) (c : ℕ → ℝ) (k : ℕ) :
    downVal n bins (fun k => x * c k) k = x * downVal n bins c k := by
  simp only [downVal, fDown]
  split_ifs <;> ring

theorem coagLoop_cMin (n : ℕ) (bins : List ℝ) (c : Coag) (s : State) (x f : ℝ) (l : List (ℕ × ℕ)) (S : ℕ → ℝ) :
    coagLoop n bins c { s with cMin := x } f l S = coagLoop n bins c s f l S := by
  induction l generalizing S with
  | nil => rfl
  | cons p t ih =>
    simp only [coagLoop, ih]
    rfl

theorem sectCoag_cMin (m : Model) (glob : Option ℝ) (s : State) (x : ℝ) :
    sectCoag m glob { s with cMin := x } = sectCoag m glob s := by
  simp only [sectCoag, coagLoop_cMin]

/-- C10 for SECT. -/
theorem C10_sect (m : Model) (s : State) (glob : Option ℝ) (h : SectReady m s) (hg : GlobOk m glob) :
    Superposed m (sectRun glob s) := by
  have hsel : ∀ x y z, SectReady (m.sel x y z) s := fun x y z => ⟨h.toReady.sel x y z, h.psd, h.bins⟩
  obtain ⟨C, glob', hC, _⟩ := sectCoag_ok h hg
  refine superposed_of (s₁ := s) (ib := sectIbeta m) (A := ∑ k ∈ Finset.range m.nsoot, binArea m s k)
    (nPart := fun J n c k => (if k = 0 then J * (c * gasMW .C / Na) / m.mBins.getD 0 0 else 0) +
      (if n.mech = .PAH then upVal m.nsoot m.mBins (fun k => binBeta m s n.dimer.mDimer k * n.dimer.nDimer * n.dimer.mDimer) k else 0))
    (gc := upVal m.nsoot m.mBins (binArea m s)) (oc := downVal m.nsoot m.mBins (binArea m s)) (base := C) ?_ ?_ ?_
  · intro x y z
    obtain ⟨m', s', glob2, J, n', kG, kO, C', e, hJ, hs', hc', hG, hO, hC', _, _, _, _, hF, hS⟩ := sect_eval (hsel x y z) (glob := glob) hg
    have hCC : C' = C := by
      have e1 : sectCoag (m.sel x y z) glob s' = sectCoag m glob s := by rw [hs', sectCoag_cMin]; rfl
      have e2 : ok (C', glob2) = ok (C, glob') := by rw [← hC', e1, hC]
      simp only [ok.injEq, Prod.mk.injEq] at e2
      exact e2.1
    subst hCC
    refine ⟨m', s', J, n', kG, kO, sectIbeta m, by simp only [sectRun, e, ok_bind], fun _ => rfl, hJ, hG, hO, hF, ?_⟩
    rw [hS]
    refine List.map_congr_left fun k _ => ?_
    rw [upVal_smul, downVal_smul]
    have hb : binBeta (m.sel x y z) s' = binBeta m s := by rw [hs']; rfl
    rw [hb]
    show (if k = 0 then J * (s'.cMin * gasMW .C / Na) / m.mBins.getD 0 0 else 0) + kG * upVal m.nsoot m.mBins (binArea m s) k +
      (if n'.mech = .PAH then upVal m.nsoot m.mBins (fun k => binBeta m s n'.dimer.mDimer k * n'.dimer.nDimer * n'.dimer.mDimer) k else 0) +
      kO * downVal m.nsoot m.mBins (binArea m s) k + _ = _
    ring
  · intro n c k hn
    simp [hn]
  · intro hc k
    simp only [sectCoag, hc, ne_eq, not_true, if_false, ok.injEq, Prod.mk.injEq] at hC
    rw [← hC.1]

/-- C10 for LOGN. -/
theorem C10_logn (m : Model) (s : State) (M0 M1 M2 : ℝ) (h : LognReady m s M0 M1 M2) (hP : LognPah m s M0 M1) :
    Superposed m (lognRun s) := by
  have hsel : ∀ x y z, LognReady (m.sel x y z) s M0 M1 M2 := fun x y z =>
    ⟨h.toReady.sel x y z, h.psd, h.nsoot, h.notar, h.kernel, h.soot⟩
  have hPs : ∀ x y z, LognPah (m.sel x y z) s M0 M1 := fun x y z hp => hP (Model.sel_nucl (by simp) hp)
  refine superposed_of (s₁ := s) (ib := lognIbeta m) (A := lognArea M0 M1 M2 (4 / 6))
    (nPart := fun J n c k =>
      if k = 0 then J
      else if k = 1 then J * (c * gasMW .C / Na) +
        (if n.mech = .PAH then n.dimer.mDimer * n.dimer.nDimer * lognBeta m s M0 M1 M2 n.dimer.mDimer else 0)
      else J * (c * gasMW .C / Na) ^ 2 + (if n.mech = .PAH then n.dimer.mDimer * n.dimer.nDimer *
        hmean (lognFm2 m.coag s (lognM M0 M1 M2) n.dimer.mDimer) (lognC2 s (lognM M0 M1 M2) n.dimer.mDimer) else 0))
    (gc := fun k => if k = 0 then 0 else if k = 1 then lognArea M0 M1 M2 (4 / 6) else 2 * lognArea M0 M1 M2 (10 / 6))
    (oc := fun k => if k = 0 then 0 else if k = 1 then -lognArea M0 M1 M2 (4 / 6) else -(2 * lognArea M0 M1 M2 (10 / 6)))
    (base := fun k => if k = 0 then (lognCoagVal m.coag s (lognM M0 M1 M2)).1 else if k = 1 then 0 else
      (lognCoagVal m.coag s (lognM M0 M1 M2)).2) ?_ ?_ ?_
  · intro x y z
    obtain ⟨m', s', J, n', kG, kO, e, hJ, hs', hc', hG, hO, _, _, _, _, _, hF, hS⟩ := logn_eval (hsel x y z) (hPs x y z)
    have hmech := (Nucl.rate_inv hJ).1
    refine ⟨m', s', J, n', kG, kO, lognIbeta (m.sel x y z), by simp only [lognRun, e, ok_bind], ?_, hJ, hG, hO, hF, ?_⟩
    · rintro rfl; rfl
    · rw [hS, h.nsoot]
      simp only [← hmech, List.range_succ, List.range_zero, List.nil_append, List.map_append, List.map_cons, List.map_nil,
        List.cons_append, if_true, one_ne_zero, if_false, OfNat.ofNat_ne_zero, OfNat.ofNat_ne_one]
      have hl : lognBeta (m.sel x y z) s M0 M1 M2 = lognBeta m s M0 M1 M2 := rfl
      rw [hl]
      show [J + (lognCoagVal m.coag s (lognM M0 M1 M2)).1, _ , _ + _ + _ + (lognCoagVal m.coag s (lognM M0 M1 M2)).2] = _
      congr 1
      · ring
      · congr 1
        · ring
        · congr 1
          show _ + (if n'.mech = .PAH then n'.dimer.mDimer * n'.dimer.nDimer * hmean (lognFm2 m.coag s (lognM M0 M1 M2) n'.dimer.mDimer)
            (lognC2 s (lognM M0 M1 M2) n'.dimer.mDimer) else 0) + _ = _
          ring
  · intro n c k hn
    simp [hn]
  · intro hc k
    rcases h.kernel with hk | hk | hk <;> rw [hk] at hc <;> cases hc

/-- C10 for QMOM. -/
theorem C10_qmom (eig : Eig) (m : Model) (s : State) (h : QmomReady m s) : Superposed m (qmomRun eig s) := by
  have hsel : ∀ x y z, QmomReady (m.sel x y z) s := fun x y z =>
    ⟨h.toReady.sel x y z, h.psd, h.even, h.two, h.notar, h.len, h.wlen, h.alen, h.table⟩
  obtain ⟨w, a, e0, _⟩ := h.nodes eig
  refine superposed_of (s₁ := { s with wts := w, absc := a }) (ib := ibetaNodes m.coag) (A := acoef * nodeMr w a twothird)
    (nPart := fun J n c k => J * (c * gasMW .C / Na) ^ k +
      (if n.mech = .PAH then condSum (m.coag.val s) w a n.dimer.mDimer n.dimer.nDimer k else 0))
    (gc := fun k => acoef * k * nodeMr w a (k - onethird)) (oc := fun k => -(acoef * k * nodeMr w a (k - onethird)))
    (base := collisionSum (m.coag.val s) w a) ?_ ?_ ?_
  · intro x y z
    obtain ⟨w', a', m', s', J, n', kG, kO, e1, _, _, _, _, e, hJ, hs', hc', hG, hO, _, _, _, _, _, _, _, hF, hS⟩ := qmom_eval eig (hsel x y z)
    have hwa : ok (w', a') = ok (w, a) := e1.symm.trans e0
    simp only [ok.injEq, Prod.mk.injEq] at hwa
    obtain ⟨rfl, rfl⟩ := hwa
    refine ⟨m', s', J, n', kG, kO, ibetaNodes m.coag, by simp only [qmomRun, e, ok_bind], fun _ => rfl, hJ, hG, hO, hF, ?_⟩
    rw [hS]
    refine List.map_congr_left fun k _ => ?_
    show J * _ ^ k + (if n'.mech = .PAH then condSum (m.coag.val s) w' a' _ _ k else 0) + _ + collisionSum (m.coag.val s) w' a' k = _
    ring
  · intro n c k hn
    simp [hn]
  · intro hc k
    have : ∀ u v, m.coag.val s u v = 0 := by intro u v; simp [Coag.val, hc]
    simp [collisionSum, this]

/-- C10 for MOMIC. -/
theorem C10_momic (m : Model) (s : State) (h : MomicReady m s) (hf : MomicFin m s) : Superposed m (momicRun s) := by
  have hsel : ∀ x y z, MomicReady (m.sel x y z) s := fun x y z =>
    ⟨h.toReady.sel x y z, h.psd, h.three, h.seven, h.notar, h.kernel, h.len⟩
  have hfs : ∀ x y z, MomicFin (m.sel x y z) s := fun x y z =>
    ⟨fun hp => hf.pah (Model.sel_nucl (by simp) hp), hf.coag⟩
  obtain ⟨T, P, Q, hT, hP, hQ, ht, hn, hF⟩ := momicSetup h
  refine superposed_of (s₁ := s) (ib := momicIbeta m P Q) (A := acoef * mrVal s.sootVar m.nsoot twothird)
    (nPart := fun J n c r => J * (c * gasMW .C / Na) ^ r + (if n.mech = .PAH then
      r * (n.dimer.mDimer * n.dimer.nDimer * momicBeta m.coag s s.sootVar m.nsoot n.dimer.mDimer r) else 0))
    (gc := fun r => acoef * r * mrVal s.sootVar m.nsoot (r - onethird)) (oc := fun r => -(acoef * r * mrVal s.sootVar m.nsoot (r - onethird)))
    (base := fun r => if 0 < s.sootVar.getD 0 0 then momicCoagV m.coag s s.sootVar m.nsoot r else 0) ?_ ?_ ?_
  · intro x y z
    obtain ⟨m', s', J, n', kG, kO, e, hJ, hs', hc', hG, hO, _, _, _, _, _, _, _, hF', hS⟩ :=
      momic_eval_at (hsel x y z) (hfs x y z) hT hP hQ ht hn hF
    have hmech := (Nucl.rate_inv hJ).1
    refine ⟨m', s', J, n', kG, kO, momicIbeta (m.sel x y z) P Q, by simp only [momicRun, e, ok_bind], ?_, hJ, hG, hO, hF', ?_⟩
    · rintro rfl; rfl
    · rw [hS]
      refine List.map_congr_left fun k _ => ?_
      simp only [momicSoot, ← hmech]
      show J * _ ^ k + (if n'.mech = .PAH then (k : ℝ) * (_ * _ * momicBeta m.coag s s.sootVar m.nsoot _ k) else 0) +
        (kG - kO) * (acoef * k * mrVal s.sootVar m.nsoot (k - onethird)) +
        (if 0 < s.sootVar.getD 0 0 then momicCoagV m.coag s s.sootVar m.nsoot k else 0) = _
      ring
  · intro n c k hn
    simp [hn]
  · intro hc r
    have : momicCoagV m.coag s s.sootVar m.nsoot r = 0 := by
      simp only [momicCoagV, hc]; split_ifs <;> rfl
    rw [this]; split_ifs <;> rfl

/-- Everything `NONE`: all reported sources are zero. -/
theorem Superposed.all_none {m : Model} {run : Model → Res Model} (h : Superposed m run) (hc : m.coag.mech = .NONE) :
    ∃ m', run (m.sel false false false) = ok m' ∧ (∀ x ∈ m'.sources.soot, x = 0) ∧ (∀ sp, m'.sources.gas sp = 0) ∧
      (∀ sp, m'.sources.pah sp = 0) := by
  obtain ⟨base, dn, dg, dx, gn, gg, gx, p, hb, h⟩ := h
  obtain ⟨m', e, hs, hg, hp, _⟩ := h false false false
  refine ⟨m', e, ?_, fun sp => by simp [hg], fun sp => by simp [hp]⟩
  intro x hx
  rw [hs, List.mem_map] at hx
  obtain ⟨k, _, rfl⟩ := hx
  simp [hb hc]

/-! Non-vacuity: each model with every mechanism active, PAH condensation included. -/

theorem exSuperMono (c : CoagMech) : Superposed (exModel .MONO 2 .PAH .HACA .NSC_NEOH c) (monoRun (exSt [1E15, 1E-6] false)) := by
  have hv : ∀ x ∈ ([1E15, 1E-6] : List ℝ), 0 ≤ x := by norm_num
  have hr := exReady .MONO 2 .PAH (by simp) (by simp) .HACA .NSC_NEOH c [1E15, 1E-6] false rfl (by simp) hv
  exact C10_mono _ _ 1E15 1E-6 0 0 { hr with
    psd := rfl, notar := rfl, len := rfl, soot := exSt_sootVar _ hv, wts := by simp [exSt_wts], absc := by simp [exSt_absc] } rfl

example : Superposed (exModel .MONO 2 .PAH .HACA .NSC_NEOH .FUCHS) (monoRun (exSt [1E15, 1E-6] false)) := exSuperMono _

example : ∃ m', monoRun (exSt [1E15, 1E-6] false) ((exModel .MONO 2 .PAH .HACA .NSC_NEOH .NONE).sel false false false) = ok m' ∧
    ∀ x ∈ m'.sources.soot, x = 0 := by
  obtain ⟨m', h1, h2, _⟩ := (exSuperMono .NONE).all_none rfl
  exact ⟨m', h1, h2⟩

example : Superposed (exModel .SECT 4 .PAH .HACA .NSC_NEOH .FUCHS) (sectRun none (exSt [1E15, 1E14, 1E13, 0] false)) :=
  C10_sect _ _ none
    (exSectReady 4 .PAH (by simp) (by simp) .HACA .NSC_NEOH .FUCHS [1E15, 1E14, 1E13, 0] false rfl (by norm_num) (by norm_num))
    (exGlobOk 4 .PAH .HACA .NSC_NEOH .FUCHS (by norm_num) (by norm_num))

example : Superposed (exModel .LOGN 3 .PAH .HACA .NSC_NEOH .HM) (lognRun (exSt [1E15, 1E-6, 2E-27] false)) :=
  C10_logn _ _ 1E15 1E-6 2E-27 (exLognReady .PAH (by simp) (by simp) .HACA .NSC_NEOH .HM (by simp) (by norm_num) (by norm_num)
    (by norm_num) false) fun _ => ⟨by norm_num, by norm_num, exSt_pah _⟩

example (eig : Eig) : Superposed (exModel .QMOM 4 .PAH .HACA .NSC_NEOH .FUCHS) (qmomRun eig (exSt [1E15, 1E-6, 2E-27, 1E-47] false)) :=
  C10_qmom eig _ _ (exQmomReady 2 .PAH (by simp) (by simp) .HACA .NSC_NEOH .FUCHS [1E15, 1E-6, 2E-27, 1E-47] false (by simp)
    rfl (by intro x hx; simp at hx; rcases hx with h|h|h|h <;> subst h <;> norm_num) (by simp))

example : Superposed (exModel .MOMIC 4 .PAH .HACA .NSC_NEOH .HM) (momicRun (exSt exMom false)) :=
  C10_momic _ _ (exMomicReady' .PAH (by simp) (by simp) .HACA .NSC_NEOH .HM (by simp)) (exMomicFin _ _ _ _)

/-! ## The source of C is zero for every completing call of every model, whatever the inputs, tar mechanism and history -/

theorem C10_gasC_mono (m m' : Model) (s s' : State) (h : monoSources m s = ok (m', s')) : m'.sources.gas .C = 0 := by
  simp only [monoSources, bind_eq_ok] at h
  obtain ⟨⟨M0, M1, s1⟩, _, h⟩ := h
  cases ht : m.tar <;> simp only [ht, bind_eq_ok] at h
  · obtain ⟨t, _, v, _, v', _, m1, hF, h⟩ := h
    cases h
    exact (Model.finish_gasC hF).1
  · obtain ⟨_, _, t, _, _, _, _, _, _, _, v, _, v', _, w, _, m1, hF, h⟩ := h
    cases h
    exact (Model.finish_gasC hF).1
  · obtain ⟨_, _, t, _, _, _, _, _, _, _, _, _, _, _, v, _, v', _, w, _, m1, hF, h⟩ := h
    cases h
    exact (Model.finish_gasC hF).1

theorem C10_gasC_logn (m m' : Model) (s s' : State) (h : lognSources m s = ok (m', s')) : m'.sources.gas .C = 0 := by
  obtain ⟨t, _, _, _, hF⟩ := lognSources_inv h
  exact (Model.finish_gasC hF).1

theorem momFinish_gasC {m m' : Model} {t : MomTerms} {s' : State} (h : momFinish m t = ok (m', s')) : m'.sources.gas .C = 0 := by
  simp only [momFinish, bind_eq_ok] at h
  obtain ⟨m1, hF, h⟩ := h
  cases h
  exact (Model.finish_gasC hF).1

theorem C10_gasC_qmom (eig : Eig) (m m' : Model) (s s' : State) (h : qmomSources eig m s = ok (m', s')) : m'.sources.gas .C = 0 := by
  obtain ⟨w, a, t, _, _, hF⟩ := qmomSources_inv h
  exact momFinish_gasC hF

theorem C10_gasC_momic (m m' : Model) (s s' : State) (h : momicSources m s = ok (m', s')) : m'.sources.gas .C = 0 := by
  obtain ⟨T, P, Q, t, _, _, _, _, hF⟩ := momicSources_inv h
  exact momFinish_gasC hF

/-- HMOM, for any value that the out-of-bounds read may deliver. -/
theorem C10_gasC_hmom (read : Option ℝ) (m m' : Model) (s s' : State) (h : hmomSourcesAt read m s = ok (m', s')) :
    m'.sources.gas .C = 0 := by
  simp only [hmomSourcesAt, bind_eq_ok] at h
  obtain ⟨N0, _, M, _, T, _, P, _, Q, _, t, _, hF⟩ := h
  exact momFinish_gasC hF

theorem C10_gasC_sect (m m' : Model) (glob glob' : Option ℝ) (s s' : State) (h : sectSources m glob s = ok (m', s', glob')) :
    m'.sources.gas .C = 0 := by
  simp only [sectSources, bind_eq_ok] at h
  obtain ⟨t, _, mN, _, mG, _, mO, _, m1, hF, h⟩ := h
  cases h
  exact (Model.finish_gasC hF).1

end Soot
