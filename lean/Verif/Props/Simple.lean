import Verif.Simple
import Verif.Props.BurnerTar
import Verif.Props.CIface
import Verif.Props.Own
import Verif.Props.Compose
import Verif.Props.Agree

/-!
# Property C85: the small example programs

What `simple_example.cc`, `simple_example_HMOM.cc` and `simple_example_fort.f90` do, for all inputs of the same shape.
-/

namespace Soot

open Res Real
open scoped Classical

/-- Mechanisms one can put into the small examples: no PAH or tar nucleation, no HACA. -/
structure SimpleMechs (n : NuclMech) (g : GrowMech) (o : OxidMech) : Prop where
  nucl : n ∈ [NuclMech.NONE, .LL, .LIN, .LINA1, .MB, .FAIR]
  grow : g ≠ .HACA
  oxid : o ≠ .HACA

/-- Inputs of the shape used in the small examples: nine mass fractions, six PAH, `nsoot` soot variables (any sign; the code sets negative ones to
zero). -/
structure SimpleOk (nsoot : ℕ) (i : SimpleIn) : Prop where
  T : 0 < i.T
  P : 0 < i.P
  rho : 0 < i.rhoGas
  mu : 0 < i.muGas
  ylen : i.yGas.length = 9
  y : ∀ x ∈ i.yGas, 0 ≤ x ∧ x ≤ 1
  plen : i.yPah.length = 6
  p : ∀ x ∈ i.yPah, 0 ≤ x ∧ x ≤ 1
  psum : i.yPah.sum ≤ 1
  M : i.Msoot.length = nsoot

theorem simpleIn_ok : SimpleOk 2 simpleIn where
  T := by norm_num [simpleIn]
  P := by norm_num [simpleIn]
  rho := by norm_num [simpleIn]
  mu := by norm_num [simpleIn]
  ylen := rfl
  y := by
    intro x hx
    simp only [simpleIn, List.mem_cons, List.not_mem_nil, or_false] at hx
    rcases hx with rfl | rfl | rfl | rfl | rfl | rfl | rfl | rfl | rfl <;> norm_num
  plen := rfl
  p := by
    intro x hx
    simp [simpleIn] at hx
    subst hx; norm_num
  psum := by norm_num [simpleIn]
  M := rfl

theorem simpleInHmom_ok : SimpleOk 4 simpleInHmom :=
  { simpleIn_ok with M := rfl }

namespace Simple

/-- The model object of the examples, with room for `N` tar variables and no tar mechanism. -/
noncomputable def model (psd : PsdMech) (nsoot : ℕ) (n : NuclMech) (g : GrowMech) (o : OxidMech) (c : CoagMech) (N : ℕ) : Model :=
  { exModel psd nsoot n g o c with coag := (Coag.new c).setFM (9.0 / 2.0 / 2.2), Ntar := N, sources := Sources.new nsoot N }

section
variable {psd : PsdMech} {nsoot : ℕ} {n : NuclMech} {g : GrowMech} {o : OxidMech} {c : CoagMech} {N : ℕ}

theorem model_wf : (model psd nsoot n g o c N).WF :=
  ⟨Nucl.new_wf n, rfl, rfl, fun _ => rfl, fun _ => rfl, by simp [model, Sources.new], by simp [model, Sources.new],
    by simp [model, exModel, Sources.new]⟩

/-- The mass fractions, extended to all eleven species. -/
def pad (y : List ℝ) : List ℝ := y ++ List.replicate (nGas - y.length) 0

theorem sameAt_append (h : SimpleMechs n g o) {y : List ℝ} (hy : 9 ≤ y.length) (l : List ℝ) : SameAt (reads n g o .NONE) y (y ++ l) := by
  intro sp hs
  refine (List.getElem?_append_left ?_).symm
  have hn := h.nucl
  simp only [List.mem_cons, List.not_mem_nil, or_false] at hn
  have hg := h.grow
  have ho := h.oxid
  refine lt_of_lt_of_le ?_ hy
  simp only [reads, List.mem_append] at hs
  rcases hs with ((hs | hs) | hs) | hs
  · rcases hn with rfl | rfl | rfl | rfl | rfl | rfl <;> simp [nuclReads] at hs <;> subst hs <;> decide
  · cases g <;> simp [growReads] at hs hg <;> subst hs <;> decide
  · cases o <;> simp [oxidReads] at hs ho <;> (try rcases hs with rfl | rfl) <;> decide
  · simp [tarReads] at hs

theorem sameAt_pad (h : SimpleMechs n g o) {y : List ℝ} (hy : 9 ≤ y.length) : SameAt (reads n g o .NONE) y (pad y) := sameAt_append h hy _

/-- What a `setState` call must look like for the evaluation below. -/
structure Inp (nsoot : ℕ) (s : State) (a : SetArgs) : Prop where
  adm : Admissible s.nsoot.toNat s.Ntar.toNat s.yPah.length a
  soot : s.nsoot.toNat ≤ a.sootVar.length
  tar : s.Ntar.toNat ≤ a.tarVar.length
  len : a.sootVar.length = nsoot
  pah : a.yPah.length = nPah
  ylo : 9 ≤ a.yGas.length
  yhi : a.yGas.length ≤ nGas
  y : ∀ x ∈ a.yGas, 0 ≤ x
  ns : a.nsoot = nsoot

variable {s : State} {a : SetArgs}

theorem Inp.set (h : Inp nsoot s a) : setState s a = (stateAfter s a, ok ()) := C01_setState_accepts s a h.soot h.tar h.adm

theorem pad_range (h : Inp nsoot s a) : ∀ x ∈ pad a.yGas, 0 ≤ x ∧ x ≤ 1 := by
  intro x hx
  rcases List.mem_append.1 hx with hx | hx
  · exact ⟨h.y x hx, h.adm.gas x hx⟩
  · rw [List.eq_of_mem_replicate hx]; norm_num

theorem Inp.pad (h : Inp nsoot s a) : Inp nsoot s { a with yGas := pad a.yGas } where
  adm := { h.adm with gas := fun x hx => (pad_range h x hx).2 }
  soot := h.soot
  tar := h.tar
  len := h.len
  pah := h.pah
  ylo := by simp [Simple.pad]; have := h.ylo; omega
  yhi := by simp [Simple.pad]; have := h.yhi; omega
  y := fun x hx => (pad_range h x hx).1
  ns := h.ns

theorem ready (hm : SimpleMechs n g o) (h2 : 2 ≤ nsoot) (h : Inp nsoot s a) :
    Ready (model psd nsoot n g o c N) (stateAfter s { a with yGas := pad a.yGas }) := by
  have hs := h.pad.set
  have hn := hm.nucl
  have hy := h.yhi
  have hl := h.len
  refine ⟨model_wf, by norm_num [model, Coag.setFM], ⟨⟨s, _, by rw [hs], by rw [hs]⟩, ?_, fun x hx => (pad_range h x hx).1⟩, h.pah, ⟨?_, ?_, ?_⟩, ?_, ?_, ?_⟩
  · show (pad a.yGas).length = nGas
    simp [pad]; omega
  · show 2 ≤ (a.sootVar.map _).length
    rw [List.length_map]; omega
  · intro hp
    have hp : psd = .SECT := hp
    refine ⟨?_, ?_, h.ns⟩
    · show nsoot ≤ (a.sootVar.map _).length
      rw [List.length_map]; omega
    · simp [Model.ctx, model, exModel, hp, binMasses]
  · intro x hx
    simp only [Model.ctx, model, exModel] at hx
    split_ifs at hx
    · simp only [binMasses, List.mem_map] at hx
      obtain ⟨k, _, rfl⟩ := hx
      have := gasMW_pos .C; have := Na_pos
      positivity
    · simp at hx
  · rintro (hx | hx)
    · exact absurd hx hm.grow
    · exact absurd hx hm.oxid
  · rintro (hx | hx) <;> (have hx : n = _ := hx; subst hx; simp at hn)
  · intro hx; have hx : n = _ := hx; subst hx; simp at hn

/-- The evaluation with the short gas vector is the one with the extended vector. -/
theorem eval_short (eig : Eig) (hm : SimpleMechs n g o) (h : Inp nsoot s a) :
    sourceTerms eig (model psd nsoot n g o c N) none (stateAfter s a) =
      Res.map' (fun r => (r.1, { r.2.1 with yGas := a.yGas }, r.2.2))
        (sourceTerms eig (model psd nsoot n g o c N) none (stateAfter s { a with yGas := pad a.yGas })) :=
  C73_reads eig (model psd nsoot n g o c N) none (stateAfter s { a with yGas := pad a.yGas }) a.yGas (sameAt_pad hm h.ylo)

theorem monoReady (hm : SimpleMechs n g o) (h : Inp 2 s a) {w b : ℝ} (hw : s.wts = [w]) (hb : s.absc = [b]) {M0 M1 : ℝ}
    (hV : a.sootVar = [M0, M1]) :
    MonoReady (model .MONO 2 n g o c N) (stateAfter s { a with yGas := pad a.yGas }) (max M0 0) (max M1 0) w b :=
  ⟨ready hm le_rfl h, rfl, rfl, by simp [model, Sources.new], by simp [stateAfter, hV], hw, hb⟩

/-- One evaluation with the monodisperse model. -/
theorem mono (eig : Eig) (hm : SimpleMechs n g o) (h : Inp 2 s a) (hw : s.wts.length = 1) (hb : s.absc.length = 1) :
    ∃ m' s', sourceTerms eig (model .MONO 2 n g o c N) none (stateAfter s a) = ok (m', s', none) ∧
      monoSources (model .MONO 2 n g o c N) (stateAfter s { a with yGas := pad a.yGas }) = ok (m', { s' with yGas := pad a.yGas }) ∧
      ∃ p q, m'.sources.soot = [p, q] ∧ (∑ sp, m'.sources.gas sp) + q = 0 ∧ m'.sources.gas .C = 0 := by
  have hr := ready (psd := .MONO) (c := c) (N := N) hm le_rfl h
  obtain ⟨w, hw'⟩ := List.length_eq_one_iff.1 hw
  obtain ⟨b, hb'⟩ := List.length_eq_one_iff.1 hb
  obtain ⟨M0, M1, hV⟩ := List.length_eq_two.1 (show (stateAfter s { a with yGas := pad a.yGas }).sootVar.length = 2 by simp [stateAfter, h.len])
  obtain ⟨m', s', _, _, _, _, _, e, e1, e2, _, _, _, _, _, _, _, _, _, e3⟩ := mono_eval (m := model .MONO 2 n g o c N) (M0 := M0) (M1 := M1)
    (w := w) (a := b) ⟨hr, rfl, rfl, by simp [model, Sources.new], hV, hw', hb'⟩
  have hb := C11_mono _ _ _ _ model_wf (show n ≠ .PAH by rintro rfl; simpa using hm.nucl) rfl e
  obtain ⟨q, q1, q2⟩ := hb
  refine ⟨m', { s' with yGas := a.yGas }, ?_, ?_, _, _, e3, ?_, C10_gasC_mono _ _ _ _ e⟩
  · rw [eval_short eig hm h]
    simp only [sourceTerms, model, exModel]
    have e' := e
    simp only [model, exModel] at e'
    rw [e']; rfl
  · rw [e]
    rw [e2]; rfl
  · rw [e3] at q1
    simp only [List.getElem?_cons_succ, List.getElem?_cons_zero, Option.some.injEq] at q1
    rw [← q1] at q2; exact q2

theorem inp {i : SimpleIn} (h : SimpleOk nsoot i) : Inp nsoot (State.mk' nsoot 0) (simpleArgs nsoot i) where
  adm := ⟨h.T, h.P, h.rho, h.mu, by norm_num [simpleArgs], fun k hk hl => by
      have := h.M; simp [State.mk', simpleArgs] at hk hl; omega, fun k hk _ => by simp [simpleArgs] at hk, fun x hx => (h.y x hx).2,
    by simp [State.mk', simpleArgs, h.plen, nPah], h.p, h.psum⟩
  soot := by simp [State.mk', simpleArgs, h.M]
  tar := by simp [State.mk']
  len := h.M
  pah := h.plen
  ylo := h.ylen.ge
  yhi := by simp [simpleArgs, h.ylen, nGas]
  y := fun x hx => (h.y x hx).1
  ns := rfl

theorem new_ok (h : ctorCheck psd nsoot c .NONE = ok ()) (N : ℕ) :
    (Model.newPtr psd nsoot (Nucl.new n) (Grow.new g) (Oxid.new o) (Coag.new c) N .NONE >>= fun m =>
      (ok { m with coag := m.coag.setFM (9.0 / 2.0 / 2.2) } : Res Model)) = ok (model psd nsoot n g o c N) := by
  rw [Model.newPtr, show (Coag.new c).mech = c from rfl, h]; rfl

/-- `t` differs from `s` only in what the examples without tar never look at. -/
def Idle (s t : State) : Prop :=
  t = { s with Ntar := t.Ntar, tarVar := t.tarVar, yBio := t.yBio, mtar := t.mtar, ytar := t.ytar, OC := t.OC, HC := t.HC, V := t.V }

theorem idle_nucl {s t : State} (h : Idle s t) (hn : n ∈ [NuclMech.NONE, .LL, .LIN, .LINA1, .MB, .FAIR]) {ib ib' : State → ℝ → Res ℝ} {J J' : ℝ}
    {k k' : Nucl} {s' t' : State} (e : (Nucl.new n).rate ib s = ok (J, k, s')) (e' : (Nucl.new n).rate ib' t = ok (J', k', t')) :
    J' = J ∧ k' = k ∧ s' = s ∧ t' = t := by
  have hp : (Nucl.new n).mech ≠ .PAH := by
    show n ≠ .PAH
    rintro rfl; simp at hn
  obtain ⟨f1, f2⟩ := (Nucl.rate_inv e).2.1 hp
  obtain ⟨f3, f4⟩ := (Nucl.rate_inv e').2.1 hp
  refine ⟨?_, f3.trans f1.symm, f2, f4⟩
  have key : map' (·.1) ((Nucl.new n).rate ib' t) = map' (·.1) ((Nucl.new n).rate ib s) := by
    rw [h]
    simp only [List.mem_cons, List.not_mem_nil, or_false] at hn
    rcases hn with rfl | rfl | rfl | rfl | rfl | rfl <;> simp only [Nucl.rate, Nucl.new, Pure.map'_bind, map'_ok] <;> rfl
  rw [e, e'] at key
  simpa using key

theorem idle_grow {s t : State} (h : Idle s t) (q : Grow) {x y : Ctx} (hx : x.psd ≠ .SECT) (hy : y.psd ≠ .SECT) : q.rate y t = q.rate x s := by
  rw [h]
  unfold Grow.rate moments01 hacaMoments
  simp only [if_neg hx, if_neg hy]
  rfl

theorem idle_oxid {s t : State} (h : Idle s t) (q : Oxid) {x y : Ctx} (hx : x.psd ≠ .SECT) (hy : y.psd ≠ .SECT) : q.rate y t = q.rate x s := by
  rw [h]
  unfold Oxid.rate
  rcases he : q.cls <;> simp only [moments01, if_neg hx, if_neg hy] <;> rfl

/-- Two states that differ only there have the same sources. -/
theorem mono_idle (hn : n ∈ [NuclMech.NONE, .LL, .LIN, .LINA1, .MB, .FAIR]) {N' : ℕ} {s t s' t' : State} {m' k' : Model} {M0 M1 w b : ℝ}
    (h : MonoReady (model .MONO 2 n g o c N) s M0 M1 w b) (h' : MonoReady (model .MONO 2 n g o c N') t M0 M1 w b) (hi : Idle s t)
    (e : monoSources (model .MONO 2 n g o c N) s = ok (m', s')) (e' : monoSources (model .MONO 2 n g o c N') t = ok (k', t')) :
    k'.sources.soot = m'.sources.soot ∧ k'.sources.gas = m'.sources.gas := by
  obtain ⟨m1, s1, J, n1, kG, kO, A, a1, a2, a3, _, a5, a6, a7, _, _, _, _, a12, a13⟩ := mono_eval h
  obtain ⟨k1, t1, J', n2, kG', kO', A', b1, b2, b3, _, b5, b6, b7, _, _, _, _, b12, b13⟩ := mono_eval h'
  rw [a1] at e; cases e
  rw [b1] at e'; cases e'
  have hI : Idle { s with wts := [monoW M0 w], absc := [monoA M0 M1 b] } { t with wts := [monoW M0 w], absc := [monoA M0 M1 b] } := by
    rw [Idle] at hi ⊢; rw [hi]
  obtain ⟨rfl, rfl, hs, ht⟩ := idle_nucl hI hn a2 b2
  subst hs ht
  rw [show (model .MONO 2 n g o c N').grow = (model .MONO 2 n g o c N).grow from rfl,
    idle_grow hI (model .MONO 2 n g o c N).grow (x := (model .MONO 2 n g o c N).ctx) (by simp [Model.ctx, model, exModel]) (by simp [Model.ctx, model, exModel]), a5, ok.injEq] at b5
  rw [show (model .MONO 2 n g o c N').oxid = (model .MONO 2 n g o c N).oxid from rfl,
    idle_oxid hI (model .MONO 2 n g o c N).oxid (x := (model .MONO 2 n g o c N).ctx) (by simp [Model.ctx, model, exModel]) (by simp [Model.ctx, model, exModel]), a6, ok.injEq] at b6
  subst b5 b6
  have hA : A' = A := by
    rcases (h.gas.acc.sootVar_nonneg M0 (by simp [h.soot])).eq_or_lt with z | z
    · rw [a7.1 z.symm, b7.1 z.symm]
    · have hM1 : 0 ≤ M1 := h.gas.acc.sootVar_nonneg M1 (by simp [h.soot])
      obtain ⟨d, d0, d1⟩ : ∃ d : ℝ, 0 ≤ d ∧ M0 * rhoSoot * (π / 6) * d ^ 3 = M1 := by
        have hr := rhoSoot_pos
        refine ⟨(M1 / (M0 * rhoSoot * (π / 6))) ^ (1 / 3 : ℝ), by positivity, ?_⟩
        rw [← rpow_natCast, ← rpow_mul (by positivity)]
        norm_num
        field_simp
      rw [a7.2 z d d0 d1, b7.2 z d d0 d1]
  subst hA
  have hc : ∀ x y, (model .MONO 2 n g o c N').coag.val { t with wts := [monoW M0 w], absc := [monoA M0 M1 b] } x y =
      (model .MONO 2 n g o c N).coag.val { s with wts := [monoW M0 w], absc := [monoA M0 M1 b] } x y := by
    intro x y; rw [hi]; rfl
  have hcm : t.cMin = s.cMin := by rw [hi]
  have hnp : n2.mech ≠ .PAH := by
    rw [(Nucl.rate_inv a2).1]
    show n ≠ .PAH
    rintro rfl; simp at hn
  constructor
  · rw [a13, b13, hc]
    simp only [hcm, if_neg hnp]
  · exact Agree.gas (m := model .MONO 2 n g o c N) (k := model .MONO 2 n g o c N') ⟨rfl, rfl, rfl, rfl⟩ (by simp only [hcm]) rfl rfl a12 b12

/-- The C++ program, given what its evaluation returns. -/
theorem main_eq (eig : Eig) {i : SimpleIn} (h : SimpleOk nsoot i) (hd : Documented psd nsoot c .NONE) (hp : psd ≠ .NONE) (out : ℕ) :
    simpleMain eig psd nsoot n g o c i out =
      (sourceTerms eig (model psd nsoot n g o c 0) none (stateAfter (State.mk' nsoot 0) (simpleArgs nsoot i)) >>= fun r =>
        firstN r.1.sources.soot out >>= fun v => ok (v, simpleGasOut.map r.1.sources.gas)) := by
  have hnew := new_ok (n := n) (g := g) (o := o) ((ctorCheck_iff psd hp nsoot c .NONE).1 hd) 0
  simp only [simpleMain]
  obtain ⟨m0, h0, h1⟩ := bind_eq_ok.1 hnew
  simp only [h0, ok_bind]
  rw [ok.injEq] at h1
  rw [h1, (inp h).set]
  rfl

/-- The monodisperse C++ program. -/
theorem main_mono (eig : Eig) (hm : SimpleMechs n g o) {i : SimpleIn} (h : SimpleOk 2 i) : ∃ m' s',
    monoSources (model .MONO 2 n g o c 0) (stateAfter (State.mk' 2 0) { simpleArgs 2 i with yGas := pad i.yGas }) = ok (m', s') ∧
      simpleMain eig .MONO 2 n g o c i 2 = ok (m'.sources.soot, simpleGasOut.map m'.sources.gas) := by
  obtain ⟨m', s', e, e', p, q, e1, _⟩ := mono eig (c := c) (N := 0) hm (inp h) rfl rfl
  refine ⟨m', _, e', ?_⟩
  rw [main_eq eig h (.mono c _) (by simp), e]
  simp only [ok_bind, e1, firstN, idx, List.getElem?_cons_zero, List.getElem?_cons_succ, List.nil_append, List.cons_append]

end

end Simple

/-- **C85 (the example runs).** `simple_example.cc` finishes for every input of its shape and every choice of mechanisms without PAH, tar or HACA; it
prints two soot sources and ten gas sources, and the printed mass sources add up to zero (the one gas source it leaves out, solid carbon, is
zero). -/
theorem C85_simple_runs (eig : Eig) {n : NuclMech} {g : GrowMech} {o : OxidMech} (hm : SimpleMechs n g o) (c : CoagMech) {i : SimpleIn}
    (h : SimpleOk 2 i) :
    ∃ M0dot M1dot gas, simpleMain eig .MONO 2 n g o c i 2 = ok ([M0dot, M1dot], gas) ∧ gas.length = 10 ∧ gas.sum + M1dot = 0 := by
  have hi := Simple.inp h
  obtain ⟨m', s', e, _, p, q, e1, e2, e3⟩ := Simple.mono eig (c := c) (N := 0) hm hi rfl rfl
  have hnew := Simple.new_ok (n := n) (g := g) (o := o) (show ctorCheck .MONO 2 c .NONE = ok () from
    (ctorCheck_iff .MONO (by simp) 2 c .NONE).1 (.mono c _)) 0
  refine ⟨p, q, simpleGasOut.map m'.sources.gas, ?_, rfl, ?_⟩
  · simp only [simpleMain]
    obtain ⟨m0, h0, h1⟩ := bind_eq_ok.1 hnew
    simp only [h0, ok_bind]
    rw [ok.injEq] at h1
    rw [h1, hi.set]
    simp only [e, ok_bind, e1, firstN, idx, List.getElem?_cons_zero, List.getElem?_cons_succ, List.nil_append, List.cons_append]
  · have hs : (∑ sp, m'.sources.gas sp) = (simpleGasOut.map m'.sources.gas).sum + m'.sources.gas .C := by
      rw [show (Finset.univ : Finset GasSp) = {.O2, .O, .H2, .H, .OH, .H2O, .CO, .C2H2, .C6H6, .C, .CO2} from by decide]
      simp [simpleGasOut]; ring
    rw [hs, e3] at e2; linarith

/-- The program as it is in the file. -/
example (eig : Eig) : ∃ M0dot M1dot gas, simpleMain eig .MONO 2 .LL .LL .LL .FM simpleIn 2 = ok ([M0dot, M1dot], gas) ∧ gas.length = 10 ∧
    gas.sum + M1dot = 0 := C85_simple_runs eig ⟨by simp, by simp, by simp⟩ .FM simpleIn_ok

/-- **C85 (labels, true part).** The first eight entries of `yGas` are where the comment says. -/
theorem C85_labels_partial : simpleLabels.length = 9 ∧ ∀ k < 8, (simpleLabels[k]?).map GasSp.toNat = some k := by decide

/-- **C85 (labels, refutation).** The ninth entry, labelled CO2, is used as benzene, and the CO2 of the state lies outside the vector: whatever the
numbers, reading it is undefined. -/
theorem C85_labels_false {nsoot : ℕ} {i : SimpleIn} (h : SimpleOk nsoot i) :
    simpleLabels[8]? = some .CO2 ∧ (setState (State.mk' nsoot 0) (simpleArgs nsoot i)).2 = ok () ∧
      (∃ y, i.yGas[8]? = some y ∧ (setState (State.mk' nsoot 0) (simpleArgs nsoot i)).1.gasC .C6H6 = ok (i.rhoGas * y / gasMW .C6H6)) ∧
      (setState (State.mk' nsoot 0) (simpleArgs nsoot i)).1.gasC .CO2 = ub ∧
      (setState (State.mk' nsoot 0) (simpleArgs nsoot i)).1.gasP .CO2 = ub := by
  have hy := h.ylen
  rw [(Simple.inp h).set]
  refine ⟨rfl, rfl, ⟨i.yGas[8], List.getElem?_eq_getElem (by omega), ?_⟩, ?_, ?_⟩
  · simp only [State.gasC, stateAfter, simpleArgs]
    rw [show GasSp.C6H6.toNat = 8 from rfl, idx_ok (by omega), ok_bind]
  · simp only [State.gasC, stateAfter, simpleArgs]
    rw [show GasSp.CO2.toNat = 10 from rfl, idx_ub (by omega), ub_bind]
  · simp only [State.gasP, stateAfter, simpleArgs]
    rw [show GasSp.CO2.toNat = 10 from rfl, idx_ub (by omega), ub_bind]

/-- **C85 (labels, harmless as shipped).** For every PSD class the mislabelled entry has no influence unless the nucleation is LINA1. -/
theorem C85_ninth_unused (eig : Eig) (psd : PsdMech) (nsoot : ℕ) {n : NuclMech} {g : GrowMech} {o : OxidMech} (hm : SimpleMechs n g o)
    (hl : n ≠ .LINA1) (c : CoagMech) {i : SimpleIn} (h : SimpleOk nsoot i) (y : List ℝ) (hy : SimpleOk nsoot { i with yGas := y })
    (h8 : ∀ k < 8, y[k]? = i.yGas[k]?) (out : ℕ) :
    simpleMain eig psd nsoot n g o c { i with yGas := y } out = simpleMain eig psd nsoot n g o c i out := by
  simp only [simpleMain]
  cases hnew : Model.newPtr psd nsoot (Nucl.new n) (Grow.new g) (Oxid.new o) (Coag.new c) 0 .NONE with
  | exn e => rfl
  | ub => rfl
  | nonfin => rfl
  | ok m =>
    have hm' : m.nucl.mech = n ∧ m.grow.mech = g ∧ m.oxid.cls = o ∧ m.tar = .NONE := by
      simp only [Model.newPtr, bind_eq_ok] at hnew
      obtain ⟨_, _, hnew⟩ := hnew
      cases hnew; exact ⟨rfl, rfl, rfl, rfl⟩
    have hsame : SameAt (reads n g o .NONE) y i.yGas := by
      intro sp hs
      refine h8 _ ?_
      have hn := hm.nucl
      simp only [List.mem_cons, List.not_mem_nil, or_false] at hn
      have hg := hm.grow
      have ho := hm.oxid
      simp only [reads, List.mem_append] at hs
      rcases hs with ((hs | hs) | hs) | hs
      · rcases hn with rfl | rfl | rfl | rfl | rfl | rfl <;> simp [nuclReads] at hs hl <;> subst hs <;> decide
      · cases g <;> simp [growReads] at hs hg <;> subst hs <;> decide
      · cases o <;> simp [oxidReads] at hs ho <;> (try rcases hs with rfl | rfl) <;> decide
      · simp [tarReads] at hs
    have key := C73_inputs eig { m with coag := m.coag.setFM (9.0 / 2.0 / 2.2) } none (State.mk' nsoot 0) (simpleArgs nsoot i)
      (simpleArgs nsoot { i with yGas := y }) rfl (by rw [(Simple.inp h).set]) (by rw [(Simple.inp hy).set])
      (by rw [hm'.1, hm'.2.1, hm'.2.2.1, hm'.2.2.2]; exact hsame)
    simp only [ok_bind]
    rw [(Simple.inp h).set, (Simple.inp hy).set] at key ⊢
    simp only [ok_bind]
    have fin : ∀ x x' : Res (Model × State × Option ℝ), map' (·.1) x = map' (·.1) x' →
        (x >>= fun r => firstN r.1.sources.soot out >>= fun v => (ok (v, simpleGasOut.map r.1.sources.gas) : Res (List ℝ × List ℝ))) =
          (x' >>= fun r => firstN r.1.sources.soot out >>= fun v => ok (v, simpleGasOut.map r.1.sources.gas)) := by
      intro x x' hx
      have : ∀ z : Res (Model × State × Option ℝ),
          (z >>= fun r => firstN r.1.sources.soot out >>= fun v => (ok (v, simpleGasOut.map r.1.sources.gas) : Res (List ℝ × List ℝ))) =
            (map' (·.1) z >>= fun m => firstN m.sources.soot out >>= fun v => ok (v, simpleGasOut.map m.sources.gas)) := by
        intro z; cases z <;> rfl
      rw [this, this, hx]
    exact fin _ _ key

/-- The shipped program with and without its 18 % "CO2". -/
example (eig : Eig) (x : ℝ) (h0 : 0 ≤ x) (h1 : x ≤ 1) :
    simpleMain eig .MONO 2 .LL .LL .LL .FM { simpleIn with yGas := [0.05, 0.001, 0.002, 3E-4, 0.003, 0.07, 0.1, 0.002, x] } 2 =
      simpleMain eig .MONO 2 .LL .LL .LL .FM simpleIn 2 := by
  have hy : SimpleOk 2 { simpleIn with yGas := [0.05, 0.001, 0.002, 3E-4, 0.003, 0.07, 0.1, 0.002, x] } := by
    refine { simpleIn_ok with ylen := rfl, y := fun z hz => ?_ }
    simp only [List.mem_cons, List.not_mem_nil, or_false] at hz
    rcases hz with rfl | rfl | rfl | rfl | rfl | rfl | rfl | rfl | rfl <;> first | exact ⟨h0, h1⟩ | norm_num
  exact C85_ninth_unused eig .MONO 2 (n := .LL) (g := .LL) (o := .LL) ⟨by simp, by simp, by simp⟩ (by simp) .FM simpleIn_ok _ hy
    (fun k hk => by interval_cases k <;> rfl) 2

/-- **C85 (labels, with benzene nucleation).** With LINA1 nucleation the entry labelled CO2 makes soot: more of it, more particles. -/
theorem C85_ninth_is_benzene (eig : Eig) {g : GrowMech} {o : OxidMech} (hm : SimpleMechs .LINA1 g o) (c : CoagMech) {i : SimpleIn} (h : SimpleOk 2 i)
    (y : List ℝ) (hy : SimpleOk 2 { i with yGas := y }) (h8 : ∀ k < 8, y[k]? = i.yGas[k]?) (hlt : i.yGas.getD 8 0 < y.getD 8 0) :
    ∃ p q v p' q' v', simpleMain eig .MONO 2 .LINA1 g o c i 2 = ok ([p, q], v) ∧
      simpleMain eig .MONO 2 .LINA1 g o c { i with yGas := y } 2 = ok ([p', q'], v') ∧ p < p' := by
  obtain ⟨m', s', e, e1⟩ := Simple.main_mono eig (c := c) hm h
  obtain ⟨k', t', f, f1⟩ := Simple.main_mono eig (c := c) hm hy
  obtain ⟨M0, M1, hV⟩ := List.length_eq_two.1 h.M
  have hR := Simple.monoReady (c := c) (N := 0) hm (Simple.inp h) (w := 0) (b := 0) rfl rfl hV
  have hR' := Simple.monoReady (c := c) (N := 0) hm (Simple.inp hy) (w := 0) (b := 0) rfl rfl hV
  obtain ⟨m1, s1, J, n1, _, _, _, a1, a2, _, _, _, _, _, _, _, _, _, _, a13⟩ := mono_eval hR
  obtain ⟨k1, t1, J', n2, _, _, _, b1, b2, _, _, _, _, _, _, _, _, _, _, b13⟩ := mono_eval hR'
  rw [show monoSources (Simple.model .MONO 2 .LINA1 g o c 0)
    (stateAfter (State.mk' 2 0) { simpleArgs 2 i with yGas := Simple.pad i.yGas }) = ok (m1, s1) from a1] at e
  rw [show monoSources (Simple.model .MONO 2 .LINA1 g o c 0)
    (stateAfter (State.mk' 2 0) { simpleArgs 2 { i with yGas := y } with yGas := Simple.pad y }) = ok (k1, t1) from b1] at f
  cases e; cases f
  rw [a13] at e1
  rw [b13] at f1
  refine ⟨_, _, _, _, _, _, e1, f1, ?_⟩
  obtain ⟨-, hs⟩ := (Nucl.rate_inv a2).2.1 (by simp [Simple.model, exModel, Nucl.new])
  obtain ⟨-, ht⟩ := (Nucl.rate_inv b2).2.1 (by simp [Simple.model, exModel, Nucl.new])
  subst hs ht
  have hyl : y.length = 9 := hy.ylen
  have idx8 : ∀ z : List ℝ, z.length = 9 → idx (Simple.pad z) 8 = ok (z.getD 8 0) := by
    intro z hz
    rw [idx_ok (by simp [Simple.pad, hz, nGas])]
    simp [Simple.pad, hz]
  have T0 := h.T
  simp only [Simple.model, exModel, Nucl.new, Nucl.rate, State.gasC, stateAfter, simpleArgs, show GasSp.C6H6.toNat = 8 from rfl, idx8 _ h.ylen,
    cexpDiv_ok T0.ne', ok_bind, cdiv_ok (show (100 : ℝ) ≠ 0 by norm_num), ok.injEq, Prod.mk.injEq] at a2
  simp only [Simple.model, exModel, Nucl.new, Nucl.rate, State.gasC, stateAfter, simpleArgs, show GasSp.C6H6.toNat = 8 from rfl, idx8 _ hyl,
    cexpDiv_ok T0.ne', ok_bind, cdiv_ok (show (100 : ℝ) ≠ 0 by norm_num), ok.injEq, Prod.mk.injEq] at b2
  have hJ : J < J' := by
    rw [← a2.1, ← b2.1]
    have := Na_pos; have := gasMW_pos .C6H6; have := h.rho
    have := exp_pos (-21100 / i.T)
    gcongr
  exact sub_lt_sub_right hJ _

/-- The numbers of the file with LINA1 nucleation and more "CO2". -/
example (eig : Eig) : ∃ p q v p' q' v', simpleMain eig .MONO 2 .LINA1 .LL .LL .FM simpleIn 2 = ok ([p, q], v) ∧
    simpleMain eig .MONO 2 .LINA1 .LL .LL .FM { simpleIn with yGas := [0.05, 0.001, 0.002, 3E-4, 0.003, 0.07, 0.1, 0.002, 0.2] } 2 = ok ([p', q'], v') ∧
      p < p' :=
  C85_ninth_is_benzene eig ⟨by simp, by simp, by simp⟩ .FM simpleIn_ok _
    { simpleIn_ok with
      ylen := rfl
      y := by
        intro x hx
        simp only [List.mem_cons, List.not_mem_nil, or_false] at hx
        rcases hx with rfl | rfl | rfl | rfl | rfl | rfl | rfl | rfl | rfl <;> norm_num }
    (fun k hk => by interval_cases k <;> rfl) (by norm_num [simpleIn])

/-- **C85 (HMOM).** `simple_example_HMOM.cc` runs into undefined behaviour at `setSourceTerms` for every input of its shape. -/
theorem C85_hmom_ub (eig : Eig) {nsoot : ℕ} {n : NuclMech} {g : GrowMech} {o : OxidMech} (hm : SimpleMechs n g o) {c : CoagMech}
    (hd : Documented .HMOM nsoot c .NONE) {i : SimpleIn} (h : SimpleOk nsoot i) (out : ℕ) :
    simpleMain eig .HMOM nsoot n g o c i out = ub := by
  have h4 : 4 ≤ nsoot ∧ nsoot ≤ 9 ∧ c ≠ .FUCHS ∧ c ≠ .NONE := by
    cases hd with
    | hmom k h1 h2 _ hc => exact ⟨by omega, by omega, by rintro rfl; simp at hc, by rintro rfl; simp at hc⟩
  have hi := Simple.inp h
  have hnew := Simple.new_ok (n := n) (g := g) (o := o) (show ctorCheck .HMOM nsoot c .NONE = ok () from
    (ctorCheck_iff .HMOM (by simp) nsoot c .NONE).1 hd) 0
  have hr := Simple.ready (psd := .HMOM) (c := c) (N := 0) hm (by omega) hi
  have hs : sourceTerms eig (Simple.model .HMOM nsoot n g o c 0) none (stateAfter (State.mk' nsoot 0) (simpleArgs nsoot i)) = ub := by
    rw [Simple.eval_short eig hm hi]
    have := C35_hmom_ub (Simple.model .HMOM nsoot n g o c 0) _ ⟨hr, rfl, h4.1, h4.2.1, rfl, h4.2.2.1, by
        simp [stateAfter, Simple.model, exModel, simpleArgs, h.M], fun hx => by
        have hx : n = .PAH := hx
        subst hx; exact absurd hm.nucl (by simp)⟩ h4.2.2.2
    unfold sourceTerms
    rw [show (Simple.model .HMOM nsoot n g o c 0).psd = .HMOM from rfl]
    simp only [this, ub_bind]; rfl
  simp only [simpleMain]
  obtain ⟨m0, h0, h1⟩ := bind_eq_ok.1 hnew
  simp only [h0, ok_bind]
  rw [ok.injEq] at h1
  rw [h1, hi.set]
  simp only [hs, ok_bind, ub_bind]

/-- The program as it is in the file. -/
example (eig : Eig) : simpleMain eig .HMOM 4 .LL .LL .LL .FM simpleInHmom 4 = ub :=
  C85_hmom_ub eig ⟨by simp, by simp, by simp⟩ (.hmom 3 (by norm_num) (by norm_num) _ (by simp)) simpleInHmom_ok 4

theorem Simple.run_cons {h h' : Heap} {op : Op} {r : Option ℕ} (ops : List Op) (e : h.step op = (h', ok r)) : h.run (op :: ops) = h'.run ops := by
  simp only [Heap.run, e]

theorem Simple.del {h : Heap} {i : ℕ} {ob : MechObj} (ops : List Op) (e : h.mech i = some ob) : h.run (.delMech i :: ops) =
    Heap.run { h with mech := fun j => if j = i then none else h.mech j, freed := i :: h.freed } ops :=
  Simple.run_cons (r := none) ops (by simp only [Heap.step, Heap.delMech, Heap.free, e])

theorem Simple.touch {h : Heap} {i j : ℕ} {ob : MechObj} {mo : ModelObj} {cb : MechObj} (e : h.mech i = some ob) (e1 : ob.SM = some j)
    (e2 : h.model j = some mo) (e3 : h.mech mo.coag = some cb) : h.touch i = ok () := by
  simp [Heap.touch, e, e1, e2, e3]

/-- From the constructed objects on. -/
theorem Simple.heap_tail {h : Heap} {psd : PsdMech} {n : NuclMech} {g : GrowMech} {o : OxidMech} {c : CoagMech} {ob : MechObj} (h0 : h.mech 0 = some ⟨.nucl n, some 0, true⟩)
    (h1 : h.mech 1 = some ⟨.grow g, some 0, true⟩) (h2 : h.mech 2 = some ⟨.oxid o, some 0, true⟩) (h3 : h.mech 3 = some ⟨.coag c, some 0, true⟩)
    (h4 : h.mech 4 = some ob) (h5 : h.mech 5 = some ⟨.tar .NONE, none, true⟩) (h6 : ∀ k, 5 < k → h.mech k = none)
    (hm : h.model 0 = some ⟨psd, 0, 1, 2, 3, 5, false⟩) (hn : ∀ m, m ≠ 0 → h.model m = none) (hf : h.freed = []) :
    ∃ h', h.run [.use 0, .delMech 0, .delMech 1, .delMech 2, .delMech 3, .delMech 4, .delModel 0] = ok h' ∧ h'.freed = [4, 3, 2, 1, 0] ∧
      (∀ m, h'.model m = none) ∧ ∀ k, (∃ ob, h'.mech k = some ob) ↔ k = 5 := by
  have hu : h.step (.use 0) = (h, ok none) := by
    have t5 : h.touch 5 = ok () := by simp [Heap.touch, h5, Kind.readsSM]
    simp only [Heap.step, Heap.useModel, hm, Simple.touch h0 rfl hm h3, Simple.touch h1 rfl hm h3, Simple.touch h2 rfl hm h3, Simple.touch h3 rfl hm h3,
      t5, ok_bind]
    split_ifs <;> rfl
  rw [Simple.run_cons _ hu, Simple.del _ h0, Simple.del (ob := ⟨.grow g, some 0, true⟩) _ (by simp [h1]),
    Simple.del (ob := ⟨.oxid o, some 0, true⟩) _ (by simp [h2]), Simple.del (ob := ⟨.coag c, some 0, true⟩) _ (by simp [h3]),
    Simple.del (ob := ob) _ (by simp [h4]),
    Simple.run_cons (h' := ?_) _ (by simp only [Heap.step, Heap.delModel, hm, Heap.dtor]; rfl)]
  refine ⟨_, rfl, by simp [hf], fun m => ?_, fun k => ?_⟩
  · by_cases hz : m = 0 <;> simp [hz, hn]
  · rcases Nat.lt_or_ge 5 k with hk | hk
    · simp [h6 k hk]; omega
    · interval_cases k <;> simp [h5]

/-- **C85 (memory of the examples).** Every allocation of the program is freed once, except the tar mechanism that the constructor's default argument
allocates: it is the only object left.  The destructor of the model runs after the mechanisms are gone and is safe. -/
theorem C85_heap {psd : PsdMech} {nsoot : ℕ} {c : CoagMech} (hd : Documented psd nsoot c .NONE) (n : NuclMech) (g : GrowMech) (o : OxidMech)
    (t : TarMech) :
    ∃ h, Heap.empty.run (simpleOps psd nsoot n g o c t) = ok h ∧ h.freed = [4, 3, 2, 1, 0] ∧ (∀ m, h.model m = none) ∧
      ∀ k, (∃ ob, h.mech k = some ob) ↔ k = 5 := by
  have hc := (ctorCheck_iff psd (by rintro rfl; cases hd) nsoot c .NONE).1 hd
  have hp : ∀ h : Heap, h.mech 5 = some ⟨.tar .NONE, none, true⟩ → h.ptrCheck psd nsoot c 5 = ok () := by
    intro h e
    unfold Heap.ptrCheck
    cases psd <;> simp only [e] <;> exact hc
  set h5 := ((((Heap.empty.alloc (.nucl n) true).alloc (.grow g) true).alloc (.oxid o) true).alloc (.coag c) true).alloc (.tar t) true with e5
  have e : Heap.empty.run (simpleOps psd nsoot n g o c t) = h5.run (simpleOps psd nsoot n g o c t |>.drop 5) := rfl
  rw [e]
  set h6 := h5.alloc (.tar .NONE) true with e6
  have hs : h5.step (.newPtrDefaultTar psd nsoot 0 1 2 3) =
      (((((h6.setSM 0 0).setSM 1 0).setSM 2 0).setSM 3 0).place ⟨psd, 0, 1, 2, 3, 5, false⟩, ok (some 0)) := by
    have n0 : h6.mech 0 = some ⟨.nucl n, none, true⟩ := by simp [h6, h5, Heap.alloc, Heap.empty]
    have n1 : h6.mech 1 = some ⟨.grow g, none, true⟩ := by simp [h6, h5, Heap.alloc, Heap.empty]
    have n2 : h6.mech 2 = some ⟨.oxid o, none, true⟩ := by simp [h6, h5, Heap.alloc, Heap.empty]
    have n3 : h6.mech 3 = some ⟨.coag c, none, true⟩ := by simp [h6, h5, Heap.alloc, Heap.empty]
    have n5 : h6.mech 5 = some ⟨.tar .NONE, none, true⟩ := by simp [h6, h5, Heap.alloc, Heap.empty]
    have q : ((((h6.setSM 0 0).setSM 1 0).setSM 2 0).setSM 3 0).ptrCheck psd nsoot c 5 = ok () := hp _ (by simp [Heap.setSM, n5])
    show h6.ctorPtr psd nsoot 0 1 2 3 5 = _
    unfold Heap.ctorPtr
    simp only [n0, n1, n2, n3]
    rw [show h6.nextModel = 0 from rfl, q]
    rfl
  simp only [simpleOps, List.drop_succ_cons, List.drop_zero]
  rw [Simple.run_cons _ hs]
  refine Simple.heap_tail (psd := psd) (n := n) (g := g) (o := o) (c := c) (ob := ⟨.tar t, none, true⟩) ?_ ?_ ?_ ?_ ?_ ?_ ?_ ?_ ?_ rfl
  iterate 6 simp [Heap.place, Heap.setSM, h6, h5, Heap.alloc, Heap.empty]
  · intro k hk
    have := (show k ≠ 0 ∧ k ≠ 1 ∧ k ≠ 2 ∧ k ≠ 3 ∧ k ≠ 4 ∧ k ≠ 5 by omega)
    simp [Heap.place, Heap.setSM, h6, h5, Heap.alloc, Heap.empty, this]
  · rfl
  · intro m hm
    simp [Heap.place, Heap.setSM, h6, h5, Heap.alloc, Heap.empty, hm]

/-- The two programs as they are in the files. -/
example : (∃ h, Heap.empty.run (simpleOps .MONO 2 .LL .LL .LL .FM .NONE) = ok h ∧ h.freed = [4, 3, 2, 1, 0] ∧ (∀ m, h.model m = none) ∧
      ∀ k, (∃ ob, h.mech k = some ob) ↔ k = 5) ∧ ∃ h, Heap.empty.run (simpleOps .HMOM 4 .LL .LL .LL .FM .NONE) = ok h ∧
      h.freed = [4, 3, 2, 1, 0] ∧ (∀ m, h.model m = none) ∧ ∀ k, (∃ ob, h.mech k = some ob) ↔ k = 5 :=
  ⟨C85_heap (.mono _ _) _ _ _ _, C85_heap (.hmom 3 (by norm_num) (by norm_num) _ (by simp)) _ _ _ _⟩

/-- **C85 (Fortran, refutation).** `simple_example_fort.f90` asks for the tar properties before it sets the state: with the zero pressure of a new
state the correlations are not finite, whatever the composition and the sizes. -/
theorem C85_fort_order_false (eig : Eig) (psd : PsdMech) (nsoot Ntar : ℕ) (n : NuclMech) (g : GrowMech) (o : OxidMech) (c : CoagMech) (t : TarMech)
    (a : SetArgs) (yBio : List ℝ) (h5 : 5 ≤ yBio.length) :
    fortTar nsoot Ntar yBio = nonfin ∧ fortMain eig psd nsoot Ntar n g o c t a yBio = nonfin := by
  have e : fortTar nsoot Ntar yBio = nonfin := by
    have h : ¬ ((5 : ℤ) < 0 ∨ (yBio.length : ℤ) < 5) := by omega
    have l : ∀ k < 5, k < (yBio.take 5).length := by intro k hk; simp; omega
    simp only [fortTar, cSetYBio, fromPtr, if_neg h, ok_bind, getMtarYtar, State.setYBio, State.mk']
    rw [show (5 : ℤ).toNat = 5 from rfl, idx_ok (l 0 (by norm_num)), idx_ok (l 1 (by norm_num)), idx_ok (l 2 (by norm_num)),
      idx_ok (l 3 (by norm_num)), idx_ok (l 4 (by norm_num))]
    simp [clog10]
  exact ⟨e, by rw [fortMain, e]; rfl⟩

/-- `simple_example_fort.f90` as it is in the file. -/
example (eig : Eig) : fortMain eig .MONO 2 1 .LL .LL .LL .FM .NONE fortArgs [1, 0, 0, 0, 0] = nonfin :=
  (C85_fort_order_false eig _ _ _ _ _ _ _ _ _ _ (by simp)).2

/-- **C85 (Fortran, true part).** Whatever those calls leave in the tar members, the rest of the Fortran program finishes and gives the soot and gas
sources of the C++ program for the same numbers.  (The last mass fraction never gets through the interface, and neither does `cMin`.) -/
theorem C85_fort_agrees_partial (eig : Eig) {n : NuclMech} {g : GrowMech} {o : OxidMech} (hm : SimpleMechs n g o) (c : CoagMech) {i : SimpleIn}
    (h : SimpleOk 2 i) (y9 y10 : ℝ) (h9 : y9 ≤ 1) (tv : List ℝ) (cMin : ℝ) (b : List ℝ) (mt yt : ℝ) :
    ∃ gas soot, fortRest eig .MONO 2 tv.length n g o c .NONE
        { simpleArgs 2 i with yGas := i.yGas ++ [y9, y10], tarVar := tv, Ntar := tv.length, cMin := cMin }
        { State.mk' 2 tv.length with yBio := b, mtar := mt, ytar := yt } = ok (gas, soot) ∧ gas.length = 11 ∧
      simpleMain eig .MONO 2 n g o c i 2 = ok (soot, simpleGasOut.map fun sp => gas.getD sp.toNat 0) := by
  have hi := Simple.inp h
  have hl := h.ylen
  obtain ⟨M0, M1, hV⟩ := List.length_eq_two.1 h.M
  set s0 : State := { State.mk' 2 tv.length with yBio := b, mtar := mt, ytar := yt } with es0
  set a : SetArgs := { simpleArgs 2 i with yGas := i.yGas ++ [y9, y10], tarVar := tv, Ntar := tv.length, cMin := cMin } with ea
  have hfull : CArgs.Full a := ⟨by simp [a, hl, nGas], h.plen, by simp [a, simpleArgs, h.M], by simp [a]⟩
  have hfw : forwarded a = { simpleArgs 2 i with yGas := i.yGas ++ [y9], tarVar := tv, Ntar := tv.length } := by
    simp [forwarded, a, List.take_append, hl, simpleArgs]
  set a' : SetArgs := { simpleArgs 2 i with tarVar := tv, Ntar := tv.length } with ea'
  have ha' : Simple.Inp 2 s0 a' :=
    ⟨{ hi.adm with tar := fun k hk hkl => absurd hk (by simp [s0, State.mk', a'] at hkl ⊢; omega) },
      by simp [s0, State.mk', a', simpleArgs, h.M], by simp [s0, State.mk', a'], hi.len, hi.pah, hi.ylo, hi.yhi, hi.y, rfl⟩
  obtain ⟨m', s', e, e', p, q, e1, _⟩ := Simple.mono eig (c := c) (N := tv.length) hm ha' rfl rfl
  have hset : setState s0 (forwarded a) = (stateAfter s0 (forwarded a), ok ()) := by
    refine C01_setState_accepts s0 _ ?_ ?_ ?_
    · rw [hfw]; exact ha'.soot
    · rw [hfw]; exact ha'.tar
    · rw [hfw]
      refine { ha'.adm with gas := fun x hx => (List.mem_append.1 hx).elim (ha'.adm.gas x) fun hx => ?_ }
      rw [List.mem_singleton.1 hx]; exact h9
  have hx : sourceTerms eig (Simple.model .MONO 2 n g o c tv.length) none (stateAfter s0 (forwarded a)) =
      ok (m', { s' with yGas := i.yGas ++ [y9] }, none) := by
    have := C73_reads eig (Simple.model .MONO 2 n g o c tv.length) none (stateAfter s0 a') (i.yGas ++ [y9])
      (fun sp hs => (Simple.sameAt_append hm hl.ge [y9] sp hs).symm)
    rw [e] at this
    rw [hfw]
    exact this
  obtain ⟨gas, g1, g2, g3⟩ := (C46_get_gas_sources (List.replicate nGas 0) m').2 (by simp)
  obtain ⟨soot, r1, r2, r3, _⟩ := (C46_get_soot_sources (List.replicate 2 0) m' 2).1 (by simp) (by simp [e1])
  obtain ⟨k', t', f, f1⟩ := Simple.main_mono eig (c := c) hm h
  obtain ⟨q1, q2⟩ := Simple.mono_idle hm.nucl (Simple.monoReady (c := c) (N := 0) hm hi (w := 0) (b := 0) rfl rfl hV)
    (Simple.monoReady (c := c) (N := tv.length) hm ha' (w := 0) (b := 0) rfl rfl hV) rfl f e'
  refine ⟨gas, soot, ?_, by simpa [nGas] using g2, ?_⟩
  · have hnew := Simple.new_ok (n := n) (g := g) (o := o) ((ctorCheck_iff .MONO (by simp) 2 c .NONE).1 (.mono c _)) tv.length
    simp only [fortRest]
    obtain ⟨m0, h0, h1⟩ := bind_eq_ok.1 hnew
    simp only [h0, ok_bind]
    rw [ok.injEq] at h1
    rw [h1, C46_c_interface_partial s0 hfull, hset]
    simp only [hx, ok_bind, g1]
    have r1' : cGetSootSources (List.replicate 2 0) m' ((2 : ℕ) : ℤ) = ok soot := r1
    rw [r1']; rfl
  · rw [f1, ← q1, ← q2]
    congr 2
    · refine List.ext_getElem? fun k => ?_
      rcases Nat.lt_or_ge k 2 with hk | hk
      · exact (r3 k hk).symm
      · rw [List.getElem?_eq_none (by simp [e1]; omega), List.getElem?_eq_none (by simp [r2]; omega)]
    · refine List.map_congr_left fun sp _ => ?_
      rw [List.getD_eq_getElem?_getD, g3 sp]; rfl

/-- The numbers of the Fortran file. -/
example (eig : Eig) (mt yt : ℝ) : ∃ gas soot, fortRest eig .MONO 2 1 .LL .LL .LL .FM .NONE fortArgs
      { State.mk' 2 1 with yBio := [1, 0, 0, 0, 0], mtar := mt, ytar := yt } = ok (gas, soot) ∧ gas.length = 11 ∧
    simpleMain eig .MONO 2 .LL .LL .LL .FM simpleIn 2 = ok (soot, simpleGasOut.map fun sp => gas.getD sp.toNat 0) :=
  C85_fort_agrees_partial eig ⟨by simp, by simp, by simp⟩ .FM simpleIn_ok 0 0 (by norm_num) [0.002] 100 _ mt yt

end Soot
