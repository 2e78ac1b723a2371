import Verif.Inv

/-!
# Concrete models and states used to show that the hypotheses of the theorems can be met
-/

namespace Soot

open Res Real
open scoped Classical

/-- Inputs of `setState` with soot vector `v`; `clean` removes every soot precursor. -/
noncomputable def exArgs (v : List ℝ) (clean : Bool) : SetArgs :=
  { argsEx2 with
    sootVar := v
    nsoot := v.length
    yGas := if clean then [0.1, 0, 0.01, 0.002, 0.001, 0.01, 0.02, 0, 0, 0, 0.1] else argsEx2.yGas
    yPah := if clean then [0, 0, 0, 0, 0, 0] else argsEx2.yPah }

/-- A fresh state object of matching size after the accepted `setState` call. -/
noncomputable def exSt (v : List ℝ) (clean : Bool) : State := (setState (State.mk' v.length 0) (exArgs v clean)).1

theorem exArgs_admissible (v : List ℝ) (clean : Bool) : Admissible v.length 0 6 (exArgs v clean) where
  T := argsEx2_admissible.T
  P := argsEx2_admissible.P
  rho := argsEx2_admissible.rho
  mu := argsEx2_admissible.mu
  cMin := argsEx2_admissible.cMin
  soot := by intro i h hi; simp [exArgs] at h; omega
  tar := argsEx2_admissible.tar
  gas := by
    cases clean
    · exact argsEx2_admissible.gas
    · intro y hy; simp [exArgs] at hy
      rcases hy with h|h|h|h|h|h|h|h|h <;> subst h <;> norm_num
  pahSize := by cases clean <;> simp [exArgs, argsEx2, argsEx]
  pah := by
    cases clean
    · exact argsEx2_admissible.pah
    · intro y hy; simp [exArgs] at hy; subst hy; norm_num
  pahSum := by
    cases clean
    · exact argsEx2_admissible.pahSum
    · simp [exArgs]

theorem exSt_set (v : List ℝ) (clean : Bool) :
    setState (State.mk' v.length 0) (exArgs v clean) = (stateAfter (State.mk' v.length 0) (exArgs v clean), ok ()) :=
  C01_setState_accepts _ _ (by simp [State.mk', exArgs]) (by simp [State.mk'])
    (by simpa [State.mk', nPah] using exArgs_admissible v clean)

theorem exSt_eq (v : List ℝ) (clean : Bool) : exSt v clean = stateAfter (State.mk' v.length 0) (exArgs v clean) := by
  rw [exSt, exSt_set]

theorem exSt_gasOk (v : List ℝ) (clean : Bool) : GasOk (exSt v clean) where
  acc := ⟨_, _, by rw [exSt_set], rfl⟩
  len := by cases clean <;> simp [exSt_eq, stateAfter, exArgs, argsEx2, nGas]
  nonneg := by
    cases clean
    · intro y hy; simp [exSt_eq, stateAfter, exArgs, argsEx2] at hy
      rcases hy with h|h|h|h|h|h|h|h|h|h|h <;> subst h <;> norm_num
    · intro y hy; simp [exSt_eq, stateAfter, exArgs] at hy
      rcases hy with h|h|h|h|h|h|h|h|h <;> subst h <;> norm_num

theorem exSt_sootVar {v : List ℝ} (clean : Bool) (h : ∀ x ∈ v, 0 ≤ x) : (exSt v clean).sootVar = v := by
  have : v.map (max · 0) = v := by
    conv_rhs => rw [← List.map_id v]
    exact List.map_congr_left fun x hx => by simp [h x hx]
  simpa [exSt_eq, stateAfter, exArgs] using this

theorem exSt_yPah (v : List ℝ) (clean : Bool) : (exSt v clean).yPah.length = nPah := by
  cases clean <;> simp [exSt_eq, stateAfter, exArgs, argsEx2, argsEx, nPah]
theorem exSt_nsoot (v : List ℝ) (clean : Bool) : (exSt v clean).nsoot = v.length := by
  simp [exSt_eq, stateAfter, exArgs]
theorem exSt_wts (v : List ℝ) (clean : Bool) : (exSt v clean).wts = List.replicate (v.length / 2) 0 := by
  simp [exSt_eq, stateAfter, State.mk']
theorem exSt_absc (v : List ℝ) (clean : Bool) : (exSt v clean).absc = List.replicate (v.length / 2) 0 := by
  simp [exSt_eq, stateAfter, State.mk']
theorem exSt_T (v : List ℝ) (clean : Bool) : (exSt v clean).T = 2100 := by
  simp [exSt_eq, stateAfter, exArgs, argsEx2, argsEx]
theorem exSt_noPah (v : List ℝ) : ∀ y ∈ (exSt v true).yPah, y = 0 := by
  simp [exSt_eq, stateAfter, exArgs]
theorem exSt_noTar (v : List ℝ) (clean : Bool) : ∀ y ∈ (exSt v clean).tarVar, y = 0 := by
  simp [exSt_eq, stateAfter, exArgs, argsEx2, argsEx]
theorem exSt_absent (v : List ℝ) : Absent (exSt v true) .C2H2 ∧ Absent (exSt v true) .C6H6 := by
  simp [Absent, exSt_eq, stateAfter, exArgs, GasSp.toNat]

/-- A model as the enum constructor makes it (`F = 2`, `cMin = 100` for SECT). -/
noncomputable def exModel (psd : PsdMech) (nsoot : ℕ) (n : NuclMech) (g : GrowMech) (o : OxidMech) (c : CoagMech) :
    Model :=
  { psd := psd, nsoot := nsoot, Ntar := 0, nucl := Nucl.new n, grow := Grow.new g, oxid := Oxid.new o
    coag := Coag.new c, tar := .NONE, mBins := if psd = .SECT then binMasses nsoot 2 100 else []
    binF := 2, sources := Sources.new nsoot 0 }

theorem exModel_new {psd : PsdMech} {nsoot : ℕ} {c : CoagMech} (h : ctorCheck psd nsoot c .NONE = ok ())
    (n : NuclMech) (g : GrowMech) (o : OxidMech) :
    Model.new psd nsoot n g o c = ok (exModel psd nsoot n g o c) := by
  rw [Model.new, Model.newPtr, show (Coag.new c).mech = c from rfl, h]; rfl

theorem exReady (psd : PsdMech) (nsoot : ℕ) (n : NuclMech) (hn : n ≠ .AJ_RED) (hb : n ≠ .BROWN) (g : GrowMech)
    (o : OxidMech) (c : CoagMech) (v : List ℝ) (clean : Bool) (hl : v.length = nsoot) (h2 : 2 ≤ nsoot)
    (hv : ∀ x ∈ v, 0 ≤ x) : Ready (exModel psd nsoot n g o c) (exSt v clean) where
  wf := ⟨Nucl.new_wf n, rfl, rfl, fun _ => rfl, fun _ => rfl, rfl, rfl, by simp [exModel, Sources.new]⟩
  fm := by norm_num [Coag.new, exModel]
  gas := exSt_gasOk v clean
  pah := exSt_yPah v clean
  sized := by
    refine ⟨by rw [exSt_sootVar _ hv, hl]; exact h2, fun hp => ?_, ?_⟩
    · have hp : psd = .SECT := hp
      subst hp
      refine ⟨by rw [exSt_sootVar _ hv, hl]; exact le_rfl, by simp [Model.ctx, exModel, binMasses], ?_⟩
      rw [exSt_nsoot, hl]; rfl
    · intro x hx
      simp only [Model.ctx, exModel] at hx
      split_ifs at hx
      · simp only [binMasses, List.mem_map] at hx
        obtain ⟨k, _, rfl⟩ := hx
        have := gasMW_pos .C; have := Na_pos
        positivity
      · simp at hx
  sing := by
    rintro _ ⟨_, _, h⟩
    rw [exSt_T] at h; norm_num at h
  tar := by simp [Nucl.new, exModel, hn, hb]
  mtar := by simp [Nucl.new, exModel, hn]

end Soot
