import Verif.Mech
import Verif.Props.Coag

/-!
# Properties C08, C09, C19, C47-C50 (chemistry mechanisms)
-/

namespace Soot

open Res Real
open scoped Classical

/-! ## C08, C09: conservation -/

inductive Elem | C | H | O
  deriving DecidableEq

/-- Independent specification: elemental composition of the gas species. -/
def atoms : GasSp → Elem → ℕ
  | .O2, .O => 2
  | .O, .O => 1
  | .H2, .H => 2
  | .H, .H => 1
  | .OH, .H => 1
  | .OH, .O => 1
  | .H2O, .H => 2
  | .H2O, .O => 1
  | .CO, .C => 1
  | .CO, .O => 1
  | .C2H2, .C => 2
  | .C2H2, .H => 2
  | .C6H6, .C => 6
  | .C6H6, .H => 6
  | .C, .C => 1
  | .CO2, .C => 1
  | .CO2, .O => 2
  | _, _ => 0

/-- Independent specification: elemental composition of the PAH species. -/
def pahAtoms : PahSp → Elem → ℕ
  | .C10H8, .C => 10
  | .C10H8, .H => 8
  | .C12H8, .C => 12
  | .C12H8, .H => 8
  | .C12H10, .C => 12
  | .C12H10, .H => 10
  | .C14H10, .C => 14
  | .C14H10, .H => 10
  | .C16H10, .C => 16
  | .C16H10, .H => 10
  | .C18H10, .C => 18
  | .C18H10, .H => 10
  | _, .O => 0

/-- Standard atomic weights (kg/kmol). -/
noncomputable def atomicW : Elem → ℝ
  | .C => 12.011
  | .H => 1.008
  | .O => 15.999

/-- The gas source vector a mechanism reports for a soot mass rate, in every case defined. -/
theorem gasRates_nucl (m : NuclMech) (h : m ≠ .PAH) (mdot : ℝ) :
    gasRates (Nucl.new m).ratio mdot = ok fun sp => if sp = .C then 0 else
      mdot * nuclRatio m sp * gasMW sp / (nuclRatio m .C * gasMW .C) := by
  have : nuclRatio m .C * gasMW .C ≠ 0 := by cases m <;> simp_all [nuclRatio, gasMW] <;> norm_num
  rw [gasRates, Nucl.new, if_neg this]

theorem gasRates_grow (m : GrowMech) (mdot : ℝ) :
    gasRates (Grow.new m).ratio mdot = ok fun sp => if sp = .C then 0 else
      mdot * growRatio m sp * gasMW sp / (growRatio m .C * gasMW .C) := by
  have : growRatio m .C * gasMW .C ≠ 0 := by cases m <;> simp [growRatio, gasMW] <;> norm_num
  rw [gasRates, Grow.new, if_neg this]

theorem gasRates_oxid (m : OxidMech) (mdot : ℝ) :
    gasRates (Oxid.new m).ratio mdot = ok fun sp => if sp = .C then 0 else
      mdot * oxidRatio m sp * gasMW sp / (oxidRatio m .C * gasMW .C) := by
  have : oxidRatio m .C * gasMW .C ≠ 0 := by cases m <;> simp [oxidRatio, gasMW] <;> norm_num
  rw [gasRates, Oxid.new, if_neg this]

/-- **C08.** Mass conservation of the gas rates of every mechanism. -/
theorem C08_mass_conserved (mdot : ℝ) :
    (∀ m : NuclMech, m ≠ .NONE → m ≠ .PAH →
      ∃ g, gasRates (Nucl.new m).ratio mdot = ok g ∧ ∑ sp, g sp = -mdot) ∧
    (∀ m : GrowMech, m ≠ .NONE →
      ∃ g, gasRates (Grow.new m).ratio mdot = ok g ∧ ∑ sp, g sp = -mdot) ∧
    (∀ m : OxidMech, m ≠ .NONE →
      ∃ g, gasRates (Oxid.new m).ratio mdot = ok g ∧ ∑ sp, g sp = -mdot) := by
  refine ⟨fun m h1 h2 => ⟨_, gasRates_nucl m h2 mdot, ?_⟩, fun m h1 => ⟨_, gasRates_grow m mdot, ?_⟩,
    fun m h1 => ⟨_, gasRates_oxid m mdot, ?_⟩⟩
  · rw [sum_gasSp]; cases m <;> simp_all [nuclRatio, gasMW] <;> ring
  · rw [sum_gasSp]; cases m <;> simp_all [growRatio, gasMW] <;> ring
  · rw [sum_gasSp]; cases m <;> simp_all [oxidRatio, gasMW] <;> ring

/-- Molar rate of element `e`: through the gas species, plus solid carbon formed at mass rate `mdot`. -/
noncomputable def elemRate (g : GasSp → ℝ) (mdot : ℝ) (e : Elem) : ℝ :=
  ∑ sp, g sp / gasMW sp * atoms sp e + if e = .C then mdot / gasMW .C else 0

/-- **C09.** Every element is conserved by every mechanism. -/
theorem C09_elements_conserved (mdot : ℝ) (e : Elem) :
    (∀ m : NuclMech, m ≠ .NONE → m ≠ .PAH →
      ∃ g, gasRates (Nucl.new m).ratio mdot = ok g ∧ elemRate g mdot e = 0) ∧
    (∀ m : GrowMech, m ≠ .NONE →
      ∃ g, gasRates (Grow.new m).ratio mdot = ok g ∧ elemRate g mdot e = 0) ∧
    (∀ m : OxidMech, m ≠ .NONE →
      ∃ g, gasRates (Oxid.new m).ratio mdot = ok g ∧ elemRate g mdot e = 0) := by
  refine ⟨fun m h1 h2 => ⟨_, gasRates_nucl m h2 mdot, ?_⟩, fun m h1 => ⟨_, gasRates_grow m mdot, ?_⟩,
    fun m h1 => ⟨_, gasRates_oxid m mdot, ?_⟩⟩
  · rw [elemRate, sum_gasSp]; cases m <;> cases e <;> simp_all [nuclRatio, gasMW, atoms] <;> ring
  · rw [elemRate, sum_gasSp]; cases m <;> cases e <;> simp_all [growRatio, gasMW, atoms] <;> ring
  · rw [elemRate, sum_gasSp]; cases m <;> cases e <;> simp_all [oxidRatio, gasMW, atoms] <;> ring

/-- **C09** (tables). Molar masses are the sums of atomic weights, and the PAH carbon/hydrogen counts are
those of the formulas. -/
theorem C09_tables_consistent :
    (∀ sp, gasMW sp = atoms sp .C * atomicW .C + atoms sp .H * atomicW .H + atoms sp .O * atomicW .O) ∧
    (∀ sp, pahMW sp = pahAtoms sp .C * atomicW .C + pahAtoms sp .H * atomicW .H) ∧
    (∀ sp, pahNC sp = pahAtoms sp .C ∧ pahNH sp = pahAtoms sp .H) := by
  refine ⟨fun sp => ?_, fun sp => ?_, fun sp => ?_⟩
  · cases sp <;> simp [gasMW, atoms, atomicW] <;> norm_num
  · cases sp <;> simp [pahMW, pahAtoms, atomicW] <;> norm_num
  · cases sp <;> simp [pahNC, pahNH, pahAtoms]

/-- C08/C09 at a concrete non-zero rate: HACA oxidation of 3 kg/s of soot. -/
example : ∃ g, gasRates (Oxid.new .HACA).ratio (-3) = ok g ∧ ∑ sp, g sp = 3 ∧ g .CO ≠ 0 := by
  obtain ⟨g, hg, hs⟩ := (C08_mass_conserved (-3)).2.2 .HACA (by simp)
  refine ⟨g, hg, by simpa using hs, ?_⟩
  rw [gasRates_oxid] at hg
  cases hg
  norm_num [oxidRatio, gasMW, show ¬ GasSp.CO = GasSp.C by decide]

/-! ## C49: reported types -/

/-- **C49** (true part): every nucleation, growth, coagulation, and every oxidation mechanism other than
FAIR reports its own enumerator. -/
theorem C49_mechType_partial :
    (∀ m, (Nucl.new m).mech = m) ∧ (∀ m, (Grow.new m).mech = m) ∧ (∀ m, (Coag.new m).mech = m) ∧
    (∀ m, (Oxid.new m).cls = m) ∧ (∀ m, (Oxid.new m).mechType = m ↔ m ≠ .FAIR) := by
  refine ⟨fun _ => rfl, fun _ => rfl, fun _ => rfl, fun _ => rfl, fun m => ?_⟩
  cases m <;> simp [Oxid.new, oxidMechType]

/-- **C49** refuted: the Fairweather oxidation object reports LL. -/
theorem C49_mechType_false : ¬ ∀ m, (Oxid.new m).mechType = m :=
  fun h => absurd (h .FAIR) (by simp [Oxid.new, oxidMechType])

/-! ## States with non-negative gas fractions -/

/-- An accepted state with a full, non-negative gas composition. -/
structure GasOk (s : State) : Prop where
  acc : Accepted s
  len : s.yGas.length = nGas
  nonneg : ∀ y ∈ s.yGas, 0 ≤ y

theorem Accepted.sootVar_nonneg {s : State} (h : Accepted s) : ∀ x ∈ s.sootVar, 0 ≤ x := by
  obtain ⟨s₀, a, h1, rfl⟩ := h
  obtain ⟨hs, ht⟩ := setState_ok_range h1
  rw [C01_setState_accepts s₀ a hs ht ((C01_setState_iff s₀ a hs ht).mp h1)]
  simp [stateAfter]

theorem Accepted.tarVar_nonneg {s : State} (h : Accepted s) : ∀ x ∈ s.tarVar, 0 ≤ x := by
  obtain ⟨s₀, a, h1, rfl⟩ := h
  obtain ⟨hs, ht⟩ := setState_ok_range h1
  rw [C01_setState_accepts s₀ a hs ht ((C01_setState_iff s₀ a hs ht).mp h1)]
  simp [stateAfter]

theorem Accepted.yPah_nonneg {s : State} (h : Accepted s) : ∀ x ∈ s.yPah, 0 ≤ x := by
  obtain ⟨s₀, a, h1, rfl⟩ := h
  obtain ⟨hs, ht⟩ := setState_ok_range h1
  have ha := (C01_setState_iff s₀ a hs ht).mp h1
  rw [C01_setState_accepts s₀ a hs ht ha]
  exact fun x hx => (ha.pah x hx).1

theorem getD_of_lt {l : List ℝ} {i : ℕ} (h : i < l.length) : l.getD i 0 = l[i] := by
  simp [List.getD_eq_getElem?_getD, h]

/-- Species `sp` is absent from the gas. -/
def Absent (s : State) (sp : GasSp) : Prop := s.yGas[sp.toNat]? = some 0

/-- Concentration as a number. -/
noncomputable def cVal (s : State) (sp : GasSp) : ℝ := s.rhoGas * s.yGas.getD sp.toNat 0 / gasMW sp
/-- Partial pressure as a number. -/
noncomputable def pVal (s : State) (sp : GasSp) : ℝ := s.yGas.getD sp.toNat 0 * s.MWGas / gasMW sp * s.P

theorem GasOk.y_nonneg {s : State} (h : GasOk s) (sp : GasSp) : 0 ≤ s.yGas.getD sp.toNat 0 := by
  have hl : sp.toNat < s.yGas.length := h.len ▸ sp.toNat_lt
  rw [getD_of_lt hl]; exact h.nonneg _ (List.getElem_mem _)
theorem GasOk.gasC {s : State} (h : GasOk s) (sp : GasSp) : s.gasC sp = ok (cVal s sp) := by
  have hl : sp.toNat < s.yGas.length := h.len ▸ sp.toNat_lt
  rw [State.gasC, idx_ok hl, ok_bind, cVal, getD_of_lt hl]
theorem GasOk.gasP {s : State} (h : GasOk s) (sp : GasSp) : s.gasP sp = ok (pVal s sp) := by
  have hl : sp.toNat < s.yGas.length := h.len ▸ sp.toNat_lt
  rw [State.gasP, idx_ok hl, ok_bind, pVal, getD_of_lt hl]
theorem GasOk.cVal_nonneg {s : State} (h : GasOk s) (sp : GasSp) : 0 ≤ cVal s sp := by
  have := h.y_nonneg sp; have := h.acc.phys.rho; have := gasMW_pos sp
  unfold cVal; positivity
theorem GasOk.pVal_nonneg {s : State} (h : GasOk s) (sp : GasSp) : 0 ≤ pVal s sp := by
  have := h.y_nonneg sp; have := h.acc.phys.mw_pos; have := h.acc.phys.P; have := gasMW_pos sp
  unfold pVal; positivity
theorem Absent.cVal {s : State} {sp : GasSp} (h : Absent s sp) : cVal s sp = 0 := by
  have h : s.yGas[sp.toNat]? = some 0 := h
  simp [Soot.cVal, List.getD_eq_getElem?_getD, h]
theorem Absent.pVal {s : State} {sp : GasSp} (h : Absent s sp) : pVal s sp = 0 := by
  have h : s.yGas[sp.toNat]? = some 0 := h
  simp [Soot.pVal, List.getD_eq_getElem?_getD, h]

/-- A concrete state satisfying `GasOk`: 2100 K, two soot variables, non-negative composition. -/
noncomputable def argsEx2 : SetArgs :=
  { argsEx with yGas := [0.1, 0, 0.01, 0.002, 0.001, 0.01, 0.02, 0.05, 0.001, 0, 0.1]
                sootVar := [1E15, 1E-8], nsoot := 2 }

theorem argsEx2_admissible : Admissible 2 0 6 argsEx2 where
  T := by norm_num [argsEx2, argsEx]
  P := by norm_num [argsEx2, argsEx]
  rho := by norm_num [argsEx2, argsEx]
  mu := by norm_num [argsEx2, argsEx]
  cMin := by norm_num [argsEx2, argsEx]
  soot := by intro i h hi; simp [argsEx2] at h; omega
  tar := by intro i h; simp [argsEx2, argsEx] at h
  gas := by
    intro y hy; simp [argsEx2] at hy
    rcases hy with h|h|h|h|h|h|h|h|h|h|h <;> subst h <;> norm_num
  pahSize := by simp [argsEx2, argsEx]
  pah := by intro y hy; simp [argsEx2, argsEx] at hy; rcases hy with h|h|h <;> subst h <;> norm_num
  pahSum := by norm_num [argsEx2, argsEx]

noncomputable def stEx2 : State := (setState (State.mk' 2 0) argsEx2).1
theorem stEx2_eq : setState (State.mk' 2 0) argsEx2 = (stateAfter (State.mk' 2 0) argsEx2, ok ()) :=
  C01_setState_accepts _ _ (by simp [State.mk', argsEx2]) (by simp [State.mk'])
    (by simpa [State.mk', nPah] using argsEx2_admissible)
theorem stEx2_accepted : Accepted stEx2 := ⟨_, _, by rw [stEx2_eq], rfl⟩
theorem stEx2_eq' : stEx2 = stateAfter (State.mk' 2 0) argsEx2 := by rw [stEx2, stEx2_eq]
theorem stEx2_gasOk : GasOk stEx2 where
  acc := stEx2_accepted
  len := by simp [stEx2_eq', stateAfter, argsEx2, nGas]
  nonneg := by
    intro y hy; simp [stEx2_eq', stateAfter, argsEx2] at hy
    rcases hy with h|h|h|h|h|h|h|h|h|h|h <;> subst h <;> norm_num
theorem stEx2_sootVar : stEx2.sootVar = [1E15, 1E-8] := by
  simp [stEx2_eq', stateAfter, argsEx2]; norm_num

end Soot
