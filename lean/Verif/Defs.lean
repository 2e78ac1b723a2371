import Verif.Base
import Mathlib.Data.Fintype.Basic
import Mathlib.Algebra.BigOperators.Group.Finset.Basic
import Mathlib.Data.Fintype.BigOperators

/-!
# Constants, enumerations and tables of `/repo/src/sootDefs.h`
-/

namespace Soot

open Real

/-- sootDefs.h:15 -/
noncomputable def Na : ℝ := 6.02214076E26
/-- sootDefs.h:16 -/
noncomputable def kb : ℝ := 1.380649E-23
/-- sootDefs.h:17 -/
noncomputable def Rg : ℝ := Na * kb
/-- sootDefs.h:19 -/
noncomputable def epsC : ℝ := 2.2
/-- sootDefs.h:21 -/
noncomputable def rhoSoot : ℝ := 1850
/-- sootDefs.h:22 -/
noncomputable def bCoag : ℝ := 0.8536
/-- sootDefs.h:24-25 (`1.0/3.0`, `2.0/3.0`) -/
noncomputable def onethird : ℝ := 1 / 3
noncomputable def twothird : ℝ := 2 / 3
/-- sootDefs.h:26 -/
noncomputable def root2 : ℝ := Real.sqrt 2
/-- sootDefs.h:27: mass of one carbon atom, the coagulation cutoff -/
noncomputable def mmin : ℝ := 2E-26

/-- sootDefs.h:32 (the trailing `size` enumerator, never a valid selection, is omitted here and in
the other enumerations) -/
inductive NuclMech | NONE | LL | LIN | LINA1 | PAH | MB | FAIR | AJ_RED | BROWN
  deriving DecidableEq
instance : Fintype NuclMech := ⟨{.NONE, .LL, .LIN, .LINA1, .PAH, .MB, .FAIR, .AJ_RED, .BROWN}, by intro x; cases x <;> decide⟩
/-- sootDefs.h:33 -/
inductive GrowMech | NONE | LL | LIN | HACA | MB | FAIR
  deriving DecidableEq
instance : Fintype GrowMech := ⟨{.NONE, .LL, .LIN, .HACA, .MB, .FAIR}, by intro x; cases x <;> decide⟩
/-- sootDefs.h:34 -/
inductive OxidMech | NONE | LL | LEE_NEOH | MB | FAIR | NSC_NEOH | HACA | AJ_RED | BROWN | OPTJ | OPTG
  deriving DecidableEq
instance : Fintype OxidMech := ⟨{.NONE, .LL, .LEE_NEOH, .MB, .FAIR, .NSC_NEOH, .HACA, .AJ_RED, .BROWN, .OPTJ, .OPTG}, by intro x; cases x <;> decide⟩
/-- sootDefs.h:35 -/
inductive CoagMech | NONE | FM | CONTINUUM | HM | FUCHS
  deriving DecidableEq
instance : Fintype CoagMech := ⟨{.NONE, .FM, .CONTINUUM, .HM, .FUCHS}, by intro x; cases x <;> decide⟩
/-- sootDefs.h:36 -/
inductive PsdMech | NONE | MONO | LOGN | QMOM | MOMIC | SECT | HMOM
  deriving DecidableEq
instance : Fintype PsdMech := ⟨{.NONE, .MONO, .LOGN, .QMOM, .MOMIC, .SECT, .HMOM}, by intro x; cases x <;> decide⟩
/-- sootDefs.h:37 -/
inductive TarMech | NONE | AJ_RED | BROWN
  deriving DecidableEq
instance : Fintype TarMech := ⟨{.NONE, .AJ_RED, .BROWN}, by intro x; cases x <;> decide⟩

/-- sootDefs.h:41 -/
inductive GasSp | O2 | O | H2 | H | OH | H2O | CO | C2H2 | C6H6 | C | CO2
  deriving DecidableEq
instance : Fintype GasSp := ⟨{.O2, .O, .H2, .H, .OH, .H2O, .CO, .C2H2, .C6H6, .C, .CO2}, by intro x; cases x <;> decide⟩
/-- sootDefs.h:98 -/
inductive PahSp | C10H8 | C12H8 | C12H10 | C14H10 | C16H10 | C18H10
  deriving DecidableEq
instance : Fintype PahSp := ⟨{.C10H8, .C12H8, .C12H10, .C14H10, .C16H10, .C18H10}, by intro x; cases x <;> decide⟩
/-- sootDefs.h:149 -/
inductive BioSp | cell | hw_hc | sw_hc | hw_lig | sw_lig
  deriving DecidableEq
instance : Fintype BioSp := ⟨{.cell, .hw_hc, .sw_hc, .hw_lig, .sw_lig}, by intro x; cases x <;> decide⟩

/-- `(int)gasSp::X` -/
def GasSp.toNat : GasSp → ℕ
  | O2 => 0 | O => 1 | H2 => 2 | H => 3 | OH => 4 | H2O => 5 | CO => 6 | C2H2 => 7 | C6H6 => 8
  | C => 9 | CO2 => 10
/-- `(int)pahSp::X` -/
def PahSp.toNat : PahSp → ℕ
  | C10H8 => 0 | C12H8 => 1 | C12H10 => 2 | C14H10 => 3 | C16H10 => 4 | C18H10 => 5

/-- `(int)gasSp::size`, `(int)pahSp::size` -/
def nGas : ℕ := 11
def nPah : ℕ := 6

theorem GasSp.toNat_lt (s : GasSp) : s.toNat < nGas := by cases s <;> decide
theorem PahSp.toNat_lt (s : PahSp) : s.toNat < nPah := by cases s <;> decide

/-- sootDefs.h:79-92 -/
noncomputable def gasMW : GasSp → ℝ
  | .O2 => 31.998 | .O => 15.999 | .H2 => 2.016 | .H => 1.008 | .OH => 17.007 | .H2O => 18.015
  | .CO => 28.010 | .C2H2 => 26.038 | .C6H6 => 78.114 | .C => 12.011 | .CO2 => 44.009

/-- sootDefs.h:100-107 -/
noncomputable def pahMW : PahSp → ℝ
  | .C10H8 => 128.174 | .C12H8 => 152.196 | .C12H10 => 154.212 | .C14H10 => 178.234
  | .C16H10 => 202.256 | .C18H10 => 226.278
/-- sootDefs.h:109-116 -/
def pahNC : PahSp → ℕ
  | .C10H8 => 10 | .C12H8 => 12 | .C12H10 => 12 | .C14H10 => 14 | .C16H10 => 16 | .C18H10 => 18
/-- sootDefs.h:117-124 -/
def pahNH : PahSp → ℕ
  | .C10H8 => 8 | .C12H8 => 8 | .C12H10 => 10 | .C14H10 => 10 | .C16H10 => 10 | .C18H10 => 10
/-- sootDefs.h:126-133 -/
noncomputable def pahGamma : PahSp → ℝ
  | .C10H8 => 0.00133 | .C12H8 => 0.00267 | .C12H10 => 0.0085 | .C14H10 => 0.015
  | .C16H10 => 0.025 | .C18H10 => 0.039

theorem Na_pos : 0 < Na := by norm_num [Na]
theorem kb_pos : 0 < kb := by norm_num [kb]
theorem Rg_pos : 0 < Rg := mul_pos Na_pos kb_pos
theorem epsC_pos : 0 < epsC := by norm_num [epsC]
theorem rhoSoot_pos : 0 < rhoSoot := by norm_num [rhoSoot]
theorem bCoag_pos : 0 < bCoag := by norm_num [bCoag]
theorem mmin_pos : 0 < mmin := by norm_num [mmin]
theorem root2_pos : 0 < root2 := by unfold root2; positivity
theorem gasMW_pos (s : GasSp) : 0 < gasMW s := by cases s <;> norm_num [gasMW]
theorem pahMW_pos (s : PahSp) : 0 < pahMW s := by cases s <;> norm_num [pahMW]
theorem pahGamma_pos (s : PahSp) : 0 < pahGamma s := by cases s <;> norm_num [pahGamma]
theorem pahNC_pos (s : PahSp) : 0 < pahNC s := by cases s <;> decide
theorem pahNH_pos (s : PahSp) : 0 < pahNH s := by cases s <;> decide

open GasSp in
theorem sum_gasSp {M : Type} [AddCommMonoid M] (f : GasSp → M) :
    ∑ s, f s = f O2 + (f O + (f H2 + (f H + (f OH + (f H2O + (f CO + (f C2H2 + (f C6H6 +
      (f C + f CO2))))))))) := by
  have : (Finset.univ : Finset GasSp) = {O2, O, H2, H, OH, H2O, CO, C2H2, C6H6, C, CO2} := by decide
  rw [this]; simp

open PahSp in
theorem sum_pahSp {M : Type} [AddCommMonoid M] (f : PahSp → M) :
    ∑ s, f s = f C10H8 + (f C12H8 + (f C12H10 + (f C14H10 + (f C16H10 + f C18H10)))) := by
  have : (Finset.univ : Finset PahSp) = {C10H8, C12H8, C12H10, C14H10, C16H10, C18H10} := by decide
  rw [this]; simp

end Soot
