import Verif.Defs

/-!
# Species name maps of `/repo/src/sootDefs.h`

A `std::map` is an association list; `find` is the lookup that `at`, `find` and `operator[]` share.
-/

namespace Soot

/-- Lookup in a `std::map` given by its initializer list (the first entry of a repeated key is kept). -/
def lookupKey {α β : Type} [DecidableEq α] (k : α) (l : List (α × β)) : Option β := (l.find? fun p => p.1 = k).map Prod.snd

/-- sootDefs.h:43-53 -/
def gasSpMapSE : List (String × GasSp) := [("O2", .O2), ("O", .O), ("H2", .H2), ("H", .H), ("OH", .OH), ("H2O", .H2O),
  ("CO", .CO), ("C2H2", .C2H2), ("C6H6", .C6H6), ("C", .C), ("CO2", .CO2)]
/-- sootDefs.h:55-65 -/
def gasSpMapES : List (GasSp × String) := [(.O2, "O2"), (.O, "O"), (.H2, "H2"), (.H, "H"), (.OH, "OH"), (.H2O, "H2O"),
  (.CO, "CO"), (.C2H2, "C2H2"), (.C6H6, "C6H6"), (.C, "C"), (.CO2, "CO2")]
/-- sootDefs.h:67-77 -/
def gasSpMapIS : List (ℤ × String) := [(0, "O2"), (1, "O"), (2, "H2"), (3, "H"), (4, "OH"), (5, "H2O"), (6, "CO"),
  (7, "C2H2"), (8, "C6H6"), (9, "C"), (10, "CO2")]

/-- `(int)bioSp::X`, sootDefs.h:149 -/
def BioSp.toNat : BioSp → ℕ
  | cell => 0 | hw_hc => 1 | sw_hc => 2 | hw_lig => 3 | sw_lig => 4

/-- sootDefs.h:151-155 -/
def bioMapSE : List (String × BioSp) := [("cell", .cell), ("hw_hc", .hw_hc), ("sw_hc", .sw_hc), ("hw_lig", .hw_lig),
  ("sw_lig", .sw_lig)]
/-- sootDefs.h:157-161 -/
def bioMapES : List (BioSp × String) := [(.cell, "cell"), (.hw_hc, "hw_hc"), (.sw_hc, "sw_sc"), (.hw_lig, "hw_lig"),
  (.sw_lig, "sw_lig")]
/-- sootDefs.h:163-167 -/
def bioMapIS : List (ℤ × BioSp) := [(0, .cell), (1, .hw_hc), (2, .sw_hc), (3, .hw_lig), (4, .sw_lig)]

end Soot
