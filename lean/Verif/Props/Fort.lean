import Verif.Fort

/-!
# C65: Fortran bindings against the C interface
-/

namespace Soot.Fort

/-- Interoperability of a dummy argument with a C parameter (ISO_C_BINDING): by-value pointers with object pointers, by-value numbers with
numbers of the same kind, arrays with pointers to their element; a by-reference `type(C_ptr)` is a pointer to a pointer; `integer(C_int)` is
not `size_t`. -/
def interop : FTy → CTy → Bool
  | .ptrVal, .obj => true
  | .doubleVal, .double => true
  | .doubleArr, .doublePtr => true
  | .intVal, .int => true
  | .intVal, .enum => true
  | _, _ => false

def interopRet : FRet → CRet → Bool
  | .none, .void => true
  | .ptr, .obj => true
  | _, _ => false

/-- A binding describes the C function of its binding label: same number of parameters, each interoperable, same kind of result. -/
def Describes (f : FSig) (c : CSig) : Prop :=
  f.bind = c.name ∧ interopRet f.ret c.ret = true ∧ List.Forall₂ (fun a b => interop a b = true) f.args c.args

instance (f : FSig) (c : CSig) : Decidable (Describes f c) := by unfold Describes; infer_instance

/-- **C65, labels.** Every binding label names exactly one C function, every C function has exactly one binding, and the Fortran name is the
label. -/
theorem C65_labels : (fSigs.map FSig.bind).Nodup ∧ (cSigs.map CSig.name).Nodup ∧ (∀ n, n ∈ fSigs.map FSig.bind ↔ n ∈ cSigs.map CSig.name) ∧
    ∀ f ∈ fSigs, f.name = f.bind := by
  refine ⟨by decide +kernel, by decide +kernel, ?_, by decide +kernel⟩
  have h1 : fSigs.map FSig.bind ⊆ cSigs.map CSig.name := by decide +kernel
  have h2 : cSigs.map CSig.name ⊆ fSigs.map FSig.bind := by decide +kernel
  exact fun n => ⟨fun h => h1 h, fun h => h2 h⟩

/-- Bindings that do not describe their C function. -/
def badBindings : List String := [
  "tar_delete_C_interface",
  "sootModel_MONO_C_interface", "sootModel_QMOM_C_interface", "sootModel_LOGN_C_interface", "sootModel_MOMIC_C_interface",
  "sootModel_SECT_C_interface", "sootModel_HMOM_C_interface", "state_C_interface",
  "getGasSpC_C_interface", "getGasSpP_C_interface", "getGasMeanFreePath_C_interface", "get_pahSpC_C_interface", "get_pahSpP_C_interface",
  "setSootScales_C_interface", "get_T_interface", "get_rhoGas_interface", "get_yGas_interface", "get_yPAH_interface",
  "get_SootVar_interface", "get_TarVar_interface"]

/-- **C65, exact extent.** A binding describes the C function of its label if and only if it is not in `badBindings`. -/
theorem C65_bindings : ∀ f ∈ fSigs, (∃ c ∈ cSigs, Describes f c) ↔ f.name ∉ badBindings := by
  decide +kernel

/-- **C65 refuted.** `tar_delete` passes the address of the Fortran pointer variable where the C function deletes the object itself. -/
theorem C65_bindings_false : ∃ f ∈ fSigs, ∃ c ∈ cSigs, f.bind = c.name ∧ f.args = [.ptrRef] ∧ c.args = [.obj] ∧ ¬ ∃ c ∈ cSigs, Describes f c := by
  decide +kernel

/-- **C65, getters.** No binding returns a number: every C function with result `double` is bound as a subroutine. -/
theorem C65_getters : ∀ f ∈ fSigs, ∀ c ∈ cSigs, f.bind = c.name → c.ret = .double → f.ret = .none := by
  decide +kernel

/-- **C65, wrappers.** Every wrapper calls a procedure of the interface block with its own dummies in their own order (after the one that
receives the result); wrapper names are distinct. -/
theorem C65_wrappers : (wraps.map Wrap.name).Nodup ∧
    ∀ w ∈ wraps, w.callee ∈ fSigs.map FSig.name ∧ w.dummies.map Prod.fst = w.result.toList ++ w.actuals := by
  decide +kernel

/-- **C65, arity.** Every call has as many actual arguments as the procedure has dummies, and assigns a result exactly from functions. -/
theorem C65_arity : ∀ w ∈ wraps, ∃ f ∈ fSigs, f.name = w.callee ∧ f.args.length = w.actuals.length ∧ (w.result.isSome ↔ f.ret = .ptr) := by
  decide +kernel

/-- **C65, undefined arguments.** A scalar `intent(out)` dummy is undefined on entry; the wrappers that nevertheless pass one on, by value, are
exactly the seven listed, among them `setSourceTerms`. -/
theorem C65_undefined_arguments : ∀ w ∈ wraps,
    (∃ d ∈ w.dummies, d.2.1 = .out ∧ d.2.2 = false ∧ d.1 ∈ w.actuals) ↔
      w.name ∈ ["setSourceTerms", "getGasSpC", "getGasSpP", "getGasMeanFreePath", "get_pahSpC", "get_pahSpP", "setSootScales"] := by
  decide +kernel

/-- **C65, exports.** Every exported name is a wrapper; the only wrapper not exported is `tarModel_AJ_RED`. -/
theorem C65_exports : (∀ p ∈ publics, p ∈ wraps.map Wrap.name) ∧ ∀ w ∈ wraps, w.name ∈ publics ↔ w.name ≠ "tarModel_AJ_RED" := by
  decide +kernel

/-- Non-vacuity: the tables are complete (68 entries each). -/
example : fSigs.length = 68 ∧ cSigs.length = 68 ∧ wraps.length = 68 := by decide

end Soot.Fort
