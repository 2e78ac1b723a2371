import Verif.Base

/-!
# Fortran bindings (`/repo/src/fortran_wraps/soot_module.f90`) and the C functions they bind to (`c_interface.cc`)

Signatures are transcribed as tables; each entry cites its line.  Names of dummy arguments are kept for the wrappers only.
-/

namespace Soot.Fort

/-- Parameter types occurring in `c_interface.cc`: pointer to a library object, `double`, `double*`, `int`, `size_t`, an enumeration,
`std::vector<double>&`. -/
inductive CTy | obj | double | doublePtr | int | sizeT | enum | vecRef
  deriving DecidableEq

/-- Result types occurring in `c_interface.cc`. -/
inductive CRet | void | double | obj
  deriving DecidableEq

structure CSig where
  name : String
  ret : CRet
  args : List CTy
  line : Nat

/-- Dummy arguments occurring in the interface block: `type(C_ptr), value`; `type(C_ptr)` (by reference); `real(C_double), value`;
`real(C_double), dimension(*)`; `integer(C_int), value`; `character(C_char)` (by reference). -/
inductive FTy | ptrVal | ptrRef | doubleVal | doubleArr | intVal | charRef
  deriving DecidableEq

/-- A function with result `type(C_ptr)` or a subroutine. -/
inductive FRet | none | ptr
  deriving DecidableEq

structure FSig where
  name : String
  bind : String
  ret : FRet
  args : List FTy
  line : Nat

/-- `intent` of a dummy argument of a wrapper. -/
inductive Intent | inp | out | inout
  deriving DecidableEq

/-- A wrapper subroutine: dummies with intent, the dummy assigned from the function result (if any), the interface procedure it calls and
the names of the actual arguments. -/
structure Wrap where
  name : String
  dummies : List (String × Intent × Bool)  -- name, intent, is an array
  result : Option String
  callee : String
  actuals : List String
  line : Nat

/-- Signatures of the `extern "C"` functions, `c_interface.cc:24-393`. -/
def cSigs : List CSig := [
  ⟨"nucleationModel_LL_C_interface", .obj, [], 24⟩,
  ⟨"nucleationModel_LIN_C_interface", .obj, [], 28⟩,
  ⟨"nucleationModel_LINA1_C_interface", .obj, [], 32⟩,
  ⟨"nucleationModel_PAH_C_interface", .obj, [], 36⟩,
  ⟨"nucleationModel_MB_C_interface", .obj, [], 40⟩,
  ⟨"nucleationModel_FAIR_C_interface", .obj, [], 44⟩,
  ⟨"nucleationModel_AJ_RED_C_interface", .obj, [], 48⟩,
  ⟨"nucleationModel_BROWN_C_interface", .obj, [], 52⟩,
  ⟨"nucleationModel_NONE_C_interface", .obj, [], 56⟩,
  ⟨"nucleation_delete_C_interface", .void, [.obj], 60⟩,
  ⟨"growthModel_LL_C_interface", .obj, [], 70⟩,
  ⟨"growthModel_LIN_C_interface", .obj, [], 74⟩,
  ⟨"growthModel_HACA_C_interface", .obj, [], 78⟩,
  ⟨"growthModel_MB_C_interface", .obj, [], 82⟩,
  ⟨"growthModel_FAIR_C_interface", .obj, [], 86⟩,
  ⟨"growthModel_NONE_C_interface", .obj, [], 90⟩,
  ⟨"growth_delete_C_interface", .void, [.obj], 94⟩,
  ⟨"oxidationModel_LL_C_interface", .obj, [], 104⟩,
  ⟨"oxidationModel_LEE_NEOH_C_interface", .obj, [], 108⟩,
  ⟨"oxidationModel_NSC_NEOH_C_interface", .obj, [], 112⟩,
  ⟨"oxidationModel_HACA_C_interface", .obj, [], 116⟩,
  ⟨"oxidationModel_OPTJ_C_interface", .obj, [], 120⟩,
  ⟨"oxidationModel_OPTG_C_interface", .obj, [], 124⟩,
  ⟨"oxidationModel_MB_C_interface", .obj, [], 128⟩,
  ⟨"oxidationModel_FAIR_C_interface", .obj, [], 132⟩,
  ⟨"oxidationModel_AJ_RED_C_interface", .obj, [], 136⟩,
  ⟨"oxidationModel_BROWN_C_interface", .obj, [], 140⟩,
  ⟨"oxidationModel_NONE_C_interface", .obj, [], 144⟩,
  ⟨"oxid_delete_C_interface", .void, [.obj], 148⟩,
  ⟨"coagulationModel_FM_C_interface", .obj, [], 158⟩,
  ⟨"coagulationModel_CONTINUUM_C_interface", .obj, [], 162⟩,
  ⟨"coagulationModel_HM_C_interface", .obj, [], 166⟩,
  ⟨"coagulationModel_FUCHS_C_interface", .obj, [], 170⟩,
  ⟨"coagulationModel_NONE_C_interface", .obj, [], 174⟩,
  ⟨"set_FM_multiplier_C_interface", .void, [.obj, .double], 178⟩,
  ⟨"coag_delete_C_interface", .void, [.obj], 183⟩,
  ⟨"tarModel_NONE_C_interface", .obj, [], 193⟩,
  ⟨"tarModel_AJ_RED_C_interface", .obj, [], 197⟩,
  ⟨"tarModel_BROWN_C_interface", .obj, [], 201⟩,
  ⟨"tar_delete_C_interface", .void, [.obj], 205⟩,
  ⟨"sootModel_MONO_C_interface", .obj, [.sizeT, .obj, .obj, .obj, .obj, .sizeT, .obj], 216⟩,
  ⟨"sootModel_delete_C_interface", .void, [.obj, .obj, .obj, .obj, .obj, .obj], 227⟩,
  ⟨"sootModel_QMOM_C_interface", .obj, [.sizeT, .obj, .obj, .obj, .obj, .sizeT, .obj], 237⟩,
  ⟨"sootModel_LOGN_C_interface", .obj, [.sizeT, .obj, .obj, .obj, .obj, .sizeT, .obj], 247⟩,
  ⟨"sootModel_MOMIC_C_interface", .obj, [.sizeT, .obj, .obj, .obj, .obj, .sizeT, .obj], 257⟩,
  ⟨"sootModel_SECT_C_interface", .obj, [.sizeT, .obj, .obj, .obj, .obj, .sizeT, .obj], 267⟩,
  ⟨"sootModel_HMOM_C_interface", .obj, [.sizeT, .obj, .obj, .obj, .obj, .sizeT, .obj], 277⟩,
  ⟨"setSourceTerms_C_interface", .void, [.obj, .obj], 287⟩,
  ⟨"state_C_interface", .obj, [.sizeT, .sizeT], 296⟩,
  ⟨"state_delete_C_interface", .void, [.obj], 300⟩,
  ⟨"setState_C_interface", .void, [.obj, .double, .double, .double, .double, .doublePtr, .doublePtr, .doublePtr, .int, .doublePtr, .int, .double], 304⟩,
  ⟨"getGasSpC_C_interface", .double, [.obj, .enum], 316⟩,
  ⟨"getGasSpP_C_interface", .double, [.obj, .enum], 320⟩,
  ⟨"getGasMeanFreePath_C_interface", .double, [.obj], 324⟩,
  ⟨"get_pahSpC_C_interface", .double, [.obj, .enum], 328⟩,
  ⟨"get_pahSpP_C_interface", .double, [.obj, .enum], 332⟩,
  ⟨"setSootScales_C_interface", .void, [.obj, .vecRef], 336⟩,
  ⟨"getyBio_interface", .void, [.obj, .doublePtr], 340⟩,
  ⟨"get_mtar_ytar_interface", .void, [.obj], 345⟩,
  ⟨"get_T_interface", .double, [.obj], 349⟩,
  ⟨"get_rhoGas_interface", .double, [.obj], 353⟩,
  ⟨"get_yGas_interface", .double, [.obj, .enum], 357⟩,
  ⟨"get_yPAH_interface", .double, [.obj, .enum], 361⟩,
  ⟨"get_SootVar_interface", .double, [.obj, .int], 369⟩,
  ⟨"get_TarVar_interface", .double, [.obj, .int], 373⟩,
  ⟨"getSootSources_interface", .void, [.doublePtr, .obj, .int], 377⟩,
  ⟨"getGasSources_interface", .void, [.doublePtr, .obj], 384⟩,
  ⟨"getTarSources_interface", .void, [.doublePtr, .obj, .int], 388⟩]

/-- Interface block, `soot_module.f90:12-583`. -/
def fSigs : List FSig := [
  ⟨"nucleationModel_LL_C_interface", "nucleationModel_LL_C_interface", .ptr, [], 16⟩,
  ⟨"nucleationModel_LIN_C_interface", "nucleationModel_LIN_C_interface", .ptr, [], 23⟩,
  ⟨"nucleationModel_LINA1_C_interface", "nucleationModel_LINA1_C_interface", .ptr, [], 30⟩,
  ⟨"nucleationModel_PAH_C_interface", "nucleationModel_PAH_C_interface", .ptr, [], 37⟩,
  ⟨"nucleationModel_MB_C_interface", "nucleationModel_MB_C_interface", .ptr, [], 44⟩,
  ⟨"nucleationModel_FAIR_C_interface", "nucleationModel_FAIR_C_interface", .ptr, [], 51⟩,
  ⟨"nucleationModel_AJ_RED_C_interface", "nucleationModel_AJ_RED_C_interface", .ptr, [], 58⟩,
  ⟨"nucleationModel_BROWN_C_interface", "nucleationModel_BROWN_C_interface", .ptr, [], 65⟩,
  ⟨"nucleationModel_NONE_C_interface", "nucleationModel_NONE_C_interface", .ptr, [], 72⟩,
  ⟨"nucleation_delete_C_interface", "nucleation_delete_C_interface", .none, [.ptrVal], 79⟩,
  ⟨"growthModel_LL_C_interface", "growthModel_LL_C_interface", .ptr, [], 86⟩,
  ⟨"growthModel_LIN_C_interface", "growthModel_LIN_C_interface", .ptr, [], 93⟩,
  ⟨"growthModel_HACA_C_interface", "growthModel_HACA_C_interface", .ptr, [], 100⟩,
  ⟨"growthModel_MB_C_interface", "growthModel_MB_C_interface", .ptr, [], 107⟩,
  ⟨"growthModel_FAIR_C_interface", "growthModel_FAIR_C_interface", .ptr, [], 114⟩,
  ⟨"growthModel_NONE_C_interface", "growthModel_NONE_C_interface", .ptr, [], 121⟩,
  ⟨"growth_delete_C_interface", "growth_delete_C_interface", .none, [.ptrVal], 128⟩,
  ⟨"oxidationModel_LL_C_interface", "oxidationModel_LL_C_interface", .ptr, [], 135⟩,
  ⟨"oxidationModel_LEE_NEOH_C_interface", "oxidationModel_LEE_NEOH_C_interface", .ptr, [], 142⟩,
  ⟨"oxidationModel_NSC_NEOH_C_interface", "oxidationModel_NSC_NEOH_C_interface", .ptr, [], 149⟩,
  ⟨"oxidationModel_HACA_C_interface", "oxidationModel_HACA_C_interface", .ptr, [], 156⟩,
  ⟨"oxidationModel_OPTJ_C_interface", "oxidationModel_OPTJ_C_interface", .ptr, [], 163⟩,
  ⟨"oxidationModel_OPTG_C_interface", "oxidationModel_OPTG_C_interface", .ptr, [], 170⟩,
  ⟨"oxidationModel_MB_C_interface", "oxidationModel_MB_C_interface", .ptr, [], 177⟩,
  ⟨"oxidationModel_FAIR_C_interface", "oxidationModel_FAIR_C_interface", .ptr, [], 184⟩,
  ⟨"oxidationModel_AJ_RED_C_interface", "oxidationModel_AJ_RED_C_interface", .ptr, [], 191⟩,
  ⟨"oxidationModel_BROWN_C_interface", "oxidationModel_BROWN_C_interface", .ptr, [], 198⟩,
  ⟨"oxidationModel_NONE_C_interface", "oxidationModel_NONE_C_interface", .ptr, [], 205⟩,
  ⟨"oxid_delete_C_interface", "oxid_delete_C_interface", .none, [.ptrVal], 212⟩,
  ⟨"coagulationModel_FM_C_interface", "coagulationModel_FM_C_interface", .ptr, [], 219⟩,
  ⟨"coagulationModel_CONTINUUM_C_interface", "coagulationModel_CONTINUUM_C_interface", .ptr, [], 226⟩,
  ⟨"coagulationModel_HM_C_interface", "coagulationModel_HM_C_interface", .ptr, [], 233⟩,
  ⟨"coagulationModel_FUCHS_C_interface", "coagulationModel_FUCHS_C_interface", .ptr, [], 240⟩,
  ⟨"coagulationModel_NONE_C_interface", "coagulationModel_NONE_C_interface", .ptr, [], 247⟩,
  ⟨"set_FM_multiplier_C_interface", "set_FM_multiplier_C_interface", .none, [.ptrVal, .doubleVal], 254⟩,
  ⟨"coag_delete_C_interface", "coag_delete_C_interface", .none, [.ptrVal], 263⟩,
  ⟨"tarModel_NONE_C_interface", "tarModel_NONE_C_interface", .ptr, [], 270⟩,
  ⟨"tarModel_AJ_RED_C_interface", "tarModel_AJ_RED_C_interface", .ptr, [], 277⟩,
  ⟨"tarModel_BROWN_C_interface", "tarModel_BROWN_C_interface", .ptr, [], 284⟩,
  ⟨"tar_delete_C_interface", "tar_delete_C_interface", .none, [.ptrRef], 291⟩,
  ⟨"sootModel_MONO_C_interface", "sootModel_MONO_C_interface", .ptr, [.intVal, .ptrVal, .ptrVal, .ptrVal, .ptrVal, .intVal, .ptrVal], 298⟩,
  ⟨"sootModel_QMOM_C_interface", "sootModel_QMOM_C_interface", .ptr, [.intVal, .ptrVal, .ptrVal, .ptrVal, .ptrVal, .intVal, .ptrVal], 313⟩,
  ⟨"sootModel_LOGN_C_interface", "sootModel_LOGN_C_interface", .ptr, [.intVal, .ptrVal, .ptrVal, .ptrVal, .ptrVal, .intVal, .ptrVal], 328⟩,
  ⟨"sootModel_MOMIC_C_interface", "sootModel_MOMIC_C_interface", .ptr, [.intVal, .ptrVal, .ptrVal, .ptrVal, .ptrVal, .intVal, .ptrVal], 343⟩,
  ⟨"sootModel_SECT_C_interface", "sootModel_SECT_C_interface", .ptr, [.intVal, .ptrVal, .ptrVal, .ptrVal, .ptrVal, .intVal, .ptrVal], 358⟩,
  ⟨"sootModel_HMOM_C_interface", "sootModel_HMOM_C_interface", .ptr, [.intVal, .ptrVal, .ptrVal, .ptrVal, .ptrVal, .intVal, .ptrVal], 373⟩,
  ⟨"sootModel_delete_C_interface", "sootModel_delete_C_interface", .none, [.ptrVal, .ptrVal, .ptrVal, .ptrVal, .ptrVal, .ptrVal], 388⟩,
  ⟨"setSourceTerms_C_interface", "setSourceTerms_C_interface", .none, [.ptrVal, .ptrVal], 401⟩,
  ⟨"state_C_interface", "state_C_interface", .ptr, [.intVal, .intVal], 409⟩,
  ⟨"state_delete_C_interface", "state_delete_C_interface", .none, [.ptrVal], 418⟩,
  ⟨"setState_C_interface", "setState_C_interface", .none, [.ptrVal, .doubleVal, .doubleVal, .doubleVal, .doubleVal, .doubleArr, .doubleArr, .doubleArr, .intVal, .doubleArr, .intVal, .doubleVal], 425⟩,
  ⟨"getGasSpC_C_interface", "getGasSpC_C_interface", .none, [.ptrVal, .ptrVal], 445⟩,
  ⟨"getGasSpP_C_interface", "getGasSpP_C_interface", .none, [.ptrVal, .ptrVal], 453⟩,
  ⟨"getGasMeanFreePath_C_interface", "getGasMeanFreePath_C_interface", .none, [.ptrVal], 461⟩,
  ⟨"get_pahSpC_C_interface", "get_pahSpC_C_interface", .none, [.ptrVal, .ptrVal], 469⟩,
  ⟨"get_pahSpP_C_interface", "get_pahSpP_C_interface", .none, [.ptrVal, .ptrVal], 477⟩,
  ⟨"setSootScales_C_interface", "setSootScales_C_interface", .none, [.ptrVal, .doubleArr], 485⟩,
  ⟨"getyBio_interface", "getyBio_interface", .none, [.ptrVal, .doubleArr], 494⟩,
  ⟨"get_mtar_ytar_interface", "get_mtar_ytar_interface", .none, [.ptrVal], 502⟩,
  ⟨"get_T_interface", "get_T_interface", .none, [.ptrVal], 509⟩,
  ⟨"get_rhoGas_interface", "get_rhoGas_interface", .none, [.ptrVal], 516⟩,
  ⟨"get_yGas_interface", "get_yGas_interface", .none, [.ptrVal, .charRef], 523⟩,
  ⟨"get_yPAH_interface", "get_yPAH_interface", .none, [.ptrVal, .charRef], 531⟩,
  ⟨"get_SootVar_interface", "get_SootVar_interface", .none, [.ptrVal, .intVal], 547⟩,
  ⟨"get_TarVar_interface", "get_TarVar_interface", .none, [.ptrVal, .intVal], 555⟩,
  ⟨"getSootSources_interface", "getSootSources_interface", .none, [.doubleArr, .ptrVal, .intVal], 563⟩,
  ⟨"getGasSources_interface", "getGasSources_interface", .none, [.doubleArr, .ptrVal], 572⟩,
  ⟨"getTarSources_interface", "getTarSources_interface", .none, [.doubleArr, .ptrVal, .intVal], 578⟩]

/-- Wrapper subroutines, `soot_module.f90:605-1197`. -/
def wraps : List Wrap := [
  ⟨"nucleationModel_LL", [("nucl_ptr", .out, false)], some "nucl_ptr", "nucleationModel_LL_C_interface", [], 607⟩,
  ⟨"nucleationModel_LIN", [("nucl_ptr", .out, false)], some "nucl_ptr", "nucleationModel_LIN_C_interface", [], 614⟩,
  ⟨"nucleationModel_LINA1", [("nucl_ptr", .out, false)], some "nucl_ptr", "nucleationModel_LINA1_C_interface", [], 621⟩,
  ⟨"nucleationModel_PAH", [("nucl_ptr", .out, false)], some "nucl_ptr", "nucleationModel_PAH_C_interface", [], 628⟩,
  ⟨"nucleationModel_MB", [("nucl_ptr", .out, false)], some "nucl_ptr", "nucleationModel_MB_C_interface", [], 635⟩,
  ⟨"nucleationModel_FAIR", [("nucl_ptr", .out, false)], some "nucl_ptr", "nucleationModel_FAIR_C_interface", [], 642⟩,
  ⟨"nucleationModel_AJ_RED", [("nucl_ptr", .out, false)], some "nucl_ptr", "nucleationModel_AJ_RED_C_interface", [], 649⟩,
  ⟨"nucleationModel_BROWN", [("nucl_ptr", .out, false)], some "nucl_ptr", "nucleationModel_BROWN_C_interface", [], 656⟩,
  ⟨"nucleationModel_NONE", [("nucl_ptr", .out, false)], some "nucl_ptr", "nucleationModel_NONE_C_interface", [], 663⟩,
  ⟨"nucleation_delete", [("nucl_ptr", .inout, false)], none, "nucleation_delete_C_interface", ["nucl_ptr"], 670⟩,
  ⟨"growthModel_LL", [("grow_ptr", .out, false)], some "grow_ptr", "growthModel_LL_C_interface", [], 678⟩,
  ⟨"growthModel_LIN", [("grow_ptr", .out, false)], some "grow_ptr", "growthModel_LIN_C_interface", [], 685⟩,
  ⟨"growthModel_HACA", [("grow_ptr", .out, false)], some "grow_ptr", "growthModel_HACA_C_interface", [], 692⟩,
  ⟨"growthModel_MB", [("grow_ptr", .out, false)], some "grow_ptr", "growthModel_MB_C_interface", [], 699⟩,
  ⟨"growthModel_FAIR", [("grow_ptr", .out, false)], some "grow_ptr", "growthModel_FAIR_C_interface", [], 706⟩,
  ⟨"growthModel_NONE", [("grow_ptr", .out, false)], some "grow_ptr", "growthModel_NONE_C_interface", [], 713⟩,
  ⟨"growth_delete", [("grow_ptr", .inout, false)], none, "growth_delete_C_interface", ["grow_ptr"], 720⟩,
  ⟨"oxidationModel_LL", [("oxid_ptr", .out, false)], some "oxid_ptr", "oxidationModel_LL_C_interface", [], 728⟩,
  ⟨"oxidationModel_LEE_NEOH", [("oxid_ptr", .out, false)], some "oxid_ptr", "oxidationModel_LEE_NEOH_C_interface", [], 735⟩,
  ⟨"oxidationModel_NSC_NEOH", [("oxid_ptr", .out, false)], some "oxid_ptr", "oxidationModel_NSC_NEOH_C_interface", [], 742⟩,
  ⟨"oxidationModel_HACA", [("oxid_ptr", .out, false)], some "oxid_ptr", "oxidationModel_HACA_C_interface", [], 749⟩,
  ⟨"oxidationModel_OPTJ", [("oxid_ptr", .out, false)], some "oxid_ptr", "oxidationModel_OPTJ_C_interface", [], 756⟩,
  ⟨"oxidationModel_OPTG", [("oxid_ptr", .out, false)], some "oxid_ptr", "oxidationModel_OPTG_C_interface", [], 763⟩,
  ⟨"oxidationModel_MB", [("oxid_ptr", .out, false)], some "oxid_ptr", "oxidationModel_MB_C_interface", [], 770⟩,
  ⟨"oxidationModel_FAIR", [("oxid_ptr", .out, false)], some "oxid_ptr", "oxidationModel_FAIR_C_interface", [], 777⟩,
  ⟨"oxidationModel_AJ_RED", [("oxid_ptr", .out, false)], some "oxid_ptr", "oxidationModel_AJ_RED_C_interface", [], 784⟩,
  ⟨"oxidationModel_BROWN", [("oxid_ptr", .out, false)], some "oxid_ptr", "oxidationModel_BROWN_C_interface", [], 791⟩,
  ⟨"oxidationModel_NONE", [("oxid_ptr", .out, false)], some "oxid_ptr", "oxidationModel_NONE_C_interface", [], 798⟩,
  ⟨"oxid_delete", [("oxid_ptr", .inout, false)], none, "oxid_delete_C_interface", ["oxid_ptr"], 805⟩,
  ⟨"coagulationModel_FM", [("coag_ptr", .out, false)], some "coag_ptr", "coagulationModel_FM_C_interface", [], 813⟩,
  ⟨"coagulationModel_CONTINUUM", [("coag_ptr", .out, false)], some "coag_ptr", "coagulationModel_CONTINUUM_C_interface", [], 820⟩,
  ⟨"coagulationModel_HM", [("coag_ptr", .out, false)], some "coag_ptr", "coagulationModel_HM_C_interface", [], 827⟩,
  ⟨"coagulationModel_FUCHS", [("coag_ptr", .out, false)], some "coag_ptr", "coagulationModel_FUCHS_C_interface", [], 834⟩,
  ⟨"coagulationModel_NONE", [("coag_ptr", .out, false)], some "coag_ptr", "coagulationModel_NONE_C_interface", [], 841⟩,
  ⟨"set_FM_multiplier", [("coag_ptr", .inp, false), ("FM_multiplier_", .inp, false)], none, "set_FM_multiplier_C_interface", ["coag_ptr", "FM_multiplier_"], 848⟩,
  ⟨"coag_delete", [("coag_ptr", .inout, false)], none, "coag_delete_C_interface", ["coag_ptr"], 857⟩,
  ⟨"tarModel_NONE", [("tar_ptr", .out, false)], some "tar_ptr", "tarModel_NONE_C_interface", [], 865⟩,
  ⟨"tarModel_AJ_RED", [("tar_ptr", .out, false)], some "tar_ptr", "tarModel_AJ_RED_C_interface", [], 872⟩,
  ⟨"tarModel_BROWN", [("tar_ptr", .out, false)], some "tar_ptr", "tarModel_BROWN_C_interface", [], 879⟩,
  ⟨"tar_delete", [("tar_ptr", .inout, false)], none, "tar_delete_C_interface", ["tar_ptr"], 886⟩,
  ⟨"sootModel_MONO", [("SM_ptr", .out, false), ("nsoot_", .inp, false), ("nucl_ptr", .inp, false), ("grow_ptr", .inp, false), ("oxid_ptr", .inp, false), ("coag_ptr", .inp, false), ("Ntar_", .inp, false), ("tar_ptr", .inp, false)], some "SM_ptr", "sootModel_MONO_C_interface", ["nsoot_", "nucl_ptr", "grow_ptr", "oxid_ptr", "coag_ptr", "Ntar_", "tar_ptr"], 894⟩,
  ⟨"sootModel_delete", [("SM_ptr", .inout, false), ("nucl_ptr", .inout, false), ("grow_ptr", .inout, false), ("oxid_ptr", .inout, false), ("coag_ptr", .inout, false), ("tar_ptr", .inout, false)], none, "sootModel_delete_C_interface", ["SM_ptr", "nucl_ptr", "grow_ptr", "oxid_ptr", "coag_ptr", "tar_ptr"], 909⟩,
  ⟨"sootModel_QMOM", [("SM_ptr", .out, false), ("nsoot_", .inp, false), ("nucl_ptr", .inp, false), ("grow_ptr", .inp, false), ("oxid_ptr", .inp, false), ("coag_ptr", .inp, false), ("Ntar_", .inp, false), ("tar_ptr", .inp, false)], some "SM_ptr", "sootModel_QMOM_C_interface", ["nsoot_", "nucl_ptr", "grow_ptr", "oxid_ptr", "coag_ptr", "Ntar_", "tar_ptr"], 929⟩,
  ⟨"sootModel_LOGN", [("SM_ptr", .out, false), ("nsoot_", .inp, false), ("nucl_ptr", .inp, false), ("grow_ptr", .inp, false), ("oxid_ptr", .inp, false), ("coag_ptr", .inp, false), ("Ntar_", .inp, false), ("tar_ptr", .inp, false)], some "SM_ptr", "sootModel_LOGN_C_interface", ["nsoot_", "nucl_ptr", "grow_ptr", "oxid_ptr", "coag_ptr", "Ntar_", "tar_ptr"], 944⟩,
  ⟨"sootModel_MOMIC", [("SM_ptr", .out, false), ("nsoot_", .inp, false), ("nucl_ptr", .inp, false), ("grow_ptr", .inp, false), ("oxid_ptr", .inp, false), ("coag_ptr", .inp, false), ("Ntar_", .inp, false), ("tar_ptr", .inp, false)], some "SM_ptr", "sootModel_MOMIC_C_interface", ["nsoot_", "nucl_ptr", "grow_ptr", "oxid_ptr", "coag_ptr", "Ntar_", "tar_ptr"], 959⟩,
  ⟨"sootModel_SECT", [("SM_ptr", .out, false), ("nsoot_", .inp, false), ("nucl_ptr", .inp, false), ("grow_ptr", .inp, false), ("oxid_ptr", .inp, false), ("coag_ptr", .inp, false), ("Ntar_", .inp, false), ("tar_ptr", .inp, false)], some "SM_ptr", "sootModel_SECT_C_interface", ["nsoot_", "nucl_ptr", "grow_ptr", "oxid_ptr", "coag_ptr", "Ntar_", "tar_ptr"], 974⟩,
  ⟨"sootModel_HMOM", [("SM_ptr", .out, false), ("nsoot_", .inp, false), ("nucl_ptr", .inp, false), ("grow_ptr", .inp, false), ("oxid_ptr", .inp, false), ("coag_ptr", .inp, false), ("Ntar_", .inp, false), ("tar_ptr", .inp, false)], some "SM_ptr", "sootModel_HMOM_C_interface", ["nsoot_", "nucl_ptr", "grow_ptr", "oxid_ptr", "coag_ptr", "Ntar_", "tar_ptr"], 989⟩,
  ⟨"state", [("state_ptr", .out, false), ("nsoot_", .inp, false), ("Ntar_", .inp, false)], some "state_ptr", "state_C_interface", ["nsoot_", "Ntar_"], 1004⟩,
  ⟨"state_delete", [("state_ptr", .inout, false)], none, "state_delete_C_interface", ["state_ptr"], 1014⟩,
  ⟨"setState", [("state_ptr", .inp, false), ("T_", .inp, false), ("P_", .inp, false), ("rhoGas_", .inp, false), ("muGas_", .inp, false), ("yGas_", .inp, true), ("yPAH_", .inp, true), ("sootVar_", .inp, true), ("nsoot_", .inp, false), ("tarVar_", .inp, true), ("Ntar_", .inp, false), ("cMin_", .inp, false)], none, "setState_C_interface", ["state_ptr", "T_", "P_", "rhoGas_", "muGas_", "yGas_", "yPAH_", "sootVar_", "nsoot_", "tarVar_", "Ntar_", "cMin_"], 1022⟩,
  ⟨"get_mtar_ytar", [("state_ptr", .inp, false)], none, "get_mtar_ytar_interface", ["state_ptr"], 1043⟩,
  ⟨"setSourceTerms", [("SM_ptr", .out, false), ("state_ptr", .inp, false)], none, "setSourceTerms_C_interface", ["SM_ptr", "state_ptr"], 1051⟩,
  ⟨"getGasSpC", [("state_ptr", .out, false), ("sp", .inp, false)], none, "getGasSpC_C_interface", ["state_ptr", "sp"], 1060⟩,
  ⟨"getGasSpP", [("state_ptr", .out, false), ("sp", .inp, false)], none, "getGasSpP_C_interface", ["state_ptr", "sp"], 1069⟩,
  ⟨"getGasMeanFreePath", [("state_ptr", .out, false)], none, "getGasMeanFreePath_C_interface", ["state_ptr"], 1078⟩,
  ⟨"get_pahSpC", [("state_ptr", .out, false), ("sp", .inp, false)], none, "get_pahSpC_C_interface", ["state_ptr", "sp"], 1085⟩,
  ⟨"get_pahSpP", [("state_ptr", .out, false), ("sp", .inp, false)], none, "get_pahSpP_C_interface", ["state_ptr", "sp"], 1093⟩,
  ⟨"setSootScales", [("state_ptr", .out, false), ("sootScales_", .inp, true)], none, "setSootScales_C_interface", ["state_ptr", "sootScales_"], 1101⟩,
  ⟨"get_T", [("state_ptr", .inp, false)], none, "get_T_interface", ["state_ptr"], 1109⟩,
  ⟨"get_rhoGas", [("state_ptr", .inp, false)], none, "get_rhoGas_interface", ["state_ptr"], 1116⟩,
  ⟨"get_yGas", [("state_ptr", .inp, false), ("sp", .inp, false)], none, "get_yGas_interface", ["state_ptr", "sp"], 1123⟩,
  ⟨"get_yPAH", [("state_ptr", .inp, false), ("sp", .inp, false)], none, "get_yPAH_interface", ["state_ptr", "sp"], 1131⟩,
  ⟨"getyBio", [("state_ptr", .inp, false), ("yBio_", .inp, true)], none, "getyBio_interface", ["state_ptr", "yBio_"], 1147⟩,
  ⟨"get_SootVar", [("state_ptr", .inp, false), ("i", .inp, false)], none, "get_SootVar_interface", ["state_ptr", "i"], 1155⟩,
  ⟨"get_TarVar", [("state_ptr", .inp, false), ("i", .inp, false)], none, "get_TarVar_interface", ["state_ptr", "i"], 1163⟩,
  ⟨"getSootSources", [("source", .out, true), ("SM_ptr", .inp, false), ("nsoot_", .inp, false)], none, "getSootSources_interface", ["source", "SM_ptr", "nsoot_"], 1171⟩,
  ⟨"getGasSources", [("source", .out, true), ("SM_ptr", .inp, false)], none, "getGasSources_interface", ["source", "SM_ptr"], 1181⟩,
  ⟨"getTarSources", [("source", .out, true), ("SM_ptr", .inp, false), ("Ntar_", .inp, false)], none, "getTarSources_interface", ["source", "SM_ptr", "Ntar_"], 1188⟩]

/-- `public ::` list, `soot_module.f90:588-598`. -/
def publics : List String := [
  "nucleationModel_LL", "nucleationModel_LIN", "growthModel_LL", "growthModel_LIN", "nucleation_delete", "growth_delete",
  "oxidationModel_LL", "oxid_delete", "coagulationModel_FM", "set_FM_multiplier", "coag_delete", "tarModel_NONE", "tar_delete",
  "sootModel_MONO", "sootModel_delete", "sootModel_QMOM", "setSourceTerms", "state", "state_delete", "setState", "getGasSpC",
  "getGasSpP", "getGasMeanFreePath", "get_pahSpC", "get_pahSpP", "setSootScales", "get_T", "get_rhoGas", "get_yGas", "get_yPAH",
  "getyBio", "get_SootVar", "get_TarVar", "getSootSources", "nucleationModel_LINA1", "nucleationModel_MB", "nucleationModel_PAH",
  "nucleationModel_FAIR", "nucleationModel_AJ_RED", "nucleationModel_NONE", "growthModel_HACA", "growthModel_MB",
  "growthModel_FAIR", "growthModel_NONE", "oxidationModel_LEE_NEOH", "oxidationModel_NSC_NEOH", "oxidationModel_HACA",
  "oxidationModel_OPTJ", "oxidationModel_OPTG", "oxidationModel_MB", "oxidationModel_FAIR", "oxidationModel_AJ_RED",
  "oxidationModel_NONE", "coagulationModel_CONTINUUM", "coagulationModel_HM", "coagulationModel_FUCHS", "coagulationModel_NONE",
  "sootModel_LOGN", "sootModel_MOMIC", "sootModel_SECT", "sootModel_HMOM", "get_mtar_ytar", "tarModel_BROWN",
  "nucleationModel_BROWN", "oxidationModel_BROWN", "getGasSources", "getTarSources"]

end Soot.Fort
