{
 "claims": [
  {
   "property": "C01",
   "status": "proved",
   "theorems": [
    "Soot.C01_setState_accepts",
    "Soot.C01_setState_rejects",
    "Soot.C01_setState_iff"
   ],
   "note": ""
  },
  {
   "property": "C02",
   "status": "proved",
   "theorems": [
    "Soot.C02_setState_valid"
   ],
   "note": ""
  },
  {
   "property": "C03",
   "status": "partial",
   "theorems": [
    "Soot.C03_gas_not_clamped",
    "Soot.C03_gas_upper_partial"
   ],
   "note": "The property is false of the code: C03_gas_not_clamped gives an accepted input whose negative fraction is stored. The partial theorem proves the upper bound and that the vector is stored unchanged."
  },
  {
   "property": "C04",
   "status": "partial",
   "theorems": [
    "Soot.C04_setState_not_atomic",
    "Soot.C04_setState_torn_partial",
    "Soot.C04_scalar_reject_keeps_vectors_partial"
   ],
   "note": "The property is false of the code: C04_setState_not_atomic exhibits a rejected call that changes T. The partial theorems prove every field is old or new, and that vectors are untouched when a scalar is rejected."
  },
  {
   "property": "C05",
   "status": "proved",
   "theorems": [
    "Soot.C05_setState_last_wins",
    "Soot.C05_old_count_matters"
   ],
   "note": ""
  },
  {
   "property": "C06",
   "status": "proved",
   "theorems": [
    "Soot.C06_setState_ub_iff"
   ],
   "note": ""
  },
  {
   "property": "C07",
   "status": "proved",
   "theorems": [
    "Soot.C07_ideal_gas"
   ],
   "note": ""
  },
  {
   "property": "C08",
   "status": "proved",
   "theorems": [
    "Soot.C08_mass_conserved"
   ],
   "note": ""
  },
  {
   "property": "C09",
   "status": "proved",
   "theorems": [
    "Soot.C09_elements_conserved",
    "Soot.C09_tables_consistent"
   ],
   "note": ""
  },
  {
   "property": "C10",
   "status": "partial",
   "theorems": [
    "Soot.C10_mono",
    "Soot.C10_sect",
    "Soot.C10_logn",
    "Soot.C10_qmom",
    "Soot.C10_momic",
    "Soot.Superposed.all_none",
    "Soot.C10_gasC_mono",
    "Soot.C10_gasC_logn",
    "Soot.C10_gasC_qmom",
    "Soot.C10_gasC_momic",
    "Soot.C10_gasC_hmom",
    "Soot.C10_gasC_sect",
    "Soot.C10_brown_false"
   ],
   "note": "Superposition: for all 8 on/off selections of nucleation, growth and oxidation every source is the sum of fixed per-mechanism contributions; coagulation part is zero for NONE; gas source of C is zero for every completing call of every model (incl. tar branches and HMOM under any value of its undefined read). False of the code for MONO with BROWN tar, where particles are lost although every mechanism is NONE."
  },
  {
   "property": "C100",
   "status": "partial",
   "theorems": [
    "Soot.C100_kernel_continuous_partial",
    "Soot.C100_kernel_jump",
    "Soot.C100_mono_jump"
   ],
   "note": "Refuted at the cutoff mass: C100_kernel_jump and C100_mono_jump prove the jump in every state. C100_kernel_continuous_partial proves continuity everywhere else."
  },
  {
   "property": "C101",
   "status": "proved",
   "theorems": [
    "Soot.C101_nucleation",
    "Soot.C101_growth",
    "Soot.C101_oxidation",
    "Soot.C101_nsc",
    "Soot.C101_nsc_ratio",
    "Soot.C101_binary64",
    "Soot.C101_digits",
    "Soot.C101_absent",
    "Soot.C101_no_particles"
   ],
   "note": "Assumes library functions with relative error eps (exact in the binary64 instance) and no contraction to fused multiply-add. HACA, PAH and tar mechanisms are not covered (tanh, log10); the sectional sums are not covered here."
  },
  {
   "property": "C102",
   "status": "proved",
   "theorems": [
    "Soot.C102_mono_accuracy",
    "Soot.C102_digits"
   ],
   "note": "The bound is relative to the sizes of the processes, not to their sum: with cancellation no relative bound on the sum holds. Assumes library functions with relative error eps (exact in the binary64 instance) and no fused multiply-add. One stored tar variable, HACA and PAH are not covered; states without soot are not covered."
  },
  {
   "property": "C103",
   "status": "partial",
   "theorems": [
    "Soot.C103_site_fraction",
    "Soot.C103_all_sites_partial",
    "Soot.C103_size_false",
    "Soot.C103_growth_jump",
    "Soot.C103_oxidation_jump",
    "Soot.C103_nucleation_continuous",
    "Soot.C103_growth_continuous_partial",
    "Soot.C103_oxidation_continuous_partial",
    "Soot.C103_haca_continuous_partial",
    "Soot.C103_pah_rate_continuous",
    "Soot.C103_pah_size_continuous_partial",
    "Soot.C103_pah_size_unbounded",
    "Soot.C103_pah_mass_vanishes"
   ],
   "note": "False of the code for HACA: C103_growth_jump, C103_oxidation_jump and C103_size_false refute it; the _partial theorems prove it for the other mechanisms and for HACA away from the critical temperature. The PAH nucleation rate is continuous everywhere (C103_pah_rate_continuous); the size of PAH nuclei is continuous where PAH is present and unbounded where the PAH vanish (C103_pah_size_unbounded). Among soot the carbon that nucleates still vanishes with the PAH (C103_pah_mass_vanishes)."
  },
  {
   "property": "C104",
   "status": "partial",
   "theorems": [
    "Soot.C104_mono_continuous_partial",
    "Soot.C104_stale_jump",
    "Soot.C104_sect_continuous_partial",
    "Soot.C104_logn_continuous_partial",
    "Soot.C104_logn_pah_continuous_partial",
    "Soot.C104_logn_unbounded",
    "Soot.C104_mono_pah_continuous_partial",
    "Soot.C104_mono_pah_vanish",
    "Soot.C104_sect_pah_vanish",
    "Soot.C104_pah_jump",
    "Soot.C104_sect_pah_jump",
    "Soot.C104_sect_pah_continuous_partial",
    "Soot.C104_momic_continuous_partial",
    "Soot.C104_momic_pah_continuous_partial"
   ],
   "note": "False of the code for MONO with an old node (C104_stale_jump), with PAH nucleation where the PAH vanish in a gas without soot (C104_pah_jump, C104_sect_pah_jump; with soot above the cutoff mass C104_mono_pah_vanish and C104_sect_pah_vanish prove it), and for LOGN at a vanishing second moment (C104_logn_unbounded); the _partial theorems prove it elsewhere, for SECT at every state (with PAH nucleation: at every state with PAH or with soot above the cutoff mass). LOGN and MOMIC are covered where all moments are positive and, with PAH nucleation, there are PAH; QMOM is not covered; HACA jumps by C103."
  },
  {
   "property": "C105",
   "status": "partial",
   "theorems": [
    "Soot.C105_unique_partial",
    "Soot.C105_exists_partial",
    "Soot.C105_not_unique"
   ],
   "note": "Refuted at states without mass (C105_not_unique); true elsewhere away from the cutoff mass. PAH, HACA and the cutoff mass itself are not covered."
  },
  {
   "property": "C106",
   "status": "proved",
   "theorems": [
    "Soot.C106_particles_survive",
    "Soot.C106_burnout"
   ],
   "note": "C106_burnout is stated without coagulation, nucleation and growth (explicit solution M1(t) = max(0, M1^(1/3) - k t/3)^3)."
  },
  {
   "property": "C107",
   "status": "proved",
   "theorems": [
    "Soot.C107_sect_nonneg",
    "Soot.C107_sect_coagulation"
   ],
   "note": "The evolution goes through setState, which replaces negative contents by zero; the proof uses that an empty section has a non-negative source (C71) and a fence below zero."
  },
  {
   "property": "C108",
   "status": "partial",
   "theorems": [
    "Soot.C108_sect_exists_partial",
    "Soot.C108_sect_unique_partial",
    "Soot.C108_sect_not_unique"
   ],
   "note": "Refuted for growth LL (C108_sect_not_unique); proved where no rate depends on the contents. Not covered: PAH nucleation, HACA."
  },
  {
   "property": "C109",
   "status": "partial",
   "theorems": [
    "Soot.C109_with_particles_partial",
    "Soot.C109_number_falls_below_zero"
   ],
   "note": "Refuted by the stale node (C109_number_falls_below_zero); proved from a start with particles."
  },
  {
   "property": "C11",
   "status": "proved",
   "theorems": [
    "Soot.C11_mono",
    "Soot.C11_sect",
    "Soot.C11_logn",
    "Soot.C11_qmom",
    "Soot.C11_momic",
    "Soot.C11_hmom"
   ],
   "note": "HMOM is not part of the claim (it never completes, C35); C11_hmom adds it for an arbitrary value of the stray read."
  },
  {
   "property": "C110",
   "status": "partial",
   "theorems": [
    "Soot.C110_coagulation",
    "Soot.C110_fm_spread",
    "Soot.C110_fm_limit",
    "Soot.C110_continuum_spread",
    "Soot.C110_continuum_approach",
    "Soot.C110_exists",
    "Soot.C110_fm_self_preserving",
    "Soot.C110_continuum_decay",
    "Soot.C110_hm_spreads_without_bound"
   ],
   "note": "FM and CONTINUUM proved; C110_hm_spreads_without_bound refutes HM, because the sum of the HM number source is guarded by a sign test that never holds (see C18). Runs for all times: C112."
  },
  {
   "property": "C111",
   "status": "proved",
   "theorems": [
    "Soot.C111_realisable",
    "Soot.C111_fixed_gas",
    "Soot.C111_without_oxidation",
    "Soot.C111_exists"
   ],
   "note": "C111_realisable holds for any gas history and all mechanisms with rates bounded along the run; C111_fixed_gas and C111_without_oxidation derive the bounds and the positivity of the number (and mass) without PAH and HACA; C111_exists gives runs with all processes for short times."
  },
  {
   "property": "C112",
   "status": "proved",
   "theorems": [
    "Soot.C112_exists",
    "Soot.C112_unique",
    "Soot.C112_global",
    "Soot.C112_coagulation"
   ],
   "note": "Runs of any length (C112_exists), at most one (C112_unique), one for all times (C112_global), its limits under coagulation alone (C112_coagulation)."
  },
  {
   "property": "C113",
   "status": "proved",
   "theorems": [
    "Soot.C113_logn_accuracy",
    "Soot.C113_no_soot",
    "Soot.C113_digits",
    "Soot.C113_binary64"
   ],
   "note": "General bound (C113_logn_accuracy), the state without soot (C113_no_soot), digits in binary64 (C113_digits), the assumption on small numbers in binary64 (C113_binary64). PAH nucleation, HACA and the case 0 < M0 < 1 are not covered."
  },
  {
   "property": "C114",
   "status": "proved",
   "theorems": [
    "Soot.C114_global",
    "Soot.C114_coagulation",
    "Soot.C114_nucleation"
   ],
   "note": "PAH nucleation, HACA growth and oxidation are not covered (with oxidation the mass can vanish in finite time, C106)."
  },
  {
   "property": "C115",
   "status": "proved",
   "theorems": [
    "Soot.C115_sect_global",
    "Soot.C115_sect_last"
   ],
   "note": "The first theorem excludes PAH nucleation, LL and HACA growth and HACA oxidation (with LL growth there is more than one evolution, C108); the second covers every growth mechanism for any evolution there is."
  },
  {
   "property": "C116",
   "status": "proved",
   "theorems": [
    "Soot.C116_sect_accuracy",
    "Soot.C116_digits"
   ],
   "note": "Without PAH nucleation, HACA, and the growth and oxidation mechanisms that look at the contents of the sections (growth LL, FAIR, MB and oxidation MB). The bound is relative to the processes, not to their differences. The bin search is rounded by any function within delta (C88)."
  },
  {
   "property": "C117",
   "status": "proved",
   "theorems": [
    "Soot.C117_returns_only_if_long",
    "Soot.C117_same_or_ub",
    "Soot.C117_exact",
    "Soot.C117_caller",
    "Soot.C117_no_surface"
   ],
   "note": "Models whose mechanism objects come from the library constructors (Model.WF), tar with MONO only (as the constructors enforce). HMOM never returns (C35), so for HMOM only C117_same_or_ub says something."
  },
  {
   "property": "C118",
   "status": "proved",
   "theorems": [
    "Soot.C118_only_first",
    "Soot.C118_same_or_ub",
    "Soot.C118_returns_only_if_long",
    "Soot.C118_exact",
    "Soot.C118_built"
   ],
   "note": "QMOM is not included: it takes the number of moments from the vector itself. HMOM never returns (C35), so for HMOM C118_only_first and C118_same_or_ub say how it fails."
  },
  {
   "property": "C119",
   "status": "proved",
   "theorems": [
    "Soot.C119_inert",
    "Soot.C119_setters"
   ],
   "note": ""
  },
  {
   "property": "C12",
   "status": "proved",
   "theorems": [
    "Soot.C12_kernel_symmetric"
   ],
   "note": ""
  },
  {
   "property": "C13",
   "status": "proved",
   "theorems": [
    "Soot.C13_kernel_positive"
   ],
   "note": ""
  },
  {
   "property": "C14",
   "status": "proved",
   "theorems": [
    "Soot.C14_harmonic_mean"
   ],
   "note": ""
  },
  {
   "property": "C15",
   "status": "proved",
   "theorems": [
    "Soot.C15_multiplier"
   ],
   "note": ""
  },
  {
   "property": "C16",
   "status": "proved",
   "theorems": [
    "Soot.C16_C17_mono",
    "Soot.C16_C17_sect",
    "Soot.C37_C38_sect",
    "Soot.C16_C17_logn",
    "Soot.C16_C17_qmom",
    "Soot.C16_C17_momic",
    "Soot.C16_hmom",
    "Soot.C35_hmom_false"
   ],
   "note": "HMOM never completes (C35_hmom_false); C16_hmom shows neutrality for whatever number the stray read would deliver (without PAH)."
  },
  {
   "property": "C17",
   "status": "proved",
   "theorems": [
    "Soot.C16_C17_mono",
    "Soot.C16_C17_sect",
    "Soot.C37_C38_sect",
    "Soot.C16_C17_logn",
    "Soot.C16_C17_qmom",
    "Soot.C16_C17_momic"
   ],
   "note": ""
  },
  {
   "property": "C18",
   "status": "partial",
   "theorems": [
    "Soot.C18_hm_has_no_number_loss",
    "Soot.C18_false",
    "Soot.C18_number_loss_partial"
   ],
   "note": "False of the code: with HM the number source always equals the nucleation rate (C18_hm_has_no_number_loss, witness C18_false). The partial theorem proves the strict loss for FM and CONTINUUM."
  },
  {
   "property": "C19",
   "status": "proved",
   "theorems": [
    "Soot.C19_dimer_root"
   ],
   "note": ""
  },
  {
   "property": "C20",
   "status": "partial",
   "theorems": [
    "Soot.C20_mono",
    "Soot.C20_sect",
    "Soot.C20_logn",
    "Soot.C20_qmom",
    "Soot.C20_momic",
    "Soot.C20_pah_not_repeatable"
   ],
   "note": "False with PAH nucleation (C20_pah_not_repeatable: setSourceTerms overwrites cMin). True without PAH for MONO, LOGN, QMOM, MOMIC and SECT."
  },
  {
   "property": "C21",
   "status": "partial",
   "theorems": [
    "Soot.C21_exact_balance_partial",
    "Soot.C21_carbon_not_conserved"
   ],
   "note": "False of the code: the refutation gives a concrete state; the partial theorem gives the exact balance that holds."
  },
  {
   "property": "C22",
   "status": "proved",
   "theorems": [
    "Soot.C22_mono",
    "Soot.C22_logn",
    "Soot.C22_qmom",
    "Soot.C22_momic",
    "Soot.C37_C38_sect"
   ],
   "note": ""
  },
  {
   "property": "C23",
   "status": "partial",
   "theorems": [
    "Soot.C23_history_independent_partial",
    "Soot.C23_history_dependent_at_zero"
   ],
   "note": "True when the state has particles; false at M0=0, where stale weights of an earlier call are used."
  },
  {
   "property": "C24",
   "status": "proved",
   "theorems": [
    "Soot.C24_mono_equations"
   ],
   "note": ""
  },
  {
   "property": "C25",
   "status": "proved",
   "theorems": [
    "Soot.C25_lognormal_moments"
   ],
   "note": ""
  },
  {
   "property": "C26",
   "status": "partial",
   "theorems": [
    "Soot.C26_logn_total_partial",
    "Soot.C26_pah_exact",
    "Soot.C26_false_for_pah"
   ],
   "note": "True for every nucleation mechanism except PAH; false with PAH (C26_false_for_pah); C26_pah_exact gives the exact condition."
  },
  {
   "property": "C27",
   "status": "proved",
   "theorems": [
    "Soot.C27_inversion_total"
   ],
   "note": ""
  },
  {
   "property": "C28",
   "status": "proved",
   "theorems": [
    "Soot.C28_quadrature",
    "Soot.exists_correct_eig"
   ],
   "note": ""
  },
  {
   "property": "C29",
   "status": "partial",
   "theorems": [
    "Soot.C29_surface_reactions_vanish",
    "Soot.C29_false",
    "Soot.C29_all_nodes_active_partial"
   ],
   "note": "False of the code: one empty node removes every surface reaction (general theorem and concrete witness). The partial theorem covers all nodes populated."
  },
  {
   "property": "C30",
   "status": "proved",
   "theorems": [
    "Soot.C30_two_moment_qmom_is_mono"
   ],
   "note": ""
  },
  {
   "property": "C31",
   "status": "proved",
   "theorems": [
    "Soot.C31_collision_sum",
    "Soot.C31_throws_beyond_table"
   ],
   "note": "Up to 35 moments (or without coagulation); C31_throws_beyond_table proves that larger models always throw."
  },
  {
   "property": "C32",
   "status": "proved",
   "theorems": [
    "Soot.C32_momic_interpolation"
   ],
   "note": ""
  },
  {
   "property": "C33",
   "status": "partial",
   "theorems": [
    "Soot.C33_momic_partial",
    "Soot.C33_momic_false"
   ],
   "note": "True for 3..7 moments (never undefined behaviour, never throws); false for 8, which the constructor accepts: undefined behaviour on every state."
  },
  {
   "property": "C34",
   "status": "partial",
   "theorems": [
    "Soot.C34_momic_partial",
    "Soot.C34_momic_false"
   ],
   "note": "True for moments 0 and 2; false for every moment of order >= 3 (strictly below the full sum for all positive moments, exactly half at order 3)."
  },
  {
   "property": "C35",
   "status": "partial",
   "theorems": [
    "Soot.C35_hmom_false",
    "Soot.C35_hmom_ub",
    "Soot.hmom_completes"
   ],
   "note": "False of the code: no constructible HMOM model completes on any state; on every ready state the outcome is undefined behaviour. hmom_completes: the read outside the array is the only obstacle."
  },
  {
   "property": "C36",
   "status": "proved",
   "theorems": [
    "Soot.C36_hmom_large_positive"
   ],
   "note": ""
  },
  {
   "property": "C37",
   "status": "proved",
   "theorems": [
    "Soot.C37_C38_transport",
    "Soot.C37_C38_sect"
   ],
   "note": ""
  },
  {
   "property": "C38",
   "status": "proved",
   "theorems": [
    "Soot.C37_C38_transport",
    "Soot.C38_adjacent",
    "Soot.C37_C38_sect"
   ],
   "note": ""
  },
  {
   "property": "C39",
   "status": "proved",
   "theorems": [
    "Soot.C39_pair_split"
   ],
   "note": "Exact-arithmetic bin search; rounding of log(F) ratios is outside the model (DESIGN.md)."
  },
  {
   "property": "C40",
   "status": "partial",
   "theorems": [
    "Soot.C40_static_shared",
    "Soot.C40_own_factor_partial"
   ],
   "note": "False of the code: C40_static_shared exhibits two models whose order matters. The partial theorem covers the case of a matching cached factor."
  },
  {
   "property": "C41",
   "status": "proved",
   "theorems": [
    "Soot.C41_bins",
    "Soot.C37_C38_sect"
   ],
   "note": ""
  },
  {
   "property": "C42",
   "status": "proved",
   "theorems": [
    "Soot.C42_binomial"
   ],
   "note": ""
  },
  {
   "property": "C43",
   "status": "proved",
   "theorems": [
    "Soot.ctorCheck_iff",
    "Soot.C43_ctor",
    "Soot.C43_ctor_ptr",
    "Soot.C43_fresh"
   ],
   "note": ""
  },
  {
   "property": "C44",
   "status": "proved",
   "theorems": [
    "Soot.C44_no_double_free",
    "Soot.C44_step",
    "Soot.C44_enum_frees_once",
    "Soot.C44_ptr_frees_none",
    "Soot.C44_ptr_not_owned",
    "Soot.C44_copy_double_free",
    "Soot.C44_copy_use_after_free",
    "Soot.C44_throw_no_leak",
    "Soot.C44_bad_selection_leaks",
    "Soot.C44_shared_mechanisms_ub",
    "Soot.C44_c_delete",
    "Soot.C44_c_delete_owned_ub",
    "Soot.C44_default_tar_leaks",
    "Soot.C44_early_delete_ub",
    "Soot.C44_c_delete_dead_ub",
    "Soot.C44_c_delete_twice_ub",
    "Soot.C44_ctor_dead",
    "Soot.C44_dead",
    "Soot.C44_mech_dead",
    "Soot.C44_use_after_delete"
   ],
   "note": "Beyond the claim: leaks on an invalid selection and for the default tar argument, dangling back pointers of shared mechanisms."
  },
  {
   "property": "C45",
   "status": "partial",
   "theorems": [
    "Soot.C45_gas_names",
    "Soot.C45_gas_ints",
    "Soot.C45_gas_ints_only",
    "Soot.C45_bio_names_false",
    "Soot.C45_bio_names_partial"
   ],
   "note": "True for gas species; false for biomass species (sw_hc misspelled), every other biomass species round-trips."
  },
  {
   "property": "C46",
   "status": "partial",
   "theorems": [
    "Soot.C46_c_interface_false",
    "Soot.C46_c_interface_partial",
    "Soot.C46_effect",
    "Soot.C46_co2_read",
    "Soot.C46_tar_surface_ub",
    "Soot.C46_short_array_ub",
    "Soot.C46_get_gas_sources",
    "Soot.C46_get_soot_sources",
    "Soot.C46_get_tar_sources",
    "Soot.C46_round_trip",
    "Soot.C46_set_bio"
   ],
   "note": "False of the code: CO2 and cMin are dropped. The call it is equivalent to, its exact effect and the later out-of-bounds reads are proved."
  },
  {
   "property": "C47",
   "status": "proved",
   "theorems": [
    "Soot.C47_haca",
    "Soot.C47_singular"
   ],
   "note": "The 0/0 point of the HACA tanh argument (M1=M0>0 together with 33.167-0.0154T=0) is excluded by hypothesis; C47_singular shows the code really is non-finite there."
  },
  {
   "property": "C48",
   "status": "proved",
   "theorems": [
    "Soot.C48_nucl",
    "Soot.C48_grow",
    "Soot.C48_oxid"
   ],
   "note": ""
  },
  {
   "property": "C49",
   "status": "partial",
   "theorems": [
    "Soot.C49_mechType_false",
    "Soot.C49_mechType_partial"
   ],
   "note": "False of the code: oxidationModel_FAIR reports mechType LL (C49_mechType_false). Every other mechanism reports its own type (partial theorem)."
  },
  {
   "property": "C50",
   "status": "partial",
   "theorems": [
    "Soot.C50_cracking_ignores_H2",
    "Soot.C50_cracking_partial"
   ],
   "note": "False of the code as stated (see DESIGN.md); the refutation and the part that holds are proved."
  },
  {
   "property": "C51",
   "status": "proved",
   "theorems": [
    "Soot.C51_mono",
    "Soot.C51_sect",
    "Soot.C51_qmom"
   ],
   "note": ""
  },
  {
   "property": "C52",
   "status": "proved",
   "theorems": [
    "Soot.C52_interp_between",
    "Soot.C52_interp_node",
    "Soot.C52_interp_outside",
    "Soot.C52_interp_short",
    "Soot.C52_new_iff",
    "Soot.C52_interp_decreasing",
    "Soot.C52_interp_decreasing_false",
    "Soot.C52_interp_equal_nodes"
   ],
   "note": "Also: the constructor accepts decreasing tables, for which the nodes are not reproduced."
  },
  {
   "property": "C53",
   "status": "proved",
   "theorems": [
    "Soot.C53_roundtrip"
   ],
   "note": ""
  },
  {
   "property": "C54",
   "status": "proved",
   "theorems": [
    "Soot.C54_coag_integrals",
    "Soot.C54_dimer_integrals",
    "Soot.C54_moment_equations",
    "Soot.C54_all_mechanisms",
    "Soot.C54_fm_error",
    "Soot.C54_fm_error_attained"
   ],
   "note": ""
  },
  {
   "property": "C55",
   "status": "proved",
   "theorems": [
    "Soot.C55_momic_exact_for_lognormal"
   ],
   "note": ""
  },
  {
   "property": "C56",
   "status": "proved",
   "theorems": [
    "Soot.C56_momic_exact"
   ],
   "note": ""
  },
  {
   "property": "C57",
   "status": "proved",
   "theorems": [
    "Soot.C57_momic_continuum",
    "Soot.C57_momic_grid",
    "Soot.C57_momic_dimer_grid",
    "Soot.fmPair_half"
   ],
   "note": ""
  },
  {
   "property": "C58",
   "status": "proved",
   "theorems": [
    "Soot.C58_momic_mono"
   ],
   "note": ""
  },
  {
   "property": "C59",
   "status": "partial",
   "theorems": [
    "Soot.C59_momic_condensation"
   ],
   "note": "False of the code for k>=2: one theorem gives the equality for k<=1 and the strict inequality for every k>=2."
  },
  {
   "property": "C60",
   "status": "partial",
   "theorems": [
    "Soot.C60_hmom_order"
   ],
   "note": "False of the code for the free-molecular integral (order k-1), true for the continuum integral; one theorem states both for all k>=1."
  },
  {
   "property": "C61",
   "status": "partial",
   "theorems": [
    "Soot.C61_brown_equations",
    "Soot.C61_brown_balance",
    "Soot.C61_brown_coag",
    "Soot.C61_brown_false",
    "Soot.C10_brown_false"
   ],
   "note": "False of the code; the exact equations, imbalance and independence of the coagulation mechanism are proved for all inputs, with concrete witnesses."
  },
  {
   "property": "C62",
   "status": "partial",
   "theorems": [
    "Soot.C62_ajred_equations",
    "Soot.C62_ajred_balance",
    "Soot.C62_ajred_growth",
    "Soot.C62_ajred_false"
   ],
   "note": "False of the code; the exact equations and remainder are proved for all inputs, with a concrete witness."
  },
  {
   "property": "C63",
   "status": "partial",
   "theorems": [
    "Soot.C63_ub_iff",
    "Soot.C63_mixing",
    "Soot.C63_range_partial",
    "Soot.C63_range_false",
    "Soot.C63_pole",
    "Soot.C63_default_mtar",
    "Soot.C63_coal_default",
    "Soot.C63_coal_range_partial",
    "Soot.C63_biomass_table",
    "Soot.C63_coal_table",
    "Soot.C63_pressure_false",
    "Soot.C63_no_fuel"
   ],
   "note": "Undefined reads and mixing rule for all inputs. The range is false in general; proved at one atmosphere for 600 K <= T <= 2500 K, likewise for coal with O/C 0.02-0.2, H/C 0.5-0.9 and 5-55 percent volatiles. The tables of coefficients of all correlations are proved in expanded form; at 100 atm and 1000 K the yield exceeds 1."
  },
  {
   "property": "C64",
   "status": "proved",
   "theorems": [
    "Soot.C64_kernel_formulas",
    "Soot.C64_fuchs_distance",
    "Soot.C64_kernel_order",
    "Soot.C64_kernel_scaling"
   ],
   "note": ""
  },
  {
   "property": "C65",
   "status": "partial",
   "theorems": [
    "Soot.Fort.C65_labels",
    "Soot.Fort.C65_bindings",
    "Soot.Fort.C65_bindings_false",
    "Soot.Fort.C65_getters",
    "Soot.Fort.C65_wrappers",
    "Soot.Fort.C65_arity",
    "Soot.Fort.C65_undefined_arguments",
    "Soot.Fort.C65_exports"
   ],
   "note": "False of the code; C65_bindings, C65_undefined_arguments and C65_exports give the exact extent over the complete tables."
  },
  {
   "property": "C66",
   "status": "partial",
   "theorems": [
    "Soot.C66_nucl_order",
    "Soot.C66_nucl_size",
    "Soot.C66_nucl_temperature",
    "Soot.C66_tar_order",
    "Soot.C66_grow_order",
    "Soot.C66_grow_temperature",
    "Soot.C66_oxid_order",
    "Soot.C66_oxid_temperature_partial",
    "Soot.C66_fair_falls",
    "Soot.C66_rate_laws"
   ],
   "note": "False of the code for the temperature dependence of FAIR oxidation (C66_fair_falls, for all pairs of states); everything else is proved. C66_rate_laws fixes the complete modified-Arrhenius law of every mechanism that the documentation does not describe."
  },
  {
   "property": "C67",
   "status": "partial",
   "theorems": [
    "Soot.C67_nucl_partial",
    "Soot.C67_pah",
    "Soot.C67_gamma_partial",
    "Soot.Doc.fA_eq",
    "Soot.C67_grow_partial",
    "Soot.C67_haca_partial",
    "Soot.Doc.oh_factor",
    "Soot.C67_oxid_partial",
    "Soot.C67_docs_false"
   ],
   "note": "False of the code in the listed places; for each of them the exact relation between code and documentation is proved for all states."
  },
  {
   "property": "C68",
   "status": "proved",
   "theorems": [
    "Soot.C68_no_ub",
    "Soot.C68_lengths",
    "Soot.C68_needed",
    "Soot.C68_haca_count"
   ],
   "note": "Any program over the modelled interface that keeps lengths consistent is free of undefined behaviour and of escaping exceptions up to the first non-finite value. Gas vectors need only the entries the chosen mechanisms read (8, 9 or 11), so the 8-entry vectors of the repo's examples are covered; C68_needed gives undefined programs that break one clause each. Object deletion is C44-C46 (ownership), HMOM is excluded because it always reads outside an array (C35). C68_haca_count says exactly for which counts HACA growth on a sectional model is undefined."
  },
  {
   "property": "C69",
   "status": "partial",
   "theorems": [
    "Soot.C69_hmom_large",
    "Soot.C69_hmom_oxidation_false",
    "Soot.C69_hmom_oxidation_witness"
   ],
   "note": "The number equation is proved for every completed evaluation. The oxidation clause is false of the code: switching oxidation on adds kO*area(m0)/m0*N0 large particles per second and leaves the total number unchanged; a concrete witness with a strictly larger source is given."
  },
  {
   "property": "C70",
   "status": "proved",
   "theorems": [
    "Soot.C70_sect_equations",
    "Soot.sectCoag_doc",
    "Soot.SectDoc.share_sums",
    "Soot.SectDoc.share_top",
    "Soot.SectDoc.area_sphere",
    "Soot.newPtr_geoBins"
   ],
   "note": "Every SECT evaluation on a ready state with geometric bins and the model's own cached factor writes the documented equation in each bin (ordered-pair double sum with linear splitting). newPtr_geoBins: the bin hypothesis holds for every constructed model."
  },
  {
   "property": "C71",
   "status": "proved",
   "theorems": [
    "Soot.C71_sect_positive",
    "Soot.SectDoc.source_lower",
    "Soot.SectDoc.share_nonneg"
   ],
   "note": "Source of each bin bounded below by minus content times an explicit loss rate; consequences for empty bins and explicit steps."
  },
  {
   "property": "C72",
   "status": "proved",
   "theorems": [
    "Soot.C72_function_of_inputs",
    "Soot.C72_program"
   ],
   "note": "Object level: any two histories of one configuration give equal results (failures included); program level: equal to a fresh two-object program. The hypotheses (MONO with particles, tar mass for AJ_RED, one bin growth factor) are necessary: C23_history_dependent_at_zero and the C40_static_shared show what happens without them."
  },
  {
   "property": "C73",
   "status": "proved",
   "theorems": [
    "Soot.C73_reads",
    "Soot.C73_hmom",
    "Soot.C73_inputs",
    "Soot.C73_never_read"
   ],
   "note": "Equality of results, failures included. Nucleation with PAH takes its species from the PAH vector, so its gas list is empty."
  },
  {
   "property": "C74",
   "status": "proved",
   "theorems": [
    "Soot.C74_burner_completes"
   ],
   "note": "Whole program, by an invariant over the steps. Reading the profile file and formatting the output are not modelled; positions are exact reals, so z reaches the end of the profile exactly."
  },
  {
   "property": "C75",
   "status": "partial",
   "theorems": [
    "Soot.C75_two_stage",
    "Soot.C75_midpoint_partial",
    "Soot.C75_second_stage_error",
    "Soot.C75_midpoint_false"
   ],
   "note": "False of the code: line 129 lists the mass fractions in another order than line 119, so the second stage reads Y_H as Y_O2. Proved: the exact two-stage scheme, the midpoint method when oxidation is off or reads OH only, the exact error of the second slope for QMOM with LL oxidation, and that one step of the two-moment version overpredicts soot mass whenever O2 exceeds H."
  },
  {
   "property": "C76",
   "status": "partial",
   "theorems": [
    "Soot.C76_tar_false",
    "Soot.C76_hmom_false",
    "Soot.C76_hmom_ub"
   ],
   "note": "False of the code, for every input: no run of either program with at least one step returns. The tar version gives an eight-entry gas vector to a tar model that reads entry 10 (CO2); the HMOM version evaluates the class of C35. Proved: neither returns, for all profiles, mechanisms and step counts, and the HMOM version runs into undefined behaviour in its first evaluation on every physical flame."
  },
  {
   "property": "C77",
   "status": "partial",
   "theorems": [
    "Soot.C77_accepts_iff",
    "Soot.C77_nan_accepted",
    "Soot.C77_finite_false",
    "Soot.C77_agrees_partial",
    "Soot.C77_rejects_partial",
    "Soot.C77_nan_spreads",
    "Soot.C77_infinite_density"
   ],
   "note": "False of the code: every range check of setState is a comparison that is false for NaN, so NaN passes all of them, and plus infinity passes the scalar checks. Proved: exactly which doubles are accepted, that replacing any numbers of an accepted call by NaN leaves it accepted, agreement with the real-number model on finite inputs, the infinities that are rejected, and that a NaN density makes every concentration NaN."
  },
  {
   "property": "C78",
   "status": "proved",
   "theorems": [
    "Soot.C78_symmetric",
    "Soot.C78_cutoff",
    "Soot.C78_agrees"
   ],
   "note": "Every operation is rounded on its own; signed zeros are not distinguished."
  },
  {
   "property": "C79",
   "status": "partial",
   "theorems": [
    "Soot.C79_mono_logn",
    "Soot.C79_mono_momic",
    "Soot.C79_qmom_loses_surface",
    "Soot.C79_mono_sect"
   ],
   "note": "False of the code as a whole. Proved: mass and gas sources of MONO, LOGN, MOMIC and SECT agree; number sources agree for LOGN with the continuum kernel, for MOMIC with all kernels but the harmonic mean, and for SECT when a nucleus fills the first bin. Refuted: LOGN with the free-molecular and harmonic kernels, MOMIC with the harmonic mean, and QMOM with four or more moments, which loses growth and oxidation. QMOM with two moments is MONO (C30)."
  },
  {
   "property": "C80",
   "status": "partial",
   "theorems": [
    "Soot.C80_momic_burner_partial",
    "Soot.C80_momic_burner_false"
   ],
   "note": "False for the configuration of the file (free-molecular or harmonic-mean kernel with oxidation): in any gas with H atoms there are a length and an acetylene level where it meets a non-finite number. Proved to finish without oxidation or with the continuum kernel."
  },
  {
   "property": "C81",
   "status": "proved",
   "theorems": [
    "Soot.C81_qmom_exact",
    "Soot.popRate_surface"
   ],
   "note": "popRate_surface shows that the surface term of the specification is the time derivative of the moment."
  },
  {
   "property": "C82",
   "status": "partial",
   "theorems": [
    "Soot.C82_nucleation",
    "Soot.C82_deposition_partial",
    "Soot.C82_deposition_false",
    "Soot.C82_mass_false"
   ],
   "note": "The form of both collision rates is proved; the common diameter and the mass transfer are false of the code, refuted for every state with tar and soot."
  },
  {
   "property": "C83",
   "status": "partial",
   "theorems": [
    "Soot.C83_mono_partial",
    "Soot.C83_mono_false",
    "Soot.C83_logn",
    "Soot.C83_momic",
    "Soot.C83_sect",
    "Soot.C83_qmom_partial",
    "Soot.C83_qmom_mass_partial",
    "Soot.C83_qmom_false"
   ],
   "note": "True of LOGN, SECT and (when finite) MOMIC. Refuted for MONO by a stale weight and for QMOM by moments no distribution has; the true parts (fresh state or particles; number, mass and reproduced moments) are the _partial theorems."
  },
  {
   "property": "C84",
   "status": "proved",
   "theorems": [
    "Soot.C84_mono",
    "Soot.C84_logn",
    "Soot.C84_momic",
    "Soot.C84_qmom",
    "Soot.C84_sect"
   ],
   "note": "One law (ScaleLaw) for five models; PAH nucleation is outside the statement because its rate depends on the soot. MONO needs fresh quadrature when there is no soot (see C23, C83); QMOM needs an eigenvalue routine that looks at the matrix alone."
  },
  {
   "property": "C85",
   "status": "partial",
   "theorems": [
    "Soot.C85_simple_runs",
    "Soot.C85_labels_partial",
    "Soot.C85_labels_false",
    "Soot.C85_ninth_unused",
    "Soot.C85_ninth_is_benzene",
    "Soot.C85_hmom_ub",
    "Soot.C85_heap",
    "Soot.C85_fort_order_false",
    "Soot.C85_fort_agrees_partial"
   ],
   "note": "False of the code in four places, each refuted: the ninth mass fraction is labelled CO2 but is used as benzene and the CO2 entry lies outside the vector (C85_labels_false; it matters with LINA1, C85_ninth_is_benzene, and with no other mechanism, C85_ninth_unused); the HMOM example is undefined for every input (C85_hmom_ub); the tar mechanism allocated by the constructor's default argument is never freed (C85_heap: everything else is freed once); the Fortran example asks for tar properties before it sets the state and gets non-finite ones (C85_fort_order_false). True parts: simple_example.cc finishes and its printed mass sources cancel (C85_simple_runs); the first eight labels are right; the rest of the Fortran program prints the sources of the C++ program (C85_fort_agrees_partial)."
  },
  {
   "property": "C86",
   "status": "partial",
   "theorems": [
    "Soot.C86_reads",
    "Soot.C86_incomplete_exits",
    "Soot.C86_empty_ub",
    "Soot.C86_short_false",
    "Soot.C86_shipped_flame",
    "Soot.C86_shipped_flux",
    "Soot.C86_shipped_runs",
    "Soot.C86_shipped_variants_false",
    "Soot.C86_shipped_momic_partial",
    "Soot.C86_fort_prints",
    "Soot.C86_fort_short",
    "Soot.C86_fort_columns_false",
    "Soot.C86_fort_oxygen_false"
   ],
   "note": "The C++ programs read every complete file column by column as labelled (C86_reads), exit on files of at most 33 rows or with a non-number there (C86_incomplete_exits), and burner_flame.cc finishes on the shipped file in every configuration of C74 (C86_shipped_runs). False in four places, each refuted: an empty or missing file is undefined (C86_empty_ub); a file of 34 rows can be accepted with an invented last row (C86_short_false); the HMOM and tar variants do not finish (C86_shipped_variants_false; MOMIC: C86_shipped_momic_partial and C80); the Fortran program stores O2, O, H2, H in the arrays for H, H2, O, O2 (C86_fort_columns_false)."
  },
  {
   "property": "C87",
   "status": "proved",
   "theorems": [
    "Soot.C87_continuum",
    "Soot.C87_slopes",
    "Soot.C87_free_molecular",
    "Soot.C87_expansion"
   ],
   "note": "Limits of the kernels as the program computes them. CONTINUUM uses another slip correction than HM and FUCHS, so with one particle fixed its constant differs from theirs. The slopes the notebook gives for the far left do not exist in the program: below the mass cutoff every kernel returns 0."
  },
  {
   "property": "C88",
   "status": "proved",
   "theorems": [
    "Soot.C88_conserve",
    "Soot.C88_error",
    "Soot.C88_exact",
    "Soot.C88_sharp"
   ],
   "note": "Only the rounding of the truncated logarithm is varied; the other arithmetic of the loop stays exact."
  },
  {
   "property": "C89",
   "status": "partial",
   "theorems": [
    "Soot.C89_kernels_partial",
    "Soot.C89_harmonic_partial",
    "Soot.C89_logn_partial",
    "Soot.C89_docs_false"
   ],
   "note": "FUCHS agrees as printed. Refuted as printed: the FM coefficient lacks the power 1/2 on pi kB T/2; the continuum coefficient has a product of mobilities instead of their sum; 3_logn.md has 1.675 for 1.657; HM uses the full Cunningham factor and is below the documented harmonic mean. With these corrections the agreement is proved."
  },
  {
   "property": "C90",
   "status": "proved",
   "theorems": [
    "Soot.C90_downselect",
    "Soot.C90_closure",
    "Soot.C90_empty",
    "Soot.C90_short",
    "Soot.C90_unrealisable"
   ],
   "note": "The function is never called (sootModel_MOMIC.cc:131 is commented out); it is modelled on its own."
  },
  {
   "property": "C91",
   "status": "proved",
   "theorems": [
    "Soot.C91_mass",
    "Soot.C91_soot",
    "Soot.C91_binary64",
    "Soot.C91_agrees"
   ],
   "note": "Covers the last part of setSourceTerms, from the mass rates on; the rounding of the rates themselves changes soot and gas sources alike. SECT, whose mass source is a sum over bins, is not included."
  },
  {
   "property": "C92",
   "status": "proved",
   "theorems": [
    "Soot.C92_logn",
    "Soot.C92_momic",
    "Soot.C92_growth_step",
    "Soot.C92_qmom"
   ],
   "note": "QMOM assumes that the eigenvalue routine does not return good values for a matrix with a NaN (as C79)."
  },
  {
   "property": "C93",
   "status": "proved",
   "theorems": [
    "Soot.C93_moments",
    "Soot.C93_grid",
    "Soot.C93_collision"
   ],
   "note": ""
  },
  {
   "property": "C94",
   "status": "proved",
   "theorems": [
    "Soot.C94_momic"
   ],
   "note": "Continuum and harmonic-mean coagulation for orders up to two, where C34 leaves the documented formula intact."
  },
  {
   "property": "C95",
   "status": "proved",
   "theorems": [
    "Soot.C95_sect",
    "Soot.C95_coag_only",
    "Soot.C95_surface"
   ],
   "note": ""
  },
  {
   "property": "C96",
   "status": "proved",
   "theorems": [
    "Soot.C96_transport",
    "Soot.C96_balance",
    "Soot.C96_exact",
    "Soot.C96_coagulation",
    "Soot.C96_coag_model"
   ],
   "note": "Rounding model as C91 (relative error u, absolute error eta, no overflow below Omega); the assumption is proved for binary64 in C91_binary64. C96_coagulation takes the collision terms K*N_i*N_j and the computed target bins as given numbers; C96_coag_model ties them to the model of C88."
  },
  {
   "property": "C97",
   "status": "proved",
   "theorems": [
    "Soot.C97_integration_conserves",
    "Soot.C97_sect_euler",
    "Soot.C97_sect_steps_exist"
   ],
   "note": "The client loop is part of the specification, not of the repository. HMOM never completes an evaluation (C35), so its runs of length > 0 are excluded by the hypothesis that all calls complete. Reals, as in the rest of the model; rounding is C91/C96."
  },
  {
   "property": "C98",
   "status": "proved",
   "theorems": [
    "Soot.C98_no_interference",
    "Soot.C98_interleaving",
    "Soot.C98_factors_needed"
   ],
   "note": "Interleaving of whole calls. Overlapping calls are not modelled: the theorem shows that they touch disjoint objects except for the static, whose initialisation C++11 synchronises. Object creation happens before."
  },
  {
   "property": "C99",
   "status": "proved",
   "theorems": [
    "Soot.C99_kernel_accuracy",
    "Soot.C99_fuchs_accuracy",
    "Soot.C99_cutoff",
    "Soot.C99_binary64",
    "Soot.C99_digits"
   ],
   "note": "Error analysis of every operation of the four kernels, of MWGas and of the mean free path, in the floating-point model of C77/C78. Assumption on the library: sqrt, pow and exp have relative error \u03b5 (exp of a negative number: absolute error \u03b5). binary64 with exact library functions meets it with \u03b5 = 2^-52."
  }
 ]
}