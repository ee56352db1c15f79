{
 "claims": [
  {
   "property": "C01",
   "status": "proved",
   "theorems": [
    "Fisx.Material.C01_list_fractions",
    "Fisx.Material.C01_list_normalised_iff_distinct",
    "Fisx.Material.C01_map_normalised"
   ],
   "note": ""
  },
  {
   "property": "C02",
   "status": "proved",
   "theorems": [
    "Fisx.Material.C02_constructor",
    "Fisx.Material.C02_initialize_renames",
    "Fisx.Material.C02_name_stable",
    "Fisx.Material.C02_setName_once",
    "Fisx.Material.C02_throw_leaves_unchanged",
    "Fisx.Material.C02_valid_in_every_history"
   ],
   "note": ""
  },
  {
   "property": "C03",
   "status": "proved",
   "theorems": [
    "Fisx.TransmissionTable.C03_bounded",
    "Fisx.TransmissionTable.C03_empty",
    "Fisx.TransmissionTable.C03_exact",
    "Fisx.TransmissionTable.C03_linear_between",
    "Fisx.TransmissionTable.C03_outside",
    "Fisx.TransmissionTable.C03_vector"
   ],
   "note": ""
  },
  {
   "property": "C04",
   "status": "proved",
   "theorems": [
    "Fisx.TransmissionTable.C04_accepted",
    "Fisx.TransmissionTable.C04_no_rename",
    "Fisx.TransmissionTable.C04_physical_in_every_history",
    "Fisx.TransmissionTable.C04_throw_leaves_unchanged"
   ],
   "note": ""
  },
  {
   "property": "C05",
   "status": "partial",
   "theorems": [
    "Fisx.TransmissionTable.C05_rows_kept_partial",
    "Fisx.TransmissionTable.C05_violated"
   ],
   "note": "False of the code for energies repeated three times or colliding with energy+1e-6 (C05_violated); proved otherwise."
  },
  {
   "property": "C06",
   "status": "proved",
   "theorems": [
    "Fisx.Beam.C06_double_pointers",
    "Fisx.Beam.C06_pointers",
    "Fisx.Beam.C06_read_back",
    "Fisx.Beam.C06_setBeam",
    "Fisx.Beam.C06_single"
   ],
   "note": ""
  },
  {
   "property": "C07",
   "status": "partial",
   "theorems": [
    "Fisx.Beam.C07_null_violated",
    "Fisx.Beam.C07_out_of_bounds_iff",
    "Fisx.Beam.C07_partial",
    "Fisx.Beam.C07_violated"
   ],
   "note": "False of the code: C07_violated. C07_out_of_bounds_iff characterises exactly when a vector is read out of bounds."
  },
  {
   "property": "C08",
   "status": "proved",
   "theorems": [
    "Fisx.Layer.C08_monotone",
    "Fisx.Layer.C08_overloads_agree",
    "Fisx.Layer.C08_range",
    "Fisx.Layer.C08_rejects",
    "Fisx.Layer.C08_stacking",
    "Fisx.Layer.C08_zero_angle"
   ],
   "note": ""
  },
  {
   "property": "C09",
   "status": "proved",
   "theorems": [
    "Fisx.Layer.C09_constructor_wins",
    "Fisx.Layer.C09_explicit_wins"
   ],
   "note": "The defaults of the material are C86."
  },
  {
   "property": "C10",
   "status": "proved",
   "theorems": [
    "Fisx.Detector.C10_area_diameter",
    "Fisx.Detector.C10_geometry_in_every_history"
   ],
   "note": ""
  },
  {
   "property": "C11",
   "status": "proved",
   "theorems": [
    "Fisx.Detector.C11_escape_cache_transparent"
   ],
   "note": "Evaluation orders allowed before C++17: C87."
  },
  {
   "property": "C12",
   "status": "proved",
   "theorems": [
    "Fisx.Shell.C12_fluorescence_ratios",
    "Fisx.Shell.C12_stored_rates"
   ],
   "note": ""
  },
  {
   "property": "C13",
   "status": "proved",
   "theorems": [
    "Fisx.Shell.C13_auger_sum",
    "Fisx.Shell.C13_channels"
   ],
   "note": ""
  },
  {
   "property": "C14",
   "status": "partial",
   "theorems": [
    "Fisx.Shell.C14_constants_defined",
    "Fisx.Shell.C14_constants_stored",
    "Fisx.Shell.C14_constants_violated",
    "Fisx.Shell.C14_partial",
    "Fisx.Shell.C14_radiative_violated"
   ],
   "note": "False of the code for radiative transitions and constants (C14_radiative_violated, C14_constants_violated); the rest of the state is proved untouched."
  },
  {
   "property": "C15",
   "status": "proved",
   "theorems": [
    "Fisx.Shell.C15_AL",
    "Fisx.Shell.C15_bounded",
    "Fisx.Shell.C15_chars_violated"
   ],
   "note": "The TOTAL hypothesis is necessary: C15_chars_violated shows the char* overload breaking it; C15_AL the excluded destination."
  },
  {
   "property": "C16",
   "status": "proved",
   "theorems": [
    "Fisx.Element.C16_balance",
    "Fisx.Element.C16_causal",
    "Fisx.Element.C16_linear",
    "Fisx.Element.C16_transfers_nonneg"
   ],
   "note": "balance, monotony, linearity and causality; non-negativity of the transfers derived from sensible shell data"
  },
  {
   "property": "C17",
   "status": "proved",
   "theorems": [
    "Fisx.Element.C17_cache_transparent",
    "Fisx.Element.C17_foreign_label_violated",
    "Fisx.Element.C17_undefined_shell_violated"
   ],
   "note": "transparent under the provisos of the statement; C17_foreign_label_violated and C17_undefined_shell_violated show the provisos are needed"
  },
  {
   "property": "C18",
   "status": "partial",
   "theorems": [
    "Fisx.Element.C18_failed_fill_violated",
    "Fisx.Element.C18_fresh_transparent",
    "Fisx.Element.C18_history_partial",
    "Fisx.Element.C18_setBindingEnergies_violated",
    "Fisx.Element.C18_setNonradiative_violated",
    "Fisx.Element.C18_setRadiative_violated"
   ],
   "note": "holds for histories without the transition and binding energy setters and without failed fills; the code does not invalidate the cascade cache in those cases, as the C18_*_violated theorems prove"
  },
  {
   "property": "C19",
   "status": "partial",
   "theorems": [
    "Fisx.Element.C19_cascade_violated",
    "Fisx.Element.C19_failed_constants_violated",
    "Fisx.Element.C19_history_partial",
    "Fisx.Element.C19_setBindingEnergies_violated",
    "Fisx.Element.C19_setRadiative_violated"
   ],
   "note": "holds for histories without setBindingEnergies, the vector setRadiativeTransitions and cascade cache switches; those leave outdated entries, as the C19_*_violated theorems prove"
  },
  {
   "property": "C20",
   "status": "proved",
   "theorems": [
    "Fisx.Element.C20_bounded",
    "Fisx.Element.C20_flag_restored"
   ],
   "note": "Bound on both caches over every history; flag restored after success or failure."
  },
  {
   "property": "C21",
   "status": "proved",
   "theorems": [
    "Fisx.Element.C21_distribution",
    "Fisx.Element.C21_distribution_real"
   ],
   "note": "Over every history of calls supplying non-negative partial coefficients, with cache on or off."
  },
  {
   "property": "C22",
   "status": "proved",
   "theorems": [
    "Fisx.Element.C22_api",
    "Fisx.Element.C22_extrapolates",
    "Fisx.Element.C22_indices",
    "Fisx.Element.C22_partial_coefficients_interpolate",
    "Fisx.Element.C22_process_interpolates",
    "Fisx.Element.C22_short_table_violated",
    "Fisx.Element.C22_zero_values"
   ],
   "note": "Indices for every sorted table; values for tables of positive values whose energies are further apart than the resolution of the code (5e-10); where values are zero C22_zero_values (coherent, Compton, pair, all other) and C22_extrapolates (shells). The violation of tables with fewer than two points is shown beside it."
  },
  {
   "property": "C23",
   "status": "partial",
   "theorems": [
    "Fisx.EPDL97.C23_above_table_violated",
    "Fisx.EPDL97.C23_api_history_independent_partial",
    "Fisx.EPDL97.C23_below_table_violated",
    "Fisx.EPDL97.C23_defined_partial",
    "Fisx.EPDL97.C23_history_independent_partial",
    "Fisx.EPDL97.C23_indices",
    "Fisx.EPDL97.C23_indices_history_independent",
    "Fisx.EPDL97.C23_no_data_violated",
    "Fisx.EPDL97.C23_tabulated"
   ],
   "note": "Proved: indices always valid, intervals and coefficients history independent from the first energy up to (excluding) the last for tables of the kind found in evaluated data, exact at the tabulated energies (C23_tabulated); no read outside when shells have data at the two highest energies. Violated: below the first and above the last energy the result depends on the previous call; a shell without data reads outside the table."
  },
  {
   "property": "C24",
   "status": "proved",
   "theorems": [
    "Fisx.Library.C24_last_added",
    "Fisx.Library.C24_library_is_a_map"
   ],
   "note": "For every history of calls on elements, materials and caches."
  },
  {
   "property": "C25",
   "status": "proved",
   "theorems": [
    "Fisx.Library.C25_last_added_by_name",
    "Fisx.Library.C25_last_added_object",
    "Fisx.Library.C25_names_are_the_defined_ones",
    "Fisx.Library.C25_names_unique",
    "Fisx.Library.C25_remove",
    "Fisx.Library.C25_set_composition",
    "Fisx.Library.C25_untouched"
   ],
   "note": "For every history; removal, replacement, composition changes and frame."
  },
  {
   "property": "C26",
   "status": "proved",
   "theorems": [
    "Fisx.Library.C26_add_object",
    "Fisx.Library.C26_others_untouched"
   ],
   "note": "addMaterial by name: C88."
  },
  {
   "property": "C27",
   "status": "partial",
   "theorems": [
    "Fisx.Formula.C27_flat_formula",
    "Fisx.Formula.C27_group_formula_partial",
    "Fisx.Formula.C27_group_without_number_violated",
    "Fisx.Formula.C27_large_numbers_violated",
    "Fisx.Formula.C27_last_character_violated",
    "Fisx.Formula.C27_malformed_accepted_violated",
    "Fisx.Formula.C27_rejected",
    "Fisx.Formula.C27_result_unique",
    "Fisx.Formula.C27_terminates_partial",
    "Fisx.Formula.C27_termination_violated",
    "Fisx.Formula.C27_whole_formula_partial"
   ],
   "note": "Formulas without parentheses, and groups with counts under the conditions of the theorems (a count after every group, the last character not a lone symbol after a group, numbers below a million), are parsed exactly (C27_flat_formula, C27_group_formula_partial, C27_whole_formula_partial); termination is proved for all balanced strings without the failing shape (C27_terminates_partial). The full statement is false of the code: C27_termination_violated (\"A)2(C\" never returns), C27_last_character_violated (\"(NH4)2S\" loses the S), C27_group_without_number_violated, C27_large_numbers_violated, C27_malformed_accepted_violated."
  },
  {
   "property": "C28",
   "status": "proved",
   "theorems": [
    "Fisx.Library.C28_grammar",
    "Fisx.Library.C28_mass_fractions",
    "Fisx.Library.C28_unknown_element"
   ],
   "note": "Also for the grammar of C27. Formulas with negative or zero numbers: C89."
  },
  {
   "property": "C29",
   "status": "proved",
   "theorems": [
    "Fisx.Library.C29_amounts",
    "Fisx.Library.C29_composition",
    "Fisx.Library.C29_substitution",
    "Fisx.Library.C29_supplied_first",
    "Fisx.Library.C29_supplied_materials"
   ],
   "note": "getComposition(name) is sound and complete for the substitution specification (Resolves), normalised, empty only when something is unknown; getComposition with supplied materials and with amounts: weighted means, normalised. Unknown names with supplied materials: C90."
  },
  {
   "property": "C30",
   "status": "partial",
   "theorems": [
    "Fisx.Library.C30_cycle_violated",
    "Fisx.Library.C30_ranked_partial",
    "Fisx.Library.C30_terminates_partial"
   ],
   "note": "Terminates when no material reached contains itself; violated for cyclic materials, which the API accepts (C30_cycle_violated)."
  },
  {
   "property": "C31",
   "status": "proved",
   "theorems": [
    "Fisx.Library.C31_blend",
    "Fisx.Library.C31_composition",
    "Fisx.Library.C31_composition_violated",
    "Fisx.Library.C31_defined",
    "Fisx.Library.C31_element_name",
    "Fisx.Library.C31_energies",
    "Fisx.Library.C31_material",
    "Fisx.Library.C31_mixture_rule",
    "Fisx.Library.C31_negative_rejected",
    "Fisx.Library.C31_scaling",
    "Fisx.Library.C31_substance_name"
   ],
   "note": "Mixture rule for every composition, energy and library history; scaling and blending; a material stands for its composition; negative amounts rejected. With isComposition set, names and signs are not checked and unknown elements are undefined behaviour (C31_composition_violated)."
  },
  {
   "property": "C32",
   "status": "proved",
   "theorems": [
    "Fisx.Library.C32_by_name",
    "Fisx.Library.C32_defined",
    "Fisx.Library.C32_families",
    "Fisx.Library.C32_once",
    "Fisx.Library.C32_repeated_violated",
    "Fisx.Library.C32_unknown"
   ],
   "note": "Exact set (both directions), order and uniqueness for every correct sort. Duplicated requests give duplicated families (C32_repeated_violated): uniqueness is proved for lists of distinct names."
  },
  {
   "property": "C33",
   "status": "proved",
   "theorems": [
    "Fisx.Library.C33_complete",
    "Fisx.Library.C33_detected_probability",
    "Fisx.Library.C33_energy_below",
    "Fisx.Library.C33_escape_probability",
    "Fisx.Library.C33_peaks",
    "Fisx.Library.C33_rate",
    "Fisx.Library.C33_rate_above",
    "Fisx.Library.C33_rate_bounds"
   ],
   "note": "The number of peaks and their merging: C91. C33_rate: the rate is the integral over depth and direction of the photons leaving the detector, per interacting photon when a thickness is given."
  },
  {
   "property": "C34",
   "status": "partial",
   "theorems": [
    "Fisx.Library.C34_cache_transparent_partial",
    "Fisx.Library.C34_computation_partial",
    "Fisx.Library.C34_element_changed_violated",
    "Fisx.Library.C34_element_replaced_violated",
    "Fisx.Library.C34_left_first_violated"
   ],
   "note": "Proved for every history in which library data change only while the cache is empty; false otherwise (C34_element_changed_violated, C34_element_replaced_violated), and false with the left to right evaluation of the assignment allowed before C++17 (C34_left_first_violated)."
  },
  {
   "property": "C35",
   "status": "proved",
   "theorems": [
    "Fisx.Ini.C35_faithful",
    "Fisx.Ini.C35_faithful_unterminated",
    "Fisx.Ini.C35_final_newline",
    "Fisx.Ini.C35_missing_file",
    "Fisx.Ini.C35_rejected_iff"
   ],
   "note": "Comments: C92."
  },
  {
   "property": "C36",
   "status": "partial",
   "theorems": [
    "Fisx.Ini.C36_forgets_violated",
    "Fisx.Ini.C36_reread_partial"
   ],
   "note": "False: readFileName clears the section names but not the contents. Proved for every reader state and document: written keys have the written value, the others keep the old one, sections are the ones of the second file."
  },
  {
   "property": "C37",
   "status": "partial",
   "theorems": [
    "Fisx.Ini.C37_exact_partial",
    "Fisx.Ini.C37_found_violated",
    "Fisx.Ini.C37_other_section_violated",
    "Fisx.Ini.C37_read_only",
    "Fisx.Ini.C37_search_inverted_violated"
   ],
   "note": "False: the comparison is inverted (the first section of equal length NOT matching is returned, the matching one is never found); proved exactly what is returned, and that exact names work with both flags."
  },
  {
   "property": "C38",
   "status": "proved",
   "theorems": [
    "Fisx.Ini.C38_all",
    "Fisx.Ini.C38_case_insensitive"
   ],
   "note": "With case sensitivity: C93."
  },
  {
   "property": "C39",
   "status": "proved",
   "theorems": [
    "Fisx.Specfile.C39_count",
    "Fisx.Specfile.C39_invalid_index",
    "Fisx.Specfile.C39_numbers"
   ],
   "note": "The data of a scan: C94."
  },
  {
   "property": "C40",
   "status": "proved",
   "theorems": [
    "Fisx.Specfile.C40_outcomes",
    "Fisx.Specfile.C40_rectangular"
   ],
   "note": "Every returned table is rectangular with non-empty rows, for every state of the reader; on every file the only failures are invalid_argument and runtime_error."
  },
  {
   "property": "C41",
   "status": "proved",
   "theorems": [
    "Fisx.Xrf.C41_deeper",
    "Fisx.Xrf.C41_monotone",
    "Fisx.Xrf.C41_value"
   ],
   "note": "The bound one half: C95."
  },
  {
   "property": "C42",
   "status": "partial",
   "theorems": [
    "Fisx.Config.C42_accepted_iff",
    "Fisx.Config.C42_consistent_partial",
    "Fisx.Config.C42_negative_violated",
    "Fisx.Config.C42_read_violated"
   ],
   "note": "setSample accepts a negative reference layer, a new configuration has none (uninitialised in the code) and a file without sample is read with reference layer 0. Proved: exact acceptance condition, rejected calls change nothing, and consistency after every history of calls without file reading and with non negative references."
  },
  {
   "property": "C43",
   "status": "partial",
   "theorems": [
    "Fisx.Xrf.C43_least_partial",
    "Fisx.Xrf.C43_library",
    "Fisx.Xrf.C43_not_excited_partial",
    "Fisx.Xrf.C43_violated"
   ],
   "note": "Least excitable energy proved for libraries whose sub-shell binding energies are present and ordered; families \"Ka\"/\"Kb\" give 0 (C43_violated)."
  },
  {
   "property": "C44",
   "status": "partial",
   "theorems": [
    "Fisx.Config.C44_own_section_partial",
    "Fisx.Config.C44_violated"
   ],
   "note": "False: a section without an item takes the item of the material before (indeterminate for the first one), [Materials.] is undefined behaviour, names are cut. Proved: one material per section in file order, each described by its own section alone, when every section is complete."
  },
  {
   "property": "C45",
   "status": "proved",
   "theorems": [
    "Fisx.Multilayer.C45_api",
    "Fisx.Multilayer.C45_api_shares",
    "Fisx.Multilayer.C45_conservation",
    "Fisx.Multilayer.C45_no_orphans",
    "Fisx.Multilayer.C45_nonneg",
    "Fisx.Multilayer.C45_shares"
   ],
   "note": "C45_api*: for the function called with a configuration and a library of sensible elements (SoundLibrary, met by an example); the others for every regular environment of the calculation."
  },
  {
   "property": "C46",
   "status": "proved",
   "theorems": [
    "Fisx.Multilayer.C46_additive",
    "Fisx.Multilayer.C46_api_additive",
    "Fisx.Multilayer.C46_api_below_threshold",
    "Fisx.Multilayer.C46_api_order",
    "Fisx.Multilayer.C46_api_scale",
    "Fisx.Multilayer.C46_below_threshold",
    "Fisx.Multilayer.C46_order",
    "Fisx.Multilayer.C46_scale",
    "Fisx.Multilayer.C46_sum_of_rays"
   ],
   "note": "C46_api_*: for the function called with a configuration, a library, a beam and requests; the other theorems are the same for every environment of the calculation. Rates with tertiary excitation: C66."
  },
  {
   "property": "C47",
   "status": "proved",
   "theorems": [
    "Fisx.Multilayer.C47_accounted",
    "Fisx.Multilayer.C47_api"
   ],
   "note": "C47_api for a configuration and a library; C47_accounted for every regular environment."
  },
  {
   "property": "C48",
   "status": "proved",
   "theorems": [
    "Fisx.MathFn.C48_E1_accuracy",
    "Fisx.MathFn.C48_E1_defined",
    "Fisx.MathFn.C48_En_recurrence",
    "Fisx.MathFn.C48_continued_fraction_bounds",
    "Fisx.MathFn.C48_domain",
    "Fisx.MathFn.C48_no_zero_denominator"
   ],
   "note": "Real arithmetic. The argument 1: C96."
  },
  {
   "property": "C49",
   "status": "proved",
   "theorems": [
    "Fisx.MathFn.C49_complementary",
    "Fisx.MathFn.C49_odd",
    "Fisx.MathFn.C49_range"
   ],
   "note": "The argument 0: C97."
  },
  {
   "property": "C50",
   "status": "proved",
   "theorems": [
    "Fisx.EPDL97.C50_weights"
   ],
   "note": "For every history, failed calls included."
  },
  {
   "property": "C51",
   "status": "partial",
   "theorems": [
    "Fisx.EPDL97.C51_binding_only_violated",
    "Fisx.EPDL97.C51_element_used_partial",
    "Fisx.EPDL97.C51_failed_load_violated",
    "Fisx.EPDL97.C51_low_rejected",
    "Fisx.EPDL97.C51_set_beyond_violated"
   ],
   "note": "Numbers below 1 rejected; element used identified when there are at least as many binding energies as cross sections. Violated: setBindingEnergies beyond the table writes outside; an object with binding energies only (or after a failed load) reports itself as initialized and reads outside its tables."
  },
  {
   "property": "C52",
   "status": "proved",
   "theorems": [
    "Fisx.Element.C52_all_or_nothing",
    "Fisx.Element.C52_history",
    "Fisx.Element.C52_shell_table"
   ],
   "note": "All histories; acceptance is characterised exactly, for the total table and (C52_shell_table) for those of the shells."
  },
  {
   "property": "C53",
   "status": "proved",
   "theorems": [
    "Fisx.Element.C53_emitted_all",
    "Fisx.Element.C53_emitted_excited",
    "Fisx.Element.C53_line_energy_agrees",
    "Fisx.Element.C53_rejected",
    "Fisx.Element.C53_transition_energy"
   ],
   "note": "Only lines of excited shells (C53_emitted_excited), all of them up to the first undefined shell (C53_emitted_all). Positivity of the energies: C98."
  },
  {
   "property": "C54",
   "status": "proved",
   "theorems": [
    "Fisx.Xrf.C54_list",
    "Fisx.Xrf.C54_parse"
   ],
   "note": "Several requests: C99. Other strings: C100."
  },
  {
   "property": "C55",
   "status": "partial",
   "theorems": [
    "Fisx.Material.C55_last_amount_partial",
    "Fisx.Material.C55_repeated_names_violated"
   ],
   "note": "False of the code: C55_repeated_names_violated. What holds for repeated names (C55_last_amount_partial): the last amount given for a name divided by the sum of all amounts; nothing for other names; the fractions are positive and add up to at most one. Distinct names: C01_list_normalised_iff_distinct."
  },
  {
   "property": "C56",
   "status": "partial",
   "theorems": [
    "Fisx.Shell.C56_labels_partial",
    "Fisx.Shell.C56_violated"
   ],
   "note": "False for five character labels ending in two digits (C56_violated); proved for all other labels."
  },
  {
   "property": "C57",
   "status": "proved",
   "theorems": [
    "Fisx.Shell.C57_constructor"
   ],
   "note": ""
  },
  {
   "property": "C58",
   "status": "partial",
   "theorems": [
    "Fisx.Shell.C58_partial",
    "Fisx.Shell.C58_violated"
   ],
   "note": "False for labels of fewer than two characters (C58_violated); proved for all others."
  },
  {
   "property": "C60",
   "status": "partial",
   "theorems": [
    "Fisx.MathFn.C60_deBoerD",
    "Fisx.MathFn.C60_deBoerL0",
    "Fisx.MathFn.C60_deBoerX_defined",
    "Fisx.MathFn.C60_deBoerX_null",
    "Fisx.MathFn.C60_equal_coefficients_violated"
   ],
   "note": "all parts but the last of deBoerL0: it throws when the coefficients at the emitted and exciting lines are equal (C60_equal_coefficients_violated)"
  },
  {
   "property": "C61",
   "status": "proved",
   "theorems": [
    "Fisx.MathFn.C61_fwhm"
   ],
   "note": "real arithmetic"
  },
  {
   "property": "C62",
   "status": "proved",
   "theorems": [
    "Fisx.EPDL97.C62_sums",
    "Fisx.EPDL97.C62_table_sums"
   ],
   "note": "Single energy and whole table."
  },
  {
   "property": "C63",
   "status": "proved",
   "theorems": [
    "Fisx.Specfile.C63_labels",
    "Fisx.Specfile.C63_no_label_line"
   ],
   "note": "For every closed scan of every file; strtod is not involved."
  },
  {
   "property": "C64",
   "status": "proved",
   "theorems": [
    "Fisx.Config.C64_layers"
   ],
   "note": "Files without that section: the inverted search of C37 takes another one (C101_order_violated). Order: C101."
  },
  {
   "property": "C65",
   "status": "partial",
   "theorems": [
    "Fisx.Config.C65_not_atomic_violated",
    "Fisx.Config.C65_rejected_partial"
   ],
   "note": "False for a file rejected after its beam was accepted. Proved: unchanged when the file, its beam section or the beam is at fault; otherwise the setup part (sample, filters, geometry, detector) is unchanged unless only [concentrations] was rejected."
  },
  {
   "property": "C66",
   "status": "partial",
   "theorems": [
    "Fisx.Multilayer.C66_excitation_partial",
    "Fisx.Multilayer.C66_tertiary_rates_violated"
   ],
   "note": "False: C66_tertiary_rates_violated. The excitation factors stay additive (C66_excitation_partial)."
  },
  {
   "property": "C67",
   "status": "proved",
   "theorems": [
    "Fisx.Layer.C67_constructor",
    "Fisx.Layer.C67_material",
    "Fisx.Layer.C67_name",
    "Fisx.Layer.C67_reported_name_violated"
   ],
   "note": "getMaterialName keeps the previous name after setMaterial (C67_reported_name_violated), the composition is right."
  },
  {
   "property": "C68",
   "status": "proved",
   "theorems": [
    "Fisx.Layer.C68_defined",
    "Fisx.Layer.C68_element",
    "Fisx.Layer.C68_material",
    "Fisx.Layer.C68_substance"
   ],
   "note": "Real arithmetic."
  },
  {
   "property": "C69",
   "status": "proved",
   "theorems": [
    "Fisx.Layer.C69_families",
    "Fisx.Layer.C69_unknown_component_violated"
   ],
   "note": "Components unknown to the library are left out silently although the composition is empty (C69_unknown_component_violated)."
  },
  {
   "property": "C70",
   "status": "proved",
   "theorems": [
    "Fisx.Element.C70_edge_example",
    "Fisx.Element.C70_excited_shells",
    "Fisx.Element.C70_lines",
    "Fisx.Element.C70_no_lines",
    "Fisx.Element.C70_partial_coefficients",
    "Fisx.Element.C70_vacancies"
   ],
   "note": "All element states; histories with caches restricted to the calls that keep them valid (see C18, C19 for those that do not). At the edge itself the subshell absorbs but is not listed by getExcitedShells (C70_edge_example)."
  },
  {
   "property": "C71",
   "status": "proved",
   "theorems": [
    "Fisx.Multilayer.C71_no_primary",
    "Fisx.Multilayer.C71_primary"
   ],
   "note": "Real arithmetic; SoundLibrary is the invariant that the caches hold what would be computed and line names contain no blank. Line names with a blank are the escape lines, treated in C45."
  },
  {
   "property": "C72",
   "status": "proved",
   "theorems": [
    "Fisx.Multilayer.C72_families",
    "Fisx.Multilayer.C72_lines"
   ],
   "note": "As C71."
  },
  {
   "property": "C73",
   "status": "proved",
   "theorems": [
    "Fisx.Multilayer.C73_detector",
    "Fisx.Multilayer.C73_efficiency",
    "Fisx.Multilayer.C73_layer"
   ],
   "note": "As C71."
  },
  {
   "property": "C74",
   "status": "proved",
   "theorems": [
    "Fisx.Element.C74_no_partials",
    "Fisx.Element.C74_sums"
   ],
   "note": "Invariant over all histories (cached entries obey the sum rules)."
  },
  {
   "property": "C75",
   "status": "proved",
   "theorems": [
    "Fisx.EPDL97.C75_epdl97_coefficients",
    "Fisx.EPDL97.C75_epdl97_weights",
    "Fisx.Element.C75_binding_list",
    "Fisx.Element.C75_element_coefficients",
    "Fisx.Element.C75_element_factors",
    "Fisx.Element.C75_element_vacancies",
    "Fisx.Library.C75_library_coefficients",
    "Fisx.Library.C75_library_factors"
   ],
   "note": "The vector calls are equal to the calls one by one; EPDL97 with its remembered index as state."
  },
  {
   "property": "C76",
   "status": "partial",
   "theorems": [
    "Fisx.Element.C76_short_weights_violated",
    "Fisx.Element.C76_weights_partial"
   ],
   "note": "Violated: two or more weights but fewer than energies are read past their end (C76_short_weights_violated). C76_weights_partial: no such read for at most one weight or at least as many weights as energies."
  },
  {
   "property": "C77",
   "status": "proved",
   "theorems": [
    "Fisx.Multilayer.C77_complete_library_returns",
    "Fisx.Multilayer.C77_no_undefined_behaviour",
    "Fisx.Multilayer.C77_returns",
    "Fisx.Multilayer.C77_thick_or_thin_layers_return",
    "Fisx.Multilayer.C77_thick_sample_returns"
   ],
   "note": "Totality of the whole calculation; C77_thick_or_thin_layers_return: with secondary excitation, for any number of layers. The examples of MultilayerExample.lean and SecondaryExample.lean meet all hypotheses and return lines."
  },
  {
   "property": "C78",
   "status": "proved",
   "theorems": [
    "Fisx.Element.C78_complete_element_answers"
   ],
   "note": "Totality of the queries for complete data."
  },
  {
   "property": "C79",
   "status": "proved",
   "theorems": [
    "Fisx.Loader.C79_load",
    "Fisx.Loader.C79_refused",
    "Fisx.Loader.C79_yields"
   ],
   "note": "C79_load gives the sequence of setter calls, C79_yields the resulting yields, C79_refused the refusals. Row n means the element at position n: see C80."
  },
  {
   "property": "C80",
   "status": "partial",
   "theorems": [
    "Fisx.Loader.C80_atomic_number_violated",
    "Fisx.Loader.C80_in_order_partial"
   ],
   "note": "Violated (C80_atomic_number_violated): the Z column is ignored, row n goes to the n-th element. C80_in_order_partial: true of the yields when the rows follow the order of the elements; what happens in general is C79."
  },
  {
   "property": "C81",
   "status": "partial",
   "theorems": [
    "Fisx.Loader.C81_safe_partial",
    "Fisx.Loader.C81_unsafe_violated"
   ],
   "note": "Violated (C81_unsafe_violated): data[i] is read for scan i whatever its number of rows, and rows beyond the last element write out of bounds. C81_safe_partial: safe when scan i has more than i rows and no scan has more rows than there are elements."
  },
  {
   "property": "C82",
   "status": "partial",
   "theorems": [
    "Fisx.Loader.C82_failed_partial",
    "Fisx.Loader.C82_not_atomic_violated"
   ],
   "note": "Violated (C82_not_atomic_violated): the scans before the offending one have been applied. C82_failed_partial: only the shells of the requested main shell can differ, and no remembered file name changes; C79_refused: refusals before the scans change nothing."
  },
  {
   "property": "C83",
   "status": "proved",
   "theorems": [
    "Fisx.Element.C83_shell_updated",
    "Fisx.Element.C83_unbound_refused",
    "Fisx.Element.C83_unknown_refused"
   ],
   "note": "C83_unbound_refused, C83_unknown_refused, C83_shell_updated."
  },
  {
   "property": "C84",
   "status": "proved",
   "theorems": [
    "Fisx.Multilayer.C84_by_source",
    "Fisx.Multilayer.C84_none",
    "Fisx.Multilayer.C84_secondary"
   ],
   "note": "closed formula for secondary excitation, total and by source; fe_result_secondary (MultilayerThick.lean) meets the hypotheses"
  },
  {
   "property": "C85",
   "status": "proved",
   "theorems": [
    "Fisx.Multilayer.C85_mass_fraction",
    "Fisx.Multilayer.C85_none",
    "Fisx.Multilayer.C85_only_adds",
    "Fisx.Multilayer.C85_tertiary"
   ],
   "note": "The escape peaks share the tertiary excitation of their line (C45)."
  },
  {
   "property": "C86",
   "status": "partial",
   "theorems": [
    "Fisx.Layer.C86_density_violated",
    "Fisx.Layer.C86_thickness_partial"
   ],
   "note": "Violated for the density (C86_density_violated): a layer built with the default arguments keeps density 0. Proved for the thickness, and for the density after a negative constructor value."
  },
  {
   "property": "C87",
   "status": "partial",
   "theorems": [
    "Fisx.Detector.C87_any_order_partial",
    "Fisx.Detector.C87_lhs_first_violated"
   ],
   "note": "Violated when a computation throws (C87_lhs_first_violated): an empty entry stays in the cache. Proved when the library never throws."
  },
  {
   "property": "C88",
   "status": "partial",
   "theorems": [
    "Fisx.Library.C88_add_by_name_partial",
    "Fisx.Library.C88_replace_violated",
    "Fisx.Library.C88_zero_amount_violated"
   ],
   "note": "Proved when the name is new or may not be replaced and the formula has positive fractions; violated otherwise (C88_replace_violated: the old material is lost; C88_zero_amount_violated: a material without composition stays)."
  },
  {
   "property": "C89",
   "status": "partial",
   "theorems": [
    "Fisx.Library.C89_negative_violated",
    "Fisx.Library.C89_signs_partial"
   ],
   "note": "Violated (C89_negative_violated): they are accepted. C89_signs_partial: the fractions of any formula whose total mass is not zero add up to one, and they are all non-negative exactly when the numbers have the sign of the total. With positive numbers the property is C28."
  },
  {
   "property": "C90",
   "status": "partial",
   "theorems": [
    "Fisx.Library.C90_supplied_unknown_violated",
    "Fisx.Library.C90_unknown_partial"
   ],
   "note": "Violated (C90_supplied_unknown_violated). C90_unknown_partial: for every unknown name and every list of supplied materials, none of that name, the call with supplied materials throws invalid_argument where the call without returns nothing. Without supplied materials the property is part of C29."
  },
  {
   "property": "C91",
   "status": "partial",
   "theorems": [
    "Fisx.Library.C91_limit_violated",
    "Fisx.Library.C91_number_partial",
    "Fisx.Library.C91_separation_partial",
    "Fisx.Library.C91_thresholds_ignored_violated"
   ],
   "note": "Violated: both parameters are ignored, for every detector and energy (C91_thresholds_ignored_violated, C91_limit_violated). What holds: C91_number_partial (no more peaks than asked for when the detector has no more lines), C91_separation_partial (separated when the lines of the detector are); case iron_peaks."
  },
  {
   "property": "C92",
   "status": "partial",
   "theorems": [
    "Fisx.Ini.C92_comment_line_violated",
    "Fisx.Ini.C92_trailing_comment_violated",
    "Fisx.Ini.C92_up_to_zeros_partial"
   ],
   "note": "Violated: a comment line or a trailing comment adds a NUL character to a value, and a comment after a section line copies the previous key into the new section (C92_comment_line_violated, C92_trailing_comment_violated). C92_up_to_zeros_partial: same outcome, same sections and the same values up to NUL characters and blanks, for every file and every way of adding comments. Without comments: C35."
  },
  {
   "property": "C93",
   "status": "partial",
   "theorems": [
    "Fisx.Ini.C93_case_sensitive_partial",
    "Fisx.Ini.C93_case_sensitive_violated"
   ],
   "note": "Violated: sizes are compared with == so that only a section called \"parent.\" is returned (C93_case_sensitive_violated, C93_case_sensitive_partial)."
  },
  {
   "property": "C94",
   "status": "partial",
   "theorems": [
    "Fisx.Specfile.C94_data_partial",
    "Fisx.Specfile.C94_single_digit_violated",
    "Fisx.Specfile.C94_unseparated_violated",
    "Fisx.Specfile.C94_witness_violated"
   ],
   "note": "The data are exact for scans that are last or followed by a line of at most one character (C94_data_partial). False otherwise (proved for every file): a scan directly followed by another #S line has no data and no labels; a one-digit row ends the scan."
  },
  {
   "property": "C95",
   "status": "partial",
   "theorems": [
    "Fisx.Xrf.C95_above_half_violated",
    "Fisx.Xrf.C95_half_partial"
   ],
   "note": "True exactly when the effective distance is not negative (C95_half_partial), violated for a layer above the reference layer that is farther from it than the detector (C95_above_half_violated)."
  },
  {
   "property": "C96",
   "status": "partial",
   "theorems": [
    "Fisx.MathFn.C96_E1_one_violated",
    "Fisx.MathFn.C96_En_one_violated",
    "Fisx.MathFn.C96_only_one_partial"
   ],
   "note": "Violated at 1: they throw runtime_error (C96_E1_one_violated, C96_En_one_violated). C96_only_one_partial: among the positive arguments 1 is the only one. Values: C48."
  },
  {
   "property": "C97",
   "status": "partial",
   "theorems": [
    "Fisx.MathFn.C97_zero_small_partial",
    "Fisx.MathFn.C97_zero_violated"
   ],
   "note": "Violated: it is positive (C97_zero_violated), below 1e-6 (C97_zero_small_partial)."
  },
  {
   "property": "C98",
   "status": "partial",
   "theorems": [
    "Fisx.Element.C98_positive_partial",
    "Fisx.Element.C98_positive_violated"
   ],
   "note": "Violated when the outer shell is not less bound than the inner one (C98_positive_violated); proved with that hypothesis."
  },
  {
   "property": "C99",
   "status": "partial",
   "theorems": [
    "Fisx.Multilayer.C99_api_partial",
    "Fisx.Multilayer.C99_union_partial",
    "Fisx.Multilayer.C99_union_violated"
   ],
   "note": "Proved for requests with distinct keys (C99_union_partial, C99_api_partial); repeated requests double count (C99_union_violated)."
  },
  {
   "property": "C100",
   "status": "partial",
   "theorems": [
    "Fisx.Multilayer.C100_accepted_iff",
    "Fisx.Multilayer.C100_rejected_partial",
    "Fisx.Multilayer.C100_tab_violated"
   ],
   "note": "C100_rejected_partial: if the call with request strings returns, every string has two fields, or three with a layer, and a family; C100_accepted_iff. Violated by other blanks (C100_tab_violated: in \"Fe K<tab>2\" the layer is ignored). An empty beam gives a result for everything."
  },
  {
   "property": "C101",
   "status": "partial",
   "theorems": [
    "Fisx.Config.C101_order_partial",
    "Fisx.Config.C101_order_violated"
   ],
   "note": "C101_order_partial: true when the keys of the sections are written in ascending order. Violated otherwise (C101_order_violated): layers come in the order of their keys (Layer10 before Layer2), and without the section another one is read."
  },
  {
   "property": "C102",
   "status": "proved",
   "theorems": [
    "Fisx.Element.C102_edges",
    "Fisx.Element.C102_errors"
   ],
   "note": "Exact characterisation (iff) of the result, the error cases and the frame."
  },
  {
   "property": "C103",
   "status": "partial",
   "theorems": [
    "Fisx.Element.C103_partial",
    "Fisx.Element.C103_violated"
   ],
   "note": "Violated: jumps are paired with shells by position from the highest energy, so a table that starts below the K edge and ends under it (only L edges) has no edges (C103_violated). Partial: tables whose jumps are, from the highest on, those of K, L1, ..."
  },
  {
   "property": "C104",
   "status": "proved",
   "theorems": [
    "Fisx.Element.C104_energies",
    "Fisx.Element.C104_query",
    "Fisx.Element.C104_table"
   ],
   "note": "C104_table and C104_energies over any ordered field; C104_query over the reals, for positive energies increasing by 5e-10 keV."
  },
  {
   "property": "C105",
   "status": "partial",
   "theorems": [
    "Fisx.Element.C105_partial",
    "Fisx.Element.C105_violated"
   ],
   "note": "Violated when an edge is found in the supplied values: the shells without edge and the outer shells keep the EPDL97 values (C105_violated, with an example where 2000 is supplied and about 1541 returned). C105_partial: the supplied value is returned when no edge is found."
  },
  {
   "property": "C106",
   "status": "partial",
   "theorems": [
    "Fisx.Element.C106_partial",
    "Fisx.Element.C106_violated"
   ],
   "note": "Violated: the element has been reset to EPDL97 before the sizes are compared (C106_violated). Partial: nothing changes when EPDL97 has no table."
  },
  {
   "property": "C107",
   "status": "partial",
   "theorems": [
    "Fisx.Element.C107_high_energies_violated",
    "Fisx.Element.C107_no_energies_violated",
    "Fisx.Element.C107_pair_violated",
    "Fisx.Element.C107_partial"
   ],
   "note": "Violated: no energies, energies that start above EPDL97, fewer pair (coherent, Compton) coefficients than energies. C107_partial: otherwise it returns or throws."
  },
  {
   "property": "C108",
   "status": "proved",
   "theorems": [
    "Fisx.Library.C108_only_that_element",
    "Fisx.Library.C108_unknown"
   ],
   "note": "The escape ratios computed with the old coefficients are kept (compare C34)."
  },
  {
   "property": "C109",
   "status": "proved",
   "theorems": [
    "Fisx.Library.C109_columns",
    "Fisx.Library.C109_no_scans",
    "Fisx.Library.C109_scans"
   ],
   "note": "Elements are found under their names after any history (named_run)."
  },
  {
   "property": "C110",
   "status": "partial",
   "theorems": [
    "Fisx.Library.C110_more_scans_violated",
    "Fisx.Library.C110_no_pair_violated",
    "Fisx.Library.C110_safe_partial",
    "Fisx.Library.C110_witness_violated"
   ],
   "note": "Violated: more scans than elements, or no pair column. C110_safe_partial: for a file with no more scans than the library has elements, whose scans are rectangular with all the columns and whose tables reach the binding energies of the element, the call ends without undefined behaviour."
  },
  {
   "property": "C111",
   "status": "proved",
   "theorems": [
    "Fisx.EPDL97.C111_binding_energies"
   ],
   "note": "Exact (iff) for every key and value."
  },
  {
   "property": "C112",
   "status": "proved",
   "theorems": [
    "Fisx.EPDL97.C112_table"
   ],
   "note": "For files whose fifteen quantities are in different columns (stated as a hypothesis)."
  },
  {
   "property": "C113",
   "status": "partial",
   "theorems": [
    "Fisx.EPDL97.C113_light_violated",
    "Fisx.EPDL97.C113_no_outer_violated",
    "Fisx.EPDL97.C113_sums",
    "Fisx.EPDL97.C113_total_partial"
   ],
   "note": "Violated for z <= 18 with outer shells in the file and for rows without outer shells (C113_light_violated, C113_no_outer_violated). C113_sums: what is returned for all elements. C113_total_partial: it holds for z > 18, positive outer shells and inner shells not above the photoelectric coefficient."
  },
  {
   "property": "C114",
   "status": "proved",
   "theorems": [
    "Fisx.Element.C114_element",
    "Fisx.Library.C114_mixture",
    "Fisx.Library.C114_name"
   ],
   "note": "Element, mixture and name."
  },
  {
   "property": "C115",
   "status": "proved",
   "theorems": [
    "Fisx.Multilayer.C115_beam",
    "Fisx.Multilayer.C115_efficiency",
    "Fisx.Multilayer.C115_primary"
   ],
   "note": "C115_beam, C115_efficiency, C115_primary."
  },
  {
   "property": "C116",
   "status": "proved",
   "theorems": [
    "Fisx.Multilayer.C116_beam",
    "Fisx.Multilayer.C116_one",
    "Fisx.Multilayer.C116_strings",
    "Fisx.Multilayer.C116_vectors"
   ],
   "note": "C116_vectors, C116_one, C116_strings, C116_beam."
  },
  {
   "property": "C117",
   "status": "proved",
   "theorems": [
    "Fisx.Multilayer.C117_material",
    "Fisx.Multilayer.C117_name"
   ],
   "note": "C117_material, C117_name (for names that are not formulas: those are parsed first, see C29)."
  },
  {
   "property": "C118",
   "status": "partial",
   "theorems": [
    "Fisx.Multilayer.C118_enough_partial",
    "Fisx.Multilayer.C118_short_vectors_violated"
   ],
   "note": "Violated: C118_short_vectors_violated. C118_enough_partial: nothing is read past the end when every element has a family and a layer (or one layer is given)."
  },
  {
   "property": "C119",
   "status": "proved",
   "theorems": [
    "Fisx.Init.C119_predefined"
   ],
   "note": "C119_predefined."
  },
  {
   "property": "C120",
   "status": "proved",
   "theorems": [
    "Fisx.Element.C120_accepted",
    "Fisx.Element.C120_read_back"
   ],
   "note": "C120_read_back, C120_accepted."
  },
  {
   "property": "C121",
   "status": "proved",
   "theorems": [
    "Fisx.Init.C121_directory",
    "Fisx.Init.C121_file"
   ],
   "note": "C121_directory, C121_file."
  },
  {
   "property": "C122",
   "status": "proved",
   "theorems": [
    "Fisx.Init.C122_coefficients"
   ],
   "note": "C122_coefficients; the columns of the file must be distinct for distinct quantities."
  },
  {
   "property": "C123",
   "status": "proved",
   "theorems": [
    "Fisx.Init.C123_nonradiative",
    "Fisx.Init.C123_radiative",
    "Fisx.Init.C123_yields"
   ],
   "note": "C123_yields, C123_radiative, C123_nonradiative."
  },
  {
   "property": "C124",
   "status": "proved",
   "theorems": [
    "Fisx.Init.C124_empty",
    "Fisx.Init.C124_required"
   ],
   "note": "C124_required (contrapositive: anything missing is refused), C124_empty."
  },
  {
   "property": "C125",
   "status": "proved",
   "theorems": [
    "Fisx.Init.C125_coefficients",
    "Fisx.Init.C125_kept",
    "Fisx.Init.C125_radiative",
    "Fisx.Init.C125_yields"
   ],
   "note": "C125_kept, C125_yields, C125_radiative, C125_coefficients."
  },
  {
   "property": "C126",
   "status": "partial",
   "theorems": [
    "Fisx.Refs.C126_binding_violated",
    "Fisx.Refs.C126_dangling_violated",
    "Fisx.Refs.C126_follows_partial",
    "Fisx.Refs.C126_unknown"
   ],
   "note": "C126_follows_partial: holds for transitions and fluorescence ratios and every history without setBindingEnergies; C126_unknown. Violated: getAugerRatios and getCosterKronigRatios return a reference to a map of a dead local copy of the shell (C126_dangling_violated), and setBindingEnergies ends the life of every reference (C126_binding_violated)."
  },
  {
   "property": "C127",
   "status": "proved",
   "theorems": [
    "Fisx.Init.C127_sound"
   ],
   "note": "C127_sound: SoundLibrary holds of the result of construct1, construct2, construct3 under SaneData; SaneData is met by the libraries of InitExamples (SoundExamples)."
  },
  {
   "property": "C128",
   "status": "proved",
   "theorems": [
    "Fisx.Element.C128_element",
    "Fisx.Init.C128_constructed",
    "Fisx.Init.C128_from_files",
    "Fisx.Library.C128_library",
    "Fisx.Multilayer.C128_fluorescence"
   ],
   "note": "C128_element, C128_library, C128_fluorescence (order of evaluation of C++17); C128_constructed: the constructors give a library with empty caches. Hypotheses met: cacheExample_cacheable. C128_from_files: for a library made from files, from data that can be read."
  },
  {
   "property": "C129",
   "status": "partial",
   "theorems": [
    "Fisx.Element.C129_left_first_violated",
    "Fisx.Element.C129_order_partial"
   ],
   "note": "Proved when the call does not throw (C129_order_partial). Violated otherwise (C129_left_first_violated): empty entries stay in the caches and later queries return no lines instead of throwing."
  },
  {
   "property": "C130",
   "status": "proved",
   "theorems": [
    "Fisx.MathFn.C130_builds_agree",
    "Fisx.MathFn.C130_limits"
   ],
   "note": "C130_limits, C130_builds_agree (exact arithmetic)."
  },
  {
   "property": "C131",
   "status": "proved",
   "theorems": [
    "Fisx.MathFn.C131_E1_accurate",
    "Fisx.MathFn.C131_continued_fraction",
    "Fisx.MathFn.C131_deBoerD_accurate"
   ],
   "note": "C131_E1_accurate, C131_deBoerD_accurate; C131_continued_fraction for any tolerance and number of iterations. At 1 E1 throws: C96."
  },
  {
   "property": "C132",
   "status": "partial",
   "theorems": [
    "Fisx.MathFn.C132_En_accurate_violated",
    "Fisx.MathFn.C132_En_error_partial"
   ],
   "note": "C132_En_error_partial: the absolute error is at most 1.2e-6 x^(n-1)/(n-1)! E1(x). Violated as stated (C132_En_accurate_violated): En(9, 100) is negative."
  },
  {
   "property": "C133",
   "status": "partial",
   "theorems": [
    "Fisx.MathFn.C133_negative_error_violated",
    "Fisx.MathFn.C133_negative_partial",
    "Fisx.MathFn.C133_negative_violated",
    "Fisx.MathFn.C133_principal_value_partial"
   ],
   "note": "C133_principal_value_partial: at every negative argument E1 exceeds the Cauchy principal value by between |x|^11/(11 11!) - 3e-9 and exp(|x|) |x|^11/(11 11!) + 3e-9; C133_negative_partial: error at most 2.8e-8 (b - a) down to -1. Violated as stated (C133_negative_violated, C133_negative_error_violated): E1(-10) - E1(-1) is off by more than 227."
  },
  {
   "property": "C134",
   "status": "partial",
   "theorems": [
    "Fisx.MathFn.C134_rational_partial",
    "Fisx.MathFn.C134_rational_violated"
   ],
   "note": "C134_rational_partial: domain and range. Violated as stated (C134_rational_violated): below 0.08 instead of above 0.99 at 100."
  },
  {
   "property": "C135",
   "status": "partial",
   "theorems": [
    "Fisx.MathFn.C135_integral_partial",
    "Fisx.MathFn.C135_integral_violated"
   ],
   "note": "C135_integral_partial: for all positive coefficients with mu2 different from muj, with an explicit error bound; an exception is only possible when the integral itself is below the bound. The bound is proportional to 1.2e-6 for mu2 < muj; for muj < mu2 it contains ((mu2-muj)d)^11/(11 11!), which is not small (C133_negative_violated). Equal coefficients throw (C60_equal_coefficients_violated); thick and thin approximations are C136. C135_integral_violated: for coefficients where the arguments of the two approximations meet (mu1 = 1, mu2 = 1e-12, muj = 1 + 1e-12) the value returned is more than 5000 times the integral."
  },
  {
   "property": "C136",
   "status": "partial",
   "theorems": [
    "Fisx.MathFn.C136_thick_limit_partial",
    "Fisx.MathFn.C136_thick_violated",
    "Fisx.MathFn.C136_thin_violated"
   ],
   "note": "C136_thick_limit_partial: the thick value is the limit for infinite thickness, for all positive coefficients. Violated as stated: 80 times too large for a layer transparent to the intermediate line (C136_thick_violated); zero for every thin target, where the integral is positive (C136_thin_violated)."
  },
  {
   "property": "C137",
   "status": "partial",
   "theorems": [
    "Fisx.MathFn.C137_cross_layer_partial",
    "Fisx.MathFn.C137_cross_layer_violated",
    "Fisx.MathFn.C137_error_small_partial",
    "Fisx.MathFn.C137_exchange",
    "Fisx.MathFn.C137_not_negative_downwards_partial",
    "Fisx.MathFn.C137_not_negative_partial"
   ],
   "note": "C137_cross_layer_partial: the value differs from the integral at most by the errors of the exponential integrals at the four corners; C137_error_small_partial: these are proportional to 1.2e-6 when mu2j + p and mu1j - q are positive. Violated as stated when one is negative (C137_cross_layer_violated: too small by more than 1). C137_not_negative_partial, C137_not_negative_downwards_partial: however large the error at negative arguments, the value is never below zero by more than the error of the exponential integral at positive arguments (proportional to 1.2e-6). C137_exchange: exchanging the layers and the directions gives the same value."
  },
  {
   "property": "C138",
   "status": "partial",
   "theorems": [
    "Fisx.C138_atomic_number",
    "Fisx.C138_constructor",
    "Fisx.C138_last_set",
    "Fisx.C138_mass_violated",
    "Fisx.C138_rejected",
    "Fisx.C138_sign"
   ],
   "note": "Proved for all histories (C138_last_set, C138_rejected, C138_sign, C138_atomic_number). Violated for the atomic mass: neither constructor initialises it, so reading it before setAtomicMass is undefined (C138_mass_violated)."
  },
  {
   "property": "C139",
   "status": "partial",
   "theorems": [
    "Fisx.Element.C139_element_overloads",
    "Fisx.Shell.C139_map_overloads",
    "Fisx.Shell.C139_nonradiative_chars_partial",
    "Fisx.Shell.C139_nonradiative_chars_violated",
    "Fisx.Shell.C139_nonradiative_order",
    "Fisx.Shell.C139_radiative_chars",
    "Fisx.Shell.C139_radiative_order"
   ],
   "note": "Proved for the order (C139_radiative_order, C139_nonradiative_order), the map overloads (C139_map_overloads) and the C string overload of the radiative transitions (C139_radiative_chars). The C string overload of the nonradiative transitions agrees only on a shell without any (C139_nonradiative_chars_partial): it does not empty the map (C139_nonradiative_chars_violated)."
  },
  {
   "property": "C140",
   "status": "partial",
   "theorems": [
    "Fisx.MathFn.C140_absolute_partial",
    "Fisx.MathFn.C140_accuracy_violated",
    "Fisx.MathFn.C140_erfc_relative_partial",
    "Fisx.MathFn.C140_published_coefficient"
   ],
   "note": "C140_erfc_relative_partial, C140_absolute_partial: the error is at most 4.34e-7 everywhere. Violated as stated (C140_accuracy_violated: 3.2e-7 at 0), because the third coefficient is 0.3740916 instead of the published 0.37409196; with that one the error is at most 1.08e-7 (C140_published_coefficient)."
  },
  {
   "property": "C141",
   "status": "partial",
   "theorems": [
    "Fisx.Multilayer.C141_above_not_negative_partial",
    "Fisx.Multilayer.C141_below_not_negative_partial",
    "Fisx.Multilayer.C141_enhancement_nonneg",
    "Fisx.Multilayer.C141_one_layer",
    "Fisx.Multilayer.C141_same_layer_nonneg",
    "Fisx.Multilayer.C141_same_layer_partial",
    "Fisx.Multilayer.C141_sample_not_negative_partial",
    "Fisx.Multilayer.C141_sample_partial",
    "Fisx.Multilayer.C141_source_above_partial",
    "Fisx.Multilayer.C141_source_below_partial"
   ],
   "note": "C141_same_layer_partial, C141_source_below_partial, C141_source_above_partial: equality with the double integral within explicit error bounds when the coefficients differ and the layer is neither thin nor thick; C141_same_layer_nonneg, C141_one_layer, C141_enhancement_nonneg: the contribution of a layer to itself, hence the secondary excitation of a one-layer sample, is never negative. Missing: that the bounds are small, which is false (C133, C136, C137). C141_below_not_negative_partial, C141_above_not_negative_partial: between different layers the geometry is never below zero by more than such an error, equal coefficients included. C141_sample_not_negative_partial, C141_sample_partial: the same for the secondary excitation returned for samples of any number of layers of any thickness, as sums over rays, requests, layers and sources; feFilm_secondary: a thin layer on a thick one meets the hypotheses."
  },
  {
   "property": "C142",
   "status": "proved",
   "theorems": [
    "Fisx.Element.C142_factors",
    "Fisx.Element.C142_factors_positive",
    "Fisx.Element.C142_positive",
    "Fisx.Element.C142_rates",
    "Fisx.Element.C142_sum"
   ],
   "note": "C142_positive (also with the cascade cache), C142_rates, C142_sum, C142_factors, C142_factors_positive; lines of different shells have different labels."
  },
  {
   "property": "C143",
   "status": "proved",
   "theorems": [
    "Fisx.Element.C143_per_event",
    "Fisx.Element.C143_photons",
    "Fisx.Element.C143_vacancies",
    "Fisx.Init.C143_constructed"
   ],
   "note": "C143_vacancies, C143_photons, C143_per_event (histories of an element), C143_constructed (libraries made from files)."
  },
  {
   "property": "C144",
   "status": "partial",
   "theorems": [
    "Fisx.Python.C144_epdl_violated",
    "Fisx.Python.C144_exceptions",
    "Fisx.Python.C144_layer_composition_violated",
    "Fisx.Python.C144_layer_transmission_violated",
    "Fisx.Python.C144_no_abort_partial"
   ],
   "note": "Violated: PyLayer.getTransmission, PyLayer.getComposition and PyEPDL97.getBindingEnergies are declared without `except +`, the process ends. The partial theorem covers the other modelled methods and the inputs for which the two methods of a layer do not end the process. C144_exceptions: which exception of Python each exception of C++ becomes."
  },
  {
   "property": "C145",
   "status": "partial",
   "theorems": [
    "Fisx.Python.C145_no_layer_violated",
    "Fisx.Python.C145_no_overrun_partial"
   ],
   "note": "Violated by sampleLayer=[] (C145_no_layer_violated); proved for everything else (C145_no_overrun_partial)."
  },
  {
   "property": "C146",
   "status": "partial",
   "theorems": [
    "Fisx.Python.C146_one_request_partial",
    "Fisx.Python.C146_single_family_violated",
    "Fisx.Python.C146_single_name_violated"
   ],
   "note": "Violated: a str is taken as a sequence of characters. Proved for lists of one name, bytes objects and texts of one letter."
  },
  {
   "property": "C147",
   "status": "partial",
   "theorems": [
    "Fisx.Python.C147_no_weights",
    "Fisx.Python.C147_same_beam_partial",
    "Fisx.Python.C147_short_lists_violated",
    "Fisx.Python.C147_zero_weight_violated"
   ],
   "note": "Violated for a weight of zero or a negative one (C147_zero_weight_violated) and undefined behaviour for short lists (C147_short_lists_violated); proved for the other arguments (C147_same_beam_partial), and without weights (C147_no_weights)."
  },
  {
   "property": "C148",
   "status": "proved",
   "theorems": [
    "Fisx.Python.C148_geometry"
   ],
   "note": "C148_geometry."
  },
  {
   "property": "C149",
   "status": "partial",
   "theorems": [
    "Fisx.Python.C149_arguments_partial",
    "Fisx.Python.C149_instances_violated"
   ],
   "note": "Violated: instances are always refused with TypeError. Proved for tables given by arguments."
  },
  {
   "property": "C150",
   "status": "partial",
   "theorems": [
    "Fisx.Python.C150_first_only_violated",
    "Fisx.Python.C150_one_energy_partial"
   ],
   "note": "Violated: only the factors at the first energy come back. Proved for one energy."
  },
  {
   "property": "C151",
   "status": "partial",
   "theorems": [
    "Fisx.Python.C151_bytes_keys",
    "Fisx.Python.C151_composition_partial",
    "Fisx.Python.C151_composition_violated",
    "Fisx.Python.C151_element_violated",
    "Fisx.Python.C151_families_violated",
    "Fisx.Python.C151_layer_families_partial",
    "Fisx.Python.C151_names_partial",
    "Fisx.Python.C151_row_violated"
   ],
   "note": "Violated by getRow, compositions given as dictionaries and PyXRF.getLayerPeakFamilies, and by the single element. Proved for the other modelled calls; C151_composition_partial: compositions given as dictionaries with bytes as keys have the coefficients of C++, and neither their scale nor the order of the names matters."
  },
  {
   "property": "C152",
   "status": "partial",
   "theorems": [
    "Fisx.Python.C152_as_constructed_partial",
    "Fisx.Python.C152_failed_violated"
   ],
   "note": "Violated: a dangling pointer is left when the new object cannot be made (C152_failed_violated). Proved: the same library as the constructor with the flag of PyMca (C152_as_constructed_partial)."
  },
  {
   "property": "C153",
   "status": "proved",
   "theorems": [
    "Fisx.Element.C153_fill",
    "Fisx.Element.C153_flag",
    "Fisx.Element.C153_update",
    "Fisx.Library.C153_library"
   ],
   "note": "C153_fill, C153_update, C153_flag, C153_library."
  },
  {
   "property": "C154",
   "status": "partial",
   "theorems": [
    "Fisx.Python.C154_layers_partial",
    "Fisx.Python.C154_none_violated"
   ],
   "note": "Violated: None among instances is dereferenced (C154_none_violated). Proved for every list without None."
  },
  {
   "property": "C155",
   "status": "partial",
   "theorems": [
    "Fisx.Python.C155_dict",
    "Fisx.Python.C155_lists_partial",
    "Fisx.Python.C155_repeated_violated"
   ],
   "note": "C155_dict; for lists without repeated names C155_lists_partial; with repeated names violated: C155_repeated_violated."
  },
  {
   "property": "C156",
   "status": "partial",
   "theorems": [
    "Fisx.Python.C156_files_partial",
    "Fisx.Python.C156_pymca_violated"
   ],
   "note": "Violated: with pymca=1 the two files are ignored (C156_pymca_violated). Proved without the flag."
  },
  {
   "property": "C157",
   "status": "proved",
   "theorems": [
    "Fisx.Multilayer.C157_split"
   ],
   "note": "C157_split."
  },
  {
   "property": "C158",
   "status": "partial",
   "theorems": [
    "Fisx.Threads.C158_mutation_violated",
    "Fisx.Threads.C158_no_race_partial",
    "Fisx.Threads.C158_objects",
    "Fisx.Threads.C158_results_partial"
   ],
   "note": "Violated: another thread may change an object a calculation is reading, a data race (C158_mutation_violated). Proved for every execution without such a change (C158_results_partial, C158_objects), which includes calculations alone, also on the same objects, and calls on other objects (C158_no_race_partial)."
  },
  {
   "property": "C159",
   "status": "partial",
   "theorems": [
    "Fisx.Library.C159_formula_partial",
    "Fisx.Library.C159_unset_violated"
   ],
   "note": "Violated: an element made with its constructor and added to the library has no mass, and every formula with it reads the uninitialised variable (C159_unset_violated). Proved when every element of the library has a mass (C159_formula_partial)."
  },
  {
   "property": "C160",
   "status": "proved",
   "theorems": [
    "Fisx.Multilayer.C160_order"
   ],
   "note": "C160_order."
  },
  {
   "property": "C161",
   "status": "partial",
   "theorems": [
    "Fisx.Library.C161_element_composition_partial",
    "Fisx.Library.C161_material_composition",
    "Fisx.Library.C161_shadow_violated",
    "Fisx.Multilayer.C161_element_partial",
    "Fisx.Multilayer.C161_material"
   ],
   "note": "C161_material_composition, C161_material: for materials in full. C161_element_composition_partial, C161_element_partial: for an element whose name meant nothing before and does not occur in the name of a material read as a formula. C161_shadow_violated: otherwise an element added under a new name changes the composition of a material that is called like it."
  },
  {
   "property": "C162",
   "status": "proved",
   "theorems": [
    "Fisx.Multilayer.C162_attenuator",
    "Fisx.Multilayer.C162_excitation",
    "Fisx.Multilayer.C162_rates"
   ],
   "note": "C162_excitation, C162_rates, C162_attenuator."
  },
  {
   "property": "C163",
   "status": "proved",
   "theorems": [
    "Fisx.Multilayer.C163_filter"
   ],
   "note": "C163_filter."
  },
  {
   "property": "C164",
   "status": "proved",
   "theorems": [
    "Fisx.Multilayer.C164_below"
   ],
   "note": "C164_below."
  },
  {
   "property": "C165",
   "status": "partial",
   "theorems": [
    "Fisx.Config.C165_beam_partial",
    "Fisx.Config.C165_columns_violated"
   ],
   "note": "C165_beam_partial: all files whose four lists have the same length (or are left out). C165_columns_violated: with lists of other lengths memory behind the lists is read or energies escape the checks."
  },
  {
   "property": "C166",
   "status": "proved",
   "theorems": [
    "Fisx.Config.C166_area",
    "Fisx.Config.C166_detector",
    "Fisx.Config.C166_geometry"
   ],
   "note": "C166_geometry, C166_detector, C166_area."
  },
  {
   "property": "C167",
   "status": "partial",
   "theorems": [
    "Fisx.Config.C167_tables_partial",
    "Fisx.Config.C167_tables_violated"
   ],
   "note": "C167_tables_partial: when each table that is switched on gives both lists. C167_tables_violated: otherwise a list of the section before is taken."
  },
  {
   "property": "C168",
   "status": "partial",
   "theorems": [
    "Fisx.Python.C168_defaults_violated",
    "Fisx.Python.C168_given_partial"
   ],
   "note": "C168_given_partial: for layers given thick enough. C168_defaults_violated: with the default values the result is 0, for all coefficients, while the limit is positive."
  },
  {
   "property": "C169",
   "status": "proved",
   "theorems": [
    "Fisx.Python.C169_escape",
    "Fisx.Python.C169_keys",
    "Fisx.Python.C169_paths",
    "Fisx.Python.C169_rates",
    "Fisx.Python.C169_round_trip"
   ],
   "note": "C169_paths, C169_keys, C169_round_trip."
  },
  {
   "property": "C170",
   "status": "proved",
   "theorems": [
    "Fisx.Python.C170_data",
    "Fisx.Python.C170_doc"
   ],
   "note": "C170_data, C170_doc."
  },
  {
   "property": "C171",
   "status": "proved",
   "theorems": [
    "Fisx.Multilayer.C171_mass_thickness",
    "Fisx.Multilayer.C171_plain",
    "Fisx.Multilayer.C171_point"
   ],
   "note": "C171_mass_thickness, C171_plain, C171_point; case fe_mass."
  },
  {
   "property": "C172",
   "status": "proved",
   "theorems": [
    "Fisx.Multilayer.C172_composition"
   ],
   "note": "C172_composition; case fe_named."
  },
  {
   "property": "C173",
   "status": "proved",
   "theorems": [
    "Fisx.Multilayer.C173_below",
    "Fisx.Multilayer.C173_layer",
    "Fisx.Multilayer.C173_limit"
   ],
   "note": "C173_layer, C173_below, C173_limit (the layers above: C164); case fe_thicker. Geometric efficiencies off for the first two."
  },
  {
   "property": "C174",
   "status": "proved",
   "theorems": [
    "Fisx.Multilayer.C174_filter",
    "Fisx.Multilayer.C174_photons",
    "Fisx.Multilayer.C174_table"
   ],
   "note": "C174_photons, C174_filter, C174_table; cases fe_filtered, fe_table."
  },
  {
   "property": "C175",
   "status": "proved",
   "theorems": [
    "Fisx.Multilayer.C175_absent",
    "Fisx.Multilayer.C175_layer",
    "Fisx.Multilayer.C175_only"
   ],
   "note": "C175_layer, C175_only, C175_absent; case fe_request_layers. The tertiary excitation depends on the other lines returned (C85), hence the restriction for the rate."
  },
  {
   "property": "C176",
   "status": "proved",
   "theorems": [
    "Fisx.Multilayer.C176_all",
    "Fisx.Multilayer.C176_per_fraction"
   ],
   "note": "C176_per_fraction, C176_all; case fe_fraction."
  },
  {
   "property": "C177",
   "status": "proved",
   "theorems": [
    "Fisx.Multilayer.C177_only_added"
   ],
   "note": "C177_only_added; case fe_added."
  },
  {
   "property": "C178",
   "status": "proved",
   "theorems": [
    "Fisx.Multilayer.C178_dropped",
    "Fisx.Multilayer.C178_kept",
    "Fisx.Multilayer.C178_no_limit",
    "Fisx.Multilayer.C178_scattering"
   ],
   "note": "C178_kept, C178_dropped, C178_scattering, C178_no_limit; cases fe_limits, fe_limit_effect."
  },
  {
   "property": "C179",
   "status": "partial",
   "theorems": [
    "Fisx.Dbl.C179_accepted",
    "Fisx.Dbl.C179_detector_partial",
    "Fisx.Dbl.C179_nan_violated",
    "Fisx.Dbl.C179_numbers_partial"
   ],
   "note": "Violated: NaN and plus infinity are accepted and stored, and a material given later does not replace them (C179_nan_violated). C179_accepted: exactly what is accepted. C179_numbers_partial, C179_detector_partial: with finite arguments, for all histories, as in the model over numbers."
  },
  {
   "property": "C180",
   "status": "partial",
   "theorems": [
    "Fisx.Dbl.C180_infinite_violated",
    "Fisx.Dbl.C180_nan_violated",
    "Fisx.Dbl.C180_numbers_partial"
   ],
   "note": "Violated: a NaN makes all fractions NaN (C180_nan_violated), an infinite amount gives NaN and zeros (C180_infinite_violated). C180_numbers_partial: finite amounts."
  },
  {
   "property": "C181",
   "status": "partial",
   "theorems": [
    "Fisx.Dbl.C181_nan_energy_violated",
    "Fisx.Dbl.C181_nan_weight_violated",
    "Fisx.Dbl.C181_numbers_partial",
    "Fisx.Dbl.C181_undefined_iff"
   ],
   "note": "Violated: undefined behaviour of std::sort for a NaN energy among different ones (C181_undefined_iff, exactly when; C181_nan_energy_violated); with a NaN weight the weights are not normalised (C181_nan_weight_violated). C181_numbers_partial: finite rays."
  },
  {
   "property": "C182",
   "status": "partial",
   "theorems": [
    "Fisx.Dbl.C182_accepted_violated",
    "Fisx.Dbl.C182_nan_energy_violated",
    "Fisx.Dbl.C182_not_negative_partial",
    "Fisx.Dbl.C182_numbers_partial"
   ],
   "note": "Violated: a NaN energy passes and restarts the check of the order (C182_nan_energy_violated, C182_accepted_violated). C182_numbers_partial: rows of numbers; C182_not_negative_partial."
  },
  {
   "property": "C183",
   "status": "proved",
   "theorems": [
    "Fisx.C183_exactly_one_violated",
    "Fisx.Material.C183_accepted",
    "Fisx.Material.C183_fractions"
   ],
   "note": "C183_accepted, C183_fractions for every rounding with the properties listed in Rounding.lean, which binary floating point of any precision has (Rounding.binary, Rounding.double for IEEE double, without its limits of the exponent). That the sum is exactly one is not true of double: C183_exactly_one_violated."
  },
  {
   "property": "C184",
   "status": "proved",
   "theorems": [
    "Fisx.Beam.C184_normalised"
   ],
   "note": "C184_normalised."
  },
  {
   "property": "C185",
   "status": "proved",
   "theorems": [
    "Fisx.Shell.C185_ratios"
   ],
   "note": "C185_ratios."
  },
  {
   "property": "C186",
   "status": "proved",
   "theorems": [
    "Fisx.TransmissionTable.C186_between",
    "Fisx.TransmissionTable.C186_exact",
    "Fisx.TransmissionTable.C186_outside"
   ],
   "note": "C186_exact, C186_outside, C186_between."
  },
  {
   "property": "C187",
   "status": "proved",
   "theorems": [
    "Fisx.Rounding.C187_accuracy",
    "Fisx.Rounding.C187_double",
    "Fisx.Rounding.C187_filters",
    "Fisx.Rounding.C187_filters_error",
    "Fisx.Rounding.C187_layer",
    "Fisx.Rounding.C187_not_negative",
    "Fisx.Rounding.C187_refused",
    "Fisx.Rounding.C187_thicker"
   ],
   "note": "C187_layer, C187_not_negative, C187_thicker, C187_filters, C187_filters_error, C187_accuracy (error at most 9u plus that of exp) for every rounding; C187_double for layers with holes. Without rounding the function is the one of Layer.lean (transmission_exact)."
  },
  {
   "property": "C188",
   "status": "partial",
   "theorems": [
    "Fisx.Python.C188_constants",
    "Fisx.Python.C188_getters_partial",
    "Fisx.Python.C188_getters_violated",
    "Fisx.Python.C188_ini_partial",
    "Fisx.Python.C188_setters"
   ],
   "note": "C188_setters, C188_constants: given names. C188_getters_partial, C188_ini_partial: everything is found under its name as bytes. Violated for str (C188_getters_violated): no name given as str is ever found in what a shell returns."
  },
  {
   "property": "C189",
   "status": "proved",
   "theorems": [
    "Fisx.Python.C189_accepted_or_unchanged",
    "Fisx.Python.C189_dict_lists",
    "Fisx.Python.C189_names",
    "Fisx.Python.C189_transmission"
   ],
   "note": "C189_names, C189_accepted_or_unchanged, C189_dict_lists, C189_transmission."
  },
  {
   "property": "C190",
   "status": "partial",
   "theorems": [
    "Fisx.Python.C190_caches",
    "Fisx.Python.C190_call_partial",
    "Fisx.Python.C190_changes",
    "Fisx.Python.C190_files",
    "Fisx.Python.C190_history_partial",
    "Fisx.Python.C190_no_abort",
    "Fisx.Python.C190_set_violated",
    "Fisx.Python.C190_spelling_partial",
    "Fisx.Python.C190_switches"
   ],
   "note": "Violated: setMassAttenuationCoefficients refuses every element given as str (C190_set_violated). Proved for all other calls and for bytes: C190_call_partial, C190_history_partial, C190_spelling_partial, C190_no_abort, C190_files. C190_changes: each changing call is the step of C++ with the same arguments; C190_switches: flags, cache sizes and names of materials; C190_caches: calls about caches change no later answer. Flags are 0 or 1; None as a material is left out (see C154)."
  },
  {
   "property": "C191",
   "status": "partial",
   "theorems": [
    "Fisx.Python.C191_call_partial",
    "Fisx.Python.C191_coefficients_partial",
    "Fisx.Python.C191_default_violated",
    "Fisx.Python.C191_getters_violated",
    "Fisx.Python.C191_history_partial",
    "Fisx.Python.C191_lines_partial",
    "Fisx.Python.C191_new_partial",
    "Fisx.Python.C191_refused_violated",
    "Fisx.Python.C191_shells_partial",
    "Fisx.Python.C191_tables_partial"
   ],
   "note": "Violated three ways: the default atomic number is refused (C191_default_violated); labels and keys given as str are refused with TypeError (C191_refused_violated); nothing given back has a str key (C191_getters_violated). Proved: with labels and keys as bytes each call and each history does what C++ does (C191_call_partial, C191_history_partial), and so do the answers (C191_new_partial, C191_shells_partial, C191_coefficients_partial, C191_lines_partial). setName is left out: no method reads the name."
  },
  {
   "property": "C192",
   "status": "proved",
   "theorems": [
    "Fisx.Python.C192_composition",
    "Fisx.Python.C192_escape",
    "Fisx.Python.C192_kept",
    "Fisx.Python.C192_labels",
    "Fisx.Python.C192_peaks",
    "Fisx.Python.C192_settings",
    "Fisx.Python.C192_sizes"
   ],
   "note": "C192_settings, C192_sizes: the settings; C192_escape: the peaks in the usual way, for both orders of evaluation of C++; C192_labels: with update=0, for C++17 (see C87); C192_kept: what happens when a label is used for a second library; C192_composition: the composition, no call ends the process; C192_peaks: looked up by name."
  },
  {
   "property": "C193",
   "status": "partial",
   "theorems": [
    "Fisx.Python.C193_call",
    "Fisx.Python.C193_constructor_partial",
    "Fisx.Python.C193_constructor_violated",
    "Fisx.Python.C193_last",
    "Fisx.Python.C193_read",
    "Fisx.Python.C193_same"
   ],
   "note": "Violated: the name of a configuration file given to the constructor as str is refused with TypeError (C193_constructor_violated). Proved: the constructor without a name or with bytes (C193_constructor_partial), reading a file (C193_read), one call (C193_call), histories (C193_last, C193_same). Detectors that are None and calls that read past the end of a list (C147) are left out."
  },
  {
   "property": "C194",
   "status": "proved",
   "theorems": [
    "Fisx.Python.C194_agree",
    "Fisx.Python.C194_lookup",
    "Fisx.Python.C194_strings",
    "Fisx.Python.C194_text"
   ],
   "note": "C194_strings: the list of requests and the exceptions; C194_lookup: every number at its place, for both methods; C194_agree: the two methods agree; C194_text: what a single str means. Which optional entries a line has is a parameter of the theorems."
  },
  {
   "property": "C195",
   "status": "partial",
   "theorems": [
    "Fisx.Python.C195_angle",
    "Fisx.Python.C195_coefficients",
    "Fisx.Python.C195_composition_partial",
    "Fisx.Python.C195_composition_violated",
    "Fisx.Python.C195_efficiency",
    "Fisx.Python.C195_energies",
    "Fisx.Python.C195_settings",
    "Fisx.Python.C195_transmission",
    "Fisx.Python.C195_transmissions"
   ],
   "note": "Violated: the composition that PyXRF gives has str names, and PyElements.getMassAttenuationCoefficients refuses it with TypeError (C195_composition_violated; with bytes names the coefficients are the same, C195_composition_partial). Proved in full: C195_coefficients, C195_energies, C195_transmission, C195_transmissions, C195_angle, C195_settings, C195_efficiency. The families of peaks of a layer are under C151."
  },
  {
   "property": "C196",
   "status": "partial",
   "theorems": [
    "Fisx.Python.C196_binding_partial",
    "Fisx.Python.C196_binding_violated",
    "Fisx.Python.C196_constructor",
    "Fisx.Python.C196_history",
    "Fisx.Python.C196_reachable"
   ],
   "note": "Violated: binding energies under str names are refused with TypeError, so what getBindingEnergies gives cannot be set again (C196_binding_violated; with bytes names they are set and come back, C196_binding_partial). Proved in full: C196_constructor, C196_history, C196_reachable. What happens when getBindingEnergies throws is under C144."
  },
  {
   "property": "C197",
   "status": "proved",
   "theorems": [
    "Fisx.Python.C197_coefficients",
    "Fisx.Python.C197_low",
    "Fisx.Python.C197_table",
    "Fisx.Python.C197_weights"
   ],
   "note": "C197_coefficients, C197_table, C197_weights, C197_low. The static search index of C++ is an argument and a result of each call; when the answers do not depend on it is under C23."
  },
  {
   "property": "C198",
   "status": "partial",
   "theorems": [
    "Fisx.Python.C198_python_partial",
    "Fisx.Specfile.C198_roundtrip_partial",
    "Fisx.Specfile.C198_single_digit_violated"
   ],
   "note": "Violated: a row of one character ends the scan and the rows from there on are lost (C198_single_digit_violated). For rows of two or more characters: C198_roundtrip_partial (C++), C198_python_partial (Python)."
  },
  {
   "property": "C199",
   "status": "partial",
   "theorems": [
    "Fisx.Python.C199_composition",
    "Fisx.Python.C199_families",
    "Fisx.Python.C199_made",
    "Fisx.Python.C199_none_violated",
    "Fisx.Python.C199_sizes",
    "Fisx.Python.C199_transmission_partial"
   ],
   "note": "C199_made, C199_sizes, C199_composition, C199_families; the transmission where the beam sees a positive mass per area (C199_transmission_partial; elsewhere the process ends, C144). Violated: None as material reads a null pointer (C199_none_violated)."
  },
  {
   "property": "C200",
   "status": "proved",
   "theorems": [
    "Fisx.Shell.C200_constants",
    "Fisx.Shell.C200_yield"
   ],
   "note": "C200_yield, C200_constants (maps of constants are taken as lists of entries in the order the setter sees them)."
  }
 ]
}