{
 "claims": [
  {
   "property": "C01",
   "status": "proved",
   "theorems": [
    "KMC.C01_selected_event_allowed",
    "KMC.C01_propose_event",
    "KMC.C01_proposed_rate_positive"
   ],
   "note": ""
  },
  {
   "property": "C02",
   "status": "proved",
   "theorems": [
    "KMC.C02_selection_interval",
    "KMC.C02_intervals_tile",
    "KMC.C02_selection_probability"
   ],
   "note": ""
  },
  {
   "property": "C03",
   "status": "proved",
   "theorems": [
    "KMC.C03_waiting_time_nonneg",
    "KMC.C03_waiting_time_pos",
    "KMC.C03_waiting_time_law",
    "KMC.C03_waiting_time_probability",
    "KMC.C03_zero_variate_infinite"
   ],
   "note": ""
  },
  {
   "property": "C04",
   "status": "proved",
   "theorems": [
    "KMC.C04_frozen_raises",
    "KMC.C04_frozen_run_stops"
   ],
   "note": ""
  },
  {
   "property": "C05",
   "status": "proved",
   "theorems": [
    "KMC.C05_update_history_conserves",
    "KMC.C05_run_conserves",
    "KMC.C05_apply_event_conserves"
   ],
   "note": "State.apply_event, KMC.update histories and whole runs, including failed steps."
  },
  {
   "property": "C06",
   "status": "proved",
   "theorems": [
    "KMC.C06_time_never_decreases",
    "KMC.C06_run_accounting"
   ],
   "note": "Step and time accounting for any kernel; monotone time for the real selection arithmetic with any monotone rounding."
  },
  {
   "property": "C07",
   "status": "proved",
   "theorems": [
    "KMC.C07_event_exchanges_endpoints",
    "KMC.C07_failed_event_leaves_state",
    "KMC.C07_event_rejected_iff",
    "KMC.C07_event_twice_restores"
   ],
   "note": ""
  },
  {
   "property": "C08",
   "status": "proved",
   "theorems": [
    "KMC.C08_table_always_fresh",
    "KMC.C08_table_always_fresh_cached",
    "KMC.C08_run_table_fresh"
   ],
   "note": "For every rate model that is local to the sites an event lists, including models with a cache that is correct after initialise/apply."
  },
  {
   "property": "C09",
   "status": "proved",
   "theorems": [
    "KMC.C09_missing_dependencies_stale",
    "KMC.C09_outdated_dependencies_stale",
    "KMC.C09_nonlocal_model_stale"
   ],
   "note": "The unguarded precondition: three concrete stale-table executions."
  },
  {
   "property": "C10",
   "status": "proved",
   "theorems": [
    "KMC.C10_dependencies_are_overlaps",
    "KMC.C10_dependencies_increasing",
    "KMC.C10_dependencies_symmetric",
    "KMC.C10_dependencies_reflexive"
   ],
   "note": ""
  },
  {
   "property": "C11",
   "status": "partial",
   "theorems": [
    "KMC.C11_site_query",
    "KMC.C11_events_added",
    "KMC.C11_outside_has_no_dependents",
    "KMC.C11_dict_round_trip_partial",
    "KMC.C11_file_round_trip",
    "KMC.C11_empty_dependencies_lost"
   ],
   "note": "The dictionary round trip loses an empty dependency list (C11_empty_dependencies_lost), so it is proved for libraries whose dependency list is absent or non-empty. Everything else is proved in full."
  },
  {
   "property": "C12",
   "status": "proved",
   "theorems": [
    "KMC.C12_direction_of_species",
    "KMC.C12_direction_depends_on_endpoints",
    "KMC.C12_direction_without_codes"
   ],
   "note": ""
  },
  {
   "property": "C13",
   "status": "proved",
   "theorems": [
    "KMC.C13_hop_reverses_direction",
    "KMC.C13_mixed_order_hop_does_not_move"
   ],
   "note": "C13_mixed_order_hop_does_not_move shows the equal-numbering hypothesis is needed."
  },
  {
   "property": "C14",
   "status": "partial",
   "theorems": [
    "KMC.C14_hop_moves_species_partial",
    "KMC.C14_species_conserved_partial",
    "KMC.C14_mixed_order_transmutes"
   ],
   "note": "Proved when both endpoints list the mobile ion and the vacancy at the same position of their allowed-species lists. C14_mixed_order_transmutes proves that the code violates the property without it."
  },
  {
   "property": "C15",
   "status": "partial",
   "theorems": [
    "KMC.C15_tracker_starts",
    "KMC.C15_tracker_follows_ions_partial",
    "KMC.C15_run_tracks_ions_partial",
    "KMC.C15_mixed_order_breaks_tracker"
   ],
   "note": "Proved for whole runs when both endpoints of every event allow the same species list and the rate model gives rate zero to impossible hops. C15_mixed_order_breaks_tracker proves the property false for endpoints that list their species in different order."
  },
  {
   "property": "C16",
   "status": "proved",
   "theorems": [
    "KMC.C16_one_ion_per_hop",
    "KMC.C16_no_hop_no_change",
    "KMC.C16_counters_count_hops",
    "KMC.C16_run_counts_every_step"
   ],
   "note": ""
  },
  {
   "property": "C17",
   "status": "proved",
   "theorems": [
    "KMC.C17_unwrapped_trajectory",
    "KMC.C17_run_unwrapped"
   ],
   "note": ""
  },
  {
   "property": "C18",
   "status": "proved",
   "theorems": [
    "KMC.C18_minimum_image",
    "KMC.C18_reverse_hop",
    "KMC.C18_hop_and_back",
    "KMC.C18_not_shortest_in_skewed_cell"
   ],
   "note": "C18_not_shortest_in_skewed_cell records that the component-wise minimum image need not be the shortest vector in space."
  },
  {
   "property": "C19",
   "status": "proved",
   "theorems": [
    "KMC.C19_sampling_does_not_interfere",
    "KMC.C19_tolerant_plans_do_not_interfere"
   ],
   "note": "Callbacks cannot mutate the state in the model; this is the property's proviso. C19_tolerant_plans_do_not_interfere needs no hypothesis on the outcome."
  },
  {
   "property": "C20",
   "status": "proved",
   "theorems": [
    "KMC.C20_records_exactly_on_multiples",
    "KMC.C20_sample_fires_iff_multiple"
   ],
   "note": ""
  },
  {
   "property": "C21",
   "status": "partial",
   "theorems": [
    "KMC.C21_time_interval_greedy_partial",
    "KMC.C21_inherited_step_interval_fires_early"
   ],
   "note": "Proved for plans with a global time interval and no global step interval. C21_inherited_step_interval_fires_early proves the full statement false: a property that gives only a time interval inherits a step interval. C58_effective_schedule proves the complete firing rule for every plan."
  },
  {
   "property": "C22",
   "status": "proved",
   "theorems": [
    "KMC.C22_keepLast_meaning",
    "KMC.C22_records_are_the_most_recent"
   ],
   "note": ""
  },
  {
   "property": "C23",
   "status": "proved",
   "theorems": [
    "KMC.C23_names_unique_and_not_builtin",
    "KMC.C23_rejected_call_changes_nothing",
    "KMC.C23_detach_undoes_attach",
    "KMC.C23_attach_accepted_iff",
    "KMC.C23_attach_appends",
    "KMC.C23_toggle_changes_one_flag"
   ],
   "note": ""
  },
  {
   "property": "C24",
   "status": "proved",
   "theorems": [
    "KMC.C24_disabled_callback_is_inert",
    "KMC.C24_switch_changes_only_its_own_value",
    "KMC.C24_switched_off_is_nan"
   ],
   "note": ""
  },
  {
   "property": "C25",
   "status": "proved",
   "theorems": [
    "KMC.C25_msd",
    "KMC.C25_nan_iff",
    "KMC.C25_formulas",
    "KMC.C25_nonneg",
    "KMC.C25_jump_le_n_tracer",
    "KMC.C25_run_rows"
   ],
   "note": "Real-number arithmetic, infinite time allowed; floating-point rounding of the formulas is outside the model."
  },
  {
   "property": "C26",
   "status": "proved",
   "theorems": [
    "KMC.C26_haven_ratio",
    "KMC.C26_haven_single_ion",
    "KMC.C26_correlation_formula",
    "KMC.C26_correlation_unmoved",
    "KMC.C26_correlation_straight",
    "KMC.C26_correlation_bound",
    "KMC.C26_run_correlation_bound"
   ],
   "note": "Real-number arithmetic. C26_run_correlation_bound is the bound for whole runs."
  },
  {
   "property": "C27",
   "status": "proved",
   "theorems": [
    "KMC.C27_keywords_routed",
    "KMC.C27_unknown_rejected",
    "KMC.C27_nothing_rejected"
   ],
   "note": "C27_keywords_routed gives the value of every field after construction; sections passed in must be configuration objects."
  },
  {
   "property": "C28",
   "status": "partial",
   "theorems": [
    "KMC.C28_built_valid_partial",
    "KMC.C28_accepted_iff_partial",
    "KMC.C28_chain_valid_partial",
    "KMC.C28_nan_accepted",
    "KMC.C28_raw_section_accepted"
   ],
   "note": "Every configuration built from keywords, dictionaries, other configurations and chains of changes is valid up to NaN, and construction succeeds exactly on such values. Missing because the code disagrees: NaN passes the checks (C28_nan_accepted) and from_dict takes any value as a ready-made section (C28_raw_section_accepted)."
  },
  {
   "property": "C29",
   "status": "proved",
   "theorems": [
    "KMC.C29_dict_round_trip",
    "KMC.C29_exact_for_list_shape",
    "KMC.C29_reread_is_stable",
    "KMC.C29_default_shape_changes",
    "KMC.C29_file_round_trip"
   ],
   "note": "The literal reading fails for a tuple shape (C29_default_shape_changes)."
  },
  {
   "property": "C30",
   "status": "proved",
   "theorems": [
    "KMC.C30_dict_round_trip",
    "KMC.C30_checkpoint_round_trip",
    "KMC.C30_save_succeeds_iff",
    "KMC.C30_initial_state_round_trip",
    "KMC.C30_bare_name_unreadable",
    "KMC.C30_h5_length_unchecked"
   ],
   "note": "The exception is proved necessary (C30_bare_name_unreadable); HDF5 files are loaded without a length check (C30_h5_length_unchecked)."
  },
  {
   "property": "C31",
   "status": "proved",
   "theorems": [
    "KMC.C31_first_match_decides",
    "KMC.C31_no_match_raises",
    "KMC.C31_first_match_is_used",
    "KMC.C31_default_is_used",
    "KMC.C31_later_rules_irrelevant"
   ],
   "note": "Whatever compute returns is the first describing rule's value or the default; conversely it is returned whenever the rules up to it can be evaluated; no describing rule and no default always raises; any later additions, accepted or rejected, change nothing."
  },
  {
   "property": "C32",
   "status": "proved",
   "theorems": [
    "KMC.C32_rule_applies_iff_describes",
    "KMC.C32_answer_is_right",
    "KMC.C32_counts_ignore_order",
    "KMC.C32_event_constraints",
    "KMC.C32_added_state_count",
    "KMC.C32_added_species_count",
    "KMC.C32_added_pattern",
    "KMC.C32_added_exact",
    "KMC.C32_state_words",
    "KMC.C32_duplicate_check_too_strict"
   ],
   "note": "Also proved: counts do not depend on the order of sites (Perm), state words, and that the duplicate check of exact rules rejects a rule for a different event (C32_duplicate_check_too_strict)."
  },
  {
   "property": "C33",
   "status": "proved",
   "theorems": [
    "KMC.C33_dict_round_trip",
    "KMC.C33_file_round_trip",
    "KMC.C33_same_barriers",
    "KMC.C33_unsupported_mode_unreadable",
    "KMC.C33_failed_build_loses_rules"
   ],
   "note": "Floats are written exactly (JSON model, see trusted base). Also proved: unsupported mode unreadable; a failed build has already lost the old rules."
  },
  {
   "property": "C34",
   "status": "proved",
   "theorems": [
    "KMC.C34_composite_nonneg",
    "KMC.C34_composite_zero_iff_forbidden",
    "KMC.C34_composite_forbidden_is_zero",
    "KMC.C34_local_barrier_nonneg",
    "KMC.C34_local_barrier_zero_iff_forbidden"
   ],
   "note": "Proved for local barrier models and for composite models with any site model (C34_composite_*)."
  },
  {
   "property": "C35",
   "status": "proved",
   "theorems": [
    "KMC.C35_composite_arrhenius",
    "KMC.C35_composite_ratio",
    "KMC.C35_composite_lower_is_faster",
    "KMC.C35_composite_frequency",
    "KMC.C35_composite_temperature",
    "KMC.C35_local_barrier_ratio",
    "KMC.C35_local_barrier_lower_is_faster",
    "KMC.C35_local_barrier_frequency",
    "KMC.C35_local_barrier_temperature"
   ],
   "note": "Proved for local barrier models and for composite models with any site model (C35_composite_*)."
  },
  {
   "property": "C36",
   "status": "proved",
   "theorems": [
    "KMC.C36_value_plain",
    "KMC.C36_value_decorated",
    "KMC.C36_local",
    "KMC.C36_only_environment",
    "KMC.C36_cluster_order_plain",
    "KMC.C36_cluster_order_decorated",
    "KMC.C36_term_order",
    "KMC.C36_linear"
   ],
   "note": ""
  },
  {
   "property": "C37",
   "status": "proved",
   "theorems": [
    "KMC.C37_partition",
    "KMC.C37_representative",
    "KMC.C37_orbits_differ",
    "KMC.C37_equivalence_classes",
    "KMC.C37_order_independent",
    "KMC.C37_tolerance_depends_on_order"
   ],
   "note": ""
  },
  {
   "property": "C38",
   "status": "proved",
   "theorems": [
    "KMC.C38_rejected_unchanged",
    "KMC.C38_accepted_iff",
    "KMC.C38_accepted_used",
    "KMC.C38_no_fingerprints_accepts_any_length"
   ],
   "note": ""
  },
  {
   "property": "C39",
   "status": "proved",
   "theorems": [
    "KMC.C39_ratio_of_opposite",
    "KMC.C39_expansion_detailed_balance",
    "KMC.C39_no_site_model_symmetric",
    "KMC.C39_boltzmann",
    "KMC.C39_path",
    "KMC.C39_loops_balance",
    "KMC.C39_target_in_surroundings_breaks_balance",
    "KMC.C39_expansion_loop_unbalanced",
    "KMC.C39_external_calculator"
   ],
   "note": "C39_target_in_surroundings_breaks_balance and C39_expansion_loop_unbalanced prove that the conditions are needed."
  },
  {
   "property": "C40",
   "status": "proved",
   "theorems": [
    "KMC.SiteEnergyFile.C40_text_cut",
    "KMC.C40_object_fits",
    "KMC.C40_float_fits",
    "KMC.C40_int_fits",
    "KMC.C40_chosen_type_fits",
    "KMC.C40_initial_picture",
    "KMC.C40_hop_keeps_picture",
    "KMC.C40_picture_after_any_history",
    "KMC.C40_same_as_fresh",
    "KMC.C40_compute",
    "KMC.C40_changes_give_next_picture",
    "KMC.C40_committed_is_proposed",
    "KMC.C40_default_settings",
    "KMC.C40_foreign_order_refused",
    "KMC.C40_truncated_value",
    "KMC.C40_shared_site_accepted",
    "KMC.C40_units"
   ],
   "note": "The code accepts site mappings that are not injective and silently truncates floats in an integer array chosen from the initial values; both are proved by witness (C40_shared_site_accepted, C40_truncated_value). Text arrays likewise cut later values to the width of the longest initial text (C40_text_cut). Seeded bugs show that the theorems of C40 leave four things unpinned, none of them part of its statement: the eV factor, the comparison of active-site order fingerprints, the check of the number of sites, and the rounding of negative floats (n_unit, n_hash, n_count, n_trunc in seeded/LOG.jsonl)."
  },
  {
   "property": "C41",
   "status": "proved",
   "theorems": [
    "KMC.C41_numbering",
    "KMC.C41_inverse",
    "KMC.C41_select_active_values",
    "KMC.C41_dict_round_trip"
   ],
   "note": "Over all templates, mappings and shapes; from_dict(as_dict) is the identity."
  },
  {
   "property": "C42",
   "status": "proved",
   "theorems": [
    "KMC.C42_validated_indices_fit",
    "KMC.C42_bad_index_raises",
    "KMC.C42_wrong_order_raises"
   ],
   "note": ""
  },
  {
   "property": "C43",
   "status": "proved",
   "theorems": [
    "KMC.C43_normalized_cell",
    "KMC.C43_unique",
    "KMC.C43_compose"
   ],
   "note": "For positive shapes, which _normalize_supercell_shape guarantees."
  },
  {
   "property": "C44",
   "status": "proved",
   "theorems": [
    "KMC.C44_site_index_bijection",
    "KMC.C44_loader_labels_distinct",
    "KMC.C44_duplicates_rejected"
   ],
   "note": "lattice_points_in_supercell of pymatgen is assumed to list the box with the last coordinate fastest; the loader's labelling loop is modelled and shown to give distinct local indices."
  },
  {
   "property": "C45",
   "status": "proved",
   "theorems": [
    "KMC.C45_events_describe_hops",
    "KMC.C45_no_hop_missing",
    "KMC.C45_indices_valid",
    "KMC.C45_translation_invariant",
    "KMC.C45_generation_succeeds"
   ],
   "note": "The neighbour search, signature and environment matcher are parameters; the matcher is assumed to return permutations (C49). Success, completeness, soundness and translation invariance are all proved."
  },
  {
   "property": "C46",
   "status": "proved",
   "theorems": [
    "KMC.C46_validation",
    "KMC.C46_allowed_values",
    "KMC.C46_round_trip",
    "KMC.C46_same_occupied_sites",
    "KMC.C46_flip_sites",
    "KMC.C46_flip_twice",
    "KMC.C46_flip_commutes",
    "KMC.C46_flip_inplace",
    "KMC.C46_counts",
    "KMC.C46_match_counts",
    "KMC.C46_equivalent",
    "KMC.C46_fresh_vectors",
    "KMC.C46_single_values",
    "KMC.C46_making_a_basis",
    "KMC.C46_equality",
    "KMC.C46_site_functions",
    "KMC.C46_third_state_lost",
    "KMC.C46_rejected_assignment_stays"
   ],
   "note": ""
  },
  {
   "property": "C47",
   "status": "proved",
   "theorems": [
    "KMC.C47_shape",
    "KMC.C47_function_count",
    "KMC.C47_bounded",
    "KMC.C47_states_differ",
    "KMC.C47_complete"
   ],
   "note": ""
  },
  {
   "property": "C48",
   "status": "proved",
   "theorems": [
    "KMC.Lattice.C48_chebyshev_tells_apart",
    "KMC.Lattice.C48_occupation_tells_two_apart",
    "KMC.Lattice.C48_species_round_trip",
    "KMC.Lattice.C48_value_round_trip",
    "KMC.Lattice.C48_equivalent_read_back",
    "KMC.Lattice.C48_rejected_iff",
    "KMC.Lattice.C48_no_allowed",
    "KMC.Lattice.C48_value_rejected_iff",
    "KMC.Lattice.C48_value_in_range",
    "KMC.Lattice.C48_empty_in_range",
    "KMC.Lattice.C48_distinct_values",
    "KMC.Lattice.C48_mixed_valence_conflated",
    "KMC.Lattice.C48_occupation_three_species",
    "KMC.Lattice.C48_equivalence",
    "KMC.Lattice.C48_vacancies_equivalent",
    "KMC.C48_stands_for_one",
    "KMC.C48_mapping_read",
    "KMC.C48_allowed_from_mapping",
    "KMC.C48_basis_size",
    "KMC.C48_label",
    "KMC.C48_label_identifies"
   ],
   "note": "Round trips for distinguishable allowed species; rejection exactly characterised; values valid for the lattice's basis. Witnesses show the two hypotheses are needed (mixed valence; occupation basis with three species)."
  },
  {
   "property": "C49",
   "status": "proved",
   "theorems": [
    "KMC.C49_result_is_relabelling",
    "KMC.C49_different_labels_rejected",
    "KMC.C49_found_iff",
    "KMC.C49_exact_match",
    "KMC.C49_ambiguous_rejected",
    "KMC.C49_nearest",
    "KMC.C49_listing_order_irrelevant",
    "KMC.C49_equality_reflexive",
    "KMC.C49_equality_not_symmetric",
    "KMC.C49_equality_not_transitive",
    "KMC.C49_nearest_tie_claims_unique"
   ],
   "note": "Also proved: cluster equality is reflexive but neither symmetric nor transitive (tolerance relative to the right-hand side), and the fallback reports is_unique=True even on ties. The reference row used only to order the search is a parameter."
  },
  {
   "property": "C50",
   "status": "proved",
   "theorems": [
    "KMC.C50_enumeration",
    "KMC.C50_distinct",
    "KMC.C50_limit_truncates",
    "KMC.C50_rejections",
    "KMC.C50_site_rejections",
    "KMC.C50_succeeds",
    "KMC.C50_repeated_site_duplicates",
    "KMC.C50_all_vacant_fails",
    "KMC.C50_zero_count_returns_nothing"
   ],
   "note": "Periodic-image search for the local sites is outside the model (the local site list is given). Proved for pairwise different variable sites; the code returns duplicates when a site is listed twice (C50_repeated_site_duplicates), returns nothing when a count of zero is asked for (C50_zero_count_returns_nothing) and fails as a whole when one environment has no atoms (C50_all_vacant_fails)."
  },
  {
   "property": "C51",
   "status": "proved",
   "theorems": [
    "KMC.C51_cutoff",
    "KMC.C51_neighbours",
    "KMC.C51_mutual",
    "KMC.C51_range_neighbours",
    "KMC.C51_named_table",
    "KMC.C51_succeeds",
    "KMC.C51_conflict_last_wins"
   ],
   "note": "pymatgen's neighbour search is a parameter assumed exact within its radius. Contradictory entries for a pair in both orders are accepted and the later wins (C51_conflict_last_wins)."
  },
  {
   "property": "C52",
   "status": "partial",
   "theorems": [
    "KMC.Parameters.C52_record",
    "KMC.Parameters.C52_local_site_order_lost",
    "KMC.Parameters.C52_text_history_partial",
    "KMC.Parameters.C52_h5_history_partial",
    "KMC.Parameters.C52_h5_loses_nothing",
    "KMC.Parameters.C52_h5_third_is_eleventh",
    "KMC.Parameters.C52_fits_append",
    "KMC.Parameters.C52_fits_from_nothing",
    "KMC.Parameters.C52_unreadable_history_kept",
    "KMC.Parameters.C52_h5_failed_fit_leaves_record"
   ],
   "note": "Holds for text histories of any length and HDF5 histories of at most ten records (_partial theorems). False otherwise, proved: in every HDF5 history of eleven or more records the third loaded is the eleventh saved; a record HDF5 refuses leaves a truncated record in the history; local_site_order is never written. h5py's conversion of a value is a parameter."
  },
  {
   "property": "C53",
   "status": "proved",
   "theorems": [
    "KMC.Fitter.C53_predictions",
    "KMC.Fitter.C53_normalised_features",
    "KMC.Fitter.C53_residuals",
    "KMC.Fitter.C53_optimal",
    "KMC.Fitter.C53_plain",
    "KMC.Fitter.C53_succeeds"
   ],
   "note": "Over real numbers; sklearn's Lasso is a parameter, assumed a minimiser only in C53_optimal."
  },
  {
   "property": "C54",
   "status": "partial",
   "theorems": [
    "KMC.NEBLoader.C54_add_partial",
    "KMC.NEBLoader.C54_adds_partial",
    "KMC.NEBLoader.C54_structures",
    "KMC.NEBLoader.C54_add_structure",
    "KMC.NEBLoader.C54_matrices",
    "KMC.NEBLoader.C54_fitting_inputs",
    "KMC.NEBLoader.C54_from_structures",
    "KMC.NEBLoader.C54_readd_breaks",
    "KMC.NEBLoader.C54_rejected_readd_breaks",
    "KMC.NEBLoader.C54_one_shape"
   ],
   "note": "Proved for every sequence of add_structure/add_structures/from_structures calls, for add with entry objects not stored yet (_partial), and for repeated objects when all features have one shape. False for add with a stored object and a model of another shape: accepted (first entry) or rejected, the stored data becomes ragged, both proved. Featurisation is a parameter here."
  },
  {
   "property": "C55",
   "status": "proved",
   "theorems": [
    "KMC.C55_steps_compose",
    "KMC.C55_run_deterministic"
   ],
   "note": ""
  },
  {
   "property": "C56",
   "status": "proved",
   "theorems": [
    "KMC.C56_plan_and_tracker_agree",
    "KMC.C56_registration_is_atomic",
    "KMC.C56_run_starts_clean",
    "KMC.C56_detach_after_run_deletes_records"
   ],
   "note": ""
  },
  {
   "property": "C57",
   "status": "proved",
   "theorems": [
    "KMC.C57_default_summary_rows",
    "KMC.C57_one_row_per_pass"
   ],
   "note": "For plans without global frequency, as in the statement."
  },
  {
   "property": "C58",
   "status": "proved",
   "theorems": [
    "KMC.C58_effective_schedule",
    "KMC.C58_summary_schedule"
   ],
   "note": ""
  },
  {
   "property": "C59",
   "status": "partial",
   "theorems": [
    "KMC.C59_rows_use_absolute_time",
    "KMC.C59_rows_refer_to_window_partial",
    "KMC.C59_late_start_underestimates"
   ],
   "note": "Proved for runs that start at time zero. C59_late_start_underestimates proves that the reported value is too small in every other case with collective displacement; C59_rows_use_absolute_time states exactly what the rows contain."
  },
  {
   "property": "C60",
   "status": "proved",
   "theorems": [
    "KMC.C60_generator_and_simulator_number_alike"
   ],
   "note": ""
  },
  {
   "property": "C61",
   "status": "proved",
   "theorems": [
    "KMC.C61_end_points_differ",
    "KMC.C61_each_hop_listed_once",
    "KMC.C61_small_supercell_lists_twice",
    "KMC.C61_small_supercell_self_hop"
   ],
   "note": "C61_small_supercell_lists_twice and C61_small_supercell_self_hop prove that the condition on the supercell is needed and not checked by the code."
  },
  {
   "property": "C62",
   "status": "proved",
   "theorems": [
    "KMC.C62_same_order_iff_equal",
    "KMC.C62_altered_metadata_accepted"
   ],
   "note": "SHA-256 is a parameter assumed injective on payloads."
  },
  {
   "property": "C63",
   "status": "proved",
   "theorems": [
    "KMC.C63_section_round_trip",
    "KMC.C63_task_named_type"
   ],
   "note": "The excluded name is proved to fail (C63_task_named_type)."
  },
  {
   "property": "C64",
   "status": "proved",
   "theorems": [
    "KMC.C64_crash_leaves_old_new_or_error",
    "KMC.C64_overwrite_can_lose_checkpoint",
    "KMC.C64_alternating_files_are_safe"
   ],
   "note": "In-place overwriting is not crash safe: C64_overwrite_can_lose_checkpoint."
  },
  {
   "property": "C65",
   "status": "proved",
   "theorems": [
    "KMC.C65_event_site_rules_are_local",
    "KMC.C65_hop_system",
    "KMC.C65_fixed_sites_stale"
   ],
   "note": "C65_fixed_sites_stale is the disagreement: listed/all sites are accepted by the rules but not by the update scheme."
  },
  {
   "property": "C66",
   "status": "proved",
   "theorems": [
    "KMC.C66_snapshot_rule",
    "KMC.C66_snapshot_describes"
   ],
   "note": "Property names must be non-blank and distinct, as the constructor of a dict ensures."
  },
  {
   "property": "C67",
   "status": "proved",
   "theorems": [
    "KMC.C67_built_model_evaluates",
    "KMC.C67_terms_plain",
    "KMC.C67_terms_decorated"
   ],
   "note": ""
  },
  {
   "property": "C68",
   "status": "proved",
   "theorems": [
    "KMC.C68_equivalent_surroundings",
    "KMC.C68_three_states_differ"
   ],
   "note": "Three-state sites violate the claim: C68_three_states_differ."
  },
  {
   "property": "C69",
   "status": "proved",
   "theorems": [
    "KMC.C69_expansions_are_local",
    "KMC.C69_hop_system"
   ],
   "note": ""
  },
  {
   "property": "C70",
   "status": "proved",
   "theorems": [
    "KMC.C70_local_calculator_fresh",
    "KMC.C70_far_calculator_stale"
   ],
   "note": ""
  },
  {
   "property": "C71",
   "status": "proved",
   "theorems": [
    "KMC.C71_compute_reaches_calculator",
    "KMC.C71_commit_succeeds",
    "KMC.C71_gap_found_late",
    "KMC.C71_checked_events"
   ],
   "note": ""
  },
  {
   "property": "C72",
   "status": "proved",
   "theorems": [
    "KMC.Lattice.C72_structure_to_occupation",
    "KMC.Lattice.C72_atom_order_irrelevant",
    "KMC.Lattice.C72_far_atom_rejected",
    "KMC.Lattice.C72_lattice_mismatch_rejected",
    "KMC.Lattice.C72_occupation_to_structure",
    "KMC.Lattice.C72_structure_exists",
    "KMC.Lattice.C72_occupation_round_trip",
    "KMC.Lattice.C72_structure_round_trip",
    "KMC.Lattice.C72_missing_atom_becomes_other_species",
    "KMC.Lattice.C72_diagonal_only",
    "KMC.C72_vacancy_names",
    "KMC.C72_same_species",
    "KMC.C72_explicit_sites",
    "KMC.C72_bad_sites_rejected"
   ],
   "note": "Round trip for separated sites and distinguishable species. Witnesses: missing atom without vacancy becomes another species; non-diagonal supercells cannot be written."
  },
  {
   "property": "C73",
   "status": "proved",
   "theorems": [
    "KMC.LCE.C73_same_features",
    "KMC.LCE.C73_same_value",
    "KMC.Lattice.C73_filter_by_position",
    "KMC.Lattice.C73_full_structure_by_index",
    "KMC.Lattice.C73_full_structure_order_matters",
    "KMC.LCE.C73_occupation_basis_differs",
    "KMC.C73_reference_accepted_iff",
    "KMC.C73_wrong_reference_rejected"
   ],
   "note": "For the Chebyshev basis (the default); C73_occupation_basis_differs shows the other basis disagrees; C73_full_structure_order_matters shows full structures are filtered by list position."
  },
  {
   "property": "C74",
   "status": "proved",
   "theorems": [
    "KMC.C74_one_atom_moves",
    "KMC.C74_rejections",
    "KMC.C74_multistate_target_collides",
    "KMC.C74_enumerated_pairs",
    "KMC.C74_default_duplicates"
   ],
   "note": "A target whose second allowed species is not the vacancy gives two atoms at one position (C74_multistate_target_collides); with the default variable sites pairs repeat (C74_default_duplicates)."
  },
  {
   "property": "C75",
   "status": "proved",
   "theorems": [
    "KMC.Fitter.C75_leave_one_out",
    "KMC.Fitter.C75_left_out_point_unused"
   ],
   "note": "Unweighted, as in the code."
  },
  {
   "property": "C76",
   "status": "partial",
   "theorems": [
    "KMC.Fitter.C76_failed_numbers",
    "KMC.Fitter.C76_files",
    "KMC.Fitter.C76_record",
    "KMC.Fitter.C76_unreadable_history"
   ],
   "note": "Proved for text files. False for a failure while the history is loaded: the coefficient and parameter files are already replaced (C76_unreadable_history)."
  },
  {
   "property": "C77",
   "status": "partial",
   "theorems": [
    "KMC.Fitter.C77_single_column_or_row",
    "KMC.Fitter.C77_larger_partial"
   ],
   "note": "False for one cluster or one entry: np.loadtxt drops the axis and the fit raises, proved for all numbers."
  },
  {
   "property": "C78",
   "status": "proved",
   "theorems": [
    "KMC.ModelFile.C78_cluster",
    "KMC.ModelFile.C78_orbit",
    "KMC.ModelFile.C78_own_distances_lost"
   ],
   "note": "Round trip proved for clusters made without an explicit distance matrix; the loss of an explicit matrix is proved as C78_own_distances_lost."
  },
  {
   "property": "C79",
   "status": "proved",
   "theorems": [
    "KMC.ModelFile.C79_expansion",
    "KMC.ModelFile.C79_expansion_parameters_lost",
    "KMC.ModelFile.C79_composite",
    "KMC.ModelFile.C79_composite_unfitted",
    "KMC.ModelFile.C79_any_file",
    "KMC.ModelFile.C79_incomplete_file_refused"
   ],
   "note": "Another kind of site model enters through the hypothesis that it survives its own save and load (C80 for SiteEnergyModel)."
  },
  {
   "property": "C80",
   "status": "proved",
   "theorems": [
    "KMC.SiteEnergyFile.C80_settings",
    "KMC.SiteEnergyFile.C80_settings_in_use",
    "KMC.SiteEnergyFile.C80_behaves_the_same",
    "KMC.SiteEnergyFile.C80_integers_kept",
    "KMC.SiteEnergyFile.C80_floats_kept",
    "KMC.SiteEnergyFile.C80_texts_kept",
    "KMC.SiteEnergyFile.C80_functions_lost",
    "KMC.SiteEnergyFile.C80_object_occupation",
    "KMC.SiteEnergyFile.C80_mappings_read",
    "KMC.SiteEnergyFile.C80_null_mapping",
    "KMC.SiteEnergyFile.C80_functions_called",
    "KMC.SiteEnergyFile.C80_altered_file_refused",
    "KMC.SiteEnergyFile.C80_bound_to_order"
   ],
   "note": "Proved for models made of references and for integer, float and text occupations. The two exceptions in the statement are proved as negations. JSON text itself is trusted (values survive). A site whose own mapping is None is treated differently in a list and in a dictionary (C80_null_mapping)."
  },
  {
   "property": "C81",
   "status": "proved",
   "theorems": [
    "KMC.ModelChoice.C81_file_decides",
    "KMC.ModelChoice.C81_own_class",
    "KMC.ModelChoice.C81_moved_class",
    "KMC.ModelChoice.C81_lost_class",
    "KMC.ModelChoice.C81_envelope",
    "KMC.ModelChoice.C81_configured",
    "KMC.ModelChoice.C81_local_barrier",
    "KMC.ModelChoice.C81_local_barrier_envelope",
    "KMC.ModelChoice.C81_wrong_envelope"
   ],
   "note": "Python's import system is a parameter. The headers written by the four classes are part of the specification (WrittenBy); for local barrier models they are taken from as_dict."
  },
  {
   "property": "C82",
   "status": "proved",
   "theorems": [
    "KMC.Results.C82_written",
    "KMC.Results.C82_labels_apart",
    "KMC.Results.C82_passes_apart",
    "KMC.Results.C82_run_records",
    "KMC.Results.C82_run_files",
    "KMC.Results.C82_label_of_run",
    "KMC.Results.C82_plain_values",
    "KMC.Results.C82_keys_merged",
    "KMC.Results.C82_stale_records"
   ],
   "note": "Number formatting, CSV, JSON text and gzip are trusted. monty's jsanitize is a parameter. The two exceptions are proved as negations."
  },
  {
   "property": "C83",
   "status": "proved",
   "theorems": [
    "KMC.C83_members",
    "KMC.C83_built_iff",
    "KMC.C83_independent_of_search",
    "KMC.C83_order_choice",
    "KMC.C83_hash_iff",
    "KMC.C83_enumeration_agrees",
    "KMC.C83_centre_images_dropped",
    "KMC.C83_match_with_reference",
    "KMC.C83_equivalent_iff",
    "KMC.C83_match_found_iff",
    "KMC.C83_default_order_follows_search",
    "KMC.C83_centre_number_differs"
   ],
   "note": "Proved relative to an exact neighbour search. The default order leaves sites of the same species in search order, a centre number is counted differently by the enumerator, and excluding the centre drops its periodic images too; these are proved as theorems about the code."
  },
  {
   "property": "C84",
   "status": "proved",
   "theorems": [
    "KMC.C84_hops",
    "KMC.C84_succeeds_iff",
    "KMC.C84_default_hops",
    "KMC.C84_hops_reversible",
    "KMC.C84_no_vacancy_refused",
    "KMC.C84_not_two_refused",
    "KMC.C84_va_not_understood",
    "KMC.C84_zero_cutoff_ignored",
    "KMC.C84_one_label_switches",
    "KMC.C84_charge_spelling"
   ],
   "note": "Findings: `Va` is not recognised as a vacancy; a cutoff of 0 counts as absent; one label among species identifiers turns all into labels; `Na1+` passes as a species name but chooses no `Na+` site."
  },
  {
   "property": "C85",
   "status": "proved",
   "theorems": [
    "KMC.C85_local_barrier_answers",
    "KMC.C85_local_barrier_willing",
    "KMC.C85_constant_barrier_completes",
    "KMC.C85_composite_answers",
    "KMC.C85_composite_willing",
    "KMC.C85_composite_completes",
    "KMC.C85_can_be_constructed",
    "KMC.C85_never_crashes",
    "KMC.C85_completes_or_stuck",
    "KMC.C85_connected_completes"
   ],
   "note": "Exact arithmetic kernel; the conditions on the model (it answers for all well-labelled states) are shown for one constant barrier, for local barrier models whose rules can be evaluated, and for composite models built from cluster expansions."
  },
  {
   "property": "C86",
   "status": "proved",
   "theorems": [
    "KMC.C86_constant_everywhere",
    "KMC.C86_constant_needs_number",
    "KMC.C86_snapshots_answered",
    "KMC.C86_clashing_snapshots_refused"
   ],
   "note": "Finding: constant_barrier(None) gives a model that raises for every event; text is refused at construction."
  },
  {
   "property": "C87",
   "status": "proved",
   "theorems": [
    "KMC.C87_one_numbering",
    "KMC.C87_foreign_library_refused",
    "KMC.C87_mapping_required",
    "KMC.C87_initial_state_required",
    "KMC.C87_occupations_win",
    "KMC.C87_h5_state_unchecked",
    "KMC.C87_only_configurations",
    "KMC.C87_steps_per_pass",
    "KMC.C87_number_of_passes",
    "KMC.C87_failed_run_raises",
    "KMC.C87_pass_counts_other_elements",
    "KMC.C87_generate_then_run",
    "KMC.C87_h5_state_wrong_length"
   ],
   "note": "Disagreements: a state read from an HDF5 file is not compared with the number of sites (C87_h5_state_unchecked, C87_h5_state_wrong_length); steps per pass count sites of other elements whose symbol contains the mobile species' name (C87_pass_counts_other_elements). Loading CIF, event and model files are parameters."
  },
  {
   "property": "C88",
   "status": "proved",
   "theorems": [
    "KMC.C88_shape_three_integers",
    "KMC.C88_shape_text",
    "KMC.C88_shape_length",
    "KMC.C88_shape_truncated",
    "KMC.C88_shape_numbers",
    "KMC.C88_mapping_dictionary",
    "KMC.C88_argument_values",
    "KMC.C88_arguments_never_run",
    "KMC.C88_input_alone",
    "KMC.C88_input_file",
    "KMC.C88_template_loads",
    "KMC.C88_template_complete",
    "KMC.C88_template_needs_initial_state",
    "KMC.C88_init_keeps_files",
    "KMC.C88_init_refuses",
    "KMC.C88_init_writes",
    "KMC.C88_form_values",
    "KMC.C88_absent_mobile_species",
    "KMC.C88_form_moves_only_lithium",
    "KMC.C88_sodium_form"
   ],
   "note": "Disagreements: without --input run_kmc can never run, as no argument gives an initial state (C88_arguments_never_run); fractional shapes are cut off (C88_shape_truncated); the template calls both initial-state fields optional but one is needed (C88_template_needs_initial_state); the form has no mobile species, so anything but lithium gives a simulation in which nothing can move (C88_form_moves_only_lithium, C88_sodium_form). ast.literal_eval, YAML reading and argparse are parameters."
  },
  {
   "property": "C89",
   "status": "proved",
   "theorems": [
    "KMC.FitTable.C89_table_kept",
    "KMC.FitTable.C89_fit_appended",
    "KMC.FitTable.C89_fits_recorded",
    "KMC.FitTable.C89_other_file_replaced",
    "KMC.FitTable.C89_history_file_replaced",
    "KMC.FitTable.C89_record_chosen",
    "KMC.FitTable.C89_latest_loaded",
    "KMC.FitTable.C89_fitter_reloaded",
    "KMC.FitTable.C89_fit_reloaded"
   ],
   "note": "Disagreement: a file that is not a table with the required columns, for example the parameter history of the same fit, is replaced by a table of one record (C89_other_file_replaced, C89_history_file_replaced). pandas is assumed to rewrite what it read from a written column; a column of texts that all look like numbers would break this."
  },
  {
   "property": "C90",
   "status": "proved",
   "theorems": [
    "KMC.C90_past_does_not_matter",
    "KMC.C90_step_chance",
    "KMC.C90_mean_stay",
    "KMC.C90_stationary_iff",
    "KMC.C90_finitely_many",
    "KMC.C90_all_arrangements",
    "KMC.C90_energy_balanced",
    "KMC.C90_barriers_balanced",
    "KMC.C90_boltzmann",
    "KMC.C90_equal_shares",
    "KMC.C90_equilibrium_exists",
    "KMC.C90_local_barriers_balanced",
    "KMC.C90_constant_barrier"
   ],
   "note": "Exact arithmetic, independent uniform random numbers. The hypothesis that site-energy differences are differences of one energy is needed: C39_expansion_loop_unbalanced shows a site expansion for which no such energy exists. Convergence of time averages is C91."
  },
  {
   "property": "C91",
   "status": "proved",
   "theorems": [
    "KMC.C91_ensemble_average",
    "KMC.C91_time_share",
    "KMC.C91_canonical_average",
    "KMC.C91_mean_clock",
    "KMC.C91_site_share"
   ],
   "note": "Convergence of the ratio of means, in exact arithmetic; almost sure convergence of a single run is not formalized."
  },
  {
   "property": "C92",
   "status": "proved",
   "theorems": [
    "KMC.C92_restart_iff",
    "KMC.C92_same_simulation",
    "KMC.C92_split_run",
    "KMC.C92_ordinary_split_run",
    "KMC.C92_site_energy_restart",
    "KMC.C92_far_calculator_differs",
    "KMC.C92_same_seed_differs"
   ],
   "note": "With a configured seed the code starts the same random sequence again in every run; C92_same_seed_differs. With a calculator that looks beyond the listed sites the restarted table differs from the running one; C92_far_calculator_differs. The tracker starts anew (C59)."
  },
  {
   "property": "C93",
   "status": "proved",
   "theorems": [
    "KMC.C93_time_average",
    "KMC.C93_recurrent",
    "KMC.C93_canonical_average",
    "KMC.C93_site_share",
    "KMC.C93_run",
    "KMC.C93_random_numbers"
   ],
   "note": "The arithmetic is exact real arithmetic (Rounding.exact) and the random numbers are the ideal ones of the hypothesis; a pseudorandom generator is in the trusted base."
  },
  {
   "property": "C94",
   "status": "proved",
   "theorems": [
    "KMC.C94_path_law",
    "KMC.C94_first_step",
    "KMC.C94_markov",
    "KMC.C94_expected_value"
   ],
   "note": "No balance and no connectedness is assumed. An event that is listed several times is chosen through each of its listings (the factor count in the specification)."
  },
  {
   "property": "C95",
   "status": "proved",
   "theorems": [
    "KMC.C95_every_image_once",
    "KMC.C95_only_images",
    "KMC.C95_labels",
    "KMC.C95_species",
    "KMC.C95_species_default",
    "KMC.C95_indices",
    "KMC.C95_numbering",
    "KMC.C95_refused",
    "KMC.C95_loads_iff",
    "KMC.C95_unreadable_refused",
    "KMC.C95_first_block",
    "KMC.C95_bad_blocks_passed_over",
    "KMC.C95_findable",
    "KMC.C95_numbers",
    "KMC.C95_equivalent_coordinates_refused",
    "KMC.C95_magnetic_refused",
    "KMC.C95_same_crystal_refused",
    "KMC.C95_repeated_label_hides"
   ],
   "note": "The crystallographer's assumptions are the space group axioms and that images of atoms are the same point or can be told apart by the site tolerance. Amounts are stated for files without hydrogen, and for every element but hydrogen at the default occupancy tolerance: kMCpy removes hydrogen from sites that hold oxygen and hydrogen only. Where the code disagrees: C95_equivalent_coordinates_refused, C95_same_crystal_refused (a valid file is called invalid if atoms that share a site are written with different equivalent coordinates), C95_magnetic_refused, C95_repeated_label_hides. The symmetrized and primitive variants are pymatgen's."
  },
  {
   "property": "C96",
   "status": "proved",
   "theorems": [
    "KMC.C96_moved_start",
    "KMC.C96_moved_answers",
    "KMC.C96_no_absolute_position",
    "KMC.C96_moved_ends",
    "KMC.C96_expansions_know_no_position",
    "KMC.C96_translations_are_symmetries",
    "KMC.C96_translated_simulation",
    "KMC.C96_some_models_know_positions"
   ],
   "note": "Probabilities are those of ideal uniform random numbers and exact real arithmetic, as in C93/C94. A local model can know positions; C96_some_models_know_positions."
  },
  {
   "property": "C97",
   "status": "proved",
   "theorems": [
    "KMC.C97_follows_the_transformation",
    "KMC.C97_same_environments",
    "KMC.C97_disordered_structure",
    "KMC.C97_shares",
    "KMC.C97_counts_only_filter",
    "KMC.C97_limit_truncates",
    "KMC.C97_asked_once",
    "KMC.C97_entries_in_turn",
    "KMC.C97_rejections",
    "KMC.C97_vacancy_only_fails",
    "KMC.C97_counts_do_not_set_the_composition",
    "KMC.C97_product_accepts_vacancy_only",
    "KMC.C97_larger_cells_misread"
   ],
   "note": "Counts are not used to choose the fractions (C97_counts_do_not_set_the_composition), vacancy-only sites are refused although the product accepts them (C97_product_accepts_vacancy_only), structures on a larger cell are read with the template's site numbers (C97_larger_cells_misread). Metadata of results is not modelled."
  },
  {
   "property": "C98",
   "status": "proved",
   "theorems": [
    "KMC.C98_mean_unique",
    "KMC.C98_mean_displacement",
    "KMC.C98_mean_square_displacement",
    "KMC.C98_mean_time",
    "KMC.C98_lone_ion",
    "KMC.C98_diffusion_coefficient",
    "KMC.C98_lone_ion_report"
   ],
   "note": "Exact reals and independent uniform numbers are assumed (trusted base). The mean of the reported diffusivity itself (a mean of quotients) is not claimed; the theorem is on the quotient of the means. Hops of exactly half a cell are excluded by IsHopVector (C18 shows that they are ambiguous)."
  },
  {
   "property": "C99",
   "status": "proved",
   "theorems": [
    "KMC.C99_same_events",
    "KMC.C99_both_constructed",
    "KMC.C99_same_events_back",
    "KMC.C99_same_run",
    "KMC.C99_report",
    "KMC.C99_reported",
    "KMC.C99_attempt_frequency",
    "KMC.C99_expansions",
    "KMC.C99_attempt_frequency_rules",
    "KMC.C99_barrier_offset"
   ],
   "note": "Exact reals: in floating point the products round differently unless c is a power of two. Models with their own record are included; a user site model that reads the time is excluded by NoClock."
  },
  {
   "property": "C100",
   "status": "proved",
   "theorems": [
    "KMC.C100_reordered",
    "KMC.C100_reordered_answers",
    "KMC.C100_order_does_not_matter",
    "KMC.C100_listed_again"
   ],
   "note": "Exact reals; independent uniform numbers as in C94."
  },
  {
   "property": "C101",
   "status": "proved",
   "theorems": [
    "KMC.C101_compute_called",
    "KMC.C101_catch_all",
    "KMC.C101_no_signature",
    "KMC.C101_user_value_wins",
    "KMC.C101_apply_called",
    "KMC.C101_order_offered",
    "KMC.C101_reference_colon",
    "KMC.C101_reference_dotted",
    "KMC.C101_reference_refused"
   ],
   "note": "Findings: a compute_kwargs entry with a standard name silently replaces the standard argument (C101_user_value_wins); apply_fn is not given the subset treatment of compute_fn; a positional-only active_site_order makes the construction fail."
  },
  {
   "property": "C102",
   "status": "proved",
   "theorems": [
    "KMC.C102_undisturbed",
    "KMC.C102_sweep",
    "KMC.C102_run",
    "KMC.C102_only_own_state",
    "KMC.C102_copy",
    "KMC.C102_old_tracker_clock",
    "KMC.C102_shared_model_memory",
    "KMC.C102_shared_state_stale",
    "KMC.C102_shared_events_fail",
    "KMC.C102_shared_model_wrong_rates"
   ],
   "note": "Findings: KMC keeps references to the State, the events and the model it is given (annotate_event_lib writes to shared events, initialize_state to the shared model); a tracker returned by run keeps a reference to the State, so its clock goes on when the simulation is used again (C102_old_tracker_clock)."
  },
  {
   "property": "C103",
   "status": "proved",
   "theorems": [
    "KMC.C103_time_reversal",
    "KMC.C103_no_circulation",
    "KMC.C103_no_drift",
    "KMC.C103_equilibrium_start"
   ],
   "note": "The weight of a step is W times the total rate, W over the mean stay; C90 proves that these are the long-run frequencies. Rounding is exact real arithmetic as in C90 and C93."
  },
  {
   "property": "C104",
   "status": "partial",
   "theorems": [
    "KMC.C104_one_value_per_site",
    "KMC.C104_site_value",
    "KMC.C104_occupied_iff_partial",
    "KMC.C104_part_of_a_symbol",
    "KMC.C104_not_states",
    "KMC.C104_run_of_name",
    "KMC.C104_wrong_parts",
    "KMC.C104_lines_found",
    "KMC.C104_same_transport",
    "KMC.C104_is_exist"
   ],
   "note": "C104_occupied_iff_partial needs that no symbol is part of a different one; C104_part_of_a_symbol is the negation without it."
  },
  {
   "property": "C105",
   "status": "proved",
   "theorems": [
    "KMC.C105_count_per_time",
    "KMC.C105_event_frequency",
    "KMC.C105_no_net_flow",
    "KMC.C105_both_directions",
    "KMC.C105_canonical_frequency",
    "KMC.C105_no_drift",
    "KMC.C105_hops_reported"
   ],
   "note": "Spec/Frequency.lean: tally, perTime, meanRate, ReportedPerTime. Example: two ions on a five-site chain make 12/5 hops per unit of time."
  },
  {
   "property": "C106",
   "status": "proved",
   "theorems": [
    "KMC.C106_label_identifies",
    "KMC.C106_separators_collide",
    "KMC.C106_labels_distinct",
    "KMC.C106_pair_records",
    "KMC.C106_records_true",
    "KMC.C106_record_of_target_untrue"
   ],
   "note": "Disagreement: with the default variable sites the target of the hop is varied too, and the record of a pair names sodium on a site that is empty in its initial structure (C106_record_of_target_untrue). Names with separators can collide (C106_separators_collide)."
  },
  {
   "property": "C107",
   "status": "proved",
   "theorems": [
    "KMC.C107_statistics",
    "KMC.C107_ranges",
    "KMC.C107_reports_agree",
    "KMC.C107_save",
    "KMC.C107_added_event_mixed"
   ],
   "note": "Divisions are exact. After add_event the statistics mix the new number of events with the old table (C107_added_event_mixed)."
  },
  {
   "property": "C108",
   "status": "proved",
   "theorems": [
    "KMC.C108_registrations",
    "KMC.C108_order_irrelevant",
    "KMC.C108_choice",
    "KMC.C108_declared_fitter_ignored"
   ],
   "note": "Disagreement: a subclass's own fitter_class is ignored when a base class has a registered fitter (C108_declared_fitter_ignored)."
  },
  {
   "property": "C109",
   "status": "proved",
   "theorems": [
    "KMC.C109_memory_makes_no_difference",
    "KMC.C109_calls",
    "KMC.C109_altered_state_goes_unnoticed"
   ],
   "note": "The claim is limited to callbacks that only look: C109_altered_state_goes_unnoticed shows a callback that removes the ion, after which hops between vacant sites are executed and counted as steps. Registration calls from inside a callback are not modelled."
  },
  {
   "property": "C110",
   "status": "proved",
   "theorems": [
    "KMC.C110_same_run",
    "KMC.C110_can_be_constructed",
    "KMC.C110_completes",
    "KMC.C110_canonical_average"
   ],
   "note": "Exact arithmetic for the averages, as in C93. A calculator whose differences do not come from one energy is outside this claim (see C40, C71)."
  },
  {
   "property": "C111",
   "status": "proved",
   "theorems": [
    "KMC.C111_composite",
    "KMC.C111_expansions",
    "KMC.C111_rules",
    "KMC.C111_same_run"
   ],
   "note": "In exact arithmetic; the rate models are equal as functions."
  },
  {
   "property": "C112",
   "status": "proved",
   "theorems": [
    "KMC.C112_fewer",
    "KMC.C112_fewer_answers",
    "KMC.C112_idle_events"
   ],
   "note": "Exact arithmetic; hypotheses as in C94."
  },
  {
   "property": "C113",
   "status": "proved",
   "theorems": [
    "KMC.CompositeFile.C113_checked",
    "KMC.CompositeFile.C113_malformed_refused",
    "KMC.CompositeFile.C113_read",
    "KMC.CompositeFile.C113_metadata",
    "KMC.CompositeFile.C113_written_is_read",
    "KMC.CompositeFile.C113_site_energy_envelope"
   ],
   "note": "Loading of expansions, importing and the classes' own from_dict are parameters; what they give is modelled in Model/ModelFile and Model/SiteEnergyFile."
  },
  {
   "property": "C114",
   "status": "proved",
   "theorems": [
    "KMC.C114_called_from_the_list",
    "KMC.C114_registering_is_safe",
    "KMC.C114_stopped_is_never_called_again",
    "KMC.C114_detaching_itself_ends_the_run",
    "KMC.C114_clearing_ends_the_run",
    "KMC.C114_detached_is_still_called",
    "KMC.C114_value_under_the_new_property",
    "KMC.C114_without_calls",
    "KMC.C114_calls_as_from_outside",
    "KMC.C114_set_up_from_outside"
   ],
   "note": "The failing cases (detaching while sampling) are proved as C114_detaching_itself_ends_the_run, C114_detached_is_still_called and C114_value_under_the_new_property."
  },
  {
   "property": "C115",
   "status": "proved",
   "theorems": [
    "KMC.C115_rate_of_a_jump",
    "KMC.C115_listed_once_has_the_rate",
    "KMC.C115_both_orientations_double",
    "KMC.C115_listed_once",
    "KMC.C115_default_lists_both",
    "KMC.C115_disjoint_ends_list_one",
    "KMC.C115_default_library_doubles",
    "KMC.C115_disjoint_ends_have_the_rate"
   ],
   "note": "The default library doubles all rates: C115_default_library_doubles. Assumes that pymatgen lists every neighbour once."
  },
  {
   "property": "C116",
   "status": "proved",
   "theorems": [
    "KMC.C116_clusters_within_cutoff",
    "KMC.C116_term_has_one_shape",
    "KMC.C116_term_is_congruence_class",
    "KMC.C116_symmetric_occupations",
    "KMC.C116_fingerprint_identifies",
    "KMC.C116_same_shape_same_model",
    "KMC.C116_copy_refuses_parameters",
    "KMC.C116_build_needs_three_cutoffs",
    "KMC.C116_mirror_image_same_model",
    "KMC.C116_mirrored_clusters_share",
    "KMC.C116_tolerance_merges_shapes"
   ],
   "note": "With distances that are different but closer than the tolerance, different shapes share a coefficient: C116_tolerance_merges_shapes. Distances are exact (no float rounding); symmetric occupations only for plain models and two states per site (C68_three_states_differ)."
  },
  {
   "property": "C117",
   "status": "proved",
   "theorems": [
    "KMC.C117_part_keeps_composition",
    "KMC.C117_uniform_part_never_changes",
    "KMC.C117_ion_stays_in_part",
    "KMC.C117_no_motion_across_layers",
    "KMC.C117_displacement_at_most_hops"
   ],
   "note": "Negative site numbers in events are excluded by the hypothesis (events list site numbers). That a connected part is reachable is the subject of C85 and C90."
  },
  {
   "property": "C118",
   "status": "proved",
   "theorems": [
    "KMC.C118_axes_and_origin",
    "KMC.C118_other_cell",
    "KMC.C118_volume",
    "KMC.DescriptionSamples.C118_half_cell_image_matters"
   ],
   "note": "The negative result is a disagreement between the code and the unconditional claim: with a supercell two cells long, `np.round` breaks the tie by parity. The rates do not see the geometry in a run (they are fixed by the event library and the model), so only the tracker is concerned."
  },
  {
   "property": "C119",
   "status": "proved",
   "theorems": [
    "KMC.C119_in_range_as_before",
    "KMC.C119_infinite_total",
    "KMC.C119_nan_rate_picks_first",
    "KMC.C119_nan_run",
    "KMC.C119_nan_time_stays",
    "KMC.C119_nan_time_not_sampled",
    "KMC.C119_nan_temperature",
    "KMC.C119_possible_hop_rate",
    "KMC.C119_impossible_hop_can_be_nan",
    "KMC.C119_impossible_hop_odd_frequency",
    "KMC.C119_composite_impossible_is_zero",
    "KMC.C119_rate_zero_chosen"
   ],
   "note": "that NaN counts as larger than every number in np.searchsorted (numpy and numba) is part of the trusted base; the sign of zero is left out"
  },
  {
   "property": "C120",
   "status": "proved",
   "theorems": [
    "KMC.FitUse.C120_fit_can_be_loaded",
    "KMC.FitUse.C120_simulates_the_prediction",
    "KMC.FitUse.C120_other_model_refuses",
    "KMC.FitUse.C120_wrong_file_refused",
    "KMC.FitUse.C120_hdf5_refused",
    "KMC.FitUse.C120_hdf5_without_fingerprints"
   ],
   "note": "that h5py reads a stored list of texts as byte strings (version 3) or refuses to store it (version 2) is an assumption of the HDF5 theorem (TextsBecomeBytes); coefficients are assumed to survive writing and reading, as doubles do in JSON (ReadBack)"
  },
  {
   "property": "C121",
   "status": "proved",
   "theorems": [
    "KMC.Lattice.C121_supercell_accepted",
    "KMC.Lattice.C121_refused_supercell_inconsistent",
    "KMC.Lattice.C121_supercell_allowed",
    "KMC.Lattice.C121_supercell_right_iff",
    "KMC.Lattice.C121_copy_same",
    "KMC.Lattice.C121_copy_of_supercell",
    "KMC.Lattice.C121_structure_from_occ",
    "KMC.Lattice.C121_active_lattice",
    "KMC.Lattice.C121_supercell_rejects_itself",
    "KMC.Lattice.C121_supercell_misreads"
   ],
   "note": "proved, including when the allowed species of a supercell are wrong"
  },
  {
   "property": "C122",
   "status": "proved",
   "theorems": [
    "KMC.C122_scaled_run",
    "KMC.C122_enlarged_crystal",
    "KMC.C122_enlarged_volume",
    "KMC.C122_parameters_only"
   ],
   "note": "proved for all runs"
  },
  {
   "property": "C123",
   "status": "proved",
   "theorems": [
    "KMC.C123_clock_accuracy",
    "KMC.C123_never_goes_back",
    "KMC.C123_double_accuracy",
    "KMC.C123_double_clock",
    "KMC.C123_stands_still",
    "KMC.C123_double_can_stand_still"
   ],
   "note": "The rounding laws assumed of the selection kernel are here proved of a concrete 53-digit rounding (without overflow and subnormal numbers). The property 'every step advances the time' is false and its negation is proved."
  },
  {
   "property": "C124",
   "status": "proved",
   "theorems": [
    "KMC.C124_probability_error",
    "KMC.C124_same_choice",
    "KMC.C124_wait",
    "KMC.C124_same_hops",
    "KMC.C124_same_run",
    "KMC.C124_rare_event_never_chosen",
    "KMC.C124_double_never_chosen"
   ],
   "note": "The law of exact selection is C02, C94; this claim carries it over to floats. Random numbers are real numbers, not multiples of 2^-53."
  },
  {
   "property": "C125",
   "status": "proved",
   "theorems": [
    "KMC.C125_coefficients_determined",
    "KMC.C125_every_table_reproduced",
    "KMC.C125_finite_range_reproduced",
    "KMC.C125_symmetric_table_reproduced",
    "KMC.C125_left_out_group",
    "KMC.C125_five_sites_left_out",
    "KMC.C125_inert_site_undetermined"
   ],
   "note": "Real arithmetic. Fit quality is not part of the claim: these statements say which tables a fit can in principle reach."
  },
  {
   "property": "C126",
   "status": "proved",
   "theorems": [
    "KMC.C126_no_drift",
    "KMC.C126_collective_displacement",
    "KMC.C126_hops_per_time",
    "KMC.C126_conductivity_diffusivity",
    "KMC.C126_constant_barrier"
   ],
   "note": "Real arithmetic and exact summation. (4) divides the mean over all random sequences by the clock of one run."
  },
  {
   "property": "C127",
   "status": "proved",
   "theorems": [
    "KMC.FitFiles.C127_export_read",
    "KMC.FitFiles.C127_fresh_folder",
    "KMC.FitFiles.C127_last_weight_cut",
    "KMC.FitFiles.C127_mixed_export",
    "KMC.FitFiles.C127_fewer_entries",
    "KMC.FitFiles.C127_more_entries",
    "KMC.FitFiles.C127_refused_weights",
    "KMC.FitFiles.C127_no_entries",
    "KMC.FitFiles.C127_other_files"
   ],
   "note": "Files are assumed to hold a first part of what was written (no reordering by the operating system). fit is modelled up to the data it works with. Negations are proved where the code mixes exports."
  },
  {
   "property": "C128",
   "status": "proved",
   "theorems": [
    "KMC.C128_spread",
    "KMC.C128_one_line",
    "KMC.C128_lone_ion",
    "KMC.C128_reported",
    "KMC.C128_never_accurate",
    "KMC.C128_average_of_runs",
    "KMC.C128_average_report"
   ],
   "note": "Exact arithmetic and independent uniform random numbers are assumed, as in C93 and C98; reuse of one seed for several runs is excluded by the hypothesis IndependentRuns."
  },
  {
   "property": "C129",
   "status": "proved",
   "theorems": [
    "KMC.RunFiles.C129_exception",
    "KMC.RunFiles.C129_finished",
    "KMC.RunFiles.C129_fresh_folder",
    "KMC.RunFiles.C129_mixed_runs",
    "KMC.RunFiles.C129_empty_array",
    "KMC.RunFiles.C129_records_missing",
    "KMC.RunFiles.C129_other_labels",
    "KMC.RunFiles.C129_gathered",
    "KMC.RunFiles.C129_gather_succeeds"
   ],
   "note": "gzip is trusted to report a cut stream; an empty file reads as empty. float() and int() of the texts in the file name are parameters. Negations are proved for a reused label."
  },
  {
   "property": "C130",
   "status": "proved",
   "theorems": [
    "KMC.Gui.C130_fit_never",
    "KMC.Gui.C130_expansion_never",
    "KMC.Gui.C130_actions",
    "KMC.Gui.C130_table_read",
    "KMC.Gui.C130_cutoff_used",
    "KMC.Gui.C130_call",
    "KMC.Gui.C130_nearest",
    "KMC.Gui.C130_event_file",
    "KMC.Gui.C130_incomplete",
    "KMC.Gui.C130_empty_text",
    "KMC.Gui.C130_repeated_pair",
    "KMC.Gui.C130_blanks"
   ],
   "note": "Gooey, argparse, ast.literal_eval and float are not modelled (parameters). Negations are proved for the two commands that cannot work, repeated pairs and blanks."
  },
  {
   "property": "C131",
   "status": "proved",
   "theorems": [
    "KMC.C131_ions",
    "KMC.C131_collective",
    "KMC.C131_correlation",
    "KMC.C131_one_start_exceeds"
   ],
   "note": "C131_ions, C131_collective and C131_correlation are stated for completed runs; C131_one_start_exceeds shows that the average over the starts is needed. The correlation factor that the tracker itself reports averages the ratios of the single ions, which the theorem does not bound."
  },
  {
   "property": "C132",
   "status": "proved",
   "theorems": [
    "KMC.C132_mean",
    "KMC.C132_order",
    "KMC.C132_empty",
    "KMC.C132_short_occupation",
    "KMC.C132_expansion",
    "KMC.C132_reread",
    "KMC.C132_stated_multiplicity",
    "KMC.C132_bounds",
    "KMC.C132_state_numbers_differ"
   ],
   "note": "C132_expansion covers the occupation basis; C132_state_numbers_differ shows that the Chebyshev basis must be left out, C132_stated_multiplicity that a wrong number in a file changes the function."
  },
  {
   "property": "C133",
   "status": "proved",
   "theorems": [
    "KMC.C133_displacements",
    "KMC.C133_double",
    "KMC.C133_there_and_back",
    "KMC.C133_double_is_odd",
    "KMC.C133_half_cell"
   ],
   "note": "C133_displacements is stated for any rounding with relative error at most u; C133_half_cell shows with Python floats that the condition on half a cell is needed. Start coordinates r0, which the code takes from the structure, are not rounded."
  },
  {
   "property": "C134",
   "status": "proved",
   "theorems": [
    "KMC.UserBasis.C134_latest_registration",
    "KMC.UserBasis.C134_unknown_name",
    "KMC.UserBasis.C134_made_iff",
    "KMC.UserBasis.C134_kept",
    "KMC.UserBasis.C134_copy_equal_iff",
    "KMC.UserBasis.C134_object_copy_equal",
    "KMC.UserBasis.C134_comparisons",
    "KMC.UserBasis.C134_there_and_back",
    "KMC.UserBasis.C134_lossless_iff",
    "KMC.UserBasis.C134_flip",
    "KMC.UserBasis.C134_counts",
    "KMC.UserBasis.C134_set",
    "KMC.UserBasis.C134_equivalent",
    "KMC.UserBasis.C134_reread",
    "KMC.UserBasis.C134_builtin_occupation",
    "KMC.UserBasis.C134_chebyshev_states",
    "KMC.UserBasis.C134_unreadable",
    "KMC.UserBasis.C134_builtin_fill",
    "KMC.UserBasis.C134_builtin_chebyshev",
    "KMC.UserBasis.C134_fractions_accepted",
    "KMC.UserBasis.C134_mixed_types",
    "KMC.UserBasis.C134_interface_too_small",
    "KMC.UserBasis.C134_alias_copy_differs",
    "KMC.UserBasis.C134_same_class_name"
   ],
   "note": "C134_alias_copy_differs, C134_fractions_accepted, C134_mixed_types, C134_interface_too_small, C134_same_class_name and the second half of C134_set are disagreements of the code with what a user expects. Classes that override convert_to are not modelled."
  },
  {
   "property": "C135",
   "status": "proved",
   "theorems": [
    "KMC.C135_clock",
    "KMC.C135_ions",
    "KMC.C135_collective"
   ],
   "note": "C135_ions and C135_collective are about the ratio of the means over runs. The diffusivity that a single run reports is a ratio of random numbers, whose mean the theorem does not give."
  },
  {
   "property": "C136",
   "status": "proved",
   "theorems": [
    "KMC.C136_energy",
    "KMC.C136_sized",
    "KMC.C136_failures",
    "KMC.C136_rate",
    "KMC.C136_double_rate",
    "KMC.C136_way_back",
    "KMC.C136_balance",
    "KMC.C136_order",
    "KMC.C136_hop_system",
    "KMC.C136_answers",
    "KMC.C136_willing",
    "KMC.C136_barriers_balanced",
    "KMC.C136_equal_shares",
    "KMC.C136_next_step"
   ],
   "note": "np.inner is taken to add in the order of the vectors; a library may add in another order, to which the same count of roundings applies. Rounding has a relative accuracy everywhere, so underflow to subnormal numbers or zero and overflow are not covered here (for overflow see C119). The simulator adds up and selects exactly in C136_next_step and C136_equal_shares; what rounding does there is C124."
  },
  {
   "property": "C137",
   "status": "proved",
   "theorems": [
    "KMC.C137_same_hops_if_clear",
    "KMC.C137_same_hops",
    "KMC.C137_same_run",
    "KMC.C137_expansions",
    "KMC.C137_double_rates",
    "KMC.C137_double_same_hops",
    "KMC.C137_same_transport"
   ],
   "note": "Same simplifications as C124, C133 and C136: rounding has a relative accuracy, so underflow and overflow are not covered; np.inner adds in the order of the vectors. Runs that stop with an exception in a callback are excluded in the theorems on whole runs."
  },
  {
   "property": "C138",
   "status": "proved",
   "theorems": [
    "KMC.C138_rate",
    "KMC.C138_failures",
    "KMC.C138_order",
    "KMC.C138_zero_iff_forbidden",
    "KMC.C138_hop_system",
    "KMC.C138_rates_within",
    "KMC.C138_double_rates",
    "KMC.C138_double_same_hops"
   ],
   "note": "Rounding has a relative accuracy, so underflow and overflow are not covered here (C119 treats overflow). The barrier is the float the rules hold, so reading it causes no error. The frequency is assumed representable, as it is a Python float."
  },
  {
   "property": "C139",
   "status": "proved",
   "theorems": [
    "KMC.C139_fingerprint_iff",
    "KMC.C139_match_fingerprint",
    "KMC.C139_same_fingerprint_matches",
    "KMC.C139_same_fingerprint_equal",
    "KMC.C139_order_irrelevant",
    "KMC.C139_relisted_reference",
    "KMC.C139_relisted_reference_needs_unique",
    "KMC.C139_equal_not_same_fingerprint",
    "KMC.C139_first_saving",
    "KMC.C139_saved_again_iff",
    "KMC.C139_stable_from_second",
    "KMC.C139_saving_twice_changes"
   ],
   "note": "SHA-256 and the JSON text are a parameter assumed injective. The fingerprint in a match is computed from in-range indices (C49), so no IndexError is represented. Nested values in site data are written as they are."
  },
  {
   "property": "C140",
   "status": "proved",
   "theorems": [
    "KMC.DataSetFile.C140_rows",
    "KMC.DataSetFile.C140_add_succeeds",
    "KMC.DataSetFile.C140_batch_positions",
    "KMC.DataSetFile.C140_add_many",
    "KMC.DataSetFile.C140_file",
    "KMC.DataSetFile.C140_refused_no_trace",
    "KMC.DataSetFile.C140_same_as_fit",
    "KMC.DataSetFile.C140_metadata",
    "KMC.DataSetFile.C140_crash",
    "KMC.DataSetFile.C140_names_last_model",
    "KMC.DataSetFile.C140_failed_save_destroys"
   ],
   "note": "Reading structures, features and what json.dump makes of one metadata value are parameters. Re-adding entry objects is in C54. Making the folder is assumed to succeed. Metadata keys are texts. Both disagreements are proved (C140_names_last_model, C140_failed_save_destroys)."
  },
  {
   "property": "C141",
   "status": "proved",
   "theorems": [
    "KMC.C141_criterion",
    "KMC.C141_weights_fixed",
    "KMC.C141_hop_ratio",
    "KMC.C141_energy_iff_no_work",
    "KMC.C141_energy_is_work",
    "KMC.C141_equilibrium",
    "KMC.C141_constant_is_a_prefactor",
    "KMC.C141_constant_balanced",
    "KMC.C141_driven_ring"
   ],
   "note": "Rates are exact real numbers. Stateful site models are in C39 only (one direction). That a ring with a driving expansion has no balancing weights is proved (C141_driven_ring)."
  },
  {
   "property": "C142",
   "status": "proved",
   "theorems": [
    "KMC.C142_selection",
    "KMC.C142_selection_as_order",
    "KMC.C142_occupations_first",
    "KMC.C142_initial_file_time_ignored",
    "KMC.C142_with_order",
    "KMC.C142_refused"
   ],
   "note": "Values are integers and shapes natural numbers; negative shape components are not modelled. HDF5 files are in C30. Added after a mutation of the block selection survived. That time and step are ignored in initial-state files is proved (C142_initial_file_time_ignored)."
  },
  {
   "property": "C143",
   "status": "proved",
   "theorems": [
    "KMC.C143_rule_read",
    "KMC.C143_meaning_unique",
    "KMC.C143_add_rule",
    "KMC.C143_list_of_rules",
    "KMC.C143_state_read",
    "KMC.C143_species_table",
    "KMC.C143_barrier_twice",
    "KMC.C143_unknown_keys_match_everything",
    "KMC.C143_blank_species"
   ],
   "note": "C143_unknown_keys_match_everything: a misspelt condition turns a rule into one that applies always. C143_blank_species: a blank species is refused in a list but accepted as a single text. Texts: ASCII, no underscores between digits."
  },
  {
   "property": "C144",
   "status": "proved",
   "theorems": [
    "KMC.C144_sampling_succeeds",
    "KMC.C144_stops_at_first_failure",
    "KMC.C144_current_summary",
    "KMC.C144_latest_value",
    "KMC.C144_reading_back"
   ],
   "note": "The tracker ranges over the active trackers of registryAfter ops. The error handler is a function of the state, step and time."
  },
  {
   "property": "C145",
   "status": "proved",
   "theorems": [
    "KMC.C145_listing",
    "KMC.C145_same_listing",
    "KMC.C145_disabled_gets_no_record"
   ],
   "note": ""
  },
  {
   "property": "C146",
   "status": "proved",
   "theorems": [
    "KMC.C146_reads_back",
    "KMC.C146_equality",
    "KMC.C146_any_event",
    "KMC.C146_saved_but_unreadable",
    "KMC.C146_other_files",
    "KMC.C146_from_dict",
    "KMC.C146_lists_come_back_as_tuples",
    "KMC.C146_foreign_dictionary",
    "KMC.C146_no_dictionary",
    "KMC.C146_library_by_position"
   ],
   "note": "the readings that an event made with lists comes back unchanged and that a file without an event is refused are false of the code (C146_lists_come_back_as_tuples, C146_foreign_dictionary)"
  },
  {
   "property": "C147",
   "status": "proved",
   "theorems": [
    "KMC.C147_rows",
    "KMC.C147_position",
    "KMC.C147_all_or_nothing",
    "KMC.C147_first_failure",
    "KMC.C147_folder_name",
    "KMC.C147_never_written"
   ],
   "note": "the files read (migration_<pass>.txt) are written by nothing in the package (C147_never_written)"
  }
 ]
}
