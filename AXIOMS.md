# Axioms of each theorem

As printed by `#print axioms`.  Generated by `tools/axioms.py` from MANIFEST.json.

## propext, Classical.choice, Quot.sound (834 theorems)

- `KMC.C01_selected_event_allowed`
- `KMC.C01_propose_event`
- `KMC.C01_proposed_rate_positive`
- `KMC.C02_selection_interval`
- `KMC.C02_intervals_tile`
- `KMC.C02_selection_probability`
- `KMC.C03_waiting_time_nonneg`
- `KMC.C03_waiting_time_pos`
- `KMC.C03_waiting_time_law`
- `KMC.C03_waiting_time_probability`
- `KMC.C03_zero_variate_infinite`
- `KMC.C04_frozen_raises`
- `KMC.C04_frozen_run_stops`
- `KMC.C05_update_history_conserves`
- `KMC.C05_run_conserves`
- `KMC.C05_apply_event_conserves`
- `KMC.C06_time_never_decreases`
- `KMC.C06_run_accounting`
- `KMC.C07_event_exchanges_endpoints`
- `KMC.C07_event_rejected_iff`
- `KMC.C07_event_twice_restores`
- `KMC.C08_table_always_fresh`
- `KMC.C08_table_always_fresh_cached`
- `KMC.C08_run_table_fresh`
- `KMC.C09_missing_dependencies_stale`
- `KMC.C09_outdated_dependencies_stale`
- `KMC.C09_nonlocal_model_stale`
- `KMC.C10_dependencies_increasing`
- `KMC.C11_site_query`
- `KMC.C11_outside_has_no_dependents`
- `KMC.C11_dict_round_trip_partial`
- `KMC.C11_file_round_trip`
- `KMC.C11_empty_dependencies_lost`
- `KMC.C12_direction_of_species`
- `KMC.C12_direction_without_codes`
- `KMC.C13_mixed_order_hop_does_not_move`
- `KMC.C14_hop_moves_species_partial`
- `KMC.C14_species_conserved_partial`
- `KMC.C15_tracker_starts`
- `KMC.C15_tracker_follows_ions_partial`
- `KMC.C15_run_tracks_ions_partial`
- `KMC.C15_mixed_order_breaks_tracker`
- `KMC.C16_one_ion_per_hop`
- `KMC.C16_no_hop_no_change`
- `KMC.C16_counters_count_hops`
- `KMC.C16_run_counts_every_step`
- `KMC.C17_unwrapped_trajectory`
- `KMC.C17_run_unwrapped`
- `KMC.C18_minimum_image`
- `KMC.C18_reverse_hop`
- `KMC.C18_hop_and_back`
- `KMC.C18_not_shortest_in_skewed_cell`
- `KMC.C19_sampling_does_not_interfere`
- `KMC.C19_tolerant_plans_do_not_interfere`
- `KMC.C20_records_exactly_on_multiples`
- `KMC.C20_sample_fires_iff_multiple`
- `KMC.C21_time_interval_greedy_partial`
- `KMC.C21_inherited_step_interval_fires_early`
- `KMC.C23_names_unique_and_not_builtin`
- `KMC.C23_toggle_changes_one_flag`
- `KMC.C24_disabled_callback_is_inert`
- `KMC.C24_switch_changes_only_its_own_value`
- `KMC.C24_switched_off_is_nan`
- `KMC.C25_msd`
- `KMC.C25_nan_iff`
- `KMC.C25_formulas`
- `KMC.C25_nonneg`
- `KMC.C25_jump_le_n_tracer`
- `KMC.C25_run_rows`
- `KMC.C26_haven_ratio`
- `KMC.C26_haven_single_ion`
- `KMC.C26_correlation_formula`
- `KMC.C26_correlation_unmoved`
- `KMC.C26_correlation_straight`
- `KMC.C26_correlation_bound`
- `KMC.C26_run_correlation_bound`
- `KMC.C27_keywords_routed`
- `KMC.C27_unknown_rejected`
- `KMC.C27_nothing_rejected`
- `KMC.C28_built_valid_partial`
- `KMC.C28_accepted_iff_partial`
- `KMC.C28_chain_valid_partial`
- `KMC.C28_nan_accepted`
- `KMC.C28_raw_section_accepted`
- `KMC.C29_dict_round_trip`
- `KMC.C29_exact_for_list_shape`
- `KMC.C29_reread_is_stable`
- `KMC.C29_default_shape_changes`
- `KMC.C29_file_round_trip`
- `KMC.C30_checkpoint_round_trip`
- `KMC.C30_save_succeeds_iff`
- `KMC.C30_initial_state_round_trip`
- `KMC.C30_bare_name_unreadable`
- `KMC.C30_h5_length_unchecked`
- `KMC.C31_first_match_decides`
- `KMC.C31_no_match_raises`
- `KMC.C31_first_match_is_used`
- `KMC.C31_default_is_used`
- `KMC.C31_later_rules_irrelevant`
- `KMC.C32_rule_applies_iff_describes`
- `KMC.C32_answer_is_right`
- `KMC.C32_added_state_count`
- `KMC.C32_added_species_count`
- `KMC.C32_added_pattern`
- `KMC.C32_added_exact`
- `KMC.C32_state_words`
- `KMC.C32_duplicate_check_too_strict`
- `KMC.C33_dict_round_trip`
- `KMC.C33_file_round_trip`
- `KMC.C33_same_barriers`
- `KMC.C33_unsupported_mode_unreadable`
- `KMC.C33_failed_build_loses_rules`
- `KMC.C34_composite_nonneg`
- `KMC.C34_composite_zero_iff_forbidden`
- `KMC.C34_composite_forbidden_is_zero`
- `KMC.C34_local_barrier_nonneg`
- `KMC.C34_local_barrier_zero_iff_forbidden`
- `KMC.C35_composite_arrhenius`
- `KMC.C35_composite_ratio`
- `KMC.C35_composite_lower_is_faster`
- `KMC.C35_composite_frequency`
- `KMC.C35_composite_temperature`
- `KMC.C35_local_barrier_ratio`
- `KMC.C35_local_barrier_lower_is_faster`
- `KMC.C35_local_barrier_frequency`
- `KMC.C35_local_barrier_temperature`
- `KMC.C36_value_decorated`
- `KMC.C36_term_order`
- `KMC.C36_linear`
- `KMC.C37_partition`
- `KMC.C37_representative`
- `KMC.C37_orbits_differ`
- `KMC.C37_equivalence_classes`
- `KMC.C37_order_independent`
- `KMC.C38_accepted_iff`
- `KMC.C38_accepted_used`
- `KMC.C38_no_fingerprints_accepts_any_length`
- `KMC.C39_ratio_of_opposite`
- `KMC.C39_expansion_detailed_balance`
- `KMC.C39_no_site_model_symmetric`
- `KMC.C39_boltzmann`
- `KMC.C39_path`
- `KMC.C39_loops_balance`
- `KMC.C39_target_in_surroundings_breaks_balance`
- `KMC.C39_expansion_loop_unbalanced`
- `KMC.C39_external_calculator`
- `KMC.SiteEnergyFile.C40_text_cut`
- `KMC.C40_object_fits`
- `KMC.C40_float_fits`
- `KMC.C40_int_fits`
- `KMC.C40_chosen_type_fits`
- `KMC.C40_initial_picture`
- `KMC.C40_hop_keeps_picture`
- `KMC.C40_picture_after_any_history`
- `KMC.C40_same_as_fresh`
- `KMC.C40_compute`
- `KMC.C40_changes_give_next_picture`
- `KMC.C40_default_settings`
- `KMC.C40_foreign_order_refused`
- `KMC.C40_truncated_value`
- `KMC.C40_shared_site_accepted`
- `KMC.C40_units`
- `KMC.C41_numbering`
- `KMC.C41_inverse`
- `KMC.C41_select_active_values`
- `KMC.C42_validated_indices_fit`
- `KMC.C42_bad_index_raises`
- `KMC.C43_normalized_cell`
- `KMC.C43_unique`
- `KMC.C43_compose`
- `KMC.C44_site_index_bijection`
- `KMC.C44_loader_labels_distinct`
- `KMC.C44_duplicates_rejected`
- `KMC.C45_events_describe_hops`
- `KMC.C45_no_hop_missing`
- `KMC.C45_indices_valid`
- `KMC.C45_translation_invariant`
- `KMC.C45_generation_succeeds`
- `KMC.C46_validation`
- `KMC.C46_allowed_values`
- `KMC.C46_round_trip`
- `KMC.C46_same_occupied_sites`
- `KMC.C46_flip_sites`
- `KMC.C46_flip_twice`
- `KMC.C46_flip_commutes`
- `KMC.C46_counts`
- `KMC.C46_match_counts`
- `KMC.C46_equivalent`
- `KMC.C46_making_a_basis`
- `KMC.C46_equality`
- `KMC.C46_site_functions`
- `KMC.C46_rejected_assignment_stays`
- `KMC.C47_bounded`
- `KMC.C47_states_differ`
- `KMC.C47_complete`
- `KMC.Lattice.C48_occupation_tells_two_apart`
- `KMC.Lattice.C48_species_round_trip`
- `KMC.Lattice.C48_value_round_trip`
- `KMC.Lattice.C48_equivalent_read_back`
- `KMC.Lattice.C48_value_rejected_iff`
- `KMC.Lattice.C48_value_in_range`
- `KMC.Lattice.C48_empty_in_range`
- `KMC.Lattice.C48_distinct_values`
- `KMC.Lattice.C48_vacancies_equivalent`
- `KMC.C48_mapping_read`
- `KMC.C48_allowed_from_mapping`
- `KMC.C48_label_identifies`
- `KMC.C49_result_is_relabelling`
- `KMC.C49_different_labels_rejected`
- `KMC.C49_found_iff`
- `KMC.C49_exact_match`
- `KMC.C49_ambiguous_rejected`
- `KMC.C49_nearest`
- `KMC.C49_listing_order_irrelevant`
- `KMC.C49_equality_reflexive`
- `KMC.C49_equality_not_symmetric`
- `KMC.C49_equality_not_transitive`
- `KMC.C49_nearest_tie_claims_unique`
- `KMC.C50_enumeration`
- `KMC.C50_distinct`
- `KMC.C50_rejections`
- `KMC.C50_site_rejections`
- `KMC.C50_succeeds`
- `KMC.C50_zero_count_returns_nothing`
- `KMC.C51_succeeds`
- `KMC.Parameters.C52_record`
- `KMC.Parameters.C52_local_site_order_lost`
- `KMC.Parameters.C52_text_history_partial`
- `KMC.Parameters.C52_h5_history_partial`
- `KMC.Parameters.C52_h5_loses_nothing`
- `KMC.Parameters.C52_h5_third_is_eleventh`
- `KMC.Parameters.C52_fits_append`
- `KMC.Parameters.C52_fits_from_nothing`
- `KMC.Parameters.C52_unreadable_history_kept`
- `KMC.Parameters.C52_h5_failed_fit_leaves_record`
- `KMC.Fitter.C53_predictions`
- `KMC.Fitter.C53_normalised_features`
- `KMC.Fitter.C53_residuals`
- `KMC.Fitter.C53_optimal`
- `KMC.Fitter.C53_plain`
- `KMC.Fitter.C53_succeeds`
- `KMC.NEBLoader.C54_add_partial`
- `KMC.NEBLoader.C54_adds_partial`
- `KMC.NEBLoader.C54_structures`
- `KMC.NEBLoader.C54_add_structure`
- `KMC.NEBLoader.C54_from_structures`
- `KMC.C55_steps_compose`
- `KMC.C55_run_deterministic`
- `KMC.C56_plan_and_tracker_agree`
- `KMC.C56_registration_is_atomic`
- `KMC.C56_run_starts_clean`
- `KMC.C57_default_summary_rows`
- `KMC.C57_one_row_per_pass`
- `KMC.C58_effective_schedule`
- `KMC.C58_summary_schedule`
- `KMC.C59_rows_use_absolute_time`
- `KMC.C59_rows_refer_to_window_partial`
- `KMC.C59_late_start_underestimates`
- `KMC.C60_generator_and_simulator_number_alike`
- `KMC.C61_end_points_differ`
- `KMC.C61_each_hop_listed_once`
- `KMC.C63_section_round_trip`
- `KMC.C63_task_named_type`
- `KMC.C64_crash_leaves_old_new_or_error`
- `KMC.C64_overwrite_can_lose_checkpoint`
- `KMC.C64_alternating_files_are_safe`
- `KMC.C65_event_site_rules_are_local`
- `KMC.C65_hop_system`
- `KMC.C65_fixed_sites_stale`
- `KMC.C66_snapshot_rule`
- `KMC.C66_snapshot_describes`
- `KMC.C67_built_model_evaluates`
- `KMC.C67_terms_plain`
- `KMC.C67_terms_decorated`
- `KMC.C68_equivalent_surroundings`
- `KMC.C68_three_states_differ`
- `KMC.C69_expansions_are_local`
- `KMC.C69_hop_system`
- `KMC.C70_local_calculator_fresh`
- `KMC.C70_far_calculator_stale`
- `KMC.C71_compute_reaches_calculator`
- `KMC.C71_commit_succeeds`
- `KMC.C71_gap_found_late`
- `KMC.C71_checked_events`
- `KMC.Lattice.C72_structure_to_occupation`
- `KMC.Lattice.C72_atom_order_irrelevant`
- `KMC.Lattice.C72_far_atom_rejected`
- `KMC.Lattice.C72_occupation_to_structure`
- `KMC.Lattice.C72_structure_exists`
- `KMC.Lattice.C72_occupation_round_trip`
- `KMC.Lattice.C72_structure_round_trip`
- `KMC.Lattice.C72_diagonal_only`
- `KMC.C72_explicit_sites`
- `KMC.LCE.C73_same_features`
- `KMC.LCE.C73_same_value`
- `KMC.Lattice.C73_filter_by_position`
- `KMC.LCE.C73_occupation_basis_differs`
- `KMC.C73_reference_accepted_iff`
- `KMC.C73_wrong_reference_rejected`
- `KMC.C74_one_atom_moves`
- `KMC.C74_rejections`
- `KMC.C74_enumerated_pairs`
- `KMC.Fitter.C75_leave_one_out`
- `KMC.Fitter.C75_left_out_point_unused`
- `KMC.Fitter.C76_failed_numbers`
- `KMC.Fitter.C76_files`
- `KMC.Fitter.C76_record`
- `KMC.Fitter.C76_unreadable_history`
- `KMC.Fitter.C77_single_column_or_row`
- `KMC.Fitter.C77_larger_partial`
- `KMC.ModelFile.C78_cluster`
- `KMC.ModelFile.C78_orbit`
- `KMC.ModelFile.C78_own_distances_lost`
- `KMC.ModelFile.C79_expansion`
- `KMC.ModelFile.C79_expansion_parameters_lost`
- `KMC.ModelFile.C79_composite`
- `KMC.ModelFile.C79_composite_unfitted`
- `KMC.ModelFile.C79_any_file`
- `KMC.ModelFile.C79_incomplete_file_refused`
- `KMC.SiteEnergyFile.C80_settings`
- `KMC.SiteEnergyFile.C80_settings_in_use`
- `KMC.SiteEnergyFile.C80_behaves_the_same`
- `KMC.SiteEnergyFile.C80_integers_kept`
- `KMC.SiteEnergyFile.C80_floats_kept`
- `KMC.SiteEnergyFile.C80_texts_kept`
- `KMC.SiteEnergyFile.C80_functions_lost`
- `KMC.SiteEnergyFile.C80_object_occupation`
- `KMC.SiteEnergyFile.C80_mappings_read`
- `KMC.SiteEnergyFile.C80_null_mapping`
- `KMC.SiteEnergyFile.C80_functions_called`
- `KMC.SiteEnergyFile.C80_altered_file_refused`
- `KMC.SiteEnergyFile.C80_bound_to_order`
- `KMC.ModelChoice.C81_file_decides`
- `KMC.ModelChoice.C81_own_class`
- `KMC.ModelChoice.C81_moved_class`
- `KMC.ModelChoice.C81_lost_class`
- `KMC.ModelChoice.C81_envelope`
- `KMC.ModelChoice.C81_configured`
- `KMC.ModelChoice.C81_local_barrier`
- `KMC.ModelChoice.C81_local_barrier_envelope`
- `KMC.ModelChoice.C81_wrong_envelope`
- `KMC.Results.C82_written`
- `KMC.Results.C82_labels_apart`
- `KMC.Results.C82_passes_apart`
- `KMC.Results.C82_run_records`
- `KMC.Results.C82_run_files`
- `KMC.Results.C82_stale_records`
- `KMC.C83_members`
- `KMC.C83_built_iff`
- `KMC.C83_independent_of_search`
- `KMC.C83_hash_iff`
- `KMC.C83_enumeration_agrees`
- `KMC.C83_centre_images_dropped`
- `KMC.C83_match_with_reference`
- `KMC.C83_equivalent_iff`
- `KMC.C83_match_found_iff`
- `KMC.C83_default_order_follows_search`
- `KMC.C83_centre_number_differs`
- `KMC.C84_hops`
- `KMC.C84_succeeds_iff`
- `KMC.C84_default_hops`
- `KMC.C84_hops_reversible`
- `KMC.C84_no_vacancy_refused`
- `KMC.C84_not_two_refused`
- `KMC.C84_va_not_understood`
- `KMC.C84_zero_cutoff_ignored`
- `KMC.C84_one_label_switches`
- `KMC.C84_charge_spelling`
- `KMC.C85_local_barrier_answers`
- `KMC.C85_local_barrier_willing`
- `KMC.C85_constant_barrier_completes`
- `KMC.C85_composite_answers`
- `KMC.C85_composite_willing`
- `KMC.C85_composite_completes`
- `KMC.C85_can_be_constructed`
- `KMC.C85_never_crashes`
- `KMC.C85_completes_or_stuck`
- `KMC.C85_connected_completes`
- `KMC.C86_constant_everywhere`
- `KMC.C86_constant_needs_number`
- `KMC.C86_snapshots_answered`
- `KMC.C86_clashing_snapshots_refused`
- `KMC.C87_one_numbering`
- `KMC.C87_foreign_library_refused`
- `KMC.C87_mapping_required`
- `KMC.C87_initial_state_required`
- `KMC.C87_occupations_win`
- `KMC.C87_h5_state_unchecked`
- `KMC.C87_only_configurations`
- `KMC.C87_steps_per_pass`
- `KMC.C87_number_of_passes`
- `KMC.C87_failed_run_raises`
- `KMC.C87_pass_counts_other_elements`
- `KMC.C87_generate_then_run`
- `KMC.C87_h5_state_wrong_length`
- `KMC.C88_shape_three_integers`
- `KMC.C88_shape_text`
- `KMC.C88_shape_length`
- `KMC.C88_shape_truncated`
- `KMC.C88_shape_numbers`
- `KMC.C88_argument_values`
- `KMC.C88_arguments_never_run`
- `KMC.C88_input_alone`
- `KMC.C88_input_file`
- `KMC.C88_template_loads`
- `KMC.C88_template_complete`
- `KMC.C88_template_needs_initial_state`
- `KMC.C88_init_writes`
- `KMC.C88_form_values`
- `KMC.C88_absent_mobile_species`
- `KMC.C88_form_moves_only_lithium`
- `KMC.C88_sodium_form`
- `KMC.FitTable.C89_table_kept`
- `KMC.FitTable.C89_fit_appended`
- `KMC.FitTable.C89_fits_recorded`
- `KMC.FitTable.C89_other_file_replaced`
- `KMC.FitTable.C89_history_file_replaced`
- `KMC.FitTable.C89_record_chosen`
- `KMC.FitTable.C89_latest_loaded`
- `KMC.FitTable.C89_fitter_reloaded`
- `KMC.FitTable.C89_fit_reloaded`
- `KMC.C90_past_does_not_matter`
- `KMC.C90_step_chance`
- `KMC.C90_mean_stay`
- `KMC.C90_stationary_iff`
- `KMC.C90_finitely_many`
- `KMC.C90_all_arrangements`
- `KMC.C90_energy_balanced`
- `KMC.C90_barriers_balanced`
- `KMC.C90_boltzmann`
- `KMC.C90_equal_shares`
- `KMC.C90_equilibrium_exists`
- `KMC.C90_local_barriers_balanced`
- `KMC.C90_constant_barrier`
- `KMC.C91_ensemble_average`
- `KMC.C91_time_share`
- `KMC.C91_canonical_average`
- `KMC.C91_mean_clock`
- `KMC.C91_site_share`
- `KMC.C92_restart_iff`
- `KMC.C92_same_simulation`
- `KMC.C92_split_run`
- `KMC.C92_ordinary_split_run`
- `KMC.C92_site_energy_restart`
- `KMC.C92_far_calculator_differs`
- `KMC.C92_same_seed_differs`
- `KMC.C93_time_average`
- `KMC.C93_recurrent`
- `KMC.C93_canonical_average`
- `KMC.C93_site_share`
- `KMC.C93_run`
- `KMC.C93_random_numbers`
- `KMC.C94_path_law`
- `KMC.C94_first_step`
- `KMC.C94_markov`
- `KMC.C94_expected_value`
- `KMC.C95_every_image_once`
- `KMC.C95_only_images`
- `KMC.C95_labels`
- `KMC.C95_species`
- `KMC.C95_species_default`
- `KMC.C95_indices`
- `KMC.C95_numbering`
- `KMC.C95_refused`
- `KMC.C95_loads_iff`
- `KMC.C95_unreadable_refused`
- `KMC.C95_first_block`
- `KMC.C95_bad_blocks_passed_over`
- `KMC.C95_findable`
- `KMC.C95_numbers`
- `KMC.C95_equivalent_coordinates_refused`
- `KMC.C95_magnetic_refused`
- `KMC.C95_same_crystal_refused`
- `KMC.C95_repeated_label_hides`
- `KMC.C96_moved_start`
- `KMC.C96_moved_answers`
- `KMC.C96_no_absolute_position`
- `KMC.C96_moved_ends`
- `KMC.C96_expansions_know_no_position`
- `KMC.C96_translations_are_symmetries`
- `KMC.C96_translated_simulation`
- `KMC.C96_some_models_know_positions`
- `KMC.C97_follows_the_transformation`
- `KMC.C97_same_environments`
- `KMC.C97_disordered_structure`
- `KMC.C97_shares`
- `KMC.C97_counts_only_filter`
- `KMC.C97_limit_truncates`
- `KMC.C97_asked_once`
- `KMC.C97_entries_in_turn`
- `KMC.C97_rejections`
- `KMC.C97_vacancy_only_fails`
- `KMC.C97_counts_do_not_set_the_composition`
- `KMC.C97_product_accepts_vacancy_only`
- `KMC.C97_larger_cells_misread`
- `KMC.C98_mean_unique`
- `KMC.C98_mean_displacement`
- `KMC.C98_mean_square_displacement`
- `KMC.C98_mean_time`
- `KMC.C98_lone_ion`
- `KMC.C98_diffusion_coefficient`
- `KMC.C98_lone_ion_report`
- `KMC.C99_same_events`
- `KMC.C99_both_constructed`
- `KMC.C99_same_events_back`
- `KMC.C99_same_run`
- `KMC.C99_report`
- `KMC.C99_reported`
- `KMC.C99_attempt_frequency`
- `KMC.C99_expansions`
- `KMC.C99_attempt_frequency_rules`
- `KMC.C99_barrier_offset`
- `KMC.C100_reordered`
- `KMC.C100_reordered_answers`
- `KMC.C100_order_does_not_matter`
- `KMC.C100_listed_again`
- `KMC.C101_compute_called`
- `KMC.C101_catch_all`
- `KMC.C101_no_signature`
- `KMC.C101_user_value_wins`
- `KMC.C101_apply_called`
- `KMC.C101_order_offered`
- `KMC.C101_reference_colon`
- `KMC.C101_reference_dotted`
- `KMC.C101_reference_refused`
- `KMC.C102_undisturbed`
- `KMC.C102_sweep`
- `KMC.C102_run`
- `KMC.C102_only_own_state`
- `KMC.C102_copy`
- `KMC.C102_old_tracker_clock`
- `KMC.C102_shared_model_memory`
- `KMC.C102_shared_state_stale`
- `KMC.C102_shared_events_fail`
- `KMC.C102_shared_model_wrong_rates`
- `KMC.C103_time_reversal`
- `KMC.C103_no_circulation`
- `KMC.C103_no_drift`
- `KMC.C103_equilibrium_start`
- `KMC.C104_one_value_per_site`
- `KMC.C104_site_value`
- `KMC.C104_occupied_iff_partial`
- `KMC.C104_part_of_a_symbol`
- `KMC.C104_not_states`
- `KMC.C104_run_of_name`
- `KMC.C104_wrong_parts`
- `KMC.C104_lines_found`
- `KMC.C104_same_transport`
- `KMC.C104_is_exist`
- `KMC.C105_count_per_time`
- `KMC.C105_event_frequency`
- `KMC.C105_no_net_flow`
- `KMC.C105_both_directions`
- `KMC.C105_canonical_frequency`
- `KMC.C105_no_drift`
- `KMC.C105_hops_reported`
- `KMC.C106_label_identifies`
- `KMC.C106_separators_collide`
- `KMC.C106_labels_distinct`
- `KMC.C106_pair_records`
- `KMC.C106_records_true`
- `KMC.C107_statistics`
- `KMC.C107_ranges`
- `KMC.C107_reports_agree`
- `KMC.C107_added_event_mixed`
- `KMC.C109_memory_makes_no_difference`
- `KMC.C109_calls`
- `KMC.C109_altered_state_goes_unnoticed`
- `KMC.C110_same_run`
- `KMC.C110_can_be_constructed`
- `KMC.C110_completes`
- `KMC.C110_canonical_average`
- `KMC.C111_composite`
- `KMC.C111_expansions`
- `KMC.C111_rules`
- `KMC.C111_same_run`
- `KMC.C112_fewer`
- `KMC.C112_fewer_answers`
- `KMC.C112_idle_events`
- `KMC.CompositeFile.C113_read`
- `KMC.CompositeFile.C113_metadata`
- `KMC.CompositeFile.C113_written_is_read`
- `KMC.C114_called_from_the_list`
- `KMC.C114_registering_is_safe`
- `KMC.C114_stopped_is_never_called_again`
- `KMC.C114_detaching_itself_ends_the_run`
- `KMC.C114_detached_is_still_called`
- `KMC.C114_without_calls`
- `KMC.C114_calls_as_from_outside`
- `KMC.C114_set_up_from_outside`
- `KMC.C115_rate_of_a_jump`
- `KMC.C115_listed_once_has_the_rate`
- `KMC.C115_both_orientations_double`
- `KMC.C115_listed_once`
- `KMC.C115_default_lists_both`
- `KMC.C115_disjoint_ends_list_one`
- `KMC.C115_default_library_doubles`
- `KMC.C115_disjoint_ends_have_the_rate`
- `KMC.C116_clusters_within_cutoff`
- `KMC.C116_term_has_one_shape`
- `KMC.C116_term_is_congruence_class`
- `KMC.C116_symmetric_occupations`
- `KMC.C116_fingerprint_identifies`
- `KMC.C116_same_shape_same_model`
- `KMC.C116_copy_refuses_parameters`
- `KMC.C116_build_needs_three_cutoffs`
- `KMC.C116_mirror_image_same_model`
- `KMC.C116_mirrored_clusters_share`
- `KMC.C116_tolerance_merges_shapes`
- `KMC.C117_part_keeps_composition`
- `KMC.C117_uniform_part_never_changes`
- `KMC.C117_ion_stays_in_part`
- `KMC.C117_no_motion_across_layers`
- `KMC.C117_displacement_at_most_hops`
- `KMC.C118_axes_and_origin`
- `KMC.C118_other_cell`
- `KMC.C118_volume`
- `KMC.DescriptionSamples.C118_half_cell_image_matters`
- `KMC.C119_in_range_as_before`
- `KMC.C119_infinite_total`
- `KMC.C119_nan_rate_picks_first`
- `KMC.C119_nan_run`
- `KMC.C119_nan_time_stays`
- `KMC.C119_nan_time_not_sampled`
- `KMC.C119_nan_temperature`
- `KMC.C119_possible_hop_rate`
- `KMC.C119_impossible_hop_can_be_nan`
- `KMC.C119_impossible_hop_odd_frequency`
- `KMC.C119_composite_impossible_is_zero`
- `KMC.C119_rate_zero_chosen`
- `KMC.FitUse.C120_fit_can_be_loaded`
- `KMC.FitUse.C120_simulates_the_prediction`
- `KMC.FitUse.C120_other_model_refuses`
- `KMC.FitUse.C120_wrong_file_refused`
- `KMC.FitUse.C120_hdf5_refused`
- `KMC.FitUse.C120_hdf5_without_fingerprints`
- `KMC.Lattice.C121_supercell_accepted`
- `KMC.Lattice.C121_refused_supercell_inconsistent`
- `KMC.Lattice.C121_supercell_allowed`
- `KMC.Lattice.C121_supercell_right_iff`
- `KMC.Lattice.C121_copy_same`
- `KMC.Lattice.C121_copy_of_supercell`
- `KMC.Lattice.C121_structure_from_occ`
- `KMC.Lattice.C121_active_lattice`
- `KMC.C122_scaled_run`
- `KMC.C122_enlarged_crystal`
- `KMC.C122_enlarged_volume`
- `KMC.C122_parameters_only`
- `KMC.C123_clock_accuracy`
- `KMC.C123_never_goes_back`
- `KMC.C123_double_accuracy`
- `KMC.C123_double_clock`
- `KMC.C123_stands_still`
- `KMC.C123_double_can_stand_still`
- `KMC.C124_probability_error`
- `KMC.C124_same_choice`
- `KMC.C124_wait`
- `KMC.C124_same_hops`
- `KMC.C124_same_run`
- `KMC.C124_rare_event_never_chosen`
- `KMC.C124_double_never_chosen`
- `KMC.C125_coefficients_determined`
- `KMC.C125_every_table_reproduced`
- `KMC.C125_finite_range_reproduced`
- `KMC.C125_symmetric_table_reproduced`
- `KMC.C125_left_out_group`
- `KMC.C125_inert_site_undetermined`
- `KMC.C126_no_drift`
- `KMC.C126_collective_displacement`
- `KMC.C126_hops_per_time`
- `KMC.C126_conductivity_diffusivity`
- `KMC.C126_constant_barrier`
- `KMC.FitFiles.C127_more_entries`
- `KMC.C128_spread`
- `KMC.C128_one_line`
- `KMC.C128_lone_ion`
- `KMC.C128_reported`
- `KMC.C128_never_accurate`
- `KMC.C128_average_of_runs`
- `KMC.C128_average_report`
- `KMC.RunFiles.C129_exception`
- `KMC.RunFiles.C129_finished`
- `KMC.RunFiles.C129_fresh_folder`
- `KMC.RunFiles.C129_mixed_runs`
- `KMC.RunFiles.C129_empty_array`
- `KMC.RunFiles.C129_records_missing`
- `KMC.RunFiles.C129_other_labels`
- `KMC.RunFiles.C129_gathered`
- `KMC.RunFiles.C129_gather_succeeds`
- `KMC.Gui.C130_fit_never`
- `KMC.Gui.C130_expansion_never`
- `KMC.Gui.C130_actions`
- `KMC.Gui.C130_table_read`
- `KMC.Gui.C130_cutoff_used`
- `KMC.Gui.C130_call`
- `KMC.Gui.C130_nearest`
- `KMC.Gui.C130_event_file`
- `KMC.Gui.C130_empty_text`
- `KMC.Gui.C130_repeated_pair`
- `KMC.Gui.C130_blanks`
- `KMC.C131_ions`
- `KMC.C131_collective`
- `KMC.C131_correlation`
- `KMC.C131_one_start_exceeds`
- `KMC.C132_mean`
- `KMC.C132_order`
- `KMC.C132_short_occupation`
- `KMC.C132_expansion`
- `KMC.C132_reread`
- `KMC.C132_stated_multiplicity`
- `KMC.C132_bounds`
- `KMC.C132_state_numbers_differ`
- `KMC.C133_displacements`
- `KMC.C133_double`
- `KMC.C133_there_and_back`
- `KMC.C133_double_is_odd`
- `KMC.C133_half_cell`
- `KMC.UserBasis.C134_latest_registration`
- `KMC.UserBasis.C134_unknown_name`
- `KMC.UserBasis.C134_made_iff`
- `KMC.UserBasis.C134_kept`
- `KMC.UserBasis.C134_copy_equal_iff`
- `KMC.UserBasis.C134_object_copy_equal`
- `KMC.UserBasis.C134_there_and_back`
- `KMC.UserBasis.C134_lossless_iff`
- `KMC.UserBasis.C134_flip`
- `KMC.UserBasis.C134_counts`
- `KMC.UserBasis.C134_set`
- `KMC.UserBasis.C134_equivalent`
- `KMC.UserBasis.C134_reread`
- `KMC.UserBasis.C134_builtin_occupation`
- `KMC.UserBasis.C134_chebyshev_states`
- `KMC.UserBasis.C134_unreadable`
- `KMC.UserBasis.C134_builtin_fill`
- `KMC.UserBasis.C134_builtin_chebyshev`
- `KMC.UserBasis.C134_fractions_accepted`
- `KMC.UserBasis.C134_mixed_types`
- `KMC.UserBasis.C134_interface_too_small`
- `KMC.UserBasis.C134_alias_copy_differs`
- `KMC.UserBasis.C134_same_class_name`
- `KMC.C135_clock`
- `KMC.C135_ions`
- `KMC.C135_collective`
- `KMC.C136_energy`
- `KMC.C136_sized`
- `KMC.C136_failures`
- `KMC.C136_rate`
- `KMC.C136_double_rate`
- `KMC.C136_way_back`
- `KMC.C136_balance`
- `KMC.C136_order`
- `KMC.C136_hop_system`
- `KMC.C136_answers`
- `KMC.C136_willing`
- `KMC.C136_barriers_balanced`
- `KMC.C136_equal_shares`
- `KMC.C136_next_step`
- `KMC.C137_same_hops_if_clear`
- `KMC.C137_same_hops`
- `KMC.C137_same_run`
- `KMC.C137_expansions`
- `KMC.C137_double_rates`
- `KMC.C137_double_same_hops`
- `KMC.C137_same_transport`
- `KMC.C138_rate`
- `KMC.C138_failures`
- `KMC.C138_order`
- `KMC.C138_zero_iff_forbidden`
- `KMC.C138_hop_system`
- `KMC.C138_rates_within`
- `KMC.C138_double_rates`
- `KMC.C138_double_same_hops`
- `KMC.C139_match_fingerprint`
- `KMC.C139_same_fingerprint_matches`
- `KMC.C139_same_fingerprint_equal`
- `KMC.C139_order_irrelevant`
- `KMC.C139_relisted_reference`
- `KMC.C139_relisted_reference_needs_unique`
- `KMC.C139_equal_not_same_fingerprint`
- `KMC.DataSetFile.C140_rows`
- `KMC.DataSetFile.C140_add_succeeds`
- `KMC.DataSetFile.C140_add_many`
- `KMC.DataSetFile.C140_file`
- `KMC.DataSetFile.C140_refused_no_trace`
- `KMC.DataSetFile.C140_same_as_fit`
- `KMC.DataSetFile.C140_names_last_model`
- `KMC.DataSetFile.C140_failed_save_destroys`
- `KMC.C141_criterion`
- `KMC.C141_weights_fixed`
- `KMC.C141_hop_ratio`
- `KMC.C141_energy_iff_no_work`
- `KMC.C141_energy_is_work`
- `KMC.C141_equilibrium`
- `KMC.C141_constant_is_a_prefactor`
- `KMC.C141_constant_balanced`
- `KMC.C141_driven_ring`
- `KMC.C142_selection`
- `KMC.C142_selection_as_order`
- `KMC.C142_occupations_first`
- `KMC.C142_initial_file_time_ignored`
- `KMC.C142_with_order`
- `KMC.C142_refused`
- `KMC.C143_rule_read`
- `KMC.C143_meaning_unique`
- `KMC.C143_add_rule`
- `KMC.C143_list_of_rules`
- `KMC.C143_state_read`
- `KMC.C143_species_table`
- `KMC.C143_barrier_twice`
- `KMC.C143_unknown_keys_match_everything`
- `KMC.C143_blank_species`
- `KMC.C144_sampling_succeeds`
- `KMC.C144_stops_at_first_failure`
- `KMC.C144_current_summary`
- `KMC.C144_latest_value`
- `KMC.C144_reading_back`
- `KMC.C145_listing`
- `KMC.C145_same_listing`
- `KMC.C145_disabled_gets_no_record`
- `KMC.C146_reads_back`
- `KMC.C146_any_event`
- `KMC.C146_saved_but_unreadable`
- `KMC.C146_other_files`
- `KMC.C146_from_dict`
- `KMC.C146_lists_come_back_as_tuples`
- `KMC.C146_foreign_dictionary`
- `KMC.C146_no_dictionary`
- `KMC.C146_library_by_position`
- `KMC.C147_rows`
- `KMC.C147_position`
- `KMC.C147_all_or_nothing`
- `KMC.C147_first_failure`
- `KMC.C147_folder_name`
- `KMC.C147_never_written`

## propext, Quot.sound (77 theorems)

- `KMC.C07_failed_event_leaves_state`
- `KMC.C10_dependencies_are_overlaps`
- `KMC.C10_dependencies_symmetric`
- `KMC.C10_dependencies_reflexive`
- `KMC.C12_direction_depends_on_endpoints`
- `KMC.C13_hop_reverses_direction`
- `KMC.C22_keepLast_meaning`
- `KMC.C22_records_are_the_most_recent`
- `KMC.C23_detach_undoes_attach`
- `KMC.C23_attach_accepted_iff`
- `KMC.C23_attach_appends`
- `KMC.C32_counts_ignore_order`
- `KMC.C36_value_plain`
- `KMC.C36_local`
- `KMC.C36_only_environment`
- `KMC.C36_cluster_order_plain`
- `KMC.C36_cluster_order_decorated`
- `KMC.C40_committed_is_proposed`
- `KMC.C46_fresh_vectors`
- `KMC.C46_single_values`
- `KMC.C47_shape`
- `KMC.C47_function_count`
- `KMC.Lattice.C48_chebyshev_tells_apart`
- `KMC.Lattice.C48_rejected_iff`
- `KMC.Lattice.C48_occupation_three_species`
- `KMC.Lattice.C48_equivalence`
- `KMC.C48_basis_size`
- `KMC.C50_limit_truncates`
- `KMC.C51_cutoff`
- `KMC.C51_neighbours`
- `KMC.C51_mutual`
- `KMC.C51_range_neighbours`
- `KMC.C51_named_table`
- `KMC.NEBLoader.C54_matrices`
- `KMC.NEBLoader.C54_fitting_inputs`
- `KMC.NEBLoader.C54_readd_breaks`
- `KMC.NEBLoader.C54_rejected_readd_breaks`
- `KMC.C61_small_supercell_lists_twice`
- `KMC.C61_small_supercell_self_hop`
- `KMC.C62_same_order_iff_equal`
- `KMC.C62_altered_metadata_accepted`
- `KMC.Lattice.C72_lattice_mismatch_rejected`
- `KMC.Lattice.C72_missing_atom_becomes_other_species`
- `KMC.C72_vacancy_names`
- `KMC.C72_same_species`
- `KMC.C72_bad_sites_rejected`
- `KMC.Lattice.C73_full_structure_by_index`
- `KMC.Lattice.C73_full_structure_order_matters`
- `KMC.Results.C82_label_of_run`
- `KMC.Results.C82_plain_values`
- `KMC.Results.C82_keys_merged`
- `KMC.C83_order_choice`
- `KMC.C88_init_refuses`
- `KMC.C106_record_of_target_untrue`
- `KMC.C108_registrations`
- `KMC.C108_order_irrelevant`
- `KMC.C108_choice`
- `KMC.CompositeFile.C113_checked`
- `KMC.CompositeFile.C113_malformed_refused`
- `KMC.C114_clearing_ends_the_run`
- `KMC.C114_value_under_the_new_property`
- `KMC.C125_five_sites_left_out`
- `KMC.FitFiles.C127_export_read`
- `KMC.FitFiles.C127_fresh_folder`
- `KMC.FitFiles.C127_last_weight_cut`
- `KMC.FitFiles.C127_mixed_export`
- `KMC.FitFiles.C127_fewer_entries`
- `KMC.FitFiles.C127_refused_weights`
- `KMC.Gui.C130_incomplete`
- `KMC.C132_empty`
- `KMC.C139_fingerprint_iff`
- `KMC.C139_saved_again_iff`
- `KMC.C139_stable_from_second`
- `KMC.DataSetFile.C140_batch_positions`
- `KMC.DataSetFile.C140_metadata`
- `KMC.DataSetFile.C140_crash`
- `KMC.C146_equality`

## propext (28 theorems)

- `KMC.C11_events_added`
- `KMC.C14_mixed_order_transmutes`
- `KMC.C23_rejected_call_changes_nothing`
- `KMC.C32_event_constraints`
- `KMC.C41_dict_round_trip`
- `KMC.C42_wrong_order_raises`
- `KMC.C46_flip_inplace`
- `KMC.C46_third_state_lost`
- `KMC.Lattice.C48_mixed_valence_conflated`
- `KMC.C48_stands_for_one`
- `KMC.C48_label`
- `KMC.C50_repeated_site_duplicates`
- `KMC.C50_all_vacant_fails`
- `KMC.C51_conflict_last_wins`
- `KMC.NEBLoader.C54_one_shape`
- `KMC.C56_detach_after_run_deletes_records`
- `KMC.C74_multistate_target_collides`
- `KMC.C74_default_duplicates`
- `KMC.C88_mapping_dictionary`
- `KMC.C88_init_keeps_files`
- `KMC.C107_save`
- `KMC.CompositeFile.C113_site_energy_envelope`
- `KMC.Lattice.C121_supercell_rejects_itself`
- `KMC.Lattice.C121_supercell_misreads`
- `KMC.FitFiles.C127_no_entries`
- `KMC.FitFiles.C127_other_files`
- `KMC.UserBasis.C134_comparisons`
- `KMC.C139_first_saving`

## none (6 theorems)

- `KMC.C30_dict_round_trip`
- `KMC.C37_tolerance_depends_on_order`
- `KMC.C38_rejected_unchanged`
- `KMC.Lattice.C48_no_allowed`
- `KMC.C108_declared_fitter_ignored`
- `KMC.C139_saving_twice_changes`
