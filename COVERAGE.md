# Coverage of the Python code

For every function of `/repo/kmcpy`: the model files under `lean/Verif/Model` that cite its lines.
Functions without a model file are not modelled.  Generated by `tools/coverage.py`.

523 of 668 functions are cited.

## kmcpy/__init__.py

- `get_logo` (58-101): not modelled

## kmcpy/api.py

- `run` (12-29): FromConfig

## kmcpy/cli/gui_wrapper.py

- `main` (27-336): Cli, Gui

## kmcpy/cli/init.py

- `build_template` (14-107): Cli
- `write_template` (110-122): Cli
- `build_parser` (125-142): not modelled
- `main` (145-152): not modelled

## kmcpy/cli/main.py

- `build_parser` (11-36): not modelled
- `main` (39-51): not modelled

## kmcpy/cli/run_kmc.py

- `_parse_sequence` (10-19): Cli
- `_parse_supercell_shape` (22-34): Cli
- `_parse_mapping` (37-46): Cli
- `main` (50-146): Cli
- `run_kmc` (148-208): Cli

## kmcpy/event/base.py

- `Event.show_info` (38-45): CompositeFile
- `Event.as_dict` (47-52): Event, EventFile
- `Event.to` (54-56): EventFile
- `Event.from_file` (59-61): EventFile
- `Event.from_dict` (64-68): EventFile
- `_generate_event_dependency_matrix` (72-113): Event
- `_arrays_intersect` (117-141): Event
- `EventLib.__init__` (160-164): Event
- `EventLib.add_event` (166-185): Event
- `EventLib.set_index_metadata` (187-190): Event
- `EventLib.validate_index_metadata` (192-200): Event
- `EventLib._validate_event_indices` (202-211): Event
- `EventLib.get_event` (213-214): EventFile
- `EventLib.__len__` (216-217): EventFile
- `EventLib.__getitem__` (219-220): EventFile
- `EventLib.__str__` (222-223): not modelled
- `EventLib.generate_event_dependencies` (225-260): Event
- `EventLib.get_dependent_events` (262-280): Event
- `EventLib.as_dict` (282-294): Event
- `EventLib.to` (296-303): EventStats
- `EventLib.from_dict` (306-339): Event
- `EventLib.from_file` (343-366): Event
- `EventLib.clear_event_dependencies` (368-371): Event
- `EventLib.has_event_dependencies` (373-375): EventStats
- `EventLib.get_event_dependencies_info` (377-387): EventStats
- `EventLib.get_events_involving_site` (389-399): Event
- `EventLib.get_dependency_statistics` (401-423): EventStats

## kmcpy/event/generators.py

- `print_divider` (30-31): not modelled
- `EventGenerator.__init__` (42-44): not modelled
- `EventGenerator._neighbor_species_signature` (47-54): GeneratorInputs
- `EventGenerator._to_identifier_list` (57-62): GeneratorInputs
- `EventGenerator._flatten_identifier_tokens` (65-73): GeneratorInputs
- `EventGenerator._mapping_values` (76-79): GeneratorInputs
- `EventGenerator._mobile_species_from_site_mapping` (82-96): GeneratorInputs
- `EventGenerator._species_token_variants` (99-104): GeneratorInputs
- `EventGenerator._infer_site_selection_kind` (107-123): GeneratorInputs
- `EventGenerator._site_matches_species_identifier` (126-153): GeneratorInputs
- `EventGenerator._site_matches_label_identifier` (156-158): GeneratorInputs
- `EventGenerator._build_uniform_cutoff_dict` (161-184): GeneratorInputs
- `EventGenerator._normalize_generate_events_inputs` (186-240): GeneratorInputs
- `EventGenerator._match_or_register_local_environment` (242-281): Generator, GeneratorInputs
- `EventGenerator._export_reference_local_environment` (283-305): not modelled
- `EventGenerator._is_valid_target_site` (307-319): GeneratorInputs
- `EventGenerator.generate_events` (321-549): Generator, GeneratorInputs
- `find_atom_indices` (553-600): Generator, GeneratorInputs
- `normalize_supercell_tuple` (604-633): Supercell

## kmcpy/event/hop.py

- `HopStateLookup.from_active_site_order` (23-52): Hop
- `HopStateLookup.annotate_event` (54-62): Event, Hop, Shared
- `HopStateLookup.annotate_event_lib` (64-67): Hop, Shared
- `event_direction` (70-76): Hop
- `endpoint_direction_from_codes` (79-89): Hop
- `_is_mobile_label` (92-93): Hop
- `_is_vacancy_label` (96-97): Hop

## kmcpy/io/cif.py

- `_LabeledCifParser.from_string` (26-38): not modelled
- `_LabeledCifParser._get_labeled_structure` (40-300): Cif, Supercell
- `_LabeledCifParser.get_labeled_structures` (302-359): Cif
- `_LabeledCifParser._unique_coords` (361-410): Cif
- `_LabeledCifParser.str2float` (413-429): Cif
- `load_labeled_structures_from_cif` (432-444): not modelled
- `load_labeled_structure_from_cif` (447-457): Cif
- `load_labeled_structure_from_string` (460-471): Cif

## kmcpy/io/neb/data.py

- `_load_structure_source` (28-51): DataSetFile
- `NEBEntry.from_structure` (72-102): DataSetFile, NEBLoader
- `NEBEntry.compute_occ_corr` (104-141): NEBLoader
- `NEBDataLoader.__init__` (155-172): DataSetFile, NEBLoader
- `NEBDataLoader._resolve_model` (174-184): not modelled
- `NEBDataLoader.add` (186-244): DataSetFile, NEBLoader
- `NEBDataLoader.add_structure` (246-292): DataSetFile, NEBLoader
- `NEBDataLoader.add_structures` (294-341): DataSetFile, NEBLoader
- `NEBDataLoader.from_structures` (344-389): NEBLoader
- `NEBDataLoader.get_correlation_matrix` (391-395): NEBLoader
- `NEBDataLoader.get_occupation_matrix` (397-401): NEBLoader
- `NEBDataLoader.get_properties` (403-407): NEBLoader
- `NEBDataLoader.to` (409-439): DataSetFile
- `NEBDataLoader._as_weight_array` (442-450): NEBLoader
- `NEBDataLoader.write_fitting_inputs` (452-497): FitFiles, NEBLoader
- `NEBDataLoader.__str__` (499-512): not modelled
- `NEBDataLoader.__len__` (514-516): not modelled
- `NEBDataLoader.__repr__` (518-520): not modelled

## kmcpy/models/base.py

- `require_model_file_payload` (22-32): ModelChoice
- `require_model_type` (35-41): ModelChoice
- `BaseModel.__init__` (62-66): not modelled
- `BaseModel.get_fitter_class` (69-79): FitterRegistry
- `BaseModel.fit` (81-84): FitterRegistry
- `BaseModel.initialize_state` (86-101): Composite, FloatBarrier, LocalBarrier
- `BaseModel.apply_event` (103-110): Composite, FloatBarrier, LocalBarrier
- `BaseModel.from_config` (113-186): ModelChoice
- `BaseModel.__str__` (188-190): not modelled
- `BaseModel.__repr__` (192-197): not modelled
- `BaseModel.compute` (199-203): not modelled
- `BaseModel.compute_probability` (205-210): not modelled
- `BaseModel.build` (212-216): not modelled
- `BaseModel.as_dict` (219-223): not modelled
- `BaseModel.from_dict` (227-231): not modelled
- `BaseModel.from_file` (234-236): not modelled
- `BaseModel.to` (238-245): not modelled

## kmcpy/models/composite_lce_model.py

- `_accepts_keyword` (28-37): Callable
- `CompositeLCEModel.__init__` (77-117): Composite, CompositeFile, ModelFile
- `CompositeLCEModel.fit` (119-125): not modelled
- `CompositeLCEModel._compute_site_energy_difference` (127-145): Composite, ConstantDifference, FloatRate, ModelFile
- `CompositeLCEModel.initialize_state` (147-171): Callable, Composite, FloatRate, ModelFile, SiteEnergy
- `CompositeLCEModel.apply_event` (173-178): Composite, FloatRate, ModelFile, SiteEnergy
- `CompositeLCEModel.compute_probability` (180-236): Composite, FloatRate, Overflow
- `CompositeLCEModel.__str__` (238-239): not modelled
- `CompositeLCEModel.__repr__` (241-242): not modelled
- `CompositeLCEModel.as_dict` (244-268): CompositeFile, ModelFile
- `CompositeLCEModel._parameter_payload` (271-285): CompositeFile, ModelFile
- `CompositeLCEModel._submodel_as_dict` (288-298): CompositeFile, ModelFile
- `CompositeLCEModel._site_model_as_dict` (301-323): CompositeFile, ModelFile
- `CompositeLCEModel._validate_submodel_payload` (326-344): CompositeFile, ModelFile
- `CompositeLCEModel._validate_site_model_payload` (347-356): CompositeFile
- `CompositeLCEModel._validate_dict` (359-367): CompositeFile
- `CompositeLCEModel.to` (369-374): CompositeFile
- `CompositeLCEModel.build` (376-382): CompositeFile, ModelFile
- `CompositeLCEModel.from_dict` (385-409): CompositeFile, ModelFile
- `CompositeLCEModel._site_model_from_dict` (412-432): CompositeFile, ModelFile
- `CompositeLCEModel.from_file` (435-440): CompositeFile

## kmcpy/models/fitting/fitter.py

- `BaseFitter.__init__` (18-19): not modelled
- `BaseFitter.as_dict` (22-26): not modelled
- `BaseFitter.fit` (29-33): not modelled
- `LCEFitter.__init__` (39-55): not modelled
- `LCEFitter._extract_serialized_record` (58-75): FitTable
- `LCEFitter._save_fit_results_history` (78-133): FitTable
- `LCEFitter.as_dict` (135-153): FitTable
- `LCEFitter.to` (155-157): FitTable
- `LCEFitter.from_dict` (160-166): FitTable
- `LCEFitter.from_file` (169-171): FitTable
- `LCEFitter._fit_lasso_values` (174-224): Fitter
- `LCEFitter._leave_one_out_rmse` (227-254): Fitter
- `LCEFitter.fit` (256-404): FitFiles, FitUse, Fitter, Parameters

## kmcpy/models/fitting/registry.py

- `register_fitter` (10-19): FitterRegistry
- `get_fitter_for_model` (22-28): FitterRegistry

## kmcpy/models/local_barrier_model.py

- `_normalize_index_sequence` (94-107): LocalBarrier
- `_canonical_site_indices` (110-120): LocalBarrier
- `_event_indices` (123-134): LocalBarrier
- `_normalize_state_value` (137-159): LocalBarrier
- `_normalize_occupations` (162-167): LocalBarrier
- `_normalize_pattern` (170-182): LocalBarrier
- `_normalize_properties` (185-196): LocalBarrier
- `_normalize_optional_properties` (199-202): LocalBarrier
- `_properties_from_rule` (205-212): LocalBarrier
- `_normalize_sites_spec` (215-226): LocalBarrier
- `_normalize_count_constraints` (229-250): LocalBarrier
- `_count_matches` (253-260): LocalBarrier
- `_normalize_site_species` (263-287): LocalBarrier
- `_site_species_as_dict` (290-297): LocalBarrier
- `_coerce_rule_type` (300-321): LocalBarrier
- `_normalize_rule` (324-393): LocalBarrier
- `_rule_as_dict` (396-416): LocalBarrier
- `LocalBarrierModel.__init__` (521-553): LocalBarrier
- `LocalBarrierModel.fit` (555-559): not modelled
- `LocalBarrierModel.constant_barrier` (562-574): LocalBarrierMake
- `LocalBarrierModel.entry_from_event_state` (577-610): LocalBarrier, LocalBarrierMake
- `LocalBarrierModel.from_exact_entries` (613-646): LocalBarrierMake
- `LocalBarrierModel._validate_probability_mode` (648-652): not modelled
- `LocalBarrierModel._exact_key_for_rule` (654-661): LocalBarrier
- `LocalBarrierModel.add_rule` (663-676): LocalBarrier
- `LocalBarrierModel.add_exact_rule` (678-705): LocalBarrier
- `LocalBarrierModel.add_state_count_rule` (707-741): LocalBarrier
- `LocalBarrierModel.add_species_count_rule` (743-777): LocalBarrier
- `LocalBarrierModel.add_pattern_rule` (779-804): LocalBarrier
- `LocalBarrierModel.build` (806-841): LocalBarrier
- `LocalBarrierModel._selected_sites` (843-864): LocalBarrier
- `LocalBarrierModel._occupation_pattern` (866-874): LocalBarrier
- `LocalBarrierModel._event_constraints_match` (876-888): LocalBarrier
- `LocalBarrierModel._species_for_site` (890-902): LocalBarrier
- `LocalBarrierModel._rule_matches` (904-954): LocalBarrier
- `LocalBarrierModel._matched_properties` (956-979): LocalBarrier
- `LocalBarrierModel.compute` (981-996): LocalBarrier
- `LocalBarrierModel.compute_probability` (998-1019): FloatBarrier, LocalBarrier, Overflow
- `LocalBarrierModel.__str__` (1021-1026): not modelled
- `LocalBarrierModel.__repr__` (1028-1035): not modelled
- `LocalBarrierModel.as_dict` (1037-1053): LocalBarrier
- `LocalBarrierModel.to` (1055-1059): not modelled
- `LocalBarrierModel.from_dict` (1062-1080): LocalBarrier
- `LocalBarrierModel.from_file` (1083-1095): ModelChoice

## kmcpy/models/local_cluster_expansion.py

- `LocalClusterExpansion.__init__` (42-46): Gui
- `LocalClusterExpansion.fit` (48-60): FitUse, Gui
- `LocalClusterExpansion.build` (62-119): FitUse, FloatRate, Gui, LCE, ModelFile
- `LocalClusterExpansion.from_file` (122-132): Gui
- `LocalClusterExpansion.from_dict` (135-267): FitUse, Gui, ModelFile
- `LocalClusterExpansion._iter_cluster_site_indices` (270-274): Gui
- `LocalClusterExpansion.get_orbit_fingerprints` (276-282): Gui, LCE
- `LocalClusterExpansion._validate_parameter_orbits` (284-340): FitUse, Gui, LCE
- `LocalClusterExpansion.validate_reference_lattice_structure` (342-378): Features, Gui
- `LocalClusterExpansion.get_occ_corr_from_structure` (380-437): Features, Gui
- `LocalClusterExpansion.get_corr_from_structure` (439-456): Features, Gui
- `LocalClusterExpansion.build_clusters` (458-472): ClusterShape, Gui, LCE, ModelFile
- `LocalClusterExpansion.build_orbits` (474-497): ClusterShape, Gui, LCE, ModelFile
- `LocalClusterExpansion._configure_correlation_terms` (499-571): Gui, LCE, ModelFile
- `LocalClusterExpansion._build_site_basis_values` (573-591): Gui, LCE
- `LocalClusterExpansion._decorated_feature_fingerprint` (594-602): Gui, LCE, ModelFile
- `LocalClusterExpansion._calculate_correlation` (604-618): FloatRate, Gui, LCE
- `LocalClusterExpansion.compute` (620-665): FloatRate, Gui, LCE
- `LocalClusterExpansion.set_parameters` (667-710): FitUse, Gui, LCE
- `LocalClusterExpansion.load_parameters_from_file` (712-722): FitUse, Gui
- `LocalClusterExpansion.write_representative_clusters` (724-738): Gui
- `LocalClusterExpansion.__str__` (740-748): Gui
- `LocalClusterExpansion.__repr__` (750-752): Gui
- `LocalClusterExpansion.as_dict` (754-799): Gui, ModelFile
- `_to_numba_cluster_site_indices` (804-813): ModelFile
- `_to_numba_cluster_basis_indices` (816-825): not modelled
- `_calc_corr` (829-846): FloatRate, LCE
- `_calc_corr_decorated` (850-875): FloatRate, LCE

## kmcpy/models/parameters.py

- `LCEModelParameters.as_dict` (32-52): Parameters
- `LCEModelParameters.from_dict` (55-78): FitUse, Parameters
- `LCEModelParameters.from_file` (81-86): FitUse, Parameters
- `LCEModelParameters.to` (88-94): FitUse, Parameters
- `LCEModelParameters.__str__` (96-101): not modelled
- `LCEModelParamHistory.append` (110-112): not modelled
- `LCEModelParamHistory.as_dict` (114-120): Parameters
- `LCEModelParamHistory.from_dict` (123-136): Parameters
- `LCEModelParamHistory.from_file` (139-152): Parameters
- `LCEModelParamHistory.to` (154-167): Parameters
- `_read_hdf5_parameter_group` (170-176): FitUse
- `_read_hdf5_group` (179-180): Parameters
- `_write_hdf5_parameter_group` (183-189): FitUse, Parameters
- `_write_hdf5_group` (192-196): FitUse, Parameters
- `_decode_hdf5_value` (199-204): FitUse

## kmcpy/models/site_energy.py

- `MappedOccupationChange.as_flip` (40-42): SiteEnergy
- `MappedOccupationChange.as_system_change_tuple` (44-46): SiteEnergy
- `SiteEnergyModel.__init__` (96-165): Shared, SiteEnergy, SiteEnergyFile
- `SiteEnergyModel.unit_factor_to_mev` (168-170): not modelled
- `SiteEnergyModel.external_site_order_hash` (173-179): SiteEnergy
- `SiteEnergyModel._resolve_runtime` (181-186): SiteEnergy, SiteEnergyFile
- `SiteEnergyModel._resolve_compute_fn` (188-198): SiteEnergyFile
- `SiteEnergyModel._resolve_apply_fn` (200-207): SiteEnergyFile
- `SiteEnergyModel.initialize_state` (209-236): SiteEnergy
- `SiteEnergyModel._set_active_site_order` (238-251): SiteEnergy
- `SiteEnergyModel._validate_kmcpy_site_order` (253-261): SiteEnergy
- `SiteEnergyModel._ensure_initialized` (263-265): SiteEnergy
- `SiteEnergyModel._build_external_occupation` (267-294): SiteEnergy
- `SiteEnergyModel._external_site` (296-299): SiteEnergy
- `SiteEnergyModel._external_value` (301-307): SiteEnergy
- `SiteEnergyModel._changes_from_pre_state` (309-318): SiteEnergy
- `SiteEnergyModel._changes_from_post_state` (320-329): SiteEnergy
- `SiteEnergyModel._mapped_changes` (331-351): SiteEnergy
- `SiteEnergyModel._validate_event_mappings` (353-364): SiteEnergy
- `SiteEnergyModel.compute` (366-384): Callable, SiteEnergy
- `SiteEnergyModel.apply_event` (386-405): Callable, SiteEnergy
- `SiteEnergyModel.as_dict` (407-433): SiteEnergyFile
- `SiteEnergyModel.from_dict` (436-469): CompositeFile, SiteEnergyFile
- `SiteEnergyModel.from_file` (472-476): CompositeFile
- `SiteEnergyModel.to` (478-482): not modelled
- `SiteEnergyModel.__str__` (484-488): not modelled
- `SiteEnergyModel.__repr__` (490-495): not modelled
- `resolve_callable_reference` (498-515): Callable, SiteEnergyFile
- `_call_with_supported_keywords` (518-551): Callable
- `constant_site_energy_difference` (554-561): ConstantDifference
- `_normalize_energy_units` (564-568): SiteEnergy, SiteEnergyFile
- `_unit_factor_to_mev` (571-572): SiteEnergy
- `_numeric_delta_to_mev` (575-580): SiteEnergy
- `_normalize_optional_ref` (583-587): SiteEnergyFile
- `_normalize_site_mapping` (590-597): SiteEnergy, SiteEnergyFile
- `_normalize_state_mapping` (600-607): SiteEnergy, SiteEnergyFile
- `_normalize_state_mapping_by_site` (610-624): SiteEnergy, SiteEnergyFile
- `_normalize_active_site_order` (627-639): SiteEnergy, SiteEnergyFile
- `_external_site_order_hash` (642-665): SiteEnergyFile
- `_build_site_lookup` (668-696): SiteEnergy
- `_external_size_from_lookup` (699-709): SiteEnergy
- `_build_state_lookup` (712-726): SiteEnergy
- `_build_state_lookup_by_site` (729-742): SiteEnergy
- `_external_state_value_from_lookup` (745-766): SiteEnergy
- `_state_lookup_value` (769-787): SiteEnergy
- `_resolve_external_dtype` (790-808): SiteEnergy
- `_optional_array_copy` (811-814): SiteEnergyFile
- `_optional_array_payload` (817-822): SiteEnergyFile

## kmcpy/simulator/config.py

- `_detect_config_file_format` (83-89): not modelled
- `_extract_section_data` (92-125): Config
- `_validate_builtin_property_enabled` (128-141): Config
- `SystemConfig.__post_init__` (172-178): Config
- `SystemConfig.as_dict` (187-202): Config
- `RuntimeConfig.__post_init__` (229-288): Config, Registration
- `RuntimeConfig.as_dict` (290-303): Config, Registration
- `Configuration.__init__` (313-365): Config
- `Configuration.as_dict` (367-384): Config
- `Configuration.as_record_dict` (386-388): not modelled
- `Configuration.as_input_dict` (390-392): not modelled
- `Configuration.field_units` (395-397): not modelled
- `Configuration.from_dict` (400-410): Config
- `Configuration._extract_file_config_data` (413-433): Config
- `Configuration.from_file` (438-465): Config
- `Configuration.to` (467-514): Config
- `Configuration.with_runtime_changes` (516-520): Config
- `Configuration.with_system_changes` (522-526): Config
- `Configuration.summary` (528-540): not modelled
- `Configuration.temperature` (547-549): not modelled
- `Configuration.name` (552-554): not modelled
- `Configuration.kmc_passes` (557-559): not modelled
- `Configuration.equilibration_passes` (562-564): not modelled
- `Configuration.attempt_frequency` (567-569): not modelled
- `Configuration.random_seed` (572-574): not modelled
- `Configuration.property_sampling_interval` (577-579): not modelled
- `Configuration.property_sampling_time_interval` (582-584): not modelled
- `Configuration.builtin_property_enabled` (587-589): not modelled
- `Configuration.property_callbacks` (592-594): not modelled
- `Configuration.structure_file` (598-600): not modelled
- `Configuration.mobile_ion_specie` (603-605): not modelled
- `Configuration.supercell_shape` (608-610): not modelled
- `Configuration.dimension` (613-615): not modelled
- `Configuration.model_type` (618-620): not modelled
- `Configuration.model_file` (623-625): not modelled
- `Configuration.event_file` (628-630): not modelled
- `Configuration.site_mapping` (633-635): not modelled
- `Configuration.elementary_hop_distance` (638-640): not modelled
- `Configuration.mobile_ion_charge` (643-645): not modelled
- `Configuration.convert_to_primitive_cell` (648-650): not modelled
- `Configuration.initial_state_file` (653-655): not modelled
- `Configuration.initial_occupations` (658-660): not modelled
- `Configuration.help_fields` (665-686): not modelled
- `Configuration.which_config` (688-695): not modelled
- `Configuration.validate` (697-704): not modelled

## kmcpy/simulator/kmc.py

- `_accepts_keyword` (32-41): Callable
- `KMC.__init__` (52-135): FromConfig, KMC, Overflow, Propose, Shared
- `KMC._initialize_model_state` (137-152): Callable, KMC
- `KMC._apply_model_event` (154-158): KMC
- `KMC._ensure_property_state` (160-165): Registration
- `KMC._resolve_callback_reference` (168-187): Registration
- `KMC._configure_properties_from_runtime_config` (189-212): Registration
- `KMC.from_config` (215-269): FromConfig
- `KMC.show_project_info` (271-279): not modelled
- `KMC.set_property_frequency` (281-303): Registration
- `KMC.attach` (305-355): Registration
- `KMC.detach` (357-363): Registration
- `KMC.clear_attachments` (365-370): Registration
- `KMC.list_attachments` (372-375): Registration
- `KMC.list_property_calculations` (377-380): Registration
- `KMC.set_property_enabled` (382-388): Registration
- `KMC._configure_tracker_properties` (390-396): not modelled
- `KMC.propose` (398-412): KMC, Shared
- `KMC.update` (415-456): KMC, Overflow, Propose, Shared
- `KMC.run` (458-553): FloatTracker, FromConfig, KMC, LiveCallbacks, Reentrant, Registration, Results, RunFiles, Shared
- `_propose` (556-564): Clock, KMC, Overflow, Propose

## kmcpy/simulator/property.py

- `validate_schedule` (48-57): Config, Property
- `validate_max_records` (61-68): Property
- `should_trigger` (72-89): Clock, Property
- `append_record` (93-99): Property
- `make_property_spec` (116-152): Property, Results
- `describe_property_calculations` (155-178): Property
- `set_property_enabled_flag` (181-195): Property
- `PropertyPlan.__init__` (207-222): Property
- `PropertyPlan.global_interval` (225-227): not modelled
- `PropertyPlan.global_time_interval` (230-232): not modelled
- `PropertyPlan.builtin_enabled` (235-237): not modelled
- `PropertyPlan.set_frequency` (239-247): Property
- `PropertyPlan.attach` (249-273): Property
- `PropertyPlan.detach` (275-279): Property
- `PropertyPlan.clear_attachments` (281-283): Property
- `PropertyPlan.list_attachments` (285-287): Property
- `PropertyPlan.list_property_calculations` (289-294): Property
- `PropertyPlan.set_property_enabled` (296-303): Property
- `PropertyPlan.fresh_attachment_specs` (305-315): Property
- `_is_enabled` (318-322): Transport
- `compute_transport_properties` (325-425): Transport

## kmcpy/simulator/results.py

- `format_tracker_summary` (27-45): not modelled
- `write_tracker_results` (48-80): Results, RunFiles
- `_write_trajectory_arrays` (83-105): Results, RunFiles
- `_write_summary_results` (108-118): Results, RunFiles
- `_write_property_records` (121-131): Results, RunFiles
- `_stored_property_payload` (134-149): Results
- `_to_json_safe` (152-166): Results

## kmcpy/simulator/state.py

- `State.__init__` (22-31): Shared, State
- `State.from_occupations` (34-45): State
- `State._initial_occupation_from_payload` (48-103): State
- `State.from_file` (106-145): Checkpoint, State
- `State.apply_event` (147-155): Clock, State
- `State.copy` (157-163): Shared
- `State.as_dict` (165-173): State
- `State.from_dict` (176-182): State
- `State.save_checkpoint` (184-205): Checkpoint, State
- `State.load_checkpoint` (208-227): Checkpoint, State
- `State.__repr__` (229-231): not modelled

## kmcpy/simulator/tracker.py

- `_create_result_store` (56-58): Results
- `_append_result_row` (62-70): Results
- `Tracker.__init__` (79-124): Reentrant, Registration, Shared, Tracker
- `Tracker._initialize_mobile_ion_tracking` (126-149): Tracker
- `Tracker.occ_initial` (152-154): not modelled
- `Tracker.frac_coords` (157-159): not modelled
- `Tracker.latt` (162-164): not modelled
- `Tracker.volume` (167-169): not modelled
- `Tracker.dimension` (172-174): not modelled
- `Tracker.q` (177-179): not modelled
- `Tracker.elem_hop_distance` (182-184): not modelled
- `Tracker.temperature` (187-189): not modelled
- `Tracker.v` (192-194): not modelled
- `Tracker.time` (197-199): not modelled
- `Tracker.mobile_ion_specie` (202-204): not modelled
- `Tracker.result_units` (207-209): not modelled
- `Tracker.set_global_property_frequency` (211-219): Reentrant, Tracker
- `Tracker.apply_property_plan` (221-242): Tracker
- `Tracker.attach` (244-269): Reentrant, Tracker
- `Tracker.attach_spec` (271-282): Tracker
- `Tracker.detach` (284-289): Reentrant, Tracker
- `Tracker.clear_attachments` (291-294): Reentrant, Tracker
- `Tracker.list_attachments` (296-298): not modelled
- `Tracker.list_property_calculations` (300-305): Property
- `Tracker.set_property_enabled` (307-314): Reentrant, Tracker
- `Tracker._compute_transport_summary` (316-329): KMC, Transport
- `Tracker._sample_transport_summary` (331-344): Reentrant, Tracker
- `Tracker._handle_callback_error` (346-369): LiveCallbacks, Reentrant, Tracker
- `Tracker._latest_property_value` (371-376): Transport
- `Tracker.sample_properties` (378-420): LiveCallbacks, Reentrant, Tracker
- `Tracker.get_property_records` (422-434): Transport
- `Tracker.update` (436-455): FloatTracker, Tracker
- `Tracker._record_mobile_ion_hop` (457-472): Tracker
- `Tracker._wrapped_hop_displacement` (474-481): FloatTracker, Tracker
- `Tracker.update_current_pass` (483-485): not modelled
- `Tracker.show_current_info` (487-505): not modelled
- `Tracker.return_current_info` (507-525): Transport
- `Tracker.write_results` (527-538): Results

## kmcpy/structure/active_site_order.py

- `ActiveSiteOrder.from_lattice_structure` (47-57): not modelled
- `ActiveSiteOrder.from_structure_and_mapping` (60-136): ActiveSiteOrder
- `ActiveSiteOrder.from_dict` (139-169): ActiveSiteOrder
- `ActiveSiteOrder.active_site_count` (172-173): ActiveSiteOrder
- `ActiveSiteOrder.original_to_active` (176-180): ActiveSiteOrder
- `ActiveSiteOrder.primitive_to_active` (183-187): LocalSites
- `ActiveSiteOrder.as_dict` (189-205): ActiveSiteOrder
- `ActiveSiteOrder.assert_same_order` (207-218): ActiveSiteOrder
- `ActiveSiteOrder.validate_active_indices` (220-234): ActiveSiteOrder
- `ActiveSiteOrder.select_active_values` (236-247): ActiveSiteOrder
- `ActiveSiteOrder.full_structure_with_properties` (249-260): Supercell
- `ActiveSiteOrder.active_structure` (262-273): LatticeSupercell, Supercell
- `ActiveSiteOrder.filter_active_structure` (275-326): Features, LatticeSupercell, Supercell
- `_normalize_supercell_shape` (329-339): ActiveSiteOrder
- `_make_supercell_with_properties` (342-368): Supercell
- `_allowed_species_by_site` (371-392): ActiveSiteOrder
- `_normalize_allowed_species` (395-398): ActiveSiteOrder, FromConfig
- `_fingerprint` (401-403): ActiveSiteOrder

## kmcpy/structure/basis.py

- `BasisFunction.__init__` (29-30): Basis, LCE, UserBasis
- `BasisFunction.uses_state_indices` (33-35): Basis, LCE
- `BasisFunction.match_value` (39-41): LCE, UserBasis
- `BasisFunction.mismatch_value` (45-47): LCE, UserBasis
- `BasisFunction.valid_values` (51-53): LCE, UserBasis
- `BasisFunction.basis_function` (57-59): LCE, UserBasis
- `BasisFunction.num_site_basis_functions` (61-63): Basis, LCE
- `BasisFunction.state_value` (65-67): Basis, LCE
- `BasisFunction.site_basis_values` (69-77): Basis, LCE
- `BasisFunction.as_dict` (79-85): LCE, UserBasis
- `BasisFunction.from_dict` (88-112): LCE, UserBasis
- `BasisFunction.flip` (114-116): LCE, UserBasis
- `BasisFunction.convert_to` (118-123): Basis, LCE, UserBasis
- `BasisFunction.__str__` (125-126): LCE
- `register_basis` (129-139): UserBasis
- `OccupationBasis.match_value` (156-158): Basis, UserBasis
- `OccupationBasis.mismatch_value` (161-163): Basis, UserBasis
- `OccupationBasis.vacant_value` (167-169): Basis, UserBasis
- `OccupationBasis.occupied_value` (172-174): Basis, UserBasis
- `OccupationBasis.valid_values` (177-178): Basis, UserBasis
- `OccupationBasis.basis_function` (181-182): Basis, UserBasis
- `OccupationBasis.flip` (184-186): Basis, UserBasis
- `OccupationBasis.is_occupied` (188-190): Basis, UserBasis
- `OccupationBasis.is_vacant` (192-194): Basis, UserBasis
- `OccupationBasis.to_chebyshev` (196-198): Basis, UserBasis
- `OccupationBasis.from_chebyshev` (200-202): Basis, UserBasis
- `ChebyshevBasis.__init__` (215-219): Basis, UserBasis
- `ChebyshevBasis.uses_state_indices` (222-224): Basis, UserBasis
- `ChebyshevBasis.match_value` (227-229): Basis, UserBasis
- `ChebyshevBasis.mismatch_value` (232-234): Basis, UserBasis
- `ChebyshevBasis.occupied_value` (237-239): Basis, UserBasis
- `ChebyshevBasis.vacant_value` (242-244): Basis, UserBasis
- `ChebyshevBasis.valid_values` (247-248): Basis, UserBasis
- `ChebyshevBasis.basis_function` (251-252): Basis, UserBasis
- `ChebyshevBasis.flip` (254-256): Basis, UserBasis
- `ChebyshevBasis.is_occupied` (258-260): Basis, UserBasis
- `ChebyshevBasis.is_vacant` (262-264): Basis, UserBasis
- `ChebyshevBasis.to_occupation` (266-273): Basis, UserBasis
- `ChebyshevBasis.from_occupation` (275-282): Basis, UserBasis
- `ChebyshevBasis.num_site_basis_functions` (284-289): Basis, UserBasis
- `ChebyshevBasis.state_value` (291-293): Basis, UserBasis
- `ChebyshevBasis.site_basis_values` (295-307): Basis, UserBasis
- `ChebyshevBasis.as_dict` (309-312): Basis, UserBasis
- `get_basis` (315-330): Basis, UserBasis
- `Occupation.__init__` (350-375): Basis, UserBasis
- `Occupation._validate` (377-382): Basis, UserBasis
- `Occupation.basis` (385-387): not modelled
- `Occupation.basis_obj` (390-392): not modelled
- `Occupation.data` (395-397): not modelled
- `Occupation.values` (400-402): UserBasis
- `Occupation.__len__` (404-406): not modelled
- `Occupation.__getitem__` (408-417): Basis, UserBasis
- `Occupation.__setitem__` (419-423): Basis, UserBasis
- `Occupation.__iter__` (425-427): UserBasis
- `Occupation.__eq__` (429-433): Basis, UserBasis
- `Occupation.__ne__` (435-437): UserBasis
- `Occupation.equivalent_to` (439-459): Basis, UserBasis
- `Occupation.array_equal` (461-474): UserBasis
- `Occupation.__repr__` (476-478): not modelled
- `Occupation.__str__` (480-482): not modelled
- `Occupation.count_mismatch` (485-487): Basis, UserBasis
- `Occupation.count_match` (489-491): Basis, UserBasis
- `Occupation.count_occupied` (494-496): Basis, UserBasis
- `Occupation.count_vacant` (498-500): Basis, UserBasis
- `Occupation.get_mismatch_indices` (502-504): Basis
- `Occupation.get_match_indices` (506-508): Basis
- `Occupation.get_occupied_indices` (510-512): Basis
- `Occupation.get_vacant_indices` (514-516): Basis
- `Occupation.flip` (518-535): Basis, UserBasis
- `Occupation.flip_inplace` (537-548): Basis
- `Occupation.to_basis` (550-571): Basis, UserBasis
- `Occupation.copy` (573-575): UserBasis
- `Occupation.zeros` (578-596): Basis, UserBasis
- `Occupation.ones` (599-617): Basis, UserBasis
- `Occupation.random` (620-647): Basis

## kmcpy/structure/cluster.py

- `_species_string` (20-30): not modelled
- `_site_coords` (33-37): not modelled
- `_site_distance` (40-47): ModelFile
- `_cluster_type` (50-56): not modelled
- `_json_safe_metadata` (59-74): ClusterIdentity
- `Orbit.__init__` (80-82): ModelFile, OrbitFunction
- `Orbit.attach_cluster` (84-86): ModelFile, OrbitFunction
- `Orbit.get_cluster_function` (88-92): OrbitFunction
- `Orbit.__str__` (94-108): not modelled
- `Orbit.to_xyz` (110-111): not modelled
- `Orbit.show_representative_cluster` (113-123): not modelled
- `Orbit.cluster_site_indices` (126-131): OrbitFunction
- `Orbit.fingerprint` (134-154): ClusterShape, LCE, ModelFile
- `Orbit.as_dict` (156-164): ModelFile
- `Orbit.from_dict` (167-177): ModelFile
- `Cluster.__init__` (188-263): ClusterMatcher, ModelFile
- `Cluster.from_sites` (266-281): ClusterMatcher
- `Cluster.from_neighbor_info` (284-303): ClusterMatcher, GeneratorInputs
- `Cluster.labels` (306-308): ClusterMatcher, ClusterShape
- `Cluster.signature` (311-316): ClusterMatcher
- `Cluster.fingerprint` (319-326): ClusterIdentity
- `Cluster.point_group_symbol` (329-333): not modelled
- `Cluster._build_distance_matrix` (336-342): ModelFile
- `Cluster._build_distance_matrix_from_sites` (345-351): ModelFile
- `Cluster.get_bond_distances` (353-363): ClusterShape
- `Cluster.get_cluster_function` (365-367): OrbitFunction
- `Cluster.to_xyz` (369-373): not modelled
- `Cluster.__eq__` (375-384): ClusterMatcher, ClusterShape, LCE
- `Cluster.__str__` (386-390): not modelled
- `Cluster.as_dict` (392-409): ModelFile
- `Cluster.from_dict` (412-426): ClusterIdentity, ModelFile
- `ClusterMatcher.__init__` (444-452): not modelled
- `ClusterMatcher.match` (454-475): ClusterMatcher
- `ClusterMatcher.ordered_candidate_indices` (477-489): ClusterIdentity
- `ClusterMatcher._validate_signature` (491-496): not modelled
- `ClusterMatcher._matching_permutations` (498-539): ClusterMatcher
- `ClusterMatcher._reference_assignment_order` (541-553): ClusterMatcher, ClusterShape
- `ClusterMatcher._is_partial_distance_match` (555-572): ClusterMatcher
- `ClusterMatcher._nearest_permutation` (574-623): ClusterMatcher
- `ClusterMatcher._build_match` (625-660): ClusterIdentity, ClusterMatcher
- `match_clusters` (663-678): ClusterIdentity

## kmcpy/structure/comparator.py

- `SupercellComparator.are_equal` (10-23): not modelled
- `SupercellComparator.get_hash` (25-27): not modelled

## kmcpy/structure/lattice_structure.py

- `LatticeStructure.__init__` (19-72): Lattice
- `LatticeStructure.get_active_site_order` (74-80): not modelled
- `LatticeStructure.get_active_lattice_structure` (82-91): LatticeSupercell
- `LatticeStructure.get_occ_from_structure` (93-248): EnumeratorTransform, Lattice
- `LatticeStructure._infer_structure_site_mapping` (251-278): Lattice
- `LatticeStructure._species_matches` (281-282): not modelled
- `LatticeStructure._is_vacancy_species` (285-286): not modelled
- `LatticeStructure._species_tokens` (289-290): not modelled
- `LatticeStructure._missing_occupation_value` (292-299): Lattice
- `LatticeStructure.occupation_value_for_species` (301-318): Lattice
- `LatticeStructure.species_for_occupation_value` (320-328): Lattice
- `LatticeStructure.get_structure_from_occ` (330-372): Lattice, LatticeSupercell
- `LatticeStructure.copy` (374-378): Lattice, LatticeSupercell
- `LatticeStructure.make_supercell` (380-391): Lattice, LatticeSupercell
- `LatticeStructure.__str__` (393-398): not modelled
- `LatticeStructure.__repr__` (400-401): not modelled
- `LatticeStructure.as_dict` (403-411): not modelled

## kmcpy/structure/local_environment_enumerator.py

- `enumerate_local_environments` (49-167): Enumerator, EnumeratorTransform
- `generate_neb_endpoint_pair` (170-222): Enumerator
- `enumerate_neb_endpoint_pairs` (225-287): Enumerator, EnvironmentLabel
- `_active_lattice_context` (290-293): not modelled
- `_local_site_indices` (296-344): Enumerator, LocalSites
- `_is_center_site` (347-357): Enumerator, LocalSites
- `_normalize_exclude_species` (360-371): Enumerator
- `_base_occupation` (374-395): Enumerator
- `_resolve_variable_site_indices` (398-429): Enumerator
- `_allowed_choices` (432-451): Enumerator
- `_enumerate_with_transformation` (454-515): EnumeratorTransform
- `_build_disordered_structure` (518-551): EnumeratorTransform
- `_partial_species_entry` (554-559): EnumeratorTransform
- `_iter_transformed_structures` (562-576): EnumeratorTransform
- `_build_enumeration` (579-601): Enumerator, EnvironmentLabel
- `_ordered_endpoint_structures` (604-654): Enumerator
- `_structure_from_active_occupation` (657-677): Enumerator
- `_periodic_site_from_site` (680-687): not modelled
- `_periodic_site_from_template` (689-701): not modelled
- `_occupation_from_local_environment_enumeration` (704-717): Enumerator
- `_mobile_ion_indices` (720-724): not modelled
- `_species_by_site` (727-737): EnumeratorTransform
- `_species_for_occupation` (740-745): not modelled
- `_occupation_value_for_species` (748-753): not modelled
- `_first_allowed_species` (756-760): Enumerator
- `_matches_counts` (763-769): Enumerator
- `_canonical_counts` (772-775): Enumerator
- `_environment_label` (778-784): EnvironmentLabel
- `_validate_site_index` (787-789): Enumerator
- `_species_equivalent` (792-793): Enumerator
- `_species_matches_token` (796-797): Enumerator
- `_species_label` (800-801): not modelled
- `_species_token_label` (804-805): not modelled
- `_species_tokens` (808-809): not modelled
- `_is_vacancy` (812-813): not modelled

## kmcpy/structure/local_lattice_structure.py

- `LocalLatticeStructure.__init__` (37-120): LocalSites
- `LocalLatticeStructure._normalize_exclude_species` (124-136): not modelled
- `LocalLatticeStructure._is_center_site` (138-147): LocalSites
- `LocalLatticeStructure.sort_neighbor_info` (150-158): LocalSites
- `LocalLatticeStructure.ordered_neighbor_info_from_finder` (161-173): not modelled
- `LocalLatticeStructure.to_cluster` (175-180): LocalSites
- `LocalLatticeStructure.match_with_reference` (182-224): LocalSites
- `LocalLatticeStructure.get_environment_signature` (226-228): not modelled
- `LocalLatticeStructure.get_ordered_site_signature` (230-232): not modelled
- `LocalLatticeStructure.get_ordered_site_hash` (234-236): not modelled
- `LocalLatticeStructure.is_equivalent_to` (238-263): LocalSites
- `LocalLatticeStructure.from_lattice_structure` (266-299): not modelled

## kmcpy/structure/local_site_order.py

- `LocalSiteOrder.from_name` (52-65): LocalSites
- `LocalSiteOrder.from_dict` (68-88): LocalSites
- `LocalSiteOrder.resolve` (91-107): LocalSites
- `LocalSiteOrder.with_exclude_center_site` (109-118): LocalSites
- `LocalSiteOrder.as_dict` (120-129): LocalSites
- `LocalSiteOrder.sort_local_env_sites` (131-133): LocalSites
- `LocalSiteOrder._sort_key` (135-150): LocalSites, ModelFile
- `ordered_site_signature` (153-167): LocalSites, ModelFile
- `ordered_site_hash` (170-173): ModelFile

## kmcpy/structure/neighbors.py

- `prepare_cutoff_neighbor_lookup` (16-27): Neighbors
- `_neighbor_base_info` (30-36): Generator, Neighbors
- `_copy_kmc_site_metadata` (39-50): Generator, Neighbors
- `get_cutoff_neighbor_info` (53-74): Neighbors
- `prepare_range_cutoff_neighbor_lookup` (77-98): Neighbors
- `get_range_cutoff_neighbor_info` (101-127): Neighbors
- `prepare_range_cutoff_neighbor_lookup_from_preset` (130-135): Neighbors

## kmcpy/structure/sites.py

- `structure_from_sites` (15-54): Supercell
- `find_site_by_wyckoff_sequence_and_label` (57-77): Cif
- `find_site_by_wyckoff_sequence_label_and_supercell` (80-103): Cif
- `make_kmc_supercell` (106-150): ActiveSiteOrder, Supercell
- `kmc_info_key` (153-165): not modelled
- `site_index_key` (168-180): Supercell
- `build_site_index` (183-208): Supercell

## kmcpy/structure/species.py

- `vacancy_species` (13-15): Lattice
- `is_vacancy_species` (18-23): Lattice
- `normalize_species` (26-32): Lattice
- `species_tokens` (35-46): Lattice
- `species_label` (49-58): Lattice
- `species_equivalent` (61-63): Lattice

## kmcpy/tools/gather_kmc_data.py

- `search_string_list` (19-25): Tools
- `gather_data` (28-47): RunFiles, Tools

## kmcpy/tools/gather_mc_data.py

- `generate_supercell` (13-30): Tools
- `gather_data` (33-53): not modelled
- `isExist` (56-63): Tools
- `get_occ` (75-93): Tools
- `_get_occ` (97-120): Tools
- `rnd` (124-127): Tools
- `norm` (131-135): Tools

## kmcpy/tools/get_data.py

- `compute_chemical_diffusivity` (14-15): Tools
- `fit_theta` (18-22): not modelled
- `calc_transport_properties` (25-48): Tools
- `collect_transport_data` (51-86): TransportTable
- `main` (89-138): not modelled

## kmcpy/units.py

- `unit_for` (82-84): not modelled
