{"id": "C01", "title": "A proposed event is always one of the library's events and is never a forbidden one", "statement": "Whenever the rates are non-negative and their total is positive, KMC.propose returns an event index inside the event list, and the rate of that event is strictly positive; this holds for floating-point arithmetic with any monotone rounding, not only for exact numbers.", "quantifier": "every list of non-negative rates with positive total, every uniform variate r1 in [0,1), every monotone rounding", "why_tests_cant": "The bad cases are boundary values of a continuous variate against an arbitrary cumulative table; a test samples finitely many of both.", "anchors": ["kmcpy/simulator/kmc.py:_propose", "kmcpy/simulator/kmc.py:KMC.propose"]}
{"id": "C02", "title": "Events are selected with probability proportional to their rate", "statement": "The set of variates r1 for which event i is selected is exactly the half-open interval from (sum of earlier rates)/total to (sum of rates up to and including i)/total, whose length is rate_i/total; the intervals of all events tile [0,1).", "quantifier": "every rate list, every index, every r1", "why_tests_cant": "Statistical tests only estimate the selection probability; the claim is about every point of the unit interval.", "anchors": ["kmcpy/simulator/kmc.py:_propose"]}
{"id": "C03", "title": "Waiting times are non-negative and follow the exponential law of the total rate", "statement": "For a positive total rate K and a variate u in (0,1) the time increment is non-negative (positive unless u=1) and exceeds t exactly when u < exp(-K t).", "quantifier": "every positive total rate, every variate in (0,1), every t >= 0", "why_tests_cant": "A distributional identity over a continuum of variates and rates.", "anchors": ["kmcpy/simulator/kmc.py:_propose"]}
{"id": "C04", "title": "A frozen system is reported, never advanced", "statement": "If every rate is zero then proposing an event raises and no event index or time increment is returned, so the run stops with the state it had.", "quantifier": "every event library whose rates are all zero, every pair of variates", "why_tests_cant": "Requires the claim for every such table, and for the state at whatever step of whatever history the system freezes.", "anchors": ["kmcpy/simulator/kmc.py:_propose", "kmcpy/simulator/kmc.py:KMC.run"]}
{"id": "C05", "title": "Any history of events conserves the composition", "statement": "After any sequence of events applied through State.apply_event / KMC.update the occupation vector is a permutation of the initial one (same length, same number of sites in each state).", "quantifier": "every initial occupation vector, every finite sequence of events with in-range endpoints", "why_tests_cant": "Needs an induction over unbounded histories.", "anchors": ["kmcpy/simulator/state.py:State.apply_event", "kmcpy/simulator/kmc.py:KMC.update"]}
{"id": "C06", "title": "Step and time accounting of a run", "statement": "After a run of e equilibration passes and p production passes with n mobile ions, the step counter has grown by exactly (e+p)*n and the time by exactly the sum of the production waiting times; equilibration adds no time, and time never decreases.", "quantifier": "every configuration, every random stream, every rate model with non-negative waiting times", "why_tests_cant": "Quantifies over all pass counts and all random streams.", "anchors": ["kmcpy/simulator/kmc.py:KMC.run", "kmcpy/simulator/state.py:State.apply_event"]}
{"id": "C07", "title": "One event changes exactly its two endpoint sites, and undoing it restores the state", "statement": "Applying an event exchanges the occupations of its two endpoints, leaves every other site untouched, and applying the same event again restores the occupations; if an endpoint is out of range the call raises and the state (occupations, time, step) is unchanged.", "quantifier": "every state, every event including those with negative or out-of-range endpoints", "why_tests_cant": "Claim about all indices and all vectors, including the failure path.", "anchors": ["kmcpy/simulator/state.py:State.apply_event"]}
{"id": "C08", "title": "The incrementally updated rate table always equals the table recomputed from scratch", "statement": "If the rate of an event depends only on the occupations of the sites the event lists, and the event dependencies were generated for the library, then after any history of executed events every entry of the rate list equals the rate computed afresh for the current occupations, and the cumulative table is its running sum.", "quantifier": "every event library (duplicates allowed), every local rate model, every history", "why_tests_cant": "A stale entry only appears after particular histories in particular overlap patterns.", "anchors": ["kmcpy/simulator/kmc.py:KMC.update", "kmcpy/event/base.py:EventLib.get_dependent_events", "kmcpy/event/base.py:EventLib.generate_event_dependencies"]}
{"id": "C09", "title": "The precondition of the incremental update is necessary", "statement": "Without generated dependencies, with dependencies that predate an added event, or with a model that reads sites outside the event, the rate table can become stale although no error is raised (this is a documented disagreement with what a user expects).", "quantifier": "existence of a library, a model and a one-event history", "why_tests_cant": "Shows that the hypotheses of C08 cannot be dropped; tests on well-formed fixtures never reach it.", "anchors": ["kmcpy/simulator/kmc.py:KMC.update", "kmcpy/event/base.py:EventLib.add_event", "kmcpy/event/base.py:EventLib.get_dependent_events"]}
{"id": "C10", "title": "Event dependencies are exactly the overlapping events", "statement": "After generate_event_dependencies, event j is listed as dependent on event i exactly when the two events share at least one site (endpoint or local environment); the relation is symmetric, every event with a site depends on itself, and each list is strictly increasing.", "quantifier": "every event library, every pair of events", "why_tests_cant": "The two-pointer intersection of sorted arrays must be right for all arrays.", "anchors": ["kmcpy/event/base.py:_generate_event_dependency_matrix", "kmcpy/event/base.py:_arrays_intersect", "kmcpy/event/base.py:EventLib.generate_event_dependencies"]}
{"id": "C11", "title": "Event library queries and serialisation agree with the events added", "statement": "After any sequence of add_event calls the site query returns exactly the indices of the events that involve the site; as_dict followed by from_dict gives an equal library (events, dependencies, metadata); an index outside the library has no dependents.", "quantifier": "every sequence of added events, every site, every metadata", "why_tests_cant": "Round-trip and query laws over arbitrary libraries.", "anchors": ["kmcpy/event/base.py:EventLib.add_event", "kmcpy/event/base.py:EventLib.get_events_involving_site", "kmcpy/event/base.py:EventLib.as_dict", "kmcpy/event/base.py:EventLib.from_dict"]}
{"id": "C12", "title": "Hop direction is decided by the occupations of the two endpoints alone", "statement": "The direction is +1 exactly when the from-site is in its mobile state and the to-site in its vacant state, -1 exactly in the mirrored case and 0 otherwise (mobile/mobile, vacant/vacant, foreign species or a site that cannot host the ion).", "quantifier": "every event, every occupation vector, every set of per-site state codes", "why_tests_cant": "Decision table over unbounded codes and occupations.", "anchors": ["kmcpy/event/hop.py:endpoint_direction_from_codes", "kmcpy/event/hop.py:event_direction", "kmcpy/event/hop.py:HopStateLookup"]}
{"id": "C13", "title": "Executing a hop reverses its direction", "statement": "When the two endpoints use the same state numbers for mobile ion and vacancy, executing an event of direction d (+1 or -1) leaves a state in which the same event has direction -d, so every executed hop can be undone.", "quantifier": "every event, every occupation vector in which the event is allowed", "why_tests_cant": "Over all occupation vectors and codes.", "anchors": ["kmcpy/event/hop.py", "kmcpy/simulator/state.py:State.apply_event"]}
{"id": "C14", "title": "A hop moves the mobile species and conserves every species", "statement": "Executing an allowed hop moves the mobile ion from one endpoint to the other, so the number of sites carrying each chemical species is unchanged by any history of hops.", "quantifier": "every site mapping (any order and number of allowed species per site), every history of allowed hops", "why_tests_cant": "Depends on how each site numbers its allowed species; fixtures use one uniform mapping.", "anchors": ["kmcpy/event/hop.py:HopStateLookup.from_active_site_order", "kmcpy/simulator/state.py:State.apply_event"]}
{"id": "C15", "title": "The tracker always knows where every mobile ion is", "statement": "After any history, the list of tracked ion positions contains no duplicates and is exactly the set of sites whose occupation is the mobile state; the tracker's internal consistency error can never be raised.", "quantifier": "every initial state, every history of proposed events", "why_tests_cant": "Invariant over unbounded histories.", "anchors": ["kmcpy/simulator/tracker.py:Tracker._initialize_mobile_ion_tracking", "kmcpy/simulator/tracker.py:Tracker.update", "kmcpy/simulator/tracker.py:Tracker._record_mobile_ion_hop"]}
{"id": "C16", "title": "Hop counters count hops", "statement": "The sum of the per-ion hop counters equals the number of executed events with non-zero direction, each hop increments exactly one ion's counter by one, and counters of other ions do not change.", "quantifier": "every history", "why_tests_cant": "Invariant over unbounded histories.", "anchors": ["kmcpy/simulator/tracker.py:Tracker._record_mobile_ion_hop"]}
{"id": "C17", "title": "Accumulated displacement is the unwrapped trajectory of each ion", "statement": "At any time an ion's initial position plus its accumulated displacement equals the position of the site it now occupies up to an integer combination of the supercell lattice vectors.", "quantifier": "every lattice, every site arrangement, every history", "why_tests_cant": "Induction over histories with real coordinates.", "anchors": ["kmcpy/simulator/tracker.py:Tracker._wrapped_hop_displacement", "kmcpy/simulator/tracker.py:Tracker._record_mobile_ion_hop"]}
{"id": "C18", "title": "Each hop displacement is the minimum-image vector and reverses with the hop", "statement": "Every fractional component of a hop displacement lies in [-1/2,1/2] and differs from the coordinate difference by an integer; the displacement of the reverse hop is exactly the negative, so a hop followed by its reverse adds nothing.", "quantifier": "every pair of fractional coordinates, including ties at one half", "why_tests_cant": "Ties and arbitrary real coordinates.", "anchors": ["kmcpy/simulator/tracker.py:Tracker._wrapped_hop_displacement"]}
{"id": "C19", "title": "Sampling never changes the trajectory", "statement": "Two runs that start from the same state, rates and random stream and differ only in property plan (callbacks, intervals, enabled flags, built-in toggles) visit the same states at the same times, provided callbacks do not mutate the state.", "quantifier": "every pair of property plans, every random stream, every history", "why_tests_cant": "Non-interference is a two-run property over all plans.", "anchors": ["kmcpy/simulator/kmc.py:KMC.run", "kmcpy/simulator/tracker.py:Tracker.sample_properties"]}
{"id": "C20", "title": "A step-interval property fires exactly on the multiples of its interval", "statement": "An enabled property with step interval k and no time interval (neither its own nor a plan-wide one) is sampled at step n (n>=1) exactly when k divides n, in every run, whatever happened before.", "quantifier": "every interval, every step, every history of sampling times", "why_tests_cant": "Over all runs and lengths.", "anchors": ["kmcpy/simulator/property.py:should_trigger", "kmcpy/simulator/tracker.py:Tracker.sample_properties"]}
{"id": "C21", "title": "A time-interval property fires at the first opportunity and never more often than its interval", "statement": "For a property with only a time interval tau the first sample is taken at the first time >= tau, and consecutive samples are at least tau apart, and no opportunity with at least tau since the previous sample is missed.", "quantifier": "every non-decreasing sequence of simulation times", "why_tests_cant": "Over all time sequences.", "anchors": ["kmcpy/simulator/property.py:should_trigger", "kmcpy/simulator/tracker.py:Tracker.sample_properties"]}
{"id": "C22", "title": "Stored records are the most recent ones in order", "statement": "After any sequence of samples a property with max_records m keeps exactly the last min(m,n) records in order of sampling, and without a limit it keeps all n.", "quantifier": "every record sequence, every positive limit", "why_tests_cant": "Induction over record sequences.", "anchors": ["kmcpy/simulator/property.py:append_record"]}
{"id": "C23", "title": "Property registration keeps names unique and never shadows a built-in", "statement": "Over any sequence of attach, detach, enable/disable and clear operations the attached property names are pairwise distinct and none is a reserved built-in name; a rejected operation leaves the plan unchanged; detach after attach restores the plan.", "quantifier": "every sequence of operations, accepted or rejected", "why_tests_cant": "Operation-sequence invariant.", "anchors": ["kmcpy/simulator/property.py:PropertyPlan", "kmcpy/simulator/property.py:make_property_spec"]}
{"id": "C24", "title": "A disabled property produces nothing and influences nothing else", "statement": "A disabled callback is never called and stores no record; switching a built-in property off makes its own value NaN and leaves the value of every other built-in property unchanged.", "quantifier": "every set of enabled flags, every tracker content", "why_tests_cant": "All 2^6 flag sets times all data.", "anchors": ["kmcpy/simulator/property.py:compute_transport_properties", "kmcpy/simulator/tracker.py:Tracker.sample_properties"]}
{"id": "C25", "title": "Transport summaries are well defined exactly when time has passed and ions exist", "statement": "The mean squared displacement is NaN exactly when there is no mobile ion; diffusivities and conductivity are NaN exactly when no time has elapsed or there is no mobile ion; otherwise they are the stated formulas and non-negative; the jump diffusivity never exceeds N times the tracer diffusivity.", "quantifier": "every displacement table, every time, every dimension, volume, charge and temperature", "why_tests_cant": "Real-valued inequality (Cauchy-Schwarz) over all tables.", "anchors": ["kmcpy/simulator/property.py:compute_transport_properties"]}
{"id": "C26", "title": "Haven ratio and correlation factor obey their definitions", "statement": "The Haven ratio is tracer over jump diffusivity whenever the latter is non-zero (in particular 1 for a single ion that moved) and NaN otherwise; the correlation factor is zero for an unmoved system, equals the mean number of hops per ion when every ion moves straight by hops of the elementary distance (so 1 after one hop each), and never exceeds the mean number of hops per ion when no hop is longer than the elementary distance.", "quantifier": "every displacement and hop-count table; every finished run for the bound", "why_tests_cant": "Real-valued identity over all tables.", "anchors": ["kmcpy/simulator/property.py:compute_transport_properties"]}
{"id": "C27", "title": "Configuration keywords are routed to exactly one section and unknown ones are rejected", "statement": "Every keyword accepted by Configuration lands in exactly one of the system and runtime sections, keeps its value there, and any keyword outside both lists raises; no keyword is silently dropped.", "quantifier": "every keyword set", "why_tests_cant": "Over all keyword sets including adversarial ones.", "anchors": ["kmcpy/simulator/config.py:Configuration.__init__"]}
{"id": "C28", "title": "A constructed configuration is always physically valid", "statement": "Whenever constructing or modifying a configuration succeeds, temperature and attempt frequency are positive, pass counts are in range, the dimension is 1, 2 or 3 and the supercell shape has three entries; invalid values raise.", "quantifier": "every set of values, every chain of with_*_changes calls", "why_tests_cant": "Invariant over all construction paths.", "anchors": ["kmcpy/simulator/config.py:RuntimeConfig", "kmcpy/simulator/config.py:SystemConfig"]}
{"id": "C29", "title": "Configuration dictionaries and files round-trip", "statement": "from_dict(as_dict(c, include_loader_paths=True)) reproduces every field of c, the supercell shape coming back as a list with the same entries (so exactly c when the shape was a list, and any further round trip changes nothing); the record form without paths reproduces every field but the path fields, which return to their defaults; a JSON or YAML file does the same with tuples read back as lists.", "quantifier": "every configuration reachable through the API, both dictionary forms", "why_tests_cant": "All field values and construction histories.", "anchors": ["kmcpy/simulator/config.py:Configuration.as_dict", "kmcpy/simulator/config.py:Configuration.from_dict", "kmcpy/simulator/config.py:Configuration.to", "kmcpy/simulator/config.py:Configuration.from_file"]}
{"id": "C30", "title": "State files and checkpoints round-trip", "statement": "Saving a state and loading it back yields the same occupations, time and step for the dictionary form and for .json and .h5 checkpoints (except a file named exactly .json, which cannot be read back), touches no other file, and the JSON form can also be reused as an initial state for the same active-site order.", "quantifier": "every state, path and file system", "why_tests_cant": "All occupation vectors, times, steps and path names.", "anchors": ["kmcpy/simulator/state.py:State.as_dict", "kmcpy/simulator/state.py:State.from_dict", "kmcpy/simulator/state.py:State.save_checkpoint", "kmcpy/simulator/state.py:State.load_checkpoint", "kmcpy/simulator/state.py:State.from_file"]}
{"id": "C31", "title": "Local barrier rules: the first matching rule decides", "statement": "The barrier of an event is that of the earliest rule in insertion order that matches the event and state; if none matches it is the default, and without a default the call raises; adding rules after a matching one never changes the result.", "quantifier": "every rule list, event and state", "why_tests_cant": "Over all rule lists.", "anchors": ["kmcpy/models/local_barrier_model.py:LocalBarrierModel._matched_properties", "kmcpy/models/local_barrier_model.py:LocalBarrierModel.compute"]}
{"id": "C32", "title": "Local barrier rules match exactly the environments they describe", "statement": "An exact-occupation rule matches iff the selected sites carry the listed occupations; a count rule matches iff the number of selected sites in each listed state satisfies its constraint, independent of the order in which sites are listed; event constraints restrict the endpoints as stated.", "quantifier": "every rule, event and occupation vector", "why_tests_cant": "Over all rules and environments.", "anchors": ["kmcpy/models/local_barrier_model.py:LocalBarrierModel._rule_matches", "kmcpy/models/local_barrier_model.py:_count_matches"]}
{"id": "C33", "title": "Local barrier rules survive serialisation", "statement": "For every model with the supported probability mode, however it was built (construction, successful and failed add_rule and build calls), as_dict followed by from_dict, directly or through a JSON file, gives a model with the same rules in the same order, the same default, species table and duplicate keys, so every event gets the same barrier. A model constructed without rules and with another probability mode can be written but not read.", "quantifier": "every history of constructor, add_rule and build calls", "why_tests_cant": "Round trip over all rules of all kinds and all call histories.", "anchors": ["kmcpy/models/local_barrier_model.py:LocalBarrierModel.as_dict", "kmcpy/models/local_barrier_model.py:LocalBarrierModel.from_dict", "kmcpy/models/local_barrier_model.py:LocalBarrierModel.build"]}
{"id": "C34", "title": "Rates are non-negative and vanish exactly for forbidden hops", "statement": "For every rate model the probability of an event is non-negative; it is zero when the hop direction is zero and strictly positive otherwise.", "quantifier": "every event, state, temperature > 0 and attempt frequency > 0", "why_tests_cant": "Over all states.", "anchors": ["kmcpy/models/local_barrier_model.py:LocalBarrierModel.compute_probability", "kmcpy/models/composite_lce_model.py:CompositeLCEModel.compute_probability"]}
{"id": "C35", "title": "Rates follow the Arrhenius law", "statement": "Lower barriers give strictly larger rates, the rate scales linearly with the attempt frequency, tends to increase with temperature for positive barriers, and the ratio of two rates is exp of the barrier difference over kT.", "quantifier": "every pair of barriers, temperatures, frequencies", "why_tests_cant": "Real-valued monotonicity.", "anchors": ["kmcpy/models/local_barrier_model.py:LocalBarrierModel.compute_probability", "kmcpy/models/composite_lce_model.py:CompositeLCEModel.compute_probability"]}
{"id": "C36", "title": "Cluster-expansion barriers depend only on the event's local environment and are linear in the coefficients", "statement": "The barrier of an event is empty_cluster plus the inner product of fitted coefficients with cluster correlations evaluated on the occupations of the event's local environment; changing any other site never changes it, and it does not depend on the order of clusters in an orbit.", "quantifier": "every model, event and occupation vector", "why_tests_cant": "Over all occupation vectors and orbit orders.", "anchors": ["kmcpy/models/local_cluster_expansion.py:LocalClusterExpansion.compute", "kmcpy/models/local_cluster_expansion.py:_calc_corr"]}
{"id": "C37", "title": "Orbits partition the clusters", "statement": "Building orbits puts every cluster in exactly one orbit, every orbit's clusters are equivalent to its representative, and no orbit is empty.", "quantifier": "every cluster list, every equivalence test", "why_tests_cant": "Over all cluster lists.", "anchors": ["kmcpy/models/local_cluster_expansion.py:LocalClusterExpansion.build_orbits"]}
{"id": "C38", "title": "Mismatched fitted parameters are rejected", "statement": "Setting parameters whose coefficient count or orbit fingerprints disagree with the model's orbits raises and leaves the model's parameters unchanged; accepted parameters have one coefficient per correlation term.", "quantifier": "every model and parameter set", "why_tests_cant": "Over all parameter sets.", "anchors": ["kmcpy/models/local_cluster_expansion.py:LocalClusterExpansion.set_parameters", "kmcpy/models/local_cluster_expansion.py:LocalClusterExpansion._validate_parameter_orbits"]}
{"id": "C39", "title": "Composite rates satisfy detailed balance", "statement": "With a kinetically resolved barrier that does not see the endpoints of the hop, the forward over the backward rate equals exp(-(site-energy difference)/kT). If the site model reports differences of a configuration energy (in particular an external calculator that returns differences of an energy of the external occupation), the Boltzmann weights satisfy detailed balance and, along every sequence of hops, the product of forward over backward rates is exp(-(E_end - E_start)/kT), hence 1 on every loop.", "quantifier": "every pair of states related by a hop, every sequence of hops, every such site-energy model, temperature and positive frequency", "why_tests_cant": "Relates two rates in two states and products along arbitrary paths.", "anchors": ["kmcpy/models/composite_lce_model.py:CompositeLCEModel.compute_probability", "kmcpy/models/composite_lce_model.py:CompositeLCEModel._compute_site_energy_difference", "kmcpy/models/site_energy.py:SiteEnergyModel.compute"]}
{"id": "C40", "title": "The external site-energy model sees exactly the current configuration", "statement": "After initialisation and any history of executed events, the occupation held for the external energy calculator shows at every mapped site the value of its current state and the untouched background elsewhere, and it equals entry by entry the one a newly initialised model builds from the current state. The change set passed for a proposed hop lists exactly the endpoints whose value would change, with their old and new values; putting them into the held occupation gives the occupation after the hop.", "quantifier": "every site mapping with distinct external sites, every state mapping whose values the array type can hold (automatic without mappings of single sites), every history", "why_tests_cant": "Mirror invariant over histories.", "anchors": ["kmcpy/models/site_energy.py:SiteEnergyModel.initialize_state", "kmcpy/models/site_energy.py:SiteEnergyModel.apply_event", "kmcpy/models/site_energy.py:SiteEnergyModel.compute"]}
{"id": "C41", "title": "Active-site numbering is a consistent bijection", "statement": "The active and fixed sites partition the structure, active indices are numbered 0..n-1 in increasing original order, original-to-active and active-to-original are mutually inverse, and selecting active values keeps exactly the active entries in order.", "quantifier": "every structure and site mapping", "why_tests_cant": "Over all structures.", "anchors": ["kmcpy/structure/active_site_order.py:ActiveSiteOrder.from_structure_and_mapping", "kmcpy/structure/active_site_order.py:ActiveSiteOrder.select_active_values"]}
{"id": "C42", "title": "Event files with indices that do not fit the structure are rejected", "statement": "If validation of an event library against an active-site order succeeds then every index in every event is a valid active index, so no later occupation lookup can fail or wrap around; any index outside raises.", "quantifier": "every library and site order", "why_tests_cant": "Over all libraries, including negative indices.", "anchors": ["kmcpy/structure/active_site_order.py:ActiveSiteOrder.validate_active_indices", "kmcpy/event/base.py:EventLib.validate_index_metadata"]}
{"id": "C43", "title": "Periodic wrapping of supercell indices is exact arithmetic modulo the supercell", "statement": "normalize_supercell_tuple returns a cell inside the supercell that differs from the requested cell by whole supercell translations, is idempotent, and commutes with translations.", "quantifier": "every supercell shape, every integer image", "why_tests_cant": "Over all integers.", "anchors": ["kmcpy/event/generators.py:normalize_supercell_tuple"]}
{"id": "C44", "title": "The supercell site index is a bijection", "statement": "The (primitive site, cell) keys of a supercell are pairwise distinct, number primitive sites times cells, and the index built from them is the inverse of the site list.", "quantifier": "every primitive structure and supercell shape", "why_tests_cant": "Over all shapes.", "anchors": ["kmcpy/structure/sites.py:make_kmc_supercell", "kmcpy/structure/sites.py:build_site_index"]}
{"id": "C45", "title": "Generated events are well formed and translation invariant", "statement": "Every event generated for a supercell has endpoints and environment indices that are valid site indices, and translating all cells maps the generated event set to itself.", "quantifier": "every primitive neighbour table and supercell shape", "why_tests_cant": "Over all shapes and neighbour tables.", "anchors": ["kmcpy/event/generators.py:EventGenerator.generate_events"]}
{"id": "C46", "title": "Binary occupation encodings convert losslessly", "statement": "Converting a two-state occupation vector between the 'occupation' encoding (1 = template species) and the two-state 'chebyshev' encoding (0 = template species) and back is the identity and keeps the same sites occupied; flipping changes exactly the listed sites, flipping twice is the identity and flipping commutes with conversion; counts and index lists describe the occupied sites; vectors with values outside the encoding are rejected on construction. (A third state is lost by conversion, and a rejected item assignment leaves the invalid value in place: both proved.)", "quantifier": "every occupation vector, list of indices and pair of binary encodings", "why_tests_cant": "Over all vectors, index lists and invalid values.", "anchors": ["kmcpy/structure/basis.py:OccupationBasis", "kmcpy/structure/basis.py:ChebyshevBasis", "kmcpy/structure/basis.py:Occupation"]}
{"id": "C47", "title": "Site basis functions of multi-state sites are bounded, complete and tell the states apart", "statement": "For a site with q states the Chebyshev basis has q-1 functions with values in [-1,1]; different states have different values; and every real function of the state is a constant plus a combination of these functions in exactly one way.", "quantifier": "every q >= 2, state and real function of the state", "why_tests_cant": "Over all q and functions.", "anchors": ["kmcpy/structure/basis.py:ChebyshevBasis.site_basis_values"]}
{"id": "C48", "title": "Species and occupation values convert both ways", "statement": "On every site the occupation value of an allowed species maps back to that species, the value is in range, and a species that is not allowed is rejected. All names of a vacancy in the mapping are the same, texts are what is read in them, and of several keys for one species the last one decides; labels carry no oxidation state.", "quantifier": "every site mapping", "why_tests_cant": "Over all mappings.", "anchors": ["kmcpy/structure/lattice_structure.py:LatticeStructure.occupation_value_for_species", "kmcpy/structure/lattice_structure.py:LatticeStructure.species_for_occupation_value"]}
{"id": "C49", "title": "Local environment matching returns only distance-preserving relabellings", "statement": "Matching two environments with the default options succeeds exactly when some bijection keeps labels and all pairwise distances within tolerance, and the returned assignment is such a bijection with its inverse and the site indices in reference order; uniqueness is reported truthfully and can be required; the order in which the candidate lists its sites does not change a unique result; when nothing matches, the fallback returns a label-preserving bijection of least total deviation.", "quantifier": "every pair of environments of any size with symmetric distances, every tolerance and option", "why_tests_cant": "Backtracking search over factorially many assignments.", "anchors": ["kmcpy/structure/cluster.py:ClusterMatcher.match", "kmcpy/structure/cluster.py:ClusterMatcher._matching_permutations", "kmcpy/structure/cluster.py:ClusterMatcher._nearest_permutation", "kmcpy/structure/cluster.py:Cluster.__eq__"]}
{"id": "C50", "title": "Local environment enumeration is complete and duplicate free", "statement": "Enumerating the occupations of the variable sites yields every assignment of allowed species satisfying the composition counts exactly once, in a fixed order, and the result limit only truncates.", "quantifier": "every site list, allowed species lists, count constraint and limit", "why_tests_cant": "Combinatorial completeness over all sizes.", "anchors": ["kmcpy/structure/local_environment_enumerator.py"]}
{"id": "C51", "title": "Cutoff lookup is symmetric and unambiguous", "statement": "The neighbour cutoff for a pair of species does not depend on the order of the pair, pairs without an entry use the default rule, and the strict inequality decides boundary distances.", "quantifier": "every cutoff table, every species pair, every distance", "why_tests_cant": "Over all tables.", "anchors": ["kmcpy/structure/neighbors.py"]}
{"id": "C52", "title": "Fitted-parameter histories keep their order and content", "statement": "A fitted-parameter record saved to a text or HDF5 file and loaded again has the same fitted fields. Appending parameter sets and saving then loading a history returns the same sets in the same order, over any number of fits; a fit that fails leaves the recorded history as it was.", "quantifier": "every record, history length, file form and sequence of fits", "why_tests_cant": "The failing lengths exceed those used in tests.", "anchors": ["kmcpy/models/parameters.py:LCEModelParameters", "kmcpy/models/parameters.py:LCEModelParamHistory", "kmcpy/models/fitting/fitter.py:LCEFitter.fit"]}
{"id": "C53", "title": "Undoing feature normalisation does not change predictions", "statement": "The coefficients and intercept returned by the normalised fit give, for every input row, the same prediction as the normalised regression it solved; the features it was given have weighted mean zero and unit norm, or vanish; the weighted residuals add up to zero; and if the solver is exact, the returned coefficients minimise the weighted error plus scaled penalty on the original data.", "quantifier": "every design matrix (constant columns included), weight vector and regression result", "why_tests_cant": "Algebraic identity and optimality over all matrices.", "anchors": ["kmcpy/models/fitting/fitter.py:LCEFitter._fit_lasso_values"]}
{"id": "C54", "title": "The fitting data set stays rectangular", "statement": "Over any sequence of additions, successful or rejected, all stored entries have occupation vectors of one length and correlation vectors of one length, and a rejected addition leaves the stored data as it was. The correlation matrix, targets and weights handed to the fit have one row per stored entry, in order, each row holding the features and value of its own structure.", "quantifier": "every sequence of calls, model, reference, structure and outcome", "why_tests_cant": "Operation-sequence invariant, with entry objects shared between the user and the loader.", "anchors": ["kmcpy/io/neb/data.py:NEBDataLoader.add", "kmcpy/io/neb/data.py:NEBDataLoader.add_structure", "kmcpy/io/neb/data.py:NEBDataLoader.add_structures", "kmcpy/io/neb/data.py:NEBDataLoader.from_structures", "kmcpy/io/neb/data.py:NEBDataLoader.write_fitting_inputs"]}
{"id": "C55", "title": "Runs are deterministic and compose", "statement": "For a fixed random stream a run is a function of the initial state, and running m steps and then n more from the reached state gives the same result as m+n steps.", "quantifier": "every state, stream, m and n", "why_tests_cant": "Over all lengths.", "anchors": ["kmcpy/simulator/kmc.py:KMC.run"]}
{"id": "C56", "title": "The property plan and the running tracker stay in step", "statement": "Whatever registration calls a user makes before, during and after runs, the tracker of the simulation has the same attached names, callbacks, intervals, limits and switches as the plan, and record lists for exactly the attached names; a rejected call changes neither; every new run starts with empty records.", "quantifier": "every sequence of registration calls, run starts and samples", "why_tests_cant": "Invariant of two copies of the same registration over all call sequences.", "anchors": ["kmcpy/simulator/kmc.py:KMC.attach", "kmcpy/simulator/kmc.py:KMC.detach", "kmcpy/simulator/tracker.py:Tracker.apply_property_plan"]}
{"id": "C57", "title": "A default run reports one transport row per pass", "statement": "With no global frequency set, the built-in summary table of a run has exactly one row for every visited production state whose step number is a positive multiple of the pass length, holding that state's time and the summary of the trajectory so far; a run that starts at a multiple of the pass length therefore reports exactly one row per production pass.", "quantifier": "every model, random stream, pass count and pass length", "why_tests_cant": "Over all run lengths and all trajectories.", "anchors": ["kmcpy/simulator/kmc.py:KMC.run", "kmcpy/simulator/tracker.py:Tracker._sample_transport_summary"]}
{"id": "C58", "title": "Effective schedule of a sampled property", "statement": "In every run a property is sampled exactly at the production steps that are a positive multiple of its effective step interval or at which its effective time interval has elapsed since its previous sample; its own interval wins over the plan's, and a plan without any frequency stands for one sample per pass. The rows of the built-in summary follow the plan-wide intervals in the same way.", "quantifier": "every plan, schedule, run and random stream", "why_tests_cant": "History dependent firing rule over unbounded runs and all combinations of intervals.", "anchors": ["kmcpy/simulator/property.py:should_trigger", "kmcpy/simulator/tracker.py:Tracker.sample_properties", "kmcpy/simulator/tracker.py:Tracker.apply_property_plan"]}
{"id": "C59", "title": "Diffusivities refer to the production window", "statement": "The jump diffusivity of every row of a run is the collective squared displacement gained since production started over the time elapsed since production started (times the dimension and ion-count factors).", "quantifier": "every finished run, from every start state", "why_tests_cant": "Relation between two accumulated quantities over all runs, including runs that continue from a stored state.", "anchors": ["kmcpy/simulator/tracker.py:Tracker._compute_transport_summary", "kmcpy/simulator/property.py:compute_transport_properties"]}
{"id": "C60", "title": "The event generator and the simulator number sites alike", "statement": "For every template, site mapping and supercell shape, the numbering the event generator uses (supercell of the active part of the unit cell) and the numbering of the simulator (full supercell with the fixed sites dropped) coincide site by site.", "quantifier": "every labelled template, site mapping and supercell shape", "why_tests_cant": "Two different constructions must agree for every arrangement of active and fixed sites and every shape; a single disagreement silently moves ions to the wrong sites.", "anchors": ["kmcpy/event/generators.py:EventGenerator.generate_events", "kmcpy/structure/active_site_order.py:ActiveSiteOrder.active_structure", "kmcpy/structure/sites.py:make_kmc_supercell"]}
{"id": "C61", "title": "Generated hops have distinct end points and are listed once", "statement": "When no origin site has two neighbours, or itself, on the same site of the supercell, every generated event has two different end points and no hop is listed twice. In a supercell too small for this the code lists the same hop twice or an event from a site to itself.", "quantifier": "every neighbour table, template and supercell shape", "why_tests_cant": "Ranges over all neighbour tables and shapes; the failing shapes are accepted silently.", "anchors": ["kmcpy/event/generators.py:EventGenerator.generate_events"]}
{"id": "C62", "title": "Comparing site orders detects every difference", "statement": "For orders built by the package, the order check succeeds exactly when the two orders agree in every field, provided the digest has no collisions. It relies on the stored digest: metadata altered by hand under an unchanged digest is accepted.", "quantifier": "all pairs of templates, mappings and shapes", "why_tests_cant": "Over all pairs of orders.", "anchors": ["kmcpy/structure/active_site_order.py:ActiveSiteOrder.assert_same_order"]}
{"id": "C63", "title": "A configuration stored as one section of a workflow file can be read back and leaves the other sections alone", "statement": "Writing a configuration with to(file, section, task_type) and reading it with from_file(file, section) gives the same configuration as a file of its own, whatever the file held before, and every other section keeps its content; the task name 'type' is the exception, it makes the section unreadable without naming the task.", "quantifier": "every reachable configuration, previous file content, section name and task name other than 'type'", "why_tests_cant": "All previous contents and names.", "anchors": ["kmcpy/simulator/config.py:Configuration.to", "kmcpy/simulator/config.py:Configuration.from_file", "kmcpy/simulator/config.py:_extract_section_data"]}
{"id": "C64", "title": "A crash while saving a checkpoint never yields a wrong state and endangers only the file being written", "statement": "If the process dies at any point of save_checkpoint, every other checkpoint file still loads as before and the file being written loads as its old state, as the new state, or raises; alternating between two files therefore always leaves the last completed checkpoint loadable. Overwriting one file in place can lose it.", "quantifier": "every file system, path, state, crash point and history of earlier saves", "why_tests_cant": "Crash points and histories.", "anchors": ["kmcpy/simulator/state.py:State.save_checkpoint", "kmcpy/simulator/state.py:State.load_checkpoint"]}
{"id": "C65", "title": "Local barrier models keep the rate table fresh iff their rules read event sites only", "statement": "If every rule of a local barrier model selects sites of the event only (any selector except 'all' and explicit site lists), the model is local, so the rate table of a simulation with generated dependencies always equals a recomputation, and all simulation theorems apply. A rule with an explicit site list outside the events leaves stale rates after one hop, without an error.", "quantifier": "every rule list, event list, history; every kernel for the counterexample", "why_tests_cant": "Over all models and histories.", "anchors": ["kmcpy/models/local_barrier_model.py:LocalBarrierModel._selected_sites", "kmcpy/simulator/kmc.py:KMC.update"]}
{"id": "C66", "title": "An exact rule taken from a snapshot matches that snapshot and nothing else", "statement": "entry_from_event_state followed by add_rule on a model without exact rules succeeds and appends a rule that describes exactly the events with the same endpoints and environment in configurations with the same states on their sites.", "quantifier": "every event, occupation vector with non-negative states, property set and later configuration", "why_tests_cant": "Over all events and configurations.", "anchors": ["kmcpy/models/local_barrier_model.py:LocalBarrierModel.entry_from_event_state", "kmcpy/models/local_barrier_model.py:LocalBarrierModel.add_rule"]}
{"id": "C67", "title": "A local cluster expansion as built evaluates everywhere and contains every wanted cluster once", "statement": "After build, every cluster of one to four local sites within the cutoff for its size is in exactly one term (for multi-state bases once per choice of basis functions, if all sites have the same number of states) and nothing else is; with accepted parameters compute succeeds on every event whose local sites hold valid states, and the padding of the basis table is never read.", "quantifier": "every geometry, basis, list of site state counts, cutoffs, parameter set and occupation", "why_tests_cant": "Over all environments, cutoffs and occupations.", "anchors": ["kmcpy/models/local_cluster_expansion.py:LocalClusterExpansion.build", "kmcpy/models/local_cluster_expansion.py:LocalClusterExpansion._configure_correlation_terms", "kmcpy/models/local_cluster_expansion.py:LocalClusterExpansion.compute"]}
{"id": "C68", "title": "Symmetry-equivalent surroundings have the same value", "statement": "If a relabelling of the local sites maps every wanted cluster to one the model's own comparison calls equivalent, keeping sizes and numbers of states, then the fitted model gives the same value to a surroundings and to its image, for plain models and for sites with one basis function. For three-state sites it does not (proved counterexample).", "quantifier": "every geometry whose comparison is an equivalence, relabelling, cutoffs, coefficients and pair of related surroundings", "why_tests_cant": "Over all symmetries and occupations.", "anchors": ["kmcpy/models/local_cluster_expansion.py:LocalClusterExpansion.build", "kmcpy/models/local_cluster_expansion.py:LocalClusterExpansion.build_orbits", "kmcpy/models/local_cluster_expansion.py:LocalClusterExpansion.compute"]}
{"id": "C69", "title": "Composite models made of cluster expansions fit the simulation", "statement": "A composite model whose barrier and site-energy differences come from local cluster expansions gives rates that depend only on the sites listed by the event, are non-negative, and vanish for forbidden hops, so all guarantees about runs (selection, fresh table, tracking, conservation) apply to it.", "quantifier": "every pair of fitted expansions, temperature, non-negative attempt frequency, library and state that fit the structure", "why_tests_cant": "Quantifies over all models and states; it discharges the hypotheses of the run theorems.", "anchors": ["kmcpy/models/composite_lce_model.py:CompositeLCEModel.compute_probability", "kmcpy/models/local_cluster_expansion.py:LocalClusterExpansion.compute"]}
{"id": "C70", "title": "The rate table stays fresh with an external calculator exactly if it looks no further than the event's sites", "statement": "With an external site-energy calculator that looks only at the proposed changes and at the external sites of the sites the event lists, every entry of the rate table equals the model's current rate after any history. A calculator that looks further can leave stale rates after a single hop, without any error.", "quantifier": "every local calculator, mapping, library and history; one explicit far-reaching calculator, for every kernel", "why_tests_cant": "Invariant over histories for all calculators.", "anchors": ["kmcpy/simulator/kmc.py:KMC.update", "kmcpy/models/site_energy.py:SiteEnergyModel.compute"]}
{"id": "C71", "title": "Mappings that cover the present states never fail during a run", "statement": "If every active site has an external value for every state present in the configuration, then evaluating a proposed hop always reaches the calculator with the right changes, committing an executed hop succeeds, and both remain true after it. The check made at initialisation does not guarantee this: it accepts a mapping with a gap that raises after one hop.", "quantifier": "every mapping, state, event and history", "why_tests_cant": "All reachable states of a run.", "anchors": ["kmcpy/models/site_energy.py:SiteEnergyModel._validate_event_mappings", "kmcpy/models/site_energy.py:SiteEnergyModel.apply_event"]}
{"id": "C72", "title": "Structures and occupations convert both ways", "statement": "Writing an occupation as a structure and reading the structure again gives the same occupation; reading succeeds exactly when every atom has a site within tolerance, no two atoms share a site and every species is allowed, and the result describes exactly these atoms; the order of the atoms does not matter. With the sites of the atoms given explicitly the same holds, and a site that does not exist is rejected.", "quantifier": "every lattice structure, supercell, occupation, structure and tolerance", "why_tests_cant": "Over all structures, supercells and site mappings.", "anchors": ["kmcpy/structure/lattice_structure.py:LatticeStructure.get_occ_from_structure", "kmcpy/structure/lattice_structure.py:LatticeStructure.get_structure_from_occ"]}
{"id": "C73", "title": "Fitting features are simulation features", "statement": "The correlation vector computed from a structure (used for fitting) equals the one the simulation computes for a state that lists the same species on the event's sites, so the simulated value is the fitted linear function of the structure's features; filtering a structure to active sites keeps exactly the atoms nearest to active sites. A reference whose sites are ordered otherwise, or that lacks a site of a cluster, is rejected.", "quantifier": "every cluster expansion, reference lattice, structure, event and state", "why_tests_cant": "Two code paths must agree on every structure and state.", "anchors": ["kmcpy/models/local_cluster_expansion.py:LocalClusterExpansion.get_occ_corr_from_structure", "kmcpy/models/local_cluster_expansion.py:LocalClusterExpansion.compute", "kmcpy/structure/active_site_order.py:ActiveSiteOrder.filter_active_structure"]}
{"id": "C74", "title": "NEB endpoint pairs move exactly one atom", "statement": "generate_neb_endpoint_pair returns two structures of which the initial one shows the environment with the mobile species on the first mobile site and the second one empty, and the final one is the same list of atoms with exactly one entry replaced: the mobile atom now sits on the second mobile site. Up to the order of atoms the final structure is the structure of the final occupation. enumerate_neb_endpoint_pairs gives one such pair per enumerated environment, and no two are equal when the mobile sites are not varied.", "quantifier": "every lattice, every active-site order, every environment occupation and every pair of active sites whose second allowed species is the vacancy", "why_tests_cant": "The atom order of the two structures must correspond for every arrangement of fixed, vacant and occupied sites before, between and after the two mobile sites; tests try one arrangement.", "anchors": ["kmcpy/structure/local_environment_enumerator.py: generate_neb_endpoint_pair, enumerate_neb_endpoint_pairs, _ordered_endpoint_structures"]}
{"id": "C75", "title": "The leave-one-out error leaves the point out", "statement": "The cross-validation error of a fit is the root mean square over all data points of the error, at that point, of the fit to all other points; the fit used for a point does not depend on that point's features or target.", "quantifier": "every data set and regression result", "why_tests_cant": "A point leaking into its own training set changes the number slightly, which no fixed example can distinguish from a correct value without repeating the computation.", "anchors": ["kmcpy/models/fitting/fitter.py:LCEFitter._leave_one_out_rmse"]}
{"id": "C76", "title": "The files of a fit match the fit", "statement": "A fit that fails while computing its numbers changes no file. A successful fit returns a record with the coefficients of the regression, writes those coefficients and that record, and appends exactly that record to the history.", "quantifier": "every data set, option, previous file content and outcome", "why_tests_cant": "Ranges over previous file contents and failure points.", "anchors": ["kmcpy/models/fitting/fitter.py:LCEFitter.fit"]}
{"id": "C77", "title": "Every data set that can be written can be fitted", "statement": "The fitting inputs written by the data loader can be loaded and fitted, whatever the number of entries and clusters.", "quantifier": "every number of entries and clusters, and all numbers", "why_tests_cant": "The failing shapes are not among the examples.", "anchors": ["kmcpy/models/fitting/fitter.py:LCEFitter.fit", "kmcpy/io/neb/data.py:NEBDataLoader.write_fitting_inputs"]}
{"id": "C78", "title": "Saved clusters and orbits are read back unchanged", "statement": "A Cluster made from sites or from species and coordinates, and an Orbit of such clusters, is read back by from_dict exactly as as_dict wrote it: same sites, species, positions, roles, distances, symmetry and multiplicity, hence the same fingerprint. (A cluster made with an explicit distance_matrix is the exception: the matrix is not written and is replaced by the distances of the positions.)", "quantifier": "every cluster (any number of sites, positions, roles) and every orbit of such clusters", "why_tests_cant": "tests serialise a few clusters of one crystal; the claim is about every cluster, and the exception needs a matrix that disagrees with the positions", "anchors": ["kmcpy/structure/cluster.py: Cluster.__init__, Cluster.as_dict, Cluster.from_dict, Orbit.as_dict, Orbit.from_dict"]}
{"id": "C79", "title": "A saved model computes the same rates after loading", "statement": "Saving a composite model whose cluster expansions were built and given parameters, and loading the file, gives a model with the same transition rates for every event, state, temperature and attempt frequency. Saving a built expansion alone and loading it gives an expansion with the same correlation vectors that accepts the same parameters and gives the same values with them; its own fitted parameters are not in that file, so computing right after loading fails. Any dictionary that is accepted gives an expansion with the stored basis, indices, tables, environment digest and parameters (a missing basis is the Chebyshev basis for the largest stored number of states); decorated clusters without their tables, and stored fingerprints that are not those of the orbits, are refused.", "quantifier": "every local environment, basis, cutoffs, equivalence test, parameters accepted by set_parameters, site model; every event and state", "why_tests_cant": "tests save one fitted model and compare a few numbers; the claim covers every build, both bases and every later call", "anchors": ["kmcpy/models/local_cluster_expansion.py: build, as_dict, from_dict, set_parameters", "kmcpy/models/composite_lce_model.py: as_dict, from_dict"]}
{"id": "C80", "title": "A saved site-energy model predicts the same energies when loaded", "statement": "Writing a site-energy model with to() and reading it with from_file() gives a model with the same energy unit, attempt frequency, calculator and structure references, site labels and initial occupation, so that every probability and every compute result is the same; what a file cannot hold (a Python energy function or runtime passed in code) is lost, and an initial occupation stored with object dtype comes back as an integer or text array. Mappings mean what the user wrote, as a list or a dictionary with numbers or their texts as keys; references lose the blanks around them and are called with the keyword arguments of their own kind; a dictionary whose site mapping or active-site order does not belong to its stored digests is refused.", "quantifier": "every site-energy model, every energy unit spelling, every initial occupation of integer, float or text dtype, every later state and event", "why_tests_cant": "A test saves a few models; the claim is about every model and every later state and event, and the differences appear only for particular array dtypes.", "anchors": ["kmcpy/models/site_energy.py:SiteEnergyModel.as_dict", "kmcpy/models/site_energy.py:SiteEnergyModel.from_dict", "kmcpy/models/site_energy.py:SiteEnergyModel.to", "kmcpy/models/site_energy.py:SiteEnergyModel.from_file"]}
{"id": "C81", "title": "The model file decides which model a simulation uses", "statement": "Loading the model of a configuration uses the class that wrote the model file, whatever the configuration's model type says; a class that has moved is found by its name, a class that cannot be found is an error and never replaced by another; only a file that does not say what it holds leaves the choice to the configured type, and an unknown type is an error. A saved local barrier model is loaded as the very model that was saved.", "quantifier": "every model file, every configured model type, every installation in which the shipped classes can be imported, every class of the user's own", "why_tests_cant": "The claim is about every combination of file header, configured type and import failure, including types nobody has tried.", "anchors": ["kmcpy/models/base.py:BaseModel.from_config", "kmcpy/models/base.py:require_model_type", "kmcpy/io/registry.py:MODEL_CLASS_REGISTRY", "kmcpy/models/local_barrier_model.py:LocalBarrierModel.from_file"]}
{"id": "C82", "title": "The result files of a run hold that run's results", "statement": "Writing results never fails: the files of the run's label then hold the final displacements, hop counts and occupations, one table line per sampled summary in order, the units, and for each attached property exactly its records in order; no other file is touched, and runs with different labels never share a file. Exceptions: a run without records leaves the properties file of an earlier run with the same label in place, and dictionary keys with the same text are merged.", "quantifier": "every label, every number of passes, every finished run, every callback value made of texts, numbers, lists and text-keyed dictionaries, every content of the directory", "why_tests_cant": "File-name collisions and mixed-up records show only for particular labels, pass numbers and histories.", "anchors": ["kmcpy/simulator/results.py:write_tracker_results", "kmcpy/simulator/results.py:_stored_property_payload", "kmcpy/simulator/results.py:_to_json_safe", "kmcpy/simulator/tracker.py:Tracker.write_results", "kmcpy/simulator/tracker.py:_append_result_row"]}
{"id": "C83", "title": "Local environments contain the right sites in a well-defined order", "statement": "LocalLatticeStructure(template, center, cutoff, site_mapping, local_site_order) lists, once each, exactly the periodic images of changeable sites within the cutoff of the centre, without the centre when the order says so, sorted by the order's keys, with indices counting changeable sites and positions relative to the centre. It can be built exactly when the mapping covers every site, the order is known, the centre is a changeable site or a point and some site is left. When the keys tell the sites apart the result does not depend on the order in which the neighbour search lists them. match_with_reference returns the same sites in the reference's order; is_equivalent_to answers whether such an order exists; equal hashes mean the same species at the same rounded positions in the same order; the enumeration of local environments uses the same sites.", "quantifier": "all structures, mappings, centres (index or point), cutoffs, orders, exact neighbour searches, tolerances and pairs of environments", "why_tests_cant": "The order in which the neighbour search lists sites, the number of images, and the possible ties are unbounded; a test sees one listing.", "anchors": ["kmcpy/structure/local_lattice_structure.py:LocalLatticeStructure", "kmcpy/structure/local_site_order.py:LocalSiteOrder", "kmcpy/structure/local_environment_enumerator.py:_local_site_indices"]}
{"id": "C84", "title": "Generated hops are the ones the user's arguments describe", "statement": "generate_events(...) lists an event from site i to site j exactly when i is chosen by the origin identifier, j by the target identifier, and some image of j is closer to i than the radius for the two species. Without mobile species, they are the mapping entries that allow a vacancy; without identifiers, the mobile species serve as both; identifiers choose by species when all of them name mobile species up to charge and by label otherwise; without a cutoff table one radius (default 4.0) applies to all pairs with a mobile species. With a mapping only, every hop has its reverse. With nearest matching, the call succeeds exactly when there is at least one such hop.", "quantifier": "all structures, mappings, identifiers, cutoffs, tables, shapes and exact neighbour searches", "why_tests_cant": "tests try a few identifier spellings on one or two structures; the claim is about every combination of optional arguments and every geometry", "anchors": ["kmcpy/event/generators.py:EventGenerator.generate_events", "kmcpy/event/generators.py:_normalize_generate_events_inputs", "kmcpy/event/generators.py:_infer_site_selection_kind", "kmcpy/event/generators.py:_build_uniform_cutoff_dict"]}
{"id": "C85", "title": "A simulation keeps going: it never crashes, and on a connected network every run completes", "statement": "When the model answers for the listed events in well-labelled states, KMC(...) can be constructed, and run() with properties that tolerate failures never raises except when every rate is zero; at that point the state has the composition it started with. If possible hops have positive rates and the sites form a connected network that holds at least one ion and one vacancy, run() always completes, whatever the numbers of steps and the random draws. One constant barrier, and composite models made of built cluster expansions with accepted parameters, satisfy these conditions.", "quantifier": "all libraries, states, rate models that answer, numbers of steps, registered properties that tolerate failures, and random draws in [0, 1)", "why_tests_cant": "a test runs some thousand steps from one state; no run excludes a crash at a later step, from another state or with other draws", "anchors": ["kmcpy/simulator/kmc.py:KMC.__init__", "kmcpy/simulator/kmc.py:KMC.run", "kmcpy/simulator/tracker.py:Tracker.sample_properties", "kmcpy/models/local_barrier_model.py:LocalBarrierModel.constant_barrier", "kmcpy/models/composite_lce_model.py:CompositeLCEModel.compute_probability"]}
{"id": "C86", "title": "Barrier models made from one number or from a table of snapshots answer with it", "statement": "LocalBarrierModel.constant_barrier(b) gives the barrier b for every event in every state. A table made with entry_from_event_state and from_exact_entries from observed snapshots that do not contradict each other answers every property recorded in a snapshot for every event and state that show the same states at the event's sites, and the default barrier otherwise; if two snapshots show the same states at the same sites the table is refused.", "quantifier": "all barriers, lists of snapshots, events and states", "why_tests_cant": "a test looks up a few entries of one table; the claim is about every table and every later state", "anchors": ["kmcpy/models/local_barrier_model.py:LocalBarrierModel.constant_barrier", "kmcpy/models/local_barrier_model.py:LocalBarrierModel.entry_from_event_state", "kmcpy/models/local_barrier_model.py:LocalBarrierModel.from_exact_entries"]}
{"id": "C87", "title": "A simulation made from a configuration uses one site numbering and runs with a generated library", "statement": "KMC.from_config builds structure, hop states, events and initial state on one numbering, that of the active sites of the configuration's structure, site mapping and supercell shape. Every site an event names is a site of the structure; the state has one entry per site unless it comes from an HDF5 file; an event library recorded for another site order, or for none, is refused. Without a site mapping, or without initial occupations and state file, no simulation is made. Listed occupations are used even if a state file is given. A library generated for the same structure, mapping and shape is accepted, and on a connected network with a model that gives possible hops positive rates kmcpy.run completes. A completed run takes, for each pass, as many steps as there are sites whose element symbol contains the name of the mobile species; the numbers of equilibration and production passes are those of the configuration, rounded up, and there is at least one production pass; equilibration comes first and does not advance the time. The exception of a failed run is passed on.", "quantifier": "every configuration, every content of the structure, event, model and state files, every supercell shape, every number of passes and all random numbers", "why_tests_cant": "Tests run a handful of shipped configurations; that no combination of files and settings leads to mixed site numberings, and that every generated library is accepted and runs, is a statement about all of them.", "anchors": ["kmcpy/simulator/kmc.py: KMC.from_config, KMC.__init__, KMC.run", "kmcpy/api.py: run", "kmcpy/structure/active_site_order.py: ActiveSiteOrder", "kmcpy/event/base.py: EventLib.from_file, validate_index_metadata", "kmcpy/simulator/state.py: State.from_file, from_occupations"]}
{"id": "C88", "title": "The command line runs what it was given and never destroys a file", "statement": "run_kmc with --input runs exactly the configuration in the file, whatever the other arguments; without --input its configuration has exactly the given values and the defaults. A supercell shape is accepted only if it is absent or three whole numbers, a site mapping only if it is absent or a dictionary; the text a,b,c is read as those three numbers, and of other numbers the digits after the point are dropped. The template written by kmcpy init is a valid configuration that names every field once. kmcpy init changes no existing file or directory except the named file with --force, refuses an existing file otherwise, and succeeds in every other case. The simulation form passes its values on under the names of the configuration.", "quantifier": "every combination of argument values, every file content, every directory tree, every form", "why_tests_cant": "Tests call the commands with a few argument lists in an empty temporary directory; that no argument combination is misrouted and no directory tree loses a file is a statement about all of them.", "anchors": ["kmcpy/cli/run_kmc.py: main, parse_sequence_arg, parse_supercell_shape, parse_mapping_arg", "kmcpy/cli/init.py: build_template, write_template, main", "kmcpy/cli/gui_wrapper.py: main", "kmcpy/api.py: run"]}
{"id": "C89", "title": "The table of fitting results keeps every fit and yields the latest", "statement": "Each fit given the same results table is appended as its last record: all earlier records stay in place with the values they had, tables made before a column existed get that column, and after any number of fits the table holds all of them in order. A fitter loaded from the table has the parameters of the last fit as written; from any object of numbered records it takes the one with the largest number, and it fails exactly if there is none. A fitter saved to its own file is loaded with the same parameters.", "quantifier": "every sequence of fits, every table (any columns, any number of records), every JSON object given to the loader", "why_tests_cant": "Tests append one fit to one small table; that no table shape or sequence of fits loses or reorders a record is a statement about all of them.", "anchors": ["kmcpy/models/fitting/fitter.py: LCEFitter._save_fit_results_history, _extract_serialized_record, as_dict, from_dict, to, from_file"]}
{"id": "C90", "title": "In the long run a simulation visits configurations according to the Boltzmann distribution", "statement": "Only the current configuration decides what a simulation does next: the probability that the next step leads to a configuration is the sum of the rates of the events that lead there over the sum of all rates, and the mean time until that step is one over the sum of all rates, whatever the history. If the model's rates are balanced with respect to an energy, then a distribution over the configurations the simulation can get into is stationary exactly if the time spent in each of them is proportional to its Boltzmann weight; such a stationary distribution exists, and on a connected network it ranges over all arrangements of the contents of the network. Without an energy (a constant barrier, or a barrier expansion without site energies) every arrangement gets the same share of the time.", "quantifier": "every event library, model of the stated kind, starting configuration, history and temperature", "why_tests_cant": "A test can sample a finite run of one small system; the equilibrium is a statement about the whole set of reachable configurations, the probabilities of all steps and all histories.", "anchors": ["kmcpy/simulator/kmc.py: KMC.propose, KMC.update, KMC.run", "kmcpy/models/composite_lce_model.py: CompositeLCEModel.compute_probability", "kmcpy/models/local_barrier_model.py: LocalBarrierModel.compute_probability"]}
{"id": "C91", "title": "Time averages over long simulations are ensemble averages", "statement": "Let the random numbers be independent and uniform. For every quantity of the configuration, the mean of its integral over the time of the first n steps divided by the mean time of these steps tends, as n grows, to the average over all configurations the simulation can get into, weighted with the Boltzmann weights of the energy the model is balanced with. In particular the share of the time spent in a configuration tends to its share of the weight, and without an energy every site of a connected network holds an ion for the same share of the time: ions over sites. The mean clock after n steps is the time at the start plus the mean of the time the steps take.", "quantifier": "every balanced model, event library, starting configuration and quantity of the configuration; limit over the number of steps, mean over all sequences of random numbers", "why_tests_cant": "It is a limit over unbounded run lengths of means over all random sequences.", "anchors": ["kmcpy/simulator/kmc.py: KMC.propose, KMC.update, KMC.run", "kmcpy/models/composite_lce_model.py: CompositeLCEModel.compute_probability", "kmcpy/simulator/state.py: State.time"]}
{"id": "C92", "title": "A simulation continued from a saved state is the simulation that was saved", "statement": "After any history of executed events, saving the state, loading it and constructing a simulation with the same arguments gives back the same simulation: state, events with their hop codes, rate table and cumulative table, so that a run cut in two at a checkpoint, on the random numbers that follow those already used, ends in the same simulation as one uninterrupted run, and on a connected network nothing in this sequence can fail. For models with a cache this holds exactly when the table was up to date and the cache is set up the same again; a local external calculator that reads values only gives the same tables.", "quantifier": "every event library, rate model that reads the sites of its event, starting state, history, lengths of both runs, recorded properties, random numbers, file name and rounding of the arithmetic", "why_tests_cant": "It compares whole runs of unbounded length cut at an arbitrary point, for every model and random sequence.", "anchors": ["kmcpy/simulator/kmc.py: KMC.__init__, KMC.update, KMC.run", "kmcpy/simulator/state.py: State.save_checkpoint, State.load_checkpoint", "kmcpy/models/site_energy.py: SiteEnergyModel.initialize_state"]}
{"id": "C93", "title": "The time average over one simulation tends to the Boltzmann average", "statement": "If the random numbers of a simulation are independent and uniform, then with probability one the average of any quantity over the simulated time of that one simulation tends, as the number of steps grows, to its average in the Boltzmann distribution over the configurations that can be reached; every reachable configuration is visited infinitely often; and every site of a network with equal site energies holds an ion for the share ions/sites of the time. The number of equilibration steps does not matter, and the simulation meant is the one that a completed run leaves behind.", "quantifier": "every event library on a connected network, every balanced model, starting state, number of equilibration steps, quantity, and almost every sequence of random numbers", "why_tests_cant": "It is a limit over an unbounded number of steps for almost every one of uncountably many random sequences.", "anchors": ["kmcpy/simulator/kmc.py: KMC.run, KMC.propose, KMC.update", "kmcpy/simulator/kmc.py: _propose"]}
{"id": "C94", "title": "A simulation is the continuous-time Markov chain with the model's rates", "statement": "If the random numbers are independent and uniform, the probability that the first events of a simulation are those of a given list, each after waiting longer than a given time, is the one in the continuous-time Markov chain with the model's rates: the product over the events of its rate over the total rate and of exp(-total rate x time), with rates taken in the configuration produced by the events before. The choice of the event is independent of the waiting time, and the future depends on the past only through the present configuration.", "quantifier": "every event library, every rate model that reads the sites of its event, starting state, list of events and waiting times of any length", "why_tests_cant": "It gives the exact probability law over all histories of every length; a test can only sample histories and compare frequencies.", "anchors": ["kmcpy/simulator/kmc.py: KMC.propose, KMC.update, _propose", "kmcpy/simulator/kmc.py: KMC.run"]}
{"id": "C95", "title": "A CIF file is loaded as the crystal it describes, and its sites are found by label", "statement": "Loading a CIF file gives every symmetry image of every atom exactly once and nothing else, each in the unit cell, with the amounts and the labels of the atoms that share the site, numbered without gaps both overall and within each atom's orbit. A file is loaded if and only if it describes an atom, atoms that share a site are written with the same coordinates, and no site gets too much; otherwise it is refused with a ValueError. If labels are distinct and sites are not shared, label and number find exactly the site they belong to, in the unit cell and in every supercell. Uncertainties in parentheses do not change numbers.", "quantifier": "every table of atoms, every space group given by its operations, every site and occupancy tolerance, every supercell shape and every label", "why_tests_cant": "It ranges over all crystals and space groups; tests load a handful of files.", "anchors": ["kmcpy/io/cif.py: load_labeled_structure_from_cif, load_labeled_structure_from_string", "kmcpy/structure/sites.py: find_site_by_wyckoff_sequence_and_label, find_site_by_wyckoff_sequence_label_and_supercell"]}
{"id": "C96", "title": "Where in the supercell a simulation starts makes no difference", "statement": "For every translation of the supercell (and every other permutation of the sites that keeps the allowed species and the event library), a simulation started from the translated configuration executes the translated events, after waiting times longer than any given ones, with exactly the probability with which the simulation started from the original configuration executes the original events; the translated configuration can always be used as a start if the original can, and the simulations stay translations of each other. It holds for every rate model that knows sites only by what they hold, in particular for every composite of cluster expansions, and for every generated event library.", "quantifier": "every generated library or symmetric set-up, translation vector, starting configuration, cluster expansion or position-blind rate model, list of events and waiting times of any length, and source of uniform random numbers", "why_tests_cant": "It is an equality of probabilities of whole histories of unbounded length, for every supercell, translation and model.", "anchors": ["kmcpy/simulator/kmc.py: KMC.__init__, KMC.propose, KMC.update", "kmcpy/event/generator.py: EventGenerator.generate_events", "kmcpy/event/hop.py: HopStateLookup.annotate_event_lib", "kmcpy/models/composite_lce_model.py: CompositeLCEModel.compute_probability", "kmcpy/models/local_cluster_expansion.py: LocalClusterExpansion.compute"]}
{"id": "C97", "title": "Enumerating through a transformation returns exactly the environments the transformation found", "statement": "Given a pymatgen transformation, the enumerator hands it once a structure with every variable site shared equally among the species it may hold (the vacancy's share left empty) and every other site as in the base occupation. When the transformation returns structures on the same cell that order these sites, in whatever atom order, the results are exactly their environments, in the returned order: those that meet the requested counts, cut at the limit. If it returns every ordering once, the results are those of the Cartesian product up to order. For every transformation: the counts only select among what it returned, a smaller limit only truncates, entries after the last result are not looked at, and an unsupported entry that is reached, an unsupported result or a failing transformation is an error.", "quantifier": "every lattice, base occupation, list of variable sites and species, counts, limit, ranking request, transformation (any function, possibly raising) and list of returned structures", "why_tests_cant": "The transformation is an arbitrary user object; tests try one or two, while the claim ranges over everything it may return.", "anchors": ["kmcpy/structure/local_environment_enumerator.py: enumerate_local_environments, _enumerate_with_transformation, _build_disordered_structure, _partial_species_entry, _iter_transformed_structures, _species_by_site", "kmcpy/structure/lattice_structure.py: LatticeStructure.get_occ_from_structure"]}
{"id": "C98", "title": "Ions without drift make a random walk with the textbook mean square displacement, diffusion coefficient and correlation factor", "statement": "Run the simulation with every possible sequence of independent uniform random numbers. If all hops have the same length a and, in every configuration that can occur, the hops weighted by their rates cancel, then the mean over all runs of the sum of the tracked displacements is zero and the mean of its squared length is the number of production steps times a squared, with any number of interacting ions and any equilibration. If the total rate is always r, the mean of the clock is the start plus the number of production steps over r. An ion alone on equal sites with z ways out of rate nu is such a walk: mean square displacement over 2 d times mean time is z nu a^2 / (2 d), and the mean reported correlation factor is 1.", "quantifier": "every lattice, event list, rate model and configuration without drift; every probability space with independent uniform random numbers; every number of passes, steps per pass and equilibration passes; every set of property callbacks with which the run completes", "why_tests_cant": "A mean over all random sequences cannot be computed by running some of them; tests compare one seed with a stored number.", "anchors": ["kmcpy/simulator/kmc.py: KMC.run, KMC.propose", "kmcpy/simulator/tracker.py: Tracker.update, Tracker._compute_transport_summary", "kmcpy/simulator/property.py: compute_transport_properties"]}
{"id": "C99", "title": "The attempt frequency only sets the clock", "statement": "Multiply the attempt frequency (or, by adding a constant to all barriers, every rate) by c > 0 and use the same random numbers: the simulation can be constructed in the same cases, the same events happen in the same order, the configurations, step counts, tracked displacements, hop counts and locations are the same, and each waiting time and the total time is 1/c of what it was. Reported mean squared displacement, Haven ratio and correlation factor do not change; reported diffusivities and conductivity are multiplied by c.", "quantifier": "every event library, start state, composite model whose site model does not look at the clock, local barrier model, factor c > 0, sequence of random numbers, number of steps, and every pair of completed runs", "why_tests_cant": "It relates two runs of any length for every seed and model; a test compares one pair.", "anchors": ["kmcpy/simulator/kmc.py: KMC.propose, KMC.update, KMC.run, _propose", "kmcpy/models/composite_lce_model.py: CompositeLCEModel.compute_probability", "kmcpy/models/local_barrier_model.py: LocalBarrierModel.compute_probability", "kmcpy/simulator/property.py: compute_transport_properties"]}
{"id": "C100", "title": "The order in which events are listed does not change the law of a simulation", "statement": "Two event libraries hold the same events in different orders. Over all sequences of random numbers, the simulations have the same law: for every list of events and times, the probability that these are the first events, each after waiting longer than its time, is the same. An event listed k times counts as one with k times its rate.", "quantifier": "every ordinary hopping simulation, every reordering of its events, every probability space with independent uniform random numbers, every list of events and waiting times", "why_tests_cant": "For one seed the two runs differ; equality of laws is a statement about all seeds and all paths.", "anchors": ["kmcpy/simulator/kmc.py: KMC.__init__, KMC.propose, KMC.update", "kmcpy/event/base.py: EventLib"]}
{"id": "C101", "title": "User functions are found by their reference and receive exactly the arguments they ask for", "statement": "A user function without **kwargs that computes site-energy differences runs exactly if it takes every name in compute_kwargs and needs nothing but those and the five standard arguments; each of its parameters then holds the user's value of that name, or else the standard argument, or else its default, and nothing else is passed. Otherwise a TypeError is raised and it does not run. With **kwargs, or without a readable signature, it is given everything. The function that commits events must take all five arguments and the user's. initialize_state is offered the active-site order exactly if it has a parameter of that name or **kwargs. A reference module:a.b names attribute b of attribute a of the module, a reference package.module.function the function of package.module, and a reference without module or name is refused with ValueError.", "quantifier": "every signature, every dictionary of user arguments, every standard argument; every reference text, module system and object", "why_tests_cant": "Signatures and argument dictionaries are unbounded; tests call a handful of functions.", "anchors": ["kmcpy/models/site_energy.py: _call_with_supported_keywords, SiteEnergyModel.compute, SiteEnergyModel.apply_event, resolve_callable_reference", "kmcpy/simulator/kmc.py: _accepts_keyword, KMC._initialize_model_state", "kmcpy/models/composite_lce_model.py: _accepts_keyword, CompositeLCEModel.initialize_state"]}
{"id": "C102", "title": "Simulations in one process do not influence each other unless they share something mutable", "statement": "Take any Python program that constructs any number of KMC objects and lets them construct, equilibrate, track, step and update in any order. A simulation whose State object no other simulation has, whose model object is its own or remembers nothing, and whose shared Event objects are read by the others with the same hop lookup, returns and raises exactly what it would alone, and ends with the same state, library, model cache, rate tables and tracker; if its own actions are those of one run, it ends exactly as that run ends. A parameter sweep may therefore share library and memoryless model. A State object changes only through simulations that were given it, and State.copy gives an independent object. Each of the three conditions is needed: with a shared State the other rate table goes stale without an exception, with another hop lookup on shared events the first simulation fails, and with a shared model that remembers occupations the rates are computed from the other simulation's occupations.", "quantifier": "every number of simulations, every program (interleaving of actions), every memory, library, model, lookup, random numbers and initial states", "why_tests_cant": "Interference depends on which objects are shared and on the interleaving of any number of simulations; tests build one simulation at a time.", "anchors": ["kmcpy/simulator/kmc.py: KMC.__init__, KMC.update, KMC.propose, KMC.run", "kmcpy/event/hop.py: HopStateLookup.annotate_event_lib", "kmcpy/simulator/state.py: State.copy, State.apply_event", "kmcpy/simulator/tracker.py: Tracker.__init__, Tracker.time"]}
{"id": "C103", "title": "In equilibrium a simulation looks the same backwards: no circulation and no drift", "statement": "When the model is balanced (every composite model with site energies or a constant barrier is, by C90), a film of the simulation run backwards looks like the film of a simulation. For any list of events that the simulation can execute, and any list of waiting times, the probability that a run from the first configuration begins with these events, waiting longer than these times, weighted with how often the simulation is in the first configuration, equals the probability that a run from the last configuration begins with the same events in the reverse order and the times in the reverse order, with the weight of the last configuration. If the events lead back to where they started, both ways round are equally likely. If the initial configuration is drawn from the stationary distribution (it exists, is positive and unique), the displacements that the tracker reports at the end of a completed run add up to zero along every axis on average, for every number of equilibration and production passes, even though the ions drift from individual configurations.", "quantifier": "every hop system, balanced model, list of events, waiting times, number of passes, attached property plan, and every sequence of independent uniform random numbers", "why_tests_cant": "It compares probabilities of all paths and averages over all random numbers and all configurations; a test samples a few seeds.", "anchors": ["kmcpy/simulator/kmc.py: KMC.propose, KMC.update, KMC.run", "kmcpy/simulator/tracker.py: Tracker.update, Tracker.displacement", "kmcpy/models/composite_lce_model.py: CompositeLCEModel.compute_probability"]}
{"id": "C104", "title": "The data-gathering scripts read occupations and results as they are", "statement": "Reading a Monte Carlo structure against a template gives one value per template site, -1 or 1. In a cell that is not microscopic and with at most one atom per site, -1 means that an atom is at the site, also across the periodic boundary, whose element symbol occurs in the template's symbol; if no symbol is part of a different one this is exactly that the template's atom is there. A result file results_<composition>_<index>.csv.gz is assigned its composition and index; a search returns the values of the lines that contain the word, in order. Transport properties computed afterwards from a tracker's arrays equal the ones the tracker reports. The code differs from this in three ways: a symbol that is part of another (N on a Na site) counts as that element, the values -1 and 1 are not the states a simulation works with (no hop is possible from them), and a further underscore in the path makes the wrong parts of the name the composition and index.", "quantifier": "every structure, template, lattice, file name, text file, trajectory", "why_tests_cant": "It must hold for every structure and every periodic image; the scripts have no tests and depend on files of one particular study.", "anchors": ["kmcpy/tools/gather_mc_data.py: _get_occ, get_occ, rnd, norm", "kmcpy/tools/gather_kmc_data.py: gather_data, search_string_list", "kmcpy/tools/get_data.py: calc_transport_properties"]}
{"id": "C105", "title": "Hop frequencies of a long simulation are the mean rates", "statement": "In a long simulation with a balanced model, the number of times an event is executed, divided by the simulated time, tends with probability one to the mean of its rate over the configurations with their Boltzmann weights; the same holds for every way to count events by event and configuration. Executions of an event in the one direction and in the other are equally frequent, counts in which doing and undoing cancel have no rate, the displacement sum that the tracker reports over the simulated time tends to zero, and the reported hop counters over the simulated time tend to the mean total rate.", "quantifier": "every balanced simulation that is not stuck at the start, every number of equilibration steps, almost every sequence of random numbers, every count of events, every number of production passes (limit)", "why_tests_cant": "A statement about limits over infinitely many steps and about all sequences of random numbers; a finite simulation shows fluctuations only.", "anchors": ["kmcpy/simulator/kmc.py: KMC.run, KMC.propose, KMC.update", "kmcpy/simulator/tracker.py: Tracker.update, hop_counter, displacement"]}
{"id": "C106", "title": "The label of a local environment identifies it", "statement": "Two environments get the same label exactly if every site has the same species in both, whatever the order in which their sites are listed, as long as species names contain no separator character. The environments of one enumeration have pairwise different labels. The pairs of NEB endpoints are recorded in order with their number, the sites of the hop and the label, sites and species of the environment they were made from; what a record says about a site other than the two sites of the hop is true of both structures of the pair.", "quantifier": "every pair of environments, every lattice, active-site order, choice of local and variable sites, species, counts and limit", "why_tests_cant": "That a text identifies its environment is a statement about all pairs of environments; enumerations differ for every lattice.", "anchors": ["kmcpy/structure/local_environment_enumerator.py: _environment_label, LocalEnvironmentEnumeration.label, enumerate_neb_endpoint_pairs (metadata)"]}
{"id": "C107", "title": "The statistics of an event library count overlapping events", "statement": "After the dependencies are generated the reported numbers are: the number of events, the number of ordered pairs of events that share a site, the largest, smallest and average number of events that share a site with one event, and the fraction of pairs that share a site; if every event mentions a site, each event counts itself, and the density lies between one over the number of events and one. Without a dependency table nothing is reported. A library without the metadata of its site order is not saved.", "quantifier": "every event library", "why_tests_cant": "Counts over all pairs of events must be right for every list of events.", "anchors": ["kmcpy/event/base.py: EventLib.get_dependency_statistics, get_event_dependencies_info, has_event_dependencies, to"]}
{"id": "C108", "title": "A model class gets the fitter of its most specific registered ancestor", "statement": "After any sequence of registrations a class has the fitter first asked for it; a registration is refused exactly if it asks for another one and then changes nothing; when no two registrations disagree their order does not matter. A model class gets the fitter of the first class of its resolution order that has a registered one; only without any does its declared fitter count, and without that NotImplementedError is raised.", "quantifier": "every sequence of registrations, class hierarchy and declarations", "why_tests_cant": "Holds for every history of registrations and every hierarchy.", "anchors": ["kmcpy/models/fitting/registry.py: register_fitter, get_fitter_for_model", "kmcpy/models/base.py: BaseModel.get_fitter_class"]}
{"id": "C109", "title": "Callbacks may keep memory but must not touch the state", "statement": "Attached callbacks and error handlers may remember anything from call to call (closures, bound methods, running averages). As long as they leave the state they are handed as they found it, the run cannot be told apart from one with suitable functions without memory registered by the same calls: same end, same final simulation, same trajectory, same records and summary rows. In a finished run without time intervals each enabled callback has been called exactly once after every production step that its interval divides, in the order of attachment, with the state after that step, its error handler after it if it raised, and nothing else was called. A callback that alters the state is not noticed: the run continues from tables computed before it was called.", "quantifier": "every memory type and behaviour of callbacks and handlers, every sequence of registration calls, every kernel, model, geometry, random stream, number of passes and starting simulation", "why_tests_cant": "A test tries particular callbacks; that no callback with memory can influence a run that it only observes is a statement about all programs a user may attach.", "anchors": ["kmcpy/simulator/tracker.py: Tracker.sample_properties, Tracker._handle_callback_error", "kmcpy/simulator/kmc.py: KMC.run (production loop)"]}
{"id": "C110", "title": "A run with an external energy calculator is the run of an energy of the configuration", "statement": "If the user's calculator returns differences of one energy of the external occupation (before and after the proposed changes), the incrementally updated external array makes no difference: construction and every run give exactly the events, states, rate tables, trajectory and records of a simulation whose rates are computed afresh from the energy of the whole configuration. If that energy is local (a hop's cost depends only on the sites its event lists), the simulation can be constructed whenever the calculator can be initialised; on a connected network with an ion and a vacancy every run completes; and with probability one the time average of every quantity of the configuration tends to its Boltzmann average, the energy of an arrangement being the calculator's energy of its picture.", "quantifier": "every mapping of sites and states, calculator and calculator memory, barrier expansion, event library, starting state, plan of callbacks, number of passes and random stream; averages for almost every sequence of random numbers", "why_tests_cant": "The external array is updated hop by hop; a test compares it with a fresh computation after some hops only, and no test observes the infinite-time limit.", "anchors": ["kmcpy/models/site_energy.py: SiteEnergyModel.initialize_state, compute, apply_event", "kmcpy/models/composite_lce_model.py: CompositeLCEModel.compute_probability, apply_event", "kmcpy/simulator/kmc.py: KMC.update, KMC.run"]}
{"id": "C111", "title": "Only the ratio of energies to temperature matters", "statement": "Multiplying every energy of a rate model (fitted coefficients and constant terms of barrier and site expansions, every barrier of a local barrier model, every difference of a site-energy model) and the temperature by the same factor gives the same rate for every event in every state, the same exceptions, and therefore exactly the same simulation: same construction, same trajectory, same reported rows. Equally, energies may be given in another unit together with Boltzmann's constant.", "quantifier": "every factor other than zero, every model, temperature and attempt frequency, every event, state, kernel and stream of random numbers", "why_tests_cant": "A test compares two temperatures on one model; the claim is about every model, factor and whole history.", "anchors": ["kmcpy/models/composite_lce_model.py:CompositeLCEModel.compute_probability", "kmcpy/models/local_barrier_model.py:LocalBarrierModel.compute_probability", "kmcpy/models/local_cluster_expansion.py:LocalClusterExpansion.compute"]}
{"id": "C112", "title": "Events that can never happen make no difference", "statement": "If an event library contains, at any places, additional events whose rate is zero in every state the simulation can get into, the simulation has the same law as without them: every sequence of first events and waiting times has the same probability.", "quantifier": "every event library and rate model, every set of such events, every sequence of events and times, any source of independent uniform random numbers", "why_tests_cant": "Equality of laws cannot be settled by sampling, and the claim is about every library and every history.", "anchors": ["kmcpy/simulator/kmc.py:KMC.propose", "kmcpy/simulator/kmc.py:KMC.update", "kmcpy/event/event.py:EventLib.add_event"]}
{"id": "C113", "title": "A composite model file is checked in full before anything in it is loaded", "statement": "CompositeLCEModel.from_dict and from_file accept exactly the objects with the file type of kMCpy, the model type composite_lce, a kra part with an object lce and an object parameters holding keci and empty_cluster, and a site part that is missing, null, such a part too, or (without the key lce) an object model. Anything else is refused with the same exception whatever its parts would load to, so that nothing named in a malformed file is imported: ValueError, or TypeError for an unhashable file type. What is read is what the file says: the barrier expansion from kra, the site model from site with lce preferred to model, each fit record from its own part or blank when empty. What as_dict writes passes the check and is read back.", "quantifier": "every JSON value as content of the file, and everything the parts and imported classes may give", "why_tests_cant": "Tests try a handful of malformed files; the claim is about every JSON value and every way the loaders behave.", "anchors": ["kmcpy/models/composite_lce_model.py:CompositeLCEModel._validate_dict", "kmcpy/models/composite_lce_model.py:CompositeLCEModel.from_dict", "kmcpy/models/composite_lce_model.py:CompositeLCEModel.as_dict", "kmcpy/models/site_energy.py:SiteEnergyModel.from_file"]}
{"id": "C114", "title": "Properties registered, stopped or detached from inside a callback", "statement": "While the properties are sampled, callbacks may call the registration methods. One sampling calls functions of properties attached when it began, in order and each at most once; what is attached meanwhile waits for the next sampling. A callback that disables or detaches its own property is never called again unless the property is enabled again. As long as callbacks detach nothing, sampling raises nothing but the error of a failed callback. Detaching is not safe: a storing property that is detached by its own or an earlier callback in the same sampling is still called and ends the run with KeyError, and a property attached in its place under the same name receives the old function's value.", "quantifier": "every history of registrations and samplings, every behaviour of callbacks and error handlers including memory and calls that depend on the tracker", "why_tests_cant": "The calls, their order and their moment are arbitrary; tests try single cases.", "anchors": ["kmcpy/simulator/tracker.py:Tracker.sample_properties", "kmcpy/simulator/tracker.py:Tracker.attach", "kmcpy/simulator/tracker.py:Tracker.detach", "kmcpy/simulator/tracker.py:Tracker.set_property_enabled"]}
{"id": "C115", "title": "How fast an ion jumps to a vacant neighbour", "statement": "The rate at which a running simulation takes an ion from a site to a vacant neighbour (the probability that the next step does it over the mean time to the next step) is the sum of the model's rates of the listed events between the two sites, in whichever orientation they are listed, because every event acts both ways. In a supercell that is wide enough, generate_events lists each ordered pair at most once. If the identifiers choose disjoint origin and target sites, each hop is listed once and the jump has the model's Arrhenius rate, forwards and backwards. With a mapping only, each hop is listed in both orientations and every jump happens at twice the rate.", "quantifier": "every crystal, mapping, cutoff and supercell wide enough, every barrier, temperature and attempt frequency, every configuration the simulation gets into and every hop in it", "why_tests_cant": "A wrong absolute rate shows in no single step; it is a statement on the distribution of steps and times of every configuration.", "anchors": ["kmcpy/event/generators.py:EventGenerator.generate_events", "kmcpy/event/base.py:Event", "kmcpy/models/local_barrier_model.py:LocalBarrierModel.compute_probability", "kmcpy/simulator/kmc.py:KMC.propose"]}
{"id": "C116", "title": "A cluster expansion sees its surroundings through species and distances only", "statement": "A local cluster expansion built from a local environment contains a cluster of one to four sites exactly when all distances between its sites are below the cutoff for its size (three cutoffs are needed). All clusters that share a coefficient have the species and, up to |x-y| <= 0.001+0.001|y|, the distances of the first of them. If the distances of the environment are equal or differ by more than that, the clusters sharing a coefficient with a given one are exactly those congruent to it, so mirror images share their coefficient, and occupations related by a symmetry of the environment have the same value. A copy of the environment with the same species and distances (rotated, shifted, mirrored) gives the same terms, tables and fingerprints, but its model refuses parameters that carry the hash of the original if the hashes differ.", "quantifier": "every local environment, every cutoff list, every basis, every symmetry of the environment, every occupation, all coefficients", "why_tests_cant": "Which clusters are grouped is a statement on all pairs of clusters of every environment; a test sees one crystal.", "anchors": ["kmcpy/structure/cluster.py:Cluster", "kmcpy/structure/cluster.py:Orbit.fingerprint", "kmcpy/structure/cluster.py:ClusterMatcher", "kmcpy/models/local_cluster_expansion.py:LocalClusterExpansion.build", "kmcpy/models/local_cluster_expansion.py:LocalClusterExpansion.set_parameters"]}
{"id": "C117", "title": "Ions stay in the part of the event network they start in", "statement": "If the sites can be divided into parts such that no event of the library joins two parts, then after any run, finished or stopped by an exception, every part holds as many sites with each occupation value as before; a part that is completely full or completely empty never changes; and every tracked ion is on a site of the part it started the production phase in. If every event joins sites with the same coordinate along a lattice direction (up to whole cells), no ion's accumulated displacement has a component along that direction. The length of an ion's accumulated displacement is at most its counted hops times the longest hop of the library.", "quantifier": "every event library, division of the sites into parts, rate model, lookup, geometry (also skewed cells), random stream, pass lengths and counts, property plan, initial state, and every point at which an exception may stop the run", "why_tests_cant": "a test runs finitely many steps with one library and one stream of random numbers; the claim is about all of them, about all divisions of the network, and about runs stopped anywhere", "anchors": ["kmcpy/simulator/kmc.py:KMC.run", "kmcpy/simulator/kmc.py:KMC.update", "kmcpy/simulator/state.py:State.apply_event", "kmcpy/simulator/tracker.py:Tracker.update", "kmcpy/simulator/tracker.py:Tracker._record_mobile_ion_hop", "kmcpy/simulator/tracker.py:Tracker._wrapped_hop_displacement"]}
{"id": "C118", "title": "Transport results do not depend on how the crystal is described", "statement": "Rotating, mirroring or relabelling the Cartesian axes and moving the origin of the fractional coordinates changes nothing in a run but the components of the displacement vectors: outcome, states, ion sites, hop counts, sampled properties and all transport summaries are the same. Choosing another cell of the same lattice or other periodic images of the sites changes nothing at all, as long as the connections of all events are shorter than half a cell along every lattice direction in both cells. The condition is needed: for hops of exactly half a cell the listed periodic image decides the direction of the counted displacement and with it the jump diffusivity.", "quantifier": "every orthogonal change of axes, origin, integer change of cell, choice of periodic images, geometry, event library, rate model, lookup, random stream, pass counts, property plan and initial state, finished runs and runs stopped by an exception", "why_tests_cant": "a test compares finitely many pairs of descriptions of finitely many crystals on short runs; the exceptional case is a measure-zero set of geometries (exact ties) that occurs in practice only for small supercells", "anchors": ["kmcpy/simulator/tracker.py:Tracker._wrapped_hop_displacement", "kmcpy/simulator/tracker.py:Tracker.update", "kmcpy/simulator/tracker.py:Tracker._initialize_mobile_ion_tracking", "kmcpy/simulator/property.py:compute_transport_properties", "kmcpy/simulator/kmc.py:KMC.run"]}
{"id": "C119", "title": "Rates that overflow or are not numbers", "statement": "While the running sums of the rates and the waiting time stay within the range of floating-point numbers, the event chosen, the waiting time and the errors are those described by C01 to C03. If the running sum becomes infinite (an infinite rate, or finite rates too large to add up), the event at which this happens is executed whatever the random numbers are, and no time passes. If one rate is NaN, the first event of the list is executed whatever the random numbers and the other rates are, even if its own rate is zero, and the time becomes NaN and stays NaN; a run in which some event always has a NaN rate finishes, executes the first event in every step and ends, after an even number of steps, with the occupations it started with; properties sampled at time intervals are no longer sampled. A NaN temperature, which a configuration accepts, makes every rate of the local barrier model NaN. A hop that is possible never gets a NaN or negative rate from finite inputs, but a hop that is not possible gets NaN instead of zero from the local barrier model when the exponential overflows, or when the attempt frequency is infinite or NaN, which a configuration accepts; the composite model gives it zero.", "quantifier": "all floating-point formats with a monotone rounding and a largest number, all rate tables, all draws, all models and runs", "why_tests_cant": "the failure is silent: the run finishes normally, and which inputs trigger it depends on sums over the whole rate table", "anchors": ["kmcpy/simulator/kmc.py:_propose", "kmcpy/simulator/kmc.py:KMC.run", "kmcpy/models/local_barrier_model.py:LocalBarrierModel.compute_probability", "kmcpy/models/composite_lce_model.py:CompositeLCEModel.compute_probability", "kmcpy/simulator/property.py:should_trigger"]}
{"id": "C120", "title": "A fit ends up in the model it was made for", "statement": "If a local cluster expansion is fitted and the parameters are written to a parameter file, loading that file into the model succeeds, gives it exactly the coefficients and the constant of the fit and changes nothing else about it; for every training row that holds the model's features of an event's surroundings, the value the model then computes in a simulation is the value the fit predicted for that row. A model with other orbit fingerprints, or with another hash of the local environment, refuses the file, and so does every model with fingerprints for a file without coefficients; a model that refuses is left as it was. This holds for text files only: parameters with fingerprints, which is what a fit through the model always writes, do not survive an HDF5 file, and the model they were fitted for refuses them (or the file cannot be written at all); without fingerprints HDF5 works too.", "quantifier": "every model, data set, solver, option of the fit, file name, occupation and event", "why_tests_cant": "the chain runs through the fitter, a file format and the model; unit tests look at one link with one data set", "anchors": ["kmcpy/models/local_cluster_expansion.py:LocalClusterExpansion.fit", "kmcpy/models/local_cluster_expansion.py:LocalClusterExpansion.load_parameters_from_file", "kmcpy/models/local_cluster_expansion.py:LocalClusterExpansion.set_parameters", "kmcpy/models/local_cluster_expansion.py:LocalClusterExpansion.compute", "kmcpy/models/parameters.py:LCEModelParameters", "kmcpy/models/parameters.py:_decode_hdf5_value", "kmcpy/models/fitting/fitter.py:LCEFitter.fit"]}
{"id": "C121", "title": "Lattice structures made of another one: supercell, copy and active sites", "statement": "Making a lattice structure a supercell is accepted exactly when the diagonal of the matrix has the number of cells as its product; either way the object has the sites of the supercell afterwards, and a refused supercell leaves it with allowed species for another number of sites. After an accepted supercell of n cells of m sites, site k allows what site k mod m of the template allows although it is an image of site k / n, so the allowed species are right exactly when there is one cell or all sites of the template allow the same species; otherwise the supercell can refuse its own template or read a structure as another occupation. A copy of a lattice structure is the same lattice structure; a copy of a supercell has the right species on every site and the basis of the original, so writing an occupation as a structure is not affected. The lattice structure of the active sites has exactly the active sites of the supercell in their order, each allowing what its site of the template allows, with the basis of the whole lattice.", "quantifier": "every lattice structure, mapping, basis, supercell, matrix diagonal, active-site order and occupation", "why_tests_cant": "Whether the lists agree depends on the number of sites and cells and on the mapping; a test uses one cell, usually with one kind of site.", "anchors": ["kmcpy/structure/lattice_structure.py:LatticeStructure.make_supercell", "kmcpy/structure/lattice_structure.py:LatticeStructure.copy", "kmcpy/structure/lattice_structure.py:LatticeStructure.get_active_lattice_structure", "kmcpy/structure/lattice_structure.py:LatticeStructure.get_structure_from_occ"]}
{"id": "C122", "title": "Lengths and transport parameters enter the report with the right powers", "statement": "Running the same simulation with the same random numbers on a crystal enlarged by x, or reported with another dimension d', cell volume V', charge q' or hop distance a', gives the same outcome, final state, sites, hop counts, schedules and sampled properties. Displacements are multiplied by x, and in every summary row the mean squared displacement is multiplied by x^2, both diffusivities by x^2 d/d', the conductivity by x^2 (d/d')(V/V')(q'/q)^2, the correlation factor by x^2 (a/a')^2, while the Haven ratio is the same; values that are NaN stay NaN. Enlarging hop distance and volume with the crystal therefore multiplies diffusivities by x^2 and the conductivity by 1/x and leaves Haven ratio and correlation factor alone, and a wrong dimension, charge or hop distance puts its factor on exactly the results that use it.", "quantifier": "every simulation, rate model, event list, property plan, random sequence and run length; every positive factor x; all transport parameters with non-zero hop distance, volume, charge and dimension", "why_tests_cant": "A test compares one report with reference values computed by the same formula; that every row of every run scales so needs all runs.", "anchors": ["kmcpy/simulator/property.py:compute_transport_properties", "kmcpy/simulator/tracker.py:Tracker.update", "kmcpy/simulator/tracker.py:Tracker._compute_transport_summary", "kmcpy/simulator/kmc.py:KMC.run"]}
{"id": "C123", "title": "The simulation time in floating-point arithmetic", "statement": "The clock of a simulation is a float, and every step adds a rounded waiting time to it. If rounding has relative error at most u, a run with this clock that finishes makes exactly the hops, states, hop counts and displacements of the run with an exact clock (same model, random numbers and lengths), and its time t is within (1-u)^n t' <= t <= (1+u)^n t' of the exact time t', where n is the number of production steps; for Python floats (u = 2^-53, proved for rounding to 53 binary digits, ties to even) this means an error of at most n 2^-52 t' for up to 2^52 steps. The clock never goes back. But it may stand still: when the waiting times are at most 2^-(p+1) times the time shown (p binary digits), steps are counted and atoms move while the time does not change, after any number of steps.", "quantifier": "every rate model that ignores the clock, event list, geometry, property plan, random sequence, run length and start time; every rounding with relative error at most u, and rounding to p binary digits for every p", "why_tests_cant": "Errors of rounding add up over a run; a test of some steps shows neither the bound for all lengths nor the times from which the clock no longer moves.", "anchors": ["kmcpy/simulator/state.py:State.apply_event", "kmcpy/simulator/kmc.py:KMC._propose", "kmcpy/simulator/kmc.py:KMC.run", "kmcpy/simulator/property.py:should_trigger"]}
{"id": "C124", "title": "Floating-point event selection beside exact event selection", "statement": "Rates are added, normalised and compared with a random number in floating-point arithmetic. If one operation is right up to the fraction u, and n is the number of events, then: an event is selected with probability rate / (sum of rates) up to 4 n u; the random numbers for which the selected event is not the one of exact arithmetic have probability at most 2 n^2 u; the waiting time is the exact one, -log(r2) / (sum of rates), up to n + 2 roundings. A simulation in floating-point arithmetic and one in exact arithmetic that are given the same independent uniform random numbers make the same hops for N steps, and finished runs report the same displacements and hop counts, with probability at least 1 - N 2 n^2 u, and their clocks then agree up to n + 2 + N roundings. But the relative error of a small probability is not bounded: with p binary digits an event is never selected, whatever the random number, when an event before it in the list is 2^(p+1) times as fast.", "quantifier": "every list of rates that are not negative and not all zero, every random number; every rate model that ignores the clock, event list, geometry, property plan and run length; every rounding with relative error at most u, and rounding to p binary digits for every p", "why_tests_cant": "A test compares frequencies of some thousand selections with tolerances far above 2^-53; the bound is about all random numbers, all rate tables and runs of any length, and the events that are never selected do not show as a failure.", "anchors": ["kmcpy/simulator/kmc.py:KMC._propose", "kmcpy/simulator/kmc.py:KMC.propose", "kmcpy/simulator/kmc.py:KMC.update", "kmcpy/simulator/kmc.py:KMC.run"]}
{"id": "C125", "title": "What the coefficients of a cluster expansion are determined by and what they can reproduce", "statement": "Take a local cluster expansion built with either basis, for a local environment in which every site can hold at least two species. (1) Two accepted coefficient sets that give the same value for every arrangement of the local species are the same set, constant term included. (2) If all groups of local sites are within the cutoffs and no two groups are equivalent, every table of values over the arrangements is returned exactly with some coefficients. (3) A sum of interactions, each among a group of sites all of whose subgroups are within the cutoffs, is returned exactly with some coefficients if no two groups in the model are equivalent. (4) With two species per site the same holds when groups are equivalent, if each equivalence comes from a permutation of the sites that leaves the sum unchanged. (5) For every group that the model leaves out, because it has more than four sites or is longer than its cutoff, there is a table depending on that group only that no coefficients reproduce. With a site that can hold one species only, (1) fails.", "quantifier": "every geometry, cutoffs, number of species per site (at least two), both bases, every accepted coefficient set, every event with distinct local sites, every table of real values over the arrangements of the local species", "why_tests_cant": "The statements are about all tables and all coefficient sets. A test fits one data set and checks one residual; it cannot show that no other coefficients give the same values, nor that some interaction is out of reach of all coefficients.", "anchors": ["kmcpy/models/local_cluster_expansion.py:LocalClusterExpansion.build", "kmcpy/models/local_cluster_expansion.py:LocalClusterExpansion.compute", "kmcpy/models/local_cluster_expansion.py:LocalClusterExpansion.set_parameters", "kmcpy/structure/basis.py:OccupationBasis", "kmcpy/structure/basis.py:ChebyshevBasis"]}
{"id": "C126", "title": "What a simulation reports for ions that only block each other", "statement": "Take a connected network of M sites with N ions and V vacancies (no other species), where z hops of length a lead out of every site and cancel, and every hop of an ion to a vacant site has the same rate nu, whatever the other sites hold. Then (1) in every configuration the hops weighted by their rates cancel; (2) the squared length of the sum of all reported displacements is on average the number of production steps times a squared, for any number of ions; (3) for almost every sequence of random numbers the reported number of hops per simulated time tends to nu z N V/(M-1); (4) the averaged squared collective displacement over 2 d N and the simulated time tends to z nu a^2/(2d) times V/(M-1). A model with a constant barrier is such a system on every lattice whose sites have z cancelling ways out, with nu the Arrhenius rate.", "quantifier": "every network, every number of ions and vacancies, every rate model with the stated rates, every starting arrangement and start time, every pass length and number of equilibration passes, almost every sequence of random numbers, all run lengths", "why_tests_cant": "The values are limits over run lengths and averages over all random sequences. A test compares one run with one seed to a tolerance and cannot tell a blocking factor V/(M-1) from V/M on a large cell.", "anchors": ["kmcpy/simulator/kmc.py:KMC.run", "kmcpy/simulator/kmc.py:KMC.propose", "kmcpy/simulator/tracker.py:Tracker", "kmcpy/simulator/state.py:State.apply_event", "kmcpy/models/local_barrier_model.py:LocalBarrierModel.constant_barrier"]}
{"id": "C127", "title": "What an interrupted or refused export of fitting data leaves for the fit", "statement": "write_fitting_inputs writes three text files one after the other and fit reads them. (1) After a complete export the fit works with exactly the exported numbers, whatever the folder held before. (2) If the folder had no weight file, then a folder left by a crash at any character is refused by the fit, or is used with the exported correlations and energies and with the exported weights up to the last one; the last weight can be another number, because its text may be cut. (3) Over an earlier export of more entries, a folder left by a crash is refused or is one of the two exports up to the last weight. (4) Over an earlier export of the same number of entries, or of fewer, a crash can leave a folder that the fit accepts although it mixes the two exports. (5) A list of weights of the wrong length is refused only after the correlations and energies have been replaced, so the folder is then such a mixture. (6) Without entries nothing is written, and no other file is ever touched.", "quantifier": "every data set and every earlier data set, every content of the folder, every file name, every point of interruption down to single characters, every way of writing numbers that reads back and has no spaces or line ends", "why_tests_cant": "The claim ranges over all crash points of all exports over all earlier contents. A test would have to kill the process at a chosen character, and the harmful outcome raises no error.", "anchors": ["kmcpy/io/neb/data.py:NEBDataLoader.write_fitting_inputs", "kmcpy/io/neb/data.py:NEBDataLoader._as_weight_array", "kmcpy/models/fitting/fitter.py:LCEFitter.fit"]}
{"id": "C128", "title": "A longer run does not make the reported correlation factor more accurate; more runs do", "statement": "Without drift and preferred direction in d dimensions, over the random numbers: (1) the squared length of the summed displacement of all ions after n production steps of hop length a has the mean n a^2 and the mean squared deviation (2/d) n (n-1) a^4. (2) Ions that can only move along one line are such a case with d = 1, however many they are and however they influence each other; a lone ion is such a case if the ways out of every site have no preferred direction. (3) For a lone ion the correlation factor reported by one run is off from its mean 1 by (2/d)(1 - 1/n) in the mean square, which is at least 1/d for every run of two or more steps: it does not shrink with the length of the run. (4) The average over K runs with independent random numbers has the K-th part of the mean squared deviation of one run, and so the average of K reported correlation factors has the mean 1 and the mean squared error (2/d)(1 - 1/n)/K.", "quantifier": "every simulation with exact arithmetic whose hops have one length, no drift and no preferred direction, every number of ions, dimension, equilibration, number of passes and pass length, every number of runs, all random numbers", "why_tests_cant": "The spread of a result over all random numbers is an integral over infinite sequences. Test runs give a few samples with fixed seeds, and a sample says little about its own spread.", "anchors": ["kmcpy/simulator/kmc.py:KMC.run", "kmcpy/simulator/tracker.py:Tracker.update", "kmcpy/simulator/tracker.py:Tracker._compute_transport_summary", "kmcpy/simulator/property.py:compute_transport_properties"]}
{"id": "C129", "title": "What an interrupted simulation leaves in the folder, and gathering the results of many runs", "statement": "run writes its result files only when all passes are done, one file after the other. (1) A run that ends in an exception, at any step, leaves the folder exactly as it was. (2) After a finished run its results are read back, whatever the folder held. (3) If the folder had no files of the label, then after a crash at any point of the writing a table that can be read is this run's and the arrays beside it are complete, and property records that can be read are all of this run's. (4) Files of other labels are never touched. (5) gather_data on the result files of a series of runs, any of which may have been interrupted, raises an error or returns exactly the lines of these runs, each with the composition and index of its file and its number in the file; with complete tables it succeeds. (6) Over an earlier run with the same label and number of passes a crash can leave readable files that mix both runs, or the old results with an empty displacement array; and a crash before the property records are written leaves the folder of a run without records.", "quantifier": "every simulation, label, number of passes, callback and random numbers, every content of the folder, every point of interruption, every series of runs in every order of gathering", "why_tests_cant": "The claim ranges over all crash points of all runs over all earlier contents; the harmful outcomes raise no error.", "anchors": ["kmcpy/simulator/kmc.py:KMC.run", "kmcpy/simulator/results.py:write_tracker_results", "kmcpy/tools/gather_kmc_data.py:gather_data"]}
{"id": "C130", "title": "What the graphical commands start", "statement": "(1) The event form starts exactly one generation of events with the structure file, ions, mapping, supercell, tolerances, flags and output file of the form, unchanged; the primitive cell is taken exactly on 'yes', the nearest environment is accepted exactly on 1/true/yes/y in any case. (2) A cutoff text A,B,r;C,D,s;... in which no pair is repeated is read as exactly these entries, and every pair of species then uses the distance entered for it in either order, or none. (3) An entry with fewer than three parts, an empty text or a trailing semicolon makes the command fail. (4) No command starts anything but a generation of events or a simulation: the forms for cluster expansions and for fitting end in an exception whatever is entered. (5) If a pair is repeated the last entry does not always count, and blanks after the separators make an entry ineffective without an error.", "quantifier": "every content of every form, every cutoff text without repeated pairs, every reader of literals and numbers", "why_tests_cant": "The claim ranges over all texts a user can enter; an ineffective cutoff raises no error but changes the environments.", "anchors": ["kmcpy/cli/gui_wrapper.py:main"]}
{"id": "C131", "title": "Memory only slows the ions down", "statement": "With balanced rates and a start in equilibrium, the squares of the displacements that the tracker reports for the ions add up, on average over the starts and the random numbers, to at most the square of the longest hop for every production step, whatever the number of steps. The same bound holds for the square of the sum of the displacements. Both quantities, divided by the number of steps, have a limit as the run gets longer, which depends neither on the lengths of the passes nor on the random numbers. So the sum of the squares divided by the square of the hop distance times the counted hops, a correlation factor, is at most one on average. From one start alone the bound can be exceeded.", "quantifier": "all orders of active sites, event libraries, models with balanced positive rates, geometries, property plans, numbers of equilibration and production passes, lengths of passes, and all independent uniform random numbers", "why_tests_cant": "the claim is about means over all random numbers and all starts, for every number of steps and in the limit of infinitely many; a test sees single runs of one system", "anchors": ["kmcpy/simulator/kmc.py: KMC.run, KMC.propose", "kmcpy/simulator/tracker.py: Tracker.update", "kmcpy/simulator/property.py: compute_transport_properties"]}
{"id": "C132", "title": "Orbits taken alone agree with the expansion", "statement": "The function of an orbit made by attaching clusters is the mean, over these clusters, of the product of the occupations of their sites, and does not depend on the order in which the clusters were attached. With occupations between -1 and 1 it lies between -1 and 1. A new orbit raises ZeroDivisionError; an occupation in which a site cannot be looked up raises IndexError, and nothing else is refused. For an expansion built in the occupation basis the correlations are exactly the functions of its orbits times their multiplicities, in the order of the orbits. Writing an orbit and reading it back keeps its function. A multiplicity stated wrongly in a file is believed, and in the Chebyshev basis, whose occupations are state numbers, the functions of the orbits are not the correlations.", "quantifier": "all lists of clusters, orders of attaching, occupations, local environments, cutoffs and comparisons of clusters", "why_tests_cant": "the equality has to hold for every environment, grouping of clusters and occupation; a test compares a few numbers of one expansion", "anchors": ["kmcpy/structure/cluster.py: Orbit.attach_cluster, Orbit.get_cluster_function, Orbit.cluster_site_indices, Cluster.get_cluster_function, Orbit.from_dict", "kmcpy/models/local_cluster_expansion.py: LocalClusterExpansion.build, _calc_corr"]}
{"id": "C133", "title": "Tracked displacements in floating-point arithmetic", "statement": "When every operation on coordinates is rounded with relative error at most u, the hops of a completed run leave the ions on the same sites and with the same hop counters as exact arithmetic, provided no hop spans, along any axis, half a cell up to a fraction u. The displacement of an ion that has made n hops is then off by at most (1+u)^n u S (6 n + n (n+1)/4) along an axis along which the lattice vectors extend by S in total; for Python floats the factor (1+u)^n is at most 2 up to 2^52 hops. An ion that never hopped has displacement exactly zero, and a hop and the same hop back are recorded as exactly opposite. For two sites half a cell apart up to 2^-60 the rounded hop goes the other way round, and the displacement is off by a whole lattice vector.", "quantifier": "all relative roundings with error at most u, rate kernels and models, structures with wrapped coordinates, property plans, numbers of equilibration and production passes, and draws", "why_tests_cant": "the bound has to hold for every run length and geometry; a test compares the end of one short run", "anchors": ["kmcpy/simulator/tracker.py: Tracker.update, _wrapped_hop_displacement", "kmcpy/simulator/kmc.py: KMC.run"]}
{"id": "C134", "title": "Bases registered by users", "statement": "A name given to register_basis stands for the class registered last under it, and an unknown name raises ValueError. An occupation is made with a name exactly when the class can be constructed and, if checked, all values are valid; a basis whose match value is an integer keeps of every value only the part before the decimal point. Converting an occupation to another basis and back keeps the mismatch value and turns every other value into the match value, so that it is without loss exactly for data with two values. Flipping a site exchanges match and mismatch there and nowhere else, flipping it again restores the data, and every site of two-valued data is counted once. Two occupations in whatever bases are equivalent exactly when they have the mismatch value on the same sites. A value refused by assignment raises ValueError and stays in the occupation. A basis is read back from its dictionary as itself if its class is the first registered of its class name and takes back the entries it adds. An occupation made with a name equals its own copy exactly when the basis is registered under the name derived from its class. The built-in occupation basis accepts every number between -1 and 2; a basis with the values 1 and -1/2 refuses its own mismatch value; a basis with no more than the abstract interface has no zeros, ones, or counts of occupied sites; and of two classes with one class name both are read back as the first.", "quantifier": "all registries, sequences of registrations, basis classes with integer or fractional values, data, names and positions", "why_tests_cant": "the registry is open: the statements have to hold for classes that nobody has written yet, not only for the two built-in ones", "anchors": ["kmcpy/structure/basis.py: register_basis, get_basis, BasisFunction.as_dict, BasisFunction.from_dict, Occupation.__init__, Occupation.copy, Occupation.__eq__, Occupation.__ne__, Occupation.array_equal, Occupation.flip, Occupation.to_basis, Occupation.__setitem__, Occupation.zeros, Occupation.ones"]}
{"id": "C135", "title": "The diffusivity that simulations approach", "statement": "With balanced rates and a start in equilibrium at time zero, the mean simulation time at the end of a run is exactly the number of production steps divided by the mean total rate, the mean being that over all reachable configurations with the balancing (Boltzmann) weights; equilibration takes no time. The mean of the summed squared displacements of the ions divided by the mean time is at most the square of the longest hop times that mean rate and tends to a limit as runs get longer, which does not depend on how steps are grouped into passes, on the length of the equilibration or on the source of random numbers. The same holds for the square of the summed displacement, the collective quantity.", "quantifier": "all orders of active sites, event libraries, models with balanced positive rates, geometries, property plans, numbers and lengths of passes, and all independent uniform random numbers", "why_tests_cant": "the claim is about means over all starts and all random numbers and about the limit of long runs, which no finite set of simulations settles", "anchors": ["kmcpy/simulator/kmc.py: KMC.run, KMC.propose, KMC.update", "kmcpy/simulator/state.py: State.apply_event", "kmcpy/simulator/tracker.py: Tracker.update"]}
{"id": "C136", "title": "Rates in floating-point arithmetic", "statement": "The value that LocalClusterExpansion.compute returns differs from the exact one by at most s+c+k+2 roundings of the sum with all signs removed, where clusters have at most s sites, orbits at most c clusters and the expansion k features; it raises exactly the exceptions of the exact computation. CompositeLCEModel.compute_probability returns a rate within two explicit factors of the exact Arrhenius rate (within 1e-9 for Python floats, fewer than 1000 roundings and barriers below 1000 kT). Without a site model a hop and its way back have bitwise the same rate and lower barriers never get smaller rates, so that the simulation with rounded rates still spends equal time in all arrangements; with a site expansion the ratio of the two rates is the Boltzmann factor up to the accuracy of rates. The chances of the next configuration and the mean time to the next step differ from those with exact rates by no more than these factors.", "quantifier": "all expansions (occupation products or site basis functions), parameters, occupations, events, temperatures and frequencies, all monotone roundings of a relative accuracy, all exponential functions of a relative accuracy, and all simulation states reachable with these", "why_tests_cant": "rounding errors depend on every number involved; tests compare a few rates with a tolerance and cannot bound the errors or their effect on chances for all models and states", "anchors": ["kmcpy/models/local_cluster_expansion.py: LocalClusterExpansion.compute, _calc_corr, _calc_corr_decorated", "kmcpy/models/composite_lce_model.py: CompositeLCEModel.compute_probability, _compute_site_energy_difference"]}
{"id": "C137", "title": "A whole simulation in floating-point arithmetic follows the exact one", "statement": "Run a simulation in floating-point arithmetic (rates, running sums, choice of the event, clock and displacements rounded) and one in exact arithmetic with the same random numbers. If the exact one can be constructed, so can the other. As long as the random numbers stay more than 2nu + (1 - a²) away from the points at which the choice changes (n events, relative accuracy u, rates right up to the factor a), both make the same hops; this fails with probability at most N·2n·(2nu + 1 - a²) in N steps. Then occupations and hop counts agree, clocks agree up to a and n+2+N roundings, and displacements up to the bound of C133. For a composite model of cluster expansions a is the factor of C136; for Python floats and barriers below 1000 kT the chance of any difference is at most N·2n·(n/2^52 + 2e-9).", "quantifier": "all event libraries, starting configurations, rate models whose rates are right up to a factor (in particular all composite models of expansions, with or without site basis functions), temperatures, frequencies, numbers of equilibration and production passes, geometries, and all random numbers up to a set of stated probability", "why_tests_cant": "a rounded rate can tip the choice of an event and two trajectories then part for good; no finite number of runs shows that the chance of this stays below a bound for all models and lengths of runs", "anchors": ["kmcpy/simulator/kmc.py: KMC.propose, KMC.update, KMC.run", "kmcpy/simulator/state.py: State.apply_event", "kmcpy/models/composite_lce_model.py: CompositeLCEModel.compute_probability", "kmcpy/models/local_cluster_expansion.py: LocalClusterExpansion.compute", "kmcpy/simulator/tracker.py: Tracker.update"]}
{"id": "C138", "title": "Local barrier models in floating-point arithmetic", "statement": "Let every operation of LocalBarrierModel.compute_probability be rounded (relative accuracy u <= 1/2) and the exponential function be right up to a factor 1 ± ε. If the exact rate exists, the rounded one exists and lies between (1-u)(1-ε)exp(-η) and (1+u)(1+ε)exp(η) times it, where η = ((1+u)^3 - 1) b/(kB T) for barriers of at most b. It raises exactly the exceptions that exact arithmetic raises and leaves the domain of finite rates for the same barriers. If the library exponential is monotone, a lower barrier never gives the smaller rate, and equal barriers give bitwise equal rates. A finite barrier gives rate zero exactly to forbidden hops. Such a model satisfies what the simulation theorems ask of a rate model. With Python floats and barriers of at most 1000 kT rates are right up to 1 - 1e-12, and N steps make the hops of exact arithmetic except with probability N·2n·(n/2^52 + 2e-12).", "quantifier": "all local barrier models (rules of every kind, defaults), events, occupations, temperatures, representable frequencies, and for simulations all libraries, starting configurations, lengths and random numbers", "why_tests_cant": "equality or order of two rounded rates, or agreement of trajectories, can fail for one barrier or random number in 2^53; tests compare with a tolerance on a few literals", "anchors": ["kmcpy/models/local_barrier_model.py: LocalBarrierModel.compute_probability, LocalBarrierModel.compute", "kmcpy/simulator/kmc.py: KMC.propose, KMC.update"]}
{"id": "C139", "title": "What the fingerprint of a cluster identifies, and what saving does to the data kept with its sites", "statement": "Two clusters have the same fingerprint exactly if their labels agree in the order of listing and all distances agree after rounding to eight decimals. Clusters with equal fingerprints match and compare equal. The fingerprint returned by match_clusters is that of the candidate listed in the order of the reference; it is the reference's fingerprint exactly if corresponding distances agree after rounding. If the match is unique it does not depend on how the candidate's sites are listed, and a relisted copy of the reference gets the reference's fingerprint. Neither holds without uniqueness, and equal clusters can have different fingerprints. Saving a cluster keeps scalar entries of the site data, turns tuples and arrays into lists and drops the entry site. Loading and saving again changes the data unless they hold scalars only: lists, in particular lattice images, become texts; from the second saving on nothing changes.", "quantifier": "all clusters of any number of sites with any labels and symmetric distances, all tolerances and options, all listings of sites, all dictionaries of site data", "why_tests_cant": "whether a fingerprint is independent of the listing depends on all permutations of all clusters; tests compare fixed clusters, and a single save and load hides the change made by the second one", "anchors": ["kmcpy/structure/cluster.py: Cluster.fingerprint, ClusterMatcher.match, ClusterMatcher.ordered_candidate_indices, match_clusters, Cluster.as_dict, Cluster.from_dict, _json_safe_metadata"]}
{"id": "C140", "title": "What the data file of a fit says about the calculations it was made of", "statement": "Any sequence of add_structure and add_structures calls, successful or refused, determines one list of accepted calculations, all with features of one length. A structure is accepted exactly if it can be read, its value is a number, a model is known and its features fit those before. add_structures with sequences of different lengths changes nothing; otherwise it adds the structures in order until the first that is refused, those before it stay, and structure, value and metadata at one position belong together. The file written by to holds the accepted calculations in order: row k of both matrices, property k and metadata k belong to the k-th of them, and the count is their number; a refused call leaves no trace in it, and the tables written for the fit hold the same numbers. The metadata are the caller's, with the path added for structures read from a file unless the caller used that key. An empty data set is refused and nothing is written. While the file is written all other files are untouched. The model named in the file is that of the last accepted calculation, which need not be the model the other rows were computed with; and if some metadata cannot be written as JSON, the call raises and an older complete file at that path is replaced by an incomplete one.", "quantifier": "all models, references, structures, values, metadata and reading options, all sequences of calls with any outcomes, all folders and file contents, all crash points", "why_tests_cant": "the pairing of rows, values and metadata must hold after every history of accepted and refused calls; tests add a few valid structures and read the file once", "anchors": ["kmcpy/io/neb/data.py: NEBDataLoader.add, NEBDataLoader.add_structure, NEBDataLoader.add_structures, NEBDataLoader.to, NEBDataLoader._resolve_model, NEBEntry.from_structure, _load_structure_source"]}
{"id": "C141", "title": "Which models have an equilibrium with detailed balance", "statement": "For a simulation whose model gives every possible hop a positive rate, there are positive weights of the configurations that balance every hop against its way back exactly if, along every closed sequence of hops, the product of the rates forward equals the product of the rates back; between configurations joined by hops the weights are then fixed up to one factor. With a composite model whose barrier expansion does not see the endpoints, and with whatever site model, the ratio of a hop's rate to that of its way back depends on the site model only through half of (the reported difference of the hop minus that of its way back). Call the sum of these halves along a sequence of hops the work. Then an energy of the configurations whose Boltzmann weights balance all hops exists exactly if the work along every closed sequence is zero; its differences are the work along any sequence between the two configurations, and the stationary regimes of the simulation are those that spend their time in proportion to its Boltzmann weights. A constant reported difference (constant_site_energy_difference) of any size and sign is no driving force: it is the model without site energies at another attempt frequency, and all configurations have equal weight. A site expansion with one nonzero value for all hops of a ring has no balancing weights at all, at any temperature.", "quantifier": "all simulations that meet the set-up of C90, all rate models, all site models without memory, all barrier expansions, all temperatures and attempt frequencies, all configurations and sequences of hops of any length", "why_tests_cant": "it is about all closed sequences of hops in the whole configuration space and about the existence of weights; a test can only compare rates of single hops", "anchors": ["kmcpy/models/composite_lce_model.py: CompositeLCEModel.compute_probability, CompositeLCEModel._compute_site_energy_difference", "kmcpy/models/site_energy.py: constant_site_energy_difference"]}
{"id": "C142", "title": "The state that a file gives a simulation to start from", "statement": "State.from_file reads a JSON file as follows. If the file has occupations, these are the state's values (reduced to the active sites if an order is given and the list is as long as the full structure), whatever else is in the file and whatever selection is asked for; time and step of the file replace the caller's. Otherwise, if it has occupation, then with an active-site order a list with one value per active site is taken as it is, one with one value per site of the supercell is reduced to the active sites in their order, and any other length is refused. Without an order the call succeeds exactly if sites are selected, the shape has three components, none zero, the number of values is a multiple of the number of cells and all selected numbers (negative ones counted from the end) are sites of the unit cell; the state then holds, in the order of the selection, the values of all copies of each selected site. For the order of a structure both ways give the same state. A file without values, other JSON, an incomplete file or another ending is refused. A time or step in an initial-state file (occupation) has no effect.", "quantifier": "all files and contents, all lists of values, shapes, selections and active-site orders built from structures, all times and steps", "why_tests_cant": "which value lands on which site must be right for every cell, supercell and selection; tests read one or two small files", "anchors": ["kmcpy/simulator/state.py: State.from_file, State._initial_occupation_from_payload, State.from_occupations", "kmcpy/structure/active_site_order.py: ActiveSiteOrder.select_active_values, ActiveSiteOrder.from_structure_and_mapping"]}
{"id": "C143", "title": "A rule of a local barrier model means what its dictionary says", "statement": "A dictionary given as a rule of a local barrier model (in a model file, in the list of rules, or to add_rule) is accepted exactly if it says something as a rule, and the rule added is the one it says. The type is the named one, or follows from the keys in the order exact, pattern, species count, state count, constant. Its properties are those under 'properties' plus 'barrier' unless there is a barrier among them already; at least one, all numbers with names that are not blank. Sites are a selector word, a list, or the default of the type. States are numbers that are not negative or words. Counts are an exact number, or a lower bound, an upper bound or both. A list of rules gives one rule per element in their order, unnamed ones called rule_k. The species table follows the same rules, later keys overriding earlier ones. Keys that are not known are passed over, so a rule without a type whose condition has a misspelt key applies to every event.", "quantifier": "all dictionaries with text keys (name a text or absent, properties a dictionary or absent), all lists of rules, all models they are added to, all species tables", "why_tests_cant": "the meaning depends on the presence and form of a dozen keys at once, including blanks and capital letters in texts; tests try a few well-formed rules", "anchors": ["kmcpy/models/local_barrier_model.py: LocalBarrierModel.add_rule, LocalBarrierModel.build, LocalBarrierModel.from_dict, _normalize_rule, _coerce_rule_type, _properties_from_rule, _normalize_sites_spec, _normalize_count_constraints, _normalize_state_value, _normalize_site_species"]}
{"id": "C144", "title": "A failing property callback stops a sampling at its place and nothing before it is lost", "statement": "At a sampling opportunity the attached properties that have their turn are called in the order they were attached. The sampling succeeds exactly if each of them returns a value or has an error handler that answers 'go on'; otherwise it raises a callback error at the first that does not. The properties attached before that one keep the records of this opportunity; it and those after it are as they were. The summary comes first and is kept either way: when it has its turn, the current info is the row of this moment. After a success the latest value and last record of a stored property that had its turn are the ones of this opportunity, and those of the others are unchanged. Records can be asked for exactly the attached names.", "quantifier": "all histories of attaching, detaching, enabling, frequency changes, runs and samplings; all callbacks and error handlers; all states, steps and times", "why_tests_cant": "which callback fails, what its handler answers and which other properties have their turn at the same moment combine freely; tests try one failing callback alone", "anchors": ["kmcpy/simulator/tracker.py: Tracker.sample_properties, Tracker._handle_callback_error, Tracker._latest_property_value, Tracker.get_property_records, Tracker.return_current_info, Tracker._sample_transport_summary", "kmcpy/simulator/property.py: should_trigger, append_record"]}
{"id": "C145", "title": "The listing of property calculations says what a sampling computes", "statement": "list_property_calculations names every built-in quantity exactly once, as enabled or disabled according to its flag, in the fixed order; and every attached property exactly once, as enabled or disabled, in the order they were attached. While a run is under way its tracker gives the same listing as the simulation. A property listed as disabled gets no record at a sampling, whether the sampling succeeds or fails because of another property.", "quantifier": "all histories of attaching, detaching, enabling, frequency changes, runs and samplings; all callbacks, states, steps and times", "why_tests_cant": "plan and tracker keep their own copies of flags and properties, changed by every call in any order; tests compare them after one or two calls", "anchors": ["kmcpy/simulator/property.py: describe_property_calculations, PropertyPlan.list_property_calculations", "kmcpy/simulator/tracker.py: Tracker.list_property_calculations, Tracker.sample_properties"]}
{"id": "C146", "title": "An event saved to its own file is read back, and a library is read by position", "statement": "After any sequence of Event.to calls, Event.from_file under a name gives the event last saved there when its fields are tuples of integers; files under other names are untouched and a name never used is not found. In general reading succeeds exactly when both stored fields can be iterated over and gives tuples of their entries; a dictionary is read the same way, with an empty tuple for a missing key, and fails with TypeError only for a field that cannot be iterated over. An event library has as many events as were added, and library[i] is the event added at that place, counted from the end for negative i; any other i raises IndexError. The code does not satisfy two stronger readings, which are refuted: an event built with lists comes back with tuples, and a dictionary without the two keys is read as an event with no sites.", "quantifier": "all histories of saves under any names, all event objects, all dictionaries and parsed files, all libraries and indices", "why_tests_cant": "tests save and read one event of integer tuples; which values survive and what a foreign file gives depends on every type a field can have", "anchors": ["kmcpy/event/base.py: Event.as_dict, Event.to, Event.from_file, Event.from_dict, EventLib.get_event, EventLib.__getitem__, EventLib.__len__"]}
{"id": "C147", "title": "The table of transport data is complete or not made", "statement": "collect_transport_data gives exactly one row for each of the given folders and each pass from 0 to 1999, folders first, at position 2000 i + n; the row holds the four numbers of that pass's file, composition and number from the folder's name, and the jump diffusivity times the thermodynamic factor. It does so exactly when every one of these files can be read; otherwise there is no table, and the error is that of the first folder and pass that has no row. The claim that runs of this package can be tabulated is refuted: writing results never makes a file of the name that is looked for.", "quantifier": "all lists of folders, all contents of the files, all readings of names and numbers, all histories of writing results", "why_tests_cant": "which rows are made depends on 2000 files per folder and on every name; a test has one folder, and no test runs this script on the files of a run", "anchors": ["kmcpy/tools/get_data.py: collect_transport_data, compute_chemical_diffusivity", "kmcpy/simulator/results.py: write_tracker_results"]}
