{
 "C05": {
  "note": "State.apply_event, KMC.update histories and whole runs, including failed steps."
 },
 "C08": {
  "note": "For every rate model that is local to the sites an event lists, including models with a cache that is correct after initialise/apply."
 },
 "C09": {
  "note": "The unguarded precondition: three concrete stale-table executions."
 },
 "C11": {
  "status": "partial",
  "note": "The dictionary round trip loses an empty dependency list (C11_empty_dependencies_lost), so it is proved for libraries whose dependency list is absent or non-empty. Everything else is proved in full."
 },
 "C13": {
  "note": "C13_mixed_order_hop_does_not_move shows the equal-numbering hypothesis is needed."
 },
 "C14": {
  "status": "partial",
  "note": "Proved when both endpoints list the mobile ion and the vacancy at the same position of their allowed-species lists. C14_mixed_order_transmutes proves that the code violates the property without it."
 },
 "C19": {
  "note": "Callbacks cannot mutate the state in the model; this is the property's proviso. C19_tolerant_plans_do_not_interfere needs no hypothesis on the outcome."
 },
 "C15": {
  "status": "partial",
  "note": "Proved for whole runs when both endpoints of every event allow the same species list and the rate model gives rate zero to impossible hops. C15_mixed_order_breaks_tracker proves the property false for endpoints that list their species in different order."
 },
 "C18": {
  "note": "C18_not_shortest_in_skewed_cell records that the component-wise minimum image need not be the shortest vector in space."
 },
 "C06": {
  "note": "Step and time accounting for any kernel; monotone time for the real selection arithmetic with any monotone rounding."
 },
 "C21": {
  "status": "partial",
  "note": "Proved for plans with a global time interval and no global step interval. C21_inherited_step_interval_fires_early proves the full statement false: a property that gives only a time interval inherits a step interval. C58_effective_schedule proves the complete firing rule for every plan."
 },
 "C57": {
  "note": "For plans without global frequency, as in the statement."
 },
 "C59": {
  "status": "partial",
  "note": "Proved for runs that start at time zero. C59_late_start_underestimates proves that the reported value is too small in every other case with collective displacement; C59_rows_use_absolute_time states exactly what the rows contain."
 },
 "C25": {
  "note": "Real-number arithmetic, infinite time allowed; floating-point rounding of the formulas is outside the model."
 },
 "C26": {
  "note": "Real-number arithmetic. C26_run_correlation_bound is the bound for whole runs."
 },
 "C41": {
  "note": "Over all templates, mappings and shapes; from_dict(as_dict) is the identity."
 },
 "C43": {
  "note": "For positive shapes, which _normalize_supercell_shape guarantees."
 },
 "C44": {
  "note": "lattice_points_in_supercell of pymatgen is assumed to list the box with the last coordinate fastest; the loader's labelling loop is modelled and shown to give distinct local indices."
 },
 "C45": {
  "note": "The neighbour search, signature and environment matcher are parameters; the matcher is assumed to return permutations (C49). Success, completeness, soundness and translation invariance are all proved."
 },
 "C61": {
  "note": "C61_small_supercell_lists_twice and C61_small_supercell_self_hop prove that the condition on the supercell is needed and not checked by the code."
 },
 "C62": {
  "note": "SHA-256 is a parameter assumed injective on payloads."
 },
 "C27": {
  "note": "C27_keywords_routed gives the value of every field after construction; sections passed in must be configuration objects."
 },
 "C28": {
  "status": "partial",
  "note": "Every configuration built from keywords, dictionaries, other configurations and chains of changes is valid up to NaN, and construction succeeds exactly on such values. Missing because the code disagrees: NaN passes the checks (C28_nan_accepted) and from_dict takes any value as a ready-made section (C28_raw_section_accepted)."
 },
 "C29": {
  "note": "The literal reading fails for a tuple shape (C29_default_shape_changes)."
 },
 "C30": {
  "note": "The exception is proved necessary (C30_bare_name_unreadable); HDF5 files are loaded without a length check (C30_h5_length_unchecked)."
 },
 "C63": {
  "note": "The excluded name is proved to fail (C63_task_named_type)."
 },
 "C64": {
  "note": "In-place overwriting is not crash safe: C64_overwrite_can_lose_checkpoint."
 },
 "C31": {
  "status": "proved",
  "note": "Whatever compute returns is the first describing rule's value or the default; conversely it is returned whenever the rules up to it can be evaluated; no describing rule and no default always raises; any later additions, accepted or rejected, change nothing."
 },
 "C32": {
  "status": "proved",
  "note": "Also proved: counts do not depend on the order of sites (Perm), state words, and that the duplicate check of exact rules rejects a rule for a different event (C32_duplicate_check_too_strict)."
 },
 "C33": {
  "status": "proved",
  "note": "Floats are written exactly (JSON model, see trusted base). Also proved: unsupported mode unreadable; a failed build has already lost the old rules."
 },
 "C65": {
  "status": "proved",
  "note": "C65_fixed_sites_stale is the disagreement: listed/all sites are accepted by the rules but not by the update scheme."
 },
 "C66": {
  "status": "proved",
  "note": "Property names must be non-blank and distinct, as the constructor of a dict ensures."
 },
 "C34": {
  "status": "proved",
  "note": "Proved for local barrier models and for composite models with any site model (C34_composite_*)."
 },
 "C35": {
  "status": "proved",
  "note": "Proved for local barrier models and for composite models with any site model (C35_composite_*)."
 },
 "C68": {
  "note": "Three-state sites violate the claim: C68_three_states_differ."
 },
 "C39": {
  "status": "proved",
  "note": "C39_target_in_surroundings_breaks_balance and C39_expansion_loop_unbalanced prove that the conditions are needed."
 },
 "C40": {
  "status": "proved",
  "note": "The code accepts site mappings that are not injective and silently truncates floats in an integer array chosen from the initial values; both are proved by witness (C40_shared_site_accepted, C40_truncated_value). Text arrays likewise cut later values to the width of the longest initial text (C40_text_cut). Seeded bugs show that the theorems of C40 leave four things unpinned, none of them part of its statement: the eV factor, the comparison of active-site order fingerprints, the check of the number of sites, and the rounding of negative floats (n_unit, n_hash, n_count, n_trunc in seeded/LOG.jsonl)."
 },
 "C48": {
  "status": "proved",
  "note": "Round trips for distinguishable allowed species; rejection exactly characterised; values valid for the lattice's basis. Witnesses show the two hypotheses are needed (mixed valence; occupation basis with three species)."
 },
 "C72": {
  "status": "proved",
  "note": "Round trip for separated sites and distinguishable species. Witnesses: missing atom without vacancy becomes another species; non-diagonal supercells cannot be written."
 },
 "C73": {
  "status": "proved",
  "note": "For the Chebyshev basis (the default); C73_occupation_basis_differs shows the other basis disagrees; C73_full_structure_order_matters shows full structures are filtered by list position."
 },
 "C49": {
  "status": "proved",
  "note": "Also proved: cluster equality is reflexive but neither symmetric nor transitive (tolerance relative to the right-hand side), and the fallback reports is_unique=True even on ties. The reference row used only to order the search is a parameter."
 },
 "C50": {
  "note": "Periodic-image search for the local sites is outside the model (the local site list is given). Proved for pairwise different variable sites; the code returns duplicates when a site is listed twice (C50_repeated_site_duplicates), returns nothing when a count of zero is asked for (C50_zero_count_returns_nothing) and fails as a whole when one environment has no atoms (C50_all_vacant_fails)."
 },
 "C74": {
  "note": "A target whose second allowed species is not the vacancy gives two atoms at one position (C74_multistate_target_collides); with the default variable sites pairs repeat (C74_default_duplicates)."
 },
 "C51": {
  "note": "pymatgen's neighbour search is a parameter assumed exact within its radius. Contradictory entries for a pair in both orders are accepted and the later wins (C51_conflict_last_wins)."
 },
 "C52": {
  "status": "partial",
  "note": "Holds for text histories of any length and HDF5 histories of at most ten records (_partial theorems). False otherwise, proved: in every HDF5 history of eleven or more records the third loaded is the eleventh saved; a record HDF5 refuses leaves a truncated record in the history; local_site_order is never written. h5py's conversion of a value is a parameter."
 },
 "C54": {
  "status": "partial",
  "note": "Proved for every sequence of add_structure/add_structures/from_structures calls, for add with entry objects not stored yet (_partial), and for repeated objects when all features have one shape. False for add with a stored object and a model of another shape: accepted (first entry) or rejected, the stored data becomes ragged, both proved. Featurisation is a parameter here."
 },
 "C53": {
  "status": "proved",
  "note": "Over real numbers; sklearn's Lasso is a parameter, assumed a minimiser only in C53_optimal."
 },
 "C75": {
  "status": "proved",
  "note": "Unweighted, as in the code."
 },
 "C76": {
  "status": "partial",
  "note": "Proved for text files. False for a failure while the history is loaded: the coefficient and parameter files are already replaced (C76_unreadable_history)."
 },
 "C77": {
  "status": "partial",
  "note": "False for one cluster or one entry: np.loadtxt drops the axis and the fit raises, proved for all numbers."
 },
 "C78": {
  "status": "proved",
  "note": "Round trip proved for clusters made without an explicit distance matrix; the loss of an explicit matrix is proved as C78_own_distances_lost."
 },
 "C79": {
  "status": "proved",
  "note": "Another kind of site model enters through the hypothesis that it survives its own save and load (C80 for SiteEnergyModel)."
 },
 "C80": {
  "status": "proved",
  "note": "Proved for models made of references and for integer, float and text occupations. The two exceptions in the statement are proved as negations. JSON text itself is trusted (values survive). A site whose own mapping is None is treated differently in a list and in a dictionary (C80_null_mapping)."
 },
 "C81": {
  "status": "proved",
  "note": "Python's import system is a parameter. The headers written by the four classes are part of the specification (WrittenBy); for local barrier models they are taken from as_dict."
 },
 "C82": {
  "status": "proved",
  "note": "Number formatting, CSV, JSON text and gzip are trusted. monty's jsanitize is a parameter. The two exceptions are proved as negations."
 },
 "C83": {
  "status": "proved",
  "note": "Proved relative to an exact neighbour search. The default order leaves sites of the same species in search order, a centre number is counted differently by the enumerator, and excluding the centre drops its periodic images too; these are proved as theorems about the code."
 },
 "C84": {
  "status": "proved",
  "note": "Findings: `Va` is not recognised as a vacancy; a cutoff of 0 counts as absent; one label among species identifiers turns all into labels; `Na1+` passes as a species name but chooses no `Na+` site."
 },
 "C85": {
  "status": "proved",
  "note": "Exact arithmetic kernel; the conditions on the model (it answers for all well-labelled states) are shown for one constant barrier, for local barrier models whose rules can be evaluated, and for composite models built from cluster expansions."
 },
 "C86": {
  "status": "proved",
  "note": "Finding: constant_barrier(None) gives a model that raises for every event; text is refused at construction."
 },
 "C87": {
  "status": "proved",
  "note": "Disagreements: a state read from an HDF5 file is not compared with the number of sites (C87_h5_state_unchecked, C87_h5_state_wrong_length); steps per pass count sites of other elements whose symbol contains the mobile species' name (C87_pass_counts_other_elements). Loading CIF, event and model files are parameters."
 },
 "C88": {
  "status": "proved",
  "note": "Disagreements: without --input run_kmc can never run, as no argument gives an initial state (C88_arguments_never_run); fractional shapes are cut off (C88_shape_truncated); the template calls both initial-state fields optional but one is needed (C88_template_needs_initial_state); the form has no mobile species, so anything but lithium gives a simulation in which nothing can move (C88_form_moves_only_lithium, C88_sodium_form). ast.literal_eval, YAML reading and argparse are parameters."
 },
 "C89": {
  "status": "proved",
  "note": "Disagreement: a file that is not a table with the required columns, for example the parameter history of the same fit, is replaced by a table of one record (C89_other_file_replaced, C89_history_file_replaced). pandas is assumed to rewrite what it read from a written column; a column of texts that all look like numbers would break this."
 },
 "C90": {
  "status": "proved",
  "note": "Exact arithmetic, independent uniform random numbers. The hypothesis that site-energy differences are differences of one energy is needed: C39_expansion_loop_unbalanced shows a site expansion for which no such energy exists. Convergence of time averages is C91."
 },
 "C91": {
  "status": "proved",
  "note": "Convergence of the ratio of means, in exact arithmetic; almost sure convergence of a single run is not formalized."
 },
 "C92": {
  "status": "proved",
  "note": "With a configured seed the code starts the same random sequence again in every run; C92_same_seed_differs. With a calculator that looks beyond the listed sites the restarted table differs from the running one; C92_far_calculator_differs. The tracker starts anew (C59)."
 },
 "C93": {
  "status": "proved",
  "note": "The arithmetic is exact real arithmetic (Rounding.exact) and the random numbers are the ideal ones of the hypothesis; a pseudorandom generator is in the trusted base."
 },
 "C94": {
  "status": "proved",
  "note": "No balance and no connectedness is assumed. An event that is listed several times is chosen through each of its listings (the factor count in the specification)."
 },
 "C95": {
  "status": "proved",
  "note": "The crystallographer's assumptions are the space group axioms and that images of atoms are the same point or can be told apart by the site tolerance. Amounts are stated for files without hydrogen, and for every element but hydrogen at the default occupancy tolerance: kMCpy removes hydrogen from sites that hold oxygen and hydrogen only. Where the code disagrees: C95_equivalent_coordinates_refused, C95_same_crystal_refused (a valid file is called invalid if atoms that share a site are written with different equivalent coordinates), C95_magnetic_refused, C95_repeated_label_hides. The symmetrized and primitive variants are pymatgen's."
 },
 "C96": {
  "status": "proved",
  "note": "Probabilities are those of ideal uniform random numbers and exact real arithmetic, as in C93/C94. A local model can know positions; C96_some_models_know_positions."
 },
 "C97": {
  "status": "proved",
  "note": "Counts are not used to choose the fractions (C97_counts_do_not_set_the_composition), vacancy-only sites are refused although the product accepts them (C97_product_accepts_vacancy_only), structures on a larger cell are read with the template's site numbers (C97_larger_cells_misread). Metadata of results is not modelled."
 },
 "C98": {
  "status": "proved",
  "note": "Exact reals and independent uniform numbers are assumed (trusted base). The mean of the reported diffusivity itself (a mean of quotients) is not claimed; the theorem is on the quotient of the means. Hops of exactly half a cell are excluded by IsHopVector (C18 shows that they are ambiguous)."
 },
 "C99": {
  "status": "proved",
  "note": "Exact reals: in floating point the products round differently unless c is a power of two. Models with their own record are included; a user site model that reads the time is excluded by NoClock."
 },
 "C100": {
  "status": "proved",
  "note": "Exact reals; independent uniform numbers as in C94."
 },
 "C101": {
  "status": "proved",
  "note": "Findings: a compute_kwargs entry with a standard name silently replaces the standard argument (C101_user_value_wins); apply_fn is not given the subset treatment of compute_fn; a positional-only active_site_order makes the construction fail."
 },
 "C102": {
  "status": "proved",
  "note": "Findings: KMC keeps references to the State, the events and the model it is given (annotate_event_lib writes to shared events, initialize_state to the shared model); a tracker returned by run keeps a reference to the State, so its clock goes on when the simulation is used again (C102_old_tracker_clock)."
 },
 "C103": {
  "status": "proved",
  "note": "The weight of a step is W times the total rate, W over the mean stay; C90 proves that these are the long-run frequencies. Rounding is exact real arithmetic as in C90 and C93."
 },
 "C104": {
  "status": "partial",
  "note": "C104_occupied_iff_partial needs that no symbol is part of a different one; C104_part_of_a_symbol is the negation without it."
 },
 "C105": {
  "status": "proved",
  "note": "Spec/Frequency.lean: tally, perTime, meanRate, ReportedPerTime. Example: two ions on a five-site chain make 12/5 hops per unit of time."
 },
 "C106": {
  "status": "proved",
  "note": "Disagreement: with the default variable sites the target of the hop is varied too, and the record of a pair names sodium on a site that is empty in its initial structure (C106_record_of_target_untrue). Names with separators can collide (C106_separators_collide)."
 },
 "C107": {
  "status": "proved",
  "note": "Divisions are exact. After add_event the statistics mix the new number of events with the old table (C107_added_event_mixed)."
 },
 "C108": {
  "status": "proved",
  "note": "Disagreement: a subclass's own fitter_class is ignored when a base class has a registered fitter (C108_declared_fitter_ignored)."
 },
 "C109": {
  "status": "proved",
  "note": "The claim is limited to callbacks that only look: C109_altered_state_goes_unnoticed shows a callback that removes the ion, after which hops between vacant sites are executed and counted as steps. Registration calls from inside a callback are not modelled."
 },
 "C110": {
  "status": "proved",
  "note": "Exact arithmetic for the averages, as in C93. A calculator whose differences do not come from one energy is outside this claim (see C40, C71)."
 },
 "C111": {
  "status": "proved",
  "note": "In exact arithmetic; the rate models are equal as functions."
 },
 "C112": {
  "status": "proved",
  "note": "Exact arithmetic; hypotheses as in C94."
 },
 "C113": {
  "status": "proved",
  "note": "Loading of expansions, importing and the classes' own from_dict are parameters; what they give is modelled in Model/ModelFile and Model/SiteEnergyFile."
 },
 "C114": {
  "status": "proved",
  "note": "The failing cases (detaching while sampling) are proved as C114_detaching_itself_ends_the_run, C114_detached_is_still_called and C114_value_under_the_new_property."
 },
 "C115": {
  "status": "proved",
  "note": "The default library doubles all rates: C115_default_library_doubles. Assumes that pymatgen lists every neighbour once."
 },
 "C116": {
  "status": "proved",
  "note": "With distances that are different but closer than the tolerance, different shapes share a coefficient: C116_tolerance_merges_shapes. Distances are exact (no float rounding); symmetric occupations only for plain models and two states per site (C68_three_states_differ)."
 },
 "C117": {
  "status": "proved",
  "note": "Negative site numbers in events are excluded by the hypothesis (events list site numbers). That a connected part is reachable is the subject of C85 and C90."
 },
 "C118": {
  "status": "proved",
  "note": "The negative result is a disagreement between the code and the unconditional claim: with a supercell two cells long, `np.round` breaks the tie by parity. The rates do not see the geometry in a run (they are fixed by the event library and the model), so only the tracker is concerned."
 },
 "C119": {
  "status": "proved",
  "note": "that NaN counts as larger than every number in np.searchsorted (numpy and numba) is part of the trusted base; the sign of zero is left out"
 },
 "C120": {
  "status": "proved",
  "note": "that h5py reads a stored list of texts as byte strings (version 3) or refuses to store it (version 2) is an assumption of the HDF5 theorem (TextsBecomeBytes); coefficients are assumed to survive writing and reading, as doubles do in JSON (ReadBack)"
 },
 "C121": {
  "status": "proved",
  "note": "proved, including when the allowed species of a supercell are wrong"
 },
 "C122": {
  "status": "proved",
  "note": "proved for all runs"
 },
 "C123": {
  "status": "proved",
  "note": "The rounding laws assumed of the selection kernel are here proved of a concrete 53-digit rounding (without overflow and subnormal numbers). The property 'every step advances the time' is false and its negation is proved."
 },
 "C124": {
  "status": "proved",
  "note": "The law of exact selection is C02, C94; this claim carries it over to floats. Random numbers are real numbers, not multiples of 2^-53."
 },
 "C125": {
  "status": "proved",
  "note": "Real arithmetic. Fit quality is not part of the claim: these statements say which tables a fit can in principle reach."
 },
 "C126": {
  "status": "proved",
  "note": "Real arithmetic and exact summation. (4) divides the mean over all random sequences by the clock of one run."
 },
 "C127": {
  "status": "proved",
  "note": "Files are assumed to hold a first part of what was written (no reordering by the operating system). fit is modelled up to the data it works with. Negations are proved where the code mixes exports."
 },
 "C128": {
  "status": "proved",
  "note": "Exact arithmetic and independent uniform random numbers are assumed, as in C93 and C98; reuse of one seed for several runs is excluded by the hypothesis IndependentRuns."
 },
 "C129": {
  "status": "proved",
  "note": "gzip is trusted to report a cut stream; an empty file reads as empty. float() and int() of the texts in the file name are parameters. Negations are proved for a reused label."
 },
 "C130": {
  "status": "proved",
  "note": "Gooey, argparse, ast.literal_eval and float are not modelled (parameters). Negations are proved for the two commands that cannot work, repeated pairs and blanks."
 },
 "C131": {
  "status": "proved",
  "note": "C131_ions, C131_collective and C131_correlation are stated for completed runs; C131_one_start_exceeds shows that the average over the starts is needed. The correlation factor that the tracker itself reports averages the ratios of the single ions, which the theorem does not bound."
 },
 "C132": {
  "status": "proved",
  "note": "C132_expansion covers the occupation basis; C132_state_numbers_differ shows that the Chebyshev basis must be left out, C132_stated_multiplicity that a wrong number in a file changes the function."
 },
 "C133": {
  "status": "proved",
  "note": "C133_displacements is stated for any rounding with relative error at most u; C133_half_cell shows with Python floats that the condition on half a cell is needed. Start coordinates r0, which the code takes from the structure, are not rounded."
 },
 "C134": {
  "status": "proved",
  "note": "C134_alias_copy_differs, C134_fractions_accepted, C134_mixed_types, C134_interface_too_small, C134_same_class_name and the second half of C134_set are disagreements of the code with what a user expects. Classes that override convert_to are not modelled."
 },
 "C135": {
  "status": "proved",
  "note": "C135_ions and C135_collective are about the ratio of the means over runs. The diffusivity that a single run reports is a ratio of random numbers, whose mean the theorem does not give."
 },
 "C136": {
  "status": "proved",
  "note": "np.inner is taken to add in the order of the vectors; a library may add in another order, to which the same count of roundings applies. Rounding has a relative accuracy everywhere, so underflow to subnormal numbers or zero and overflow are not covered here (for overflow see C119). The simulator adds up and selects exactly in C136_next_step and C136_equal_shares; what rounding does there is C124."
 },
 "C137": {
  "status": "proved",
  "note": "Same simplifications as C124, C133 and C136: rounding has a relative accuracy, so underflow and overflow are not covered; np.inner adds in the order of the vectors. Runs that stop with an exception in a callback are excluded in the theorems on whole runs."
 },
 "C138": {
  "status": "proved",
  "note": "Rounding has a relative accuracy, so underflow and overflow are not covered here (C119 treats overflow). The barrier is the float the rules hold, so reading it causes no error. The frequency is assumed representable, as it is a Python float."
 },
 "C139": {
  "status": "proved",
  "note": "SHA-256 and the JSON text are a parameter assumed injective. The fingerprint in a match is computed from in-range indices (C49), so no IndexError is represented. Nested values in site data are written as they are."
 },
 "C140": {
  "status": "proved",
  "note": "Reading structures, features and what json.dump makes of one metadata value are parameters. Re-adding entry objects is in C54. Making the folder is assumed to succeed. Metadata keys are texts. Both disagreements are proved (C140_names_last_model, C140_failed_save_destroys)."
 },
 "C141": {
  "status": "proved",
  "note": "Rates are exact real numbers. Stateful site models are in C39 only (one direction). That a ring with a driving expansion has no balancing weights is proved (C141_driven_ring)."
 },
 "C142": {
  "status": "proved",
  "note": "Values are integers and shapes natural numbers; negative shape components are not modelled. HDF5 files are in C30. Added after a mutation of the block selection survived. That time and step are ignored in initial-state files is proved (C142_initial_file_time_ignored)."
 },
 "C143": {
  "status": "proved",
  "note": "C143_unknown_keys_match_everything: a misspelt condition turns a rule into one that applies always. C143_blank_species: a blank species is refused in a list but accepted as a single text. Texts: ASCII, no underscores between digits."
 },
 "C144": {
  "status": "proved",
  "note": "The tracker ranges over the active trackers of registryAfter ops. The error handler is a function of the state, step and time."
 },
 "C145": {
  "status": "proved",
  "note": ""
 },
 "C146": {
  "status": "proved",
  "note": "the readings that an event made with lists comes back unchanged and that a file without an event is refused are false of the code (C146_lists_come_back_as_tuples, C146_foreign_dictionary)"
 },
 "C147": {
  "status": "proved",
  "note": "the files read (migration_<pass>.txt) are written by nothing in the package (C147_never_written)"
 }
}