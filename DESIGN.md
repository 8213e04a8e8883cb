# Design of the formal model of kMCpy

## What this is

`/verif/lean` holds a Lean 4 model of the kMCpy Python package (`/repo/kmcpy`)
and machine-checked proofs of the properties listed in `properties.jsonl`.

Layout:

- `Verif/Model/*.lean`: executable (or, where reals are needed, noncomputable)
  definitions that mirror the Python functions branch by branch. Exceptions are
  values (`Except PyErr α`). Each definition cites the file and lines it models.
- `Verif/Spec/*.lean`: small independent definitions used to state properties.
- `Verif/Lemmas/*.lean`: helper lemmas.
- `Verif/Props/*.lean`: the property theorems, each with a non-vacuity example.

## Conventions

- Python integers are `Int`; indices use Python semantics (negative indices
  wrap once, otherwise `IndexError`).
- Floats: where a statement does not depend on arithmetic it is proved for an
  arbitrary type. Where arithmetic matters it is over ℝ (or any ordered field),
  and, for event selection, over ℝ with an arbitrary monotone rounding.
  NaN is modelled explicitly where the code produces or accepts it.
- External libraries (numpy, numba, pymatgen, h5py, monty, scikit-learn) are
  represented by the behaviour the code relies on; each such assumption is in
  the trusted base below.

## Plan per property

- **C01** A proposed event is always one of the library's events and is never a forbidden one. `Model/Propose`: the `_propose` kernel over ℝ with an explicit rounding function `rnd` (monotone, idempotent, fixes 0 and 1), `rnd = id` being exact arithmetic. Proof: cumulative table is monotone, `searchsorted` characterised by a prefix count.
- **C02** Events are selected with probability proportional to their rate. Same model with `rnd = id`; the preimage of an index is shown to be the half-open interval.
- **C03** Waiting times are non-negative and follow the exponential law of the total rate. Same model; `dt` with `Real.log`; exponential law by monotonicity of `exp`.
- **C04** A frozen system is reported, never advanced. Same model; the zero-total branch returns an exception value; lifted to `run`.
- **C05** Any history of events conserves the composition. `Model/State`, `Model/KMC`; induction over histories, `List.Perm`.
- **C06** Step and time accounting of a run. `Model/KMC.run` as nested folds over the pass counts with a random stream; induction.
- **C07** One event changes exactly its two endpoint sites, and undoing it restores the state. `Model/State.applyEvent` with Python indexing (negative indices wrap) and exceptions as values.
- **C08** The incrementally updated rate table always equals the table recomputed from scratch. `Model/KMC.update` over any type of rates; locality of the rate function as hypothesis, dependencies from the modelled generator; invariant by induction. Concrete models are shown local.
- **C09** The precondition of the incremental update is necessary. Concrete witnesses on the same model.
- **C10** Event dependencies are exactly the overlapping events. `Model/EventLib.arraysIntersect` (two pointers) on sorted lists; `mergeSort` for numpy sort.
- **C11** Event library queries and serialisation agree with the events added. `Model/EventLib` dictionary model as association lists.
- **C12** Hop direction is decided by the occupations of the two endpoints alone. `Model/Hop`.
- **C13** Executing a hop reverses its direction. `Model/Hop` + `Model/State`.
- **C14** A hop moves the mobile species and conserves every species. `Model/Hop` with per-site allowed species; proved under equal numbering of mobile/vacancy on both endpoints (`_partial`), negation by witness otherwise.
- **C15** The tracker always knows where every mobile ion is. `Model/Tracker`; invariant tying tracker and state, induction over histories.
- **C16** Hop counters count hops. `Model/Tracker`; induction.
- **C17** Accumulated displacement is the unwrapped trajectory of each ion. `Model/Tracker` with coordinates in ℝ³ and a lattice matrix; induction.
- **C18** Each hop displacement is the minimum-image vector and reverses with the hop. `Model/Tracker.wrapped` with round-half-even.
- **C19** Sampling never changes the trajectory. `Model/KMC.run` returns state and records; two-run statement.
- **C20** A step-interval property fires exactly on the multiples of its interval. `Model/Property.shouldTrigger`; history of samples.
- **C21** A time-interval property fires at the first opportunity and never more often than its interval. `Model/Property.shouldTrigger`; induction over time sequences.
- **C22** Stored records are the most recent ones in order. `Model/Property.appendRecord`; induction.
- **C23** Property registration keeps names unique and never shadows a built-in. `Model/Property` plan operations; invariant by induction over operation lists.
- **C24** A disabled property produces nothing and influences nothing else. `Model/Transport` and `Model/Tracker.sample`.
- **C25** Transport summaries are well defined exactly when time has passed and ions exist. `Model/Transport` over ℝ with an explicit `nan`.
- **C26** Haven ratio and correlation factor obey their definitions. Same.
- **C27** Configuration keywords are routed to exactly one section and unknown ones are rejected. `Model/Config` key routing over strings.
- **C28** A constructed configuration is always physically valid. `Model/Config` validators; floats as ℝ plus an explicit NaN.
- **C29** Configuration dictionaries and files round-trip. `Model/Config` as_dict/from_dict over a JSON-like value type; sections as tables over the field names. The literal claim (every field equal) fails for the tuple default of the shape: `C29_default_shape_changes`.
- **C30** State files and checkpoints round-trip. `Model/State`, `Model/Checkpoint`: files as contents in a map from paths, suffix rules over characters; JSON/HDF5 byte layers are assumed to be lossless.
- **C31** Local barrier rules: the first matching rule decides. `Props/LocalBarrierProps` over `Model/LocalBarrier`; matching is stated by `Spec.Describes`, defined in `Spec/LocalBarrier` without the model's matching code. Proved by induction over the rule list.
- **C32** Local barrier rules match exactly the environments they describe. `Spec.Describes` states each rule kind on sites, states and species; `ruleMatches_ok` shows that whenever evaluation does not raise, its answer is `Describes`; `Evaluable` says when it does not raise. The `add_*_rule` methods are shown to append exactly the rule their arguments spell out.
- **C33** Local barrier rules survive serialisation. Well-formedness invariant of reachable models (`Lemmas/LocalBarrierFile`), preserved by every call, then field-by-field round trip of every rule kind.
- **C34** Rates are non-negative and vanish exactly for forbidden hops. `Model/LocalBarrier`, `Model/Composite` over ℝ.
- **C35** Rates follow the Arrhenius law. Same, `Real.exp` monotonicity.
- **C36** Cluster-expansion barriers depend only on the event's local environment and are linear in the coefficients. `Model/LCE`.
- **C37** Orbits partition the clusters. `Model/LCE.buildOrbits` over an arbitrary equivalence test.
- **C38** Mismatched fitted parameters are rejected. `Model/LCE.setParameters`.
- **C39** Composite rates satisfy detailed balance. `Model/Composite`, `Spec/Balance`; reversal of direction (C13), locality (C36), induction over paths. Two limits are proved by witness: an environment containing the target site breaks the balance, and a fitted site expansion (which gives a number per event, not an energy of configurations) can be unbalanced around a loop.
- **C40** The external site-energy model sees exactly the current configuration. `Model/SiteEnergy` (look-up tables, array types with truncation, callbacks as parameters), `Spec/SiteEnergy` (the picture in terms of the mappings alone); invariant over executed histories of a composite model. Both conditions are shown to be needed: C40_truncated_value, C40_text_cut, C40_shared_site_accepted. Seeded bugs show that the theorems of C40 leave four things unpinned, none of them part of its statement: the eV factor, the comparison of active-site order fingerprints, the check of the number of sites, and the rounding of negative floats (n_unit, n_hash, n_count, n_trunc in seeded/LOG.jsonl).
- **C41** Active-site numbering is a consistent bijection. `Model/ActiveSiteOrder`.
- **C42** Event files with indices that do not fit the structure are rejected. `Model/ActiveSiteOrder` + `Model/EventLib`.
- **C43** Periodic wrapping of supercell indices is exact arithmetic modulo the supercell. `Model/Supercell`.
- **C44** The supercell site index is a bijection. `Model/Supercell`.
- **C45** Generated events are well formed and translation invariant. `Model/Generator`.
- **C46** Binary occupation encodings convert losslessly. `Model/Basis`: both bases and the `Occupation` container over integer vectors with Python indices.
- **C47** Site basis functions of multi-state sites are bounded, complete and tell the states apart. `Model/Basis.siteBasisValues` over a field (recurrence of `chebvander`, exact `linspace`), identified with Mathlib's Chebyshev polynomials; completeness by degree and root counting.
- **C48** Species and occupation values convert both ways. `Model/Lattice` (species tokens, allowed lists, both loops); induction over the allowed list. Needs distinguishable species and a basis with a value per state; negations by witness: two oxidation states of one element are conflated, the occupation basis conflates the second and third species.
- **C49** Local environment matching returns only distance-preserving relabellings. `Model/ClusterMatcher`: backtracking as structural recursion over the remaining reference sites, the fallback over the product of per-label permutations. The search with a limit is shown to return the first of all completions, these are characterised by an invariant, and the fallback's assignments are shown to be exactly the label-preserving bijections.
- **C50** Local environment enumeration is complete and duplicate free. Model/Enumerator.lean mirrors the enumeration of local environments; proved: the results show, in lexicographic order, exactly the assignments that meet the counts, truncated at the limit; no two results coincide; success and rejections; negations for repeated sites, zero counts and the all-vacant structure.
- **C51** Cutoff lookup is symmetric and unambiguous. `Model/Neighbors`: nested lookup tables as association lists, pymatgen's search as a parameter that is exact within a radius. Proved by induction over the table: the looked-up cutoff is the last entry for the unordered pair, and every cutoff is at most the search radius, so the filtered search misses nothing.
- **C52** Fitted-parameter histories keep their order and content. `Model/Parameters`, `Lemmas/Parameters`, `Lemmas/ParameterOrder`; text form by induction over fits; HDF5 form sorts group names as strings, so order is proved up to ten records, content for any length, and the wrong order for every length of eleven or more by strong induction on decimal digits; the failing HDF5 write is modelled dataset by dataset.
- **C53** Undoing feature normalisation does not change predictions. `Model/Fitter` over real matrices; Lasso itself is a parameter, its optimality a hypothesis of one theorem.
- **C54** The fitting data set stays rectangular. `Model/NEBLoader` with entry objects in a heap, so that adding an object twice is expressible; invariant over call sequences. Adding a stored object again with another model breaks the property: negations by general witness, `_partial` for objects not stored yet, full for the calls that take structures.
- **C55** Runs are deterministic and compose. `Model/KMC`.
- **C56** The property plan and the running tracker stay in step. `Model/Registration`: plan and active tracker as one record, every public call updates both; invariant over call sequences.
- **C57** A default run reports one transport row per pass. `Model/KMC`, `Model/Tracker`; counting multiples along the visited steps.
- **C58** Effective schedule of a sampled property. Same; declarative `Scheduled` relation in `Spec/Schedule`.
- **C59** Diffusivities refer to the production window. `Model/Transport`; partial: the code divides by the absolute time, so the statement holds only for simulations whose time is zero when the run starts; the failure is proved.
- **C60** The event generator and the simulator number sites alike. `Model/Supercell`, `Model/Generator`; filtering commutes with building the supercell.
- **C61** Generated hops have distinct end points and are listed once. `Model/Generator`; the failure in one-cell supercells is proved by witness.
- **C62** Comparing site orders detects every difference. `Model/ActiveSiteOrder`; the digest is a parameter assumed injective; the altered-metadata case is proved by witness.
- **C63** A configuration stored as one section of a workflow file can be read back and leaves the other sections alone. `Model/Config` with file contents as values.
- **C64** A crash while saving a checkpoint never yields a wrong state and endangers only the file being written. `Model/Checkpoint`: a save is the sequence of disk contents truncated file, complete file; a partially written file is assumed to be rejected by the JSON and HDF5 readers.
- **C65** Local barrier models keep the rate table fresh iff their rules read event sites only. `compute_congr`: the barrier depends only on the states of event sites; instance of `Spec.LocalModel` and of `Spec.HopSystem`; negation by a four-site example with two hops.
- **C66** An exact rule taken from a snapshot matches that snapshot and nothing else. Composition of entryFromEventState and addRule; then `Describes` unfolded against agreement of states.
- **C67** A local cluster expansion as built evaluates everywhere and contains every wanted cluster once. `Model/LCE.build` with the geometry (largest distance, equivalence, fingerprints) and the basis as parameters.
- **C68** Symmetry-equivalent surroundings have the same value. `Model/LCE.build`; orbits are equivalence classes (C37), so a symmetry permutes each orbit and the sums agree.
- **C69** Composite models made of cluster expansions fit the simulation. Instance of `Spec.LocalModel` and `Spec.HopSystem` for `Model/Composite`.
- **C70** The rate table stays fresh with an external calculator exactly if it looks no further than the event's sites. `Props/SiteEnergyRunProps`: invariant combining the faithful picture (C40) with freshness (C08), negation by witness.
- **C71** Mappings that cover the present states never fail during a run. `Props/SiteEnergyRunProps`: totality of the change computation under coverage, preserved by hops; witness for the gap.
- **C72** Structures and occupations convert both ways. `Model/Lattice`; distances, pymatgen's supercell sites and the lattice comparison are parameters. Negations by witness: a missing atom on a site without vacancy is read as the second species; only matrices with diagonal product equal to the cell count can be written.
- **C73** Fitting features are simulation features. `Model/Features` on top of `Model/Lattice` and `Model/LCE`. Holds for the Chebyshev basis; negation by witness for the occupation basis. A structure with as many atoms as the template is filtered by list position: witness that atom order then matters.
- **C74** NEB endpoint pairs move exactly one atom. Model/Enumerator.lean (endpointPair, endpointPairs); proved by induction over the sites of the full structure with the two passed/not-passed flags as invariant.
- **C75** The leave-one-out error leaves the point out. `Model/Fitter.leaveOneOutRmse` with the boolean mask; equals erasing the index, by induction.
- **C76** The files of a fit match the fit. `Model/Fitter.fit` on the file model of C52; a history that cannot be read makes the fit fail after the other files are replaced: proved as a negation.
- **C77** Every data set that can be written can be fitted. `Model/Fitter.loadtxt` drops axes of length one as numpy does; negation for one cluster or one entry, `_partial` for at least two of each.
- **C78** Saved clusters and orbits are read back unchanged. Model/ModelFile: Cluster.make/asDict/fromDict and Orbit likewise, with positions and the distance function as parameters. Theorems: exact round trip for clusters made without a matrix; with a matrix, the cluster read back has the positional distances and equals the original only if the matrix was that.
- **C79** A saved model computes the same rates after loading. Model/ModelFile: whole objects and dictionaries. An invariant (Storable) holds of every built expansion and survives set_parameters; under it as_dict/from_dict return the object without fitted values and possibly without the cached fingerprints; Interchangeable (Spec/ModelFile) says no call tells two expansions apart. fitted_exists shows the hypotheses can be met; build_core links to LCE.build of C67.
- **C80** A saved site-energy model predicts the same energies when loaded. Model as_dict/from_dict of the site-energy model over the JSON values of Model/Value and numpy's array construction over dtypes; prove that the settings, and for models made of references only every computed result, survive the file. Negations: functions lost (C80_functions_lost), object occupations change dtype (C80_object_occupation).
- **C81** The model file decides which model a simulation uses. `Model/ModelChoice`: from_config with the import system as a parameter, the registry, require_model_file_payload/require_model_type, LocalBarrierModel.from_file. `Spec/ModelChoice`: what a file says about itself, what an installation is. Case analysis over headers; end to end for local barrier models with C33.
- **C82** The result files of a run hold that run's results. `Model/Results`: column store, data frame, JSON conversion of callback values, file names, writes over a named-file store. `Spec/Results`: file names and table lines spelled out. Injectivity of names (last underscore, first character, ending), invariant that records carry the name they are stored under, mutual induction over values. Negations: C82_stale_records, C82_keys_merged.
- **C83** Local environments contain the right sites in a well-defined order. Model/LocalSites.lean follows __init__, the order object, the removal of the centre, the stable sort, signature, matching and the enumerator's site selection; pymatgen's sphere search is a parameter assumed exact (`ExactSphere`). Spec/LocalSites.lean says what sorting by keys means without sort keys, and which sites and centre are meant. Negations: the default order sorts by species name only, so it follows the search (`C83_default_order_follows_search`); a centre given by number means different sites in the two classes (`C83_centre_number_differs`); all images of the centre are dropped (`C83_centre_images_dropped`).
- **C84** Generated hops are the ones the user's arguments describe. model the normalisation of arguments, the choice of sites and the cutoff table, and compose them with the models of the neighbour table, the sort, the matcher and the event loop into the whole call; prove that the events with end points [i, j] exist exactly for the hops described by a specification of the arguments.
- **C85** A simulation keeps going: it never crashes, and on a connected network every run completes. show by induction over passes that the simulation invariant makes every partial operation of a step succeed unless the total rate is zero; show that a connected network with an ion and a vacancy has an allowed hop in every reachable state; instantiate the conditions for the shipped models.
- **C86** Barrier models made from one number or from a table of snapshots answer with it. model the two constructors on top of the rule model of C31; specify what it means for a state to show a snapshot without reference to patterns; prove by induction over the entries that the rules added are exactly the snapshots.
- **C87** A simulation made from a configuration uses one site numbering and runs with a generated library. Model/FromConfig composes the models of the functions from_config calls, in its order, over a World of loaders (CIF, event file, model). Inversion of the construction gives the numbering theorem; refusal of foreign libraries uses C62; the workflow theorem combines C45, C11 and C85. The HDF5 gap and the substring count of steps per pass are proved as disagreements.
- **C88** The command line runs what it was given and never destroys a file. Model/Cli models the argument conversions, the assembly of the configuration, the template's value, a directory tree with mkdir and write, and the form's translation. Text parsing uses Lemmas/Text; the runs compose with Model/FromConfig (C87). Induction over paths and over the list of arguments.
- **C89** The table of fitting results keeps every fit and yields the latest. Model/FitTable models the table as a JSON object and the pandas frame as columns of cells; what pandas does to a column on reading and to a cell on writing are parameters, assumed only to rewrite what was written (Spec.Faithful). Column-wise computation of the new table, induction over fits, a maximum over numbered keys.
- **C90** In the long run a simulation visits configurations according to the Boltzmann distribution. The chance of a step is the Lebesgue measure of the selection numbers that lead there and the mean stay the integral of the time increment, both computed from the modelled propose. Detailed balance and connectedness give the stationary distributions: a function that is harmonic for a finite irreducible kernel is constant. All arrangements of a connected network are reached by moving the first wrong site's content along a path.
- **C91** Time averages over long simulations are ensemble averages. Spec/LongRun defines the mean over n steps as an n-fold integral over the pairs of random numbers that the modelled propose and update consume. Integrating over one pair gives a transition matrix on the finite set of configurations; averages of its powers converge by compactness to the only stationary distribution (C90).
- **C92** A simulation continued from a saved state is the simulation that was saved. Composition of the checkpoint round trip (C30), the freshness of the table (C08, C70), the picture of the external calculator (C40) and progress (C85): the construction is a function of library, model and state, and a fresh table is the only one it can build.
- **C93** The time average over one simulation tends to the Boltzmann average. A strong law of large numbers for functions along the jump chain, proved from the Poisson equation of the chain and a square-integrable martingale (along the squares of the step number, with sandwiching between them); the holding times are treated as the random part of the increments.
- **C94** A simulation is the continuous-time Markov chain with the model's rates. Induction over the list of events: the random numbers for which one step does what is wanted are a rectangle whose area is the one-step probability, and they are independent of the later random numbers.
- **C95** A CIF file is loaded as the crystal it describes, and its sites are found by label. The table of positions is an invariant of the loop over atoms (`TableOf`): its keys are the positions of the atoms so far, pairwise inequivalent under the group, and its values the summed compositions and joined labels. Images modulo lattice translations are an equivalence relation because the operations form a group. Sites of the loaded structure are characterised by induction over the table.
- **C96** Where in the supercell a simulation starts makes no difference. Spec/Homogeneous.lean defines moved configurations, symmetries and position-blind models; hop codes, directions, rates and executed events are shown to move along; with the path law C94 the probabilities of moved histories agree, and C45 supplies the translations of generated libraries.
- **C97** Enumerating through a transformation returns exactly the environments the transformation found. Model/EnumeratorTransform.lean models the disordered structure, the request and the lazy loop; Spec/EnumeratorTransform.lean says what an ordering of an assignment is; reading an ordering back gives the occupation the product writes (C72 round trip), so the loop over returned structures is the product's loop over their assignments.
- **C98** Ions without drift make a random walk with the textbook mean square displacement, diffusion coefficient and correlation factor. Spec/RandomWalk.lean defines the mean over the chain of the rates step by step, hop vectors (nearest image), Unbiased, LoneIon and MeanAtTheEnd (integral of a quantity of the tracker at the end of the run). Lemmas/RandomWalk.lean proves by induction on the steps, with independence of each draw from the later ones, that the mean over all runs is the mean over the chain; Lemmas/RandomWalkRun.lean adds up the hop vectors in the tracker and computes the two moments by induction.
- **C99** The attempt frequency only sets the clock. Spec/Speed.lean: SpedUp c m m' (c times the rates, same record, same exceptions, no use of the clock). Lemmas/Speed.lean: a simulation relation between the two simulations, kept by proposal and update, lifted to histories and to the tracker by induction on the steps; the relation of the rate tables is a map by (c *).
- **C100** The order in which events are listed does not change the law of a simulation. From C94 (path law), with the total rate, counts and annotations shown invariant under permutation of the event list (Props/EventOrderProps.lean).
- **C101** User functions are found by their reference and receive exactly the arguments they ask for. Model/Callable.lean: signatures as lists of parameters, Python's rule for keyword calls as part of the environment, the filtering of the code, text splitting of references. Props/CallableProps.lean proves the argument passing through dictionary lookups and the splitting by induction on the text.
- **C102** Simulations in one process do not influence each other unless they share something mutable. Model/Shared.lean puts states, events and model caches at addresses and lets every action read and write there. Lemmas/Shared.lean proves that each action, seen through its own object, is the function of Model/KMC.lean, and what it leaves alone; an invariant relating the shared process to the process with one simulation gives non-interference by induction over the program. Props/SharedProps.lean has the theorems and three witnesses.
- **C103** In equilibrium a simulation looks the same backwards: no circulation and no drift. Lemmas/Reversal.lean undoes a list of events and compares the probabilities of the path and of the reversed path (path law of C93, balance of C90). Lemmas/Drift.lean shows by induction over the number of steps that the weighted mean of a step does not change and that every event contributes opposite displacements from its two ends.
- **C104** The data-gathering scripts read occupations and results as they are. Model/Tools.lean; rounding to the nearest image is shown to find the near image because the cell is large; texts are split character by character.
- **C105** Hop frequencies of a long simulation are the mean rates. the Markov chain of C93 with the selection numbers included (`simulated_chain`): the selection interval of each listed event in each configuration is a measurable set, so the law of large numbers gives its frequency; sums over configurations and events give every count; detailed balance (lemmas of C103) makes antisymmetric counts vanish; `walk_tally` and C16 connect the tracker to the counts.
- **C106** The label of a local environment identifies it. Model/EnvironmentLabel.lean; printing of integers and joining of texts are injective (splitting at separators); C50 gives the species of each result, distinguishable species have different names; records by induction over the loop.
- **C107** The statistics of an event library count overlapping events. Model/EventStats.lean; row lengths are cardinalities of overlap sets by C10; sums, extremes and quotients from that.
- **C108** A model class gets the fitter of its most specific registered ancestor. Model/FitterRegistry.lean; induction over the registrations and the resolution order.
- **C109** Callbacks may keep memory but must not touch the state. Model/LiveCallbacks.lean threads the memory of the callbacks and the live state through sampling and the run; a stand-in without memory is built by tabulating, by step number, what the real callback answered (each callback is called at most once per step and step numbers increase); induction over specs, steps and passes. The calls: induction over the run with the schedules as invariant.
- **C110** A run with an external energy calculator is the run of an energy of the configuration. Spec/ExternalEnergy.lean says what it means to forget the model's memory and gives the memoryless model; Lemmas/Forget.lean shows by induction over steps and passes that a model can be replaced by one that answers alike in all states an invariant allows; the invariant is the faithful picture of C40. Averages follow from C93 for the replaced model.
- **C111** Only the ratio of energies to temperature matters. Model/Composite, Model/LCE, Model/LocalBarrier. Spec/EnergyScale defines models with scaled energies; the rate models are proved equal as functions, so runs are equal.
- **C112** Events that can never happen make no difference. Props/IdleEventsProps: from the path law C94; Spec/IdleEvents defines which states can arise.
- **C113** A composite model file is checked in full before anything in it is loaded. Model/CompositeFile over arbitrary JSON values with the loading of expansions and importing of classes as parameters; Spec/CompositeFile describes the accepted content.
- **C114** Properties registered, stopped or detached from inside a callback. Model/Reentrant: spec objects with identity, callbacks that return the registration calls they make; C114_without_calls shows that it refines Model/Tracker when there are none.
- **C115** How fast an ion jumps to a vacant neighbour. Spec/JumpRate: jumpRate from `chance` and `meanStay` of C90; C61/C84 give how often a pair is listed; C12 that the event is possible in either direction.
- **C116** A cluster expansion sees its surroundings through species and distances only. Model/ClusterShape fills the geometry of Model/LCE with positions: get_bond_distances, ClusterMatcher on labels and distance matrices (C49), Orbit.fingerprint records. Spec/ClusterShape: Congruent, NearlyCongruent, Separated, SameShape. Proved from C49 (matching), C37/C67/C68 (orbits).
- **C117** Ions stay in the part of the event network they start in. Invariants of the whole run that every event of the library keeps, for any kernel and rate model: `run_inv` (state) and `run_traj_inv` (tracker arrays), by induction over equilibration steps, production steps and passes, exceptions included. The per-part count is invariant because an exchange of two sites of one part permutes the sites of each part; the location invariant follows each ion; layers and lengths follow from the wrapped displacement being a shortest step (each component at most half a cell and congruent to the coordinate difference).
- **C118** Transport results do not depend on how the crystal is described. Two runs with two geometries go in step (`SideBySide`): induction over steps and passes with the relation `SameTracks` between the tracker arrays, given that each event's hop vector is the same in both geometries up to the change of axes. That hypothesis is proved from `Redrawn` (the coordinate difference does not see the origin; the lattice carries the axes) and from `Recelled` with `ShortHops` (a connection shorter than half a cell is what rounding returns). The summary only reads squared lengths. The half-cell counterexample is computed.
- **C119** Rates that overflow or are not numbers. floating-point values as numbers within range, infinities and NaN with IEEE operations over an arbitrary monotone rounding; the selection proved equal to the earlier model within range; NaN and infinite totals followed through the bisection and, by an invariant of the rate table, through a run
- **C120** A fit ends up in the model it was made for. composition of the models of the fitter, the parameter files and the expansion; the provenance handed over by the model's own fit is modelled as setdefault does it; HDF5 values are read back as plain values or lists of byte strings
- **C121** Lattice structures made of another one: supercell, copy and active sites. `make_supercell` returns the object afterwards together with the outcome; the list of allowed species is the whole list repeated (loops over the diagonal), the template is pymatgen's list of images (all images of the first site first, an assumption shared with C50). The exact condition follows by strong induction along k -> k / n. `copy` and `get_active_lattice_structure` build afresh, so normalising a normalised mapping is shown to change nothing; the basis size depends on the sites with more than two species, which are all active.
- **C122** Lengths and transport parameters enter the report with the right powers. Two runs side by side by induction over the steps (prodStep, prodSteps, passes); trackers related by a scalar matrix (`redrawn_hopAgrees`), samplers by applying a function to every row (sampling commutes with it, and a fresh sampler has no rows). The factors are read off `compute_transport_properties`.
- **C123** The simulation time in floating-point arithmetic. `Model/Clock`: times are extended reals fixed by a rounding, with rounded addition; the other definitions are the ones of the exact model, which are generic in the type of times. Two runs side by side by induction over steps and passes (`Lemmas/Clock`). `Lemmas/Binary` constructs rounding to p binary digits, ties to even, and proves that it satisfies the laws of `Rounding` and its error bound. That the clock always advances is refuted: `C123_double_can_stand_still`.
- **C124** Floating-point event selection beside exact event selection. The interval of the random number that selects an event ends at the rounded normalised running sums in either arithmetic; factors (1-u)^k are followed through cumsum, division, log and clock (`Lemmas/RoundedChoice`). Runs: a predicate that says that the choices of the next N steps agree, and a measurable set of small probability outside which it holds, by induction over N with the independence of later draws (`Lemmas/RoundedRun`). That every event with a positive rate can be selected is refuted: `C124_double_never_chosen`.
- **C125** What the coefficients of a cluster expansion are determined by and what they can reproduce. Products of one-site functions that are a basis for each site are a basis for functions of all sites (`Lemmas/TensorBasis`, induction over sites). The terms of a built model are disjoint sums of such products (`Lemmas/CompleteExpansion.built_terms`, from the theorems about orbit building of C47 and C68), so that coefficients of terms are coefficients of products (`Lemmas/TermCoefficients`). A table that does not depend on a site has no product with that site; a permutation that leaves a table unchanged leaves its coefficients unchanged. (1) for sites with one species is refuted: `C125_inert_site_undetermined`.
- **C126** What a simulation reports for ions that only block each other. In a configuration the rate times the way of an event is nu (n_f - n_t) v, so the sum over events is a sum over sites of nu n_k times the ways out of the site, which cancel (`Lemmas/LatticeGas.gas_unbiased`); C98 then gives (2). Equal rates balance with equal weights, so the limit in C105 is the plain mean of the total rate over all arrangements; these are exchangeable over the sites of the network (`gas_swap`, `gas_pair`), every ordered pair of sites holds an ion and a vacancy in the share NV/(M(M-1)), and the ways out count every event twice (`gas_ways`).
- **C127** What an interrupted or refused export of fitting data leaves for the fit. Model/FitFiles writes and reads tables down to single characters; the text of one number is a parameter that reads back. A first part of a table is complete lines and at most one cut line (`Lemmas/FitFiles.tokens_cut`, induction over lines and words), so its number of lines is bounded and a column of full length differs in its last number at most. The crash relation (`Spec.Interrupted`) is analysed file by file. That a crash or a refusal leaves nothing mixed is refuted: `C127_mixed_export`, `C127_more_entries`, `C127_refused_weights`, `C127_last_weight_cut`.
- **C128** A longer run does not make the reported correlation factor more accurate; more runs do. The walk of C98 with a polynomial of fourth order: `Lemmas/RunSpread.walk_spread` gives E[(|w + walk|^2 - y)^2] by induction over the steps from the first and second moments of one hop. Runs with independent random numbers are functions of independent sigma-algebras (`runs_indep`, `walk_at_end`), so variances add.
- **C129** What an interrupted simulation leaves in the folder, and gathering the results of many runs. Model/RunFiles puts the writes of C82 on a disk whose files are whole, empty or cut, and models reading and gather_data. `Spec.LeftBehind` is the crash relation; the writes of one run are analysed file by file (`left_fresh`), a series by induction (`series_table`). That a reader never gets a mixture is refuted: `C129_mixed_runs`, `C129_empty_array`, `C129_records_missing`.
- **C130** What the graphical commands start. Model/Gui models main branch by branch from the values of the form. Reading is proved by splitting at the separators and induction over the entries; the distance in use comes from C51. Negations: `C130_fit_never`, `C130_expansion_never`, `C130_repeated_pair`, `C130_blanks`.
- **C131** Memory only slows the ions down. The configurations, alone or with one ion picked out, form a reversible chain in which every event is its own reverse. For such chains the memory term of the mean square displacement is minus a sum of squares, which gives the bound, and it is monotone along even steps, which gives the limit. The chains are tied to completed runs of the model by following every ion through the tracker.
- **C132** Orbits taken alone agree with the expansion. Model/OrbitFunction evaluates a single cluster and an orbit as the Python code does. The running sum is shown equal to the compiled correlation loop, and the orbits of a built expansion, which are never empty, are matched with its correlation terms one by one.
- **C133** Tracked displacements in floating-point arithmetic. Model/FloatTracker repeats the tracker with a rounding after every operation. An invariant that holds the rounded tracker alongside the exact one is carried through the steps of a run.
- **C134** Bases registered by users. Model/UserBasis has a registry of classes with constructors, numbers that are integers or floats and the conversion of data to the type of the match value. The built-in classes are shown to accept and hold the same data as in Model/Basis.
- **C135** The diffusivity that simulations approach. The weights times total rates are stationary for the chain of configurations (C103), so every step adds the same mean time; the result is tied to completed runs by the mean over waiting times of C98, and combined with the limits per step of C131.
- **C136** Rates in floating-point arithmetic. The loops are modelled again with every floating-point operation rounded. An invariant (value at most a, error at most ((1+u)^n-1)a) is carried through sums, products and the division, side by side with the exact computation and the one with absolute values. The step chances follow from C90_step_chance for both models.
- **C137** A whole simulation in floating-point arithmetic follows the exact one. A relation between the two simulations (same library, occupations, step and model state; rates within a factor) is kept by every step if the random number is clear of the edges. The edges of the two tables differ by at most the margin (C124 for the rounded sums, and the factor of the rates). The random numbers near an edge have a small probability, which adds up over independent steps. C136 supplies the factor for expansions, C133 the displacements.
- **C138** Local barrier models in floating-point arithmetic. The rate is written again with a rounding after each operation, on top of the same choice of the barrier. The exponent carries three roundings; the rate then follows from the bound on exp used in C136. The bound on barriers is an invariant of the choice of rule. C137 is applied to the resulting pair of models.
- **C139** What the fingerprint of a cluster identifies, and what saving does to the data kept with its sites. The fingerprint is an abstract digest of labels and rounded distances, assumed free of collisions. The matcher is that of C49. Independence of the listing follows from C49 applied with positions as site indices. The counterexample is a triangle with three nearly equal sides. Site data are Python values; one save is a map over the entries.
- **C140** What the data file of a fit says about the calculations it was made of. The model puts metadata, model name and file on top of the loader of C54, with its heap of entry objects. The specification is a list of rows without objects, given by inductive relations. A refinement proof shows that the heap holds the rows after any calls; the file is then a function of the rows.
- **C141** Which models have an equilibrium with detailed balance. The hops between configurations form a graph with a ratio on every edge. If ratios around loops are one, the weight of a configuration is the ratio along any chain from a representative of its component; paths of hops and chains of edges are turned into each other. The work enters through the exponential of the sum of the halves. The ring is a direct computation.
- **C142** The state that a file gives a simulation to start from. The selection of blocks is related to a specification of entries by induction over the selection, in both directions. For the agreement, the active sites of an order are shown to be the list of all copies of one active unit-cell site after the other (two strictly increasing lists with the same members).
- **C143** A rule of a local barrier model means what its dictionary says. Spec/RuleFile says what a dictionary means field by field, without the model's reading functions (texts are described by the characters around and in them). Lemmas/RuleFile proves an equivalence for each reading function of Model/LocalBarrier; Props/RuleFileProps joins them. The unknown-key theorem uses Describes of C32.
- **C144** A failing property callback stops a sampling at its place and nothing before it is lost. Spec/CallbackFailure says when a property has its turn (from the intervals, by divisibility and elapsed time), when a callback lets the sampling go on, and what its turn records. Lemmas/CallbackFailure proves by induction over the attached properties that the loop stops at the first that does not go on; Props/CallbackFailureProps reads the effect off for every tracker reachable by registration calls and runs.
- **C145** The listing of property calculations says what a sampling computes. Props/PropertyListProps: the lists are filters of a dictionary with distinct keys (the invariants of the reachable registry), equal for plan and tracker because the tracker's properties differ from the plan's in their last sample only. The record theorem uses C144.
- **C146** An event saved to its own file is read back, and a library is read by position. Model/EventFile with fields of any Python value; JSON turns tuples into lists (Model/Value). Proved by induction on the history of saves and by characterising iteration (Spec/EventFile: Entries).
- **C147** The table of transport data is complete or not made. Model/TransportTable with float, int, loadtxt and the interpolation as parameters; both loops are shown equal to one loop over pairs, characterised by Forall₂ with the row specification. The refutation compares first letters of all names written (Model/Results).

## Trusted base

### What has to be believed

1. **Lean's kernel** (Lean 4.33.0) and the statement of each theorem. No `sorry`, no `native_decide`, no
   `bv_decide`, no axioms of our own. `decide +kernel` is used for closed examples; it is checked by the kernel.
2. **Axioms.** Only `propext`, `Classical.choice` and `Quot.sound`, the three axioms of Lean's library.
   `AXIOMS.md` lists, theorem by theorem, which of them `#print axioms` reports
   (written by `tools/axioms.py`).
3. **The model says what the code says.** Every definition in `Verif/Model` cites the lines it stands for and says
   where it simplifies. `COVERAGE.md` (written by `tools/coverage.py`) lists every function of `/repo/kmcpy`
   with the model files that cite it, and so also the functions that are not modelled.
4. **The specifications in `Verif/Spec`** say what the English statements in `properties.jsonl` mean.

### Assumptions about the outside world

- *Numbers.* Real-number models (`Propose`, `Transport`, `LCE`, `Composite`, `Fitter`) use exact arithmetic.
  The selection kernel is also proved for every monotone rounding (C01, C04, C06), and the clock of a run with
  rounded additions (C123). Rounding to p binary digits, ties to even, is proved to be such a rounding
  (`Lemmas/Binary`); p = 53 are Python floats without overflow and subnormal numbers. Rounding errors elsewhere
  (sums of displacements, correlation products, regression) are outside the model. NaN and infinity are values
  of the model where the code can produce or accept them (`Config`, `Transport`, `Value`).
- *Integers.* Python integers are unbounded. Overflow of the 64-bit integers in numba kernels is outside the model.
  The one exception is the dtype of the external occupation array (`SiteEnergy`), which is modelled.
- *Random numbers.* A run consumes a stream of pairs of variates in [0, 1). Nothing is assumed about their quality,
  nor that numba's and numpy's generators are seeded alike.
- *numba.* Compiled kernels compute what their Python source says; reading outside an array is an `IndexError` in
  the model, though compiled code does not check. numba cannot type an empty list, so dependencies of a library
  without events, or with an event without sites, cannot be generated; the model gives the empty table and row.
- *numpy.* `searchsorted`, `cumsum`, `linalg.norm`, `average`, `loadtxt` and array assignment behave as documented. In particular `searchsorted` counts NaN as larger than every number, in numpy and in compiled numba code (C119).
- *h5py.* Storing a value and reading it back is a parameter. C52 speaks about records whose values come back as they were; lists of texts (orbit fingerprints) do not: version 3 gives byte strings, version 2 refuses them (C120).
- *pymatgen.* Structures are lists of sites. `make_supercell` lists images in the order of
  `lattice_points_in_supercell` (last coordinate fastest). `get_neighbors` is exact within its radius.
  `get_distance`, the species parser and the space-group analysis are parameters.
- *scikit-learn.* `Lasso.fit` is a parameter; only C53_optimal assumes that it returns a minimiser.
- *Hashes.* SHA-256 of a canonical JSON text is a parameter, assumed injective on payloads where stated (C62).
- *Files.* A file system is a map from names to contents (`Checkpoint`, `Results`, `Fitter`). Writing in place can be
  cut at any point (C64). JSON, CSV, gzip and HDF5 encodings of a value give that value back, except for the losses
  that are modelled: tuples become lists, integer keys become texts, HDF5 refuses or converts some values, groups are
  listed in name order.
- *Callbacks and external calculators* are arbitrary functions that may fail. In the run theorems other than C109
  callbacks have no memory and do not reach into the simulator's state; C109 shows that memory makes no difference and
  what goes wrong when a callback alters the state. Callbacks that register or detach callbacks are not modelled.
- *Python's import system* is a parameter (`ModelChoice`).
- *Values and references.* Most model files treat a simulation as a value that owns its state, events and model cache.
  `Model/Shared.lean` puts these objects in a common memory, and C102 proves when the difference cannot be seen.
- *One thread.* The package has no concurrency; a schedule is the sequence of calls a user makes.

### Not modelled

- Logging, `print`, `__repr__`/`__str__`, argument parsing with argparse/Gooey (the commands behind the forms are in Model/Gui).
- Parsing the CIF syntax, symmetry operations and element symbols, and making structures primitive or symmetrized: pymatgen (what `io/cif.py` makes of the rows and operations is modelled, C44, C95; sorting sites is assumed to reorder them).
- pymatgen's disordered-structure enumeration (`local_environment_enumerator.py:454-576`).
- Plotting, pandas tables and fixed file names of the stand-alone scripts in `kmcpy/tools` (their computations are C104).
- Everything `COVERAGE.md` marks as not modelled.

### Where the code disagrees with a natural reading

Each of these is a theorem about the model, most with a general statement and a concrete witness.

| Property | Theorem | What happens |
| --- | --- | --- |
| C09 | C09 theorems | Without generated dependencies, or with fewer than the overlapping ones, the rate table goes stale. |
| C11 | C11_empty_dependencies_lost | An empty dependency list is read back as absent. |
| C13, C14, C15 | C14_mixed_order_transmutes, C15_mixed_order_breaks_tracker | End points that list their species in different order turn one species into another. |
| C18 | C18_not_shortest_in_skewed_cell | The minimum image is taken per component, not in space. |
| C21 | C21_inherited_step_interval_fires_early | A property with only a time interval inherits the global step interval. |
| C28 | C28_nan_accepted, C28_raw_section_accepted | NaN passes the checks; any object is accepted as a section. |
| C29 | C29_default_shape_changes | A tuple shape becomes a list. |
| C30 | C30_bare_name_unreadable, C30_h5_length_unchecked | A checkpoint without suffix cannot be read; HDF5 lengths are not checked. |
| C32 | C32_duplicate_check_too_strict | A rule for another event is rejected as a duplicate. |
| C39 | C39_target_in_surroundings_breaks_balance | Detailed balance needs a barrier that ignores the end points. |
| C40 | C40_shared_site_accepted, C40_truncated_value, C40_text_cut | External arrays share sites, truncate floats and cut texts. |
| C49 | C49 theorems | Cluster equality is neither symmetric nor transitive. |
| C50, C74 | C50_zero_count_returns_nothing, C74_multistate_target_collides | Counts of zero, repeated sites and multi-state targets. |
| C51 | C51_conflict_last_wins | Contradictory cutoffs are accepted. |
| C52 | C52 theorems | HDF5 histories of eleven or more records come back in another order. |
| C54 | C54 theorems | Adding a stored entry object again can make the data ragged. |
| C59 | C59_late_start_underestimates | Rates are divided by absolute time, not by the length of the production window. |
| C61 | C61_small_supercell_lists_twice | Small supercells list a hop twice. |
| C64 | C64_overwrite_can_lose_checkpoint | Checkpoints are overwritten in place. |
| C65 | C65_fixed_sites_stale | Rules on listed sites are not refreshed by the update scheme. |
| C68 | C68_three_states_differ | Equivalent surroundings with three states can differ. |
| C76, C77 | C76_unreadable_history and the C77 theorems | Files replaced before a failure; one-row data cannot be fitted. |
| C78 | C78_own_distances_lost | An explicit distance matrix is not written. |
| C82 | C82_stale_records, C82_keys_merged | Old record files stay; keys that differ only in type merge. |
| C83 | C83_default_order_follows_search, C83_centre_number_differs, C83_centre_images_dropped | Default order depends on the search; two meanings of a centre number; images of the centre go too. |
| C84 | C84_va_not_understood, C84_zero_cutoff_ignored, C84_one_label_switches, C84_charge_spelling | `Va` is not a vacancy; cutoff 0 means the default; one label makes all identifiers labels; `Na1+` names `Na` but chooses no `Na+` site. |
| C86 | C86_constant_needs_number | `constant_barrier(None)` is accepted and every question to the model raises. |
| C87 | C87_h5_state_unchecked, C87_h5_state_wrong_length | `from_config` takes a state from an HDF5 file as it is, whatever its length; a state with eight entries starts a simulation of six sites. |
| C87 | C87_pass_counts_other_elements | Steps per pass count the sites whose element symbol contains the name of the mobile species, so with mobile `F` also `Fe` sites. |
| C88 | C88_arguments_never_run | `run_kmc` without `--input` has no argument for an initial state and always ends with an error. |
| C88 | C88_shape_truncated, C88_template_needs_initial_state | Fractional supercell shapes are cut off; the template calls both initial-state fields optional, but one is needed. |
| C88 | C88_form_moves_only_lithium, C88_sodium_form | The simulation form has no field for the mobile species: for any ion but lithium a simulation is made in which no event can happen. |
| C89 | C89_other_file_replaced, C89_history_file_replaced | A results file that is not a table with the required columns is overwritten with a table of one fit. |
| C92 | C92_same_seed_differs, C92_far_calculator_differs | A continued run with the same configured seed draws the random numbers of the first run again; with a calculator that looks beyond the listed sites the restarted rate table differs from the running one. |
| C95 | C95_equivalent_coordinates_refused, C95_same_crystal_refused, C95_magnetic_refused, C95_repeated_label_hides | A valid CIF file in which atoms that share a site are written with different, symmetry-equivalent coordinates is called invalid (`cif.py:145` looks up the label at the atom's own coordinates); no magnetic file is loaded (`cif.py:217` passes an argument `_unique_coords` does not take); with repeated labels the search by label finds another site. |
| C97 | C97_counts_do_not_set_the_composition, C97_product_accepts_vacancy_only, C97_vacancy_only_fails, C97_larger_cells_misread | With a transformation, `species_counts` does not set the fractions of the disordered structure (always equal shares), so a transformation that keeps the composition returns nothing for other counts; a variable site that may only be vacant is refused although the product accepts it; an ordering on a larger cell is read with the template's site numbers and reports wrong species. |
| C101 | C101_user_value_wins, C101_apply_called | An entry of `compute_kwargs` with the name of a standard argument (`event`, `changes`, …) replaces that argument without notice; `apply_fn` must take all five standard arguments, although `compute_fn` may take a subset. |
| C102 | C102_shared_state_stale, C102_shared_events_fail, C102_shared_model_wrong_rates, C102_old_tracker_clock | A `KMC` object keeps references: two simulations given one `State` leave each other's rate table stale, constructing a simulation rewrites the hop codes of shared events and the cache of a shared model, and a tracker that a run returned goes on showing the current time. |
| C104 | C104_part_of_a_symbol, C104_not_states, C104_wrong_parts | The script that reads Monte Carlo structures tests symbols with `in` on texts, so N on a Na site counts as Na; its values -1 and 1 are not simulation states; the script that collects results takes the second and third part of the path at underscores. |
| C106 | C106_record_of_target_untrue | With the default variable sites the target of a hop is varied too: the record of an endpoint pair names sodium on a site that is empty in the pair's initial structure. |
| C107 | C107_added_event_mixed | After `add_event` the statistics combine the new number of events with the table of the old events. |
| C108 | C108_declared_fitter_ignored | A subclass's own `fitter_class` is ignored whenever a base class has a registered fitter. |
| C109 | C109_altered_state_goes_unnoticed | A callback that alters the live state object it is handed is not noticed: the next hop comes from the tables computed before it, hops between vacant sites are executed and counted as steps. |
| C80 | C80_null_mapping | In `state_mapping_by_site` a site with `None` has the common mapping if the argument is a list, and no value for any state if it is a dictionary. |
| C114 | C114_detaching_itself_ends_the_run, C114_detached_is_still_called, C114_value_under_the_new_property | `detach` from inside a callback: the loop goes on with the copied list, the detached property is still called and storing its value raises `KeyError` (`tracker.py:412`); a property attached in its place under the same name gets the value. |
| C115 | C115_default_library_doubles | `generate_events` with a mapping only lists every hop in both orientations, and every event acts both ways: each jump happens at twice the rate the model gives it (diffusivity and conductivity double, equilibrium shares do not change). |
| C116 | C116_tolerance_merges_shapes | Pairs at distance 1 and 1.0015 share a coefficient: distances closer than 0.001 + 0.1 % are not told apart when orbits are built. |
| C118 | C118_half_cell_image_matters | For hops of exactly half a cell (supercells two cells long) the periodic image listed for a site decides the sign of the counted displacement, so jump diffusivity, conductivity and Haven ratio depend on it. |
| C119 | C119_rate_zero_chosen | with one NaN in the rate table the first event is executed, also when its rate is zero; nothing is reported |
| C119 | C119_impossible_hop_can_be_nan | the local barrier model multiplies a factor 0 with an overflowing exponential: a hop that is not possible gets the rate NaN instead of 0 |
| C120 | C120_hdf5_refused | fingerprints read from an HDF5 file are byte strings, and `str` of a byte string is not the text: the model refuses the parameters that were fitted for it |
| C121 | C121_supercell_right_iff, C121_supercell_rejects_itself, C121_supercell_misreads, C121_refused_supercell_inconsistent | `make_supercell` repeats the whole list of allowed species, while the supercell lists all images of one site before those of the next; with two kinds of sites the species end up on the wrong sites, and a refusal comes after the template has changed |
| C123 | C123_double_can_stand_still | the clock is a float: once the time shown is large compared with the waiting times, steps are made but the time does not change, so a time limit or a time interval is never reached |
| C124 | C124_rare_event_never_chosen, C124_double_never_chosen | the running sum of the rates is a float: an event whose rate is less than 2⁻⁵⁴ of the rate of an event before it in the list adds nothing to the sum and is never selected, although its rate is positive |
| C125 | C125_inert_site_undetermined, C125_left_out_group | a local site that can hold one species only has the basis function 1, so its coefficient and the constant term cannot be told apart; groups of more than four sites are left out whatever the cutoffs, and an interaction of such a group is out of reach of every coefficient set |
| C127 | C127_mixed_export, C127_more_entries, C127_refused_weights, C127_last_weight_cut | the three files of `write_fitting_inputs` are replaced one after the other, so a crash over an earlier export, or a weight list of the wrong length, can leave new correlations with old energies or weights, which the fit accepts; a crash in the last number can leave a wrong last weight |
| C129 | C129_mixed_runs, C129_empty_array, C129_records_missing | result files are replaced one after the other at the end of a run; a crash over an earlier run with the same label can leave the new arrays with the old table, or an empty array, and before the last file it hides that there were property records |
| C130 | C130_fit_never, C130_expansion_never, C130_repeated_pair, C130_blanks | Two of the four graphical commands cannot work; in a cutoff text a repeated pair may keep an earlier distance and a blank after a separator makes the entry ineffective. |
| C131 | C131_one_start_exceeds | The bound on the mean square displacement holds on average over equilibrium starts; from a single start it can be exceeded. |
| C132 | C132_stated_multiplicity, C132_state_numbers_differ | The multiplicity in an orbit file is believed as it stands, and the functions of single orbits are not the correlations of an expansion in the Chebyshev basis. |
| C133 | C133_half_cell | With Python floats two sites half a cell apart up to `2⁻⁶⁰` hop the other way round, and the displacement is off by a lattice vector. |
| C134 | C134_alias_copy_differs, C134_fractions_accepted, C134_mixed_types, C134_interface_too_small, C134_same_class_name | An occupation in a basis registered under another name than that of its class differs from its own copy. The occupation basis accepts every number between -1 and 2. A basis with values 1 and -1/2 refuses its own mismatch value. The abstract interface does not ask for the values `zeros`, `ones` and two counts need. Two classes with one class name are both read back as the first. |
| C139 | C139_relisted_reference_needs_unique, C139_equal_not_same_fingerprint, C139_saving_twice_changes | A relisted copy of the reference can be returned with another fingerprint, because the first correspondence within tolerance is taken; equal clusters can have different fingerprints; lists in the site data turn into texts when a loaded cluster is saved again. |
| C140 | C140_names_last_model, C140_failed_save_destroys | The data file names the model of the last accepted structure for rows computed with another; a failed save replaces a complete file by an incomplete one. |
| C141 | C141_driven_ring, C141_constant_is_a_prefactor | A site expansion with one nonzero value around a ring has no equilibrium weights; a constant reported site-energy difference is no driving force but only changes the attempt frequency. |
| C142 | C142_initial_file_time_ignored | A time or step in an initial-state file (key `occupation`) is silently ignored; only files with the key `occupations` set them. |
| C143 | C143_unknown_keys_match_everything, C143_blank_species | Keys of a rule that are not known are passed over, so that a rule without a type whose condition has a misspelt key applies to every event; a blank species is refused in a list but accepted as a single text. |
| C146 | C146_lists_come_back_as_tuples, C146_foreign_dictionary | An event built with lists is saved, but comes back with tuples and compares unequal; any dictionary without the two keys, such as the file of an event library, is read as an event with no sites. |
| C147 | C147_never_written | `collect_transport_data` reads `migration_<pass>.txt`, a file that nothing in the package writes; with one such file missing there is no table at all. |
