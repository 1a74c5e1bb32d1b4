{"id": "C01", "title": "Input entries are partitioned between ranks", "statement": "When initial conditions spread over several files are read on several ranks, concatenating what rank 0, rank 1, ... read, in rank order, gives exactly the concatenation of the files: every entry of every file is read by exactly one rank, none twice, none skipped, order preserved, and reading never indexes outside a file, also when some files are empty or there are fewer entries than ranks.", "quantifier": "every list of file sizes (including empty files) and every positive number of ranks", "why_tests_cant": "The region splitting loop has many boundary cases (file end coincides with rank end, empty files, zero entries for a rank); tests cover a handful of size lists.", "anchors": ["src/io/file_distribution.rs: get_regions_from, get_rank_assignment, get_input_rank_assignment, get_rank_input_assignment_for_rank"]}
{"id": "C02", "title": "Output regions tile the output files and match the created datasets", "statement": "When a snapshot is written, the regions of all ranks together cover every row of every created dataset exactly once, each rank is given exactly as many rows as it has particles, the dataset sizes created by the main rank (computed as if on one rank) are the sizes that the regions of all ranks tile, and file sizes differ from an even split only in the last file.", "quantifier": "every list of particle counts per rank and every positive number of output files", "why_tests_cant": "Rank counts and file counts interact arbitrarily; an off-by-one would silently leave rows unwritten or written twice only for particular combinations.", "anchors": ["src/io/file_distribution.rs: get_output_rank_assignment, get_rank_output_assignment_for_rank", "src/io/output/mod.rs: create_file_system, create_dataset_in_files, compute_output_rank_assignment_system"]}
{"id": "C03", "title": "Snapshot write/read round trip over any numbers of files and ranks", "statement": "If the ranks' particle data are written to a snapshot with any number of output files and the snapshot is read back on any number of ranks, the concatenation of what the ranks read equals the concatenation of what the ranks had written; chunked reading returns the same rows in the same order as unchunked reading for every positive chunk size.", "quantifier": "every distribution of data over writing ranks, every positive file count, reader rank count and chunk size", "why_tests_cant": "Combination space of (data, writers, files, readers, chunk size) is unbounded; a test fixes one combination.", "anchors": ["src/io/output/mod.rs: write_dataset_to_files", "src/io/input/mod.rs: Reader::read_dataset, read_dataset_chunked, get_chunk_sizes", "src/io/file_distribution.rs"]}
{"id": "C04", "title": "Serial snapshot output is mutually exclusive and cannot deadlock", "statement": "Without parallel HDF5, at any time at most one rank has the output files open, ranks open them in rank order, and all ranks pass through the same number of barriers so no rank waits forever.", "quantifier": "every number of ranks and every interleaving of the ranks between barriers", "why_tests_cant": "A race or a barrier mismatch only shows for particular interleavings; tests run one or two ranks with one schedule.", "anchors": ["src/io/output/mod.rs: init_wait_for_other_ranks_system, finish_wait_for_other_ranks_system"]}
{"id": "C05", "title": "Snapshot timer", "statement": "Snapshots are numbered 0,1,2,... without gaps or repeats; snapshot number n is never written before time_first_snapshot + n*time_between_snapshots unless the simulation is stopping; a step whose time has reached the next output time always writes; a static dataset is written in snapshot 0 and in no other; the step in which the simulation stops always writes a snapshot.", "quantifier": "every sequence of simulation times and stop events", "why_tests_cant": "Depends on the complete history of time steps.", "anchors": ["src/io/output/timer.rs: Timer::run_criterion, dataset_write_run_criterion, update_system"]}
{"id": "C06", "title": "Parameter overrides act like nested assignments", "statement": "Applying a command line override section.k1.k2...=v makes the parameter at that path read back as v, leaves every parameter at a diverging path as it was, creates missing intermediate levels, and a list of overrides behaves as applying them in order.", "quantifier": "every parameter tree, every key path whose existing prefix consists of mappings, every list of overrides", "why_tests_cant": "Trees and paths are unbounded; tests use four tiny trees.", "anchors": ["src/parameter_plugin/parameter_file_contents.rs: insert_overrides, set_sublevel_value_by_keys, construct_sub_mapping"]}
{"id": "C07", "title": "Globally equal number of exchange chunks", "statement": "When every rank cuts its own list into chunks for a sequence of collective exchanges, all ranks get the same number of chunks, the concatenation of a rank's chunks is its list, and no chunk exceeds the requested size, whatever the lengths on the ranks, so the collectives match up.", "quantifier": "every family of list lengths over the ranks and every positive chunk size", "why_tests_cant": "A mismatch is a deadlock that appears only for particular length combinations on several ranks.", "anchors": ["src/communication/exchange_communicator.rs: divide_into_chunks_with_same_num_globally, get_chunk, div_ceil"]}
{"id": "C08", "title": "Gather of variable-length data", "statement": "After a variable-count all-gather every rank holds the concatenation of the ranks' lists in rank order: the computed displacements are disjoint, contiguous and in bounds.", "quantifier": "every family of local lists (including empty ones)", "why_tests_cant": "Displacement arithmetic must be right for all count vectors.", "anchors": ["src/communication/mpi_world.rs: all_gather_varcount, all_gather_vec"]}
{"id": "C09", "title": "Data-by-rank container behaves as a map over the other ranks", "statement": "A container of per-rank data, under any sequence of insertions, removals, drains and iterations, behaves as a finite map from rank to value: lookup returns the last inserted value, iteration yields each present rank once in increasing order, a fresh container for rank r of n has exactly the n-1 other ranks.", "quantifier": "every operation sequence", "why_tests_cant": "Stateful container; bugs appear only after particular operation histories.", "anchors": ["src/communication/data_by_rank.rs: DataByRank"]}
{"id": "C10", "title": "All-to-all exchange delivers exactly what was sent", "statement": "When all ranks call an exchange with their per-destination lists, every rank r receives, tagged with sender s, exactly the list that s addressed to r, in order, under every interleaving of sends and receives.", "quantifier": "every number of ranks, every matrix of lists, every message schedule", "why_tests_cant": "Schedules of message passing are not controllable in tests.", "anchors": ["src/communication/exchange_communicator.rs: ExchangeCommunicator::exchange_all, blocking_send_to, receive_vec, empty_send_to_others"]}
{"id": "C11", "title": "Two-dimensional Hilbert key is a bijection", "statement": "Mapping integer cell coordinates to the Peano-Hilbert key and decoding it again returns the coordinates; different cells get different keys, every key in range is hit, and no intermediate addition overflows 64 bits.", "quantifier": "all 2^64 coordinate pairs", "why_tests_cant": "The domain is far too large to enumerate and a table/rotation bug affects only some cells.", "anchors": ["src/peano_hilbert.rs: PeanoKey2d::from_integer_pos, rot"]}
{"id": "C12", "title": "Three-dimensional Hilbert key is a bijection", "statement": "For coordinates below 2^42 the three-dimensional key is below 2^126, distinct cells have distinct keys, and every key below 2^126 is the key of exactly one cell.", "quantifier": "all coordinate triples below 2^42", "why_tests_cant": "2^126 cases, 48x8 lookup tables.", "anchors": ["src/peano_hilbert.rs: PeanoKey3d::from_integer_pos, ROTATION_TABLE, SUBPIX_TABLE"]}
{"id": "C13", "title": "Hilbert curve continuity", "statement": "Cells with consecutive keys are face neighbours, so a contiguous key range handed to one rank is a face-connected region (three-dimensional and two-dimensional curve).", "quantifier": "all consecutive key pairs", "why_tests_cant": "Global property of the table recursion; cannot be sampled exhaustively.", "anchors": ["src/peano_hilbert.rs: PeanoKey3d, PeanoKey2d, ROTATION_TABLE, SUBPIX_TABLE, rot"]}
{"id": "C14", "title": "Every particle is assigned to an existing rank", "statement": "After domain decomposition each particle key is owned by exactly one rank, the rank index lies between 0 and the number of ranks minus one, and ownership is monotone in the key (each rank owns a contiguous key range).", "quantifier": "every non-empty multiset of distinct particle keys with at least as many particles as ranks, every number of ranks", "why_tests_cant": "Depends on a bisection over 128-bit keys with global counts; tests use one-dimensional toy keys.", "anchors": ["src/domain/decomposition.rs: Decomposition::new, get_owning_rank, find_segments, find_cut, binary_search", "src/domain/key.rs"]}
{"id": "C15", "title": "All ranks compute the same decomposition", "statement": "The cuts computed on every rank are identical because they depend only on globally reduced quantities; consequently two ranks never disagree on who owns a particle.", "quantifier": "every distribution of particles over ranks", "why_tests_cant": "Disagreement needs multi-rank runs with adversarial distributions.", "anchors": ["src/domain/decomposition.rs: ParallelCounter, KeyCounter, Decomposition::new", "src/communication/mpi_world.rs: all_gather_sum, all_gather_min, all_gather_max"]}
{"id": "C16", "title": "Load balance of the decomposition", "statement": "Every rank but the last owns at most the average number of particles and at most two fewer, provided the keys do not span a range larger than the bisection can resolve (2^MAX_DEPTH + 1); beyond that range a tight cluster of keys may end up on one rank.", "quantifier": "every set of distinct keys, every number of ranks and every distribution of the particles over ranks", "why_tests_cant": "Quantifies over all particle distributions.", "anchors": ["src/domain/decomposition.rs: find_cut, binary_search, KeyCounter::load_in_range"]}
{"id": "C17", "title": "Domain exchange conserves particles and numbers them uniquely", "statement": "After the exchange the multiset of particles over all ranks is unchanged, each particle sits on the rank owning its key, all components of a particle stay together, and afterwards every particle has a globally unique id made of its rank and a contiguous local index.", "quantifier": "every distribution of particles and every ownership function", "why_tests_cant": "Losing or duplicating a particle depends on the whole distribution.", "anchors": ["src/domain/mod.rs: set_outgoing_entities_system, determine_particle_ids_system", "src/domain/exchange_data_plugin.rs"]}
{"id": "C18", "title": "Bounding extents", "statement": "The bounding extent of a set of positions contains every position and is the smallest such box; the distance from a point to the box is a lower bound for its distance to every position inside; combining extents contains both.", "quantifier": "every non-empty list of positions", "why_tests_cant": "Ranges over all point sets.", "anchors": ["src/domain/extent.rs: Extent::from_positions, get_all_encompassing, squared_distance_to_pos, contains", "src/extent.rs"]}
{"id": "C19", "title": "Every photon source is deposited exactly once", "statement": "For every source whose key is not larger than the largest particle key exactly one rank adds its rate to exactly one cell, so the luminosity present on the grid equals the total luminosity of the sources.", "quantifier": "every list of sources distributed over ranks in any way and every decomposition", "why_tests_cant": "Sources near the end of the key range silently vanish; a test has to hit them.", "anchors": ["src/source_systems.rs: set_source_terms_system", "src/domain/decomposition.rs: get_owning_rank"]}
{"id": "C20", "title": "Tree construction stores every particle exactly once in the right place", "statement": "The tree built from a particle list contains exactly these particles; each leaf's particles lie in the leaf's box; each node's particle count is the number of particles below it; leaves above the depth limit hold at most one particle more than the configured maximum (a leaf is split when it already holds more than the maximum before an insertion) and the depth limit is never exceeded.", "quantifier": "every particle list, maximal depth and maximal leaf size", "why_tests_cant": "Recursive subdivision for arbitrary point sets including duplicates.", "anchors": ["src/quadtree/mod.rs: QuadTree::new, insert, insert_new, subdivide", "src/domain/extent.rs: get_quadrant_index, get_quadrants"]}
{"id": "C21", "title": "Radius search is exact", "statement": "A radius search returns every particle whose (periodic) distance to the centre is strictly below the radius, each exactly once, and nothing else.", "quantifier": "every particle list inside the box of the tree, every search centre and every radius", "why_tests_cant": "Pruning errors only appear for special geometry at box edges.", "anchors": ["src/quadtree/radius_search.rs: bounding_boxes_overlap_periodic, within_radius_periodic, TreeIter, iter_particles_in_radius"]}
{"id": "C22", "title": "Periodic wrapping", "statement": "Wrapping a position into the periodic box puts it in the half-open box, changes every coordinate by an integer multiple of the box length and leaves positions inside the box unchanged (so wrapping twice is wrapping once).", "quantifier": "every position and every box with positive side lengths", "why_tests_cant": "Ranges over all coordinates, negative and arbitrarily far away.", "anchors": ["src/simulation_box.rs: periodic_wrap, periodic_wrap_component"]}
{"id": "C23", "title": "Periodic distance is the minimal image distance", "statement": "For two positions in the box the periodic distance is the minimum over all integer box translations of the ordinary distance, and it is symmetric.", "quantifier": "every pair of positions in the box, every lattice translation", "why_tests_cant": "Quantifies over infinitely many images.", "anchors": ["src/simulation_box.rs: minimize_component, periodic_distance_vec, periodic_distance"]}
{"id": "C24", "title": "Periodic image of a found neighbour is found again", "statement": "If a particle is found within a search radius by periodic distance, then among the 27 (9) periodic images one lies within that radius of the centre, so selecting the wrapped image never fails; it is unique when the radius is below half the box.", "quantifier": "every particle, centre in the box and radius", "why_tests_cant": "The failing combination (image not among candidates) would be a rare panic.", "anchors": ["src/voronoi/constructor/parallel/mod.rs: find_wrapped_point", "src/simulation_box.rs: iter_periodic_images"]}
{"id": "C25", "title": "Hierarchical time step schedule", "statement": "In one cycle of the hierarchical time stepping the number of sweeps in which a cell of level l takes part, times the time step of level l, equals the time the cycle advances, for every allowed level l; the cycle consists of 2^(allowed levels - 1) sweeps and the first sweep of the cycle is the only one in which the coarsest allowed level takes part.", "quantifier": "every number of levels below 32", "why_tests_cant": "Bit-twiddled schedule must be right for all level counts.", "anchors": ["src/sweep/timestep_state.rs: iter_levels_in_sweep_order, lowest_active_from_iteration, find_index_of_lowest_set_bit, advance_allowed_levels", "src/sweep/timestep_level.rs"]}
{"id": "C26", "title": "Chosen level respects the desired time step", "statement": "The level assigned to a cell gives a time step not larger than the desired one unless the deepest level is already used, is the coarsest level with that property, and never lies outside the allowed range.", "quantifier": "every positive maximum and desired time step, every number of levels", "why_tests_cant": "Real-valued inputs and rounding boundaries (exact powers of two).", "anchors": ["src/sweep/timestep_level.rs: from_max_timestep_and_desired_timestep", "src/sweep/timestep_state.rs: get_desired_level_from_desired_timestep"]}
{"id": "C27", "title": "Allowed levels grow consistently with elapsed time", "statement": "While coarser levels are being unlocked the time elapsed at the start of every cycle is an integer multiple of the time step of the coarsest level allowed in that cycle, so the steps of all levels stay aligned; once all levels are unlocked every cycle advances exactly the maximum time step.", "quantifier": "every number of levels and every number of cycles", "why_tests_cant": "Property of an unbounded history.", "anchors": ["src/sweep/timestep_state.rs: advance_allowed_levels, current_max_timestep", "src/sweep/mod.rs: run_sweeps"]}
{"id": "C28", "title": "Active cell list agrees with the levels", "statement": "Enumerating the active cells for level l yields exactly the cells whose level is at least l, each once, after any history of level changes followed by a bin update; using stale bins is detected.", "quantifier": "every operation history", "why_tests_cant": "Cache-invalidations bugs depend on histories.", "anchors": ["src/sweep/active_list.rs: ActiveList"]}
{"id": "C29", "title": "Every active cell is solved exactly once per direction and after its upwind neighbours", "statement": "In one sweep every active cell is solved exactly once for every direction, never before all its active upwind neighbours (local or remote, non-periodic) for that direction, whatever the order in which ready tasks are picked and messages arrive.", "quantifier": "every grid distributed over any number of ranks, every set of active cells, every scheduling of task pops, sends and receives", "why_tests_cant": "Schedules are nondeterministic (binary heap ties, MPI timing).", "anchors": ["src/sweep/mod.rs: single_sweep, solve, init_counts, get_initial_tasks, solve_task, handle_local_neighbour, handle_remote_neighbour, receive_messages_from_rank"]}
{"id": "C30", "title": "Sweeps terminate on acyclic grids", "statement": "If for every direction the upwind relation between active cells is acyclic, no execution of the distributed sweep gets stuck: as long as something is unsolved some rank can make progress, the number of steps is bounded, and when a rank leaves its loop nothing is left to solve, send or receive.", "quantifier": "every grid with acyclic dependencies, every interleaving", "why_tests_cant": "Deadlocks are schedule dependent.", "anchors": ["src/sweep/mod.rs: solve, check_deadlock", "src/sweep/communicator.rs"]}
{"id": "C31", "title": "Sweep result does not depend on the schedule", "statement": "On a grid without periodic connections the final incoming and outgoing photon rates of every cell after a sweep are the same for all schedules and equal the solution defined by recursion along the upwind order. (With periodic connections two schedules can give different rates.)", "quantifier": "every grid, every interleaving (exact arithmetic)", "why_tests_cant": "Only an exhaustive exploration of schedules could test it.", "anchors": ["src/sweep/mod.rs: solve, solve_task, handle_local_neighbour"]}
{"id": "C32", "title": "Expected and sent message counts agree", "statement": "The number of messages a rank expects from each other rank before a sweep equals the number the other rank sends to it during the sweep, provided neighbour relations are symmetric between ranks and level information is up to date.", "quantifier": "every symmetric distributed grid and every activity assignment", "why_tests_cant": "A mismatch is a hang or an arithmetic underflow on some grids only.", "anchors": ["src/sweep/mod.rs: init_counts, handle_remote_neighbour, handle_remote_periodic_neighbour, receive_messages_from_rank", "src/sweep/deadlock_detection.rs"]}
{"id": "C33", "title": "Photon conservation in redistribution", "statement": "The photons leaving a cell in one direction are split over the faces pointing downwind with non-negative weights that add up to one (if there is at least one such face), so summed over all neighbours the transported correction equals the change of the outgoing rate; across a face at most one side is downwind.", "quantifier": "every cell geometry and every direction", "why_tests_cant": "Real-valued geometry.", "anchors": ["src/sweep/mod.rs: solve_task", "src/sweep/grid/cell.rs: points_downwind, points_upwind"]}
{"id": "C34", "title": "Incremental updates equal full recomputation", "statement": "Because corrections are accumulated, on one rank after any sequence of sweeps over any active sets the incoming rate stored in a cell equals the sum over its upwind local neighbours of their current outgoing rate times the face fraction.", "quantifier": "every sequence of active sets and every schedule, on one rank", "why_tests_cant": "History dependent.", "anchors": ["src/sweep/mod.rs: solve_task, handle_local_neighbour, handle_remote_neighbour", "src/sweep/site.rs"]}
{"id": "C35", "title": "Sweep message buffers lose nothing", "statement": "Messages handed to the sweep communicator are delivered to the addressed rank exactly once and in order for every completion timing of the pending sends, at most one send per rank is in flight, and when the sweep loop ends all queues are empty.", "quantifier": "every sequence of pushes, send attempts and completion events", "why_tests_cant": "Completion timing of non-blocking sends is not controllable.", "anchors": ["src/sweep/communicator.rs: SweepCommunicator::try_send_all, update_pending_requests, count_remaining_to_send, drop", "src/sweep/mod.rs: solve, send_all_messages"]}
{"id": "C36", "title": "Direction rotation", "statement": "Rotating the set of directions keeps all lengths and angles, and remapping direction-resolved rates to the rotated directions keeps the total rate of every cell.", "quantifier": "every rotation axis/angle and every rate vector", "why_tests_cant": "Real-valued identity and an accumulation loop over arbitrary matrices.", "anchors": ["src/sweep/direction/mod.rs: get_rotation_matrix, multiply_by_matrix, kernel_f, remap, rotate_directions_system"]}
{"id": "C37", "title": "Cartesian grid neighbour relations", "statement": "On a cartesian grid, if cell b is listed as a neighbour of cell a across a face then a is listed as a neighbour of b across a face of equal area with opposite normal; every cell has exactly one entry per face; boundary entries appear exactly at the box boundary of a non-periodic grid.", "quantifier": "every grid resolution, every number of ranks, periodic or not", "why_tests_cant": "Wrap-around corner cases for all sizes including one cell per side.", "anchors": ["src/sweep/grid/cartesian.rs: IntegerPosition, GridConstructor, get_neighbour, construct"]}
{"id": "C38", "title": "Grid read from file", "statement": "When a grid is read from a connection list, each valid connection between particles a and b produces an entry for b in a's cell on the rank of a and an entry for a in b's cell on the rank of b with opposite normals; the global id lookup returns the owner's id for every id existing on any rank, and each remote cell becomes a halo once.", "quantifier": "every connection list and every distribution of particles over ranks", "why_tests_cant": "Cross-rank lookups over arbitrary data.", "anchors": ["src/arepo_postprocess/read_grid/mod.rs: Constructor, ConnectionType::try_from, get_particle_type, add_connections", "src/arepo_postprocess/read_grid/id_cache.rs: IdCache"]}
{"id": "C39", "title": "Remapping uses the globally nearest particle", "statement": "When abundances are remapped from an older snapshot every particle receives data of a snapshot particle at the globally minimal distance over all ranks, and its temperature and ionised fraction never decrease.", "quantifier": "every distribution of snapshot particles over ranks with no rank empty", "why_tests_cant": "Pruning by extents may drop the true nearest neighbour only for special layouts.", "anchors": ["src/arepo_postprocess/remap.rs: exchange_request_chunk, get_outgoing_requests, closer_particle_could_exist_on_other_rank, remap_from"]}
{"id": "C40", "title": "Absorption never creates photons", "statement": "The rate leaving a cell is between zero and the incoming rate, is zero below the threshold, and decreases when density, cell size or neutral fraction increase.", "quantifier": "every non-negative rate, density, size and ionised fraction in [0,1]", "why_tests_cant": "Real-valued.", "anchors": ["src/chemistry/hydrogen_only/mod.rs: HydrogenOnly::get_outgoing_rate"]}
{"id": "C41", "title": "Chemistry sub-stepping integrates exactly the requested time", "statement": "The adaptive sub-stepping either reports failure or applies updates whose durations add up to exactly the requested time step, rejected steps leave no trace in the state, and the recursion always terminates.", "quantifier": "every solver state, every acceptance behaviour of the single-step update", "why_tests_cant": "Recursion depends on data; all acceptance patterns must be covered.", "anchors": ["src/chemistry/hydrogen_only/mod.rs: Solver::perform_timestep, perform_timestep_internal, try_timestep_update"]}
{"id": "C42", "title": "Ionised fraction stays in its valid range", "statement": "After every accepted step the ionised hydrogen fraction lies between the lower bound and one minus 1e-10 (and not below the floor when cooling is prevented).", "quantifier": "every input state, every number of sub-steps", "why_tests_cant": "Nonlinear update, all real inputs.", "anchors": ["src/chemistry/hydrogen_only/mod.rs: Solver::clamp, perform_timestep_internal, update_abundances"]}
{"id": "C43", "title": "Time scale bookkeeping", "statement": "The smallest recorded time scale is the minimum of all contributions, and its label names a contribution attaining the minimum; counting labels partitions the cells.", "quantifier": "every list of contributions", "why_tests_cant": "Ranges over all lists.", "anchors": ["src/chemistry/timescale.rs: Timescale::min, TimescaleCounter"]}
{"id": "C44", "title": "Scale factor search", "statement": "The bisection used to convert elapsed time to a scale factor terminates, returns a value within the requested tolerance of a point where the monotone function crosses the target, and stays inside the initial bracket.", "quantifier": "every monotone function, bracket and tolerance reachable within the depth limit", "why_tests_cant": "Ranges over all functions.", "anchors": ["src/cosmology.rs: depth_limited_binary_search, get_scalefactor_from_scalefactor_and_time_difference"]}
{"id": "C45", "title": "Temperature and internal energy conversions are mutually inverse", "statement": "Converting a temperature to internal energy and back returns the temperature for every positive molecular weight, and vice versa.", "quantifier": "every temperature, molecular weight, density", "why_tests_cant": "Real-valued algebra.", "anchors": ["src/units/specific_impls.rs"]}
{"id": "C46", "title": "Hand-written determinants", "statement": "The 3x3, 4x4 and 5x5 determinant routines return the mathematical determinant.", "quantifier": "every matrix over a commutative ring", "why_tests_cant": "A wrong sign in a cofactor only shows on generic matrices.", "anchors": ["src/voronoi/math/utils.rs: determinant3x3, determinant4x4, determinant5x5"]}
{"id": "C47", "title": "Linear system solvers", "statement": "If the solvers return a solution without dividing by zero it satisfies the linear system; with pivoting and a nonsingular matrix the general solver never divides by zero.", "quantifier": "every M x M system over an ordered field; every 3x4 system", "why_tests_cant": "Pivoting order depends on data.", "anchors": ["src/voronoi/math/utils.rs: solve_system_of_equations, gaussian_elimination, backward_substitution, solve_3x4_system_of_equations_error"]}
{"id": "C48", "title": "In-circle and in-sphere predicates", "statement": "For a positively oriented triangle (tetrahedron) the exact predicate reports containment iff the point is strictly closer to the circumcentre than the vertices; the floating point formula and the exact determinant have the same sign in exact arithmetic; the computed circumcentre is equidistant from all vertices.", "quantifier": "every non-degenerate triangle/tetrahedron and every query point", "why_tests_cant": "Algebraic identities in 15 variables.", "anchors": ["src/voronoi/primitives/triangle.rs: circumcircle_contains, get_center_of_circumcircle", "src/voronoi/primitives/tetrahedron.rs: circumcircle_contains, circumcircle_contains_float, get_center_of_circumcircle"]}
{"id": "C49", "title": "Point-in-simplex tests", "statement": "A point is reported inside a triangle/tetrahedron iff its barycentric coordinates are all positive (same side of every face); the line/triangle intersection classification never sees three negative coordinates and the named edge is the one separating the point from the triangle.", "quantifier": "every non-degenerate simplex and query point in general position", "why_tests_cant": "Sign case analysis over all inputs.", "anchors": ["src/voronoi/primitives/triangle.rs: generic_contains, transform_point_to_canonical_coordinates, get_intersection_type", "src/voronoi/primitives/tetrahedron.rs: points_are_on_same_side"]}
{"id": "C50", "title": "Initial simplex contains all points", "statement": "The all-encompassing triangle/tetrahedron created from a bounding extent strictly contains every point of the extent and is positively oriented.", "quantifier": "every extent with positive side lengths", "why_tests_cant": "Needs inequality reasoning for all aspect ratios.", "anchors": ["src/voronoi/primitives/triangle.rs: all_encompassing", "src/voronoi/primitives/tetrahedron.rs: all_encompassing"]}
{"id": "C51", "title": "Two-dimensional triangulation stays a consistent mesh", "statement": "After any sequence of point insertions (splits) and flips every recorded neighbour relation is mutual, every face of a triangle is a live face made of the triangle's points, the opposing point is a vertex of the neighbour not on the shared face, no removed triangle or face is referenced, and the numbers of triangles, faces and points are 1+2n, 3+3n, 3+n.", "quantifier": "every sequence of split/flip operations from the initial triangle", "why_tests_cant": "Histories are unbounded; tests check random samples.", "anchors": ["src/voronoi/delaunay/impl_2d.rs: split, flip, insert_basic_tetra", "src/voronoi/delaunay/mod.rs: insert, perform_flip_checks, update_connections_in_existing_tetra"]}
{"id": "C52", "title": "Three-dimensional triangulation stays a consistent mesh", "statement": "The same invariants hold for the 1-to-4 split, the 2-to-3 flip and the 3-to-2 flip in three dimensions; the numbers of tetrahedra and faces change by +3/+6, +1/+2, -1/-2.", "quantifier": "every sequence of operations whose local preconditions hold", "why_tests_cant": "Histories are unbounded.", "anchors": ["src/voronoi/delaunay/impl_3d.rs: split, two_to_three_flip, three_to_two_flip, insert_tetra_and_faces"]}
{"id": "C53", "title": "Insertion bookkeeping never follows a dangling index", "statement": "After inserting a point the remembered start tetra for the next point location exists in the triangulation, and the flip loop only works on tetras that exist.", "quantifier": "every flip behaviour", "why_tests_cant": "Depends on the order in which flips remove queued tetras.", "anchors": ["src/voronoi/delaunay/mod.rs: perform_flip_checks, insert, last_insertion_tetra", "src/voronoi/delaunay/point_location.rs: find_containing_tetra"]}
{"id": "C54", "title": "Point location is sound and complete", "statement": "Point location returns a tetra only if it contains the point, finds one whenever a containing tetra is reachable through neighbour links, checks every tetra at most once, and terminates.", "quantifier": "every triangulation graph and every distance heuristic", "why_tests_cant": "Best-first search order depends on floating point distances.", "anchors": ["src/voronoi/delaunay/point_location.rs: find_breadth_first, find_containing_tetra"]}
{"id": "C55", "title": "Each halo is sent once", "statement": "Over all iterations of halo exchange a given (particle, periodic image) is sent to a given rank at most once, every requested one is sent, and its ids are remembered.", "quantifier": "every sequence of search results", "why_tests_cant": "History dependent.", "anchors": ["src/voronoi/constructor/halo_cache.rs: HaloCache::get_new_haloes", "src/voronoi/constructor/halo_iteration.rs: iterate"]}
{"id": "C56", "title": "Halo search grows to the full circumsphere and stops", "statement": "The search radius of a tetra grows until it covers the circumsphere and the number of growth rounds is bounded; when the iteration ends every live tetra with a local vertex has been searched with a radius covering its circumsphere.", "quantifier": "every sequence of triangulation changes that eventually stops", "why_tests_cant": "Global termination argument over an unbounded loop.", "anchors": ["src/voronoi/constructor/halo_iteration.rs: SearchData, search_radius_large_enough, get_radius_search_data, run"]}
{"id": "C57", "title": "Cyclic arrangement and periodic windows", "statement": "Arranging items by a relation that forms a single cycle visits every item exactly once with consecutive items related; the periodic window iterator yields exactly the n consecutive pairs including the wrap-around pair.", "quantifier": "every finite list and relation", "why_tests_cant": "Ranges over all relations.", "anchors": ["src/voronoi/utils.rs: arrange_cyclic_by, Cyclic, periodic_windows_2"]}
{"id": "C58", "title": "Voronoi cells of neighbours agree", "statement": "The face between two neighbouring cells is the same polygon in both cells, with the same area (in three dimensions: if the polygon is convex) and opposite normals, and lies in the middle between the two points; a point has exactly the points with which it shares a simplex as neighbours; the polygon area formulas are independent of the starting vertex and orientation of a convex polygon; the cell contains a position exactly if its point is closer than those of all neighbours, and its volume is the sum over its faces of area times half the distance over three.", "quantifier": "every pair of points and every list of circumcentres", "why_tests_cant": "Real-valued geometry.", "anchors": ["src/voronoi/cell.rs", "src/voronoi/primitives/polygon3d.rs"]}
{"id": "C59", "title": "Wire encodings round trip", "statement": "Periodic wrap types, optional values and entity identifiers survive being encoded for MPI and decoded again, and different values have different encodings.", "quantifier": "all values of the encoded types", "why_tests_cant": "Quantifies over all 64-bit identifiers and all wrap vectors.", "anchors": ["src/voronoi/constructor/parallel/mpi_types.rs", "src/communication/communicated_option.rs", "src/communication/identified.rs", "src/simulation_box.rs: WrapType"]}
{"id": "C60", "title": "Stellar source table lookup", "statement": "The table lookup for stellar populations never indexes outside the tables for any age and metallicity, and the result lies between the smallest and largest of the four surrounding table values times the mass.", "quantifier": "every age, metallicity, mass", "why_tests_cant": "All real inputs, binary search at bin boundaries.", "anchors": ["src/arepo_postprocess/bpass.rs: bpass_lookup, linear_interpolate"]}
{"id": "C61", "title": "Plugins are built once", "statement": "The one-time part of a plugin is built at most once however often the plugin is added, and adding a plugin twice that does not allow it is rejected.", "quantifier": "every sequence of plugin additions", "why_tests_cant": "History dependent.", "anchors": ["src/simulation/mod.rs: add_plugin, already_added"]}
{"id": "C62", "title": "Searches reach every rank that can answer them", "statement": "Whenever every rank has particles, a halo search is sent to every rank that holds a particle within the search radius by periodic distance, wherever the search centre is.", "quantifier": "every distribution of particles over ranks, every search centre and radius", "why_tests_cant": "A missed rank leaves a hole in the mesh only for special geometry across periodic boundaries.", "anchors": ["src/domain/decomposition.rs: rank_owns_part_of_search_radius", "src/domain/mod.rs: communicate_extents", "src/domain/extent.rs: cube_around_sphere", "src/voronoi/constructor/parallel/mod.rs: get_outgoing_searches"]}
{"id": "C63", "title": "Every absorbed photon ionises one atom", "statement": "The photons a cell removes from the passing radiation are exactly the ionisations its chemistry then performs in the same time, and never fewer photons are removed than atoms ionised; heating and ionisation rates refer to the same photons.", "quantifier": "every cell state, every list of incoming rates per direction, every time step", "why_tests_cant": "Photon conservation couples two independently written formulas over all real inputs.", "anchors": ["src/chemistry/hydrogen_only/mod.rs: get_outgoing_rate, num_newly_ionized_hydrogen_atoms, photoionization_rate, photoheating_rate", "src/sweep/mod.rs: solve_task"]}
{"id": "C64", "title": "Hand-written derivatives of the rate coefficients are exact", "statement": "Every temperature derivative coded by hand (collisional ionisation, recombination, recombination cooling, collisional excitation, bremsstrahlung, Compton) equals the derivative of the coded rate function at every positive temperature, and their sum is the derivative of the total cooling rate.", "quantifier": "every positive temperature and solver state", "why_tests_cant": "Real analysis; finite differences only sample.", "anchors": ["src/chemistry/hydrogen_only/mod.rs: *_derivative functions, collision_fit_function"]}
{"id": "C65", "title": "The implicit chemistry update moves in the right direction", "statement": "The Jacobian used for the implicit ionisation update is the derivative of the rate equation, and the fraction and temperature changes have the sign of the net rate whenever the step is short enough, vanishing exactly at equilibrium.", "quantifier": "every solver state and every sufficiently short time step", "why_tests_cant": "Real-valued, all states.", "anchors": ["src/chemistry/hydrogen_only/mod.rs: ionized_fraction_change, temperature_change"]}
{"id": "C66", "title": "Datasets keep their physical values across reading and writing", "statement": "A dataset written by the code and read back yields values representing the same physical quantity whatever base units writer and reader use, a dataset of another dimension is rejected, and reading a dataset with cosmological scaling yields the physical value a^a_scaling h^h_scaling times the stored one in SI.", "quantifier": "every dimension, every value, every set of base units and every cosmology", "why_tests_cant": "Quantifies over all dimensions and unit systems; the shipped constants are all one.", "anchors": ["src/io/unit_reader.rs", "src/io/input/mod.rs: convert_dataset_units", "src/io/output/mod.rs: add_dimension_attrs", "src/units/dimension.rs", "src/arepo_postprocess/unit_reader.rs", "src/cosmology.rs: get_factor"]}
{"id": "C67", "title": "The triangulation of the plane is the Delaunay triangulation", "statement": "Whenever the construction for points in a square box is completed, its triangles are exactly the counterclockwise triangles of the given points (and the vertices of the initial triangle) whose circumcircle contains no other point; every name is mapped to the index of its point. In a box which is not square the same holds only for lengths measured in units of the sides.", "quantifier": "every list of different points in any box, every order of insertion and every order in which the point location visits triangles", "why_tests_cant": "Quantifies over all point sets; the unit tests check a few random sets of 100 points in a square.", "anchors": ["src/voronoi/delaunay/mod.rs: construct, insert, perform_flip_checks, flip_check, face_is_invalid", "src/voronoi/delaunay/impl_2d.rs: split, flip", "src/voronoi/delaunay/point_location.rs", "src/voronoi/primitives/triangle.rs: contains, circumcircle_contains, all_encompassing", "src/dimension.rs: remap_point"]}
{"id": "C68", "title": "The triangles tile the initial triangle and are connected", "statement": "After every completed sequence of insertions the triangles of the mesh have disjoint interiors, together cover exactly the initial triangle, and any two of them are connected through neighbour links.", "quantifier": "every initial triangle, every sequence of insertions which is completed", "why_tests_cant": "A gap or an overlap can appear after any of infinitely many sequences of flips.", "anchors": ["src/voronoi/delaunay/impl_2d.rs: split, flip", "src/voronoi/delaunay/mod.rs: insert, perform_flip_checks"]}
{"id": "C69", "title": "Points in general position are always triangulated", "statement": "If no three points are on a line and no four on a circle (initial vertices included) and all of them lie in the box, the construction in the plane ends without a panic after a bounded number of rounds: every point is found and no test is degenerate.", "quantifier": "every finite set of points in general position, every order of insertion, every heap order", "why_tests_cant": "The panics occur for special positions and histories only; tests cannot exclude them for all point sets.", "anchors": ["src/voronoi/delaunay/mod.rs: construct, insert, perform_flip_checks", "src/voronoi/delaunay/point_location.rs: find_containing_tetra", "src/voronoi/primitives/triangle.rs"]}
{"id": "C70", "title": "The triangulation does not depend on the order of the points", "statement": "Two completed constructions in the plane for the same points have the same triangles, whatever the order of the points, the sort keys and the order in which the point location visits the triangles.", "quantifier": "every permutation of every list of different points, every key, every heap order", "why_tests_cant": "Relates two executions with different histories; there are n! orders.", "anchors": ["src/voronoi/delaunay/mod.rs: construct, insert", "src/voronoi/delaunay/point_location.rs"]}
{"id": "C71", "title": "Plane Voronoi cells are the regions of nearest points", "statement": "After a completed construction for points in a square box the polygon of the Voronoi cell of every given point exists, and `contains` of the cell answers exactly whether a point is at least as close to the given point as to every other point; for points of the box only the given points count, so the cells cover the box and any two cells share only points equally close to both.", "quantifier": "every finite set of points in a square box for which the construction is completed, every point of the plane", "why_tests_cant": "Quantifies over all point sets and all positions in the plane; a cell which is wrong in a thin wedge passes sampled checks.", "anchors": ["src/voronoi/cell.rs: Cell::contains, new, get_points", "src/voronoi/triangulation_data.rs", "src/voronoi/utils.rs: arrange_cyclic_by", "src/voronoi/delaunay/mod.rs: construct"]}
{"id": "C72", "title": "Plane Voronoi faces lead exactly to the Delaunay neighbours", "statement": "After a completed construction for different points in a square box the faces of the cell of every given point are computed without a panic, no two of them lead to the same point, and they lead exactly to those points which form a Delaunay triangle with the given point.", "quantifier": "every finite set of different points in a square box for which the construction is completed", "why_tests_cant": "A missing or doubled face appears for rare configurations of neighbours only.", "anchors": ["src/voronoi/cell.rs: get_faces, make_face", "src/voronoi/utils.rs: arrange_cyclic_by", "src/voronoi/triangulation_data.rs", "src/voronoi/delaunay/mod.rs: construct"]}
{"id": "C73", "title": "The mesh of tetrahedra is the Delaunay mesh", "statement": "Whenever a sequence of insertions in three dimensions is completed, the tetrahedra of the mesh are exactly the tetrahedra of the inserted points (and the vertices of the initial tetrahedron) which are not flat and whose circumsphere contains no other point, all positively oriented. For the whole construction this holds in cubic boxes; in other boxes only for lengths measured in units of the sides.", "quantifier": "every initial tetrahedron or box, every sequence of points, every order in which the point location visits tetrahedra", "why_tests_cant": "Quantifies over all point sets and histories of 2-to-3 and 3-to-2 flips; a sequence of flips in space can get stuck in principle.", "anchors": ["src/voronoi/delaunay/mod.rs: insert, perform_flip_checks, flip_check, face_is_invalid", "src/voronoi/delaunay/impl_3d.rs: split, flip, two_to_three_flip, three_to_two_flip", "src/voronoi/delaunay/point_location.rs", "src/voronoi/primitives/tetrahedron.rs: contains, circumcircle_contains", "src/voronoi/primitives/triangle.rs: get_line_intersection_type"]}
{"id": "C74", "title": "The tetrahedra tile the initial tetrahedron and are connected", "statement": "After every completed sequence of insertions in three dimensions the tetrahedra of the mesh have disjoint interiors, together cover exactly the initial tetrahedron, and any two of them are connected through neighbour links.", "quantifier": "every initial tetrahedron, every sequence of insertions which is completed", "why_tests_cant": "A gap or an overlap can appear after any of infinitely many sequences of flips.", "anchors": ["src/voronoi/delaunay/impl_3d.rs: split, two_to_three_flip, three_to_two_flip", "src/voronoi/delaunay/mod.rs: insert, perform_flip_checks"]}
{"id": "C75", "title": "Points in space in general position are always triangulated", "statement": "If no four points are in a plane and no five on a sphere (initial vertices included) and all of them lie in the initial tetrahedron, the insertions in three dimensions end without a panic after a bounded number of rounds: every point is found, no test is degenerate, and every flip finds the tetrahedra it needs.", "quantifier": "every finite set of points in general position, every order of insertion, every heap order", "why_tests_cant": "The panics of a 3-to-2 flip without a third tetrahedron or of degenerate tests occur for special histories only; tests cannot exclude them.", "anchors": ["src/voronoi/delaunay/mod.rs: insert, perform_flip_checks", "src/voronoi/delaunay/impl_3d.rs: flip", "src/voronoi/delaunay/point_location.rs: find_containing_tetra"]}
{"id": "C76", "title": "The mesh of tetrahedra does not depend on the order of the points", "statement": "Two completed sequences of insertions of the same points in three dimensions have the same tetrahedra, whatever the order of the points and the order in which the point location visits the tetrahedra.", "quantifier": "every permutation of every list of points, every heap order", "why_tests_cant": "Relates two executions with different histories; there are n! orders.", "anchors": ["src/voronoi/delaunay/mod.rs: insert", "src/voronoi/delaunay/point_location.rs"]}
{"id": "C77", "title": "Voronoi cells in space are the regions of nearest points", "statement": "After a completed construction for points in a cubic box the faces of the Voronoi cell of every given point exist, and `contains` of the cell answers exactly whether a place is closer to the given point than to every other point of the triangulation. If the construction is given the box of the simulation including the periodic images (as in the production code), only the given points count for places in the box of the simulation, so that every place with a unique nearest point lies in the cell of this point. Without the enlargement of the box this fails in one corner.", "quantifier": "every finite set of points in a cubic box for which the construction is completed, every place in space", "why_tests_cant": "Quantifies over all point sets and all places; a cell which is wrong in a thin wedge passes sampled checks.", "anchors": ["src/voronoi/cell.rs: Cell::contains, new, get_faces, get_face_polygon_perpendicular_to_line", "src/voronoi/triangulation_data.rs", "src/voronoi/utils.rs: arrange_cyclic_by", "src/voronoi/delaunay/mod.rs: construct", "src/extent.rs: including_periodic_images", "src/voronoi/constructor/mod.rs: construct_from_iter"]}
{"id": "C78", "title": "Voronoi faces in space lead exactly to the Delaunay neighbours", "statement": "After a completed construction for different points in a cubic box the faces of the cell of every given point are computed without a panic, every face is a polygon with at least three vertices, no two faces lead to the same point, and they lead exactly to those points which form a Delaunay tetrahedron with the given point.", "quantifier": "every finite set of different points in a cubic box for which the construction is completed", "why_tests_cant": "The arrangement of the tetrahedra around an edge panics unless they form one cycle; a missing or doubled face appears for rare configurations only.", "anchors": ["src/voronoi/cell.rs: get_faces, get_face_polygon_perpendicular_to_line", "src/voronoi/utils.rs: arrange_cyclic_by", "src/voronoi/triangulation_data.rs", "src/voronoi/delaunay/mod.rs: construct"]}
{"id": "C79", "title": "The volume of a plane Voronoi cell is the area of the region of nearest points", "statement": "After a completed construction for points in a square box `volume` of the Voronoi cell of every given point is positive and equal to the area (Lebesgue measure) of the set of all points of the plane which are at least as close to the given point as to every other point of the triangulation.", "quantifier": "every finite set of points in a square box for which the construction is completed", "why_tests_cant": "Relates the number computed by a formula over the vertices to the measure of an infinite set, for all point sets; tests compare with a few known shapes only.", "anchors": ["src/voronoi/cell.rs: Cell::volume, new, point_windows", "src/voronoi/triangulation_data.rs", "src/voronoi/utils.rs: arrange_cyclic_by, periodic_windows_2", "src/voronoi/delaunay/mod.rs: construct"]}
{"id": "C80", "title": "The volume of a Voronoi cell in space is the volume of the region of nearest points", "statement": "After a completed construction for points in a cubic box `volume` of the Voronoi cell of every given point (the sum of the pyramids over its faces) is positive and equal to the volume (Lebesgue measure) of the set of all places which are closer to the given point than to every other point of the triangulation.", "quantifier": "every finite set of points in a cubic box for which the construction is completed", "why_tests_cant": "Relates a sum over faces and vertices to the measure of an infinite set, for all point sets; tests compare with a few known shapes only.", "anchors": ["src/voronoi/cell.rs: Cell::volume, pyramid_volume, get_faces", "src/voronoi/primitives/polygon3d.rs: area", "src/voronoi/triangulation_data.rs", "src/voronoi/utils.rs: arrange_cyclic_by, periodic_windows_2", "src/voronoi/delaunay/mod.rs: construct"]}
{"id": "C81", "title": "Neighbouring cells of a construction agree on their common face", "statement": "After a completed construction in a square or cubic box, if a face of the cell of a given point leads to another given point, the cell of the other point has a face which leads back, with the opposite normal, the same area and (in space) the same polygon; the area is positive.", "quantifier": "every finite set of points in a square or cubic box for which the construction is completed, every pair of given points", "why_tests_cant": "The two cells are computed independently, starting from different triangles and in different orders; a disagreement would create or destroy photons and appears for particular arrangements only.", "anchors": ["src/voronoi/cell.rs: get_faces, get_face_polygon_perpendicular_to_line", "src/voronoi/primitives/polygon3d.rs: area", "src/voronoi/utils.rs: arrange_cyclic_by", "src/voronoi/delaunay/mod.rs: construct"]}
{"id": "C82", "title": "The surface of a Voronoi cell is closed", "statement": "After a completed construction the effective area (sum of face area times cosine over the downwind faces) of the cell of a given point is the same in every direction and in the opposite direction, and it is positive for every direction: every cell has upwind and downwind faces, and the division by the total effective area in the sweep is never a division by zero.", "quantifier": "every finite set of points in a square or cubic box for which the construction is completed, every direction", "why_tests_cant": "Quantifies over all directions and all cells; a missing face or a wrong area changes the balance by a small amount only.", "anchors": ["src/voronoi/cell.rs: get_faces, get_normal", "src/voronoi/primitives/polygon3d.rs: area", "src/sweep/mod.rs: solve_task (total_effective_area)", "src/sweep/grid/cell.rs: points_downwind"]}
{"id": "C83", "title": "The size of a cell is the radius of a ball with the volume of the region of nearest points", "statement": "After a completed construction `size` of the cell of a given point is positive, and a disc (plane) or ball (space) of this radius has the area or volume of the region of the points which are nearest to the given point.", "quantifier": "every finite set of points in a square or cubic box for which the construction is completed", "why_tests_cant": "Quantifies over all point sets and relates the size to the measure of an infinite set.", "anchors": ["src/voronoi/cell.rs: size, volume", "src/voronoi/delaunay/mod.rs: construct"]}
{"id": "C84", "title": "The cells built by several ranks are the regions of nearest particles of all ranks and their periodic images", "statement": "Every rank on which the parallel construction of the grid ends has exactly one cell for every particle of its own; the cell contains exactly those places which are closer to the particle than to every other particle of every rank and to every periodic image of every particle; the neighbours of the cell are exactly the particles and images whose regions have a common face with it, each once, with the name (own, remote, periodic, boundary) which says where they are, a face of positive area and the unit vector towards them as normal.", "quantifier": "every distribution of finitely many particles to any number of ranks in a cubic periodic box, every rank, every initial search radius, every number of iterations after which the construction ends", "why_tests_cant": "A rank sees only the particles which the search has found; a particle which was missed changes a cell only in rare configurations, and tests compare a few distributions with the serial result.", "anchors": ["src/voronoi/constructor/mod.rs: construct_from_iter, sweep_grid", "src/voronoi/constructor/halo_iteration.rs: run, iterate", "src/voronoi/constructor/parallel/mod.rs: radius_search, determine_global_extent", "src/voronoi/constructor/parallel/plugin.rs: construct_grid_system", "src/voronoi/delaunay/mod.rs: construct, insert", "src/voronoi/cell.rs: Cell::new, contains"]}
{"id": "C85", "title": "The volumes of the cells of all ranks add up to the volume of the box", "statement": "The volume of the cell of a particle is the volume of the region of the places closest to it (periodic images included), it is the part of the simulation box in which an image of the particle is the closest one, the volumes of the cells of all ranks add up to the volume of the box, the size is the radius of a ball of the same volume, and the faces of a cell close its surface.", "quantifier": "every distribution of particles to any number of ranks for which the construction ends", "why_tests_cant": "Relates the sum over all ranks of numbers computed from local data to the measure of infinite sets.", "anchors": ["src/voronoi/constructor/mod.rs: construct_from_iter, sweep_grid", "src/voronoi/constructor/halo_iteration.rs: run, iterate", "src/voronoi/constructor/parallel/mod.rs: radius_search, determine_global_extent", "src/voronoi/constructor/parallel/plugin.rs: construct_grid_system", "src/voronoi/delaunay/mod.rs: construct, insert", "src/voronoi/cell.rs: Cell::new, contains", "src/voronoi/cell.rs: volume, size"]}
{"id": "C86", "title": "Two ranks agree on the face between their cells", "statement": "If a cell of one rank has a face towards a particle of the same or another rank (directly or through the periodic boundary), the cell of that particle on its own rank has a face of the same area with the opposite normal, whose name leads back to the first particle through the opposite boundary.", "quantifier": "every distribution of particles to any number of ranks, every pair of ranks on which the construction ends", "why_tests_cant": "Both ranks compute the face independently from different sets of points, inserted in different orders, into different triangulations; photons leaving one rank must be photons which the other rank expects.", "anchors": ["src/voronoi/constructor/mod.rs: construct_from_iter, sweep_grid", "src/voronoi/constructor/halo_iteration.rs: run, iterate", "src/voronoi/constructor/parallel/mod.rs: radius_search, determine_global_extent", "src/voronoi/constructor/parallel/plugin.rs: construct_grid_system", "src/voronoi/delaunay/mod.rs: construct, insert", "src/voronoi/cell.rs: Cell::new, contains"]}
{"id": "C87", "title": "Halo particles are the remote neighbours", "statement": "The halo particles which a rank spawns are exactly the particles of other ranks which are neighbours of its own cells (through the periodic boundary only in periodic sweeps); a particle imported by accident has none, and without periodic boundaries every one is spawned once.", "quantifier": "every distribution of particles to any number of ranks for which the construction ends", "why_tests_cant": "The criterion (the cell of the halo has a local neighbour) is evaluated in an incomplete cell of the halo; that it is right nevertheless depends on all cells.", "anchors": ["src/voronoi/constructor/mod.rs: construct_from_iter, sweep_grid", "src/voronoi/constructor/halo_iteration.rs: run, iterate", "src/voronoi/constructor/parallel/mod.rs: radius_search, determine_global_extent", "src/voronoi/constructor/parallel/plugin.rs: construct_grid_system", "src/voronoi/delaunay/mod.rs: construct, insert", "src/voronoi/cell.rs: Cell::new, contains"]}
{"id": "C88", "title": "The parallel construction of the grid ends", "statement": "If the cells of the particles of a rank reach at most h, the box is a cube of side at least 2 M with M at least 3.2 h and at least the initial search radius, and the particles and images closer than 2 M to those of the rank are in general position (no four in a plane, no five on a sphere, the vertices of the initial tetrahedron included), then the construction ends on this rank after finitely many iterations: no search asks for more than the searched rank can answer, no insertion panics, no tetrahedron at an own particle stays undecided.", "quantifier": "every distribution of particles to any number of ranks, every order of the ranks, every rank", "why_tests_cant": "Termination of a loop which depends on the positions of the particles of all ranks; the search radius may grow and with it the number of points, and any of the panics (radius larger than half the box, insertion of a point twice, degenerate tetrahedra) could be reached on the way.", "anchors": ["src/voronoi/constructor/mod.rs: construct_from_iter, sweep_grid", "src/voronoi/constructor/halo_iteration.rs: run, iterate", "src/voronoi/constructor/parallel/mod.rs: radius_search, determine_global_extent", "src/voronoi/constructor/parallel/plugin.rs: construct_grid_system", "src/voronoi/delaunay/mod.rs: construct, insert", "src/voronoi/cell.rs: Cell::new, contains", "src/voronoi/constructor/halo_iteration.rs: get_undecided_tetra, get_relevant_tetra_search_radius"]}
{"id": "C89", "title": "Levels known across ranks", "statement": "After the grid is built and after any number of updates of the timestep levels, every rank knows the current level of each neighbour of each of its cells, on whichever rank the neighbour is and whether or not it is seen through a periodic boundary; neither starting the sweep nor updating the levels panics.", "quantifier": "all worlds in a cubic box on which the parallel construction ended on every rank, all numbers of levels and all sequences of level choices", "why_tests_cant": "involves the grid construction, the halo entities, the active lists and the level exchange of all ranks together; a missing halo or a stale level only shows for particular decompositions", "anchors": ["src/sweep/mod.rs: init_sweep_system, Sweep::new, get_level, update_timestep_levels, communicate_levels", "src/sweep/active_list.rs", "src/voronoi/constructor/parallel/plugin.rs: construct_grid_system", "src/domain/mod.rs: determine_particle_ids_system"]}
{"id": "C90", "title": "Sweep on the constructed grid", "statement": "On the Voronoi grid which the ranks have constructed (periodic or not) every fair sweep ends and never panics; every active particle is solved exactly once in every direction, after all active particles adjacent to it on the upwind side; without periodic boundaries the rates do not depend on the order in which messages arrive; in a periodic sweep with all particles active no photons are lost at faces.", "quantifier": "all worlds in a cubic box on which the construction ended, all directions, levels, sources, chemistries, schedules and message delays", "why_tests_cant": "the absence of cyclic dependencies is a geometric fact about all Voronoi grids, agreement of the ranks about faces holds only jointly, and schedules cannot be enumerated", "anchors": ["src/sweep/mod.rs: Sweep::solve, solve_task, init_counts, get_initial_tasks", "src/voronoi/constructor/mod.rs: sweep_grid", "src/sweep/grid/cell.rs: Face", "src/sweep/communicator.rs"]}
{"id": "C91", "title": "Deadlock check", "statement": "If the optional deadlock check passes, every two active cells on different ranks which are neighbours are seen from both sides with the same levels. On a constructed grid the check passes if every rank has active cells. Contrary to its purpose it hangs whenever some rank has no active cell while another has some.", "quantifier": "all grids, numbers of ranks, levels and initial states", "why_tests_cant": "the check is only exercised with several ranks and only fails for particular distributions of levels over ranks", "anchors": ["src/sweep/deadlock_detection.rs: check_some_initial_task_exists, get_dependencies, check_deadlock", "src/sweep/mod.rs: single_sweep"]}
{"id": "C92", "title": "Consecutive sweeps without a barrier", "statement": "During a full timestep several sweeps follow each other and no rank waits for the others in between, so that messages of different sweeps share the same unmarked channels. Nevertheless no rank ever panics or gets stuck, all sweeps end, nothing is left in the network or in the buffers, and what is in the cells is a result which is also possible if all ranks wait for each other after every sweep; without periodic boundaries it is the only one.", "quantifier": "all consistent grids without cyclic dependencies, all numbers of ranks and sweeps, levels, sources, chemistries, schedules and message delays", "why_tests_cant": "the overlap of sweeps depends on the relative speed of the ranks and message delays, which tests neither control nor enumerate", "anchors": ["src/sweep/mod.rs: run_sweeps, single_sweep, init_counts, get_initial_tasks, solve, update_chemistry", "src/sweep/communicator.rs"]}
{"id": "C93", "title": "Whole simulation", "statement": "On a constructed grid the simulation can be continued for any number of time steps: in every step the cells are counted, at least one sweep is made, all sweeps end without panic and the levels are chosen and communicated. After every step each particle has been advanced by exactly the time of the simulation, whatever its levels were, its level is the one belonging to its time scale and its neighbours know it. Without periodic boundaries the state after any number of steps does not depend on the speed of the ranks or on message delays.", "quantifier": "all worlds in a cubic box on which the construction ended, all numbers of steps and (fewer than 32) levels, chemistries, sources, directions and their rotations, schedules and message delays", "why_tests_cant": "composition of the schedule, the level exchange and the overlapping sweeps over unboundedly many steps and all interleavings", "anchors": ["src/sweep/mod.rs: run_sweep_system, run_sweeps, count_cells_global, single_sweep, update_chemistry, update_timestep_levels, communicate_levels", "src/sweep/timestep_state.rs", "src/sweep/active_list.rs", "src/sweep/direction/mod.rs: rotate_directions_system"]}
{"id": "C94", "title": "Main loop and final time", "statement": "The program can always go on until it stops: the first frame makes no sweep and shows the initial conditions, frame k shows the state after k time steps, whose time is known in advance (it depends on the number of levels and the maximum time step only). With a final time the loop ends after finitely many frames, and the last frame writes a snapshot; without one it never ends. Snapshots are numbered consecutively and one is written in exactly those frames in which the next snapshot time is reached, and in the last one. Contrary to what the name suggests the run does not stop at the first time not before the final time but one time step later.", "quantifier": "all worlds in a cubic box on which the construction ended, all final times, snapshot times, numbers of levels, chemistries, schedules and message delays", "why_tests_cant": "the order of the stages of one frame decides about the number of time steps and the contents of the snapshots; tests run a fixed number of frames", "anchors": ["src/simulation/mod.rs: run", "src/simulation_plugin/mod.rs: stop_simulation_system, exit_system, write_simulated_time_system", "src/stages.rs", "src/sweep/mod.rs: run_sweep_system", "src/io/output/timer.rs"]}
{"id": "C95", "title": "Ionization time", "statement": "The ionization time of a particle is infinite as long as its ionized fraction has been at most one half after all time steps made so far, and otherwise it is the time after the first time step at whose end the fraction exceeded one half; it never changes afterwards.", "quantifier": "all simulations on constructed grids, all particles and numbers of frames", "why_tests_cant": "a statement about the whole history of a run, whatever the chemistry does in between", "anchors": ["src/sweep/mod.rs: run_sweep_system", "src/components.rs: IonizationTime"]}
{"id": "C96", "title": "Time series", "statement": "The averages of the ionized fraction and the temperature in the time series are the means over the particles of all ranks weighted by mass or volume: they do not depend on the distribution of the particles over the ranks, lie between the extreme values of the particles, and the denominator of the averages over the volume is the volume of the box on every constructed grid. The numbers of particles at each timestep level count the particles on this level or a deeper one, in every state of a simulation. Contrary to their names they are not the numbers of particles on the level, and the averages of the photoionization rate are zero, whatever the radiation is, if this rate is not one of the fields of the snapshots.", "quantifier": "all distributions of particles, all states of simulations on constructed grids", "why_tests_cant": "sums over all ranks; the relation of the counts to the levels holds in every state which can be reached and follows from the invariants of the active lists", "anchors": ["src/sweep/time_series.rs: compute_time_series_system, compute_global_sum, num_particles_at_timestep_levels_system", "src/sweep/mod.rs: count_cells_global"]}
{"id": "C97", "title": "Grid independent of the distribution", "statement": "The grid does not depend on the number of ranks nor on the rank which has a particle: the cell of a particle has the same volume and size, and the same faces with the same areas, normals and particles, periodic images or boundaries behind them, each as often, only the kind of the neighbour (local or remote) and the order of the faces can be different.", "quantifier": "all pairs of worlds with the same particles in the same cubic box, dealt out to ranks in any two ways, on which the construction of the ranks ended, with and without periodic boundaries", "why_tests_cant": "the ranks search different halos and build different triangulations; that the cells agree follows from uniqueness of the Delaunay tetrahedra and the correctness of the halo search, not from running two examples", "anchors": ["src/voronoi/constructor/mod.rs", "src/voronoi/constructor/parallel/mod.rs", "src/voronoi/mod.rs: Cell", "src/sweep/grid/mod.rs"]}
{"id": "C98", "title": "Simulation independent of the distribution", "statement": "Without periodic boundaries and as long as all particles have the same timestep level before each call, in particular with a single level, the time, the levels, the rates and the states of all particles do not depend on the number of ranks, on the rank which has a particle, on the number of tasks which are solved before messages are sent, or on the schedule. With different levels this is false: the rates of inactive cells depend on whether the upwind neighbour is on the same rank.", "quantifier": "all pairs of worlds with the same particles on which the construction ended, all chemistries, sources, directions and rotations, numbers of calls, schedules and message delays", "why_tests_cant": "compares all executions of two programs with different processes and different messages", "anchors": ["src/sweep/mod.rs: run_sweep_system, run_sweeps, single_sweep, handle_local_neighbour, handle_remote_neighbour, update_chemistry, update_timestep_levels", "src/sweep/communicator.rs", "src/voronoi/constructor/parallel/mod.rs"]}
{"id": "C99", "title": "Containment in f64", "statement": "For points as `remap_point` returns them the containment test of a tetrahedron gives the same answer as with exact arithmetic, although every operation of the first attempt is rounded to f64: whenever the first attempt does not report a precision error it is right. The remapping itself keeps the order of the coordinates and always returns points between 1 and 2.", "quantifier": "all tetrahedra and points whose coordinates are binary64 numbers between 1 and 2, all extents and all points in them for the remapping", "why_tests_cant": "the tolerance 1e-15 has to exceed the rounding errors of all 10^31 and more inputs; tests cannot hit the inputs for which a tolerance is just too small", "anchors": ["src/voronoi/primitives/tetrahedron.rs: contains, points_are_on_same_side_of_triangle", "src/dimension.rs: remap_point", "src/voronoi/math/precision_types.rs", "src/voronoi/math/utils.rs: Sign::try_from_val"]}
{"id": "C100", "title": "In-sphere test in f64", "statement": "For points as `remap_point` returns them, a conclusive answer of the f64 in-sphere test is right: true iff the point is strictly inside the circumsphere of the tetrahedron. If it is not conclusive, the test with rational numbers gives the right answer.", "quantifier": "all positively oriented tetrahedra and all points with binary64 coordinates between 1 and 2", "why_tests_cant": "the inputs for which rounding changes the answer are a tiny part of all inputs and are never hit by random tests", "anchors": ["src/voronoi/primitives/tetrahedron.rs: circumcircle_contains, circumcircle_contains_float", "src/voronoi/math/utils.rs: determinant5x5_sign"]}
{"id": "C101", "title": "Plane tests and intersections in f64", "statement": "For points as `remap_point` returns them, the in-circle test, the containment test of a triangle, the sign of a 3x3 determinant, and the classification of the intersection of a line with a triangle give the answer of exact arithmetic.", "quantifier": "all triangles, points and lines with binary64 coordinates between 1 and 2; all matrices of binary64 numbers which are multiples of 2^-300", "why_tests_cant": "the inputs for which rounding changes the answer are a tiny part of all inputs and are never hit by random tests", "anchors": ["src/voronoi/primitives/triangle.rs: circumcircle_contains, contains, get_line_intersection_type", "src/voronoi/math/utils.rs: determinant3x3_sign, compare_result_against_entries, solve_system_of_equations"]}
{"id": "C102", "title": "From the input files to the ranks", "statement": "When the program starts on N ranks, every row of the input files becomes a particle with all values of its row on exactly one rank, whatever files the rows are in. Particles with the same key are on the same rank and the ranks have consecutive ranges of keys. The startup panics if and only if it should: with fewer rows than ranks, a position outside of the box or datasets of different lengths. If no small cube has more than c particles, all ranks but the last one have the average number of particles up to 2c, and none is empty.", "quantifier": "all lists of files, rows, numbers of datasets, simulation boxes and numbers of ranks; for the absence of panics all positions in the box of which no two are in the same cell of the 2^42 grid of the keys; for the balance all particles with at most c in any cube of side 1.002/2^13 of the box", "why_tests_cant": "composes reading, the check of the box, the keys, the decomposition and the exchange over all ranks; tests run single systems with a few particles", "anchors": ["src/io/input/mod.rs: spawn_entities_system, read_dataset_system", "src/simulation_plugin/mod.rs: check_particles_in_simulation_box_system", "src/peano_hilbert.rs", "src/domain/mod.rs: domain_decomposition_system, set_outgoing_entities_system", "src/domain/exchange_data_plugin.rs"]}
{"id": "C103", "title": "Whole runs", "statement": "The output of the program does not depend on the number of ranks, on the order of the rows in the input files or on their distribution over the files: after the same number of calls the simulation time is the same and the snapshots have the same rows, up to their order, whatever the number of output files and the order in which the ranks write.", "quantifier": "all pairs of input files with the same rows, all numbers of ranks, batch sizes, schedules, message delays, chemistries, numbers of calls and output files; one timestep level, no periodic boundaries, runs whose construction of the grid ends, sources which agree", "why_tests_cant": "relates two whole executions of different numbers of processes, from reading the input to the output", "anchors": ["src/main.rs", "src/io/input/mod.rs", "src/domain/mod.rs", "src/voronoi/constructor/parallel/mod.rs", "src/sweep/mod.rs", "src/io/output/mod.rs"]}
{"id": "C104", "title": "Sources of a run", "statement": "The list of all sources which every rank gets is that of the stars of the input files (rows with a positive formation scale factor) in the order of the files, or that of the parameter file, whatever the number of ranks is. The sum of the source terms of all particles is the sum of the rates of the stars. If the particle closest to each star is on the rank which has the key of the star (for example if the star is at the position of a particle), every particle has the same source term for all numbers of ranks, files and orders of the rows, and the output of the program does not depend on these.", "quantifier": "all files of stars and particles, numbers of ranks, boxes, rates, and nearest neighbour searches; for the luminosity all stars whose key is not larger than that of every particle", "why_tests_cant": "compares runs on different numbers of ranks for all inputs; which particle gets a source depends on the decomposition", "anchors": ["src/arepo_postprocess/sources.rs: read_sources_system, read_sources", "src/main.rs: main", "src/source_systems.rs: set_source_terms_system"]}
{"id": "C105", "title": "Physical state at the start", "statement": "When the main loop starts, every particle has exactly the components the solver needs, with the values of its row of the input: density, ionized fraction (the parameter, or 0.76 times the electron abundance clamped to the allowed range), the temperature which belongs to its specific energy at that fraction, its share of the sources, mass = density times volume of its cell, and no photon rate. With remapping, fraction and temperature are those of the remapped particle. This does not depend on the order in which the scheduler runs the systems of a stage or on the rank the particle was moved from. Fraction and temperature are in the allowed range, the thermal energy density is that of the input, and the mass of all particles is that of the densities of the input in the cells of the grid.", "quantifier": "all rows of the input, parameters, sources, volumes and all orders of the systems which obey the declared constraints; for the temperature a nonzero density; for the total mass all grids of C86", "why_tests_cant": "a test runs one order of the systems chosen by the scheduler; a component read in a stage before it is inserted, or a fraction set after the temperature, shows only in other orders", "anchors": ["src/main.rs: main", "src/arepo_postprocess/mod.rs", "src/parameters.rs", "src/sweep/mod.rs: init_sweep_system", "src/stages.rs"]}
{"id": "C106", "title": "Time series files", "statement": "A time series file has exactly one entry for each value which was computed before the last frame was logged, in the order of the computations and with the time of the frame which logged it: no value is lost and none is written twice, although the event queue keeps events for two frames and then forgets them. A value computed once at the start is written once. In a run the entries of the value of each frame have the times of the frames, which strictly grow.", "quantifier": "all numbers of frames and all numbers of events sent before and after the logging system in each of them; for runs all simulations of C93", "why_tests_cant": "needs all interleavings of sending, logging and buffer swaps over unbounded runs", "anchors": ["src/io/time_series.rs", "src/sweep/time_series.rs", "src/source_systems.rs", "src/simulation_plugin/mod.rs"]}
{"id": "C107", "title": "Written chemistry rates", "statement": "The optional rates in the output are the terms of the equations which the solver integrates: the photoionization rate (per neutral atom) times neutral fraction plus the collisional ionization rate minus the recombination rate (both per hydrogen atom) is the limit of the change of the ionized fraction per time, and the heating rate is that of the change of the thermal energy density per time. The photoionization rate times the number of neutral atoms is the number of photons absorbed per second, from all directions, periodic boundaries and the source of the cell; the year used to compute the rates cancels. Photoionization, recombination and collisional ionization rates are not negative.", "quantifier": "all cells with positive density, volume and temperature and ionized fraction in [0, 1), all rates, sizes, numbers of directions and scale factors", "why_tests_cant": "compares formulas written twice, for all states and in the limit of small time steps", "anchors": ["src/sweep/chemistry_output.rs", "src/sweep/mod.rs: get_solver", "src/sweep/site.rs: get_rate", "src/chemistry/hydrogen_only/mod.rs: ionized_fraction_change, temperature_change"]}
{"id": "C108", "title": "Messages of different kinds are not mixed up", "statement": "If the kinds of messages have different tags, exactly the sequences of sends and receives between two ranks are possible which are possible with a queue of its own for each kind: each rank gets the messages of a kind in the order in which they were sent, whatever else is on its way, and never a message of another kind. If two kinds have the same tag, one is received as the other. The tag of a type is a valid tag except for hashes with lower bits 0x8000 and two types have the same tag exactly if the lower 16 bits of their hashes are equal or opposite; the custom tags differ from each other, and all but 9000 and 9001 from the tags of all types.", "quantifier": "all kinds of messages, assignments of tags, sequences of events and hashes", "why_tests_cant": "the tag is a hash of a type identifier which changes with the compiler; whether two coincide, and what then happens, cannot be seen from the runs of one binary", "anchors": ["src/communication/mpi_world.rs: get_tag_for_type, new_custom_tag, receive_vec, try_receive_vec"]}
{"id": "C109", "title": "Directions of the sweep", "statement": "In three dimensions there are directions for exactly the numbers 1, 16, 21, 32, 64 and 84. Their number is the one asked for, no direction is there twice, and they are unit vectors up to 1e-6. Unless there is only one, no side of space is preferred, neither at the start nor after any sequence of random rotations: for every unit vector n, the mean of the components along n is 0 up to 2e-7, the mean square is 1/3 up to 0.011, and there is a direction within 72 degrees of n. In two dimensions, for all numbers the directions are unit vectors, with mean exactly 0 (from two on) and mean square 1/2 (from three on) along every unit vector. Explicit directions are normalized in their order; a zero vector is the only one for which this fails.", "quantifier": "all numbers of directions, all unit vectors n, all sequences of random rotations, all explicit directions", "why_tests_cant": "needs all unit vectors and all rotations, and the tables have 217 entries with no further structure", "anchors": ["src/sweep/direction/mod.rs: from_num, From<&DirectionsSpecification>, rotate_directions_system", "src/sweep/direction/healpix.rs"]}
{"id": "C110", "title": "Keys of positions in f64", "statement": "With all rounding of f64 taken into account, for a box whose ends are at most 2^40 side lengths away from the origin, and all positions in it including the ends: the integer coordinates are inside the range for which keys are defined, grow with the position, and differ from the exact ones by at most the rounding of the ends of the box; every position has a key (in the plane: without overflow), and positions with the same key are closer than two cells along each axis. In a box further away the padding is lost: the end of the box is out of range, which is an overflow in the plane and the key of the opposite end in space.", "quantifier": "all boxes with sides of at least 2^-900 and ends within 2^40 side lengths of the origin, all positions in them", "why_tests_cant": "needs all f64 boxes and positions; the failure needs a box which is far away from the origin compared to its size", "anchors": ["src/peano_hilbert.rs: from_point_and_min_max, get_integer_position_2d, get_integer_position_3d, from_integer_pos", "src/domain/key.rs: into_key"]}
{"id": "C111", "title": "Simulation time in f64", "statement": "With the rounding of f64: while the levels are unlocked the time is exact, in particular it is exactly the maximum time step after as many calls as there are levels. After k maximum time steps it is right up to k^2 2^-53 time steps, and it grows in every one of 2^50 calls. A run to a final time of up to a million time steps gets there after at most as many calls as there are levels plus the final time in time steps (rounded up), the time at its end exceeds the final time by at most one time step and rounding, and the number of calls is that of exact arithmetic up to one. The time never exceeds 2^55 time steps, so that a run to a later final time would not end.", "quantifier": "all maximum time steps of at least 2^-900 in f64, all numbers of levels up to 100, all final times", "why_tests_cant": "rounding errors which accumulate over long runs", "anchors": ["src/sweep/timestep_state.rs: current_max_timestep, advance_allowed_levels", "src/sweep/timestep_level.rs: as_factor", "src/sweep/mod.rs: run_sweeps, run_sweep_system", "src/simulation_plugin/mod.rs: stop_simulation_system"]}
{"id": "C112", "title": "Contents of snapshots", "statement": "In a frame in which a snapshot is due, and whatever order the scheduler of each rank chooses for the systems of the two output stages (as long as it obeys the declared constraints), the run does not panic, and the files of the snapshot contain: every attribute with its value, every requested dataset with the data of all ranks (read back on any number of ranks it is the data in order), and nothing else. Datasets which do not change are in the first snapshot only. In all other frames nothing is written. Over a run, the snapshots on disk are those of the frames in which one was due, numbered without gaps. A requested name for which there is no field is reported as unknown, and only such names are. If no field at all were registered, the scheduler would be free to close the files before they are opened, which panics.", "quantifier": "all lists of fields and requested names, all numbers of ranks and files, all data, all frames and all orders of the systems", "why_tests_cant": "needs all orders of a scheduler on all ranks and all selections of fields", "anchors": ["src/io/output/plugin.rs: OutputPlugin::build", "src/io/output/mod.rs: open_file_system, close_file_system, create_file_system, is_desired_field", "src/io/output/parameters.rs: Fields", "src/io/output/timer.rs", "src/io/output/attribute.rs", "src/io/to_dataset.rs"]}
{"id": "C113", "title": "Stage timers", "statement": "With fewer than 14 stages of different names (13 at startup, 8 in the main loop), the schedule contains the stages in their order with a timer stage before and after each. Whatever order the systems of the timer stages run in, no timer is stopped which was not started, and after any number of frames the results under the name of a stage are exactly the times which this stage took in each frame, in order: the time of no other stage is counted, none is missing. With more stages the program stops at startup.", "quantifier": "all lists of stages, all numbers of frames, all durations, all orders of the systems in the timer stages", "why_tests_cant": "needs all orders in which a scheduler may run two systems without a constraint, and exact durations", "anchors": ["src/stages.rs: add_timers, add_stage_timers_for_stages, create_schedule", "src/performance.rs: Performance::start, stop"]}
{"id": "C114", "title": "Names and directories of the output", "statement": "The files of a snapshot have different names, which are in the order of their indices; snapshots have different names, in the order of their numbers as long as these fit into the padding (3 by default: 1000 sorts before 999). Without an output directory, or with one which is to be deleted, after a run of any number of ranks and in any order of their operations, the files below the output directory are exactly the log of every rank and the files of all snapshots, with the contents of this run, and nothing outside has changed. When overwriting, files with the same names are replaced and all others stay, so that a run with fewer files per snapshot leaves files of the old run in the directories of its own snapshots. By default an existing directory makes the program stop without a change. A listing of a snapshot directory, in any order, has exactly the files of the snapshot; if all ranks use the same order every row is read by one rank, but if two ranks list the files in different orders, which the file system may do, rows are read twice or not at all.", "quantifier": "all parameters, numbers of ranks, snapshots and files, all initial file systems, all interleavings of the ranks, all orders of listings", "why_tests_cant": "needs all interleavings of ranks on a file system and all orders of a directory listing", "anchors": ["src/io/output/mod.rs: make_output_dirs, get_snapshot_dir, get_output_files, create_file_system, open_file_system", "src/io/output/parameters.rs: HandleExistingOutput", "src/simulation_builder.rs: make_output_dir, log_setup, get_output_file", "src/io/input/mod.rs: get_file_or_all_hdf5_files_in_path_if_dir"]}
{"id": "C115", "title": "Overrides on the command line and the file with the used parameters", "statement": "An argument section/key/.../key:value gives exactly the override of this section, keys and value, and no other text does; a text with no colon or more than one is rejected, so values with a colon cannot be given. A run from the file of the used parameters, without overrides, has the same parameters as the run which wrote it, in whatever order the plugins ask for them, and writes the same sections. Overrides of sections nobody asks for are ignored. The check for unused sections passes exactly if all sections are used or the only unused one is visualization. A file which is not YAML is ignored without an error and all parameters have their defaults (an empty file panics); giving the overrides again together with the file of the used parameters can panic.", "quantifier": "all texts, all sections and values, all overrides, all serializable parameter types, all orders of plugins", "why_tests_cant": "needs all texts and all lists of overrides; the unit tests only have fixed ones and never read the written file again", "anchors": ["src/command_line_options.rs: Override::from_str", "src/parameter_plugin/parameter_file_contents.rs: new, extract_parameter_struct, contents", "src/io/output/mod.rs: write_used_parameters_system", "src/simulation/mod.rs: validate"]}
{"id": "C116", "title": "Rounding of face normals and cycles of cells", "statement": "A sweep can be completed exactly if the active cells are not arranged in a cycle in any direction; cells in a cycle are never solved. With rounding in f64 the normals which two neighbouring cells compute for their common face are exactly opposite, so one finds it downwind exactly if the other finds it upwind. A face whose computed product with the direction is at least 6 units of roundoff is really passed in this direction, so that every cycle contains a face with a smaller product and a grid without such faces can be completed, and a face whose angle to the direction has a cosine of at least 7 units of roundoff is classified correctly. Such small products can close a cycle: three points of the unit cube and a direction of the table of 16 make the sweep wait forever.", "quantifier": "all grids, all executions, all positions and directions in f64 which are zero or at least 2^-140 and at most 2^99", "why_tests_cant": "the effect needs products of 1e-16 and depends on every bit of the positions; a test would have to find the one configuration in 10^16", "anchors": ["src/voronoi/cell.rs: get_normal", "src/sweep/grid/cell.rs: Face::points_upwind, Face::points_downwind", "src/sweep/mod.rs: solve", "src/sweep/direction/healpix.rs"]}
{"id": "C117", "title": "Rounding of face normals at periodic boundaries", "statement": "At a periodic boundary every cell computes the normal of the common face with the periodic image of the other cell. If the two images are computed without rounding, the normals are exactly opposite and the two sides agree about the direction of the flow. With rounding of the images they can disagree: both can find the face downwind, or both upwind; two cells on two ranks which both find it upwind wait forever for a message of the other one.", "quantifier": "all positions, all translations; all executions of the example", "why_tests_cant": "the disagreement needs positions for which the images are rounded and a face nearly parallel to the direction", "anchors": ["src/voronoi/cell.rs: get_normal", "src/simulation_box.rs: iter_periodic_images", "src/sweep/mod.rs: init_counts, solve"]}
{"id": "C118", "title": "Radius search with rounding in f64", "statement": "Also with rounding of all centres and side lengths of nodes, distances, periodic images and square roots the search in the tree ends and gives exactly the particles whose computed periodic distance is below the radius: no node is skipped that contains one of them. The computed distance is the same from both sides and differs from the exact periodic distance by at most 2^-48 of the largest coordinate, so every particle clearly inside the sphere is found and none clearly outside. A particle within the sphere by less than that can be missed.", "quantifier": "all lists of particles in the box, all centres and radii in f64, all configurations of the tree in which nodes are not smaller than 2^-40 of the largest coordinate (20 levels and more in a cube)", "why_tests_cant": "a node is wrongly skipped only if rounding errors add up in one of the nodes of a deep tree; every test uses a few positions", "anchors": ["src/quadtree/radius_search.rs: bounding_boxes_overlap_periodic, PeriodicRadiusSearch", "src/simulation_box.rs: minimize_component, periodic_distance", "src/extent.rs: from_min_max", "src/domain/extent.rs: get_quadrants"]}
{"id": "C119", "title": "Photon rates with rounding in f64", "statement": "The incoming rate of a cell is kept up to date by adding the changes of the outgoing rates of its upwind cells. With rounding in f64 it stays, after any sequence of corrections and solutions in any order, within four units of roundoff of the largest rate for every correction of the exact shares of the present outgoing rates, so that the results of two schedules differ at most by this drift; setting negative rates to zero never increases the error. The parts of a correction given to the downwind faces add up to the correction up to m + 3 units of roundoff for m faces. The drift is real: a cell can keep a positive rate for ever after its upwind cell has become dark, the order in which corrections arrive matters in the last digits, and the rate from periodic neighbours, which is not set to zero, can become negative.", "quantifier": "all sequences of up to 2^40 corrections with nonnegative bounded outgoing rates, all shares, all lists of effective areas", "why_tests_cant": "the error accumulates over all sweeps of a run; tests use a few sweeps and compare with tolerance", "anchors": ["src/sweep/mod.rs: get_outgoing_rate, solve_task, handle_local_neighbour, handle_local_periodic_neighbour", "src/sweep/site.rs: get_rate", "src/chemistry/mod.rs: Photons::make_positive"]}
{"id": "C120", "title": "The performance file", "statement": "Whatever sequence of timers and numbers a run records, the performance file contains exactly one entry per name, sorted by name: the last number which was recorded, or the sum, the mean and the number of the durations between the calls of stop and the starts which belong to them. The mean is never a division by zero. The run time of a run which has not ended comes last. The calls panic exactly when a timer is stopped which does not run, a timer is stopped under the name of a recorded number, or a number does not fit into 32 bits; guards never panic unless a number has their name.", "quantifier": "all sequences of calls, all times, all orders of the hash map", "why_tests_cant": "tests do not look at the file; the pairing of starts and stops over a whole run and the order of hash maps are not seen by them", "anchors": ["src/performance.rs: Performance, Statistics::new, as_output, TimerGuard"]}
{"id": "C121", "title": "Debug output in turns", "statement": "barrierdbg! prints the lines of all ranks in the order of the ranks, and several uses in the order of the program, for every world size and every schedule in which a rank leaves a barrier at any time after all have entered it. No rank is blocked for ever and all lines are printed. If however the expression communicates with other ranks, nothing is ever printed on more than one rank.", "quantifier": "all world sizes, numbers of uses, lines and schedules", "why_tests_cant": "the order of output lines of different ranks depends on the schedule, and a test on one rank cannot see it", "anchors": ["src/mpi_log.rs: start_barrier, end_barrier, barrierdbg!"]}
{"id": "C122", "title": "Backward stability of the solver in f64", "statement": "What the Gaussian elimination with pivoting returns in f64 is the exact solution of a system whose entries are changed by at most a fixed number of rounding errors of the largest entry (24 for two and 115 for three equations), and it divides by zero only if such a change makes the system singular. The containment test of a triangle and the classification of the intersection of a line with a triangle hence answer exactly for points moved by at most 26 and 117 rounding errors; they never panic when the f64 attempt is conclusive; and they are right whenever the areas (volumes) which decide the answer are larger than 400 (7000) rounding errors.", "quantifier": "all numbers of equations up to 2^40, all systems, triangles, points and lines with differences at most D, for all D from 2^-200 on", "why_tests_cant": "the errors of an elimination depend on every pivot; tests solve a few well-conditioned systems with a tolerance", "anchors": ["src/voronoi/math/utils.rs: solve_system_of_equations, backward_substitution", "src/voronoi/primitives/triangle.rs: contains, get_line_intersection_type"]}
{"id": "C123", "title": "The point location is guided by distances", "statement": "closest_point returns the point of a triangle in space which is nearest to a given point, and distance_to_point of a tetrahedron is the distance between the point and the tetrahedron: zero inside, positive outside. In the plane distance_to_point of a counterclockwise triangle is negative inside, positive outside and never more than the distance. The search with a heap ordered by these distances is sound and complete, tests a simplex which contains the point as soon as it has seen one, and a run of insertions with it gives the same mesh as one with any other order; in general position it is completed.", "quantifier": "all triangles, tetrahedra and points, all meshes which arise from insertions, all implementations of the heap (ties broken in any way)", "why_tests_cant": "the closest point has seven cases, and the order of the heap depends on all distances; tests compare a few points on an axis and check that a triangulation is built", "anchors": ["src/voronoi/primitives/triangle.rs: distance_to_point, closest_point", "src/voronoi/primitives/tetrahedron.rs: distance_to_point", "src/voronoi/delaunay/point_location.rs: find_breadth_first, CheckData"]}
{"id": "C124", "title": "A run continues from the snapshots of a previous one", "statement": "The remap takes the snapshot directories with the highest and the lowest number, whatever the padding and the order of the listing, and stops if there is none or one with another name. After a run into a new directory, on any number of ranks which all list the files in one order, the data read are exactly the particles of the previous run: the positions of the first snapshot, converted to the present scale factor, each with the ionized fraction and temperature of the same particle in the last snapshot. Every particle then gets the values of the nearest of them.", "quantifier": "all previous runs (numbers of ranks, files and snapshots, particles, fields, schedules), all interleavings of their writes, all listings, all numbers of reading ranks, all distributions", "why_tests_cant": "writing and reading are in different programs, distributed over different numbers of ranks and files; the only test of the remap builds its data in memory", "anchors": ["src/arepo_postprocess/remap.rs: get_highest_or_lowest_snapshot_dir, get_files_of_last_snapshot, get_files_of_first_snapshot, read_remap_data, remap_abundances_and_energies_system", "src/io/input/mod.rs: Reader::read_dataset", "src/io/output/mod.rs: get_snapshot_dir"]}
{"id": "C125", "title": "Snapshots are on time in f64", "statement": "With the due times and the simulation time summed up in f64, a run of up to a million frames writes snapshot m in the first frame whose time has reached its due time, if the interval between snapshots is longer than the time step: none is skipped, none is written twice, and the time is within one time step of time_first_snapshot + m time_between_snapshots, up to a relative m/2^52. A run to a final time ends one frame after the time has reached it, with a last snapshot.", "quantifier": "all time steps, levels, intervals and first snapshots of type f64 which are not tiny, all final times within a million steps, all frames", "why_tests_cant": "the errors add up over the run and decide comparisons of times which are equal in exact arithmetic; tests run few steps", "anchors": ["src/io/output/timer.rs: Timer::update_system, Timer::run_criterion", "src/sweep/mod.rs: run_sweep_system", "src/simulation_plugin/mod.rs: stop_simulation_system, exit_system"]}
{"id": "C126", "title": "Levels of time steps in f64", "statement": "The level given to a cell is an allowed one, its time step (exact in f64) exceeds the desired one by at most a relative 2^-46 unless it is the deepest level, and all coarser allowed levels have a time step which exceeds the desired one. The time step of a level gives this level. A shorter desired time step never gives a coarser level. A desired time step of zero gives the deepest level.", "quantifier": "all maximum and desired time steps of type f64, all numbers of levels below 32, all implementations of log2 which are monotone, exact for powers of two and accurate to 2^-47", "why_tests_cant": "quotients next to powers of two, where the ceiling of the rounded logarithm jumps, are not hit by tests", "anchors": ["src/sweep/timestep_level.rs: TimestepLevel::from_max_timestep_and_desired_timestep, to_timestep", "src/sweep/timestep_state.rs: get_desired_level_from_desired_timestep"]}
{"id": "C127", "title": "Periodic wrapping in f64", "statement": "In a box which begins at zero every position is wrapped into the closed box; a position inside is not changed; a coordinate which is not negative is wrapped exactly, a negative one with an error of at most 2^-53 of the side. Wrapping twice gives a position in the half-open box which does not change any more.", "quantifier": "all boxes and positions of type f64, without overflow", "why_tests_cant": "positions which are wrapped onto the upper side are those within half a unit in the last place of it", "anchors": ["src/simulation_box.rs: periodic_wrap_component, SimulationBox::periodic_wrap"]}
{"id": "C128", "title": "Chemistry in f64: temperatures stay positive", "statement": "With every operation rounded and a safety factor below one, the chemistry of a cell leaves a positive temperature and an ionised fraction between the f64 next to 1e-10 and the f64 next to 1 - 1e-10, whatever the computed changes are, so that one minus the ionised fraction is positive. The accepted sub-steps last exactly the time step halved some number of times and add up to exactly the time step, unless the depth limit is reached. A sub-step changes the temperature by at most the safety factor, up to a relative 2^-50.", "quantifier": "all changes of type f64 or not finite, all cells with a positive temperature, all time steps above 2^-800, all safety factors between zero and one", "why_tests_cant": "a temperature of zero or below needs a particular sequence of changes, each of which is at the limit of what is accepted", "anchors": ["src/chemistry/hydrogen_only/mod.rs: Solver::clamp, try_timestep_update, perform_timestep_internal, perform_timestep, update"]}
{"id": "C129", "title": "In two dimensions the cells built by several ranks are the regions of nearest particles", "statement": "With the feature 2d, every rank on which the parallel construction of the grid ends has exactly one cell for every particle of its own; the cell contains exactly those places which are closer to the particle than to every other particle of every rank and to every periodic image; the neighbours of the cell are exactly the particles and images whose regions have a common side with it, each once, with the name which says where they are, the length of the common side as area (the largest distance of two places which both cells share) and the unit vector towards them as normal.", "quantifier": "every distribution of finitely many particles to any number of ranks in a square periodic box, every rank, every initial search radius, every number of iterations after which the construction ends", "why_tests_cant": "a rank sees only the particles which the search has found, and a particle which was missed changes a cell only in rare configurations; the flips, the searched circles and the cells are other code than in three dimensions", "anchors": ["src/voronoi/constructor/mod.rs: construct_from_iter, sweep_grid", "src/voronoi/constructor/halo_iteration.rs: run, iterate", "src/voronoi/constructor/parallel/mod.rs: radius_search, determine_global_extent", "src/voronoi/constructor/parallel/plugin.rs: construct_grid_system", "src/voronoi/delaunay/mod.rs: construct, insert", "src/voronoi/delaunay/impl_2d.rs", "src/voronoi/cell.rs: Cell::new, contains, volume, size"]}
{"id": "C130", "title": "In two dimensions the areas of the cells of all ranks add up to the area of the box", "statement": "With the feature 2d, the volume of the cell of a particle is the area of the region of the places closest to it (periodic images included), it is the area of the part of the simulation box in which an image of the particle is the closest one, the volumes of the cells of all ranks add up to the area of the box, the size is the radius of a disk of the same area, and the sides of a cell close its boundary.", "quantifier": "every distribution of particles to any number of ranks for which the construction ends", "why_tests_cant": "relates the sum over all ranks of numbers computed from local data to the measure of infinite sets", "anchors": ["src/voronoi/constructor/mod.rs: construct_from_iter, sweep_grid", "src/voronoi/constructor/halo_iteration.rs: run, iterate", "src/voronoi/constructor/parallel/mod.rs: radius_search, determine_global_extent", "src/voronoi/constructor/parallel/plugin.rs: construct_grid_system", "src/voronoi/delaunay/mod.rs: construct, insert", "src/voronoi/delaunay/impl_2d.rs", "src/voronoi/cell.rs: Cell::new, contains, volume, size"]}
{"id": "C131", "title": "In two dimensions two ranks agree on the face between their cells", "statement": "With the feature 2d, if a cell of one rank has a face towards a particle of the same or another rank (directly or through the periodic boundary), the cell of that particle on its own rank has a face of the same length with the opposite normal, whose name leads back to the first particle through the opposite boundary.", "quantifier": "every distribution of particles to any number of ranks, every pair of ranks on which the construction ends", "why_tests_cant": "both ranks compute the face from different sets of points, inserted in different orders, into different triangulations", "anchors": ["src/voronoi/constructor/mod.rs: construct_from_iter, sweep_grid", "src/voronoi/constructor/halo_iteration.rs: run, iterate", "src/voronoi/constructor/parallel/mod.rs: radius_search, determine_global_extent", "src/voronoi/constructor/parallel/plugin.rs: construct_grid_system", "src/voronoi/delaunay/mod.rs: construct, insert", "src/voronoi/delaunay/impl_2d.rs", "src/voronoi/cell.rs: Cell::new, contains, volume, size"]}
{"id": "C132", "title": "In two dimensions halo particles are the remote neighbours", "statement": "With the feature 2d, the halo particles which a rank spawns are exactly the particles of other ranks which are neighbours of its own cells (through the periodic boundary only in periodic sweeps), and without periodic boundaries every one is spawned once.", "quantifier": "every distribution of particles to any number of ranks for which the construction ends", "why_tests_cant": "the criterion (the cell of the halo has a local neighbour) is evaluated in an incomplete cell of the halo; that it is right nevertheless depends on all cells", "anchors": ["src/voronoi/constructor/mod.rs: construct_from_iter, sweep_grid", "src/voronoi/constructor/halo_iteration.rs: run, iterate", "src/voronoi/constructor/parallel/mod.rs: radius_search, determine_global_extent", "src/voronoi/constructor/parallel/plugin.rs: construct_grid_system", "src/voronoi/delaunay/mod.rs: construct, insert", "src/voronoi/delaunay/impl_2d.rs", "src/voronoi/cell.rs: Cell::new, contains, volume, size"]}
{"id": "C133", "title": "In two dimensions the parallel construction of the grid ends", "statement": "With the feature 2d, if the cells of the particles of a rank reach at most h, the box is a square of side at least 2 M with M at least 3.2 h and at least the initial search radius, and the particles and images closer than 2 M to those of the rank are in general position (no three on a line, no four on a circle, the vertices of the initial triangle included), then the construction ends on this rank after finitely many iterations: no search asks for more than the searched rank can answer, no insertion panics, no triangle at an own particle stays undecided.", "quantifier": "every distribution of particles to any number of ranks, every order of the ranks, every rank", "why_tests_cant": "termination of a loop which depends on the positions of the particles of all ranks; the search radius may grow and with it the number of points, and any of the panics could be reached on the way", "anchors": ["src/voronoi/constructor/mod.rs: construct_from_iter, sweep_grid", "src/voronoi/constructor/halo_iteration.rs: run, iterate", "src/voronoi/constructor/parallel/mod.rs: radius_search, determine_global_extent", "src/voronoi/constructor/parallel/plugin.rs: construct_grid_system", "src/voronoi/delaunay/mod.rs: construct, insert", "src/voronoi/delaunay/impl_2d.rs", "src/voronoi/cell.rs: Cell::new, contains, volume, size", "src/voronoi/constructor/halo_iteration.rs: get_undecided_tetra, get_relevant_tetra_search_radius"]}
{"id": "C134", "title": "In two dimensions the grid is independent of the distribution", "statement": "With the feature 2d, the grid does not depend on the number of ranks nor on the rank which has a particle: the cell of a particle has the same volume and size, and the same faces with the same lengths, normals and particles or periodic images behind them, each as often; only the kind of the neighbour (local or remote) and the order of the faces can be different.", "quantifier": "all pairs of worlds with the same particles in the same square box, dealt out to ranks in any two ways, on which the construction of the ranks ended, with and without periodic boundaries", "why_tests_cant": "the ranks search different halos and build different triangulations; that the cells agree follows from the correctness of the halo search, not from running two examples", "anchors": ["src/voronoi/constructor/mod.rs: construct_from_iter, sweep_grid", "src/voronoi/constructor/halo_iteration.rs: run, iterate", "src/voronoi/constructor/parallel/mod.rs: radius_search, determine_global_extent", "src/voronoi/constructor/parallel/plugin.rs: construct_grid_system", "src/voronoi/delaunay/mod.rs: construct, insert", "src/voronoi/delaunay/impl_2d.rs", "src/voronoi/cell.rs: Cell::new, contains, volume, size"]}
{"id": "C135", "title": "Search for the scale factor in f64", "statement": "The bisection which finds the scale factor after an elapsed time evaluates the same guesses in f64 as in exact arithmetic until 53 bits are known. If the computed time differences are right up to some error, and this error and the time in which the scale factor grows by 2^-53 together are below 100 years, the search does not panic, and the time of the scale factor it finds differs from the requested time by at most 100 years and this error. A result is always between 0 and 1. For a function which is too steep the search in f64 does not end before the depth limit and panics.", "quantifier": "all computed values of the searched function including NaN, all flat cosmologies, all elapsed times with a final scale factor of at most one", "why_tests_cant": "whether the guesses still change after many halvings depends on the last bits of the boundaries, tests try a few scale factors", "anchors": ["src/cosmology.rs: binary_search, depth_limited_binary_search, get_scalefactor_from_scalefactor_and_time_difference"]}
{"id": "C136", "title": "Absorption in f64", "statement": "With every operation rounded, the rate leaving a cell is between zero and the incoming rate, zero below the threshold, equal to the incoming rate if all atoms are ionised, and does not increase with density, size or neutral fraction. It is the rate for an optical depth which is right up to a relative 2^-48, up to a relative 2^-51. The atoms ionised in a time step are the photons removed from the rates of all directions, up to a few units of roundoff of the incoming photons and the error of the sum of the rates. If the exponential function rounds to nearest, a cell with an optical depth below 2^-54 lets all photons pass and is never ionised by them.", "quantifier": "all cells, rates and time steps of type f64 without overflow, any exponential function which is monotone, exact at zero and right up to one unit in the last place", "why_tests_cant": "cancellation in one minus the transmitted fraction, and results which exceed the incoming rate by the last bit, occur for particular values only", "anchors": ["src/chemistry/hydrogen_only/mod.rs: get_outgoing_rate, num_newly_ionized_hydrogen_atoms, neutral_hydrogen_number_density"]}
{"id": "C137", "title": "Rates of stellar populations in f64", "statement": "With every operation rounded, the rate found in the table of stellar populations never panics for a number as age and metallicity, is not negative, and differs from the mass times the bilinear interpolation by at most 15 units of roundoff of the mass times the largest of the four entries. At the points of the table it is the entry times the mass, rounded once. With the tables of the code it is between 1.7e30 and 6.6e46 per second and solar mass for every age and metallicity. A NaN age panics. Where neighbouring entries differ by orders of magnitude the error relative to the result itself can be thousands of units of roundoff.", "quantifier": "all ages, metallicities and masses of type f64 without overflow, all tables with increasing bins and nonnegative entries", "why_tests_cant": "cancellation between entries of very different size depends on the position in the table, tests compare a few values", "anchors": ["src/arepo_postprocess/bpass.rs: bpass_lookup, linear_interpolate"]}
{"id": "C138", "title": "Time series in f64", "statement": "With every operation rounded, the averages written to the time series are the mass and volume weighted means, up to a relative error of three units of roundoff times the number of particles of a rank and of ranks. The average ionised fractions never leave the interval from zero to one. The average temperatures are between the lowest and the highest temperature up to this error. Another distribution of the particles over ranks changes them by at most the sum of both errors, and it does change them: the averages of the same particles on one and on two ranks can differ.", "quantifier": "all particles and distributions over ranks with fewer than 2^40 particles per rank, values of type f64 which are zero or not tiny", "why_tests_cant": "the error of a sum depends on the order and number of terms, tests have few particles on one rank", "anchors": ["src/sweep/time_series.rs: compute_time_series_system, compute_global_sum", "src/communication/mpi_world.rs: all_gather_sum"]}
{"id": "C139", "title": "Scale factor and redshift of snapshots", "statement": "In a cosmological run with density parameters every snapshot has h of the parameters, a scale factor between zero and one and the redshift which belongs to it. The scale factor is, up to 100 years, the one reached at the time before the time step of this frame, while the attribute time is the time after it: if the step was longer than 200 years, the scale factor is too small for the time, and smaller than in the time series of the same frame. Without density parameters the scale factor stays at the initial value. The run goes on until the scale factor reaches one; with a later final time it never ends regularly, it panics. A run which continues from these snapshots scales the positions by the ratio of its own scale factor and that of the first snapshot, which is right only if this was written within 100 years of the start.", "quantifier": "all flat cosmologies, initial scale factors, particle sets, physics, numbers of frames, and all results of comparisons with NaN in the search", "why_tests_cant": "tests of cosmology do not run the main loop, and snapshots of tests are not cosmological", "anchors": ["src/simulation_plugin/mod.rs: set_cosmological_time_variables_system", "src/cosmology.rs: set_initial_cosmology_attributes_system", "src/io/output/attribute.rs: write_attribute", "src/io/time_series.rs: output_time_series_system", "src/arepo_postprocess/remap.rs: get_scale_factor_difference"]}
{"id": "C140", "title": "Voronoi vertices and the spheres searched for haloes, in f64", "statement": "For every tetrahedron which is not flat the code finds a centre of the circumsphere (it does not panic). If the solver in f64 accepts the pivots, the computed centre has the same distance from all four points up to rounding errors, whatever the shape of the tetrahedron. The centre is within a bound of the exact centre which is inversely proportional to the volume of the tetrahedron. If this bound is below a ten thousandth of the radius of the sphere, the ball which the search for haloes covers at last, with its safety factor 1.001, contains the exact circumsphere, and the search in the tree, with its own rounding errors, returns every particle of which an image is in this sphere. For flatter tetrahedra this is false.", "quantifier": "all tetrahedra with f64 coordinates, all centres found, all trees and particle sets of the other ranks", "why_tests_cant": "tests use a handful of well shaped tetrahedra, and the number of flat ones in a lattice is a matter of rounding", "anchors": ["src/voronoi/primitives/tetrahedron.rs: get_center_of_circumcircle", "src/voronoi/primitives/tetrahedron.rs: get_center_of_circumcircle_float", "src/voronoi/math/utils.rs: solve_3x4_system_of_equations_error", "src/voronoi/delaunay/mod.rs: get_original_tetra_circumcircle", "src/voronoi/constructor/halo_iteration.rs: SearchData::new"]}
{"id": "C141", "title": "Areas, normals and volumes of Voronoi cells, in f64", "statement": "If the vertices of a cell are known up to a distance, then the code finds all faces of the cell, and the computed areas of the faces and the computed volume of the cell differ from the exact ones by at most stated bounds in this distance, the size of the cell, the number of faces and vertices and the precision of f64; they are never negative. With the bound for the circumcentres this applies to the triangulation which the code constructs, and the volume is near the measure of the set of all places which are closer to the point than to all others. Normals have the precision of f64. The two cells at a face compute exactly the same polygon and area for it, and exactly opposite normals. If the polygon is listed from another vertex, as on another rank, the area may change in its last digits, within the bound.", "quantifier": "all meshes, all points with coordinates in f64, all cells", "why_tests_cant": "tests compare areas and volumes of a few cells with a tolerance which is chosen by hand", "anchors": ["src/voronoi/primitives/polygon3d.rs: Polygon3d::area", "src/voronoi/cell.rs: pyramid_volume", "src/voronoi/cell.rs: get_normal", "src/voronoi/cell.rs: get_face_polygon_perpendicular_to_line", "src/voronoi/cell.rs: Cell<ThreeD>::volume", "src/voronoi/triangulation_data.rs: from_triangulation_and_map"]}
{"id": "C142", "title": "The triangulation of coordinates which are rescaled in f64", "statement": "The code decides the triangulation from rescaled coordinates which are rounded to f64, inside of an initial tetrahedron whose corners are rounded, too. For every box which is not too far from the origin the rescaled coordinates are within seven units of the last digit of the exact ones, the initial tetrahedron is positively oriented and contains all points of the box strictly. If the rescaled points are in general position, the construction is completed. If it is completed for a cubic box, then the tetrahedra are nearly Delaunay for the original points: each has a sphere which goes through its vertices up to 2^-47 side lengths of the box, and no other point is deeper inside of it. Points which differ by more than this in one coordinate stay different; there are different points which do not, and for them the construction panics.", "quantifier": "all boxes, all points with coordinates in f64, all orders of the points and of the heap", "why_tests_cant": "tests compare the result with the same rounded coordinates from which it was decided", "anchors": ["src/voronoi/primitives/tetrahedron.rs: all_encompassing", "src/dimension.rs: remap_point", "src/voronoi/delaunay/mod.rs: construct", "src/voronoi/delaunay/mod.rs: get_remapped_point"]}
{"id": "C143", "title": "Units and temperatures in f64", "statement": "Values which are written to a snapshot and read back by the same program are bitwise unchanged, whatever the base units are; values which were written by a program with other base units keep their physical values up to three units of the last digit. The temperature of a particle at the start of a run, which is computed from an energy density that was multiplied and is divided by the density, is positive, is within thirteen units of the last digit of the exact formula, in which the density does not occur, and does not decrease with the internal energy. Conversions from temperatures to internal energies or energy densities and back change the temperature by at most ten or twelve units of the last digit, but they are not exact.", "quantifier": "all numbers in f64 of a range which excludes underflow, all base units, all dimensions, all implementations of powi", "why_tests_cant": "tests compare a few values with a tolerance", "anchors": ["src/units/specific_impls.rs: to_internal_energy", "src/units/specific_impls.rs: to_temperature", "src/units/specific_impls.rs: from_internal_energy_density_hydrogen_only", "src/units/specific_impls.rs: from_temperature_hydrogen_only", "src/units/dimension.rs: base_conversion_factor", "src/io/input/mod.rs: convert_dataset_units", "src/io/output/mod.rs: add_dimension_attrs", "src/main.rs: insert_missing_components_system"]}
{"id": "C144", "title": "Units of Arepo datasets in f64", "statement": "The values which are read from an Arepo snapshot are, in f64, the physical values in SI units, with the unit of the dataset and the powers of the scale factor and of little h multiplied in, up to a relative error of a few units of the last digit: one for each power of a centimetre or a gram, and twelve, if powi is exact. Exactly those datasets are rejected which are rejected in exact arithmetic. Dimensionless values are bitwise those of the file.", "quantifier": "all datasets with any exponents, all values of a range which excludes underflow, all cosmologies, all implementations of powi with a bounded error", "why_tests_cant": "tests read a few files; the decimal constants 0.01 and 0.001 are not representable and their errors grow with the exponents", "anchors": ["src/arepo_postprocess/unit_reader.rs: read_scale_factor", "src/arepo_postprocess/unit_reader.rs: read_dimension", "src/cosmology.rs: get_factor", "src/io/input/mod.rs: convert_dataset_units"]}
{"id": "C145", "title": "Remapping from a snapshot in f64", "statement": "When particles are remapped from a snapshot in f64, every particle of every rank gets the values of a data point whose computed distance is the smallest among the data of all ranks: the rounded distance from the extent of another rank never hides a point of that rank whose computed distance is smaller. Its true squared distance is the smallest one up to thirteen units of the last digit; the nearest point itself can be missed in a tie. The positions of the data are scaled with the precision of f64, and not changed at all if the scale factor is that of the snapshot.", "quantifier": "all data, all particles, all numbers of ranks, all decompositions, all k-d trees which return a smallest computed distance", "why_tests_cant": "tests use a few particles which are far from ties; a request which is wrongly not sent shows only for special positions", "anchors": ["src/arepo_postprocess/remap.rs: closer_particle_could_exist_on_other_rank", "src/arepo_postprocess/remap.rs: exchange_request_chunk", "src/arepo_postprocess/remap.rs: read_remap_data", "src/domain/extent.rs: squared_distance_to_pos"]}
{"id": "C146", "title": "Rotated directions in f64", "statement": "The directions of the sweep are turned by a random rotation again and again and are never normalised, in f64. After any number n of rotations (up to 2^40) every direction is that of the start turned by the exact rotations about the drawn axes and angles, up to a distance of n/2^43, and these amount to one rotation of all directions; lengths and angles are kept up to 3n/2^43, and the directions of the tables prefer no side up to (n+1)/2^43, so that even a million rotations do not matter.", "quantifier": "all random numbers, all numbers of rotations up to 2^40, all tables, all sine and cosine functions with an error of at most 2^-52", "why_tests_cant": "a test does a few rotations; errors that grow with the number of rotations would show only in long runs", "anchors": ["src/sweep/direction/mod.rs: get_rotation_matrix", "src/sweep/direction/mod.rs: get_random_rotation_matrix", "src/sweep/direction/mod.rs: multiply_by_matrix", "src/sweep/direction/mod.rs: rotate_directions_system", "src/sweep/direction/mod.rs: Directions::from_num"]}
{"id": "C147", "title": "Cartesian grids in f64", "statement": "The cartesian grid computed in f64 is sound: the construction completes and makes one cell per integer position, the number of cells per side is that which fits into the box or (when only rounding makes it fit) one more, the positions are evenly spaced up to 3/2^53 of the side and neighbouring ones never coincide, no normal is NaN, every normal has two components which are exactly zero and one which is that of a unit vector up to 8/2^53, faces come in pairs of the same area whose normals are exactly opposite inside of the box (opposite up to 16/2^53 through a periodic boundary), areas and volumes are accurate, ranks of cells are valid and increase along the first axis, every cell is local on one rank and the halo cells are the right ones.", "quantifier": "all boxes with sides between 2^-400 and 2^400, all positive cell sizes, all numbers of ranks below 2^31, periodic or not", "why_tests_cant": "a test uses a few boxes whose sides are multiples of the cell size; rounding of positions, normals and ranks depends on the numbers", "anchors": ["src/sweep/grid/cartesian.rs: IntegerPosition", "src/sweep/grid/cartesian.rs: GridConstructor", "src/sweep/grid/cartesian.rs: get_neighbour", "src/sweep/grid/cartesian.rs: construct_neighbours", "src/sweep/grid/cartesian.rs: get_rank"]}
{"id": "C148", "title": "Searches for haloes between ranks in f64", "statement": "The tests which decide which rank is asked, which particles are in the sphere and which periodic image of a particle is meant are computed in different ways, each with its own rounding. Still every rank which holds a particle of computed periodic distance below the radius is asked, unless the radius is below 2^-46 of the size of the box; a particle which is below the radius by 2^-46 of the size of the box, or which is reached without crossing the boundary, has an image within the radius; if the radius is at most half of the box (up to the same margin) there is exactly one, at the periodic distance up to this margin, and the search is answered without a panic. Closer to the radius the program can panic.", "quantifier": "all boxes which are not extremely thin, all particles and search points, all radii", "why_tests_cant": "the disagreement needs a particle whose distance is within a unit of rounding of the radius, which random tests do not hit", "anchors": ["src/voronoi/constructor/parallel/mod.rs: find_wrapped_point", "src/voronoi/constructor/parallel/mod.rs: get_outgoing_searches", "src/voronoi/constructor/parallel/mod.rs: get_haloes_from_search", "src/domain/decomposition.rs: rank_owns_part_of_search_radius", "src/simulation_box.rs: iter_periodic_images", "src/domain/extent.rs: cube_around_sphere"]}
{"id": "C149", "title": "Photon sources deposited in f64", "statement": "With every operation rounded, the source term of every cell is its old one plus, one after the other in the order of the list of all sources, the rates of exactly those sources which its rank owns and whose nearest cell it is. The cell is the nearest one of its rank up to thirteen rounding errors of the squared distance. A term to which n sources were added differs from the sum by n units of roundoff and is not smaller than any of the rates; a single source is added exactly. The sum of the terms of all cells and the announced total luminosity agree to three units of roundoff per source. The term of a cell in which the same sources arrive is the same bit by bit for all numbers of ranks, but not for all orders of the sources.", "quantifier": "all lists of sources with rates which are not negative, all distributions of the cells, every k-d tree which returns a cell of smallest computed distance", "why_tests_cant": "tests use few sources of equal rates, for which no rounding happens", "anchors": ["src/source_systems.rs: set_source_terms_system", "src/source_systems.rs: TotalLuminosity"]}
{"id": "C150", "title": "Physical state at the start in f64", "statement": "With every operation rounded, the ionized fraction from the electron abundance of the input is between the f64 next to 1e-10 and that next to 1 - 1e-10 for every abundance, differs from the clamped product by three units of roundoff and grows with the abundance. The temperature is positive and differs from the one which belongs to the internal energy and the abundance by at most 17 units of roundoff, whatever the density. Remapping never lowers temperature or fraction, gives bitwise the value of the input or of the snapshot and does nothing the second time. Every particle starts with a positive temperature and a positive neutral fraction, and the mass of all particles is that of the densities and volumes up to two units of roundoff. An initial fraction given as parameter is not limited to this range.", "quantifier": "all values of the input which are not extremely small, all volumes of cells, all data of snapshots", "why_tests_cant": "the bounds concern all inputs; tests would need every abundance at the edges of the range", "anchors": ["src/main.rs: set_initial_ionized_fraction_from_electron_abundance_system", "src/main.rs: insert_missing_components_system", "src/main.rs: compute_cell_mass_system", "src/arepo_postprocess/remap.rs: remap_from"]}
{"id": "C151", "title": "Implicit update of the chemistry in f64", "statement": "With every operation rounded and for all values of the rate coefficients which are not negative, heating, photoionization and cooling rates are not negative, and vanish without photons (the first two). If cooling does not decrease with the temperature, the computed change of the temperature has the sign of heating minus cooling for every time step, vanishes in equilibrium, and is not larger than that of an explicit step; a dark cell is never heated. The computed change of the ionized fraction has the sign of gain minus loss, whenever these differ by a unit of roundoff and the denominator is positive, in particular if the Jacobian is not positive. In cold gas (no collisional ionization, recombination which gets slower with the temperature) this is so for every time step, and recombination never removes more ions than there are, up to six units of roundoff. With strong collisional ionization a long step can go in the wrong direction.", "quantifier": "all cells with a fraction between zero and one, all values of the coefficients and all time steps", "why_tests_cant": "unit tests compare derivatives numerically at a few temperatures, the sign of rounded updates at all states is out of reach", "anchors": ["src/chemistry/hydrogen_only/mod.rs: temperature_change", "src/chemistry/hydrogen_only/mod.rs: ionized_fraction_change", "src/chemistry/hydrogen_only/mod.rs: photoheating_rate", "src/chemistry/hydrogen_only/mod.rs: photoionization_rate", "src/chemistry/hydrogen_only/mod.rs: cooling_rate"]}
