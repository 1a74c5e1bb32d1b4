{
 "claims": [
  {
   "property": "C01",
   "status": "proved",
   "theorems": [
    "Verif.FileDist.input_partition",
    "Verif.FileDist.input_row_read_exactly_once",
    "Verif.FileDist.mem_allRows_iff",
    "Verif.FileDist.allRows_nodup"
   ],
   "note": ""
  },
  {
   "property": "C02",
   "status": "proved",
   "theorems": [
    "Verif.FileDist.output_tiles_created_datasets"
   ],
   "note": ""
  },
  {
   "property": "C03",
   "status": "proved",
   "theorems": [
    "Verif.FileDist.snapshot_round_trip"
   ],
   "note": "File I/O is a map from (file,row) to value; HDF5 encoding, unit conversion and the unordered read_dir listing are not modelled."
  },
  {
   "property": "C04",
   "status": "proved",
   "theorems": [
    "Verif.SerialOutput.serial_output_sequential",
    "Verif.SerialOutput.serial_output_progress",
    "Verif.SerialOutput.serial_output_terminates",
    "Verif.SerialOutput.serial_output_barrier_count"
   ],
   "note": "Files are abstract open/write/close actions; Bevy's stage order is taken from the before/after constraints."
  },
  {
   "property": "C05",
   "status": "proved",
   "theorems": [
    "Verif.SnapshotTimer.snapshot_numbers_consecutive",
    "Verif.SnapshotTimer.snapshot_step",
    "Verif.SnapshotTimer.snapshot_never_early"
   ],
   "note": "Exact arithmetic for times."
  },
  {
   "property": "C06",
   "status": "partial",
   "theorems": [
    "Verif.Overrides.override_read_back",
    "Verif.Overrides.override_frame",
    "Verif.Overrides.override_succeeds_iff",
    "Verif.Overrides.overrides_in_order",
    "Verif.Overrides.overrides_frame",
    "Verif.Overrides.overrides_read_back_partial",
    "Verif.Overrides.section_override_ignores_later",
    "Verif.Overrides.missing_section_drops_overrides",
    "Verif.Overrides.other_sections_irrelevant",
    "Verif.Overrides.missing_section_uses_overrides",
    "Verif.Overrides.section_override_applied"
   ],
   "note": "The claim that a list of overrides acts like applying them in order is false when one of them replaces the whole section (later ones are ignored, section_override_ignores_later); it is proved for all other lists."
  },
  {
   "property": "C07",
   "status": "proved",
   "theorems": [
    "Verif.Collective.chunks_same_number"
   ],
   "note": ""
  },
  {
   "property": "C08",
   "status": "proved",
   "theorems": [
    "Verif.Collective.all_gather_varcount_concat",
    "Verif.Collective.displacement_is_prefix_sum"
   ],
   "note": "MPI i32 count overflow (2^31 elements) not modelled."
  },
  {
   "property": "C09",
   "status": "proved",
   "theorems": [
    "Verif.DataByRank.run_refines",
    "Verif.DataByRank.get_eq",
    "Verif.DataByRank.remove_returns",
    "Verif.DataByRank.iter_spec",
    "Verif.DataByRank.into_iter_eq",
    "Verif.DataByRank.fresh_spec",
    "Verif.DataByRank.fromIter_spec"
   ],
   "note": ""
  },
  {
   "property": "C10",
   "status": "proved",
   "theorems": [
    "Verif.Exchange.exchange_received_prefix",
    "Verif.Exchange.exchange_complete",
    "Verif.Exchange.exchange_progress",
    "Verif.Exchange.exchange_terminates",
    "Verif.Exchange.exchange_targets",
    "Verif.Exchange.unbuffered_exchange_deadlocks"
   ],
   "note": "Under the MPI assumption that empty standard-mode sends are buffered; without it the exchange deadlocks (unbuffered_exchange_deadlocks)."
  },
  {
   "property": "C11",
   "status": "proved",
   "theorems": [
    "Verif.Peano.key2d_round_trip",
    "Verif.Peano.key2d_injective",
    "Verif.Peano.key2d_surjective"
   ],
   "note": ""
  },
  {
   "property": "C12",
   "status": "proved",
   "theorems": [
    "Verif.Peano.key3d_in_range",
    "Verif.Peano.key3d_injective",
    "Verif.Peano.key3d_surjective"
   ],
   "note": ""
  },
  {
   "property": "C13",
   "status": "proved",
   "theorems": [
    "Verif.Peano.key2d_continuous",
    "Verif.Peano.key2d_range_connected",
    "Verif.Peano.key3d_continuous",
    "Verif.Peano.key3d_range_connected",
    "Verif.Peano.key3d_cube_is_block"
   ],
   "note": ""
  },
  {
   "property": "C14",
   "status": "proved",
   "theorems": [
    "Verif.Decomp.decomposition_assigns_existing_rank",
    "Verif.Decomp.repeated_keys_can_panic",
    "Verif.Decomp.empty_rank_panics"
   ],
   "note": "for distinct keys and no empty rank; what happens otherwise is proved as a witness"
  },
  {
   "property": "C15",
   "status": "proved",
   "theorems": [
    "Verif.Decomp.all_ranks_same_decomposition",
    "Verif.Decomp.decomposition_independent_of_distribution"
   ],
   "note": ""
  },
  {
   "property": "C16",
   "status": "proved",
   "theorems": [
    "Verif.Decomp.load_balanced",
    "Verif.Decomp.load_balanced_coarse",
    "Verif.Decomp.clustered_keys_unbalanced"
   ],
   "note": ""
  },
  {
   "property": "C17",
   "status": "proved",
   "theorems": [
    "Verif.ExchangeData.exchange_moves_particles_to_owners",
    "Verif.ExchangeData.exchange_preserves_particles",
    "Verif.ExchangeData.exchange_panics_without_owner",
    "Verif.ExchangeData.particle_ids_unique"
   ],
   "note": ""
  },
  {
   "property": "C18",
   "status": "proved",
   "theorems": [
    "Verif.Geometry.bounding_extent_smallest",
    "Verif.Geometry.from_points_eq_from_positions",
    "Verif.Geometry.encompassing_extent",
    "Verif.Geometry.squared_distance_is_minimal",
    "Verif.Geometry.quadrants3_cover",
    "Verif.Geometry.quadrants2_cover",
    "Verif.Geometry.quadrants3_disjoint",
    "Verif.Geometry.quadrants2_disjoint",
    "Verif.Geometry.cube_around_sphere_smallest"
   ],
   "note": "exact arithmetic"
  },
  {
   "property": "C19",
   "status": "proved",
   "theorems": [
    "Verif.Sources.sources_deposited_once",
    "Verif.Sources.source_owner_exists_iff",
    "Verif.Sources.ownerless_source_is_lost",
    "Verif.Sources.nearest_cell_is_local_only"
   ],
   "note": "rates as elements of a commutative monoid; the k-d tree only through its contract"
  },
  {
   "property": "C20",
   "status": "proved",
   "theorems": [
    "Verif.Quadtree.octree_construction_correct",
    "Verif.Quadtree.quadtree_construction_correct",
    "Verif.Quadtree.leaf_exceeds_documented_maximum"
   ],
   "note": "exact arithmetic"
  },
  {
   "property": "C21",
   "status": "proved",
   "theorems": [
    "Verif.Quadtree.iter_visits_everything",
    "Verif.Quadtree.radius_search_exact_3d",
    "Verif.Quadtree.radius_search_exact_2d",
    "Verif.Quadtree.radius_search_finds_images"
   ],
   "note": "exact arithmetic"
  },
  {
   "property": "C22",
   "status": "proved",
   "theorems": [
    "Verif.Geometry.wrapped_is_in_box",
    "Verif.Geometry.wrapped_by_box_lengths",
    "Verif.Geometry.wrapped_is_unique",
    "Verif.Geometry.wrap_leaves_inside_unchanged"
   ],
   "note": "exact arithmetic"
  },
  {
   "property": "C23",
   "status": "proved",
   "theorems": [
    "Verif.Geometry.periodic_distance_is_minimal",
    "Verif.Geometry.periodic_distance_symmetric",
    "Verif.Geometry.periodic_distance_is_minimal_of_images",
    "Verif.Geometry.periodic_distance_not_minimal_outside"
   ],
   "note": "exact arithmetic"
  },
  {
   "property": "C24",
   "status": "proved",
   "theorems": [
    "Verif.Geometry.found_neighbour_has_image",
    "Verif.Geometry.found_image_is_unique",
    "Verif.Geometry.large_radius_finds_two_images",
    "Verif.Geometry.allWraps3_complete",
    "Verif.Geometry.allWraps2_complete"
   ],
   "note": "exact arithmetic; a radius above half the box length can make the assertion fail"
  },
  {
   "property": "C25",
   "status": "proved",
   "theorems": [
    "Verif.Timestep.sweep_levels_aligned",
    "Verif.Timestep.sweep_levels_time_balance",
    "Verif.Timestep.executed_sweeps_time_balance",
    "Verif.Timestep.sweep_coarsest_first_only"
   ],
   "note": "Times are real numbers instead of f64."
  },
  {
   "property": "C26",
   "status": "proved",
   "theorems": [
    "Verif.Timestep.level_respects_desired",
    "Verif.Timestep.desired_level_allowed",
    "Verif.Timestep.level_of_zero"
   ],
   "note": "log2/ceil over the reals; f64 rounding of log2 not modelled."
  },
  {
   "property": "C27",
   "status": "proved",
   "theorems": [
    "Verif.Timestep.elapsed_multiple_of_coarsest",
    "Verif.Timestep.levels_unlocked"
   ],
   "note": ""
  },
  {
   "property": "C28",
   "status": "proved",
   "theorems": [
    "Verif.ActiveList.new_spec",
    "Verif.ActiveList.enumerate_active_exact",
    "Verif.ActiveList.stale_enumerate_panics",
    "Verif.ActiveList.update_bins_usable",
    "Verif.ActiveList.active_state_exact"
   ],
   "note": ""
  },
  {
   "property": "C29",
   "status": "proved",
   "theorems": [
    "Verif.Sweep.solved_at_most_once_after_upwind",
    "Verif.Sweep.finished_rank_solved_all"
   ],
   "note": "all ranks as interleaved processes, arbitrary choice among ready tasks"
  },
  {
   "property": "C30",
   "status": "proved",
   "theorems": [
    "Verif.Sweep.never_stuck",
    "Verif.Sweep.progress_bounded",
    "Verif.Sweep.fair_sweep_terminates",
    "Verif.Sweep.finished_rank_is_clean",
    "Verif.Sweep.exists_fair_execution"
   ],
   "note": "termination of every fair execution; fairness = ranks keep running, messages are found eventually, completed sends are reported eventually"
  },
  {
   "property": "C31",
   "status": "proved",
   "theorems": [
    "Verif.Sweep.sweep_computes_solution",
    "Verif.Sweep.solution_unique",
    "Verif.Sweep.sweep_result_independent_of_schedule",
    "Verif.Sweep.periodic_result_depends_on_schedule"
   ],
   "note": "exact arithmetic; for grids without periodic connections, with a counterexample for periodic ones"
  },
  {
   "property": "C32",
   "status": "proved",
   "theorems": [
    "Verif.Sweep.expected_equals_crossings",
    "Verif.Sweep.expected_equals_outstanding"
   ],
   "note": ""
  },
  {
   "property": "C33",
   "status": "proved",
   "theorems": [
    "Verif.Sweep.fractions_partition",
    "Verif.Sweep.face_one_sided",
    "Verif.Sweep.solve_conserves_photons"
   ],
   "note": "exact arithmetic"
  },
  {
   "property": "C34",
   "status": "proved",
   "theorems": [
    "Verif.Sweep.incremental_equals_full",
    "Verif.Sweep.remote_inactive_cells_go_stale"
   ],
   "note": "exact arithmetic; the counterexample shows that it fails on several ranks with inactive cells"
  },
  {
   "property": "C35",
   "status": "proved",
   "theorems": [
    "Verif.Sweep.nothing_lost_or_duplicated",
    "Verif.Sweep.pending_send_undisturbed",
    "Verif.Sweep.completed_send_makes_room",
    "Verif.Sweep.finished_rank_is_clean",
    "Verif.Sweep.drop_misses_pending_sends",
    "Verif.Sweep.drop_after_sweep_is_safe"
   ],
   "note": "MPI channels modelled as FIFO queues"
  },
  {
   "property": "C36",
   "status": "partial",
   "theorems": [
    "Verif.Direction.random_axis_is_unit",
    "Verif.Direction.rotation_keeps_dot",
    "Verif.Direction.rotation_det_one",
    "Verif.Direction.rotated_directions_keep_dots",
    "Verif.Direction.remap_keeps_only_last_partial",
    "Verif.Direction.remap_loses_rates"
   ],
   "note": "Rotations keep lengths and angles (proved). The remapping half is false of the code: remap overwrites instead of accumulating, so rates are lost (proved negation); what it does do is proved."
  },
  {
   "property": "C37",
   "status": "proved",
   "theorems": [
    "Verif.Cartesian.construction_complete",
    "Verif.Cartesian.six_faces",
    "Verif.Cartesian.neighbour_entries",
    "Verif.Cartesian.faces_come_in_pairs",
    "Verif.Cartesian.ids_unique",
    "Verif.Cartesian.local_and_halo_cells",
    "Verif.Cartesian.volumes_fill_box_when_divisible",
    "Verif.Cartesian.volumes_do_not_fill_box"
   ],
   "note": "Three-dimensional build, exact arithmetic. Also: cell volumes do not fill the box when the cell size does not divide it."
  },
  {
   "property": "C38",
   "status": "proved",
   "theorems": [
    "Verif.GridFile.connection_type_flags",
    "Verif.GridFile.lookup_finds_owner",
    "Verif.GridFile.grid_read_correct",
    "Verif.GridFile.connection_seen_from_both_sides",
    "Verif.GridFile.periodic_connection_panics",
    "Verif.GridFile.unknown_particle_panics"
   ],
   "note": "All ranks, any chunking; reading the datasets from HDF5 is not modelled. Periodic connections panic in a periodic simulation (todo!()), proved."
  },
  {
   "property": "C39",
   "status": "proved",
   "theorems": [
    "Verif.Remap.exchange_keeps_all_data",
    "Verif.Remap.remap_uses_nearest",
    "Verif.Remap.remapped_values_never_decrease",
    "Verif.Remap.rank_without_data_panics",
    "Verif.Remap.remap_data_rescaled"
   ],
   "note": "The k-d tree is a parameter with the contract NearestContract (shown satisfiable by a linear scan). Distances are Euclidean without periodicity, as in the code. Exact field arithmetic."
  },
  {
   "property": "C40",
   "status": "proved",
   "theorems": [
    "Verif.Chemistry.outgoing_rate_range",
    "Verif.Chemistry.outgoing_rate_decreases",
    "Verif.Chemistry.outgoing_rate_composes"
   ],
   "note": "Real arithmetic with the real exponential."
  },
  {
   "property": "C41",
   "status": "proved",
   "theorems": [
    "Verif.Chemistry.substeps_cover_timestep",
    "Verif.Chemistry.perform_timestep_outcome",
    "Verif.Chemistry.failure_keeps_partial_progress"
   ],
   "note": "The single-step change functions are arbitrary parameters, exact field arithmetic. Also: a convergence failure leaves the state advanced part of the way."
  },
  {
   "property": "C42",
   "status": "proved",
   "theorems": [
    "Verif.Chemistry.fraction_stays_in_range",
    "Verif.Chemistry.neutral_cell_never_evolves"
   ],
   "note": "The clamp panics when the floor exceeds 1-1e-10, which is explicit in the statement. Also: with cooling prevented a fully neutral cell never evolves."
  },
  {
   "property": "C43",
   "status": "proved",
   "theorems": [
    "Verif.Chemistry.timescale_min_is_minimum",
    "Verif.Chemistry.counts_partition_cells",
    "Verif.Chemistry.recommendation_at_least_substep",
    "Verif.Chemistry.rate_timescale",
    "Verif.Chemistry.zero_rate_gives_shortest_timescale",
    "Verif.Chemistry.update_cell_stores"
   ],
   "note": "Times are an ordered field with a top element for infinity."
  },
  {
   "property": "C44",
   "status": "proved",
   "theorems": [
    "Verif.Cosmology.search_result",
    "Verif.Cosmology.search_succeeds",
    "Verif.Cosmology.search_fails",
    "Verif.Cosmology.time_satisfies_friedmann",
    "Verif.Cosmology.time_difference_additive",
    "Verif.Cosmology.scalefactor_found",
    "Verif.Cosmology.time_spec_consistent",
    "Verif.Cosmology.panics_beyond_scale_factor_one",
    "Verif.Cosmology.panics_without_dark_energy"
   ],
   "note": "Exact arithmetic; NaN explicit. Also: runs past scale factor one and universes without dark energy panic."
  },
  {
   "property": "C45",
   "status": "proved",
   "theorems": [
    "Verif.Units.temperature_energy_inverse",
    "Verif.Units.temperature_energy_density_inverse"
   ],
   "note": "Real arithmetic."
  },
  {
   "property": "C46",
   "status": "proved",
   "theorems": [
    "Verif.Predicates.determinant3x3_is_det",
    "Verif.Predicates.determinant4x4_is_det",
    "Verif.Predicates.determinant5x5_is_det"
   ],
   "note": "Equality with Mathlib's Matrix.det over any commutative ring."
  },
  {
   "property": "C47",
   "status": "proved",
   "theorems": [
    "Verif.Predicates.solve_system_sound",
    "Verif.Predicates.solve_system_total",
    "Verif.Predicates.solve_system_singular",
    "Verif.Predicates.solve_3x4_sound"
   ],
   "note": "Any size M over any ordered field (exact for the rational path; f64 rounding not modelled). Additionally: singular systems divide by zero."
  },
  {
   "property": "C48",
   "status": "proved",
   "theorems": [
    "Verif.Predicates.in_circle_correct",
    "Verif.Predicates.circumcentre2_equidistant",
    "Verif.Predicates.in_circle_agrees_with_centre",
    "Verif.Predicates.in_sphere_exact_correct",
    "Verif.Predicates.float_formula_is_minus_determinant",
    "Verif.Predicates.in_sphere_correct",
    "Verif.Predicates.circumcentre_exact_equidistant",
    "Verif.Predicates.circumcentre_exact_total",
    "Verif.Predicates.circumcentre_float_equidistant",
    "Verif.Predicates.circumcentre_correct"
   ],
   "note": "Over any ordered field; f64 rounding not modelled."
  },
  {
   "property": "C49",
   "status": "proved",
   "theorems": [
    "Verif.Predicates.bary2_exists",
    "Verif.Predicates.bary3_exists",
    "Verif.Predicates.triangle_contains_correct",
    "Verif.Predicates.tetra_contains_correct",
    "Verif.Predicates.tetra_contains_total",
    "Verif.Predicates.line_intersection_correct"
   ],
   "note": "Over any ordered field, the exact (rational) path; boundary cases panic."
  },
  {
   "property": "C50",
   "status": "proved",
   "theorems": [
    "Verif.Predicates.initial_triangle_contains",
    "Verif.Predicates.initial_tetra_contains"
   ],
   "note": "For every extent with positive side lengths."
  },
  {
   "property": "C51",
   "status": "proved",
   "theorems": [
    "Verif.Delaunay.neighbours_mutual",
    "Verif.Delaunay.mesh2_consistent",
    "Verif.Delaunay.mesh2_no_panic"
   ],
   "note": "All histories of splits and flips; Consistent (Delaunay/Spec.lean) spells out the mesh conditions."
  },
  {
   "property": "C52",
   "status": "proved",
   "theorems": [
    "Verif.Delaunay.mesh3_consistent",
    "Verif.Delaunay.mesh3_counts",
    "Verif.Delaunay.mesh3_no_panic"
   ],
   "note": "All histories of 1-to-4 splits, 2-to-3 and 3-to-2 flips, whatever the geometric tests decide."
  },
  {
   "property": "C53",
   "status": "proved",
   "theorems": [
    "Verif.Delaunay.insert2_consistent",
    "Verif.Delaunay.insert2_panics",
    "Verif.Delaunay.insert2_terminates",
    "Verif.Delaunay.insert3_consistent",
    "Verif.Delaunay.insert3_panics",
    "Verif.Delaunay.insert3_terminates",
    "Verif.Delaunay.geo2_proper",
    "Verif.Delaunay.geo3_proper"
   ],
   "note": "The complete insertion loop (point location, split, flip checks) for any geometry and heap order; the remembered tetra exists, panics only for the listed geometric reasons, termination bound."
  },
  {
   "property": "C54",
   "status": "proved",
   "theorems": [
    "Verif.Delaunay.location_sound_complete"
   ],
   "note": "Any mesh with live links, any containment test, any heap order. The heap ordered by distances is C123."
  },
  {
   "property": "C55",
   "status": "proved",
   "theorems": [
    "Verif.Halo.haloes_sent_once"
   ],
   "note": "For every sequence of searches: what is sent to a rank has no repeated (id, wrap), is exactly what was found, and the cache remembers it."
  },
  {
   "property": "C56",
   "status": "proved",
   "theorems": [
    "Verif.Halo.search_radius_growth",
    "Verif.Halo.search_radius_reaches",
    "Verif.Halo.halo_iteration_panics",
    "Verif.Halo.haloes_needed",
    "Verif.Halo.circumspheres_searched",
    "Verif.Halo.circumspheres_search_ok",
    "Verif.Halo.done_stays",
    "Verif.Halo.halo_iteration_ends",
    "Verif.Halo.triangulation_ok",
    "Verif.Halo.triangulation_insert_none",
    "Verif.Halo.haloes_complete"
   ],
   "note": "Closed form of the search radius, termination, completeness at the end; instantiated with the model of the Delaunay triangulation.  The positions found by another rank's radius search are a parameter of these theorems (C84 to C87 instantiate it); a search which panics (C23) makes the iteration panic."
  },
  {
   "property": "C57",
   "status": "proved",
   "theorems": [
    "Verif.Voronoi.windows_spec",
    "Verif.Voronoi.arrange_sound",
    "Verif.Voronoi.arrange_follows_cycle",
    "Verif.Voronoi.two_cycles_panic"
   ],
   "note": "Any list and relation. The documented precondition (every item related to two others) is refuted as insufficient by two_cycles_panic."
  },
  {
   "property": "C58",
   "status": "proved",
   "theorems": [
    "Verif.Voronoi.neighbours_agree2",
    "Verif.Voronoi.connections2",
    "Verif.Voronoi.faces_exist2",
    "Verif.Voronoi.faces_are_sides2",
    "Verif.Voronoi.centres2_equidistant",
    "Verif.Voronoi.centres3_equidistant",
    "Verif.Voronoi.neighbours_agree3",
    "Verif.Voronoi.connections3",
    "Verif.Voronoi.faces_exist3",
    "Verif.Voronoi.face_in_bisector",
    "Verif.Voronoi.contains3_iff",
    "Verif.Voronoi.volume3_eq",
    "Verif.Voronoi.volume2_same_polygon",
    "Verif.Voronoi.volume2_is_area",
    "Verif.Voronoi.contains2_iff",
    "Verif.Voronoi.polygon_area_plane",
    "Verif.Voronoi.polygon_area_same_polygon",
    "Verif.Voronoi.polygon_area_depends_on_start"
   ],
   "note": "Any consistent mesh whose simplices have different vertices, any cells which are constructed without a panic. polygon_area_depends_on_start refutes the independence for polygons which are not convex."
  },
  {
   "property": "C59",
   "status": "proved",
   "theorems": [
    "Verif.Encoding.wrap_round_trip",
    "Verif.Encoding.wrap_decode_panics",
    "Verif.Encoding.search_data_round_trip",
    "Verif.Encoding.search_result_round_trip",
    "Verif.Encoding.option_round_trip",
    "Verif.Encoding.entity_round_trip",
    "Verif.Encoding.identified_round_trip",
    "Verif.Encoding.node_index_round_trip"
   ],
   "note": "node_index_round_trip also states exactly which node index does not survive."
  },
  {
   "property": "C60",
   "status": "proved",
   "theorems": [
    "Verif.Bpass.lookup_is_bilinear",
    "Verif.Bpass.lookup_within_table",
    "Verif.Bpass.lookup_at_table_points",
    "Verif.Bpass.every_population_has_a_rate",
    "Verif.Bpass.nan_panics"
   ],
   "note": "The binary search of the standard library is a parameter with its documented contract (shown satisfiable). Exact arithmetic."
  },
  {
   "property": "C61",
   "status": "proved",
   "theorems": [
    "Verif.Plugins.once_hooks_run_at_most_once",
    "Verif.Plugins.added_twice_panics",
    "Verif.Plugins.second_addition_flagged",
    "Verif.Plugins.rank_hooks_match_rank",
    "Verif.Plugins.once_part_comes_first",
    "Verif.Plugins.once_part_can_be_skipped",
    "Verif.Plugins.unused_sections_rejected",
    "Verif.Plugins.well_ordered_systems_run_in_order"
   ],
   "note": "Hooks are arbitrary code on the world which may add plugins. Also: a plugin first added while it should not be built never gets its once-part."
  },
  {
   "property": "C62",
   "status": "proved",
   "theorems": [
    "Verif.Geometry.search_reaches_owning_ranks",
    "Verif.Geometry.empty_rank_shifts_extents"
   ],
   "note": "exact arithmetic; needs every rank to have particles, with a counterexample otherwise"
  },
  {
   "property": "C63",
   "status": "proved",
   "theorems": [
    "Verif.Chemistry.ionisations_equal_absorbed_photons",
    "Verif.Chemistry.ionisations_at_most_absorbed_photons",
    "Verif.Chemistry.photo_rates_consistent"
   ],
   "note": "Real arithmetic; equality when no direction is cut off by the rate threshold, inequality in general."
  },
  {
   "property": "C64",
   "status": "proved",
   "theorems": [
    "Verif.Chemistry.rate_derivatives_correct",
    "Verif.Chemistry.cooling_rate_derivative_correct"
   ],
   "note": "Real arithmetic."
  },
  {
   "property": "C65",
   "status": "proved",
   "theorems": [
    "Verif.Chemistry.jacobian_is_derivative",
    "Verif.Chemistry.fraction_change_direction",
    "Verif.Chemistry.temperature_change_direction",
    "Verif.Chemistry.temperature_change_implicit",
    "Verif.Chemistry.fraction_change_implicit"
   ],
   "note": "Real arithmetic."
  },
  {
   "property": "C66",
   "status": "proved",
   "theorems": [
    "Verif.Units.written_dataset_reads_back",
    "Verif.Units.cosmological_dataset_rejected",
    "Verif.Units.arepo_dataset_physical",
    "Verif.Units.arepo_dataset_rejected",
    "Verif.Units.make_non_cosmological_laws"
   ],
   "note": "Real arithmetic, unbounded exponents; HDF5 attribute access itself is not modelled. Also: datasets with cosmological scaling written by the code cannot be read back."
  },
  {
   "property": "C67",
   "status": "proved",
   "theorems": [
    "Verif.Delaunay.delaunay2",
    "Verif.Delaunay.delaunay2_iff",
    "Verif.Delaunay.construct2_delaunay_in_box_units",
    "Verif.Delaunay.construct2_delaunay",
    "Verif.Delaunay.long_box_not_delaunay"
   ],
   "note": "Exact arithmetic. long_box_not_delaunay shows a box of sides 4 and 1 in which the result is not the Delaunay triangulation of the given coordinates."
  },
  {
   "property": "C68",
   "status": "proved",
   "theorems": [
    "Verif.Delaunay.delaunay2_tiling",
    "Verif.Delaunay.delaunay2_connected"
   ],
   "note": "Exact arithmetic, plane."
  },
  {
   "property": "C69",
   "status": "proved",
   "theorems": [
    "Verif.Delaunay.delaunay2_complete",
    "Verif.Delaunay.construct2_succeeds",
    "Verif.Delaunay.construct2_succeeds_square"
   ],
   "note": "Exact arithmetic, plane; 8n+5 rounds suffice for every loop."
  },
  {
   "property": "C70",
   "status": "proved",
   "theorems": [
    "Verif.Delaunay.delaunay2_order",
    "Verif.Delaunay.construct2_order"
   ],
   "note": "Exact arithmetic, plane."
  },
  {
   "property": "C71",
   "status": "proved",
   "theorems": [
    "Verif.Voronoi.construct2_voronoi",
    "Verif.Voronoi.construct2_voronoi_in_box",
    "Verif.Voronoi.construct2_cells_cover"
   ],
   "note": "Real arithmetic, plane, square box (other boxes: Verif.Delaunay.long_box_not_delaunay)."
  },
  {
   "property": "C72",
   "status": "proved",
   "theorems": [
    "Verif.Voronoi.construct2_faces"
   ],
   "note": "Real arithmetic, plane, square box."
  },
  {
   "property": "C73",
   "status": "proved",
   "theorems": [
    "Verif.Delaunay.delaunay3",
    "Verif.Delaunay.delaunay3_iff",
    "Verif.Delaunay.construct3_delaunay_in_box_units",
    "Verif.Delaunay.construct3_delaunay",
    "Verif.Delaunay.long_box_not_delaunay3"
   ],
   "note": "Exact arithmetic; intersect3 uses the exact test of the code with its tolerance parameter eps > 0. long_box_not_delaunay3 shows a box of sides 4, 1, 1 in which the result is not the Delaunay mesh of the given coordinates."
  },
  {
   "property": "C74",
   "status": "proved",
   "theorems": [
    "Verif.Delaunay.delaunay3_tiling",
    "Verif.Delaunay.delaunay3_connected"
   ],
   "note": "Exact arithmetic, space."
  },
  {
   "property": "C75",
   "status": "proved",
   "theorems": [
    "Verif.Delaunay.delaunay3_complete",
    "Verif.Delaunay.construct3_succeeds",
    "Verif.Delaunay.construct3_succeeds_cube"
   ],
   "note": "Exact arithmetic, space; 5(n+4)^4+1 rounds suffice for every loop."
  },
  {
   "property": "C76",
   "status": "proved",
   "theorems": [
    "Verif.Delaunay.delaunay3_order",
    "Verif.Delaunay.construct3_order"
   ],
   "note": "Exact arithmetic, space."
  },
  {
   "property": "C77",
   "status": "proved",
   "theorems": [
    "Verif.Voronoi.construct3_voronoi",
    "Verif.Voronoi.construct3_voronoi_in_box",
    "Verif.Voronoi.construct3_nearest_cell",
    "Verif.Voronoi.corner_not_covered"
   ],
   "note": "Real arithmetic, space, cubic box (other boxes: Verif.Delaunay.long_box_not_delaunay3). corner_not_covered shows that the claim about the box is false without including_periodic_images."
  },
  {
   "property": "C78",
   "status": "proved",
   "theorems": [
    "Verif.Voronoi.construct3_faces"
   ],
   "note": "Real arithmetic, space, cubic box."
  },
  {
   "property": "C79",
   "status": "proved",
   "theorems": [
    "Verif.Voronoi.construct2_cell_area"
   ],
   "note": "Real arithmetic, plane, square box; Lebesgue measure of Mathlib."
  },
  {
   "property": "C80",
   "status": "proved",
   "theorems": [
    "Verif.Voronoi.construct3_cell_volume"
   ],
   "note": "Real arithmetic, space, cubic box; Lebesgue measure of Mathlib."
  },
  {
   "property": "C81",
   "status": "proved",
   "theorems": [
    "Verif.Voronoi.construct3_faces_agree",
    "Verif.Voronoi.construct2_faces_agree"
   ],
   "note": "Real arithmetic, square or cubic box."
  },
  {
   "property": "C82",
   "status": "proved",
   "theorems": [
    "Verif.Voronoi.construct3_effective_area",
    "Verif.Voronoi.construct2_effective_area"
   ],
   "note": "Real arithmetic, square or cubic box."
  },
  {
   "property": "C83",
   "status": "proved",
   "theorems": [
    "Verif.Voronoi.construct3_cell_size",
    "Verif.Voronoi.construct2_cell_size"
   ],
   "note": "Real arithmetic, square or cubic box; Lebesgue measure of Mathlib."
  },
  {
   "property": "C84",
   "status": "proved",
   "theorems": [
    "Verif.Parallel.grid_complete",
    "Verif.Parallel.rank_cell_contains",
    "Verif.Parallel.grid_neighbours"
   ],
   "note": "Real arithmetic, space, cubic box; the theorems speak about every rank on which the construction ends (that it ends: C88). The searches of all ranks are those of the quadtree, the decomposition and the halo caches."
  },
  {
   "property": "C85",
   "status": "proved",
   "theorems": [
    "Verif.Parallel.grid_volume",
    "Verif.Parallel.grid_volume_in_box",
    "Verif.Parallel.grid_volumes_total",
    "Verif.Parallel.grid_cell_closed"
   ],
   "note": "Real arithmetic, space, cubic box; the theorems speak about every rank on which the construction ends (that it ends: C88). The searches of all ranks are those of the quadtree, the decomposition and the halo caches."
  },
  {
   "property": "C86",
   "status": "proved",
   "theorems": [
    "Verif.Parallel.grid_faces_agree"
   ],
   "note": "Real arithmetic, space, cubic box; the theorems speak about every rank on which the construction ends (that it ends: C88). The searches of all ranks are those of the quadtree, the decomposition and the halo caches."
  },
  {
   "property": "C87",
   "status": "proved",
   "theorems": [
    "Verif.Parallel.grid_halo_particles",
    "Verif.Parallel.grid_halo_neighbours",
    "Verif.Parallel.grid_halo_once"
   ],
   "note": "Real arithmetic, space, cubic box; the theorems speak about every rank on which the construction ends (that it ends: C88). The searches of all ranks are those of the quadtree, the decomposition and the halo caches."
  },
  {
   "property": "C88",
   "status": "proved",
   "theorems": [
    "Verif.Parallel.construct_ends"
   ],
   "note": "Real arithmetic, space, cubic box. General position is a hypothesis; it fails if the domain of a rank is so large that a particle and two of its images on one line are needed (three periodic images and a fourth point are in a plane), which happens for a single rank with few particles."
  },
  {
   "property": "C89",
   "status": "proved",
   "theorems": [
    "Verif.Sim.levels_agree",
    "Verif.Sim.ids_count_particles"
   ],
   "note": "Real arithmetic, space, cubic box with no particle on its upper faces; the choice of levels from the time scales is arbitrary here (C25-C27). Particle indices are not bounded by u32."
  },
  {
   "property": "C90",
   "status": "proved",
   "theorems": [
    "Verif.Sim.cells_are_particles",
    "Verif.Sim.sweep_ends",
    "Verif.Sim.sweep_never_panics",
    "Verif.Sim.sweep_solves_all",
    "Verif.Sim.sweep_result_unique",
    "Verif.Sim.sweep_conserves"
   ],
   "note": "Composition of C84-C89 with C29-C34; one sweep at one level. Real arithmetic, space, cubic box."
  },
  {
   "property": "C91",
   "status": "proved",
   "theorems": [
    "Verif.Sweep.check_sound",
    "Verif.Sweep.check_passes",
    "Verif.Sweep.check_hangs",
    "Verif.Sim.check_on_grid"
   ],
   "note": "The collective calls of the check are modelled as lists which have to match between ranks."
  },
  {
   "property": "C92",
   "status": "proved",
   "theorems": [
    "Verif.Sweep.overlapped_is_waiting",
    "Verif.Sweep.overlapped_never_panics",
    "Verif.Sweep.overlapped_leaves_nothing",
    "Verif.Sweep.overlapped_terminates",
    "Verif.Sweep.overlapped_result_unique"
   ],
   "note": "The level updates at the end of run_sweeps are collective and not part of the loop; the deadlock check is off."
  },
  {
   "property": "C93",
   "status": "proved",
   "theorems": [
    "Verif.Sim.simulation_starts",
    "Verif.Sim.simulation_goes_on",
    "Verif.Sim.simulation_time",
    "Verif.Sim.simulation_levels",
    "Verif.Sim.simulation_level_choice",
    "Verif.Sim.simulation_unique"
   ],
   "note": "Real arithmetic, space, cubic box. The chemistry, the rotation and the time scales are arbitrary functions of the cell. The uniqueness needs a grid without periodic boundaries (a periodic sweep depends on the schedule, see C31)."
  },
  {
   "property": "C94",
   "status": "proved",
   "theorems": [
    "Verif.Sim.loop_goes_on",
    "Verif.Sim.loop_states",
    "Verif.Sim.loop_ends",
    "Verif.Sim.loop_has_end",
    "Verif.Sim.loop_final",
    "Verif.Sim.loop_snapshots"
   ],
   "note": "One frame is the sequence of stages of stages.rs; the writing of the files is C01-C05. Disagreement: one further time step is made after the final time is reached."
  },
  {
   "property": "C95",
   "status": "proved",
   "theorems": [
    "Verif.Sim.ionization_time"
   ],
   "note": "Real arithmetic; the fraction is any function of the state of the cell."
  },
  {
   "property": "C96",
   "status": "proved",
   "theorems": [
    "Verif.Sim.series_distribution",
    "Verif.Sim.series_means",
    "Verif.Sim.series_bounds",
    "Verif.Sim.series_volume",
    "Verif.Sim.series_rate_missing",
    "Verif.Sim.series_counts",
    "Verif.Sim.series_counts_at_start"
   ],
   "note": "Real arithmetic (the sums do not depend on their order). Disagreements: the counts are cumulative, the rates are silently zero if the component is absent."
  },
  {
   "property": "C97",
   "status": "proved",
   "theorems": [
    "Verif.Parallel.distribution_volume",
    "Verif.Parallel.distribution_faces"
   ],
   "note": "Real arithmetic, space, cubic box, particles not on its upper faces."
  },
  {
   "property": "C98",
   "status": "proved",
   "theorems": [
    "Verif.Sim.simulation_distribution",
    "Verif.Sim.simulation_distribution_single",
    "Verif.Sweep.inactive_cells_depend_on_ranks"
   ],
   "note": "Real arithmetic, so that sums do not depend on the order in which contributions arrive. Disagreement with what one would expect: with several levels the results depend on the ranks."
  },
  {
   "property": "C99",
   "status": "proved",
   "theorems": [
    "Verif.Rounding.tetra_contains_exact",
    "Verif.Rounding.remap_coord",
    "Verif.Rounding.remap_mono",
    "Verif.Rounding.remapped_contains_correct",
    "Verif.Rounding.fl_rounds",
    "Verif.Rounding.fl_unique"
   ],
   "note": "binary64 with round to nearest, ties to even, and gradual underflow; the numbers here are far from overflow. The compiler is assumed not to fuse or reorder operations, which Rust guarantees."
  },
  {
   "property": "C100",
   "status": "partial",
   "theorems": [
    "Verif.Rounding.inSphere_float_sign",
    "Verif.Rounding.inSphere_float_correct",
    "Verif.Rounding.in_sphere_right_partial",
    "Verif.Rounding.in_sphere_wrong"
   ],
   "note": "The f64 test is right whenever it is conclusive (inSphere_float_correct). The second half is false of the code: the last column of the matrix is computed in f64 before it is lifted to rational numbers (in_sphere_wrong). in_sphere_right_partial says how far from the sphere a point has to be for the answer to be right. Missing: points closer to the sphere, where the answer can be wrong."
  },
  {
   "property": "C101",
   "status": "partial",
   "theorems": [
    "Verif.Rounding.determinant_sign_right_partial",
    "Verif.Rounding.determinant_sign_wrong",
    "Verif.Rounding.in_circle_right_partial",
    "Verif.Rounding.in_circle_wrong",
    "Verif.Rounding.triangle_contains_inconclusive_partial",
    "Verif.Rounding.triangle_contains_wrong",
    "Verif.Rounding.triangle_contains_misses",
    "Verif.Rounding.line_intersection_inconclusive_partial",
    "Verif.Rounding.line_intersection_wrong",
    "Verif.Rounding.line_intersection_misses"
   ],
   "note": "False of the code in general, with witnesses for each of the four tests. Proved: the determinant and the in-circle test are right unless the determinant is tiny compared with its products (8/2^53 and 14/2^53 of their sum); the other two are right if the f64 attempt reports a precision error. A bound for conclusive answers of the solver is C122."
  },
  {
   "property": "C102",
   "status": "proved",
   "theorems": [
    "Verif.Startup.startup_keeps_rows",
    "Verif.Startup.startup_distributes",
    "Verif.Startup.startup_balanced",
    "Verif.Startup.startup_panics_with_few_rows",
    "Verif.Startup.startup_panics_outside",
    "Verif.Startup.startup_panics_with_unequal_datasets",
    "Verif.Startup.rows_of_files_mixed"
   ],
   "note": "Exact arithmetic for the keys of positions. All datasets have the same number of rows in each file; rows_of_files_mixed shows that otherwise rows of different files are combined without an error."
  },
  {
   "property": "C103",
   "status": "proved",
   "theorems": [
    "Verif.Startup.program_output"
   ],
   "note": "Real arithmetic. That the grids can be built is a hypothesis on both runs (Ready, see C88); the sources are functions of the particles. One timestep level, since with several levels the claim is false (C98)."
  },
  {
   "property": "C104",
   "status": "proved",
   "theorems": [
    "Verif.Startup.stars_read",
    "Verif.Startup.explicit_sources",
    "Verif.Startup.luminosity_kept",
    "Verif.Startup.sources_distribution",
    "Verif.Startup.settled_at_particle",
    "Verif.Startup.program_output_sources",
    "Verif.Startup.source_cell_depends_on_ranks"
   ],
   "note": "Exact arithmetic; the rate of a star is a function of its formation scale factor, metallicity and mass (C60). The nearest neighbour search only through its contract."
  },
  {
   "property": "C105",
   "status": "proved",
   "theorems": [
    "Verif.Initial.initial_state",
    "Verif.Initial.initial_site",
    "Verif.Initial.initial_range",
    "Verif.Initial.initial_energy",
    "Verif.Initial.initial_mass_total"
   ],
   "note": "Real arithmetic. The scheduler may run the systems of a stage in any order which obeys the declared constraints; commands are applied at the end of the stage."
  },
  {
   "property": "C106",
   "status": "proved",
   "theorems": [
    "Verif.Sim.time_series_file",
    "Verif.Sim.time_series_values",
    "Verif.Sim.events_seen",
    "Verif.Sim.startup_value_once",
    "Verif.Sim.time_series_of_run"
   ],
   "note": "Model of Bevy's double buffered events as documented; the serialization of the entries and the buffering of the file are not part of it."
  },
  {
   "property": "C107",
   "status": "proved",
   "theorems": [
    "Verif.Chemistry.output_photons",
    "Verif.Chemistry.output_solver",
    "Verif.Chemistry.output_photoionization",
    "Verif.Chemistry.output_fraction_rates",
    "Verif.Chemistry.output_heating",
    "Verif.Chemistry.output_rates_nonneg"
   ],
   "note": "Real arithmetic. Note the units: the photoionization rate is per neutral atom, the other two rates are per hydrogen atom."
  },
  {
   "property": "C108",
   "status": "proved",
   "theorems": [
    "Verif.Tags.tags_separate",
    "Verif.Tags.tags_mixed_up",
    "Verif.Tags.tag_range",
    "Verif.Tags.tag_collision",
    "Verif.Tags.custom_tags",
    "Verif.Tags.tags_coincide"
   ],
   "note": "The hash of a type identifier is a parameter (it changes with the compiler), so whether the tags of the program differ is a hypothesis; MPI's matching of messages as documented."
  },
  {
   "property": "C109",
   "status": "proved",
   "theorems": [
    "Verif.Direction.num_directions",
    "Verif.Direction.directions_isotropic",
    "Verif.Direction.one_direction_not_isotropic",
    "Verif.Direction.explicit_directions",
    "Verif.Direction.directions_2d"
   ],
   "note": "Real arithmetic on the decimal numbers of the tables."
  },
  {
   "property": "C110",
   "status": "proved",
   "theorems": [
    "Verif.Rounding.integer_pos_range",
    "Verif.Rounding.integer_pos_mono",
    "Verif.Rounding.integer_pos_resolution",
    "Verif.Rounding.key3_resolution",
    "Verif.Rounding.key2_resolution",
    "Verif.Rounding.far_box"
   ],
   "note": "Binary64 without overflow. The limit far_box is outside of the hypotheses of the property."
  },
  {
   "property": "C111",
   "status": "proved",
   "theorems": [
    "Verif.Rounding.clock_start_exact",
    "Verif.Rounding.clock_accurate",
    "Verif.Rounding.clock_grows",
    "Verif.Rounding.clock_reaches",
    "Verif.Rounding.clock_count",
    "Verif.Rounding.clock_bounded"
   ],
   "note": "Binary64 without overflow; powers of one half are exact. The main loop around it is C94."
  },
  {
   "property": "C112",
   "status": "proved",
   "theorems": [
    "Verif.OutputStages.frame_writes_snapshot",
    "Verif.OutputStages.run_writes_snapshots",
    "Verif.OutputStages.unknown_names",
    "Verif.OutputStages.no_fields_can_panic"
   ],
   "note": "The datasets of all ranks have as many rows as the rank has particles; names of fields differ. Ranks write to a file in turns (C02); HDF5 as in C01. no_fields_can_panic is the limit of the hypothesis that there is at least one field, which the program always meets."
  },
  {
   "property": "C113",
   "status": "proved",
   "theorems": [
    "Verif.StageTimers.stage_times",
    "Verif.StageTimers.too_many_stages"
   ],
   "note": "Exact times; the systems of the timer stages take no time themselves. The statistics in the performance file are not modelled."
  },
  {
   "property": "C114",
   "status": "proved",
   "theorems": [
    "Verif.OutputDirs.file_names_ordered",
    "Verif.OutputDirs.snapshot_names_distinct",
    "Verif.OutputDirs.snapshot_names_ordered",
    "Verif.OutputDirs.snapshot_names_not_ordered",
    "Verif.OutputDirs.log_names_distinct",
    "Verif.OutputDirs.fresh_run",
    "Verif.OutputDirs.overwriting_run",
    "Verif.OutputDirs.existing_output",
    "Verif.OutputDirs.listing_complete",
    "Verif.OutputDirs.same_listing",
    "Verif.OutputDirs.different_listings",
    "Verif.OutputDirs.overwriting_mixes"
   ],
   "note": "A file system without permissions, links and other processes; paths are relative and the directory for snapshots is not called logs. The exact logarithm for the number of digits. Parameters, performance data and time series files are left out."
  },
  {
   "property": "C115",
   "status": "proved",
   "theorems": [
    "Verif.Overrides.override_parsed",
    "Verif.Overrides.override_only",
    "Verif.Overrides.colons_rejected",
    "Verif.Overrides.parameters_of_sections",
    "Verif.Overrides.used_parameters_reproduce",
    "Verif.Overrides.unknown_overrides_ignored",
    "Verif.Overrides.unused_sections",
    "Verif.Overrides.invalid_file_ignored",
    "Verif.Overrides.empty_file_panics",
    "Verif.Overrides.overrides_again_can_panic"
   ],
   "note": "Parsing and printing of YAML is a parameter; serialization of a parameter type followed by deserialization is assumed to give the same value. Splitting of the command line by structopt is not modelled."
  },
  {
   "property": "C116",
   "status": "proved",
   "theorems": [
    "Verif.Sweep.finishes_iff_acyclic",
    "Verif.Sweep.cycle_never_solved",
    "Verif.Rounding.sides_agree",
    "Verif.Rounding.large_product_order",
    "Verif.Rounding.clear_face_decided",
    "Verif.Rounding.cycle_has_small_product",
    "Verif.Rounding.table_directions_fit",
    "Verif.Rounding.no_small_products_finish",
    "Verif.Rounding.rounding_cycle",
    "Verif.Rounding.rounding_deadlock"
   ],
   "note": "Three dimensions. Overflow is excluded by the bounds on the coordinates. The tests is_negative and is_positive of the library of units are taken to be comparisons with zero, the sign of zero is not modelled. That the three cells of the example touch is not part of the theorem."
  },
  {
   "property": "C117",
   "status": "proved",
   "theorems": [
    "Verif.Rounding.periodic_image",
    "Verif.Rounding.periodic_sides_agree",
    "Verif.Rounding.both_downwind",
    "Verif.Rounding.both_upwind",
    "Verif.Rounding.periodic_rounding_hangs"
   ],
   "note": "Three dimensions; as C116."
  },
  {
   "property": "C118",
   "status": "proved",
   "theorems": [
    "Verif.Rounding.radius_search_rounded",
    "Verif.Rounding.sqrt_total",
    "Verif.Rounding.periodic_distance_error",
    "Verif.Rounding.radius_search_accuracy",
    "Verif.Rounding.periodic_distance_symmetric",
    "Verif.Rounding.boundary_particle_missed"
   ],
   "note": "Three dimensions. Overflow is excluded by the bounds on the coordinates; the square root of f64 is correctly rounded (IEEE 754). The bound on the depth of the tree relative to the size of the box is part of the hypotheses; it holds for the default configuration in a cube."
  },
  {
   "property": "C119",
   "status": "proved",
   "theorems": [
    "Verif.Rounding.rate_drift",
    "Verif.Rounding.schedules_close",
    "Verif.Rounding.parts_conserve",
    "Verif.Rounding.ghost_rate",
    "Verif.Rounding.negative_periodic_rate",
    "Verif.Rounding.order_of_corrections_matters"
   ],
   "note": "The model is the incoming rate of one cell in one direction with all events that concern it, in any order; that the events come from the distributed sweep (each correction arrives exactly once, those of one upwind cell in order) is C29-C35. Corrections for inactive cells of other ranks, which the code drops, are not events here. The shares are constant during a run of events."
  },
  {
   "property": "C120",
   "status": "proved",
   "theorems": [
    "Verif.StageTimers.performance_panics",
    "Verif.StageTimers.performance_file",
    "Verif.StageTimers.performance_total",
    "Verif.StageTimers.timer_guard"
   ],
   "note": "Times are exact rational numbers. The YAML text is not modelled; the order of the entries is that of LinkedHashMap, whose insert is part of the model."
  },
  {
   "property": "C121",
   "status": "proved",
   "theorems": [
    "Verif.Turns.barrierdbg_turns",
    "Verif.Turns.steps_end",
    "Verif.Turns.communicating_expression_blocks"
   ],
   "note": "That lines of different ranks reach the terminal in the order in which they are printed is not part of the model. Collective operations of different kinds which meet never return in the model; MPI leaves this undefined."
  },
  {
   "property": "C122",
   "status": "proved",
   "theorems": [
    "Verif.Rounding.solver_backward_stable",
    "Verif.Rounding.solver_division_by_zero",
    "Verif.Rounding.triangle_contains_nearby",
    "Verif.Rounding.triangle_contains_right",
    "Verif.Rounding.line_intersection_nearby",
    "Verif.Rounding.line_intersection_right"
   ],
   "note": "Overflow is not modelled. What the code does after a division by zero is not modelled; the theorems say when there is none."
  },
  {
   "property": "C123",
   "status": "proved",
   "theorems": [
    "Verif.Predicates.closest_point_nearest",
    "Verif.Predicates.closest_point_degenerate",
    "Verif.Predicates.tetra_distance",
    "Verif.Predicates.triangle_distance",
    "Verif.Predicates.triangle_distance_too_small",
    "Verif.Predicates.triangle_distance_clockwise",
    "Verif.Delaunay.guided_location",
    "Verif.Delaunay.guided_location_next",
    "Verif.Delaunay.guided_insertions",
    "Verif.Delaunay.guided_plane",
    "Verif.Delaunay.guided_space",
    "Verif.Delaunay.guided_plane_complete",
    "Verif.Delaunay.guided_space_complete",
    "Verif.Delaunay.dist3_panics"
   ],
   "note": "Exact real numbers. Triangles of the mesh in the plane are counterclockwise by C67; for a clockwise triangle the sign would be wrong (triangle_distance_clockwise)."
  },
  {
   "property": "C124",
   "status": "proved",
   "theorems": [
    "Verif.Remap.snapshot_dir",
    "Verif.Remap.snapshot_dir_panics",
    "Verif.Remap.snapshot_names",
    "Verif.Remap.snapshot_number",
    "Verif.Remap.reads_previous_run",
    "Verif.Remap.remaps_previous_run",
    "Verif.Remap.stale_snapshots",
    "Verif.Remap.logs_in_the_way",
    "Verif.Remap.order_of_files_matters"
   ],
   "note": "Composes C112 (what is written), C114 (names and directories), C39 (nearest particle). The k-d tree is a contract. That all ranks list the files of the first and last snapshot in one order is a hypothesis: the program does not sort them, and without it the values are mixed up (order_of_files_matters). Snapshots of the older run must not be left over (stale_snapshots), and the snapshots need a directory of their own (logs_in_the_way)."
  },
  {
   "property": "C125",
   "status": "proved",
   "theorems": [
    "Verif.Rounding.snapshotF_step",
    "Verif.Rounding.snapshotF_numbers",
    "Verif.Rounding.due_accurate",
    "Verif.Rounding.snapshot_frame",
    "Verif.Rounding.snapshot_on_time",
    "Verif.Rounding.snapshot_written",
    "Verif.Rounding.run_ends",
    "Verif.Rounding.late_snapshot"
   ],
   "note": "Binary64 without overflow, clock of C111. The f64 version of C05. Rounding can delay a snapshot by a time step (late_snapshot). The theorems on frames need an interval which is longer than the time step by a relative 2^-29."
  },
  {
   "property": "C126",
   "status": "proved",
   "theorems": [
    "Verif.Rounding.level_f64",
    "Verif.Rounding.level_exact",
    "Verif.Rounding.level_mono",
    "Verif.Rounding.desired_level_f64",
    "Verif.Rounding.level_degenerate",
    "Verif.Rounding.desired_exceeded"
   ],
   "note": "The f64 version of C26. log2 is a contract (monotone, exact for powers of two, accurate to 2^-47 between 1 and 2^32), shown to be satisfiable. The bound of C26 does not hold exactly (desired_exceeded)."
  },
  {
   "property": "C127",
   "status": "proved",
   "theorems": [
    "Verif.Rounding.fmod_exact",
    "Verif.Rounding.wrapF_in_box",
    "Verif.Rounding.wrapF_inside",
    "Verif.Rounding.wrapF_accurate",
    "Verif.Rounding.wrapF_twice",
    "Verif.Rounding.wrapF_reaches_upper",
    "Verif.Rounding.wrapF_moves_inside"
   ],
   "note": "The f64 version of C22 for boxes which begin at zero, as in all runs. That the remainder needs no rounding is proved."
  },
  {
   "property": "C128",
   "status": "proved",
   "theorems": [
    "Verif.Rounding.Chem.substeps_f64",
    "Verif.Rounding.Chem.chemistry_sound",
    "Verif.Rounding.Chem.limits_f64",
    "Verif.Rounding.Chem.neutral_fraction_pos",
    "Verif.Rounding.Chem.substep_temperature",
    "Verif.Rounding.Chem.update_abundances_f64",
    "Verif.Rounding.Chem.cold_cell"
   ],
   "note": "Binary64 without overflow. The f64 version of C41 and C42; the changes are parameters. A safety factor of one, which is not rejected, lets a cell reach temperature zero (cold_cell)."
  },
  {
   "property": "C129",
   "status": "proved",
   "theorems": [
    "Verif.Parallel.Plane.grid_complete",
    "Verif.Parallel.Plane.rank_cell_contains",
    "Verif.Parallel.Plane.grid_neighbours"
   ],
   "note": "Real arithmetic, plane, square box; the theorems speak about every rank on which the construction ends (that it ends: C133). The searches of all ranks are those of the quadtree, the decomposition and the halo caches."
  },
  {
   "property": "C130",
   "status": "proved",
   "theorems": [
    "Verif.Parallel.Plane.grid_volume",
    "Verif.Parallel.Plane.grid_volume_in_box",
    "Verif.Parallel.Plane.grid_volumes_total",
    "Verif.Parallel.Plane.grid_cell_closed"
   ],
   "note": "Real arithmetic, plane, square box; the theorems speak about every rank on which the construction ends (that it ends: C133). The searches of all ranks are those of the quadtree, the decomposition and the halo caches."
  },
  {
   "property": "C131",
   "status": "proved",
   "theorems": [
    "Verif.Parallel.Plane.grid_faces_agree"
   ],
   "note": "Real arithmetic, plane, square box; the theorems speak about every rank on which the construction ends (that it ends: C133). The searches of all ranks are those of the quadtree, the decomposition and the halo caches."
  },
  {
   "property": "C132",
   "status": "proved",
   "theorems": [
    "Verif.Parallel.Plane.grid_halo_particles",
    "Verif.Parallel.Plane.grid_halo_neighbours",
    "Verif.Parallel.Plane.grid_halo_once"
   ],
   "note": "Real arithmetic, plane, square box; the theorems speak about every rank on which the construction ends (that it ends: C133). The searches of all ranks are those of the quadtree, the decomposition and the halo caches."
  },
  {
   "property": "C133",
   "status": "proved",
   "theorems": [
    "Verif.Parallel.Plane.construct_ends"
   ],
   "note": "Real arithmetic, plane, square box. General position is a hypothesis; it fails if the domain of a rank is so large that a particle and two of its images on one line are needed."
  },
  {
   "property": "C134",
   "status": "proved",
   "theorems": [
    "Verif.Parallel.Plane.distribution_volume",
    "Verif.Parallel.Plane.distribution_faces"
   ],
   "note": "Real arithmetic, plane, square box, particles not on its upper sides."
  },
  {
   "property": "C135",
   "status": "proved",
   "theorems": [
    "Verif.Rounding.searchF_result",
    "Verif.Rounding.searchF_same",
    "Verif.Rounding.searchF_succeeds",
    "Verif.Rounding.scale_factor_f64",
    "Verif.Rounding.searchF_stuck"
   ],
   "note": "Binary64 without overflow. The f64 version of the search of C44; the errors of the computed time differences are a parameter."
  },
  {
   "property": "C136",
   "status": "proved",
   "theorems": [
    "Verif.Rounding.outgoing_range_f64",
    "Verif.Rounding.outgoing_mono_f64",
    "Verif.Rounding.outgoing_accurate_f64",
    "Verif.Rounding.ionised_absorbed_f64",
    "Verif.Rounding.thin_cell"
   ],
   "note": "Binary64 without overflow. The f64 version of C40 and C63; the exponential function of the standard library is a parameter (ExpOk; exp_exists shows that there is one)."
  },
  {
   "property": "C137",
   "status": "proved",
   "theorems": [
    "Verif.Rounding.lookup_f64",
    "Verif.Rounding.lookup_points_f64",
    "Verif.Rounding.every_rate_f64",
    "Verif.Rounding.nan_age_f64",
    "Verif.Rounding.steep_table"
   ],
   "note": "Binary64 without overflow. The f64 version of C60."
  },
  {
   "property": "C138",
   "status": "proved",
   "theorems": [
    "Verif.Rounding.series_f64",
    "Verif.Rounding.series_rates_f64",
    "Verif.Rounding.fractions_f64",
    "Verif.Rounding.temperatures_f64",
    "Verif.Rounding.distribution_f64",
    "Verif.Rounding.series_depends_f64"
   ],
   "note": "Binary64 without overflow. The f64 version of the averages of C96."
  },
  {
   "property": "C139",
   "status": "proved",
   "theorems": [
    "Verif.Sim.snapshot_epoch",
    "Verif.Sim.snapshot_epoch_late",
    "Verif.Sim.snapshot_epoch_fixed",
    "Verif.Sim.cosmological_run_goes_on",
    "Verif.Sim.cosmological_run_past_one",
    "Verif.Sim.continued_positions"
   ],
   "note": "Exact arithmetic. The attributes lag one time step behind the time, see disagreements 74 and 75."
  },
  {
   "property": "C140",
   "status": "proved",
   "theorems": [
    "Verif.Rounding.circumcentre_found_f64",
    "Verif.Rounding.circumcentre_equidistant_f64",
    "Verif.Rounding.circumcentre_accurate_f64",
    "Verif.Rounding.search_covers_sphere_f64",
    "Verif.Rounding.halo_search_finds_f64",
    "Verif.Rounding.flat_sphere_not_searched"
   ],
   "note": "Rounded to nearest, without overflow and NaN; three dimensions. The conversion of the exact fallback to f64 is taken to round to nearest. flat_sphere_not_searched is the witness for flat tetrahedra, disagreement 76."
  },
  {
   "property": "C141",
   "status": "proved",
   "theorems": [
    "Verif.Rounding.face_area_accurate_f64",
    "Verif.Rounding.face_areas_agree_f64",
    "Verif.Rounding.face_normal_accurate_f64",
    "Verif.Rounding.cell_volume_accurate_f64",
    "Verif.Rounding.construct3_cell_volume_f64",
    "Verif.Rounding.faces_agree_exactly_f64",
    "Verif.Rounding.area_depends_on_start_f64"
   ],
   "note": "Rounded to nearest, without overflow and NaN; three dimensions. construct3_cell_volume_f64 is about the triangulation of the points as they are; that the code decides the triangulation from coordinates which are rescaled in f64 is not part of it. area_depends_on_start_f64 is the witness of disagreement 77."
  },
  {
   "property": "C142",
   "status": "proved",
   "theorems": [
    "Verif.Rounding.rescaled_near_f64",
    "Verif.Rounding.initial_tetra_contains_f64",
    "Verif.Rounding.construct_completes_f64",
    "Verif.Rounding.nearly_delaunay_f64",
    "Verif.Rounding.rescaled_ne_f64",
    "Verif.Rounding.rescaled_distinct_f64",
    "Verif.Rounding.close_points_panic_f64"
   ],
   "note": "Rounded to nearest, without overflow and NaN; three dimensions. The decisions are exact functions of the rescaled coordinates; that is shown for the test whether a tetrahedron contains a point (C99), while the test for flips is partly decided in f64 (C100). close_points_panic_f64 is the witness of disagreement 78."
  },
  {
   "property": "C143",
   "status": "proved",
   "theorems": [
    "Verif.Rounding.snapshot_values_unchanged_f64",
    "Verif.Rounding.converted_values_accurate_f64",
    "Verif.Rounding.si_factor_one_f64",
    "Verif.Rounding.base_factor_accurate_f64",
    "Verif.Rounding.initial_temperature_accurate_f64",
    "Verif.Rounding.initial_temperature_mono_f64",
    "Verif.Rounding.temperature_round_trip_f64",
    "Verif.Rounding.energy_density_round_trip_f64",
    "Verif.Rounding.temperature_round_trip_inexact_f64"
   ],
   "note": "Rounded to nearest, without overflow and NaN. powi is an arbitrary function (its precision is not specified). temperature_round_trip_inexact_f64 is the witness of disagreement 79."
  },
  {
   "property": "C144",
   "status": "proved",
   "theorems": [
    "Verif.Rounding.arepo_values_accurate_f64",
    "Verif.Rounding.arepo_rejected_iff_f64",
    "Verif.Rounding.arepo_dimensionless_unchanged_f64"
   ],
   "note": "Rounded to nearest, without overflow and NaN. powi is an arbitrary function with a bounded relative error."
  },
  {
   "property": "C145",
   "status": "proved",
   "theorems": [
    "Verif.Rounding.Nearest.remap_uses_nearest_f64",
    "Verif.Rounding.Nearest.remapped_from_nearly_nearest_f64",
    "Verif.Rounding.Nearest.remap_misses_nearest_f64",
    "Verif.Rounding.Nearest.remap_positions_unchanged_f64",
    "Verif.Rounding.Nearest.remap_positions_accurate_f64"
   ],
   "note": "Rounded to nearest, without overflow and NaN. The k-d tree is an external crate and is represented by its contract, with computed distances added from left to right. remap_misses_nearest_f64 is the witness of disagreement 80."
  },
  {
   "property": "C146",
   "status": "proved",
   "theorems": [
    "Verif.Rounding.Rotate.rotation_matrix_accurate_f64",
    "Verif.Rounding.Rotate.rotated_directions_accurate_f64",
    "Verif.Rounding.Rotate.rotated_directions_dots_f64",
    "Verif.Rounding.Rotate.directions_stay_isotropic_f64"
   ],
   "note": "Rounded to nearest, without overflow and NaN. Sine and cosine are represented by their error bound, arc cosine may be any function. The random numbers are inputs."
  },
  {
   "property": "C147",
   "status": "proved",
   "theorems": [
    "Verif.Rounding.Mesh.num_cells_f64",
    "Verif.Rounding.Mesh.grid_complete_f64",
    "Verif.Rounding.Mesh.positions_accurate_f64",
    "Verif.Rounding.Mesh.neighbour_entries_f64",
    "Verif.Rounding.Mesh.areas_accurate_f64",
    "Verif.Rounding.Mesh.faces_come_in_pairs_f64",
    "Verif.Rounding.Mesh.ids_unique_f64",
    "Verif.Rounding.Mesh.local_and_halo_cells_f64",
    "Verif.Rounding.Mesh.ranks_are_slabs_f64",
    "Verif.Rounding.Mesh.cells_lost_f64"
   ],
   "note": "Rounded to nearest, without overflow and NaN other than that of a vanishing normal. The number of cells may be one less per side than the decimal numbers of the parameter file suggest, see disagreement 81."
  },
  {
   "property": "C148",
   "status": "proved",
   "theorems": [
    "Verif.Rounding.Haloes.searches_reach_ranks_f64",
    "Verif.Rounding.Haloes.found_neighbour_has_image_f64",
    "Verif.Rounding.Haloes.inner_neighbour_has_image_f64",
    "Verif.Rounding.Haloes.found_image_is_unique_f64",
    "Verif.Rounding.Haloes.answered_image_is_the_only_one_f64",
    "Verif.Rounding.Haloes.searches_answered_f64",
    "Verif.Rounding.Haloes.halo_search_panics_f64"
   ],
   "note": "Rounded to nearest, without overflow and NaN, three dimensions. Within 2^-46 of the radius the program can panic, see disagreement 82."
  },
  {
   "property": "C149",
   "status": "proved",
   "theorems": [
    "Verif.Rounding.Deposit.sources_deposited_f64",
    "Verif.Rounding.Deposit.terms_accurate_f64",
    "Verif.Rounding.Deposit.nearly_nearest_cell_f64",
    "Verif.Rounding.Deposit.luminosity_on_grid_f64",
    "Verif.Rounding.Deposit.term_independent_of_ranks_f64",
    "Verif.Rounding.Deposit.order_of_sources_matters_f64",
    "Verif.Rounding.Deposit.announced_luminosity_differs_f64"
   ],
   "note": "Rounded to nearest, without overflow and NaN; the k-d tree is given by its contract. The order of the sources matters, see disagreement 83."
  },
  {
   "property": "C150",
   "status": "proved",
   "theorems": [
    "Verif.Rounding.Start.initial_fraction_f64",
    "Verif.Rounding.Start.start_temperature_f64",
    "Verif.Rounding.Start.remapped_state_f64",
    "Verif.Rounding.Start.start_state_valid_f64",
    "Verif.Rounding.Start.start_mass_f64",
    "Verif.Rounding.Start.parameter_not_limited_f64"
   ],
   "note": "Rounded to nearest, without overflow and NaN. The order of the systems is that of C105. A parameter outside of the range is not limited, see disagreement 84."
  },
  {
   "property": "C151",
   "status": "proved",
   "theorems": [
    "Verif.Rounding.Implicit.rates_nonneg_f64",
    "Verif.Rounding.Implicit.temperature_change_f64",
    "Verif.Rounding.Implicit.fraction_change_f64",
    "Verif.Rounding.Implicit.cold_gas_stable_f64",
    "Verif.Rounding.Implicit.recombination_no_overshoot_f64",
    "Verif.Rounding.Implicit.long_step_moves_backwards_f64"
   ],
   "note": "Rounded to nearest, without overflow; the fits of the coefficients and the exponential function are parameters."
  }
 ]
}