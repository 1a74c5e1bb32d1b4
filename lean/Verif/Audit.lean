import Verif.IO.FileDistributionProps
import Verif.IO.SerialOutputProps
import Verif.IO.TimerProps
import Verif.Params.OverridesProps
import Verif.Comm.CollectiveProps
import Verif.Comm.DataByRankProps
import Verif.Comm.ExchangeProps
import Verif.Timestep.Props
import Verif.Timestep.ActiveListProps
import Verif.Peano.Props2d
import Verif.Peano.Props3d
import Verif.Domain.DecompositionProps
import Verif.Domain.ExchangeDataProps
import Verif.Domain.SourcesProps
import Verif.Sweep.Examples
import Verif.Sweep.CommunicatorProps
import Verif.Geometry.ExtentProps
import Verif.Geometry.BoxProps
import Verif.Quadtree.Props
import Verif.Predicates.DetProps
import Verif.Predicates.SolverProps
import Verif.Predicates.CircleProps
import Verif.Predicates.SimplexProps
import Verif.Direction.Props
import Verif.Cartesian.Props
import Verif.GridFile.Props
import Verif.Remap.Props
import Verif.Voronoi.PlaneCellProps
import Verif.Voronoi.SpaceCellProps
import Verif.Delaunay.PlaneProps
import Verif.Delaunay.Construct3Props
import Verif.Delaunay.ConstructProps
import Verif.Voronoi.UtilsProps
import Verif.Voronoi.PolygonProps
import Verif.Voronoi.CellProps
import Verif.Voronoi.CellProps3
import Verif.Comm.EncodingProps
import Verif.Halo.CacheProps
import Verif.Halo.IterProps
import Verif.Halo.TriangulationProps
import Verif.Delaunay.MeshProps
import Verif.Delaunay.InsertProps
import Verif.Delaunay.LocationProps
import Verif.Cosmology.Props
import Verif.Units.Props
import Verif.Bpass.Props
import Verif.Plugins.Props
import Verif.Chemistry.StepProps
import Verif.Chemistry.RateProps
import Verif.Chemistry.DerivProps
import Verif.Voronoi.SimplexMeasure
import Verif.Voronoi.PolygonMeasure
import Verif.Voronoi.PolyhedronMeasure
import Verif.Voronoi.SpaceCellGeo
import Verif.Voronoi.SpaceCellVolume
import Verif.Voronoi.PlaneCellClosed
import Verif.Voronoi.CellSize
import Verif.Voronoi.CellMeasureProps
import Verif.Halo.Trace
import Verif.Parallel.SpaceCore
import Verif.Parallel.Model
import Verif.Parallel.EnvLemmas
import Verif.Parallel.Start3
import Verif.Voronoi.EdgeSame
import Verif.Voronoi.Touch
import Verif.Parallel.Model3
import Verif.Parallel.RunLemmas
import Verif.Parallel.Spec
import Verif.Parallel.Spec3
import Verif.Parallel.RegionLemmas
import Verif.Parallel.SpaceRun
import Verif.Parallel.SpaceRegion
import Verif.Parallel.SpaceTies
import Verif.Parallel.SpaceNames
import Verif.Parallel.SpaceGrid
import Verif.Parallel.SpaceCross
import Verif.Parallel.Tiling
import Verif.Parallel.SpaceCells
import Verif.Parallel.Props
import Verif.Halo.TotalLemmas
import Verif.Parallel.TotalSpec
import Verif.Parallel.SearchLemmas
import Verif.Parallel.TotalLemmas
import Verif.Parallel.TotalStep
import Verif.Parallel.TotalProps
import Verif.Parallel.Generic
import Verif.Parallel.Lattice
import Verif.Parallel.Examples
import Verif.Sweep.FairExists
import Verif.Sweep.DeadlockModel
import Verif.Sweep.DeadlockProps
import Verif.Sweep.DeadlockExamples
import Verif.Sim.Model
import Verif.Sim.Spec
import Verif.Sim.LevelLemmas
import Verif.Sim.Levels
import Verif.Sim.GridLemmas
import Verif.Sim.WellFormed
import Verif.Sim.Props
import Verif.Sim.Examples
import Verif.Sweep.Merge
import Verif.Sweep.OverlapModel
import Verif.Sweep.OverlapSpec
import Verif.Sweep.OverlapStep
import Verif.Sweep.OverlapLemmas
import Verif.Sweep.OverlapRun
import Verif.Sweep.OverlapProps
import Verif.Sweep.OverlapExamples
import Verif.Sim.WholeModel
import Verif.Sim.WholeLemmas
import Verif.Sim.WholeProps
import Verif.Sim.WholeExamples
import Verif.Sim.LoopModel
import Verif.Sim.LoopProps
import Verif.Sim.LoopExamples
import Verif.Sim.SeriesModel
import Verif.Sim.SeriesProps
import Verif.Sim.SeriesExamples
import Verif.Parallel.SameSpec
import Verif.Parallel.SameGrid
import Verif.Parallel.DistributionProps
import Verif.Sweep.SameSweeps
import Verif.Sweep.RanksMatter
import Verif.Sim.RanksSpec
import Verif.Sim.RanksLemmas
import Verif.Sim.RanksProps
import Verif.Sim.DealtLattice
import Verif.Sim.RanksExamples
import Verif.Rounding.Binary64
import Verif.Rounding.RoundLemmas
import Verif.Rounding.Model
import Verif.Rounding.ContainsProps
import Verif.Rounding.RemapProps
import Verif.Rounding.ErrorLemmas
import Verif.Rounding.InSphereProps
import Verif.Rounding.InCircleProps
import Verif.Peano.BlockProps
import Verif.Domain.BalanceProps
import Verif.Startup.Model
import Verif.Startup.Spec
import Verif.Startup.Lemmas
import Verif.Startup.Props
import Verif.Startup.BalanceProps
import Verif.Startup.RunModel
import Verif.Startup.RunSpec
import Verif.Startup.RunLemmas
import Verif.Startup.RunProps
import Verif.Startup.Lattice
import Verif.Startup.LatticeKeys
import Verif.Startup.Examples
import Verif.Startup.SourcesModel
import Verif.Startup.SourcesSpec
import Verif.Startup.SourcesProps
import Verif.Startup.SourcesExamples
import Verif.Rounding.BinaryProps
import Verif.Initial.Model
import Verif.Initial.Props
import Verif.Sim.EventsModel
import Verif.Sim.EventsProps
import Verif.Chemistry.OutputModel
import Verif.Chemistry.OutputProps
import Verif.Comm.TagModel
import Verif.Comm.TagProps
import Verif.Direction.TableModel
import Verif.Direction.TableProps
import Verif.Rounding.KeyModel
import Verif.Rounding.KeyProps
import Verif.Rounding.ClockModel
import Verif.Rounding.ClockProps
import Verif.IO.OutputStagesModel
import Verif.IO.OutputStagesOrder
import Verif.IO.OutputStagesLemmas
import Verif.IO.OutputStagesProps
import Verif.Stages.TimerModel
import Verif.Stages.TimerProps
import Verif.IO.OutputDirsModel
import Verif.IO.OutputDirsNames
import Verif.IO.OutputDirsSpec
import Verif.IO.OutputDirsLemmas
import Verif.IO.OutputDirsRun
import Verif.IO.OutputDirsProps
import Verif.Params.CommandLineModel
import Verif.Params.CommandLineProps
import Verif.Sweep.CycleProps
import Verif.Rounding.FaceModel
import Verif.Rounding.FaceProps
import Verif.Rounding.FaceSweepProps
import Verif.Rounding.FacePeriodicProps
import Verif.Rounding.SqrtProps
import Verif.Rounding.SearchModel
import Verif.Rounding.SearchLemmas
import Verif.Rounding.SearchProps
import Verif.Rounding.SearchAccuracyProps
import Verif.Rounding.FlowModel
import Verif.Rounding.FlowProps
import Verif.Rounding.FlowShareProps
import Verif.Stages.PerformanceModel
import Verif.Stages.PerformanceProps
import Verif.Turns.Model
import Verif.Turns.Props
import Verif.Rounding.SolverError
import Verif.Rounding.SolverBack
import Verif.Rounding.SolverProps
import Verif.Rounding.SolverLineProps
import Verif.Predicates.DistanceModel
import Verif.Predicates.DistanceProps
import Verif.Delaunay.Heuristic
import Verif.Delaunay.HeuristicSpec
import Verif.Delaunay.HeuristicLemmas
import Verif.Delaunay.HeuristicProps
import Verif.IO.OutputDirsFiles
import Verif.Remap.SnapshotModel
import Verif.Remap.SnapshotSpec
import Verif.Remap.SnapshotLemmas
import Verif.Remap.SnapshotProps
import Verif.Rounding.TimerModel
import Verif.Rounding.TimerSpec
import Verif.Rounding.TimerLemmas
import Verif.Rounding.TimerProps
import Verif.Rounding.LevelModel
import Verif.Rounding.LevelProps
import Verif.Rounding.WrapModel
import Verif.Rounding.WrapProps
import Verif.Rounding.ChemModel
import Verif.Rounding.ChemSpec
import Verif.Rounding.ChemLemmas
import Verif.Rounding.ChemProps
import Verif.Parallel.Start2
import Verif.Parallel.Model2
import Verif.Parallel.Spec2
import Verif.Parallel.PlaneCore
import Verif.Parallel.PlaneRun
import Verif.Parallel.PlaneRegion
import Verif.Parallel.PlaneTies
import Verif.Parallel.PlaneNames
import Verif.Parallel.PlaneGrid
import Verif.Parallel.PlaneFace
import Verif.Parallel.PlaneCross
import Verif.Parallel.PlaneCells
import Verif.Parallel.PlaneProps
import Verif.Parallel.PlaneTotalSpec
import Verif.Parallel.PlaneTotalLemmas
import Verif.Parallel.PlaneTotalStep
import Verif.Parallel.PlaneTotalProps
import Verif.Parallel.PlaneGeneric
import Verif.Parallel.PlaneLattice
import Verif.Parallel.PlaneExamples
import Verif.Parallel.PlaneSameSpec
import Verif.Parallel.PlaneSame
import Verif.Parallel.PlaneDistributionProps
import Verif.Parallel.PlaneDistributionExamples
import Verif.Rounding.ScaleModel
import Verif.Rounding.ScaleProps
import Verif.Rounding.AbsorbModel
import Verif.Rounding.AbsorbProps
import Verif.Rounding.AbsorbExamples
import Verif.Rounding.StellarModel
import Verif.Rounding.StellarProps
import Verif.Rounding.SeriesModel
import Verif.Rounding.SeriesProps
import Verif.Sim.EpochModel
import Verif.Sim.EpochProps
import Verif.Rounding.CentreModel
import Verif.Rounding.CentreLemmas
import Verif.Rounding.CentreProps
import Verif.Rounding.CentreSearchProps
import Verif.Rounding.CentreExamples
import Verif.Rounding.AreaModel
import Verif.Rounding.AreaLemmas
import Verif.Rounding.AreaProps
import Verif.Rounding.VolumeProps
import Verif.Rounding.CellVolumeProps
import Verif.Rounding.CellConstructProps
import Verif.Rounding.AreaExamples
import Verif.Rounding.RescaleModel
import Verif.Rounding.RescaleLemmas
import Verif.Rounding.RescaleProps
import Verif.Rounding.RescaleConstructProps
import Verif.Rounding.RescaleExamples
import Verif.Rounding.UnitModel
import Verif.Rounding.UnitProps
import Verif.Rounding.ArepoModel
import Verif.Rounding.ArepoProps
import Verif.Rounding.NearestModel
import Verif.Rounding.NearestLemmas
import Verif.Rounding.NearestProps
import Verif.Rounding.RotateModel
import Verif.Rounding.RotateLemmas
import Verif.Rounding.RotateProps
import Verif.Rounding.GridModel
import Verif.Rounding.GridEntryLemmas
import Verif.Rounding.GridLemmas
import Verif.Rounding.GridProps
import Verif.Rounding.HaloSearchModel
import Verif.Rounding.HaloSearchLemmas
import Verif.Rounding.HaloSearchProps
import Verif.Rounding.DepositModel
import Verif.Rounding.DepositProps
import Verif.Rounding.StartModel
import Verif.Rounding.StartProps
import Verif.Rounding.ImplicitModel
import Verif.Rounding.ImplicitProps

/-!
# Axioms of the property theorems

The build prints the axioms of every theorem listed in `MANIFEST.json`; only `propext`, `Classical.choice` and
`Quot.sound` may occur.
-/

-- C01
#print axioms Verif.FileDist.input_partition
#print axioms Verif.FileDist.input_row_read_exactly_once
#print axioms Verif.FileDist.mem_allRows_iff
#print axioms Verif.FileDist.allRows_nodup
-- C02
#print axioms Verif.FileDist.output_tiles_created_datasets
-- C03
#print axioms Verif.FileDist.snapshot_round_trip
-- C04
#print axioms Verif.SerialOutput.serial_output_sequential
#print axioms Verif.SerialOutput.serial_output_progress
#print axioms Verif.SerialOutput.serial_output_terminates
#print axioms Verif.SerialOutput.serial_output_barrier_count
-- C05
#print axioms Verif.SnapshotTimer.snapshot_numbers_consecutive
#print axioms Verif.SnapshotTimer.snapshot_step
#print axioms Verif.SnapshotTimer.snapshot_never_early
-- C06
#print axioms Verif.Overrides.override_read_back
#print axioms Verif.Overrides.override_frame
#print axioms Verif.Overrides.override_succeeds_iff
#print axioms Verif.Overrides.overrides_in_order
#print axioms Verif.Overrides.overrides_frame
#print axioms Verif.Overrides.overrides_read_back_partial
#print axioms Verif.Overrides.section_override_ignores_later
#print axioms Verif.Overrides.missing_section_drops_overrides
#print axioms Verif.Overrides.other_sections_irrelevant
#print axioms Verif.Overrides.missing_section_uses_overrides
#print axioms Verif.Overrides.section_override_applied
-- C07
#print axioms Verif.Collective.chunks_same_number
-- C08
#print axioms Verif.Collective.all_gather_varcount_concat
#print axioms Verif.Collective.displacement_is_prefix_sum
-- C09
#print axioms Verif.DataByRank.run_refines
#print axioms Verif.DataByRank.get_eq
#print axioms Verif.DataByRank.remove_returns
#print axioms Verif.DataByRank.iter_spec
#print axioms Verif.DataByRank.into_iter_eq
#print axioms Verif.DataByRank.fresh_spec
#print axioms Verif.DataByRank.fromIter_spec
-- C10
#print axioms Verif.Exchange.exchange_received_prefix
#print axioms Verif.Exchange.exchange_complete
#print axioms Verif.Exchange.exchange_progress
#print axioms Verif.Exchange.exchange_terminates
#print axioms Verif.Exchange.exchange_targets
#print axioms Verif.Exchange.unbuffered_exchange_deadlocks
-- C11
#print axioms Verif.Peano.key2d_round_trip
#print axioms Verif.Peano.key2d_injective
#print axioms Verif.Peano.key2d_surjective
-- C12
#print axioms Verif.Peano.key3d_in_range
#print axioms Verif.Peano.key3d_injective
#print axioms Verif.Peano.key3d_surjective
-- C13
#print axioms Verif.Peano.key2d_continuous
#print axioms Verif.Peano.key2d_range_connected
#print axioms Verif.Peano.key3d_continuous
#print axioms Verif.Peano.key3d_range_connected
#print axioms Verif.Peano.key3d_cube_is_block
-- C14
#print axioms Verif.Decomp.decomposition_assigns_existing_rank
#print axioms Verif.Decomp.repeated_keys_can_panic
#print axioms Verif.Decomp.empty_rank_panics
-- C15
#print axioms Verif.Decomp.all_ranks_same_decomposition
#print axioms Verif.Decomp.decomposition_independent_of_distribution
-- C16
#print axioms Verif.Decomp.load_balanced
#print axioms Verif.Decomp.load_balanced_coarse
#print axioms Verif.Decomp.clustered_keys_unbalanced
-- C17
#print axioms Verif.ExchangeData.exchange_moves_particles_to_owners
#print axioms Verif.ExchangeData.exchange_preserves_particles
#print axioms Verif.ExchangeData.exchange_panics_without_owner
#print axioms Verif.ExchangeData.particle_ids_unique
-- C18
#print axioms Verif.Geometry.bounding_extent_smallest
#print axioms Verif.Geometry.from_points_eq_from_positions
#print axioms Verif.Geometry.encompassing_extent
#print axioms Verif.Geometry.squared_distance_is_minimal
#print axioms Verif.Geometry.quadrants3_cover
#print axioms Verif.Geometry.quadrants2_cover
#print axioms Verif.Geometry.quadrants3_disjoint
#print axioms Verif.Geometry.quadrants2_disjoint
#print axioms Verif.Geometry.cube_around_sphere_smallest
-- C19
#print axioms Verif.Sources.sources_deposited_once
#print axioms Verif.Sources.source_owner_exists_iff
#print axioms Verif.Sources.ownerless_source_is_lost
#print axioms Verif.Sources.nearest_cell_is_local_only
-- C20
#print axioms Verif.Quadtree.octree_construction_correct
#print axioms Verif.Quadtree.quadtree_construction_correct
#print axioms Verif.Quadtree.leaf_exceeds_documented_maximum
-- C21
#print axioms Verif.Quadtree.iter_visits_everything
#print axioms Verif.Quadtree.radius_search_exact_3d
#print axioms Verif.Quadtree.radius_search_exact_2d
#print axioms Verif.Quadtree.radius_search_finds_images
-- C22
#print axioms Verif.Geometry.wrapped_is_in_box
#print axioms Verif.Geometry.wrapped_by_box_lengths
#print axioms Verif.Geometry.wrapped_is_unique
#print axioms Verif.Geometry.wrap_leaves_inside_unchanged
-- C23
#print axioms Verif.Geometry.periodic_distance_is_minimal
#print axioms Verif.Geometry.periodic_distance_symmetric
#print axioms Verif.Geometry.periodic_distance_is_minimal_of_images
#print axioms Verif.Geometry.periodic_distance_not_minimal_outside
-- C24
#print axioms Verif.Geometry.found_neighbour_has_image
#print axioms Verif.Geometry.found_image_is_unique
#print axioms Verif.Geometry.large_radius_finds_two_images
#print axioms Verif.Geometry.allWraps3_complete
#print axioms Verif.Geometry.allWraps2_complete
-- C25
#print axioms Verif.Timestep.sweep_levels_aligned
#print axioms Verif.Timestep.sweep_levels_time_balance
#print axioms Verif.Timestep.executed_sweeps_time_balance
#print axioms Verif.Timestep.sweep_coarsest_first_only
-- C26
#print axioms Verif.Timestep.level_respects_desired
#print axioms Verif.Timestep.desired_level_allowed
#print axioms Verif.Timestep.level_of_zero
-- C27
#print axioms Verif.Timestep.elapsed_multiple_of_coarsest
#print axioms Verif.Timestep.levels_unlocked
-- C28
#print axioms Verif.ActiveList.new_spec
#print axioms Verif.ActiveList.enumerate_active_exact
#print axioms Verif.ActiveList.stale_enumerate_panics
#print axioms Verif.ActiveList.update_bins_usable
#print axioms Verif.ActiveList.active_state_exact
-- C29
#print axioms Verif.Sweep.solved_at_most_once_after_upwind
#print axioms Verif.Sweep.finished_rank_solved_all
-- C30
#print axioms Verif.Sweep.never_stuck
#print axioms Verif.Sweep.progress_bounded
#print axioms Verif.Sweep.fair_sweep_terminates
#print axioms Verif.Sweep.finished_rank_is_clean
#print axioms Verif.Sweep.exists_fair_execution
-- C31
#print axioms Verif.Sweep.sweep_computes_solution
#print axioms Verif.Sweep.solution_unique
#print axioms Verif.Sweep.sweep_result_independent_of_schedule
#print axioms Verif.Sweep.periodic_result_depends_on_schedule
-- C32
#print axioms Verif.Sweep.expected_equals_crossings
#print axioms Verif.Sweep.expected_equals_outstanding
-- C33
#print axioms Verif.Sweep.fractions_partition
#print axioms Verif.Sweep.face_one_sided
#print axioms Verif.Sweep.solve_conserves_photons
-- C34
#print axioms Verif.Sweep.incremental_equals_full
#print axioms Verif.Sweep.remote_inactive_cells_go_stale
-- C35
#print axioms Verif.Sweep.nothing_lost_or_duplicated
#print axioms Verif.Sweep.pending_send_undisturbed
#print axioms Verif.Sweep.completed_send_makes_room
#print axioms Verif.Sweep.finished_rank_is_clean
#print axioms Verif.Sweep.drop_misses_pending_sends
#print axioms Verif.Sweep.drop_after_sweep_is_safe
-- C36
#print axioms Verif.Direction.random_axis_is_unit
#print axioms Verif.Direction.rotation_keeps_dot
#print axioms Verif.Direction.rotation_det_one
#print axioms Verif.Direction.rotated_directions_keep_dots
#print axioms Verif.Direction.remap_keeps_only_last_partial
#print axioms Verif.Direction.remap_loses_rates
-- C37
#print axioms Verif.Cartesian.construction_complete
#print axioms Verif.Cartesian.six_faces
#print axioms Verif.Cartesian.neighbour_entries
#print axioms Verif.Cartesian.faces_come_in_pairs
#print axioms Verif.Cartesian.ids_unique
#print axioms Verif.Cartesian.local_and_halo_cells
#print axioms Verif.Cartesian.volumes_fill_box_when_divisible
#print axioms Verif.Cartesian.volumes_do_not_fill_box
-- C38
#print axioms Verif.GridFile.connection_type_flags
#print axioms Verif.GridFile.lookup_finds_owner
#print axioms Verif.GridFile.grid_read_correct
#print axioms Verif.GridFile.connection_seen_from_both_sides
#print axioms Verif.GridFile.periodic_connection_panics
#print axioms Verif.GridFile.unknown_particle_panics
-- C39
#print axioms Verif.Remap.exchange_keeps_all_data
#print axioms Verif.Remap.remap_uses_nearest
#print axioms Verif.Remap.remapped_values_never_decrease
#print axioms Verif.Remap.rank_without_data_panics
#print axioms Verif.Remap.remap_data_rescaled
-- C40
#print axioms Verif.Chemistry.outgoing_rate_range
#print axioms Verif.Chemistry.outgoing_rate_decreases
#print axioms Verif.Chemistry.outgoing_rate_composes
-- C41
#print axioms Verif.Chemistry.substeps_cover_timestep
#print axioms Verif.Chemistry.perform_timestep_outcome
#print axioms Verif.Chemistry.failure_keeps_partial_progress
-- C42
#print axioms Verif.Chemistry.fraction_stays_in_range
#print axioms Verif.Chemistry.neutral_cell_never_evolves
-- C43
#print axioms Verif.Chemistry.timescale_min_is_minimum
#print axioms Verif.Chemistry.counts_partition_cells
#print axioms Verif.Chemistry.recommendation_at_least_substep
#print axioms Verif.Chemistry.rate_timescale
#print axioms Verif.Chemistry.zero_rate_gives_shortest_timescale
#print axioms Verif.Chemistry.update_cell_stores
-- C44
#print axioms Verif.Cosmology.search_result
#print axioms Verif.Cosmology.search_succeeds
#print axioms Verif.Cosmology.search_fails
#print axioms Verif.Cosmology.time_satisfies_friedmann
#print axioms Verif.Cosmology.time_difference_additive
#print axioms Verif.Cosmology.scalefactor_found
#print axioms Verif.Cosmology.time_spec_consistent
#print axioms Verif.Cosmology.panics_beyond_scale_factor_one
#print axioms Verif.Cosmology.panics_without_dark_energy
-- C45
#print axioms Verif.Units.temperature_energy_inverse
#print axioms Verif.Units.temperature_energy_density_inverse
-- C46
#print axioms Verif.Predicates.determinant3x3_is_det
#print axioms Verif.Predicates.determinant4x4_is_det
#print axioms Verif.Predicates.determinant5x5_is_det
-- C47
#print axioms Verif.Predicates.solve_system_sound
#print axioms Verif.Predicates.solve_system_total
#print axioms Verif.Predicates.solve_system_singular
#print axioms Verif.Predicates.solve_3x4_sound
-- C48
#print axioms Verif.Predicates.in_circle_correct
#print axioms Verif.Predicates.circumcentre2_equidistant
#print axioms Verif.Predicates.in_circle_agrees_with_centre
#print axioms Verif.Predicates.in_sphere_exact_correct
#print axioms Verif.Predicates.float_formula_is_minus_determinant
#print axioms Verif.Predicates.in_sphere_correct
#print axioms Verif.Predicates.circumcentre_exact_equidistant
#print axioms Verif.Predicates.circumcentre_exact_total
#print axioms Verif.Predicates.circumcentre_float_equidistant
#print axioms Verif.Predicates.circumcentre_correct
-- C49
#print axioms Verif.Predicates.bary2_exists
#print axioms Verif.Predicates.bary3_exists
#print axioms Verif.Predicates.triangle_contains_correct
#print axioms Verif.Predicates.tetra_contains_correct
#print axioms Verif.Predicates.tetra_contains_total
#print axioms Verif.Predicates.line_intersection_correct
-- C50
#print axioms Verif.Predicates.initial_triangle_contains
#print axioms Verif.Predicates.initial_tetra_contains
-- C51
#print axioms Verif.Delaunay.neighbours_mutual
#print axioms Verif.Delaunay.mesh2_consistent
#print axioms Verif.Delaunay.mesh2_no_panic
-- C52
#print axioms Verif.Delaunay.mesh3_consistent
#print axioms Verif.Delaunay.mesh3_counts
#print axioms Verif.Delaunay.mesh3_no_panic
-- C53
#print axioms Verif.Delaunay.insert2_consistent
#print axioms Verif.Delaunay.insert2_panics
#print axioms Verif.Delaunay.insert2_terminates
#print axioms Verif.Delaunay.insert3_consistent
#print axioms Verif.Delaunay.insert3_panics
#print axioms Verif.Delaunay.insert3_terminates
#print axioms Verif.Delaunay.geo2_proper
#print axioms Verif.Delaunay.geo3_proper
-- C54
#print axioms Verif.Delaunay.location_sound_complete
-- C55
#print axioms Verif.Halo.haloes_sent_once
-- C56
#print axioms Verif.Halo.search_radius_growth
#print axioms Verif.Halo.search_radius_reaches
#print axioms Verif.Halo.halo_iteration_panics
#print axioms Verif.Halo.haloes_needed
#print axioms Verif.Halo.circumspheres_searched
#print axioms Verif.Halo.circumspheres_search_ok
#print axioms Verif.Halo.done_stays
#print axioms Verif.Halo.halo_iteration_ends
#print axioms Verif.Halo.triangulation_ok
#print axioms Verif.Halo.triangulation_insert_none
#print axioms Verif.Halo.haloes_complete
-- C57
#print axioms Verif.Voronoi.windows_spec
#print axioms Verif.Voronoi.arrange_sound
#print axioms Verif.Voronoi.arrange_follows_cycle
#print axioms Verif.Voronoi.two_cycles_panic
-- C58
#print axioms Verif.Voronoi.neighbours_agree2
#print axioms Verif.Voronoi.connections2
#print axioms Verif.Voronoi.faces_exist2
#print axioms Verif.Voronoi.faces_are_sides2
#print axioms Verif.Voronoi.centres2_equidistant
#print axioms Verif.Voronoi.centres3_equidistant
#print axioms Verif.Voronoi.neighbours_agree3
#print axioms Verif.Voronoi.connections3
#print axioms Verif.Voronoi.faces_exist3
#print axioms Verif.Voronoi.face_in_bisector
#print axioms Verif.Voronoi.contains3_iff
#print axioms Verif.Voronoi.volume3_eq
#print axioms Verif.Voronoi.volume2_same_polygon
#print axioms Verif.Voronoi.volume2_is_area
#print axioms Verif.Voronoi.contains2_iff
#print axioms Verif.Voronoi.polygon_area_plane
#print axioms Verif.Voronoi.polygon_area_same_polygon
#print axioms Verif.Voronoi.polygon_area_depends_on_start
-- C59
#print axioms Verif.Encoding.wrap_round_trip
#print axioms Verif.Encoding.wrap_decode_panics
#print axioms Verif.Encoding.search_data_round_trip
#print axioms Verif.Encoding.search_result_round_trip
#print axioms Verif.Encoding.option_round_trip
#print axioms Verif.Encoding.entity_round_trip
#print axioms Verif.Encoding.identified_round_trip
#print axioms Verif.Encoding.node_index_round_trip
-- C60
#print axioms Verif.Bpass.lookup_is_bilinear
#print axioms Verif.Bpass.lookup_within_table
#print axioms Verif.Bpass.lookup_at_table_points
#print axioms Verif.Bpass.every_population_has_a_rate
#print axioms Verif.Bpass.nan_panics
-- C61
#print axioms Verif.Plugins.once_hooks_run_at_most_once
#print axioms Verif.Plugins.added_twice_panics
#print axioms Verif.Plugins.second_addition_flagged
#print axioms Verif.Plugins.rank_hooks_match_rank
#print axioms Verif.Plugins.once_part_comes_first
#print axioms Verif.Plugins.once_part_can_be_skipped
#print axioms Verif.Plugins.unused_sections_rejected
#print axioms Verif.Plugins.well_ordered_systems_run_in_order
-- C62
#print axioms Verif.Geometry.search_reaches_owning_ranks
#print axioms Verif.Geometry.empty_rank_shifts_extents
-- C63
#print axioms Verif.Chemistry.ionisations_equal_absorbed_photons
#print axioms Verif.Chemistry.ionisations_at_most_absorbed_photons
#print axioms Verif.Chemistry.photo_rates_consistent
-- C64
#print axioms Verif.Chemistry.rate_derivatives_correct
#print axioms Verif.Chemistry.cooling_rate_derivative_correct
-- C65
#print axioms Verif.Chemistry.jacobian_is_derivative
#print axioms Verif.Chemistry.fraction_change_direction
#print axioms Verif.Chemistry.temperature_change_direction
#print axioms Verif.Chemistry.temperature_change_implicit
#print axioms Verif.Chemistry.fraction_change_implicit
-- C66
#print axioms Verif.Units.written_dataset_reads_back
#print axioms Verif.Units.cosmological_dataset_rejected
#print axioms Verif.Units.arepo_dataset_physical
#print axioms Verif.Units.arepo_dataset_rejected
#print axioms Verif.Units.make_non_cosmological_laws
-- C67
#print axioms Verif.Delaunay.delaunay2
#print axioms Verif.Delaunay.delaunay2_iff
#print axioms Verif.Delaunay.construct2_delaunay_in_box_units
#print axioms Verif.Delaunay.construct2_delaunay
#print axioms Verif.Delaunay.long_box_not_delaunay
-- C68
#print axioms Verif.Delaunay.delaunay2_tiling
#print axioms Verif.Delaunay.delaunay2_connected
-- C69
#print axioms Verif.Delaunay.delaunay2_complete
#print axioms Verif.Delaunay.construct2_succeeds
#print axioms Verif.Delaunay.construct2_succeeds_square
-- C70
#print axioms Verif.Delaunay.delaunay2_order
#print axioms Verif.Delaunay.construct2_order
-- C71
#print axioms Verif.Voronoi.construct2_voronoi
#print axioms Verif.Voronoi.construct2_voronoi_in_box
#print axioms Verif.Voronoi.construct2_cells_cover
-- C72
#print axioms Verif.Voronoi.construct2_faces
-- C73
#print axioms Verif.Delaunay.delaunay3
#print axioms Verif.Delaunay.delaunay3_iff
#print axioms Verif.Delaunay.construct3_delaunay_in_box_units
#print axioms Verif.Delaunay.construct3_delaunay
#print axioms Verif.Delaunay.long_box_not_delaunay3
-- C74
#print axioms Verif.Delaunay.delaunay3_tiling
#print axioms Verif.Delaunay.delaunay3_connected
-- C75
#print axioms Verif.Delaunay.delaunay3_complete
#print axioms Verif.Delaunay.construct3_succeeds
#print axioms Verif.Delaunay.construct3_succeeds_cube
-- C76
#print axioms Verif.Delaunay.delaunay3_order
#print axioms Verif.Delaunay.construct3_order
-- C77
#print axioms Verif.Voronoi.construct3_voronoi
#print axioms Verif.Voronoi.construct3_voronoi_in_box
#print axioms Verif.Voronoi.construct3_nearest_cell
#print axioms Verif.Voronoi.corner_not_covered
-- C78
#print axioms Verif.Voronoi.construct3_faces
-- C79
#print axioms Verif.Voronoi.construct2_cell_area
-- C80
#print axioms Verif.Voronoi.construct3_cell_volume
-- C81
#print axioms Verif.Voronoi.construct3_faces_agree
#print axioms Verif.Voronoi.construct2_faces_agree
-- C82
#print axioms Verif.Voronoi.construct3_effective_area
#print axioms Verif.Voronoi.construct2_effective_area
-- C83
#print axioms Verif.Voronoi.construct3_cell_size
#print axioms Verif.Voronoi.construct2_cell_size
-- C84
#print axioms Verif.Parallel.grid_complete
#print axioms Verif.Parallel.rank_cell_contains
#print axioms Verif.Parallel.grid_neighbours
-- C85
#print axioms Verif.Parallel.grid_volume
#print axioms Verif.Parallel.grid_volume_in_box
#print axioms Verif.Parallel.grid_volumes_total
#print axioms Verif.Parallel.grid_cell_closed
-- C86
#print axioms Verif.Parallel.grid_faces_agree
-- C87
#print axioms Verif.Parallel.grid_halo_particles
#print axioms Verif.Parallel.grid_halo_neighbours
#print axioms Verif.Parallel.grid_halo_once
-- C88
#print axioms Verif.Parallel.construct_ends
-- C89
#print axioms Verif.Sim.levels_agree
#print axioms Verif.Sim.ids_count_particles
-- C90
#print axioms Verif.Sim.cells_are_particles
#print axioms Verif.Sim.sweep_ends
#print axioms Verif.Sim.sweep_never_panics
#print axioms Verif.Sim.sweep_solves_all
#print axioms Verif.Sim.sweep_result_unique
#print axioms Verif.Sim.sweep_conserves
-- C91
#print axioms Verif.Sweep.check_sound
#print axioms Verif.Sweep.check_passes
#print axioms Verif.Sweep.check_hangs
#print axioms Verif.Sim.check_on_grid
-- C92
#print axioms Verif.Sweep.overlapped_is_waiting
#print axioms Verif.Sweep.overlapped_never_panics
#print axioms Verif.Sweep.overlapped_leaves_nothing
#print axioms Verif.Sweep.overlapped_terminates
#print axioms Verif.Sweep.overlapped_result_unique
-- C93
#print axioms Verif.Sim.simulation_starts
#print axioms Verif.Sim.simulation_goes_on
#print axioms Verif.Sim.simulation_time
#print axioms Verif.Sim.simulation_levels
#print axioms Verif.Sim.simulation_level_choice
#print axioms Verif.Sim.simulation_unique
-- C94
#print axioms Verif.Sim.loop_goes_on
#print axioms Verif.Sim.loop_states
#print axioms Verif.Sim.loop_ends
#print axioms Verif.Sim.loop_has_end
#print axioms Verif.Sim.loop_final
#print axioms Verif.Sim.loop_snapshots
-- C95
#print axioms Verif.Sim.ionization_time
-- C96
#print axioms Verif.Sim.series_distribution
#print axioms Verif.Sim.series_means
#print axioms Verif.Sim.series_bounds
#print axioms Verif.Sim.series_volume
#print axioms Verif.Sim.series_rate_missing
#print axioms Verif.Sim.series_counts
#print axioms Verif.Sim.series_counts_at_start
-- C97
#print axioms Verif.Parallel.distribution_volume
#print axioms Verif.Parallel.distribution_faces
-- C98
#print axioms Verif.Sim.simulation_distribution
#print axioms Verif.Sim.simulation_distribution_single
#print axioms Verif.Sweep.inactive_cells_depend_on_ranks
-- C99
#print axioms Verif.Rounding.tetra_contains_exact
#print axioms Verif.Rounding.remap_coord
#print axioms Verif.Rounding.remap_mono
#print axioms Verif.Rounding.remapped_contains_correct
#print axioms Verif.Rounding.fl_rounds
#print axioms Verif.Rounding.fl_unique
-- C100
#print axioms Verif.Rounding.inSphere_float_sign
#print axioms Verif.Rounding.inSphere_float_correct
#print axioms Verif.Rounding.in_sphere_right_partial
#print axioms Verif.Rounding.in_sphere_wrong
-- C101
#print axioms Verif.Rounding.determinant_sign_right_partial
#print axioms Verif.Rounding.determinant_sign_wrong
#print axioms Verif.Rounding.in_circle_right_partial
#print axioms Verif.Rounding.in_circle_wrong
#print axioms Verif.Rounding.triangle_contains_inconclusive_partial
#print axioms Verif.Rounding.triangle_contains_wrong
#print axioms Verif.Rounding.triangle_contains_misses
#print axioms Verif.Rounding.line_intersection_inconclusive_partial
#print axioms Verif.Rounding.line_intersection_wrong
#print axioms Verif.Rounding.line_intersection_misses
-- C102
#print axioms Verif.Startup.startup_keeps_rows
#print axioms Verif.Startup.startup_distributes
#print axioms Verif.Startup.startup_balanced
#print axioms Verif.Startup.startup_panics_with_few_rows
#print axioms Verif.Startup.startup_panics_outside
#print axioms Verif.Startup.startup_panics_with_unequal_datasets
#print axioms Verif.Startup.rows_of_files_mixed
-- C103
#print axioms Verif.Startup.program_output
-- C104
#print axioms Verif.Startup.stars_read
#print axioms Verif.Startup.explicit_sources
#print axioms Verif.Startup.luminosity_kept
#print axioms Verif.Startup.sources_distribution
#print axioms Verif.Startup.settled_at_particle
#print axioms Verif.Startup.program_output_sources
#print axioms Verif.Startup.source_cell_depends_on_ranks
-- C105
#print axioms Verif.Initial.initial_state
#print axioms Verif.Initial.initial_site
#print axioms Verif.Initial.initial_range
#print axioms Verif.Initial.initial_energy
#print axioms Verif.Initial.initial_mass_total
-- C106
#print axioms Verif.Sim.time_series_file
#print axioms Verif.Sim.time_series_values
#print axioms Verif.Sim.events_seen
#print axioms Verif.Sim.startup_value_once
#print axioms Verif.Sim.time_series_of_run
-- C107
#print axioms Verif.Chemistry.output_photons
#print axioms Verif.Chemistry.output_solver
#print axioms Verif.Chemistry.output_photoionization
#print axioms Verif.Chemistry.output_fraction_rates
#print axioms Verif.Chemistry.output_heating
#print axioms Verif.Chemistry.output_rates_nonneg
-- C108
#print axioms Verif.Tags.tags_separate
#print axioms Verif.Tags.tags_mixed_up
#print axioms Verif.Tags.tag_range
#print axioms Verif.Tags.tag_collision
#print axioms Verif.Tags.custom_tags
#print axioms Verif.Tags.tags_coincide
-- C109
#print axioms Verif.Direction.num_directions
#print axioms Verif.Direction.directions_isotropic
#print axioms Verif.Direction.one_direction_not_isotropic
#print axioms Verif.Direction.explicit_directions
#print axioms Verif.Direction.directions_2d
-- C110
#print axioms Verif.Rounding.integer_pos_range
#print axioms Verif.Rounding.integer_pos_mono
#print axioms Verif.Rounding.integer_pos_resolution
#print axioms Verif.Rounding.key3_resolution
#print axioms Verif.Rounding.key2_resolution
#print axioms Verif.Rounding.far_box
-- C111
#print axioms Verif.Rounding.clock_start_exact
#print axioms Verif.Rounding.clock_accurate
#print axioms Verif.Rounding.clock_grows
#print axioms Verif.Rounding.clock_reaches
#print axioms Verif.Rounding.clock_count
#print axioms Verif.Rounding.clock_bounded
-- C112
#print axioms Verif.OutputStages.frame_writes_snapshot
#print axioms Verif.OutputStages.run_writes_snapshots
#print axioms Verif.OutputStages.unknown_names
#print axioms Verif.OutputStages.no_fields_can_panic
-- C113
#print axioms Verif.StageTimers.stage_times
#print axioms Verif.StageTimers.too_many_stages
-- C114
#print axioms Verif.OutputDirs.file_names_ordered
#print axioms Verif.OutputDirs.snapshot_names_distinct
#print axioms Verif.OutputDirs.snapshot_names_ordered
#print axioms Verif.OutputDirs.snapshot_names_not_ordered
#print axioms Verif.OutputDirs.log_names_distinct
#print axioms Verif.OutputDirs.fresh_run
#print axioms Verif.OutputDirs.overwriting_run
#print axioms Verif.OutputDirs.existing_output
#print axioms Verif.OutputDirs.listing_complete
#print axioms Verif.OutputDirs.same_listing
#print axioms Verif.OutputDirs.different_listings
#print axioms Verif.OutputDirs.overwriting_mixes
-- C115
#print axioms Verif.Overrides.override_parsed
#print axioms Verif.Overrides.override_only
#print axioms Verif.Overrides.colons_rejected
#print axioms Verif.Overrides.parameters_of_sections
#print axioms Verif.Overrides.used_parameters_reproduce
#print axioms Verif.Overrides.unknown_overrides_ignored
#print axioms Verif.Overrides.unused_sections
#print axioms Verif.Overrides.invalid_file_ignored
#print axioms Verif.Overrides.empty_file_panics
#print axioms Verif.Overrides.overrides_again_can_panic
-- C116
#print axioms Verif.Sweep.finishes_iff_acyclic
#print axioms Verif.Sweep.cycle_never_solved
#print axioms Verif.Rounding.sides_agree
#print axioms Verif.Rounding.large_product_order
#print axioms Verif.Rounding.clear_face_decided
#print axioms Verif.Rounding.cycle_has_small_product
#print axioms Verif.Rounding.table_directions_fit
#print axioms Verif.Rounding.no_small_products_finish
#print axioms Verif.Rounding.rounding_cycle
#print axioms Verif.Rounding.rounding_deadlock
-- C117
#print axioms Verif.Rounding.periodic_image
#print axioms Verif.Rounding.periodic_sides_agree
#print axioms Verif.Rounding.both_downwind
#print axioms Verif.Rounding.both_upwind
#print axioms Verif.Rounding.periodic_rounding_hangs
-- C118
#print axioms Verif.Rounding.radius_search_rounded
#print axioms Verif.Rounding.sqrt_total
#print axioms Verif.Rounding.periodic_distance_error
#print axioms Verif.Rounding.radius_search_accuracy
#print axioms Verif.Rounding.periodic_distance_symmetric
#print axioms Verif.Rounding.boundary_particle_missed
-- C119
#print axioms Verif.Rounding.rate_drift
#print axioms Verif.Rounding.schedules_close
#print axioms Verif.Rounding.parts_conserve
#print axioms Verif.Rounding.ghost_rate
#print axioms Verif.Rounding.negative_periodic_rate
#print axioms Verif.Rounding.order_of_corrections_matters
-- C120
#print axioms Verif.StageTimers.performance_panics
#print axioms Verif.StageTimers.performance_file
#print axioms Verif.StageTimers.performance_total
#print axioms Verif.StageTimers.timer_guard
-- C121
#print axioms Verif.Turns.barrierdbg_turns
#print axioms Verif.Turns.steps_end
#print axioms Verif.Turns.communicating_expression_blocks
-- C122
#print axioms Verif.Rounding.solver_backward_stable
#print axioms Verif.Rounding.solver_division_by_zero
#print axioms Verif.Rounding.triangle_contains_nearby
#print axioms Verif.Rounding.triangle_contains_right
#print axioms Verif.Rounding.line_intersection_nearby
#print axioms Verif.Rounding.line_intersection_right
-- C123
#print axioms Verif.Predicates.closest_point_nearest
#print axioms Verif.Predicates.closest_point_degenerate
#print axioms Verif.Predicates.tetra_distance
#print axioms Verif.Predicates.triangle_distance
#print axioms Verif.Predicates.triangle_distance_too_small
#print axioms Verif.Predicates.triangle_distance_clockwise
#print axioms Verif.Delaunay.guided_location
#print axioms Verif.Delaunay.guided_location_next
#print axioms Verif.Delaunay.guided_insertions
#print axioms Verif.Delaunay.guided_plane
#print axioms Verif.Delaunay.guided_space
#print axioms Verif.Delaunay.guided_plane_complete
#print axioms Verif.Delaunay.guided_space_complete
#print axioms Verif.Delaunay.dist3_panics
-- C124
#print axioms Verif.Remap.snapshot_dir
#print axioms Verif.Remap.snapshot_dir_panics
#print axioms Verif.Remap.snapshot_names
#print axioms Verif.Remap.snapshot_number
#print axioms Verif.Remap.reads_previous_run
#print axioms Verif.Remap.remaps_previous_run
#print axioms Verif.Remap.stale_snapshots
#print axioms Verif.Remap.logs_in_the_way
#print axioms Verif.Remap.order_of_files_matters
-- C125
#print axioms Verif.Rounding.snapshotF_step
#print axioms Verif.Rounding.snapshotF_numbers
#print axioms Verif.Rounding.due_accurate
#print axioms Verif.Rounding.snapshot_frame
#print axioms Verif.Rounding.snapshot_on_time
#print axioms Verif.Rounding.snapshot_written
#print axioms Verif.Rounding.run_ends
#print axioms Verif.Rounding.late_snapshot
-- C126
#print axioms Verif.Rounding.level_f64
#print axioms Verif.Rounding.level_exact
#print axioms Verif.Rounding.level_mono
#print axioms Verif.Rounding.desired_level_f64
#print axioms Verif.Rounding.level_degenerate
#print axioms Verif.Rounding.desired_exceeded
-- C127
#print axioms Verif.Rounding.fmod_exact
#print axioms Verif.Rounding.wrapF_in_box
#print axioms Verif.Rounding.wrapF_inside
#print axioms Verif.Rounding.wrapF_accurate
#print axioms Verif.Rounding.wrapF_twice
#print axioms Verif.Rounding.wrapF_reaches_upper
#print axioms Verif.Rounding.wrapF_moves_inside
-- C128
#print axioms Verif.Rounding.Chem.substeps_f64
#print axioms Verif.Rounding.Chem.chemistry_sound
#print axioms Verif.Rounding.Chem.limits_f64
#print axioms Verif.Rounding.Chem.neutral_fraction_pos
#print axioms Verif.Rounding.Chem.substep_temperature
#print axioms Verif.Rounding.Chem.update_abundances_f64
#print axioms Verif.Rounding.Chem.cold_cell
-- C129
#print axioms Verif.Parallel.Plane.grid_complete
#print axioms Verif.Parallel.Plane.rank_cell_contains
#print axioms Verif.Parallel.Plane.grid_neighbours
-- C130
#print axioms Verif.Parallel.Plane.grid_volume
#print axioms Verif.Parallel.Plane.grid_volume_in_box
#print axioms Verif.Parallel.Plane.grid_volumes_total
#print axioms Verif.Parallel.Plane.grid_cell_closed
-- C131
#print axioms Verif.Parallel.Plane.grid_faces_agree
-- C132
#print axioms Verif.Parallel.Plane.grid_halo_particles
#print axioms Verif.Parallel.Plane.grid_halo_neighbours
#print axioms Verif.Parallel.Plane.grid_halo_once
-- C133
#print axioms Verif.Parallel.Plane.construct_ends
-- C134
#print axioms Verif.Parallel.Plane.distribution_volume
#print axioms Verif.Parallel.Plane.distribution_faces
-- C135
#print axioms Verif.Rounding.searchF_result
#print axioms Verif.Rounding.searchF_same
#print axioms Verif.Rounding.searchF_succeeds
#print axioms Verif.Rounding.scale_factor_f64
#print axioms Verif.Rounding.searchF_stuck
-- C136
#print axioms Verif.Rounding.outgoing_range_f64
#print axioms Verif.Rounding.outgoing_mono_f64
#print axioms Verif.Rounding.outgoing_accurate_f64
#print axioms Verif.Rounding.ionised_absorbed_f64
#print axioms Verif.Rounding.thin_cell
-- C137
#print axioms Verif.Rounding.lookup_f64
#print axioms Verif.Rounding.lookup_points_f64
#print axioms Verif.Rounding.every_rate_f64
#print axioms Verif.Rounding.nan_age_f64
#print axioms Verif.Rounding.steep_table
-- C138
#print axioms Verif.Rounding.series_f64
#print axioms Verif.Rounding.series_rates_f64
#print axioms Verif.Rounding.fractions_f64
#print axioms Verif.Rounding.temperatures_f64
#print axioms Verif.Rounding.distribution_f64
#print axioms Verif.Rounding.series_depends_f64
-- C139
#print axioms Verif.Sim.snapshot_epoch
#print axioms Verif.Sim.snapshot_epoch_late
#print axioms Verif.Sim.snapshot_epoch_fixed
#print axioms Verif.Sim.cosmological_run_goes_on
#print axioms Verif.Sim.cosmological_run_past_one
#print axioms Verif.Sim.continued_positions
-- C140
#print axioms Verif.Rounding.circumcentre_found_f64
#print axioms Verif.Rounding.circumcentre_equidistant_f64
#print axioms Verif.Rounding.circumcentre_accurate_f64
#print axioms Verif.Rounding.search_covers_sphere_f64
#print axioms Verif.Rounding.halo_search_finds_f64
#print axioms Verif.Rounding.flat_sphere_not_searched
-- C141
#print axioms Verif.Rounding.face_area_accurate_f64
#print axioms Verif.Rounding.face_areas_agree_f64
#print axioms Verif.Rounding.face_normal_accurate_f64
#print axioms Verif.Rounding.cell_volume_accurate_f64
#print axioms Verif.Rounding.construct3_cell_volume_f64
#print axioms Verif.Rounding.faces_agree_exactly_f64
#print axioms Verif.Rounding.area_depends_on_start_f64
-- C142
#print axioms Verif.Rounding.rescaled_near_f64
#print axioms Verif.Rounding.initial_tetra_contains_f64
#print axioms Verif.Rounding.construct_completes_f64
#print axioms Verif.Rounding.nearly_delaunay_f64
#print axioms Verif.Rounding.rescaled_ne_f64
#print axioms Verif.Rounding.rescaled_distinct_f64
#print axioms Verif.Rounding.close_points_panic_f64
-- C143
#print axioms Verif.Rounding.snapshot_values_unchanged_f64
#print axioms Verif.Rounding.converted_values_accurate_f64
#print axioms Verif.Rounding.si_factor_one_f64
#print axioms Verif.Rounding.base_factor_accurate_f64
#print axioms Verif.Rounding.initial_temperature_accurate_f64
#print axioms Verif.Rounding.initial_temperature_mono_f64
#print axioms Verif.Rounding.temperature_round_trip_f64
#print axioms Verif.Rounding.energy_density_round_trip_f64
#print axioms Verif.Rounding.temperature_round_trip_inexact_f64
-- C144
#print axioms Verif.Rounding.arepo_values_accurate_f64
#print axioms Verif.Rounding.arepo_rejected_iff_f64
#print axioms Verif.Rounding.arepo_dimensionless_unchanged_f64
-- C145
#print axioms Verif.Rounding.Nearest.remap_uses_nearest_f64
#print axioms Verif.Rounding.Nearest.remapped_from_nearly_nearest_f64
#print axioms Verif.Rounding.Nearest.remap_misses_nearest_f64
#print axioms Verif.Rounding.Nearest.remap_positions_unchanged_f64
#print axioms Verif.Rounding.Nearest.remap_positions_accurate_f64
-- C146
#print axioms Verif.Rounding.Rotate.rotation_matrix_accurate_f64
#print axioms Verif.Rounding.Rotate.rotated_directions_accurate_f64
#print axioms Verif.Rounding.Rotate.rotated_directions_dots_f64
#print axioms Verif.Rounding.Rotate.directions_stay_isotropic_f64
-- C147
#print axioms Verif.Rounding.Mesh.num_cells_f64
#print axioms Verif.Rounding.Mesh.grid_complete_f64
#print axioms Verif.Rounding.Mesh.positions_accurate_f64
#print axioms Verif.Rounding.Mesh.neighbour_entries_f64
#print axioms Verif.Rounding.Mesh.areas_accurate_f64
#print axioms Verif.Rounding.Mesh.faces_come_in_pairs_f64
#print axioms Verif.Rounding.Mesh.ids_unique_f64
#print axioms Verif.Rounding.Mesh.local_and_halo_cells_f64
#print axioms Verif.Rounding.Mesh.ranks_are_slabs_f64
#print axioms Verif.Rounding.Mesh.cells_lost_f64
-- C148
#print axioms Verif.Rounding.Haloes.searches_reach_ranks_f64
#print axioms Verif.Rounding.Haloes.found_neighbour_has_image_f64
#print axioms Verif.Rounding.Haloes.inner_neighbour_has_image_f64
#print axioms Verif.Rounding.Haloes.found_image_is_unique_f64
#print axioms Verif.Rounding.Haloes.answered_image_is_the_only_one_f64
#print axioms Verif.Rounding.Haloes.searches_answered_f64
#print axioms Verif.Rounding.Haloes.halo_search_panics_f64
-- C149
#print axioms Verif.Rounding.Deposit.sources_deposited_f64
#print axioms Verif.Rounding.Deposit.terms_accurate_f64
#print axioms Verif.Rounding.Deposit.nearly_nearest_cell_f64
#print axioms Verif.Rounding.Deposit.luminosity_on_grid_f64
#print axioms Verif.Rounding.Deposit.term_independent_of_ranks_f64
#print axioms Verif.Rounding.Deposit.order_of_sources_matters_f64
#print axioms Verif.Rounding.Deposit.announced_luminosity_differs_f64
-- C150
#print axioms Verif.Rounding.Start.initial_fraction_f64
#print axioms Verif.Rounding.Start.start_temperature_f64
#print axioms Verif.Rounding.Start.remapped_state_f64
#print axioms Verif.Rounding.Start.start_state_valid_f64
#print axioms Verif.Rounding.Start.start_mass_f64
#print axioms Verif.Rounding.Start.parameter_not_limited_f64
-- C151
#print axioms Verif.Rounding.Implicit.rates_nonneg_f64
#print axioms Verif.Rounding.Implicit.temperature_change_f64
#print axioms Verif.Rounding.Implicit.fraction_change_f64
#print axioms Verif.Rounding.Implicit.cold_gas_stable_f64
#print axioms Verif.Rounding.Implicit.recombination_no_overshoot_f64
#print axioms Verif.Rounding.Implicit.long_step_moves_backwards_f64
