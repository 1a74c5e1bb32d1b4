import Verif.IO.FileDistributionProps
import Verif.IO.SerialOutputProps
import Verif.IO.TimerProps
import Verif.Params.OverridesProps
import Verif.Comm.CollectiveProps
import Verif.Comm.DataByRankProps
import Verif.Comm.ExchangeProps
import Verif.Timestep.Props
import Verif.Timestep.ActiveListProps
import Verif.Peano.Props2d
import Verif.Peano.Props3d
import Verif.Domain.DecompositionProps
import Verif.Domain.ExchangeDataProps
import Verif.Domain.SourcesProps
import Verif.Sweep.Examples
import Verif.Sweep.CommunicatorProps
import Verif.Geometry.ExtentProps
import Verif.Geometry.BoxProps
import Verif.Quadtree.Props
import Verif.Predicates.DetProps
import Verif.Predicates.SolverProps
import Verif.Predicates.CircleProps
import Verif.Predicates.SimplexProps
import Verif.Direction.Props
import Verif.Cartesian.Props
import Verif.GridFile.Props
import Verif.Remap.Props
import Verif.Voronoi.PlaneCellProps
import Verif.Voronoi.SpaceCellProps
import Verif.Delaunay.PlaneProps
import Verif.Delaunay.Construct3Props
import Verif.Delaunay.ConstructProps
import Verif.Voronoi.UtilsProps
import Verif.Voronoi.PolygonProps
import Verif.Voronoi.CellProps
import Verif.Voronoi.CellProps3
import Verif.Comm.EncodingProps
import Verif.Halo.CacheProps
import Verif.Halo.IterProps
import Verif.Halo.TriangulationProps
import Verif.Delaunay.MeshProps
import Verif.Delaunay.InsertProps
import Verif.Delaunay.LocationProps
import Verif.Cosmology.Props
import Verif.Units.Props
import Verif.Bpass.Props
import Verif.Plugins.Props
import Verif.Chemistry.StepProps
import Verif.Chemistry.RateProps
import Verif.Chemistry.DerivProps
import Verif.Voronoi.SimplexMeasure
import Verif.Voronoi.PolygonMeasure
import Verif.Voronoi.PolyhedronMeasure
import Verif.Voronoi.SpaceCellGeo
import Verif.Voronoi.SpaceCellVolume
import Verif.Voronoi.PlaneCellClosed
import Verif.Voronoi.CellSize
import Verif.Voronoi.CellMeasureProps
import Verif.Halo.Trace
import Verif.Parallel.SpaceCore
import Verif.Parallel.Model
import Verif.Parallel.EnvLemmas
import Verif.Parallel.Start3
import Verif.Voronoi.EdgeSame
import Verif.Voronoi.Touch
import Verif.Parallel.Model3
import Verif.Parallel.RunLemmas
import Verif.Parallel.Spec
import Verif.Parallel.Spec3
import Verif.Parallel.RegionLemmas
import Verif.Parallel.SpaceRun
import Verif.Parallel.SpaceRegion
import Verif.Parallel.SpaceTies
import Verif.Parallel.SpaceNames
import Verif.Parallel.SpaceGrid
import Verif.Parallel.SpaceCross
import Verif.Parallel.Tiling
import Verif.Parallel.SpaceCells
import Verif.Parallel.Props
import Verif.Halo.TotalLemmas
import Verif.Parallel.TotalSpec
import Verif.Parallel.SearchLemmas
import Verif.Parallel.TotalLemmas
import Verif.Parallel.TotalStep
import Verif.Parallel.TotalProps
import Verif.Parallel.Generic
import Verif.Parallel.Lattice
import Verif.Parallel.Examples
import Verif.Sweep.FairExists
import Verif.Sweep.DeadlockModel
import Verif.Sweep.DeadlockProps
import Verif.Sweep.DeadlockExamples
import Verif.Sim.Model
import Verif.Sim.Spec
import Verif.Sim.LevelLemmas
import Verif.Sim.Levels
import Verif.Sim.GridLemmas
import Verif.Sim.WellFormed
import Verif.Sim.Props
import Verif.Sim.Examples
import Verif.Sweep.Merge
import Verif.Sweep.OverlapModel
import Verif.Sweep.OverlapSpec
import Verif.Sweep.OverlapStep
import Verif.Sweep.OverlapLemmas
import Verif.Sweep.OverlapRun
import Verif.Sweep.OverlapProps
import Verif.Sweep.OverlapExamples
import Verif.Sim.WholeModel
import Verif.Sim.WholeLemmas
import Verif.Sim.WholeProps
import Verif.Sim.WholeExamples
import Verif.Sim.LoopModel
import Verif.Sim.LoopProps
import Verif.Sim.LoopExamples
import Verif.Sim.SeriesModel
import Verif.Sim.SeriesProps
import Verif.Sim.SeriesExamples
import Verif.Parallel.SameSpec
import Verif.Parallel.SameGrid
import Verif.Parallel.DistributionProps
import Verif.Sweep.SameSweeps
import Verif.Sweep.RanksMatter
import Verif.Sim.RanksSpec
import Verif.Sim.RanksLemmas
import Verif.Sim.RanksProps
import Verif.Sim.DealtLattice
import Verif.Sim.RanksExamples
import Verif.Rounding.Binary64
import Verif.Rounding.RoundLemmas
import Verif.Rounding.Model
import Verif.Rounding.ContainsProps
import Verif.Rounding.RemapProps
import Verif.Rounding.ErrorLemmas
import Verif.Rounding.InSphereProps
import Verif.Rounding.InCircleProps
import Verif.Peano.BlockProps
import Verif.Domain.BalanceProps
import Verif.Startup.Model
import Verif.Startup.Spec
import Verif.Startup.Lemmas
import Verif.Startup.Props
import Verif.Startup.BalanceProps
import Verif.Startup.RunModel
import Verif.Startup.RunSpec
import Verif.Startup.RunLemmas
import Verif.Startup.RunProps
import Verif.Startup.Lattice
import Verif.Startup.LatticeKeys
import Verif.Startup.Examples
import Verif.Startup.SourcesModel
import Verif.Startup.SourcesSpec
import Verif.Startup.SourcesProps
import Verif.Startup.SourcesExamples
import Verif.Rounding.BinaryProps
import Verif.Initial.Model
import Verif.Initial.Props
import Verif.Sim.EventsModel
import Verif.Sim.EventsProps
import Verif.Chemistry.OutputModel
import Verif.Chemistry.OutputProps
import Verif.Comm.TagModel
import Verif.Comm.TagProps
import Verif.Direction.TableModel
import Verif.Direction.TableProps
import Verif.Rounding.KeyModel
import Verif.Rounding.KeyProps
import Verif.Rounding.ClockModel
import Verif.Rounding.ClockProps
import Verif.IO.OutputStagesModel
import Verif.IO.OutputStagesOrder
import Verif.IO.OutputStagesLemmas
import Verif.IO.OutputStagesProps
import Verif.Stages.TimerModel
import Verif.Stages.TimerProps
import Verif.IO.OutputDirsModel
import Verif.IO.OutputDirsNames
import Verif.IO.OutputDirsSpec
import Verif.IO.OutputDirsLemmas
import Verif.IO.OutputDirsRun
import Verif.IO.OutputDirsProps
import Verif.Params.CommandLineModel
import Verif.Params.CommandLineProps
import Verif.Sweep.CycleProps
import Verif.Rounding.FaceModel
import Verif.Rounding.FaceProps
import Verif.Rounding.FaceSweepProps
import Verif.Rounding.FacePeriodicProps
import Verif.Rounding.SqrtProps
import Verif.Rounding.SearchModel
import Verif.Rounding.SearchLemmas
import Verif.Rounding.SearchProps
import Verif.Rounding.SearchAccuracyProps
import Verif.Rounding.FlowModel
import Verif.Rounding.FlowProps
import Verif.Rounding.FlowShareProps
import Verif.Stages.PerformanceModel
import Verif.Stages.PerformanceProps
import Verif.Turns.Model
import Verif.Turns.Props
import Verif.Rounding.SolverError
import Verif.Rounding.SolverBack
import Verif.Rounding.SolverProps
import Verif.Rounding.SolverLineProps
import Verif.Predicates.DistanceModel
import Verif.Predicates.DistanceProps
import Verif.Delaunay.Heuristic
import Verif.Delaunay.HeuristicSpec
import Verif.Delaunay.HeuristicLemmas
import Verif.Delaunay.HeuristicProps
import Verif.IO.OutputDirsFiles
import Verif.Remap.SnapshotModel
import Verif.Remap.SnapshotSpec
import Verif.Remap.SnapshotLemmas
import Verif.Remap.SnapshotProps
import Verif.Rounding.TimerModel
import Verif.Rounding.TimerSpec
import Verif.Rounding.TimerLemmas
import Verif.Rounding.TimerProps
import Verif.Rounding.LevelModel
import Verif.Rounding.LevelProps
import Verif.Rounding.WrapModel
import Verif.Rounding.WrapProps
import Verif.Rounding.ChemModel
import Verif.Rounding.ChemSpec
import Verif.Rounding.ChemLemmas
import Verif.Rounding.ChemProps
import Verif.Parallel.Start2
import Verif.Parallel.Model2
import Verif.Parallel.Spec2
import Verif.Parallel.PlaneCore
import Verif.Parallel.PlaneRun
import Verif.Parallel.PlaneRegion
import Verif.Parallel.PlaneTies
import Verif.Parallel.PlaneNames
import Verif.Parallel.PlaneGrid
import Verif.Parallel.PlaneFace
import Verif.Parallel.PlaneCross
import Verif.Parallel.PlaneCells
import Verif.Parallel.PlaneProps
import Verif.Parallel.PlaneTotalSpec
import Verif.Parallel.PlaneTotalLemmas
import Verif.Parallel.PlaneTotalStep
import Verif.Parallel.PlaneTotalProps
import Verif.Parallel.PlaneGeneric
import Verif.Parallel.PlaneLattice
import Verif.Parallel.PlaneExamples
import Verif.Parallel.PlaneSameSpec
import Verif.Parallel.PlaneSame
import Verif.Parallel.PlaneDistributionProps
import Verif.Parallel.PlaneDistributionExamples
import Verif.Rounding.ScaleModel
import Verif.Rounding.ScaleProps
import Verif.Rounding.AbsorbModel
import Verif.Rounding.AbsorbProps
import Verif.Rounding.AbsorbExamples
import Verif.Rounding.StellarModel
import Verif.Rounding.StellarProps
import Verif.Rounding.SeriesModel
import Verif.Rounding.SeriesProps
import Verif.Sim.EpochModel
import Verif.Sim.EpochProps
import Verif.Rounding.CentreModel
import Verif.Rounding.CentreLemmas
import Verif.Rounding.CentreProps
import Verif.Rounding.CentreSearchProps
import Verif.Rounding.CentreExamples
import Verif.Rounding.AreaModel
import Verif.Rounding.AreaLemmas
import Verif.Rounding.AreaProps
import Verif.Rounding.VolumeProps
import Verif.Rounding.CellVolumeProps
import Verif.Rounding.CellConstructProps
import Verif.Rounding.AreaExamples
import Verif.Rounding.RescaleModel
import Verif.Rounding.RescaleLemmas
import Verif.Rounding.RescaleProps
import Verif.Rounding.RescaleConstructProps
import Verif.Rounding.RescaleExamples
import Verif.Rounding.UnitModel
import Verif.Rounding.UnitProps
import Verif.Rounding.ArepoModel
import Verif.Rounding.ArepoProps
import Verif.Rounding.NearestModel
import Verif.Rounding.NearestLemmas
import Verif.Rounding.NearestProps
import Verif.Rounding.RotateModel
import Verif.Rounding.RotateLemmas
import Verif.Rounding.RotateProps
import Verif.Rounding.GridModel
import Verif.Rounding.GridEntryLemmas
import Verif.Rounding.GridLemmas
import Verif.Rounding.GridProps
import Verif.Rounding.HaloSearchModel
import Verif.Rounding.HaloSearchLemmas
import Verif.Rounding.HaloSearchProps
import Verif.Rounding.DepositModel
import Verif.Rounding.DepositProps
import Verif.Rounding.StartModel
import Verif.Rounding.StartProps
import Verif.Rounding.ImplicitModel
import Verif.Rounding.ImplicitProps
import Verif.Audit
