import Verif.IO.FileDistributionModel
import Verif.IO.TimerModel

/-!
# The output stages: model of `/repo/src/io/output/plugin.rs` and the systems it adds

Which systems are added for which parameters, the `before`/`after` constraints between them, the run criteria, and
what every system does to the files.  The scheduler may run the systems of a stage in any order which respects the
constraints.  This is the variant without the feature `parallel-hdf5`, where the files are created by the main rank.
-/

namespace Verif.OutputStages
open Verif.FileDist

/-- What `OutputPlugin<T>` is instantiated with: `Attribute<T>` (io/output/attribute.rs lines 30-48) or a component
with `ToDataset::is_static` (io/to_dataset.rs lines 16-46). -/
inductive Kind
  | attr
  | dataset (isStatic : Bool)
deriving DecidableEq, Repr

/-- One `OutputPlugin<T>`: `T::name()` and the name in its `OutputDatasetDescriptor` (plugin.rs lines 40-59). -/
structure Plugin where
  name : String
  datasetName : String
  kind : Kind
deriving DecidableEq, Repr

/-- `enum Fields`, io/output/parameters.rs lines 26-31. -/
inductive Fields
  | all
  | some (names : List String)

/-- `IntoOutputSystem::is_always_desired`: attribute.rs lines 45-47, to_dataset.rs lines 44-46. -/
def Kind.isAlwaysDesired : Kind → Bool
  | .attr => true
  | .dataset _ => false

/-- `is_desired_field`, parameters.rs lines 115-130. -/
def isDesired (p : Fields) (f : Plugin) : Bool :=
  f.kind.isAlwaysDesired ||
    match p with
    | .all => true
    | .some fields => fields.any (fun field => field == f.name)

/-- The names `verify_output_fields_system` (plugin.rs lines 177-188) reports as unknown; `registered` are the names
pushed in `build_on_main_rank` (lines 167-171). -/
def unknownFields (p : Fields) (registered : List String) : List String :=
  match p with
  | .all => []
  | .some fields => fields.filter (fun field => !registered.contains field)

/-- The systems of the stages `CreateOutputFiles` and `Output`; the number is the position of the plugin. -/
inductive Sys
  | createFile | createField (i : ℕ) | closeFile
  | initWait | openFile | writeField (i : ℕ) | update | finishWait
deriving DecidableEq, Repr

/-- A system with the systems it is declared to run after and before. -/
structure Descriptor where
  sys : Sys
  after : List Sys
  before : List Sys

/-- `add_dataset_creation_system_if_desired`, plugin.rs lines 73-87, with `add_well_ordered_system_to_stage`,
simulation/mod.rs lines 211-241: the labels added so far for the marker `OutputDataMarker`, and the systems. -/
def addCreate (p : Fields) (st : List Sys × List Descriptor) (f : Plugin × ℕ) : List Sys × List Descriptor :=
  if isDesired p f.1 then
    let after := match st.1 with
      | [] => [Sys.createFile]
      | first :: labels => Sys.createFile :: first :: first :: labels
    (st.1 ++ [.createField f.2], st.2 ++ [⟨.createField f.2, after, [.closeFile]⟩])
  else st

/-- The systems of stage `CreateOutputFiles` on the main rank: `add_file_creation_systems` (plugin.rs lines 61-71)
and one dataset creation system for every plugin with a desired field (lines 167-174). -/
def createStage (p : Fields) (fields : List Plugin) : List Descriptor :=
  [⟨.createFile, [], []⟩, ⟨.closeFile, [], []⟩] ++ (fields.zipIdx.foldl (addCreate p) ([], [])).2

/-- The systems of stage `Output` on every rank (plugin.rs lines 101-133 and 139-152).
`write_performance_data_system`, which touches no snapshot, is left out. -/
def outputStage (p : Fields) (fields : List Plugin) : List Descriptor :=
  [⟨.openFile, [], []⟩, ⟨.closeFile, [.openFile], []⟩, ⟨.update, [.closeFile], []⟩, ⟨.initWait, [], [.openFile]⟩,
    ⟨.finishWait, [.closeFile], []⟩] ++
  (fields.zipIdx.filter (fun f => isDesired p f.1)).map
    (fun f => ⟨.writeField f.2, [.openFile], [.closeFile]⟩)

/-- The orders in which the scheduler may run the systems of a stage (bevy's stage runs every system once; constraints
that name a system which is not in the stage are ignored). -/
structure Allowed (stage : List Descriptor) (order : List Sys) : Prop where
  complete : order.Perm (stage.map (·.sys))
  after : ∀ d ∈ stage, ∀ a ∈ d.after, a ∈ order → order.idxOf a < order.idxOf d.sys
  before : ∀ d ∈ stage, ∀ b ∈ d.before, b ∈ order → order.idxOf d.sys < order.idxOf b

variable {K : Type*} [Field K] [LinearOrder K] {V α : Type}

/-- Parameters and plugins of a run: `OutputParameters`, the output plugins in the order in which they were added,
and the number of particles of every rank. -/
structure Config (K : Type*) where
  fields : Fields
  numFiles : ℕ
  timer : SnapshotTimer.Params K
  plugins : List Plugin
  counts : List ℕ

/-- What a frame brings along: time and stop event, the values of the attributes on the main rank, and for every
plugin and rank the components of the particles of the rank. -/
structure Frame (K : Type*) (V α : Type) where
  input : SnapshotTimer.Input K
  attr : ℕ → V
  data : ℕ → List (List α)

/-- The files of one snapshot: their indices, the attributes, and the datasets.  All systems treat all files alike, so
the names of attributes and datasets are kept once for all files. -/
structure Content (V α : Type) where
  files : List ℕ
  attrs : String → Option V
  sets : String → Option (Store α)

/-- What is on disk under the number of a snapshot (`get_snapshot_dir`, io/output/mod.rs lines 142-149). -/
abbrev Disk (V α : Type) := ℕ → Option (Content V α)

/-- The resources `OutputFiles` and `Timer` of one rank. -/
structure RankState (K : Type*) where
  files : Option (List Region)
  timer : SnapshotTimer.Timer K

/-- Change of the value at one point. -/
def put {A B : Type*} [DecidableEq A] (f : A → B) (a : A) (b : B) : A → B := fun x => if x = a then b else f x

/-- The run criterion of a system, evaluated at the start of the stage: plugin.rs lines 61-71 and 101-133,
attribute.rs line 34, to_dataset.rs lines 29 and 38. The closure that an attribute uses as write system has none. -/
def runs (cfg : Config K) (t : SnapshotTimer.Timer K) (i : SnapshotTimer.Input K) : Sys → Bool
  | .createField n => match cfg.plugins[n]? with
    | some ⟨_, _, .dataset isStatic⟩ => t.datasetWriteRunCriterion i isStatic
    | _ => t.runCriterion i
  | .writeField n => match cfg.plugins[n]? with
    | some ⟨_, _, .dataset isStatic⟩ => t.datasetWriteRunCriterion i isStatic
    | _ => true
  | _ => t.runCriterion i

/-- The effect of one system on rank `rank`; `none` is a panic. -/
def runSys (cfg : Config K) (frame : Frame K V α) (rank : ℕ) (w : Disk V α × RankState K) :
    Sys → Option (Disk V α × RankState K)
  -- `create_file_system`, io/output/mod.rs lines 178-201; `File::create` truncates
  | .createFile =>
    if w.2.files.isSome then none
    else match getRankOutputAssignmentForRank [cfg.counts.sum] cfg.numFiles 0 with
      | none => none
      | some regions => some (put w.1 w.2.timer.snapshotNum
          (some ⟨regions.map (·.fileIndex), fun _ => none, fun _ => none⟩), { w.2 with files := some regions })
  -- `write_attribute`, attribute.rs lines 50-59, and `create_dataset_system`, io/output/mod.rs lines 259-286
  | .createField n =>
    match w.2.files, cfg.plugins[n]?, w.1 w.2.timer.snapshotNum with
    | some regions, some f, some c => match f.kind with
      | .attr =>
        if (c.attrs f.name).isSome then none
        else some (put w.1 w.2.timer.snapshotNum
          (some { c with attrs := put c.attrs f.name (some (frame.attr n)) }), w.2)
      | .dataset _ =>
        if (c.sets f.datasetName).isSome || !regions.all (fun r => r.start == 0) then none
        else some (put w.1 w.2.timer.snapshotNum
          (some { c with sets := put c.sets f.datasetName (some
            ⟨regions.map (fun r => (r.fileIndex, r.stop - r.start)), fun _ _ => none⟩) }), w.2)
    | _, _, _ => none
  -- `close_file_system`, lines 255-257
  | .closeFile => some (w.1, { w.2 with files := none })
  -- barriers only (C04), lines 369-397
  | .initWait => some w
  | .finishWait => some w
  -- `open_file_system`, lines 240-253; a file which does not exist is a panic
  | .openFile =>
    if w.2.files.isSome then none
    else match getRankOutputAssignmentForRank cfg.counts cfg.numFiles rank, w.1 w.2.timer.snapshotNum with
      | some regions, some c =>
        if regions.all (fun r => c.files.contains r.fileIndex) then some (w.1, { w.2 with files := some regions })
        else none
      | _, _ => none
  -- `write_dataset_system`, lines 288-315; the closure of an attribute does nothing
  | .writeField n =>
    match cfg.plugins[n]? with
    | some ⟨_, datasetName, .dataset _⟩ =>
      match w.2.files, w.1 w.2.timer.snapshotNum, (frame.data n)[rank]? with
      | some regions, some c, some rows => match c.sets datasetName with
        | none => none
        | some store => match writeDataset store regions rows with
          | none => none
          | some store' => some (put w.1 w.2.timer.snapshotNum
              (some { c with sets := put c.sets datasetName (some store') }), w.2)
      | _, _, _ => none
    | some _ => some w
    | none => none
  -- `Timer::update_system`, timer.rs lines 60-63
  | .update => some (w.1, { w.2 with timer := w.2.timer.update cfg.timer })

/-- One stage on one rank: the run criteria are evaluated first, then the systems run one after the other. -/
def runStage (cfg : Config K) (frame : Frame K V α) (rank : ℕ) (order : List Sys) (w : Disk V α × RankState K) :
    Option (Disk V α × RankState K) :=
  (order.filter (runs cfg w.2.timer frame.input)).foldlM (runSys cfg frame rank) w

/-- Disk and ranks. -/
structure World (K : Type*) (V α : Type) where
  disk : Disk V α
  ranks : ℕ → RankState K

/-- One stage on one of the ranks. -/
def World.stage (cfg : Config K) (frame : Frame K V α) (order : List Sys) (w : World K V α) (rank : ℕ) :
    Option (World K V α) :=
  (runStage cfg frame rank order (w.disk, w.ranks rank)).map fun r => ⟨r.1, put w.ranks rank r.2⟩

/-- The orders chosen by the schedulers in one frame: for the main rank and for every rank. -/
structure Orders where
  create : List Sys
  output : ℕ → List Sys

/-- The two output stages of one frame.  Without `parallel-hdf5` the barriers make the ranks go through them one
after the other, the main rank first (`serial_output_sequential`, C04). -/
def outputFrame (cfg : Config K) (frame : Frame K V α) (orders : Orders) (w : World K V α) : Option (World K V α) :=
  ((w.stage cfg frame orders.create 0)).bind fun w =>
    (List.range cfg.counts.length).foldlM (fun w rank => w.stage cfg frame (orders.output rank) rank) w

/-- All frames of a run. -/
def outputRun (cfg : Config K) (frames : List (Frame K V α × Orders)) (w : World K V α) : Option (World K V α) :=
  frames.foldlM (fun w f => outputFrame cfg f.1 f.2 w) w

end Verif.OutputStages
