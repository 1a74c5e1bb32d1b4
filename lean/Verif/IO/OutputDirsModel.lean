import Mathlib.Data.Nat.Log
import Mathlib.Data.List.Basic
import Mathlib.Data.List.Infix
import Verif.IO.FileDistributionModel

/-!
# Names and directories of the output: model of parts of `/repo/src/io/output/mod.rs`, `/repo/src/simulation_builder.rs`
and `/repo/src/io/input/mod.rs`

A path is a list of names; the paths of the parameter file are taken to be relative and without `.` and `..`.
-/

namespace Verif.OutputDirs
open Verif.FileDist

abbrev Name := List Char
abbrev Path := List Name

/-- The digits of a number, as `format!("{}", n)` writes it. -/
def decimal (n : ℕ) : Name :=
  if n < 10 then [Nat.digitChar n] else decimal (n / 10) ++ [Nat.digitChar (n % 10)]
termination_by n
decreasing_by omega

/-- `format!("{:0width$}", n)`. -/
def padded (width n : ℕ) : Name := List.replicate (width - (decimal n).length) '0' ++ decimal n

/-- `((n as f64).log10().floor() as usize) + 1`, io/output/mod.rs line 157 and simulation_builder.rs line 258; with the
exact logarithm instead of that of f64. -/
def indexPadding (n : ℕ) : ℕ := Nat.log 10 n + 1

/-- `enum HandleExistingOutput`, io/output/parameters.rs lines 11-24. -/
inductive HandleExisting
  | panic
  | overwrite
  | delete
deriving DecidableEq

/-- The fields of `OutputParameters` (io/output/parameters.rs lines 37-81) which are about names and directories,
and the number of particles (`NumParticlesTotal`). -/
structure Params where
  outputDir : Path
  snapshotsDir : Path
  handleExisting : HandleExisting
  snapshotPadding : ℕ
  numFiles : ℕ
  numParticles : ℕ

/-- `OutputParameters::snapshot_dir`, io/output/parameters.rs lines 130-132. -/
def Params.snapshotDir (p : Params) : Path := p.outputDir ++ p.snapshotsDir

/-- `get_snapshot_dir`, io/output/mod.rs lines 142-149. -/
def Params.snapshotPath (p : Params) (num : ℕ) : Path := p.snapshotDir ++ [padded p.snapshotPadding num]

/-- The name of an output file, io/output/mod.rs lines 164-168. -/
def fileName (numFiles index : ℕ) : Name := padded (indexPadding numFiles) index ++ ".hdf5".toList

/-- The name of the log file of a rank, `get_output_file`, simulation_builder.rs lines 252-261. -/
def logName (numRanks rank : ℕ) : Name := "rank_".toList ++ padded (indexPadding numRanks) rank ++ ".log".toList

/-! ### The file system -/

/-- What is at a path. -/
inductive Entry (α : Type)
  | dir
  | file (content : α)

/-- A file system. -/
abbrev Fs (α : Type) := Path → Option (Entry α)

variable {α : Type}

/-- `fs::create_dir_all`; `none` is an error: part of the path is a file. -/
def createDirAll (fs : Fs α) (p : Path) : Option (Fs α) :=
  if p.inits.any (fun q => match fs q with | some (.file _) => true | _ => false) then none
  else some fun q => if q ∈ p.inits then some .dir else fs q

/-- `fs::remove_dir_all`; `none` is an error: there is no directory. -/
def removeDirAll (fs : Fs α) (p : Path) : Option (Fs α) :=
  match fs p with
  | some .dir => some fun q => if p.isPrefixOf q then none else fs q
  | _ => none

/-- `File::create` (of std and of hdf5): replaces a file, but not a directory, and needs the directory it is in. -/
def createFile (fs : Fs α) (p : Path) (a : α) : Option (Fs α) :=
  match fs p.dropLast, fs p with
  | some .dir, some .dir => none
  | some .dir, _ => if p = [] then none else some fun q => if q = p then some (.file a) else fs q
  | _, _ => none

/-- The first part of `make_output_dirs`, io/output/mod.rs lines 89-101: what is done with an existing directory. -/
def handleExistingDir (p : Params) (fs : Fs α) : Option (Fs α) :=
  if (fs p.outputDir).isSome then
    match p.handleExisting with
    | .panic => none
    | .delete => removeDirAll fs p.outputDir
    | .overwrite => some fs
  else some fs

/-- `make_output_dirs`, io/output/mod.rs lines 88-110; `none` is a panic. -/
def makeOutputDirs (p : Params) (fs : Fs α) : Option (Fs α) :=
  (handleExistingDir p fs).bind fun fs => (createDirAll fs p.outputDir).bind fun fs => createDirAll fs p.snapshotDir

/-- What the ranks do to the file system afterwards. -/
inductive Op (α : Type)
  | mkdirAll (p : Path)
  | create (p : Path) (content : α)

/-- One operation. -/
def Op.run (fs : Fs α) : Op α → Option (Fs α)
  | .mkdirAll p => createDirAll fs p
  | .create p a => createFile fs p a

/-- Contents of the files of a run: the log of every rank, and the file with an index of a snapshot. -/
structure Contents (α : Type) where
  log : ℕ → α
  snapshot : ℕ → ℕ → α

/-- `log_setup`, simulation_builder.rs lines 199-238: the directory and the file for the log. -/
def logOps (p : Params) (c : Contents α) (numRanks rank : ℕ) : List (Op α) :=
  [.mkdirAll (p.outputDir ++ ["logs".toList]), .create (p.outputDir ++ ["logs".toList, logName numRanks rank]) (c.log rank)]

/-- The indices of the files which the main rank creates, io/output/mod.rs lines 184-200: only files with at least one
particle.  (Zero files is a panic in `compute_output_rank_assignment_system` when the program starts.) -/
def Params.indices (p : Params) : List ℕ :=
  ((getRankOutputAssignmentForRank [p.numParticles] p.numFiles 0).getD []).map (·.fileIndex)

/-- `create_file_system` with `get_output_files`, io/output/mod.rs lines 151-201: the main rank creates the directory and
the files. -/
def createSnapshot (p : Params) (c : Contents α) (num : ℕ) : List (Op α) :=
  .mkdirAll (p.snapshotPath num) ::
    p.indices.map fun i => .create (p.snapshotPath num ++ [fileName p.numFiles i]) (c.snapshot num i)

/-- `open_file_system` with `get_output_files`: makes the directory again; opening existing files changes nothing. -/
def openSnapshot (p : Params) (num : ℕ) : List (Op α) := [.mkdirAll (p.snapshotPath num)]

/-- What a rank does after the barrier in a run with `n` snapshots (parameters, performance data and time series are left
out). -/
def program (p : Params) (c : Contents α) (numRanks n rank : ℕ) : List (Op α) :=
  logOps p c numRanks rank ++ (List.range n).flatMap fun num =>
    (if rank = 0 then createSnapshot p c num else []) ++ openSnapshot p num

/-- `make_output_dir`, simulation_builder.rs lines 263-270: the main rank makes the directories, then there is a barrier,
and then the ranks run their programs, interleaved as in `ops` (rank and operation). `write_output` is not looked at. -/
def runProgram (p : Params) (ops : List (ℕ × Op α)) (fs : Fs α) : Option (Fs α) :=
  (makeOutputDirs p fs).bind fun fs => ops.foldlM (fun fs op => op.2.run fs) fs

/-! ### Reading a directory -/

/-- `Path::extension` of a name: what follows the last dot, unless the only dot is the first character. -/
def extension (name : Name) : Option Name :=
  let before := (name.reverse.dropWhile (· ≠ '.')).reverse.dropLast
  if name.contains '.' ∧ before ≠ [] then some (name.reverse.takeWhile (· ≠ '.')).reverse else none

/-- A listing of the files with extension `hdf5` in a directory (`get_file_or_all_hdf5_files_in_path_if_dir`,
io/input/mod.rs lines 72-92): `read_dir` gives every entry once, in any order. -/
structure Listing (fs : Fs α) (dir : Path) (names : List Name) : Prop where
  nodup : names.Nodup
  complete : ∀ n, n ∈ names ↔ (∃ a, fs (dir ++ [n]) = some (.file a)) ∧ extension n = some "hdf5".toList

end Verif.OutputDirs
