import Verif.Remap.Model
import Verif.IO.OutputDirsModel
import Verif.IO.FileDistributionModel

/-!
# Finding and reading the snapshots to remap from: model of parts of `/repo/src/arepo_postprocess/remap.rs`

The files are those of `Verif/IO/OutputDirsModel.lean`.  Dimensions and units of the datasets are left out (C66).
-/

namespace Verif.Remap

open Verif.Geometry (Vec)
open Verif.OutputDirs (Name Path Fs Entry)
open Verif.FileDist (readDataset)

/-! ### The directory -/

/-- The value of a digit (the characters 48 to 57). -/
def digit (c : Char) : Option ℕ := if 48 ≤ c.toNat ∧ c.toNat < 58 then some (c.toNat - 48) else none

/-- One step of `parse`: the number may not exceed 64 bits. -/
def parseStep (n : ℕ) (c : Char) : Option ℕ := do
  let d ← digit c
  if 10 * n + d < 2 ^ 64 then some (10 * n + d) else none

/-- The sign `+` is optional. -/
def dropSign : Name → Name
  | '+' :: rest => rest
  | s => s

/-- `parse::<usize>()` of the standard library: an optional sign and at least one digit. -/
def parseUsize (s : Name) : Option ℕ :=
  if dropSign s = [] then none else (dropSign s).foldlM parseStep 0

/-- `Iterator::max_by_key`: of equal elements the last one. -/
def pickMax (x y : ℕ × Name) : ℕ × Name := if x.1 > y.1 then x else y

/-- `Iterator::min_by_key`: of equal elements the first one. -/
def pickMin (x y : ℕ × Name) : ℕ × Name := if x.1 > y.1 then y else x

/-- `get_highest_or_lowest_snapshot_dir`, remap.rs lines 329-353, from the names of the directories in the order in
which they are listed; `none` is a panic. -/
def getHighestOrLowestSnapshotDir (dirs : List Name) (max : Bool) : Option Name := do
  let keys ← dirs.mapM fun name => (parseUsize name).map fun n => (n, name)
  match keys with
  | [] => none
  | first :: rest => some (rest.foldl (if max then pickMax else pickMin) first).2

/-! ### The files -/

/-- A value in a file: a vector or a number. -/
inductive Value (K : Type)
  | vec (x : Vec 3 K)
  | num (x : K)

variable {K : Type}

/-- Reading as a vector; another type is an error. -/
def Value.asVec : Value K → Option (Vec 3 K)
  | .vec x => some x
  | .num _ => none

/-- Reading as a number. -/
def Value.asNum : Value K → Option K
  | .num x => some x
  | .vec _ => none

/-- The content of a file of a snapshot. -/
structure FileData (K : Type) where
  attrs : String → Option (Value K)
  sets : String → Option (List (Value K))

/-- What the two system calls return on a rank: the names of the directories in a directory, and the names of its
files with extension `hdf5`, in some order. -/
structure Listings where
  dirs : Path → List Name
  files : Path → List Name

/-- Opening of all files in a listing (`get_file_or_all_hdf5_files_in_path_if_dir`, io/input/mod.rs lines 72-92, for a
directory, and `open_file`, lines 166-169). -/
def openFiles (fs : Fs (FileData K)) (dir : Path) (names : List Name) : Option (List (FileData K)) :=
  names.mapM fun n => match fs (dir ++ [n]) with
    | some (.file a) => some a
    | _ => none

/-- `Reader::read_dataset`, io/input/mod.rs lines 213-243: a file without the dataset counts as one without rows. -/
def readValues (files : List (FileData K)) (name : String) (W r : ℕ) : Option (List (Value K)) :=
  readDataset (files.map fun f => (f.sets name).getD []) W r

variable [Field K] [LinearOrder K]

/-- `read_remap_data`, lines 82-127, on rank `r` of `W`. -/
def readRemapFiles (cosmology : Cosmology K) (W r : ℕ) (lastFiles firstFiles : List (FileData K)) :
    Option (List (Full K)) := do
  let position ← (← readValues firstFiles "position" W r).mapM Value.asVec
  let fraction ← (← readValues lastFiles "ionized_hydrogen_fraction" W r).mapM Value.asNum
  let temperature ← (← readValues lastFiles "temperature" W r).mapM Value.asNum
  let file ← firstFiles.head?
  let scaleFactor ← (← file.attrs "scale_factor").asNum
  let _littleH ← (← file.attrs "little_h").asNum
  readRemapData cosmology scaleFactor
    (((position.zip fraction).zip temperature).map fun x => ⟨x.1.1, x.2, x.1.2⟩)

/-- The first part of `remap_abundances_and_energies_system`, lines 393-417, on rank `r`: `get_files_of_last_snapshot`,
`get_files_of_first_snapshot` (lines 319-327) and `read_remap_data`. -/
def readSnapshots (fs : Fs (FileData K)) (ls : Listings) (path : Path) (cosmology : Cosmology K) (W r : ℕ) :
    Option (List (Full K)) := do
  let last ← getHighestOrLowestSnapshotDir (ls.dirs path) true
  let first ← getHighestOrLowestSnapshotDir (ls.dirs path) false
  let lastFiles ← openFiles fs (path ++ [last]) (ls.files (path ++ [last]))
  let firstFiles ← openFiles fs (path ++ [first]) (ls.files (path ++ [first]))
  readRemapFiles cosmology W r lastFiles firstFiles

/-- The whole system on all ranks, from the files to the particles. -/
def remapFromSnapshots (nearest : Nearest K) (fs : Fs (FileData K)) (ls : ℕ → Listings) (path : Path)
    (cosmology : Cosmology K) (W : ℕ) (owner : Vec 3 K → ℕ) (particles : ℕ → List (Particle K)) :
    Option (List (List (Particle K))) := do
  let data ← (List.range W).mapM fun r => readSnapshots fs (ls r) path cosmology W r
  remapSystem nearest W owner (fun r => data.getD r []) particles

end Verif.Remap
