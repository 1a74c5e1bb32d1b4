import Verif.Remap.SnapshotModel
import Verif.Remap.Spec
import Verif.IO.OutputDirsSpec
import Verif.IO.OutputStagesProps

/-!
# Finding and reading the snapshots to remap from: specification
-/

namespace Verif.Remap

open Verif.Geometry (Vec)
open Verif.OutputDirs (Name Path Fs Entry Contents Listing)
open Verif.OutputStages (Disk Config Frame HasDataset Plugin)

/-- A listing of the directories in a directory, in any order. -/
structure DirListing {α : Type} (fs : Fs α) (dir : Path) (names : List Name) : Prop where
  nodup : names.Nodup
  complete : ∀ n, n ∈ names ↔ fs (dir ++ [n]) = some .dir

/-- What a rank sees of the snapshots: all directories, and in the directories of the snapshots all files; the files are
in the order `names` in all of them. -/
structure Sees {α : Type} (fs : Fs α) (path : Path) (names : List Name) (ls : Listings) : Prop where
  dirs : DirListing fs path (ls.dirs path)
  files : ∀ d ∈ ls.dirs path, ls.files (path ++ [d]) = names ∧ Listing fs (path ++ [d]) names

variable {K : Type}

/-- The files with the given contents hold what the output systems have written. -/
def SameContents (disk : Disk (Value K) (Value K)) (c : Contents (FileData K)) : Prop :=
  ∀ num content, disk num = some content → ∀ i ∈ content.files, (c.snapshot num i).attrs = content.attrs ∧
    ∀ name, (c.snapshot num i).sets name =
      (content.sets name).bind fun store => store.files.bind fun files => files[content.files.idxOf i]?

/-- The positions in the first of `n` snapshots and fractions and temperatures in the last one, as given to the output
systems of all ranks, and the scale factor in the attributes of the first. -/
structure Recorded {Q : Type} [Field Q] [LinearOrder Q] (cfg : Config Q) (n : ℕ)
    (first last : Frame Q (Value K) (Value K)) (scaleFactor : K) (positions : List (Vec 3 K))
    (fractions temperatures : List K) : Prop where
  position : ∃ i f, HasDataset cfg 0 i f ∧ f.datasetName = "position" ∧ (first.data i).flatten = positions.map .vec
  fraction : ∃ i f, HasDataset cfg (n - 1) i f ∧ f.datasetName = "ionized_hydrogen_fraction" ∧
    (last.data i).flatten = fractions.map .num
  temperature : ∃ i f, HasDataset cfg (n - 1) i f ∧ f.datasetName = "temperature" ∧
    (last.data i).flatten = temperatures.map .num
  scale : ∃ (i : ℕ) (f : Plugin), cfg.plugins[i]? = some f ∧ f.kind = .attr ∧ f.name = "scale_factor" ∧ first.attr i = .num scaleFactor
  littleH : ∃ (i : ℕ) (f : Plugin) (h : K), cfg.plugins[i]? = some f ∧ f.kind = .attr ∧ f.name = "little_h" ∧ first.attr i = .num h

/-- The particles of the previous run: positions (scaled), temperatures and ionized fractions in the order in which they
were written. -/
def previousData [Field K] (factor : K) (positions : List (Vec 3 K)) (fractions temperatures : List K) : List (Full K) :=
  (positions.zip (fractions.zip temperatures)).map fun x => ⟨fun i => x.1 i * factor, x.2.2, x.2.1⟩

end Verif.Remap
