import Verif.IO.FileDistributionModel

/-! # Specification vocabulary for the file distribution -/

namespace Verif.FileDist

/-- The rows (file index, row index) a region consists of, in order. -/
def Region.rows (r : Region) : List (Nat × Nat) :=
  (List.range' r.start (r.stop - r.start)).map (fun i => (r.fileIndex, i))

/-- All rows of a list of files with the given sizes, in order of file and row. -/
def allRows (sizes : List Nat) : List (Nat × Nat) :=
  sizes.zipIdx.flatMap (fun f => (List.range f.1).map (fun i => (f.2, i)))

/-- A region is a non-empty range of rows inside an existing file. -/
def RegionOk (sizes : List Nat) (r : Region) : Prop :=
  r.start < r.stop ∧ ∃ s, sizes[r.fileIndex]? = some s ∧ r.stop ≤ s

/-- The number of rows of a file: all files but the last have the same number. -/
def rowsInFile (total numFiles i : Nat) : Nat :=
  if i + 1 < numFiles then total / numFiles else total - total / numFiles * (numFiles - 1)

end Verif.FileDist
