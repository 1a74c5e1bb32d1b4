/-!
# Distribution of dataset rows over files and ranks: model

Models `/repo/src/io/file_distribution.rs` (whole non-test code), `get_chunk_sizes` of
`/repo/src/io/input/mod.rs` and the slice writing/reading of `/repo/src/io/output/mod.rs` and
`/repo/src/io/input/mod.rs`.

`usize` is `Nat`.  A result `none` is a panic (index out of bounds or subtraction underflow).
-/

namespace Verif.FileDist

/-- `struct Position`, file_distribution.rs lines 5-9. -/
structure Pos where
  fileIndex : Nat
  pos : Nat
deriving DecidableEq, Repr

/-- `struct Region`, file_distribution.rs lines 11-16. -/
structure Region where
  fileIndex : Nat
  start : Nat
  stop : Nat
deriving DecidableEq, Repr

/-- `Region::size`, file_distribution.rs lines 18-22.  The subtraction is `Nat` subtraction;
that it never underflows is part of `RegionOk` in the property file. -/
def Region.size (r : Region) : Nat := r.stop - r.start

/-- The `while` loop of `get_regions_from`, file_distribution.rs lines 46-62.  The mutable
`end` and `start` are the arguments `fi` (the two file indices always agree), `startPos`,
`endPos`; an index past the file list is `none`. -/
def regionsLoop (sizes : List Nat) (fi startPos endPos : Nat) (acc : List Region) :
    Option (List Region × Pos) :=
  if h : fi < sizes.length then
    if sizes[fi] < endPos then
      regionsLoop sizes (fi + 1) 0 (endPos - sizes[fi])
        (acc ++ [⟨fi, startPos, sizes[fi]⟩])
    else
      some (acc ++ [⟨fi, startPos, endPos⟩], ⟨fi, endPos⟩)
  else none
termination_by sizes.length - fi

/-- `get_regions_from`, file_distribution.rs lines 29-63. -/
def getRegionsFrom (sizes : List Nat) (start : Pos) (numEntries : Nat) :
    Option (List Region × Pos) :=
  if numEntries = 0 then some ([], start)
  else
    match sizes[start.fileIndex]? with
    | none => none
    | some s =>
      if start.pos = s then
        regionsLoop sizes (start.fileIndex + 1) 0 (0 + numEntries) []
      else
        regionsLoop sizes start.fileIndex start.pos (start.pos + numEntries) []

/-- The `for` loop of `get_rank_assignment`, file_distribution.rs lines 74-82: threads the
start position and filters regions of size zero. -/
def rankAssignmentLoop (sizes : List Nat) : Pos → List Nat → Option (List (List Region))
  | _, [] => some []
  | start, n :: ns =>
    match getRegionsFrom sizes start n with
    | none => none
    | some (regions, stop) =>
      match rankAssignmentLoop sizes stop ns with
      | none => none
      | some rest => some (regions.filter (fun r => decide (r.size > 0)) :: rest)

/-- `get_rank_assignment`, file_distribution.rs lines 65-84.  A `RankAssignment` is its list of
regions. -/
def getRankAssignment (sizes : List Nat) (entriesPerRank : List Nat) :
    Option (List (List Region)) :=
  rankAssignmentLoop sizes ⟨0, 0⟩ entriesPerRank

/-- The vector `entries_per_rank` of `get_input_rank_assignment`,
file_distribution.rs lines 90-93. -/
def inputEntriesPerRank (sizes : List Nat) (numRanks : Nat) : List Nat :=
  List.replicate (numRanks - 1) (sizes.sum / numRanks)
    ++ [sizes.sum - sizes.sum / numRanks * (numRanks - 1)]

/-- `get_input_rank_assignment`, file_distribution.rs lines 86-95.  Zero ranks is a division
by zero panic. -/
def getInputRankAssignment (sizes : List Nat) (numRanks : Nat) :
    Option (List (List Region)) :=
  if numRanks = 0 then none
  else getRankAssignment sizes (inputEntriesPerRank sizes numRanks)

/-- `get_rank_input_assignment_for_rank`, file_distribution.rs lines 97-103
(`Vec::remove` panics when out of range). -/
def getRankInputAssignmentForRank (sizes : List Nat) (numRanks rank : Nat) :
    Option (List Region) :=
  (getInputRankAssignment sizes numRanks).bind (fun a => a[rank]?)

/-- The vector `num_entries_per_file` of `get_output_rank_assignment`,
file_distribution.rs lines 109-113. -/
def outputEntriesPerFile (total numFiles : Nat) : List Nat :=
  let front := List.replicate (numFiles - 1) (total / numFiles)
  front ++ [total - front.sum]

/-- `get_output_rank_assignment`, file_distribution.rs lines 105-115.  Zero desired files is a
subtraction underflow panic. -/
def getOutputRankAssignment (entriesPerRank : List Nat) (numFiles : Nat) :
    Option (List (List Region)) :=
  if numFiles = 0 then none
  else getRankAssignment (outputEntriesPerFile entriesPerRank.sum numFiles) entriesPerRank

/-- `get_rank_output_assignment_for_rank`, file_distribution.rs lines 117-123. -/
def getRankOutputAssignmentForRank (entriesPerRank : List Nat) (numFiles rank : Nat) :
    Option (List Region) :=
  (getOutputRankAssignment entriesPerRank numFiles).bind (fun a => a[rank]?)

/-- `get_chunk_sizes`, io/input/mod.rs lines 368-383; a range is a pair.  Chunk size zero is a
division by zero panic. -/
def getChunkSizes (r : Region) (chunkSize : Nat) : Option (List (Nat × Nat)) :=
  if chunkSize = 0 then none
  else
    let n := r.size / chunkSize + (if r.size % chunkSize > 0 then 1 else 0)
    some ((List.range n).map (fun i =>
      (r.start + i * chunkSize, min (r.start + (i + 1) * chunkSize) r.stop)))

/-! ## Datasets

A file holds one row per index; the contents of the whole snapshot is a partial function from
(file index, row) to row value.  HDF5 itself (types, attributes, errors of the library) is not
modelled; an out-of-bounds slice is an error. -/

/-- A snapshot on disk: for each created file its index and its number of rows, and the
values written so far. -/
structure Store (α : Type) where
  created : List (Nat × Nat)
  val : Nat → Nat → Option α

/-- `create_file_system` with `create_dataset_in_files`, io/output/mod.rs lines 178-201 and
273-286: the main rank computes the assignment for a single rank holding all particles, creates
one file per region and asserts `region.start == 0`; the dataset has
`region.end - region.start` rows. -/
def createStore {α : Type} (total numFiles : Nat) : Option (Store α) :=
  match getRankOutputAssignmentForRank [total] numFiles 0 with
  | none => none
  | some regions =>
    if regions.all (fun r => r.start == 0) then
      some { created := regions.map (fun r => (r.fileIndex, r.stop - r.start))
             val := fun _ _ => none }
    else none

/-- One `write_slice(&data[a..b], start..end)`, io/output/mod.rs lines 309-311: the file must
exist (`open_rw` fails otherwise), the range must fit and the lengths must agree. -/
def Store.writeSlice {α : Type} (s : Store α) (r : Region) (data : List α) : Option (Store α) :=
  match s.created.lookup r.fileIndex with
  | none => none
  | some size =>
    if r.start ≤ r.stop ∧ r.stop ≤ size ∧ data.length = r.stop - r.start then
      some { s with val := fun f i =>
        if f = r.fileIndex ∧ r.start ≤ i ∧ i < r.stop then data[i - r.start]? else s.val f i }
    else none

/-- `write_dataset_to_files`, io/output/mod.rs lines 298-315.  `data[data_start..data_end]`
out of range and a final `data_start != data.len()` are panics. -/
def writeDataset {α : Type} : Store α → List Region → List α → Option (Store α)
  | s, [], data => if data.length = 0 then some s else none
  | s, r :: rs, data =>
    if data.length < r.size then none
    else
      match s.writeSlice r (data.take r.size) with
      | none => none
      | some s' => writeDataset s' rs (data.drop r.size)

/-- `read_slice_1d(slice)`: rows `a..b` of a file of which `rows` is the content
(io/input/mod.rs lines 425-438, one-dimensional case; unit conversion left out). -/
def readSlice {α : Type} (rows : List α) (a b : Nat) : Option (List α) :=
  if a ≤ b ∧ b ≤ rows.length then some ((rows.drop a).take (b - a)) else none

/-- `Reader::read_region_chunked`, io/input/mod.rs lines 267-280 with `ChunkIter`
(lines 385-412). -/
def readRegionChunked {α : Type} (files : List (List α)) (r : Region) (chunkSize : Nat) :
    Option (List α) :=
  match files[r.fileIndex]?, getChunkSizes r chunkSize with
  | some rows, some chunks => (chunks.mapM (fun c => readSlice rows c.1 c.2)).map List.flatten
  | _, _ => none

/-- `Reader::read_dataset_chunked`, io/input/mod.rs lines 245-257, on rank `rank` of
`numRanks` (`split_between_ranks`, lines 182-191; `full` is `numRanks = 1`, `rank = 0`). -/
def readDatasetChunked {α : Type} (files : List (List α)) (numRanks rank chunkSize : Nat) :
    Option (List α) :=
  match getRankInputAssignmentForRank (files.map List.length) numRanks rank with
  | none => none
  | some regions => (regions.mapM (fun r => readRegionChunked files r chunkSize)).map List.flatten

/-- `Reader::read_dataset`, io/input/mod.rs lines 234-243 with `read_region` (lines 259-265):
one chunk of the size of the region. -/
def readDataset {α : Type} (files : List (List α)) (numRanks rank : Nat) :
    Option (List α) :=
  match getRankInputAssignmentForRank (files.map List.length) numRanks rank with
  | none => none
  | some regions => (regions.mapM (fun r => readRegionChunked files r r.size)).map List.flatten

/-- The content of a completely written snapshot as the list of row lists of its files, in
order of creation (which is the order of the file names); `none` if some row was never written. -/
def Store.files {α : Type} (s : Store α) : Option (List (List α)) :=
  s.created.mapM (fun f => (List.range f.2).mapM (fun i => s.val f.1 i))

/-- Writing of one dataset by all ranks: the main rank creates the files, then every rank `r`
writes its data to its own regions (`compute_output_rank_assignment_system`,
io/output/mod.rs lines 117-140); `order` is the order in which the ranks get to write. -/
def writeSnapshot {α : Type} (data : List (List α)) (numFiles : Nat) (order : List Nat) :
    Option (Store α) :=
  match createStore ((data.map List.length).sum) numFiles with
  | none => none
  | some s0 =>
    order.foldlM (fun s r =>
      match getRankOutputAssignmentForRank (data.map List.length) numFiles r, data[r]? with
      | some regions, some d => writeDataset s regions d
      | _, _ => none) s0

end Verif.FileDist
