/-!
# Collective helpers: model

Models `div_ceil`, `global_num_chunks` and `divide_into_chunks_with_same_num_globally` of
`/repo/src/communication/exchange_communicator.rs` and `all_gather_varcount` of
`/repo/src/communication/mpi_world.rs`.  A collective is a function of the list of all ranks'
arguments (one entry per rank).  `usize` and MPI's `i32` counts are `Nat`.
-/

namespace Verif.Collective

/-- `div_ceil`, exchange_communicator.rs lines 123-125; `y = 0` panics. -/
def divCeil (x y : Nat) : Option Nat :=
  if y = 0 then none else some (x / y + if x % y > 0 then 1 else 0)

/-- `all_gather_max` (mpi_world.rs lines 212-221) on `usize`: the maximum of all ranks' values,
`None` without ranks. -/
def allGatherMax : List Nat → Option Nat
  | [] => none
  | x :: xs => some (xs.foldl max x)

/-- `global_num_chunks`, exchange_communicator.rs lines 117-121: the arguments are the numbers of
elements of all ranks. -/
def globalNumChunks (numElements : List Nat) (chunkSize : Nat) : Option Nat :=
  (numElements.mapM (fun n => divCeil n chunkSize)).bind allGatherMax

/-- `slice::chunks` of the standard library for a positive chunk size. -/
def chunks {α : Type} (chunkSize : Nat) (hc : 0 < chunkSize) (items : List α) : List (List α) :=
  if h : items = [] then []
  else items.take chunkSize :: chunks chunkSize hc (items.drop chunkSize)
termination_by items.length
decreasing_by
  have : 0 < items.length := List.length_pos_iff.mpr h
  simp; omega

/-- `(0..num_chunks).map(move |_| chunk_iter.next().unwrap_or(&[]))`,
exchange_communicator.rs line 114. -/
def nextChunks {α : Type} : Nat → List (List α) → List (List α)
  | 0, _ => []
  | n + 1, [] => [] :: nextChunks n []
  | n + 1, c :: cs => c :: nextChunks n cs

/-- `divide_into_chunks_with_same_num_globally`, exchange_communicator.rs lines 108-115, called by
all ranks with the same chunk size; the result is the list of all ranks' chunk lists.  A chunk
size of zero panics. -/
def divideIntoChunks {α : Type} (items : List (List α)) (chunkSize : Nat) :
    Option (List (List (List α))) :=
  if hc : 0 < chunkSize then
    (globalNumChunks (items.map List.length) chunkSize).map (fun n =>
      items.map (fun l => nextChunks n (chunks chunkSize hc l)))
  else none

/-- The displacements, mpi_world.rs lines 240-247: a scan that yields the accumulator before
adding. -/
def displacements (acc : Nat) : List Nat → List Nat
  | [] => []
  | c :: cs => acc :: displacements (acc + c) cs

/-- Writing one contribution into the receive buffer at its displacement; out of bounds is an
error (`PartitionMut::new` asserts the bounds). -/
def writeAt {α : Type} (buf : List (Option α)) (disp : Nat) (data : List α) :
    Option (List (Option α)) :=
  if disp + data.length ≤ buf.length then
    some (buf.take disp ++ data.map some ++ buf.drop (disp + data.length))
  else none

/-- Writes all contributions at their displacements. -/
def writeAll {α : Type} : List (Option α) → List (Nat × List α) → Option (List (Option α))
  | buf, [] => some buf
  | buf, (d, x) :: rest => (writeAt buf d x).bind (fun b => writeAll b rest)

/-- What rank `r` contributes: its displacement and its data. -/
def contribution {α : Type} (sends : List (List α)) (r : Nat) : Option (Nat × List α) :=
  match (displacements 0 (sends.map List.length))[r]?, sends[r]? with
  | some d, some x => some (d, x)
  | _, _ => none

/-- `all_gather_varcount` with `all_gather_varcount_with_counts`, mpi_world.rs lines 236-258, as
seen by any rank: gather the counts, allocate an uninitialised buffer (`none` entries), compute the
displacements, let MPI write every rank's data (in any order, `order` is a list of ranks). -/
def allGatherVarcount {α : Type} (sends : List (List α)) (order : List Nat) :
    Option (List (Option α)) :=
  writeAll (List.replicate (sends.map List.length).sum none)
    (order.filterMap (contribution sends))

end Verif.Collective
