import Verif.Comm.CollectiveModel
import Mathlib.Data.Nat.Notation

/-!
# Grids read from a file: model

Models `/repo/src/arepo_postprocess/read_grid/mod.rs` and `id_cache.rs`.

Ranks are the numbers below the world size `W`; what all ranks hold is a function of the rank.
`HashMap` is an association list with at most one entry per key and `HashSet` a list without
duplicates; both are iterated in an unspecified order in Rust, the model fixes one order and the
theorems do not depend on it.  Areas, normals and volumes are elements of arbitrary types (the code
only copies and negates them).  `none` is a panic.  Reading the datasets from the file is not modelled:
the input is the list of rows, the same on all ranks (`Reader::full`).
-/

namespace Verif.GridFile

open Verif.Collective (divideIntoChunks)

/-- `UniqueParticleId`, mod.rs lines 61-80. -/
abbrev UId := ℕ

/-- `ParticleId`. -/
structure PId where
  index : ℕ
  rank : ℕ
deriving DecidableEq

/-! ## Connection types -/

/-- `ConnectionType`, mod.rs lines 128-132. -/
structure ConnectionType where
  periodic1 : Bool
  periodic2 : Bool
deriving DecidableEq

/-- `periodic_and_boundary_flags_from_bits`, mod.rs lines 134-138; `> 0` is the signed comparison. -/
def periodicAndBoundaryFlagsFromBits (bits : BitVec 32) : Bool × Bool :=
  (decide (0 < (bits &&& 1#32).toInt), decide (0 < (bits &&& 2#32).toInt))

/-- `ConnectionType::try_from`, mod.rs lines 140-160; `none` is `Err(())`. -/
def ConnectionType.tryFrom (value : BitVec 32) : Option ConnectionType :=
  if value.toInt = -1 then none
  else
    let (periodic1, boundary1) := periodicAndBoundaryFlagsFromBits (value &&& 3#32)
    let (periodic2, boundary2) := periodicAndBoundaryFlagsFromBits ((value &&& 12#32).sshiftRight 2)
    let valid := !(boundary1 || boundary2 || (periodic1 && periodic2))
    if !valid then none else some ⟨periodic1, periodic2⟩

/-- One row of the datasets of the file. -/
structure Row (A N : Type) where
  id1 : UId
  id2 : UId
  connectionType : BitVec 32
  area : A
  normal : N

/-- `Connection`, mod.rs lines 198-205. -/
structure Connection (A N : Type) where
  area : A
  normal : N
  id1 : UId
  id2 : UId
  type : ConnectionType

/-- The `filter_map` of `read_connection_data`, mod.rs lines 246-255. -/
def readConnections {A N : Type} (rows : List (Row A N)) : List (Connection A N) :=
  rows.filterMap fun row => do
    let type ← ConnectionType.tryFrom row.connectionType
    some ⟨row.area, row.normal, row.id1, row.id2, type⟩

/-! ## Hash maps -/

/-- `HashMap::insert`. -/
def hmInsert {V : Type} (m : List (UId × V)) (k : UId) (v : V) : List (UId × V) :=
  (k, v) :: m.filter (fun e => e.1 ≠ k)

/-- `HashMap::extend` and `collect` into a `HashMap`. -/
def hmExtend {V : Type} (m : List (UId × V)) (l : List (UId × V)) : List (UId × V) :=
  l.foldl (fun m e => hmInsert m e.1 e.2) m

/-! ## The id cache -/

/-- The field `map` of `IdCache`, id_cache.rs lines 25-29. -/
abbrev IdMap := List (UId × PId)

/-- `IdCache::lookup`, id_cache.rs lines 40-42. -/
def IdMap.find (m : IdMap) (id : UId) : Option PId := m.lookup id

/-- `IdCache::is_local`, id_cache.rs lines 44-49. -/
def IdMap.isLocal (m : IdMap) (rank : ℕ) (id : UId) : Bool :=
  match m.find id with
  | some pid => pid.rank = rank
  | none => false

/-- `add_lookup_request_if_necessary`, id_cache.rs lines 86-90. -/
def addLookupRequestIfNecessary (m : IdMap) (rank : ℕ) (requests : List UId) (id : UId) : List UId :=
  if m.isLocal rank id then requests
  else if id ∈ requests then requests else requests ++ [id]

/-- The replies of a rank with map `m` to the requests of another rank, id_cache.rs lines 64-76. -/
def replies (m : IdMap) (requests : List UId) : List (UId × PId) :=
  requests.filterMap fun id => (m.find id).map fun pid => (id, pid)

/-- `exchange_request_chunk`, id_cache.rs lines 59-84, on all ranks at once: every rank sends its chunk
to all other ranks, which reply with what they know; the replies are taken in the order of ranks. -/
def exchangeRequestChunk (W : ℕ) (maps : ℕ → IdMap) (chunk : ℕ → List UId) : ℕ → IdMap := fun r =>
  ((List.range W).filter (fun s => s ≠ r)).foldl
    (fun m s => hmExtend m (replies (maps s) (chunk r))) (maps r)

/-- The chunk of rank `r` in round `k`; by C07 all ranks have the same number of chunks. -/
def chunkOf (chunked : List (List (List UId))) (k r : ℕ) : List UId :=
  match chunked[r]? with
  | some cs =>
    match cs[k]? with
    | some c => c
    | none => []
  | none => []

/-- `perform_lookup`, id_cache.rs lines 51-57, on all ranks; `CHUNK_SIZE` is line 12. -/
def performLookup (W : ℕ) (maps : ℕ → IdMap) (requests : ℕ → List UId) : Option (ℕ → IdMap) := do
  let chunked ← divideIntoChunks ((List.range W).map requests) 10000
  let rounds := (chunked.map List.length).foldl max 0
  some ((List.range rounds).foldl (fun maps k => exchangeRequestChunk W maps (chunkOf chunked k)) maps)

/-! ## The constructor -/

/-- `ParticleType`, sweep/grid/cell.rs lines 17-24.  The wrap type of the periodic variants is omitted:
`get_periodic_wrap_type`, mod.rs lines 402-407, is `todo!()`, so they are never made. -/
inductive PType where
  | loc (id : PId)
  | remote (id : PId) (rank : ℕ)
  | boundary
deriving DecidableEq

/-- `is_local`, cell.rs lines 30-32. -/
def PType.isLocal : PType → Bool
  | .loc _ => true
  | _ => false

/-- `Face`. -/
structure Face (A N : Type) where
  area : A
  normal : N

/-- A particle of a rank: its id, its unique id and its volume (mass over density). -/
structure Particle (V : Type) where
  id : PId
  uid : UId
  volume : V

/-- `Cell`; the size (cube root of the volume) is omitted. -/
structure Cell (A N V : Type) where
  neighbours : List (Face A N × PType)
  volume : V

variable {A N V : Type}

/-- The map of `Constructor::new`, mod.rs lines 278-281. -/
def initialMap (particles : List (Particle V)) : IdMap :=
  hmExtend [] (particles.map fun p => (p.uid, p.id))

/-- `unique_particle_id_to_index`, mod.rs lines 282-286. -/
def uniqueParticleIdToIndex (particles : List (Particle V)) : List (UId × ℕ) :=
  hmExtend [] (particles.zipIdx.map fun p => (p.1.uid, p.2))

/-- The cells of `Constructor::new`, mod.rs lines 287-294. -/
def initialCells (particles : List (Particle V)) : List (Cell A N V) :=
  particles.map fun p => ⟨[], p.volume⟩

/-- `get_particle_type`, mod.rs lines 311-341; the two periodic branches call `todo!()`. -/
def getParticleType (m : IdMap) (rank : ℕ) (allowPeriodic : Bool) (id : UId) (isPeriodic : Bool) :
    Option PType := do
  let pid ← m.find id
  match (decide (pid.rank = rank)), isPeriodic with
  | true, false => some (.loc pid)
  | true, true => if allowPeriodic then none else some .boundary
  | false, false => some (.remote pid pid.rank)
  | false, true => if allowPeriodic then none else some .boundary

/-- `add_neighbour` with `get_cell_by_id`, mod.rs lines 307-309 and 374-378. -/
def addNeighbour (index : List (UId × ℕ)) (cells : List (Cell A N V)) (id : UId) (face : Face A N)
    (neighbour : PType) : Option (List (Cell A N V)) := do
  let i ← index.lookup id
  let cell ← cells[i]?
  some (cells.set i { cell with neighbours := cell.neighbours ++ [(face, neighbour)] })

/-- The body of the loop of `add_connections`, mod.rs lines 352-369. -/
def addConnection [Neg N] (m : IdMap) (rank : ℕ) (allowPeriodic : Bool) (index : List (UId × ℕ))
    (cells : List (Cell A N V)) (c : Connection A N) : Option (List (Cell A N V)) := do
  let face1 : Face A N := ⟨c.area, c.normal⟩
  let face2 : Face A N := ⟨c.area, -c.normal⟩
  let ptype1 ← getParticleType m rank allowPeriodic c.id1 c.type.periodic1
  let ptype2 ← getParticleType m rank allowPeriodic c.id2 c.type.periodic2
  let cells ← if ptype1.isLocal then addNeighbour index cells c.id1 face2 ptype2 else some cells
  if ptype2.isLocal then addNeighbour index cells c.id2 face1 ptype1 else some cells

/-- `filter_relevant_connections`, mod.rs lines 380-390. -/
def filterRelevantConnections (m : IdMap) (rank : ℕ) (cs : List (Connection A N)) :
    List (Connection A N) :=
  cs.filter fun c => m.isLocal rank c.id1 || m.isLocal rank c.id2

/-- `add_lookup_requests`, mod.rs lines 392-399. -/
def addLookupRequests (m : IdMap) (rank : ℕ) (cs : List (Connection A N)) : List UId :=
  cs.foldl (fun reqs c =>
    addLookupRequestIfNecessary m rank (addLookupRequestIfNecessary m rank reqs c.id1) c.id2) []

/-- What a rank ends up with: its cells in the order of its particles, and the halo particles. -/
structure RankGrid (A N V : Type) where
  cells : List (Cell A N V)
  haloes : List PId

/-- The part of `add_connections`, mod.rs lines 343-372, after the lookup on one rank. -/
def finish [Neg N] (m : IdMap) (rank : ℕ) (allowPeriodic : Bool) (particles : List (Particle V))
    (relevant : List (Connection A N)) : Option (RankGrid A N V) := do
  let haloes := (m.map Prod.snd).filter fun id => id.rank ≠ rank
  let cells ← relevant.foldlM (addConnection m rank allowPeriodic (uniqueParticleIdToIndex particles))
    (initialCells particles)
  some ⟨cells, haloes⟩

/-- `read_grid_system`, mod.rs lines 409-437, on all ranks: the grids of all ranks in order. -/
def readGrid [Neg N] (W : ℕ) (particles : ℕ → List (Particle V)) (allowPeriodic : Bool)
    (rows : List (Row A N)) : Option (List (RankGrid A N V)) := do
  let connections := readConnections rows
  let maps := fun r => initialMap (particles r)
  let relevant := fun r => filterRelevantConnections (maps r) r connections
  let requests := fun r => addLookupRequests (maps r) r (relevant r)
  let maps' ← performLookup W maps requests
  (List.range W).mapM fun r => finish (maps' r) r allowPeriodic (particles r) (relevant r)

end Verif.GridFile
