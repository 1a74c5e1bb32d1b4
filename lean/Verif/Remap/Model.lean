import Verif.Comm.CollectiveModel
import Verif.Geometry.Model
import Verif.GridFile.Model

/-!
# Remapping from a snapshot: model of `/repo/src/arepo_postprocess/remap.rs`

Ranks are the numbers below the world size `W`.  Numbers are elements of a linearly ordered field.  The
k-d tree (external crate) is a parameter `nearest` of the definitions; its contract is `NearestContract`
of `Verif/Remap/Spec.lean`.  Reading the files is modelled in
`Verif/Remap/SnapshotModel.lean`.  Hash maps are association lists, see
`Verif/GridFile/Model.lean`; entities are numbers.  `none` is a panic on some rank.
-/

namespace Verif.Remap

open Verif.Geometry (Vec Extent fromPositions)
open Verif.Collective (divideIntoChunks)
open Verif.GridFile (hmInsert hmExtend)

variable {K : Type} [Field K] [LinearOrder K]

/-- `FullRemapData`, lines 64-69. -/
structure Full (K : Type) where
  pos : Vec 3 K
  temperature : K
  ionizedHydrogenFraction : K

/-- `SearchReply` with its `RemapData`, lines 52-62. -/
structure Reply (K : Type) where
  squaredDistance : K
  temperature : K
  ionizedHydrogenFraction : K

/-- What the system sees of a particle. -/
structure Particle (K : Type) where
  entity : ℕ
  pos : Vec 3 K
  temperature : K
  ionizedHydrogenFraction : K

/-- `Identified<SearchRequest>`. -/
abbrev Request (K : Type) := ℕ × Vec 3 K

/-- `KdTree::nearest_one` with `squared_euclidean`: squared distance and index. -/
abbrev Nearest (K : Type) := List (Vec 3 K) → Vec 3 K → K × ℕ

/-- The scale factor of a cosmology (`None` for `NonCosmological`).  -/
abbrev Cosmology (K : Type) := Option K

/-- `get_scale_factor_difference` for a length, lines 355-378. -/
def getScaleFactorDifference (cosmology remapCosmology : Cosmology K) : Option K :=
  match cosmology with
  | some a =>
    match remapCosmology with
    | some b => some (a / b)
    | none => none
  | none =>
    match remapCosmology with
    | some _ => none
    | none => some 1

/-- `read_remap_data`, lines 82-126, after reading: the positions are scaled to the present scale
factor; `b` is the scale factor stored in the snapshot. -/
def readRemapData (cosmology : Cosmology K) (b : K) (rows : List (Full K)) : Option (List (Full K)) := do
  let factor ← getScaleFactorDifference cosmology (some b)
  some (rows.map fun d => { d with pos := fun i => d.pos i * factor })

/-- The rank to which a data point is sent, lines 290-298; `owner` is `get_owning_rank` of its key. -/
def destination (W : ℕ) (owner : Vec 3 K → ℕ) (thisRank : ℕ) (d : Full K) : ℕ :=
  if owner d.pos ≥ W then thisRank else owner d.pos

/-- `exchange_according_to_domain_decomposition`, lines 278-306, on all ranks: the data which rank `r`
holds afterwards. -/
def exchangeAccordingToDomainDecomposition (W : ℕ) (owner : Vec 3 K → ℕ) (data : ℕ → List (Full K))
    (r : ℕ) : List (Full K) :=
  ((List.range W).filter fun s => s ≠ r).flatMap
    (fun s => (data s).filter fun d => destination W owner s d = r) ++
  (data r).filter fun d => destination W owner r d = r

/-- `exchange_extents`, lines 308-317: ranks without data have no entry. -/
def exchangeExtents (data : ℕ → List (Full K)) (rank : ℕ) : Option (Extent 3 K) :=
  fromPositions ((data rank).map fun d => d.pos)

/-- `get_reply`, lines 266-273. -/
def getReply (nearest : Nearest K) (data : List (Full K)) (pos : Vec 3 K) : Option (Reply K) := do
  let (squaredDistance, index) := nearest (data.map fun d => d.pos) pos
  let d ← data[index]?
  some ⟨squaredDistance, d.temperature, d.ionizedHydrogenFraction⟩

/-- `closer_particle_could_exist_on_other_rank`, lines 254-264. -/
def closerParticleCouldExistOnOtherRank (extent : Extent 3 K) (pos : Vec 3 K) (squaredDistance : K) :
    Bool :=
  extent.squaredDistanceToPos pos < squaredDistance

/-- The map from entities to the closest particle so far. -/
abbrev ClosestMap (K : Type) := List (ℕ × Reply K)

/-- The body of the inner loop of `get_outgoing_requests`, lines 240-251. -/
def wantsRequest (extent : Extent 3 K) (localMap : ClosestMap K) (request : Request K) :
    Option Bool := do
  let reply ← localMap.lookup request.1
  some (closerParticleCouldExistOnOtherRank extent request.2 reply.squaredDistance)

/-- `get_outgoing_requests`, lines 227-252, for one other rank. -/
def getOutgoingRequests (extents : ℕ → Option (Extent 3 K)) (localMap : ClosestMap K)
    (chunk : List (Request K)) (rank : ℕ) : Option (List (Request K)) := do
  let extent ← extents rank
  let wants ← chunk.mapM (wantsRequest extent localMap)
  some ((chunk.zip wants).filterMap fun x => if x.2 then some x.1 else none)

/-- The merging of one reply, lines 212-218. -/
def mergeReply (closest : ClosestMap K) (reply : ℕ × Reply K) : Option (ClosestMap K) := do
  let previouslyClosest ← closest.lookup reply.1
  if previouslyClosest.squaredDistance > reply.2.squaredDistance then
    some (hmInsert closest reply.1 reply.2)
  else some closest

/-- `remap_from`, lines 380-383. -/
def remapFrom (p : Particle K) (reply : Reply K) : Particle K :=
  { p with
    temperature := max p.temperature reply.temperature
    ionizedHydrogenFraction := max p.ionizedHydrogenFraction reply.ionizedHydrogenFraction }

/-- The body of the last loop of `exchange_request_chunk`, lines 220-223. -/
def applyClosest (particles : List (Particle K)) (closest : ℕ × Reply K) :
    Option (List (Particle K)) :=
  if particles.any (fun p => p.entity = closest.1) then
    some (particles.map fun p => if p.entity = closest.1 then remapFrom p closest.2 else p)
  else none

/-- The first lines of `exchange_request_chunk`, 197-200. -/
def initialClosest (nearest : Nearest K) (data : List (Full K)) (chunk : List (Request K)) :
    Option (ClosestMap K) := do
  let l ← chunk.mapM fun request => (getReply nearest data request.2).map fun reply => (request.1, reply)
  some (hmExtend [] l)

/-- The replies which rank `r` gets from rank `s`, lines 201-212. -/
def repliesFrom (nearest : Nearest K) (data : ℕ → List (Full K)) (closest : ClosestMap K)
    (chunk : List (Request K)) (s : ℕ) : Option (List (ℕ × Reply K)) := do
  let outgoing ← getOutgoingRequests (exchangeExtents data) closest chunk s
  outgoing.mapM fun request => (getReply nearest (data s) request.2).map fun reply => (request.1, reply)

/-- `exchange_request_chunk`, lines 196-225, seen from rank `r`: the data and extents never change, so
what happens to the requests of `r` does not depend on the requests of other ranks. -/
def exchangeRequestChunk (nearest : Nearest K) (W : ℕ) (data : ℕ → List (Full K)) (r : ℕ)
    (particles : List (Particle K)) (chunk : List (Request K)) : Option (List (Particle K)) := do
  let closest ← initialClosest nearest (data r) chunk
  let incoming ← ((List.range W).filter fun s => s ≠ r).mapM (repliesFrom nearest data closest chunk)
  let closest ← incoming.flatten.foldlM mergeReply closest
  closest.foldlM applyClosest particles

/-- `remap`, lines 184-194, on all ranks; `CHUNK_SIZE` is line 47. -/
def remap (nearest : Nearest K) (W : ℕ) (data : ℕ → List (Full K)) (particles : ℕ → List (Particle K)) :
    Option (List (List (Particle K))) := do
  let chunked ← divideIntoChunks
    ((List.range W).map fun r => (particles r).map fun p => (p.entity, p.pos)) 1000000
  (List.range W).mapM fun r => do
    let chunks ← chunked[r]?
    chunks.foldlM (exchangeRequestChunk nearest W data r) (particles r)

/-- `remap_abundances_and_energies_system`, lines 393-432, from the data read on all ranks. -/
def remapSystem (nearest : Nearest K) (W : ℕ) (owner : Vec 3 K → ℕ) (data : ℕ → List (Full K))
    (particles : ℕ → List (Particle K)) : Option (List (List (Particle K))) :=
  remap nearest W (exchangeAccordingToDomainDecomposition W owner data) particles

end Verif.Remap
