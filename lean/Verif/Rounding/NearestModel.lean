import Verif.Rounding.Model
import Verif.Remap.Spec

/-!
# Remapping from a snapshot in `f64`: model of `/repo/src/arepo_postprocess/remap.rs`

The functions of `Verif/Remap/Model.lean` in which numbers are computed, with every operation rounded.  The k-d tree
(external crate) is a parameter `nearest`; its contract is `NearestContractF`: the computed squared distance is the
smallest one.
-/

namespace Verif.Rounding.Nearest

open Verif.Rounding Verif.Remap
open Verif.Geometry (Vec Extent fromPositions)
open Verif.Collective (divideIntoChunks)

/-- `squared_euclidean` of the external crate `kiddo`: the squares of the differences, added from left to right,
starting with zero. -/
def sqDistF (p q : Vec 3 ℚ) : ℚ :=
  0 ⊞ (p 0 ⊟ q 0) ⊠ (p 0 ⊟ q 0) ⊞ (p 1 ⊟ q 1) ⊠ (p 1 ⊟ q 1) ⊞ (p 2 ⊟ q 2) ⊠ (p 2 ⊟ q 2)

/-- The contract of the k-d tree: for a non-empty list of points it returns the index of a point of smallest computed
squared distance, and this distance. -/
def NearestContractF (nearest : Nearest ℚ) : Prop :=
  ∀ ps q, ps ≠ [] → ∃ p, ps[(nearest ps q).2]? = some p ∧ (nearest ps q).1 = sqDistF p q ∧
    ∀ p' ∈ ps, sqDistF p q ≤ sqDistF p' q

/-- `Extent::squared_distance_to_pos`, domain/extent.rs lines 316-327; `powi::<2>` is a product. -/
def squaredDistanceToPosF (e : Extent 3 ℚ) (pos : Vec 3 ℚ) : ℚ :=
  let dx := max (max 0 (e.min 0 ⊟ pos 0)) (pos 0 ⊟ e.max 0)
  let dy := max (max 0 (e.min 1 ⊟ pos 1)) (pos 1 ⊟ e.max 1)
  let dz := max (max 0 (e.min 2 ⊟ pos 2)) (pos 2 ⊟ e.max 2)
  dx ⊠ dx ⊞ dy ⊠ dy ⊞ dz ⊠ dz

/-- `read_remap_data`, remap.rs lines 82-126, after reading, in a run with cosmology: the positions are scaled to the
present scale factor `a`; `b` is the scale factor stored in the snapshot.  The first power of `powi` is exact. -/
def readRemapDataF (a b : ℚ) (rows : List (Full ℚ)) : List (Full ℚ) :=
  rows.map fun d => { d with pos := fun i => d.pos i ⊠ (a ⊘ b) }

/-- `closer_particle_could_exist_on_other_rank`, remap.rs lines 254-264. -/
def closerF (extent : Extent 3 ℚ) (pos : Vec 3 ℚ) (squaredDistance : ℚ) : Bool :=
  squaredDistanceToPosF extent pos < squaredDistance

/-- The body of the inner loop of `get_outgoing_requests`, remap.rs lines 240-251. -/
def wantsRequestF (extent : Extent 3 ℚ) (localMap : ClosestMap ℚ) (request : Request ℚ) : Option Bool := do
  let reply ← localMap.lookup request.1
  some (closerF extent request.2 reply.squaredDistance)

/-- `get_outgoing_requests`, remap.rs lines 227-252, for one other rank. -/
def getOutgoingRequestsF (extents : ℕ → Option (Extent 3 ℚ)) (localMap : ClosestMap ℚ) (chunk : List (Request ℚ))
    (rank : ℕ) : Option (List (Request ℚ)) := do
  let extent ← extents rank
  let wants ← chunk.mapM (wantsRequestF extent localMap)
  some ((chunk.zip wants).filterMap fun x => if x.2 then some x.1 else none)

/-- The replies which a rank gets from rank `s`, remap.rs lines 201-212. -/
def repliesFromF (nearest : Nearest ℚ) (data : ℕ → List (Full ℚ)) (closest : ClosestMap ℚ) (chunk : List (Request ℚ))
    (s : ℕ) : Option (List (ℕ × Reply ℚ)) := do
  let outgoing ← getOutgoingRequestsF (exchangeExtents data) closest chunk s
  outgoing.mapM fun request => (getReply nearest (data s) request.2).map fun reply => (request.1, reply)

/-- `exchange_request_chunk`, remap.rs lines 196-225, seen from rank `r`. -/
def exchangeRequestChunkF (nearest : Nearest ℚ) (W : ℕ) (data : ℕ → List (Full ℚ)) (r : ℕ)
    (particles : List (Particle ℚ)) (chunk : List (Request ℚ)) : Option (List (Particle ℚ)) := do
  let closest ← initialClosest nearest (data r) chunk
  let incoming ← ((List.range W).filter fun s => s ≠ r).mapM (repliesFromF nearest data closest chunk)
  let closest ← incoming.flatten.foldlM mergeReply closest
  closest.foldlM applyClosest particles

/-- `remap`, remap.rs lines 184-194, on all ranks. -/
def remapF (nearest : Nearest ℚ) (W : ℕ) (data : ℕ → List (Full ℚ)) (particles : ℕ → List (Particle ℚ)) :
    Option (List (List (Particle ℚ))) := do
  let chunked ← divideIntoChunks
    ((List.range W).map fun r => (particles r).map fun p => (p.entity, p.pos)) 1000000
  (List.range W).mapM fun r => do
    let chunks ← chunked[r]?
    chunks.foldlM (exchangeRequestChunkF nearest W data r) (particles r)

/-- `remap_abundances_and_energies_system`, remap.rs lines 393-432, from the data read on all ranks; `owner` is
`get_owning_rank` of the key of a position. -/
def remapSystemF (nearest : Nearest ℚ) (W : ℕ) (owner : Vec 3 ℚ → ℕ) (data : ℕ → List (Full ℚ))
    (particles : ℕ → List (Particle ℚ)) : Option (List (List (Particle ℚ))) :=
  remapF nearest W (exchangeAccordingToDomainDecomposition W owner data) particles

end Verif.Rounding.Nearest
