import Verif.Cartesian.Spec
import Verif.Rounding.AreaModel

/-!
# The cartesian grid in `f64`: model of `/repo/src/sweep/grid/cartesian.rs` (three-dimensional build)

As `Verif/Cartesian/Model.lean`, with every operation on `f64` rounded and with the conversions to `i32`.  The integer part (positions,
neighbours, wrapping) is that of `Verif/Cartesian/Model.lean`.  `none` is a panic: `self.ids[pos]` for a missing position and the
assertion of line 321.
-/

namespace Verif.Rounding.Mesh

open Verif.Cartesian Verif.Predicates Verif.Rounding

/-- `x.floor() as i32`: the conversion saturates. -/
def toI32 (x : ℚ) : ℤ := max (-2 ^ 31) (min (2 ^ 31 - 1) ⌊x⌋)

/-- `from_position_and_side_length`, lines 141-158. -/
def fromPositionF (pos : P3 ℚ) (s : ℚ) : IPos := ⟨toI32 (pos.x ⊘ s), toI32 (pos.y ⊘ s), toI32 (pos.z ⊘ s)⟩

/-- `to_pos`, lines 160-177: `side_length * self.x as Float / num_particles.x as Float`; every `i32` is an `f64`. -/
def toPosF (p : IPos) (side : P3 ℚ) (n : IPos) : P3 ℚ :=
  ⟨side.x ⊠ p.x ⊘ n.x, side.y ⊠ p.y ⊘ n.y, side.z ⊠ p.z ⊘ n.z⟩

/-- `Face`, cell.rs lines 119-123; `none` is a normal of NaN. -/
structure FaceG where
  area : ℚ
  normal : Option (P3 ℚ)

/-- `Cell`, cell.rs lines 92-97. -/
structure CellG where
  neighbours : List (FaceG × PType)
  size : ℚ
  volume : ℚ

/-- The inputs of `init_cartesian_grid_system`, lines 399-406: side lengths of the box, cell size, number of ranks, periodic or not. -/
structure ConfigF where
  side : P3 ℚ
  cellSize : ℚ
  worldSize : ℕ
  periodic : Bool

namespace ConfigF
variable (c : ConfigF)

/-- `num_cells`, lines 42-48. -/
def numCells : IPos := fromPositionF c.side c.cellSize

/-- `face_area`, lines 56-69; `powi::<2>` is taken to be a product. -/
def faceArea : ℚ := c.cellSize ⊠ c.cellSize

/-- `volume`, lines 71-75; `powi::<3>` is taken to be a product. -/
def volume : ℚ := c.cellSize ⊠ c.cellSize ⊠ c.cellSize

/-- `to_pos`, lines 354-356. -/
def toPos (p : IPos) : P3 ℚ := toPosF p c.side c.numCells

/-- `rank_function`, lines 409-413 (`round` does not change an integer). -/
def rankFunction (pos : P3 ℚ) : ℤ := toI32 (pos.x ⊘ c.side.x ⊠ (c.worldSize : ℚ))

/-- `get_rank`, lines 358-361. -/
def getRank (p : IPos) : ℤ := c.rankFunction (c.toPos p)

/-- The first loop of `construct`, lines 254-269, with `next_index`, lines 390-394; `idx` is the map `indices`. -/
def assignIds : List IPos → (ℤ → ℕ) → List (IPos × PId)
  | [], _ => []
  | p :: ps, idx =>
    let rank := c.getRank p
    (p, ⟨idx rank, rank⟩) :: assignIds ps (Function.update idx rank (idx rank + 1))

/-- The map `ids`. -/
def ids : List (IPos × PId) := c.assignIds c.numCells.iterAllContained (fun _ => 0)

/-- `self.ids[pos]`. -/
def lookupId (p : IPos) : Option PId := c.ids.lookup p

/-- `get_neighbour`, lines 315-348. -/
def getNeighbour (neighbour : IPos) (particleRank : ℤ) : Option PType := do
  let isPeriodic := !neighbour.contained c.numCells
  let (wrap, wrapped) := neighbour.wrapped c.numCells
  let pos := if isPeriodic then wrapped else neighbour
  let id ← c.lookupId pos
  let neighbourRank := c.getRank pos
  if id.rank ≠ neighbourRank then none
  else
    let isLocal := particleRank = neighbourRank
    if !isPeriodic then
      if isLocal then some (.loc id) else some (.remote id neighbourRank)
    else if c.periodic then
      if isLocal then some (.localPeriodic id wrap) else some (.remotePeriodic id neighbourRank wrap)
    else some .boundary

/-- The construction of one cell, lines 291-312. -/
noncomputable def constructCell (p : IPos) : Option CellG := do
  let pos := c.toPos p
  let rank := c.getRank p
  let neighbours ← p.iterNeighbours.mapM fun nb => do
    let face : FaceG := { area := c.faceArea, normal := normalF pos (c.toPos nb) }
    let ptype ← c.getNeighbour nb rank
    some (face, ptype)
  some { neighbours := neighbours, size := c.cellSize, volume := c.volume }

/-- `construct_neighbours`, lines 290-314. -/
noncomputable def constructNeighbours : Option (List (IPos × CellG)) :=
  c.numCells.iterAllContained.mapM fun p => do
    let cell ← c.constructCell p
    some (p, cell)

/-- The body of the loop of `spawn_local_cells`, lines 366-383, on rank `self`. -/
def spawn (self : ℤ) (p : IPos) (cell : CellG) : Spawned :=
  let rank := c.getRank p
  if rank = self then .localCell
  else if cell.neighbours.any (fun n => n.2.refersTo self) then .halo rank
  else .nothing

end ConfigF

end Verif.Rounding.Mesh
