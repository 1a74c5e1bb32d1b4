import Verif.Geometry.Model
import Mathlib.Analysis.SpecialFunctions.Pow.Real
import Mathlib.Algebra.Order.Floor.Ring

/-!
# The cartesian grid: model of `/repo/src/sweep/grid/cartesian.rs` (three-dimensional build)

`f64` is modelled by real numbers and `i32` by unbounded integers (a grid has far fewer than `2^31`
cells per side).  `none` is a panic: `self.ids[pos]` for a missing position and the assertion of line 321.
-/

namespace Verif.Cartesian

open Verif.Geometry (WrapType)

/-- `IntegerPosition`, lines 77-83. -/
@[ext] structure IPos where
  x : ℤ
  y : ℤ
  z : ℤ
deriving DecidableEq

/-- `VecLength`. -/
@[ext] structure V3 where
  x : ℝ
  y : ℝ
  z : ℝ

def V3.sub (a b : V3) : V3 := ⟨a.x - b.x, a.y - b.y, a.z - b.z⟩

/-- `normalize`: division by the length. -/
noncomputable def V3.normalize (v : V3) : V3 :=
  let l := Real.sqrt (v.x * v.x + v.y * v.y + v.z * v.z)
  ⟨v.x / l, v.y / l, v.z / l⟩

/-- `contained`, lines 86-101. -/
def IPos.contained (p n : IPos) : Bool :=
  0 ≤ p.x && 0 ≤ p.y && 0 ≤ p.z && p.x < n.x && p.y < n.y && p.z < n.z

/-- `wrap_component`, lines 104-112. -/
def wrapComponent (v max : ℤ) : ℤ × WrapType :=
  if v ≥ max then (v - max, .plus)
  else if v < 0 then (v + max, .minus)
  else (v, .noWrap)

/-- `PeriodicWrapType3d`. -/
structure Wrap where
  x : WrapType
  y : WrapType
  z : WrapType
deriving DecidableEq

/-- `wrapped`, lines 103-139. -/
def IPos.wrapped (p n : IPos) : Wrap × IPos :=
  let (x, xw) := wrapComponent p.x n.x
  let (y, yw) := wrapComponent p.y n.y
  let (z, zw) := wrapComponent p.z n.z
  (⟨xw, yw, zw⟩, ⟨x, y, z⟩)

/-- `from_position_and_side_length`, lines 141-158. -/
noncomputable def fromPositionAndSideLength (pos : V3) (s : ℝ) : IPos :=
  ⟨⌊pos.x / s⌋, ⌊pos.y / s⌋, ⌊pos.z / s⌋⟩

/-- `to_pos`, lines 160-177. -/
noncomputable def IPos.toPos (p : IPos) (side : V3) (n : IPos) : V3 :=
  ⟨side.x * p.x / n.x, side.y * p.y / n.y, side.z * p.z / n.z⟩

/-- The range `0..n` of `i32`. -/
def rangeZ (n : ℤ) : List ℤ := (List.range n.toNat).map Int.ofNat

/-- `iter_all_contained`, lines 179-190. -/
def IPos.iterAllContained (n : IPos) : List IPos :=
  (rangeZ n.x).flatMap fun x => (rangeZ n.y).flatMap fun y => (rangeZ n.z).map fun z => ⟨x, y, z⟩

/-- `iter_neighbours`, lines 192-217. -/
def IPos.iterNeighbours (p : IPos) : List IPos :=
  [⟨p.x - 1, p.y, p.z⟩, ⟨p.x + 1, p.y, p.z⟩, ⟨p.x, p.y - 1, p.z⟩, ⟨p.x, p.y + 1, p.z⟩,
    ⟨p.x, p.y, p.z - 1⟩, ⟨p.x, p.y, p.z + 1⟩]

/-- `ParticleId`. -/
structure PId where
  index : ℕ
  rank : ℤ
deriving DecidableEq

/-- `ParticleType`, cell.rs lines 17-24. -/
inductive PType where
  | loc (id : PId)
  | remote (id : PId) (rank : ℤ)
  | boundary
  | localPeriodic (id : PId) (wrap : Wrap)
  | remotePeriodic (id : PId) (rank : ℤ) (wrap : Wrap)
deriving DecidableEq

/-- `unwrap_id`, cell.rs lines 35-43; `none` is the panic on a boundary. -/
def PType.unwrapId : PType → Option PId
  | .loc id => some id
  | .remote id _ => some id
  | .localPeriodic id _ => some id
  | .remotePeriodic id _ _ => some id
  | .boundary => none

/-- `Face`, cell.rs lines 119-123. -/
structure Face where
  area : ℝ
  normal : V3

/-- `Cell`, cell.rs lines 92-97. -/
structure Cell where
  neighbours : List (Face × PType)
  size : ℝ
  volume : ℝ

/-- The inputs of `init_cartesian_grid_system`, lines 399-406: side lengths of the box, cell size,
number of ranks, periodic or not. -/
structure Config where
  side : V3
  cellSize : ℝ
  worldSize : ℕ
  periodic : Bool

namespace Config
variable (c : Config)

/-- `num_cells`, lines 42-48. -/
noncomputable def numCells : IPos := fromPositionAndSideLength c.side c.cellSize

/-- `to_pos`, lines 354-356. -/
noncomputable def toPos (p : IPos) : V3 := p.toPos c.side c.numCells

/-- `rank_function`, lines 409-413. -/
noncomputable def rankFunction (pos : V3) : ℤ := ⌊(pos.x / c.side.x) * (c.worldSize : ℝ)⌋

/-- `get_rank`, lines 358-361. -/
noncomputable def getRank (p : IPos) : ℤ := c.rankFunction (c.toPos p)

/-- The first loop of `construct`, lines 254-269, with `next_index`, lines 390-394; `idx` is the map
`indices`. -/
noncomputable def assignIds : List IPos → (ℤ → ℕ) → List (IPos × PId)
  | [], _ => []
  | p :: ps, idx =>
    let rank := c.getRank p
    (p, ⟨idx rank, rank⟩) :: assignIds ps (Function.update idx rank (idx rank + 1))

/-- The map `ids`. -/
noncomputable def ids : List (IPos × PId) := c.assignIds c.numCells.iterAllContained (fun _ => 0)

/-- `self.ids[pos]`. -/
noncomputable def lookupId (p : IPos) : Option PId := c.ids.lookup p

/-- `get_neighbour`, lines 315-348. -/
noncomputable def getNeighbour (neighbour : IPos) (particleRank : ℤ) : Option PType := do
  let isPeriodic := !neighbour.contained c.numCells
  let (wrap, wrapped) := neighbour.wrapped c.numCells
  let pos := if isPeriodic then wrapped else neighbour
  let id ← c.lookupId pos
  let neighbourRank := c.getRank pos
  if id.rank ≠ neighbourRank then none
  else
    let isLocal := particleRank = neighbourRank
    if !isPeriodic then
      if isLocal then some (.loc id) else some (.remote id neighbourRank)
    else if c.periodic then
      if isLocal then some (.localPeriodic id wrap) else some (.remotePeriodic id neighbourRank wrap)
    else some .boundary

/-- The construction of one cell, lines 291-312. -/
noncomputable def constructCell (p : IPos) : Option Cell := do
  let pos := c.toPos p
  let rank := c.getRank p
  let neighbours ← p.iterNeighbours.mapM fun nb => do
    let face : Face := { area := c.cellSize ^ 2, normal := ((c.toPos nb).sub pos).normalize }
    let ptype ← c.getNeighbour nb rank
    some (face, ptype)
  some { neighbours := neighbours, size := c.cellSize, volume := c.cellSize ^ 3 }

/-- `construct_neighbours`, lines 290-314. -/
noncomputable def constructNeighbours : Option (List (IPos × Cell)) :=
  c.numCells.iterAllContained.mapM fun p => do
    let cell ← c.constructCell p
    some (p, cell)

end Config

/-- What is spawned for one cell, lines 363-384. -/
inductive Spawned where
  | localCell
  | halo (rank : ℤ)
  | nothing
deriving DecidableEq

/-- Whether a neighbour entry refers to a cell on rank `r` from another rank, lines 372-379. -/
def PType.refersTo (t : PType) (r : ℤ) : Bool :=
  match t with
  | .remote _ rank => rank = r
  | .remotePeriodic _ rank _ => rank = r
  | _ => false

/-- The body of the loop of `spawn_local_cells`, lines 366-383, on rank `self`. -/
noncomputable def Config.spawn (c : Config) (self : ℤ) (p : IPos) (cell : Cell) : Spawned :=
  let rank := c.getRank p
  if rank = self then .localCell
  else if cell.neighbours.any (fun n => n.2.refersTo self) then .halo rank
  else .nothing

end Verif.Cartesian
