import Verif.Cartesian.Model

/-!
# Specification of the cartesian grid

The grid a user expects: cell positions are the integer points of a box of `⌊L / s⌋` points per axis,
every cell has one face per axis and direction, and the cell behind a face is the next one in that
direction, counted modulo the number of cells.
-/

namespace Verif.Cartesian

open Verif.Geometry (WrapType)

/-- The six steps to a neighbouring position, in the order of `iter_neighbours`. -/
def step (k : Fin 6) (p : IPos) : IPos :=
  match k with
  | 0 => ⟨p.x - 1, p.y, p.z⟩
  | 1 => ⟨p.x + 1, p.y, p.z⟩
  | 2 => ⟨p.x, p.y - 1, p.z⟩
  | 3 => ⟨p.x, p.y + 1, p.z⟩
  | 4 => ⟨p.x, p.y, p.z - 1⟩
  | 5 => ⟨p.x, p.y, p.z + 1⟩

/-- The opposite step. -/
def opp (k : Fin 6) : Fin 6 :=
  match k with
  | 0 => 1
  | 1 => 0
  | 2 => 3
  | 3 => 2
  | 4 => 5
  | 5 => 4

/-- The unit vector of a step. -/
def unit (k : Fin 6) : V3 :=
  match k with
  | 0 => ⟨-1, 0, 0⟩
  | 1 => ⟨1, 0, 0⟩
  | 2 => ⟨0, -1, 0⟩
  | 3 => ⟨0, 1, 0⟩
  | 4 => ⟨0, 0, -1⟩
  | 5 => ⟨0, 0, 1⟩

/-- The inverse of a wrap. -/
def oppWrapType : WrapType → WrapType
  | .noWrap => .noWrap
  | .plus => .minus
  | .minus => .plus

/-- A box with positive side lengths, a positive cell size and at least one rank. -/
def Config.Valid (c : Config) : Prop :=
  0 < c.side.x ∧ 0 < c.side.y ∧ 0 < c.side.z ∧ 0 < c.cellSize ∧ 0 < c.worldSize

/-- The cell behind the `k`-th face: the next position, modulo the number of cells. -/
def target (k : Fin 6) (p n : IPos) : IPos :=
  ⟨(step k p).x % n.x, (step k p).y % n.y, (step k p).z % n.z⟩

/-- The `k`-th face of the cell lies on the boundary of the box. -/
def OnBoundary (k : Fin 6) (p n : IPos) : Prop :=
  match k with
  | 0 => p.x = 0
  | 1 => p.x = n.x - 1
  | 2 => p.y = 0
  | 3 => p.y = n.y - 1
  | 4 => p.z = 0
  | 5 => p.z = n.z - 1

/-- The wrap of a step across the `k`-th face of the box. -/
def boundaryWrap (k : Fin 6) : Wrap :=
  match k with
  | 0 => ⟨.minus, .noWrap, .noWrap⟩
  | 1 => ⟨.plus, .noWrap, .noWrap⟩
  | 2 => ⟨.noWrap, .minus, .noWrap⟩
  | 3 => ⟨.noWrap, .plus, .noWrap⟩
  | 4 => ⟨.noWrap, .noWrap, .minus⟩
  | 5 => ⟨.noWrap, .noWrap, .plus⟩

/-- The wrap recorded in a neighbour entry; none for a neighbour inside the box. -/
def PType.wrap : PType → Wrap
  | .localPeriodic _ w => w
  | .remotePeriodic _ _ w => w
  | _ => ⟨.noWrap, .noWrap, .noWrap⟩

def oppWrap (w : Wrap) : Wrap := ⟨oppWrapType w.x, oppWrapType w.y, oppWrapType w.z⟩

/-- The entry which a cell on rank `r` should hold for a neighbour `id`; `B` says that the face lies
on the boundary of the box and `w` is the wrap of that side of the box. -/
inductive EntryFor (periodic : Bool) (r : ℤ) (id : PId) (B : Prop) (w : Wrap) : PType → Prop
  | loc : ¬ B → id.rank = r → EntryFor periodic r id B w (.loc id)
  | remote : ¬ B → id.rank ≠ r → EntryFor periodic r id B w (.remote id id.rank)
  | localPeriodic : B → periodic = true → id.rank = r →
      EntryFor periodic r id B w (.localPeriodic id w)
  | remotePeriodic : B → periodic = true → id.rank ≠ r →
      EntryFor periodic r id B w (.remotePeriodic id id.rank w)
  | boundary : B → periodic = false → EntryFor periodic r id B w .boundary

end Verif.Cartesian
