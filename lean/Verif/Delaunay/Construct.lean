import Mathlib.Data.List.Sort
import Verif.Delaunay.GeoModel

/-!
# Delaunay triangulation: the whole construction in two dimensions

Model of `construct`, `construct_from_iter_custom_extent` (`/repo/src/voronoi/delaunay/mod.rs` lines 125-149) and
of `remap_point` (`/repo/src/dimension.rs` lines 44-47).
-/

namespace Verif.Delaunay

open Verif.Predicates (P2 Triangle2)

variable {K : Type} [Field K] [LinearOrder K] {N : Type}

/-- `Extent::from_points` (extent.rs lines 60-85) for the three vertices of a triangle, as called by
`TriangleData::extent` (primitives/triangle.rs lines 222-224). -/
def extent2 (t : Triangle2 K) : P2 K × P2 K :=
  (⟨min (min t.p1.x t.p2.x) t.p3.x, min (min t.p1.y t.p2.y) t.p3.y⟩,
   ⟨max (max t.p1.x t.p2.x) t.p3.x, max (max t.p1.y t.p2.y) t.p3.y⟩)

/-- `remap_point` in two dimensions, dimension.rs lines 44-47; both axes are divided by their own side length.
The `debug_assert` is not modelled. -/
def remapPoint2 (e : P2 K × P2 K) (p : P2 K) : P2 K :=
  ⟨1 + (p.x - e.1.x) * (1 / (e.2.x - e.1.x)), 1 + (p.y - e.1.y) * (1 / (e.2.y - e.1.y))⟩

/-- The result of `construct`: the triangulation, the positions of its points (`get_original_point`, mod.rs
lines 110-112) and the index of the point with a given name. -/
structure Construction (K N : Type) where
  state : State
  position : ℕ → P2 K
  indices : List (N × ℕ)

/-- The list of the positions of all points in the order in which they enter the point list: first the vertices
of the initial triangle (`insert_basic_tetra`, impl_2d.rs lines 193-196), then the points in the order of
the insertions. -/
def allPoints2 (lo hi : P2 K) (pts : List (P2 K)) : List (P2 K) :=
  let t := Triangle2.allEncompassing lo hi
  t.p1 :: t.p2 :: t.p3 :: pts

/-- The position of a point by its index; indices which do not exist are never used. -/
def positionOf (l : List (P2 K)) (i : ℕ) : P2 K := l[i]?.getD ⟨0, 0⟩

/-- `construct`, mod.rs lines 125-139, in two dimensions, for the box from `lo` to `hi`.  The points are sorted by
their key on the Peano-Hilbert curve (`key`; a stable sort), the initial triangle is set up and the points are inserted one after the
other.  `reserve_capacity` has no observable effect and is left out. -/
def construct2 (key : P2 K → ℕ) (pop : Heaps) (fuel : ℕ) (lo hi : P2 K)
    (points : List (N × P2 K)) : Outcome (Construction K N) :=
  let sorted := points.insertionSort fun a b => key a.2 ≤ key b.2
  let position := positionOf (allPoints2 lo hi (sorted.map Prod.snd))
  let remapped := fun i => remapPoint2 (extent2 (Triangle2.allEncompassing lo hi)) (position i)
  match start2 with
  | none => .panic
  | some s0 =>
    match insertMany (geo2 remapped) ops2 pop fuel sorted.length s0 with
    | .panic => .panic
    | .running => .running
    | .done s => .done ⟨s, position, sorted.zipIdx.map fun e => (e.1.1, 3 + e.2)⟩

end Verif.Delaunay
