import Mathlib.Data.List.Sort
import Verif.Delaunay.GeoModel

/-!
# Delaunay triangulation: the whole construction in three dimensions

Model of `construct`, `construct_from_iter_custom_extent` (`/repo/src/voronoi/delaunay/mod.rs` lines 125-149) and
of `remap_point` (`/repo/src/dimension.rs` lines 56-59).
-/

namespace Verif.Delaunay

open Verif.Predicates (P3)

variable {K : Type} [Field K] [LinearOrder K] {N : Type}

/-- `Extent::from_points` (extent.rs lines 55-85) for the four vertices of a tetrahedron, as called by
`TetrahedronData::extent` (primitives/tetrahedron.rs lines 154-156). -/
def extent3 (t : Predicates.Tetra K) : P3 K × P3 K :=
  (⟨min (min (min t.p1.x t.p2.x) t.p3.x) t.p4.x, min (min (min t.p1.y t.p2.y) t.p3.y) t.p4.y,
    min (min (min t.p1.z t.p2.z) t.p3.z) t.p4.z⟩,
   ⟨max (max (max t.p1.x t.p2.x) t.p3.x) t.p4.x, max (max (max t.p1.y t.p2.y) t.p3.y) t.p4.y,
    max (max (max t.p1.z t.p2.z) t.p3.z) t.p4.z⟩)

/-- `remap_point` in three dimensions, dimension.rs lines 56-59; every axis is divided by its own side length.
The `debug_assert` is not modelled. -/
def remapPoint3 (e : P3 K × P3 K) (p : P3 K) : P3 K :=
  ⟨1 + (p.x - e.1.x) * (1 / (e.2.x - e.1.x)), 1 + (p.y - e.1.y) * (1 / (e.2.y - e.1.y)),
   1 + (p.z - e.1.z) * (1 / (e.2.z - e.1.z))⟩

/-- The result of `construct`: the triangulation, the positions of its points (`get_original_point`, mod.rs
lines 110-112) and the index of the point with a given name. -/
structure Construction3 (K N : Type) where
  state : State
  position : ℕ → P3 K
  indices : List (N × ℕ)

/-- The list of the positions of all points in the order in which they enter the point list: first the vertices
of the initial tetrahedron (`insert_basic_tetra`, impl_3d.rs lines 402-413), then the points in the order of
the insertions. -/
def allPoints3 (lo hi : P3 K) (pts : List (P3 K)) : List (P3 K) :=
  let t := Predicates.Tetra.allEncompassing lo hi
  t.p1 :: t.p2 :: t.p3 :: t.p4 :: pts

/-- The position of a point by its index; indices which do not exist are never used. -/
def positionOf3 (l : List (P3 K)) (i : ℕ) : P3 K := l[i]?.getD ⟨0, 0, 0⟩

/-- `construct`, mod.rs lines 125-139, in three dimensions, for the box from `lo` to `hi`.  The points are sorted by
their key on the Peano-Hilbert curve (`key`; a stable sort), the initial tetrahedron is set up and the points are
inserted one after the other.  `reserve_capacity` has no observable effect and is left out. -/
def construct3 (eps : K) (key : P3 K → ℕ) (pop : Heaps) (fuel : ℕ) (lo hi : P3 K)
    (points : List (N × P3 K)) : Outcome (Construction3 K N) :=
  let sorted := points.insertionSort fun a b => key a.2 ≤ key b.2
  let position := positionOf3 (allPoints3 lo hi (sorted.map Prod.snd))
  let remapped := fun i => remapPoint3 (extent3 (Predicates.Tetra.allEncompassing lo hi)) (position i)
  match start3 with
  | none => .panic
  | some s0 =>
    match insertMany (geo3 eps remapped) (ops3 (intersect3 remapped)) pop fuel sorted.length s0 with
    | .panic => .panic
    | .running => .running
    | .done s => .done ⟨s, position, sorted.zipIdx.map fun e => (e.1.1, 4 + e.2)⟩

/-- `Extent::including_periodic_images`, extent.rs lines 28-34: the box which is passed to the construction by
`Constructor::construct_from_iter` (constructor/mod.rs lines 70-72), given the box of the simulation. -/
def withPeriodicImages (lo hi : P3 K) : P3 K × P3 K :=
  (⟨lo.x - (hi.x - lo.x), lo.y - (hi.y - lo.y), lo.z - (hi.z - lo.z)⟩,
   ⟨hi.x + (hi.x - lo.x), hi.y + (hi.y - lo.y), hi.z + (hi.z - lo.z)⟩)

end Verif.Delaunay
