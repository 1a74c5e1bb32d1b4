import Verif.Rounding.RemapProps
import Verif.Delaunay.Construct3

/-!
# The construction of the triangulation with rescaled coordinates in `f64`: model of `all_encompassing` in
`/repo/src/voronoi/primitives/tetrahedron.rs`, `remap_point` in `/repo/src/dimension.rs` and `construct` in
`/repo/src/voronoi/delaunay/mod.rs`
-/

namespace Verif.Rounding

open Verif.Predicates Verif.Delaunay

/-- The coordinate of the first vertex in `all_encompassing`, tetrahedron.rs lines 144-147: `min - dir * alpha`. -/
def cornerF (lo hi : ℚ) : ℚ := lo ⊟ (hi ⊟ lo) ⊠ fl (1 / 100)

/-- The coordinate of `projected` in `all_encompassing`, tetrahedron.rs lines 144-146:
`max + dir * (2.1 + alpha)`. -/
def projectedF (lo hi : ℚ) : ℚ := hi ⊞ (hi ⊟ lo) ⊠ (fl (21 / 10) ⊞ fl (1 / 100))

/-- `DTetraData::all_encompassing` in three dimensions, tetrahedron.rs lines 142-152, in `f64`. -/
def allEncompassingF (lo hi : P3 ℚ) : Predicates.Tetra ℚ where
  p1 := ⟨cornerF lo.x hi.x, cornerF lo.y hi.y, cornerF lo.z hi.z⟩
  p2 := ⟨projectedF lo.x hi.x, lo.y, lo.z⟩
  p3 := ⟨lo.x, projectedF lo.y hi.y, lo.z⟩
  p4 := ⟨lo.x, lo.y, projectedF lo.z hi.z⟩

/-- `get_remapped_point`, delaunay/mod.rs lines 202-204, in `f64`, with the extent of the initial tetrahedron
(mod.rs lines 114-123 and 154-156 of primitives/tetrahedron.rs; minima and maxima are exact). -/
def rescaleF (lo hi p : P3 ℚ) : P3 ℚ :=
  remapPointF (extent3 (allEncompassingF lo hi)).1 (extent3 (allEncompassingF lo hi)).2 p

/-- The positions of all points in the order in which they enter the point list, as `allPoints3`, with the initial
tetrahedron in `f64`. -/
def allPointsF (lo hi : P3 ℚ) (pts : List (P3 ℚ)) : List (P3 ℚ) :=
  let t := allEncompassingF lo hi
  t.p1 :: t.p2 :: t.p3 :: t.p4 :: pts

/-- `construct`, delaunay/mod.rs lines 125-139, in three dimensions, with the initial tetrahedron and the rescaled
coordinates in `f64`.  Simplified: all decisions are exact functions of the rescaled coordinates.  This holds for the
test whether a tetrahedron contains a point (C99); the code decides some of the others in `f64` too. -/
def constructF {N : Type} (eps : ℚ) (key : P3 ℚ → ℕ) (pop : Heaps) (fuel : ℕ) (lo hi : P3 ℚ)
    (points : List (N × P3 ℚ)) : Outcome (Construction3 ℚ N) :=
  let sorted := points.insertionSort fun a b => key a.2 ≤ key b.2
  let position := positionOf3 (allPointsF lo hi (sorted.map Prod.snd))
  let rescaled := fun i => rescaleF lo hi (position i)
  match start3 with
  | none => .panic
  | some s0 =>
    match insertMany (geo3 eps rescaled) (ops3 (intersect3 rescaled)) pop fuel sorted.length s0 with
    | .panic => .panic
    | .running => .running
    | .done s => .done ⟨s, position, sorted.zipIdx.map fun e => (e.1.1, 4 + e.2)⟩

end Verif.Rounding
