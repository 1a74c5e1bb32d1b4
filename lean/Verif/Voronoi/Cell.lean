import Verif.Voronoi.Utils
import Verif.Delaunay.Model
import Verif.Predicates.Model
import Mathlib.Analysis.Real.Sqrt

/-!
# Voronoi cells

Model of `/repo/src/voronoi/cell.rs`, `/repo/src/voronoi/primitives/polygon3d.rs` and
`/repo/src/voronoi/triangulation_data.rs`, with `f64` replaced by the real numbers.  `none` is a panic (an
unknown index or key, a failed arrangement) or a result which is not a number (`normalize` of the zero
vector).  Points are their indices in the triangulation; the map from points to cells is not modelled, so that
`connection` is the index of the neighbouring point.
-/

namespace Verif.Voronoi

open Verif.Predicates (P2 P3 cross dot)
open Verif.Delaunay (Mesh)

/-! ### Vectors -/

/-- `DVec2::length` of the crate `glam`. -/
noncomputable def length2 (v : P2 ℝ) : ℝ := Real.sqrt (v.x * v.x + v.y * v.y)

/-- `DVec3::length` of the crate `glam`. -/
noncomputable def length3 (v : P3 ℝ) : ℝ := Real.sqrt (v.x * v.x + v.y * v.y + v.z * v.z)

/-- `DVec2::normalize`; `none` is a vector of NaN. -/
noncomputable def normalize2 (v : P2 ℝ) : Option (P2 ℝ) :=
  if length2 v = 0 then none else some ⟨v.x / length2 v, v.y / length2 v⟩

/-- `DVec3::normalize`; `none` is a vector of NaN. -/
noncomputable def normalize3 (v : P3 ℝ) : Option (P3 ℝ) :=
  if length3 v = 0 then none else some ⟨v.x / length3 v, v.y / length3 v, v.z / length3 v⟩

/-! ### Polygons -/

/-- `periodic_windows_2(points).map(f).collect()`. -/
def mapWindows {α β : Type} (points : List α) (f : α → α → β) : Option (List β) :=
  match periodicWindows2 points with
  | .done l => l.mapM fun e => (points[e.1]?).bind fun a => (points[e.2]?).map fun b => f a b
  | _ => none

/-- `Cell<TwoD>::volume`, cell.rs lines 129-135. -/
noncomputable def volume2 (points : List (P2 ℝ)) : Option ℝ :=
  (mapWindows points fun p1 p2 => p1.x * p2.y - p2.x * p1.y).map fun l => 0.5 * |l.sum|

/-- `sign`, cell.rs lines 49-51. -/
def sign {K : Type} [Field K] (p1 p2 p3 : P2 K) : K := (p1.x - p3.x) * (p2.y - p3.y) - (p2.x - p3.x) * (p1.y - p3.y)

/-- `Cell<TwoD>::contains`, cell.rs lines 112-123. -/
noncomputable def contains2 (points : List (P2 ℝ)) (point : P2 ℝ) : Option Bool :=
  (mapWindows points fun p1 p2 => sign point p1 p2).map fun l =>
    let hasNegative := l.any fun s => decide (s < 0)
    let hasPositive := l.any fun s => decide (s > 0)
    !(hasNegative && hasPositive)

/-- `Polygon3d::area`, polygon3d.rs lines 11-16. -/
noncomputable def polygonArea (points : List (P3 ℝ)) : Option ℝ :=
  match points[0]? with
  | none => none
  | some r => (mapWindows points fun p1 p2 => 0.5 * length3 (cross (r.sub p1) (r.sub p2))).map List.sum

/-- `pyramid_volume`, cell.rs lines 153-157. -/
noncomputable def pyramidVolume (normal p : P3 ℝ) (polygon : List (P3 ℝ)) : Option ℝ :=
  (polygonArea polygon).bind fun base =>
    (polygon[0]?).map fun r => 1.0 / 3.0 * base * |dot normal (p.sub r)|

/-! ### Cells -/

/-- `point_to_tetra_map`, triangulation_data.rs lines 84-102, at the point `p`: every occurrence of the point in
a tetra pushes the tetra. -/
def tetrasOf (M : Mesh) (p : ℕ) : List ℕ :=
  M.tetras.entries.flatMap fun e => (e.2.points.filter fun q => q == p).map fun _ => e.1

/-- `tetra_to_voronoi_point_map`, triangulation_data.rs lines 43-47, in two dimensions; `x` are the original
points. -/
noncomputable def centre2 (M : Mesh) (x : ℕ → P2 ℝ) (t : ℕ) : Option (P2 ℝ) :=
  (M.tetras.get t).bind fun T =>
    match T.points with
    | [a, b, c] => some (Predicates.Triangle2.circumcentre ⟨x a, x b, x c⟩)
    | _ => none

/-- The same in three dimensions; `eps` is `GAUSS_3X4_EPSILON`. -/
noncomputable def centre3 (eps : ℝ) (M : Mesh) (x : ℕ → P3 ℝ) (t : ℕ) : Option (P3 ℝ) :=
  (M.tetras.get t).bind fun T =>
    match T.points with
    | [a, b, c, d] => Predicates.Tetra.circumcentre eps ⟨x a, x b, x c, x d⟩
    | _ => none

/-- `DTetra::get_common_face_with`, delaunay/dimension.rs lines 72-76. -/
def commonFaceWith (t u : Delaunay.Tetra) : Option ℕ :=
  (t.faces.find? fun f => u.faces.any fun f2 => f.face == f2.face).map fun f => f.face

/-- `get_common_face`, cell.rs lines 53-61.  The code panics for a dead index, which does not occur, since all
indices come from `tetrasOf`. -/
def commonFace (M : Mesh) (t u : ℕ) : Option ℕ :=
  match M.tetras.get t, M.tetras.get u with
  | some T, some U => commonFaceWith T U
  | _, _ => none

/-- The items and their successors, `arrange_cyclic_by(items, related).collect()`; see `arrangeCyclicBy`. -/
def arranged (items : List ℕ) (related : ℕ → ℕ → Bool) : Option (List (ℕ × ℕ)) :=
  match arrangeCyclicBy items related with
  | .done l => l.mapM fun e => (items[e.1]?).bind fun a => (items[e.2]?).map fun b => (a, b)
  | _ => none

/-- `Line::other_point`, primitives/line.rs lines 29-37. -/
def otherPoint (line : List ℕ) (p : ℕ) : Option ℕ :=
  match line with
  | [p1, p2] => if p = p1 then some p2 else if p = p2 then some p1 else none
  | _ => none

/-- `VoronoiFace<TwoD>`, cell.rs lines 41-47. -/
structure Face2 where
  connection : ℕ
  normal : P2 ℝ
  area : ℝ

/-- The closure in `Cell<TwoD>::get_faces`, cell.rs lines 90-104, with `get_normal`, lines 63-71.  `x` are the
original points, `centre` is `tetra_to_voronoi_point_map`. -/
noncomputable def makeFace2 (M : Mesh) (x : ℕ → P2 ℝ) (centre : ℕ → Option (P2 ℝ)) (p : ℕ) (t : ℕ × ℕ) :
    Option Face2 := do
  let f ← commonFace M t.1 t.2
  let line ← M.faces.get f
  let p2 ← otherPoint line p
  let vp1 ← centre t.1
  let vp2 ← centre t.2
  let normal ← normalize2 ((x p2).sub (x p))
  some ⟨p2, normal, length2 (vp1.sub vp2)⟩

/-- `Cell<TwoD>::get_faces`, cell.rs lines 87-106. -/
noncomputable def getFaces2 (M : Mesh) (x : ℕ → P2 ℝ) (centre : ℕ → Option (P2 ℝ)) (p : ℕ) : Option (List Face2) :=
  (arranged (tetrasOf M p) fun t u => (commonFace M t u).isSome).bind fun l => l.mapM (makeFace2 M x centre p)

/-- The points of `Cell<TwoD>::new`, cell.rs lines 138-141. -/
def getPoints2 (M : Mesh) (centre : ℕ → Option (P2 ℝ)) (p : ℕ) : Option (List (P2 ℝ)) :=
  (arranged (tetrasOf M p) fun t u => (commonFace M t u).isSome).bind fun l => l.mapM fun e => centre e.1

/-- `VoronoiFace<ThreeD>`, cell.rs lines 41-47; `points` is the polygon. -/
structure Face3 where
  connection : ℕ
  normal : P3 ℝ
  area : ℝ
  points : List (P3 ℝ)

/-- `tetras_with_both_points`, cell.rs lines 216-224. -/
def tetrasWithBoth (M : Mesh) (p1 p2 : ℕ) : List ℕ :=
  (tetrasOf M p1).filter fun t =>
    match M.tetras.get t with
    | none => false
    | some T => T.points.contains p2

/-- `get_face_polygon_perpendicular_to_line`, cell.rs lines 209-238. -/
noncomputable def facePolygon (M : Mesh) (x : ℕ → P3 ℝ) (centre : ℕ → Option (P3 ℝ)) (p1 p2 : ℕ) : Option Face3 := do
  let l ← arranged (tetrasWithBoth M p1 p2) fun t u => (commonFace M t u).isSome
  let points ← l.mapM fun e => centre e.1
  let normal ← normalize3 ((x p2).sub (x p1))
  let area ← polygonArea points
  some ⟨p2, normal, area, points⟩

/-- `connected_points` in `Cell<ThreeD>::get_faces`, cell.rs lines 161-169; the hash set is modelled by a list
without repetitions. -/
def connectedPoints (M : Mesh) (p1 : ℕ) : List ℕ :=
  ((tetrasOf M p1).flatMap fun t =>
    match M.tetras.get t with
    | none => []
    | some T => T.points.filter fun p2 => p2 != p1).dedup

/-- `Cell<ThreeD>::get_faces`, cell.rs lines 160-174. -/
noncomputable def getFaces3 (M : Mesh) (x : ℕ → P3 ℝ) (centre : ℕ → Option (P3 ℝ)) (p1 : ℕ) : Option (List Face3) :=
  (connectedPoints M p1).mapM fun p2 => facePolygon M x centre p1 p2

/-- `Cell<ThreeD>::contains`, cell.rs lines 180-184 (all faces have points, so that it does not matter that
the code stops at the first face which is violated). -/
noncomputable def contains3 (faces : List Face3) (point : P3 ℝ) : Option Bool :=
  (faces.mapM fun f => (f.points[0]?).map fun r => decide (dot f.normal (point.sub r) < 0)).map fun l => l.all id

/-- `Cell<ThreeD>::volume`, cell.rs lines 190-197; `centre` is the point of the cell. -/
noncomputable def volume3 (faces : List Face3) (centre : P3 ℝ) : Option ℝ :=
  (faces.mapM fun f => pyramidVolume f.normal centre f.points).map List.sum

end Verif.Voronoi
