import Verif.Rounding.FaceModel
import Verif.Rounding.SqrtProps
import Verif.Rounding.SeriesModel
import Verif.Voronoi.Cell

/-!
# Areas and volumes of Voronoi cells with `f64` rounding: model of `Polygon3d::area` in
`/repo/src/voronoi/primitives/polygon3d.rs` and of `get_normal`, `pyramid_volume`, `get_face_polygon_perpendicular_to_line`,
`Cell<ThreeD>::get_faces` and `Cell<ThreeD>::volume` in `/repo/src/voronoi/cell.rs`, three dimensions
-/

namespace Verif.Rounding

open Verif.Predicates Verif.Voronoi

/-- `DVec3::length` of glam. -/
noncomputable def length3F (v : P3 ℚ) : ℚ := sqrtF (dotF v v)

/-- `Polygon3d::area`, polygon3d.rs lines 11-16; `none`: there is no first point, or the windows panic. -/
noncomputable def polygonAreaF (points : List (P3 ℚ)) : Option ℚ :=
  match points[0]? with
  | none => none
  | some r => (mapWindows points fun p1 p2 => (1 / 2) ⊠ length3F (crossF (subF r p1) (subF r p2))).map sumF

/-- `pyramid_volume`, cell.rs lines 153-157. -/
noncomputable def pyramidVolumeF (normal p : P3 ℚ) (polygon : List (P3 ℚ)) : Option ℚ :=
  (polygonAreaF polygon).bind fun base =>
    (polygon[0]?).map fun r => ((1 ⊘ 3) ⊠ base) ⊠ |dotF normal (subF p r)|

/-- `get_normal`, cell.rs lines 63-71: `(p2 - p1).normalize()`; `none` is a vector of NaN. -/
noncomputable def normalF (p1 p2 : P3 ℚ) : Option (P3 ℚ) :=
  if length3F (subF p2 p1) = 0 then none else some (normalizeWith (subF p2 p1) (length3F (subF p2 p1)))

/-- `VoronoiFace<ThreeD>`, cell.rs lines 41-47; `points` is the polygon. -/
structure FaceF where
  connection : ℕ
  normal : P3 ℚ
  area : ℚ
  points : List (P3 ℚ)

/-- `get_face_polygon_perpendicular_to_line`, cell.rs lines 215-243; `x` are the original points, `centre` is
`tetra_to_voronoi_point_map`. -/
noncomputable def facePolygonF (M : Delaunay.Mesh) (x : ℕ → P3 ℚ) (centre : ℕ → Option (P3 ℚ)) (p1 p2 : ℕ) : Option FaceF := do
  let l ← arranged (tetrasWithBoth M p1 p2) fun t u => (commonFace M t u).isSome
  let points ← l.mapM fun e => centre e.1
  let normal ← normalF (x p1) (x p2)
  let area ← polygonAreaF points
  some ⟨p2, normal, area, points⟩

/-- `Cell<ThreeD>::get_faces`, cell.rs lines 160-174. -/
noncomputable def getFacesF (M : Delaunay.Mesh) (x : ℕ → P3 ℚ) (centre : ℕ → Option (P3 ℚ)) (p1 : ℕ) : Option (List FaceF) :=
  (connectedPoints M p1).mapM fun p2 => facePolygonF M x centre p1 p2

/-- `Cell<ThreeD>::volume`, cell.rs lines 190-197; `centre` is the point of the cell. -/
noncomputable def volumeF (faces : List FaceF) (centre : P3 ℚ) : Option ℚ :=
  (faces.mapM fun f => pyramidVolumeF f.normal centre f.points).map sumF

end Verif.Rounding
