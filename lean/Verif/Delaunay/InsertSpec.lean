import Verif.Delaunay.GeoModel
import Verif.Delaunay.Spec
import Verif.Delaunay.LocationSpec

/-! # Specification: histories of a triangulation -/

namespace Verif.Delaunay

open Verif.Predicates (IntersectionType)

/-- The meshes which can be reached in two dimensions from the initial triangle by inserting `n` points (each
into any existing triangle) and flipping edges between two triangles with different opposite points, in any
order. -/
inductive Built2 : ℕ → Mesh → Prop where
  | start {M} (h : Mesh.basic2d = some M) : Built2 0 M
  | split {n M t T M' news} (h : Built2 n M) (hT : M.tetras.get t = some T)
      (hs : { M with numPoints := M.numPoints + 1 }.split2d t M.numPoints = some (M', news)) : Built2 (n + 1) M'
  | flip {n M t T p s c M' news} (h : Built2 n M) (hT : M.tetras.get t = some T) (hp : (p, s) ∈ T.slots)
      (hc : s.opposing = some c) (hq : c.point ∉ T.points) (hf : M.flip2d t s.face = some (M', news)) :
      Built2 n M'

/-- The same in three dimensions: `n` insertions, and flips with any outcome of the geometric tests. -/
inductive Built3 : ℕ → Mesh → Prop where
  | start {M} (h : Mesh.basic3d = some M) : Built3 0 M
  | split {n M t T M' news} (h : Built3 n M) (hT : M.tetras.get t = some T)
      (hs : { M with numPoints := M.numPoints + 1 }.split3d t M.numPoints = some (M', news)) : Built3 (n + 1) M'
  | flip {n M t T p s c M' news} (intersect : List ℕ → ℕ → ℕ → Option IntersectionType) (h : Built3 n M)
      (hT : M.tetras.get t = some T) (hp : (p, s) ∈ T.slots) (hc : s.opposing = some c)
      (hq : c.point ∉ T.points) (hf : M.flip3d intersect t s.face = some (M', news)) : Built3 n M'

/-- No circumcircle test succeeds for a vertex of the simplex itself. -/
def Geo.Proper (g : Geo) : Prop := ∀ T q, g.circ T q = some true → q ∉ T.points

/-- Why the insertion of a point into the triangulation `s` can panic.  `P` describes the meshes which occur
while flipping.

* `contains`: the containment test of an existing simplex is degenerate (the point lies on its boundary);
* `notFound`: no simplex reachable from the remembered one (or no simplex, if none is remembered) contains the
  point;
* `circ`: the circumcircle test of a simplex with the new vertex and the opposite vertex of its neighbour is
  degenerate (cocircular points);
* `flip`: the flip of a face whose circumcircle test is positive panics. -/
inductive PanicReason (g : Geo) (ops : Ops) (P : Mesh → Prop) (s : State) : Prop where
  | contains (i : ℕ) (T : Tetra) (h : s.mesh.tetras.get i = some T)
      (hc : g.contains T s.mesh.numPoints = none)
  | notFound (h : ∀ l, s.last = some l → ∀ i, s.mesh.Reach l i → ∃ T, s.mesh.tetras.get i = some T ∧
        g.contains T s.mesh.numPoints = some false)
      (h' : s.last = none → ∀ i T, s.mesh.tetras.get i = some T → g.contains T s.mesh.numPoints = some false)
  | circ (m : Mesh) (t : ℕ) (T : Tetra) (fi : FaceInfo) (c : Conn) (hm : P m)
      (ht : m.tetras.get t = some T) (hfi : (s.mesh.numPoints, fi) ∈ T.slots) (hc : fi.opposing = some c)
      (h : g.circ T c.point = none)
  | flip (m : Mesh) (t : ℕ) (T : Tetra) (fi : FaceInfo) (c : Conn) (hm : P m)
      (ht : m.tetras.get t = some T) (hfi : (s.mesh.numPoints, fi) ∈ T.slots) (hc : fi.opposing = some c)
      (hq : c.point ∉ T.points) (hci : g.circ T c.point = some true) (hf : ops.flip m t fi.face = none)

end Verif.Delaunay
