import Verif.Delaunay.Insert
import Verif.Predicates.Model

/-!
# The geometric predicates applied to points given by their coordinates

`x` maps the index of a point to its coordinates after `remap_point` (delaunay/mod.rs lines 204-206).
-/

namespace Verif.Delaunay

open Verif.Predicates (P2 P3 Triangle2 Triangle3 IntersectionType)

variable {K : Type} [Field K] [LinearOrder K]

/-- `tetra_contains_point` (point_location.rs lines 39-46) and `circumcircle_contains_point` (mod.rs lines
322-325) in two dimensions, with `get_remapped_tetra_data` (mod.rs lines 192-194). -/
def geo2 (x : ℕ → P2 K) : Geo where
  contains T p :=
    match T.points with
    | [a, b, c] => Triangle2.contains ⟨x a, x b, x c⟩ (x p)
    | _ => none
  circ T q :=
    match T.points with
    | [a, b, c] => Triangle2.circumcircleContains ⟨x a, x b, x c⟩ (x q)
    | _ => none

/-- The same in three dimensions; `eps` is the constant of the error bound of the in-sphere test. -/
def geo3 (eps : K) (x : ℕ → P3 K) : Geo where
  contains T p :=
    match T.points with
    | [a, b, c, d] => Predicates.Tetra.contains ⟨x a, x b, x c, x d⟩ (x p)
    | _ => none
  circ T q :=
    match T.points with
    | [a, b, c, d] => Predicates.Tetra.circumsphereContains eps ⟨x a, x b, x c, x d⟩ (x q)
    | _ => none

/-- The call of `get_line_intersection_type` in `flip`, delaunay/impl_3d.rs lines 352-362. -/
def intersect3 (x : ℕ → P3 K) (f : List ℕ) (p1 p2 : ℕ) : Option IntersectionType :=
  match f with
  | [s1, s2, s3] => Triangle3.lineIntersectionType ⟨x s1, x s2, x s3⟩ (x p1) (x p2)
  | _ => none

/-- The operations in two dimensions. -/
def ops2 : Ops := ⟨Mesh.split2d, Mesh.flip2d⟩

/-- The operations in three dimensions. -/
def ops3 (intersect : List ℕ → ℕ → ℕ → Option IntersectionType) : Ops :=
  ⟨Mesh.split3d, Mesh.flip3d intersect⟩

/-- `all_encompassing`, mod.rs lines 160-174, in two dimensions. -/
def start2 : Option State := Mesh.basic2d.map fun m => ⟨m, none⟩

/-- `all_encompassing`, mod.rs lines 160-174, in three dimensions. -/
def start3 : Option State := Mesh.basic3d.map fun m => ⟨m, none⟩

end Verif.Delaunay
