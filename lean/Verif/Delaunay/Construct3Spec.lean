import Verif.Delaunay.Construct3
import Verif.Delaunay.SpaceSpec

/-! # Specification: the Delaunay tetrahedra of a set of points -/

namespace Verif.Delaunay

open Verif.Predicates (P3 orient3 distSq3)

variable {K : Type} [Field K] [LinearOrder K] {N : Type}

/-- The tetrahedron `p, q, r, t` of points of `S` is not flat and there is a sphere through its vertices such
that all other points of `S` lie outside; all this after applying `f` to the points. -/
def DelaunayUnder3 (f : P3 K → P3 K) (S : P3 K → Prop) (p q r t : P3 K) : Prop :=
  S p ∧ S q ∧ S r ∧ S t ∧ orient3 ⟨f p, f q, f r, f t⟩ ≠ 0 ∧
    ∃ o rho, distSq3 (f p) o = rho ∧ distSq3 (f q) o = rho ∧ distSq3 (f r) o = rho ∧ distSq3 (f t) o = rho ∧
      ∀ z, S z → z ≠ p → z ≠ q → z ≠ r → z ≠ t → rho < distSq3 (f z) o

/-- `p, q, r, t` is a Delaunay tetrahedron of the set of points `S`. -/
def DelaunayTetra (S : P3 K → Prop) (p q r t : P3 K) : Prop := DelaunayUnder3 id S p q r t

/-- After applying `f`, no four points of `S` are in a plane and no five on a sphere. -/
def GeneralUnder3 (f : P3 K → P3 K) (S : P3 K → Prop) : Prop :=
  (∀ p q r t, S p → S q → S r → S t → [p, q, r, t].Nodup → orient3 ⟨f p, f q, f r, f t⟩ ≠ 0) ∧
  ∀ p q r t z, S p → S q → S r → S t → S z → [p, q, r, t, z].Nodup → ∀ o,
    ¬(distSq3 (f p) o = distSq3 (f q) o ∧ distSq3 (f p) o = distSq3 (f r) o ∧ distSq3 (f p) o = distSq3 (f t) o ∧
      distSq3 (f p) o = distSq3 (f z) o)

/-- The points to be triangulated: the given ones and the vertices of the initial tetrahedron. -/
def Site3 (lo hi : P3 K) (points : List (N × P3 K)) (p : P3 K) : Prop :=
  p = (Predicates.Tetra.allEncompassing lo hi).p1 ∨ p = (Predicates.Tetra.allEncompassing lo hi).p2 ∨
    p = (Predicates.Tetra.allEncompassing lo hi).p3 ∨ p = (Predicates.Tetra.allEncompassing lo hi).p4 ∨
    ∃ e ∈ points, e.2 = p

/-- The coordinates in units of the side lengths of the box. -/
def inBoxUnits3 (lo hi : P3 K) (p : P3 K) : P3 K :=
  ⟨p.x / (hi.x - lo.x), p.y / (hi.y - lo.y), p.z / (hi.z - lo.z)⟩

/-- The point lies in the box from `lo` to `hi`. -/
def InBox3 (lo hi p : P3 K) : Prop :=
  lo.x ≤ p.x ∧ p.x ≤ hi.x ∧ lo.y ≤ p.y ∧ p.y ≤ hi.y ∧ lo.z ≤ p.z ∧ p.z ≤ hi.z

/-- The triangulation contains the tetrahedron with the vertices `p, q, z, t`. -/
def Construction3.HasTetra (r : Construction3 K N) (p q z t : P3 K) : Prop :=
  ∃ a b c d, r.state.mesh.HasTetra a b c d ∧ r.position a = p ∧ r.position b = q ∧ r.position c = z ∧ r.position d = t

end Verif.Delaunay
