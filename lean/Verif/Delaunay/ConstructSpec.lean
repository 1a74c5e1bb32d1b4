import Verif.Delaunay.Construct
import Verif.Delaunay.PlaneSpec

/-! # Specification: the Delaunay triangles of a set of points -/

namespace Verif.Delaunay

open Verif.Predicates (P2 Triangle2 orient2 distSq2)

variable {K : Type} [Field K] [LinearOrder K] {N : Type}

/-- The triangle `p, q, r` of points of `S` is counterclockwise and there is a circle through its vertices such
that all other points of `S` lie outside; all this after applying `f` to the points. -/
def DelaunayUnder (f : P2 K → P2 K) (S : P2 K → Prop) (p q r : P2 K) : Prop :=
  S p ∧ S q ∧ S r ∧ 0 < orient2 ⟨f p, f q, f r⟩ ∧
    ∃ o rho, distSq2 (f p) o = rho ∧ distSq2 (f q) o = rho ∧ distSq2 (f r) o = rho ∧
      ∀ z, S z → z ≠ p → z ≠ q → z ≠ r → rho < distSq2 (f z) o

/-- `p, q, r` is a (counterclockwise) Delaunay triangle of the set of points `S`. -/
def DelaunayTriangle (S : P2 K → Prop) (p q r : P2 K) : Prop := DelaunayUnder id S p q r

/-- After applying `f`, no three points of `S` are on a line and no four on a circle. -/
def GeneralUnder (f : P2 K → P2 K) (S : P2 K → Prop) : Prop :=
  (∀ p q r, S p → S q → S r → p ≠ q → p ≠ r → q ≠ r → orient2 ⟨f p, f q, f r⟩ ≠ 0) ∧
  ∀ p q r z, S p → S q → S r → S z → p ≠ q → p ≠ r → p ≠ z → q ≠ r → q ≠ z → r ≠ z → ∀ o,
    ¬(distSq2 (f p) o = distSq2 (f q) o ∧ distSq2 (f p) o = distSq2 (f r) o ∧ distSq2 (f p) o = distSq2 (f z) o)

/-- The points to be triangulated: the given ones and the vertices of the initial triangle. -/
def Site (lo hi : P2 K) (points : List (N × P2 K)) (p : P2 K) : Prop :=
  p = (Triangle2.allEncompassing lo hi).p1 ∨ p = (Triangle2.allEncompassing lo hi).p2 ∨
    p = (Triangle2.allEncompassing lo hi).p3 ∨ ∃ e ∈ points, e.2 = p

/-- The coordinates in units of the side lengths of the box. -/
def inBoxUnits (lo hi : P2 K) (p : P2 K) : P2 K := ⟨p.x / (hi.x - lo.x), p.y / (hi.y - lo.y)⟩

/-- The triangulation contains the triangle with the vertices `p, q, r` in this cyclic order. -/
def Construction.HasTriangle (r : Construction K N) (p q z : P2 K) : Prop :=
  ∃ a b c, r.state.mesh.HasTriangle a b c ∧ r.position a = p ∧ r.position b = q ∧ r.position c = z

end Verif.Delaunay
