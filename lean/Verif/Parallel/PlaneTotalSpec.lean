import Verif.Parallel.Spec2
import Verif.Delaunay.ConstructSpec

/-! # Specification: when the construction of the grid of a rank succeeds, in two dimensions -/

namespace Verif.Parallel.Plane

open Verif.Geometry Verif.Delaunay
open Verif.Predicates (P2 Triangle2)

variable {Id : Type}

/-- Image `k` of particle `q` of rank `s` is closer than `R` to a particle of rank `own`. -/
def Near (W : World 2 Id) (own : ℕ) (R : ℝ) (s : ℕ) (q : Id × Vec 2 ℝ) (k : Fin 2 → ℤ) : Prop :=
  q ∈ W.ofRank s ∧ ∃ p ∈ W.ofRank own, distance p.2 (image W.box k q.2) < R

/-- All places in the cell of particle `p`, i.e. those to which no particle or image is closer than `p`, are closer than
`h`. -/
def CellWithin (W : World 2 Id) (p : Id × Vec 2 ℝ) (h : ℝ) : Prop :=
  ∀ y, (∀ s q k, q ∈ W.ofRank s → distance y p.2 ≤ distance y (image W.box k q.2)) → distance y p.2 < h

/-- The points which rank `own` may have to triangulate: the particles and images closer than `R` to its own ones and the
vertices of the initial triangle. -/
def Candidate (W : World 2 Id) (own : ℕ) (R : ℝ) (z : P2 ℝ) : Prop :=
  z = (Triangle2.allEncompassing W.enlarged2.1 W.enlarged2.2).p1 ∨
    z = (Triangle2.allEncompassing W.enlarged2.1 W.enlarged2.2).p2 ∨
    z = (Triangle2.allEncompassing W.enlarged2.1 W.enlarged2.2).p3 ∨
    ∃ s q k, Near W own R s q k ∧ z = dim2.ofVec (image W.box k q.2)

/-- These particles and images are at different places, and no three of the points are on a line and no four on a
circle. -/
structure General (W : World 2 Id) (own : ℕ) (R : ℝ) : Prop where
  distinct : ∀ s q k s' q' k', Near W own R s q k → Near W own R s' q' k' →
    image W.box k q.2 = image W.box k' q'.2 → (s, q, k) = (s', q', k')
  general : GeneralUnder id (Candidate W own R)

end Verif.Parallel.Plane
