import Verif.Parallel.Spec3
import Verif.Delaunay.Construct3Spec

/-! # Specification: when the construction of the grid of a rank succeeds -/

namespace Verif.Parallel

open Verif.Geometry Verif.Delaunay
open Verif.Predicates (P3)

variable {Id : Type}

/-- Image `k` of particle `q` of rank `s` is closer than `R` to a particle of rank `own`. -/
def World.Near (W : World 3 Id) (own : ℕ) (R : ℝ) (s : ℕ) (q : Id × Vec 3 ℝ) (k : Fin 3 → ℤ) : Prop :=
  q ∈ W.ofRank s ∧ ∃ p ∈ W.ofRank own, distance p.2 (image W.box k q.2) < R

/-- All places in the cell of particle `p`, i.e. those to which no particle or image is closer than `p`, are closer than
`h`. -/
def World.CellWithin (W : World 3 Id) (p : Id × Vec 3 ℝ) (h : ℝ) : Prop :=
  ∀ y, (∀ s q k, q ∈ W.ofRank s → distance y p.2 ≤ distance y (image W.box k q.2)) → distance y p.2 < h

/-- The points which rank `own` may have to triangulate: the particles and images closer than `R` to its own ones and the
vertices of the initial tetrahedron. -/
def World.Candidate (W : World 3 Id) (own : ℕ) (R : ℝ) (z : P3 ℝ) : Prop :=
  z = (Predicates.Tetra.allEncompassing W.enlarged.1 W.enlarged.2).p1 ∨
    z = (Predicates.Tetra.allEncompassing W.enlarged.1 W.enlarged.2).p2 ∨
    z = (Predicates.Tetra.allEncompassing W.enlarged.1 W.enlarged.2).p3 ∨
    z = (Predicates.Tetra.allEncompassing W.enlarged.1 W.enlarged.2).p4 ∨
    ∃ s q k, W.Near own R s q k ∧ z = dim3.ofVec (image W.box k q.2)

/-- These particles and images are at different places, and no four of the points are in a plane and no five on a
sphere. -/
structure World.General (W : World 3 Id) (own : ℕ) (R : ℝ) : Prop where
  distinct : ∀ s q k s' q' k', W.Near own R s q k → W.Near own R s' q' k' →
    image W.box k q.2 = image W.box k' q'.2 → (s, q, k) = (s', q', k')
  general : GeneralUnder3 id (W.Candidate own R)

end Verif.Parallel
