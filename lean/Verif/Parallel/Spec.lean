import Verif.Parallel.Model

/-! # Specification of the parallel construction of the grid -/

namespace Verif.Parallel

open Verif.Geometry

variable {d : ℕ} {Id : Type}

/-- The place `y` is closer to particle `p` of rank `r` than to all other particles of all ranks and than to all
periodic images of all particles (`k` counts the box lengths along each axis). -/
def World.Region (W : World d Id) (r : ℕ) (p : Id × Vec d ℝ) (y : Vec d ℝ) : Prop :=
  ∀ s q, s < W.particles.length → q ∈ W.ofRank s → ∀ k : Fin d → ℤ, (s, q, k) ≠ (r, p, 0) →
    distance y p.2 < distance y (image W.box k q.2)

/-- The particles of all ranks and all their periodic images. -/
def World.Site (W : World d Id) (z : Vec d ℝ) : Prop :=
  ∃ s q, s < W.particles.length ∧ q ∈ W.ofRank s ∧ ∃ k : Fin d → ℤ, z = image W.box k q.2

/-- The regions of particle `p` of rank `r` and of image `k` of particle `q` of rank `s` have a common face: there is a place
which is at the same distance from both and further away from all other particles and images. -/
def World.Adjacent (W : World d Id) (r : ℕ) (p : Id × Vec d ℝ) (s : ℕ) (q : Id × Vec d ℝ) (k : Fin d → ℤ) : Prop :=
  q ∈ W.ofRank s ∧ (s, q, k) ≠ (r, p, 0) ∧ ∃ y, distance y p.2 = distance y (image W.box k q.2) ∧
    ∀ s' q' k', q' ∈ W.ofRank s' → (s', q', k') ≠ (r, p, 0) → (s', q', k') ≠ (s, q, k) →
      distance y p.2 < distance y (image W.box k' q'.2)

/-- What the construction is given: a box with positive side lengths which contains all particles, at least one
particle on every rank, and particle ids which are unique on every rank. -/
structure World.Valid (W : World d Id) : Prop where
  box : ∀ i, W.lo i < W.hi i
  inside : ∀ r, ∀ p ∈ W.ofRank r, ∀ i, W.lo i ≤ p.2 i ∧ p.2 i ≤ W.hi i
  nonempty : ∀ l ∈ W.particles, l ≠ []
  ids : ∀ r, ((W.ofRank r).map Prod.fst).Nodup

/-- The number of box lengths of a wrap. -/
def shift : WrapType → ℤ
  | .noWrap => 0
  | .minus => -1
  | .plus => 1

end Verif.Parallel
