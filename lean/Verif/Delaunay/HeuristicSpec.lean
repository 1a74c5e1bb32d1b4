import Verif.Delaunay.Heuristic
import Verif.Delaunay.LocationSpec

/-! # Specification of the heap -/

namespace Verif.Delaunay

/-- `BinaryHeap` with the reversed order of `CheckData` (point_location.rs lines 22-37): `pop` removes an element
with the smallest distance; which one if there are several, and how the rest is arranged, is left open. -/
def HeapMin {R : Type} [LinearOrder R] (pop : List (ℕ × R) → Option ((ℕ × R) × List (ℕ × R))) : Prop :=
  pop [] = none ∧ ∀ l, l ≠ [] → ∃ x r, pop l = some (x, r) ∧ l.Perm (x :: r) ∧ ∀ y ∈ r, x.2 ≤ y.2

end Verif.Delaunay
