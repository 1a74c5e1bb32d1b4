import Verif.Remap.Model

/-!
# Remapping from a snapshot: specification
-/

namespace Verif.Remap

open Verif.Geometry (Vec)

variable {K : Type} [Field K] [LinearOrder K]

/-- The squared distance. -/
def sqDist (p q : Vec 3 K) : K := ∑ i, (p i - q i) ^ 2

/-- The contract of the k-d tree: for a non-empty list of points it returns the index of a point of
smallest distance and its squared distance. -/
def NearestContract (nearest : Nearest K) : Prop :=
  ∀ ps q, ps ≠ [] → ∃ p, ps[(nearest ps q).2]? = some p ∧ (nearest ps q).1 = sqDist p q ∧
    ∀ p' ∈ ps, sqDist p q ≤ sqDist p' q

/-- All data points of all ranks. -/
def allData (W : ℕ) (data : ℕ → List (Full K)) : List (Full K) := (List.range W).flatMap data

/-- `p'` is `p` after remapping from a data point of smallest distance among `all`. -/
def RemappedFromNearest (all : List (Full K)) (p p' : Particle K) : Prop :=
  ∃ x ∈ all, (∀ y ∈ all, sqDist x.pos p.pos ≤ sqDist y.pos p.pos) ∧
    p'.entity = p.entity ∧ p'.pos = p.pos ∧
    p'.temperature = max p.temperature x.temperature ∧
    p'.ionizedHydrogenFraction = max p.ionizedHydrogenFraction x.ionizedHydrogenFraction

end Verif.Remap
