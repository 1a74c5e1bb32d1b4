import Verif.Delaunay.ConstructSpec

/-! # Specification: Voronoi regions -/

namespace Verif.Voronoi

open Verif.Predicates (P2 distSq2)

variable {K : Type} [Field K] [LinearOrder K]

/-- `y` is at least as close to `p` as to every point of `S`. -/
def VoronoiRegion (S : P2 K → Prop) (p y : P2 K) : Prop := ∀ z, S z → distSq2 y p ≤ distSq2 y z

/-- The point lies in the box from `lo` to `hi`. -/
def InBox (lo hi y : P2 K) : Prop := lo.x ≤ y.x ∧ y.x ≤ hi.x ∧ lo.y ≤ y.y ∧ y.y ≤ hi.y

end Verif.Voronoi
