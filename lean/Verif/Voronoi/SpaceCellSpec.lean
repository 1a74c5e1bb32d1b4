import Verif.Delaunay.Construct3Spec

/-! # Specification: Voronoi regions in space -/

namespace Verif.Voronoi

open Verif.Predicates (P3 distSq3)

variable {K : Type} [Field K] [LinearOrder K]

/-- `y` is closer to `p` than to every other point of `S`. -/
def OpenVoronoiRegion (S : P3 K → Prop) (p y : P3 K) : Prop := ∀ z, S z → z ≠ p → distSq3 y p < distSq3 y z

end Verif.Voronoi
