import Verif.Voronoi.Cell
import Mathlib.Analysis.SpecialFunctions.Pow.Real
import Mathlib.Analysis.SpecialFunctions.Trigonometric.Basic

/-! # The size of a Voronoi cell -/

namespace Verif.Voronoi

open Verif.Predicates (P2 P3)

/-- `Cell<TwoD>::size`, cell.rs lines 125-127. -/
noncomputable def size2 (points : List (P2 ℝ)) : Option ℝ := (volume2 points).map fun v => √(v / Real.pi)

/-- `Cell<ThreeD>::size`, cell.rs lines 186-188; the argument of `cbrt` is not negative. -/
noncomputable def size3 (faces : List Face3) (centre : P3 ℝ) : Option ℝ :=
  (volume3 faces centre).map fun v => (3.0 * v / (4.0 * Real.pi)) ^ (1 / 3 : ℝ)

end Verif.Voronoi
