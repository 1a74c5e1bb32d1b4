import Verif.Delaunay.Model
import Verif.Predicates.CircleProps
import Verif.Predicates.SimplexProps

/-! # Specification: Delaunay triangulations of the plane -/

namespace Verif.Delaunay

open Verif.Predicates (P2 Triangle2 orient2 distSq2 Bary2)

variable {K : Type} [Field K] [LinearOrder K]

/-- The mesh contains a triangle with the vertices `a, b, c` in this cyclic order. -/
def Mesh.HasTriangle (M : Mesh) (a b c : ℕ) : Prop :=
  ∃ i T, M.tetras.get i = some T ∧ (T.points = [a, b, c] ∨ T.points = [b, c, a] ∨ T.points = [c, a, b])

/-- The point `y` lies in a triangle or on its boundary. -/
def InTriangle (t : Triangle2 K) (y : P2 K) : Prop :=
  ∃ w1 w2 w3, 0 ≤ w1 ∧ 0 ≤ w2 ∧ 0 ≤ w3 ∧ Bary2 t y w1 w2 w3

/-- The point `y` lies in the interior of a triangle. -/
def InteriorTriangle (t : Triangle2 K) (y : P2 K) : Prop :=
  ∃ w1 w2 w3, 0 < w1 ∧ 0 < w2 ∧ 0 < w3 ∧ Bary2 t y w1 w2 w3

/-- There is a circle through `a, b, c` with all others of the first `n` points outside of it. -/
def EmptyCircle (x : ℕ → P2 K) (n a b c : ℕ) : Prop :=
  ∃ o rho, distSq2 (x a) o = rho ∧ distSq2 (x b) o = rho ∧ distSq2 (x c) o = rho ∧
    ∀ w, w < n → w ≠ a → w ≠ b → w ≠ c → rho < distSq2 (x w) o

/-- Of the first `n` points no three are on a line and no four are on a circle. -/
structure GeneralPosition (x : ℕ → P2 K) (n : ℕ) : Prop where
  line : ∀ i j k, i < n → j < n → k < n → i ≠ j → i ≠ k → j ≠ k → orient2 ⟨x i, x j, x k⟩ ≠ 0
  circle : ∀ i j k l, i < n → j < n → k < n → l < n → i ≠ j → i ≠ k → i ≠ l → j ≠ k → j ≠ l → k ≠ l →
    ∀ o, ¬(distSq2 (x i) o = distSq2 (x j) o ∧ distSq2 (x i) o = distSq2 (x k) o ∧
      distSq2 (x i) o = distSq2 (x l) o)

end Verif.Delaunay
