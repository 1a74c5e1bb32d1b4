import Verif.Delaunay.Model
import Verif.Predicates.CircleProps
import Verif.Predicates.SimplexProps

/-! # Specification: Delaunay meshes of tetrahedra -/

namespace Verif.Delaunay

open Verif.Predicates (P3 orient3 distSq3 Bary3)

variable {K : Type} [Field K] [LinearOrder K]

/-- The mesh contains a tetrahedron with the vertices `a, b, c, d`, in any order. -/
def Mesh.HasTetra (M : Mesh) (a b c d : ℕ) : Prop :=
  ∃ i T, M.tetras.get i = some T ∧ T.points.Perm [a, b, c, d]

/-- The point `y` lies in a tetrahedron or on its boundary. -/
def InTetra (t : Predicates.Tetra K) (y : P3 K) : Prop :=
  ∃ w1 w2 w3 w4, 0 ≤ w1 ∧ 0 ≤ w2 ∧ 0 ≤ w3 ∧ 0 ≤ w4 ∧ Bary3 t y w1 w2 w3 w4

/-- The point `y` lies in the interior of a tetrahedron. -/
def InteriorTetra (t : Predicates.Tetra K) (y : P3 K) : Prop :=
  ∃ w1 w2 w3 w4, 0 < w1 ∧ 0 < w2 ∧ 0 < w3 ∧ 0 < w4 ∧ Bary3 t y w1 w2 w3 w4

/-- There is a sphere through `a, b, c, d` with all others of the first `n` points outside of it. -/
def EmptySphere (x : ℕ → P3 K) (n a b c d : ℕ) : Prop :=
  ∃ o rho, distSq3 (x a) o = rho ∧ distSq3 (x b) o = rho ∧ distSq3 (x c) o = rho ∧ distSq3 (x d) o = rho ∧
    ∀ w, w < n → w ≠ a → w ≠ b → w ≠ c → w ≠ d → rho < distSq3 (x w) o

/-- Of the first `n` points no four are in a plane and no five are on a sphere. -/
structure GeneralPosition3 (x : ℕ → P3 K) (n : ℕ) : Prop where
  plane : ∀ i j k l, i < n → j < n → k < n → l < n → [i, j, k, l].Nodup → orient3 ⟨x i, x j, x k, x l⟩ ≠ 0
  sphere : ∀ i j k l m, i < n → j < n → k < n → l < n → m < n → [i, j, k, l, m].Nodup →
    ∀ o, ¬(distSq3 (x i) o = distSq3 (x j) o ∧ distSq3 (x i) o = distSq3 (x k) o ∧
      distSq3 (x i) o = distSq3 (x l) o ∧ distSq3 (x i) o = distSq3 (x m) o)

end Verif.Delaunay
