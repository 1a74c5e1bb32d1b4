import Verif.Delaunay.Spec
import Mathlib.Data.List.Rotate

/-! # Specifications for Voronoi cells -/

namespace Verif.Voronoi

open Verif.Delaunay (Mesh)

/-- The orders of the vertices which describe the same polygon: another start, another direction. -/
def SamePolygon {α : Type} (l l' : List α) : Prop := l' ~r l ∨ l' ~r l.reverse

/-- The sides of a polygon: every vertex with the next one, the last one with the first one. -/
def sidesOf {α : Type} (l : List α) : List (α × α) := l.zip (l.rotate 1)

/-- Different simplices have different sets of vertices. -/
def Distinct (M : Mesh) : Prop :=
  ∀ i j T U, M.tetras.get i = some T → M.tetras.get j = some U → (∀ x, x ∈ T.points ↔ x ∈ U.points) → i = j

/-- Different faces have different sets of vertices. -/
def FacesDistinct (M : Mesh) : Prop :=
  ∀ f g pts pts', M.faces.get f = some pts → M.faces.get g = some pts' → (∀ x, x ∈ pts ↔ x ∈ pts') → f = g

end Verif.Voronoi
