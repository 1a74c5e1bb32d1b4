import Verif.Delaunay.Insert
import Mathlib.Logic.Relation

/-! # Specification of point location -/

namespace Verif.Delaunay

/-- `j` is recorded as a neighbour of `i`. -/
def Mesh.Adj (m : Mesh) (i j : ℕ) : Prop :=
  ∃ T, m.tetras.get i = some T ∧ ∃ p s q, (p, s) ∈ T.slots ∧ s.opposing = some ⟨j, q⟩

/-- `j` can be reached from `i` through neighbour links. -/
def Mesh.Reach (m : Mesh) : ℕ → ℕ → Prop := Relation.ReflTransGen m.Adj

/-- No neighbour link leads to a simplex which does not exist. -/
def Mesh.LinksLive (m : Mesh) : Prop := ∀ i j, m.Adj i j → ∃ U, m.tetras.get j = some U

/-- The only thing required of the heap: it returns its elements, in any order. -/
def HeapOk (pop : List ℕ → Option (ℕ × List ℕ)) : Prop :=
  pop [] = none ∧ ∀ l, l ≠ [] → ∃ x r, pop l = some (x, r) ∧ l.Perm (x :: r)

/-- The same for all heaps of a run. -/
def HeapsOk (pop : Heaps) : Prop := ∀ m, HeapOk (pop m)

end Verif.Delaunay
