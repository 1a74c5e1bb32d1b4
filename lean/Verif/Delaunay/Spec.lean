import Verif.Delaunay.Model

/-!
# Specification of a consistent mesh
-/

namespace Verif.Delaunay

/-- A mesh of `D`-dimensional simplices without loose ends.  A pair `(p, s)` in the slot list of a simplex
consists of a vertex and the side opposite to it. -/
structure Consistent (D : ℕ) (M : Mesh) : Prop where
  /-- indices are unique and below the next index, for both arenas -/
  tetras_ok : M.tetras.Ok
  faces_ok : M.faces.Ok
  /-- every simplex has `D + 1` different vertices, all of them existing points -/
  size : ∀ i T, M.tetras.get i = some T → T.slots.length = D + 1
  points_nodup : ∀ i T, M.tetras.get i = some T → T.points.Nodup
  points_lt : ∀ i T, M.tetras.get i = some T → ∀ p ∈ T.points, p < M.numPoints
  /-- the side opposite to a vertex exists and consists of the other vertices -/
  face_points : ∀ i T, M.tetras.get i = some T → ∀ p s, (p, s) ∈ T.slots →
    ∃ pts, M.faces.get s.face = some pts ∧ pts.Nodup ∧ ∀ x, x ∈ pts ↔ x ∈ T.points ∧ x ≠ p
  /-- a side records the neighbour `j` with opposite vertex `q` exactly if `j` is a different simplex
  which has the same side opposite to its vertex `q` -/
  neighbour : ∀ i T, M.tetras.get i = some T → ∀ p s, (p, s) ∈ T.slots → ∀ j q,
    s.opposing = some ⟨j, q⟩ ↔
      j ≠ i ∧ ∃ U r, M.tetras.get j = some U ∧ (q, r) ∈ U.slots ∧ r.face = s.face
  /-- the two simplices at a side see it with different orientations -/
  sides : ∀ i T, M.tetras.get i = some T → ∀ p s, (p, s) ∈ T.slots → ∀ j U, M.tetras.get j = some U →
    ∀ q r, (q, r) ∈ U.slots → r.face = s.face → j ≠ i → r.flipped = !s.flipped
  /-- every side in the arena belongs to a simplex -/
  used : ∀ f pts, M.faces.get f = some pts →
    ∃ i T p s, M.tetras.get i = some T ∧ (p, s) ∈ T.slots ∧ s.face = f

end Verif.Delaunay
