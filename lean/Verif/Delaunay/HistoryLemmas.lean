import Verif.Delaunay.InsertLemmas
import Verif.Delaunay.InsertSpec

/-! # Histories of a triangulation: lemmas -/

namespace Verif.Delaunay

open Verif.Predicates (IntersectionType)

/-! ### The initial simplex -/

theorem single_consistent {D n : ℕ} {T : Tetra} {fs : List (List ℕ)}
    (h1 : T.slots.length = D + 1) (h2 : T.points.Nodup) (h3 : ∀ p ∈ T.points, p < n)
    (h4 : ∀ p s, (p, s) ∈ T.slots → s.opposing = none ∧ ∃ pts, fs[s.face]? = some pts ∧ pts.Nodup ∧
      ∀ x, x ∈ pts ↔ x ∈ T.points ∧ x ≠ p)
    (h5 : ∀ f, f < fs.length → ∃ p s, (p, s) ∈ T.slots ∧ s.face = f) :
    Consistent D ⟨⟨[(0, T)], 1⟩, (Mesh.insertFaces fs ⟨.empty, .empty, n⟩).faces, n⟩ := by
  obtain ⟨_, _, e3, e4, e5, e6, e7⟩ := insertFaces_spec (m := ⟨.empty, .empty, n⟩) (fs := fs) Arena.ok_empty
  have hg : ∀ i U, (⟨[(0, T)], 1⟩ : Arena Tetra).get i = some U → i = 0 ∧ U = T := by
    intro i U hU
    unfold Arena.get at hU
    by_cases hi : i = 0
    · subst hi
      simp at hU
      exact ⟨rfl, hU.symm⟩
    · have : ((0 : ℕ) == i) = false := by simpa using Ne.symm hi
      simp [this] at hU
  have hfs : ∀ f, (Mesh.insertFaces fs ⟨.empty, .empty, n⟩).faces.get f = fs[f]? := by
    intro f
    have := e7 f
    simpa [Arena.empty] using this
  constructor
  · exact ⟨by simp, by simp⟩
  · exact e3
  · intro i U hU
    rw [(hg i U hU).2]
    exact h1
  · intro i U hU
    rw [(hg i U hU).2]
    exact h2
  · intro i U hU
    rw [(hg i U hU).2]
    exact h3
  · intro i U hU p s hs
    rw [(hg i U hU).2] at hs ⊢
    rw [hfs]
    exact (h4 p s hs).2
  · intro i U hU p s hs j q
    obtain ⟨rfl, rfl⟩ := hg i U hU
    constructor
    · intro ho
      rw [(h4 p s hs).1] at ho
      cases ho
    · rintro ⟨hj, V, r, hV, _⟩
      exact absurd (hg j V hV).1 hj
  · intro i U hU p s hs j V hV q r hr he hji
    exact absurd ((hg j V hV).1.trans (hg i U hU).1.symm) hji
  · intro f pts hf
    rw [hfs] at hf
    obtain ⟨hlt, _⟩ := List.getElem?_eq_some_iff.1 hf
    obtain ⟨p, s, hs, rfl⟩ := h5 f hlt
    exact ⟨0, T, p, s, rfl, hs, rfl⟩

theorem basic2d_ok : ∃ M, Mesh.basic2d = some M ∧ Consistent 2 M ∧ M.tetras.len = 1 ∧ M.faces.len = 3 ∧
    M.numPoints = 3 := by
  refine ⟨_, rfl, ?_, rfl, rfl, rfl⟩
  refine single_consistent (D := 2) (n := 3)
    (T := ⟨[(0, newFace 0 false), (1, newFace 1 false), (2, newFace 2 false)]⟩)
    (fs := [[1, 2], [2, 0], [0, 1]]) rfl (by decide) (by decide) ?_ ?_
  · intro p s hs
    simp only [List.mem_cons, Prod.mk.injEq, List.not_mem_nil, or_false] at hs
    rcases hs with ⟨rfl, rfl⟩ | ⟨rfl, rfl⟩ | ⟨rfl, rfl⟩ <;>
      refine ⟨rfl, _, rfl, by decide, ?_⟩ <;> intro x <;> simp [Tetra.points] <;> omega
  · intro f hf
    have : f = 0 ∨ f = 1 ∨ f = 2 := by simp at hf; omega
    rcases this with rfl | rfl | rfl
    · exact ⟨0, _, List.mem_cons_self, rfl⟩
    · exact ⟨1, newFace 1 false, by simp, rfl⟩
    · exact ⟨2, newFace 2 false, by simp, rfl⟩

theorem basic3d_ok : ∃ M, Mesh.basic3d = some M ∧ Consistent 3 M ∧ M.tetras.len = 1 ∧ M.faces.len = 4 ∧
    M.numPoints = 4 := by
  refine ⟨_, rfl, ?_, rfl, rfl, rfl⟩
  refine single_consistent (D := 3) (n := 4)
    (T := ⟨[(0, newFace 0 false), (1, newFace 1 false), (2, newFace 2 false), (3, newFace 3 false)]⟩)
    (fs := [[2, 1, 3], [2, 3, 0], [0, 3, 1], [0, 1, 2]]) rfl (by decide) (by decide) ?_ ?_
  · intro p s hs
    simp only [List.mem_cons, Prod.mk.injEq, List.not_mem_nil, or_false] at hs
    rcases hs with ⟨rfl, rfl⟩ | ⟨rfl, rfl⟩ | ⟨rfl, rfl⟩ | ⟨rfl, rfl⟩ <;>
      refine ⟨rfl, _, rfl, by decide, ?_⟩ <;> intro x <;> simp [Tetra.points] <;> omega
  · intro f hf
    have : f = 0 ∨ f = 1 ∨ f = 2 ∨ f = 3 := by simp at hf; omega
    rcases this with rfl | rfl | rfl | rfl
    · exact ⟨0, _, List.mem_cons_self, rfl⟩
    · exact ⟨1, newFace 1 false, by simp, rfl⟩
    · exact ⟨2, newFace 2 false, by simp, rfl⟩
    · exact ⟨3, newFace 3 false, by simp, rfl⟩

theorem fresh_point {D : ℕ} {M : Mesh} (h : Consistent D M) {t : ℕ} {T : Tetra} (hT : M.tetras.get t = some T) :
    M.numPoints ∉ T.points := fun hc => absurd (h.points_lt t T hT _ hc) (Nat.lt_irrefl _)

theorem ops2_ok : OpsOk 2 3 ops2 where
  split M t T point h hT hp hpT := by
    obtain ⟨M', news, h1, h2, h3, h4, _⟩ := split2d_step h hT hp hpT
    exact ⟨M', news, h1, h2, by omega, h4⟩
  flip M t T p s c h hT hs hc hq M' news hf := by
    obtain ⟨M1, n1, h1, h2, h3, h4, _⟩ := flip2d_step h hT hs hc hq
    rw [show ops2.flip M t s.face = M.flip2d t s.face from rfl, h1] at hf
    cases hf
    exact Or.inr ⟨h2, by omega, h4⟩

theorem ops3_ok (intersect : List ℕ → ℕ → ℕ → Option IntersectionType) : OpsOk 3 4 (ops3 intersect) where
  split M t T point h hT hp hpT := by
    obtain ⟨M', news, h1, h2, h3, h4, _⟩ := split3d_step h hT hp hpT
    exact ⟨M', news, h1, h2, by omega, h4⟩
  flip M t T p s c h hT hs hc hq M' news hf := by
    rcases flip3d_step h hT hs hc hq hf with h1 | ⟨h2, h3, h4, _⟩
    · exact Or.inl h1
    · exact Or.inr ⟨h2, by omega, h4⟩

end Verif.Delaunay
