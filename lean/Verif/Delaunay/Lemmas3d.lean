import Verif.Delaunay.Lemmas2d

/-! # The three-dimensional operations keep the mesh consistent: lemmas -/

namespace Verif.Delaunay

/-- The new tetrahedra of a split. -/
def splitNews3d (point p1 p2 p3 p4 f : ℕ) (o1 o2 o3 o4 : FaceInfo) : List Tetra := [
  ⟨[(p3, newFace (f + 4) true), (p2, newFace (f + 5) false), (p4, newFace (f + 3) false), (point, o1)]⟩,
  ⟨[(p1, newFace (f + 5) true), (p3, newFace (f + 2) false), (p4, newFace (f + 1) true), (point, o2)]⟩,
  ⟨[(p2, newFace (f + 2) true), (p1, newFace (f + 4) false), (p4, newFace f false), (point, o3)]⟩,
  ⟨[(p1, newFace (f + 3) true), (p2, newFace (f + 1) false), (p3, newFace f true), (point, o4)]⟩]

set_option maxHeartbeats 1600000 in
theorem split3d_lemma {M : Mesh} (h : Consistent 3 M) {t point : ℕ} {T : Tetra}
    (hT : M.tetras.get t = some T) (hp : point < M.numPoints) (hpT : point ∉ T.points) :
    ∃ p1 o1 p2 o2 p3 o3 p4 o4 M0 M', T.slots = [(p1, o1), (p2, o2), (p3, o3), (p4, o4)] ∧
      M.split3d t point =
        some (M', [M.tetras.next, M.tetras.next + 1, M.tetras.next + 2, M.tetras.next + 3]) ∧
      M.tetras.entries.Perm ((t, T) :: M0.tetras.entries) ∧
      Replaced M M0 [t] (splitNews3d point p1 p2 p3 p4 M.faces.next o1 o2 o3 o4) M' ∧
      Consistent 3 M' ∧ M'.faces.len = M.faces.len + 6 ∧
      (∃ rm inh pairs links, Surgery 3 M M0 [t] rm
        (splitNews3d point p1 p2 p3 p4 M.faces.next o1 o2 o3 o4) inh pairs links) ∧
      ∀ k, M'.faces.get (M.faces.next + k) = [[point, p1, p2], [point, p1, p3], [point, p1, p4],
        [point, p2, p3], [point, p2, p4], [point, p3, p4]][k]? := by
  obtain ⟨p1, o1, p2, o2, p3, o3, p4, o4, hsl⟩ := slots_four (h.size t T hT)
  obtain ⟨a, ha⟩ := Arena.exists_remove hT
  set m0 : Mesh := { M with tetras := a } with hm0
  set fs : List (List ℕ) := [[point, p1, p2], [point, p1, p3], [point, p1, p4], [point, p2, p3],
        [point, p2, p4], [point, p3, p4]] with hfs
  set m1 : Mesh := m0.insertFaces fs with hm1
  obtain ⟨i1, i2, i3, i4, i5, i6, i7⟩ := insertFaces_spec (m := m0) (fs := fs) h.faces_ok
  rw [← hm1] at i1 i2 i3 i4 i5 i6 i7
  have hnx : m0.faces.next = M.faces.next := rfl
  have htn : m1.tetras.next = M.tetras.next := by
    rw [i1]; exact Arena.remove_next ha
  rw [hnx] at i4 i6 i7
  have hnd := h.points_nodup t T hT
  have hmem : ∀ p s, (p, s) ∈ T.slots ↔
      (p = p1 ∧ s = o1) ∨ (p = p2 ∧ s = o2) ∨ (p = p3 ∧ s = o3) ∨ (p = p4 ∧ s = o4) := by
    intro p s
    rw [hsl]
    simp
  have hpts : ∀ p, p ∈ T.points ↔ p = p1 ∨ p = p2 ∨ p = p3 ∨ p = p4 := by
    intro p
    unfold Tetra.points
    rw [hsl]
    simp
  unfold Tetra.points at hnd
  rw [hsl] at hnd
  simp only [List.map_cons, List.map_nil, List.nodup_cons, List.mem_cons, List.not_mem_nil, or_false,
    not_or, not_false_eq_true, List.nodup_nil, and_true] at hnd
  obtain ⟨⟨h12, h13, h14⟩, ⟨h23, h24⟩, h34⟩ := hnd
  rw [hpts] at hpT
  push Not at hpT
  obtain ⟨hq1, hq2, hq3, hq4⟩ := hpT
  have hfn := h.facesNodup t T hT
  unfold Tetra.FacesNodup at hfn
  rw [hsl] at hfn
  have hlt := h.points_lt t T hT
  have l1 := hlt p1 ((hpts _).2 (by simp))
  have l2 := hlt p2 ((hpts _).2 (by simp))
  have l3 := hlt p3 ((hpts _).2 (by simp))
  have l4 := hlt p4 ((hpts _).2 (by simp))
  have hface : ∀ p s, (p, s) ∈ T.slots →
      ∃ pts, m1.faces.get s.face = some pts ∧ pts.Nodup ∧ ∀ x, x ∈ pts ↔ x ∈ T.points ∧ x ≠ p := by
    intro p s hs
    rw [i6 _ (h.face_lt hT hs)]
    exact h.face_points t T hT p s hs
  have g0 : m1.faces.get M.faces.next = some [point, p1, p2] := i7 0
  have g1 : m1.faces.get (M.faces.next + 1) = some [point, p1, p3] := i7 1
  have g2 : m1.faces.get (M.faces.next + 2) = some [point, p1, p4] := i7 2
  have g3 : m1.faces.get (M.faces.next + 3) = some [point, p2, p3] := i7 3
  have g4 : m1.faces.get (M.faces.next + 4) = some [point, p2, p4] := i7 4
  have g5 : m1.faces.get (M.faces.next + 5) = some [point, p3, p4] := i7 5
  have S : Surgery 3 M m1 [t] [] (splitNews3d point p1 p2 p3 p4 M.faces.next o1 o2 o3 o4)
      [(0, point, o1), (1, point, o2), (2, point, o3), (3, point, o4)]
      [⟨M.faces.next, 3, p3, 2, p4, true⟩, ⟨M.faces.next + 1, 1, p4, 3, p2, true⟩,
        ⟨M.faces.next + 2, 2, p2, 1, p3, true⟩, ⟨M.faces.next + 3, 3, p1, 0, p4, true⟩,
        ⟨M.faces.next + 4, 0, p3, 2, p1, true⟩, ⟨M.faces.next + 5, 1, p1, 0, p2, true⟩]
      [(M.tetras.next, M.faces.next + 5, ⟨M.tetras.next + 1, p1⟩),
        (M.tetras.next, M.faces.next + 4, ⟨M.tetras.next + 2, p1⟩),
        (M.tetras.next, M.faces.next + 3, ⟨M.tetras.next + 3, p1⟩),
        (M.tetras.next + 1, M.faces.next + 5, ⟨M.tetras.next, p2⟩),
        (M.tetras.next + 1, M.faces.next + 2, ⟨M.tetras.next + 2, p2⟩),
        (M.tetras.next + 1, M.faces.next + 1, ⟨M.tetras.next + 3, p2⟩),
        (M.tetras.next + 2, M.faces.next + 4, ⟨M.tetras.next, p3⟩),
        (M.tetras.next + 2, M.faces.next + 2, ⟨M.tetras.next + 1, p3⟩),
        (M.tetras.next + 2, M.faces.next, ⟨M.tetras.next + 3, p3⟩),
        (M.tetras.next + 3, M.faces.next + 3, ⟨M.tetras.next, p4⟩),
        (M.tetras.next + 3, M.faces.next + 1, ⟨M.tetras.next + 1, p4⟩),
        (M.tetras.next + 3, M.faces.next, ⟨M.tetras.next + 2, p4⟩)] := by
    constructor
    · rw [i1]; exact Arena.remove_ok h.tetras_ok ha
    · exact i3
    · exact htn
    · intro i
      rw [i1, Arena.get_remove ha]
      simp
    · intro o ho
      rw [List.mem_singleton.1 ho]
      exact ⟨T, hT⟩
    · intro f hf
      rw [i6 f hf, if_neg List.not_mem_nil]
    · intro f pts hf hg
      obtain ⟨j, rfl⟩ := Nat.exists_eq_add_of_le hf
      rw [i7] at hg
      match j, hg with
      | 0, _ => exact ⟨⟨M.faces.next, 3, p3, 2, p4, true⟩, by simp, rfl⟩
      | 1, _ => exact ⟨⟨M.faces.next + 1, 1, p4, 3, p2, true⟩, by simp, rfl⟩
      | 2, _ => exact ⟨⟨M.faces.next + 2, 2, p2, 1, p3, true⟩, by simp, rfl⟩
      | 3, _ => exact ⟨⟨M.faces.next + 3, 3, p1, 0, p4, true⟩, by simp, rfl⟩
      | 4, _ => exact ⟨⟨M.faces.next + 4, 0, p3, 2, p1, true⟩, by simp, rfl⟩
      | 5, _ => exact ⟨⟨M.faces.next + 5, 1, p1, 0, p2, true⟩, by simp, rfl⟩
    · exact i2
    · simp [splitNews3d]
    · intro T' hT'
      simp only [splitNews3d, List.mem_cons, List.not_mem_nil, or_false] at hT'
      rcases hT' with rfl | rfl | rfl | rfl <;> simp [Tetra.points] <;>
        (clear * - h12 h13 h14 h23 h24 h34 hq1 hq2 hq3 hq4; omega)
    · intro T' hT' p hp'
      simp only [splitNews3d, List.mem_cons, List.not_mem_nil, or_false] at hT'
      rcases hT' with rfl | rfl | rfl | rfl <;> simp [Tetra.points] at hp' <;>
        rcases hp' with rfl | rfl | rfl | rfl <;> assumption
    · have f1 := hface p1 o1 ((hmem _ _).2 (by simp))
      have f2 := hface p2 o2 ((hmem _ _).2 (by simp))
      have f3 := hface p3 o3 ((hmem _ _).2 (by simp))
      have f4 := hface p4 o4 ((hmem _ _).2 (by simp))
      simp only [hpts] at f1 f2 f3 f4
      intro T' hT' p s hs
      simp only [splitNews3d, List.mem_cons, List.not_mem_nil, or_false] at hT'
      clear * - f1 f2 f3 f4 hT' hs g0 g1 g2 g3 g4 g5 h12 h13 h14 h23 h24 h34 hq1 hq2 hq3 hq4
      rcases hT' with rfl | rfl | rfl | rfl <;>
        simp only [List.mem_cons, Prod.mk.injEq, List.not_mem_nil, or_false] at hs <;>
        rcases hs with ⟨rfl, rfl⟩ | ⟨rfl, rfl⟩ | ⟨rfl, rfl⟩ | ⟨rfl, rfl⟩
      · exact ⟨_, g4, by simp; omega, by simp [Tetra.points]; omega⟩
      · exact ⟨_, g5, by simp; omega, by simp [Tetra.points]; omega⟩
      · exact ⟨_, g3, by simp; omega, by simp [Tetra.points]; omega⟩
      · obtain ⟨_, e1, n1, k1⟩ := f1
        exact ⟨_, e1, n1, fun x => by rw [k1]; simp [Tetra.points]; omega⟩
      · exact ⟨_, g5, by simp; omega, by simp [Tetra.points]; omega⟩
      · exact ⟨_, g2, by simp; omega, by simp [Tetra.points]; omega⟩
      · exact ⟨_, g1, by simp; omega, by simp [Tetra.points]; omega⟩
      · obtain ⟨_, e1, n1, k1⟩ := f2
        exact ⟨_, e1, n1, fun x => by rw [k1]; simp [Tetra.points]; omega⟩
      · exact ⟨_, g2, by simp; omega, by simp [Tetra.points]; omega⟩
      · exact ⟨_, g4, by simp; omega, by simp [Tetra.points]; omega⟩
      · exact ⟨_, g0, by simp; omega, by simp [Tetra.points]; omega⟩
      · obtain ⟨_, e1, n1, k1⟩ := f3
        exact ⟨_, e1, n1, fun x => by rw [k1]; simp [Tetra.points]; omega⟩
      · exact ⟨_, g3, by simp; omega, by simp [Tetra.points]; omega⟩
      · exact ⟨_, g1, by simp; omega, by simp [Tetra.points]; omega⟩
      · exact ⟨_, g0, by simp; omega, by simp [Tetra.points]; omega⟩
      · obtain ⟨_, e1, n1, k1⟩ := f4
        exact ⟨_, e1, n1, fun x => by rw [k1]; simp [Tetra.points]; omega⟩
    · intro k p s
      clear * -
      constructor
      · rintro ⟨T', hT', hs⟩
        match k, hT' with
        | 0, hT' =>
          cases hT'
          simp only [List.mem_cons, Prod.mk.injEq, List.not_mem_nil, or_false] at hs
          rcases hs with ⟨rfl, rfl⟩ | ⟨rfl, rfl⟩ | ⟨rfl, rfl⟩ | ⟨rfl, rfl⟩ <;> simp
        | 1, hT' =>
          cases hT'
          simp only [List.mem_cons, Prod.mk.injEq, List.not_mem_nil, or_false] at hs
          rcases hs with ⟨rfl, rfl⟩ | ⟨rfl, rfl⟩ | ⟨rfl, rfl⟩ | ⟨rfl, rfl⟩ <;> simp
        | 2, hT' =>
          cases hT'
          simp only [List.mem_cons, Prod.mk.injEq, List.not_mem_nil, or_false] at hs
          rcases hs with ⟨rfl, rfl⟩ | ⟨rfl, rfl⟩ | ⟨rfl, rfl⟩ | ⟨rfl, rfl⟩ <;> simp
        | 3, hT' =>
          cases hT'
          simp only [List.mem_cons, Prod.mk.injEq, List.not_mem_nil, or_false] at hs
          rcases hs with ⟨rfl, rfl⟩ | ⟨rfl, rfl⟩ | ⟨rfl, rfl⟩ | ⟨rfl, rfl⟩ <;> simp
      · rintro (hi | ⟨q, hq, hc⟩)
        · simp only [List.mem_cons, Prod.mk.injEq, List.not_mem_nil, or_false] at hi
          rcases hi with ⟨rfl, rfl, rfl⟩ | ⟨rfl, rfl, rfl⟩ | ⟨rfl, rfl, rfl⟩ | ⟨rfl, rfl, rfl⟩ <;>
            exact ⟨_, rfl, by simp⟩
        · simp only [List.mem_cons, List.not_mem_nil, or_false] at hq
          rcases hq with rfl | rfl | rfl | rfl | rfl | rfl <;>
            rcases hc with ⟨rfl, rfl, rfl⟩ | ⟨rfl, rfl, rfl⟩ <;>
            exact ⟨_, rfl, by simp⟩
    · intro x hx
      refine ⟨List.not_mem_nil, t, List.mem_singleton.2 rfl, T, ?_⟩
      simp only [hmem]
      simp only [List.mem_cons, List.not_mem_nil, or_false] at hx
      rcases hx with rfl | rfl | rfl | rfl
      · exact ⟨p1, hT, by simp⟩
      · exact ⟨p2, hT, by simp⟩
      · exact ⟨p3, hT, by simp⟩
      · exact ⟨p4, hT, by simp⟩
    · exact hfn
    · intro o ho T' hT' p s hs
      rw [List.mem_singleton.1 ho, hT] at hT'
      cases hT'
      rcases (hmem p s).1 hs with ⟨_, rfl⟩ | ⟨_, rfl⟩ | ⟨_, rfl⟩ | ⟨_, rfl⟩ <;> simp
    · intro f hf
      exact absurd hf List.not_mem_nil
    · intro o ho o' ho' _ _ _ _ _ _ _ _ _ _ _ _
      rw [List.mem_singleton.1 ho, List.mem_singleton.1 ho']
    · simp
    · simp
    · intro w
      clear * -
      simp only [List.mem_cons, List.not_mem_nil, or_false, exists_eq_or_imp, exists_eq_left, Nat.add_zero]
      tauto
  obtain ⟨M', hrun, hrep, hc⟩ := S.consistent h
  refine ⟨p1, o1, p2, o2, p3, o3, p4, o4, m1, M', hsl, ?_, ?_, hrep, hc, ?_, ⟨_, _, _, _, S⟩, fun k => ?_⟩
  · unfold Mesh.split3d Mesh.removeTetra
    rw [ha]
    dsimp only [Option.map_some]
    rw [hsl]
    dsimp only
    rw [← hm0, ← hfs, ← hm1, htn, hnx]
    unfold splitNews3d at hrun
    rw [hrun]
    rfl
  · rw [i1]; exact Arena.remove_perm h.tetras_ok ha
  · rw [hrep.faces]; exact i5
  · rw [hrep.faces]; exact i7 k

end Verif.Delaunay
