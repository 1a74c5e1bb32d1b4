import Verif.Delaunay.HistoryLemmas
import Mathlib.Algebra.Order.Ring.Rat
import Mathlib.Algebra.Order.Field.Rat

/-! # The triangulation stays a consistent mesh -/

namespace Verif.Delaunay

open Verif.Predicates (IntersectionType P2 P3)

/-- In a consistent mesh neighbourhood is mutual: if simplex `i` records, for the side opposite to its vertex
`p`, the neighbour `j` with opposite vertex `q`, then `j` exists, has the same side opposite to its vertex `q`,
records `i` and `p` there, sees the side from the other side, and `q` is not on the side. -/
theorem neighbours_mutual {D : ℕ} {M : Mesh} (h : Consistent D M) {i j p q : ℕ} {T : Tetra} {s : FaceInfo}
    (hT : M.tetras.get i = some T) (hs : (p, s) ∈ T.slots) (ho : s.opposing = some ⟨j, q⟩) :
    ∃ U r pts, M.tetras.get j = some U ∧ (q, r) ∈ U.slots ∧ r.face = s.face ∧ r.opposing = some ⟨i, p⟩ ∧
      r.flipped = !s.flipped ∧ M.faces.get s.face = some pts ∧ q ∉ pts ∧ p ∉ pts ∧
      (∀ x ∈ pts, x ∈ T.points ∧ x ∈ U.points) := by
  obtain ⟨hji, U, r, hU, hr, hf⟩ := (h.neighbour i T hT p s hs j q).1 ho
  obtain ⟨pts, hp1, _, hp3⟩ := h.face_points i T hT p s hs
  obtain ⟨pts', hq1, _, hq3⟩ := h.face_points j U hU q r hr
  rw [hf, hp1] at hq1
  cases hq1
  refine ⟨U, r, pts, hU, hr, hf, ?_, h.sides i T hT p s hs j U hU q r hr hf hji, hp1,
    fun hc => ((hq3 q).1 hc).2 rfl, fun hc => ((hp3 p).1 hc).2 rfl,
    fun x hx => ⟨((hp3 x).1 hx).1, ((hq3 x).1 hx).1⟩⟩
  exact (h.neighbour j U hU q r hr i p).2 ⟨Ne.symm hji, T, s, hT, hs, hf.symm⟩

/-- Every history of insertions and flips in two dimensions leaves a consistent mesh with `1 + 2n` triangles,
`3 + 3n` edges and `3 + n` points, where `n` is the number of insertions. -/
theorem mesh2_consistent {n : ℕ} {M : Mesh} (h : Built2 n M) :
    Consistent 2 M ∧ M.tetras.len = 1 + 2 * n ∧ M.faces.len = 3 + 3 * n ∧ M.numPoints = 3 + n := by
  induction h with
  | start h =>
    obtain ⟨M', h1, h2, h3, h4, h5⟩ := basic2d_ok
    rw [h1] at h
    cases h
    exact ⟨h2, h3, h4, h5⟩
  | @split n M t T M' news h hT hs ih =>
    obtain ⟨ih, i1, i2, i3⟩ := ih
    obtain ⟨M1, n1, h1, h2, _, _, h5, h6⟩ :=
      split2d_step (ih.mesh (Nat.le_succ _)) hT (Nat.lt_succ_self _) (fresh_point ih hT)
    rw [h1] at hs
    cases hs
    have h7 : M'.tetras.len = M.tetras.len + 2 := h5
    have h8 : M'.faces.len = M.faces.len + 3 := h6
    have h9 : M'.numPoints = M.numPoints + 1 := h2.numPoints
    exact ⟨h2.cons, by omega, by omega, by omega⟩
  | flip h hT hp hc hq hf ih =>
    obtain ⟨ih, i1, i2, i3⟩ := ih
    obtain ⟨M1, n1, h1, h2, _, _, h5, h6⟩ := flip2d_step ih hT hp hc hq
    rw [h1] at hf
    cases hf
    exact ⟨h2.cons, by omega, by omega, h2.numPoints.trans i3⟩

/-- In two dimensions neither the initial triangle, nor an insertion into an existing triangle, nor the flip of
an edge between two triangles with different opposite points can panic. -/
theorem mesh2_no_panic :
    (∃ M, Mesh.basic2d = some M) ∧
    ∀ n M, Built2 n M → ∀ t T, M.tetras.get t = some T →
      (∃ r, { M with numPoints := M.numPoints + 1 }.split2d t M.numPoints = some r) ∧
      ∀ p s c, (p, s) ∈ T.slots → s.opposing = some c → c.point ∉ T.points → ∃ r, M.flip2d t s.face = some r := by
  refine ⟨⟨_, rfl⟩, fun n M h t T hT => ⟨?_, fun p s c hs hc hq => ?_⟩⟩
  · have ih := (mesh2_consistent h).1
    obtain ⟨M1, n1, h1, _⟩ :=
      split2d_step (ih.mesh (Nat.le_succ _)) hT (Nat.lt_succ_self _) (fresh_point ih hT)
    exact ⟨_, h1⟩
  · obtain ⟨M1, n1, h1, _⟩ := flip2d_step (mesh2_consistent h).1 hT hs hc hq
    exact ⟨_, h1⟩

/-- Every history of insertions and flips in three dimensions leaves a consistent mesh with `4 + n` points.  The
number of faces is always twice the number of tetrahedra plus two. -/
theorem mesh3_consistent {n : ℕ} {M : Mesh} (h : Built3 n M) :
    Consistent 3 M ∧ M.faces.len = 2 * M.tetras.len + 2 ∧ M.numPoints = 4 + n := by
  induction h with
  | start h =>
    obtain ⟨M', h1, h2, h3, h4, h5⟩ := basic3d_ok
    rw [h1] at h
    cases h
    exact ⟨h2, by omega, h5⟩
  | @split n M t T M' news h hT hs ih =>
    obtain ⟨ih, i1, i2⟩ := ih
    obtain ⟨M1, n1, h1, h2, _, _, h5, h6⟩ :=
      split3d_step (ih.mesh (Nat.le_succ _)) hT (Nat.lt_succ_self _) (fresh_point ih hT)
    rw [h1] at hs
    cases hs
    have h7 : M'.tetras.len = M.tetras.len + 3 := h5
    have h8 : M'.faces.len = M.faces.len + 6 := h6
    have h9 : M'.numPoints = M.numPoints + 1 := h2.numPoints
    exact ⟨h2.cons, by omega, by omega⟩
  | flip i h hT hp hc hq hf ih =>
    obtain ⟨ih, i1, i2⟩ := ih
    rcases flip3d_step ih hT hp hc hq hf with ⟨rfl, rfl⟩ | ⟨h2, _, _, ⟨h5, h6⟩ | ⟨h5, h6⟩⟩
    · exact ⟨ih, i1, i2⟩
    · exact ⟨h2.cons, by omega, h2.numPoints.trans i2⟩
    · exact ⟨h2.cons, by omega, h2.numPoints.trans i2⟩

/-- The changes of the numbers of tetrahedra and faces: a split adds three and six, a flip adds one and two
(returning three new tetrahedra), removes one and two (returning two), or does nothing (returning none). -/
theorem mesh3_counts {n : ℕ} {M : Mesh} (h : Built3 n M) {t : ℕ} {T : Tetra} (hT : M.tetras.get t = some T) :
    (∀ M' news, { M with numPoints := M.numPoints + 1 }.split3d t M.numPoints = some (M', news) →
      news.length = 4 ∧ M'.tetras.len = M.tetras.len + 3 ∧ M'.faces.len = M.faces.len + 6) ∧
    ∀ intersect p s c M' news, (p, s) ∈ T.slots → s.opposing = some c → c.point ∉ T.points →
      M.flip3d intersect t s.face = some (M', news) →
      (M' = M ∧ news = []) ∨
      (M'.tetras.len = M.tetras.len + 1 ∧ M'.faces.len = M.faces.len + 2) ∨
      (M'.tetras.len + 1 = M.tetras.len ∧ M'.faces.len + 2 = M.faces.len) := by
  have ih := (mesh3_consistent h).1
  refine ⟨fun M' news hs => ?_, fun i p s c M' news hs hc hq hf => ?_⟩
  · obtain ⟨M1, n1, h1, h2, h3, _, h5, h6⟩ :=
      split3d_step (ih.mesh (Nat.le_succ _)) hT (Nat.lt_succ_self _) (fresh_point ih hT)
    rw [h1] at hs
    cases hs
    exact ⟨h3, h5, h6⟩
  · rcases flip3d_step ih hT hs hc hq hf with h1 | ⟨_, _, _, h5⟩
    · exact Or.inl h1
    · exact Or.inr h5

/-- In three dimensions the initial tetrahedron and an insertion into an existing tetrahedron cannot panic.  The
flip of a face `s1 s2 s3` between two tetrahedra with different opposite points can panic only if the
geometric test does (degenerate position), or if the test reports that the line between the opposite points
passes outside of one edge and one of the two tetrahedra has no neighbour at that edge. -/
theorem mesh3_no_panic :
    (∃ M, Mesh.basic3d = some M) ∧
    ∀ n M, Built3 n M → ∀ t T, M.tetras.get t = some T →
      (∃ r, { M with numPoints := M.numPoints + 1 }.split3d t M.numPoints = some r) ∧
      ∀ intersect p s c, (p, s) ∈ T.slots → s.opposing = some c → c.point ∉ T.points →
        M.flip3d intersect t s.face = none →
        ∃ U s1 s2 s3, M.tetras.get c.tetra = some U ∧ M.faces.get s.face = some [s1, s2, s3] ∧
          (intersect [s1, s2, s3] p c.point = none ∨
            ∃ e g, intersect [s1, s2, s3] p c.point = some (.outsideOneEdge e) ∧ g.opposing = none ∧
              ((pointOppositeEdge s1 s2 s3 e, g) ∈ T.slots ∨
                (pointOppositeEdge s1 s2 s3 e, g) ∈ U.slots)) := by
  refine ⟨⟨_, rfl⟩, fun n M h t T hT => ⟨?_, fun i p s c hs hc hq => ?_⟩⟩
  · have ih := (mesh3_consistent h).1
    obtain ⟨M1, n1, h1, _⟩ :=
      split3d_step (ih.mesh (Nat.le_succ _)) hT (Nat.lt_succ_self _) (fresh_point ih hT)
    exact ⟨_, h1⟩
  · exact flip3d_panics (mesh3_consistent h).1 hT hs hc hq

/-! ### Examples -/

/-- The hypotheses of the theorems in two dimensions are satisfied by a mesh with two insertions and a flip: one
of its triangles still has a neighbour with a different opposite point. -/
example : ∃ M t T p s c, Built2 2 M ∧ M.tetras.get t = some T ∧ (p, s) ∈ T.slots ∧ s.opposing = some c ∧
    c.point ∉ T.points ∧ c.tetra ≠ t := by
  obtain ⟨M0, h0⟩ : ∃ M, Mesh.basic2d = some M := ⟨_, rfl⟩
  have b0 : Built2 0 M0 := .start h0
  cases h0
  have b1 := Built2.split (t := 0) b0 rfl rfl
  have b2 := Built2.split (t := 1) b1 rfl rfl
  have b3 := Built2.flip (t := 4) (p := 4) (s := ⟨5, some ⟨2, 0⟩, true⟩) (c := ⟨2, 0⟩) b2 rfl
    (by decide +kernel) rfl (by decide +kernel) rfl
  exact ⟨_, 8, _, 4, ⟨3, some ⟨3, 1⟩, true⟩, ⟨3, 1⟩, b3, rfl, by decide +kernel, by decide +kernel,
    by decide +kernel, by decide +kernel⟩

/-- In three dimensions: two insertions, a flip of two tetrahedra into three and a flip of three into two. -/
example : ∃ M t T p s c, Built3 2 M ∧ M.tetras.get t = some T ∧ (p, s) ∈ T.slots ∧ s.opposing = some c ∧
    c.point ∉ T.points ∧ c.tetra ≠ t ∧ M.tetras.len = 7 := by
  obtain ⟨M0, h0⟩ : ∃ M, Mesh.basic3d = some M := ⟨_, rfl⟩
  have b0 : Built3 0 M0 := .start h0
  cases h0
  have b1 := Built3.split (t := 0) b0 rfl rfl
  have b2 := Built3.split (t := 1) b1 rfl rfl
  have b3 := Built3.flip (t := 5) (p := 5) (s := ⟨8, some ⟨3, 0⟩, true⟩) (c := ⟨3, 0⟩)
    (fun _ _ _ => some .inside) b2 rfl (by decide +kernel) rfl (by decide +kernel) rfl
  have b4 := Built3.flip (t := 9) (p := 3) (s := ⟨17, some ⟨11, 4⟩, false⟩) (c := ⟨11, 4⟩)
    (fun _ _ _ => some (.outsideOneEdge .three)) b3 rfl (by decide +kernel) rfl (by decide +kernel) rfl
  exact ⟨_, 12, _, 5, ⟨19, some ⟨13, 0⟩, false⟩, ⟨13, 0⟩, b4, rfl, by decide +kernel, by decide +kernel,
    by decide +kernel, by decide +kernel, by decide +kernel⟩

end Verif.Delaunay
