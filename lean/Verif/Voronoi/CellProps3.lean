import Verif.Voronoi.CellProps

/-! # C58: Voronoi cells in three dimensions, and what cells contain -/

namespace Verif.Voronoi

open Verif.Delaunay (Mesh Consistent FaceInfo slot_unique)
open Verif.Predicates (P2 P3 orient2 orient3 distSq2 distSq3 dot)

variable {M : Mesh}

/-! ### The Voronoi points -/

/-- Every Voronoi point has the same distance to all vertices of its simplex. -/
def Equidistant3 (M : Mesh) (x : ℕ → P3 ℝ) (centre : ℕ → Option (P3 ℝ)) : Prop :=
  ∀ t T c, M.tetras.get t = some T → centre t = some c →
    ∀ p ∈ T.points, ∀ q ∈ T.points, distSq3 c (x p) = distSq3 c (x q)

/-- No tetrahedron of the mesh is flat. -/
def NotFlat3 (M : Mesh) (x : ℕ → P3 ℝ) : Prop :=
  ∀ t T, M.tetras.get t = some T → ∀ a b c d, T.points = [a, b, c, d] → orient3 ⟨x a, x b, x c, x d⟩ ≠ 0

private theorem distSq3_comm (a b : P3 ℝ) : distSq3 a b = distSq3 b a := by unfold distSq3; ring

/-- The Voronoi points computed by the code exist and are equidistant from the vertices. -/
theorem centres3_equidistant {eps : ℝ} (heps : 0 < eps) {x : ℕ → P3 ℝ} (h : Consistent 3 M) (hf : NotFlat3 M x) :
    Equidistant3 M x (centre3 eps M x) ∧ ∀ t T, M.tetras.get t = some T → ∃ c, centre3 eps M x t = some c := by
  have key : ∀ t T, M.tetras.get t = some T → ∃ a b c d, T.points = [a, b, c, d] := by
    intro t T hT
    have hl := h.size t T hT
    unfold Delaunay.Tetra.points
    match T.slots, hl with
    | [a, b, c, d], _ => exact ⟨a.1, b.1, c.1, d.1, rfl⟩
  constructor
  · intro t T c hT hc p hp q hq
    obtain ⟨a, b, d, e, he⟩ := key t T hT
    unfold centre3 at hc
    rw [hT, Option.bind_some, he] at hc
    dsimp only at hc
    obtain ⟨c', h0, h1, h2, h3⟩ := Predicates.circumcentre_correct eps heps ⟨x a, x b, x d, x e⟩ (hf t T hT a b d e he)
    rw [hc] at h0
    cases h0
    dsimp only at h1 h2 h3
    have h4 : ∀ y ∈ T.points, distSq3 (x a) c = distSq3 (x y) c := by
      intro y hy
      rw [he] at hy
      simp only [List.mem_cons, List.not_mem_nil, or_false] at hy
      rcases hy with rfl | rfl | rfl | rfl
      · rfl
      · exact h1
      · exact h2
      · exact h3
    rw [distSq3_comm, distSq3_comm _ (x q), ← h4 p hp, ← h4 q hq]
  · intro t T hT
    obtain ⟨a, b, d, e, he⟩ := key t T hT
    obtain ⟨c, h0, _⟩ := Predicates.circumcentre_correct eps heps ⟨x a, x b, x d, x e⟩ (hf t T hT a b d e he)
    refine ⟨c, ?_⟩
    unfold centre3
    rw [hT, Option.bind_some, he]
    exact h0

/-! ### Faces -/

private theorem normalize3_neg {a b n : P3 ℝ} (h : normalize3 (a.sub b) = some n) :
    normalize3 (b.sub a) = some ⟨-n.x, -n.y, -n.z⟩ := by
  have hl : length3 (b.sub a) = length3 (a.sub b) := by
    unfold length3 P3.sub
    congr 1
    ring
  unfold normalize3 at h ⊢
  rw [hl]
  by_cases h0 : length3 (a.sub b) = 0
  · rw [if_pos h0] at h
    cases h
  · rw [if_neg h0] at h ⊢
    cases h
    congr 2 <;>
    · unfold P3.sub
      ring

theorem facePolygon_spec {x : ℕ → P3 ℝ} {centre : ℕ → Option (P3 ℝ)} {p q : ℕ} {F : Face3}
    (h : facePolygon M x centre p q = some F) : ∃ l, (arranged (tetrasWithBoth M p q)
      fun t u => (commonFace M t u).isSome) = some l ∧ l.mapM (fun e => centre e.1) = some F.points ∧
      normalize3 ((x q).sub (x p)) = some F.normal ∧ polygonArea F.points = some F.area ∧ F.connection = q := by
  unfold facePolygon at h
  cases h1 : arranged (tetrasWithBoth M p q) fun t u => (commonFace M t u).isSome with
  | none => rw [h1] at h; cases h
  | some l =>
    rw [h1] at h
    dsimp only [bind, Option.bind_some] at h
    cases h2 : l.mapM (fun e => centre e.1) with
    | none => rw [h2] at h; cases h
    | some pts =>
      rw [h2] at h
      dsimp only [Option.bind_some] at h
      cases h3 : normalize3 ((x q).sub (x p)) with
      | none => rw [h3] at h; cases h
      | some n =>
        rw [h3] at h
        dsimp only [Option.bind_some] at h
        cases h4 : polygonArea pts with
        | none => rw [h4] at h; cases h
        | some ar =>
          rw [h4] at h
          cases h
          exact ⟨l, rfl, h2, rfl, h4, rfl⟩

theorem mem_tetrasWithBoth (h : Consistent 3 M) {p q t : ℕ} :
    t ∈ tetrasWithBoth M p q ↔ ∃ T, M.tetras.get t = some T ∧ p ∈ T.points ∧ q ∈ T.points := by
  unfold tetrasWithBoth
  rw [List.mem_filter, mem_tetrasOf h.tetras_ok]
  constructor
  · rintro ⟨⟨T, hT, hp⟩, hq⟩
    rw [hT] at hq
    exact ⟨T, hT, hp, by simpa using hq⟩
  · rintro ⟨T, hT, hp, hq⟩
    refine ⟨⟨T, hT, hp⟩, ?_⟩
    rw [hT]
    simpa using hq

theorem tetrasWithBoth_nodup (h : Consistent 3 M) (p q : ℕ) : (tetrasWithBoth M p q).Nodup :=
  (tetrasOf_nodup h p).filter _

theorem face_cycle (h : Consistent 3 M) {x : ℕ → P3 ℝ} {centre : ℕ → Option (P3 ℝ)} {p q : ℕ} {F : Face3}
    (hF : facePolygon M x centre p q = some F) : ∃ c : List ℕ, c.Perm (tetrasWithBoth M p q) ∧
      2 ≤ c.length ∧ (∀ e ∈ sidesOf c, (commonFace M e.1 e.2).isSome = true) ∧ c.mapM centre = some F.points := by
  obtain ⟨l, h1, h2, h3, h4, h5⟩ := facePolygon_spec hF
  obtain ⟨g1, g2⟩ := arranged_spec h1
  by_cases hlt : (tetrasWithBoth M p q).length < 2
  · rw [g1 hlt] at h2
    rw [List.mapM_nil] at h2
    have : F.points = [] := (Option.some.inj h2).symm
    rw [this] at h4
    cases h4
  · obtain ⟨c, rfl, hp, hr⟩ := g2 (by omega)
    refine ⟨c, hp, by rw [hp.length_eq]; omega, hr, ?_⟩
    have : (sidesOf c).map Prod.fst = c := by
      unfold sidesOf
      rw [List.map_fst_zip (by simp)]
    rw [← h2, ← this, List.mapM_map, this]
    rfl

private theorem adj_of_cycle (h : Consistent 3 M) {p q : ℕ} {c : List ℕ} (hp : c.Perm (tetrasWithBoth M p q))
    (hl : 2 ≤ c.length) (hr : ∀ e ∈ sidesOf c, (commonFace M e.1 e.2).isSome = true) :
    ∀ e ∈ sidesOf c, Adj M [p, q] e.1 e.2 := by
  intro e he
  obtain ⟨m1, m2⟩ := mem_sidesOf he
  have hn : c.Nodup := hp.nodup_iff.2 (tetrasWithBoth_nodup h p q)
  obtain ⟨T, hT, hpT, hqT⟩ := (mem_tetrasWithBoth h).1 (hp.mem_iff.1 m1)
  obtain ⟨U, hU, hpU, hqU⟩ := (mem_tetrasWithBoth h).1 (hp.mem_iff.1 m2)
  exact ⟨side_ne hn hl he, T, U, hT, hU, by simp [hpT, hqT], by simp [hpU, hqU], hr e he⟩

/-- The polygon between two points in space is the same in both cells: the same vertices in the same order, up to
the start and the direction; the normals are opposite.  If the polygon is convex, the areas are equal. -/
theorem polygons_agree3 (h : Consistent 3 M) (hd : Distinct M) {x : ℕ → P3 ℝ} {centre : ℕ → Option (P3 ℝ)}
    {p q : ℕ} (hpq : p ≠ q) {F G : Face3} (hF : facePolygon M x centre p q = some F)
    (hG : facePolygon M x centre q p = some G) :
    SamePolygon F.points G.points ∧ G.normal = ⟨-F.normal.x, -F.normal.y, -F.normal.z⟩ ∧
    ∀ o u v qs, Orthonormal u v → ConvexPolygon qs → F.points = qs.map (inPlane o u v) → G.area = F.area := by
  obtain ⟨c, hc1, hc2, hc3, hc4⟩ := face_cycle h hF
  obtain ⟨d, hd1, hd2, hd3, hd4⟩ := face_cycle h hG
  obtain ⟨_, _, _, hn1, ha1, _⟩ := facePolygon_spec hF
  obtain ⟨_, _, _, hn2, ha2, _⟩ := facePolygon_spec hG
  have hperm : d.Perm c := by
    refine hd1.trans (List.Perm.trans ?_ hc1.symm)
    rw [List.perm_ext_iff_of_nodup (tetrasWithBoth_nodup h q p) (tetrasWithBoth_nodup h p q)]
    intro t
    rw [mem_tetrasWithBoth h, mem_tetrasWithBoth h]
    constructor <;>
    · rintro ⟨T, h1, h2, h3⟩
      exact ⟨T, h1, h3, h2⟩
  have hadj := adj_of_cycle h hc1 hc2 hc3
  have hadj' : ∀ e ∈ sidesOf d, Adj M [p, q] e.1 e.2 := by
    intro e he
    obtain ⟨h1, T, U, h2, h3, h4, h5, h6⟩ := adj_of_cycle h hd1 hd2 hd3 e he
    exact ⟨h1, T, U, h2, h3, by simpa [and_comm] using h4, by simpa [and_comm] using h5, h6⟩
  have hsame : SamePolygon F.points G.points :=
    mapM_samePolygon (cycles_same (adj_deg2 h hd (by simp [hpq]) rfl) (fun a b hab => hab.symm h hd)
      (hc1.nodup_iff.2 (tetrasWithBoth_nodup h p q)) hperm hadj hadj') hc4 hd4
  refine ⟨hsame, ?_, ?_⟩
  · have := normalize3_neg hn1
    rw [hn2, Option.some.injEq] at this
    exact this
  · intro o u v qs huv hqs he
    rw [he] at hsame
    have := polygon_area_same_polygon huv hqs hsame
    rw [ha2, ← he, ha1, Option.some.injEq] at this
    exact this

theorem mem_connectedPoints (h : Consistent 3 M) {p q : ℕ} :
    q ∈ connectedPoints M p ↔ q ≠ p ∧ ∃ t T, M.tetras.get t = some T ∧ p ∈ T.points ∧ q ∈ T.points := by
  unfold connectedPoints
  rw [List.mem_dedup, List.mem_flatMap]
  constructor
  · rintro ⟨t, ht, hq⟩
    obtain ⟨T, hT, hp⟩ := (mem_tetrasOf h.tetras_ok).1 ht
    rw [hT] at hq
    rw [List.mem_filter, bne_iff_ne] at hq
    exact ⟨hq.2, t, T, hT, hp, hq.1⟩
  · rintro ⟨hne, t, T, hT, hp, hq⟩
    refine ⟨t, (mem_tetrasOf h.tetras_ok).2 ⟨T, hT, hp⟩, ?_⟩
    rw [hT]
    exact List.mem_filter.2 ⟨hq, bne_iff_ne.2 hne⟩

theorem connections_eq {x : ℕ → P3 ℝ} {centre : ℕ → Option (P3 ℝ)} {p : ℕ} {F : List Face3}
    (hF : getFaces3 M x centre p = some F) : F.map Face3.connection = connectedPoints M p := by
  obtain ⟨h1, h2⟩ := mapM_eq_some_iff_getElem hF
  refine List.ext_getElem? ?_
  intro i
  rw [List.getElem?_map]
  by_cases hi : i < (connectedPoints M p).length
  · obtain ⟨f, hf, hi'⟩ := h2 i _ (List.getElem?_eq_getElem hi)
    obtain ⟨_, _, _, _, _, hc⟩ := facePolygon_spec hf
    rw [hi', List.getElem?_eq_getElem hi, Option.map_some, hc]
  · rw [List.getElem?_eq_none (by omega), List.getElem?_eq_none (by omega)]
    rfl

/-- The neighbours of a cell are the points which share a tetrahedron with its point; each of them occurs
once. -/
theorem connections3 (h : Consistent 3 M) {x : ℕ → P3 ℝ} {centre : ℕ → Option (P3 ℝ)} {p : ℕ} {F : List Face3}
    (hF : getFaces3 M x centre p = some F) :
    (F.map Face3.connection).Nodup ∧ ∀ q, q ∈ F.map Face3.connection ↔
      q ≠ p ∧ ∃ t T, M.tetras.get t = some T ∧ p ∈ T.points ∧ q ∈ T.points := by
  rw [connections_eq hF]
  exact ⟨List.nodup_dedup _, fun q => mem_connectedPoints h⟩

/-- The polygon of a face has as many vertices as there are tetrahedra with both points. -/
theorem face_length (h : Consistent 3 M) {x : ℕ → P3 ℝ} {centre : ℕ → Option (P3 ℝ)} {p : ℕ} {F : List Face3}
    (hF : getFaces3 M x centre p = some F) {f : Face3} (hf : f ∈ F) :
    ∃ q ∈ connectedPoints M p, f.points.length = (tetrasWithBoth M p q).length := by
  obtain ⟨q, hq, hfq⟩ := (mem_of_mapM hF).1 hf
  obtain ⟨c, hc1, _, _, hc4⟩ := face_cycle h hfq
  exact ⟨q, hq, by rw [← hc1.length_eq, (mapM_eq_some_iff_getElem hc4).1]⟩

/-- The face between two points is the same in both cells. -/
theorem neighbours_agree3 (h : Consistent 3 M) (hd : Distinct M) {x : ℕ → P3 ℝ} {centre : ℕ → Option (P3 ℝ)}
    {p q : ℕ} {F G : List Face3} (hF : getFaces3 M x centre p = some F) (hG : getFaces3 M x centre q = some G)
    {f : Face3} (hf : f ∈ F) (hq : f.connection = q) :
    ∃ g ∈ G, g.connection = p ∧ SamePolygon f.points g.points ∧
      g.normal = ⟨-f.normal.x, -f.normal.y, -f.normal.z⟩ ∧
      ∀ o u v qs, Orthonormal u v → ConvexPolygon qs → f.points = qs.map (inPlane o u v) → g.area = f.area := by
  subst hq
  obtain ⟨q, hq, hfq⟩ := (mem_of_mapM hF).1 hf
  obtain ⟨_, _, _, _, _, hc⟩ := facePolygon_spec hfq
  rw [← hc] at hq hfq
  obtain ⟨hne, t, T, hT, h1, h2⟩ := (mem_connectedPoints h).1 hq
  have hp : p ∈ connectedPoints M f.connection := (mem_connectedPoints h).2 ⟨Ne.symm hne, t, T, hT, h2, h1⟩
  obtain ⟨i, hi, rfl⟩ := List.getElem_of_mem hp
  obtain ⟨g, hg, hgi⟩ := (mapM_eq_some_iff_getElem hG).2 i _ (List.getElem?_eq_getElem hi)
  obtain ⟨_, _, _, _, _, hcg⟩ := facePolygon_spec hg
  exact ⟨g, List.mem_of_getElem? hgi, hcg, polygons_agree3 h hd (Ne.symm hne) hfq hg⟩

/-! ### Bisectors -/

private theorem points_equidistant (h : Consistent 3 M) {x : ℕ → P3 ℝ} {centre : ℕ → Option (P3 ℝ)}
    (he : Equidistant3 M x centre) {p q : ℕ} {F : Face3} (hF : facePolygon M x centre p q = some F) :
    F.points ≠ [] ∧ ∀ c ∈ F.points, distSq3 c (x p) = distSq3 c (x q) := by
  obtain ⟨c, hc1, hc2, hc3, hc4⟩ := face_cycle h hF
  constructor
  · intro h0
    rw [h0] at hc4
    have := (mapM_eq_some_iff_getElem hc4).1
    simp at this
    rw [this] at hc2
    simp at hc2
  · intro y hy
    obtain ⟨t, ht, hcy⟩ := (mem_of_mapM hc4).1 hy
    obtain ⟨T, hT, hp, hq⟩ := (mem_tetrasWithBoth h).1 (hc1.mem_iff.1 ht)
    exact he t T y hT hcy p hp q hq

/-- The polygon between two points lies in the plane in the middle between them. -/
theorem face_in_bisector (h : Consistent 3 M) {x : ℕ → P3 ℝ} {centre : ℕ → Option (P3 ℝ)}
    (he : Equidistant3 M x centre) {p : ℕ} {F : List Face3} (hF : getFaces3 M x centre p = some F) {f : Face3}
    (hf : f ∈ F) : f.points ≠ [] ∧ ∀ c ∈ f.points, distSq3 c (x p) = distSq3 c (x f.connection) := by
  obtain ⟨q, hq, hfq⟩ := (mem_of_mapM hF).1 hf
  obtain ⟨_, _, _, _, _, hc⟩ := facePolygon_spec hfq
  rw [hc]
  exact points_equidistant h he hfq

theorem length3_pos {v : P3 ℝ} (h : length3 v ≠ 0) : 0 < length3 v :=
  lt_of_le_of_ne (Real.sqrt_nonneg _) (Ne.symm h)

theorem length3_sq (v : P3 ℝ) : length3 v * length3 v = v.x * v.x + v.y * v.y + v.z * v.z :=
  Real.mul_self_sqrt (by nlinarith [mul_self_nonneg v.x, mul_self_nonneg v.y, mul_self_nonneg v.z])

private theorem normal_dot {a b n c y : P3 ℝ} (hn : normalize3 (b.sub a) = some n)
    (hc : distSq3 c a = distSq3 c b) :
    2 * length3 (b.sub a) * dot n (y.sub c) = distSq3 y a - distSq3 y b ∧ 0 < length3 (b.sub a) := by
  unfold normalize3 at hn
  by_cases h0 : length3 (b.sub a) = 0
  · rw [if_pos h0] at hn
    cases hn
  · rw [if_neg h0] at hn
    cases hn
    refine ⟨?_, length3_pos h0⟩
    have e : 2 * length3 (b.sub a) * dot ⟨(b.sub a).x / length3 (b.sub a), (b.sub a).y / length3 (b.sub a),
        (b.sub a).z / length3 (b.sub a)⟩ (y.sub c) = 2 * dot (b.sub a) (y.sub c) := by
      unfold dot
      field_simp
    rw [e]
    unfold distSq3 at hc ⊢
    unfold dot P3.sub
    linear_combination (-1) * hc

/-- A cell contains a point exactly if the point of the cell is closer than the points of all neighbouring
cells. -/
theorem contains3_iff (h : Consistent 3 M) {x : ℕ → P3 ℝ} {centre : ℕ → Option (P3 ℝ)} (he : Equidistant3 M x centre)
    {p : ℕ} {F : List Face3} (hF : getFaces3 M x centre p = some F) (y : P3 ℝ) :
    contains3 F y = some true ↔ ∀ f ∈ F, distSq3 y (x p) < distSq3 y (x f.connection) := by
  have key : ∀ f ∈ F, ∃ r, f.points[0]? = some r ∧
      (dot f.normal (y.sub r) < 0 ↔ distSq3 y (x p) < distSq3 y (x f.connection)) := by
    intro f hf
    obtain ⟨hne, heq⟩ := face_in_bisector h he hF hf
    cases hpts : f.points with
    | nil => exact absurd hpts hne
    | cons r l =>
      refine ⟨r, rfl, ?_⟩
      obtain ⟨q, hq, hfq⟩ := (mem_of_mapM hF).1 hf
      obtain ⟨_, _, _, hn, _, hc⟩ := facePolygon_spec hfq
      rw [← hc] at hn
      obtain ⟨h1, h2⟩ := normal_dot (y := y) hn (heq r (by rw [hpts]; simp))
      constructor
      · intro hlt
        have : 2 * length3 ((x f.connection).sub (x p)) * dot f.normal (y.sub r) < 0 :=
          mul_neg_of_pos_of_neg (by linarith) hlt
        linarith
      · intro hlt
        by_contra hcon
        have : 0 ≤ 2 * length3 ((x f.connection).sub (x p)) * dot f.normal (y.sub r) :=
          mul_nonneg (by linarith) (not_lt.1 hcon)
        linarith
  have hmap : (F.mapM fun f => (f.points[0]?).map fun r => decide (dot f.normal (y.sub r) < 0)) =
      some (F.map fun f => decide (distSq3 y (x p) < distSq3 y (x f.connection))) := by
    rw [mapM_iff_map, List.map_map]
    refine List.map_congr_left ?_
    intro f hf
    obtain ⟨r, hr, hiff⟩ := key f hf
    rw [hr, Option.map_some, Function.comp_apply]
    simp only [hiff]
  unfold contains3
  rw [hmap]
  simp

/-- The volume of a cell is the sum of the volumes of the pyramids between the point and its faces: one third of
the area of the face times half of the distance to the neighbour. -/
theorem volume3_eq (h : Consistent 3 M) {x : ℕ → P3 ℝ} {centre : ℕ → Option (P3 ℝ)} (he : Equidistant3 M x centre)
    {p : ℕ} {F : List Face3} (hF : getFaces3 M x centre p = some F) :
    volume3 F (x p) = some (F.map fun f => f.area * (length3 ((x f.connection).sub (x p)) / 2) / 3).sum := by
  have hmap : (F.mapM fun f => pyramidVolume f.normal (x p) f.points) =
      some (F.map fun f => f.area * (length3 ((x f.connection).sub (x p)) / 2) / 3) := by
    rw [mapM_iff_map, List.map_map]
    refine List.map_congr_left ?_
    intro f hf
    obtain ⟨hne, heq⟩ := face_in_bisector h he hF hf
    cases hpts : f.points with
    | nil => exact absurd hpts hne
    | cons r l =>
      obtain ⟨q, hq, hfq⟩ := (mem_of_mapM hF).1 hf
      obtain ⟨_, _, _, hn, ha, hc⟩ := facePolygon_spec hfq
      rw [← hc] at hn
      obtain ⟨h1, h2⟩ := normal_dot (y := x p) hn (heq r (by rw [hpts]; simp))
      rw [hpts] at ha
      unfold pyramidVolume
      rw [ha]
      dsimp only [Option.bind_some, List.getElem?_cons_zero, Option.map_some, Function.comp_apply]
      congr 1
      have h3 : dot f.normal ((x p).sub r) = -(length3 ((x f.connection).sub (x p)) / 2) := by
        have h4 := length3_sq ((x f.connection).sub (x p))
        have h5 : distSq3 (x p) (x p) - distSq3 (x p) (x f.connection) =
            -(length3 ((x f.connection).sub (x p)) * length3 ((x f.connection).sub (x p))) := by
          rw [h4]
          unfold distSq3 P3.sub
          ring
        rw [h5] at h1
        have h6 : length3 ((x f.connection).sub (x p)) * (2 * dot f.normal ((x p).sub r) +
            length3 ((x f.connection).sub (x p))) = 0 := by linarith
        rcases mul_eq_zero.1 h6 with h7 | h7
        · exact absurd h7 (ne_of_gt h2)
        · linarith
      rw [h3, abs_neg, abs_of_pos (by linarith)]
      norm_num
      ring
  unfold volume3
  rw [hmap]
  rfl

private theorem normalize3_some {a b : P3 ℝ} (h : a ≠ b) : ∃ n, normalize3 (a.sub b) = some n := by
  have hne : length3 (a.sub b) ≠ 0 := by
    intro h0
    have h1 := length3_sq (a.sub b)
    rw [h0, mul_zero] at h1
    have hx := mul_self_nonneg (a.sub b).x
    have hy := mul_self_nonneg (a.sub b).y
    have hz := mul_self_nonneg (a.sub b).z
    have h2 : (a.sub b).x = 0 := mul_self_eq_zero.1 (by linarith)
    have h3 : (a.sub b).y = 0 := mul_self_eq_zero.1 (by linarith)
    have h4 : (a.sub b).z = 0 := mul_self_eq_zero.1 (by linarith)
    unfold P3.sub at h2 h3 h4
    apply h
    cases a
    cases b
    dsimp only at h2 h3 h4
    rw [sub_eq_zero] at h2 h3 h4
    rw [h2, h3, h4]
  unfold normalize3
  rw [if_neg hne]
  exact ⟨_, rfl⟩

/-- If the tetrahedra at every edge of a point can be arranged in a cycle and every tetrahedron has a Voronoi
point, the construction of the faces does not panic. -/
theorem faces_exist3 (h : Consistent 3 M) {x : ℕ → P3 ℝ} {p : ℕ} (hx : ∀ q ∈ connectedPoints M p, x q ≠ x p)
    {centre : ℕ → Option (P3 ℝ)} (hc : ∀ t T, M.tetras.get t = some T → ∃ c, centre t = some c)
    (ha : ∀ q ∈ connectedPoints M p, 2 ≤ (tetrasWithBoth M p q).length ∧
      (arranged (tetrasWithBoth M p q) fun t u => (commonFace M t u).isSome).isSome = true) :
    ∃ F, getFaces3 M x centre p = some F := by
  have exist : ∀ {α β : Type} (f : α → Option β) (l : List α), (∀ e ∈ l, ∃ b, f e = some b) →
      ∃ r, l.mapM f = some r := by
    intro α β f l hl
    induction l with
    | nil => exact ⟨[], rfl⟩
    | cons e l ih =>
      obtain ⟨F, hF⟩ := ih fun e he => hl e (List.mem_cons_of_mem _ he)
      obtain ⟨b, hb⟩ := hl e List.mem_cons_self
      rw [List.mapM_cons, hb, hF]
      exact ⟨b :: F, rfl⟩
  refine exist _ _ ?_
  intro q hq
  obtain ⟨h2, hs⟩ := ha q hq
  obtain ⟨l, hl⟩ := Option.isSome_iff_exists.1 hs
  obtain ⟨c, rfl, hp, hr⟩ := (arranged_spec hl).2 h2
  have hlen : (sidesOf c).length = c.length := by
    unfold sidesOf
    simp
  obtain ⟨pts, hpts⟩ := exist (fun e : ℕ × ℕ => centre e.1) (sidesOf c) (by
    intro e he
    obtain ⟨T, hT, _⟩ := (mem_tetrasWithBoth h).1 (hp.mem_iff.1 (mem_sidesOf he).1)
    exact hc _ T hT)
  obtain ⟨n, hn⟩ := normalize3_some (hx q hq)
  have hpl : pts.length = c.length := by
    have := (mapM_eq_some_iff_getElem hpts).1
    omega
  have hA : ∃ a, polygonArea pts = some a := by
    rw [← hp.length_eq] at h2
    match pts, hpl with
    | [], hpl => rw [List.length_nil] at hpl; omega
    | r :: pts, _ =>
      unfold polygonArea
      rw [List.getElem?_cons_zero]
      dsimp only
      rw [mapWindows_eq]
      exact ⟨_, rfl⟩
  obtain ⟨a, hA⟩ := hA
  unfold facePolygon
  rw [hl]
  dsimp only [bind, Option.bind_some]
  rw [hpts]
  dsimp only [Option.bind_some]
  rw [hn]
  dsimp only [Option.bind_some]
  rw [hA]
  exact ⟨_, rfl⟩

/-! ### The hypotheses can be met -/

open Verif.Delaunay (Built3)

/-- The initial tetrahedron with two points inserted and two tetrahedra flipped into three. -/
private theorem example_mesh : ∃ M, Built3 2 M ∧ M.tetras.len = 8 ∧ Distinct M ∧ 4 ∈ connectedPoints M 5 ∧
    ∀ p ∈ [4, 5], ∀ q ∈ connectedPoints M p, 2 ≤ (tetrasWithBoth M p q).length ∧
      (arranged (tetrasWithBoth M p q) fun t u => (commonFace M t u).isSome).isSome = true := by
  obtain ⟨M0, h0⟩ : ∃ M, Mesh.basic3d = some M := ⟨_, rfl⟩
  have b0 : Built3 0 M0 := .start h0
  cases h0
  have b1 := Built3.split (t := 0) b0 rfl rfl
  have b2 := Built3.split (t := 1) b1 rfl rfl
  have b3 := Built3.flip (t := 5) (p := 5) (s := ⟨8, some ⟨3, 0⟩, true⟩) (c := ⟨3, 0⟩)
    (fun _ _ _ => some .inside) b2 rfl (by decide +kernel) rfl (by decide +kernel) rfl
  have hc := Delaunay.mesh3_consistent b3
  exact ⟨_, b3, by decide +kernel, distinct_of_entries hc.1.tetras_ok (by decide +kernel), by decide +kernel,
    by decide +kernel⟩

/-- Points on a curve no four of which lie in a plane. -/
private def curve3 (n : ℕ) : P3 ℝ := ⟨n, n ^ 2, n ^ 3⟩

private theorem curve3_ne {p q : ℕ} (h : p ≠ q) : curve3 p ≠ curve3 q := by
  intro he
  exact h (Nat.cast_injective (R := ℝ) (congrArg P3.x he))

private theorem curve3_orient (a b c d : ℕ) : orient3 ⟨curve3 a, curve3 b, curve3 c, curve3 d⟩ =
    ((b : ℝ) - a) * (c - a) * (d - a) * (c - b) * (d - b) * (d - c) := by
  rw [Predicates.orient3_eq]
  unfold curve3
  ring

private theorem curve3_notFlat (h : Consistent 3 M) : NotFlat3 M curve3 := by
  intro t T hT a b c d he
  have hn := h.points_nodup t T hT
  rw [he] at hn
  simp only [List.nodup_cons, List.mem_cons, List.not_mem_nil, or_false, not_or, not_false_eq_true, List.nodup_nil,
    and_true] at hn
  obtain ⟨⟨h1, h2, h3⟩, ⟨h4, h5⟩, h6⟩ := hn
  rw [curve3_orient]
  have key : ∀ {p q : ℕ}, p ≠ q → (q : ℝ) - p ≠ 0 := fun hpq =>
    sub_ne_zero.2 fun he => hpq (Nat.cast_injective he).symm
  exact mul_ne_zero (mul_ne_zero (mul_ne_zero (mul_ne_zero (mul_ne_zero (key h1) (key h2)) (key h3)) (key h4))
    (key h5)) (key h6)

/-- Two neighbouring cells in space which are both constructed with the Voronoi points of the code, so that the
hypotheses of the theorems on cells in three dimensions hold. -/
example : ∃ M x F G f, ∃ centre : ℕ → Option (P3 ℝ), Consistent 3 M ∧ Distinct M ∧ NotFlat3 M x ∧
    centre = centre3 (1 / 100) M x ∧ Equidistant3 M x centre ∧ getFaces3 M x centre 5 = some F ∧
    getFaces3 M x centre 4 = some G ∧ f ∈ F ∧ f.connection = 4 := by
  obtain ⟨M, hb, hlen, hd, h45, ha⟩ := example_mesh
  have hc := (Delaunay.mesh3_consistent hb).1
  obtain ⟨he, hcen⟩ := centres3_equidistant (eps := 1 / 100) (by norm_num) hc (curve3_notFlat hc)
  obtain ⟨F, hF⟩ := faces_exist3 hc (fun q hq => curve3_ne ((mem_connectedPoints hc).1 hq).1) hcen (ha 5 (by simp))
  obtain ⟨G, hG⟩ := faces_exist3 hc (fun q hq => curve3_ne ((mem_connectedPoints hc).1 hq).1) hcen (ha 4 (by simp))
  obtain ⟨f, hf, hf'⟩ := List.mem_map.1 (((connections3 hc hF).2 4).2 ((mem_connectedPoints hc).1 h45))
  exact ⟨M, curve3, F, G, f, _, hc, hd, curve3_notFlat hc, rfl, he, hF, hG, hf, hf'⟩

end Verif.Voronoi
