import Verif.Parallel.PlaneGrid
import Verif.Parallel.PlaneFace

/-! # The faces between cells of different ranks in two dimensions: lemmas -/

namespace Verif.Parallel.Plane

open Verif.Geometry Verif.Halo Verif.Delaunay
open Verif.Predicates (P2 distSq2)

variable {Id : Type} {W : World 2 Id}

theorem site_image (k : Fin 2 → ℤ) {z : Vec 2 ℝ} (h : W.Site z) : W.Site (image W.box k z) := by
  obtain ⟨s, q, hs, hq, k', rfl⟩ := h
  exact ⟨s, q, hs, hq, k + k', (image_add _ _ _ _).symm⟩

theorem image_neg (k : Fin 2 → ℤ) (z : Vec 2 ℝ) : image W.box (-k) (image W.box k z) = z := by
  rw [← image_add, neg_add_cancel, image_zero]

theorem face_image (k : Fin 2 → ℤ) {a b y : Vec 2 ℝ} (h : y ∈ face W a (image W.box k b)) :
    image W.box (-k) y ∈ face W b (image W.box (-k) a) := by
  obtain ⟨h1, h2⟩ := h
  have e1 : distance (image W.box (-k) y) b = distance y (image W.box k b) := by
    conv_lhs => rw [← image_neg (W := W) k b]
    exact distance_image _ _ _ _
  refine ⟨?_, fun z hz => ?_⟩
  · rw [e1, distance_image]
    exact h1.symm
  · have e2 : distance (image W.box (-k) y) z = distance y (image W.box k z) := by
      conv_lhs => rw [← image_neg (W := W) k z]
      exact distance_image _ _ _ _
    rw [e1, e2, ← h1]
    exact h2 _ (site_image k hz)

/-- The lengths within the face are the same from both sides. -/
theorem lengths_image (k : Fin 2 → ℤ) (a b : Vec 2 ℝ) :
    {r | ∃ y ∈ face W a (image W.box k b), ∃ z ∈ face W a (image W.box k b), r = distance y z} ⊆
      {r | ∃ y ∈ face W b (image W.box (-k) a), ∃ z ∈ face W b (image W.box (-k) a), r = distance y z} := by
  rintro r ⟨y, hy, z, hz, rfl⟩
  exact ⟨_, face_image k hy, _, face_image k hz, (distance_image _ _ _ _).symm⟩

theorem lengths_eq (k : Fin 2 → ℤ) (a b : Vec 2 ℝ) :
    {r | ∃ y ∈ face W a (image W.box k b), ∃ z ∈ face W a (image W.box k b), r = distance y z} =
      {r | ∃ y ∈ face W b (image W.box (-k) a), ∃ z ∈ face W b (image W.box (-k) a), r = distance y z} := by
  refine Set.Subset.antisymm (lengths_image k a b) ?_
  have := lengths_image (W := W) (-k) b a
  rwa [neg_neg] at this

variable [DecidableEq Id] {order order' : List ℕ} {own own' : ℕ} {g g' : Grid Id} {idx idx' : List (Id × ℕ)}
  {l l' : List (ℕ × Image Id (Fin 2 → WrapType) (P2 ℝ))}

namespace RankData

/-- The area of a face is the largest distance of two places on it. -/
theorem face_length (R : RankData order W own g idx l) (V : W.Valid) (hc : ∀ i, W.hi i - W.lo i = W.hi 0 - W.lo 0)
    {p : Id × Vec 2 ℝ} (hp : p ∈ W.ofRank own) {i : ℕ} (hi : (p.1, i) ∈ idx) (hpos : g.position i = dim2.ofVec p.2)
    {F : List Voronoi.Face2} (hF : g.faces i = some F) {f : Voronoi.Face2} (hf : f ∈ F) {b : Vec 2 ℝ}
    (hb : g.position f.connection = dim2.ofVec b) :
    0 < f.area ∧ IsGreatest {r | ∃ y ∈ face W p.2 b, ∃ z ∈ face W p.2 b, r = distance y z} f.area := by
  obtain ⟨h3, hlt⟩ := R.idx_three hi
  obtain ⟨h0, h1⟩ := Voronoi.face_greatest R.plane h3 hlt hF hf
  have hface : ∀ y, dim2.ofVec y ∈ Voronoi.onFace g.position g.tri.state.mesh.numPoints i f.connection ↔ y ∈ face W p.2 b := by
    intro y
    unfold Voronoi.onFace face
    rw [Set.mem_ofPred_eq, Set.mem_ofPred_eq, R.closest V hc hp hi hpos, hpos, hb, ← eq_iff2]
  have hdist : ∀ y z, √(distSq2 (dim2.ofVec y) (dim2.ofVec z)) = distance y z := by
    intro y z
    have := distance2 (dim2.ofVec y) (dim2.ofVec z)
    rw [toVec_ofVec, toVec_ofVec] at this
    exact this.symm
  refine ⟨h0, ?_⟩
  convert h1 using 1
  ext r
  constructor
  · rintro ⟨y, hy, z, hz, rfl⟩
    exact ⟨_, (hface y).2 hy, _, (hface z).2 hz, (hdist y z).symm⟩
  · rintro ⟨y, hy, z, hz, rfl⟩
    refine ⟨dim2.toVec y, (hface _).1 (by rw [ofVec_toVec]; exact hy), dim2.toVec z, (hface _).1 (by rw [ofVec_toVec]; exact hz), ?_⟩
    rw [← hdist, ofVec_toVec, ofVec_toVec]

/-- The connections of the faces of a cell. -/
theorem connections (R : RankData order W own g idx l) {i : ℕ} (h3 : 3 ≤ i) (hlt : i < g.tri.state.mesh.numPoints)
    {F : List Voronoi.Face2} (hF : g.faces i = some F) : (F.map Voronoi.Face2.connection).Nodup ∧
      ∀ q, q ∈ F.map Voronoi.Face2.connection ↔ ∃ c, g.tri.state.mesh.HasTriangle i q c := by
  obtain ⟨F', hF', h⟩ := Voronoi.cell_faces R.plane h3 hlt
  have hF' : g.faces i = some F' := hF'
  obtain rfl := Option.some.inj (hF.symm.trans hF')
  exact h

/-- The face between a local point and a point of another rank has the same area and the opposite normal in the cell of the
other rank. -/
theorem cross (R : RankData order W own g idx l) (R' : RankData order' W own' g' idx' l') (V : W.Valid)
    (hc : ∀ i, W.hi i - W.lo i = W.hi 0 - W.lo 0) (hh : ∀ r, ∀ p ∈ W.ofRank r, ∀ i, p.2 i < W.hi i)
    {p : Id × Vec 2 ℝ} (hp : p ∈ W.ofRank own) {i : ℕ} (hi : (p.1, i) ∈ idx) (hpos : g.position i = dim2.ofVec p.2)
    {q : Id × Vec 2 ℝ} (hq : q ∈ W.ofRank own') {j' : ℕ} (hj' : (q.1, j') ∈ idx') (hpos' : g'.position j' = dim2.ofVec q.2)
    {F F' : List Voronoi.Face2} (hF : g.faces i = some F) (hF' : g'.faces j' = some F')
    {f : Voronoi.Face2} (hf : f ∈ F) {k : Fin 2 → ℤ} (hj : Named W own idx l f.connection own' q k) :
    ∃ f' ∈ F', Named W own' idx' l' f'.connection own p (-k) ∧ f'.area = f.area ∧
      f'.normal = ⟨-f.normal.x, -f.normal.y⟩ := by
  obtain ⟨a1, a2⟩ := R.idx_three hi
  obtain ⟨b1, b2⟩ := R'.idx_three hj'
  have hconn := ((R.connections a1 a2 hF).2 _).1 (List.mem_map.2 ⟨f, hf, rfl⟩)
  have hadj := adjacent_symm hp ((R.adjacent_iff V hc hh hp hi hpos).2 ⟨_, hconn, hj⟩)
  obtain ⟨i', hi'c, hi'⟩ := (R'.adjacent_iff V hc hh hq hj' hpos').1 hadj
  rw [← (R'.connections b1 b2 hF').2] at hi'c
  obtain ⟨f', hf', rfl⟩ := List.mem_map.1 hi'c
  have ej := R.named_pos V hj
  have ei := R'.named_pos V hi'
  obtain ⟨-, g1⟩ := R.face_length V hc hp hi hpos hF hf ej
  obtain ⟨-, g2⟩ := R'.face_length V hc hq hj' hpos' hF' hf' ei
  obtain ⟨-, n1, r, hr, x1⟩ := Voronoi.face_ends R.plane a1 a2 hF hf
  obtain ⟨-, n2, r', hr', x2⟩ := Voronoi.face_ends R'.plane b1 b2 hF' hf'
  refine ⟨f', hf', hi', ?_, ?_⟩
  · rw [lengths_eq] at g1
    exact g2.unique g1
  · refine Voronoi.normal_unique hr' hr n2 ?_ ?_ ?_
    · rw [← n1]
      unfold distSq2
      ring
    · have h1 := congrArg P2.x x1
      have h2 := congrArg P2.x x2
      rw [ej, hpos] at h1
      rw [ei, hpos'] at h2
      simp only [P2.sub, dim2, Geometry.image, Pi.neg_apply, Int.cast_neg] at h1 h2
      linarith
    · have h1 := congrArg P2.y x1
      have h2 := congrArg P2.y x2
      rw [ej, hpos] at h1
      rw [ei, hpos'] at h2
      simp only [P2.sub, dim2, Geometry.image, Pi.neg_apply, Int.cast_neg] at h1 h2
      linarith

end RankData

end Verif.Parallel.Plane
