import Verif.Parallel.SpaceGrid
import Verif.Voronoi.EdgeSame

/-! # The faces between cells of different ranks: lemmas -/

namespace Verif.Parallel

open Verif.Geometry Verif.Halo Verif.Delaunay
open Verif.Predicates (P3 orient3 distSq3)
open Verif.Voronoi (moved)

section
variable {d : ℕ} {Id : Type}

theorem image_add (b : Extent d ℝ) (k k' : Fin d → ℤ) (p : Vec d ℝ) : image b (k + k') p = image b k (image b k' p) := by
  funext i
  simp only [image, Pi.add_apply, Int.cast_add]
  ring

theorem distance_image (b : Extent d ℝ) (k : Fin d → ℤ) (y z : Vec d ℝ) : distance (image b k y) (image b k z) = distance y z := by
  unfold distance image
  congr 1
  funext i
  show y i + _ - (z i + _) = y i - z i
  ring

/-- Distances to images, seen from an image of the place. -/
theorem distance_shift (W : World d Id) (k k' : Fin d → ℤ) (y z : Vec d ℝ) :
    distance (image W.box k y) (image W.box k' z) = distance y (image W.box (k' - k) z) := by
  have : image W.box k' z = image W.box k (image W.box (k' - k) z) := by
    rw [← image_add]
    congr 1
    abel
  rw [this, distance_image]

theorem adjacent_symm {W : World d Id} {r : ℕ} {p : Id × Vec d ℝ} (hp : p ∈ W.ofRank r) {s : ℕ} {q : Id × Vec d ℝ}
    {k : Fin d → ℤ} (h : W.Adjacent r p s q k) : W.Adjacent s q r p (-k) := by
  obtain ⟨hq, hne, y, h1, h2⟩ := h
  have e0 : ∀ z : Vec d ℝ, distance (image W.box (-k) y) z = distance y (image W.box k z) := by
    intro z
    have := distance_shift W (-k) 0 y z
    rwa [image_zero, zero_sub, neg_neg] at this
  have e1 : distance (image W.box (-k) y) (image W.box (-k) p.2) = distance y p.2 := distance_image _ _ _ _
  refine ⟨hp, fun e => hne ?_, image W.box (-k) y, ?_, fun s' q' k' hq' n1 n2 => ?_⟩
  · obtain ⟨rfl, rfl, e'⟩ : r = s ∧ p = q ∧ -k = 0 := by simpa only [Prod.mk.injEq] using e
    rw [neg_eq_zero.1 e']
  · rw [e0, e1]
    exact h1.symm
  · rw [e0, distance_shift, ← h1, sub_neg_eq_add]
    refine h2 s' q' (k' + k) hq' (fun e => n2 ?_) fun e => n1 ?_
    · obtain ⟨rfl, rfl, e'⟩ : s' = r ∧ q' = p ∧ k' + k = 0 := by simpa only [Prod.mk.injEq] using e
      rw [eq_neg_of_add_eq_zero_left e']
    · obtain ⟨rfl, rfl, e'⟩ : s' = s ∧ q' = q ∧ k' + k = k := by simpa only [Prod.mk.injEq] using e
      rw [add_eq_right.1 e']

end

variable {Id : Type} {W : World 3 Id}

/-- The translation by `k` box lengths. -/
noncomputable def step (W : World 3 Id) (k : Fin 3 → ℤ) : P3 ℝ := dim3.ofVec fun i => k i * (W.box.max i - W.box.min i)

theorem moved_image (k : Fin 3 → ℤ) (p : Vec 3 ℝ) : moved (step W k) (dim3.ofVec p) = dim3.ofVec (image W.box k p) := rfl

theorem moved_moved (k : Fin 3 → ℤ) (a : P3 ℝ) : moved (step W (-k)) (moved (step W k) a) = a := by
  unfold moved step dim3
  refine P3.ext ?_ ?_ ?_ <;> · simp only [Pi.neg_apply, Int.cast_neg]; ring

theorem site_moved {k : Fin 3 → ℤ} {z : P3 ℝ} (h : W.Site (dim3.toVec z)) : W.Site (dim3.toVec (moved (step W k) z)) := by
  obtain ⟨s, q, hs, hq, k', e⟩ := h
  refine ⟨s, q, hs, hq, k + k', ?_⟩
  have : z = dim3.ofVec (image W.box k' q.2) := by rw [← e]; rfl
  rw [this, moved_image, toVec_ofVec, image_add]

theorem orient_moved (v a b c d : P3 ℝ) :
    orient3 ⟨moved v a, moved v b, moved v c, moved v d⟩ = orient3 ⟨a, b, c, d⟩ := by
  have h : ∀ a b c d : P3 ℝ, orient3 ⟨a, b, c, d⟩ = vol ![a, b, c, d] := fun _ _ _ _ => rfl
  rw [h, h, vol_def, vol_def]
  simp only [Matrix.cons_val, moved]
  ring

theorem orient_swap (a b c d : P3 ℝ) : orient3 ⟨b, a, c, d⟩ = -orient3 ⟨a, b, c, d⟩ := by
  have h : ∀ a b c d : P3 ℝ, orient3 ⟨a, b, c, d⟩ = vol ![a, b, c, d] := fun _ _ _ _ => rfl
  rw [h, h, vol_def, vol_def]
  simp only [Matrix.cons_val]
  ring

/-- A tetrahedron at an edge, seen from the other end. -/
theorem wedge_flip {x : ℕ → P3 ℝ} {M : Mesh} {t p q b c : ℕ} (h : Wedge x M t p q b c) : Wedge x M t q p c b := by
  have e : ![q, p, c, b] = (![p, q, b, c] ∘ Equiv.swap (0 : Fin 4) 1) ∘ Equiv.swap (2 : Fin 4) 3 := by
    funext n
    match n with
    | 0 => rfl
    | 1 => rfl
    | 2 => rfl
    | 3 => rfl
  refine ⟨?_, ?_⟩
  · rw [e]
    exact (h.1.perm _).perm _
  · have := h.2
    rw [vol_def] at this ⊢
    simp only [Function.comp_apply, Matrix.cons_val] at this ⊢
    linarith

/-- The Delaunay tetrahedra of all particles and images are periodic. -/
theorem tetra_moved (k : Fin 3 → ℤ) {a b c d : P3 ℝ} (h : DelaunayTetra (fun z => W.Site (dim3.toVec z)) a b c d) :
    DelaunayTetra (fun z => W.Site (dim3.toVec z)) (moved (step W k) a) (moved (step W k) b) (moved (step W k) c)
      (moved (step W k) d) := by
  obtain ⟨s0, s1, s2, s3, hv, o, rho, e0, e1, e2, e3, hE⟩ := h
  dsimp only [id] at hv e0 e1 e2 e3 hE
  refine ⟨site_moved s0, site_moved s1, site_moved s2, site_moved s3, ?_, moved (step W k) o, rho, ?_, ?_, ?_, ?_, ?_⟩
  · dsimp only [id]
    rw [orient_moved]
    exact hv
  · dsimp only [id]; rw [Voronoi.distSq3_moved]; exact e0
  · dsimp only [id]; rw [Voronoi.distSq3_moved]; exact e1
  · dsimp only [id]; rw [Voronoi.distSq3_moved]; exact e2
  · dsimp only [id]; rw [Voronoi.distSq3_moved]; exact e3
  · intro z hz n0 n1 n2 n3
    have hz' : moved (step W k) (moved (step W (-k)) z) = z := by
      have := moved_moved (W := W) (-k) z
      rwa [neg_neg] at this
    have := hE (moved (step W (-k)) z) (site_moved hz) (fun e => n0 (by rw [← e, hz'])) (fun e => n1 (by rw [← e, hz']))
      (fun e => n2 (by rw [← e, hz'])) (fun e => n3 (by rw [← e, hz']))
    rw [← Voronoi.distSq3_moved (step W k), hz'] at this
    exact this

theorem tetra_swap {S : P3 ℝ → Prop} {a b c d : P3 ℝ} (h : DelaunayTetra S a b c d) : DelaunayTetra S b a c d := by
  obtain ⟨s0, s1, s2, s3, hv, o, rho, e0, e1, e2, e3, hE⟩ := h
  dsimp only [id] at hv
  refine ⟨s1, s0, s2, s3, ?_, o, rho, e1, e0, e2, e3, fun z hz n0 n1 n2 n3 => hE z hz n1 n0 n2 n3⟩
  dsimp only [id]
  rw [orient_swap]
  exact neg_ne_zero.2 hv

variable [DecidableEq Id] {order order' : List ℕ} {own own' : ℕ} {g g' : Grid3 Id} {idx idx' : List (Id × ℕ)}
  {l l' : List (ℕ × Image Id (Fin 3 → WrapType) (P3 ℝ))}

theorem swap_zero (a b c d : ℕ) : ![a, b, c, d] ∘ Equiv.swap (0 : Fin 4) 1 = ![b, a, c, d] := by
  funext i
  match i with
  | 0 => rfl
  | 1 => rfl
  | 2 => rfl
  | 3 => rfl

namespace RankData

/-- A tetrahedron at an edge from a local point, in the mesh of the rank of the other end. -/
theorem wedge_cross (R : RankData order W own g idx l) (R' : RankData order' W own' g' idx' l') (V : W.Valid)
    (hc : ∀ i, W.hi i - W.lo i = W.hi 0 - W.lo 0) (hh : ∀ r, ∀ p ∈ W.ofRank r, ∀ i, p.2 i < W.hi i)
    {p : Id × Vec 3 ℝ} (hp : p ∈ W.ofRank own) {i : ℕ} (hi : (p.1, i) ∈ idx) (hpos : g.position i = dim3.ofVec p.2)
    {q : Id × Vec 3 ℝ} (hq : q ∈ W.ofRank own') {j' : ℕ} (hj' : (q.1, j') ∈ idx') (hpos' : g'.position j' = dim3.ofVec q.2)
    {k : Fin 3 → ℤ} {j i' : ℕ} (hj : Named W own idx l j own' q k) (hi' : Named W own' idx' l' i' own p (-k))
    {t b c : ℕ} (hw : Wedge g.position g.tri.state.mesh t i j b c) :
    ∃ t' b' c', Wedge g'.position g'.tri.state.mesh t' i' j' b' c' ∧
      g'.position b' = moved (step W (-k)) (g.position b) ∧ g'.position c' = moved (step W (-k)) (g.position c) := by
  obtain ⟨hat, hvol⟩ := hw
  have ei : g'.position i' = moved (step W (-k)) (g.position i) := by rw [R'.named_pos V hi', hpos, moved_image]
  have ej : g'.position j' = moved (step W (-k)) (g.position j) := by
    rw [R.named_pos V hj, hpos', moved_image, ← image_add, neg_add_cancel, image_zero]
  have h4 : 4 ≤ b ∧ 4 ≤ c := by
    obtain ⟨T, hT, -, hm⟩ := id hat
    obtain ⟨o, h1, -⟩ := R.tetra_sphere V hc hh hp hi hpos hT (hm 0)
    exact ⟨(h1 b (hm 2)).1, (h1 c (hm 3)).1⟩
  have h1 := (R.tetra_iff V hc hh hp hi hpos (g.position j) (g.position b) (g.position c)).1
    ⟨t, j, b, c, hat, ⟨(R.named_lt hj).1, h4⟩, rfl, rfl, rfl⟩
  have h2 := tetra_swap (tetra_moved (-k) h1)
  rw [← ei, ← ej] at h2
  obtain ⟨t', n, b', c', hat', -, en, eb, ec⟩ := (R'.tetra_iff V hc hh hq hj' hpos' _ _ _).2 h2
  have hlt : n < g'.tri.state.mesh.numPoints := R'.space.lt hat' 1
  obtain rfl : n = i' := R'.space.injective hlt (R'.named_lt hi').2 en
  refine ⟨t', b', c', ⟨?_, ?_⟩, eb, ec⟩
  · have := hat'.perm (Equiv.swap 0 1)
    rwa [swap_zero] at this
  · rw [vol_four, ei, ej, eb, ec, orient_moved, ← vol_four]
    exact hvol

/-- The face between a local point and a point of another rank has the same area and the opposite normal in the cell of the
other rank. -/
theorem cross (R : RankData order W own g idx l) (R' : RankData order' W own' g' idx' l') (V : W.Valid)
    (hc : ∀ i, W.hi i - W.lo i = W.hi 0 - W.lo 0) (hh : ∀ r, ∀ p ∈ W.ofRank r, ∀ i, p.2 i < W.hi i)
    {p : Id × Vec 3 ℝ} (hp : p ∈ W.ofRank own) {i : ℕ} (hi : (p.1, i) ∈ idx) (hpos : g.position i = dim3.ofVec p.2)
    {q : Id × Vec 3 ℝ} (hq : q ∈ W.ofRank own') {j' : ℕ} (hj' : (q.1, j') ∈ idx') (hpos' : g'.position j' = dim3.ofVec q.2)
    {eps' : ℝ} (heps : 0 < eps') {F F' : List Voronoi.Face3} (hF : g.faces eps' i = some F) (hF' : g'.faces eps' j' = some F')
    {f : Voronoi.Face3} (hf : f ∈ F) {k : Fin 3 → ℤ} (hj : Named W own idx l f.connection own' q k) :
    ∃ f' ∈ F', Named W own' idx' l' f'.connection own p (-k) ∧ f'.area = f.area ∧
      f'.normal = ⟨-f.normal.x, -f.normal.y, -f.normal.z⟩ := by
  have P := R.space
  have P' := R'.space
  have hconn : f.connection ∈ Voronoi.connectedPoints g.tri.state.mesh i := by
    rw [← Voronoi.connections_eq hF]
    exact List.mem_map.2 ⟨f, hf, rfl⟩
  have hadj := adjacent_symm hp ((R.adjacent_iff V hc hh hp hi hpos).2 ⟨_, hconn, hj⟩)
  obtain ⟨i', hi'c, hi'⟩ := (R'.adjacent_iff V hc hh hq hj' hpos').1 hadj
  obtain ⟨a1, a2⟩ := R.idx_four hi
  obtain ⟨b1, b2⟩ := R'.idx_four hj'
  obtain ⟨c1, c2⟩ := R'.named_lt hi'
  -- the cell of the image on the other rank
  obtain ⟨H, -, hH, -⟩ := R'.sweepCell_some heps true c1 c2
  rw [← Voronoi.connections_eq hF'] at hi'c
  obtain ⟨f', hf', ef'⟩ := List.mem_map.1 hi'c
  obtain ⟨h, hh', eh, -, hn, ha⟩ := Voronoi.faces_agree3 heps P' b1 b2 hF' hH hf' ef'
  have ei : g'.position i' = moved (step W (-k)) (g.position i) := by rw [R'.named_pos V hi', hpos, moved_image]
  have ej : g'.position j' = moved (step W (-k)) (g.position f.connection) := by
    rw [R.named_pos V hj, hpos', moved_image, ← image_add, neg_add_cancel, image_zero]
  obtain ⟨e1, e2⟩ := Voronoi.face_moved heps P P' a1 a2 c1 c2 ei ej
    (fun t b c hw => R.wedge_cross R' V hc hh hp hi hpos hq hj' hpos' hj hi' hw)
    (fun t' b' c' hw => by
      obtain ⟨t, b, c, hw', eb, ec⟩ := R'.wedge_cross R V hc hh hq hj' hpos' hp hi hpos hi' (by rw [neg_neg]; exact hj) (wedge_flip hw)
      refine ⟨t, c, b, wedge_flip hw', ?_, ?_⟩
      · rw [ec, neg_neg, moved_moved]
      · rw [eb, neg_neg, moved_moved])
    hF hH hf hh' rfl eh
  refine ⟨f', hf', ef' ▸ hi', ?_, ?_⟩
  · rw [← ha, e1]
  · rw [hn] at e2
    rw [← e2]
    simp only [neg_neg]

end RankData

end Verif.Parallel
