import Verif.Parallel.Props
import Verif.Parallel.SameSpec

/-! # The same particles on other ranks: lemmas -/

namespace Verif.Parallel

open Verif.Geometry Verif.Halo Verif.Delaunay
open Verif.Predicates (P3 orient3 distSq3)
open Verif.Voronoi (moved)

variable {Id Id' : Type} {W : World 3 Id} {W' : World 3 Id'}

theorem moved_zero (a : P3 ℝ) : moved ⟨0, 0, 0⟩ a = a := by
  unfold moved
  simp only [add_zero]

/-- Images of places in the half-open box are different. -/
theorem image_inj {d : ℕ} {lo hi : Vec d ℝ} (hb : ∀ i, lo i < hi i) {x y : Vec d ℝ} (hx : ∀ i, lo i ≤ x i ∧ x i < hi i)
    (hy : ∀ i, lo i ≤ y i ∧ y i < hi i) {k k' : Fin d → ℤ}
    (h : image (fromMinMax lo hi) k x = image (fromMinMax lo hi) k' y) : k = k' ∧ x = y := by
  have hk : k = k' := by
    funext i
    have h1 := congrFun h i
    have h2 := hb i
    simp only [image, fromMinMax] at h1
    have hlen : 0 < hi i - lo i := by linarith
    by_contra hne
    rcases lt_or_gt_of_ne hne with hlt | hlt
    · have : ((k i : ℤ) : ℝ) + 1 ≤ (k' i : ℝ) := by exact_mod_cast hlt
      nlinarith [(hx i).1, (hx i).2, (hy i).1, (hy i).2]
    · have : ((k' i : ℤ) : ℝ) + 1 ≤ (k i : ℝ) := by exact_mod_cast hlt
      nlinarith [(hx i).1, (hx i).2, (hy i).1, (hy i).2]
  refine ⟨hk, ?_⟩
  subst hk
  funext i
  have h1 := congrFun h i
  simp only [image] at h1
  linarith

variable [DecidableEq Id] [DecidableEq Id'] {order order' : List ℕ} {own own' : ℕ} {g : Grid3 Id} {g' : Grid3 Id'} {idx : List (Id × ℕ)}
  {idx' : List (Id' × ℕ)} {l : List (ℕ × Image Id (Fin 3 → WrapType) (P3 ℝ))}
  {l' : List (ℕ × Image Id' (Fin 3 → WrapType) (P3 ℝ))}

namespace RankData

/-- A tetrahedron at an edge from a local point, in the mesh of another distribution of the particles. -/
theorem wedge_same (R : RankData order W own g idx l) (R' : RankData order' W' own' g' idx' l') (V : W.Valid) (V' : W'.Valid)
    (hc : ∀ i, W.hi i - W.lo i = W.hi 0 - W.lo 0) (hc' : ∀ i, W'.hi i - W'.lo i = W'.hi 0 - W'.lo 0)
    (hh : ∀ r, ∀ p ∈ W.ofRank r, ∀ i, p.2 i < W.hi i) (hh' : ∀ r, ∀ p ∈ W'.ofRank r, ∀ i, p.2 i < W'.hi i)
    (hS : ∀ z, W.Site z ↔ W'.Site z)
    {p : Id × Vec 3 ℝ} (hp : p ∈ W.ofRank own) {i : ℕ} (hi : (p.1, i) ∈ idx) (hpos : g.position i = dim3.ofVec p.2)
    {p' : Id' × Vec 3 ℝ} (hp' : p' ∈ W'.ofRank own') {i' : ℕ} (hi' : (p'.1, i') ∈ idx')
    (hpos' : g'.position i' = dim3.ofVec p'.2) (hpp : p'.2 = p.2)
    {t j b c : ℕ} (hw : Wedge g.position g.tri.state.mesh t i j b c) :
    ∃ t' j' b' c', Wedge g'.position g'.tri.state.mesh t' i' j' b' c' ∧ g'.position j' = g.position j ∧
      g'.position b' = g.position b ∧ g'.position c' = g.position c := by
  obtain ⟨hat, hvol⟩ := hw
  have ei : g'.position i' = g.position i := by rw [hpos, hpos', hpp]
  have h4 : 4 ≤ j ∧ 4 ≤ b ∧ 4 ≤ c := by
    obtain ⟨T, hT, -, hm⟩ := id hat
    obtain ⟨o, h1, -⟩ := R.tetra_sphere V hc hh hp hi hpos hT (hm 0)
    exact ⟨(h1 j (hm 1)).1, (h1 b (hm 2)).1, (h1 c (hm 3)).1⟩
  have h1 := (R.tetra_iff V hc hh hp hi hpos (g.position j) (g.position b) (g.position c)).1
    ⟨t, j, b, c, hat, h4, rfl, rfl, rfl⟩
  have e : (fun z : P3 ℝ => W.Site (dim3.toVec z)) = fun z => W'.Site (dim3.toVec z) := by
    funext z
    exact propext (hS _)
  rw [e, ← ei] at h1
  obtain ⟨t', j', b', c', hat', -, ej, eb, ec⟩ := (R'.tetra_iff V' hc' hh' hp' hi' hpos' _ _ _).2 h1
  refine ⟨t', j', b', c', ⟨hat', ?_⟩, ej, eb, ec⟩
  rw [vol_four, ei, ej, eb, ec, ← vol_four]
  exact hvol

/-- Every face of a cell is a face of the cell of the same particle in another distribution. -/
theorem face_same (R : RankData order W own g idx l) (R' : RankData order' W' own' g' idx' l') (V : W.Valid) (V' : W'.Valid)
    (hc : ∀ i, W.hi i - W.lo i = W.hi 0 - W.lo 0) (hc' : ∀ i, W'.hi i - W'.lo i = W'.hi 0 - W'.lo 0)
    (hh : ∀ r, ∀ p ∈ W.ofRank r, ∀ i, p.2 i < W.hi i) (hh' : ∀ r, ∀ p ∈ W'.ofRank r, ∀ i, p.2 i < W'.hi i)
    (hS : ∀ z, W.Site z ↔ W'.Site z)
    {p : Id × Vec 3 ℝ} (hp : p ∈ W.ofRank own) {i : ℕ} (hi : (p.1, i) ∈ idx) (hpos : g.position i = dim3.ofVec p.2)
    {p' : Id' × Vec 3 ℝ} (hp' : p' ∈ W'.ofRank own') {i' : ℕ} (hi' : (p'.1, i') ∈ idx')
    (hpos' : g'.position i' = dim3.ofVec p'.2) (hpp : p'.2 = p.2)
    {eps' : ℝ} (heps : 0 < eps') {F F' : List Voronoi.Face3} (hF : g.faces eps' i = some F) (hF' : g'.faces eps' i' = some F')
    {f : Voronoi.Face3} (hf : f ∈ F) :
    ∃ f' ∈ F', g'.position f'.connection = g.position f.connection ∧ f'.area = f.area ∧ f'.normal = f.normal := by
  have P := R.space
  have P' := R'.space
  have ei : g'.position i' = g.position i := by rw [hpos, hpos', hpp]
  obtain ⟨a1, a2⟩ := R.idx_four hi
  obtain ⟨b1, b2⟩ := R'.idx_four hi'
  have hconn : f.connection ∈ Voronoi.connectedPoints g.tri.state.mesh i := by
    rw [← Voronoi.connections_eq hF]
    exact List.mem_map.2 ⟨f, hf, rfl⟩
  obtain ⟨hne, t, T, hT, hiT, hjT⟩ := (Voronoi.mem_connectedPoints P.ok.cons).1 hconn
  obtain ⟨b, c, hw⟩ := exists_wedge P hT hiT hjT (Ne.symm hne)
  obtain ⟨t', j', b', c', hw', ej, -, -⟩ := R.wedge_same R' V V' hc hc' hh hh' hS hp hi hpos hp' hi' hpos' hpp hw
  have hj'n : j' < g'.tri.state.mesh.numPoints := P'.lt hw'.1 1
  have hj' : j' ∈ Voronoi.connectedPoints g'.tri.state.mesh i' := by
    obtain ⟨T', hT', -, hm⟩ := hw'.1
    refine (Voronoi.mem_connectedPoints P'.ok.cons).2 ⟨fun e => ?_, t', T', hT', hm 0, hm 1⟩
    have := hw'.nodup
    rw [e] at this
    simp at this
  rw [← Voronoi.connections_eq hF'] at hj'
  obtain ⟨f', hf', rfl⟩ := List.mem_map.1 hj'
  have hjn : f.connection < g.tri.state.mesh.numPoints := P.ok.cons.points_lt t T hT _ hjT
  obtain ⟨e1, e2⟩ := Voronoi.face_moved (v := ⟨0, 0, 0⟩) heps P P' a1 a2 b1 b2 (by rw [moved_zero, ei]) (by rw [moved_zero, ej])
    (fun t b c hw => by
      obtain ⟨t1, j1, b1, c1, hw1, ej1, eb1, ec1⟩ := R.wedge_same R' V V' hc hc' hh hh' hS hp hi hpos hp' hi' hpos' hpp hw
      obtain rfl : j1 = f'.connection := P'.injective (P'.lt hw1.1 1) hj'n (ej1.trans ej.symm)
      exact ⟨t1, b1, c1, hw1, by rw [moved_zero, eb1], by rw [moved_zero, ec1]⟩)
    (fun t b c hw => by
      obtain ⟨t1, j1, b1, c1, hw1, ej1, eb1, ec1⟩ :=
        R'.wedge_same R V' V hc' hc hh' hh (fun z => (hS z).symm) hp' hi' hpos' hp hi hpos hpp.symm hw
      obtain rfl : j1 = f.connection := P.injective (P.lt hw1.1 1) hjn (ej1.trans ej)
      exact ⟨t1, b1, c1, hw1, by rw [moved_zero, eb1], by rw [moved_zero, ec1]⟩)
    hF hF' hf hf' rfl rfl
  exact ⟨f', hf', ej, e1, e2⟩

end RankData

omit [DecidableEq Id] [DecidableEq Id'] in
theorem SameParticles.symm {d : ℕ} {W : World d Id} {W' : World d Id'} (E : SameParticles W W') : SameParticles W' W := ⟨E.lo.symm, E.hi.symm, fun x => (E.places x).symm⟩

omit [DecidableEq Id] [DecidableEq Id'] in
theorem SameParticles.box {d : ℕ} {W : World d Id} {W' : World d Id'} (E : SameParticles W W') : W'.box = W.box := by
  unfold World.box
  rw [E.lo, E.hi]

omit [DecidableEq Id] [DecidableEq Id'] in
theorem SameParticles.site {d : ℕ} {W : World d Id} {W' : World d Id'} (E : SameParticles W W') (z : Vec d ℝ) : W.Site z ↔ W'.Site z := by
  have : ∀ {I J : Type} {W : World d I} {W' : World d J}, SameParticles W W' → W.Site z → W'.Site z := by
    rintro I J W W' E ⟨s, q, hs, hq, k, rfl⟩
    obtain ⟨r, p, hp, e⟩ := (E.places q.2).1 ⟨s, q, hq, rfl⟩
    exact ⟨r, p, ofRank_lt hp, hp, k, by rw [E.box, e]⟩
  exact ⟨this E, this E.symm⟩

omit [DecidableEq Id] in
/-- The region of a particle is the set of places which are closer to it than to all other sites, if there is such a place. -/
theorem region_sites {d : ℕ} {W : World d Id} {own : ℕ} {p : Id × Vec d ℝ} (hne : ∃ y, W.Region own p y) (y : Vec d ℝ) :
    W.Region own p y ↔ ∀ z, W.Site z → z ≠ p.2 → distance y p.2 < distance y z := by
  constructor
  · rintro h z ⟨s, q, hs, hq, k, rfl⟩ hz
    refine h s q hs hq k fun e => hz ?_
    obtain ⟨rfl, rfl, rfl⟩ : s = own ∧ q = p ∧ k = 0 := by simpa only [Prod.mk.injEq] using e
    exact image_zero _ _
  · intro h s q hs hq k hn
    refine h _ ⟨s, q, hs, hq, k, rfl⟩ fun e => ?_
    obtain ⟨y0, h0⟩ := hne
    have := h0 s q hs hq k hn
    rw [e] at this
    exact lt_irrefl _ this

end Verif.Parallel
