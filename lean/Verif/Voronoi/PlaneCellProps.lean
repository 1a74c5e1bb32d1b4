import Verif.Voronoi.PlaneCellGeo
import Verif.Voronoi.PlaneCellSpec
import Verif.Voronoi.PolygonMeasure
import Verif.Delaunay.ConstructProps

/-!
# C71, C72, C79: the cells of a completed construction are the Voronoi regions

The construction is `construct2` of `Verif.Delaunay.Construct`, the cells are computed from its result by
`getPoints2` and `getFaces2` of `Verif.Voronoi.Cell`.  The box is a square, see `long_box_not_delaunay` for other
boxes.
-/

namespace Verif.Voronoi

open Verif.Delaunay
open Verif.Predicates (P2 Triangle2 orient2 distSq2)

variable {N : Type} {key : P2 ℝ → ℕ} {pop : Heaps} {fuel : ℕ} {lo hi : P2 ℝ}
  {points : List (N × P2 ℝ)} {r : Construction ℝ N}

/-- What is known of the result of a completed construction. -/
theorem plane_of_construct2 (hp : HeapsOk pop) (hx : lo.x < hi.x) (hsq : hi.x - lo.x = hi.y - lo.y)
    (hr : construct2 key pop fuel lo hi points = .done r) :
    PlaneOk r.position r.state ∧ r.state.mesh.numPoints = 3 + points.length := by
  have hw : 0 < hi.x - lo.x := sub_pos.2 hx
  have hy : lo.y < hi.y := by rw [hsq] at hw; exact sub_pos.1 hw
  obtain ⟨s0, h0, h1, h2, -⟩ := construct2_run hx hy hr
  obtain ⟨c1, c2, k, hk, e⟩ := remap_square hx hsq
  obtain ⟨P, hn⟩ := run_plane (x := fun i => remapPoint2 (extent2 (Triangle2.allEncompassing lo hi)) (r.position i))
    h2 hp h0 h1
  exact ⟨P.scale hk fun i => e _, hn⟩

private theorem inj_of_plane {x : ℕ → P2 ℝ} {s : State} (P : PlaneOk x s) {i j : ℕ} (hi : i < s.mesh.numPoints)
    (hj : j < s.mesh.numPoints) (h : x i = x j) : i = j := by
  have V := P.valid
  obtain ⟨t, ht⟩ := star_nonempty P hi
  obtain ⟨b, c, k⟩ := (mem_star P).1 ht
  have hpos := V.pos k
  have h1 : Within (x i) (x b) (x c) (x j) := by
    rw [← h]
    refine ⟨?_, ?_, ?_⟩
    · exact ((area_self (x i) (x b)).1).ge
    · rw [area_cyc]
      exact hpos.le
    · exact ((area_self (x c) (x i)).2.1).ge
  rcases V.clean k j hj h1 with e | e | e
  · exact e.symm
  · exact absurd (by rw [h, e]) (V.ne k)
  · exact absurd (by rw [h, e]) (V.ne (V.cyc' k))

/-- **The cells are the Voronoi regions.**  Whenever the construction is completed for points in a square box, the
polygon of the cell of every given point exists, and its `contains` tells exactly whether a point of the plane is
at least as close to the given point as to all other points of the triangulation. -/
theorem construct2_voronoi (hp : HeapsOk pop) (hx : lo.x < hi.x) (hsq : hi.x - lo.x = hi.y - lo.y)
    (hr : construct2 key pop fuel lo hi points = .done r) :
    ∀ e ∈ r.indices, ∃ l, getPoints2 r.state.mesh (centre2 r.state.mesh r.position) e.2 = some l ∧
      ∀ y, contains2 l y = some true ↔ VoronoiRegion (Site lo hi points) (r.position e.2) y := by
  have hw : 0 < hi.x - lo.x := sub_pos.2 hx
  have hy : lo.y < hi.y := by rw [hsq] at hw; exact sub_pos.1 hw
  obtain ⟨s0, h0, h1, h2, h3, h4, h5, h6⟩ := construct2_run hx hy hr
  obtain ⟨P, hn⟩ := plane_of_construct2 hp hx hsq hr
  intro e he
  obtain ⟨k1, k2⟩ := h6 e he
  obtain ⟨l, hl, hc⟩ := cell_contains P k1 (hn ▸ k2)
  refine ⟨l, hl, fun y => (hc y).trans ⟨?_, ?_⟩⟩
  · intro h z hz
    obtain ⟨i, hi, rfl⟩ := h4 z hz
    exact h i (hn ▸ hi)
  · intro h w hw
    exact h _ (h3 w (hn ▸ hw))

/-- The vertices of the initial triangle are further away from every point of a square box than the points of the
box are from each other. -/
private theorem initial_far (hx : lo.x < hi.x) (hsq : hi.x - lo.x = hi.y - lo.y) {y p : P2 ℝ} (h : InBox lo hi y)
    (h' : InBox lo hi p) :
    distSq2 y p ≤ distSq2 y (Triangle2.allEncompassing lo hi).p1 ∧
      distSq2 y p ≤ distSq2 y (Triangle2.allEncompassing lo hi).p2 ∧
      distSq2 y p ≤ distSq2 y (Triangle2.allEncompassing lo hi).p3 := by
  obtain ⟨a1, a2, a3, a4⟩ := h
  obtain ⟨b1, b2, b3, b4⟩ := h'
  have c1 : (y.x - p.x) * (y.x - p.x) ≤ (hi.x - lo.x) * (hi.x - lo.x) := by nlinarith
  have c2 : (y.y - p.y) * (y.y - p.y) ≤ (hi.x - lo.x) * (hi.x - lo.x) := by
    rw [hsq]
    nlinarith
  unfold Triangle2.allEncompassing distSq2
  dsimp only
  refine ⟨?_, ?_, ?_⟩ <;> nlinarith

/-- **In the box the cells are the Voronoi regions of the given points.**  The polygon of the cell of every given
point contains exactly those points of the box which are at least as close to the given point as to all others. -/
theorem construct2_voronoi_in_box (hp : HeapsOk pop) (hx : lo.x < hi.x) (hsq : hi.x - lo.x = hi.y - lo.y)
    (hin : ∀ e ∈ points, InBox lo hi e.2) (hr : construct2 key pop fuel lo hi points = .done r) :
    ∀ e ∈ r.indices, ∃ l, getPoints2 r.state.mesh (centre2 r.state.mesh r.position) e.2 = some l ∧
      ∀ y, InBox lo hi y → (contains2 l y = some true ↔
        VoronoiRegion (fun z => ∃ q ∈ points, q.2 = z) (r.position e.2) y) := by
  have hw : 0 < hi.x - lo.x := sub_pos.2 hx
  have hy : lo.y < hi.y := by rw [hsq] at hw; exact sub_pos.1 hw
  obtain ⟨s0, h0, h1, h2, h3, h4, h5, h6⟩ := construct2_run hx hy hr
  intro e he
  obtain ⟨l, hl, hc⟩ := construct2_voronoi hp hx hsq hr e he
  refine ⟨l, hl, fun y hb => (hc y).trans ⟨fun h z hz => h z (Or.inr (Or.inr (Or.inr hz))), fun h z hz => ?_⟩⟩
  have hb' : InBox lo hi (r.position e.2) := hin (e.1, r.position e.2) (h5.mem_iff.1 (List.mem_map.2 ⟨e, he, rfl⟩))
  obtain ⟨f1, f2, f3⟩ := initial_far hx hsq hb hb'
  rcases hz with rfl | rfl | rfl | hz
  · exact f1
  · exact f2
  · exact f3
  · exact h z hz

/-- **The cells cover the box.**  If there is at least one point, every point of the box is contained in the cell
of a given point which is nearest to it. -/
theorem construct2_cells_cover (hp : HeapsOk pop) (hx : lo.x < hi.x) (hsq : hi.x - lo.x = hi.y - lo.y)
    (hin : ∀ e ∈ points, InBox lo hi e.2) (hne : points ≠ [])
    (hr : construct2 key pop fuel lo hi points = .done r) {y : P2 ℝ} (hb : InBox lo hi y) :
    ∃ e ∈ r.indices, ∃ l, getPoints2 r.state.mesh (centre2 r.state.mesh r.position) e.2 = some l ∧
      contains2 l y = some true := by
  have hw : 0 < hi.x - lo.x := sub_pos.2 hx
  have hy : lo.y < hi.y := by rw [hsq] at hw; exact sub_pos.1 hw
  obtain ⟨s0, h0, h1, h2, h3, h4, h5, h6⟩ := construct2_run hx hy hr
  have hne' : r.indices ≠ [] := by
    intro h
    rw [h] at h5
    exact hne (List.nil_perm.1 h5)
  classical
  obtain ⟨a, ha⟩ := List.exists_mem_of_ne_nil _ hne'
  obtain ⟨e, he, hmin⟩ := Finset.exists_min_image r.indices.toFinset (fun e => distSq2 y (r.position e.2))
    ⟨a, List.mem_toFinset.2 ha⟩
  have he := List.mem_toFinset.1 he
  obtain ⟨l, hl, hc⟩ := construct2_voronoi_in_box hp hx hsq hin hr e he
  refine ⟨e, he, l, hl, (hc y hb).2 ?_⟩
  rintro z ⟨q, hq, rfl⟩
  obtain ⟨e', he', rfl⟩ := List.mem_map.1 (h5.mem_iff.2 hq)
  exact hmin e' (List.mem_toFinset.2 he')

/-- **The faces lead to the Delaunay neighbours.**  The faces of the cell of every given point exist (nothing
panics), no two of them lead to the same point, and they lead exactly to those points which form a Delaunay
triangle with the given point. -/
theorem construct2_faces (hp : HeapsOk pop) (hx : lo.x < hi.x) (hsq : hi.x - lo.x = hi.y - lo.y)
    (hin : ∀ e ∈ points, InBox lo hi e.2) (hn : (points.map Prod.snd).Nodup)
    (hr : construct2 key pop fuel lo hi points = .done r) :
    ∀ e ∈ r.indices, ∃ F, getFaces2 r.state.mesh r.position (centre2 r.state.mesh r.position) e.2 = some F ∧
      (F.map fun f => r.position f.connection).Nodup ∧
      ∀ z, (∃ f ∈ F, r.position f.connection = z) ↔
        ∃ w, DelaunayTriangle (Site lo hi points) (r.position e.2) z w := by
  have hw : 0 < hi.x - lo.x := sub_pos.2 hx
  have hy : lo.y < hi.y := by rw [hsq] at hw; exact sub_pos.1 hw
  obtain ⟨s0, h0, h1, h2, h3, h4, h5, h6⟩ := construct2_run hx hy hr
  obtain ⟨P, hN⟩ := plane_of_construct2 hp hx hsq hr
  intro e he
  obtain ⟨k1, k2⟩ := h6 e he
  obtain ⟨F, hF, g1, g2⟩ := cell_faces P k1 (hN ▸ k2)
  have hinj : ∀ i j, i < 3 + points.length → j < 3 + points.length → r.position i = r.position j → i = j :=
    fun i j h h' he => inj_of_plane P (hN ▸ h) (hN ▸ h') he
  have hlt : ∀ f ∈ F, f.connection < 3 + points.length := by
    intro f hf
    obtain ⟨c, i, h⟩ := (g2 f.connection).1 (List.mem_map.2 ⟨f, hf, rfl⟩)
    have h : At r.state.mesh i e.2 f.connection c := h
    exact hN ▸ P.valid.lt (P.valid.cyc h)
  refine ⟨F, hF, ?_, fun z => ?_⟩
  · have : (F.map fun f => r.position f.connection) = (F.map Face2.connection).map r.position := by
      rw [List.map_map]
      rfl
    rw [this]
    refine List.Nodup.map_on ?_ g1
    intro a ha b hb hab
    obtain ⟨f, hf, rfl⟩ := List.mem_map.1 ha
    obtain ⟨f', hf', rfl⟩ := List.mem_map.1 hb
    exact hinj _ _ (hlt f hf) (hlt f' hf') hab
  · constructor
    · rintro ⟨f, hf, rfl⟩
      obtain ⟨c, h⟩ := (g2 f.connection).1 (List.mem_map.2 ⟨f, hf, rfl⟩)
      exact ⟨r.position c, (construct2_delaunay hp hx hsq hin hn hr _ _ _).1 ⟨_, _, _, h, rfl, rfl, rfl⟩⟩
    · rintro ⟨w, h⟩
      obtain ⟨a, b, c, ⟨i, h'⟩, ea, rfl, rfl⟩ := (construct2_delaunay hp hx hsq hin hn hr _ _ _).2 h
      have hA : At r.state.mesh i a b c := h'
      obtain rfl := hinj a e.2 (hN ▸ P.valid.lt hA) k2 ea
      obtain ⟨f, hf, ef⟩ := List.mem_map.1 ((g2 b).2 ⟨c, i, h'⟩)
      exact ⟨f, hf, by rw [ef]⟩

/-- **The volume of a cell is the area of the Voronoi region.**  Whenever the construction is completed for points in a
square box, the volume which is computed for the cell of a given point is positive, and it is the area (the Lebesgue
measure) of the set of all places which are at least as close to the given point as to all other points of the
triangulation. -/
theorem construct2_cell_area (hp : HeapsOk pop) (hx : lo.x < hi.x) (hsq : hi.x - lo.x = hi.y - lo.y)
    (hr : construct2 key pop fuel lo hi points = .done r) :
    ∀ e ∈ r.indices, ∃ l A, getPoints2 r.state.mesh (centre2 r.state.mesh r.position) e.2 = some l ∧
      volume2 l = some A ∧ 0 < A ∧
      MeasureTheory.volume {v : Fin 2 → ℝ | VoronoiRegion (Site lo hi points) (r.position e.2) ⟨v 0, v 1⟩} =
        ENNReal.ofReal A := by
  have hw : 0 < hi.x - lo.x := sub_pos.2 hx
  have hy : lo.y < hi.y := by rw [hsq] at hw; exact sub_pos.1 hw
  obtain ⟨s0, h0, h1, h2, h3, h4, h5, h6⟩ := construct2_run hx hy hr
  obtain ⟨P, hn⟩ := plane_of_construct2 hp hx hsq hr
  intro e he
  obtain ⟨k1, k2⟩ := h6 e he
  obtain ⟨c, g, hl, hnd, hlen, σ, hσ, hpos, hv, hreg⟩ := cell_region P k1 (hn ▸ k2)
  refine ⟨c.map g, ((sidesOf c).map fun a => triangleArea (r.position e.2) (g a.1) (g a.2)).sum, hl, ?_, ?_, ?_⟩
  · rw [volume2_is_area _ (r.position e.2), sidesOf_map, List.map_map]
    · rfl
    · rw [sidesOf_map, List.forall_mem_map, List.forall_mem_map]
      rcases hσ with rfl | rfl
      · left
        intro a ha
        have := hpos a ha
        rw [one_mul] at this
        exact this.le
      · right
        intro a ha
        have := hpos a ha
        rw [neg_one_mul, neg_pos] at this
        exact this.le
  · refine List.sum_pos _ ?_ ?_
    · intro z hz
      obtain ⟨a, ha, rfl⟩ := List.mem_map.1 hz
      have := hpos a ha
      have h0 : orient2 ⟨r.position e.2, g a.1, g a.2⟩ ≠ 0 := fun h => by rw [h, mul_zero] at this; exact lt_irrefl _ this
      unfold triangleArea
      have := abs_pos.2 h0
      linarith
    · intro h
      have := congrArg List.length h
      unfold sidesOf at this
      rw [List.length_map, List.length_zip, List.length_rotate, Nat.min_self, List.length_nil] at this
      omega
  · rw [← volume_polygon hnd hlen hpos hv]
    congr 1
    ext v
    rw [Set.mem_ofPred_eq, Set.mem_ofPred_eq, hreg]
    constructor
    · intro h w hw
      exact h _ (h3 w (hn ▸ hw))
    · intro h z hz
      obtain ⟨i, hi, rfl⟩ := h4 z hz
      exact h i (hn ▸ hi)

/-! ### An example with real coordinates -/

/-- A point with rational coordinates. -/
private noncomputable def real (p : P2 ℚ) : P2 ℝ := ⟨p.x, p.y⟩

private theorem real_orient (p q r : P2 ℚ) : orient2 ⟨real p, real q, real r⟩ = ((orient2 ⟨p, q, r⟩ : ℚ) : ℝ) := by
  unfold orient2 real
  push_cast
  ring

private theorem real_circle (p q r z : P2 ℚ) :
    (⟨real p, real q, real r⟩ : Triangle2 ℝ).circumcircleContains (real z) =
      (⟨p, q, r⟩ : Triangle2 ℚ).circumcircleContains z := by
  have hs : ∀ v : ℚ, Verif.Predicates.Sign.of ((v : ℚ) : ℝ) = Verif.Predicates.Sign.of v := by
    intro v
    unfold Verif.Predicates.Sign.of
    simp only [Rat.cast_lt_zero, Rat.cast_eq_zero]
  unfold Triangle2.circumcircleContains
  dsimp only
  rw [← hs]
  unfold Verif.Predicates.determinant3x3 real
  simp

/-- The example points of `Verif.Delaunay.ConstructProps`. -/
private noncomputable def realPoints : List (ℕ × P2 ℝ) := examplePoints.map fun e => (e.1, real e.2)

/-- The hypotheses of the theorems above are met by the four example points in the box from (0, -1) to (4, 3). -/
private theorem example_real : (⟨0, -1⟩ : P2 ℝ).x < (⟨4, 3⟩ : P2 ℝ).x ∧ (4 : ℝ) - 0 = 3 - -1 ∧
    (∀ e ∈ realPoints, InBox ⟨0, -1⟩ ⟨4, 3⟩ e.2) ∧ (realPoints.map Prod.snd).Nodup ∧ realPoints ≠ [] ∧ HeapsOk popHead ∧
    ∃ r, construct2 (fun _ => 0) popHead 100 ⟨0, -1⟩ ⟨4, 3⟩ realPoints = .done r := by
  have h1 : (⟨0, -1⟩ : P2 ℝ).x < (⟨4, 3⟩ : P2 ℝ).x := by norm_num
  have h2 : ∀ e ∈ realPoints, InBox ⟨0, -1⟩ ⟨4, 3⟩ e.2 := by
    intro e he
    simp only [realPoints, examplePoints, List.map_cons, List.map_nil, List.mem_cons, List.not_mem_nil, or_false] at he
    rcases he with rfl | rfl | rfl | rfl <;> (simp only [InBox, real]; norm_num)
  have hinj : Function.Injective real := by
    intro p q h
    obtain ⟨e1, e2⟩ := P2.mk.injEq _ _ _ _ ▸ h
    exact P2.ext (by exact_mod_cast e1) (by exact_mod_cast e2)
  have h3 : (realPoints.map Prod.snd).Nodup := by
    have : realPoints.map Prod.snd = (examplePoints.map Prod.snd).map real := by
      unfold realPoints
      rw [List.map_map, List.map_map]
      rfl
    rw [this]
    exact List.Nodup.map hinj (by decide +kernel)
  set l : List (P2 ℚ) := allPoints2 ⟨0, -1⟩ ⟨4, 3⟩ (examplePoints.map Prod.snd) with hl
  have hsite : ∀ p, Site ⟨0, -1⟩ ⟨4, 3⟩ realPoints p → ∃ q ∈ l, p = real q := by
    intro p hp
    rw [hl]
    unfold allPoints2
    rcases hp with rfl | rfl | rfl | ⟨e, he, rfl⟩
    · exact ⟨_, List.mem_cons_self, by unfold real Triangle2.allEncompassing; push_cast; rfl⟩
    · exact ⟨_, List.mem_cons_of_mem _ List.mem_cons_self, by
        unfold real Triangle2.allEncompassing; push_cast; rfl⟩
    · exact ⟨_, List.mem_cons_of_mem _ (List.mem_cons_of_mem _ List.mem_cons_self), by
        unfold real Triangle2.allEncompassing; push_cast; rfl⟩
    · obtain ⟨e', he', rfl⟩ := List.mem_map.1 he
      exact ⟨e'.2, by simp only [List.mem_cons, List.mem_map]; exact Or.inr (Or.inr (Or.inr ⟨e', he', rfl⟩)), rfl⟩
  have h4 : GeneralUnder id (Site ⟨0, -1⟩ ⟨4, 3⟩ realPoints) := by
    have t1 : ∀ p ∈ l, ∀ q ∈ l, ∀ r ∈ l, (decide (p = q) || decide (p = r) || decide (q = r) ||
        !decide (orient2 ⟨p, q, r⟩ = 0)) = true := by decide +kernel
    have t2 : ∀ p ∈ l, ∀ q ∈ l, ∀ r ∈ l, ∀ z ∈ l, (decide (p = q) || decide (p = r) || decide (p = z) ||
        decide (q = r) || decide (q = z) || decide (r = z) ||
        ((⟨p, q, r⟩ : Triangle2 ℚ).circumcircleContains z).isSome) = true := by decide +kernel
    refine ⟨?_, ?_⟩
    · intro p q r hp hq hr n1 n2 n3 h
      obtain ⟨p, mp, rfl⟩ := hsite p hp
      obtain ⟨q, mq, rfl⟩ := hsite q hq
      obtain ⟨r, mr, rfl⟩ := hsite r hr
      have h : orient2 ⟨real p, real q, real r⟩ = 0 := h
      rw [real_orient, Rat.cast_eq_zero] at h
      have := t1 p mp q mq r mr
      simp [hinj.ne_iff.1 n1, hinj.ne_iff.1 n2, hinj.ne_iff.1 n3, h] at this
    · intro p q r z hp hq hr hz n1 n2 n3 n4 n5 n6 o ho
      obtain ⟨p, mp, rfl⟩ := hsite p hp
      obtain ⟨q, mq, rfl⟩ := hsite q hq
      obtain ⟨r, mr, rfl⟩ := hsite r hr
      obtain ⟨z, mz, rfl⟩ := hsite z hz
      have hc := circumcircleContains_of_cocircular ho.1 ho.2.1 ho.2.2
      have hc : (⟨real p, real q, real r⟩ : Triangle2 ℝ).circumcircleContains (real z) = none := hc
      rw [real_circle] at hc
      have := t2 p mp q mq r mr z mz
      simp [hinj.ne_iff.1 n1, hinj.ne_iff.1 n2, hinj.ne_iff.1 n3, hinj.ne_iff.1 n4, hinj.ne_iff.1 n5,
        hinj.ne_iff.1 n6, hc] at this
  exact ⟨h1, by norm_num, h2, h3, by simp [realPoints, examplePoints], popHead_ok,
    construct2_succeeds_square popHead_ok h1 (by norm_num) h2 h3 h4 (by decide)⟩

example : (⟨0, -1⟩ : P2 ℝ).x < (⟨4, 3⟩ : P2 ℝ).x ∧ (4 : ℝ) - 0 = 3 - -1 ∧
    (∀ e ∈ realPoints, InBox ⟨0, -1⟩ ⟨4, 3⟩ e.2) ∧ (realPoints.map Prod.snd).Nodup ∧ realPoints ≠ [] ∧ HeapsOk popHead ∧
    ∃ r, construct2 (fun _ => 0) popHead 100 ⟨0, -1⟩ ⟨4, 3⟩ realPoints = .done r := example_real

/-- There is a completed construction for four points. -/
theorem construct2_example : ∃ (points : List (ℕ × P2 ℝ)) (r : Construction ℝ ℕ), points.length = 4 ∧ HeapsOk popHead ∧
    (∀ e ∈ points, InBox ⟨0, -1⟩ ⟨4, 3⟩ e.2) ∧ (points.map Prod.snd).Nodup ∧
    construct2 (fun _ => 0) popHead 100 ⟨0, -1⟩ ⟨4, 3⟩ points = .done r := by
  obtain ⟨-, -, h1, h2, -, h3, r, hr⟩ := example_real
  exact ⟨realPoints, r, by simp [realPoints, examplePoints], h3, h1, h2, hr⟩

end Verif.Voronoi
