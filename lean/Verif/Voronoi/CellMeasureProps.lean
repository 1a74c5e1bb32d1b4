import Verif.Voronoi.CellSize
import Verif.Voronoi.PlaneCellClosed
import Verif.Voronoi.PlaneCellProps
import Verif.Voronoi.SpaceCellProps
import Verif.Voronoi.SpaceCellVolume

/-!
# C80, C81, C82, C83: volumes, faces and sizes of the cells of a completed construction

The constructions are `construct2` and `construct3`, the cells are computed from their results by `getPoints2`,
`getFaces2` and `getFaces3` of `Verif.Voronoi.Cell`.  The box is a square or a cube.
-/

namespace Verif.Voronoi

open Verif.Delaunay
open Verif.Predicates (P2 P3 distSq2 distSq3 dot)

section Space

variable {N : Type} {eps eps' : ℝ} {key : P3 ℝ → ℕ} {pop : Heaps} {fuel : ℕ} {lo hi : P3 ℝ}
  {points : List (N × P3 ℝ)} {r : Construction3 ℝ N}

/-- **The volume of a cell is the volume of the Voronoi region.**  Whenever the construction is completed for points in a
cubic box, the volume which is computed for the cell of a given point is positive, and it is the volume (the Lebesgue
measure) of the set of all places which are closer to the given point than to all other points of the
triangulation. -/
theorem construct3_cell_volume (heps : 0 < eps) (heps' : 0 < eps') (hp : HeapsOk pop) (hx : lo.x < hi.x)
    (hc : hi.x - lo.x = hi.y - lo.y) (hc' : hi.x - lo.x = hi.z - lo.z)
    (hr : construct3 eps key pop fuel lo hi points = .done r) :
    ∀ e ∈ r.indices, ∃ F V, getFaces3 r.state.mesh r.position (centre3 eps' r.state.mesh r.position) e.2 = some F ∧
      volume3 F (r.position e.2) = some V ∧ 0 < V ∧
      MeasureTheory.volume {v : Fin 3 → ℝ |
        OpenVoronoiRegion (Site3 lo hi points) (r.position e.2) ⟨v 0, v 1, v 2⟩} = ENNReal.ofReal V := by
  obtain ⟨P, hn, hpos, hsurj, hidx, hlt⟩ := space_of_construct3 heps hp hx hc hc' hr
  intro e he
  obtain ⟨k1, k2⟩ := hlt e he
  obtain ⟨F, V, hF, hV, hV0, hvol⟩ := cell_volume3 heps' P k1 (hn ▸ k2)
  refine ⟨F, V, hF, hV, hV0, ?_⟩
  rw [← hvol]
  congr 1
  ext v
  rw [Set.mem_ofPred_eq, Set.mem_ofPred_eq]
  refine ⟨fun h w hw hne => h _ (hpos w (hn ▸ hw)) fun e => hne (P.injective hw (hn ▸ k2) e), fun h z hz hne => ?_⟩
  obtain ⟨i, hi, rfl⟩ := hsurj z hz
  exact h i (hn ▸ hi) fun e => hne (e ▸ rfl)

/-- **The face between two points is the same in both cells.**  If a face of the cell of a given point leads to another
given point, then the cell of the other point has a face which leads back, with the same polygon, the opposite normal
and the same (positive) area. -/
theorem construct3_faces_agree (heps : 0 < eps) (heps' : 0 < eps') (hp : HeapsOk pop) (hx : lo.x < hi.x)
    (hc : hi.x - lo.x = hi.y - lo.y) (hc' : hi.x - lo.x = hi.z - lo.z)
    (hr : construct3 eps key pop fuel lo hi points = .done r) :
    ∀ e ∈ r.indices, ∀ e' ∈ r.indices, ∃ F G,
      getFaces3 r.state.mesh r.position (centre3 eps' r.state.mesh r.position) e.2 = some F ∧
      getFaces3 r.state.mesh r.position (centre3 eps' r.state.mesh r.position) e'.2 = some G ∧
      ∀ f ∈ F, f.connection = e'.2 → ∃ g ∈ G, g.connection = e.2 ∧ SamePolygon f.points g.points ∧
        g.normal = ⟨-f.normal.x, -f.normal.y, -f.normal.z⟩ ∧ g.area = f.area ∧ 0 < f.area := by
  obtain ⟨P, hn, hpos, hsurj, hidx, hlt⟩ := space_of_construct3 heps hp hx hc hc' hr
  intro e he e' he'
  obtain ⟨k1, k2⟩ := hlt e he
  obtain ⟨k1', k2'⟩ := hlt e' he'
  obtain ⟨F, hF, -⟩ := cell_contains3 heps' P k1 (hn ▸ k2)
  obtain ⟨G, hG, -⟩ := cell_contains3 heps' P k1' (hn ▸ k2')
  refine ⟨F, G, hF, hG, fun f hf hfe => ?_⟩
  obtain ⟨g, h1, h2, h3, h4, h5⟩ := faces_agree3 heps' P k1 (hn ▸ k2) hF hG hf hfe
  exact ⟨g, h1, h2, h3, h4, h5, cell_area_pos3 heps' P k1 (hn ▸ k2) hF f hf⟩

/-- `total_effective_area`, sweep/mod.rs lines 453-456, with `points_downwind`, grid/cell.rs lines 130-132: the sum of
the areas of the faces which point into the direction `d`, each times the cosine. -/
noncomputable def effectiveArea3 (F : List Face3) (d : P3 ℝ) : ℝ :=
  ((F.filter fun f => decide (0 < dot f.normal d)).map fun f => f.area * dot f.normal d).sum

/-- Sums of positive parts. -/
private theorem balance {α : Type} (l : List α) (A u : α → ℝ) (h : (l.map fun f => A f * u f).sum = 0) :
    ((l.filter fun f => decide (0 < u f)).map fun f => A f * u f).sum =
      ((l.filter fun f => decide (0 < -u f)).map fun f => A f * -u f).sum := by
  have key : ∀ l : List α, ((l.filter fun f => decide (0 < u f)).map fun f => A f * u f).sum -
      ((l.filter fun f => decide (0 < -u f)).map fun f => A f * -u f).sum = (l.map fun f => A f * u f).sum := by
    intro l
    induction l with
    | nil => simp
    | cons a l ih =>
      rw [List.filter_cons, List.filter_cons, List.map_cons, List.sum_cons, ← ih]
      rcases lt_trichotomy (u a) 0 with h | h | h
      · rw [if_neg (by simpa using h.le), if_pos (by simpa using h), List.map_cons, List.sum_cons]
        ring
      · rw [if_neg (by simp [h]), if_neg (by simp [h]), h]
        ring
      · rw [if_pos (by simpa using h), if_neg (by simpa using h.le), List.map_cons, List.sum_cons]
        ring
  have := key l
  rw [h] at this
  linarith

private theorem total_pos {α : Type} {l : List α} {A u : α → ℝ} (hA : ∀ f ∈ l, 0 < A f) (h : ∃ f ∈ l, 0 < u f) :
    0 < ((l.filter fun f => decide (0 < u f)).map fun f => A f * u f).sum := by
  refine List.sum_pos _ ?_ ?_
  · intro z hz
    obtain ⟨f, hf, rfl⟩ := List.mem_map.1 hz
    obtain ⟨h1, h2⟩ := List.mem_filter.1 hf
    exact mul_pos (hA f h1) (of_decide_eq_true h2)
  · obtain ⟨f, hf, h0⟩ := h
    exact List.ne_nil_of_mem (List.mem_map.2 ⟨f, List.mem_filter.2 ⟨hf, decide_eq_true h0⟩, rfl⟩)

/-- **The surface of a cell is closed.**  The effective area of a cell in every direction is equal to the effective area
in the opposite direction (what enters through the upwind faces can leave through the downwind faces), and it is positive:
the sweep never divides by zero, and every cell has upwind and downwind faces. -/
theorem construct3_effective_area (heps : 0 < eps) (heps' : 0 < eps') (hp : HeapsOk pop) (hx : lo.x < hi.x)
    (hc : hi.x - lo.x = hi.y - lo.y) (hc' : hi.x - lo.x = hi.z - lo.z)
    (hr : construct3 eps key pop fuel lo hi points = .done r) :
    ∀ e ∈ r.indices, ∃ F, getFaces3 r.state.mesh r.position (centre3 eps' r.state.mesh r.position) e.2 = some F ∧
      ∀ d, effectiveArea3 F d = effectiveArea3 F ⟨-d.x, -d.y, -d.z⟩ ∧ (d ≠ ⟨0, 0, 0⟩ → 0 < effectiveArea3 F d) := by
  obtain ⟨P, hn, hpos, hsurj, hidx, hlt⟩ := space_of_construct3 heps hp hx hc hc' hr
  intro e he
  obtain ⟨k1, k2⟩ := hlt e he
  obtain ⟨F, hF, -⟩ := cell_contains3 heps' P k1 (hn ▸ k2)
  refine ⟨F, hF, fun d => ⟨?_, fun hd => ?_⟩⟩
  · have hneg : ∀ n : P3 ℝ, dot n ⟨-d.x, -d.y, -d.z⟩ = -dot n d := by
      intro n
      unfold dot
      ring
    unfold effectiveArea3
    simp only [hneg]
    exact balance F Face3.area (fun f => dot f.normal d) (cell_closed3 heps' P k1 (hn ▸ k2) hF d)
  · exact total_pos (u := fun f : Face3 => dot f.normal d) (cell_area_pos3 heps' P k1 (hn ▸ k2) hF)
      (cell_downwind3 heps' P k1 (hn ▸ k2) hF hd)

/-- **The size of a cell is the radius of a ball of the same volume.** -/
theorem construct3_cell_size (heps : 0 < eps) (heps' : 0 < eps') (hp : HeapsOk pop) (hx : lo.x < hi.x)
    (hc : hi.x - lo.x = hi.y - lo.y) (hc' : hi.x - lo.x = hi.z - lo.z)
    (hr : construct3 eps key pop fuel lo hi points = .done r) :
    ∀ e ∈ r.indices, ∃ F R, getFaces3 r.state.mesh r.position (centre3 eps' r.state.mesh r.position) e.2 = some F ∧
      size3 F (r.position e.2) = some R ∧ 0 < R ∧
      MeasureTheory.volume {v : Fin 3 → ℝ |
        OpenVoronoiRegion (Site3 lo hi points) (r.position e.2) ⟨v 0, v 1, v 2⟩} =
        ENNReal.ofReal (4 / 3 * Real.pi * R ^ 3) := by
  intro e he
  obtain ⟨F, V, hF, hV, hV0, hvol⟩ := construct3_cell_volume heps heps' hp hx hc hc' hr e he
  have hpi := Real.pi_pos
  have hq : 0 < 3.0 * V / (4.0 * Real.pi) := by positivity
  refine ⟨F, (3.0 * V / (4.0 * Real.pi)) ^ (1 / 3 : ℝ), hF, ?_, Real.rpow_pos_of_pos hq _, ?_⟩
  · unfold size3
    rw [hV]
    rfl
  · have h3 : ((3.0 * V / (4.0 * Real.pi)) ^ (1 / 3 : ℝ)) ^ 3 = 3.0 * V / (4.0 * Real.pi) := by
      rw [← Real.rpow_natCast, ← Real.rpow_mul hq.le]
      norm_num
    rw [hvol, h3]
    congr 1
    field_simp
    norm_num

/-- The hypotheses of the theorems above are met by three points in a box. -/
example : ∃ (points : List (ℕ × P3 ℝ)) (r : Construction3 ℝ ℕ), points.length = 3 ∧ HeapsOk popHead ∧
    (∀ e ∈ points, InBox3 ⟨0, 0, -1⟩ ⟨4, 4, 3⟩ e.2) ∧ (points.map Prod.snd).Nodup ∧
    construct3 (1 / 100) (fun _ => 0) popHead 12006 (withPeriodicImages (⟨0, 0, -1⟩ : P3 ℝ) ⟨4, 4, 3⟩).1
      (withPeriodicImages (⟨0, 0, -1⟩ : P3 ℝ) ⟨4, 4, 3⟩).2 points = .done r := construct3_example

end Space

section Plane

variable {N : Type} {key : P2 ℝ → ℕ} {pop : Heaps} {fuel : ℕ} {lo hi : P2 ℝ}
  {points : List (N × P2 ℝ)} {r : Construction ℝ N}

private theorem indices_of_construct2 (hx : lo.x < hi.x) (hsq : hi.x - lo.x = hi.y - lo.y)
    (hr : construct2 key pop fuel lo hi points = .done r) :
    ∀ e ∈ r.indices, 3 ≤ e.2 ∧ e.2 < 3 + points.length := by
  have hw : 0 < hi.x - lo.x := sub_pos.2 hx
  have hy : lo.y < hi.y := by rw [hsq] at hw; exact sub_pos.1 hw
  obtain ⟨s0, h0, h1, h2, h3, h4, h5, h6⟩ := construct2_run hx hy hr
  exact h6

/-- **The face between two points is the same in both cells**, in the plane. -/
theorem construct2_faces_agree (hp : HeapsOk pop) (hx : lo.x < hi.x) (hsq : hi.x - lo.x = hi.y - lo.y)
    (hr : construct2 key pop fuel lo hi points = .done r) :
    ∀ e ∈ r.indices, ∀ e' ∈ r.indices, ∃ F G,
      getFaces2 r.state.mesh r.position (centre2 r.state.mesh r.position) e.2 = some F ∧
      getFaces2 r.state.mesh r.position (centre2 r.state.mesh r.position) e'.2 = some G ∧
      ∀ f ∈ F, f.connection = e'.2 → ∃ g ∈ G, g.connection = e.2 ∧ g.normal = ⟨-f.normal.x, -f.normal.y⟩ ∧
        g.area = f.area ∧ 0 < f.area := by
  obtain ⟨P, hn⟩ := plane_of_construct2 hp hx hsq hr
  intro e he e' he'
  obtain ⟨k1, k2⟩ := indices_of_construct2 hx hsq hr e he
  obtain ⟨k1', k2'⟩ := indices_of_construct2 hx hsq hr e' he'
  obtain ⟨F, hF, -⟩ := cell_faces P k1 (hn ▸ k2)
  obtain ⟨G, hG, -⟩ := cell_faces P k1' (hn ▸ k2')
  refine ⟨F, G, hF, hG, fun f hf hfe => ?_⟩
  obtain ⟨g, h1, h2, h3, h4⟩ := neighbours_agree2 P.ok.cons (distinct_of_plane P) hF hG hf hfe
  exact ⟨g, h1, h2, h4, h3, (cell_closed2 P k1 (hn ▸ k2) hF).1 f hf⟩

/-- `total_effective_area`, sweep/mod.rs lines 453-456, in the plane. -/
noncomputable def effectiveArea2 (F : List Face2) (d : P2 ℝ) : ℝ :=
  ((F.filter fun f => decide (0 < f.normal.x * d.x + f.normal.y * d.y)).map fun f =>
    f.area * (f.normal.x * d.x + f.normal.y * d.y)).sum

/-- **The outline of a cell is closed**, in the plane. -/
theorem construct2_effective_area (hp : HeapsOk pop) (hx : lo.x < hi.x) (hsq : hi.x - lo.x = hi.y - lo.y)
    (hr : construct2 key pop fuel lo hi points = .done r) :
    ∀ e ∈ r.indices, ∃ F, getFaces2 r.state.mesh r.position (centre2 r.state.mesh r.position) e.2 = some F ∧
      ∀ d, effectiveArea2 F d = effectiveArea2 F ⟨-d.x, -d.y⟩ ∧ (d ≠ ⟨0, 0⟩ → 0 < effectiveArea2 F d) := by
  obtain ⟨P, hn⟩ := plane_of_construct2 hp hx hsq hr
  intro e he
  obtain ⟨k1, k2⟩ := indices_of_construct2 hx hsq hr e he
  obtain ⟨F, hF, -⟩ := cell_faces P k1 (hn ▸ k2)
  obtain ⟨hA, hsum⟩ := cell_closed2 P k1 (hn ▸ k2) hF
  refine ⟨F, hF, fun d => ⟨?_, fun hd => ?_⟩⟩
  · have hneg : ∀ n : P2 ℝ, n.x * -d.x + n.y * -d.y = -(n.x * d.x + n.y * d.y) := fun n => by ring
    unfold effectiveArea2
    simp only [hneg]
    exact balance F Face2.area (fun f => f.normal.x * d.x + f.normal.y * d.y) (hsum d)
  · exact total_pos (u := fun f : Face2 => f.normal.x * d.x + f.normal.y * d.y) hA
      (cell_downwind2 P k1 (hn ▸ k2) hF hd)

/-- **The size of a cell is the radius of a disc of the same area.** -/
theorem construct2_cell_size (hp : HeapsOk pop) (hx : lo.x < hi.x) (hsq : hi.x - lo.x = hi.y - lo.y)
    (hr : construct2 key pop fuel lo hi points = .done r) :
    ∀ e ∈ r.indices, ∃ l R, getPoints2 r.state.mesh (centre2 r.state.mesh r.position) e.2 = some l ∧
      size2 l = some R ∧ 0 < R ∧
      MeasureTheory.volume {v : Fin 2 → ℝ | VoronoiRegion (Site lo hi points) (r.position e.2) ⟨v 0, v 1⟩} =
        ENNReal.ofReal (Real.pi * R ^ 2) := by
  intro e he
  obtain ⟨l, A, hl, hA, hA0, hvol⟩ := construct2_cell_area hp hx hsq hr e he
  have hpi := Real.pi_pos
  have hq : 0 < A / Real.pi := by positivity
  refine ⟨l, √(A / Real.pi), hl, ?_, Real.sqrt_pos.2 hq, ?_⟩
  · unfold size2
    rw [hA]
    rfl
  · rw [hvol, Real.sq_sqrt hq.le, mul_div_cancel₀ _ hpi.ne']

/-- The hypotheses of the theorems above are met by four points in a box. -/
example : ∃ (points : List (ℕ × P2 ℝ)) (r : Construction ℝ ℕ), points.length = 4 ∧ HeapsOk popHead ∧
    (∀ e ∈ points, InBox ⟨0, -1⟩ ⟨4, 3⟩ e.2) ∧ (points.map Prod.snd).Nodup ∧
    construct2 (fun _ => 0) popHead 100 ⟨0, -1⟩ ⟨4, 3⟩ points = .done r := construct2_example

end Plane

end Verif.Voronoi
