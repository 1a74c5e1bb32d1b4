import Verif.Voronoi.SpaceCell
import Verif.Voronoi.SpaceCellSpec
import Verif.Delaunay.Construct3Props

/-!
# C77, C78: the cells of a completed construction in space are the Voronoi regions

The construction is `construct3` of `Verif.Delaunay.Construct3`, the cells are computed from its result by
`getFaces3` of `Verif.Voronoi.Cell`.  The box is a cube, see `long_box_not_delaunay3` for other boxes.
-/

namespace Verif.Voronoi

open Verif.Delaunay
open Verif.Predicates (P3 orient3 distSq3)

variable {N : Type} {eps eps' : ℝ} {key : P3 ℝ → ℕ} {pop : Heaps} {fuel : ℕ} {lo hi : P3 ℝ}
  {points : List (N × P3 ℝ)} {r : Construction3 ℝ N}

/-- What is known of the result of a completed construction. -/
theorem space_of_construct3 (heps : 0 < eps) (hp : HeapsOk pop) (hx : lo.x < hi.x) (hc : hi.x - lo.x = hi.y - lo.y)
    (hc' : hi.x - lo.x = hi.z - lo.z) (hr : construct3 eps key pop fuel lo hi points = .done r) :
    SpaceOk r.position r.state ∧ r.state.mesh.numPoints = 4 + points.length ∧
      (∀ i, i < 4 + points.length → Site3 lo hi points (r.position i)) ∧
      (∀ p, Site3 lo hi points p → ∃ i, i < 4 + points.length ∧ r.position i = p) ∧
      (r.indices.map fun e => (e.1, r.position e.2)).Perm points ∧
      ∀ e ∈ r.indices, 4 ≤ e.2 ∧ e.2 < 4 + points.length := by
  have hw : 0 < hi.x - lo.x := sub_pos.2 hx
  have hy : lo.y < hi.y := by rw [hc] at hw; exact sub_pos.1 hw
  have hz : lo.z < hi.z := by rw [hc'] at hw; exact sub_pos.1 hw
  obtain ⟨s0, position, indices, h0, hcon, hor, hpos, hsurj, -, -, -, -, -, hidx, hlt⟩ :=
    construct3_run (eps := eps) (key := key) (pop := pop) (fuel := fuel) hx hy hz (points := points)
  rw [hcon] at hr
  clear hcon
  obtain ⟨c1, c2, c3, k, hk, e⟩ := remap_cube hx hc hc'
  generalize remapPoint3 (extent3 (Predicates.Tetra.allEncompassing lo hi)) = f at *
  obtain ⟨x, hxdef⟩ : ∃ x : ℕ → P3 ℝ, x = fun i => f (position i) := ⟨_, rfl⟩
  have hxi : ∀ i, f (position i) = x i := fun i => by rw [hxdef]
  rw [← hxdef] at hr
  simp only [hxi] at hor
  obtain ⟨s, hs⟩ : ∃ s, insertMany (geo3 eps x) (ops3 (intersect3 x)) pop fuel points.length s0 = .done s := by
    revert hr
    cases insertMany (geo3 eps x) (ops3 (intersect3 x)) pop fuel points.length s0 with
    | done s => exact fun _ => ⟨s, rfl⟩
    | panic => exact fun h => by cases h
    | running => exact fun h => by cases h
  rw [hs] at hr
  dsimp only at hr
  rw [Outcome.done.injEq] at hr
  subst hr
  have hv : 0 < vol (x ∘ ![0, 1, 2, 3]) := hor
  obtain ⟨P, hn⟩ := run_space heps hv hp h0 hs
  exact ⟨P.scale hk fun i => by rw [← hxi, e], hn, hpos, hsurj, hidx, hlt⟩

/-- **The cells are the Voronoi regions.**  Whenever the construction is completed for points in a cubic box, the
faces of the cell of every given point exist, and `contains` tells exactly whether a place is closer to the given
point than to all other points of the triangulation. -/
theorem construct3_voronoi (heps : 0 < eps) (heps' : 0 < eps') (hp : HeapsOk pop) (hx : lo.x < hi.x)
    (hc : hi.x - lo.x = hi.y - lo.y) (hc' : hi.x - lo.x = hi.z - lo.z)
    (hr : construct3 eps key pop fuel lo hi points = .done r) :
    ∀ e ∈ r.indices, ∃ F, getFaces3 r.state.mesh r.position (centre3 eps' r.state.mesh r.position) e.2 = some F ∧
      ∀ y, contains3 F y = some true ↔ OpenVoronoiRegion (Site3 lo hi points) (r.position e.2) y := by
  obtain ⟨P, hn, hpos, hsurj, hidx, hlt⟩ := space_of_construct3 heps hp hx hc hc' hr
  intro e he
  obtain ⟨k1, k2⟩ := hlt e he
  obtain ⟨F, hF, -, hcon⟩ := cell_contains3 heps' P k1 (hn ▸ k2)
  refine ⟨F, hF, fun y => (hcon y).trans ⟨fun h z hz hne => ?_, fun h w hw hne => ?_⟩⟩
  · obtain ⟨i, hi, rfl⟩ := hsurj z hz
    exact h i (hn ▸ hi) fun e => hne (e ▸ rfl)
  · exact h _ (hpos w (hn ▸ hw)) fun e => hne (P.injective hw (hn ▸ k2) e)

/-- **The faces lead to the Delaunay neighbours.**  The faces of the cell of every given point exist (nothing
panics), each of them is a polygon with at least three vertices, no two of them lead to the same point, and they lead
exactly to those points which form a Delaunay tetrahedron with the given point. -/
theorem construct3_faces (heps : 0 < eps) (heps' : 0 < eps') (hp : HeapsOk pop) (hx : lo.x < hi.x)
    (hc : hi.x - lo.x = hi.y - lo.y) (hc' : hi.x - lo.x = hi.z - lo.z)
    (hin : ∀ e ∈ points, InBox3 lo hi e.2) (hn : (points.map Prod.snd).Nodup)
    (hr : construct3 eps key pop fuel lo hi points = .done r) :
    ∀ e ∈ r.indices, ∃ F, getFaces3 r.state.mesh r.position (centre3 eps' r.state.mesh r.position) e.2 = some F ∧
      (∀ f ∈ F, 3 ≤ f.points.length) ∧ (F.map fun f => r.position f.connection).Nodup ∧
      ∀ z, (∃ f ∈ F, r.position f.connection = z) ↔
        ∃ v w, DelaunayTetra (Site3 lo hi points) (r.position e.2) z v w := by
  obtain ⟨P, hN, hpos, hsurj, hidx, hlt⟩ := space_of_construct3 heps hp hx hc hc' hr
  intro e he
  obtain ⟨k1, k2⟩ := hlt e he
  obtain ⟨F, hF, hlen, -⟩ := cell_contains3 heps' P k1 (hN ▸ k2)
  have hcons := P.ok.cons
  obtain ⟨g1, g2⟩ := connections3 hcons hF
  have hlt : ∀ f ∈ F, f.connection < r.state.mesh.numPoints := by
    intro f hf
    obtain ⟨_, t, T, hT, _, hq⟩ := (g2 f.connection).1 (List.mem_map.2 ⟨f, hf, rfl⟩)
    exact hcons.points_lt t T hT _ hq
  refine ⟨F, hF, hlen, ?_, fun z => ?_⟩
  · have : (F.map fun f => r.position f.connection) = (F.map Face3.connection).map r.position := by
      rw [List.map_map]
      rfl
    rw [this]
    refine List.Nodup.map_on ?_ g1
    intro a ha b hb hab
    obtain ⟨f, hf, rfl⟩ := List.mem_map.1 ha
    obtain ⟨f', hf', rfl⟩ := List.mem_map.1 hb
    exact P.injective (hlt f hf) (hlt f' hf') hab
  · constructor
    · rintro ⟨f, hf, rfl⟩
      obtain ⟨hne, t, T, hT, hpT, hqT⟩ := (g2 f.connection).1 (List.mem_map.2 ⟨f, hf, rfl⟩)
      obtain ⟨b, c, h⟩ := exists_wedge P hT hpT hqT (Ne.symm hne)
      refine ⟨r.position b, r.position c, (construct3_delaunay heps hp hx hc hc' hin hn hr _ _ _ _).1
        ⟨_, _, _, _, ⟨t, T, hT, ?_⟩, rfl, rfl, rfl, rfl⟩⟩
      obtain ⟨a', b', c', d', e', hat⟩ := At3.of_get hcons hT
      have hnd : T.points.Nodup := hcons.points_nodup t T hT
      refine (List.perm_ext_iff_of_nodup hnd h.nodup).2 fun w => ?_
      rw [h.mem hcons hT]
      simp only [List.mem_cons, List.not_mem_nil, or_false]
    · rintro ⟨v, w, h⟩
      obtain ⟨a, b, c, d, ⟨i, T, hT, hperm⟩, ea, rfl, rfl, rfl⟩ :=
        (construct3_delaunay heps hp hx hc hc' hin hn hr _ _ _ _).2 h
      have ma : a ∈ T.points := hperm.mem_iff.2 (by simp)
      have mb : b ∈ T.points := hperm.mem_iff.2 (by simp)
      obtain rfl := P.injective (hcons.points_lt i T hT a ma) (hN ▸ k2) ea
      have hab : b ≠ e.2 := by
        have := hperm.nodup_iff.1 (hcons.points_nodup i T hT)
        simp only [List.nodup_cons, List.mem_cons, not_or] at this
        exact Ne.symm this.1.1
      obtain ⟨f, hf, ef⟩ := List.mem_map.1 ((g2 b).2 ⟨hab, i, T, hT, ma, mb⟩)
      exact ⟨f, hf, by rw [ef]⟩

/-! ### In the box -/

/-- If the box of the construction is three times as large as the box of the simulation, the vertices of the initial
tetrahedron are further away from every place in the box of the simulation than those places are from each other. -/
private theorem initial_far (hx : lo.x < hi.x) (hc : hi.x - lo.x = hi.y - lo.y) (hc' : hi.x - lo.x = hi.z - lo.z)
    {y p : P3 ℝ} (h : InBox3 lo hi y) (h' : InBox3 lo hi p) :
    let t := Predicates.Tetra.allEncompassing (withPeriodicImages lo hi).1 (withPeriodicImages lo hi).2
    distSq3 y p < distSq3 y t.p1 ∧ distSq3 y p < distSq3 y t.p2 ∧ distSq3 y p < distSq3 y t.p3 ∧
      distSq3 y p < distSq3 y t.p4 := by
  obtain ⟨a1, a2, a3, a4, a5, a6⟩ := h
  obtain ⟨b1, b2, b3, b4, b5, b6⟩ := h'
  obtain ⟨w, hw⟩ : ∃ w, w = hi.x - lo.x := ⟨_, rfl⟩
  have e1 : hi.x = lo.x + w := by rw [hw]; ring
  have e2 : hi.y = lo.y + w := by rw [hw, hc]; ring
  have e3 : hi.z = lo.z + w := by rw [hw, hc']; ring
  have w0 : 0 < w := by rw [hw]; exact sub_pos.2 hx
  have key : ∀ {l a b : ℝ}, l ≤ a → a ≤ l + w → l ≤ b → b ≤ l + w → (a - b) * (a - b) ≤ w * w := by
    intro l a b h1 h2 h3 h4
    nlinarith
  rw [e1] at a2 b2
  rw [e2] at a4 b4
  rw [e3] at a6 b6
  have c1 := key a1 a2 b1 b2
  have c2 := key a3 a4 b3 b4
  have c3 := key a5 a6 b5 b6
  have near : ∀ {l a : ℝ}, l ≤ a → w * w < (a - (l - w - 3 * w * (1 / 100))) * (a - (l - w - 3 * w * (1 / 100))) := by
    intro l a h
    nlinarith
  have far : ∀ {l a : ℝ}, a ≤ l + w →
      3 * (w * w) < (a - (l + w + w + 3 * w * (21 / 10 + 1 / 100))) * (a - (l + w + w + 3 * w * (21 / 10 + 1 / 100))) := by
    intro l a h
    nlinarith
  have n1 := near a1
  have n2 := near a3
  have n3 := near a5
  have f1 := far a2
  have f2 := far a4
  have f3 := far a6
  have s1 : ∀ v : ℝ, 0 ≤ v * v := mul_self_nonneg
  have d : ∀ l : ℝ, l + w + w - (l - w) = 3 * w := fun l => by ring
  have d' : ∀ l : ℝ, l + w - l = w := fun l => by ring
  unfold withPeriodicImages Predicates.Tetra.allEncompassing distSq3 P3.sub
  dsimp only
  rw [e1, e2, e3, d', d', d', d, d, d]
  refine ⟨?_, ?_, ?_, ?_⟩
  · linarith
  · linarith [s1 (y.y - (lo.y - w)), s1 (y.z - (lo.z - w))]
  · linarith [s1 (y.x - (lo.x - w)), s1 (y.z - (lo.z - w))]
  · linarith [s1 (y.x - (lo.x - w)), s1 (y.y - (lo.y - w))]

/-- **In the box of the simulation the cells are the Voronoi regions of the given points.**  If the construction is
given the box of the simulation including the periodic images, as in `construct_from_iter`, the cell of every given
point in the box of the simulation contains exactly those places of this box which are closer to the given point than
to all other given points.  (The given points outside of the box of the simulation are images and halos.) -/
theorem construct3_voronoi_in_box (heps : 0 < eps) (heps' : 0 < eps') (hp : HeapsOk pop) (hx : lo.x < hi.x)
    (hc : hi.x - lo.x = hi.y - lo.y) (hc' : hi.x - lo.x = hi.z - lo.z)
    (hr : construct3 eps key pop fuel (withPeriodicImages lo hi).1 (withPeriodicImages lo hi).2 points = .done r) :
    ∀ e ∈ r.indices, InBox3 lo hi (r.position e.2) →
      ∃ F, getFaces3 r.state.mesh r.position (centre3 eps' r.state.mesh r.position) e.2 = some F ∧
        ∀ y, InBox3 lo hi y → (contains3 F y = some true ↔
          OpenVoronoiRegion (fun z => ∃ q ∈ points, q.2 = z) (r.position e.2) y) := by
  intro e he hb
  obtain ⟨F, hF, hcon⟩ := construct3_voronoi heps heps' hp
    (by unfold withPeriodicImages; dsimp only; linarith) (by unfold withPeriodicImages; dsimp only; linarith)
    (by unfold withPeriodicImages; dsimp only; linarith) hr e he
  refine ⟨F, hF, fun y hy => (hcon y).trans ⟨fun h z hz => h z (Or.inr (Or.inr (Or.inr (Or.inr hz)))), fun h z hz hne => ?_⟩⟩
  obtain ⟨f1, f2, f3, f4⟩ := initial_far hx hc hc' hy hb
  rcases hz with rfl | rfl | rfl | rfl | hz
  · exact f1
  · exact f2
  · exact f3
  · exact f4
  · exact h z hz hne

/-- **Every place in the box belongs to the cell of its nearest point.**  A place in the box of the simulation which has
a unique nearest given point in the box is contained in the cell of this point. -/
theorem construct3_nearest_cell (heps : 0 < eps) (heps' : 0 < eps') (hp : HeapsOk pop) (hx : lo.x < hi.x)
    (hc : hi.x - lo.x = hi.y - lo.y) (hc' : hi.x - lo.x = hi.z - lo.z)
    (hr : construct3 eps key pop fuel (withPeriodicImages lo hi).1 (withPeriodicImages lo hi).2 points = .done r)
    {n : N} {p y : P3 ℝ} (hmem : (n, p) ∈ points) (hpb : InBox3 lo hi p) (hyb : InBox3 lo hi y)
    (hnear : ∀ q ∈ points, q.2 ≠ p → distSq3 y p < distSq3 y q.2) :
    ∃ i, (n, i) ∈ r.indices ∧ r.position i = p ∧
      ∃ F, getFaces3 r.state.mesh r.position (centre3 eps' r.state.mesh r.position) i = some F ∧
        contains3 F y = some true := by
  obtain ⟨-, -, -, -, hidx, -⟩ := space_of_construct3 heps hp
    (by unfold withPeriodicImages; dsimp only; linarith) (by unfold withPeriodicImages; dsimp only; linarith)
    (by unfold withPeriodicImages; dsimp only; linarith) hr
  obtain ⟨e, he, hee⟩ := List.mem_map.1 (hidx.mem_iff.2 hmem)
  obtain ⟨rfl, rfl⟩ := Prod.mk.injEq _ _ _ _ ▸ hee
  obtain ⟨F, hF, hcon⟩ := construct3_voronoi_in_box heps heps' hp hx hc hc' hr e he hpb
  refine ⟨e.2, he, rfl, F, hF, (hcon y hyb).2 ?_⟩
  rintro z ⟨q, hq, rfl⟩ hne
  exact hnear q hq hne

/-! ### Examples with real coordinates -/

/-- A point with rational coordinates. -/
private noncomputable def real (p : P3 ℚ) : P3 ℝ := ⟨p.x, p.y, p.z⟩

private theorem real_injective : Function.Injective real := by
  intro p q h
  obtain ⟨e1, e2, e3⟩ := P3.mk.injEq _ _ _ _ _ _ ▸ h
  exact P3.ext (by exact_mod_cast e1) (by exact_mod_cast e2) (by exact_mod_cast e3)

private theorem real_orient (a b c d : P3 ℚ) :
    orient3 ⟨real a, real b, real c, real d⟩ = ((orient3 ⟨a, b, c, d⟩ : ℚ) : ℝ) := by
  rw [Predicates.orient3_eq, Predicates.orient3_eq]
  unfold real
  push_cast
  ring

private theorem real_sphere (a b c d e : P3 ℚ) :
    Predicates.determinant5x5 (Predicates.inSphereMatrix (real a) (real b) (real c) (real d) (real e)) =
      ((Predicates.determinant5x5 (Predicates.inSphereMatrix a b c d e) : ℚ) : ℝ) := by
  unfold Predicates.determinant5x5 Predicates.determinant4x4 Predicates.determinant3x3 Predicates.inSphereMatrix real
  simp only [Matrix.cons_val]
  push_cast
  rfl

/-- General position of finitely many points with rational coordinates can be decided. -/
private theorem general_of_tests {S : P3 ℝ → Prop} {l : List (P3 ℚ)} (hnl : l.Nodup) (hl : ∀ p, S p → ∃ q ∈ l, p = real q)
    (h1 : (l.all fun i => l.all fun j => l.all fun k => l.all fun m =>
      !decide [i, j, k, m].Nodup || decide (orient3 ⟨i, j, k, m⟩ ≠ 0)) = true)
    (h2 : (l.sublists.all fun L =>
      match L with
      | [i, j, k, l, m] => decide (Predicates.determinant5x5 (Predicates.inSphereMatrix i j k l m) ≠ 0)
      | _ => true) = true) : GeneralUnder3 id S := by
  simp only [List.all_eq_true, Bool.or_eq_true, Bool.not_eq_true', decide_eq_false_iff_not,
    decide_eq_true_eq] at h1
  refine ⟨?_, ?_⟩
  · intro i j k m hi hj hk hm hnd
    obtain ⟨i, mi, rfl⟩ := hl i hi
    obtain ⟨j, mj, rfl⟩ := hl j hj
    obtain ⟨k, mk, rfl⟩ := hl k hk
    obtain ⟨m, mm, rfl⟩ := hl m hm
    have hnd' : ([i, j, k, m].map real).Nodup := hnd
    have := (h1 i mi j mj k mk m mm).resolve_left (not_not.2 (List.Nodup.of_map _ hnd'))
    simp only [id]
    rw [real_orient]
    exact_mod_cast this
  · intro i j k n m hi hj hk hn hm hnd o ho
    obtain ⟨i, mi, rfl⟩ := hl i hi
    obtain ⟨j, mj, rfl⟩ := hl j hj
    obtain ⟨k, mk, rfl⟩ := hl k hk
    obtain ⟨n, mn, rfl⟩ := hl n hn
    obtain ⟨m, mm, rfl⟩ := hl m hm
    have hnd' : ([i, j, k, n, m].map real).Nodup := hnd
    have hnd := List.Nodup.of_map _ hnd'
    rw [List.all_eq_true] at h2
    have hp : (l.filter fun w => decide (w ∈ [i, j, k, n, m])).Perm [i, j, k, n, m] := by
      refine (List.perm_ext_iff_of_nodup (hnl.filter _) hnd).2 fun w => ?_
      rw [List.mem_filter, decide_eq_true_eq]
      refine ⟨fun h => h.2, fun h => ⟨?_, h⟩⟩
      simp only [List.mem_cons, List.not_mem_nil, or_false] at h
      rcases h with rfl | rfl | rfl | rfl | rfl <;> assumption
    have h3 := h2 _ (List.mem_sublists.2 (List.filter_sublist (p := fun w => decide (w ∈ [i, j, k, n, m]))))
    have hlen := hp.length_eq
    have hmem : ∀ w ∈ (l.filter fun w => decide (w ∈ [i, j, k, n, m])), distSq3 (real w) o = distSq3 (real i) o := by
      intro w hw
      have := hp.mem_iff.1 hw
      simp only [List.mem_cons, List.not_mem_nil, or_false] at this
      rcases this with rfl | rfl | rfl | rfl | rfl
      · rfl
      · exact ho.1.symm
      · exact ho.2.1.symm
      · exact ho.2.2.1.symm
      · exact ho.2.2.2.symm
    revert h3 hlen hmem
    generalize l.filter (fun w => decide (w ∈ [i, j, k, n, m])) = L
    intro h3 hlen hmem
    match L, hlen, h3, hmem with
    | [a, b, c, d, e], _, h3, hmem =>
      dsimp only at h3
      rw [decide_eq_true_eq] at h3
      refine h3 ?_
      have := real_sphere a b c d e
      rw [Predicates.inSphere_identity _ _ _ _ _ o _ (hmem a (by simp)) (hmem b (by simp)) (hmem c (by simp))
        (hmem d (by simp)), hmem e (by simp), sub_self, mul_zero] at this
      exact_mod_cast this.symm

private theorem site_real {lo hi : P3 ℚ} {pts : List (ℕ × P3 ℚ)} :
    ∀ p, Site3 (real lo) (real hi) (pts.map fun e => (e.1, real e.2)) p →
      ∃ q ∈ allPoints3 lo hi (pts.map Prod.snd), p = real q := by
  intro p hp
  unfold allPoints3
  rcases hp with rfl | rfl | rfl | rfl | ⟨e, he, rfl⟩
  · exact ⟨_, List.mem_cons_self, by unfold real Predicates.Tetra.allEncompassing P3.sub; push_cast; rfl⟩
  · exact ⟨_, List.mem_cons_of_mem _ List.mem_cons_self, by
      unfold real Predicates.Tetra.allEncompassing P3.sub; push_cast; rfl⟩
  · exact ⟨_, List.mem_cons_of_mem _ (List.mem_cons_of_mem _ List.mem_cons_self), by
      unfold real Predicates.Tetra.allEncompassing P3.sub; push_cast; rfl⟩
  · exact ⟨_, List.mem_cons_of_mem _ (List.mem_cons_of_mem _ (List.mem_cons_of_mem _ List.mem_cons_self)), by
      unfold real Predicates.Tetra.allEncompassing P3.sub; push_cast; rfl⟩
  · obtain ⟨e', he', rfl⟩ := List.mem_map.1 he
    exact ⟨e'.2, by simp only [List.mem_cons, List.mem_map]; exact Or.inr (Or.inr (Or.inr (Or.inr ⟨e', he', rfl⟩))), rfl⟩

/-- Three points. -/
private noncomputable def realPoints : List (ℕ × P3 ℝ) := (examplePoints5.take 3).map fun e => (e.1, real e.2)

/-- Three points in the box from (0, 0, -1) to (4, 4, 3) meet all hypotheses of the theorems above. -/
private theorem example_real : (⟨0, 0, -1⟩ : P3 ℝ).x < (⟨4, 4, 3⟩ : P3 ℝ).x ∧ (4 : ℝ) - 0 = 4 - 0 ∧ (4 : ℝ) - 0 = 3 - -1 ∧ HeapsOk popHead ∧
    (∀ e ∈ realPoints, InBox3 ⟨0, 0, -1⟩ ⟨4, 4, 3⟩ e.2) ∧ (realPoints.map Prod.snd).Nodup ∧
    ∃ r, construct3 (1 / 100) (fun _ => 0) popHead 12006 (withPeriodicImages (⟨0, 0, -1⟩ : P3 ℝ) ⟨4, 4, 3⟩).1
      (withPeriodicImages (⟨0, 0, -1⟩ : P3 ℝ) ⟨4, 4, 3⟩).2 realPoints = .done r := by
  have h1 : ∀ e ∈ realPoints, InBox3 ⟨0, 0, -1⟩ ⟨4, 4, 3⟩ e.2 := by
    intro e he
    simp only [realPoints, examplePoints5, List.take_succ_cons, List.take_zero, List.map_cons, List.map_nil,
      List.mem_cons, List.not_mem_nil, or_false] at he
    rcases he with rfl | rfl | rfl <;> (simp only [InBox3, real]; norm_num)
  have h2 : (realPoints.map Prod.snd).Nodup := by
    have : realPoints.map Prod.snd = ((examplePoints5.take 3).map Prod.snd).map real := by
      unfold realPoints
      rw [List.map_map, List.map_map]
      rfl
    rw [this]
    exact List.Nodup.map real_injective (by decide +kernel)
  have e1 : (withPeriodicImages (⟨0, 0, -1⟩ : P3 ℝ) ⟨4, 4, 3⟩).1 = real ⟨-4, -4, -5⟩ := by
    unfold withPeriodicImages real
    norm_num
  have e2 : (withPeriodicImages (⟨0, 0, -1⟩ : P3 ℝ) ⟨4, 4, 3⟩).2 = real ⟨8, 8, 7⟩ := by
    unfold withPeriodicImages real
    norm_num
  have h3 : GeneralUnder3 id (Site3 (real ⟨-4, -4, -5⟩) (real ⟨8, 8, 7⟩) realPoints) :=
    general_of_tests (l := allPoints3 ⟨-4, -4, -5⟩ ⟨8, 8, 7⟩ ((examplePoints5.take 3).map Prod.snd))
      (by decide +kernel) site_real (by decide +kernel) (by decide +kernel)
  refine ⟨by norm_num, by norm_num, by norm_num, popHead_ok, h1, h2, ?_⟩
  rw [e1, e2]
  refine construct3_succeeds_cube (by norm_num) popHead_ok ?_ ?_ ?_ ?_ h2 h3 (by decide)
  · unfold real
    norm_num
  · unfold real
    norm_num
  · unfold real
    norm_num
  · intro e he
    obtain ⟨a1, a2, a3, a4, a5, a6⟩ := h1 e he
    dsimp only at *
    unfold InBox3 real
    refine ⟨?_, ?_, ?_, ?_, ?_, ?_⟩ <;> (push_cast; linarith)

example : (⟨0, 0, -1⟩ : P3 ℝ).x < (⟨4, 4, 3⟩ : P3 ℝ).x ∧ (4 : ℝ) - 0 = 4 - 0 ∧ (4 : ℝ) - 0 = 3 - -1 ∧ HeapsOk popHead ∧
    (∀ e ∈ realPoints, InBox3 ⟨0, 0, -1⟩ ⟨4, 4, 3⟩ e.2) ∧ (realPoints.map Prod.snd).Nodup ∧
    ∃ r, construct3 (1 / 100) (fun _ => 0) popHead 12006 (withPeriodicImages (⟨0, 0, -1⟩ : P3 ℝ) ⟨4, 4, 3⟩).1
      (withPeriodicImages (⟨0, 0, -1⟩ : P3 ℝ) ⟨4, 4, 3⟩).2 realPoints = .done r := example_real

/-- There is a completed construction for three points. -/
theorem construct3_example : ∃ (points : List (ℕ × P3 ℝ)) (r : Construction3 ℝ ℕ), points.length = 3 ∧ HeapsOk popHead ∧
    (∀ e ∈ points, InBox3 ⟨0, 0, -1⟩ ⟨4, 4, 3⟩ e.2) ∧ (points.map Prod.snd).Nodup ∧
    construct3 (1 / 100) (fun _ => 0) popHead 12006 (withPeriodicImages (⟨0, 0, -1⟩ : P3 ℝ) ⟨4, 4, 3⟩).1
      (withPeriodicImages (⟨0, 0, -1⟩ : P3 ℝ) ⟨4, 4, 3⟩).2 points = .done r := by
  obtain ⟨-, -, -, h3, h1, h2, r, hr⟩ := example_real
  exact ⟨realPoints, r, by simp [realPoints, examplePoints5], h3, h1, h2, hr⟩

/-- There is a completed construction for one point in the unit cube. -/
theorem construct3_one_point : HeapsOk popHead ∧
    ∃ r, construct3 (1 / 100) (fun _ => 0) popHead 3126 (⟨0, 0, 0⟩ : P3 ℝ) ⟨1, 1, 1⟩ [((0 : ℕ), ⟨9 / 10, 4 / 5, 7 / 10⟩)] = .done r := by
  have e1 : (⟨0, 0, 0⟩ : P3 ℝ) = real ⟨0, 0, 0⟩ := by
    unfold real
    norm_num
  have e2 : (⟨1, 1, 1⟩ : P3 ℝ) = real ⟨1, 1, 1⟩ := by
    unfold real
    norm_num
  have e3 : (⟨9 / 10, 4 / 5, 7 / 10⟩ : P3 ℝ) = real ⟨9 / 10, 4 / 5, 7 / 10⟩ := by
    unfold real
    norm_num
  have h3 : GeneralUnder3 id (Site3 (⟨0, 0, 0⟩ : P3 ℝ) ⟨1, 1, 1⟩ [((0 : ℕ), real ⟨9 / 10, 4 / 5, 7 / 10⟩)]) := by
    rw [e1, e2]
    exact general_of_tests (l := allPoints3 ⟨0, 0, 0⟩ ⟨1, 1, 1⟩ [⟨9 / 10, 4 / 5, 7 / 10⟩]) (by decide +kernel)
      (site_real (pts := [(0, ⟨9 / 10, 4 / 5, 7 / 10⟩)])) (by decide +kernel) (by decide +kernel)
  refine ⟨popHead_ok, ?_⟩
  rw [← e3] at h3
  exact construct3_succeeds_cube (eps := 1 / 100) (key := fun _ => 0) (by norm_num) popHead_ok (by norm_num)
    (by norm_num) (by norm_num) (by
      intro e he
      rw [List.mem_singleton] at he
      subst he
      simp only [InBox3]
      norm_num) (by simp) h3 (fuel := 3126) (by simp)

/-- **Without the periodic images the cells are cut off.**  If the construction is given the unit cube itself
(`construct_from_iter_custom_extent`), there is a point in the cube such that the corner at the origin is not in its
cell, although it is the only given point: a vertex of the initial tetrahedron is closer to this corner. -/
theorem corner_not_covered : ∃ (p : P3 ℝ) (r : Construction3 ℝ ℕ), InBox3 ⟨0, 0, 0⟩ ⟨1, 1, 1⟩ p ∧
    construct3 (1 / 100) (fun _ => 0) popHead 3126 ⟨0, 0, 0⟩ ⟨1, 1, 1⟩ [(0, p)] = .done r ∧
    OpenVoronoiRegion (fun z => ∃ q ∈ [((0 : ℕ), p)], q.2 = z) p ⟨0, 0, 0⟩ ∧
    ∀ e ∈ r.indices, ∀ F, getFaces3 r.state.mesh r.position (centre3 (1 / 100) r.state.mesh r.position) e.2 = some F →
      contains3 F ⟨0, 0, 0⟩ ≠ some true := by
  have e1 : (⟨0, 0, 0⟩ : P3 ℝ) = real ⟨0, 0, 0⟩ := by
    unfold real
    norm_num
  have e2 : (⟨1, 1, 1⟩ : P3 ℝ) = real ⟨1, 1, 1⟩ := by
    unfold real
    norm_num
  have h3 : GeneralUnder3 id (Site3 (⟨0, 0, 0⟩ : P3 ℝ) ⟨1, 1, 1⟩ [((0 : ℕ), real ⟨9 / 10, 4 / 5, 7 / 10⟩)]) := by
    rw [e1, e2]
    exact general_of_tests (l := allPoints3 ⟨0, 0, 0⟩ ⟨1, 1, 1⟩ [⟨9 / 10, 4 / 5, 7 / 10⟩]) (by decide +kernel)
      (site_real (pts := [(0, ⟨9 / 10, 4 / 5, 7 / 10⟩)])) (by decide +kernel) (by decide +kernel)
  have hin : ∀ e ∈ [((0 : ℕ), real ⟨9 / 10, 4 / 5, 7 / 10⟩)], InBox3 ⟨0, 0, 0⟩ ⟨1, 1, 1⟩ e.2 := by
    intro e he
    rw [List.mem_singleton] at he
    subst he
    simp only [InBox3, real]
    norm_num
  obtain ⟨p, hpd⟩ : ∃ p : P3 ℝ, p = real ⟨9 / 10, 4 / 5, 7 / 10⟩ := ⟨_, rfl⟩
  rw [← hpd] at h3 hin
  obtain ⟨r, hr⟩ := construct3_succeeds_cube (eps := 1 / 100) (key := fun _ => 0) (by norm_num) popHead_ok (by norm_num)
    (by norm_num) (by norm_num) hin (by simp) h3 (fuel := 3126) (by simp)
  refine ⟨p, r, hin (0, p) List.mem_cons_self, hr, ?_, ?_⟩
  · rintro z ⟨q, hq, rfl⟩ hne
    rw [List.mem_singleton] at hq
    subst hq
    exact absurd rfl hne
  · intro e he F hF
    obtain ⟨-, -, -, -, hidx, -⟩ := space_of_construct3 (by norm_num) popHead_ok (by norm_num) (by norm_num)
      (by norm_num) hr
    have hp : (e.1, r.position e.2) ∈ [((0 : ℕ), p)] :=
      hidx.mem_iff.1 (List.mem_map.2 ⟨e, he, rfl⟩)
    rw [List.mem_singleton] at hp
    have hp : r.position e.2 = p := congrArg Prod.snd hp
    obtain ⟨F', hF', hcon⟩ := construct3_voronoi (eps' := 1 / 100) (by norm_num) (by norm_num) popHead_ok (by norm_num)
      (by norm_num) (by norm_num) hr e he
    rw [hF] at hF'
    cases hF'
    rw [Ne, hcon, hp, hpd]
    intro h
    have h := h _ (Or.inl rfl) (by
      unfold Predicates.Tetra.allEncompassing real P3.sub
      intro h
      have := congrArg P3.x h
      norm_num at this)
    unfold Predicates.Tetra.allEncompassing real P3.sub distSq3 at h
    norm_num at h

end Verif.Voronoi
