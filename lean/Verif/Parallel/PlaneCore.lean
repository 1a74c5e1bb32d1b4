import Verif.Voronoi.PlaneCellClosed
import Verif.Voronoi.PlaneCellGeo
import Verif.Voronoi.PlaneCellProps

/-! # Places closest to a point if only some of the other points are in the mesh, in two dimensions: lemmas -/

namespace Verif.Delaunay

open Verif.Predicates (P2 distSq2)

variable {x : ℕ → P2 ℝ}

/-- Only the positions of the points of the mesh matter. -/
theorem PlaneOk.congr {x' : ℕ → P2 ℝ} {s : State} (P : PlaneOk x s) (h : ∀ i, i < s.mesh.numPoints → x' i = x i) :
    PlaneOk x' s := by
  have V := P.valid
  have h3 := P.three
  have hpt : ∀ i T, s.mesh.tetras.get i = some T → ∀ v sl, (v, sl) ∈ T.slots → x' v = x v := by
    intro i T hT v sl hs
    exact h v (P.ok.cons.points_lt i T hT v (List.mem_map.2 ⟨_, hs, rfl⟩))
  have hfc : ∀ i T, s.mesh.tetras.get i = some T → ∀ v sl, (v, sl) ∈ T.slots → ∀ a b,
      s.mesh.faces.get sl.face = some [a, b] → x' a = x a ∧ x' b = x b := by
    intro i T hT v sl hs a b hf
    obtain ⟨pts, h1, _, h2⟩ := P.ok.cons.face_points i T hT v sl hs
    rw [hf] at h1
    obtain rfl := Option.some.inj h1
    have hlt : ∀ z ∈ [a, b], z < s.mesh.numPoints := fun z hz => P.ok.cons.points_lt i T hT z ((h2 z).1 hz).1
    exact ⟨h a (hlt a (by simp)), h b (hlt b (by simp))⟩
  have hat : ∀ {i a b c}, At s.mesh i a b c → x' a = x a ∧ x' b = x b ∧ x' c = x c := by
    intro i a b c k
    exact ⟨h _ (V.lt k), h _ (V.lt (V.cyc k)), h _ (V.lt (V.cyc' k))⟩
  have h0 : x' 0 = x 0 ∧ x' 1 = x 1 ∧ x' 2 = x 2 := ⟨h 0 (by omega), h 1 (by omega), h 2 (by omega)⟩
  obtain ⟨z0, z1, z2⟩ := h0
  refine ⟨P.ok, ?_, P.unique, ⟨V.cyc, V.uniq, V.lt, ?_, ?_, ?_, ?_, V.fin, V.nonempty⟩, ?_, P.three, ?_, ?_, ?_⟩
  · intro i T hT v sl hs a b hf
    have := P.facing i T hT v sl hs a b hf
    obtain ⟨e1, e2⟩ := hfc i T hT v sl hs a b hf
    rw [hpt i T hT v sl hs]
    cases hfl : sl.flipped <;> rw [hfl] at this
    · simpa [e1, e2] using this
    · simpa [e1, e2] using this
  · intro i a b c k
    obtain ⟨e1, e2, e3⟩ := hat k
    rw [e1, e2, e3]
    exact V.pos k
  · intro i j a b c u v w k k' hne y
    obtain ⟨e1, e2, e3⟩ := hat k
    obtain ⟨f1, f2, f3⟩ := hat k'
    rw [e1, e2, e3, f1, f2, f3]
    exact V.disjoint k k' hne y
  · intro i a b c k
    obtain ⟨e1, e2, e3⟩ := hat k
    rcases V.edge k with k1 | k1
    · exact Or.inl k1
    · right
      intro w hw
      rw [e1, e2, h w hw]
      exact k1 w hw
  · intro i a b c k w hw
    obtain ⟨e1, e2, e3⟩ := hat k
    rw [e1, e2, e3, h w hw]
    exact V.clean k w hw
  · intro i a b c k w hw
    obtain ⟨e1, e2, e3⟩ := hat k
    rw [e1, e2, e3, h w hw]
    exact P.empty k w hw
  · intro w hw
    rw [z0, z1, z2, h w hw]
    exact P.hull w hw
  · rw [z0, z1, z2]
    exact P.orient
  · intro w hw3 hw
    rw [z0, z1, z2, h w hw]
    exact P.strict w hw3 hw

theorem PlaneOk.injective {s : State} (P : PlaneOk x s) {i j : ℕ} (hi : i < s.mesh.numPoints)
    (hj : j < s.mesh.numPoints) (h : x i = x j) : i = j := by
  have V := P.valid
  obtain ⟨t, ht⟩ := Voronoi.star_nonempty P hi
  obtain ⟨b, c, k⟩ := (Voronoi.mem_star P).1 ht
  have hpos := V.pos k
  have h1 : Within (x i) (x b) (x c) (x j) := by
    rw [← h]
    refine ⟨?_, ?_, ?_⟩
    · exact ((area_self (x i) (x b)).1).ge
    · rw [area_cyc]
      exact hpos.le
    · exact ((area_self (x c) (x i)).2.1).ge
  rcases V.clean k j hj h1 with e | e | e
  · exact e.symm
  · exact absurd (by rw [h, e]) (V.ne k)
  · exact absurd (by rw [h, e]) (V.ne (V.cyc' k))

/-- A place which is not further from an inserted point than from the points which share a triangle with it is
closer to it than to every place outside of the circumcircles of the triangles at this point. -/
theorem PlaneOk.nearest_outside {s : State} (P : PlaneOk x s) {p : ℕ} (hp : 3 ≤ p) (hpn : p < s.mesh.numPoints)
    {y : P2 ℝ} (hy : ∀ i b c, At s.mesh i p b c → distSq2 y (x p) ≤ distSq2 y (x b) ∧ distSq2 y (x p) ≤ distSq2 y (x c))
    {q : P2 ℝ} (hq : ∀ i b c, At s.mesh i p b c → 0 < pw (x p) (x b) (x c) q) : distSq2 y (x p) < distSq2 y q := by
  have V := P.valid
  obtain ⟨e, he0, -, i, -, b, c, hat, hw⟩ := P.fan hp q {i | ∃ b c, At s.mesh i p b c}
    (fun i hi => hi)
    (by
      obtain ⟨t, ht⟩ := Voronoi.star_nonempty P hpn
      exact ⟨t, (Voronoi.mem_star P).1 ht⟩)
    (fun i _ b c j d _ h => ⟨c, d, h⟩) (fun i _ b c j d _ h => ⟨d, b, h⟩)
  have hpos := V.pos hat
  obtain ⟨w1, -, w3⟩ := hw
  rw [area_towards, (area_self _ _).1, mul_zero, zero_add] at w1
  rw [area_towards, (area_self _ _).2.1, mul_zero, zero_add] at w3
  have q1 := (mul_nonneg_iff_of_pos_left he0).1 w1
  have q3 := (mul_nonneg_iff_of_pos_left he0).1 w3
  obtain ⟨h1, h2⟩ := hy i b c hat
  have hpq := hq i b c hat
  obtain ⟨v1, v2, v3⟩ := pw_vertices hpos.ne'
  have key := power_diff y (Predicates.Triangle2.circumcentre ⟨x p, x b, x c⟩) (distSq2 y (x p))
    (distSq2 (x p) (Predicates.Triangle2.circumcentre ⟨x p, x b, x c⟩)) (x p) (x b) (x c) q
  change area (x b) (x c) q * (power y _ (x p) - pw (x p) (x b) (x c) (x p)) -
    area (x p) (x c) q * (power y _ (x b) - pw (x p) (x b) (x c) (x b)) +
    area (x p) (x b) q * (power y _ (x c) - pw (x p) (x b) (x c) (x c)) =
    area (x p) (x b) (x c) * (power y _ q - pw (x p) (x b) (x c) q) at key
  rw [v1, v2, v3, area_swap (x c) (x p) q] at key
  unfold power at key
  rw [Voronoi.distSq2_comm' (x p) y, Voronoi.distSq2_comm' (x b) y, Voronoi.distSq2_comm' (x c) y,
    Voronoi.distSq2_comm' q y] at key
  have g1 := mul_nonneg q3 (sub_nonneg.2 h1)
  have g2 := mul_nonneg q1 (sub_nonneg.2 h2)
  have g3 := mul_pos hpos hpq
  have g4 : 0 < area (x p) (x b) (x c) * (distSq2 y q - distSq2 y (x p)) := by linarith
  exact sub_pos.1 ((mul_pos_iff_of_pos_left hpos).1 g4)

end Verif.Delaunay

namespace Verif.Voronoi

open Verif.Delaunay
open Verif.Predicates (P2 distSq2)

variable {x : ℕ → P2 ℝ}

/-- A point shares a triangle with an inserted point exactly if there is a place at the same distance from both which is
further away from all other points. -/
theorem joined_iff_touch {s : State} (P : PlaneOk x s) {p q : ℕ} (hp : 3 ≤ p) (hpn : p < s.mesh.numPoints)
    (hqn : q < s.mesh.numPoints) (hqp : q ≠ p) : (∃ c, s.mesh.HasTriangle p q c) ↔
      ∃ y, distSq2 y (x p) = distSq2 y (x q) ∧ ∀ w, w < s.mesh.numPoints → w ≠ p → w ≠ q → distSq2 y (x p) < distSq2 y (x w) := by
  have V := P.valid
  constructor
  · rintro ⟨c, i, h⟩
    have h : At s.mesh i p q c := h
    obtain ⟨j, d, h'⟩ := P.prev hp h
    obtain ⟨o, -, a1, a2, a3⟩ := centre_at P h
    obtain ⟨o', -, b1, b2, b3⟩ := centre_at P h'
    have hcd : c ≠ d := by
      rintro rfl
      have k1 := V.pos h
      have k2 := V.pos (V.cyc h')
      rw [← area_cyc, area_swap] at k2
      rw [area_cyc] at k2
      have k3 := area_cyc (x p) (x q) (x c)
      have k4 := area_swap (x q) (x c) (x p)
      have k5 := V.pos h'
      have k6 := area_cyc (x p) (x c) (x q)
      have k7 : area (x p) (x c) (x q) = -area (x p) (x q) (x c) := by simp only [area_def]; ring
      linarith
    have hmid : ∀ z : P2 ℝ, distSq2 ⟨(o.x + o'.x) / 2, (o.y + o'.y) / 2⟩ z - distSq2 ⟨(o.x + o'.x) / 2, (o.y + o'.y) / 2⟩ (x p) =
        ((distSq2 o z - distSq2 o (x p)) + (distSq2 o' z - distSq2 o' (x p))) / 2 := by
      intro z
      unfold distSq2
      ring
    refine ⟨⟨(o.x + o'.x) / 2, (o.y + o'.y) / 2⟩, ?_, fun w hw hwp hwq => ?_⟩
    · have := hmid (x q)
      rw [a1, b2] at this
      linarith
    · have := hmid (x w)
      by_cases hwc : w = c
      · have k1 := b3 w hw hwp (fun e => hcd (hwc.symm.trans e)) hwq
        have k2 : distSq2 o (x w) = distSq2 o (x p) := by rw [hwc]; exact a2
        linarith
      · have k1 := a3 w hw hwp hwq hwc
        have k2 : distSq2 o' (x p) ≤ distSq2 o' (x w) := by
          by_cases hwd : w = d
          · rw [hwd, b1]
          · exact (b3 w hw hwp hwd hwq).le
        linarith
  · rintro ⟨y, h1, h2⟩
    by_contra hq
    have hnot : ∀ i b c, At s.mesh i p b c → b ≠ q ∧ c ≠ q := by
      intro i b c h
      refine ⟨?_, ?_⟩
      · rintro rfl
        exact hq ⟨c, i, h⟩
      · rintro rfl
        obtain ⟨j, d, k⟩ := P.next hp h
        exact hq ⟨d, j, k⟩
    have := P.nearest_outside hp hpn (y := y) (q := x q) ?_ ?_
    · exact absurd h1 this.ne
    · intro i b c h
      obtain ⟨n1, n2⟩ := hnot i b c h
      obtain ⟨m1, m2, m3⟩ := V.ne' h
      exact ⟨(h2 b (V.lt (V.cyc h)) m1.symm n1).le, (h2 c (V.lt (V.cyc' h)) (by tauto) n2).le⟩
    · intro i b c h
      obtain ⟨n1, n2⟩ := hnot i b c h
      exact P.empty h q hqn hqp n1.symm n2.symm

/-- The area of the cell is the area of the region of the places which are closest to its point. -/
theorem cell_area2 {s : State} (P : PlaneOk x s) {p : ℕ} (hp : 3 ≤ p) (hpn : p < s.mesh.numPoints) :
    ∃ l A, getPoints2 s.mesh (centre2 s.mesh x) p = some l ∧ volume2 l = some A ∧ 0 < A ∧
      MeasureTheory.volume {v : Fin 2 → ℝ | ∀ w, w < s.mesh.numPoints → distSq2 ⟨v 0, v 1⟩ (x p) ≤ distSq2 ⟨v 0, v 1⟩ (x w)} =
        ENNReal.ofReal A := by
  obtain ⟨c, g, hl, hnd, hlen, σ, hσ, hpos, hv, hreg⟩ := cell_region P hp hpn
  refine ⟨c.map g, ((sidesOf c).map fun a => triangleArea (x p) (g a.1) (g a.2)).sum, hl, ?_, ?_, ?_⟩
  · rw [volume2_is_area _ (x p), sidesOf_map, List.map_map]
    · rfl
    · rw [sidesOf_map, List.forall_mem_map, List.forall_mem_map]
      rcases hσ with rfl | rfl
      · left
        intro a ha
        have := hpos a ha
        rw [one_mul] at this
        exact this.le
      · right
        intro a ha
        have := hpos a ha
        rw [neg_one_mul, neg_pos] at this
        exact this.le
  · refine List.sum_pos _ ?_ ?_
    · intro z hz
      obtain ⟨a, ha, rfl⟩ := List.mem_map.1 hz
      have := hpos a ha
      have h0 : Predicates.orient2 ⟨x p, g a.1, g a.2⟩ ≠ 0 := fun h => by rw [h, mul_zero] at this; exact lt_irrefl _ this
      unfold triangleArea
      have := abs_pos.2 h0
      linarith
    · intro h
      have := congrArg List.length h
      unfold sidesOf at this
      rw [List.length_map, List.length_zip, List.length_rotate, Nat.min_self, List.length_nil] at this
      omega
  · rw [← volume_polygon hnd hlen hpos hv]
    congr 1
    ext v
    exact (hreg _).symm

end Verif.Voronoi
