import Verif.Voronoi.PolyhedronMeasure
import Verif.Voronoi.SpaceCell

/-! # The Voronoi cell of an inserted point in space: lemmas -/

namespace Verif.Voronoi

open Verif.Delaunay
open Verif.Predicates (P3 orient3 distSq3 cross)

section
variable {K : Type} [Field K] [LinearOrder K] [IsStrictOrderedRing K]

/-- A vector which is orthogonal to two others is a multiple of their cross product. -/
theorem cross_par {n1 n2 n3 w1 w2 w3 d1 d2 d3 : K} (hn : n1 * d1 + n2 * d2 + n3 * d3 = 0)
    (hw : w1 * d1 + w2 * d2 + w3 * d3 = 0)
    (hX : (n2 * w3 - n3 * w2) * (n2 * w3 - n3 * w2) + (n3 * w1 - n1 * w3) * (n3 * w1 - n1 * w3) +
      (n1 * w2 - n2 * w1) * (n1 * w2 - n2 * w1) ≠ 0) :
    ∃ l : K, d1 = l * (n2 * w3 - n3 * w2) ∧ d2 = l * (n3 * w1 - n1 * w3) ∧ d3 = l * (n1 * w2 - n2 * w1) := by
  refine ⟨(d1 * (n2 * w3 - n3 * w2) + d2 * (n3 * w1 - n1 * w3) + d3 * (n1 * w2 - n2 * w1)) /
    ((n2 * w3 - n3 * w2) * (n2 * w3 - n3 * w2) + (n3 * w1 - n1 * w3) * (n3 * w1 - n1 * w3) +
      (n1 * w2 - n2 * w1) * (n1 * w2 - n2 * w1)), ?_, ?_, ?_⟩
  · rw [div_mul_eq_mul_div, eq_div_iff hX]
    linear_combination (-((n3 * w1 - n1 * w3) * w3 - (n1 * w2 - n2 * w1) * w2)) * hn +
      ((n3 * w1 - n1 * w3) * n3 - (n1 * w2 - n2 * w1) * n2) * hw
  · rw [div_mul_eq_mul_div, eq_div_iff hX]
    linear_combination (-((n1 * w2 - n2 * w1) * w1 - (n2 * w3 - n3 * w2) * w3)) * hn +
      ((n1 * w2 - n2 * w1) * n1 - (n2 * w3 - n3 * w2) * n3) * hw
  · rw [div_mul_eq_mul_div, eq_div_iff hX]
    linear_combination (-((n2 * w3 - n3 * w2) * w2 - (n3 * w1 - n1 * w3) * w1)) * hn +
      ((n2 * w3 - n3 * w2) * n2 - (n3 * w1 - n1 * w3) * n1) * hw

theorem distSq3_pos {a b : P3 K} (h : a ≠ b) : 0 < distSq3 a b := by
  have h0 : 0 ≤ distSq3 a b := by
    unfold distSq3
    positivity
  refine lt_of_le_of_ne h0 fun h1 => h ?_
  unfold distSq3 at h1
  have hx := mul_self_nonneg (a.x - b.x)
  have hy := mul_self_nonneg (a.y - b.y)
  have hz := mul_self_nonneg (a.z - b.z)
  have h2 : a.x - b.x = 0 := mul_self_eq_zero.1 (by linarith)
  have h3 : a.y - b.y = 0 := mul_self_eq_zero.1 (by linarith)
  have h4 : a.z - b.z = 0 := mul_self_eq_zero.1 (by linarith)
  cases a
  cases b
  dsimp only at h2 h3 h4
  rw [sub_eq_zero] at h2 h3 h4
  rw [h2, h3, h4]

/-- The side of a Voronoi face between the centres of the tetrahedra `p, q, b, c` and `p, q, c, d`. -/
theorem side_sign3 {p q c d o o' : P3 K} (h1 : distSq3 o q = distSq3 o p) (h2 : distSq3 o c = distSq3 o p)
    (h1' : distSq3 o' q = distSq3 o' p) (h2' : distSq3 o' c = distSq3 o' p) (h3 : distSq3 o' d = distSq3 o' p)
    (h4 : distSq3 o p < distSq3 o d) (hpos : 0 < vol ![p, q, c, d]) :
    ∃ k : K, 0 < k ∧ ∀ y, vol ![p, y, o, o'] = k * ((distSq3 y c - distSq3 y p) / distSq3 c p -
      (distSq3 y q - distSq3 y p) / distSq3 q p) := by
  have hqp : q ≠ p := by
    rintro rfl
    rw [vol_def] at hpos
    simp at hpos
  have hcp : c ≠ p := by
    rintro rfl
    rw [vol_def] at hpos
    simp at hpos
  have hD := distSq3_pos hqp
  have hE := distSq3_pos hcp
  obtain ⟨p1, p2, p3⟩ := p
  obtain ⟨q1, q2, q3⟩ := q
  obtain ⟨c1, c2, c3⟩ := c
  obtain ⟨d1, d2, d3⟩ := d
  obtain ⟨o1, o2, o3⟩ := o
  obtain ⟨r1, r2, r3⟩ := o'
  clear hqp hcp
  obtain ⟨n1, rfl⟩ : ∃ n, q1 = p1 + n := ⟨q1 - p1, by ring⟩
  obtain ⟨n2, rfl⟩ : ∃ n, q2 = p2 + n := ⟨q2 - p2, by ring⟩
  obtain ⟨n3, rfl⟩ : ∃ n, q3 = p3 + n := ⟨q3 - p3, by ring⟩
  obtain ⟨w1, rfl⟩ : ∃ n, c1 = p1 + n := ⟨c1 - p1, by ring⟩
  obtain ⟨w2, rfl⟩ : ∃ n, c2 = p2 + n := ⟨c2 - p2, by ring⟩
  obtain ⟨w3, rfl⟩ : ∃ n, c3 = p3 + n := ⟨c3 - p3, by ring⟩
  obtain ⟨e1, rfl⟩ : ∃ n, d1 = p1 + n := ⟨d1 - p1, by ring⟩
  obtain ⟨e2, rfl⟩ : ∃ n, d2 = p2 + n := ⟨d2 - p2, by ring⟩
  obtain ⟨e3, rfl⟩ : ∃ n, d3 = p3 + n := ⟨d3 - p3, by ring⟩
  obtain ⟨u1, rfl⟩ : ∃ n, o1 = p1 + n := ⟨o1 - p1, by ring⟩
  obtain ⟨u2, rfl⟩ : ∃ n, o2 = p2 + n := ⟨o2 - p2, by ring⟩
  obtain ⟨u3, rfl⟩ : ∃ n, o3 = p3 + n := ⟨o3 - p3, by ring⟩
  obtain ⟨v1, rfl⟩ : ∃ n, r1 = p1 + u1 + n := ⟨r1 - p1 - u1, by ring⟩
  obtain ⟨v2, rfl⟩ : ∃ n, r2 = p2 + u2 + n := ⟨r2 - p2 - u2, by ring⟩
  obtain ⟨v3, rfl⟩ : ∃ n, r3 = p3 + u3 + n := ⟨r3 - p3 - u3, by ring⟩
  simp only [vol_def, Matrix.cons_val, add_sub_cancel_left] at hpos
  unfold distSq3 at h1 h2 h1' h2' h3 h4 hD hE
  dsimp only at h1 h2 h1' h2' h3 h4 hD hE
  simp only [add_sub_cancel_left] at h1 h2 h1' h2' h3 h4 hD hE
  have hn : n1 * v1 + n2 * v2 + n3 * v3 = 0 := by linear_combination (h1 - h1') / 2
  have hw : w1 * v1 + w2 * v2 + w3 * v3 = 0 := by linear_combination (h2 - h2') / 2
  have hun : u1 * n1 + u2 * n2 + u3 * n3 = (n1 * n1 + n2 * n2 + n3 * n3) / 2 := by linear_combination (-1 / 2) * h1
  have huw : u1 * w1 + u2 * w2 + u3 * w3 = (w1 * w1 + w2 * w2 + w3 * w3) / 2 := by linear_combination (-1 / 2) * h2
  have hX : (n2 * w3 - n3 * w2) * (n2 * w3 - n3 * w2) + (n3 * w1 - n1 * w3) * (n3 * w1 - n1 * w3) +
      (n1 * w2 - n2 * w1) * (n1 * w2 - n2 * w1) ≠ 0 := by
    intro h0
    have hx := mul_self_nonneg (n2 * w3 - n3 * w2)
    have hy := mul_self_nonneg (n3 * w1 - n1 * w3)
    have hz := mul_self_nonneg (n1 * w2 - n2 * w1)
    have g1 : n2 * w3 - n3 * w2 = 0 := mul_self_eq_zero.1 (by linarith)
    have g2 : n3 * w1 - n1 * w3 = 0 := mul_self_eq_zero.1 (by linarith)
    have g3 : n1 * w2 - n2 * w1 = 0 := mul_self_eq_zero.1 (by linarith)
    have : n1 * (w2 * e3 - w3 * e2) - n2 * (w1 * e3 - w3 * e1) + n3 * (w1 * e2 - w2 * e1) = 0 := by
      linear_combination e1 * g1 + e2 * g2 + e3 * g3
    rw [this] at hpos
    exact lt_irrefl _ hpos
  obtain ⟨l, rfl, rfl, rfl⟩ := cross_par hn hw hX
  have hl : 0 < l := by
    have : 0 < l * (n1 * (w2 * e3 - w3 * e2) - n2 * (w1 * e3 - w3 * e1) + n3 * (w1 * e2 - w2 * e1)) := by
      linarith
    exact pos_of_mul_pos_left this hpos.le
  refine ⟨l * (n1 ^ 2 + n2 ^ 2 + n3 ^ 2) * (w1 ^ 2 + w2 ^ 2 + w3 ^ 2) / 4,
    div_pos (mul_pos (mul_pos hl hD) hE) (by norm_num), fun y => ?_⟩
  obtain ⟨y1, y2, y3⟩ := y
  obtain ⟨z1, rfl⟩ : ∃ n, y1 = p1 + n := ⟨y1 - p1, by ring⟩
  obtain ⟨z2, rfl⟩ : ∃ n, y2 = p2 + n := ⟨y2 - p2, by ring⟩
  obtain ⟨z3, rfl⟩ : ∃ n, y3 = p3 + n := ⟨y3 - p3, by ring⟩
  simp only [vol_def, Matrix.cons_val, distSq3, add_sub_cancel_left]
  have hD' := hD.ne'
  have hE' := hE.ne'
  have e0 : ∀ A B s t : K, s ≠ 0 → t ≠ 0 → l * s * t / 4 * (A / t - B / s) = l / 4 * (A * s - B * t) := by
    intro A B s t hs ht
    field_simp
  rw [e0 _ _ _ _ hD' hE']
  linear_combination l * (z1 * n1 + z2 * n2 + z3 * n3) * huw - l * (z1 * w1 + z2 * w2 + z3 * w3) * hun

end

/-- The volume of the tetrahedron between `p` and a triangle in the plane in the middle between `p` and `q`. -/
theorem cross_vol {p q r a b : P3 ℝ} (hpq : q ≠ p) (hr : distSq3 r q = distSq3 r p) (ha : distSq3 a q = distSq3 a p)
    (hb : distSq3 b q = distSq3 b p) :
    length3 (cross (r.sub a) (r.sub b)) * length3 (q.sub p) = 2 * |vol ![p, r, a, b]| := by
  have hD := distSq3_pos hpq
  have e1 : (r.x - a.x) * (q.x - p.x) + (r.y - a.y) * (q.y - p.y) + (r.z - a.z) * (q.z - p.z) = 0 := by
    unfold distSq3 at *
    linear_combination (-1 / 2) * hr + 1 / 2 * ha
  have e2 : (r.x - b.x) * (q.x - p.x) + (r.y - b.y) * (q.y - p.y) + (r.z - b.z) * (q.z - p.z) = 0 := by
    unfold distSq3 at *
    linear_combination (-1 / 2) * hr + 1 / 2 * hb
  have e3 : 2 * ((r.x - p.x) * (q.x - p.x) + (r.y - p.y) * (q.y - p.y) + (r.z - p.z) * (q.z - p.z)) = distSq3 q p := by
    unfold distSq3 at *
    linear_combination (-1) * hr
  obtain ⟨C, hC⟩ : ∃ C, C = cross (r.sub a) (r.sub b) := ⟨_, rfl⟩
  have hCx : C.x = (r.y - a.y) * (r.z - b.z) - (r.z - a.z) * (r.y - b.y) := by rw [hC]; simp only [cross, P3.sub]; ring
  have hCy : C.y = (r.z - a.z) * (r.x - b.x) - (r.x - a.x) * (r.z - b.z) := by rw [hC]; simp only [cross, P3.sub]; ring
  have hCz : C.z = (r.x - a.x) * (r.y - b.y) - (r.y - a.y) * (r.x - b.x) := by rw [hC]; simp only [cross, P3.sub]; ring
  obtain ⟨s, hs⟩ : ∃ s, s = C.x * (q.x - p.x) + C.y * (q.y - p.y) + C.z * (q.z - p.z) := ⟨_, rfl⟩
  have f1 : C.x * distSq3 q p = s * (q.x - p.x) := by
    rw [hs, hCx, hCy, hCz]
    unfold distSq3
    linear_combination ((q.y - p.y) * (r.z - b.z) - (q.z - p.z) * (r.y - b.y)) * e1 -
      ((q.y - p.y) * (r.z - a.z) - (q.z - p.z) * (r.y - a.y)) * e2
  have f2 : C.y * distSq3 q p = s * (q.y - p.y) := by
    rw [hs, hCx, hCy, hCz]
    unfold distSq3
    linear_combination ((q.z - p.z) * (r.x - b.x) - (q.x - p.x) * (r.z - b.z)) * e1 -
      ((q.z - p.z) * (r.x - a.x) - (q.x - p.x) * (r.z - a.z)) * e2
  have f3 : C.z * distSq3 q p = s * (q.z - p.z) := by
    rw [hs, hCx, hCy, hCz]
    unfold distSq3
    linear_combination ((q.x - p.x) * (r.y - b.y) - (q.y - p.y) * (r.x - b.x)) * e1 -
      ((q.x - p.x) * (r.y - a.y) - (q.y - p.y) * (r.x - a.x)) * e2
  have hv : s = 2 * vol ![p, r, a, b] := by
    have : vol ![p, r, a, b] = (r.x - p.x) * C.x + (r.y - p.y) * C.y + (r.z - p.z) * C.z := by
      rw [hCx, hCy, hCz]
      simp only [vol_def, Matrix.cons_val]
      ring
    rw [this]
    have h5 : distSq3 q p * (s - 2 * ((r.x - p.x) * C.x + (r.y - p.y) * C.y + (r.z - p.z) * C.z)) = 0 := by
      linear_combination (-2 * (r.x - p.x)) * f1 - 2 * (r.y - p.y) * f2 - 2 * (r.z - p.z) * f3 - s * e3
    rcases mul_eq_zero.1 h5 with h | h
    · exact absurd h hD.ne'
    · linarith
  rw [← hC]
  have hsq : (length3 C * length3 (q.sub p)) ^ 2 = (2 * |vol ![p, r, a, b]|) ^ 2 := by
    have g1 : (length3 C * length3 (q.sub p)) ^ 2 = (length3 C * length3 C) * (length3 (q.sub p) * length3 (q.sub p)) := by
      ring
    have g2 : (2 * |vol ![p, r, a, b]|) ^ 2 = s ^ 2 := by
      rw [mul_pow, sq_abs, hv]
      ring
    rw [g1, g2, length3_sq, length3_sq]
    have g3 : (q.sub p).x * (q.sub p).x + (q.sub p).y * (q.sub p).y + (q.sub p).z * (q.sub p).z = distSq3 q p := by
      unfold distSq3 P3.sub
      ring
    rw [g3]
    linear_combination C.x * f1 + C.y * f2 + C.z * f3 - s * hs
  refine (sq_eq_sq₀ ?_ ?_).1 hsq
  · exact mul_nonneg (Real.sqrt_nonneg _) (Real.sqrt_nonneg _)
  · positivity

/-- The apex and any point of the plane of a polygon: the sum of the volumes does not depend on the point. -/
theorem fan_shift {p q m r : P3 ℝ} (hpq : q ≠ p) (hm : distSq3 m q = distSq3 m p) (hr : distSq3 r q = distSq3 r p)
    {l : List (P3 ℝ)} (hl : ∀ a ∈ l, distSq3 a q = distSq3 a p) :
    ((sidesOf l).map fun e => vol ![p, m, e.1, e.2]).sum = ((sidesOf l).map fun e => vol ![p, r, e.1, e.2]).sum := by
  have hD := distSq3_pos hpq
  obtain ⟨G, hG⟩ : ∃ G : P3 ℝ → ℝ, ∀ z, G z = 1 / 2 * ((q.x - p.x) * (z.y * (m.z - r.z) - z.z * (m.y - r.y)) +
    (q.y - p.y) * (z.z * (m.x - r.x) - z.x * (m.z - r.z)) + (q.z - p.z) * (z.x * (m.y - r.y) - z.y * (m.x - r.x))) :=
    ⟨_, fun _ => rfl⟩
  have key : ∀ e ∈ sidesOf l, vol ![p, m, e.1, e.2] = vol ![p, r, e.1, e.2] + (G e.2 - G e.1) := by
    rintro ⟨a, b⟩ he
    obtain ⟨ma, mb⟩ := mem_sidesOf he
    have ha := hl a ma
    have hb := hl b mb
    dsimp only
    have e1 : (m.x - r.x) * (q.x - p.x) + (m.y - r.y) * (q.y - p.y) + (m.z - r.z) * (q.z - p.z) = 0 := by
      unfold distSq3 at *
      linear_combination (-1 / 2) * hm + 1 / 2 * hr
    have e2 : (b.x - a.x) * (q.x - p.x) + (b.y - a.y) * (q.y - p.y) + (b.z - a.z) * (q.z - p.z) = 0 := by
      unfold distSq3 at *
      linear_combination (-1 / 2) * hb + 1 / 2 * ha
    have e3 : 2 * ((a.x - p.x) * (q.x - p.x) + (a.y - p.y) * (q.y - p.y) + (a.z - p.z) * (q.z - p.z)) = distSq3 q p := by
      unfold distSq3 at *
      linear_combination (-1) * ha
    -- the cross product of two vectors in the plane
    obtain ⟨C1, hC1⟩ : ∃ C, C = (b.y - a.y) * (m.z - r.z) - (b.z - a.z) * (m.y - r.y) := ⟨_, rfl⟩
    obtain ⟨C2, hC2⟩ : ∃ C, C = (b.z - a.z) * (m.x - r.x) - (b.x - a.x) * (m.z - r.z) := ⟨_, rfl⟩
    obtain ⟨C3, hC3⟩ : ∃ C, C = (b.x - a.x) * (m.y - r.y) - (b.y - a.y) * (m.x - r.x) := ⟨_, rfl⟩
    obtain ⟨s, hs⟩ : ∃ s, s = C1 * (q.x - p.x) + C2 * (q.y - p.y) + C3 * (q.z - p.z) := ⟨_, rfl⟩
    have f1 : C1 * distSq3 q p = s * (q.x - p.x) := by
      rw [hs, hC1, hC2, hC3]
      unfold distSq3
      linear_combination ((q.y - p.y) * (m.z - r.z) - (q.z - p.z) * (m.y - r.y)) * e2 -
        ((q.y - p.y) * (b.z - a.z) - (q.z - p.z) * (b.y - a.y)) * e1
    have f2 : C2 * distSq3 q p = s * (q.y - p.y) := by
      rw [hs, hC1, hC2, hC3]
      unfold distSq3
      linear_combination ((q.z - p.z) * (m.x - r.x) - (q.x - p.x) * (m.z - r.z)) * e2 -
        ((q.z - p.z) * (b.x - a.x) - (q.x - p.x) * (b.z - a.z)) * e1
    have f3 : C3 * distSq3 q p = s * (q.z - p.z) := by
      rw [hs, hC1, hC2, hC3]
      unfold distSq3
      linear_combination ((q.x - p.x) * (m.y - r.y) - (q.y - p.y) * (m.x - r.x)) * e2 -
        ((q.x - p.x) * (b.y - a.y) - (q.y - p.y) * (b.x - a.x)) * e1
    have g1 : vol ![p, m, a, b] - vol ![p, r, a, b] = (a.x - p.x) * C1 + (a.y - p.y) * C2 + (a.z - p.z) * C3 := by
      rw [hC1, hC2, hC3]
      simp only [vol_def, Matrix.cons_val]
      ring
    have g2 : G b - G a = 1 / 2 * s := by
      rw [hG, hG, hs, hC1, hC2, hC3]
      ring
    have h5 : distSq3 q p * ((a.x - p.x) * C1 + (a.y - p.y) * C2 + (a.z - p.z) * C3 - 1 / 2 * s) = 0 := by
      linear_combination (a.x - p.x) * f1 + (a.y - p.y) * f2 + (a.z - p.z) * f3 + 1 / 2 * s * e3
    rcases mul_eq_zero.1 h5 with h | h
    · exact absurd h hD.ne'
    · linarith
  have h1 : ((sidesOf l).map fun e => vol ![p, m, e.1, e.2]).sum =
      ((sidesOf l).map fun e => vol ![p, r, e.1, e.2] + (G e.2 - G e.1)).sum := by
    rw [List.map_congr_left key]
  have h2 := cyclicSum_telescope G l
  rw [cyclicSum_sides] at h2
  rw [h1, List.sum_map_add, h2, add_zero]

/-- The volume of the pyramid between `p` and a convex polygon in the plane in the middle between `p` and `q`. -/
theorem pyramid_pieces {p q m : P3 ℝ} (hpq : q ≠ p) (hm : distSq3 m q = distSq3 m p) {l : List (P3 ℝ)}
    (hl : ∀ a ∈ l, distSq3 a q = distSq3 a p) {σ : ℝ} (hσ : σ = 1 ∨ σ = -1)
    (h1 : ∀ e ∈ sidesOf l, 0 ≤ σ * vol ![p, m, e.1, e.2])
    (h2 : ∀ r ∈ l, ∀ e ∈ sidesOf l, 0 ≤ σ * vol ![p, r, e.1, e.2]) {A : ℝ} (hA : polygonArea l = some A) :
    A * (length3 (q.sub p) / 2) / 3 = ((sidesOf l).map fun e => |vol ![p, m, e.1, e.2]| / 6).sum := by
  have habs : ∀ r, (∀ e ∈ sidesOf l, 0 ≤ σ * vol ![p, r, e.1, e.2]) →
      ∀ e ∈ sidesOf l, |vol ![p, r, e.1, e.2]| = σ * vol ![p, r, e.1, e.2] := by
    intro r hr e he
    have := hr e he
    rcases hσ with rfl | rfl
    · rw [one_mul] at this ⊢
      exact abs_of_nonneg this
    · rw [neg_one_mul] at this ⊢
      exact abs_of_nonpos (by linarith)
  match l, hA with
  | r :: l', hA =>
    set l := r :: l' with hdef
    have hr : distSq3 r q = distSq3 r p := hl r List.mem_cons_self
    have hA' : polygonArea l = (mapWindows l fun p1 p2 => 0.5 * length3 (cross (r.sub p1) (r.sub p2))).map List.sum := rfl
    rw [hA', mapWindows_sum (fun a => by simp [length3, cross, P3.sub]), Option.some.injEq, cyclicSum_sides] at hA
    rw [← hA]
    have s1 : ((sidesOf l).map fun e => 0.5 * length3 (cross (r.sub e.1) (r.sub e.2))).sum * (length3 (q.sub p) / 2) / 3 =
        ((sidesOf l).map fun e => σ * vol ![p, r, e.1, e.2] / 6).sum := by
      rw [mul_div_assoc, ← List.sum_map_mul_right]
      congr 1
      refine List.map_congr_left fun e he => ?_
      obtain ⟨ma, mb⟩ := mem_sidesOf he
      rw [← habs r (h2 r List.mem_cons_self) e he]
      have := cross_vol hpq hr (hl _ ma) (hl _ mb)
      linarith
    have s2 : ((sidesOf l).map fun e => |vol ![p, m, e.1, e.2]| / 6).sum =
        ((sidesOf l).map fun e => σ * vol ![p, m, e.1, e.2] / 6).sum := by
      congr 1
      refine List.map_congr_left fun e he => ?_
      rw [habs m h1 e he]
    have s3 : ∀ y, ((sidesOf l).map fun e => σ * vol ![p, y, e.1, e.2] / 6).sum =
        ((sidesOf l).map fun e => vol ![p, y, e.1, e.2]).sum * (σ / 6) := by
      intro y
      rw [← List.sum_map_mul_right]
      congr 1
      refine List.map_congr_left fun e _ => ?_
      ring
    rw [s1, s2, s3, s3, fan_shift hpq hm hr hl]

/-- Two descriptions of the same convex polygon in the plane in the middle between two points have the same area. -/
theorem area_same {p q : P3 ℝ} (hpq : q ≠ p) {l l' : List (P3 ℝ)} (hl : ∀ a ∈ l, distSq3 a q = distSq3 a p) {σ : ℝ}
    (hσ : σ = 1 ∨ σ = -1) (h2 : ∀ r ∈ l, ∀ e ∈ sidesOf l, 0 ≤ σ * vol ![p, r, e.1, e.2]) (h : SamePolygon l l')
    {A A' : ℝ} (hA : polygonArea l = some A) (hA' : polygonArea l' = some A') : A' = A := by
  have hlen : 0 < length3 (q.sub p) := by
    refine length3_pos fun h0 => ?_
    have := length3_sq (q.sub p)
    rw [h0, mul_zero] at this
    have h1 := distSq3_pos hpq
    have h3 : distSq3 q p = (q.sub p).x * (q.sub p).x + (q.sub p).y * (q.sub p).y + (q.sub p).z * (q.sub p).z := by
      unfold distSq3 P3.sub
      ring
    linarith
  obtain ⟨r, hr⟩ : ∃ r, r ∈ l := by
    match l, hA with
    | r :: _, _ => exact ⟨r, List.mem_cons_self⟩
  have hmem : ∀ a, a ∈ l' → a ∈ l := by
    intro a ha
    rcases h with h | h
    · exact (h.perm.mem_iff).1 ha
    · exact List.mem_reverse.1 ((h.perm.mem_iff).1 ha)
  have e1 := pyramid_pieces hpq (hl r hr) hl hσ (h2 r hr) h2 hA
  obtain ⟨σ', hσ', k, e3⟩ : ∃ σ' : ℝ, (σ' = 1 ∨ σ' = -1) ∧
      (∀ y ∈ l, ∀ e ∈ sidesOf l', 0 ≤ σ' * vol ![p, y, e.1, e.2]) ∧
      ((sidesOf l').map fun e => |vol ![p, r, e.1, e.2]| / 6).sum =
        ((sidesOf l).map fun e => |vol ![p, r, e.1, e.2]| / 6).sum := by
    have hswap : ∀ y a b : P3 ℝ, vol ![p, y, b, a] = -vol ![p, y, a, b] := by
      intro y a b
      simp only [vol_def, Matrix.cons_val]
      ring
    rcases h with ⟨k, hk⟩ | ⟨k, hk⟩
    · have hp : (sidesOf l).Perm (sidesOf l') := by
        rw [← hk, sidesOf_rotate]
        exact List.rotate_perm _ _
      exact ⟨σ, hσ, fun y hy e he => h2 y hy e (hp.mem_iff.2 he), (hp.map _).sum_eq.symm⟩
    · refine ⟨-σ, ?_, fun y hy e he => ?_, ?_⟩
      · rcases hσ with rfl | rfl
        · exact Or.inr rfl
        · exact Or.inl (neg_neg 1)
      · obtain ⟨a, b⟩ := e
        rw [← mem_sidesOf_rotate (k := k), hk, mem_sidesOf_reverse] at he
        have := h2 y hy _ he
        dsimp only at this ⊢
        rw [hswap, neg_mul_neg]
        exact this
      · have := cyclicSum_rotate (fun a b : P3 ℝ => |vol ![p, r, a, b]| / 6) l' k
        rw [hk, cyclicSum_reverse, cyclicSum_sides, cyclicSum_sides] at this
        rw [← this]
        congr 1
        refine List.map_congr_left fun e _ => ?_
        rw [hswap, abs_neg]
  have e2 := pyramid_pieces hpq (hl r hr) (fun a ha => hl a (hmem a ha)) hσ' (fun e he => k r hr e he)
    (fun y hy e he => k y (hmem y hy) e he) hA'
  rw [e3, ← e1] at e2
  have : A' * length3 (q.sub p) = A * length3 (q.sub p) := by linarith
  exact mul_right_cancel₀ hlen.ne' this

section
variable {K : Type} [Field K] [LinearOrder K] [IsStrictOrderedRing K] {x : ℕ → P3 K}

/-- The arrangement of the tetrahedra around an edge at an inserted point, in one of the two directions. -/
theorem edge_ring {s : State} (P : SpaceOk x s) {p q : ℕ} (hp : 4 ≤ p) (hq : q ∈ connectedPoints s.mesh p) :
    ∃ c : List ℕ, (arranged (tetrasWithBoth s.mesh p q) fun t u => (commonFace s.mesh t u).isSome) = some (sidesOf c) ∧
      c.Perm (tetrasWithBoth s.mesh p q) ∧ 3 ≤ c.length ∧
      ((∀ t u, (t, u) ∈ sidesOf c ↔ Follows3 x s.mesh p q t u) ∨
        ∀ t u, (t, u) ∈ sidesOf c ↔ Follows3 x s.mesh p q u t) := by
  obtain ⟨c, hc, h3, hside⟩ := edge_cycle P hp hq
  have hpq : p ≠ q := Ne.symm ((mem_connectedPoints P.ok.cons).1 hq).1
  have hn := tetrasWithBoth_nodup P.ok.cons p q
  have hcn : c.Nodup := hc.nodup_iff.2 hn
  have hlen : 3 ≤ (tetrasWithBoth s.mesh p q).length := by rw [← hc.length_eq]; exact h3
  obtain ⟨l, hl⟩ := arranged_of_cycle (related := fun t u => (commonFace s.mesh t u).isSome) hn (by omega) hc (by
    intro t ht u hu htu
    rw [hside, hside]
    exact related_iff3 P hpq ht hu htu)
  obtain ⟨d, rfl, hd, hrel⟩ := (arranged_spec hl).2 (by omega)
  have hdn : d.Nodup := hd.nodup_iff.2 hn
  refine ⟨d, hl, hd, by rw [hd.length_eq]; exact hlen, ?_⟩
  have R : ∀ t u, t ∈ tetrasWithBoth s.mesh p q → u ∈ tetrasWithBoth s.mesh p q → t ≠ u →
      (commonFace s.mesh t u).isSome = true → Adj s.mesh [p, q] t u := by
    intro t u ht hu htu hr
    obtain ⟨T, hT, hpT, hqT⟩ := (mem_tetrasWithBoth P.ok.cons).1 ht
    obtain ⟨U, hU, hpU, hqU⟩ := (mem_tetrasWithBoth P.ok.cons).1 hu
    exact ⟨htu, T, U, hT, hU, by simp [hpT, hqT], by simp [hpU, hqU], hr⟩
  have hsame : SamePolygon c d := by
    refine cycles_same (adj_deg2 P.ok.cons (distinct_of_space P) (K := [p, q]) (by simp [hpq]) rfl)
      (fun a b h => h.symm P.ok.cons (distinct_of_space P)) hcn (hd.trans hc.symm) ?_ ?_
    · intro e he
      obtain ⟨m1, m2⟩ := mem_sidesOf he
      have hne := side_ne hcn (by omega) he
      exact R _ _ (hc.mem_iff.1 m1) (hc.mem_iff.1 m2) hne
        ((related_iff3 P hpq (hc.mem_iff.1 m1) (hc.mem_iff.1 m2) hne).2 (Or.inl ((hside _ _).1 he)))
    · intro e he
      obtain ⟨m1, m2⟩ := mem_sidesOf he
      have hne := side_ne hdn (by rw [hd.length_eq]; omega) he
      exact R _ _ (hd.mem_iff.1 m1) (hd.mem_iff.1 m2) hne (hrel e he)
  rcases hsame with ⟨k, hk⟩ | ⟨k, hk⟩
  · left
    intro t u
    rw [← hside, ← hk, mem_sidesOf_rotate]
  · right
    intro t u
    rw [← hside, ← mem_sidesOf_reverse (l := c), ← hk, mem_sidesOf_rotate]

/-- Three different tetrahedra at an edge have no other common vertex. -/
theorem no_three {s : State} (P : SpaceOk x s) {p q w t1 t2 t3 : ℕ} (hpq : p ≠ q) (hwp : w ≠ p) (hwq : w ≠ q)
    (h12 : t1 ≠ t2) (h13 : t1 ≠ t3) (h23 : t2 ≠ t3) (hq : ∀ t ∈ [t1, t2, t3], t ∈ tetrasWithBoth s.mesh p q)
    (hw : ∀ t ∈ [t1, t2, t3], t ∈ tetrasWithBoth s.mesh p w) : False := by
  have key : ∀ t ∈ [t1, t2, t3], (∃ c, Wedge x s.mesh t p q w c) ∨ ∃ b, Wedge x s.mesh t p q b w := by
    intro t ht
    obtain ⟨b, c, h⟩ := (mem_edge P hpq).1 (hq t ht)
    obtain ⟨T, hT, _, hwT⟩ := (mem_tetrasWithBoth P.ok.cons).1 (hw t ht)
    rcases (h.mem P.ok.cons hT w).1 hwT with e | e | e | e
    · exact absurd e hwp
    · exact absurd e hwq
    · subst e
      exact Or.inl ⟨_, h⟩
    · subst e
      exact Or.inr ⟨_, h⟩
  rcases key t1 (by simp) with ⟨c1, k1⟩ | ⟨c1, k1⟩ <;> rcases key t2 (by simp) with ⟨c2, k2⟩ | ⟨c2, k2⟩ <;>
    rcases key t3 (by simp) with ⟨c3, k3⟩ | ⟨c3, k3⟩ <;>
    first
    | exact h12 (k1.same_fst P k2)
    | exact h13 (k1.same_fst P k3)
    | exact h23 (k2.same_fst P k3)
    | exact h12 (k1.same_snd P k2)
    | exact h13 (k1.same_snd P k3)
    | exact h23 (k2.same_snd P k3)

end

end Verif.Voronoi
