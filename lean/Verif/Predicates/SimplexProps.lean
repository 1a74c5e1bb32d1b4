import Verif.Predicates.CircleProps

/-!
# C49: point-in-simplex tests, C50: the initial simplex

A point `p` has barycentric coordinates `w` in a simplex if the weights sum to one and `p` is the
weighted sum of the vertices.
-/

namespace Verif.Predicates

variable {K : Type} [Field K] [LinearOrder K] [IsStrictOrderedRing K]

/-- `p` has barycentric coordinates `w1, w2, w3` in a triangle in the plane. -/
def Bary2 (t : Triangle2 K) (p : P2 K) (w1 w2 w3 : K) : Prop :=
  w1 + w2 + w3 = 1 ∧ p.x = w1 * t.p1.x + w2 * t.p2.x + w3 * t.p3.x ∧
    p.y = w1 * t.p1.y + w2 * t.p2.y + w3 * t.p3.y

/-- `p` has barycentric coordinates `w1, w2, w3, w4` in a tetrahedron. -/
def Bary3 (t : Tetra K) (p : P3 K) (w1 w2 w3 w4 : K) : Prop :=
  w1 + w2 + w3 + w4 = 1 ∧
    p.x = w1 * t.p1.x + w2 * t.p2.x + w3 * t.p3.x + w4 * t.p4.x ∧
    p.y = w1 * t.p1.y + w2 * t.p2.y + w3 * t.p3.y + w4 * t.p4.y ∧
    p.z = w1 * t.p1.z + w2 * t.p2.z + w3 * t.p3.z + w4 * t.p4.z

omit [LinearOrder K] [IsStrictOrderedRing K] in
/-- Every point has barycentric coordinates in a non-degenerate triangle. -/
theorem bary2_exists (t : Triangle2 K) (hne : orient2 t ≠ 0) (p : P2 K) :
    ∃ w1 w2 w3, Bary2 t p w1 w2 w3 := by
  refine ⟨1 - orient2 ⟨t.p1, p, t.p3⟩ / orient2 t - orient2 ⟨t.p1, t.p2, p⟩ / orient2 t,
    orient2 ⟨t.p1, p, t.p3⟩ / orient2 t, orient2 ⟨t.p1, t.p2, p⟩ / orient2 t, by ring, ?_, ?_⟩
  all_goals
    field_simp
    unfold orient2
    ring

omit [LinearOrder K] [IsStrictOrderedRing K] in
/-- Every point has barycentric coordinates in a non-degenerate tetrahedron. -/
theorem bary3_exists (t : Tetra K) (hne : orient3 t ≠ 0) (p : P3 K) :
    ∃ w1 w2 w3 w4, Bary3 t p w1 w2 w3 w4 := by
  refine ⟨1 - orient3 ⟨t.p1, p, t.p3, t.p4⟩ / orient3 t - orient3 ⟨t.p1, t.p2, p, t.p4⟩ / orient3 t
      - orient3 ⟨t.p1, t.p2, t.p3, p⟩ / orient3 t,
    orient3 ⟨t.p1, p, t.p3, t.p4⟩ / orient3 t, orient3 ⟨t.p1, t.p2, p, t.p4⟩ / orient3 t,
    orient3 ⟨t.p1, t.p2, t.p3, p⟩ / orient3 t, by ring, ?_, ?_, ?_⟩
  all_goals
    field_simp
    simp only [orient3_eq]
    ring

private theorem canonical_eq (t : Triangle2 K) (hne : orient2 t ≠ 0) (p : P2 K) (w1 w2 w3 : K)
    (hw : Bary2 t p w1 w2 w3) : t.canonical p = some (w2, w3) := by
  obtain ⟨hs, hx, hy⟩ := hw
  unfold Triangle2.canonical
  simp only [P2.sub]
  obtain ⟨x, hsol⟩ := solve_system_total (m := 2)
    ![![t.p2.x - t.p1.x, t.p3.x - t.p1.x, p.x - t.p1.x],
      ![t.p2.y - t.p1.y, t.p3.y - t.p1.y, p.y - t.p1.y]] (by
      rw [Matrix.det_fin_two]
      simp only [Matrix.of_apply]
      intro h
      apply hne
      unfold orient2
      have h' : (t.p2.x - t.p1.x) * (t.p3.y - t.p1.y) - (t.p3.x - t.p1.x) * (t.p2.y - t.p1.y) = 0 := h
      linear_combination h')
  rw [hsol]
  have hsound := solve_system_sound _ x hsol
  have e0 := hsound 0
  have e1 := hsound 1
  rw [Fin.sum_univ_two] at e0 e1
  have e0' : (t.p2.x - t.p1.x) * x 0 + (t.p3.x - t.p1.x) * x 1 = p.x - t.p1.x := e0
  have e1' : (t.p2.y - t.p1.y) * x 0 + (t.p3.y - t.p1.y) * x 1 = p.y - t.p1.y := e1
  have hw1 : w1 = 1 - w2 - w3 := by linear_combination hs
  subst hw1
  have f0 : orient2 t * (x 0 - w2) = 0 := by
    unfold orient2
    linear_combination (t.p3.y - t.p1.y) * (e0' + hx) - (t.p3.x - t.p1.x) * (e1' + hy)
  have f1 : orient2 t * (x 1 - w3) = 0 := by
    unfold orient2
    linear_combination (t.p2.x - t.p1.x) * (e1' + hy) - (t.p2.y - t.p1.y) * (e0' + hx)
  have g0 : x 0 = w2 := by
    have := (mul_eq_zero.1 f0).resolve_left hne
    linear_combination this
  have g1 : x 1 = w3 := by
    have := (mul_eq_zero.1 f1).resolve_left hne
    linear_combination this
  rw [← g0, ← g1]
  rfl

omit [IsStrictOrderedRing K] in
private theorem sign_cases (v : K) : (v < 0 ∧ Sign.of v = .negative) ∨ (v = 0 ∧ Sign.of v = .zero) ∨
    (0 < v ∧ Sign.of v = .positive) := by
  unfold Sign.of
  rcases lt_trichotomy v 0 with h | h | h
  · left; exact ⟨h, if_pos h⟩
  · right; left; subst h; simp
  · right; right; exact ⟨h, by rw [if_neg h.not_gt, if_neg h.ne']⟩

omit [IsStrictOrderedRing K] in
private theorem sign_facts (v : K) :
    ((v < 0 ∧ ¬ 0 < v ∧ ¬ v = 0 ∧ ¬ 0 ≤ v) ∧ Sign.of v = .negative) ∨
    ((¬ v < 0 ∧ ¬ 0 < v ∧ v = 0 ∧ 0 ≤ v) ∧ Sign.of v = .zero) ∨
    ((¬ v < 0 ∧ 0 < v ∧ ¬ v = 0 ∧ 0 ≤ v) ∧ Sign.of v = .positive) := by
  rcases sign_cases v with ⟨h, s⟩ | ⟨h, s⟩ | ⟨h, s⟩
  · exact Or.inl ⟨⟨h, h.not_gt, h.ne, h.not_ge⟩, s⟩
  · exact Or.inr (Or.inl ⟨⟨h.not_lt, h.not_gt, h, h.ge⟩, s⟩)
  · exact Or.inr (Or.inr ⟨⟨h.not_gt, h, h.ne', h.le⟩, s⟩)

/-- **C49** (plane): the test is true iff all barycentric coordinates are positive, false iff one is
negative, and panics iff none is negative but one is zero (the point is on the boundary). -/
theorem triangle_contains_correct (t : Triangle2 K) (hne : orient2 t ≠ 0) (p : P2 K) (w1 w2 w3 : K)
    (hw : Bary2 t p w1 w2 w3) :
    (t.contains p = some true ↔ 0 < w1 ∧ 0 < w2 ∧ 0 < w3) ∧
    (t.contains p = some false ↔ w1 < 0 ∨ w2 < 0 ∨ w3 < 0) ∧
    (t.contains p = none ↔ (0 ≤ w1 ∧ 0 ≤ w2 ∧ 0 ≤ w3) ∧ (w1 = 0 ∨ w2 = 0 ∨ w3 = 0)) := by
  have hw1 : 1 - (w2 + w3) = w1 := by linear_combination -hw.1
  have key : t.contains p =
      if [Sign.of w2, Sign.of w3, Sign.of w1].any (fun sg => sg = .negative) then some false
      else if [Sign.of w2, Sign.of w3, Sign.of w1].any (fun sg => sg = .zero) then none
      else some true := by
    unfold Triangle2.contains
    rw [canonical_eq t hne p w1 w2 w3 hw, ← hw1]
    rfl
  rw [key]
  rcases sign_facts w1 with ⟨h1, s1⟩ | ⟨h1, s1⟩ | ⟨h1, s1⟩ <;>
  rcases sign_facts w2 with ⟨h2, s2⟩ | ⟨h2, s2⟩ | ⟨h2, s2⟩ <;>
  rcases sign_facts w3 with ⟨h3, s3⟩ | ⟨h3, s3⟩ | ⟨h3, s3⟩ <;>
  rw [s1, s2, s3] <;> simp [h1, h2, h3]

/-- A point inside, one outside and one on an edge, with their coordinates. -/
example : let t : Triangle2 ℚ := ⟨⟨0, 0⟩, ⟨4, 0⟩, ⟨0, 4⟩⟩
    0 < orient2 t ∧ Bary2 t ⟨1, 1⟩ (1 / 2) (1 / 4) (1 / 4) ∧ t.contains ⟨1, 1⟩ = some true
    ∧ Bary2 t ⟨5, 1⟩ (-1 / 2) (5 / 4) (1 / 4) ∧ t.contains ⟨5, 1⟩ = some false
    ∧ Bary2 t ⟨2, 2⟩ 0 (1 / 2) (1 / 2) ∧ t.contains ⟨2, 2⟩ = none := by
  unfold Bary2
  decide +kernel

/-! ## Tetrahedra -/

omit [IsStrictOrderedRing K] in
private theorem sign_mul_of [IsStrictOrderedRing K] (u v : K) : (Sign.of u).mul (Sign.of v) = Sign.of (u * v) := by
  rcases sign_cases u with ⟨h1, s1⟩ | ⟨h1, s1⟩ | ⟨h1, s1⟩ <;>
  rcases sign_cases v with ⟨h2, s2⟩ | ⟨h2, s2⟩ | ⟨h2, s2⟩ <;> rw [s1, s2]
  · rw [Sign.of, if_neg (mul_pos_of_neg_of_neg h1 h2).not_gt, if_neg (mul_pos_of_neg_of_neg h1 h2).ne']; rfl
  · simp [Sign.of, h2, Sign.mul]
  · rw [Sign.of, if_pos (mul_neg_of_neg_of_pos h1 h2)]; rfl
  · simp [Sign.of, h1, Sign.mul]
  · simp [Sign.of, h1, Sign.mul]
  · simp [Sign.of, h1, Sign.mul]
  · rw [Sign.of, if_pos (mul_neg_of_pos_of_neg h1 h2)]; rfl
  · simp [Sign.of, h2, Sign.mul]
  · rw [Sign.of, if_neg (mul_pos h1 h2).not_gt, if_neg (mul_pos h1 h2).ne']; rfl

/-- What the side test says if the signed volume on the side of `p1` is `w` times that of `p2`. -/
private theorem onSameSide_weight (p q pa pb pc : P3 K) (w : K)
    (hn : dot (q.sub pa) (cross (pb.sub pa) (pc.sub pa)) ≠ 0)
    (hw : dot (p.sub pa) (cross (pb.sub pa) (pc.sub pa))
      = w * dot (q.sub pa) (cross (pb.sub pa) (pc.sub pa))) :
    onSameSide p q pa pb pc = (Sign.of w).checkedPositive := by
  unfold onSameSide
  dsimp only
  rw [sign_mul_of, hw]
  generalize dot (q.sub pa) (cross (pb.sub pa) (pc.sub pa)) = d at hn
  have hd : 0 < d * d := mul_self_pos.2 hn
  have e : w * d * d = w * (d * d) := by ring
  rw [e]
  congr 1
  rcases sign_cases w with ⟨h1, s1⟩ | ⟨h1, s1⟩ | ⟨h1, s1⟩
  · rw [s1, Sign.of, if_pos (mul_neg_of_neg_of_pos h1 hd)]
  · rw [s1, h1, zero_mul]
    simp [Sign.of]
  · rw [s1, Sign.of, if_neg (mul_pos h1 hd).not_gt, if_neg (mul_pos h1 hd).ne']

/-- **C49** (space): the test is true iff all barycentric coordinates are positive; it is false only if
one is negative; it panics only if one is zero. -/
theorem tetra_contains_correct (t : Tetra K) (hne : orient3 t ≠ 0) (p : P3 K) (w1 w2 w3 w4 : K)
    (hw : Bary3 t p w1 w2 w3 w4) :
    (t.contains p = some true ↔ 0 < w1 ∧ 0 < w2 ∧ 0 < w3 ∧ 0 < w4) ∧
    (t.contains p = some false → w1 < 0 ∨ w2 < 0 ∨ w3 < 0 ∨ w4 < 0) ∧
    (t.contains p = none → w1 = 0 ∨ w2 = 0 ∨ w3 = 0 ∨ w4 = 0) := by
  obtain ⟨hs, hx, hy, hz⟩ := hw
  have hw1 : w1 = 1 - w2 - w3 - w4 := by linear_combination hs
  have e1 : onSameSide p t.p1 t.p2 t.p3 t.p4 = (Sign.of w1).checkedPositive := by
    apply onSameSide_weight
    · intro h
      apply hne
      rw [orient3_eq]
      simp only [dot, cross, P3.sub] at h
      linear_combination -h
    · simp only [dot, cross, P3.sub]
      rw [hx, hy, hz, hw1]
      ring
  have e2 : onSameSide p t.p2 t.p1 t.p3 t.p4 = (Sign.of w2).checkedPositive := by
    apply onSameSide_weight
    · intro h
      apply hne
      rw [orient3_eq]
      simp only [dot, cross, P3.sub] at h
      linear_combination h
    · simp only [dot, cross, P3.sub]
      rw [hx, hy, hz, hw1]
      ring
  have e3 : onSameSide p t.p3 t.p1 t.p2 t.p4 = (Sign.of w3).checkedPositive := by
    apply onSameSide_weight
    · intro h
      apply hne
      rw [orient3_eq]
      simp only [dot, cross, P3.sub] at h
      linear_combination -h
    · simp only [dot, cross, P3.sub]
      rw [hx, hy, hz, hw1]
      ring
  have e4 : onSameSide p t.p4 t.p1 t.p2 t.p3 = (Sign.of w4).checkedPositive := by
    apply onSameSide_weight
    · intro h
      apply hne
      rw [orient3_eq]
      simp only [dot, cross, P3.sub] at h
      linear_combination h
    · simp only [dot, cross, P3.sub]
      rw [hx, hy, hz, hw1]
      ring
  unfold Tetra.contains
  rw [e1, e2, e3, e4]
  rcases sign_facts w1 with ⟨h1, s1⟩ | ⟨h1, s1⟩ | ⟨h1, s1⟩ <;>
  rcases sign_facts w2 with ⟨h2, s2⟩ | ⟨h2, s2⟩ | ⟨h2, s2⟩ <;>
  rcases sign_facts w3 with ⟨h3, s3⟩ | ⟨h3, s3⟩ | ⟨h3, s3⟩ <;>
  rcases sign_facts w4 with ⟨h4, s4⟩ | ⟨h4, s4⟩ | ⟨h4, s4⟩ <;>
  rw [s1, s2, s3, s4] <;>
  simp [andThen, Sign.checkedPositive, h1, h2, h3, h4]

/-- **C49** (space): a point in general position is reported inside or outside without panic. -/
theorem tetra_contains_total (t : Tetra K) (hne : orient3 t ≠ 0) (p : P3 K) (w1 w2 w3 w4 : K)
    (hw : Bary3 t p w1 w2 w3 w4) (h1 : w1 ≠ 0) (h2 : w2 ≠ 0) (h3 : w3 ≠ 0) (h4 : w4 ≠ 0) :
    t.contains p = some (decide (0 < w1 ∧ 0 < w2 ∧ 0 < w3 ∧ 0 < w4)) := by
  obtain ⟨c1, c2, c3⟩ := tetra_contains_correct t hne p w1 w2 w3 w4 hw
  cases h : t.contains p with
  | none => rcases c3 h with h | h | h | h <;> contradiction
  | some b =>
    cases b with
    | true => rw [decide_eq_true (c1.1 h)]
    | false =>
      rw [decide_eq_false]
      intro hp
      rw [c1.2 hp] at h
      cases h

/-- A point inside, one outside and one on a face, with their coordinates. -/
example : let t : Tetra ℚ := ⟨⟨0, 0, 0⟩, ⟨4, 0, 0⟩, ⟨0, 4, 0⟩, ⟨0, 0, 4⟩⟩
    Bary3 t ⟨1, 1, 1⟩ (1 / 4) (1 / 4) (1 / 4) (1 / 4) ∧ t.contains ⟨1, 1, 1⟩ = some true
    ∧ Bary3 t ⟨4, 1, 1⟩ (-1 / 2) 1 (1 / 4) (1 / 4) ∧ t.contains ⟨4, 1, 1⟩ = some false
    ∧ Bary3 t ⟨1, 1, 0⟩ (1 / 2) (1 / 4) (1 / 4) 0 ∧ t.contains ⟨1, 1, 0⟩ = none := by
  unfold Bary3
  decide +kernel
example : orient3 (K := ℚ) ⟨⟨0, 0, 0⟩, ⟨4, 0, 0⟩, ⟨0, 4, 0⟩, ⟨0, 0, 4⟩⟩ ≠ 0 := by
  rw [orient3_eq]
  decide +kernel

/-! ## Line-triangle intersections -/

/-- The coordinate that belongs to an edge: the weight of the vertex that is not on it (edge one is
`p2 p3`, edge two is `p3 p1`, edge three is `p1 p2`). -/
def opposite (w1 w2 w3 : K) : Edge → K
  | .one => w1
  | .two => w2
  | .three => w3

/-- The point `q1 + τ (q2 - q1)` of the line has barycentric coordinates `w1, w2, w3` in the triangle. -/
def LineBary (t : Triangle3 K) (q1 q2 : P3 K) (τ w1 w2 w3 : K) : Prop :=
  w1 + w2 + w3 = 1 ∧
    q1.x + τ * (q2.x - q1.x) = w1 * t.p1.x + w2 * t.p2.x + w3 * t.p3.x ∧
    q1.y + τ * (q2.y - q1.y) = w1 * t.p1.y + w2 * t.p2.y + w3 * t.p3.y ∧
    q1.z + τ * (q2.z - q1.z) = w1 * t.p1.z + w2 * t.p2.z + w3 * t.p3.z

/-- **C49**: for a line that is not parallel to the triangle, the classification says `inside` iff the
intersection point is inside the triangle, names one edge iff the point is beyond exactly that edge,
names two edges iff it is beyond exactly these two, and panics iff the point is on the line through an
edge.  It never sees three negative coordinates. -/
theorem line_intersection_correct (t : Triangle3 K) (q1 q2 : P3 K) (τ w1 w2 w3 : K)
    (hnp : orient3 ⟨⟨0, 0, 0⟩, t.p2.sub t.p1, t.p3.sub t.p1, q2.sub q1⟩ ≠ 0)
    (hw : LineBary t q1 q2 τ w1 w2 w3) :
    (t.lineIntersectionType q1 q2 = some .inside ↔ ∀ e, 0 < opposite w1 w2 w3 e) ∧
    (∀ e, t.lineIntersectionType q1 q2 = some (.outsideOneEdge e) ↔
      opposite w1 w2 w3 e < 0 ∧ ∀ f, f ≠ e → 0 < opposite w1 w2 w3 f) ∧
    (∀ e f, t.lineIntersectionType q1 q2 = some (.outsideTwoEdges e f) →
      e ≠ f ∧ opposite w1 w2 w3 e < 0 ∧ opposite w1 w2 w3 f < 0 ∧
        ∀ g, g ≠ e → g ≠ f → 0 < opposite w1 w2 w3 g) ∧
    (t.lineIntersectionType q1 q2 = none ↔ ∃ e, opposite w1 w2 w3 e = 0) := by
  obtain ⟨hs, hx, hy, hz⟩ := hw
  have hw1 : w1 = 1 - w2 - w3 := by linear_combination hs
  rw [orient3_eq] at hnp
  simp only [P3.sub, sub_zero] at hnp
  have heq : t.lineIntersectionType q1 q2 = intersectionType w2 w3 := by
    unfold Triangle3.lineIntersectionType
    simp only [P3.sub]
    obtain ⟨x, hsol⟩ := solve_system_total (m := 3)
      ![![t.p2.x - t.p1.x, t.p3.x - t.p1.x, -(q2.x - q1.x), q1.x - t.p1.x],
        ![t.p2.y - t.p1.y, t.p3.y - t.p1.y, -(q2.y - q1.y), q1.y - t.p1.y],
        ![t.p2.z - t.p1.z, t.p3.z - t.p1.z, -(q2.z - q1.z), q1.z - t.p1.z]] (by
        rw [Matrix.det_fin_three]
        simp only [Matrix.of_apply]
        intro h
        apply hnp
        have h' : (t.p2.x - t.p1.x) * (t.p3.y - t.p1.y) * -(q2.z - q1.z)
          - (t.p2.x - t.p1.x) * -(q2.y - q1.y) * (t.p3.z - t.p1.z)
          - (t.p3.x - t.p1.x) * (t.p2.y - t.p1.y) * -(q2.z - q1.z)
          + (t.p3.x - t.p1.x) * -(q2.y - q1.y) * (t.p2.z - t.p1.z)
          + -(q2.x - q1.x) * (t.p2.y - t.p1.y) * (t.p3.z - t.p1.z)
          - -(q2.x - q1.x) * (t.p3.y - t.p1.y) * (t.p2.z - t.p1.z) = 0 := h
        linear_combination -h')
    rw [hsol]
    have hsound := solve_system_sound _ x hsol
    have e0 := hsound 0
    have e1 := hsound 1
    have e2 := hsound 2
    rw [Fin.sum_univ_three] at e0 e1 e2
    have e0' : (t.p2.x - t.p1.x) * x 0 + (t.p3.x - t.p1.x) * x 1 + -(q2.x - q1.x) * x 2
      = q1.x - t.p1.x := e0
    have e1' : (t.p2.y - t.p1.y) * x 0 + (t.p3.y - t.p1.y) * x 1 + -(q2.y - q1.y) * x 2
      = q1.y - t.p1.y := e1
    have e2' : (t.p2.z - t.p1.z) * x 0 + (t.p3.z - t.p1.z) * x 1 + -(q2.z - q1.z) * x 2
      = q1.z - t.p1.z := e2
    subst hw1
    -- differences of the two solutions
    have d0 : (t.p2.x - t.p1.x) * (x 0 - w2) + (t.p3.x - t.p1.x) * (x 1 - w3)
        - (q2.x - q1.x) * (x 2 - τ) = 0 := by linear_combination e0' + hx
    have d1 : (t.p2.y - t.p1.y) * (x 0 - w2) + (t.p3.y - t.p1.y) * (x 1 - w3)
        - (q2.y - q1.y) * (x 2 - τ) = 0 := by linear_combination e1' + hy
    have d2 : (t.p2.z - t.p1.z) * (x 0 - w2) + (t.p3.z - t.p1.z) * (x 1 - w3)
        - (q2.z - q1.z) * (x 2 - τ) = 0 := by linear_combination e2' + hz
    have g0 : x 0 = w2 := by
      have := (mul_eq_zero.1 (show _ * (x 0 - w2) = 0 by
        linear_combination ((t.p3.y - t.p1.y) * (q2.z - q1.z) - (t.p3.z - t.p1.z) * (q2.y - q1.y)) * d0
          - ((t.p3.x - t.p1.x) * (q2.z - q1.z) - (t.p3.z - t.p1.z) * (q2.x - q1.x)) * d1
          + ((t.p3.x - t.p1.x) * (q2.y - q1.y) - (t.p3.y - t.p1.y) * (q2.x - q1.x)) * d2)).resolve_left hnp
      linear_combination this
    have g1 : x 1 = w3 := by
      have := (mul_eq_zero.1 (show _ * (x 1 - w3) = 0 by
        linear_combination -((t.p2.y - t.p1.y) * (q2.z - q1.z) - (t.p2.z - t.p1.z) * (q2.y - q1.y)) * d0
          + ((t.p2.x - t.p1.x) * (q2.z - q1.z) - (t.p2.z - t.p1.z) * (q2.x - q1.x)) * d1
          - ((t.p2.x - t.p1.x) * (q2.y - q1.y) - (t.p2.y - t.p1.y) * (q2.x - q1.x)) * d2)).resolve_left hnp
      linear_combination this
    show intersectionType (x 0) (x 1) = _
    rw [g0, g1]
  rw [heq]
  have hw1' : 1 - (w2 + w3) = w1 := by linear_combination -hs
  have hall : ∀ P : Edge → Prop, (∀ e, P e) ↔ P .one ∧ P .two ∧ P .three :=
    fun P => ⟨fun h => ⟨h _, h _, h _⟩, fun h e => by cases e; exacts [h.1, h.2.1, h.2.2]⟩
  have hex : ∀ P : Edge → Prop, (∃ e, P e) ↔ P .one ∨ P .two ∨ P .three := by
    intro P
    constructor
    · rintro ⟨e, h⟩
      cases e
      exacts [Or.inl h, Or.inr (Or.inl h), Or.inr (Or.inr h)]
    · rintro (h | h | h)
      exacts [⟨_, h⟩, ⟨_, h⟩, ⟨_, h⟩]
  have hno : ¬ (w1 < 0 ∧ w2 < 0 ∧ w3 < 0) := by
    rintro ⟨a, b, c⟩
    linarith
  unfold intersectionType
  rw [hw1']
  simp only [hall, hex, opposite]
  rcases sign_facts w1 with ⟨h1, s1⟩ | ⟨h1, s1⟩ | ⟨h1, s1⟩ <;>
  rcases sign_facts w2 with ⟨h2, s2⟩ | ⟨h2, s2⟩ | ⟨h2, s2⟩ <;>
  rcases sign_facts w3 with ⟨h3, s3⟩ | ⟨h3, s3⟩ | ⟨h3, s3⟩ <;>
  rw [s1, s2, s3] <;> simp [h1, h2, h3] at hno ⊢

/-- A line through the triangle, one beyond edge one, one beyond edges two and three. -/
example : let t : Triangle3 ℚ := ⟨⟨0, 0, 0⟩, ⟨4, 0, 0⟩, ⟨0, 4, 0⟩⟩
    LineBary t ⟨1, 1, 1⟩ ⟨1, 1, -1⟩ (1 / 2) (1 / 2) (1 / 4) (1 / 4)
    ∧ t.lineIntersectionType ⟨1, 1, 1⟩ ⟨1, 1, -1⟩ = some .inside
    ∧ LineBary t ⟨3, 3, 1⟩ ⟨3, 3, -1⟩ (1 / 2) (-1 / 2) (3 / 4) (3 / 4)
    ∧ t.lineIntersectionType ⟨3, 3, 1⟩ ⟨3, 3, -1⟩ = some (.outsideOneEdge .one)
    ∧ LineBary t ⟨-1, -1, 1⟩ ⟨-1, -1, -1⟩ (1 / 2) (3 / 2) (-1 / 4) (-1 / 4)
    ∧ t.lineIntersectionType ⟨-1, -1, 1⟩ ⟨-1, -1, -1⟩ = some (.outsideTwoEdges .two .three) := by
  unfold LineBary
  decide +kernel
example : orient3 (K := ℚ) ⟨⟨0, 0, 0⟩, P3.sub ⟨4, 0, 0⟩ ⟨0, 0, 0⟩, P3.sub ⟨0, 4, 0⟩ ⟨0, 0, 0⟩,
    P3.sub ⟨1, 1, -1⟩ ⟨1, 1, 1⟩⟩ ≠ 0 := by
  rw [orient3_eq]
  decide +kernel

/-! ## C50 -/

/-- **C50** (plane): the initial triangle is positively oriented and reports every point of the
extent as inside. -/
theorem initial_triangle_contains (lo hi : P2 K) (hx : lo.x < hi.x) (hy : lo.y < hi.y) :
    0 < orient2 (Triangle2.allEncompassing lo hi) ∧
    ∀ p : P2 K, lo.x ≤ p.x → p.x ≤ hi.x → lo.y ≤ p.y → p.y ≤ hi.y →
      (Triangle2.allEncompassing lo hi).contains p = some true := by
  have hor : orient2 (Triangle2.allEncompassing lo hi) = 15 * ((hi.x - lo.x) * (hi.y - lo.y)) := by
    unfold orient2 Triangle2.allEncompassing
    dsimp only
    ring
  have hlx : 0 < hi.x - lo.x := sub_pos.2 hx
  have hly : 0 < hi.y - lo.y := sub_pos.2 hy
  have hpos : 0 < orient2 (Triangle2.allEncompassing lo hi) := by
    rw [hor]
    have := mul_pos hlx hly
    linarith
  refine ⟨hpos, ?_⟩
  intro p h1 h2 h3 h4
  -- scaled coordinates in `[0, 1]`
  obtain ⟨u, hu⟩ : ∃ u, u * (hi.x - lo.x) = p.x - lo.x := ⟨(p.x - lo.x) / (hi.x - lo.x), by
    field_simp⟩
  obtain ⟨v, hv⟩ : ∃ v, v * (hi.y - lo.y) = p.y - lo.y := ⟨(p.y - lo.y) / (hi.y - lo.y), by
    field_simp⟩
  have hu0 : 0 ≤ u := by
    by_contra h
    have := mul_neg_of_neg_of_pos (not_le.1 h) hlx
    linarith
  have hu1 : u ≤ 1 := by
    by_contra h
    have : (1 - u) * (hi.x - lo.x) < 0 := mul_neg_of_neg_of_pos (by linarith [not_le.1 h]) hlx
    have e : (1 - u) * (hi.x - lo.x) = (hi.x - lo.x) - u * (hi.x - lo.x) := by ring
    linarith
  have hv0 : 0 ≤ v := by
    by_contra h
    have := mul_neg_of_neg_of_pos (not_le.1 h) hly
    linarith
  have hv1 : v ≤ 1 := by
    by_contra h
    have : (1 - v) * (hi.y - lo.y) < 0 := mul_neg_of_neg_of_pos (by linarith [not_le.1 h]) hly
    have e : (1 - v) * (hi.y - lo.y) = (hi.y - lo.y) - v * (hi.y - lo.y) := by ring
    linarith
  refine (triangle_contains_correct _ hpos.ne' p ((3 + 4 * v - u) / 15) ((9 - 3 * u - 3 * v) / 15)
    ((3 + 4 * u - v) / 15) ⟨by ring, ?_, ?_⟩).1.2 ⟨?_, ?_, ?_⟩
  · have : p.x = lo.x + u * (hi.x - lo.x) := by linarith
    rw [this]
    unfold Triangle2.allEncompassing
    dsimp only
    field_simp
    ring
  · have : p.y = lo.y + v * (hi.y - lo.y) := by linarith
    rw [this]
    unfold Triangle2.allEncompassing
    dsimp only
    field_simp
    ring
  · apply div_pos _ (by norm_num); linarith
  · apply div_pos _ (by norm_num); linarith
  · apply div_pos _ (by norm_num); linarith

/-- **C50** (space): the initial tetrahedron is positively oriented and reports every point of the
extent as inside. -/
theorem initial_tetra_contains (lo hi : P3 K) (hx : lo.x < hi.x) (hy : lo.y < hi.y)
    (hz : lo.z < hi.z) :
    0 < orient3 (Tetra.allEncompassing lo hi) ∧
    ∀ p : P3 K, lo.x ≤ p.x → p.x ≤ hi.x → lo.y ≤ p.y → p.y ≤ hi.y → lo.z ≤ p.z → p.z ≤ hi.z →
      (Tetra.allEncompassing lo hi).contains p = some true := by
  have hlx : 0 < hi.x - lo.x := sub_pos.2 hx
  have hly : 0 < hi.y - lo.y := sub_pos.2 hy
  have hlz : 0 < hi.z - lo.z := sub_pos.2 hz
  have hor : orient3 (Tetra.allEncompassing lo hi)
      = (311 / 100) ^ 2 * (314 / 100) * ((hi.x - lo.x) * (hi.y - lo.y) * (hi.z - lo.z)) := by
    rw [orient3_eq]
    unfold Tetra.allEncompassing
    simp only [P3.sub]
    ring
  have hpos : 0 < orient3 (Tetra.allEncompassing lo hi) := by
    rw [hor]
    exact mul_pos (by norm_num) (mul_pos (mul_pos hlx hly) hlz)
  refine ⟨hpos, ?_⟩
  intro p h1 h2 h3 h4 h5 h6
  have scaled : ∀ a b q : K, 0 < b - a → a ≤ q → q ≤ b → ∃ u, 0 ≤ u ∧ u ≤ 1 ∧ q = a + u * (b - a) := by
    intro a b q hab ha hb
    refine ⟨(q - a) / (b - a), div_nonneg (by linarith) hab.le, ?_, ?_⟩
    · rw [div_le_one hab]; linarith
    · field_simp; ring
  obtain ⟨u, hu0, hu1, hu⟩ := scaled _ _ _ hlx h1 h2
  obtain ⟨v, hv0, hv1, hv⟩ := scaled _ _ _ hly h3 h4
  obtain ⟨w, hw0, hw1, hw⟩ := scaled _ _ _ hlz h5 h6
  refine (tetra_contains_correct _ hpos.ne' p
    ((311 - 100 * (u + v + w)) / 314)
    ((100 * u + (311 - 100 * (u + v + w)) / 314) / 311)
    ((100 * v + (311 - 100 * (u + v + w)) / 314) / 311)
    ((100 * w + (311 - 100 * (u + v + w)) / 314) / 311) ⟨by ring, ?_, ?_, ?_⟩).1.2 ⟨?_, ?_, ?_, ?_⟩
  · rw [hu]
    unfold Tetra.allEncompassing
    simp only [P3.sub]
    field_simp
    ring
  · rw [hv]
    unfold Tetra.allEncompassing
    simp only [P3.sub]
    field_simp
    ring
  · rw [hw]
    unfold Tetra.allEncompassing
    simp only [P3.sub]
    field_simp
    ring
  all_goals
    have hp : 0 < (311 - 100 * (u + v + w)) / 314 := div_pos (by linarith) (by norm_num)
    first
    | exact hp
    | exact div_pos (by linarith) (by norm_num)

/-- A flat extent far from the origin, and a corner of it. -/
example : (Triangle2.allEncompassing (K := ℚ) ⟨5, -3⟩ ⟨6, 97⟩).contains ⟨6, -3⟩ = some true
    ∧ (Tetra.allEncompassing (K := ℚ) ⟨5, -3, 0⟩ ⟨6, 97, 1⟩).contains ⟨6, 97, 1⟩ = some true := by
  decide +kernel

end Verif.Predicates
