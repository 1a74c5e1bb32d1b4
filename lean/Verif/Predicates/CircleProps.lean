import Verif.Predicates.DetProps
import Verif.Predicates.SolverProps

/-!
# C48: circumcircles and circumspheres

Orientation and squared distance are the textbook definitions below; the predicates of the code are
compared with the distance to any point that is equidistant from all vertices.
-/

namespace Verif.Predicates

variable {K : Type} [Field K] [LinearOrder K] [IsStrictOrderedRing K]

/-- Twice the signed area of a triangle. -/
def orient2 (t : Triangle2 K) : K :=
  (t.p2.x - t.p1.x) * (t.p3.y - t.p1.y) - (t.p2.y - t.p1.y) * (t.p3.x - t.p1.x)

/-- Six times the signed volume of a tetrahedron. -/
def orient3 (t : Tetra K) : K :=
  Matrix.det !![t.p2.x - t.p1.x, t.p2.y - t.p1.y, t.p2.z - t.p1.z;
    t.p3.x - t.p1.x, t.p3.y - t.p1.y, t.p3.z - t.p1.z;
    t.p4.x - t.p1.x, t.p4.y - t.p1.y, t.p4.z - t.p1.z]

/-- Squared distance in the plane. -/
def distSq2 (p q : P2 K) : K := (p.x - q.x) ^ 2 + (p.y - q.y) ^ 2

/-- Squared distance in space. -/
def distSq3 (p q : P3 K) : K := (p.x - q.x) ^ 2 + (p.y - q.y) ^ 2 + (p.z - q.z) ^ 2

omit [LinearOrder K] [IsStrictOrderedRing K] in
theorem orient3_eq (t : Tetra K) : orient3 t =
    (t.p2.x - t.p1.x) * ((t.p3.y - t.p1.y) * (t.p4.z - t.p1.z) - (t.p3.z - t.p1.z) * (t.p4.y - t.p1.y))
    - (t.p2.y - t.p1.y) * ((t.p3.x - t.p1.x) * (t.p4.z - t.p1.z) - (t.p3.z - t.p1.z) * (t.p4.x - t.p1.x))
    + (t.p2.z - t.p1.z) * ((t.p3.x - t.p1.x) * (t.p4.y - t.p1.y) - (t.p3.y - t.p1.y) * (t.p4.x - t.p1.x)) := by
  unfold orient3
  rw [Matrix.det_fin_three]
  simp only [Matrix.of_apply, Matrix.cons_val]
  ring

omit [IsStrictOrderedRing K] in
private theorem checkedNegative_of (v : K) :
    ((Sign.of v).checkedNegative = some true ↔ v < 0) ∧
    ((Sign.of v).checkedNegative = some false ↔ 0 < v) ∧
    ((Sign.of v).checkedNegative = none ↔ v = 0) := by
  unfold Sign.of
  rcases lt_trichotomy v 0 with h | h | h
  · rw [if_pos h]
    simp [Sign.checkedNegative, h, h.not_gt, h.ne]
  · subst h
    simp [Sign.checkedNegative]
  · rw [if_neg h.not_gt, if_neg h.ne']
    simp [Sign.checkedNegative, h, h.not_gt, h.ne']

/-! ## In the plane -/

omit [LinearOrder K] [IsStrictOrderedRing K] in
private theorem inCircle_identity (a b c d o : P2 K) (rho : K)
    (ha : distSq2 a o = rho) (hb : distSq2 b o = rho) (hc : distSq2 c o = rho) :
    determinant3x3 ![
      ![b.x - a.x, b.y - a.y, (b.x - a.x) ^ 2 + (b.y - a.y) ^ 2],
      ![c.x - a.x, c.y - a.y, (c.x - a.x) ^ 2 + (c.y - a.y) ^ 2],
      ![d.x - a.x, d.y - a.y, (d.x - a.x) ^ 2 + (d.y - a.y) ^ 2]]
      = orient2 ⟨a, b, c⟩ * (distSq2 d o - rho) := by
  simp only [determinant3x3, Matrix.cons_val, orient2, distSq2] at *
  linear_combination
    ((c.x - a.x) * (d.y - a.y) - (c.y - a.y) * (d.x - a.x)) * (hb - ha)
    - ((b.x - a.x) * (d.y - a.y) - (b.y - a.y) * (d.x - a.x)) * (hc - ha)
    - ((b.x - a.x) * (c.y - a.y) - (b.y - a.y) * (c.x - a.x)) * ha

/-- **C48** (plane): for a positively oriented triangle the test is true iff the point is strictly
closer to the centre of the circumcircle than the vertices, false iff it is strictly further away,
and panics iff the point is on the circle. -/
theorem in_circle_correct (t : Triangle2 K) (hpos : 0 < orient2 t) (d o : P2 K) (rho : K)
    (h1 : distSq2 t.p1 o = rho) (h2 : distSq2 t.p2 o = rho) (h3 : distSq2 t.p3 o = rho) :
    (t.circumcircleContains d = some true ↔ distSq2 d o < rho) ∧
    (t.circumcircleContains d = some false ↔ rho < distSq2 d o) ∧
    (t.circumcircleContains d = none ↔ distSq2 d o = rho) := by
  unfold Triangle2.circumcircleContains
  dsimp only
  rw [inCircle_identity t.p1 t.p2 t.p3 d o rho h1 h2 h3]
  have hpos' : 0 < orient2 ⟨t.p1, t.p2, t.p3⟩ := hpos
  obtain ⟨e1, e2, e3⟩ := checkedNegative_of (orient2 ⟨t.p1, t.p2, t.p3⟩ * (distSq2 d o - rho))
  refine ⟨?_, ?_, ?_⟩
  · rw [e1, mul_neg_iff]
    constructor
    · rintro (⟨_, h⟩ | ⟨h, _⟩)
      · linarith
      · exact absurd h hpos'.not_gt
    · intro h; exact Or.inl ⟨hpos', by linarith⟩
  · rw [e2, mul_pos_iff_of_pos_left hpos']
    constructor <;> intro h <;> linarith
  · rw [e3, mul_eq_zero]
    constructor
    · rintro (h | h)
      · exact absurd h hpos'.ne'
      · linarith
    · intro h; right; linarith

/-- **C48** (plane): the computed centre is equidistant from the three vertices of every
non-degenerate triangle. -/
theorem circumcentre2_equidistant (t : Triangle2 K) (hne : orient2 t ≠ 0) :
    distSq2 t.p1 t.circumcentre = distSq2 t.p2 t.circumcentre ∧
    distSq2 t.p1 t.circumcentre = distSq2 t.p3 t.circumcentre := by
  have hd : 2 * (t.p1.x * (t.p2.y - t.p3.y) + t.p2.x * (t.p3.y - t.p1.y) + t.p3.x * (t.p1.y - t.p2.y))
      = 2 * orient2 t := by
    unfold orient2
    ring
  unfold distSq2 Triangle2.circumcentre
  dsimp only
  rw [hd]
  have h2 : (2 : K) * orient2 t ≠ 0 := mul_ne_zero two_ne_zero hne
  have key : ∀ (X Y u v u' v' : K), (u ^ 2 + v ^ 2 - (u' ^ 2 + v' ^ 2)) * orient2 t
        = X * (u - u') + Y * (v - v') →
      (u - 1 / (2 * orient2 t) * X) ^ 2 + (v - 1 / (2 * orient2 t) * Y) ^ 2
        = (u' - 1 / (2 * orient2 t) * X) ^ 2 + (v' - 1 / (2 * orient2 t) * Y) ^ 2 := by
    intro X Y u v u' v' h
    field_simp
    linear_combination (4 : K) * orient2 t * h
  constructor
  · apply key
    unfold orient2
    ring
  · apply key
    unfold orient2
    ring

/-- **C48** (plane): the predicate agrees with the computed centre. -/
theorem in_circle_agrees_with_centre (t : Triangle2 K) (hpos : 0 < orient2 t) (d : P2 K) :
    t.circumcircleContains d = some true ↔
      distSq2 d t.circumcentre < distSq2 t.p1 t.circumcentre := by
  obtain ⟨h2, h3⟩ := circumcentre2_equidistant t hpos.ne'
  exact (in_circle_correct t hpos d t.circumcentre _ rfl h2.symm h3.symm).1

/-- A positively oriented triangle with centre `(1, 1)`; a point inside, outside and on the circle. -/
example : let t : Triangle2 ℚ := ⟨⟨0, 0⟩, ⟨2, 0⟩, ⟨0, 2⟩⟩
    0 < orient2 t ∧ t.circumcentre = ⟨1, 1⟩ ∧ distSq2 t.p1 ⟨1, 1⟩ = 2 ∧ distSq2 t.p2 ⟨1, 1⟩ = 2
    ∧ distSq2 t.p3 ⟨1, 1⟩ = 2
    ∧ t.circumcircleContains ⟨1, 3 / 2⟩ = some true ∧ t.circumcircleContains ⟨3, 0⟩ = some false
    ∧ t.circumcircleContains ⟨2, 2⟩ = none := by decide +kernel

/-! ## In space -/

omit [LinearOrder K] [IsStrictOrderedRing K] in
theorem inSphere_identity (a b c d e o : P3 K) (rho : K)
    (ha : distSq3 a o = rho) (hb : distSq3 b o = rho) (hc : distSq3 c o = rho)
    (hd : distSq3 d o = rho) :
    determinant5x5 (inSphereMatrix a b c d e) = orient3 ⟨a, b, c, d⟩ * (distSq3 e o - rho) := by
  have gen : ∀ (va vb vc vd ve : K),
      va = 2 * (a.x * o.x + a.y * o.y + a.z * o.z) + (rho - o.x ^ 2 - o.y ^ 2 - o.z ^ 2) →
      vb = 2 * (b.x * o.x + b.y * o.y + b.z * o.z) + (rho - o.x ^ 2 - o.y ^ 2 - o.z ^ 2) →
      vc = 2 * (c.x * o.x + c.y * o.y + c.z * o.z) + (rho - o.x ^ 2 - o.y ^ 2 - o.z ^ 2) →
      vd = 2 * (d.x * o.x + d.y * o.y + d.z * o.z) + (rho - o.x ^ 2 - o.y ^ 2 - o.z ^ 2) →
      determinant5x5 ![![1, a.x, a.y, a.z, va], ![1, b.x, b.y, b.z, vb], ![1, c.x, c.y, c.z, vc],
        ![1, d.x, d.y, d.z, vd], ![1, e.x, e.y, e.z, ve]]
      = orient3 ⟨a, b, c, d⟩ * (ve - 2 * (e.x * o.x + e.y * o.y + e.z * o.z)
          - (rho - o.x ^ 2 - o.y ^ 2 - o.z ^ 2)) := by
    intro va vb vc vd ve e1 e2 e3 e4
    rw [orient3_eq]
    generalize hm : rho - o.x ^ 2 - o.y ^ 2 - o.z ^ 2 = mu at *
    subst e1 e2 e3 e4
    simp only [determinant5x5, determinant4x4, determinant3x3, Matrix.cons_val]
    ring
  unfold inSphereMatrix
  simp only [distSq3] at *
  rw [gen _ _ _ _ _ (by linear_combination ha) (by linear_combination hb)
    (by linear_combination hc) (by linear_combination hd)]
  ring

/-- **C48** (space): the exact in-sphere test is true iff the point is strictly closer to the centre of
the circumsphere than the vertices, false iff strictly further away, and panics iff it is on the
sphere. -/
theorem in_sphere_exact_correct (t : Tetra K) (hpos : 0 < orient3 t) (e o : P3 K) (rho : K)
    (h1 : distSq3 t.p1 o = rho) (h2 : distSq3 t.p2 o = rho) (h3 : distSq3 t.p3 o = rho)
    (h4 : distSq3 t.p4 o = rho) :
    (t.circumsphereContainsExact e = some true ↔ distSq3 e o < rho) ∧
    (t.circumsphereContainsExact e = some false ↔ rho < distSq3 e o) ∧
    (t.circumsphereContainsExact e = none ↔ distSq3 e o = rho) := by
  unfold Tetra.circumsphereContainsExact
  rw [inSphere_identity t.p1 t.p2 t.p3 t.p4 e o rho h1 h2 h3 h4]
  have hpos' : 0 < orient3 ⟨t.p1, t.p2, t.p3, t.p4⟩ := hpos
  obtain ⟨e1, e2, e3⟩ := checkedNegative_of (orient3 ⟨t.p1, t.p2, t.p3, t.p4⟩ * (distSq3 e o - rho))
  refine ⟨?_, ?_, ?_⟩
  · rw [e1, mul_neg_iff]
    constructor
    · rintro (⟨_, h⟩ | ⟨h, _⟩)
      · linarith
      · exact absurd h hpos'.not_gt
    · intro h; exact Or.inl ⟨hpos', by linarith⟩
  · rw [e2, mul_pos_iff_of_pos_left hpos']
    constructor <;> intro h <;> linarith
  · rw [e3, mul_eq_zero]
    constructor
    · rintro (h | h)
      · exact absurd h hpos'.ne'
      · linarith
    · intro h; right; linarith

omit [IsStrictOrderedRing K] in
/-- **C48** (space): without rounding, the value of the floating point formula is minus the
determinant of the exact test, so that "positive" there means "negative" here. -/
theorem float_formula_is_minus_determinant (eps : K) (t : Tetra K) (e : P3 K) :
    (t.inSphereFloat eps e).1 = -determinant5x5 (inSphereMatrix t.p1 t.p2 t.p3 t.p4 e) := by
  unfold Tetra.inSphereFloat inSphereMatrix
  simp only [determinant5x5, determinant4x4, determinant3x3, Matrix.cons_val]
  ring

/-- The error bound is an upper bound of `eps` times the value and never negative. -/
theorem float_error_bound_nonneg (eps : K) (heps : 0 ≤ eps) (t : Tetra K) (e : P3 K) :
    0 ≤ (t.inSphereFloat eps e).2 := by
  unfold Tetra.inSphereFloat
  dsimp only
  have hs : ∀ u v w : K, 0 ≤ u * u + v * v + w * w := fun u v w => by
    have := mul_self_nonneg u
    have := mul_self_nonneg v
    have := mul_self_nonneg w
    linarith
  have h1 := fun u v w => hs u v w
  apply mul_nonneg heps
  have habs : ∀ u v : K, 0 ≤ |u| + |v| := fun u v => add_nonneg (abs_nonneg _) (abs_nonneg _)
  have hp : ∀ u v w x y z : K, 0 ≤ u → 0 ≤ v → 0 ≤ w → 0 ≤ x → 0 ≤ y → 0 ≤ z →
      0 ≤ u * v + w * x + y * z := fun u v w x y z a b c d e f =>
    add_nonneg (add_nonneg (mul_nonneg a b) (mul_nonneg c d)) (mul_nonneg e f)
  refine add_nonneg (add_nonneg ?_ ?_) (add_nonneg ?_ ?_) <;>
    refine mul_nonneg (hs _ _ _) (hp _ _ _ _ _ _ (abs_nonneg _) (habs _ _) (abs_nonneg _)
      (habs _ _) (abs_nonneg _) (habs _ _))

/-- **C48** (space): the two-stage test (floating point formula first, exact determinant if the value is
below the error bound) is true iff the point is strictly inside the circumsphere, without rounding, and
false if it is strictly outside. -/
theorem in_sphere_correct (eps : K) (heps : 0 ≤ eps) (t : Tetra K) (hpos : 0 < orient3 t)
    (e o : P3 K) (rho : K)
    (h1 : distSq3 t.p1 o = rho) (h2 : distSq3 t.p2 o = rho) (h3 : distSq3 t.p3 o = rho)
    (h4 : distSq3 t.p4 o = rho) :
    (t.circumsphereContains eps e = some true ↔ distSq3 e o < rho) ∧
    (rho < distSq3 e o → t.circumsphereContains eps e = some false) := by
  have hx := float_formula_is_minus_determinant eps t e
  have hid := inSphere_identity t.p1 t.p2 t.p3 t.p4 e o rho h1 h2 h3 h4
  have hpos' : 0 < orient3 ⟨t.p1, t.p2, t.p3, t.p4⟩ := hpos
  rw [hid] at hx
  obtain ⟨c1, c2, c3⟩ := in_sphere_exact_correct t hpos e o rho h1 h2 h3 h4
  unfold Tetra.circumsphereContains
  dsimp only
  by_cases hc : |(t.inSphereFloat eps e).1| < (t.inSphereFloat eps e).2
  · rw [if_pos hc]
    exact ⟨c1, c2.2⟩
  · rw [if_neg hc]
    have hs : Sign.of (t.inSphereFloat eps e).1 = .positive ↔ distSq3 e o < rho := by
      rw [hx]
      unfold Sign.of
      constructor
      · intro h
        split_ifs at h with g1 g2
        by_contra hcon
        have : 0 ≤ distSq3 e o - rho := by linarith
        have := mul_nonneg hpos'.le this
        have h0 : -(orient3 ⟨t.p1, t.p2, t.p3, t.p4⟩ * (distSq3 e o - rho)) = 0 :=
          le_antisymm (by linarith) (not_lt.1 g1)
        exact g2 h0
      · intro h
        have : 0 < orient3 ⟨t.p1, t.p2, t.p3, t.p4⟩ * (rho - distSq3 e o) :=
          mul_pos hpos' (by linarith)
        have hp : 0 < -(orient3 ⟨t.p1, t.p2, t.p3, t.p4⟩ * (distSq3 e o - rho)) := by
          linarith
        rw [if_neg hp.not_gt, if_neg hp.ne']
    constructor
    · rw [Option.some_inj, decide_eq_true_iff]
      exact hs
    · intro h
      rw [Option.some_inj, decide_eq_false_iff_not, hs]
      exact h.not_gt

omit [IsStrictOrderedRing K] in
/-- **C48** (space): the exact path for the centre never divides by zero for a non-degenerate
tetrahedron. -/
theorem circumcentre_exact_total [CharZero K] (t : Tetra K) (hne : orient3 t ≠ 0) :
    ∃ c, t.circumcentreExact = some c := by
  unfold Tetra.circumcentreExact
  dsimp only
  rw [if_neg]
  · exact ⟨_, rfl⟩
  · have : determinant4x4 ![![t.p1.x, t.p1.y, t.p1.z, 1], ![t.p2.x, t.p2.y, t.p2.z, 1],
        ![t.p3.x, t.p3.y, t.p3.z, 1], ![t.p4.x, t.p4.y, t.p4.z, 1]] = -orient3 t := by
      rw [orient3_eq]
      simp only [determinant4x4, determinant3x3, Matrix.cons_val]
      ring
    rw [this]
    exact mul_ne_zero two_ne_zero (neg_ne_zero.2 hne)

omit [IsStrictOrderedRing K] in
/-- **C48** (space): the centre computed by the exact path is equidistant from all four vertices. -/
theorem circumcentre_exact_equidistant [CharZero K] (t : Tetra K) (c : P3 K)
    (h : t.circumcentreExact = some c) :
    distSq3 t.p1 c = distSq3 t.p2 c ∧ distSq3 t.p1 c = distSq3 t.p3 c ∧
      distSq3 t.p1 c = distSq3 t.p4 c := by
  unfold Tetra.circumcentreExact at h
  dsimp only at h
  split_ifs at h with hz
  have hc := (Option.some.inj h).symm
  have cramer : ∀ (v1 v2 v3 v4 : K), 
      ((v1 - v2) * determinant4x4 ![![t.p1.x, t.p1.y, t.p1.z, 1], ![t.p2.x, t.p2.y, t.p2.z, 1],
        ![t.p3.x, t.p3.y, t.p3.z, 1], ![t.p4.x, t.p4.y, t.p4.z, 1]]
      = (t.p1.x - t.p2.x) * determinant4x4 ![![v1, t.p1.y, t.p1.z, 1], ![v2, t.p2.y, t.p2.z, 1],
        ![v3, t.p3.y, t.p3.z, 1], ![v4, t.p4.y, t.p4.z, 1]]
      + (t.p1.y - t.p2.y) * -determinant4x4 ![![v1, t.p1.x, t.p1.z, 1], ![v2, t.p2.x, t.p2.z, 1],
        ![v3, t.p3.x, t.p3.z, 1], ![v4, t.p4.x, t.p4.z, 1]]
      + (t.p1.z - t.p2.z) * determinant4x4 ![![v1, t.p1.x, t.p1.y, 1], ![v2, t.p2.x, t.p2.y, 1],
        ![v3, t.p3.x, t.p3.y, 1], ![v4, t.p4.x, t.p4.y, 1]]) ∧
      ((v1 - v3) * determinant4x4 ![![t.p1.x, t.p1.y, t.p1.z, 1], ![t.p2.x, t.p2.y, t.p2.z, 1],
        ![t.p3.x, t.p3.y, t.p3.z, 1], ![t.p4.x, t.p4.y, t.p4.z, 1]]
      = (t.p1.x - t.p3.x) * determinant4x4 ![![v1, t.p1.y, t.p1.z, 1], ![v2, t.p2.y, t.p2.z, 1],
        ![v3, t.p3.y, t.p3.z, 1], ![v4, t.p4.y, t.p4.z, 1]]
      + (t.p1.y - t.p3.y) * -determinant4x4 ![![v1, t.p1.x, t.p1.z, 1], ![v2, t.p2.x, t.p2.z, 1],
        ![v3, t.p3.x, t.p3.z, 1], ![v4, t.p4.x, t.p4.z, 1]]
      + (t.p1.z - t.p3.z) * determinant4x4 ![![v1, t.p1.x, t.p1.y, 1], ![v2, t.p2.x, t.p2.y, 1],
        ![v3, t.p3.x, t.p3.y, 1], ![v4, t.p4.x, t.p4.y, 1]]) ∧
      ((v1 - v4) * determinant4x4 ![![t.p1.x, t.p1.y, t.p1.z, 1], ![t.p2.x, t.p2.y, t.p2.z, 1],
        ![t.p3.x, t.p3.y, t.p3.z, 1], ![t.p4.x, t.p4.y, t.p4.z, 1]]
      = (t.p1.x - t.p4.x) * determinant4x4 ![![v1, t.p1.y, t.p1.z, 1], ![v2, t.p2.y, t.p2.z, 1],
        ![v3, t.p3.y, t.p3.z, 1], ![v4, t.p4.y, t.p4.z, 1]]
      + (t.p1.y - t.p4.y) * -determinant4x4 ![![v1, t.p1.x, t.p1.z, 1], ![v2, t.p2.x, t.p2.z, 1],
        ![v3, t.p3.x, t.p3.z, 1], ![v4, t.p4.x, t.p4.z, 1]]
      + (t.p1.z - t.p4.z) * determinant4x4 ![![v1, t.p1.x, t.p1.y, 1], ![v2, t.p2.x, t.p2.y, 1],
        ![v3, t.p3.x, t.p3.y, 1], ![v4, t.p4.x, t.p4.y, 1]]) := by
    intro v1 v2 v3 v4
    refine ⟨?_, ?_, ?_⟩ <;>
    · simp only [determinant4x4, determinant3x3, Matrix.cons_val]
      ring
  obtain ⟨e2, e3, e4⟩ := cramer (t.p1.x ^ 2 + t.p1.y ^ 2 + t.p1.z ^ 2)
    (t.p2.x ^ 2 + t.p2.y ^ 2 + t.p2.z ^ 2) (t.p3.x ^ 2 + t.p3.y ^ 2 + t.p3.z ^ 2)
    (t.p4.x ^ 2 + t.p4.y ^ 2 + t.p4.z ^ 2)
  have key : ∀ (A X Y Z u v w u' v' w' : K), 2 * A ≠ 0 →
      (u ^ 2 + v ^ 2 + w ^ 2 - (u' ^ 2 + v' ^ 2 + w' ^ 2)) * A
        = (u - u') * X + (v - v') * Y + (w - w') * Z →
      (u - X * (1 / (2 * A))) ^ 2 + (v - Y * (1 / (2 * A))) ^ 2 + (w - Z * (1 / (2 * A))) ^ 2
        = (u' - X * (1 / (2 * A))) ^ 2 + (v' - Y * (1 / (2 * A))) ^ 2
          + (w' - Z * (1 / (2 * A))) ^ 2 := by
    intro A X Y Z u v w u' v' w' hA h
    have hA' : A ≠ 0 := right_ne_zero_of_mul hA
    have hq : (1 / (2 * A)) * (2 * A) = 1 := by rw [one_div, inv_mul_cancel₀ hA]
    generalize 1 / (2 * A) = q at hq
    linear_combination 2 * q * h
      - (u ^ 2 + v ^ 2 + w ^ 2 - (u' ^ 2 + v' ^ 2 + w' ^ 2)) * hq
  subst hc
  exact ⟨key _ _ _ _ _ _ _ _ _ _ hz e2, key _ _ _ _ _ _ _ _ _ _ hz e3,
    key _ _ _ _ _ _ _ _ _ _ hz e4⟩

/-- **C48** (space): the centre computed by the first path, if accepted, is equidistant as well. -/
theorem circumcentre_float_equidistant (eps : K) (heps : 0 < eps) (t : Tetra K) (c : P3 K)
    (h : t.circumcentreFloat eps = some c) :
    distSq3 t.p1 c = distSq3 t.p2 c ∧ distSq3 t.p1 c = distSq3 t.p3 c ∧
      distSq3 t.p1 c = distSq3 t.p4 c := by
  unfold Tetra.circumcentreFloat at h
  dsimp only at h
  obtain ⟨⟨x1, x2, x3⟩, hx, hc⟩ := Option.map_eq_some_iff.1 h
  have hs := solve_3x4_sound eps heps _ x1 x2 x3 hx
  have s0 := hs 0
  have s1 := hs 1
  have s2 := hs 2
  simp only [Matrix.cons_val] at s0 s1 s2
  subst hc
  simp only [distSq3]
  refine ⟨?_, ?_, ?_⟩
  · linear_combination 2 * s0
  · linear_combination 2 * s1
  · linear_combination 2 * s2

/-- **C48** (space): for a non-degenerate tetrahedron the routine returns a centre, and it is
equidistant from all vertices whichever path produced it. -/
theorem circumcentre_correct (eps : K) (heps : 0 < eps) (t : Tetra K) (hne : orient3 t ≠ 0) :
    ∃ c, t.circumcentre eps = some c ∧ distSq3 t.p1 c = distSq3 t.p2 c ∧
      distSq3 t.p1 c = distSq3 t.p3 c ∧ distSq3 t.p1 c = distSq3 t.p4 c := by
  unfold Tetra.circumcentre
  cases h : t.circumcentreFloat eps with
  | some c => exact ⟨c, rfl, circumcentre_float_equidistant eps heps t c h⟩
  | none =>
    obtain ⟨c, hc⟩ := circumcentre_exact_total t hne
    exact ⟨c, hc, circumcentre_exact_equidistant t c hc⟩

/-- A positively oriented tetrahedron, a point inside its circumsphere and one outside. -/
example : let t : Tetra ℚ := ⟨⟨0, 0, 0⟩, ⟨2, 0, 0⟩, ⟨0, 2, 0⟩, ⟨0, 0, 2⟩⟩
    t.circumcentre (1 / 10 ^ 8) = some ⟨1, 1, 1⟩ ∧ t.circumcentreExact = some ⟨1, 1, 1⟩
    ∧ distSq3 t.p1 ⟨1, 1, 1⟩ = 3 ∧ distSq3 t.p2 ⟨1, 1, 1⟩ = 3 ∧ distSq3 t.p3 ⟨1, 1, 1⟩ = 3
    ∧ distSq3 t.p4 ⟨1, 1, 1⟩ = 3
    ∧ t.circumsphereContains (1 / 10 ^ 14) ⟨1, 3 / 2, 1⟩ = some true
    ∧ t.circumsphereContains (1 / 10 ^ 14) ⟨3, 0, 0⟩ = some false
    ∧ t.circumsphereContains (1 / 10 ^ 14) ⟨2, 2, 2⟩ = none := by decide +kernel
example : 0 < orient3 (K := ℚ) ⟨⟨0, 0, 0⟩, ⟨2, 0, 0⟩, ⟨0, 2, 0⟩, ⟨0, 0, 2⟩⟩ := by
  rw [orient3_eq]
  decide +kernel

end Verif.Predicates
