import Verif.Rounding.InSphereProps

/-!
# C101: the tests in the plane in `f64`
-/

namespace Verif.Rounding

open Verif.Predicates

/-- A point in the plane as `remap_point` returns it. -/
def InSquare (p : P2 ℚ) : Prop := Coord p.x ∧ Coord p.y

instance (p : P2 ℚ) : Decidable (InSquare p) := inferInstanceAs (Decidable (_ ∧ _))

/-! ## The sign of a determinant -/

/-- The sum of the absolute values of the six products in a determinant. -/
def products (a : Mat 3 3 ℚ) : ℚ :=
  |a 0 0| * |a 1 1| * |a 2 2| + |a 0 1| * |a 1 2| * |a 2 0| + |a 0 2| * |a 1 0| * |a 2 1|
    + |a 0 2| * |a 1 1| * |a 2 0| + |a 0 1| * |a 1 0| * |a 2 2| + |a 0 0| * |a 1 2| * |a 2 1|

/-- The error of a determinant in `f64` with approximate entries. -/
theorem app_det {n j : ℕ} {a' a S : Mat 3 3 ℚ} (h : ∀ i k, App n j (a' i k) (a i k) (S i k))
    (hj : 3 * j ≤ 1022) :
    App (3 * n + 7) (3 * j) (determinant3x3F a') (determinant3x3 a)
      (S 0 0 * S 1 1 * S 2 2 + S 0 1 * S 1 2 * S 2 0 + S 0 2 * S 1 0 * S 2 1
        + S 0 2 * S 1 1 * S 2 0 + S 0 1 * S 1 0 * S 2 2 + S 0 0 * S 1 2 * S 2 1) := by
  have term : ∀ i k i' k' i'' k'', App (3 * n + 2) (3 * j) (a' i k ⊠ a' i' k' ⊠ a' i'' k'')
      (a i k * a i' k' * a i'' k'') (S i k * S i' k' * S i'' k'') := by
    intro i k i' k' i'' k''
    have := ((h i k).fmul (h i' k') (by omega)).fmul (h i'' k'') (by omega)
    exact this.mono (by omega) (by omega)
  have s1 := (term 0 0 1 1 2 2).fadd (term 0 1 1 2 2 0) hj
  have s2 := s1.fadd ((term 0 2 1 0 2 1).mono (by omega) le_rfl) hj
  have s3 := s2.fsub ((term 0 2 1 1 2 0).mono (by omega) le_rfl) hj
  have s4 := s3.fsub ((term 0 1 1 0 2 2).mono (by omega) le_rfl) hj
  exact s4.fsub ((term 0 0 1 2 2 1).mono (by omega) le_rfl) hj

/-- **C101** (determinants): the sign of a determinant is right unless the determinant is tiny compared
with the products it is made of.  The entries are multiples of `2 ^ -300`.  Missing: tiny determinants,
for which the sign can be wrong (`determinant_sign_wrong`), because the test whether the result in `f64`
can be trusted compares it with the entries and not with the products. -/
theorem determinant_sign_right_partial (m : Mat 3 3 ℚ) (hg : ∀ i k, Grid 300 (m i k))
    (hfar : 8 / 2 ^ 53 * products m < |determinant3x3 m|) :
    determinant3x3Sign m = Sign.of (determinant3x3 m) := by
  have hS : 0 ≤ products m := by unfold products; positivity
  replace hfar := lt_of_le_of_lt (mul_le_mul_of_nonneg_right
    (show (1 + u) ^ 7 - 1 ≤ 8 / 2 ^ 53 by unfold u; norm_num) hS) hfar
  unfold determinant3x3Sign
  split
  · have := (app_det (n := 0) (j := 300) (fun i k => App.exact (hg i k)) (by norm_num)).err
    rw [abs_sub_comm] at this
    exact (sign_eq_of_lt (this.trans_lt hfar)).symm
  · rfl

/-- A matrix of binary64 numbers. -/
def badMatrix : Mat 3 3 ℚ :=
  ![![3584372064329605 / 2 ^ 49, 2782607702868351 / 2 ^ 45, 4910221377490753 / 2 ^ 46],
   ![4696483545208265 / 2 ^ 47, 384694138275217 / 2 ^ 42, -46955400164633 / 2 ^ 41],
   ![-6317618388438181 / 2 ^ 48, -3525073761516799 / 2 ^ 45, -1216978849310463 / 2 ^ 45]]

/-- **C101** (determinants, negation): a matrix of binary64 numbers for which the value computed in
`f64` is accepted although it has the wrong sign. -/
theorem determinant_sign_wrong : (∀ i k, IsF64 (badMatrix i k))
    ∧ accepted (determinant3x3F badMatrix) badMatrix = true
    ∧ determinant3x3Sign badMatrix = .positive ∧ determinant3x3 badMatrix < 0 := by
  decide +kernel

/-! ## The in-circle test -/

/-- The exact matrix of the in-circle test. -/
def inCircleMatrix (a b c d : P2 ℚ) : Mat 3 3 ℚ := ![
  ![b.x - a.x, b.y - a.y, (b.x - a.x) ^ 2 + (b.y - a.y) ^ 2],
  ![c.x - a.x, c.y - a.y, (c.x - a.x) ^ 2 + (c.y - a.y) ^ 2],
  ![d.x - a.x, d.y - a.y, (d.x - a.x) ^ 2 + (d.y - a.y) ^ 2]]

theorem inCircle_det (a b c d o : P2 ℚ) (rho : ℚ)
    (ha : distSq2 a o = rho) (hb : distSq2 b o = rho) (hc : distSq2 c o = rho) :
    determinant3x3 (inCircleMatrix a b c d) = orient2 ⟨a, b, c⟩ * (distSq2 d o - rho) := by
  simp only [inCircleMatrix, determinant3x3, Matrix.cons_val, orient2, distSq2] at *
  linear_combination
    ((c.x - a.x) * (d.y - a.y) - (c.y - a.y) * (d.x - a.x)) * (hb - ha)
    - ((b.x - a.x) * (d.y - a.y) - (b.y - a.y) * (d.x - a.x)) * (hc - ha)
    - ((b.x - a.x) * (c.y - a.y) - (b.y - a.y) * (c.x - a.x)) * ha

/-- The entries of one row of the matrix. -/
theorem app_row {a p : P2 ℚ} (ha : InSquare a) (hp : InSquare p) :
    p.x ⊟ a.x = p.x - a.x ∧ p.y ⊟ a.y = p.y - a.y ∧ Grid 104 (p.x - a.x) ∧ Grid 104 (p.y - a.y) ∧
    App 2 104 (sqF (p.x - a.x) ⊞ sqF (p.y - a.y)) ((p.x - a.x) ^ 2 + (p.y - a.y) ^ 2)
      ((p.x - a.x) ^ 2 + (p.y - a.y) ^ 2) := by
  have gx := hp.1.grid.sub ha.1.grid
  have gy := hp.2.grid.sub ha.2.grid
  refine ⟨hp.1.sub ha.1, hp.2.sub ha.2, gx.mono (by norm_num), gy.mono (by norm_num), ?_⟩
  have := ((App.exact gx).fmul (App.exact gx) (by norm_num)).fadd
    ((App.exact gy).fmul (App.exact gy) (by norm_num)) (by norm_num)
  rw [abs_mul_abs_self, abs_mul_abs_self, ← pow_two, ← pow_two] at this
  exact this

private theorem abs_sq_sum (x y : ℚ) : |x ^ 2 + y ^ 2| = x ^ 2 + y ^ 2 := abs_of_nonneg (by positivity)

private theorem app_zero {n : ℕ} {x : ℚ} (h : Grid 104 x) : App n 104 x x |x| :=
  (App.exact h).mono (Nat.zero_le _) le_rfl

/-- The matrix computed in `f64`. -/
theorem app_matrix {a b c d : P2 ℚ} (ha : InSquare a) (hb : InSquare b) (hc : InSquare c)
    (hd : InSquare d) (i k : Fin 3) :
    App 2 104 (inCircleMatrixF a b c d i k) (inCircleMatrix a b c d i k) |inCircleMatrix a b c d i k| := by
  have row : ∀ {p : P2 ℚ}, InSquare p → ∀ k : Fin 3,
      App 2 104 ((![p.x ⊟ a.x, p.y ⊟ a.y, sqF (p.x ⊟ a.x) ⊞ sqF (p.y ⊟ a.y)] : Fin 3 → ℚ) k)
        ((![p.x - a.x, p.y - a.y, (p.x - a.x) ^ 2 + (p.y - a.y) ^ 2] : Fin 3 → ℚ) k)
        |(![p.x - a.x, p.y - a.y, (p.x - a.x) ^ 2 + (p.y - a.y) ^ 2] : Fin 3 → ℚ) k| := by
    intro p hp k
    obtain ⟨e1, e2, g1, g2, h3⟩ := app_row ha hp
    rw [e1, e2]
    match k with
    | 0 => exact app_zero g1
    | 1 => exact app_zero g2
    | 2 =>
      show App 2 104 _ _ |(p.x - a.x) ^ 2 + (p.y - a.y) ^ 2|
      rw [abs_sq_sum]
      exact h3
  match i with
  | 0 => exact row hb k
  | 1 => exact row hc k
  | 2 => exact row hd k

/-- The error of a determinant with approximate entries in exact arithmetic. -/
theorem exact_det_err {n j : ℕ} {a' a : Mat 3 3 ℚ} (h : ∀ i k, App n j (a' i k) (a i k) |a i k|) :
    |determinant3x3 a' - determinant3x3 a| ≤ ((1 + u) ^ (3 * n) - 1) * products a := by
  have term : ∀ i k i' k' i'' k'', |a' i k * a' i' k' * a' i'' k'' - a i k * a i' k' * a i'' k''|
      ≤ ((1 + u) ^ (3 * n) - 1) * (|a i k| * |a i' k'| * |a i'' k''|) := by
    intro i k i' k' i'' k''
    have := (((h i k).mul (h i' k')).mul (h i'' k'')).err
    rwa [show n + n + n = 3 * n by ring] at this
  have t1 := term 0 0 1 1 2 2
  have t2 := term 0 1 1 2 2 0
  have t3 := term 0 2 1 0 2 1
  have t4 := term 0 2 1 1 2 0
  have t5 := term 0 1 1 0 2 2
  have t6 := term 0 0 1 2 2 1
  unfold determinant3x3 products
  rw [abs_le] at t1 t2 t3 t4 t5 t6 ⊢
  constructor <;> linarith

/-- **C101** (in-circle): the in-circle test is true iff the point is inside the circumcircle, unless
the point is very close to the circumcircle.  Missing: points close to the circle, for which the answer
can be wrong (`in_circle_wrong`), because the matrix is computed in `f64`. -/
theorem in_circle_right_partial (t : Triangle2 ℚ) (d : P2 ℚ) (h1 : InSquare t.p1) (h2 : InSquare t.p2)
    (h3 : InSquare t.p3) (hd : InSquare d) (hpos : 0 < orient2 t) (o : P2 ℚ) (rho : ℚ)
    (r1 : distSq2 t.p1 o = rho) (r2 : distSq2 t.p2 o = rho) (r3 : distSq2 t.p3 o = rho)
    (hfar : 14 / 2 ^ 53 * products (inCircleMatrix t.p1 t.p2 t.p3 d)
      < orient2 t * |distSq2 d o - rho|) :
    inCircle t d = some (decide (distSq2 d o < rho)) := by
  have hid := inCircle_det t.p1 t.p2 t.p3 d o rho r1 r2 r3
  have happ := app_matrix h1 h2 h3 hd
  have ht : orient2 ⟨t.p1, t.p2, t.p3⟩ = orient2 t := rfl
  have hS : 0 ≤ products (inCircleMatrix t.p1 t.p2 t.p3 d) := by unfold products; positivity
  replace hfar := lt_of_le_of_lt (mul_le_mul_of_nonneg_right
    (show (1 + u) ^ 13 - 1 ≤ 14 / 2 ^ 53 by unfold u; norm_num) hS) hfar
  have hdet : |determinant3x3 (inCircleMatrix t.p1 t.p2 t.p3 d)| = orient2 t * |distSq2 d o - rho| := by
    rw [hid, ht, abs_mul, abs_of_pos hpos]
  have hsign : determinant3x3Sign (inCircleMatrixF t.p1 t.p2 t.p3 d)
      = Sign.of (determinant3x3 (inCircleMatrix t.p1 t.p2 t.p3 d)) := by
    unfold determinant3x3Sign
    split
    · have := (app_det happ (by norm_num)).err
      rw [abs_sub_comm] at this
      refine (sign_eq_of_lt (this.trans_lt ?_)).symm
      rw [hdet]
      exact hfar
    · have := exact_det_err happ
      rw [abs_sub_comm] at this
      refine (sign_eq_of_lt (this.trans_lt ?_)).symm
      rw [hdet]
      refine lt_of_le_of_lt (mul_le_mul_of_nonneg_right ?_ hS) hfar
      exact sub_le_sub_right (pow_le_pow_right₀ (by linarith [u_pos]) (by norm_num)) 1
  unfold inCircle
  rw [hsign, hid, ht]
  have hne : distSq2 d o - rho ≠ 0 := by
    intro h0
    rw [h0, abs_zero, mul_zero] at hfar
    linarith [mul_nonneg (by linarith [one_le_pow 13] : 0 ≤ (1 + u) ^ 13 - 1) hS]
  unfold Sign.of
  rcases lt_or_gt_of_ne hne with hlt | hgt
  · rw [if_pos (mul_neg_of_pos_of_neg hpos hlt), decide_eq_true (by linarith)]
    rfl
  · have := mul_pos hpos hgt
    rw [if_neg (by linarith), if_neg (by linarith), decide_eq_false (by linarith)]
    rfl

/-- A triangle. -/
def badTriangle : Triangle2 ℚ :=
  ⟨⟨7788948416524237 / 2 ^ 52, 7037375241707147 / 2 ^ 52⟩,
   ⟨7704043051359803 / 2 ^ 52, 7253203757503735 / 2 ^ 52⟩,
   ⟨5732122120140390 / 2 ^ 52, 7072633363178313 / 2 ^ 52⟩⟩

/-- A point outside its circumcircle. -/
def badCircle : P2 ℚ := ⟨6397397407053409 / 2 ^ 52, 7765136228785676 / 2 ^ 52⟩

private theorem badCircle_facts : InSquare badTriangle.p1 ∧ InSquare badTriangle.p2 ∧ InSquare badTriangle.p3
    ∧ InSquare badCircle ∧ 0 < orient2 badTriangle
    ∧ badTriangle.circumcircleContains badCircle = some false
    ∧ inCircle badTriangle badCircle = some true := by
  decide +kernel

/-- **C101** (in-circle, negation): a triangle and a point as `remap_point` returns them; the point is
strictly outside the circumcircle but the test says that it is inside. -/
theorem in_circle_wrong : ∃ (t : Triangle2 ℚ) (d o : P2 ℚ) (rho : ℚ),
    InSquare t.p1 ∧ InSquare t.p2 ∧ InSquare t.p3 ∧ InSquare d ∧ 0 < orient2 t
      ∧ distSq2 t.p1 o = rho ∧ distSq2 t.p2 o = rho ∧ distSq2 t.p3 o = rho ∧ rho < distSq2 d o
      ∧ inCircle t d = some true := by
  obtain ⟨h1, h2, h3, h4, h5, h6, h7⟩ := badCircle_facts
  obtain ⟨e2, e3⟩ := circumcentre2_equidistant badTriangle h5.ne'
  refine ⟨badTriangle, badCircle, _, _, h1, h2, h3, h4, h5, rfl, e2.symm, e3.symm, ?_, h7⟩
  exact (in_circle_correct badTriangle h5 badCircle _ _ rfl e2.symm e3.symm).2.1.mp h6

/-- A case that meets the hypotheses of the theorems above. -/
example : let t : Triangle2 ℚ := ⟨⟨1, 1⟩, ⟨2, 1⟩, ⟨1, 2⟩⟩
    let o : P2 ℚ := ⟨3 / 2, 3 / 2⟩
    let d : P2 ℚ := ⟨5 / 4, 5 / 4⟩
    (InSquare t.p1 ∧ InSquare t.p2 ∧ InSquare t.p3 ∧ InSquare d) ∧ 0 < orient2 t
      ∧ (distSq2 t.p1 o = 1 / 2 ∧ distSq2 t.p2 o = 1 / 2 ∧ distSq2 t.p3 o = 1 / 2)
      ∧ 14 / 2 ^ 53 * products (inCircleMatrix t.p1 t.p2 t.p3 d)
        < orient2 t * |distSq2 d o - 1 / 2|
      ∧ inCircle t d = some true
      ∧ 8 / 2 ^ 53 * products (inCircleMatrix t.p1 t.p2 t.p3 d)
        < |determinant3x3 (inCircleMatrix t.p1 t.p2 t.p3 d)| := by
  decide +kernel

/-! ## Containment in a triangle -/

/-- **C101** (containment): if the test in `f64` is not conclusive, the answer is the exact one.
Missing: conclusive answers, which can be wrong (`triangle_contains_wrong`). -/
theorem triangle_contains_inconclusive_partial (t : Triangle2 ℚ) (p : P2 ℚ)
    (h : triangleContainsF t p = none) (hne : orient2 t ≠ 0) (w1 w2 w3 : ℚ) (hw : Bary2 t p w1 w2 w3) :
    (triangleContains t p = some true ↔ 0 < w1 ∧ 0 < w2 ∧ 0 < w3) ∧
    (triangleContains t p = some false ↔ w1 < 0 ∨ w2 < 0 ∨ w3 < 0) := by
  unfold triangleContains
  rw [h]
  have := triangle_contains_correct t hne p w1 w2 w3 hw
  exact ⟨this.1, this.2.1⟩

/-- A thin triangle. -/
def thinTriangle : Triangle2 ℚ :=
  ⟨⟨5340461333503724 / 2 ^ 52, 6463788577768114 / 2 ^ 52⟩,
   ⟨8610798617321640 / 2 ^ 52, 5486577426743020 / 2 ^ 52⟩,
   ⟨5792011296372601 / 2 ^ 52, 6328860813546500 / 2 ^ 52⟩⟩

/-- A point outside. -/
def thinOutside : P2 ℚ := ⟨7507400583262187 / 2 ^ 52, 5816284399033144 / 2 ^ 52⟩

/-- Another thin triangle. -/
def thinTriangle' : Triangle2 ℚ :=
  ⟨⟨8529363807749878 / 2 ^ 52, 6279617234992300 / 2 ^ 52⟩,
   ⟨6753954698563984 / 2 ^ 52, 8808066883559010 / 2 ^ 52⟩,
   ⟨6774279364473847 / 2 ^ 52, 8779120639701848 / 2 ^ 52⟩⟩

/-- A point inside. -/
def thinInside : P2 ℚ := ⟨6755072454898705 / 2 ^ 52, 8806474982979625 / 2 ^ 52⟩

private theorem thin_facts :
    (InSquare thinTriangle.p1 ∧ InSquare thinTriangle.p2 ∧ InSquare thinTriangle.p3 ∧ InSquare thinOutside
      ∧ orient2 thinTriangle ≠ 0 ∧ triangleContains thinTriangle thinOutside = some true
      ∧ thinTriangle.contains thinOutside = some false) ∧
    (InSquare thinTriangle'.p1 ∧ InSquare thinTriangle'.p2 ∧ InSquare thinTriangle'.p3
      ∧ InSquare thinInside ∧ orient2 thinTriangle' ≠ 0
      ∧ triangleContains thinTriangle' thinInside = some false
      ∧ thinTriangle'.contains thinInside = some true) := by
  decide +kernel

/-- **C101** (containment, negation): there are a triangle and a point outside for which the test says
that the point is inside. -/
theorem triangle_contains_wrong : ∃ (t : Triangle2 ℚ) (p : P2 ℚ) (w1 w2 w3 : ℚ),
    InSquare t.p1 ∧ InSquare t.p2 ∧ InSquare t.p3 ∧ InSquare p ∧ orient2 t ≠ 0
      ∧ Bary2 t p w1 w2 w3 ∧ (w1 < 0 ∨ w2 < 0 ∨ w3 < 0) ∧ triangleContains t p = some true := by
  obtain ⟨⟨h1, h2, h3, h4, h5, h6, h7⟩, _⟩ := thin_facts
  obtain ⟨w1, w2, w3, hw⟩ := bary2_exists thinTriangle h5 thinOutside
  exact ⟨thinTriangle, thinOutside, w1, w2, w3, h1, h2, h3, h4, h5, hw,
    (triangle_contains_correct _ h5 _ w1 w2 w3 hw).2.1.mp h7, h6⟩

/-- **C101** (containment, negation): there are a triangle and a point inside for which the test says
that the point is outside. -/
theorem triangle_contains_misses : ∃ (t : Triangle2 ℚ) (p : P2 ℚ) (w1 w2 w3 : ℚ),
    InSquare t.p1 ∧ InSquare t.p2 ∧ InSquare t.p3 ∧ InSquare p ∧ orient2 t ≠ 0
      ∧ Bary2 t p w1 w2 w3 ∧ 0 < w1 ∧ 0 < w2 ∧ 0 < w3 ∧ triangleContains t p = some false := by
  obtain ⟨_, ⟨h1, h2, h3, h4, h5, h6, h7⟩⟩ := thin_facts
  obtain ⟨w1, w2, w3, hw⟩ := bary2_exists thinTriangle' h5 thinInside
  obtain ⟨p1, p2, p3⟩ := (triangle_contains_correct _ h5 _ w1 w2 w3 hw).1.mp h7
  exact ⟨thinTriangle', thinInside, w1, w2, w3, h1, h2, h3, h4, h5, hw, p1, p2, p3, h6⟩

/-- A case in which the test in `f64` is not conclusive. -/
example : let t : Triangle2 ℚ := ⟨⟨1, 1⟩, ⟨2, 1⟩, ⟨1, 2⟩⟩
    let p : P2 ℚ := ⟨5 / 4, 1 + 1 / 2 ^ 52⟩
    triangleContainsF t p = none ∧ orient2 t ≠ 0
      ∧ Bary2 t p (3 / 4 - 1 / 2 ^ 52) (1 / 4) (1 / 2 ^ 52) ∧ triangleContains t p = some true := by
  unfold Bary2
  decide +kernel

/-! ## Intersections of lines and triangles -/

/-- **C101** (intersections): if the classification in `f64` is not conclusive, the answer is the exact
one.  Missing: conclusive answers, which can be wrong (`line_intersection_wrong`). -/
theorem line_intersection_inconclusive_partial (t : Triangle3 ℚ) (q1 q2 : P3 ℚ) (τ w1 w2 w3 : ℚ)
    (h : lineIntersectionTypeF t q1 q2 = none)
    (hnp : orient3 ⟨⟨0, 0, 0⟩, t.p2.sub t.p1, t.p3.sub t.p1, q2.sub q1⟩ ≠ 0)
    (hw : LineBary t q1 q2 τ w1 w2 w3) :
    (lineIntersectionType t q1 q2 = some .inside ↔ ∀ e, 0 < opposite w1 w2 w3 e) ∧
    (∀ e, lineIntersectionType t q1 q2 = some (.outsideOneEdge e) ↔
      opposite w1 w2 w3 e < 0 ∧ ∀ f, f ≠ e → 0 < opposite w1 w2 w3 f) := by
  unfold lineIntersectionType
  rw [h]
  have := line_intersection_correct t q1 q2 τ w1 w2 w3 hnp hw
  exact ⟨this.1, this.2.1⟩

/-- **C101** (intersections, negation): there is a line, not parallel to the triangle, which meets the
plane of the triangle beyond edge three, and the classification says that it is inside of the
triangle. -/
theorem line_intersection_wrong : ∃ (t : Triangle3 ℚ) (q1 q2 : P3 ℚ) (τ w1 w2 w3 : ℚ),
    (InCube t.p1 ∧ InCube t.p2 ∧ InCube t.p3 ∧ InCube q1 ∧ InCube q2)
      ∧ orient3 ⟨⟨0, 0, 0⟩, t.p2.sub t.p1, t.p3.sub t.p1, q2.sub q1⟩ ≠ 0
      ∧ LineBary t q1 q2 τ w1 w2 w3 ∧ (0 < τ ∧ τ < 1) ∧ opposite w1 w2 w3 .three < 0
      ∧ lineIntersectionType t q1 q2 = some .inside := by
  refine ⟨⟨⟨8057363844054688 / 2 ^ 52, 8189135435113348 / 2 ^ 52, 6035374570995137 / 2 ^ 52⟩,
    ⟨6080662883815744 / 2 ^ 52, 6740424050403334 / 2 ^ 52, 8092482032735166 / 2 ^ 52⟩,
    ⟨6679514725237015 / 2 ^ 52, 7179325522215420 / 2 ^ 52, 7469262648992663 / 2 ^ 52⟩⟩,
    ⟨8498473956956582 / 2 ^ 52, 6066372367584606 / 2 ^ 52, 8739904161604435 / 2 ^ 52⟩,
    ⟨5816697447630754 / 2 ^ 52, 8443588020216608 / 2 ^ 52, 5914200276857482 / 2 ^ 52⟩,
    2044796796995420883147423987673589635171 / 3630295034701328604510887411908029183490, 1666250780187217322557381369723763012421 / 3630295034701328604510887411908029183490, 1964044254602447995408710644079926779421 / 3630295034701328604510887411908029183490, -44168356727602300947830304176 / 1815147517350664302255443705954014591745, ?_⟩
  unfold LineBary
  decide +kernel

/-- **C101** (intersections, negation): there is a line through the inside of a triangle for which the
classification says that it passes beyond edge two. -/
theorem line_intersection_misses : ∃ (t : Triangle3 ℚ) (q1 q2 : P3 ℚ) (τ w1 w2 w3 : ℚ),
    (InCube t.p1 ∧ InCube t.p2 ∧ InCube t.p3 ∧ InCube q1 ∧ InCube q2)
      ∧ orient3 ⟨⟨0, 0, 0⟩, t.p2.sub t.p1, t.p3.sub t.p1, q2.sub q1⟩ ≠ 0
      ∧ LineBary t q1 q2 τ w1 w2 w3 ∧ (0 < τ ∧ τ < 1) ∧ (0 < w1 ∧ 0 < w2 ∧ 0 < w3)
      ∧ lineIntersectionType t q1 q2 = some (.outsideOneEdge .two) := by
  refine ⟨⟨⟨6013913034755577 / 2 ^ 52, 6855941013284776 / 2 ^ 52, 5945468845908686 / 2 ^ 52⟩,
    ⟨6383342454750002 / 2 ^ 52, 6660113775452332 / 2 ^ 52, 5667855717269741 / 2 ^ 52⟩,
    ⟨6047677215039154 / 2 ^ 52, 6838043288395803 / 2 ^ 52, 5920096259867119 / 2 ^ 52⟩⟩,
    ⟨5352048324630940 / 2 ^ 52, 8687310727719158 / 2 ^ 52, 7027301231115720 / 2 ^ 52⟩,
    ⟨6156736885498010 / 2 ^ 52, 6488012920376006 / 2 ^ 52, 5722782817381584 / 2 ^ 52⟩,
    17523088670506112244099574897777077 / 20981716778287986834726932439810226, 7328187058571432389430030115822131 / 10490858389143993417363466219905113, 1639833942642943115350111700 / 10490858389143993417363466219905113, 3162669690738618384990320753971282 / 10490858389143993417363466219905113, ?_⟩
  unfold LineBary
  decide +kernel

/-- A case in which the classification in `f64` is not conclusive. -/
example : let t : Triangle3 ℚ := ⟨⟨1, 1, 1⟩, ⟨2, 1, 1⟩, ⟨1, 2, 1⟩⟩
    let q1 : P3 ℚ := ⟨5 / 4, 1 + 1 / 2 ^ 52, 1⟩
    let q2 : P3 ℚ := ⟨5 / 4, 1 + 1 / 2 ^ 52, 2⟩
    lineIntersectionTypeF t q1 q2 = none
      ∧ orient3 ⟨⟨0, 0, 0⟩, t.p2.sub t.p1, t.p3.sub t.p1, q2.sub q1⟩ ≠ 0
      ∧ LineBary t q1 q2 0 (3 / 4 - 1 / 2 ^ 52) (1 / 4) (1 / 2 ^ 52)
      ∧ lineIntersectionType t q1 q2 = some .inside := by
  unfold LineBary
  decide +kernel

end Verif.Rounding
