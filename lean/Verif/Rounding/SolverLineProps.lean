import Verif.Rounding.SolverProps

/-!
# C122: the intersection of a line with a triangle in `f64`
-/

namespace Verif.Rounding

open Verif.Predicates

/-- The points differ by at most `δ` in each coordinate. -/
def Near3 (δ : ℚ) (p q : P3 ℚ) : Prop := |q.x - p.x| ≤ δ ∧ |q.y - p.y| ≤ δ ∧ |q.z - p.z| ≤ δ

instance (δ : ℚ) (p q : P3 ℚ) : Decidable (Near3 δ p q) := inferInstanceAs (Decidable (_ ∧ _ ∧ _))

/-- The classification agrees with the signs of the barycentric coordinates of the intersection: it names the edges beyond which
the intersection is. -/
def Classified (w1 w2 w3 : ℚ) : IntersectionType → Prop
  | .inside => ∀ e, 0 < opposite w1 w2 w3 e
  | .outsideOneEdge e => opposite w1 w2 w3 e < 0 ∧ ∀ f, f ≠ e → 0 < opposite w1 w2 w3 f
  | .outsideTwoEdges e f => e ≠ f ∧ opposite w1 w2 w3 e < 0 ∧ opposite w1 w2 w3 f < 0 ∧
      ∀ g, g ≠ e → g ≠ f → 0 < opposite w1 w2 w3 g

/-- The matrix of the intersection. -/
def lineMatrixF (t : Triangle3 ℚ) (q1 q2 : P3 ℚ) : Mat 3 4 ℚ :=
  let a := subF t.p2 t.p1
  let b := subF t.p3 t.p1
  let k := subF q2 q1
  let c := subF q1 t.p1
  ![![a.x, b.x, -k.x, c.x], ![a.y, b.y, -k.y, c.y], ![a.z, b.z, -k.z, c.z]]

/-! ## Helper lemmas -/

theorem solverError_three {D : ℚ} (hD : 0 ≤ D) :
    solverError 3 ((1 + 1 / 2 ^ 50) * D) + (1 + 1 / 64) * (D / 2 ^ 53) ≤ 117 * (D / 2 ^ 53) := by
  unfold solverError
  norm_num
  linarith

/-- A changed matrix belongs to points nearby. -/
theorem line_points {t : Triangle3 ℚ} {q1 q2 : P3 ℚ} {D : ℚ} (hD : 1 / 2 ^ 200 ≤ D)
    (h2 : Near3 D t.p1 t.p2) (h3 : Near3 D t.p1 t.p3) (hq : Near3 D t.p1 q1) (hk : Near3 D q1 q2) :
    (∀ i j, |lineMatrixF t q1 q2 i j| ≤ (1 + 1 / 2 ^ 50) * D) ∧
    ∀ a' : Mat 3 4 ℚ, (∀ i j, |a' i j - lineMatrixF t q1 q2 i j| ≤ solverError 3 ((1 + 1 / 2 ^ 50) * D)) →
      ∃ (t' : Triangle3 ℚ) (q1' q2' : P3 ℚ), t'.p1 = t.p1 ∧ Near3 (117 * (D / 2 ^ 53)) t.p2 t'.p2 ∧
        Near3 (117 * (D / 2 ^ 53)) t.p3 t'.p3 ∧ Near3 (117 * (D / 2 ^ 53)) q1 q1' ∧
        Near3 (117 * (D / 2 ^ 53)) (q2.sub q1) (q2'.sub q1') ∧
        a' = ![![t'.p2.x - t.p1.x, t'.p3.x - t.p1.x, -(q2'.x - q1'.x), q1'.x - t.p1.x],
          ![t'.p2.y - t.p1.y, t'.p3.y - t.p1.y, -(q2'.y - q1'.y), q1'.y - t.p1.y],
          ![t'.p2.z - t.p1.z, t'.p3.z - t.p1.z, -(q2'.z - q1'.z), q1'.z - t.p1.z]] := by
  have hD0 : 0 ≤ D := le_trans (by positivity) hD
  obtain ⟨a2x, b2x⟩ := fl_sub_bounds hD h2.1
  obtain ⟨a2y, b2y⟩ := fl_sub_bounds hD h2.2.1
  obtain ⟨a2z, b2z⟩ := fl_sub_bounds hD h2.2.2
  obtain ⟨a3x, b3x⟩ := fl_sub_bounds hD h3.1
  obtain ⟨a3y, b3y⟩ := fl_sub_bounds hD h3.2.1
  obtain ⟨a3z, b3z⟩ := fl_sub_bounds hD h3.2.2
  obtain ⟨aqx, bqx⟩ := fl_sub_bounds hD hq.1
  obtain ⟨aqy, bqy⟩ := fl_sub_bounds hD hq.2.1
  obtain ⟨aqz, bqz⟩ := fl_sub_bounds hD hq.2.2
  obtain ⟨akx, bkx⟩ := fl_sub_bounds hD hk.1
  obtain ⟨aky, bky⟩ := fl_sub_bounds hD hk.2.1
  obtain ⟨akz, bkz⟩ := fl_sub_bounds hD hk.2.2
  refine ⟨?_, fun a' ha => ?_⟩
  · rw [← abs_neg] at bkx bky bkz
    intro i j
    fin_cases i <;> fin_cases j
    · exact b2x
    · exact b3x
    · exact bkx
    · exact bqx
    · exact b2y
    · exact b3y
    · exact bky
    · exact bqy
    · exact b2z
    · exact b3z
    · exact bkz
    · exact bqz
  · have hs := solverError_three hD0
    have mv : ∀ {x y f z : ℚ}, |f - (x - y)| ≤ (1 + 1 / 64) * (D / 2 ^ 53) → |z - f| ≤ solverError 3 ((1 + 1 / 2 ^ 50) * D) →
        |y + z - x| ≤ 117 * (D / 2 ^ 53) := by
      intro x y f z h1 h2
      have : |y + z - x| ≤ |z - f| + |f - (x - y)| := by
        calc |y + z - x| = |(z - f) + (f - (x - y))| := by congr 1; ring
          _ ≤ _ := abs_add_le _ _
      linarith
    have mk : ∀ {x y f z c : ℚ}, |f - (x - y)| ≤ (1 + 1 / 64) * (D / 2 ^ 53) → |z - -f| ≤ solverError 3 ((1 + 1 / 2 ^ 50) * D) →
        |(c - z - c) - (x - y)| ≤ 117 * (D / 2 ^ 53) := by
      intro x y f z c h1 h2
      have : |(c - z - c) - (x - y)| ≤ |z - -f| + |f - (x - y)| := by
        calc |(c - z - c) - (x - y)| = |-(z - -f) + (f - (x - y))| := by congr 1; ring
          _ ≤ _ := by rw [← abs_neg (z - -f)]; exact abs_add_le _ _
      linarith
    generalize solverError 3 ((1 + 1 / 2 ^ 50) * D) = E at *
    generalize 117 * (D / 2 ^ 53) = δ at *
    have c00 : |a' 0 0 - (t.p2.x ⊟ t.p1.x)| ≤ E := ha 0 0
    have c10 : |a' 1 0 - (t.p2.y ⊟ t.p1.y)| ≤ E := ha 1 0
    have c20 : |a' 2 0 - (t.p2.z ⊟ t.p1.z)| ≤ E := ha 2 0
    have c01 : |a' 0 1 - (t.p3.x ⊟ t.p1.x)| ≤ E := ha 0 1
    have c11 : |a' 1 1 - (t.p3.y ⊟ t.p1.y)| ≤ E := ha 1 1
    have c21 : |a' 2 1 - (t.p3.z ⊟ t.p1.z)| ≤ E := ha 2 1
    have c02 : |a' 0 2 - -(q2.x ⊟ q1.x)| ≤ E := ha 0 2
    have c12 : |a' 1 2 - -(q2.y ⊟ q1.y)| ≤ E := ha 1 2
    have c22 : |a' 2 2 - -(q2.z ⊟ q1.z)| ≤ E := ha 2 2
    have c03 : |a' 0 3 - (q1.x ⊟ t.p1.x)| ≤ E := ha 0 3
    have c13 : |a' 1 3 - (q1.y ⊟ t.p1.y)| ≤ E := ha 1 3
    have c23 : |a' 2 3 - (q1.z ⊟ t.p1.z)| ≤ E := ha 2 3
    refine ⟨⟨t.p1, ⟨t.p1.x + a' 0 0, t.p1.y + a' 1 0, t.p1.z + a' 2 0⟩, ⟨t.p1.x + a' 0 1, t.p1.y + a' 1 1, t.p1.z + a' 2 1⟩⟩,
      ⟨t.p1.x + a' 0 3, t.p1.y + a' 1 3, t.p1.z + a' 2 3⟩,
      ⟨t.p1.x + a' 0 3 - a' 0 2, t.p1.y + a' 1 3 - a' 1 2, t.p1.z + a' 2 3 - a' 2 2⟩, rfl,
      ⟨mv a2x c00, mv a2y c10, mv a2z c20⟩, ⟨mv a3x c01, mv a3y c11, mv a3z c21⟩, ⟨mv aqx c03, mv aqy c13, mv aqz c23⟩,
      ⟨mk akx c02, mk aky c12, mk akz c22⟩, ?_⟩
    funext i j
    fin_cases i <;> fin_cases j <;> simp

/-- What the signs of the classification mean. -/
theorem intersectionTypeF_spec {r s : ℚ} {o : Option IntersectionType} (h : intersectionTypeF r s = some o) :
    ∃ ty, o = some ty ∧ Classified (1 - (r + s)) r s ty := by
  unfold intersectionTypeF at h
  dsimp only at h
  have sp := @one_sub_sum_pos r s
  have sn := @one_sub_sum_neg r s
  rcases trySign_cases r with e0 | ⟨p0, e0⟩ | ⟨p0, e0⟩
  · rw [e0] at h; simp at h
  all_goals
    rcases trySign_cases s with e1 | ⟨p1, e1⟩ | ⟨p1, e1⟩
    · rw [e1] at h; simp at h
    all_goals
      rcases trySign_cases (1 ⊟ (r ⊞ s)) with e2 | ⟨p2, e2⟩ | ⟨p2, e2⟩
      · rw [e2] at h; simp at h
      all_goals
        first
        | have p2' := sp p2
        | have p2' := sn p2
        rw [e0, e1, e2] at h
        simp at h
        first
        | (exfalso; linarith)
        | (subst h
           refine ⟨_, rfl, ?_⟩
           simp only [Classified])
  · rintro (_ | _ | _) <;> simp only [opposite] <;> linarith
  · refine ⟨by simp only [opposite]; linarith, ?_⟩
    rintro (_ | _ | _) hf <;> first | exact absurd rfl hf | (simp only [opposite]; linarith)
  · refine ⟨by simp only [opposite]; linarith, ?_⟩
    rintro (_ | _ | _) hf <;> first | exact absurd rfl hf | (simp only [opposite]; linarith)
  · refine ⟨by decide, by simp only [opposite]; linarith, by simp only [opposite]; linarith, ?_⟩
    rintro (_ | _ | _) hf hg <;> first | exact absurd rfl hf | exact absurd rfl hg | (simp only [opposite]; linarith)
  · refine ⟨by simp only [opposite]; linarith, ?_⟩
    rintro (_ | _ | _) hf <;> first | exact absurd rfl hf | (simp only [opposite]; linarith)
  · refine ⟨by decide, by simp only [opposite]; linarith, by simp only [opposite]; linarith, ?_⟩
    rintro (_ | _ | _) hf hg <;> first | exact absurd rfl hf | exact absurd rfl hg | (simp only [opposite]; linarith)
  · refine ⟨by decide, by simp only [opposite]; linarith, by simp only [opposite]; linarith, ?_⟩
    rintro (_ | _ | _) hf hg <;> first | exact absurd rfl hf | exact absurd rfl hg | (simp only [opposite]; linarith)

theorem Classified.transfer {w1 w2 w3 v1 v2 v3 : ℚ} (h1 : (0 < w1 ↔ 0 < v1) ∧ (w1 < 0 ↔ v1 < 0))
    (h2 : (0 < w2 ↔ 0 < v2) ∧ (w2 < 0 ↔ v2 < 0)) (h3 : (0 < w3 ↔ 0 < v3) ∧ (w3 < 0 ↔ v3 < 0)) {ty : IntersectionType}
    (h : Classified v1 v2 v3 ty) : Classified w1 w2 w3 ty := by
  have hp : ∀ e, 0 < opposite w1 w2 w3 e ↔ 0 < opposite v1 v2 v3 e := by
    rintro (_ | _ | _)
    · exact h1.1
    · exact h2.1
    · exact h3.1
  have hn : ∀ e, opposite w1 w2 w3 e < 0 ↔ opposite v1 v2 v3 e < 0 := by
    rintro (_ | _ | _)
    · exact h1.2
    · exact h2.2
    · exact h3.2
  cases ty <;> simp only [Classified, hp, hn] at h ⊢ <;> exact h

theorem abs_mul3_le {p q r A B C : ℚ} (hA : 0 ≤ A) (hB : 0 ≤ B) (hp : |p| ≤ A) (hq : |q| ≤ B) (hr : |r| ≤ C) :
    |p * q * r| ≤ A * B * C := by
  rw [abs_mul, abs_mul]
  exact mul_le_mul (mul_le_mul hp hq (abs_nonneg _) hA) hr (abs_nonneg _) (mul_nonneg hA hB)

/-- The change of a product. -/
theorem mul3_change {x y z x' y' z' D δ : ℚ} (hD : 0 ≤ D) (hδ : 0 ≤ δ) (hδD : 1000 * δ ≤ D) (hx : |x| ≤ D) (hy : |y| ≤ D)
    (hz : |z| ≤ D) (hx' : |x' - x| ≤ δ) (hy' : |y' - y| ≤ δ) (hz' : |z' - z| ≤ δ) :
    |x' * y' * z' - x * y * z| ≤ 3016 / 1000 * (D ^ 2 * δ) := by
  have e : x' * y' * z' - x * y * z = (x' - x) * y * z + x * (y' - y) * z + x * y * (z' - z) + (x' - x) * (y' - y) * z
    + (x' - x) * y * (z' - z) + x * (y' - y) * (z' - z) + (x' - x) * (y' - y) * (z' - z) := by ring
  have e1 : δ * D * D = D ^ 2 * δ := by ring
  have e2 : D * δ * D = D ^ 2 * δ := by ring
  have e3 : D * D * δ = D ^ 2 * δ := by ring
  have e4 : δ * δ * D = D * δ ^ 2 := by ring
  have e5 : δ * D * δ = D * δ ^ 2 := by ring
  have e6 : D * δ * δ = D * δ ^ 2 := by ring
  have g1 := abs_le.1 (abs_mul3_le hδ hD hx' hy hz)
  have g2 := abs_le.1 (abs_mul3_le hD hδ hx hy' hz)
  have g3 := abs_le.1 (abs_mul3_le hD hD hx hy hz')
  have g4 := abs_le.1 (abs_mul3_le hδ hδ hx' hy' hz)
  have g5 := abs_le.1 (abs_mul3_le hδ hD hx' hy hz')
  have g6 := abs_le.1 (abs_mul3_le hD hδ hx hy' hz')
  have g7 := abs_le.1 (abs_mul3_le hδ hδ hx' hy' hz')
  have k1 : D * δ ^ 2 ≤ 1 / 1000 * (D ^ 2 * δ) := by
    have h1 := mul_le_mul_of_nonneg_left hδD (mul_nonneg hD hδ)
    have h2 : D * δ * (1000 * δ) = 1000 * (D * δ ^ 2) := by ring
    rw [h2, e2] at h1
    linarith
  have k2 : δ * δ * δ ≤ D * δ ^ 2 := by
    have h1 := mul_le_mul_of_nonneg_right (show δ ≤ D by linarith) (mul_nonneg hδ hδ)
    rw [← mul_assoc, ← mul_assoc, e6] at h1
    exact h1
  rw [e1] at g1
  rw [e2] at g2
  rw [e3] at g3
  rw [e4] at g4
  rw [e5] at g5
  rw [e6] at g6
  have kpos : 0 ≤ D ^ 2 * δ := by positivity
  rw [e, abs_le]
  generalize D ^ 2 * δ = T at *
  generalize D * δ ^ 2 = U at *
  generalize δ * δ * δ = W at *
  generalize (x' - x) * y * z = A1 at *
  generalize x * (y' - y) * z = A2 at *
  generalize x * y * (z' - z) = A3 at *
  generalize (x' - x) * (y' - y) * z = A4 at *
  generalize (x' - x) * y * (z' - z) = A5 at *
  generalize x * (y' - y) * (z' - z) = A6 at *
  generalize (x' - x) * (y' - y) * (z' - z) = A7 at *
  obtain ⟨g1, g1'⟩ := g1
  obtain ⟨g2, g2'⟩ := g2
  obtain ⟨g3, g3'⟩ := g3
  obtain ⟨g4, g4'⟩ := g4
  obtain ⟨g5, g5'⟩ := g5
  obtain ⟨g6, g6'⟩ := g6
  obtain ⟨g7, g7'⟩ := g7
  constructor <;> linarith

/-- The change of a determinant. -/
theorem det3_change {a b c a' b' c' : P3 ℚ} {D δ : ℚ} (hD : 0 ≤ D) (hδ : 0 ≤ δ) (hδD : 1000 * δ ≤ D)
    (ha : |a.x| ≤ D ∧ |a.y| ≤ D ∧ |a.z| ≤ D) (hb : |b.x| ≤ D ∧ |b.y| ≤ D ∧ |b.z| ≤ D) (hc : |c.x| ≤ D ∧ |c.y| ≤ D ∧ |c.z| ≤ D)
    (ha' : Near3 δ a a') (hb' : Near3 δ b b') (hc' : Near3 δ c c') :
    |orient3 ⟨⟨0, 0, 0⟩, a', b', c'⟩ - orient3 ⟨⟨0, 0, 0⟩, a, b, c⟩| ≤ 181 / 10 * (D ^ 2 * δ) := by
  have m1 := abs_le.1 (mul3_change hD hδ hδD ha.1 hb.2.1 hc.2.2 ha'.1 hb'.2.1 hc'.2.2)
  have m2 := abs_le.1 (mul3_change hD hδ hδD ha.1 hb.2.2 hc.2.1 ha'.1 hb'.2.2 hc'.2.1)
  have m3 := abs_le.1 (mul3_change hD hδ hδD ha.2.1 hb.1 hc.2.2 ha'.2.1 hb'.1 hc'.2.2)
  have m4 := abs_le.1 (mul3_change hD hδ hδD ha.2.1 hb.2.2 hc.1 ha'.2.1 hb'.2.2 hc'.1)
  have m5 := abs_le.1 (mul3_change hD hδ hδD ha.2.2 hb.1 hc.2.1 ha'.2.2 hb'.1 hc'.2.1)
  have m6 := abs_le.1 (mul3_change hD hδ hδD ha.2.2 hb.2.1 hc.1 ha'.2.2 hb'.2.1 hc'.1)
  have kpos : 0 ≤ D ^ 2 * δ := by positivity
  have e : orient3 ⟨⟨0, 0, 0⟩, a', b', c'⟩ - orient3 ⟨⟨0, 0, 0⟩, a, b, c⟩ =
      (a'.x * b'.y * c'.z - a.x * b.y * c.z) - (a'.x * b'.z * c'.y - a.x * b.z * c.y) - (a'.y * b'.x * c'.z - a.y * b.x * c.z)
      + (a'.y * b'.z * c'.x - a.y * b.z * c.x) + (a'.z * b'.x * c'.y - a.z * b.x * c.y) - (a'.z * b'.y * c'.x - a.z * b.y * c.x) := by
    rw [orient3_eq, orient3_eq]
    simp only [sub_zero]
    ring
  rw [e, abs_le]
  clear e ha hb hc ha' hb' hc'
  generalize a'.x * b'.y * c'.z - a.x * b.y * c.z = A1 at *
  generalize a'.x * b'.z * c'.y - a.x * b.z * c.y = A2 at *
  generalize a'.y * b'.x * c'.z - a.y * b.x * c.z = A3 at *
  generalize a'.y * b'.z * c'.x - a.y * b.z * c.x = A4 at *
  generalize a'.z * b'.x * c'.y - a.z * b.x * c.y = A5 at *
  generalize a'.z * b'.y * c'.x - a.z * b.y * c.x = A6 at *
  generalize D ^ 2 * δ = T at *
  obtain ⟨m1, m1'⟩ := m1
  obtain ⟨m2, m2'⟩ := m2
  obtain ⟨m3, m3'⟩ := m3
  obtain ⟨m4, m4'⟩ := m4
  obtain ⟨m5, m5'⟩ := m5
  obtain ⟨m6, m6'⟩ := m6
  constructor <;> linarith

/-! ## Theorems -/

/-- **C122** (intersections): an answer of the classification in `f64` is the exact answer for points moved by at most 117
rounding errors of the distance `D` (the direction of the line changes by as much); and there is no panic. -/
theorem line_intersection_nearby (t : Triangle3 ℚ) (q1 q2 : P3 ℚ) (D : ℚ) (hD : 1 / 2 ^ 200 ≤ D) (h2 : Near3 D t.p1 t.p2)
    (h3 : Near3 D t.p1 t.p3) (hq : Near3 D t.p1 q1) (hk : Near3 D q1 q2) (o : Option IntersectionType)
    (h : lineIntersectionTypeF t q1 q2 = some o) :
    ∃ (t' : Triangle3 ℚ) (q1' q2' : P3 ℚ) (τ w1 w2 w3 : ℚ) (ty : IntersectionType), t'.p1 = t.p1 ∧
      Near3 (117 * (D / 2 ^ 53)) t.p2 t'.p2 ∧ Near3 (117 * (D / 2 ^ 53)) t.p3 t'.p3 ∧ Near3 (117 * (D / 2 ^ 53)) q1 q1' ∧
      Near3 (117 * (D / 2 ^ 53)) (q2.sub q1) (q2'.sub q1') ∧
      LineBary t' q1' q2' τ w1 w2 w3 ∧ o = some ty ∧ Classified w1 w2 w3 ty := by
  unfold lineIntersectionTypeF at h
  dsimp only at h
  obtain ⟨x, hx, h⟩ := Option.bind_eq_some_iff.1 h
  change solveSystemF (lineMatrixF t q1 q2) = some x at hx
  obtain ⟨ty, ho, hty⟩ := intersectionTypeF_spec h
  obtain ⟨hb, hpts⟩ := line_points hD h2 h3 hq hk
  have hD0 : 0 ≤ D := le_trans (by positivity) hD
  obtain ⟨a', ha, hs⟩ := solver_backward_stable (by norm_num) (by norm_num) _ _ (hD.trans (le_mul_of_one_le_left hD0 (by norm_num))) hb x hx
  obtain ⟨t', q1', q2', e1, n2, n3, nq, nk, e⟩ := hpts a' ha
  have s0 := hs 0
  have s1 := hs 1
  have s2 := hs 2
  rw [Fin.sum_univ_three, e] at s0 s1 s2
  have s0' : (t'.p2.x - t.p1.x) * x 0 + (t'.p3.x - t.p1.x) * x 1 + -(q2'.x - q1'.x) * x 2 = q1'.x - t.p1.x := s0
  have s1' : (t'.p2.y - t.p1.y) * x 0 + (t'.p3.y - t.p1.y) * x 1 + -(q2'.y - q1'.y) * x 2 = q1'.y - t.p1.y := s1
  have s2' : (t'.p2.z - t.p1.z) * x 0 + (t'.p3.z - t.p1.z) * x 1 + -(q2'.z - q1'.z) * x 2 = q1'.z - t.p1.z := s2
  refine ⟨t', q1', q2', x 2, 1 - (x 0 + x 1), x 0, x 1, ty, e1, n2, n3, nq, nk, ⟨by ring, ?_, ?_, ?_⟩, ho, hty⟩
  · rw [e1]; linear_combination -s0'
  · rw [e1]; linear_combination -s1'
  · rw [e1]; linear_combination -s2'

/-- **C122** (intersections): the classification is right, does not panic and does not divide by zero, if the volume spanned by
the triangle and the direction of the line, and its multiples by the three barycentric coordinates of the intersection, are larger
than about 7000 rounding errors of the cubed distance. -/
theorem line_intersection_right (t : Triangle3 ℚ) (q1 q2 : P3 ℚ) (D : ℚ) (hD : 1 / 2 ^ 200 ≤ D) (h2 : Near3 D t.p1 t.p2)
    (h3 : Near3 D t.p1 t.p3) (hq : Near3 D t.p1 q1) (hk : Near3 D q1 q2) (τ w1 w2 w3 : ℚ) (hw : LineBary t q1 q2 τ w1 w2 w3)
    (hmargin : ∀ w ∈ [1, w1, w2, w3],
      7000 * (D ^ 3 / 2 ^ 53) < |w * orient3 ⟨⟨0, 0, 0⟩, t.p2.sub t.p1, t.p3.sub t.p1, q2.sub q1⟩|) :
    (solveSystemF (lineMatrixF t q1 q2)).isSome = true ∧
    ∃ ty, lineIntersectionType t q1 q2 = some ty ∧ Classified w1 w2 w3 ty := by
  have hD0 : 0 ≤ D := le_trans (by positivity) hD
  obtain ⟨hb, hpts⟩ := line_points hD h2 h3 hq hk
  have hB := hD.trans (le_mul_of_one_le_left hD0 (b := D) (a := 1 + 1 / 2 ^ 50) (by norm_num))
  have hδD : 1000 * (117 * (D / 2 ^ 53)) ≤ D := by norm_num; linarith
  have hδ0 : 0 ≤ 117 * (D / 2 ^ 53) := by positivity
  have hq0 : 0 ≤ D ^ 3 / 2 ^ 53 := by positivity
  have hsq : 181 / 10 * (D ^ 2 * (117 * (D / 2 ^ 53))) ≤ 2200 * (D ^ 3 / 2 ^ 53) := by
    have e : D ^ 2 * (117 * (D / 2 ^ 53)) = 117 * (D ^ 3 / 2 ^ 53) := by ring
    rw [e]; linarith
  have m0 := hmargin 1 (by simp)
  have m1 := hmargin w1 (by simp)
  have m2 := hmargin w2 (by simp)
  have m3 := hmargin w3 (by simp)
  clear hmargin
  rw [one_mul] at m0
  have hne : orient3 ⟨⟨0, 0, 0⟩, t.p2.sub t.p1, t.p3.sub t.p1, q2.sub q1⟩ ≠ 0 := by
    intro h
    rw [h, abs_zero] at m0
    linarith
  have hnz : ∀ w : ℚ, 7000 * (D ^ 3 / 2 ^ 53) < |w * orient3 ⟨⟨0, 0, 0⟩, t.p2.sub t.p1, t.p3.sub t.p1, q2.sub q1⟩| → w ≠ 0 := by
    rintro w h rfl
    rw [zero_mul, abs_zero] at h
    linarith
  have hw' := hw
  obtain ⟨ws, wx, wy, wz⟩ := hw
  have hw1 : w1 = 1 - w2 - w3 := by linear_combination ws
  have cx : q1.x - t.p1.x = w2 * (t.p2.x - t.p1.x) + w3 * (t.p3.x - t.p1.x) - τ * (q2.x - q1.x) := by
    rw [hw1] at wx; linear_combination wx
  have cy : q1.y - t.p1.y = w2 * (t.p2.y - t.p1.y) + w3 * (t.p3.y - t.p1.y) - τ * (q2.y - q1.y) := by
    rw [hw1] at wy; linear_combination wy
  have cz : q1.z - t.p1.z = w2 * (t.p2.z - t.p1.z) + w3 * (t.p3.z - t.p1.z) - τ * (q2.z - q1.z) := by
    rw [hw1] at wz; linear_combination wz
  have num : ∀ (a b k c : P3 ℚ) (r s u : ℚ), c.x = r * a.x + s * b.x - u * k.x → c.y = r * a.y + s * b.y - u * k.y →
      c.z = r * a.z + s * b.z - u * k.z →
      orient3 ⟨⟨0, 0, 0⟩, c, b, k⟩ = r * orient3 ⟨⟨0, 0, 0⟩, a, b, k⟩ ∧ orient3 ⟨⟨0, 0, 0⟩, a, c, k⟩ = s * orient3 ⟨⟨0, 0, 0⟩, a, b, k⟩ := by
    intro a b k c r s u hx hy hz
    simp only [orient3_eq, sub_zero]
    rw [hx, hy, hz]
    constructor <;> ring
  obtain ⟨n2, n3⟩ := num (t.p2.sub t.p1) (t.p3.sub t.p1) (q2.sub q1) (q1.sub t.p1) w2 w3 τ cx cy cz
  have sub : ∀ {p q q' : P3 ℚ}, Near3 (117 * (D / 2 ^ 53)) q q' → Near3 (117 * (D / 2 ^ 53)) (q.sub p) (q'.sub p) := by
    intro p q q' h
    unfold Near3 P3.sub
    dsimp only
    simp only [sub_sub_sub_cancel_right]
    exact h
  have vol : ∀ {a b k a' b' k' : P3 ℚ}, (|a.x| ≤ D ∧ |a.y| ≤ D ∧ |a.z| ≤ D) → (|b.x| ≤ D ∧ |b.y| ≤ D ∧ |b.z| ≤ D) →
      (|k.x| ≤ D ∧ |k.y| ≤ D ∧ |k.z| ≤ D) →
      Near3 (117 * (D / 2 ^ 53)) a a' → Near3 (117 * (D / 2 ^ 53)) b b' → Near3 (117 * (D / 2 ^ 53)) k k' →
      |orient3 ⟨⟨0, 0, 0⟩, a', b', k'⟩ - orient3 ⟨⟨0, 0, 0⟩, a, b, k⟩| ≤ 2200 * (D ^ 3 / 2 ^ 53) :=
    fun ha hb hk ha' hb' hk' => (det3_change hD0 hδ0 hδD ha hb hk ha' hb' hk').trans hsq
  have hsome : (solveSystemF (lineMatrixF t q1 q2)).isSome = true := by
    cases hn : solveSystemF (lineMatrixF t q1 q2) with
    | some x => rfl
    | none =>
      exfalso
      obtain ⟨a', ha, hdet⟩ := solver_division_by_zero (by norm_num) _ _ hB hb hn
      obtain ⟨t', q1', q2', e1, r2, r3, -, rk, e⟩ := hpts a' ha
      have hA := vol (a := t.p2.sub t.p1) (b := t.p3.sub t.p1) (k := q2.sub q1) h2 h3 hk (sub r2) (sub r3) rk
      rw [Matrix.det_fin_three] at hdet
      simp only [Matrix.of_apply] at hdet
      rw [e] at hdet
      have hdet' : (t'.p2.x - t.p1.x) * (t'.p3.y - t.p1.y) * -(q2'.z - q1'.z) - (t'.p2.x - t.p1.x) * -(q2'.y - q1'.y) * (t'.p3.z - t.p1.z)
          - (t'.p3.x - t.p1.x) * (t'.p2.y - t.p1.y) * -(q2'.z - q1'.z) + (t'.p3.x - t.p1.x) * -(q2'.y - q1'.y) * (t'.p2.z - t.p1.z)
          + -(q2'.x - q1'.x) * (t'.p2.y - t.p1.y) * (t'.p3.z - t.p1.z) - -(q2'.x - q1'.x) * (t'.p3.y - t.p1.y) * (t'.p2.z - t.p1.z) = 0 := hdet
      have h0 : orient3 ⟨⟨0, 0, 0⟩, t'.p2.sub t.p1, t'.p3.sub t.p1, q2'.sub q1'⟩ = 0 := by
        simp only [orient3_eq, P3.sub, sub_zero]
        linear_combination -hdet'
      rw [h0, zero_sub, abs_neg] at hA
      linarith
  refine ⟨hsome, ?_⟩
  cases hF : lineIntersectionTypeF t q1 q2 with
  | none =>
    have hl : lineIntersectionType t q1 q2 = t.lineIntersectionType q1 q2 := by
      unfold lineIntersectionType
      rw [hF]
    obtain ⟨k1, k2, k3, k4⟩ := line_intersection_correct t q1 q2 τ w1 w2 w3 hne hw'
    rw [hl]
    cases hty : t.lineIntersectionType q1 q2 with
    | none =>
      exfalso
      obtain ⟨e, he⟩ := k4.1 hty
      rcases e with _ | _ | _
      · exact hnz _ m1 he
      · exact hnz _ m2 he
      · exact hnz _ m3 he
    | some ty =>
      refine ⟨ty, rfl, ?_⟩
      cases ty with
      | inside => exact k1.1 hty
      | outsideOneEdge e => exact (k2 e).1 hty
      | outsideTwoEdges e f => exact k3 e f hty
  | some o =>
    obtain ⟨t', q1', q2', τ', v1, v2, v3, ty, e1, r2, r3, rq, rk, ⟨vs, vx, vy, vz⟩, ho, hty⟩ :=
      line_intersection_nearby t q1 q2 D hD h2 h3 hq hk o hF
    have hl : lineIntersectionType t q1 q2 = some ty := by
      unfold lineIntersectionType
      rw [hF, ho]
    refine ⟨ty, hl, ?_⟩
    have hv1 : v1 = 1 - v2 - v3 := by linear_combination vs
    rw [hv1, e1] at vx vy vz
    have cx' : q1'.x - t.p1.x = v2 * (t'.p2.x - t.p1.x) + v3 * (t'.p3.x - t.p1.x) - τ' * (q2'.x - q1'.x) := by
      linear_combination vx
    have cy' : q1'.y - t.p1.y = v2 * (t'.p2.y - t.p1.y) + v3 * (t'.p3.y - t.p1.y) - τ' * (q2'.y - q1'.y) := by
      linear_combination vy
    have cz' : q1'.z - t.p1.z = v2 * (t'.p2.z - t.p1.z) + v3 * (t'.p3.z - t.p1.z) - τ' * (q2'.z - q1'.z) := by
      linear_combination vz
    obtain ⟨n2', n3'⟩ := num (t'.p2.sub t.p1) (t'.p3.sub t.p1) (q2'.sub q1') (q1'.sub t.p1) v2 v3 τ' cx' cy' cz'
    have c0 := vol (a := t.p2.sub t.p1) (b := t.p3.sub t.p1) (k := q2.sub q1) h2 h3 hk (sub r2) (sub r3) rk
    have c2 := vol (a := q1.sub t.p1) (b := t.p3.sub t.p1) (k := q2.sub q1) hq h3 hk (sub rq) (sub r3) rk
    have c3 := vol (a := t.p2.sub t.p1) (b := q1.sub t.p1) (k := q2.sub q1) h2 hq hk (sub r2) (sub rq) rk
    generalize orient3 ⟨⟨0, 0, 0⟩, t.p2.sub t.p1, t.p3.sub t.p1, q2.sub q1⟩ = V at *
    generalize orient3 ⟨⟨0, 0, 0⟩, t'.p2.sub t.p1, t'.p3.sub t.p1, q2'.sub q1'⟩ = V' at *
    rw [n2, n2'] at c2
    rw [n3, n3'] at c3
    have d0 : |V' - V| < |V| := by linarith
    have s2 := sign_of_quotient (w := w2) (w' := v2) (n := w2 * V) (n' := v2 * V') (by linarith) d0 rfl rfl
    have s3 := sign_of_quotient (w := w3) (w' := v3) (n := w3 * V) (n' := v3 * V') (by linarith) d0 rfl rfl
    have s1 := sign_of_quotient (w := w1) (w' := v1) (n := w1 * V) (n' := v1 * V') (by
      have e : v1 * V' - w1 * V = (V' - V) - (v2 * V' - w2 * V) - (v3 * V' - w3 * V) := by rw [hv1, hw1]; ring
      rw [e]
      have g1 := abs_sub (V' - V - (v2 * V' - w2 * V)) (v3 * V' - w3 * V)
      have g2 := abs_sub (V' - V) (v2 * V' - w2 * V)
      linarith) d0 rfl rfl
    exact hty.transfer s1 s2 s3

/-- A line that passes a triangle beyond one edge, by a little. -/
example : let t : Triangle3 ℚ := ⟨⟨1, 1, 1⟩, ⟨2, 1, 1⟩, ⟨1, 2, 1⟩⟩
    let q1 : P3 ℚ := ⟨3 / 2, 1 - 1 / 2 ^ 38, 1⟩
    let q2 : P3 ℚ := ⟨3 / 2, 1 - 1 / 2 ^ 38, 2⟩
    Near3 1 t.p1 t.p2 ∧ Near3 1 t.p1 t.p3 ∧ Near3 1 t.p1 q1 ∧ Near3 1 q1 q2 ∧
      LineBary t q1 q2 0 (1 / 2 + 1 / 2 ^ 38) (1 / 2) (-1 / 2 ^ 38) ∧
      lineIntersectionTypeF t q1 q2 = some (some (.outsideOneEdge .three)) := by
  unfold LineBary
  decide +kernel

example : ∀ w ∈ [1, 1 / 2 + 1 / 2 ^ 38, 1 / 2, -1 / 2 ^ 38], (7000 : ℚ) * (1 ^ 3 / 2 ^ 53) <
    |w * orient3 ⟨⟨0, 0, 0⟩, P3.sub ⟨2, 1, 1⟩ ⟨1, 1, 1⟩, P3.sub ⟨1, 2, 1⟩ ⟨1, 1, 1⟩,
      P3.sub ⟨3 / 2, 1 - 1 / 2 ^ 38, 2⟩ ⟨3 / 2, 1 - 1 / 2 ^ 38, 1⟩⟩| := by
  simp only [orient3_eq, P3.sub]
  decide +kernel

end Verif.Rounding
