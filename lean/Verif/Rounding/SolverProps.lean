import Verif.Rounding.SolverBack
import Verif.Rounding.InCircleProps

/-!
# C122: the solver of linear systems in `f64` and the tests that use it

The solver gives the exact solution of a system whose entries are changed by a few rounding errors of the largest entry.  The
containment test of a triangle and the classification of the intersection of a line with a triangle therefore answer for points
that are moved by a few rounding errors, and are right unless the exact answer hangs on such a movement.
-/

namespace Verif.Rounding

open Verif.Predicates

/-! ## The solver -/

/-- The largest change of an entry that explains what the solver does with `m` equations whose entries are at most `B`: about 24,
115 and 534 rounding errors of the largest entry for two, three and four equations. -/
def solverError (m : ℕ) (B : ℚ) : ℚ := (402 / 100) ^ (m - 1) * (103 / 100 * m + 4) * (B / 2 ^ 53)

/-- **C122** (solver): what the solver returns is the exact solution of a system in which every entry is changed by at most
`solverError`. -/
theorem solver_backward_stable {m : ℕ} (hm1 : 1 ≤ m) (hm : m ≤ 2 ^ 40) (a : Mat m (m + 1) ℚ) (B : ℚ) (hB : 1 / 2 ^ 200 ≤ B)
    (hb : ∀ i j, |a i j| ≤ B) (x : Fin m → ℚ) (h : solveSystemF a = some x) :
    ∃ a' : Mat m (m + 1) ℚ, (∀ i j, |a' i j - a i j| ≤ solverError m B) ∧
      ∀ i, ∑ j, a' i j.castSucc * x j = a' i (Fin.last m) := by
  choose a' h1 h2 using solveSystemF_near hm1 hm hB hb h
  refine ⟨a', h1, fun i => ?_⟩
  have := h2 i
  unfold resid at this
  rw [one_mul] at this
  linarith

/-- **C122** (solver): the solver divides by zero only if the coefficients, changed by at most `solverError`, have the determinant
zero. -/
theorem solver_division_by_zero {m : ℕ} (hm1 : 1 ≤ m) (a : Mat m (m + 1) ℚ) (B : ℚ) (hB : 1 / 2 ^ 200 ≤ B)
    (hb : ∀ i j, |a i j| ≤ B) (h : solveSystemF a = none) :
    ∃ a' : Mat m (m + 1) ℚ, (∀ i j, |a' i j - a i j| ≤ solverError m B) ∧
      (Matrix.of fun i j : Fin m => a' i j.castSucc).det = 0 := by
  obtain ⟨v, hv, hn⟩ := solveSystemF_none hm1 hB hb h
  choose a' h1 h2 using hn
  refine ⟨a', h1, Matrix.exists_mulVec_eq_zero_iff.1 ⟨v, hv, funext fun i => ?_⟩⟩
  have := h2 i
  simpa [resid, Matrix.mulVec, dotProduct] using this

/-- A system the solver solves only approximately: the computed values times the coefficients are not the right-hand sides. -/
example : let a : Mat 2 3 ℚ := ![![3, 1, 1], ![1, 7, 3]]
    (∀ i j, |a i j| ≤ 7) ∧ ∃ x, solveSystemF a = some x ∧ ¬ (3 * x 0 + x 1 = 1 ∧ x 0 + 7 * x 1 = 3) := by
  refine ⟨by decide +kernel, ?_⟩
  have h : ∃ y, solveSystemF (![![3, 1, 1], ![1, 7, 3]] : Mat 2 3 ℚ) = some y :=
    Option.isSome_iff_exists.1 (by decide +kernel)
  obtain ⟨y, hy⟩ := h
  refine ⟨y, hy, ?_⟩
  have hq : (solveSystemF (![![3, 1, 1], ![1, 7, 3]] : Mat 2 3 ℚ)).any (fun x => decide (¬ (3 * x 0 + x 1 = 1 ∧ x 0 + 7 * x 1 = 3))) = true := by
    decide +kernel
  rw [hy] at hq
  simp only [Option.any_some, decide_eq_true_eq] at hq
  exact hq

/-- A system in which the solver divides by zero. -/
example : solveSystemF (![![1, 2, 1], ![2, 4, 1]] : Mat 2 3 ℚ) = none := by decide +kernel

/-! ## Helper lemmas -/

theorem fl_sub_bounds {x y D : ℚ} (hD : 1 / 2 ^ 200 ≤ D) (h : |x - y| ≤ D) :
    |x ⊟ y - (x - y)| ≤ (1 + 1 / 64) * (D / 2 ^ 53) ∧ |x ⊟ y| ≤ (1 + 1 / 2 ^ 50) * D := by
  have h1 := fl_err_M (k := 1) hD (x := x - y) (by rw [one_mul]; exact h)
  change |x ⊟ y - (x - y)| ≤ _ at h1
  refine ⟨h1, ?_⟩
  have h2 : |x ⊟ y| ≤ |x - y| + |x ⊟ y - (x - y)| := by
    have := abs_add_le (x - y) (x ⊟ y - (x - y))
    rwa [add_sub_cancel] at this
  have hD0 : 0 ≤ D := le_trans (by positivity) hD
  norm_num at h1 ⊢
  linarith

theorem one_sub_sum_pos {r s : ℚ} (h : 0 < 1 ⊟ (r ⊞ s)) : r + s < 1 := by
  by_contra hc
  have h1 : 1 ≤ r ⊞ s := le_fl isF64_one (not_lt.1 hc)
  have h2 : 1 ⊟ (r ⊞ s) ≤ 0 := fl_le (by simp [IsF64, fl_zero]) (by linarith)
  linarith

theorem one_sub_sum_neg {r s : ℚ} (h : 1 ⊟ (r ⊞ s) < 0) : 1 < r + s := by
  by_contra hc
  have h1 : r ⊞ s ≤ 1 := fl_le isF64_one (not_lt.1 hc)
  have h2 : 0 ≤ 1 ⊟ (r ⊞ s) := fl_nonneg (by linarith)
  linarith

theorem trySign_cases (v : ℚ) : trySign v eps15 = none ∨ (0 < v ∧ trySign v eps15 = some .positive) ∨
    (v < 0 ∧ trySign v eps15 = some .negative) := by
  have he : 0 < eps15 := lt_trans (by norm_num) eps15_pos
  unfold trySign
  by_cases h : |v| < eps15
  · left; rw [if_pos h]
  · right
    rw [if_neg h]
    have hv : v ≠ 0 := by
      rintro rfl
      rw [abs_zero] at h
      exact h he
    unfold Sign.of
    rcases lt_or_gt_of_ne hv with h1 | h1
    · right; exact ⟨h1, by rw [if_pos h1]⟩
    · left; exact ⟨h1, by rw [if_neg h1.not_gt, if_neg hv]⟩

/-- Two quotients of nearly the same numbers have the same sign. -/
theorem sign_of_quotient {n n' d d' w w' : ℚ} (hn : |n' - n| < |n|) (hd : |d' - d| < |d|) (h : n = w * d) (h' : n' = w' * d') :
    (0 < w ↔ 0 < w') ∧ (w < 0 ↔ w' < 0) := by
  have pos : ∀ {x x' : ℚ}, |x' - x| < |x| → 0 < x → 0 < x' := by
    intro x x' h h0
    rw [abs_of_pos h0, abs_lt] at h
    linarith
  have neg : ∀ {x x' : ℚ}, |x' - x| < |x| → x < 0 → x' < 0 := by
    intro x x' h h0
    rw [abs_of_neg h0, abs_lt] at h
    linarith
  have hd0 : d ≠ 0 := by
    rintro rfl
    rw [abs_zero] at hd
    exact absurd hd (abs_nonneg _).not_gt
  have hn0 : n ≠ 0 := by
    rintro rfl
    rw [abs_zero] at hn
    exact absurd hn (abs_nonneg _).not_gt
  have ew : w = n / d := by rw [h]; field_simp
  have hd0' : d' ≠ 0 := by
    rcases lt_or_gt_of_ne hd0 with h1 | h1
    · exact (neg hd h1).ne
    · exact (pos hd h1).ne'
  have ew' : w' = n' / d' := by rw [h']; field_simp
  rw [ew, ew']
  rcases lt_or_gt_of_ne hn0 with h1 | h1 <;> rcases lt_or_gt_of_ne hd0 with h2 | h2
  · have h3 := neg hn h1
    have h4 := neg hd h2
    have p := div_pos_of_neg_of_neg h1 h2
    have p' := div_pos_of_neg_of_neg h3 h4
    exact ⟨⟨fun _ => p', fun _ => p⟩, ⟨fun c => absurd c p.not_gt, fun c => absurd c p'.not_gt⟩⟩
  · have h3 := neg hn h1
    have h4 := pos hd h2
    have p := div_neg_of_neg_of_pos h1 h2
    have p' := div_neg_of_neg_of_pos h3 h4
    exact ⟨⟨fun c => absurd c p.not_gt, fun c => absurd c p'.not_gt⟩, ⟨fun _ => p', fun _ => p⟩⟩
  · have h3 := pos hn h1
    have h4 := neg hd h2
    have p := div_neg_of_pos_of_neg h1 h2
    have p' := div_neg_of_pos_of_neg h3 h4
    exact ⟨⟨fun c => absurd c p.not_gt, fun c => absurd c p'.not_gt⟩, ⟨fun _ => p', fun _ => p⟩⟩
  · have h3 := pos hn h1
    have h4 := pos hd h2
    have p := div_pos h1 h2
    have p' := div_pos h3 h4
    exact ⟨⟨fun _ => p', fun _ => p⟩, ⟨fun c => absurd c p.not_gt, fun c => absurd c p'.not_gt⟩⟩

/-! ## Containment in a triangle -/

/-- The points differ by at most `δ` in each coordinate. -/
def Near2 (δ : ℚ) (p q : P2 ℚ) : Prop := |q.x - p.x| ≤ δ ∧ |q.y - p.y| ≤ δ

instance (δ : ℚ) (p q : P2 ℚ) : Decidable (Near2 δ p q) := inferInstanceAs (Decidable (_ ∧ _))

/-- The matrix of the test. -/
def triangleMatrixF (t : Triangle2 ℚ) (p : P2 ℚ) : Mat 2 3 ℚ :=
  ![![t.p2.x ⊟ t.p1.x, t.p3.x ⊟ t.p1.x, p.x ⊟ t.p1.x], ![t.p2.y ⊟ t.p1.y, t.p3.y ⊟ t.p1.y, p.y ⊟ t.p1.y]]

theorem solverError_two {D : ℚ} (hD : 0 ≤ D) :
    solverError 2 ((1 + 1 / 2 ^ 50) * D) + (1 + 1 / 64) * (D / 2 ^ 53) ≤ 26 * (D / 2 ^ 53) := by
  unfold solverError
  norm_num
  linarith

/-- A changed matrix of the test belongs to points nearby. -/
theorem triangle_points {t : Triangle2 ℚ} {p : P2 ℚ} {D : ℚ} (hD : 1 / 2 ^ 200 ≤ D)
    (h2 : Near2 D t.p1 t.p2) (h3 : Near2 D t.p1 t.p3) (hp : Near2 D t.p1 p) :
    (∀ i j, |triangleMatrixF t p i j| ≤ (1 + 1 / 2 ^ 50) * D) ∧
    ∀ a' : Mat 2 3 ℚ, (∀ i j, |a' i j - triangleMatrixF t p i j| ≤ solverError 2 ((1 + 1 / 2 ^ 50) * D)) →
      ∃ (t' : Triangle2 ℚ) (p' : P2 ℚ), t'.p1 = t.p1 ∧ Near2 (26 * (D / 2 ^ 53)) t.p2 t'.p2 ∧ Near2 (26 * (D / 2 ^ 53)) t.p3 t'.p3 ∧
        Near2 (26 * (D / 2 ^ 53)) p p' ∧
        a' = ![![t'.p2.x - t.p1.x, t'.p3.x - t.p1.x, p'.x - t.p1.x], ![t'.p2.y - t.p1.y, t'.p3.y - t.p1.y, p'.y - t.p1.y]] := by
  have hD0 : 0 ≤ D := le_trans (by positivity) hD
  obtain ⟨a2, b2⟩ := fl_sub_bounds hD h2.1
  obtain ⟨a2', b2'⟩ := fl_sub_bounds hD h2.2
  obtain ⟨a3, b3⟩ := fl_sub_bounds hD h3.1
  obtain ⟨a3', b3'⟩ := fl_sub_bounds hD h3.2
  obtain ⟨ap, bp⟩ := fl_sub_bounds hD hp.1
  obtain ⟨ap', bp'⟩ := fl_sub_bounds hD hp.2
  refine ⟨?_, fun a' ha => ?_⟩
  · intro i j
    fin_cases i <;> fin_cases j
    · exact b2
    · exact b3
    · exact bp
    · exact b2'
    · exact b3'
    · exact bp'
  · have hs := solverError_two hD0
    have mv : ∀ {x y f z : ℚ}, |f - (x - y)| ≤ (1 + 1 / 64) * (D / 2 ^ 53) → |z - f| ≤ solverError 2 ((1 + 1 / 2 ^ 50) * D) →
        |y + z - x| ≤ 26 * (D / 2 ^ 53) := by
      intro x y f z h1 h2
      have : |y + z - x| ≤ |z - f| + |f - (x - y)| := by
        calc |y + z - x| = |(z - f) + (f - (x - y))| := by congr 1; ring
          _ ≤ _ := abs_add_le _ _
      linarith
    generalize solverError 2 ((1 + 1 / 2 ^ 50) * D) = E at *
    generalize 26 * (D / 2 ^ 53) = δ at *
    have c00 : |a' 0 0 - (t.p2.x ⊟ t.p1.x)| ≤ E := ha 0 0
    have c10 : |a' 1 0 - (t.p2.y ⊟ t.p1.y)| ≤ E := ha 1 0
    have c01 : |a' 0 1 - (t.p3.x ⊟ t.p1.x)| ≤ E := ha 0 1
    have c11 : |a' 1 1 - (t.p3.y ⊟ t.p1.y)| ≤ E := ha 1 1
    have c02 : |a' 0 2 - (p.x ⊟ t.p1.x)| ≤ E := ha 0 2
    have c12 : |a' 1 2 - (p.y ⊟ t.p1.y)| ≤ E := ha 1 2
    refine ⟨⟨t.p1, ⟨t.p1.x + a' 0 0, t.p1.y + a' 1 0⟩, ⟨t.p1.x + a' 0 1, t.p1.y + a' 1 1⟩⟩, ⟨t.p1.x + a' 0 2, t.p1.y + a' 1 2⟩, rfl,
      ⟨mv a2 c00, mv a2' c10⟩, ⟨mv a3 c01, mv a3' c11⟩, ⟨mv ap c02, mv ap' c12⟩, ?_⟩
    funext i j
    fin_cases i <;> fin_cases j <;> simp

/-- What the signs of the test mean. -/
theorem triangleContainsF_spec {t : Triangle2 ℚ} {p : P2 ℚ} {r : Option Bool} (h : triangleContainsF t p = some r) :
    ∃ x, solveSystemF (triangleMatrixF t p) = some x ∧
      ((r = some true ∧ 0 < x 0 ∧ 0 < x 1 ∧ x 0 + x 1 < 1) ∨ (r = some false ∧ (x 0 < 0 ∨ x 1 < 0 ∨ 1 < x 0 + x 1))) := by
  unfold triangleContainsF at h
  obtain ⟨x, hx, h⟩ := Option.bind_eq_some_iff.1 h
  refine ⟨x, hx, ?_⟩
  dsimp only at h
  rcases trySign_cases (x 0) with e0 | ⟨p0, e0⟩ | ⟨p0, e0⟩ <;> rcases trySign_cases (x 1) with e1 | ⟨p1, e1⟩ | ⟨p1, e1⟩ <;>
    rcases trySign_cases (1 ⊟ (x 0 ⊞ x 1)) with e2 | ⟨p2, e2⟩ | ⟨p2, e2⟩ <;> rw [e0, e1, e2] at h <;> simp at h <;>
    first
    | exact Or.inl ⟨h.symm, p0, p1, one_sub_sum_pos p2⟩
    | exact Or.inr ⟨h.symm, Or.inl p0⟩
    | exact Or.inr ⟨h.symm, Or.inr (Or.inl p1)⟩
    | exact Or.inr ⟨h.symm, Or.inr (Or.inr (one_sub_sum_neg p2))⟩

/-- **C122** (containment): an answer of the test in `f64` is the exact answer for points moved by at most 26 rounding errors of
the distance `D` of the points; and there is no panic. -/
theorem triangle_contains_nearby (t : Triangle2 ℚ) (p : P2 ℚ) (D : ℚ) (hD : 1 / 2 ^ 200 ≤ D) (h2 : Near2 D t.p1 t.p2)
    (h3 : Near2 D t.p1 t.p3) (hp : Near2 D t.p1 p) (r : Option Bool) (h : triangleContainsF t p = some r) :
    ∃ (t' : Triangle2 ℚ) (p' : P2 ℚ) (w1 w2 w3 : ℚ), t'.p1 = t.p1 ∧ Near2 (26 * (D / 2 ^ 53)) t.p2 t'.p2 ∧
      Near2 (26 * (D / 2 ^ 53)) t.p3 t'.p3 ∧ Near2 (26 * (D / 2 ^ 53)) p p' ∧ Bary2 t' p' w1 w2 w3 ∧
      ((r = some true ∧ 0 < w1 ∧ 0 < w2 ∧ 0 < w3) ∨ (r = some false ∧ (w1 < 0 ∨ w2 < 0 ∨ w3 < 0))) := by
  obtain ⟨x, hx, hr⟩ := triangleContainsF_spec h
  obtain ⟨hb, hpts⟩ := triangle_points hD h2 h3 hp
  have hD0 : 0 ≤ D := le_trans (by positivity) hD
  obtain ⟨a', ha, hs⟩ := solver_backward_stable (by norm_num) (by norm_num) _ _ (hD.trans (le_mul_of_one_le_left hD0 (by norm_num))) hb x hx
  obtain ⟨t', p', e1, n2, n3, np, e⟩ := hpts a' ha
  have s0 := hs 0
  have s1 := hs 1
  rw [Fin.sum_univ_two, e] at s0 s1
  have s0' : (t'.p2.x - t.p1.x) * x 0 + (t'.p3.x - t.p1.x) * x 1 = p'.x - t.p1.x := s0
  have s1' : (t'.p2.y - t.p1.y) * x 0 + (t'.p3.y - t.p1.y) * x 1 = p'.y - t.p1.y := s1
  refine ⟨t', p', 1 - (x 0 + x 1), x 0, x 1, e1, n2, n3, np, ⟨by ring, ?_, ?_⟩, ?_⟩
  · rw [e1]; linear_combination -s0'
  · rw [e1]; linear_combination -s1'
  · rcases hr with ⟨h0, h1, h2, h3⟩ | ⟨h0, h1⟩
    · exact Or.inl ⟨h0, by linarith, h1, h2⟩
    · refine Or.inr ⟨h0, ?_⟩
      rcases h1 with h1 | h1 | h1
      · exact Or.inr (Or.inl h1)
      · exact Or.inr (Or.inr h1)
      · exact Or.inl (by linarith)

/-- The change of a determinant. -/
theorem det2_change {a b c d a' b' c' d' D δ : ℚ} (hD : 0 ≤ D) (hδ : 0 ≤ δ) (hδD : 100 * δ ≤ D) (ha : |a| ≤ D) (hb : |b| ≤ D)
    (hc : |c| ≤ D) (hd : |d| ≤ D) (ha' : |a' - a| ≤ δ) (hb' : |b' - b| ≤ δ) (hc' : |c' - c| ≤ δ) (hd' : |d' - d| ≤ δ) :
    |(a' * d' - b' * c') - (a * d - b * c)| ≤ 402 / 100 * (D * δ) := by
  have mul : ∀ {x y x' y' : ℚ}, |x| ≤ D → |y| ≤ D → |x' - x| ≤ δ → |y' - y| ≤ δ → |x' * y' - x * y| ≤ 201 / 100 * (D * δ) := by
    intro x y x' y' hx hy hx' hy'
    have e : x' * y' - x * y = (x' - x) * y + x * (y' - y) + (x' - x) * (y' - y) := by ring
    rw [e]
    have h1 : |(x' - x) * y| ≤ δ * D := by rw [abs_mul]; exact mul_le_mul hx' hy (abs_nonneg _) hδ
    have h2 : |x * (y' - y)| ≤ D * δ := by rw [abs_mul]; exact mul_le_mul hx hy' (abs_nonneg _) hD
    have h3 : |(x' - x) * (y' - y)| ≤ δ * δ := by rw [abs_mul]; exact mul_le_mul hx' hy' (abs_nonneg _) hδ
    have h4 : δ * δ ≤ D / 100 * δ := mul_le_mul_of_nonneg_right (by linarith) hδ
    have h5 := abs_add_le ((x' - x) * y + x * (y' - y)) ((x' - x) * (y' - y))
    have h6 := abs_add_le ((x' - x) * y) (x * (y' - y))
    linarith
  have h1 := mul ha hd ha' hd'
  have h2 := mul hb hc hb' hc'
  have e : (a' * d' - b' * c') - (a * d - b * c) = (a' * d' - a * d) - (b' * c' - b * c) := by ring
  rw [e]
  have := abs_sub (a' * d' - a * d) (b' * c' - b * c)
  linarith

/-- **C122** (containment): the test is right, and does not divide by zero, if the area of the triangle and the areas of the
three triangles formed with the point are larger than about 400 rounding errors of the squared distance. -/
theorem triangle_contains_right (t : Triangle2 ℚ) (p : P2 ℚ) (D : ℚ) (hD : 1 / 2 ^ 200 ≤ D) (h2 : Near2 D t.p1 t.p2)
    (h3 : Near2 D t.p1 t.p3) (hp : Near2 D t.p1 p) (w1 w2 w3 : ℚ) (hw : Bary2 t p w1 w2 w3)
    (hmargin : ∀ w ∈ [1, w1, w2, w3], 400 * (D ^ 2 / 2 ^ 53) < |w * orient2 t|) :
    (solveSystemF (triangleMatrixF t p)).isSome = true ∧
    (triangleContains t p = some true ↔ 0 < w1 ∧ 0 < w2 ∧ 0 < w3) ∧
    (triangleContains t p = some false ↔ w1 < 0 ∨ w2 < 0 ∨ w3 < 0) := by
  have hD0 : 0 ≤ D := le_trans (by positivity) hD
  obtain ⟨hb, hpts⟩ := triangle_points hD h2 h3 hp
  have hB := hD.trans (le_mul_of_one_le_left hD0 (b := D) (a := 1 + 1 / 2 ^ 50) (by norm_num))
  have hδD : 100 * (26 * (D / 2 ^ 53)) ≤ D := by norm_num; linarith
  have hδ0 : 0 ≤ 26 * (D / 2 ^ 53) := by positivity
  have hsq : 402 / 100 * (D * (26 * (D / 2 ^ 53))) ≤ 105 * (D ^ 2 / 2 ^ 53) := by
    have e : D * (26 * (D / 2 ^ 53)) = 26 * (D ^ 2 / 2 ^ 53) := by ring
    have : 0 ≤ D ^ 2 / 2 ^ 53 := by positivity
    rw [e]; linarith
  have hq0 : 0 ≤ D ^ 2 / 2 ^ 53 := by positivity
  have m0 := hmargin 1 (by simp)
  have m1 := hmargin w1 (by simp)
  have m2 := hmargin w2 (by simp)
  have m3 := hmargin w3 (by simp)
  rw [one_mul] at m0
  have hne : orient2 t ≠ 0 := by
    intro h
    rw [h, abs_zero] at m0
    linarith
  obtain ⟨ws, wx, wy⟩ := hw
  have hw1 : w1 = 1 - w2 - w3 := by linear_combination ws
  -- exact numerators
  have n2 : orient2 ⟨t.p1, p, t.p3⟩ = w2 * orient2 t := by
    unfold orient2; dsimp only; rw [wx, wy, hw1]; ring
  have n3 : orient2 ⟨t.p1, t.p2, p⟩ = w3 * orient2 t := by
    unfold orient2; dsimp only; rw [wx, wy, hw1]; ring
  -- change of the areas
  have area : ∀ {a b a' b' : P2 ℚ}, Near2 D t.p1 a → Near2 D t.p1 b → Near2 (26 * (D / 2 ^ 53)) a a' → Near2 (26 * (D / 2 ^ 53)) b b' →
      |orient2 ⟨t.p1, a', b'⟩ - orient2 ⟨t.p1, a, b⟩| ≤ 105 * (D ^ 2 / 2 ^ 53) := by
    intro a b a' b' ha hb ha' hb'
    unfold orient2
    dsimp only
    refine le_trans (det2_change hD0 hδ0 hδD ha.1 ha.2 hb.1 hb.2 ?_ ?_ ?_ ?_) hsq
    · rw [sub_sub_sub_cancel_right]; exact ha'.1
    · rw [sub_sub_sub_cancel_right]; exact ha'.2
    · rw [sub_sub_sub_cancel_right]; exact hb'.1
    · rw [sub_sub_sub_cancel_right]; exact hb'.2
  have hsome : (solveSystemF (triangleMatrixF t p)).isSome = true := by
    cases hn : solveSystemF (triangleMatrixF t p) with
    | some x => rfl
    | none =>
      exfalso
      obtain ⟨a', ha, hdet⟩ := solver_division_by_zero (by norm_num) _ _ hB hb hn
      obtain ⟨t', p', e1, q2, q3, -, e⟩ := hpts a' ha
      have hA := area h2 h3 q2 q3
      rw [Matrix.det_fin_two] at hdet
      simp only [Matrix.of_apply] at hdet
      rw [e] at hdet
      have hdet' : (t'.p2.x - t.p1.x) * (t'.p3.y - t.p1.y) - (t'.p3.x - t.p1.x) * (t'.p2.y - t.p1.y) = 0 := hdet
      have h0 : orient2 ⟨t.p1, t'.p2, t'.p3⟩ = 0 := by
        unfold orient2; dsimp only; linear_combination hdet'
      rw [h0, zero_sub, abs_neg] at hA
      change |orient2 t| ≤ _ at hA
      linarith
  refine ⟨hsome, ?_⟩
  cases hF : triangleContainsF t p with
  | none => exact triangle_contains_inconclusive_partial t p hF hne w1 w2 w3 ⟨ws, wx, wy⟩
  | some r =>
    obtain ⟨t', p', v1, v2, v3, e1, q2, q3, qp, ⟨vs, vx, vy⟩, hr⟩ := triangle_contains_nearby t p D hD h2 h3 hp r hF
    have hv1 : v1 = 1 - v2 - v3 := by linear_combination vs
    have n2' : orient2 ⟨t.p1, p', t'.p3⟩ = v2 * orient2 ⟨t.p1, t'.p2, t'.p3⟩ := by
      unfold orient2; dsimp only; rw [vx, vy, hv1, e1]; ring
    have n3' : orient2 ⟨t.p1, t'.p2, p'⟩ = v3 * orient2 ⟨t.p1, t'.p2, t'.p3⟩ := by
      unfold orient2; dsimp only; rw [vx, vy, hv1, e1]; ring
    have c0 := area h2 h3 q2 q3
    have c2 := area hp h3 qp q3
    have c3 := area h2 hp q2 qp
    change |_ - orient2 t| ≤ _ at c0
    have d0 : |orient2 ⟨t.p1, t'.p2, t'.p3⟩ - orient2 t| < |orient2 t| := by linarith
    have s2 := sign_of_quotient (w := w2) (w' := v2) (by rw [n2] at c2 ⊢; linarith) d0 n2 n2'
    have s3 := sign_of_quotient (w := w3) (w' := v3) (by rw [n3] at c3 ⊢; linarith) d0 n3 n3'
    have s1 := sign_of_quotient (n := w1 * orient2 t) (n' := v1 * orient2 ⟨t.p1, t'.p2, t'.p3⟩) (w := w1) (w' := v1) (by
      have e : v1 * orient2 ⟨t.p1, t'.p2, t'.p3⟩ - w1 * orient2 t = (orient2 ⟨t.p1, t'.p2, t'.p3⟩ - orient2 t)
          - (orient2 ⟨t.p1, p', t'.p3⟩ - orient2 ⟨t.p1, p, t.p3⟩) - (orient2 ⟨t.p1, t'.p2, p'⟩ - orient2 ⟨t.p1, t.p2, p⟩) := by
        rw [n2, n3, n2', n3', hv1, hw1]; ring
      rw [e]
      have g1 := abs_sub (orient2 ⟨t.p1, t'.p2, t'.p3⟩ - orient2 t - (orient2 ⟨t.p1, p', t'.p3⟩ - orient2 ⟨t.p1, p, t.p3⟩))
        (orient2 ⟨t.p1, t'.p2, p'⟩ - orient2 ⟨t.p1, t.p2, p⟩)
      have g2 := abs_sub (orient2 ⟨t.p1, t'.p2, t'.p3⟩ - orient2 t) (orient2 ⟨t.p1, p', t'.p3⟩ - orient2 ⟨t.p1, p, t.p3⟩)
      linarith) d0 rfl rfl
    have htc : triangleContains t p = r := by
      unfold triangleContains
      rw [hF]
    rw [htc, s1.1, s2.1, s3.1, s1.2, s2.2, s3.2]
    rcases hr with ⟨rfl, g1, g2, g3⟩ | ⟨rfl, hneg⟩
    · refine ⟨by simp [g1, g2, g3], ?_⟩
      simp [g1.le, g2.le, g3.le]
    · refine ⟨?_, by simp [hneg]⟩
      simp only [Option.some.injEq, Bool.false_eq_true, false_iff, not_and]
      intro g1 g2 g3
      rcases hneg with h | h | h <;> linarith

/-- A point a little inside of a thin triangle. -/
example : let t : Triangle2 ℚ := ⟨⟨1, 1⟩, ⟨2, 1⟩, ⟨2, 1 + 1 / 2 ^ 40⟩⟩
    let p : P2 ℚ := ⟨3 / 2, 1 + 1 / 2 ^ 42⟩
    Near2 1 t.p1 t.p2 ∧ Near2 1 t.p1 t.p3 ∧ Near2 1 t.p1 p ∧ Bary2 t p (1 / 2) (1 / 4) (1 / 4) ∧
      (∀ w ∈ [1, 1 / 2, 1 / 4, 1 / 4], 400 * (1 ^ 2 / 2 ^ 53) < |w * orient2 t|) ∧ triangleContainsF t p = some (some true) := by
  unfold Bary2
  decide +kernel

end Verif.Rounding
