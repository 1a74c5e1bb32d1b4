import Verif.Rounding.CentreLemmas
import Verif.Rounding.SolverLineProps

/-!
# C140: Voronoi vertices and circumspheres in f64
-/

namespace Verif.Rounding

open Verif.Predicates

/-! ## Rows -/

/-- The right-hand side of a row. -/
theorem rhs_err {L ax ay az x y z : ℚ} (hL : 1 / 2 ^ 100 ≤ L) (hx : |ax| ≤ L) (hy : |ay| ≤ L) (hz : |az| ≤ L)
    (ex : |x - ax| ≤ (1 + 1 / 64) * (L / 2 ^ 53)) (ey : |y - ay| ≤ (1 + 1 / 64) * (L / 2 ^ 53))
    (ez : |z - az| ≤ (1 + 1 / 64) * (L / 2 ^ 53)) :
    |(1 / 2) ⊠ (x ⊠ x ⊞ y ⊠ y ⊞ z ⊠ z) - 1 / 2 * (ax ^ 2 + ay ^ 2 + az ^ 2)| ≤ 10 * (L ^ 2 / 2 ^ 53) ∧
    |(1 / 2) ⊠ (x ⊠ x ⊞ y ⊠ y ⊞ z ⊠ z)| ≤ 8 / 5 * L ^ 2 := by
  have hL0 : 0 < L := lt_of_lt_of_le (by positivity) hL
  have hM : 1 / 2 ^ 200 ≤ L ^ 2 := by
    have : (1 / 2 ^ 100 : ℚ) ^ 2 ≤ L ^ 2 := pow_le_pow_left₀ (by positivity) hL 2
    rwa [div_pow, one_pow, ← pow_mul] at this
  have sq : ∀ {a v : ℚ}, |a| ≤ L → |v - a| ≤ (1 + 1 / 64) * (L / 2 ^ 53) →
      |v ⊠ v - a ^ 2| ≤ 31 / 10 * (L ^ 2 / 2 ^ 53) ∧ |v ⊠ v| ≤ 1001 / 1000 * L ^ 2 := by
    intro a v ha hv
    have h1 : |v * v - a ^ 2| ≤ 204 / 100 * (L ^ 2 / 2 ^ 53) := by
      have e : v * v - a ^ 2 = (v - a) * (2 * a + (v - a)) := by ring
      rw [e, abs_mul]
      have k : |2 * a + (v - a)| ≤ 2002 / 1000 * L := by
        refine (abs_add_le _ _).trans ?_
        rw [abs_mul, abs_two]
        norm_num at hv
        linarith
      calc |v - a| * |2 * a + (v - a)| ≤ (1 + 1 / 64) * (L / 2 ^ 53) * (2002 / 1000 * L) :=
            mul_le_mul hv k (abs_nonneg _) (by positivity)
        _ ≤ 204 / 100 * (L ^ 2 / 2 ^ 53) := by
          have : 0 ≤ L ^ 2 / 2 ^ 53 := by positivity
          have e : (1 + 1 / 64) * (L / 2 ^ 53) * (2002 / 1000 * L) = (65 / 64 * (2002 / 1000)) * (L ^ 2 / 2 ^ 53) := by ring
          rw [e]
          linarith
    have ha2 : |a ^ 2| ≤ L ^ 2 := by
      rw [abs_pow]
      exact pow_le_pow_left₀ (abs_nonneg _) ha 2
    have h2 : |v * v| ≤ 10001 / 10000 * L ^ 2 := by
      have : |v * v| ≤ |a ^ 2| + |v * v - a ^ 2| := by
        have := abs_add_le (a ^ 2) (v * v - a ^ 2)
        rwa [add_sub_cancel] at this
      have k : 204 / 100 * (L ^ 2 / 2 ^ 53) ≤ 1 / 10000 * L ^ 2 := by
        have : 0 ≤ L ^ 2 := by positivity
        generalize L ^ 2 = q at *
        norm_num
        linarith
      linarith
    have h3 := fl_err_M hM h2
    change |v ⊠ v - v * v| ≤ _ at h3
    have h0 : 0 ≤ L ^ 2 / 2 ^ 53 := by positivity
    constructor
    · calc |v ⊠ v - a ^ 2| = |(v ⊠ v - v * v) + (v * v - a ^ 2)| := by congr 1; ring
        _ ≤ |v ⊠ v - v * v| + |v * v - a ^ 2| := abs_add_le _ _
        _ ≤ _ := by linarith
    · have : |v ⊠ v| ≤ |v * v| + |v ⊠ v - v * v| := by
        have := abs_add_le (v * v) (v ⊠ v - v * v)
        rwa [add_sub_cancel] at this
      norm_num at h3 ⊢
      linarith
  obtain ⟨x1, x2⟩ := sq hx ex
  obtain ⟨y1, y2⟩ := sq hy ey
  obtain ⟨z1, z2⟩ := sq hz ez
  have hax : |ax ^ 2| ≤ L ^ 2 := by rw [abs_pow]; exact pow_le_pow_left₀ (abs_nonneg _) hx 2
  have hay : |ay ^ 2| ≤ L ^ 2 := by rw [abs_pow]; exact pow_le_pow_left₀ (abs_nonneg _) hy 2
  have haz : |az ^ 2| ≤ L ^ 2 := by rw [abs_pow]; exact pow_le_pow_left₀ (abs_nonneg _) hz 2
  generalize x ⊠ x = X at *
  generalize y ⊠ y = Y at *
  generalize z ⊠ z = Z at *
  have h0 : 0 ≤ L ^ 2 / 2 ^ 53 := by positivity
  have s1 := fl_err_M (x := X + Y) (k := 2003 / 1000) hM ((abs_add_le X Y).trans (by linarith))
  change |X ⊞ Y - (X + Y)| ≤ _ at s1
  have b1 : |X ⊞ Y| ≤ 2004 / 1000 * L ^ 2 := by
    have : |X ⊞ Y| ≤ |X + Y| + |X ⊞ Y - (X + Y)| := by
      have := abs_add_le (X + Y) (X ⊞ Y - (X + Y))
      rwa [add_sub_cancel] at this
    have := abs_add_le X Y
    norm_num at s1
    linarith
  generalize X ⊞ Y = W at *
  have s2 := fl_err_M (x := W + Z) (k := 3006 / 1000) hM ((abs_add_le W Z).trans (by linarith))
  change |W ⊞ Z - (W + Z)| ≤ _ at s2
  have b2 : |W ⊞ Z| ≤ 3007 / 1000 * L ^ 2 := by
    have : |W ⊞ Z| ≤ |W + Z| + |W ⊞ Z - (W + Z)| := by
      have := abs_add_le (W + Z) (W ⊞ Z - (W + Z))
      rwa [add_sub_cancel] at this
    have := abs_add_le W Z
    norm_num at s2
    linarith
  generalize W ⊞ Z = V at *
  have hV : |1 / 2 * V| ≤ 1504 / 1000 * L ^ 2 := by
    rw [abs_mul, abs_of_nonneg (by norm_num : (0 : ℚ) ≤ 1 / 2)]
    linarith
  have s3 := fl_err_M (x := 1 / 2 * V) hM hV
  change |(1 / 2) ⊠ V - 1 / 2 * V| ≤ _ at s3
  constructor
  · have e : (1 / 2) ⊠ V - 1 / 2 * (ax ^ 2 + ay ^ 2 + az ^ 2) = ((1 / 2) ⊠ V - 1 / 2 * V) + 1 / 2 * (V - (W + Z))
        + (1 / 2 * (W - (X + Y)) + 1 / 2 * (X - ax ^ 2) + 1 / 2 * (Y - ay ^ 2)) + 1 / 2 * (Z - az ^ 2) := by ring
    rw [e]
    have half : ∀ q : ℚ, |1 / 2 * q| = 1 / 2 * |q| := fun q => by rw [abs_mul, abs_of_nonneg (by norm_num : (0 : ℚ) ≤ 1 / 2)]
    have k := abs_add_three (1 / 2 * (W - (X + Y))) (1 / 2 * (X - ax ^ 2)) (1 / 2 * (Y - ay ^ 2))
    have k2 := abs_add_three ((1 / 2) ⊠ V - 1 / 2 * V) (1 / 2 * (V - (W + Z)))
      (1 / 2 * (W - (X + Y)) + 1 / 2 * (X - ax ^ 2) + 1 / 2 * (Y - ay ^ 2))
    have k3 := abs_add_le (((1 / 2) ⊠ V - 1 / 2 * V) + 1 / 2 * (V - (W + Z))
        + (1 / 2 * (W - (X + Y)) + 1 / 2 * (X - ax ^ 2) + 1 / 2 * (Y - ay ^ 2))) (1 / 2 * (Z - az ^ 2))
    simp only [half] at k k2 k3
    linarith
  · have : |(1 / 2) ⊠ V| ≤ |1 / 2 * V| + |(1 / 2) ⊠ V - 1 / 2 * V| := by
      have := abs_add_le (1 / 2 * V) ((1 / 2) ⊠ V - 1 / 2 * V)
      rwa [add_sub_cancel] at this
    norm_num at s3 ⊢
    linarith

/-- A row: its entries are of size `L` and `L ^ 2`, and a small residual of the row is a small residual of the equation of the
plane between the two points. -/
theorem row_near {L : ℚ} (hL : 1 / 2 ^ 100 ≤ L) {p0 p : P3 ℚ} (h : Near3 L p0 p) :
    (|centreRowF p0 p 0| ≤ 1001 / 1000 * L ∧ |centreRowF p0 p 1| ≤ 1001 / 1000 * L ∧ |centreRowF p0 p 2| ≤ 1001 / 1000 * L ∧
      |centreRowF p0 p 3| ≤ 8 / 5 * L ^ 2) ∧
    ∀ x1 x2 x3 : ℚ, |(p.x - p0.x) * x1 + (p.y - p0.y) * x2 + (p.z - p0.z) * x3
        - 1 / 2 * ((p.x - p0.x) ^ 2 + (p.y - p0.y) ^ 2 + (p.z - p0.z) ^ 2)|
      ≤ |centreRowF p0 p 0 * x1 + centreRowF p0 p 1 * x2 + centreRowF p0 p 2 * x3 - centreRowF p0 p 3|
        + (1 + 1 / 64) * (L / 2 ^ 53) * (|x1| + |x2| + |x3|) + 10 * (L ^ 2 / 2 ^ 53) := by
  have hL0 : 0 < L := lt_of_lt_of_le (by positivity) hL
  have hL' : 1 / 2 ^ 200 ≤ L := le_trans (one_div_le_one_div_of_le (by positivity) (pow_le_pow_right₀ one_le_two (by decide))) hL
  obtain ⟨ex, bx⟩ := fl_sub_bounds hL' h.1
  obtain ⟨ey, bY⟩ := fl_sub_bounds hL' h.2.1
  obtain ⟨ez, bz⟩ := fl_sub_bounds hL' h.2.2
  obtain ⟨e3, b3⟩ := rhs_err hL h.1 h.2.1 h.2.2 ex ey ez
  have w : (1 + 1 / 2 ^ 50) * L ≤ 1001 / 1000 * L := mul_le_mul_of_nonneg_right (by norm_num) hL0.le
  refine ⟨⟨bx.trans w, bY.trans w, bz.trans w, b3⟩, fun x1 x2 x3 => ?_⟩
  show _ ≤ |(p.x ⊟ p0.x) * x1 + (p.y ⊟ p0.y) * x2 + (p.z ⊟ p0.z) * x3
    - (1 / 2) ⊠ ((p.x ⊟ p0.x) ⊠ (p.x ⊟ p0.x) ⊞ (p.y ⊟ p0.y) ⊠ (p.y ⊟ p0.y) ⊞ (p.z ⊟ p0.z) ⊠ (p.z ⊟ p0.z))| + _ + _
  generalize (1 / 2) ⊠ ((p.x ⊟ p0.x) ⊠ (p.x ⊟ p0.x) ⊞ (p.y ⊟ p0.y) ⊠ (p.y ⊟ p0.y) ⊞ (p.z ⊟ p0.z) ⊠ (p.z ⊟ p0.z)) = b at *
  generalize p.x ⊟ p0.x = r0 at *
  generalize p.y ⊟ p0.y = r1 at *
  generalize p.z ⊟ p0.z = r2 at *
  generalize p.x - p0.x = a0 at *
  generalize p.y - p0.y = a1 at *
  generalize p.z - p0.z = a2 at *
  have e : a0 * x1 + a1 * x2 + a2 * x3 - 1 / 2 * (a0 ^ 2 + a1 ^ 2 + a2 ^ 2) = (r0 * x1 + r1 * x2 + r2 * x3 - b)
      + (-((r0 - a0) * x1) + -((r1 - a1) * x2) + -((r2 - a2) * x3)) + (b - 1 / 2 * (a0 ^ 2 + a1 ^ 2 + a2 ^ 2)) := by ring
  rw [e]
  refine (abs_add_le _ _).trans (add_le_add ?_ e3)
  refine (abs_add_le _ _).trans (add_le_add le_rfl ?_)
  refine (abs_add_three _ _ _).trans ?_
  rw [abs_neg, abs_neg, abs_neg, abs_mul, abs_mul, abs_mul]
  have := mul_le_mul_of_nonneg_right ex (abs_nonneg x1)
  have := mul_le_mul_of_nonneg_right ey (abs_nonneg x2)
  have := mul_le_mul_of_nonneg_right ez (abs_nonneg x3)
  linarith

/-- Half the bound of the theorems. -/
def centreError (L R M : ℚ) : ℚ := (160 * R + 95 * L + 4 * M) * L / 2 ^ 53

/-- The equations of the planes between the points, for the computed centre. -/
theorem centre_planes {t : Tetra ℚ} {c : P3 ℚ} {L R M : ℚ} (hL : 1 / 2 ^ 100 ≤ L) (h2 : Near3 L t.p1 t.p2) (h3 : Near3 L t.p1 t.p3)
    (h4 : Near3 L t.p1 t.p4) (hM : 1 / 2 ^ 200 ≤ M) (hc : circumcentreFloatF t = some c) (hR : Near3 R t.p1 c)
    (hcM : |c.x| ≤ M ∧ |c.y| ≤ M ∧ |c.z| ≤ M) :
    ∀ p, p = t.p2 ∨ p = t.p3 ∨ p = t.p4 →
      |(p.x - t.p1.x) * (c.x - t.p1.x) + (p.y - t.p1.y) * (c.y - t.p1.y) + (p.z - t.p1.z) * (c.z - t.p1.z)
        - 1 / 2 * ((p.x - t.p1.x) ^ 2 + (p.y - t.p1.y) ^ 2 + (p.z - t.p1.z) ^ 2)| ≤ centreError L R M := by
  have hL0 : 0 < L := lt_of_lt_of_le (by positivity) hL
  have hL' : 1 / 2 ^ 200 ≤ L := le_trans (one_div_le_one_div_of_le (by positivity) (pow_le_pow_right₀ one_le_two (by decide))) hL
  have hM0 : 0 < M := lt_of_lt_of_le (by positivity) hM
  have hL2 : 1 / 2 ^ 200 ≤ L ^ 2 := by
    have : (1 / 2 ^ 100 : ℚ) ^ 2 ≤ L ^ 2 := pow_le_pow_left₀ (by positivity) hL 2
    rwa [div_pow, one_pow, ← pow_mul] at this
  unfold circumcentreFloatF at hc
  obtain ⟨⟨x1, x2, x3⟩, hx, rfl⟩ := Option.map_eq_some_iff.1 hc
  obtain ⟨s2, e2⟩ := row_near hL h2
  obtain ⟨s3, e3⟩ := row_near hL h3
  obtain ⟨s4, e4⟩ := row_near hL h4
  have hs : Sized ![centreRowF t.p1 t.p2, centreRowF t.p1 t.p3, centreRowF t.p1 t.p4] (1001 / 1000 * L) (8 / 5 * L ^ 2) := by
    intro i
    fin_cases i
    · exact s2
    · exact s3
    · exact s4
  have hBC : 1001 / 1000 * L ≤ 2 ^ 400 * (8 / 5 * L ^ 2) := by
    have k : 1 ≤ 2 ^ 400 * L := by
      have : (2 : ℚ) ^ 400 * (1 / 2 ^ 100) ≤ 2 ^ 400 * L := mul_le_mul_of_nonneg_left hL (by positivity)
      refine le_trans ?_ this
      rw [show (2 : ℚ) ^ 400 = 2 ^ 300 * 2 ^ 100 by rw [← pow_add], mul_assoc, mul_one_div_cancel (by positivity), mul_one]
      exact one_le_pow₀ one_le_two
    have := mul_le_mul_of_nonneg_right k hL0.le
    have e : 2 ^ 400 * (8 / 5 * L ^ 2) = 8 / 5 * (2 ^ 400 * L * L) := by
      generalize (2 : ℚ) ^ 400 = q
      ring
    rw [e]
    generalize (2 : ℚ) ^ 400 * L * L = q at *
    rw [one_mul] at this
    clear hL hL' hM hL2 hx hc hR hcM s2 e2 s3 e3 s4 e4 hs k
    linarith
  have r := solve3x4F_resid (hL'.trans (by linarith)) (hL2.trans (by nlinarith)) hBC hs hx
  -- the final addition
  have fin : ∀ {x q : ℚ}, |x ⊞ q| ≤ M → |x ⊞ q - q - x| ≤ 102 / 100 * (M / 2 ^ 53) := by
    intro x q hm
    obtain ⟨e, n, he, hn, h⟩ := fl_back (x + q)
    change x + q = (x ⊞ q) * (1 + e) + n at h
    have e' : x ⊞ q - q - x = -(e * (x ⊞ q)) - n := by linear_combination -h
    rw [e']
    have t1 : |e * (x ⊞ q)| ≤ 101 / 100 / 2 ^ 53 * M := by
      rw [abs_mul]
      exact mul_le_mul he hm (abs_nonneg _) (by positivity)
    have t2 : 2 * ((1 : ℚ) / 2 ^ 1074) ≤ 1 / 100 * (M / 2 ^ 53) := by
      have k : (1 : ℚ) / 2 ^ 1074 ≤ 1 / 2 ^ 300 := one_div_le_one_div_of_le (by positivity) (pow_le_pow_right₀ one_le_two (by decide))
      have k2 : (1 : ℚ) / 2 ^ 300 = 1 / 2 ^ 200 / 2 ^ 100 := by rw [div_div, ← pow_add]
      have k3 : (1 : ℚ) / 2 ^ 200 / 2 ^ 100 ≤ M / 2 ^ 100 := div_le_div_of_nonneg_right hM (by positivity)
      have k4 : M / 2 ^ 100 ≤ 1 / 1000 * (M / 2 ^ 53) := by
        norm_num
        linarith
      generalize (1 : ℚ) / 2 ^ 1074 = t at *
      generalize (1 : ℚ) / 2 ^ 300 = t' at *
      have : 0 ≤ M / 2 ^ 53 := by positivity
      linarith
    calc |-(e * (x ⊞ q)) - n| ≤ |-(e * (x ⊞ q))| + |n| := abs_sub _ _
      _ ≤ _ := by
        rw [abs_neg]
        have e3 : 101 / 100 / 2 ^ 53 * M = 101 / 100 * (M / 2 ^ 53) := by ring
        linarith
  dsimp only at hR hcM ⊢
  have d1 := fin hcM.1
  have d2 := fin hcM.2.1
  have d3 := fin hcM.2.2
  have size : ∀ {x q : ℚ}, |x ⊞ q - q| ≤ R → |x ⊞ q - q - x| ≤ 102 / 100 * (M / 2 ^ 53) → |x| ≤ R + 102 / 100 * (M / 2 ^ 53) := by
    intro x q h1 h2
    have := abs_sub (x ⊞ q - q) (x ⊞ q - q - x)
    rw [sub_sub_cancel] at this
    linarith
  have n1 := size hR.1 d1
  have n2 := size hR.2.1 d2
  have n3 := size hR.2.2 d3
  have hu : M / 2 ^ 53 ≤ M / 10 ^ 15 := div_le_div_of_nonneg_left hM0.le (by positivity) (by norm_num)
  -- all planes
  have plane : ∀ {p : P3 ℚ}, Near3 L t.p1 p →
      (|(p.x - t.p1.x) * x1 + (p.y - t.p1.y) * x2 + (p.z - t.p1.z) * x3
        - 1 / 2 * ((p.x - t.p1.x) ^ 2 + (p.y - t.p1.y) ^ 2 + (p.z - t.p1.z) ^ 2)|
      ≤ 50 * rowScale (1001 / 1000 * L) (8 / 5 * L ^ 2) (|x1| + |x2| + |x3|)
        + (1 + 1 / 64) * (L / 2 ^ 53) * (|x1| + |x2| + |x3|) + 10 * (L ^ 2 / 2 ^ 53)) →
      |(p.x - t.p1.x) * (x1 ⊞ t.p1.x - t.p1.x) + (p.y - t.p1.y) * (x2 ⊞ t.p1.y - t.p1.y) + (p.z - t.p1.z) * (x3 ⊞ t.p1.z - t.p1.z)
        - 1 / 2 * ((p.x - t.p1.x) ^ 2 + (p.y - t.p1.y) ^ 2 + (p.z - t.p1.z) ^ 2)| ≤ centreError L R M := by
    intro p hp hres
    generalize x1 ⊞ t.p1.x - t.p1.x = c1 at *
    generalize x2 ⊞ t.p1.y - t.p1.y = c2 at *
    generalize x3 ⊞ t.p1.z - t.p1.z = c3 at *
    obtain ⟨p1, p2, p3⟩ := hp
    generalize p.x - t.p1.x = a0 at *
    generalize p.y - t.p1.y = a1 at *
    generalize p.z - t.p1.z = a2 at *
    have e : a0 * c1 + a1 * c2 + a2 * c3 - 1 / 2 * (a0 ^ 2 + a1 ^ 2 + a2 ^ 2)
        = (a0 * x1 + a1 * x2 + a2 * x3 - 1 / 2 * (a0 ^ 2 + a1 ^ 2 + a2 ^ 2))
          + (a0 * (c1 - x1) + a1 * (c2 - x2) + a2 * (c3 - x3)) := by ring
    rw [e]
    have k1 : |a0 * (c1 - x1)| ≤ L * (102 / 100 * (M / 2 ^ 53)) := by
      rw [abs_mul]; exact mul_le_mul p1 d1 (abs_nonneg _) hL0.le
    have k2 : |a1 * (c2 - x2)| ≤ L * (102 / 100 * (M / 2 ^ 53)) := by
      rw [abs_mul]; exact mul_le_mul p2 d2 (abs_nonneg _) hL0.le
    have k3 : |a2 * (c3 - x3)| ≤ L * (102 / 100 * (M / 2 ^ 53)) := by
      rw [abs_mul]; exact mul_le_mul p3 d3 (abs_nonneg _) hL0.le
    have k := abs_add_three (a0 * (c1 - x1)) (a1 * (c2 - x2)) (a2 * (c3 - x3))
    refine (abs_add_le _ _).trans ?_
    have hS : |x1| + |x2| + |x3| ≤ 3 * R + 306 / 100 * (M / 10 ^ 15) := by linarith
    have hLS : L * (|x1| + |x2| + |x3|) ≤ L * (3 * R + 306 / 100 * (M / 10 ^ 15)) := mul_le_mul_of_nonneg_left hS hL0.le
    have hLM : 0 ≤ L * M := by positivity
    have hL2' : 0 ≤ L ^ 2 := by positivity
    have hR0 : 0 ≤ R := (abs_nonneg _).trans hR.1
    have hLR : 0 ≤ L * R := by positivity
    unfold rowScale at hres
    unfold centreError
    have f1 : 50 * ((1001 / 1000 * L * (|x1| + |x2| + |x3|) + 8 / 5 * L ^ 2) / 2 ^ 53)
        + (1 + 1 / 64) * (L / 2 ^ 53) * (|x1| + |x2| + |x3|) + 10 * (L ^ 2 / 2 ^ 53)
        = ((50 * 1001 / 1000 + 65 / 64) * (L * (|x1| + |x2| + |x3|)) + 90 * L ^ 2) / 2 ^ 53 := by ring
    have f2 : L * (102 / 100 * (M / 2 ^ 53)) = 102 / 100 * (L * M) / 2 ^ 53 := by ring
    rw [f1] at hres
    rw [f2] at k1 k2 k3
    have f3 : L * (3 * R + 306 / 100 * (M / 10 ^ 15)) = 3 * (L * R) + 306 / 100 / 10 ^ 15 * (L * M) := by ring
    rw [f3] at hLS
    have f4 : (160 * R + 95 * L + 4 * M) * L / 2 ^ 53 = (160 * (L * R) + 95 * L ^ 2 + 4 * (L * M)) / 2 ^ 53 := by ring
    rw [f4]
    have g : ((50 * 1001 / 1000 + 65 / 64) * (L * (|x1| + |x2| + |x3|)) + 90 * L ^ 2) + 306 / 100 * (L * M)
        ≤ 160 * (L * R) + 95 * L ^ 2 + 4 * (L * M) := by
      generalize L * (|x1| + |x2| + |x3|) = Q at *
      generalize L * M = Q2 at *
      generalize L * R = Q3 at *
      norm_num at hLS ⊢
      linarith
    have g' := div_le_div_of_nonneg_right g (show (0 : ℚ) ≤ 2 ^ 53 by positivity)
    rw [add_div] at g'
    have f5 : 306 / 100 * (L * M) / 2 ^ 53 = 102 / 100 * (L * M) / 2 ^ 53 + 102 / 100 * (L * M) / 2 ^ 53 + 102 / 100 * (L * M) / 2 ^ 53 := by ring
    linarith
  intro p hp
  rcases hp with rfl | rfl | rfl
  · refine plane h2 ((e2 x1 x2 x3).trans ?_)
    have := r 0
    simp only [Matrix.cons_val] at this
    linarith
  · refine plane h3 ((e3 x1 x2 x3).trans ?_)
    have := r 1
    simp only [Matrix.cons_val] at this
    linarith
  · refine plane h4 ((e4 x1 x2 x3).trans ?_)
    have := r 2
    simp only [Matrix.cons_val] at this
    linarith

/-- **C140.**  The computed centre has the same distance from all four points, up to rounding errors, for every shape of the
tetrahedron: `L` is the size of the tetrahedron, `R` the distance of the centre from its first point, `M` bounds its coordinates. -/
theorem circumcentre_equidistant_f64 {t : Tetra ℚ} {c : P3 ℚ} {L R M : ℚ} (hL : 1 / 2 ^ 100 ≤ L) (h2 : Near3 L t.p1 t.p2)
    (h3 : Near3 L t.p1 t.p3) (h4 : Near3 L t.p1 t.p4) (hM : 1 / 2 ^ 200 ≤ M) (hc : circumcentreFloatF t = some c) (hR : Near3 R t.p1 c)
    (hcM : |c.x| ≤ M ∧ |c.y| ≤ M ∧ |c.z| ≤ M) {p : P3 ℚ} (hp : p = t.p2 ∨ p = t.p3 ∨ p = t.p4) :
    |distSq3 p c - distSq3 t.p1 c| ≤ (320 * R + 190 * L + 8 * M) * L / 2 ^ 53 := by
  have h := centre_planes hL h2 h3 h4 hM hc hR hcM p hp
  have e : distSq3 p c - distSq3 t.p1 c = -(2 * ((p.x - t.p1.x) * (c.x - t.p1.x) + (p.y - t.p1.y) * (c.y - t.p1.y)
      + (p.z - t.p1.z) * (c.z - t.p1.z) - 1 / 2 * ((p.x - t.p1.x) ^ 2 + (p.y - t.p1.y) ^ 2 + (p.z - t.p1.z) ^ 2))) := by
    unfold distSq3
    ring
  rw [e, abs_neg, abs_mul, abs_two]
  have e2 : (320 * R + 190 * L + 8 * M) * L / 2 ^ 53 = 2 * centreError L R M := by unfold centreError; ring
  rw [e2]
  linarith

/-- Cramer's rule for the difference of two centres. -/
theorem cramer_bound {a0 a1 a2 b0 b1 b2 c0 c1 c2 y0 y1 y2 r0 r1 r2 L e D : ℚ}
    (ha : |a0| ≤ L ∧ |a1| ≤ L ∧ |a2| ≤ L) (hb : |b0| ≤ L ∧ |b1| ≤ L ∧ |b2| ≤ L) (hc : |c0| ≤ L ∧ |c1| ≤ L ∧ |c2| ≤ L)
    (h0 : a0 * y0 + a1 * y1 + a2 * y2 = r0) (h1 : b0 * y0 + b1 * y1 + b2 * y2 = r1) (h2 : c0 * y0 + c1 * y1 + c2 * y2 = r2)
    (e0 : |r0| ≤ e) (e1 : |r1| ≤ e) (e2 : |r2| ≤ e)
    (hD : D = a0 * (b1 * c2 - b2 * c1) - a1 * (b0 * c2 - b2 * c0) + a2 * (b0 * c1 - b1 * c0)) :
    |D| * |y0| ≤ 6 * L ^ 2 * e ∧ |D| * |y1| ≤ 6 * L ^ 2 * e ∧ |D| * |y2| ≤ 6 * L ^ 2 * e := by
  have hL : 0 ≤ L := (abs_nonneg _).trans ha.1
  have he : 0 ≤ e := (abs_nonneg _).trans e0
  have minor : ∀ {p q r s : ℚ}, |p| ≤ L → |q| ≤ L → |r| ≤ L → |s| ≤ L → |p * q - r * s| ≤ 2 * L ^ 2 := by
    intro p q r s hp hq hr hs
    refine (abs_sub _ _).trans ?_
    rw [abs_mul, abs_mul]
    have := mul_le_mul hp hq (abs_nonneg _) hL
    have := mul_le_mul hr hs (abs_nonneg _) hL
    linarith
  have three : ∀ {m0 m1 m2 : ℚ}, |m0| ≤ 2 * L ^ 2 → |m1| ≤ 2 * L ^ 2 → |m2| ≤ 2 * L ^ 2 →
      |m0 * r0 + m1 * r1 + m2 * r2| ≤ 6 * L ^ 2 * e := by
    intro m0 m1 m2 k0 k1 k2
    refine (abs_add_three _ _ _).trans ?_
    rw [abs_mul, abs_mul, abs_mul]
    have := mul_le_mul k0 e0 (abs_nonneg _) (by positivity)
    have := mul_le_mul k1 e1 (abs_nonneg _) (by positivity)
    have := mul_le_mul k2 e2 (abs_nonneg _) (by positivity)
    linarith
  obtain ⟨pa0, pa1, pa2⟩ := ha
  obtain ⟨pb0, pb1, pb2⟩ := hb
  obtain ⟨pc0, pc1, pc2⟩ := hc
  refine ⟨?_, ?_, ?_⟩
  · rw [← abs_mul, show D * y0 = (b1 * c2 - b2 * c1) * r0 + (a2 * c1 - a1 * c2) * r1 + (a1 * b2 - a2 * b1) * r2 by
      rw [hD, ← h0, ← h1, ← h2]; ring]
    exact three (minor pb1 pc2 pb2 pc1) (minor pa2 pc1 pa1 pc2) (minor pa1 pb2 pa2 pb1)
  · rw [← abs_mul, show D * y1 = (b2 * c0 - b0 * c2) * r0 + (a0 * c2 - a2 * c0) * r1 + (a2 * b0 - a0 * b2) * r2 by
      rw [hD, ← h0, ← h1, ← h2]; ring]
    exact three (minor pb2 pc0 pb0 pc2) (minor pa0 pc2 pa2 pc0) (minor pa2 pb0 pa0 pb2)
  · rw [← abs_mul, show D * y2 = (b0 * c1 - b1 * c0) * r0 + (a1 * c0 - a0 * c1) * r1 + (a0 * b1 - a1 * b0) * r2 by
      rw [hD, ← h0, ← h1, ← h2]; ring]
    exact three (minor pb0 pc1 pb1 pc0) (minor pa1 pc0 pa0 pc1) (minor pa0 pb1 pa1 pb0)

/-- The determinant is at most the size of the tetrahedron allows. -/
theorem orient3_le {t : Tetra ℚ} {L : ℚ} (h2 : Near3 L t.p1 t.p2) (h3 : Near3 L t.p1 t.p3) (h4 : Near3 L t.p1 t.p4) :
    |orient3 t| ≤ 6 * L ^ 3 := by
  rw [orient3_eq]
  obtain ⟨a0, a1, a2⟩ := h2
  obtain ⟨b0, b1, b2⟩ := h3
  obtain ⟨c0, c1, c2⟩ := h4
  have hL : 0 ≤ L := (abs_nonneg _).trans a0
  generalize t.p2.x - t.p1.x = x1 at *
  generalize t.p2.y - t.p1.y = x2 at *
  generalize t.p2.z - t.p1.z = x3 at *
  generalize t.p3.x - t.p1.x = y1 at *
  generalize t.p3.y - t.p1.y = y2 at *
  generalize t.p3.z - t.p1.z = y3 at *
  generalize t.p4.x - t.p1.x = z1 at *
  generalize t.p4.y - t.p1.y = z2 at *
  generalize t.p4.z - t.p1.z = z3 at *
  have minor : ∀ {x p q r s : ℚ}, |x| ≤ L → |p| ≤ L → |q| ≤ L → |r| ≤ L → |s| ≤ L → |x * (p * q - r * s)| ≤ 2 * L ^ 3 := by
    intro x p q r s hx hp hq hr hs
    rw [abs_mul]
    have k : |p * q - r * s| ≤ 2 * L ^ 2 := by
      refine (abs_sub _ _).trans ?_
      rw [abs_mul, abs_mul]
      have := mul_le_mul hp hq (abs_nonneg _) hL
      have := mul_le_mul hr hs (abs_nonneg _) hL
      linarith
    calc |x| * |p * q - r * s| ≤ L * (2 * L ^ 2) := mul_le_mul hx k (abs_nonneg _) hL
      _ = 2 * L ^ 3 := by ring
  have m1 := minor a0 b1 c2 b2 c1
  have m2 := minor a1 b0 c2 b2 c0
  have m3 := minor a2 b0 c1 b1 c0
  calc _ ≤ |x1 * (y2 * z3 - y3 * z2) - x2 * (y1 * z3 - y3 * z1)| + |x3 * (y1 * z2 - y2 * z1)| := abs_add_le _ _
    _ ≤ _ := by
      have := abs_sub (x1 * (y2 * z3 - y3 * z2)) (x2 * (y1 * z3 - y3 * z1))
      linarith

/-- The error of the centre. -/
def centreShift (t : Tetra ℚ) (L R M : ℚ) : ℚ := (960 * R + 570 * L + 24 * M) * L ^ 3 / (2 ^ 53 * |orient3 t|)

/-- **C140.**  The computed centre is near the exact one, unless the tetrahedron is flat. -/
theorem circumcentre_accurate_f64 {t : Tetra ℚ} {c c' : P3 ℚ} {L R M : ℚ} (hL : 1 / 2 ^ 100 ≤ L) (h2 : Near3 L t.p1 t.p2)
    (h3 : Near3 L t.p1 t.p3) (h4 : Near3 L t.p1 t.p4) (hM : 1 / 2 ^ 200 ≤ M) (hne : orient3 t ≠ 0)
    (hc : circumcentreF t = some c) (hR : Near3 R t.p1 c) (hcM : |c.x| ≤ M ∧ |c.y| ≤ M ∧ |c.z| ≤ M)
    (e2 : distSq3 t.p2 c' = distSq3 t.p1 c') (e3 : distSq3 t.p3 c' = distSq3 t.p1 c') (e4 : distSq3 t.p4 c' = distSq3 t.p1 c') :
    Near3 (centreShift t L R M) c' c := by
  have hL0 : 0 < L := lt_of_lt_of_le (by positivity) hL
  have hM0 : 0 < M := lt_of_lt_of_le (by positivity) hM
  have hD : 0 < |orient3 t| := abs_pos.2 hne
  have hR0 : 0 ≤ R := (abs_nonneg _).trans hR.1
  unfold circumcentreF at hc
  cases hf : circumcentreFloatF t with
  | some c1 =>
    rw [hf] at hc
    obtain rfl := Option.some.inj hc
    have h := centre_planes hL h2 h3 h4 hM hf hR hcM
    have k2 := h t.p2 (Or.inl rfl)
    have k3 := h t.p3 (Or.inr (Or.inl rfl))
    have k4 := h t.p4 (Or.inr (Or.inr rfl))
    unfold distSq3 at e2 e3 e4
    have q : ∀ {y : ℚ}, |orient3 t| * |y| ≤ 6 * L ^ 2 * centreError L R M → |y| ≤ centreShift t L R M := by
      intro y hy
      have e : centreShift t L R M = 6 * L ^ 2 * centreError L R M / |orient3 t| := by
        unfold centreShift centreError
        field_simp
        ring
      rw [e, le_div_iff₀ hD, mul_comm]
      exact hy
    obtain ⟨r1, r2, r3⟩ := cramer_bound (a0 := t.p2.x - t.p1.x) (a1 := t.p2.y - t.p1.y) (a2 := t.p2.z - t.p1.z)
      (b0 := t.p3.x - t.p1.x) (b1 := t.p3.y - t.p1.y) (b2 := t.p3.z - t.p1.z)
      (c0 := t.p4.x - t.p1.x) (c1 := t.p4.y - t.p1.y) (c2 := t.p4.z - t.p1.z)
      (y0 := c1.x - c'.x) (y1 := c1.y - c'.y) (y2 := c1.z - c'.z) h2 h3 h4
      (by linear_combination (1 / 2) * e2) (by linear_combination (1 / 2) * e3) (by linear_combination (1 / 2) * e4) k2 k3 k4 (orient3_eq t)
    exact ⟨q r1, q r2, q r3⟩
  | none =>
    rw [hf] at hc
    obtain ⟨c1, hc1, rfl⟩ := Option.map_eq_some_iff.1 hc
    obtain ⟨d2, d3, d4⟩ := circumcentre_exact_equidistant t c1 hc1
    -- the exact centre is unique
    have hu : c1.x = c'.x ∧ c1.y = c'.y ∧ c1.z = c'.z := by
      unfold distSq3 at e2 e3 e4 d2 d3 d4
      obtain ⟨r1, r2, r3⟩ := cramer_bound (a0 := t.p2.x - t.p1.x) (a1 := t.p2.y - t.p1.y) (a2 := t.p2.z - t.p1.z)
        (b0 := t.p3.x - t.p1.x) (b1 := t.p3.y - t.p1.y) (b2 := t.p3.z - t.p1.z)
        (c0 := t.p4.x - t.p1.x) (c1 := t.p4.y - t.p1.y) (c2 := t.p4.z - t.p1.z)
        (y0 := c1.x - c'.x) (y1 := c1.y - c'.y) (y2 := c1.z - c'.z) (r0 := 0) (r1 := 0) (r2 := 0) (e := 0) h2 h3 h4
        (by linear_combination (1 / 2) * e2 + (1 / 2) * d2) (by linear_combination (1 / 2) * e3 + (1 / 2) * d3)
        (by linear_combination (1 / 2) * e4 + (1 / 2) * d4) (by simp) (by simp) (by simp) (orient3_eq t)
      have z : ∀ {y : ℚ}, |orient3 t| * |y| ≤ 6 * L ^ 2 * 0 → y = 0 := by
        intro y hy
        rw [mul_zero] at hy
        have : |y| ≤ 0 := by
          by_contra hc
          push Not at hc
          exact absurd (mul_pos hD hc) (not_lt.2 hy)
        exact abs_nonpos_iff.1 this
      exact ⟨sub_eq_zero.1 (z r1), sub_eq_zero.1 (z r2), sub_eq_zero.1 (z r3)⟩
    dsimp only at hcM
    have fin : ∀ {x : ℚ}, |fl x| ≤ M → |fl x - x| ≤ 102 / 100 * (M / 2 ^ 53) := by
      intro x hm
      obtain ⟨e, n, he, hn, h⟩ := fl_back x
      have e' : fl x - x = -(e * fl x) - n := by linear_combination -h
      rw [e']
      have t1 : |e * fl x| ≤ 101 / 100 / 2 ^ 53 * M := by
        rw [abs_mul]
        exact mul_le_mul he hm (abs_nonneg _) (by positivity)
      have t2 : 2 * ((1 : ℚ) / 2 ^ 1074) ≤ 1 / 100 * (M / 2 ^ 53) := by
        have k : (1 : ℚ) / 2 ^ 1074 ≤ 1 / 2 ^ 300 := one_div_le_one_div_of_le (by positivity) (pow_le_pow_right₀ one_le_two (by decide))
        have k2 : (1 : ℚ) / 2 ^ 300 = 1 / 2 ^ 200 / 2 ^ 100 := by rw [div_div, ← pow_add]
        have k3 : (1 : ℚ) / 2 ^ 200 / 2 ^ 100 ≤ M / 2 ^ 100 := div_le_div_of_nonneg_right hM (by positivity)
        have k4 : M / 2 ^ 100 ≤ 1 / 1000 * (M / 2 ^ 53) := by
          norm_num
          linarith
        generalize (1 : ℚ) / 2 ^ 1074 = t at *
        generalize (1 : ℚ) / 2 ^ 300 = t' at *
        have : 0 ≤ M / 2 ^ 53 := by positivity
        linarith
      calc |-(e * fl x) - n| ≤ |-(e * fl x)| + |n| := abs_sub _ _
        _ ≤ _ := by
          rw [abs_neg]
          have e3 : 101 / 100 / 2 ^ 53 * M = 101 / 100 * (M / 2 ^ 53) := by ring
          linarith
    have hbig : 102 / 100 * (M / 2 ^ 53) ≤ centreShift t L R M := by
      unfold centreShift
      rw [le_div_iff₀ (by positivity)]
      have h6 := orient3_le h2 h3 h4
      have e : 102 / 100 * (M / 2 ^ 53) * (2 ^ 53 * |orient3 t|) = 102 / 100 * M * |orient3 t| := by field_simp
      rw [e]
      have k1 : 102 / 100 * M * |orient3 t| ≤ 102 / 100 * M * (6 * L ^ 3) := mul_le_mul_of_nonneg_left h6 (by positivity)
      have k2 : 0 ≤ R * L ^ 3 := by positivity
      have k3 : 0 ≤ L * L ^ 3 := by positivity
      have k4 : 0 ≤ M * L ^ 3 := by positivity
      have e5 : (960 * R + 570 * L + 24 * M) * L ^ 3 = 960 * (R * L ^ 3) + 570 * (L * L ^ 3) + 24 * (M * L ^ 3) := by ring
      have e6 : 102 / 100 * M * (6 * L ^ 3) = 612 / 100 * (M * L ^ 3) := by ring
      rw [e5]
      rw [e6] at k1
      linarith
    obtain ⟨u1, u2, u3⟩ := hu
    refine ⟨?_, ?_, ?_⟩
    · show |fl c1.x - c'.x| ≤ _
      rw [← u1]; exact (fin hcM.1).trans hbig
    · show |fl c1.y - c'.y| ≤ _
      rw [← u2]; exact (fin hcM.2.1).trans hbig
    · show |fl c1.z - c'.z| ≤ _
      rw [← u3]; exact (fin hcM.2.2).trans hbig

/-- **C140.**  A centre is found for every tetrahedron which is not flat. -/
theorem circumcentre_found_f64 (t : Tetra ℚ) (hne : orient3 t ≠ 0) : ∃ c, circumcentreF t = some c := by
  unfold circumcentreF
  cases h : circumcentreFloatF t with
  | some c => exact ⟨c, rfl⟩
  | none =>
    obtain ⟨c, hc⟩ := circumcentre_exact_total t hne
    rw [hc]
    exact ⟨_, rfl⟩

end Verif.Rounding
