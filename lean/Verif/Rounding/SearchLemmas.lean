import Verif.Rounding.SearchModel
import Verif.Quadtree.IterLemmas
import Verif.Quadtree.BuildLemmas
import Verif.Geometry.ExtentProps

/-!
# Lemmas for the radius search with `f64` rounding
-/

namespace Verif.Rounding

open Verif.Geometry Verif.Quadtree

/-! ### The exact minimal distance along one axis -/

section Exact
variable {K : Type} [Field K] [LinearOrder K] [IsStrictOrderedRing K]

theorem abs_minimize (v L : K) (hL : 0 ≤ L) : |minimizeComponent v L| = min |v| |(|v| - L)| := by
  unfold minimizeComponent
  split_ifs with h1 h2
  · have hv : 0 ≤ v := by linarith
    rw [abs_of_nonneg hv, min_eq_right]
    rw [abs_le]
    constructor <;> linarith
  · have hv : v ≤ 0 := by linarith
    rw [abs_of_nonpos hv, ← abs_neg (v + L), show -(v + L) = -v - L by ring, min_eq_right]
    rw [abs_le]
    constructor <;> linarith
  · symm
    rw [min_eq_left]
    have : |v| ≤ L / 2 := abs_le.2 ⟨by linarith, by linarith⟩
    rw [abs_of_nonpos (by linarith : |v| - L ≤ 0)]
    linarith

theorem min_lip {a b c d e : K} (h1 : a ≤ c + e) (h2 : b ≤ d + e) : min a b ≤ min c d + e := by
  rcases le_total c d with h | h
  · rw [min_eq_left h]
    exact (min_le_left _ _).trans h1
  · rw [min_eq_right h]
    exact (min_le_right _ _).trans h2

/-- The minimal distance changes at most as much as the difference and the size of the box together. -/
theorem minimize_lip (v w L L' : K) (hL : 0 ≤ L) (hL' : 0 ≤ L') :
    |minimizeComponent v L| ≤ |minimizeComponent w L'| + (|v - w| + |L - L'|) := by
  rw [abs_minimize v L hL, abs_minimize w L' hL']
  have a : |v| ≤ |w| + |v - w| := by
    have := abs_add_le w (v - w)
    rwa [add_sub_cancel] at this
  have a' : |w| ≤ |v| + |v - w| := by
    have := abs_add_le v (w - v)
    rwa [add_sub_cancel, abs_sub_comm w v] at this
  have b := abs_nonneg (L - L')
  refine min_lip (by linarith) ?_
  have h1 := abs_le.1 (le_refl |(|w| - L')|)
  have h2 := abs_le.1 (le_refl |L - L'|)
  exact abs_le.2 ⟨by linarith, by linarith⟩

theorem minimize_even (v L : K) (hL : 0 ≤ L) : |minimizeComponent (-v) L| = |minimizeComponent v L| := by
  rw [abs_minimize _ _ hL, abs_minimize _ _ hL, abs_neg]

theorem minimize_abs_le (v L : K) (hL : 0 ≤ L) : |minimizeComponent v L| ≤ |v| := by
  rw [abs_minimize _ _ hL]
  exact min_le_left _ _

end Exact

/-! ### Rounding errors relative to the size of the box -/

/-- Rounding of a number of size at most `k * M`. -/
theorem fl_err_M {M : ℚ} (hM : 1 / 2 ^ 200 ≤ M) {x k : ℚ} (h : |x| ≤ k * M) : |fl x - x| ≤ (k + 1 / 64) * (M / 2 ^ 53) := by
  have h1 := fl_abs_err x
  have h2 : (1 : ℚ) / 2 ^ 1074 ≤ 1 / 64 * (M / 2 ^ 53) := by
    have e : (1 : ℚ) / 2 ^ 1074 = 1 / 2 ^ 200 * (1 / 2 ^ 200) * (1 / 2 ^ 200) * (1 / 2 ^ 200) * (1 / 2 ^ 200) * (1 / 2 ^ 74) := by
      rw [div_mul_div_comm, div_mul_div_comm, div_mul_div_comm, div_mul_div_comm, div_mul_div_comm]
      simp only [← pow_add, one_mul]
    rw [e]
    have h0 : (0 : ℚ) < 1 / 2 ^ 200 := by positivity
    have c : (1 : ℚ) / 2 ^ 200 * (1 / 2 ^ 200) * (1 / 2 ^ 200) * (1 / 2 ^ 200) * (1 / 2 ^ 74) ≤ 1 / 64 / 2 ^ 53 := by norm_num
    calc 1 / 2 ^ 200 * (1 / 2 ^ 200) * (1 / 2 ^ 200) * (1 / 2 ^ 200) * (1 / 2 ^ 200) * (1 / 2 ^ 74)
        = 1 / 2 ^ 200 * (1 / 2 ^ 200 * (1 / 2 ^ 200) * (1 / 2 ^ 200) * (1 / 2 ^ 200) * (1 / 2 ^ 74)) := by ring
      _ ≤ M * (1 / 64 / 2 ^ 53) := mul_le_mul hM c (by positivity) (h0.le.trans hM)
      _ = 1 / 64 * (M / 2 ^ 53) := by ring
  have h3 : |x| / 2 ^ 53 ≤ k * (M / 2 ^ 53) := by
    rw [← mul_div_assoc]
    exact div_le_div_of_nonneg_right h (by positivity)
  linarith

/-- Half of a number that is not extremely small. -/
theorem half_exact {x : ℚ} (h : IsF64 x) (hx : 1 / 2 ^ 1000 ≤ |x|) : x ⊘ 2 = x / 2 := by
  obtain ⟨m, e, hm, he, rfl⟩ := (isF64_iff x).1 h
  unfold fdiv
  have hlt : -1074 < e := by
    rcases he.lt_or_eq with h' | h'
    · exact h'
    exfalso
    rw [← h', abs_mul, abs_of_pos (two_zpow_pos _)] at hx
    have hm' : |(m : ℚ)| < 2 ^ 53 := by exact_mod_cast hm
    have h2 : |(m : ℚ)| * 2 ^ (-1074 : ℤ) < 2 ^ 53 * 2 ^ (-1074 : ℤ) := mul_lt_mul_of_pos_right hm' (two_zpow_pos _)
    have e1 : (2 : ℚ) ^ 53 * 2 ^ (-1074 : ℤ) = 2 ^ (-1021 : ℤ) := by
      rw [← zpow_natCast, ← two_zpow_add]
      norm_num
    have e2 : (1 : ℚ) / 2 ^ 1000 = 2 ^ (-1000 : ℤ) := by
      rw [zpow_neg, one_div]
      rfl
    rw [e1] at h2
    rw [e2] at hx
    have := two_zpow_lt (hx.trans_lt h2)
    omega
  have e3 : (m : ℚ) * 2 ^ e / 2 = m * 2 ^ (e - 1) := by
    rw [zpow_sub₀ (by norm_num)]
    ring
  rw [e3]
  exact fl_rep hm (by omega)

/-- The code computes the rounded value of the exact minimal difference of its arguments. -/
theorem minimizeF_eq {v L : ℚ} (hv : IsF64 v) (hL : IsF64 L) (h : 1 / 2 ^ 1000 ≤ L) : minimizeF v L = fl (minimizeComponent v L) := by
  have hL0 : 0 < L := lt_of_lt_of_le (by positivity) h
  have e1 : L ⊘ 2 = L / 2 := half_exact hL (by rwa [abs_of_pos hL0])
  have e2 : (-L) ⊘ 2 = -L / 2 := half_exact (by unfold IsF64; rw [fl_neg, hL]) (by rwa [abs_neg, abs_of_pos hL0])
  unfold minimizeF minimizeComponent
  rw [e1, e2]
  split_ifs
  · rfl
  · rfl
  · exact hv.symm

/-! ### The length of a vector -/

theorem fl_sq_nonneg (x : ℚ) : 0 ≤ x ⊠ x := fl_nonneg (mul_self_nonneg x)

theorem fadd_nonneg {a b : ℚ} (ha : 0 ≤ a) (hb : 0 ≤ b) : 0 ≤ a ⊞ b := fl_nonneg (add_nonneg ha hb)

theorem le_fadd_left {a b : ℚ} (ha : IsF64 a) (hb : 0 ≤ b) : a ≤ a ⊞ b := le_fl ha (by linarith)

theorem le_fadd_right {a b : ℚ} (ha : 0 ≤ a) (hb : IsF64 b) : b ≤ a ⊞ b := le_fl hb (by linarith)

/-- The computed length is at least the computed length of each component. -/
theorem component_le (v : Vec 3 ℚ) (i : Fin 3) : sqrtF (v i ⊠ v i) ≤ lengthF v := by
  have s0 := fl_sq_nonneg (v 0)
  have s1 := fl_sq_nonneg (v 1)
  have s2 := fl_sq_nonneg (v 2)
  have h01 := le_fadd_left (isF64_fl (v 0 * v 0)) s1
  have h11 := le_fadd_right s0 (isF64_fl (v 1 * v 1))
  have hs := fadd_nonneg s0 s1
  have h2 := le_fadd_left (isF64_fl (v 0 ⊠ v 0 + v 1 ⊠ v 1)) s2
  have h3 := le_fadd_right hs (isF64_fl (v 2 * v 2))
  have mono : ∀ {x y : ℚ}, 0 ≤ x → x ≤ y → sqrtF x ≤ sqrtF y := by
    intro x y hx hxy
    obtain ⟨lo, hi, a1, a2, a3, a4, a5, a6⟩ := sqrtF_spec hx
    rw [← a5]
    exact le_sqrtF (hx.trans hxy) (a3.trans hxy)
  unfold lengthF
  fin_cases i
  · exact mono s0 (h01.trans h2)
  · exact mono s1 (h11.trans h2)
  · exact mono s2 h3

/-- A computed length bounds the component. -/
theorem abs_le_sqrtF {x : ℚ} (hx : 1 / 2 ^ 250 ≤ |x|) : |x| * (1 - 3 / 2 ^ 53) ≤ sqrtF (x ⊠ x) := by
  have h0 : 0 < |x| := lt_of_lt_of_le (by positivity) hx
  have hsq : x * x = |x| ^ 2 := by rw [sq_abs, pow_two]
  have big : (1 : ℚ) / 2 ^ 1000 ≤ |x| ^ 2 := by
    calc (1 : ℚ) / 2 ^ 1000 ≤ (1 / 2 ^ 250) ^ 2 := by
          rw [div_pow, one_pow, ← pow_mul]
          exact one_div_le_one_div_of_le (by positivity) (pow_le_pow_right₀ (by norm_num) (by norm_num))
      _ ≤ |x| ^ 2 := pow_le_pow_left₀ (by positivity) hx 2
  have h1 := (fl_pos_bounds big).1
  have h2 : (|x| * (1 - 1 / 2 ^ 53)) ^ 2 ≤ x ⊠ x := by
    unfold fmul
    rw [hsq]
    refine le_trans ?_ h1
    have : (0 : ℚ) ≤ |x| ^ 2 := sq_nonneg _
    have c : ((1 : ℚ) - 1 / 2 ^ 53) ^ 2 ≤ 1 - 1 / 2 ^ 53 := by norm_num
    rw [mul_pow]
    exact mul_le_mul_of_nonneg_left c this
  refine le_trans ?_ (le_sqrtF (fl_sq_nonneg x) h2)
  have h3 : (1 : ℚ) / 2 ^ 1000 ≤ |x| * (1 - 1 / 2 ^ 53) := by
    calc (1 : ℚ) / 2 ^ 1000 ≤ 1 / 2 ^ 251 := one_div_le_one_div_of_le (by positivity) (pow_le_pow_right₀ (by norm_num) (by norm_num))
      _ ≤ 1 / 2 ^ 250 * (1 - 1 / 2 ^ 53) := by norm_num
      _ ≤ |x| * (1 - 1 / 2 ^ 53) := mul_le_mul_of_nonneg_right hx (by norm_num)
  refine le_trans ?_ (fl_pos_bounds h3).1
  rw [mul_assoc]
  exact mul_le_mul_of_nonneg_left (by norm_num) h0.le

end Verif.Rounding
