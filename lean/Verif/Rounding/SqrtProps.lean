import Verif.Rounding.FaceProps
import Verif.Rounding.BinaryProps
import Verif.Rounding.KeyProps

/-!
# The correctly rounded square root exists, and its error
-/

namespace Verif.Rounding

theorem fl_grid (x : ℚ) : Grid 1074 (fl x) := by
  obtain ⟨m, -, hm⟩ := fl_form x
  have hs := scale_ge x
  obtain ⟨j, hj⟩ := Int.eq_ofNat_of_zero_le (show 0 ≤ scale x - 52 + 1074 by omega)
  refine ⟨m * 2 ^ j, ?_⟩
  rw [hm]
  push_cast
  rw [mul_assoc, ← zpow_natCast, ← two_zpow_add]
  congr 2
  omega

theorem fl_le_of_nearest {t z : ℚ} (hz : IsF64 z) : |fl t - t| ≤ |z - t| := ((fl_rounds t).2 z ((isF64_iff z).1 hz)).1

/-- Every nonnegative number has a correctly rounded square root. -/
theorem sqrt_total {x : ℚ} (hx : 0 ≤ x) : ∃ y, SqrtRounded x y := by
  by_cases hsq : ∃ t : ℚ, 0 ≤ t ∧ t ^ 2 = x
  · obtain ⟨t, h0, h⟩ := hsq
    exact ⟨fl t, t, t, h0, h0, h.le, h.ge, rfl, rfl⟩
  push Not at hsq
  have hx0 : 0 < x := lt_of_le_of_ne hx (by have := hsq 0 le_rfl; simpa using this)
  have hbig : x < (x + 1) ^ 2 := by nlinarith
  have below : ∀ t : ℚ, t ^ 2 ≤ x → t ≤ x + 1 := fun t h => le_of_sq_le (h.trans hbig.le) (by linarith)
  have g2 := two_zpow_pos (-((1074 : ℕ) : ℤ))
  -- the largest value below and the smallest value above the square root
  obtain ⟨ma, ⟨lo, hlo0, hlo, hma⟩, hmax⟩ := Int.exists_greatest_of_bdd
    (P := fun m : ℤ => ∃ t : ℚ, 0 ≤ t ∧ t ^ 2 ≤ x ∧ fl t = m * (2 : ℚ) ^ (-((1074 : ℕ) : ℤ)))
    (by
      obtain ⟨mb, hmb⟩ := fl_grid (x + 1)
      refine ⟨mb, ?_⟩
      rintro m ⟨t, _, h, e⟩
      have := fl_mono (below t h)
      rw [e, hmb] at this
      exact_mod_cast le_of_mul_le_mul_right this g2)
    (by
      obtain ⟨m, hm⟩ := fl_grid 0
      exact ⟨m, 0, le_rfl, by simpa using hx, hm⟩)
  obtain ⟨mb, ⟨hi, hhi0, hhi, hmb⟩, hmin⟩ := Int.exists_least_of_bdd
    (P := fun m : ℤ => ∃ t : ℚ, 0 ≤ t ∧ x ≤ t ^ 2 ∧ fl t = m * (2 : ℚ) ^ (-((1074 : ℕ) : ℤ)))
    (by
      refine ⟨0, ?_⟩
      rintro m ⟨t, h0, h, e⟩
      have := fl_nonneg h0
      rw [e] at this
      have := nonneg_of_mul_nonneg_left this g2
      exact_mod_cast this)
    (by
      obtain ⟨m, hm⟩ := fl_grid (x + 1)
      exact ⟨m, x + 1, by linarith, hbig.le, hm⟩)
  have hA : ∀ t : ℚ, 0 ≤ t → t ^ 2 ≤ x → fl t ≤ fl lo := by
    intro t h0 h
    obtain ⟨m, hm⟩ := fl_grid t
    have := hmax m ⟨t, h0, h, hm⟩
    rw [hm, hma]
    exact mul_le_mul_of_nonneg_right (by exact_mod_cast this) g2.le
  have hB : ∀ t : ℚ, 0 ≤ t → x ≤ t ^ 2 → fl hi ≤ fl t := by
    intro t h0 h
    obtain ⟨m, hm⟩ := fl_grid t
    have := hmin m ⟨t, h0, h, hm⟩
    rw [hm, hmb]
    exact mul_le_mul_of_nonneg_right (by exact_mod_cast this) g2.le
  refine ⟨fl hi, lo, hi, hlo0, hhi0, hlo, hhi, ?_, rfl⟩
  by_contra hne
  have hab : fl lo < fl hi := lt_of_le_of_ne (fl_mono (le_of_sq_le (hlo.trans hhi) hhi0)) hne
  have fa := isF64_fl lo
  have fb := isF64_fl hi
  have a0 := fl_nonneg hlo0
  obtain ⟨m, hm⟩ : ∃ m, m = (fl lo + fl hi) / 2 := ⟨_, rfl⟩
  have m0 : 0 ≤ m := by linarith
  generalize fl lo = a at *
  generalize fl hi = b at *
  rcases lt_or_gt_of_ne (hsq m m0) with h | h
  · -- a number above the midpoint but below the square root
    obtain ⟨t, ht, htx⟩ : ∃ t : ℚ, m < t ∧ t ^ 2 ≤ x := by
      have hd : 0 < x - m ^ 2 := by linarith
      have hp : 0 < 2 * m + 1 := by linarith
      obtain ⟨ε, he⟩ : ∃ ε, ε = min 1 ((x - m ^ 2) / (2 * m + 1)) := ⟨_, rfl⟩
      have e0 : 0 < ε := by rw [he]; exact lt_min one_pos (div_pos hd hp)
      have e1 : ε ≤ 1 := he ▸ min_le_left _ _
      have e2 : ε * (2 * m + 1) ≤ x - m ^ 2 := by
        rw [← le_div_iff₀ hp]
        exact he ▸ min_le_right _ _
      exact ⟨m + ε, by linarith, by nlinarith⟩
    have h1 := hA t (by linarith) htx
    have h2 := fl_le_of_nearest (t := t) fb
    rcases le_or_gt t b with hb | hb
    · rw [abs_of_nonneg (by linarith : 0 ≤ b - t), abs_of_nonpos (by linarith)] at h2
      linarith
    · have := le_fl fb hb.le
      linarith
  · obtain ⟨t, ht0, ht, htx⟩ : ∃ t : ℚ, 0 ≤ t ∧ t < m ∧ x ≤ t ^ 2 := by
      have hm0 : 0 < m := by
        rcases m0.lt_or_eq with h' | h'
        · exact h'
        · rw [← h'] at h
          norm_num at h
          linarith
      have hd : 0 < m ^ 2 - x := by linarith
      refine ⟨m - (m ^ 2 - x) / (2 * m), ?_, ?_, ?_⟩
      · have : (m ^ 2 - x) / (2 * m) ≤ m := by
          rw [div_le_iff₀ (by linarith)]
          nlinarith
        linarith
      · have : 0 < (m ^ 2 - x) / (2 * m) := div_pos hd (by linarith)
        linarith
      · have e : (m - (m ^ 2 - x) / (2 * m)) ^ 2 = x + ((m ^ 2 - x) / (2 * m)) ^ 2 := by
          field_simp
          ring
        rw [e]
        have := sq_nonneg ((m ^ 2 - x) / (2 * m))
        linarith
    have h1 := hB t ht0 htx
    have h2 := fl_le_of_nearest (t := t) fa
    rcases le_or_gt a t with hb | hb
    · rw [abs_of_nonpos (by linarith : a - t ≤ 0), abs_of_nonneg (by linarith)] at h2
      linarith
    · have := fl_le fa hb.le
      linarith

open Classical in
/-- `f64::sqrt` of a nonnegative number. -/
noncomputable def sqrtF (x : ℚ) : ℚ := if h : ∃ y, SqrtRounded x y then h.choose else 0

theorem sqrtF_spec {x : ℚ} (hx : 0 ≤ x) : SqrtRounded x (sqrtF x) := by
  unfold sqrtF
  rw [dif_pos (sqrt_total hx)]
  exact (sqrt_total hx).choose_spec

/-- The value of the square root. -/
theorem sqrtF_eq {x y : ℚ} (h : SqrtRounded x y) : sqrtF x = y := by
  obtain ⟨lo, hi, h1, h2, h3, h4, h5, h6⟩ := h
  have hx : 0 ≤ x := (sq_nonneg lo).trans h3
  exact (sqrtF_spec hx).unique ⟨lo, hi, h1, h2, h3, h4, h5, h6⟩

/-- Bounds of the square root. -/
theorem sqrtF_le {x R : ℚ} (hx : 0 ≤ x) (hR : 0 ≤ R) (h : x ≤ R ^ 2) : sqrtF x ≤ fl R := by
  obtain ⟨lo, hi, h1, h2, h3, h4, h5, h6⟩ := sqrtF_spec hx
  rw [← h5]
  exact fl_mono (le_of_sq_le (h3.trans h) hR)

theorem le_sqrtF {x R : ℚ} (hx : 0 ≤ x) (h : R ^ 2 ≤ x) : fl R ≤ sqrtF x := by
  obtain ⟨lo, hi, h1, h2, h3, h4, h5, h6⟩ := sqrtF_spec hx
  rw [← h6]
  exact fl_mono (le_of_sq_le (h.trans h4) h2)

end Verif.Rounding
