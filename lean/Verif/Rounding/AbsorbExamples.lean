import Verif.Rounding.AbsorbProps

/-! # Examples: the hypotheses of the theorems in `AbsorbProps` are met -/

namespace Verif.Rounding

theorem f64_multiple {z : ℚ} (h : IsF64 z) : ∃ n : ℤ, z = n * (2 : ℚ) ^ (-1074 : ℤ) := by
  obtain ⟨m, e, -, he, rfl⟩ := (isF64_iff z).1 h
  obtain ⟨j, hj⟩ : ∃ j : ℕ, e = j + -1074 := ⟨(e + 1074).toNat, by omega⟩
  refine ⟨m * 2 ^ j, ?_⟩
  rw [hj, two_zpow_add, zpow_natCast]
  push_cast
  ring

/-- The largest number of type f64 which is not above a positive real number. -/
theorem exists_below (y : ℝ) (hy : 0 < y) : ∃ v : ℚ, IsF64 v ∧ (v : ℝ) ≤ y ∧ ∀ z : ℚ, IsF64 z → (z : ℝ) ≤ y → z ≤ v := by
  have hu : (0 : ℝ) < ((2 : ℚ) ^ (-1074 : ℤ) : ℚ) := by exact_mod_cast two_zpow_pos (-1074)
  have huQ := two_zpow_pos (-1074)
  obtain ⟨n, ⟨h1, h2⟩, h3⟩ := Int.exists_greatest_of_bdd
    (P := fun n : ℤ => IsF64 (n * (2 : ℚ) ^ (-1074 : ℤ)) ∧ ((n * (2 : ℚ) ^ (-1074 : ℤ) : ℚ) : ℝ) ≤ y)
    ⟨⌊y / ((2 : ℚ) ^ (-1074 : ℤ) : ℚ)⌋, fun n hn => by
      refine Int.le_floor.2 ?_
      rw [le_div_iff₀ hu]
      have := hn.2
      rwa [Rat.cast_mul, Rat.cast_intCast] at this⟩
    ⟨0, by rw [Int.cast_zero, zero_mul]; exact ⟨fl_zero, by rw [Rat.cast_zero]; exact hy.le⟩⟩
  refine ⟨_, h1, h2, fun z hz hzy => ?_⟩
  obtain ⟨m, rfl⟩ := f64_multiple hz
  exact mul_le_mul_of_nonneg_right (by exact_mod_cast h3 m ⟨hz, hzy⟩) huQ.le

/-- An `exp` as it is needed: the exact value rounded down. -/
theorem exp_exists : ∃ exp, ExpOk exp := by
  choose exp h1 h2 h3 using fun x : ℚ => exists_below (Real.exp x) (Real.exp_pos _)
  refine ⟨exp, h1, fun x => ?_, fun x y hxy => ?_, ?_, fun x hx => ?_⟩
  · exact h3 x 0 fl_zero (by rw [Rat.cast_zero]; exact (Real.exp_pos _).le)
  · exact h3 y _ (h1 x) ((h2 x).trans (Real.exp_le_exp.2 (by exact_mod_cast hxy)))
  · refine le_antisymm ?_ (h3 0 1 (by decide +kernel) (by simp))
    have := h2 0
    rw [Rat.cast_zero, Real.exp_zero] at this
    exact_mod_cast this
  · obtain ⟨y, hy⟩ : ∃ y, y = Real.exp (x : ℝ) := ⟨_, rfl⟩
    have hy0 : 0 < y := hy ▸ Real.exp_pos _
    have e2 := h2 x
    have e3 := h3 x
    rw [← hy] at e2 e3 hx ⊢
    obtain ⟨k, hk⟩ : ∃ k, k = Int.log 2 y := ⟨_, rfl⟩
    have k1 : (2 : ℝ) ^ k ≤ y := by
      have := Int.zpow_log_le_self (R := ℝ) (b := 2) (by norm_num) hy0
      rw [hk]
      exact_mod_cast this
    have k2 : y < (2 : ℝ) ^ (k + 1) := by
      have := Int.lt_zpow_succ_log_self (R := ℝ) (b := 2) (by norm_num) y
      rw [hk]
      exact_mod_cast this
    have k3 : -1001 < k := by
      have : (2 : ℝ) ^ (-1000 : ℤ) < (2 : ℝ) ^ (k + 1) := by
        refine lt_of_le_of_lt (le_of_eq ?_) (hx.trans_lt k2)
        rw [zpow_neg, one_div, show (1000 : ℤ) = ((1000 : ℕ) : ℤ) by norm_num, zpow_natCast]
      have := (zpow_lt_zpow_iff_right₀ (show (1 : ℝ) < 2 by norm_num)).1 this
      omega
    have hp : (0 : ℝ) < (2 : ℝ) ^ (k - 52) := zpow_pos (by norm_num) _
    obtain ⟨m, hm⟩ : ∃ m, m = ⌊y / (2 : ℝ) ^ (k - 52)⌋ := ⟨_, rfl⟩
    have m1 : (m : ℝ) ≤ y / (2 : ℝ) ^ (k - 52) := hm ▸ Int.floor_le _
    have m2 : y / (2 : ℝ) ^ (k - 52) < m + 1 := hm ▸ Int.lt_floor_add_one _
    have m0 : 0 ≤ m := hm ▸ Int.floor_nonneg.2 (div_nonneg hy0.le hp.le)
    rw [le_div_iff₀ hp] at m1
    rw [div_lt_iff₀ hp] at m2
    have hm53 : |m| < 2 ^ 53 := by
      rw [abs_of_nonneg m0]
      have : (m : ℝ) < 2 ^ 53 := by
        refine lt_of_mul_lt_mul_right (a := (2 : ℝ) ^ (k - 52)) (m1.trans_lt ?_) hp.le
        refine k2.trans_le (le_of_eq ?_)
        rw [← zpow_natCast, ← zpow_add₀ (by norm_num)]
        congr 1
        push_cast
        ring
      exact_mod_cast this
    have hf : IsF64 (m * (2 : ℚ) ^ (k - 52)) := fl_rep hm53 (by omega)
    have h4 := e3 _ hf (by push_cast; exact m1)
    have h5 := (Rat.cast_le (K := ℝ)).2 h4
    push_cast at h5
    rw [abs_le]
    have h6 : (2 : ℝ) ^ (k - 52) ≤ 1 / 2 ^ 52 * y := by
      rw [zpow_sub₀ (by norm_num), div_eq_mul_inv, mul_comm, show (52 : ℤ) = ((52 : ℕ) : ℤ) by norm_num, zpow_natCast, ← one_div]
      exact mul_le_mul_of_nonneg_left k1 (by positivity)
    have h7 : 0 ≤ 1 / 2 ^ 52 * y := by positivity
    constructor
    · linarith
    · linarith

/-- Hypotheses of `outgoing_accurate_f64`: a density of 10⁻²¹ kg/m³, half of the atoms ionised, a cell of 2⁵⁰ m. The optical depth
is about 0.1. -/
example : (2 : ℚ) ^ (-1000 : ℤ) ≤ fl (1 / 10 ^ 21) / protonMassF ∧ (2 : ℚ) ^ (-1000 : ℤ) ≤ 1 - 1 / 2 ∧
    (2 : ℚ) ^ (-1000 : ℤ) ≤ fl (1 / 10 ^ 21) / protonMassF * (1 - 1 / 2) ∧
    (2 : ℚ) ^ (-1000 : ℤ) ≤ fl (1 / 10 ^ 21) / protonMassF * (1 - 1 / 2) * sigmaF ∧
    1 / 20 ≤ roundedDepth (fl (1 / 10 ^ 21)) (1 / 2) (2 ^ 50) ∧ roundedDepth (fl (1 / 10 ^ 21)) (1 / 2) (2 ^ 50) ≤ 1 / 5 := by decide +kernel

/-- The hypotheses of `thin_cell`: 10⁻¹⁸ of the atoms of this cell are neutral... -/
example : (neutralDensityF (fl (1 / 10 ^ 21)) (1 - 1 / 2 ^ 53) ⊠ sigmaF) ⊠ 2 ^ 50 ≤ 1 / 2 ^ 54 := by decide +kernel

/-- ... and an `exp` which is one for small arguments is possible. -/
example : ∃ exp : ℚ → ℚ, ∀ t, 0 ≤ t → t ≤ 1 / 2 ^ 54 → exp (-t) = 1 := ⟨fun _ => 1, fun _ _ _ => rfl⟩

/-- `outgoing_range_f64`, `outgoing_mono_f64` and `ionised_absorbed_f64`. -/
example : ∃ exp, ExpOk exp ∧ outgoingRateF exp (1 / 2) (fl (1 / 10 ^ 21)) (1 / 2) (2 ^ 50) 3 ≤ 3 ∧
    outgoingRateF exp (1 / 2) (fl (1 / 10 ^ 21)) (1 / 4) (2 ^ 50) 3 ≤ outgoingRateF exp (1 / 2) (fl (1 / 10 ^ 21)) (1 / 2) (2 ^ 50) 3 ∧
    0 ≤ newlyIonizedF exp (fl (1 / 10 ^ 21)) (1 / 2) (2 ^ 50) 5 10 := by
  obtain ⟨exp, E⟩ := exp_exists
  have hd : (0 : ℚ) ≤ fl (1 / 10 ^ 21) := by decide +kernel
  refine ⟨exp, E, (outgoing_range_f64 E hd (by norm_num) (by norm_num) (by decide +kernel) (by norm_num)).2.2.1,
    outgoing_mono_f64 E hd le_rfl (by norm_num) (by norm_num) (by norm_num) le_rfl (by norm_num),
    (ionised_absorbed_f64 E (threshold := 1 / 2) (rates := [2, 3]) hd (by norm_num) (by norm_num) ?_ (by norm_num) (by norm_num) (Or.inr ?_)).1⟩
  · intro r hr
    have : (2 : ℚ) ^ (-1000 : ℤ) ≤ 2 := by decide +kernel
    have : (2 : ℚ) ^ (-1000 : ℤ) ≤ 3 := by decide +kernel
    fin_cases hr
    · exact ⟨by norm_num, Or.inr ‹_›⟩
    · exact ⟨by norm_num, Or.inr ‹_›⟩
  · decide +kernel

end Verif.Rounding
