import Verif.Geometry.Model
import Mathlib.Tactic.Linarith
import Mathlib.Tactic.Ring
import Mathlib.Tactic.FieldSimp
import Mathlib.Tactic.FinCases

/-!
# Helper lemmas on periodic wrapping and minimal images
-/

namespace Verif.Geometry

section Wrap
variable {K : Type} [Field K] [LinearOrder K] [IsStrictOrderedRing K] [FloorRing K]

theorem remEuclid_spec (a b : K) (hb : 0 < b) :
    0 ≤ remEuclid a b ∧ remEuclid a b < b ∧ ∃ k : ℤ, remEuclid a b = a + k * b := by
  have hmul : b * (a / b) = a := by field_simp
  unfold remEuclid fmod trunc
  simp only
  by_cases h : a / b < 0
  · simp only [h, if_true]
    have h1 : a / b ≤ (⌈a / b⌉ : K) := Int.le_ceil _
    have h2 : (⌈a / b⌉ : K) < a / b + 1 := Int.ceil_lt_add_one _
    have h1' := mul_le_mul_of_nonneg_left h1 hb.le
    have h2' := mul_lt_mul_of_pos_left h2 hb
    rw [mul_add, hmul, mul_one] at h2'
    rw [hmul] at h1'
    split
    · rename_i h3
      rw [abs_of_pos hb]
      refine ⟨by linarith, by linarith, 1 - ⌈a / b⌉, ?_⟩
      push_cast; ring
    · rename_i h3
      refine ⟨by linarith, by linarith, - ⌈a / b⌉, ?_⟩
      push_cast; ring
  · simp only [h, if_false]
    have h1 : (⌊a / b⌋ : K) ≤ a / b := Int.floor_le _
    have h2 : a / b < (⌊a / b⌋ : K) + 1 := Int.lt_floor_add_one _
    have h1' := mul_le_mul_of_nonneg_left h1 hb.le
    have h2' := mul_lt_mul_of_pos_left h2 hb
    rw [mul_add, hmul, mul_one] at h2'
    rw [hmul] at h1'
    split
    · linarith
    · refine ⟨by linarith, by linarith, - ⌊a / b⌋, ?_⟩
      push_cast; ring

end Wrap

section Min
variable {K : Type} [Field K] [LinearOrder K] [IsStrictOrderedRing K]

/-- The result is one of the three candidates. -/
theorem minimize_eq (v L : K) :
    ∃ w : WrapType, minimizeComponent v L = v - L * w.asSign := by
  unfold minimizeComponent
  split
  · exact ⟨.plus, by simp [WrapType.asSign]⟩
  · split
    · exact ⟨.minus, by simp [WrapType.asSign]⟩
    · exact ⟨.noWrap, by simp [WrapType.asSign]⟩

/-- The result is smallest in absolute value among the three candidates. -/
theorem minimize_le (v L : K) (hL : 0 < L) (w : WrapType) :
    |minimizeComponent v L| ≤ |v - L * w.asSign| := by
  unfold minimizeComponent
  cases w <;> simp only [WrapType.asSign, mul_zero, mul_one, mul_neg, sub_zero, sub_neg_eq_add] <;>
    split <;> rename_i h1 <;> [skip; split; skip; split; skip; split] <;>
    (try rename_i h2) <;>
    (apply abs_le.2; constructor <;>
     first
     | linarith [le_abs_self (v - L), neg_le_abs (v - L), le_abs_self v, neg_le_abs v]
     | linarith [le_abs_self (v + L), neg_le_abs (v + L), le_abs_self v, neg_le_abs v])

theorem minimize_half (v L : K) (hv : |v| ≤ 3 / 2 * L) :
    |minimizeComponent v L| ≤ L / 2 := by
  have h := abs_le.1 hv
  unfold minimizeComponent
  split
  · apply abs_le.2; constructor <;> linarith
  · split
    · apply abs_le.2; constructor <;> linarith
    · apply abs_le.2; constructor <;> linarith

/-- For `|v| ≤ 3/2 L` the result is smallest among all lattice translates. -/
theorem minimize_le_all (v L : K) (hL : 0 < L) (hv : |v| ≤ 3 / 2 * L) (k : ℤ) :
    |minimizeComponent v L| ≤ |v + k * L| := by
  have hhalf := minimize_half v L hv
  have hj : ∃ j : ℤ, v + k * L = minimizeComponent v L + j * L := by
    obtain ⟨w, hw⟩ := minimize_eq v L
    rw [hw]
    cases w
    · exact ⟨k, by simp [WrapType.asSign]⟩
    · exact ⟨k - 1, by simp only [WrapType.asSign]; push_cast; ring⟩
    · exact ⟨k + 1, by simp only [WrapType.asSign]; push_cast; ring⟩
  obtain ⟨j, hj⟩ := hj
  rw [hj]
  generalize minimizeComponent v L = m at hhalf
  have hm := abs_le.1 hhalf
  rcases lt_trichotomy j 0 with h | h | h
  · have : (j : K) ≤ -1 := by exact_mod_cast (by omega : j ≤ -1)
    have h2 : (j : K) * L ≤ -1 * L := mul_le_mul_of_nonneg_right this hL.le
    have := neg_le_abs (m + j * L)
    linarith
  · subst h; simp
  · have : (1 : K) ≤ j := by exact_mod_cast (by omega : 1 ≤ j)
    have h2 : 1 * L ≤ (j : K) * L := mul_le_mul_of_nonneg_right this hL.le
    have := le_abs_self (m + j * L)
    linarith

theorem minimize_neg (v L : K) (hL : 0 < L) :
    minimizeComponent (-v) L = -minimizeComponent v L := by
  unfold minimizeComponent
  by_cases h1 : v > L / 2
  · rw [if_pos h1, if_neg (by linarith), if_pos (by linarith)]; ring
  · rw [if_neg h1]
    by_cases h2 : v < -L / 2
    · rw [if_pos h2, if_pos (by linarith)]; ring
    · rw [if_neg h2, if_neg (by linarith), if_neg (by linarith)]

end Min

section Length
variable {d : ℕ}

theorem length_mono (a b : Vec d ℝ) (h : ∀ i, |a i| ≤ |b i|) : length a ≤ length b := by
  apply Real.sqrt_le_sqrt
  apply Finset.sum_le_sum
  intro i _
  exact sq_le_sq.2 (h i)

theorem length_congr (a b : Vec d ℝ) (h : ∀ i, |a i| = |b i|) : length a = length b :=
  le_antisymm (length_mono a b fun i => (h i).le) (length_mono b a fun i => (h i).ge)

theorem component_le_length (a : Vec d ℝ) (i : Fin d) : |a i| ≤ length a := by
  unfold length
  rw [← Real.sqrt_sq_eq_abs]
  apply Real.sqrt_le_sqrt
  exact Finset.single_le_sum (f := fun i => a i ^ 2) (fun j _ => sq_nonneg _) (Finset.mem_univ i)

theorem mem_allWraps3 (w : Fin 3 → WrapType) : w ∈ allWraps3 := by
  have : w = ![w 0, w 1, w 2] := by funext i; fin_cases i <;> rfl
  rw [this]
  generalize w 0 = a
  generalize w 1 = b
  generalize w 2 = c
  cases a <;> cases b <;> cases c <;> decide

theorem mem_allWraps2 (w : Fin 2 → WrapType) : w ∈ allWraps2 := by
  have : w = ![w 0, w 1] := by funext i; fin_cases i <;> rfl
  rw [this]
  generalize w 0 = a
  generalize w 1 = b
  cases a <;> cases b <;> decide

theorem nodup_allWraps3 : allWraps3.Nodup := by decide
theorem nodup_allWraps2 : allWraps2.Nodup := by decide

end Length

end Verif.Geometry
