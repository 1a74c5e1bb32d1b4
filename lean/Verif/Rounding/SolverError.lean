import Verif.Rounding.SearchLemmas
import Verif.Predicates.SolverLemmas

/-!
# Rounding errors of the solver of linear systems

Helper lemmas: what the solver returns is an exact solution of a system with slightly different entries.
-/

namespace Verif.Rounding

open Verif.Predicates

/-- A small error is a relative one and an absolute one. -/
theorem split_error {d f A B : ℚ} (hA : 0 ≤ A) (hB : 0 ≤ B) (h : |d| ≤ A * |f| + B) :
    ∃ e n : ℚ, |e| ≤ A ∧ |n| ≤ B ∧ d = f * e + n := by
  by_cases hf : f = 0
  · subst hf
    rw [abs_zero, mul_zero, zero_add] at h
    exact ⟨0, d, by simpa using hA, h, by ring⟩
  · rcases le_or_gt |d| (A * |f|) with h1 | h1
    · refine ⟨d / f, 0, ?_, by simpa using hB, ?_⟩
      · rw [abs_div, div_le_iff₀ (abs_pos.2 hf)]; exact h1
      · field_simp; ring
    · rcases le_total 0 d with hd | hd
      · rw [abs_of_nonneg hd] at h h1
        refine ⟨A * |f| / f, d - A * |f|, ?_, ?_, ?_⟩
        · rw [abs_div, abs_mul, abs_abs, mul_div_assoc, div_self (abs_ne_zero.2 hf), mul_one, abs_of_nonneg hA]
        · rw [abs_of_nonneg (by linarith)]; linarith
        · field_simp; ring
      · rw [abs_of_nonpos hd] at h h1
        refine ⟨-(A * |f|) / f, d + A * |f|, ?_, ?_, ?_⟩
        · rw [abs_div, abs_neg, abs_mul, abs_abs, mul_div_assoc, div_self (abs_ne_zero.2 hf), mul_one, abs_of_nonneg hA]
        · rw [abs_of_nonpos (by linarith)]; linarith
        · field_simp; ring

/-- Rounding, forwards. -/
theorem fl_forward (x : ℚ) : ∃ e n : ℚ, |e| ≤ 101 / 100 / 2 ^ 53 ∧ |n| ≤ 2 * (1 / 2 ^ 1074) ∧ fl x = x * (1 + e) + n := by
  have h := fl_abs_err x
  have ht : (0 : ℚ) < 1 / 2 ^ 1074 := by positivity
  generalize (1 : ℚ) / 2 ^ 1074 = t at *
  obtain ⟨e, n, h1, h2, h3⟩ := split_error (d := fl x - x) (f := x) (A := 101 / 100 / 2 ^ 53) (B := 2 * t) (by norm_num)
    (by linarith) (by
      have : |x| / 2 ^ 53 ≤ 101 / 100 / 2 ^ 53 * |x| := by
        have := abs_nonneg x
        norm_num
        linarith
      linarith)
  exact ⟨e, n, h1, h2, by linear_combination h3⟩

/-- Rounding, backwards. -/
theorem fl_back (x : ℚ) : ∃ e n : ℚ, |e| ≤ 101 / 100 / 2 ^ 53 ∧ |n| ≤ 2 * (1 / 2 ^ 1074) ∧ x = fl x * (1 + e) + n := by
  have h := fl_abs_err x
  have ht : (0 : ℚ) < 1 / 2 ^ 1074 := by positivity
  generalize (1 : ℚ) / 2 ^ 1074 = t at *
  have h1 : |x| ≤ |fl x| + |fl x - x| := by
    have := abs_sub_abs_le_abs_sub x (fl x)
    rw [abs_sub_comm] at this
    linarith
  obtain ⟨e, n, h1, h2, h3⟩ := split_error (d := x - fl x) (f := fl x) (A := 101 / 100 / 2 ^ 53) (B := 2 * t) (by norm_num)
    (by linarith) (by
      rw [abs_sub_comm]
      have := abs_nonneg (fl x)
      norm_num at h ⊢
      linarith)
  exact ⟨e, n, h1, h2, by linear_combination h3⟩

/-! ## Rows -/

/-- The row, changed by at most `e` in every entry, is an exact equation for `x` (`c` is one, or zero for the equation without
the right-hand side). -/
def NearRow {m : ℕ} (r : Fin (m + 1) → ℚ) (x : Fin m → ℚ) (c e : ℚ) : Prop :=
  ∃ r' : Fin (m + 1) → ℚ, (∀ j, |r' j - r j| ≤ e) ∧ resid r' x c = 0

theorem NearRow.mono {m : ℕ} {r : Fin (m + 1) → ℚ} {x : Fin m → ℚ} {c e e' : ℚ} (h : NearRow r x c e) (he : e ≤ e') :
    NearRow r x c e' := by
  obtain ⟨r', h1, h2⟩ := h
  exact ⟨r', fun j => (h1 j).trans he, h2⟩

theorem resid_add_mul {m : ℕ} (r s : Fin (m + 1) → ℚ) (f : ℚ) (x : Fin m → ℚ) (c : ℚ) :
    resid (fun j => r j + s j * f) x c = resid r x c + f * resid s x c := by
  have := resid_sub_mul r s (-f) x c
  simp only [mul_neg, sub_neg_eq_add] at this
  rw [this]; ring

theorem isF64_one : IsF64 1 := by
  have := fl_two_zpow (k := 0) (by norm_num)
  simpa [IsF64] using this

theorem fl_abs_le_one {x : ℚ} (h : |x| ≤ 1) : |fl x| ≤ 1 := by
  rw [abs_le] at h ⊢
  constructor
  · have := fl_le (x := -x) isF64_one (by linarith)
    rw [fl_neg] at this
    linarith
  · exact fl_le isF64_one h.2

/-- One entry of the elimination. -/
theorem eliminate_entry {a g f B : ℚ} (hB : 1 / 2 ^ 200 ≤ B) (ha : |a| ≤ B) (hg : |g| ≤ B) (hf : |f| ≤ 1) :
    |a ⊟ g ⊠ f - (a - g * f)| ≤ 4 * (B / 2 ^ 53) := by
  have hB0 : 0 ≤ B := (abs_nonneg a).trans ha
  have hgf : |g * f| ≤ 1 * B := by
    rw [abs_mul, one_mul]
    calc |g| * |f| ≤ B * 1 := mul_le_mul hg hf (abs_nonneg _) hB0
      _ = B := mul_one B
  have e1 := fl_err_M hB hgf
  change |g ⊠ f - g * f| ≤ _ at e1
  generalize g ⊠ f = p at *
  have hsub : |a - p| ≤ (21 / 10) * B := by
    have h1 : |a - p| ≤ |a| + |g * f| + |p - g * f| := by
      calc |a - p| = |a - g * f - (p - g * f)| := by congr 1; ring
        _ ≤ |a - g * f| + |p - g * f| := abs_sub _ _
        _ ≤ _ := by linarith [abs_sub a (g * f)]
    have : (1 + 1 / 64) * (B / 2 ^ 53) ≤ 1 / 10 * B := by
      norm_num
      linarith
    linarith
  have e2 := fl_err_M hB hsub
  change |a ⊟ p - (a - p)| ≤ _ at e2
  calc |a ⊟ p - (a - g * f)| = |(a ⊟ p - (a - p)) - (p - g * f)| := by congr 1; ring
    _ ≤ |a ⊟ p - (a - p)| + |p - g * f| := abs_sub _ _
    _ ≤ (21 / 10 + 1 / 64) * (B / 2 ^ 53) + (1 + 1 / 64) * (B / 2 ^ 53) := add_le_add e2 e1
    _ ≤ 4 * (B / 2 ^ 53) := by
      have : 0 ≤ B / 2 ^ 53 := by positivity
      linarith

/-- The factor of the elimination. -/
theorem eliminate_factor {a p B : ℚ} (hB : 1 / 2 ^ 200 ≤ B) (hp : p ≠ 0) (hpB : |p| ≤ B) (hap : |a| ≤ |p|) :
    |a ⊘ p| ≤ 1 ∧ |p * (a ⊘ p) - a| ≤ 4 * (B / 2 ^ 53) := by
  have hq : |a / p| ≤ 1 := by
    rw [abs_div]; exact div_le_one_of_le₀ hap (abs_nonneg _)
  refine ⟨fl_abs_le_one hq, ?_⟩
  have h := fl_abs_err (a / p)
  have ht : (1 : ℚ) / 2 ^ 1074 ≤ 1 / 2 ^ 53 :=
    one_div_le_one_div_of_le (by positivity) (pow_le_pow_right₀ (by norm_num) (by norm_num))
  generalize (1 : ℚ) / 2 ^ 1074 = t at *
  have h' : |a ⊘ p - a / p| ≤ 2 / 2 ^ 53 := by
    have : |a / p| / 2 ^ 53 ≤ 1 / 2 ^ 53 := div_le_div_of_nonneg_right hq (by positivity)
    have h2 : (2 : ℚ) / 2 ^ 53 = 1 / 2 ^ 53 + 1 / 2 ^ 53 := by ring
    rw [h2]
    exact h.trans (add_le_add this ht)
  have : p * (a ⊘ p) - a = p * (a ⊘ p - a / p) := by field_simp
  rw [this, abs_mul]
  calc |p| * |a ⊘ p - a / p| ≤ B * (2 / 2 ^ 53) := mul_le_mul hpB h' (abs_nonneg _) ((abs_nonneg _).trans hpB)
    _ ≤ 4 * (B / 2 ^ 53) := by
      have : 0 ≤ B := (abs_nonneg _).trans hpB
      norm_num
      linarith

section eliminate

variable {m : ℕ} {a : Mat m (m + 1) ℚ} {h : Fin m} {k : Fin (m + 1)} {B : ℚ}

/-- The elimination changes a row by a multiple of the pivot row, up to rounding errors. -/
theorem eliminateF_entry (hB : 1 / 2 ^ 200 ≤ B) (hb : ∀ i j, |a i j| ≤ B) (hz : ZeroBelow a h.val k.val) (hp : a h k ≠ 0)
    {i : Fin m} (hi : h < i) (hpiv : |a i k| ≤ |a h k|) (j : Fin (m + 1)) :
    |eliminateF a h k i j + a h j * (a i k ⊘ a h k) - a i j| ≤ 4 * (B / 2 ^ 53) := by
  obtain ⟨hf1, hf2⟩ := eliminate_factor hB hp (hb h k) hpiv
  have hB0 : 0 ≤ B := (abs_nonneg _).trans (hb h k)
  unfold eliminateF
  rw [if_pos hi]
  by_cases h1 : j = k
  · subst h1
    rw [if_pos rfl, zero_add]
    exact hf2
  · rw [if_neg h1]
    by_cases h2 : k < j
    · rw [if_pos h2]
      have := eliminate_entry hB (hb i j) (hb h j) hf1
      calc _ = |a i j ⊟ a h j ⊠ (a i k ⊘ a h k) - (a i j - a h j * (a i k ⊘ a h k))| := by congr 1; ring
        _ ≤ _ := this
    · rw [if_neg h2]
      have hlt : j.val < k.val := lt_of_le_of_ne (not_lt.1 h2) fun e => h1 (Fin.ext e)
      rw [hz h j le_rfl hlt]
      simp
      positivity

theorem eliminateF_bound (hB : 1 / 2 ^ 200 ≤ B) (hb : ∀ i j, |a i j| ≤ B) (hz : ZeroBelow a h.val k.val) (hp : a h k ≠ 0)
    (hpiv : ∀ i, h < i → |a i k| ≤ |a h k|) (i : Fin m) (j : Fin (m + 1)) :
    |eliminateF a h k i j| ≤ 201 / 100 * B := by
  have hB0 : 0 ≤ B := (abs_nonneg _).trans (hb h k)
  by_cases hi : h < i
  · have h1 := eliminateF_entry hB hb hz hp hi (hpiv i hi) j
    have hf := (eliminate_factor hB hp (hb h k) (hpiv i hi)).1
    have h2 : |a h j * (a i k ⊘ a h k)| ≤ B := by
      rw [abs_mul]
      calc _ ≤ B * 1 := mul_le_mul (hb h j) hf (abs_nonneg _) hB0
        _ = B := mul_one B
    have h3 := hb i j
    rw [abs_le] at *
    norm_num at h1
    constructor <;> linarith [h1.1, h1.2, h2.1, h2.2, h3.1, h3.2]
  · unfold eliminateF
    rw [if_neg hi]
    linarith [hb i j]

theorem eliminateF_near (hB : 1 / 2 ^ 200 ≤ B) (hb : ∀ i j, |a i j| ≤ B) (hz : ZeroBelow a h.val k.val) (hp : a h k ≠ 0)
    (hpiv : ∀ i, h < i → |a i k| ≤ |a h k|) {x : Fin m → ℚ} {c e : ℚ} (he : 0 ≤ e)
    (hn : ∀ i, NearRow (eliminateF a h k i) x c e) (i : Fin m) : NearRow (a i) x c (2 * e + 4 * (B / 2 ^ 53)) := by
  have hB0 : 0 ≤ B := (abs_nonneg _).trans (hb h k)
  have hrow : ∀ i, ¬ h < i → eliminateF a h k i = a i := by
    intro i hi
    funext j
    unfold eliminateF
    rw [if_neg hi]
  by_cases hi : h < i
  · obtain ⟨g, hg1, hg2⟩ := hn h
    rw [hrow h (lt_irrefl _)] at hg1
    obtain ⟨r, hr1, hr2⟩ := hn i
    refine ⟨fun j => r j + g j * (a i k ⊘ a h k), fun j => ?_, ?_⟩
    · have h1 := eliminateF_entry hB hb hz hp hi (hpiv i hi) j
      have hf := (eliminate_factor hB hp (hb h k) (hpiv i hi)).1
      have h2 : |(g j - a h j) * (a i k ⊘ a h k)| ≤ e := by
        rw [abs_mul]
        calc _ ≤ e * 1 := mul_le_mul (hg1 j) hf (abs_nonneg _) he
          _ = e := mul_one e
      have h3 := hr1 j
      calc |r j + g j * (a i k ⊘ a h k) - a i j| = |(r j - eliminateF a h k i j) + (g j - a h j) * (a i k ⊘ a h k) +
            (eliminateF a h k i j + a h j * (a i k ⊘ a h k) - a i j)| := by congr 1; ring
        _ ≤ |r j - eliminateF a h k i j| + |(g j - a h j) * (a i k ⊘ a h k)| + _ :=
            (abs_add_le _ _).trans (add_le_add_left (abs_add_le _ _) _)
        _ ≤ e + e + 4 * (B / 2 ^ 53) := add_le_add (add_le_add h3 h2) h1
        _ = _ := by ring
    · rw [resid_add_mul, hr2, hg2]; ring
  · have := hn i
    rw [hrow i hi] at this
    refine this.mono ?_
    have : 0 ≤ B / 2 ^ 53 := by positivity
    linarith

end eliminate

theorem near_swapRows {m : ℕ} {a : Mat m (m + 1) ℚ} {r1 r2 : Fin m} {x : Fin m → ℚ} {c e : ℚ}
    (h : ∀ i, NearRow (swapRows a r1 r2 i) x c e) (i : Fin m) : NearRow (a i) x c e := by
  by_cases h1 : i = r1
  · by_cases h2 : r2 = r1
    · have := h r1
      rw [swapRows, if_pos rfl, h2] at this
      rwa [h1]
    · have := h r2
      rw [swapRows, if_neg h2, if_pos rfl] at this
      rwa [h1]
  · by_cases h2 : i = r2
    · have := h r1
      rw [swapRows, if_pos rfl] at this
      rwa [h2]
    · have := h i
      rwa [swapRows, if_neg h1, if_neg h2] at this

/-- The elimination loop. -/
theorem eliminationF_near {m : ℕ} : ∀ (fuel h k : ℕ) (a : Mat m (m + 1) ℚ) (B : ℚ), 1 / 2 ^ 200 ≤ B → (∀ i j, |a i j| ≤ B) →
    h ≤ k → m + 1 ≤ k + fuel → ZeroBelow a h k → UpperUntil a h →
    UpperUntil (eliminationF fuel h k a) m ∧
    (∀ i j, |eliminationF fuel h k a i j| ≤ (201 / 100) ^ (m - 1 - h) * B) ∧
    ∀ x c e, 0 ≤ e → (∀ i, NearRow (eliminationF fuel h k a i) x c e) →
      ∀ i, NearRow (a i) x c (2 ^ (m - 1 - h) * e + (2 ^ (m - 1 - h) - 1) * (4 * ((201 / 100) ^ (m - 1 - h) * B / 2 ^ 53))) := by
  have base : ∀ (h : ℕ) (a : Mat m (m + 1) ℚ) (B : ℚ), 1 / 2 ^ 200 ≤ B → (∀ i j, |a i j| ≤ B) → UpperUntil a m →
      UpperUntil a m ∧ (∀ i j, |a i j| ≤ (201 / 100) ^ (m - 1 - h) * B) ∧
      ∀ x c e, 0 ≤ e → (∀ i, NearRow (a i) x c e) →
      ∀ i, NearRow (a i) x c (2 ^ (m - 1 - h) * e + (2 ^ (m - 1 - h) - 1) * (4 * ((201 / 100) ^ (m - 1 - h) * B / 2 ^ 53))) := by
    intro h a B hB hb hu
    have hB0 : 0 ≤ B := le_trans (by positivity) hB
    have p1 : (1 : ℚ) ≤ (201 / 100) ^ (m - 1 - h) := one_le_pow₀ (by norm_num)
    have p2 : (1 : ℚ) ≤ 2 ^ (m - 1 - h) := one_le_pow₀ (by norm_num)
    refine ⟨hu, fun i j => (hb i j).trans (le_mul_of_one_le_left hB0 p1), fun x c e he hn i => (hn i).mono ?_⟩
    have h1 : e ≤ 2 ^ (m - 1 - h) * e := le_mul_of_one_le_left he p2
    have h2 : 0 ≤ (2 ^ (m - 1 - h) - 1 : ℚ) * (4 * ((201 / 100) ^ (m - 1 - h) * B / 2 ^ 53)) :=
      mul_nonneg (by linarith) (by positivity)
    linarith
  intro fuel
  induction fuel with
  | zero =>
    intro h k a B hB hb hhk hf hz hu
    refine base h a B hB hb ?_
    intro i j hi hj
    by_cases hih : i.val < h
    · exact hu i j hih hj
    · exact hz i j (by omega) (by omega)
  | succ fuel ih =>
    intro h k a B hB hb hhk hf hz hu
    have hB0 : 0 ≤ B := le_trans (by positivity) hB
    rw [eliminationF]
    by_cases hh : h < m
    · rw [dif_pos hh]
      by_cases hk : k < m + 1
      · rw [dif_pos hk]
        dsimp only
        obtain ⟨hp1, hp2⟩ := pivotRow_spec a ⟨h, hh⟩ ⟨k, hk⟩
        set p := pivotRow a ⟨h, hh⟩ ⟨k, hk⟩
        by_cases h0 : a p ⟨k, hk⟩ = 0
        · rw [if_pos h0]
          refine ih h (k + 1) a B hB hb (by omega) (by omega) ?_ hu
          intro i j hi hj
          by_cases hjk : j.val < k
          · exact hz i j hi hjk
          · have hjk' : j = ⟨k, hk⟩ := Fin.ext (show j.val = k by omega)
            have := hp2 i (Fin.mk_le_of_le_val hi)
            rw [h0, abs_zero] at this
            rw [hjk']
            exact abs_eq_zero.1 (le_antisymm this (abs_nonneg _))
        · rw [if_neg h0]
          have hpv : h ≤ p.val := hp1
          have hz' : ZeroBelow (swapRows a ⟨h, hh⟩ p) h k := zeroBelow_swap hz le_rfl hpv
          have hu' : UpperUntil (swapRows a ⟨h, hh⟩ p) h := upperUntil_swap hu le_rfl hpv
          have hrow0 : (swapRows a ⟨h, hh⟩ p) ⟨h, hh⟩ = a p := by
            unfold swapRows
            rw [if_pos rfl]
          have hne : (swapRows a ⟨h, hh⟩ p) ⟨h, hh⟩ ⟨k, hk⟩ ≠ 0 := by rw [hrow0]; exact h0
          have hb' : ∀ i j, |swapRows a ⟨h, hh⟩ p i j| ≤ B := by
            intro i j
            unfold swapRows
            split_ifs
            · exact hb _ _
            · exact hb _ _
            · exact hb _ _
          have hpiv : ∀ i, (⟨h, hh⟩ : Fin m) < i → |swapRows a ⟨h, hh⟩ p i ⟨k, hk⟩| ≤ |swapRows a ⟨h, hh⟩ p ⟨h, hh⟩ ⟨k, hk⟩| := by
            intro i hi
            rw [hrow0]
            unfold swapRows
            split_ifs with e1 e2
            · exact le_rfl
            · exact hp2 _ le_rfl
            · exact hp2 i hi.le
          have hzE : ZeroBelow (eliminateF (swapRows a ⟨h, hh⟩ p) ⟨h, hh⟩ ⟨k, hk⟩) (h + 1) (k + 1) := by
            intro i j hi hj
            have hlt : (⟨h, hh⟩ : Fin m) < i := Fin.mk_lt_of_lt_val (by omega)
            unfold eliminateF
            rw [if_pos hlt]
            by_cases hjk : j = ⟨k, hk⟩
            · rw [if_pos hjk]
            · rw [if_neg hjk]
              have hjlt : j.val < k := by
                have : j.val ≠ k := fun e => hjk (Fin.ext e)
                omega
              rw [if_neg (by
                intro hc
                have : k < j.val := hc
                omega)]
              exact hz' i j (by omega) hjlt
          have huE : UpperUntil (eliminateF (swapRows a ⟨h, hh⟩ p) ⟨h, hh⟩ ⟨k, hk⟩) (h + 1) := by
            intro i j hi hj
            have hnlt : ¬ (⟨h, hh⟩ : Fin m) < i := by
              intro hc
              have : h < i.val := hc
              omega
            unfold eliminateF
            rw [if_neg hnlt]
            by_cases hih : i.val < h
            · exact hu' i j hih hj
            · exact hz' i j (by omega) (by omega)
          by_cases hlast : h + 1 = m
          · -- the last row: nothing to eliminate
            have hsame : eliminateF (swapRows a ⟨h, hh⟩ p) ⟨h, hh⟩ ⟨k, hk⟩ = swapRows a ⟨h, hh⟩ p := by
              funext i j
              unfold eliminateF
              rw [if_neg]
              intro hc
              have h1 : h < i.val := hc
              have := i.isLt
              omega
            rw [hsame] at hzE huE ⊢
            obtain ⟨i1, i2, i3⟩ := ih (h + 1) (k + 1) _ B hB hb' (by omega) (by omega) hzE huE
            have e1 : m - 1 - (h + 1) = m - 1 - h := by omega
            rw [e1] at i2 i3
            exact ⟨i1, i2, fun x c e he hn i => near_swapRows (i3 x c e he hn) i⟩
          · obtain ⟨s, hs⟩ : ∃ s, m - 1 - h = s + 1 := ⟨m - 1 - h - 1, by omega⟩
            have hs' : m - 1 - (h + 1) = s := by omega
            have hbE := eliminateF_bound (h := ⟨h, hh⟩) (k := ⟨k, hk⟩) hB hb' hz' hne hpiv
            obtain ⟨i1, i2, i3⟩ := ih (h + 1) (k + 1) _ (201 / 100 * B) (by linarith) hbE (by omega) (by omega) hzE huE
            rw [hs'] at i2 i3
            rw [hs]
            refine ⟨i1, fun i j => (i2 i j).trans (le_of_eq (by ring)), fun x c e he hn =>
              near_swapRows (r1 := ⟨h, hh⟩) (r2 := p) fun i => ?_⟩
            have p1 : (1 : ℚ) ≤ (201 / 100) ^ s := one_le_pow₀ (by norm_num)
            have p2 : (1 : ℚ) ≤ 2 ^ s := one_le_pow₀ (by norm_num)
            have hq : 0 ≤ (201 / 100 : ℚ) ^ s * (201 / 100 * B) / 2 ^ 53 := by positivity
            have hn' := eliminateF_near (h := ⟨h, hh⟩) (k := ⟨k, hk⟩) hB hb' hz' hne hpiv
              (e := 2 ^ s * e + (2 ^ s - 1) * (4 * ((201 / 100) ^ s * (201 / 100 * B) / 2 ^ 53)))
              (add_nonneg (by positivity) (mul_nonneg (by linarith) (by linarith))) (i3 x c e he hn) i
            refine hn'.mono ?_
            have h2 : B / 2 ^ 53 ≤ (201 / 100 : ℚ) ^ s * (201 / 100 * B) / 2 ^ 53 := by
              refine div_le_div_of_nonneg_right ?_ (by positivity)
              calc B ≤ 201 / 100 * B := by linarith
                _ ≤ (201 / 100) ^ s * (201 / 100 * B) := le_mul_of_one_le_left (by linarith) p1
            have e3 : (201 / 100 : ℚ) ^ (s + 1) * B / 2 ^ 53 = (201 / 100 : ℚ) ^ s * (201 / 100 * B) / 2 ^ 53 := by ring
            have e4 : (2 : ℚ) ^ (s + 1) = 2 * 2 ^ s := by ring
            rw [e3, e4]
            generalize (201 / 100 : ℚ) ^ s * (201 / 100 * B) / 2 ^ 53 = q at *
            linarith
      · rw [dif_neg hk]
        refine base h a B hB hb ?_
        intro i j hi hj
        by_cases hih : i.val < h
        · exact hu i j hih hj
        · exact hz i j (by omega) (by omega)
    · rw [dif_neg hh]
      refine base h a B hB hb ?_
      intro i j hi hj
      exact hu i j (by omega) hj

end Verif.Rounding
