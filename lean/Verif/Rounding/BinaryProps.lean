import Verif.Rounding.RoundLemmas

/-!
# The rounding of the model is that of IEEE 754

`fl` is defined with exponents and nearest integers (`Binary64`).  Here: it is the nearest number with 53 significant bits and
exponent at least -1074, and of two nearest ones the even one.  This determines `fl`.
-/

namespace Verif.Rounding

/-- A binary64 number, normal or subnormal, as IEEE 754 defines it, but with no upper limit of the exponent. -/
def Binary (x : ℚ) : Prop := ∃ m e : ℤ, |m| < 2 ^ 53 ∧ -1074 ≤ e ∧ x = m * (2 : ℚ) ^ e

/-- `y` is a nearest binary64 number of `x`; if there is another one, `y` is an even multiple of their distance. -/
def RoundsTo (x y : ℚ) : Prop :=
  Binary y ∧ ∀ z, Binary z → |y - x| ≤ |z - x| ∧
    (|z - x| = |y - x| → z ≠ y → ∃ k : ℤ, y = 2 * k * |z - y|)

theorem isF64_iff (x : ℚ) : IsF64 x ↔ Binary x := by
  constructor
  · intro h
    obtain ⟨m, hm, e⟩ := fl_form x
    have hs := scale_ge x
    unfold IsF64 at h
    rw [h] at e
    generalize scale x = t at e hs
    rcases hm.lt_or_eq with hlt | heq
    · exact ⟨m, t - 52, hlt, by omega, e⟩
    · rcases abs_eq (by norm_num) |>.1 heq with h' | h'
      · refine ⟨1, t + 1, by norm_num, by omega, ?_⟩
        rw [e, h', show t + 1 = 53 + (t - 52) by ring, two_zpow_add]
        push_cast
        norm_num
      · refine ⟨-1, t + 1, by norm_num, by omega, ?_⟩
        rw [e, h', show t + 1 = 53 + (t - 52) by ring, two_zpow_add]
        push_cast
        norm_num
  · rintro ⟨m, e, hm, he, rfl⟩
    exact fl_rep hm he

theorem nearest_best (q : ℚ) (n : ℤ) : |(nearest q : ℚ) - q| ≤ |(n : ℚ) - q| ∧
    (|(n : ℚ) - q| = |(nearest q : ℚ) - q| → n ≠ nearest q → (∃ k, nearest q = 2 * k) ∧ |n - nearest q| = 1) := by
  have h1 := Int.floor_le q
  have h2 := Int.lt_floor_add_one q
  have hn : n ≤ ⌊q⌋ ∨ ⌊q⌋ + 1 ≤ n := by omega
  have hd : (n : ℚ) ≤ ⌊q⌋ ∨ (⌊q⌋ : ℚ) + 1 ≤ n := by exact_mod_cast hn
  have habs : |(n : ℚ) - q| = if n ≤ ⌊q⌋ then q - n else n - q := by
    split
    · rename_i h
      have h : (n : ℚ) ≤ ⌊q⌋ := by exact_mod_cast h
      rw [abs_of_nonpos (by linarith)]
      ring
    · rename_i h
      have h : (⌊q⌋ : ℚ) + 1 ≤ n := by exact_mod_cast (by omega : ⌊q⌋ + 1 ≤ n)
      rw [abs_of_nonneg (by linarith)]
  have key : ∀ r : ℤ, nearest q = r → (r = ⌊q⌋ ∧ (q - ⌊q⌋ < 1 / 2 ∨ q - ⌊q⌋ = 1 / 2 ∧ r % 2 = 0) ∨
      r = ⌊q⌋ + 1 ∧ (1 / 2 < q - ⌊q⌋ ∨ q - ⌊q⌋ = 1 / 2 ∧ r % 2 = 0)) := by
    intro r hr
    unfold nearest at hr
    split at hr
    · exact .inl ⟨hr.symm, .inl (by assumption)⟩
    · split at hr
      · exact .inr ⟨hr.symm, .inl (by assumption)⟩
      · have he : q - ⌊q⌋ = 1 / 2 := le_antisymm (by linarith) (by linarith)
        split at hr
        · exact .inl ⟨hr.symm, .inr ⟨he, by omega⟩⟩
        · exact .inr ⟨hr.symm, .inr ⟨he, by omega⟩⟩
  generalize hr : nearest q = r
  rw [habs]
  rcases key r hr with ⟨e, h⟩ | ⟨e, h⟩
  · have er : (r : ℚ) = ⌊q⌋ := by exact_mod_cast e
    have ha : |(r : ℚ) - q| = q - ⌊q⌋ := by rw [er, abs_of_nonpos (by linarith)]; ring
    have hle : q - (⌊q⌋ : ℚ) ≤ 1 / 2 := by rcases h with h | ⟨h, -⟩ <;> linarith
    rw [ha]
    split
    · rename_i hc
      have hc' : (n : ℚ) ≤ ⌊q⌋ := by exact_mod_cast hc
      refine ⟨by linarith, fun heq hne => ?_⟩
      have : (n : ℚ) = ⌊q⌋ := by linarith
      exact absurd (by exact_mod_cast this.trans er.symm) hne
    · rename_i hc
      have hc' : (⌊q⌋ : ℚ) + 1 ≤ n := by exact_mod_cast (by omega : ⌊q⌋ + 1 ≤ n)
      refine ⟨by linarith, fun heq hne => ?_⟩
      have h3 : (n : ℚ) = ⌊q⌋ + 1 := by linarith
      have h4 : n = ⌊q⌋ + 1 := by exact_mod_cast h3
      rcases h with h | ⟨-, h⟩
      · linarith
      · refine ⟨⟨r / 2, by omega⟩, ?_⟩
        rw [h4, e]
        norm_num
  · have er : (r : ℚ) = ⌊q⌋ + 1 := by exact_mod_cast e
    have ha : |(r : ℚ) - q| = ⌊q⌋ + 1 - q := by rw [er, abs_of_nonneg (by linarith)]
    have hle : 1 / 2 ≤ q - (⌊q⌋ : ℚ) := by rcases h with h | ⟨h, -⟩ <;> linarith
    rw [ha]
    split
    · rename_i hc
      have hc' : (n : ℚ) ≤ ⌊q⌋ := by exact_mod_cast hc
      refine ⟨by linarith, fun heq hne => ?_⟩
      have h3 : (n : ℚ) = ⌊q⌋ := by linarith
      have h4 : n = ⌊q⌋ := by exact_mod_cast h3
      rcases h with h | ⟨-, h⟩
      · linarith
      · refine ⟨⟨r / 2, by omega⟩, ?_⟩
        rw [h4, e]
        norm_num
    · rename_i hc
      have hc' : (⌊q⌋ : ℚ) + 1 ≤ n := by exact_mod_cast (by omega : ⌊q⌋ + 1 ≤ n)
      refine ⟨by linarith, fun heq hne => ?_⟩
      have : (n : ℚ) = ⌊q⌋ + 1 := by linarith
      exact absurd (by exact_mod_cast this.trans er.symm) hne

/-- Multiples of the last place of `fl x`. -/
theorem fl_best_grid (x : ℚ) (n : ℤ) : |fl x - x| ≤ |n * (2 : ℚ) ^ (scale x - 52) - x| ∧
    (|n * (2 : ℚ) ^ (scale x - 52) - x| = |fl x - x| → n * (2 : ℚ) ^ (scale x - 52) ≠ fl x →
      ∃ k : ℤ, fl x = 2 * k * |n * (2 : ℚ) ^ (scale x - 52) - fl x|) := by
  obtain ⟨h1, h2⟩ := nearest_best (x * (2 : ℚ) ^ (52 - scale x)) n
  have hp := two_zpow_pos (scale x - 52)
  have hc := scale_cancel (scale x)
  have e : ∀ m : ℤ, |m * (2 : ℚ) ^ (scale x - 52) - x| = |(m : ℚ) - x * (2 : ℚ) ^ (52 - scale x)| * (2 : ℚ) ^ (scale x - 52) := by
    intro m
    rw [← abs_of_pos hp, ← abs_mul, abs_of_pos hp, sub_mul, mul_assoc, hc, mul_one]
  unfold fl
  generalize nearest (x * (2 : ℚ) ^ (52 - scale x)) = r at h1 h2
  rw [e, e]
  refine ⟨mul_le_mul_of_nonneg_right h1 hp.le, fun heq hne => ?_⟩
  obtain ⟨⟨k, hk⟩, hone⟩ := h2 (mul_right_cancel₀ hp.ne' heq) (fun h => hne (by rw [h]))
  refine ⟨k, ?_⟩
  rw [← sub_mul, abs_mul, abs_of_pos hp]
  have : |(n : ℚ) - r| = 1 := by exact_mod_cast hone
  rw [this, hk]
  push_cast
  ring

/-- **`fl` rounds correctly.** -/
theorem fl_rounds (x : ℚ) : RoundsTo x (fl x) := by
  refine ⟨(isF64_iff _).1 (isF64_fl x), fun z hz => ?_⟩
  rcases eq_or_ne x 0 with rfl | hx
  · rw [fl_zero, sub_zero, abs_zero, sub_zero]
    exact ⟨abs_nonneg _, fun h hne => absurd (abs_eq_zero.1 h) hne⟩
  obtain ⟨m, e, hm, he, rfl⟩ := hz
  rcases le_or_gt (scale x - 52) e with h | h
  · have h3 : (m : ℚ) * (2 : ℚ) ^ e = ((m * 2 ^ (e - (scale x - 52)).toNat : ℤ) : ℚ) * (2 : ℚ) ^ (scale x - 52) := by
      push_cast
      rw [← zpow_natCast, Int.toNat_of_nonneg (by omega), mul_assoc, ← two_zpow_add]
      congr 2
      ring
    rw [h3]
    exact fl_best_grid x _
  · have hs : scale x = expo x := by
      unfold scale at h ⊢
      omega
    have hz : |(m : ℚ) * (2 : ℚ) ^ e| < (2 : ℚ) ^ expo x := by
      rw [abs_mul, abs_of_pos (two_zpow_pos e)]
      have h4 : (|m| : ℚ) < 2 ^ 53 := by exact_mod_cast hm
      calc |(m : ℚ)| * (2 : ℚ) ^ e < 2 ^ 53 * (2 : ℚ) ^ e := mul_lt_mul_of_pos_right (by exact_mod_cast hm) (two_zpow_pos e)
        _ = (2 : ℚ) ^ (53 + e) := by rw [two_zpow_add]; norm_num
        _ ≤ (2 : ℚ) ^ expo x := two_zpow_le (by omega)
    have hx2 := (expo_spec hx).1
    generalize (m : ℚ) * (2 : ℚ) ^ e = z at hz
    have hone : (2 : ℚ) ^ expo x = ((2 ^ 52 : ℤ) : ℚ) * (2 : ℚ) ^ (scale x - 52) := by
      rw [hs, show expo x = 52 + (expo x - 52) by ring, two_zpow_add]
      push_cast
      norm_num
    have hlt : |fl x - x| < |z - x| := by
      rcases le_total 0 x with h0 | h0
      · have h5 := (fl_best_grid x (2 ^ 52)).1
        rw [← hone] at h5
        rw [abs_of_nonneg h0] at hx2
        refine h5.trans_lt ?_
        have h6 := le_abs_self z
        rw [abs_of_nonpos (by linarith), abs_of_nonpos (by linarith)]
        linarith
      · have h5 := (fl_best_grid x (-2 ^ 52)).1
        rw [Int.cast_neg, neg_mul, ← hone] at h5
        rw [abs_of_nonpos h0] at hx2
        refine h5.trans_lt ?_
        have h6 := neg_abs_le z
        rw [abs_of_nonneg (by linarith), abs_of_nonneg (by linarith)]
        linarith
    exact ⟨hlt.le, fun h => absurd h hlt.ne'⟩

/-- There is only one correct rounding. -/
theorem fl_unique {x y : ℚ} (h : RoundsTo x y) : y = fl x := by
  by_contra hne
  have h' := fl_rounds x
  have heq : |fl x - x| = |y - x| := le_antisymm (h'.2 y h.1).1 (h.2 (fl x) h'.1).1
  obtain ⟨k, hk⟩ := (h.2 (fl x) h'.1).2 heq (Ne.symm hne)
  obtain ⟨k', hk'⟩ := (h'.2 y h.1).2 heq.symm hne
  have hd : 0 < |fl x - y| := abs_pos.2 (sub_ne_zero.2 (Ne.symm hne))
  have e : |fl x - y| = (|2 * k' - 2 * k| : ℤ) * |fl x - y| := by
    rw [abs_sub_comm y] at hk'
    push_cast
    have : fl x - y = (2 * k' - 2 * k) * |fl x - y| := by linarith
    conv_lhs => rw [this]
    rw [abs_mul, abs_abs]
  have e1 : ((|2 * k' - 2 * k| : ℤ) : ℚ) = 1 := by
    have := mul_right_cancel₀ hd.ne' (e.symm.trans (one_mul _).symm)
    exact this
  have e2 : |2 * k' - 2 * k| = 1 := by exact_mod_cast e1
  rcases abs_eq (by norm_num) |>.1 e2 with h | h <;> omega

/-- Ties: halfway between 1 and the next number, and between that one and the one after it. -/
example : fl (1 / 10) = 3602879701896397 / 36028797018963968 := by decide +kernel
example : fl (1 + 1 / 2 ^ 53) = 1 := by decide +kernel
example : fl (1 + 3 / 2 ^ 53) = 1 + 1 / 2 ^ 51 := by decide +kernel

/-- A number which is not one, and one which is. -/
example : Binary (3 / 4) ∧ ¬ Binary (1 / 10) :=
  ⟨⟨3, -2, by norm_num, by norm_num, by norm_num⟩, fun h => absurd ((isF64_iff _).2 h) (by decide +kernel)⟩

end Verif.Rounding
