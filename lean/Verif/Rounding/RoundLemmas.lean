import Verif.Rounding.Binary64

/-!
# Properties of rounding to binary64
-/

namespace Verif.Rounding

theorem two_zpow_pos (e : ℤ) : (0 : ℚ) < (2 : ℚ) ^ e := zpow_pos (by norm_num) e

theorem two_zpow_le {a b : ℤ} (h : a ≤ b) : (2 : ℚ) ^ a ≤ (2 : ℚ) ^ b :=
  zpow_le_zpow_right₀ (by norm_num) h

theorem two_zpow_lt {a b : ℤ} (h : (2 : ℚ) ^ a < (2 : ℚ) ^ b) : a < b :=
  (zpow_lt_zpow_iff_right₀ (by norm_num : (1 : ℚ) < 2)).mp h

theorem two_zpow_add (a b : ℤ) : (2 : ℚ) ^ (a + b) = (2 : ℚ) ^ a * (2 : ℚ) ^ b :=
  zpow_add₀ (by norm_num) a b

theorem expo_spec {x : ℚ} (hx : x ≠ 0) : (2 : ℚ) ^ expo x ≤ |x| ∧ |x| < (2 : ℚ) ^ (expo x + 1) := by
  have hn : x.num.natAbs ≠ 0 := by simpa using hx
  have hd : x.den ≠ 0 := x.den_nz
  obtain ⟨a, ha⟩ : ∃ a, a = Nat.log2 x.num.natAbs := ⟨_, rfl⟩
  obtain ⟨b, hb⟩ : ∃ b, b = Nat.log2 x.den := ⟨_, rfl⟩
  have h1 : 2 ^ a ≤ x.num.natAbs := ha ▸ Nat.log2_self_le hn
  have h2 : x.num.natAbs < 2 ^ (a + 1) := ha ▸ Nat.lt_log2_self
  have h3 : 2 ^ b ≤ x.den := hb ▸ Nat.log2_self_le hd
  have h4 : x.den < 2 ^ (b + 1) := hb ▸ Nat.lt_log2_self
  have q1 : ((2 : ℚ)) ^ a ≤ (x.num.natAbs : ℚ) := by exact_mod_cast h1
  have q2 : (x.num.natAbs : ℚ) < (2 : ℚ) ^ (a + 1) := by exact_mod_cast h2
  have q3 : ((2 : ℚ)) ^ b ≤ (x.den : ℚ) := by exact_mod_cast h3
  have q4 : (x.den : ℚ) < (2 : ℚ) ^ (b + 1) := by exact_mod_cast h4
  have hdq : (0 : ℚ) < x.den := by exact_mod_cast Nat.pos_of_ne_zero hd
  have hax : |x| = (x.num.natAbs : ℚ) / x.den := by
    conv_lhs => rw [← Rat.num_div_den x]
    rw [abs_div, abs_of_pos hdq, Nat.cast_natAbs, Int.cast_abs]
  have up : |x| < (2 : ℚ) ^ ((a : ℤ) - b + 1) := by
    rw [hax, div_lt_iff₀ hdq]
    calc (x.num.natAbs : ℚ) < (2 : ℚ) ^ (a + 1) := q2
      _ = (2 : ℚ) ^ ((a : ℤ) - b + 1) * (2 : ℚ) ^ b := by
        rw [← zpow_natCast, ← zpow_natCast, ← two_zpow_add]
        congr 1; push_cast; ring
      _ ≤ _ := mul_le_mul_of_nonneg_left q3 (two_zpow_pos _).le
  have lo : (2 : ℚ) ^ ((a : ℤ) - b - 1) ≤ |x| := by
    rw [hax, le_div_iff₀ hdq]
    calc (2 : ℚ) ^ ((a : ℤ) - b - 1) * x.den
        ≤ (2 : ℚ) ^ ((a : ℤ) - b - 1) * (2 : ℚ) ^ (b + 1) :=
          mul_le_mul_of_nonneg_left q4.le (two_zpow_pos _).le
      _ = (2 : ℚ) ^ a := by
        rw [← zpow_natCast, ← zpow_natCast, ← two_zpow_add]
        congr 1; push_cast; ring
      _ ≤ _ := q1
  unfold expo
  rw [← ha, ← hb]
  dsimp only
  split
  · next h => exact ⟨lo, by rw [show (a : ℤ) - b - 1 + 1 = a - b by ring]; exact h⟩
  · next h => exact ⟨not_lt.mp h, up⟩

theorem expo_lt {x : ℚ} {k : ℤ} (hx : x ≠ 0) (h : |x| < (2 : ℚ) ^ k) : expo x < k :=
  two_zpow_lt ((expo_spec hx).1.trans_lt h)

theorem le_expo {x : ℚ} {k : ℤ} (hx : x ≠ 0) (h : (2 : ℚ) ^ k ≤ |x|) : k ≤ expo x := by
  have := two_zpow_lt (h.trans_lt (expo_spec hx).2)
  omega

/-! ## The nearest integer -/

theorem nearest_err (q : ℚ) : |(nearest q : ℚ) - q| ≤ 1 / 2 := by
  have h1 := Int.floor_le q
  have h2 := Int.lt_floor_add_one q
  unfold nearest
  split
  · next h => rw [abs_le]; constructor <;> linarith
  · next h =>
    split
    · next h' => rw [abs_le]; push_cast; constructor <;> linarith
    · next h' => split <;> rw [abs_le] <;> push_cast <;> constructor <;> linarith

theorem nearest_int (n : ℤ) : nearest (n : ℚ) = n := by
  unfold nearest
  simp

theorem nearest_floor (q : ℚ) : nearest q = ⌊q⌋ ∨ nearest q = ⌊q⌋ + 1 := by
  unfold nearest
  split
  · exact .inl rfl
  · split
    · exact .inr rfl
    · split
      · exact .inl rfl
      · exact .inr rfl

theorem nearest_mono {p q : ℚ} (h : p ≤ q) : nearest p ≤ nearest q := by
  have hf := Int.floor_le_floor h
  rcases hf.lt_or_eq with hlt | heq
  · have h1 : nearest p ≤ ⌊p⌋ + 1 := by rcases nearest_floor p with h | h <;> omega
    have h2 : ⌊q⌋ ≤ nearest q := by rcases nearest_floor q with h | h <;> omega
    omega
  · unfold nearest
    rw [heq]
    split_ifs <;> first | omega | (exfalso; linarith)

theorem nearest_neg (q : ℚ) : nearest (-q) = -nearest q := by
  by_cases hq : (⌊q⌋ : ℚ) = q
  · rw [← hq, ← Int.cast_neg, nearest_int, nearest_int]
  · have h1 : (⌊q⌋ : ℚ) < q := lt_of_le_of_ne (Int.floor_le q) hq
    have h2 := Int.lt_floor_add_one q
    have hf : ⌊-q⌋ = -⌊q⌋ - 1 := by
      rw [Int.floor_eq_iff]
      push_cast
      constructor <;> linarith
    unfold nearest
    rw [hf]
    push_cast
    split_ifs <;> first | omega | (exfalso; linarith)

theorem nearest_le {q : ℚ} {n : ℤ} (h : q ≤ n) : nearest q ≤ n := by
  have := nearest_mono h
  rwa [nearest_int] at this

theorem le_nearest {q : ℚ} {n : ℤ} (h : (n : ℚ) ≤ q) : n ≤ nearest q := by
  have := nearest_mono h
  rwa [nearest_int] at this

/-! ## Rounding -/

theorem expo_neg (x : ℚ) : expo (-x) = expo x := by
  unfold expo
  rw [abs_neg, Rat.neg_num, Rat.neg_den, Int.natAbs_neg]

theorem scale_neg (x : ℚ) : scale (-x) = scale x := by
  unfold scale
  rw [expo_neg]

theorem fl_neg (x : ℚ) : fl (-x) = -fl x := by
  unfold fl
  rw [scale_neg, neg_mul, nearest_neg]
  push_cast
  ring

theorem fl_zero : fl 0 = 0 := by
  unfold fl
  rw [zero_mul]
  have : nearest (0 : ℚ) = 0 := by exact_mod_cast nearest_int 0
  rw [this]
  simp

theorem scale_cancel (s : ℤ) : (2 : ℚ) ^ (52 - s) * (2 : ℚ) ^ (s - 52) = 1 := by
  rw [← two_zpow_add]
  norm_num

/-- If the scaled number is an integer, nothing is rounded. -/
theorem fl_of_int {x : ℚ} {n : ℤ} (h : x * (2 : ℚ) ^ (52 - scale x) = n) : fl x = x := by
  unfold fl
  rw [h, nearest_int, ← h, mul_assoc, scale_cancel, mul_one]

theorem fl_err_scale (x : ℚ) : |fl x - x| ≤ (2 : ℚ) ^ (scale x - 53) := by
  have h := nearest_err (x * (2 : ℚ) ^ (52 - scale x))
  have hp := two_zpow_pos (scale x - 52)
  have e : fl x - x = ((nearest (x * (2 : ℚ) ^ (52 - scale x)) : ℚ) - x * (2 : ℚ) ^ (52 - scale x))
      * (2 : ℚ) ^ (scale x - 52) := by
    unfold fl
    rw [sub_mul, mul_assoc x, scale_cancel, mul_one]
  rw [e, abs_mul, abs_of_pos hp]
  calc _ ≤ 1 / 2 * (2 : ℚ) ^ (scale x - 52) := mul_le_mul_of_nonneg_right h hp.le
    _ = _ := by
      rw [show scale x - 52 = (scale x - 53) + 1 by ring, two_zpow_add]
      ring

/-- Numbers with at most 53 significant bits are not rounded. -/
theorem fl_rep {m e : ℤ} (hm : |m| < 2 ^ 53) (he : -1074 ≤ e) : fl (m * (2 : ℚ) ^ e) = m * (2 : ℚ) ^ e := by
  rcases eq_or_ne m 0 with rfl | hm0
  · simp [fl_zero]
  have hx : (m : ℚ) * (2 : ℚ) ^ e ≠ 0 := mul_ne_zero (by exact_mod_cast hm0) (two_zpow_pos e).ne'
  have hlt : |(m : ℚ) * (2 : ℚ) ^ e| < (2 : ℚ) ^ (53 + e) := by
    rw [abs_mul, abs_of_pos (two_zpow_pos e), two_zpow_add]
    refine mul_lt_mul_of_pos_right ?_ (two_zpow_pos e)
    have : ((|m| : ℤ) : ℚ) < 2 ^ 53 := by exact_mod_cast hm
    rw [Int.cast_abs] at this
    simpa using this
  have hs := expo_lt hx hlt
  have hs' : scale ((m : ℚ) * (2 : ℚ) ^ e) ≤ 52 + e := by
    unfold scale
    omega
  obtain ⟨n, hn⟩ := Int.eq_ofNat_of_zero_le (show 0 ≤ 52 + e - scale ((m : ℚ) * (2 : ℚ) ^ e) by omega)
  refine fl_of_int (n := m * 2 ^ n) ?_
  rw [mul_assoc, ← two_zpow_add, show e + (52 - scale ((m : ℚ) * (2 : ℚ) ^ e)) = (n : ℤ) by omega]
  push_cast
  rw [zpow_natCast]

theorem fl_two_zpow {k : ℤ} (hk : -1074 ≤ k) : fl ((2 : ℚ) ^ k) = (2 : ℚ) ^ k := by
  have := fl_rep (m := 1) (e := k) (by norm_num) hk
  simpa using this

/-- The result of rounding has at most 53 significant bits. -/
theorem fl_form (x : ℚ) : ∃ m : ℤ, |m| ≤ 2 ^ 53 ∧ fl x = m * (2 : ℚ) ^ (scale x - 52) := by
  refine ⟨_, ?_, rfl⟩
  rcases eq_or_ne x 0 with rfl | hx
  · have : nearest (0 : ℚ) = 0 := by exact_mod_cast nearest_int 0
    rw [zero_mul, this]
    norm_num
  have h : |x| ≤ (2 : ℚ) ^ (scale x + 1) :=
    (expo_spec hx).2.le.trans (two_zpow_le (by unfold scale; omega))
  have hp := two_zpow_pos (52 - scale x)
  have h' : |x * (2 : ℚ) ^ (52 - scale x)| ≤ ((2 ^ 53 : ℤ) : ℚ) := by
    rw [abs_mul, abs_of_pos hp]
    calc _ ≤ (2 : ℚ) ^ (scale x + 1) * (2 : ℚ) ^ (52 - scale x) := mul_le_mul_of_nonneg_right h hp.le
      _ = _ := by
        rw [← two_zpow_add, show scale x + 1 + (52 - scale x) = ((53 : ℕ) : ℤ) by push_cast; ring, zpow_natCast]
        push_cast
        ring
  rw [abs_le] at h' ⊢
  refine ⟨?_, nearest_le h'.2⟩
  refine le_nearest ?_
  rw [Int.cast_neg]
  exact h'.1

theorem scale_ge (x : ℚ) : -1022 ≤ scale x := le_max_right _ _

theorem fl_fl (x : ℚ) : fl (fl x) = fl x := by
  obtain ⟨m, hm, h⟩ := fl_form x
  have hs := scale_ge x
  rw [h]
  rcases hm.lt_or_eq with hlt | heq
  · exact fl_rep hlt (by omega)
  · have : m = 2 ^ 53 ∨ m = -2 ^ 53 := by
      rcases abs_cases m with ⟨h, _⟩ | ⟨h, _⟩ <;> omega
    have key : fl ((2 : ℚ) ^ 53 * (2 : ℚ) ^ (scale x - 52)) = (2 : ℚ) ^ 53 * (2 : ℚ) ^ (scale x - 52) := by
      have := fl_two_zpow (k := 53 + (scale x - 52)) (by omega)
      rw [two_zpow_add] at this
      exact_mod_cast this
    rcases this with rfl | rfl
    · push_cast; exact key
    · rw [show ((-2 ^ 53 : ℤ) : ℚ) = -((2 : ℚ) ^ 53) by push_cast; ring, neg_mul, fl_neg, key]

theorem isF64_fl (x : ℚ) : IsF64 (fl x) := fl_fl x

/-- Half a unit in the last place. -/
theorem fl_err {x : ℚ} {k : ℤ} (h : |x| ≤ (2 : ℚ) ^ k) (hk : -1021 ≤ k) : |fl x - x| ≤ (2 : ℚ) ^ (k - 54) := by
  rcases eq_or_ne x 0 with rfl | hx
  · rw [fl_zero, sub_zero, abs_zero]; exact (two_zpow_pos _).le
  rcases h.lt_or_eq with hlt | heq
  · have := expo_lt hx hlt
    exact (fl_err_scale x).trans (two_zpow_le (by unfold scale; omega))
  · have : fl x = x := by
      rcases abs_cases x with ⟨h, _⟩ | ⟨h, _⟩
      · rw [← h, heq]; exact fl_two_zpow (by omega)
      · have hx : x = -(2 : ℚ) ^ k := by rw [← heq, h]; ring
        rw [hx, fl_neg, fl_two_zpow (by omega)]
    rw [this, sub_self, abs_zero]
    exact (two_zpow_pos _).le

/-- The relative error of the rounding of a number that does not underflow. -/
theorem fl_rel {x : ℚ} (h : (2 : ℚ) ^ (-1022 : ℤ) ≤ |x|) : |fl x - x| ≤ (2 : ℚ) ^ (-53 : ℤ) * |x| := by
  have hx : x ≠ 0 := by
    rintro rfl
    rw [abs_zero] at h
    exact absurd h (not_le.mpr (two_zpow_pos _))
  have h1 := le_expo hx h
  have h2 := (expo_spec hx).1
  calc |fl x - x| ≤ (2 : ℚ) ^ (scale x - 53) := fl_err_scale x
    _ = (2 : ℚ) ^ (-53 : ℤ) * (2 : ℚ) ^ expo x := by
      rw [← two_zpow_add]
      congr 1
      unfold scale
      omega
    _ ≤ _ := mul_le_mul_of_nonneg_left h2 (two_zpow_pos _).le

/-- The multiples of `2 ^ -j`. -/
def Grid (j : ℕ) (x : ℚ) : Prop := ∃ m : ℤ, x = m * (2 : ℚ) ^ (-(j : ℤ))

theorem Grid.add {j : ℕ} {x y : ℚ} : Grid j x → Grid j y → Grid j (x + y) := by
  rintro ⟨m, rfl⟩ ⟨n, rfl⟩
  exact ⟨m + n, by push_cast; ring⟩

theorem Grid.neg {j : ℕ} {x : ℚ} : Grid j x → Grid j (-x) := by
  rintro ⟨m, rfl⟩
  exact ⟨-m, by push_cast; ring⟩

theorem Grid.sub {j : ℕ} {x y : ℚ} (hx : Grid j x) (hy : Grid j y) : Grid j (x - y) := by
  rw [sub_eq_add_neg]
  exact hx.add hy.neg

theorem Grid.abs {j : ℕ} {x : ℚ} (hx : Grid j x) : Grid j |x| := by
  rcases abs_cases x with ⟨h, _⟩ | ⟨h, _⟩ <;> rw [h]
  · exact hx
  · exact hx.neg

theorem Grid.mul {i j : ℕ} {x y : ℚ} : Grid i x → Grid j y → Grid (i + j) (x * y) := by
  rintro ⟨m, rfl⟩ ⟨n, rfl⟩
  refine ⟨m * n, ?_⟩
  rw [show (-((i + j : ℕ) : ℤ)) = -(i : ℤ) + -(j : ℤ) by push_cast; ring, two_zpow_add]
  push_cast
  ring

theorem Grid.mono {i j : ℕ} (h : i ≤ j) {x : ℚ} : Grid i x → Grid j x := by
  rintro ⟨m, rfl⟩
  obtain ⟨d, rfl⟩ := Nat.exists_eq_add_of_le h
  refine ⟨m * 2 ^ d, ?_⟩
  push_cast
  rw [mul_assoc, ← zpow_natCast, ← two_zpow_add]
  congr 2
  ring

/-- Rounding stays on the grid. -/
theorem Grid.fl {j : ℕ} {x : ℚ} (hx : Grid j x) : Grid j (fl x) := by
  obtain ⟨m, rfl⟩ := hx
  obtain ⟨s, hs⟩ : ∃ s, s = scale ((m : ℚ) * (2 : ℚ) ^ (-(j : ℤ))) := ⟨_, rfl⟩
  rcases le_total (-(j : ℤ)) (s - 52) with h | h
  · obtain ⟨n, hn⟩ := Int.eq_ofNat_of_zero_le (show 0 ≤ s - 52 + j by omega)
    unfold Rounding.fl
    rw [← hs]
    refine ⟨nearest (m * (2 : ℚ) ^ (-(j : ℤ)) * (2 : ℚ) ^ (52 - s)) * 2 ^ n, ?_⟩
    push_cast
    rw [mul_assoc (nearest _ : ℚ), ← zpow_natCast, ← two_zpow_add (n : ℤ),
      show (n : ℤ) + -(j : ℤ) = s - 52 by omega]
  · obtain ⟨n, hn⟩ := Int.eq_ofNat_of_zero_le (show 0 ≤ -(j : ℤ) + (52 - s) by omega)
    rw [fl_of_int (n := m * 2 ^ n)]
    · exact ⟨m, rfl⟩
    · rw [← hs, mul_assoc, ← two_zpow_add, hn]
      push_cast
      rw [zpow_natCast]

/-- On a grid that is not too fine the error of rounding is relative. -/
theorem Grid.fl_rel {j : ℕ} {x : ℚ} (hx : Grid j x) (hj : j ≤ 1022) :
    |Rounding.fl x - x| ≤ (2 : ℚ) ^ (-53 : ℤ) * |x| := by
  rcases eq_or_ne x 0 with rfl | hx0
  · simp [fl_zero]
  · refine Rounding.fl_rel ?_
    obtain ⟨m, rfl⟩ := hx
    have hm : m ≠ 0 := by rintro rfl; simp at hx0
    have h1 : (1 : ℚ) ≤ |(m : ℚ)| := by
      rw [← Int.cast_abs]
      exact_mod_cast Int.one_le_abs hm
    rw [abs_mul, abs_of_pos (two_zpow_pos _)]
    calc (2 : ℚ) ^ (-1022 : ℤ) ≤ 1 * (2 : ℚ) ^ (-(j : ℤ)) := by
          rw [one_mul]; exact two_zpow_le (by omega)
      _ ≤ _ := mul_le_mul_of_nonneg_right h1 (two_zpow_pos _).le

theorem Grid.fl_self {j : ℕ} {x : ℚ} (hx : Grid j x) (hj : j ≤ 1074) (hb : |x| < (2 : ℚ) ^ (53 - (j : ℤ))) :
    Rounding.fl x = x := by
  obtain ⟨m, rfl⟩ := hx
  refine fl_rep ?_ (by omega)
  rw [abs_mul, abs_of_pos (two_zpow_pos _), show (53 : ℤ) - j = 53 + -(j : ℤ) by ring, two_zpow_add] at hb
  have := lt_of_mul_lt_mul_right hb (two_zpow_pos _).le
  rw [← Int.cast_abs] at this
  have h2 : ((|m| : ℤ) : ℚ) < ((2 ^ 53 : ℤ) : ℚ) := by
    push_cast
    norm_num at this ⊢
    exact this
  exact_mod_cast h2

/-- Rounding is monotone. -/
theorem fl_mono_pos {x y : ℚ} (hx : 0 < x) (h : x ≤ y) : fl x ≤ fl y := by
  have hy : 0 < y := hx.trans_le h
  have e1 := expo_spec hx.ne'
  have e2 := expo_spec hy.ne'
  rw [abs_of_pos hx] at e1
  rw [abs_of_pos hy] at e2
  have hs : scale x ≤ scale y := by
    have := two_zpow_lt ((e1.1.trans h).trans_lt e2.2)
    unfold scale
    omega
  rcases hs.lt_or_eq with hlt | heq
  · have hsy : scale y = expo y := by
      have := scale_ge x
      unfold scale at *
      omega
    have h1 : fl x ≤ (2 : ℚ) ^ (scale x + 1) := by
      have hp := two_zpow_pos (scale x - 52)
      have hb : x * (2 : ℚ) ^ (52 - scale x) ≤ ((2 ^ 53 : ℤ) : ℚ) := by
        calc _ ≤ (2 : ℚ) ^ (scale x + 1) * (2 : ℚ) ^ (52 - scale x) :=
              mul_le_mul_of_nonneg_right (e1.2.le.trans (two_zpow_le (by unfold scale; omega)))
                (two_zpow_pos _).le
          _ = _ := by
            rw [← two_zpow_add, show scale x + 1 + (52 - scale x) = ((53 : ℕ) : ℤ) by push_cast; ring,
              zpow_natCast]
            push_cast
            ring
      have hn : ((nearest (x * (2 : ℚ) ^ (52 - scale x)) : ℤ) : ℚ) ≤ ((2 ^ 53 : ℤ) : ℚ) := by
        exact_mod_cast nearest_le hb
      calc fl x ≤ ((2 ^ 53 : ℤ) : ℚ) * (2 : ℚ) ^ (scale x - 52) := mul_le_mul_of_nonneg_right hn hp.le
        _ = _ := by
          rw [show scale x + 1 = ((53 : ℕ) : ℤ) + (scale x - 52) by push_cast; ring, two_zpow_add,
            zpow_natCast]
          push_cast
          ring
    have h2 : (2 : ℚ) ^ scale y ≤ fl y := by
      have hp := two_zpow_pos (scale y - 52)
      have hb : ((2 ^ 52 : ℤ) : ℚ) ≤ y * (2 : ℚ) ^ (52 - scale y) := by
        calc _ = (2 : ℚ) ^ scale y * (2 : ℚ) ^ (52 - scale y) := by
              rw [← two_zpow_add, show scale y + (52 - scale y) = ((52 : ℕ) : ℤ) by push_cast; ring,
                zpow_natCast]
              push_cast
              ring
          _ ≤ _ := mul_le_mul_of_nonneg_right (by rw [hsy]; exact e2.1) (two_zpow_pos _).le
      have hn : ((2 ^ 52 : ℤ) : ℚ) ≤ ((nearest (y * (2 : ℚ) ^ (52 - scale y)) : ℤ) : ℚ) := by
        exact_mod_cast le_nearest hb
      calc (2 : ℚ) ^ scale y = ((2 ^ 52 : ℤ) : ℚ) * (2 : ℚ) ^ (scale y - 52) := by
            rw [show scale y = ((52 : ℕ) : ℤ) + (scale y - 52) by push_cast; ring, two_zpow_add,
              zpow_natCast]
            push_cast
            ring_nf
        _ ≤ fl y := mul_le_mul_of_nonneg_right hn hp.le
    exact h1.trans ((two_zpow_le (by omega)).trans h2)
  · unfold fl
    rw [heq]
    refine mul_le_mul_of_nonneg_right ?_ (two_zpow_pos _).le
    exact_mod_cast nearest_mono (mul_le_mul_of_nonneg_right h (two_zpow_pos _).le)

theorem fl_nonneg {x : ℚ} (hx : 0 ≤ x) : 0 ≤ fl x := by
  refine mul_nonneg ?_ (two_zpow_pos _).le
  have : (0 : ℤ) ≤ nearest (x * (2 : ℚ) ^ (52 - scale x)) :=
    le_nearest (by push_cast; exact mul_nonneg hx (two_zpow_pos _).le)
  exact_mod_cast this

theorem fl_mono {x y : ℚ} (h : x ≤ y) : fl x ≤ fl y := by
  rcases lt_or_ge 0 x with hx | hx
  · exact fl_mono_pos hx h
  · rcases lt_or_ge y 0 with hy | hy
    · have := fl_mono_pos (x := -y) (y := -x) (by linarith) (by linarith)
      rw [fl_neg, fl_neg] at this
      linarith
    · have h1 := fl_nonneg hy
      have h2 := fl_nonneg (x := -x) (by linarith)
      rw [fl_neg] at h2
      linarith

theorem fl_le {x z : ℚ} (hz : IsF64 z) (h : x ≤ z) : fl x ≤ z := hz ▸ fl_mono h

theorem le_fl {x z : ℚ} (hz : IsF64 z) (h : z ≤ x) : z ≤ fl x := hz ▸ fl_mono h

end Verif.Rounding
