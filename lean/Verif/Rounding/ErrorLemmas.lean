import Verif.Rounding.ContainsProps

/-!
# Forward error analysis

`App n j x' x S`: the computed number `x'` is a multiple of `2 ^ -j` and differs from `x` by at most
`((1 + u) ^ n - 1) * S`, where `u` is the unit roundoff and `S` bounds `x`.
-/

namespace Verif.Rounding

/-- The unit roundoff of binary64. -/
def u : ℚ := 1 / 2 ^ 53

theorem u_pos : 0 < u := by unfold u; norm_num

theorem u_lt : u < 1 := by unfold u; norm_num

theorem u_eq : (2 : ℚ) ^ (-53 : ℤ) = u := by unfold u; norm_num

structure App (n j : ℕ) (x' x S : ℚ) : Prop where
  grid : Grid j x'
  bound : |x| ≤ S
  err : |x' - x| ≤ ((1 + u) ^ n - 1) * S

theorem one_le_pow (n : ℕ) : 1 ≤ (1 + u) ^ n := one_le_pow₀ (by linarith [u_pos])

theorem App.nonneg {n j : ℕ} {x' x S : ℚ} (h : App n j x' x S) : 0 ≤ S := (abs_nonneg x).trans h.bound

theorem App.exact {j : ℕ} {x : ℚ} (h : Grid j x) : App 0 j x x |x| :=
  ⟨h, le_rfl, by simp⟩

theorem App.neg {n j : ℕ} {x' x S : ℚ} (h : App n j x' x S) : App n j (-x') (-x) S :=
  ⟨h.grid.neg, by rw [abs_neg]; exact h.bound, by rw [← abs_neg]; convert h.err using 2; ring⟩

theorem App.mono {n j m i : ℕ} {x' x S : ℚ} (h : App n j x' x S) (hn : n ≤ m) (hj : j ≤ i) :
    App m i x' x S :=
  ⟨h.grid.mono hj, h.bound, h.err.trans (mul_le_mul_of_nonneg_right
    (sub_le_sub_right (pow_le_pow_right₀ (by linarith [u_pos]) hn) 1) h.nonneg)⟩

theorem App.le {n j : ℕ} {x' x S : ℚ} (h : App n j x' x S) : |x'| ≤ (1 + u) ^ n * S := by
  have := h.err
  have h2 := h.bound
  have h3 : |x'| ≤ |x' - x| + |x| := by
    calc |x'| = |(x' - x) + x| := by rw [sub_add_cancel]
      _ ≤ _ := abs_add_le _ _
  linarith

/-- Rounding adds one to the exponent. -/
theorem App.round {n j : ℕ} {x' x S : ℚ} (h : App n j x' x S) (hj : j ≤ 1022) :
    App (n + 1) j (fl x') x S := by
  refine ⟨h.grid.fl, h.bound, ?_⟩
  have h1 := h.grid.fl_rel hj
  rw [u_eq] at h1
  have h2 := h.err
  have h3 := h.le
  have h4 : |fl x' - x| ≤ |fl x' - x'| + |x' - x| := by
    calc |fl x' - x| = |(fl x' - x') + (x' - x)| := by congr 1; ring
      _ ≤ _ := abs_add_le _ _
  have h5 : u * |x'| ≤ u * ((1 + u) ^ n * S) := mul_le_mul_of_nonneg_left h3 u_pos.le
  rw [pow_succ]
  nlinarith

/-- A product without rounding. -/
theorem App.mul {n m i j : ℕ} {x' x S y' y T : ℚ} (hx : App n i x' x S) (hy : App m j y' y T) :
    App (n + m) (i + j) (x' * y') (x * y) (S * T) := by
  refine ⟨hx.grid.mul hy.grid, ?_, ?_⟩
  · rw [abs_mul]
    exact mul_le_mul hx.bound hy.bound (abs_nonneg _) hx.nonneg
  · have e : x' * y' - x * y = x' * (y' - y) + (x' - x) * y := by ring
    rw [e]
    calc _ ≤ |x'| * |y' - y| + |x' - x| * |y| := by
          rw [← abs_mul, ← abs_mul]
          exact abs_add_le _ _
      _ ≤ ((1 + u) ^ n * S) * (((1 + u) ^ m - 1) * T) + (((1 + u) ^ n - 1) * S) * T := by
          refine add_le_add ?_ ?_
          · exact mul_le_mul hx.le hy.err (abs_nonneg _)
              (mul_nonneg (by linarith [one_le_pow n]) hx.nonneg)
          · exact mul_le_mul hx.err hy.bound (abs_nonneg _)
              (mul_nonneg (by linarith [one_le_pow n]) hx.nonneg)
      _ = _ := by rw [pow_add]; ring

theorem App.fmul {n m i j : ℕ} {x' x S y' y T : ℚ} (hx : App n i x' x S) (hy : App m j y' y T)
    (hij : i + j ≤ 1022) : App (n + m + 1) (i + j) (Rounding.fmul x' y') (x * y) (S * T) :=
  (hx.mul hy).round hij

theorem App.fadd {n j : ℕ} {x' x S y' y T : ℚ} (hx : App n j x' x S) (hy : App n j y' y T)
    (hj : j ≤ 1022) : App (n + 1) j (Rounding.fadd x' y') (x + y) (S + T) := by
  refine App.round ⟨hx.grid.add hy.grid, (abs_add_le _ _).trans (add_le_add hx.bound hy.bound), ?_⟩ hj
  have e : x' + y' - (x + y) = (x' - x) + (y' - y) := by ring
  rw [e, mul_add]
  exact (abs_add_le _ _).trans (add_le_add hx.err hy.err)

theorem App.fsub {n j : ℕ} {x' x S y' y T : ℚ} (hx : App n j x' x S) (hy : App n j y' y T)
    (hj : j ≤ 1022) : App (n + 1) j (Rounding.fsub x' y') (x - y) (S + T) := by
  have := hx.fadd hy.neg hj
  unfold Rounding.fadd at this
  unfold Rounding.fsub
  rw [sub_eq_add_neg, sub_eq_add_neg]
  exact this

/-- The computed number `s'` is a multiple of `2 ^ -j` and at least `(1 - u) ^ n` times `s`. -/
structure Low (n j : ℕ) (s' s : ℚ) : Prop where
  grid : Grid j s'
  nonneg : 0 ≤ s
  low : (1 - u) ^ n * s ≤ s'

theorem pow_nonneg' (n : ℕ) : 0 ≤ (1 - u) ^ n := pow_nonneg (by linarith [u_lt]) n

theorem Low.nonneg' {n j : ℕ} {s' s : ℚ} (h : Low n j s' s) : 0 ≤ s' :=
  (mul_nonneg (pow_nonneg' n) h.nonneg).trans h.low

theorem Low.exact {j : ℕ} {x : ℚ} (h : Grid j x) : Low 0 j |x| |x| :=
  ⟨h.abs, abs_nonneg x, by simp⟩

theorem Low.mono {n j m i : ℕ} {s' s : ℚ} (h : Low n j s' s) (hn : n ≤ m) (hj : j ≤ i) : Low m i s' s :=
  ⟨h.grid.mono hj, h.nonneg, (mul_le_mul_of_nonneg_right
    (pow_le_pow_of_le_one (by linarith [u_lt]) (by linarith [u_pos]) hn) h.nonneg).trans h.low⟩

theorem Low.round {n j : ℕ} {s' s : ℚ} (h : Low n j s' s) (hj : j ≤ 1022) : Low (n + 1) j (fl s') s := by
  refine ⟨h.grid.fl, h.nonneg, ?_⟩
  have h1 := h.grid.fl_rel hj
  rw [u_eq, abs_of_nonneg h.nonneg', abs_le] at h1
  have h2 := mul_le_mul_of_nonneg_left h.low (by linarith [u_lt] : 0 ≤ 1 - u)
  rw [pow_succ]
  linarith

theorem Low.fmul {n m i j : ℕ} {s' s t' t : ℚ} (hs : Low n i s' s) (ht : Low m j t' t)
    (hij : i + j ≤ 1022) : Low (n + m + 1) (i + j) (Rounding.fmul s' t') (s * t) := by
  refine Low.round ⟨hs.grid.mul ht.grid, mul_nonneg hs.nonneg ht.nonneg, ?_⟩ hij
  calc _ = ((1 - u) ^ n * s) * ((1 - u) ^ m * t) := by rw [pow_add]; ring
    _ ≤ _ := mul_le_mul hs.low ht.low (mul_nonneg (pow_nonneg' m) ht.nonneg) hs.nonneg'

theorem Low.fadd {n j : ℕ} {s' s t' t : ℚ} (hs : Low n j s' s) (ht : Low n j t' t)
    (hj : j ≤ 1022) : Low (n + 1) j (Rounding.fadd s' t') (s + t) := by
  refine Low.round ⟨hs.grid.add ht.grid, add_nonneg hs.nonneg ht.nonneg, ?_⟩ hj
  rw [mul_add]
  exact add_le_add hs.low ht.low

/-- The absolute value of a rounded product. -/
theorem Low.abs_fmul {i j : ℕ} {x y : ℚ} (hx : Grid i x) (hy : Grid j y) (hij : i + j ≤ 1022) :
    Low 1 (i + j) |Rounding.fmul x y| (|x| * |y|) := by
  have h := Low.fmul (Low.exact hx) (Low.exact hy) hij
  have e : Rounding.fmul |x| |y| = |Rounding.fmul x y| := by
    unfold Rounding.fmul
    rw [← abs_mul]
    rcases abs_cases (x * y) with ⟨h1, h2⟩ | ⟨h1, h2⟩ <;> rw [h1]
    · rw [abs_of_nonneg (fl_nonneg h2)]
    · have := fl_nonneg (x := -(x * y)) (by linarith)
      rw [fl_neg] at this ⊢
      rw [abs_of_nonpos (by linarith)]
  rwa [e] at h

theorem Low.sq {j : ℕ} {x : ℚ} (hx : Grid j x) (hj : j + j ≤ 1022) :
    Low 1 (j + j) (Rounding.fmul x x) (|x| * |x|) := by
  have := Low.abs_fmul hx hx hj
  have e : |Rounding.fmul x x| = Rounding.fmul x x := abs_of_nonneg (fl_nonneg (mul_self_nonneg x))
  rwa [e] at this

end Verif.Rounding
