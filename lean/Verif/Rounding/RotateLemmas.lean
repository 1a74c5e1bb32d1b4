import Verif.Rounding.RotateModel
import Verif.Rounding.SearchAccuracyProps
import Verif.Direction.TableProps

/-!
# Lemmas for C146: errors of the rotations
-/

namespace Verif.Rounding.Rotate

open Verif.Direction

/-- `x` is `X` up to `k` units of rounding, and `X` is at most `B`. -/
def Close (k B : ℝ) (x : ℚ) (X : ℝ) : Prop := |(x : ℝ) - X| ≤ k / 2 ^ 53 ∧ |X| ≤ B

theorem fl_unit {x : ℚ} {B : ℝ} (h : |(x : ℝ)| ≤ B) : |(fl x : ℝ) - (x : ℝ)| ≤ (B + 1 / 64) / 2 ^ 53 := by
  refine (fl_abs_err_real x).trans ?_
  have h2 : (1 : ℝ) / 2 ^ 1074 ≤ (1 / 64) / 2 ^ 53 := by
    rw [div_div]
    refine one_div_le_one_div_of_le (by positivity) ?_
    have : (64 : ℝ) * 2 ^ 53 = 2 ^ 59 := by norm_num
    rw [this]
    exact pow_le_pow_right₀ one_le_two (by decide)
  have h3 : |(x : ℝ)| / 2 ^ 53 ≤ B / 2 ^ 53 := by gcongr
  have h4 : (B + 1 / 64) / 2 ^ 53 = B / 2 ^ 53 + (1 / 64) / 2 ^ 53 := by ring
  rw [h4]
  exact add_le_add h3 h2

theorem Close.abs {k B : ℝ} {x : ℚ} {X : ℝ} (h : Close k B x X) : |(x : ℝ)| ≤ B + k / 2 ^ 53 := by
  have := abs_add_le ((x : ℝ) - X) X
  rw [sub_add_cancel] at this
  linarith [h.1, h.2]

theorem Close.weaken {k B k' B' : ℝ} {x : ℚ} {X : ℝ} (h : Close k B x X) (hk : k ≤ k') (hB : B ≤ B') : Close k' B' x X :=
  ⟨h.1.trans (by gcongr), h.2.trans hB⟩

theorem Close.fl {k B : ℝ} {x : ℚ} {X : ℝ} (h : Close k B x X) (hk : k ≤ 1000) : Close (k + B + 1 / 32) B (fl x) X := by
  refine ⟨?_, h.2⟩
  have h1 := fl_unit h.abs
  have h2 := abs_add_le ((Rounding.fl x : ℝ) - x) ((x : ℝ) - X)
  rw [sub_add_sub_cancel] at h2
  have h3 : (B + k / 2 ^ 53 + 1 / 64) / 2 ^ 53 ≤ (B + 1 / 32) / 2 ^ 53 := by
    have : k / 2 ^ 53 ≤ 1 / 64 := by
      rw [div_le_div_iff₀ (by positivity) (by norm_num)]
      norm_num
      linarith
    exact div_le_div_of_nonneg_right (by linarith) (by positivity)
  have h4 : (k + B + 1 / 32) / 2 ^ 53 = k / 2 ^ 53 + (B + 1 / 32) / 2 ^ 53 := by ring
  rw [h4]
  linarith [h.1]

theorem Close.add {k B l C : ℝ} {x y : ℚ} {X Y : ℝ} (h : Close k B x X) (h' : Close l C y Y) (hk : k + l ≤ 1000) :
    Close (k + l + (B + C) + 1 / 32) (B + C) (x ⊞ y) (X + Y) := by
  refine Close.fl ⟨?_, (abs_add_le _ _).trans (add_le_add h.2 h'.2)⟩ hk
  push_cast
  have e : (x : ℝ) + y - (X + Y) = (x - X) + (y - Y) := by ring
  rw [e, add_div]
  exact (abs_add_le _ _).trans (add_le_add h.1 h'.1)

theorem Close.sub {k B l C : ℝ} {x y : ℚ} {X Y : ℝ} (h : Close k B x X) (h' : Close l C y Y) (hk : k + l ≤ 1000) :
    Close (k + l + (B + C) + 1 / 32) (B + C) (x ⊟ y) (X - Y) := by
  refine Close.fl ⟨?_, (abs_sub _ _).trans (add_le_add h.2 h'.2)⟩ hk
  push_cast
  have e : (x : ℝ) - y - (X - Y) = (x - X) - (y - Y) := by ring
  rw [e, add_div]
  exact (abs_sub _ _).trans (add_le_add h.1 h'.1)

theorem Close.mul {k B l C : ℝ} {x y : ℚ} {X Y : ℝ} (h : Close k B x X) (h' : Close l C y Y) (hk : 0 ≤ k) (hl : 0 ≤ l)
    (hk' : k ≤ 1000) (hl' : l ≤ 1000) (hm : B * l + C * k ≤ 999) :
    Close (B * l + C * k + B * C + 1 / 16) (B * C) (x ⊠ y) (X * Y) := by
  have b0 : 0 ≤ B := (abs_nonneg _).trans h.2
  have hb : |X * Y| ≤ B * C := by
    rw [abs_mul]
    exact mul_le_mul h.2 h'.2 (abs_nonneg _) b0
  have hc : Close (B * l + C * k + 1 / 32) (B * C) (x * y) (X * Y) := by
    refine ⟨?_, hb⟩
    push_cast
    have e : (x : ℝ) * y - X * Y = X * (y - Y) + y * (x - X) := by ring
    rw [e]
    refine (abs_add_le _ _).trans ?_
    rw [abs_mul, abs_mul]
    have h1 : |X| * |(y : ℝ) - Y| ≤ B * (l / 2 ^ 53) := mul_le_mul h.2 h'.1 (abs_nonneg _) b0
    have h2 : |(y : ℝ)| * |(x : ℝ) - X| ≤ (C + l / 2 ^ 53) * (k / 2 ^ 53) :=
      mul_le_mul h'.abs h.1 (abs_nonneg _) ((abs_nonneg _).trans h'.abs)
    have h3 : l / 2 ^ 53 * k ≤ 1 / 32 := by
      have : l * k ≤ 1000 * 1000 := mul_le_mul hl' hk' hk (by norm_num)
      rw [div_mul_eq_mul_div, div_le_div_iff₀ (by positivity) (by norm_num)]
      norm_num
      linarith
    have h4 : (C + l / 2 ^ 53) * (k / 2 ^ 53) ≤ (C * k + 1 / 32) / 2 ^ 53 := by
      have : (C + l / 2 ^ 53) * (k / 2 ^ 53) = (C * k + l / 2 ^ 53 * k) / 2 ^ 53 := by ring
      rw [this]
      gcongr
    have h5 : (B * l + C * k + 1 / 32) / 2 ^ 53 = B * (l / 2 ^ 53) + (C * k + 1 / 32) / 2 ^ 53 := by ring
    rw [h5]
    linarith
  exact (hc.fl (by linarith)).weaken (by linarith) le_rfl

theorem close_self {x : ℚ} {B : ℝ} (h : |(x : ℝ)| ≤ B) : Close 0 B x x := ⟨by simp, h⟩

theorem close_one : Close 0 1 1 1 := ⟨by simp, by simp⟩

theorem TrigContractF.cos {cosF sinF : ℚ → ℚ} (h : TrigContractF cosF sinF) (x : ℚ) : Close 2 1 (cosF x) (Real.cos x) :=
  ⟨(h x).1.trans (by norm_num), Real.abs_cos_le_one _⟩

theorem TrigContractF.sin {cosF sinF : ℚ → ℚ} (h : TrigContractF cosF sinF) (x : ℚ) : Close 2 1 (sinF x) (Real.sin x) :=
  ⟨(h x).2.trans (by norm_num), Real.abs_sin_le_one _⟩

/-- The three components of an axis, six units of rounding off. -/
def CloseAxis (a : V3 ℚ) (A : V3 ℝ) : Prop := Close 6 1 a.x A.x ∧ Close 6 1 a.y A.y ∧ Close 6 1 a.z A.z

theorem close_diag {x c : ℚ} {X C : ℝ} (hx : Close 6 1 x X) (hc : Close 2 1 c C) :
    Close 50 3 (c ⊞ x ⊠ x ⊠ (1 ⊟ c)) (C + X * X * (1 - C)) := by
  have h1 := (hx.mul hx (by norm_num) (by norm_num) (by norm_num) (by norm_num) (by norm_num)).weaken (k' := 14) (B' := 1) (by norm_num) (by norm_num)
  have h2 := (close_one.sub hc (by norm_num)).weaken (k' := 5) (B' := 2) (by norm_num) (by norm_num)
  have h3 := (h1.mul h2 (by norm_num) (by norm_num) (by norm_num) (by norm_num) (by norm_num)).weaken (k' := 36) (B' := 2) (by norm_num) (by norm_num)
  exact (hc.add h3 (by norm_num)).weaken (by norm_num) (by norm_num)

theorem close_sub {x y z c s : ℚ} {X Y Z C S : ℝ} (hx : Close 6 1 x X) (hy : Close 6 1 y Y) (hz : Close 6 1 z Z) (hc : Close 2 1 c C)
    (hs : Close 2 1 s S) : Close 50 3 (x ⊠ y ⊠ (1 ⊟ c) ⊟ z ⊠ s) (X * Y * (1 - C) - Z * S) := by
  have h1 := (hx.mul hy (by norm_num) (by norm_num) (by norm_num) (by norm_num) (by norm_num)).weaken (k' := 14) (B' := 1) (by norm_num) (by norm_num)
  have h2 := (close_one.sub hc (by norm_num)).weaken (k' := 5) (B' := 2) (by norm_num) (by norm_num)
  have h3 := (h1.mul h2 (by norm_num) (by norm_num) (by norm_num) (by norm_num) (by norm_num)).weaken (k' := 36) (B' := 2) (by norm_num) (by norm_num)
  have h4 := (hz.mul hs (by norm_num) (by norm_num) (by norm_num) (by norm_num) (by norm_num)).weaken (k' := 10) (B' := 1) (by norm_num) (by norm_num)
  exact (h3.sub h4 (by norm_num)).weaken (by norm_num) (by norm_num)

theorem close_add {x y z c s : ℚ} {X Y Z C S : ℝ} (hx : Close 6 1 x X) (hy : Close 6 1 y Y) (hz : Close 6 1 z Z) (hc : Close 2 1 c C)
    (hs : Close 2 1 s S) : Close 50 3 (x ⊠ y ⊠ (1 ⊟ c) ⊞ z ⊠ s) (X * Y * (1 - C) + Z * S) := by
  have h1 := (hx.mul hy (by norm_num) (by norm_num) (by norm_num) (by norm_num) (by norm_num)).weaken (k' := 14) (B' := 1) (by norm_num) (by norm_num)
  have h2 := (close_one.sub hc (by norm_num)).weaken (k' := 5) (B' := 2) (by norm_num) (by norm_num)
  have h3 := (h1.mul h2 (by norm_num) (by norm_num) (by norm_num) (by norm_num) (by norm_num)).weaken (k' := 36) (B' := 2) (by norm_num) (by norm_num)
  have h4 := (hz.mul hs (by norm_num) (by norm_num) (by norm_num) (by norm_num) (by norm_num)).weaken (k' := 10) (B' := 1) (by norm_num) (by norm_num)
  exact (h3.add h4 (by norm_num)).weaken (by norm_num) (by norm_num)

theorem rotation_close {cosF sinF : ℚ → ℚ} (h : TrigContractF cosF sinF) {a : V3 ℚ} {A : V3 ℝ} (ha : CloseAxis a A) (angle : ℚ)
    (i j : Fin 3) : Close 50 3 (getRotationMatrixF cosF sinF a angle i j) (getRotationMatrix A angle i j) := by
  obtain ⟨hx, hy, hz⟩ := ha
  have hc := h.cos angle
  have hs := h.sin angle
  unfold getRotationMatrixF getRotationMatrix
  match i, j with
  | 0, 0 => exact close_diag hx hc
  | 0, 1 => exact close_sub hx hy hz hc hs
  | 0, 2 => exact close_add hx hz hy hc hs
  | 1, 0 => exact close_add hy hx hz hc hs
  | 1, 1 => exact close_diag hy hc
  | 1, 2 => exact close_sub hy hz hx hc hs
  | 2, 0 => exact close_sub hz hx hy hc hs
  | 2, 1 => exact close_add hz hy hx hc hs
  | 2, 2 => exact close_diag hz hc

/-- The unit vector with the given angles. -/
noncomputable def unitVector (phi theta : ℝ) : V3 ℝ :=
  ⟨Real.cos phi * Real.sin theta, Real.sin phi * Real.sin theta, Real.cos theta⟩

theorem unitVector_unit (phi theta : ℝ) : (unitVector phi theta).dot (unitVector phi theta) = 1 := by
  unfold unitVector V3.dot
  dsimp only
  have h1 := Real.sin_sq_add_cos_sq phi
  have h2 := Real.sin_sq_add_cos_sq theta
  linear_combination (Real.sin theta) ^ 2 * h1 + h2

theorem axis_close {cosF sinF : ℚ → ℚ} (h : TrigContractF cosF sinF) (phi theta : ℚ) :
    CloseAxis ⟨cosF phi ⊠ sinF theta, sinF phi ⊠ sinF theta, cosF theta⟩ (unitVector phi theta) := by
  refine ⟨?_, ?_, ?_⟩
  · exact ((h.cos phi).mul (h.sin theta) (by norm_num) (by norm_num) (by norm_num) (by norm_num) (by norm_num)).weaken (by norm_num) (by norm_num)
  · exact ((h.sin phi).mul (h.sin theta) (by norm_num) (by norm_num) (by norm_num) (by norm_num) (by norm_num)).weaken (by norm_num) (by norm_num)
  · exact (h.cos theta).weaken (by norm_num) (by norm_num)

theorem row_close {a b c p q r : ℚ} {P Q R : ℝ} (ha : |(a : ℝ)| ≤ 2) (hb : |(b : ℝ)| ≤ 2) (hc : |(c : ℝ)| ≤ 2)
    (hp : Close 50 3 p P) (hq : Close 50 3 q Q) (hr : Close 50 3 r R) :
    |((a ⊠ p ⊞ b ⊠ q ⊞ c ⊠ r : ℚ) : ℝ) - (a * P + b * Q + c * R)| ≤ 360 / 2 ^ 53 := by
  have h1 := ((close_self ha).mul hp (by norm_num) (by norm_num) (by norm_num) (by norm_num) (by norm_num)).weaken (k' := 107) (B' := 6) (by norm_num) (by norm_num)
  have h2 := ((close_self hb).mul hq (by norm_num) (by norm_num) (by norm_num) (by norm_num) (by norm_num)).weaken (k' := 107) (B' := 6) (by norm_num) (by norm_num)
  have h3 := ((close_self hc).mul hr (by norm_num) (by norm_num) (by norm_num) (by norm_num) (by norm_num)).weaken (k' := 107) (B' := 6) (by norm_num) (by norm_num)
  have h4 := (h1.add h2 (by norm_num)).weaken (k' := 227) (B' := 12) (by norm_num) (by norm_num)
  exact ((h4.add h3 (by norm_num)).weaken (k' := 360) (B' := 18) (by norm_num) (by norm_num)).1

/-- Difference of two vectors. -/
def diff (a b : V3 ℝ) : V3 ℝ := ⟨a.x - b.x, a.y - b.y, a.z - b.z⟩

theorem dot_self_nonneg (a : V3 ℝ) : 0 ≤ a.dot a := by
  unfold V3.dot
  nlinarith [mul_self_nonneg a.x, mul_self_nonneg a.y, mul_self_nonneg a.z]

theorem dot_le {a b : V3 ℝ} {s t : ℝ} (hs : 0 ≤ s) (ht : 0 ≤ t) (ha : a.dot a ≤ s ^ 2) (hb : b.dot b ≤ t ^ 2) : |a.dot b| ≤ s * t := by
  refine abs_le_of_sq_le_sq ?_ (by positivity)
  have := cauchy_schwarz a.x a.y a.z b.x b.y b.z
  have e : b.x ^ 2 + b.y ^ 2 + b.z ^ 2 = b.dot b := by unfold V3.dot; ring
  rw [e] at this
  refine this.trans ?_
  rw [mul_pow]
  exact mul_le_mul ha hb (dot_self_nonneg b) (by positivity)

theorem dot_diff_trans {a b c : V3 ℝ} {s t : ℝ} (hs : 0 ≤ s) (ht : 0 ≤ t) (h1 : (diff a b).dot (diff a b) ≤ s ^ 2)
    (h2 : (diff b c).dot (diff b c) ≤ t ^ 2) : (diff a c).dot (diff a c) ≤ (s + t) ^ 2 := by
  have h := (abs_le.1 (dot_le hs ht h1 h2)).2
  have e : (diff a c).dot (diff a c) = (diff a b).dot (diff a b) + 2 * (diff a b).dot (diff b c) + (diff b c).dot (diff b c) := by
    unfold diff V3.dot; ring
  rw [e]
  nlinarith

theorem diff_mul (a b : V3 ℝ) (m : M3 ℝ) : diff (multiplyByMatrix a m) (multiplyByMatrix b m) = multiplyByMatrix (diff a b) m := by
  unfold diff multiplyByMatrix
  ext <;> dsimp only <;> ring

theorem component_le {v : V3 ℝ} (h : v.dot v ≤ 2 ^ 2) : |v.x| ≤ 2 ∧ |v.y| ≤ 2 ∧ |v.z| ≤ 2 := by
  unfold V3.dot at h
  have x := mul_self_nonneg v.x
  have y := mul_self_nonneg v.y
  have z := mul_self_nonneg v.z
  exact ⟨abs_le_of_sq_le_sq (by nlinarith) (by norm_num), abs_le_of_sq_le_sq (by nlinarith) (by norm_num),
    abs_le_of_sq_le_sq (by nlinarith) (by norm_num)⟩

/-- One multiplication. -/
theorem multiply_close {v : V3 ℚ} {m : M3 ℚ} {M : M3 ℝ} (hv : v.toReal.dot v.toReal ≤ 2 ^ 2) (hm : ∀ i j, Close 50 3 (m i j) (M i j)) :
    (diff (multiplyByMatrixF v m).toReal (multiplyByMatrix v.toReal M)).dot
      (diff (multiplyByMatrixF v m).toReal (multiplyByMatrix v.toReal M)) ≤ (1 / 2 ^ 43) ^ 2 := by
  obtain ⟨h1, h2, h3⟩ := component_le hv
  have r := fun i => row_close h1 h2 h3 (hm i 0) (hm i 1) (hm i 2)
  have r0 := r 0
  have r1 := r 1
  have r2 := r 2
  have sq : ∀ {t : ℝ}, |t| ≤ 360 / 2 ^ 53 → t * t ≤ (360 / 2 ^ 53) * (360 / 2 ^ 53) := by
    intro t ht
    rw [← abs_mul_abs_self]
    exact mul_le_mul ht ht (abs_nonneg _) (by positivity)
  have s0 := sq r0
  have s1 := sq r1
  have s2 := sq r2
  unfold diff V3.dot multiplyByMatrixF multiplyByMatrix
  dsimp only [V3.toReal] at s0 s1 s2 ⊢
  refine (add_le_add (add_le_add s0 s1) s2).trans ?_
  norm_num

end Verif.Rounding.Rotate
