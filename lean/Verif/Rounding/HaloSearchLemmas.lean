import Verif.Rounding.HaloSearchModel
import Verif.Rounding.SearchAccuracyProps
import Verif.Geometry.BoxProps

/-!
# Lemmas for C148
-/

namespace Verif.Rounding.Haloes

open Verif.Geometry Verif.Rounding

/-! ### One component -/

/-- A component is hardly larger than the computed root of its square. -/
theorem comp_le {M d r : ℚ} (hM : 1 / 2 ^ 200 ≤ M) (hd : |d| ≤ 6 * M) (h : sqrtF (d ⊠ d) < r) : |d| ≤ r + 20 * (M / 2 ^ 53) := by
  have hr0 : 0 < r := by
    refine lt_of_le_of_lt ?_ h
    have := le_sqrtF (fl_sq_nonneg d) (R := 0) (by simpa using fl_sq_nonneg d)
    rwa [fl_zero] at this
  obtain ⟨e, he⟩ : ∃ e, e = M / 2 ^ 53 := ⟨_, rfl⟩
  have eM : M = 2 ^ 53 * e := by rw [he]; field_simp
  rw [← he]
  rcases le_or_gt (1 / 2 ^ 250) |d| with h' | h'
  · have h4 := (abs_le_sqrtF h').trans h.le
    have h5 : |d| * (3 / 2 ^ 53) ≤ 6 * M * (3 / 2 ^ 53) := mul_le_mul_of_nonneg_right hd (by positivity)
    rw [eM] at h5
    have M0 : 0 < M := lt_of_lt_of_le (by positivity) hM
    have e0 : 0 < e := he ▸ by positivity
    linarith
  · have : (1 : ℚ) / 2 ^ 250 ≤ 8 * e := by
      rw [he]
      have : (1 : ℚ) / 2 ^ 250 = 8 * (1 / 2 ^ 200 / 2 ^ 53) := by norm_num
      rw [this]
      have := div_le_div_of_nonneg_right hM (show (0 : ℚ) ≤ 2 ^ 53 by positivity)
      linarith
    have M0 : 0 < M := lt_of_lt_of_le (by positivity) hM
    have e0 : 0 < e := he ▸ by positivity
    linarith

/-- The side of the cube around the sphere of a search. -/
theorem cube_side {M q r : ℚ} (hM : 1 / 2 ^ 200 ≤ M) (hq : |q| ≤ M) (hr : IsF64 r) (hr0 : 0 < r) :
    4 * M ≤ (q ⊞ (1 ⊠ r)) ⊟ (q ⊟ (1 ⊠ r)) ∨
      (r ≤ 4 * M ∧ |(q ⊞ (1 ⊠ r)) ⊟ (q ⊟ (1 ⊠ r)) - 2 * r| ≤ 30 * (M / 2 ^ 53)) := by
  rw [show 1 ⊠ r = r by unfold fmul; rw [one_mul]; exact hr]
  have hM0 : 0 < M := lt_of_lt_of_le (by positivity) hM
  obtain ⟨e, he⟩ : ∃ e, e = M / 2 ^ 53 := ⟨_, rfl⟩
  have e0 : 0 < e := he ▸ by positivity
  have eM : M = 2 ^ 53 * e := by rw [he]; field_simp
  have err : ∀ {x k : ℚ}, |x| ≤ k * M → |fl x - x| ≤ (k + 1 / 64) * e := fun h => he ▸ fl_err_M hM h
  have hq' := abs_le.1 hq
  rcases le_or_gt r (4 * M) with h | h
  · right
    refine ⟨h, ?_⟩
    rw [← he]
    have h1 := abs_le.1 (err (x := q + r) (k := 5) (abs_le.2 ⟨by linarith, by linarith⟩))
    have h2 := abs_le.1 (err (x := q - r) (k := 5) (abs_le.2 ⟨by linarith, by linarith⟩))
    have h3 := abs_le.1 (err (x := fl (q + r) - fl (q - r)) (k := 11) (abs_le.2 ⟨by linarith, by linarith⟩))
    unfold fsub fadd
    exact abs_le.2 ⟨by linarith, by linarith⟩
  · left
    have h1 := abs_le.1 (err (x := 3 * M) (k := 3) (abs_le.2 ⟨by linarith, by linarith⟩))
    have g1 : fl (3 * M) ≤ fl (q + r) := fl_mono (by linarith)
    have g2 : fl (q - r) ≤ fl (-(3 * M)) := fl_mono (by linarith)
    rw [fl_neg] at g2
    have h3 := abs_le.1 (err (x := 5 * M) (k := 5) (abs_le.2 ⟨by linarith, by linarith⟩))
    have g3 : fl (5 * M) ≤ fl (fl (q + r) - fl (q - r)) := fl_mono (by linarith)
    unfold fsub fadd
    linarith

/-- The test of a rank along one axis. -/
theorem rank_component {M a b p q L r : ℚ} (hM : 1 / 2 ^ 200 ≤ M) (ha : -M ≤ a) (hb : b ≤ M) (hap : a ≤ p) (hpb : p ≤ b)
    (hq : |q| ≤ M) (hL : IsF64 L) (hL0 : 1 / 2 ^ 1000 ≤ L) (hr : IsF64 r) (hrM : M / 2 ^ 46 ≤ r)
    (hin : sqrtF (minimizeF (q ⊟ p) L ⊠ minimizeF (q ⊟ p) L) < r) :
    |minimizeF (q ⊟ (a ⊞ b) ⊘ 2) L| ≤ ((q ⊞ (1 ⊠ r)) ⊟ (q ⊟ (1 ⊠ r))) ⊞ (b ⊟ a) := by
  have hM0 : 0 < M := lt_of_lt_of_le (by positivity) hM
  have hLp : 0 ≤ L := le_trans (by positivity) hL0
  obtain ⟨e, he⟩ : ∃ e, e = M / 2 ^ 53 := ⟨_, rfl⟩
  have e0 : 0 < e := he ▸ by positivity
  have eM : M = 2 ^ 53 * e := by rw [he]; field_simp
  have hrM' : 128 * e ≤ r := by
    refine le_trans (le_of_eq ?_) hrM
    rw [he]; ring
  have err : ∀ {x k : ℚ}, |x| ≤ k * M → |fl x - x| ≤ (k + 1 / 64) * e := fun h => he ▸ fl_err_M hM h
  have hq' := abs_le.1 hq
  have hc := abs_le.1 (center_err hM ha (hap.trans hpb) hb)
  rw [← he] at hc
  have hside := cube_side hM hq hr (by linarith)
  rw [← he] at hside
  have hS : IsF64 ((q ⊞ (1 ⊠ r)) ⊟ (q ⊟ (1 ⊠ r))) := isF64_fl _
  generalize (q ⊞ (1 ⊠ r)) ⊟ (q ⊟ (1 ⊠ r)) = S at *
  generalize (a ⊞ b) ⊘ 2 = c at *
  rw [minimizeF_eq (v := q ⊟ c) (isF64_fl _) hL hL0]
  rw [minimizeF_eq (v := q ⊟ p) (isF64_fl _) hL hL0] at hin
  obtain ⟨v, hv⟩ : ∃ v, v = q ⊟ p := ⟨_, rfl⟩
  obtain ⟨w, hw⟩ : ∃ w, w = q ⊟ c := ⟨_, rfl⟩
  rw [← hv] at hin
  rw [← hw]
  have h1 := abs_le.1 (err (x := q - p) (k := 2) (abs_le.2 ⟨by linarith, by linarith⟩))
  have h2 := abs_le.1 (err (x := q - c) (k := 21 / 10) (abs_le.2 ⟨by linarith, by linarith⟩))
  change _ ≤ q ⊟ p - _ ∧ q ⊟ p - _ ≤ _ at h1
  change _ ≤ q ⊟ c - _ ∧ q ⊟ c - _ ≤ _ at h2
  rw [← hv] at h1
  rw [← hw] at h2
  have hvM : |v| ≤ 21 / 10 * M := abs_le.2 ⟨by linarith, by linarith⟩
  have hwM : |w| ≤ 22 / 10 * M := abs_le.2 ⟨by linarith, by linarith⟩
  have hmv := (minimize_abs_le v L hLp).trans hvM
  have hmw := (minimize_abs_le w L hLp).trans hwM
  have lip : |minimizeComponent w L| ≤ |minimizeComponent v L| + ((b - a) / 2 + 8 * e) := by
    have := minimize_lip w v L L hLp hLp
    rw [sub_self, abs_zero, add_zero] at this
    have h3 : |w - v| ≤ (b - a) / 2 + 8 * e := abs_le.2 ⟨by linarith, by linarith⟩
    linarith
  have a1 := abs_le.1 (err hmv)
  have a2 := abs_le.1 (err hmw)
  have t1 : |minimizeComponent v L| ≤ |fl (minimizeComponent v L)| + 3 * e := by
    have := abs_add_le (fl (minimizeComponent v L)) (minimizeComponent v L - fl (minimizeComponent v L))
    rw [add_sub_cancel] at this
    have h3 : |minimizeComponent v L - fl (minimizeComponent v L)| ≤ 3 * e := abs_le.2 ⟨by linarith, by linarith⟩
    linarith
  have t2 : |fl (minimizeComponent w L)| ≤ |minimizeComponent w L| + 3 * e := by
    have := abs_add_le (minimizeComponent w L) (fl (minimizeComponent w L) - minimizeComponent w L)
    rw [add_sub_cancel] at this
    have h3 : |fl (minimizeComponent w L) - minimizeComponent w L| ≤ 3 * e := abs_le.2 ⟨by linarith, by linarith⟩
    linarith
  have t3 : |fl (minimizeComponent v L)| ≤ 22 / 10 * M := by
    have := abs_add_le (minimizeComponent v L) (fl (minimizeComponent v L) - minimizeComponent v L)
    rw [add_sub_cancel] at this
    have h3 : |fl (minimizeComponent v L) - minimizeComponent v L| ≤ 3 * e := abs_le.2 ⟨by linarith, by linarith⟩
    linarith
  have hd := comp_le hM (t3.trans (by linarith)) hin
  rw [← he] at hd
  generalize fl (minimizeComponent v L) = d at *
  generalize fl (minimizeComponent w L) = d' at *
  have s1 := abs_le.1 (err (x := b - a) (k := 2) (abs_le.2 ⟨by linarith, by linarith⟩))
  change _ ≤ b ⊟ a - _ ∧ b ⊟ a - _ ≤ _ at s1
  have s0 : 0 ≤ b ⊟ a := fl_nonneg (by linarith)
  generalize b ⊟ a = s at *
  rcases hside with hbig | ⟨hsmall, hS2⟩
  · have : S ≤ S ⊞ s := le_fadd_left hS s0
    linarith
  · have hS2 := abs_le.1 hS2
    have s2 := abs_le.1 (err (x := S + s) (k := 11) (abs_le.2 ⟨by linarith, by linarith⟩))
    change _ ≤ S ⊞ s - _ ∧ S ⊞ s - _ ≤ _ at s2
    linarith

/-! ### Images -/

/-- The translation is exact. -/
theorem translation_eq (w : Fin 3 → WrapType) (box : Extent 3 ℚ) (i : Fin 3) :
    asTranslationF w box i = sideLengthsF box i * (w i).asSign := by
  have s : ∀ (t : WrapType) (L : ℚ), L ⊠ t.asSign = fl (L * t.asSign) := fun _ _ => rfl
  have z : ∀ t : WrapType, (0 : ℚ) ⊠ t.asSign = 0 := by
    intro t; unfold fmul; rw [zero_mul]; exact fl_zero
  have ex : ∀ (t : WrapType) (j : Fin 3), sideLengthsF box j ⊠ t.asSign = sideLengthsF box j * t.asSign := by
    intro t j
    have h : IsF64 (sideLengthsF box j) := isF64_fl _
    unfold fmul
    cases t with
    | noWrap => show fl (sideLengthsF box j * 0) = _; rw [mul_zero, fl_zero]; exact (mul_zero _).symm
    | minus => show fl (sideLengthsF box j * -1) = sideLengthsF box j * -1; rw [mul_neg_one, fl_neg, h]
    | plus => show fl (sideLengthsF box j * 1) = sideLengthsF box j * 1; rw [mul_one, h]
  have fx : ∀ (t : WrapType) (j : Fin 3), fl (sideLengthsF box j * t.asSign) = sideLengthsF box j * t.asSign := ex
  have a0 : ∀ x : ℚ, fl x = x → x ⊞ 0 = x := by
    intro x h; unfold fadd; rw [add_zero, h]
  have a1 : ∀ x : ℚ, fl x = x → (0 : ℚ) ⊞ x = x := by
    intro x h; unfold fadd; rw [zero_add, h]
  unfold asTranslationF
  fin_cases i
  · show sideLengthsF box 0 ⊠ (w 0).asSign ⊞ 0 ⊠ (w 1).asSign ⊞ 0 ⊠ (w 2).asSign = _
    rw [z, z, ex, a0 _ (fx _ _), a0 _ (fx _ _)]
    rfl
  · show 0 ⊠ (w 0).asSign ⊞ sideLengthsF box 1 ⊠ (w 1).asSign ⊞ 0 ⊠ (w 2).asSign = _
    rw [z, z, ex, a1 _ (fx _ _), a0 _ (fx _ _)]
    rfl
  · show 0 ⊠ (w 0).asSign ⊞ 0 ⊠ (w 1).asSign ⊞ sideLengthsF box 2 ⊠ (w 2).asSign = _
    rw [z, z, ex, a0 _ fl_zero, a1 _ (fx _ _)]
    rfl

/-- The difference to an image along one axis. -/
theorem image_component {M p q L s : ℚ} (hM : 1 / 2 ^ 200 ≤ M) (hp : |p| ≤ M) (hq : |q| ≤ M) (hL : |L| ≤ 21 / 10 * M)
    (hs : s = 0 ∨ s = -1 ∨ s = 1) :
    |(q ⊟ (p ⊞ L * s)) - (q - p - L * s)| ≤ 8 * (M / 2 ^ 53) := by
  have hM0 : 0 < M := lt_of_lt_of_le (by positivity) hM
  obtain ⟨e, he⟩ : ∃ e, e = M / 2 ^ 53 := ⟨_, rfl⟩
  have e0 : 0 < e := he ▸ by positivity
  have eM : M = 2 ^ 53 * e := by rw [he]; field_simp
  have err : ∀ {x k : ℚ}, |x| ≤ k * M → |fl x - x| ≤ (k + 1 / 64) * e := fun h => he ▸ fl_err_M hM h
  rw [← he]
  have hLs : |L * s| ≤ 21 / 10 * M := by
    rcases hs with rfl | rfl | rfl
    · rw [mul_zero, abs_zero]; linarith
    · rw [mul_neg_one, abs_neg]; exact hL
    · rwa [mul_one]
  generalize L * s = t at *
  have hp' := abs_le.1 hp
  have hq' := abs_le.1 hq
  have ht' := abs_le.1 hLs
  have h1 := abs_le.1 (err (x := p + t) (k := 31 / 10) (abs_le.2 ⟨by linarith, by linarith⟩))
  have h2 := abs_le.1 (err (x := q - fl (p + t)) (k := 42 / 10) (abs_le.2 ⟨by linarith, by linarith⟩))
  unfold fsub fadd
  exact abs_le.2 ⟨by linarith, by linarith⟩

/-- The computed distance along an axis is that to an image. -/
theorem minimize_component {M p q L : ℚ} (hM : 1 / 2 ^ 200 ≤ M) (hp : |p| ≤ M) (hq : |q| ≤ M) (hL : IsF64 L) (hL0 : 1 / 2 ^ 1000 ≤ L)
    (hLM : |L| ≤ 21 / 10 * M) :
    ∃ w : WrapType, |minimizeF (q ⊟ p) L - (q - p - L * w.asSign)| ≤ 5 * (M / 2 ^ 53) := by
  have hM0 : 0 < M := lt_of_lt_of_le (by positivity) hM
  have hLp : 0 ≤ L := le_trans (by positivity) hL0
  obtain ⟨e, he⟩ : ∃ e, e = M / 2 ^ 53 := ⟨_, rfl⟩
  have e0 : 0 < e := he ▸ by positivity
  have eM : M = 2 ^ 53 * e := by rw [he]; field_simp
  have err : ∀ {x k : ℚ}, |x| ≤ k * M → |fl x - x| ≤ (k + 1 / 64) * e := fun h => he ▸ fl_err_M hM h
  rw [← he]
  rw [minimizeF_eq (v := q ⊟ p) (isF64_fl _) hL hL0]
  have hp' := abs_le.1 hp
  have hq' := abs_le.1 hq
  have h1 := abs_le.1 (err (x := q - p) (k := 2) (abs_le.2 ⟨by linarith, by linarith⟩))
  obtain ⟨v, hv⟩ : ∃ v, v = q ⊟ p := ⟨_, rfl⟩
  change _ ≤ q ⊟ p - _ ∧ q ⊟ p - _ ≤ _ at h1
  rw [← hv] at h1 ⊢
  obtain ⟨w, hw⟩ := minimize_eq v L
  refine ⟨w, ?_⟩
  have hvM : |v| ≤ 21 / 10 * M := abs_le.2 ⟨by linarith, by linarith⟩
  have h2 := abs_le.1 (err ((minimize_abs_le v L hLp).trans hvM))
  rw [hw] at h2 ⊢
  generalize L * w.asSign = t at *
  exact abs_le.2 ⟨by linarith, by linarith⟩

end Verif.Rounding.Haloes
