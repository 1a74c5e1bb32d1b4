import Verif.Rounding.CentreModel
import Verif.Rounding.SolverError
import Verif.Rounding.SearchAccuracyProps
import Verif.Predicates.CircleProps

/-!
# Rounding errors of circumcentres

Helper lemmas.
-/

namespace Verif.Rounding

open Verif.Predicates

/-! ## Residuals of the backward substitution -/

/-- A quotient. -/
theorem quot_resid {v d x : ℚ} (hx : x = v ⊘ d) (hd : d ≠ 0) :
    |d * x - v| ≤ 101 / 100 / 2 ^ 53 * (|d| * |x|) + |d| * (2 * (1 / 2 ^ 1074)) := by
  obtain ⟨e, n, he, hn, h⟩ := fl_back (v / d)
  change v / d = v ⊘ d * (1 + e) + n at h
  rw [← hx] at h
  have hv : v = d * (x * (1 + e) + n) := by rw [← h, mul_div_cancel₀ _ hd]
  have : d * x - v = -(e * (d * x)) - d * n := by rw [hv]; ring
  rw [this]
  calc |-(e * (d * x)) - d * n| ≤ |-(e * (d * x))| + |d * n| := abs_sub _ _
    _ = |e| * (|d| * |x|) + |d| * |n| := by rw [abs_neg, abs_mul, abs_mul, abs_mul]
    _ ≤ _ := add_le_add (mul_le_mul_of_nonneg_right he (by positivity)) (mul_le_mul_of_nonneg_left hn (abs_nonneg _))

/-- A difference with a product. -/
theorem sub_mul_resid {c x b v : ℚ} (hv : v = c ⊟ x ⊠ b) :
    |v + b * x - c| ≤ 101 / 100 / 2 ^ 53 * (|b| * |x| + |v|) + 4 * (1 / 2 ^ 1074) := by
  obtain ⟨e1, n1, he1, hn1, h1⟩ := fl_forward (x * b)
  change x ⊠ b = _ at h1
  obtain ⟨e2, n2, he2, hn2, h2⟩ := fl_back (c - x ⊠ b)
  change _ = (c ⊟ x ⊠ b) * (1 + e2) + n2 at h2
  rw [← hv, h1] at h2
  have : v + b * x - c = -(e1 * (b * x)) - n1 - e2 * v - n2 := by linear_combination -h2
  rw [this]
  calc |-(e1 * (b * x)) - n1 - e2 * v - n2| ≤ |-(e1 * (b * x))| + |n1| + |e2 * v| + |n2| := by
        refine (abs_sub _ _).trans (add_le_add_left ?_ _)
        refine (abs_sub _ _).trans (add_le_add_left ?_ _)
        exact abs_sub _ _
    _ = |e1| * (|b| * |x|) + |n1| + |e2| * |v| + |n2| := by rw [abs_neg, abs_mul, abs_mul, abs_mul]
    _ ≤ 101 / 100 / 2 ^ 53 * (|b| * |x|) + 2 * (1 / 2 ^ 1074) + 101 / 100 / 2 ^ 53 * |v| + 2 * (1 / 2 ^ 1074) := by
        have a1 := mul_le_mul_of_nonneg_right he1 (show 0 ≤ |b| * |x| by positivity)
        have a2 := mul_le_mul_of_nonneg_right he2 (abs_nonneg v)
        exact add_le_add (add_le_add (add_le_add a1 hn1) a2) hn2
    _ = _ := by ring

/-- Both lemmas with abstract constants. -/
theorem row_resid_aux {w t a0 a1 a2 x1 x2 x3 v1 v2 b : ℚ} (hw : 0 ≤ w) (hw1 : w ≤ 1 / 1000) (ht : 0 ≤ t)
    (h0 : |a0 * x1 - v2| ≤ w * (|a0| * |x1|) + |a0| * (2 * t))
    (h1 : |v2 + a1 * x2 - v1| ≤ w * (|a1| * |x2| + |v2|) + 4 * t)
    (h2 : |v1 + a2 * x3 - b| ≤ w * (|a2| * |x3| + |v1|) + 4 * t) :
    |a0 * x1 + a1 * x2 + a2 * x3 - b| ≤ 4 * w * (|a0| * |x1| + |a1| * |x2| + |a2| * |x3|) + 4 * (|a0| * t) + 16 * t := by
  have p0 : 0 ≤ |a0| * |x1| := by positivity
  have p1 : 0 ≤ |a1| * |x2| := by positivity
  have p2 : 0 ≤ |a2| * |x3| := by positivity
  have pt : 0 ≤ |a0| * t := by positivity
  have e0 : |a0 * x1| = |a0| * |x1| := abs_mul _ _
  have e1 : |a1 * x2| = |a1| * |x2| := abs_mul _ _
  have b2 : |v2| ≤ 1001 / 1000 * (|a0| * |x1|) + 2 * (|a0| * t) := by
    have k : |v2| ≤ |a0 * x1| + |a0 * x1 - v2| := by
      have := abs_sub (a0 * x1) (a0 * x1 - v2)
      rwa [sub_sub_cancel] at this
    have := mul_le_mul_of_nonneg_right hw1 p0
    rw [e0] at k
    linarith
  have b1 : |v1| ≤ 1003 / 1000 * (|a0| * |x1|) + 1001 / 1000 * (|a1| * |x2|) + 3 * (|a0| * t) + 4 * t := by
    have k : |v1| ≤ |v2| + |a1 * x2| + |v2 + a1 * x2 - v1| := by
      have := abs_sub (v2 + a1 * x2) (v2 + a1 * x2 - v1)
      rw [sub_sub_cancel] at this
      linarith [abs_add_le v2 (a1 * x2)]
    have q := mul_le_mul_of_nonneg_right hw1 (show 0 ≤ |a1| * |x2| + |v2| by positivity)
    rw [e1] at k
    linarith
  have c2 : w * |v2| ≤ w * (1001 / 1000 * (|a0| * |x1|)) + 1 / 1000 * (2 * (|a0| * t)) := by
    have := mul_le_mul_of_nonneg_left b2 hw
    have := mul_le_mul_of_nonneg_right hw1 pt
    linarith
  have c1 : w * |v1| ≤ w * (1003 / 1000 * (|a0| * |x1|) + 1001 / 1000 * (|a1| * |x2|)) + 1 / 1000 * (3 * (|a0| * t) + 4 * t) := by
    have := mul_le_mul_of_nonneg_left b1 hw
    have := mul_le_mul_of_nonneg_right hw1 (show 0 ≤ 3 * (|a0| * t) + 4 * t by positivity)
    linarith
  have q0 : 0 ≤ w * (|a0| * |x1|) := by positivity
  have q1 : 0 ≤ w * (|a1| * |x2|) := by positivity
  have q2 : 0 ≤ w * (|a2| * |x3|) := by positivity
  have tot : |a0 * x1 + a1 * x2 + a2 * x3 - b| ≤ |a0 * x1 - v2| + |v2 + a1 * x2 - v1| + |v1 + a2 * x3 - b| := by
    calc |a0 * x1 + a1 * x2 + a2 * x3 - b| = |(a0 * x1 - v2) + (v2 + a1 * x2 - v1) + (v1 + a2 * x3 - b)| := by congr 1; ring
      _ ≤ _ := abs_add_three _ _ _
  linarith

/-- The scale of the errors of a row whose coefficients are at most `B` and whose right-hand side is at most `C`. -/
def rowScale (B C S : ℚ) : ℚ := (B * S + C) / 2 ^ 53

theorem tiny_le {B C : ℚ} (hC : 1 / 2 ^ 200 ≤ C) (hBC : B ≤ 2 ^ 400 * C) :
    4 * (B * (1 / 2 ^ 1074)) + 16 * (1 / 2 ^ 1074) ≤ C / 2 ^ 53 / 100 := by
  have h1 : B * (1 / 2 ^ 1074) ≤ 2 ^ 400 * C * (1 / 2 ^ 1074) := mul_le_mul_of_nonneg_right hBC (by positivity)
  have h2 : (2 : ℚ) ^ 400 * C * (1 / 2 ^ 1074) = C * (1 / 2 ^ 674) := by
    rw [show (2 : ℚ) ^ 1074 = 2 ^ 400 * 2 ^ 674 by rw [← pow_add], mul_comm ((2 : ℚ) ^ 400) C, mul_assoc]
    congr 1
    rw [one_div, one_div, mul_inv, ← mul_assoc, mul_inv_cancel₀ (by positivity), one_mul]
  have h3 : (1 : ℚ) / 2 ^ 1074 ≤ C * (1 / 2 ^ 674) := by
    rw [show (2 : ℚ) ^ 1074 = 2 ^ 400 * 2 ^ 674 by rw [← pow_add], one_div, mul_inv, ← one_div, ← one_div]
    refine mul_le_mul_of_nonneg_right (le_trans ?_ hC) (by positivity)
    exact one_div_le_one_div_of_le (by positivity) (pow_le_pow_right₀ one_le_two (by decide))
  have hC0 : 0 ≤ C := le_trans (by positivity) hC
  have h4 : C * (1 / 2 ^ 674) ≤ C * (1 / 2 ^ 100) :=
    mul_le_mul_of_nonneg_left (one_div_le_one_div_of_le (by positivity) (pow_le_pow_right₀ one_le_two (by decide))) hC0
  have h5 : C * (1 / 2 ^ 100) * 20 ≤ C / 2 ^ 53 / 100 := by
    norm_num
    linarith
  generalize (1 : ℚ) / 2 ^ 1074 = t at *
  generalize C * ((1 : ℚ) / 2 ^ 674) = s at *
  linarith

/-- The residual of a row whose unknown is computed. -/
theorem row_resid {a0 a1 a2 b x1 x2 x3 B C : ℚ} (hC : 1 / 2 ^ 200 ≤ C) (hBC : B ≤ 2 ^ 400 * C)
    (ha0 : |a0| ≤ B) (ha1 : |a1| ≤ B) (ha2 : |a2| ≤ B) (hne : a0 ≠ 0) (hx : x1 = (b ⊟ x3 ⊠ a2 ⊟ x2 ⊠ a1) ⊘ a0) :
    |a0 * x1 + a1 * x2 + a2 * x3 - b| ≤ 5 * rowScale B C (|x1| + |x2| + |x3|) := by
  have h := row_resid_aux (w := 101 / 100 / 2 ^ 53) (t := 1 / 2 ^ 1074) (by norm_num) (by norm_num) (by positivity)
    (quot_resid hx hne) (sub_mul_resid (c := b ⊟ x3 ⊠ a2) (x := x2) (b := a1) rfl) (sub_mul_resid (c := b) (x := x3) (b := a2) rfl)
  have ht := tiny_le hC hBC
  have h0 : |a0| * (1 / 2 ^ 1074) ≤ B * (1 / 2 ^ 1074) := mul_le_mul_of_nonneg_right ha0 (by positivity)
  generalize (1 : ℚ) / 2 ^ 1074 = t at *
  have hC0 : 0 ≤ C := le_trans (by positivity) hC
  have k1 := mul_le_mul_of_nonneg_right ha0 (abs_nonneg x1)
  have k2 := mul_le_mul_of_nonneg_right ha1 (abs_nonneg x2)
  have k3 := mul_le_mul_of_nonneg_right ha2 (abs_nonneg x3)
  have hB0 : 0 ≤ B * (|x1| + |x2| + |x3|) := mul_nonneg ((abs_nonneg a0).trans ha0) (by positivity)
  unfold rowScale
  norm_num at h ht ⊢
  linarith

/-- The same with two unknowns. -/
theorem row_resid2 {a1 a2 b x2 x3 B C : ℚ} (hC : 1 / 2 ^ 200 ≤ C) (hBC : B ≤ 2 ^ 400 * C)
    (ha1 : |a1| ≤ B) (ha2 : |a2| ≤ B) (hne : a1 ≠ 0) (hx : x2 = (b ⊟ x3 ⊠ a2) ⊘ a1) :
    |a1 * x2 + a2 * x3 - b| ≤ 5 * rowScale B C (|x2| + |x3|) := by
  have hB : 0 ≤ B := (abs_nonneg _).trans ha1
  have := row_resid (x1 := x2) (x2 := 0) (x3 := x3) (a0 := a1) (a1 := 0) (a2 := a2) (b := b) hC hBC ha1 (by simpa using hB) ha2 hne (by
    rw [hx]
    show _ = fl (fl ((b ⊟ x3 ⊠ a2) - fl (0 * 0)) / a1)
    rw [mul_zero, fl_zero, sub_zero]
    show _ = fl (fl (fl (b - x3 ⊠ a2)) / a1)
    rw [fl_fl]
    rfl)
  simpa using this

/-- The same with one unknown. -/
theorem row_resid1 {a2 b x3 B C : ℚ} (hC : 1 / 2 ^ 200 ≤ C) (hBC : B ≤ 2 ^ 400 * C)
    (ha2 : |a2| ≤ B) (hne : a2 ≠ 0) (hb : IsF64 b) (hx : x3 = b ⊘ a2) :
    |a2 * x3 - b| ≤ 5 * rowScale B C |x3| := by
  have hB : 0 ≤ B := (abs_nonneg _).trans ha2
  have := row_resid2 (x2 := x3) (x3 := 0) (a1 := a2) (a2 := 0) (b := b) hC hBC ha2 (by simpa using hB) hne (by
    rw [hx]
    show _ = fl (fl (b - fl (0 * 0)) / a2)
    rw [mul_zero, fl_zero, sub_zero, hb]
    rfl)
  simpa using this

/-! ## Elimination -/

/-- One entry of a sum of rows. -/
theorem add_entry {a g f B : ℚ} (hB : 1 / 2 ^ 200 ≤ B) (ha : |a| ≤ B) (hg : |g| ≤ B) (hf : |f| ≤ 1) :
    |a ⊞ f ⊠ g - (a + f * g)| ≤ 4 * (B / 2 ^ 53) ∧ |a ⊞ f ⊠ g| ≤ 201 / 100 * B := by
  have h := eliminate_entry (f := -f) hB ha hg (by rwa [abs_neg])
  have e : a ⊟ g ⊠ (-f) = a ⊞ f ⊠ g := by
    show fl (a - fl (g * -f)) = fl (a + fl (f * g))
    rw [mul_neg, fl_neg, sub_neg_eq_add, mul_comm]
  have e' : a - g * -f = a + f * g := by ring
  rw [e, e'] at h
  have hB0 : 0 ≤ B := (abs_nonneg a).trans ha
  refine ⟨h, ?_⟩
  have h1 : |f * g| ≤ B := by
    rw [abs_mul]
    calc |f| * |g| ≤ 1 * B := mul_le_mul hf hg (abs_nonneg _) zero_le_one
      _ = B := one_mul B
  have h2 : |a ⊞ f ⊠ g| ≤ |a + f * g| + |a ⊞ f ⊠ g - (a + f * g)| := by
    have := abs_add_le (a + f * g) (a ⊞ f ⊠ g - (a + f * g))
    rwa [add_sub_cancel] at this
  have h3 := abs_add_le a (f * g)
  norm_num at h ⊢
  linarith

/-- The factor of a sum of rows. -/
theorem add_factor {a p B : ℚ} (hB : 1 / 2 ^ 200 ≤ B) (hp : p ≠ 0) (hpB : |p| ≤ B) (hap : |a| ≤ |p|) :
    |-a ⊘ p| ≤ 1 ∧ |a + (-a ⊘ p) * p| ≤ 4 * (B / 2 ^ 53) := by
  obtain ⟨h1, h2⟩ := eliminate_factor (a := -a) hB hp hpB (by rwa [abs_neg])
  refine ⟨h1, ?_⟩
  have e : p * (-a ⊘ p) - -a = a + (-a ⊘ p) * p := by ring
  rwa [e] at h2

/-- The residual of a row before the elimination. -/
theorem row_back {a0 a1 a2 a3 g0 g1 g2 g3 n1 n2 n3 f x1 x2 x3 eb ec : ℚ} (hf : |f| ≤ 1) (h0 : |a0 + f * g0| ≤ eb)
    (h1 : |n1 - (a1 + f * g1)| ≤ eb) (h2 : |n2 - (a2 + f * g2)| ≤ eb) (h3 : |n3 - (a3 + f * g3)| ≤ ec) :
    |a0 * x1 + a1 * x2 + a2 * x3 - a3| ≤ |n1 * x2 + n2 * x3 - n3| + |g0 * x1 + g1 * x2 + g2 * x3 - g3|
      + eb * (|x1| + |x2| + |x3|) + ec := by
  have e : a0 * x1 + a1 * x2 + a2 * x3 - a3 = (n1 * x2 + n2 * x3 - n3) + -(f * (g0 * x1 + g1 * x2 + g2 * x3 - g3))
      + ((a0 + f * g0) * x1 + -((n1 - (a1 + f * g1)) * x2) + -((n2 - (a2 + f * g2)) * x3)) + (n3 - (a3 + f * g3)) := by ring
  rw [e]
  have k1 : |-(f * (g0 * x1 + g1 * x2 + g2 * x3 - g3))| ≤ |g0 * x1 + g1 * x2 + g2 * x3 - g3| := by
    rw [abs_neg, abs_mul]
    exact mul_le_of_le_one_left (abs_nonneg _) hf
  have k2 : |(a0 + f * g0) * x1 + -((n1 - (a1 + f * g1)) * x2) + -((n2 - (a2 + f * g2)) * x3)| ≤ eb * (|x1| + |x2| + |x3|) := by
    refine (abs_add_three _ _ _).trans ?_
    rw [abs_neg, abs_neg, abs_mul, abs_mul, abs_mul]
    have := mul_le_mul_of_nonneg_right h0 (abs_nonneg x1)
    have := mul_le_mul_of_nonneg_right h1 (abs_nonneg x2)
    have := mul_le_mul_of_nonneg_right h2 (abs_nonneg x3)
    linarith
  refine (abs_add_le _ _).trans (add_le_add ?_ h3)
  refine (abs_add_le _ _).trans (add_le_add ?_ k2)
  exact (abs_add_le _ _).trans (add_le_add_right k1 _)

theorem rowScale_mul (k B C S : ℚ) : rowScale (k * B) (k * C) S = k * rowScale B C S := by
  unfold rowScale
  ring

theorem rowScale_mono {B C S S' : ℚ} (hB : 0 ≤ B) (h : S ≤ S') : rowScale B C S ≤ rowScale B C S' := by
  unfold rowScale
  have := mul_le_mul_of_nonneg_left h hB
  exact div_le_div_of_nonneg_right (by linarith) (by positivity)

/-- The entries of a matrix are of the given size. -/
def Sized (m : Mat 3 4 ℚ) (B C : ℚ) : Prop := ∀ i, |m i 0| ≤ B ∧ |m i 1| ≤ B ∧ |m i 2| ≤ B ∧ |m i 3| ≤ C

section
variable {m : Mat 3 4 ℚ} {B C x1 x2 x3 : ℚ}

/-- The second step of the elimination and the backward substitution. -/
theorem second_resid (hB : 1 / 2 ^ 200 ≤ B) (hC : 1 / 2 ^ 200 ≤ C) (hBC : B ≤ 2 ^ 400 * C) (jx jy jz : Fin 3)
    (hp : jx ≠ jy ∧ jx ≠ jz ∧ jy ≠ jz) (hs : ∀ i, i ≠ jx → |m i 1| ≤ B ∧ |m i 2| ≤ B ∧ |m i 3| ≤ C) (hpiv : |m jz 1| ≤ |m jy 1|)
    {B0 C0 : ℚ} (hC0 : 1 / 2 ^ 200 ≤ C0) (hBC0 : B0 ≤ 2 ^ 400 * C0) (hx : |m jx 0| ≤ B0 ∧ |m jx 1| ≤ B0 ∧ |m jx 2| ≤ B0)
    (h : (if !checked (m jy 1) eps8 then none else
      let m := addRowToAnotherF m jz jy (-m jz 1 ⊘ m jy 1)
      if !checked (m jz 2) eps8 then none else
      if !checked (m jy 1) eps8 then none else
      if !checked (m jx 0) eps8 then none else
      let x3 := m jz 3 ⊘ m jz 2
      let x2 := (m jy 3 ⊟ x3 ⊠ m jy 2) ⊘ m jy 1
      let x1 := (m jx 3 ⊟ x3 ⊠ m jx 2 ⊟ x2 ⊠ m jx 1) ⊘ m jx 0
      some (x1, x2, x3)) = some (x1, x2, x3)) :
    |m jx 0 * x1 + m jx 1 * x2 + m jx 2 * x3 - m jx 3| ≤ 5 * rowScale B0 C0 (|x1| + |x2| + |x3|) ∧
    |m jy 1 * x2 + m jy 2 * x3 - m jy 3| ≤ 5 * rowScale B C (|x1| + |x2| + |x3|) ∧
    |m jz 1 * x2 + m jz 2 * x3 - m jz 3| ≤ 20 * rowScale B C (|x1| + |x2| + |x3|) ∧ m jx 0 ≠ 0 := by
  have he8 : 0 < eps8 := by decide +kernel
  have hck : ∀ v : ℚ, ¬ (!checked v eps8) = true → v ≠ 0 := by
    intro v hv h0
    simp [checked, h0, abs_zero, he8] at hv
  split_ifs at h with c1
  dsimp only at h
  split_ifs at h with c2 c3 c4
  have n1 := hck _ c1
  have n2 := hck _ c2
  have n4 := hck _ c4
  obtain ⟨sy1, sy2, sy3⟩ := hs jy hp.1.symm
  obtain ⟨sz1, sz2, sz3⟩ := hs jz hp.2.1.symm
  obtain ⟨f1, f2⟩ := add_factor hB n1 sy1 hpiv
  set f := -m jz 1 ⊘ m jy 1 with hf
  set m2 := addRowToAnotherF m jz jy f with hm2
  have ey : ∀ k, m2 jy k = m jy k := by
    intro k; rw [hm2]; simp only [addRowToAnotherF]; rw [if_neg hp.2.2]
  have ex : ∀ k, m2 jx k = m jx k := by
    intro k; rw [hm2]; simp only [addRowToAnotherF]; rw [if_neg hp.2.1]
  have ez : ∀ k, m2 jz k = m jz k ⊞ f ⊠ m jy k := by
    intro k; rw [hm2]; simp only [addRowToAnotherF, if_true]
  rw [ex] at n4
  obtain ⟨a2, b2⟩ := add_entry hB sz2 sy2 f1
  obtain ⟨a3, b3⟩ := add_entry hC sz3 sy3 f1
  obtain ⟨e1, e23⟩ := Prod.mk.inj (Option.some.inj h)
  obtain ⟨e2, e3⟩ := Prod.mk.inj e23
  rw [e3] at e1 e2
  rw [e2] at e1
  simp only [ex, ey] at e1 e2
  have B0' : 0 ≤ B := le_trans (by positivity) hB
  have C0' : 0 ≤ C := le_trans (by positivity) hC
  have S1 : |x3| ≤ |x1| + |x2| + |x3| := by linarith [abs_nonneg x1, abs_nonneg x2]
  have S2 : |x2| + |x3| ≤ |x1| + |x2| + |x3| := by linarith [abs_nonneg x1]
  have r1 := row_resid hC0 hBC0 hx.1 hx.2.1 hx.2.2 n4 e1.symm
  have r2 := row_resid2 hC hBC sy1 sy2 n1 e2.symm
  have r2' : |m jy 1 * x2 + m jy 2 * x3 - m jy 3| ≤ 5 * rowScale B C (|x1| + |x2| + |x3|) := by
    linarith [rowScale_mono (C := C) B0' S2]
  refine ⟨r1, r2', ?_, n4⟩
  have r3 := row_resid1 (a2 := m2 jz 2) (b := m2 jz 3) (x3 := x3) (B := 201 / 100 * B) (C := 201 / 100 * C)
    (hC.trans (by linarith)) (by linarith) (by rw [ez]; exact b2) n2 (by rw [ez]; exact isF64_fl _) e3.symm
  rw [rowScale_mul, ez, ez] at r3
  have hb := row_back (a0 := m jz 1) (a1 := m jz 2) (a2 := 0) (a3 := m jz 3) (g0 := m jy 1) (g1 := m jy 2) (g2 := 0) (g3 := m jy 3)
    (n1 := m jz 2 ⊞ f ⊠ m jy 2) (n2 := 0) (n3 := m jz 3 ⊞ f ⊠ m jy 3) (x1 := x2) (x2 := x3) (x3 := 0) f1 f2 a2
    (by rw [mul_zero, add_zero, sub_zero, abs_zero]; positivity) a3
  have hsc : 4 * (B / 2 ^ 53) * (|x2| + |x3| + |0|) + 4 * (C / 2 ^ 53) = 4 * rowScale B C (|x2| + |x3|) := by
    unfold rowScale
    rw [abs_zero]
    ring
  simp only [mul_zero, add_zero] at hb
  rw [add_assoc, abs_zero, add_zero] at hb
  rw [abs_zero, add_zero] at hsc
  rw [hsc] at hb
  have := rowScale_mono (C := C) B0' S2
  have := rowScale_mono (C := C) B0' S1
  have : 0 ≤ rowScale B C (|x1| + |x2| + |x3|) := by unfold rowScale; positivity
  linarith

/-- The first step of the elimination. -/
theorem solve_perm_resid (hB : 1 / 2 ^ 200 ≤ B) (hC : 1 / 2 ^ 200 ≤ C) (hBC : B ≤ 2 ^ 400 * C) (hs : Sized m B C) (ix iy iz : Fin 3)
    (hp : ix ≠ iy ∧ ix ≠ iz ∧ iy ≠ iz) (hy : |m iy 0| ≤ |m ix 0|) (hz : |m iz 0| ≤ |m ix 0|)
    (h : (let m := addRowToAnotherF m iy ix (-m iy 0 ⊘ m ix 0)
      let m := addRowToAnotherF m iz ix (-m iz 0 ⊘ m ix 0)
      let (iy, iz) : Fin 3 × Fin 3 := if |m iz 1| > |m iy 1| then (iz, iy) else (iy, iz)
      if !checked (m iy 1) eps8 then none else
      let m := addRowToAnotherF m iz iy (-m iz 1 ⊘ m iy 1)
      if !checked (m iz 2) eps8 then none else
      if !checked (m iy 1) eps8 then none else
      if !checked (m ix 0) eps8 then none else
      let x3 := m iz 3 ⊘ m iz 2
      let x2 := (m iy 3 ⊟ x3 ⊠ m iy 2) ⊘ m iy 1
      let x1 := (m ix 3 ⊟ x3 ⊠ m ix 2 ⊟ x2 ⊠ m ix 1) ⊘ m ix 0
      some (x1, x2, x3)) = some (x1, x2, x3)) (i : Fin 3) :
    |m i 0 * x1 + m i 1 * x2 + m i 2 * x3 - m i 3| ≤ 50 * rowScale B C (|x1| + |x2| + |x3|) := by
  have B0 : 0 ≤ B := le_trans (by positivity) hB
  have C0 : 0 ≤ C := le_trans (by positivity) hC
  dsimp only at h
  set m1 := addRowToAnotherF m iy ix (-m iy 0 ⊘ m ix 0) with hm1
  set m2 := addRowToAnotherF m1 iz ix (-m1 iz 0 ⊘ m1 ix 0) with hm2
  have ex1 : ∀ k, m1 ix k = m ix k := by
    intro k; rw [hm1]; simp only [addRowToAnotherF]; rw [if_neg hp.1]
  have ez1 : ∀ k, m1 iz k = m iz k := by
    intro k; rw [hm1]; simp only [addRowToAnotherF]; rw [if_neg hp.2.2.symm]
  have ex : ∀ k, m2 ix k = m ix k := by
    intro k; rw [hm2]; simp only [addRowToAnotherF]; rw [if_neg hp.2.1, ex1]
  have ey : ∀ k, m2 iy k = m iy k ⊞ (-m iy 0 ⊘ m ix 0) ⊠ m ix k := by
    intro k; rw [hm2]; simp only [addRowToAnotherF]; rw [if_neg hp.2.2, hm1]; simp only [addRowToAnotherF, if_true]
  have ez : ∀ k, m2 iz k = m iz k ⊞ (-m iz 0 ⊘ m ix 0) ⊠ m ix k := by
    intro k; rw [hm2]; simp only [addRowToAnotherF, if_true]; rw [ez1, ez1, ex1, ex1]
  have hall : ∀ i : Fin 3, i = ix ∨ i = iy ∨ i = iz := by
    obtain ⟨p1, p2, p3⟩ := hp
    intro i
    omega
  have S0 := (abs_nonneg x1)
  have hr0 : 0 ≤ rowScale B C (|x1| + |x2| + |x3|) := by unfold rowScale; positivity
  -- the pivot is not zero
  by_cases hne : m ix 0 = 0
  · exfalso
    have bad : ∀ (jy jz : Fin 3), jz ≠ ix →
      (if !checked (m2 jy 1) eps8 then none else
      let m := addRowToAnotherF m2 jz jy (-m2 jz 1 ⊘ m2 jy 1)
      if !checked (m jz 2) eps8 then none else
      if !checked (m jy 1) eps8 then none else
      if !checked (m ix 0) eps8 then none else
      let x3 := m jz 3 ⊘ m jz 2
      let x2 := (m jy 3 ⊟ x3 ⊠ m jy 2) ⊘ m jy 1
      let x1 := (m ix 3 ⊟ x3 ⊠ m ix 2 ⊟ x2 ⊠ m ix 1) ⊘ m ix 0
      some (x1, x2, x3)) = some (x1, x2, x3) → False := by
      intro jy jz hjz he
      split_ifs at he with c1
      dsimp only at he
      split_ifs at he with c2 c3 c4
      apply c4
      simp only [addRowToAnotherF]
      rw [if_neg hjz.symm, ex, hne]
      decide +kernel
    by_cases c : |m2 iz 1| > |m2 iy 1|
    · rw [if_pos c] at h
      exact bad iz iy hp.1.symm h
    · rw [if_neg c] at h
      exact bad iy iz hp.2.1.symm h
  obtain ⟨sx0, sx1, sx2, sx3⟩ := hs ix
  obtain ⟨sy0, sy1, sy2, sy3⟩ := hs iy
  obtain ⟨sz0, sz1, sz2, sz3⟩ := hs iz
  obtain ⟨fy1, fy2⟩ := add_factor hB hne sx0 hy
  obtain ⟨fz1, fz2⟩ := add_factor hB hne sx0 hz
  obtain ⟨ay1, by1⟩ := add_entry hB sy1 sx1 fy1
  obtain ⟨ay2, by2⟩ := add_entry hB sy2 sx2 fy1
  obtain ⟨ay3, by3⟩ := add_entry hC sy3 sx3 fy1
  obtain ⟨az1, bz1⟩ := add_entry hB sz1 sx1 fz1
  obtain ⟨az2, bz2⟩ := add_entry hB sz2 sx2 fz1
  obtain ⟨az3, bz3⟩ := add_entry hC sz3 sx3 fz1
  have hs2 : ∀ i, i ≠ ix → |m2 i 1| ≤ 201 / 100 * B ∧ |m2 i 2| ≤ 201 / 100 * B ∧ |m2 i 3| ≤ 201 / 100 * C := by
    intro i hi
    rcases hall i with rfl | rfl | rfl
    · exact absurd rfl hi
    · rw [ey, ey, ey]; exact ⟨by1, by2, by3⟩
    · rw [ez, ez, ez]; exact ⟨bz1, bz2, bz3⟩
  have hx2 : |m2 ix 0| ≤ B ∧ |m2 ix 1| ≤ B ∧ |m2 ix 2| ≤ B := by
    rw [ex, ex, ex]; exact ⟨sx0, sx1, sx2⟩
  have key : |m ix 0 * x1 + m ix 1 * x2 + m ix 2 * x3 - m ix 3| ≤ 5 * rowScale B C (|x1| + |x2| + |x3|) ∧
      |m2 iy 1 * x2 + m2 iy 2 * x3 - m2 iy 3| ≤ 201 / 100 * 20 * rowScale B C (|x1| + |x2| + |x3|) ∧
      |m2 iz 1 * x2 + m2 iz 2 * x3 - m2 iz 3| ≤ 201 / 100 * 20 * rowScale B C (|x1| + |x2| + |x3|) := by
    by_cases c : |m2 iz 1| > |m2 iy 1|
    · rw [if_pos c] at h
      obtain ⟨k1, k2, k3, -⟩ := second_resid (B := 201 / 100 * B) (C := 201 / 100 * C) (hB.trans (by linarith)) (hC.trans (by linarith))
        (by linarith) ix iz iy ⟨hp.2.1, hp.1, hp.2.2.symm⟩ hs2 c.le hC hBC hx2 h
      rw [rowScale_mul] at k2 k3
      rw [ex, ex, ex, ex] at k1
      exact ⟨k1, by linarith, by linarith⟩
    · rw [if_neg c] at h
      obtain ⟨k1, k2, k3, -⟩ := second_resid (B := 201 / 100 * B) (C := 201 / 100 * C) (hB.trans (by linarith)) (hC.trans (by linarith))
        (by linarith) ix iy iz hp hs2 (not_lt.1 c) hC hBC hx2 h
      rw [rowScale_mul] at k2 k3
      rw [ex, ex, ex, ex] at k1
      exact ⟨k1, by linarith, by linarith⟩
  obtain ⟨k1, k2, k3⟩ := key
  have hsc : 4 * (B / 2 ^ 53) * (|x1| + |x2| + |x3|) + 4 * (C / 2 ^ 53) = 4 * rowScale B C (|x1| + |x2| + |x3|) := by
    unfold rowScale
    ring
  rcases hall i with rfl | rfl | rfl
  · linarith
  · rw [ey, ey, ey] at k2
    have := row_back (x1 := x1) (x2 := x2) (x3 := x3) fy1 fy2 ay1 ay2 ay3
    linarith
  · rw [ez, ez, ez] at k3
    have := row_back (x1 := x1) (x2 := x2) (x3 := x3) fz1 fz2 az1 az2 az3
    linarith

/-- What the solver returns solves the equations up to rounding errors. -/
theorem solve3x4F_resid (hB : 1 / 2 ^ 200 ≤ B) (hC : 1 / 2 ^ 200 ≤ C) (hBC : B ≤ 2 ^ 400 * C) (hs : Sized m B C)
    (h : solve3x4F m = some (x1, x2, x3)) (i : Fin 3) :
    |m i 0 * x1 + m i 1 * x2 + m i 2 * x3 - m i 3| ≤ 50 * rowScale B C (|x1| + |x2| + |x3|) := by
  unfold solve3x4F at h
  by_cases c1 : |m 1 0| > |m 0 0|
  · rw [if_pos c1] at h
    by_cases c2 : |m 2 0| > |m 1 0|
    · dsimp only at h
      rw [if_pos c2] at h
      exact solve_perm_resid hB hC hBC hs 2 0 1 (by decide) (c1.trans c2).le c2.le h i
    · dsimp only at h
      rw [if_neg c2] at h
      exact solve_perm_resid hB hC hBC hs 1 0 2 (by decide) c1.le (not_lt.1 c2) h i
  · rw [if_neg c1] at h
    by_cases c2 : |m 2 0| > |m 0 0|
    · dsimp only at h
      rw [if_pos c2] at h
      exact solve_perm_resid hB hC hBC hs 2 0 1 (by decide) c2.le ((not_lt.1 c1).trans c2.le) h i
    · dsimp only at h
      rw [if_neg c2] at h
      exact solve_perm_resid hB hC hBC hs 0 1 2 (by decide) (not_lt.1 c1) (not_lt.1 c2) h i

end

end Verif.Rounding
