import Verif.Rounding.AbsorbModel
import Verif.Rounding.BinaryProps
import Mathlib.Analysis.SpecialFunctions.Exp
import Mathlib.Data.Int.LeastGreatest
import Mathlib.Data.Int.Log

/-!
# C136: absorption in `f64`
-/

namespace Verif.Rounding

/-- What the theorems need of `f64::exp`: the results are of type f64 and not negative, the function is monotone, exact at zero,
and right up to one unit in the last place unless the result is tiny. -/
structure ExpOk (exp : ℚ → ℚ) : Prop where
  f64 : ∀ x, IsF64 (exp x)
  nonneg : ∀ x, 0 ≤ exp x
  mono : ∀ x y, x ≤ y → exp x ≤ exp y
  zero : exp 0 = 1
  near : ∀ x : ℚ, (1 : ℝ) / 2 ^ 1000 ≤ Real.exp x → |(exp x : ℝ) - Real.exp x| ≤ 1 / 2 ^ 52 * Real.exp x

/-- An error of at most half a unit in the last place of a number that is at least as large. -/
theorem fl_err_of_le {x r : ℚ} (hx : 0 ≤ x) (hxr : x ≤ r) (hr : (2 : ℚ) ^ (-1000 : ℤ) ≤ r) :
    |fl x - x| ≤ (2 : ℚ) ^ (-53 : ℤ) * r := by
  by_cases h : (2 : ℚ) ^ (-1022 : ℤ) ≤ x
  · refine (fl_rel (by rwa [abs_of_nonneg hx])).trans ?_
    rw [abs_of_nonneg hx]
    exact mul_le_mul_of_nonneg_left hxr (two_zpow_pos _).le
  · have h1 := fl_err (x := x) (k := -1021) (by
      rw [abs_of_nonneg hx]
      exact (not_le.1 h).le.trans (two_zpow_le (by norm_num))) le_rfl
    refine h1.trans ?_
    refine (two_zpow_le (show (-1021 - 54 : ℤ) ≤ -53 + -1000 by norm_num)).trans ?_
    rw [two_zpow_add]
    exact mul_le_mul_of_nonneg_left hr (two_zpow_pos _).le

theorem zpow_le_half {a b : ℤ} (h : a + 1 ≤ b) : (2 : ℚ) ^ a ≤ 1 / 2 * (2 : ℚ) ^ b := by
  have := two_zpow_le h
  rw [two_zpow_add, zpow_one] at this
  linarith

theorem neutralDensityF_nonneg {density x : ℚ} (hd : 0 ≤ density) (hx : x ≤ 1) : 0 ≤ neutralDensityF density x :=
  fl_nonneg (mul_nonneg (fl_nonneg (div_nonneg hd (by decide +kernel))) (fl_nonneg (by linarith)))

theorem argument_eq (density x size : ℚ) :
    (-neutralDensityF density x ⊠ sigmaF) ⊠ size = -((neutralDensityF density x ⊠ sigmaF) ⊠ size) := by
  show fl (fl (-neutralDensityF density x * sigmaF) * size) = -fl (fl (neutralDensityF density x * sigmaF) * size)
  rw [neg_mul, fl_neg, neg_mul, fl_neg]

theorem depthF_nonneg {density x size : ℚ} (hd : 0 ≤ density) (hx : x ≤ 1) (hs : 0 ≤ size) :
    0 ≤ (neutralDensityF density x ⊠ sigmaF) ⊠ size :=
  fl_nonneg (mul_nonneg (fl_nonneg (mul_nonneg (neutralDensityF_nonneg hd hx) (by decide +kernel))) hs)

theorem passedF_range {exp : ℚ → ℚ} (E : ExpOk exp) {density x size : ℚ} (hd : 0 ≤ density) (hx : x ≤ 1) (hs : 0 ≤ size) :
    0 ≤ passedF exp density x size ∧ passedF exp density x size ≤ 1 := by
  refine ⟨E.nonneg _, ?_⟩
  rw [← E.zero]
  refine E.mono _ _ ?_
  rw [argument_eq]
  linarith [depthF_nonneg hd hx hs]

/-- **No photons are created**: the outgoing rate is a number of type f64 between zero and the incoming rate, it is zero below
the threshold, and equal to the incoming rate if all atoms are ionised. -/
theorem outgoing_range_f64 {exp : ℚ → ℚ} (E : ExpOk exp) {threshold density x size rate : ℚ} (hd : 0 ≤ density) (hx : x ≤ 1)
    (hs : 0 ≤ size) (h64 : IsF64 rate) (hr : 0 ≤ rate) :
    IsF64 (outgoingRateF exp threshold density x size rate) ∧ 0 ≤ outgoingRateF exp threshold density x size rate ∧
      outgoingRateF exp threshold density x size rate ≤ rate ∧
      (rate < threshold → outgoingRateF exp threshold density x size rate = 0) ∧
      (threshold ≤ rate → x = 1 → outgoingRateF exp threshold density x size rate = rate) := by
  obtain ⟨p0, p1⟩ := passedF_range E hd hx hs
  unfold outgoingRateF
  split_ifs with h
  · exact ⟨by decide +kernel, le_rfl, hr, fun _ => rfl, fun h' => absurd h (not_lt.2 h')⟩
  · refine ⟨isF64_fl _, fl_nonneg (mul_nonneg hr p0), fl_le h64 (by nlinarith), fun h' => absurd h' h, fun _ hx1 => ?_⟩
    have : passedF exp density x size = 1 := by
      unfold passedF
      rw [argument_eq]
      have : neutralDensityF density x = 0 := by
        unfold neutralDensityF
        rw [hx1]
        show fl (_ * fl (1 - 1)) = 0
        rw [sub_self, fl_zero, mul_zero, fl_zero]
      rw [this]
      show exp (-fl (fl (0 * sigmaF) * size)) = 1
      rw [zero_mul, fl_zero, zero_mul, fl_zero, neg_zero, E.zero]
    rw [this]
    show fl (rate * 1) = rate
    rw [mul_one]
    exact h64

/-- **More atoms never let more photons pass**: a denser, larger or less ionised cell. -/
theorem outgoing_mono_f64 {exp : ℚ → ℚ} (E : ExpOk exp) {threshold density density' x x' size size' rate : ℚ} (hd : 0 ≤ density)
    (hdd : density ≤ density') (hx : x' ≤ x) (hx1 : x ≤ 1) (hs : 0 ≤ size) (hss : size ≤ size') (hr : 0 ≤ rate) :
    outgoingRateF exp threshold density' x' size' rate ≤ outgoingRateF exp threshold density x size rate := by
  unfold outgoingRateF
  split_ifs
  · exact le_rfl
  · refine fl_mono (mul_le_mul_of_nonneg_left ?_ hr)
    unfold passedF
    refine E.mono _ _ ?_
    rw [argument_eq, argument_eq, neg_le_neg_iff]
    have hn : neutralDensityF density x ≤ neutralDensityF density' x' := by
      refine fl_mono (mul_le_mul (fl_mono ?_) (fl_mono (by linarith)) (fl_nonneg (by linarith)) (fl_nonneg (div_nonneg (hd.trans hdd) (by decide +kernel))))
      exact div_le_div_of_nonneg_right hdd (by decide +kernel)
    have hsig : (0 : ℚ) ≤ sigmaF := by decide +kernel
    refine fl_mono (mul_le_mul (fl_mono (mul_le_mul_of_nonneg_right hn hsig)) hss hs ?_)
    exact fl_nonneg (mul_nonneg ((neutralDensityF_nonneg hd hx1).trans hn) hsig)

theorem mul_step {a A b : ℚ} {k : ℚ} (ha : 0 ≤ a) (hb : 0 ≤ b) (hk : 0 ≤ k) (hk1 : k ≤ 2 ^ 51)
    (hA : |A - a| ≤ k / 2 ^ 52 * a) (hab : (2 : ℚ) ^ (-1000 : ℤ) ≤ a * b) : |fl (A * b) - a * b| ≤ (k + 1) / 2 ^ 52 * (a * b) := by
  have h1 : |A * b - a * b| ≤ k / 2 ^ 52 * (a * b) := by
    rw [← sub_mul, abs_mul, abs_of_nonneg hb, ← mul_assoc]
    exact mul_le_mul_of_nonneg_right hA hb
  have hq : k / 2 ^ 52 ≤ 1 / 2 := by
    rw [div_le_div_iff₀ (by norm_num) (by norm_num)]
    norm_num at hk1 ⊢
    linarith
  have hab0 : 0 ≤ a * b := mul_nonneg ha hb
  have h2 : k / 2 ^ 52 * (a * b) ≤ 1 / 2 * (a * b) := mul_le_mul_of_nonneg_right hq hab0
  have h3 := abs_le.1 h1
  have hle : (2 : ℚ) ^ (-1022 : ℤ) ≤ |A * b| := by
    have h4 : (2 : ℚ) ^ (-1022 : ℤ) ≤ 1 / 2 * (2 : ℚ) ^ (-1000 : ℤ) := zpow_le_half (by norm_num)
    refine le_trans ?_ (le_abs_self _)
    linarith
  have h5 := fl_rel hle
  have h6 : |A * b| ≤ 2 * (a * b) := abs_le.2 ⟨by linarith, by linarith⟩
  have h7 : (2 : ℚ) ^ (-53 : ℤ) * |A * b| ≤ 1 / 2 ^ 52 * (a * b) := by
    refine (mul_le_mul_of_nonneg_left h6 (two_zpow_pos _).le).trans (le_of_eq ?_)
    norm_num
    ring
  have h8 := abs_sub_le (fl (A * b)) (A * b) (a * b)
  rw [add_div, add_mul, add_comm (k / 2 ^ 52 * (a * b))]
  exact h8.trans (add_le_add (h5.trans h7) h1)

/-- The optical depth of a cell: the mass of a proton is `1.67262192369e-27` kg and the cross section `2.9580524545305314e-18` square
centimetres. -/
def opticalDepth (density x size : ℚ) : ℚ :=
  density / (167262192369 / 10 ^ 38) * (1 - x) * (29580524545305314 / 10 ^ 34 / 10 ^ 4) * size

/-- The optical depth with the constants of the program. -/
def roundedDepth (density x size : ℚ) : ℚ := density / protonMassF * (1 - x) * sigmaF * size

theorem roundedDepth_near {density x size : ℚ} (h : 0 ≤ opticalDepth density x size) :
    |roundedDepth density x size - opticalDepth density x size| ≤ 1 / 2 ^ 50 * opticalDepth density x size := by
  have hm : protonMassF ≠ 0 := by decide +kernel
  obtain ⟨c, hc⟩ : ∃ c : ℚ, c = 167262192369 / 10 ^ 38 / protonMassF * (sigmaF / (29580524545305314 / 10 ^ 34 / 10 ^ 4)) := ⟨_, rfl⟩
  have e : roundedDepth density x size = opticalDepth density x size * c := by
    rw [hc]
    unfold roundedDepth opticalDepth
    generalize sigmaF = S
    generalize protonMassF = m at *
    field_simp
  have hb : |c - 1| ≤ 1 / 2 ^ 50 := by
    rw [hc]
    decide +kernel
  have e2 : opticalDepth density x size * c - opticalDepth density x size = (c - 1) * opticalDepth density x size := by ring
  rw [e, e2, abs_mul, abs_of_nonneg h]
  exact mul_le_mul_of_nonneg_right hb h

theorem depthF_accurate {density x size : ℚ} (hd : 0 ≤ density) (hx : x ≤ 1) (hs : 0 ≤ size)
    (u1 : (2 : ℚ) ^ (-1000 : ℤ) ≤ density / protonMassF) (u2 : (2 : ℚ) ^ (-1000 : ℤ) ≤ 1 - x)
    (u3 : (2 : ℚ) ^ (-1000 : ℤ) ≤ density / protonMassF * (1 - x))
    (u4 : (2 : ℚ) ^ (-1000 : ℤ) ≤ density / protonMassF * (1 - x) * sigmaF)
    (u5 : (2 : ℚ) ^ (-1000 : ℤ) ≤ roundedDepth density x size) :
    |(neutralDensityF density x ⊠ sigmaF) ⊠ size - roundedDepth density x size| ≤ 1 / 2 ^ 49 * roundedDepth density x size := by
  have hm : (0 : ℚ) < protonMassF := by decide +kernel
  have hsig : (0 : ℚ) ≤ sigmaF := by decide +kernel
  have hn0 : 0 ≤ 1 - x := by linarith
  have hd0 : 0 ≤ density / protonMassF := div_nonneg hd hm.le
  have hz : (2 : ℚ) ^ (-1022 : ℤ) ≤ (2 : ℚ) ^ (-1000 : ℤ) := two_zpow_le (by norm_num)
  have r1 := fl_rel (x := density / protonMassF) (by rw [abs_of_nonneg hd0]; exact hz.trans u1)
  have r2 := fl_rel (x := 1 - x) (by rw [abs_of_nonneg hn0]; exact hz.trans u2)
  rw [abs_of_nonneg hd0] at r1
  rw [abs_of_nonneg hn0] at r2
  -- the product with the rounded fraction
  have r3 := mul_step (k := 1 / 2) (A := fl (density / protonMassF)) hd0 hn0 (by norm_num) (by norm_num) (by
    refine r1.trans (le_of_eq ?_)
    norm_num) u3
  obtain ⟨A, hA⟩ : ∃ A, A = fl (density / protonMassF) := ⟨_, rfl⟩
  obtain ⟨N, hN⟩ : ∃ N, N = fl (1 - x) := ⟨_, rfl⟩
  obtain ⟨a, ha⟩ : ∃ a, a = density / protonMassF := ⟨_, rfl⟩
  obtain ⟨b, hb⟩ : ∃ b, b = 1 - x := ⟨_, rfl⟩
  have e3 : |A * N - a * b| ≤ 3 / 2 / 2 ^ 52 * (a * b) := by
    rw [← hA, ← ha] at r1
    rw [← hN, ← hb] at r2
    rw [← ha] at hd0
    rw [← hb] at hn0
    have e : A * N - a * b = (A - a) * (N - b) + (A - a) * b + a * (N - b) := by ring
    have t1 : |(A - a) * (N - b)| ≤ (2 : ℚ) ^ (-53 : ℤ) * a * ((2 : ℚ) ^ (-53 : ℤ) * b) := by
      rw [abs_mul]
      exact mul_le_mul r1 r2 (abs_nonneg _) (mul_nonneg (two_zpow_pos _).le hd0)
    have t2 : |(A - a) * b| ≤ (2 : ℚ) ^ (-53 : ℤ) * a * b := by
      rw [abs_mul, abs_of_nonneg hn0]
      exact mul_le_mul_of_nonneg_right r1 hn0
    have t3 : |a * (N - b)| ≤ a * ((2 : ℚ) ^ (-53 : ℤ) * b) := by
      rw [abs_mul, abs_of_nonneg hd0]
      exact mul_le_mul_of_nonneg_left r2 hd0
    have hab : 0 ≤ a * b := mul_nonneg hd0 hn0
    have t4 : (2 : ℚ) ^ (-53 : ℤ) * a * ((2 : ℚ) ^ (-53 : ℤ) * b) + (2 : ℚ) ^ (-53 : ℤ) * a * b + a * ((2 : ℚ) ^ (-53 : ℤ) * b) =
        ((2 : ℚ) ^ (-53 : ℤ) * (2 : ℚ) ^ (-53 : ℤ) + 2 * (2 : ℚ) ^ (-53 : ℤ)) * (a * b) := by ring
    rw [e]
    refine (abs_add_three _ _ _).trans ?_
    refine (add_le_add (add_le_add t1 t2) t3).trans ?_
    rw [t4]
    refine mul_le_mul_of_nonneg_right ?_ hab
    norm_num
  have hab : 0 ≤ a * b := mul_nonneg (ha ▸ hd0) (hb ▸ hn0)
  rw [← ha, ← hb] at u3 u4
  have s2 := mul_step (k := 3 / 2) (A := A * N) (b := 1) hab zero_le_one (by norm_num) (by norm_num) e3 (by rwa [mul_one])
  rw [mul_one, mul_one] at s2
  have s3 := mul_step (k := 3 / 2 + 1) hab hsig (by norm_num) (by norm_num) s2 u4
  have s4 := mul_step (k := 3 / 2 + 1 + 1) (b := size) (mul_nonneg hab hsig) hs (by norm_num) (by norm_num) s3 (by
    unfold roundedDepth at u5
    rw [← ha, ← hb] at u5
    exact u5)
  have e1 : (neutralDensityF density x ⊠ sigmaF) ⊠ size = fl (fl (fl (A * N) * sigmaF) * size) := by
    rw [hA, hN]
    rfl
  have e2 : roundedDepth density x size = a * b * sigmaF * size := by
    rw [ha, hb]
    rfl
  rw [e1, e2]
  refine s4.trans (mul_le_mul_of_nonneg_right ?_ (mul_nonneg (mul_nonneg hab hsig) hs))
  norm_num

/-- **The absorption is accurate**: the outgoing rate is that of an optical depth which is right up to a relative `2 ^ -48`, up to
a relative `2 ^ -51`. -/
theorem outgoing_accurate_f64 {exp : ℚ → ℚ} (E : ExpOk exp) {threshold density x size rate : ℚ} (hd : 0 ≤ density) (hx : x ≤ 1)
    (hs : 0 ≤ size) (hr : threshold ≤ rate) (hr0 : 0 ≤ rate)
    (u1 : (2 : ℚ) ^ (-1000 : ℤ) ≤ density / protonMassF) (u2 : (2 : ℚ) ^ (-1000 : ℤ) ≤ 1 - x)
    (u3 : (2 : ℚ) ^ (-1000 : ℤ) ≤ density / protonMassF * (1 - x))
    (u4 : (2 : ℚ) ^ (-1000 : ℤ) ≤ density / protonMassF * (1 - x) * sigmaF)
    (u5 : (2 : ℚ) ^ (-1000 : ℤ) ≤ roundedDepth density x size) :
    ∃ depth : ℚ, |depth - opticalDepth density x size| ≤ 1 / 2 ^ 48 * opticalDepth density x size ∧
      ((1 : ℝ) / 2 ^ 1000 ≤ Real.exp (-depth) → (1 : ℝ) / 2 ^ 1000 ≤ rate * Real.exp (-depth) →
        |(outgoingRateF exp threshold density x size rate : ℝ) - rate * Real.exp (-depth)| ≤ 1 / 2 ^ 51 * (rate * Real.exp (-depth))) := by
  refine ⟨(neutralDensityF density x ⊠ sigmaF) ⊠ size, ?_, fun v1 v2 => ?_⟩
  · have h1 := depthF_accurate hd hx hs u1 u2 u3 u4 u5
    have h0 : 0 ≤ opticalDepth density x size := by
      unfold opticalDepth
      have : 0 ≤ 1 - x := by linarith
      positivity
    have h2 := roundedDepth_near h0
    have h3 := abs_le.1 h1
    have h4 := abs_le.1 h2
    rw [abs_le]
    norm_num at h3 h4 ⊢
    constructor <;> linarith [h3.1, h3.2, h4.1, h4.2]
  unfold outgoingRateF
  rw [if_neg (not_lt.2 hr)]
  unfold passedF
  rw [argument_eq]
  generalize (neutralDensityF density x ⊠ sigmaF) ⊠ size = t at *
  have hc : (((-t : ℚ) : ℝ)) = -(t : ℝ) := by push_cast; rfl
  have h1 := E.near (-t) (by rw [hc]; exact v1)
  rw [hc] at h1
  obtain ⟨e, he⟩ : ∃ e, e = exp (-t) := ⟨_, rfl⟩
  have he0 : 0 ≤ e := he ▸ E.nonneg _
  rw [← he] at h1 ⊢
  obtain ⟨y, hy⟩ : ∃ y, y = Real.exp (-(t : ℝ)) := ⟨_, rfl⟩
  rw [← hy] at h1 v1 v2 ⊢
  have hrR : (0 : ℝ) ≤ rate := by exact_mod_cast hr0
  have h2 : |(rate : ℝ) * e - rate * y| ≤ 1 / 2 ^ 52 * (rate * y) := by
    rw [← mul_sub, abs_mul, abs_of_nonneg hrR]
    calc (rate : ℝ) * |(e : ℝ) - y| ≤ rate * (1 / 2 ^ 52 * y) := mul_le_mul_of_nonneg_left h1 hrR
      _ = _ := by ring
  have h3 := abs_le.1 h2
  obtain ⟨w, hw⟩ : ∃ w, w = (rate : ℝ) * y := ⟨_, rfl⟩
  rw [← hw] at h2 h3 v2 ⊢
  have hw0 : (0 : ℝ) < w := lt_of_lt_of_le (by positivity) v2
  have hlow : (2 : ℚ) ^ (-1022 : ℤ) ≤ |rate * e| := by
    rw [abs_of_nonneg (mul_nonneg hr0 he0)]
    have : (((2 : ℚ) ^ (-1022 : ℤ) : ℚ) : ℝ) ≤ ((rate * e : ℚ) : ℝ) := by
      have e1 : (((2 : ℚ) ^ (-1022 : ℤ) : ℚ) : ℝ) = 1 / 2 ^ 22 * (1 / 2 ^ 1000) := by
        push_cast
        rw [zpow_neg, show (1022 : ℤ) = ((22 + 1000 : ℕ) : ℤ) by norm_num, zpow_natCast, pow_add, mul_inv]
        simp only [one_div]
      rw [e1]
      push_cast
      have : (1 : ℝ) / 2 ^ 22 * (1 / 2 ^ 1000) ≤ 1 / 2 ^ 22 * w := mul_le_mul_of_nonneg_left v2 (by positivity)
      have h4 : (1 : ℝ) / 2 ^ 22 * w ≤ w - 1 / 2 ^ 52 * w := by
        have : (1 : ℝ) / 2 ^ 22 ≤ 1 - 1 / 2 ^ 52 := by norm_num
        nlinarith
      linarith
    exact_mod_cast this
  have h5 := fl_rel hlow
  rw [abs_of_nonneg (mul_nonneg hr0 he0)] at h5
  have h6 : |((rate ⊠ e : ℚ) : ℝ) - rate * e| ≤ 1 / 2 ^ 53 * (rate * e) := by
    have : ((|fl (rate * e) - rate * e| : ℚ) : ℝ) ≤ (((2 : ℚ) ^ (-53 : ℤ) * (rate * e) : ℚ) : ℝ) := by exact_mod_cast h5
    push_cast at this
    refine this.trans (le_of_eq ?_)
    norm_num
  have h7 := abs_sub_le ((rate ⊠ e : ℚ) : ℝ) (rate * e) w
  have h8 : (rate : ℝ) * e ≤ 3 / 2 * w := by
    have : (1 : ℝ) / 2 ^ 52 ≤ 1 / 2 := by norm_num
    nlinarith [h3.2]
  have h9 : (1 : ℝ) / 2 ^ 53 * (rate * e) ≤ 1 / 2 ^ 53 * (3 / 2 * w) := mul_le_mul_of_nonneg_left h8 (by positivity)
  have h10 : (1 : ℝ) / 2 ^ 53 * (3 / 2 * w) + 1 / 2 ^ 52 * w ≤ 1 / 2 ^ 51 * w := by
    have : (1 : ℝ) / 2 ^ 53 * (3 / 2 * w) + 1 / 2 ^ 52 * w = (1 / 2 ^ 53 * (3 / 2) + 1 / 2 ^ 52) * w := by ring
    rw [this]
    refine mul_le_mul_of_nonneg_right ?_ hw0.le
    norm_num
  linarith

/-- **Absorbed photons and ionisations agree in `f64`**: with incoming rates `rates` in the directions, none below the
threshold, and their computed sum `total`, the atoms ionised in a time step are the photons removed from the passing radiation, up to four
units of roundoff and the error of the sum. They are not negative and at most the photons which come in. -/
theorem ionised_absorbed_f64 {exp : ℚ → ℚ} (E : ExpOk exp) {threshold density x size total timestep : ℚ} {rates : List ℚ}
    (hd : 0 ≤ density) (hx : x ≤ 1) (hs : 0 ≤ size) (hr : ∀ r ∈ rates, threshold ≤ r ∧ (r = 0 ∨ (2 : ℚ) ^ (-1000 : ℤ) ≤ r))
    (ht : 0 ≤ timestep) (htot : 0 ≤ total) (hn : timestep * total = 0 ∨ (2 : ℚ) ^ (-900 : ℤ) ≤ timestep * total) :
    0 ≤ newlyIonizedF exp density x size total timestep ∧ newlyIonizedF exp density x size total timestep ≤ timestep ⊠ total ∧
    |newlyIonizedF exp density x size total timestep - timestep * (rates.map fun r => r - outgoingRateF exp threshold density x size r).sum| ≤
      timestep * (|total - rates.sum| + 1 / 2 ^ 51 * total + 1 / 2 ^ 53 * rates.sum) := by
  obtain ⟨p0, p1⟩ := passedF_range E hd hx hs
  have hsum : |(rates.map fun r => r - outgoingRateF exp threshold density x size r).sum - rates.sum * (1 - passedF exp density x size)| ≤
      1 / 2 ^ 53 * rates.sum := by
    have hout : ∀ r ∈ rates, outgoingRateF exp threshold density x size r = fl (r * passedF exp density x size) := fun r h => by
      unfold outgoingRateF
      rw [if_neg (not_lt.2 (hr r h).1)]
      rfl
    generalize passedF exp density x size = e at *
    generalize (fun r => outgoingRateF exp threshold density x size r) = out at *
    clear hn htot
    induction rates with
    | nil => simp
    | cons r rest ih =>
      have ih' := ih (fun r h => hr r (List.mem_cons_of_mem _ h)) (fun r h => hout r (List.mem_cons_of_mem _ h))
      rw [List.map_cons, List.sum_cons, List.sum_cons, hout r List.mem_cons_self]
      have h1 : |fl (r * e) - r * e| ≤ 1 / 2 ^ 53 * r := by
        rcases (hr r List.mem_cons_self).2 with h | h
        · rw [h, zero_mul, fl_zero]
          norm_num
        · have hr0 : 0 ≤ r := (two_zpow_pos _).le.trans h
          refine (fl_err_of_le (mul_nonneg hr0 p0) (by nlinarith) h).trans (le_of_eq ?_)
          norm_num
      have h2 := abs_le.1 h1
      have h3 := abs_le.1 ih'
      rw [abs_le]
      constructor <;> nlinarith
  unfold newlyIonizedF
  have n0 : 0 ≤ timestep ⊠ total := fl_nonneg (mul_nonneg ht htot)
  generalize passedF exp density x size = e at *
  have f0 : 0 ≤ 1 ⊟ e := fl_nonneg (by linarith)
  have f1 : 1 ⊟ e ≤ 1 := fl_le (by decide +kernel) (by linarith)
  have h64 : IsF64 (timestep ⊠ total) := isF64_fl _
  refine ⟨fl_nonneg (mul_nonneg n0 f0), fl_le h64 (by nlinarith), ?_⟩
  have hfe : |(1 ⊟ e) - (1 - e)| ≤ 1 / 2 ^ 53 := by
    refine (fl_err_of_le (by linarith) (show 1 - e ≤ 1 by linarith) (by
      rw [show (1 : ℚ) = (2 : ℚ) ^ (0 : ℤ) by norm_num]
      exact two_zpow_le (by norm_num))).trans (le_of_eq ?_)
    norm_num
  have hmain : |(timestep ⊠ total) ⊠ (1 ⊟ e) - timestep * total * (1 - e)| ≤ 1 / 2 ^ 51 * (timestep * total) := by
    rcases hn with h | h
    · have : timestep ⊠ total = 0 := by
        show fl (timestep * total) = 0
        rw [h, fl_zero]
      rw [this, h]
      show |fl (0 * _) - _| ≤ _
      rw [zero_mul, fl_zero]
      norm_num
    · have hP0 : 0 ≤ timestep * total := mul_nonneg ht htot
      have hz : (2 : ℚ) ^ (-1022 : ℤ) ≤ (2 : ℚ) ^ (-900 : ℤ) := two_zpow_le (by norm_num)
      have r1 := fl_rel (x := timestep * total) (by rw [abs_of_nonneg hP0]; exact hz.trans h)
      rw [abs_of_nonneg hP0] at r1
      obtain ⟨P, hP⟩ : ∃ P, P = timestep * total := ⟨_, rfl⟩
      have hQ' : timestep ⊠ total = fl P := by rw [hP]; rfl
      rw [hQ'] at n0 ⊢
      rw [← hP] at h hP0 r1 ⊢
      obtain ⟨Q, hQ⟩ : ∃ Q, Q = fl P := ⟨_, rfl⟩
      rw [← hQ] at n0 r1 ⊢
      obtain ⟨F, hF⟩ : ∃ F, F = 1 ⊟ e := ⟨_, rfl⟩
      rw [← hF] at f0 f1 hfe ⊢
      have e53 : (2 : ℚ) ^ (-53 : ℤ) = 1 / 2 ^ 53 := by norm_num
      rw [e53] at r1
      have r1' := abs_le.1 r1
      have hQ1 : (2 : ℚ) ^ (-1000 : ℤ) ≤ Q := by
        have h4 : (2 : ℚ) ^ (-1000 : ℤ) ≤ 1 / 2 * (2 : ℚ) ^ (-900 : ℤ) := zpow_le_half (by norm_num)
        have h5 : (1 : ℚ) / 2 ^ 53 * P ≤ 1 / 2 * P := mul_le_mul_of_nonneg_right (by norm_num) hP0
        generalize (2 : ℚ) ^ (-1000 : ℤ) = z at *
        linarith [r1'.1]
      have r2 := fl_err_of_le (x := Q * F) (r := Q) (mul_nonneg n0 f0) (by nlinarith) hQ1
      rw [e53] at r2
      have hQ2 : Q ≤ 3 / 2 * P := by
        have h5 : (1 : ℚ) / 2 ^ 53 * P ≤ 1 / 2 * P := mul_le_mul_of_nonneg_right (by norm_num) hP0
        linarith [r1'.2]
      have t1 : |Q * F - P * F| ≤ 1 / 2 ^ 53 * P := by
        rw [← sub_mul, abs_mul, abs_of_nonneg f0]
        exact (mul_le_of_le_one_right (abs_nonneg _) f1).trans r1
      have t2 : |P * F - P * (1 - e)| ≤ 1 / 2 ^ 53 * P := by
        rw [← mul_sub, abs_mul, abs_of_nonneg hP0, mul_comm]
        exact mul_le_mul_of_nonneg_right hfe hP0
      show |fl (Q * F) - P * (1 - e)| ≤ _
      have t3 := abs_sub_le (fl (Q * F)) (Q * F) (P * (1 - e))
      have t4 := abs_sub_le (Q * F) (P * F) (P * (1 - e))
      have t5 : (1 : ℚ) / 2 ^ 53 * Q ≤ 1 / 2 ^ 53 * (3 / 2 * P) := mul_le_mul_of_nonneg_left hQ2 (by norm_num)
      have t6 : (1 : ℚ) / 2 ^ 53 * (3 / 2 * P) + 1 / 2 ^ 53 * P + 1 / 2 ^ 53 * P ≤ 1 / 2 ^ 51 * P := by
        have : (1 : ℚ) / 2 ^ 53 * (3 / 2 * P) + 1 / 2 ^ 53 * P + 1 / 2 ^ 53 * P = (1 / 2 ^ 53 * (7 / 2)) * P := by ring
        rw [this]
        exact mul_le_mul_of_nonneg_right (by norm_num) hP0
      linarith
  obtain ⟨S, hS⟩ : ∃ S, S = (rates.map fun r => r - outgoingRateF exp threshold density x size r).sum := ⟨_, rfl⟩
  rw [← hS] at hsum ⊢
  have k1 : |timestep * total * (1 - e) - timestep * S| ≤ timestep * (|total - rates.sum| + 1 / 2 ^ 53 * rates.sum) := by
    rw [mul_assoc, ← mul_sub, abs_mul, abs_of_nonneg ht]
    refine mul_le_mul_of_nonneg_left ?_ ht
    have k2 := abs_sub_le (total * (1 - e)) (rates.sum * (1 - e)) S
    have k3 : |total * (1 - e) - rates.sum * (1 - e)| ≤ |total - rates.sum| := by
      rw [← sub_mul, abs_mul, abs_of_nonneg (show 0 ≤ 1 - e by linarith)]
      exact mul_le_of_le_one_right (abs_nonneg _) (by linarith)
    rw [abs_sub_comm] at hsum
    linarith
  have k4 := abs_sub_le ((timestep ⊠ total) ⊠ (1 ⊟ e)) (timestep * total * (1 - e)) (timestep * S)
  rw [mul_add, mul_add]
  rw [mul_add] at k1
  have k5 : timestep * (1 / 2 ^ 51 * total) = 1 / 2 ^ 51 * (timestep * total) := by ring
  rw [k5]
  linarith

/-- **Cells which are optically thin take no part**: an `exp` which rounds to nearest is one for arguments down to `-2 ^ -54`. Then
all photons pass and no atom is ionised, however long it takes. -/
theorem thin_cell {exp : ℚ → ℚ} (hexp : ∀ t, 0 ≤ t → t ≤ 1 / 2 ^ 54 → exp (-t) = 1) {threshold density x size rate : ℚ}
    (hd : 0 ≤ density) (hx : x ≤ 1) (hs : 0 ≤ size) (hthin : (neutralDensityF density x ⊠ sigmaF) ⊠ size ≤ 1 / 2 ^ 54)
    (h64 : IsF64 rate) (hr : threshold ≤ rate) (timestep : ℚ) :
    outgoingRateF exp threshold density x size rate = rate ∧ newlyIonizedF exp density x size rate timestep = 0 := by
  have hp : passedF exp density x size = 1 := by
    unfold passedF
    rw [argument_eq]
    exact hexp _ (depthF_nonneg hd hx hs) hthin
  constructor
  · unfold outgoingRateF
    rw [if_neg (not_lt.2 hr), hp]
    show fl (rate * 1) = rate
    rw [mul_one]
    exact h64
  · unfold newlyIonizedF
    rw [hp]
    show fl (_ * fl (1 - 1)) = 0
    rw [sub_self, fl_zero, mul_zero, fl_zero]

end Verif.Rounding
