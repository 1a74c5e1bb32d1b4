import Verif.Rounding.KeyModel
import Verif.Rounding.ErrorLemmas
import Verif.Rounding.BinaryProps
import Verif.Peano.Props2d
import Verif.Peano.Props3d

/-!
# Theorems about keys of positions in `f64`
-/

namespace Verif.Rounding

/-! ### Specification -/

/-- A side of a box in `f64` whose ends are at most `M` side lengths away from the origin. -/
structure Side (M lo hi : ℚ) : Prop where
  lo64 : IsF64 lo
  hi64 : IsF64 hi
  width : (1 : ℚ) / 2 ^ 900 ≤ hi - lo
  lo_le : |lo| ≤ M * (hi - lo)
  hi_le : |hi| ≤ M * (hi - lo)

/-- Specification: where a position is between the ends of the side with one per mille of padding, from 0 to 1. -/
def fraction (lo hi p : ℚ) : ℚ := (p - (lo - (hi - lo) / 1000)) / (hi - lo + (hi - lo) / 500)

/-! ### Lemmas -/

theorem fl_abs_err (x : ℚ) : |fl x - x| ≤ |x| / 2 ^ 53 + 1 / 2 ^ 1074 := by
  by_cases h : (2 : ℚ) ^ (-1022 : ℤ) ≤ |x|
  · have := fl_rel h
    rw [u_eq] at this
    unfold u at this
    have h2 : (0 : ℚ) < 1 / 2 ^ 1074 := by positivity
    linarith
  · push Not at h
    have := fl_err (x := x) (k := -1020) (h.le.trans (two_zpow_le (by norm_num))) (by norm_num)
    have e : (2 : ℚ) ^ (-1020 - 54 : ℤ) = 1 / 2 ^ 1074 := by
      rw [show (-1020 - 54 : ℤ) = -(1074 : ℕ) by norm_num, zpow_neg, zpow_natCast, one_div]
    rw [e] at this
    have h2 : 0 ≤ |x| / 2 ^ 53 := by positivity
    linarith

theorem pad001_bounds : 999999 / 1000000000 ≤ pad001 ∧ pad001 ≤ 1000001 / 1000000000 ∧
    |pad001 - 1 / 1000| ≤ 1 / 1000 / 2 ^ 53 := by
  decide +kernel

theorem tiny {W : ℚ} (h : (1 : ℚ) / 2 ^ 900 ≤ W) : 1 / 2 ^ 1074 ≤ W / 2 ^ 100 / 2 ^ 74 := by
  rw [div_div, ← pow_add, le_div_iff₀ (by positivity)]
  calc (1 : ℚ) / 2 ^ 1074 * 2 ^ (100 + 74) = 1 / 2 ^ 900 := by
        rw [show 1074 = 900 + (100 + 74) by norm_num, pow_add (2 : ℚ) 900, one_div, one_div, mul_inv, mul_assoc,
          inv_mul_cancel₀ (by positivity), mul_one]
    _ ≤ W := h

/-- The padded ends are right up to rounding. -/
theorem padded_err {M lo hi : ℚ} (h : Side M lo hi) :
    |minPadded lo hi - (lo - (hi - lo) / 1000)| ≤ (M + 1 / 100) * (hi - lo) / 2 ^ 53 ∧
    |maxPadded lo hi - (hi + (hi - lo) / 1000)| ≤ (M + 1 / 100) * (hi - lo) / 2 ^ 53 := by
  obtain ⟨-, -, hw, hlo, hhi⟩ := h
  have ht := tiny hw
  unfold minPadded maxPadded fadd fsub fmul
  generalize hW : hi - lo = W at *
  have hW0 : 0 < W := lt_of_lt_of_le (by positivity) hw
  have e1 := fl_abs_err W
  generalize fl W = w at *
  rw [abs_of_pos hW0] at e1
  have p1 := pad001_bounds
  generalize pad001 = c at *
  obtain ⟨pa, pb, pc⟩ := p1
  have e2 := fl_abs_err (w * c)
  generalize fl (w * c) = q at *
  have err := fl_abs_err
  generalize (1 : ℚ) / 2 ^ 1074 = t at *
  have hw1 : |w - W| ≤ W / 2 ^ 52 := e1.trans (by norm_num at ht ⊢; linarith)
  obtain ⟨hwa, hwb⟩ := abs_le.1 hw1
  have hwc : |w * c - W / 1000| ≤ W / 1000 * (4 / 2 ^ 53) := by
    have : w * c - W / 1000 = (w - W) * c + W * (c - 1 / 1000) := by ring
    rw [this]
    refine (abs_add_le _ _).trans ?_
    rw [abs_mul, abs_mul, abs_of_pos hW0, abs_of_pos (by linarith : 0 < c)]
    have k1 : |w - W| * c ≤ W / 2 ^ 52 * (1000001 / 1000000000) := by gcongr
    have k2 : W * |c - 1 / 1000| ≤ W * (1 / 1000 / 2 ^ 53) := by gcongr
    norm_num at k1 k2 ⊢
    linarith
  obtain ⟨hca, hcb⟩ := abs_le.1 hwc
  have hwc0 : |w * c| ≤ W / 999 := by
    rw [abs_le]
    norm_num at hca hcb ⊢
    constructor <;> linarith
  have hq : |q - W / 1000| ≤ W / 1000 * (6 / 2 ^ 53) := by
    have : q - W / 1000 = (q - w * c) + (w * c - W / 1000) := by ring
    rw [this]
    refine (abs_add_le _ _).trans ?_
    norm_num at e2 hwc hwc0 ht ⊢
    linarith
  obtain ⟨hqa, hqb⟩ := abs_le.1 hq
  have hq0 : |q| ≤ W / 999 := by
    rw [abs_le]
    norm_num at hqa hqb ⊢
    constructor <;> linarith
  generalize hB : M * W = B at *
  rw [show (M + 1 / 100) * W = B + W / 100 by rw [← hB]; ring]
  constructor
  · have e3 := err (lo - q)
    have h1 : |lo - q| ≤ |lo| + |q| := abs_sub _ _
    have : fl (lo - q) - (lo - W / 1000) = (fl (lo - q) - (lo - q)) + -(q - W / 1000) := by ring
    rw [this]
    refine (abs_add_le _ _).trans ?_
    rw [abs_neg]
    norm_num at e3 hq hq0 ht ⊢
    linarith
  · have e3 := err (hi + q)
    have h1 : |hi + q| ≤ |hi| + |q| := abs_add_le _ _
    have : fl (hi + q) - (hi + W / 1000) = (fl (hi + q) - (hi + q)) + (q - W / 1000) := by ring
    rw [this]
    refine (abs_add_le _ _).trans ?_
    norm_num at e3 hq hq0 ht ⊢
    linarith

/-- The padded ends are really outside. -/
theorem padded_outside {M lo hi : ℚ} (h : Side M lo hi) (hM : M ≤ 2 ^ 40) :
    (hi - lo) * (87 / 100000) ≤ lo - minPadded lo hi ∧ lo - minPadded lo hi ≤ (hi - lo) * (113 / 100000) ∧
    (hi - lo) * (87 / 100000) ≤ maxPadded lo hi - hi ∧ maxPadded lo hi - hi ≤ (hi - lo) * (113 / 100000) := by
  obtain ⟨h1, h2⟩ := padded_err h
  have hW0 : 0 < hi - lo := lt_of_lt_of_le (by positivity) h.width
  have hB : M * (hi - lo) ≤ 2 ^ 40 * (hi - lo) := by gcongr
  rw [abs_le] at h1 h2
  generalize minPadded lo hi = a at *
  generalize maxPadded lo hi = b at *
  generalize hW : hi - lo = W at *
  rw [show (M + 1 / 100) * W = M * W + W / 100 by ring] at h1 h2
  generalize M * W = B at *
  norm_num at h1 h2 hB
  obtain ⟨h1a, h1b⟩ := h1
  obtain ⟨h2a, h2b⟩ := h2
  refine ⟨?_, ?_, ?_, ?_⟩ <;> linarith

theorem fl_pos_bounds {x : ℚ} (h : (1 : ℚ) / 2 ^ 1000 ≤ x) : x * (1 - 1 / 2 ^ 53) ≤ fl x ∧ fl x ≤ x * (1 + 1 / 2 ^ 53) := by
  have hx : 0 < x := lt_of_lt_of_le (by positivity) h
  have := fl_rel (x := x) (by
    rw [abs_of_pos hx]
    refine le_trans ?_ h
    rw [show (1 : ℚ) / 2 ^ 1000 = (2 : ℚ) ^ (-1000 : ℤ) by rw [zpow_neg, one_div]; norm_cast]
    exact two_zpow_le (by norm_num))
  rw [u_eq, abs_of_pos hx] at this
  unfold u at this
  obtain ⟨ha, hb⟩ := abs_le.1 this
  constructor <;> linarith

/-! ## C110 -/

/-- **C110 (order).** Keys are computed from integer coordinates which grow with the position. -/
theorem integer_pos_mono {M lo hi : ℚ} (h : Side M lo hi) (hM : M ≤ 2 ^ 40) (bits : ℕ) {p p' : ℚ} (hp : p ≤ p') :
    integerPosF bits lo hi p ≤ integerPosF bits lo hi p' := by
  obtain ⟨h1, -, h2, -⟩ := padded_outside h hM
  have hW0 : 0 < hi - lo := lt_of_lt_of_le (by positivity) h.width
  have hD : 0 ≤ maxPadded lo hi ⊟ minPadded lo hi := fl_nonneg (by linarith)
  unfold integerPosF scaledPos
  refine Nat.floor_le_floor (fl_mono ?_)
  refine mul_le_mul_of_nonneg_right (fl_mono ?_) (by positivity)
  exact div_le_div_of_nonneg_right (fl_mono (by linarith)) hD

/-- The computed fraction is close to the right one. -/
theorem scaled_err {M lo hi p : ℚ} (h : Side M lo hi) (hM : M ≤ 2 ^ 40) (hp : lo ≤ p) (hp' : p ≤ hi) :
    |scaledPos lo hi p - fraction lo hi p| ≤ (M + 1) / 2 ^ 51 ∧ 8 / 10000 ≤ scaledPos lo hi p ∧ scaledPos lo hi p ≤ 9992 / 10000 := by
  obtain ⟨h1, h2⟩ := padded_err h
  obtain ⟨o1, o2, o3, o4⟩ := padded_outside h hM
  have hw := h.width
  have hW0 : 0 < hi - lo := lt_of_lt_of_le (by positivity) h.width
  have hM0 : 0 ≤ M * (hi - lo) := (abs_nonneg _).trans h.lo_le
  have hlow : (1 : ℚ) / 2 ^ 1000 ≤ (hi - lo) * (87 / 100000) := by
    have : (1 : ℚ) / 2 ^ 1000 ≤ 1 / 2 ^ 900 * (87 / 100000) := by
      rw [show 1000 = 900 + 100 by norm_num, pow_add, ← div_div, div_eq_mul_one_div]
      exact mul_le_mul_of_nonneg_left (by norm_num) (by positivity)
    exact this.trans (by gcongr)
  unfold scaledPos fraction fsub fdiv
  generalize minPadded lo hi = a at *
  generalize maxPadded lo hi = b at *
  obtain ⟨n1, n2⟩ := fl_pos_bounds (x := p - a) (by linarith)
  obtain ⟨d1, d2⟩ := fl_pos_bounds (x := b - a) (by linarith)
  generalize fl (p - a) = n at *
  generalize fl (b - a) = d at *
  have hMn : 0 ≤ M := nonneg_of_mul_nonneg_left hM0 hW0
  have hna : p - a ≤ (hi - lo) * (100113 / 100000) := by linarith
  have hda : b - a ≤ (hi - lo) * (100226 / 100000) := by linarith
  rw [mul_sub, mul_one] at n1 d1
  rw [mul_add, mul_one] at n2 d2
  have hdW : hi - lo ≤ d := by norm_num at d1 ⊢; linarith
  have hd0 : 0 < d := by linarith
  have hf : (p - (lo - (hi - lo) / 1000)) / (hi - lo + (hi - lo) / 500) * (hi - lo + (hi - lo) / 500) =
      p - (lo - (hi - lo) / 1000) := div_mul_cancel₀ _ (by linarith)
  have hf0 : 0 ≤ (p - (lo - (hi - lo) / 1000)) / (hi - lo + (hi - lo) / 500) := div_nonneg (by linarith) (by linarith)
  have hf1 : (p - (lo - (hi - lo) / 1000)) / (hi - lo + (hi - lo) / 500) ≤ 1 := by
    rw [div_le_one (by linarith)]
    linarith
  generalize (p - (lo - (hi - lo) / 1000)) / (hi - lo + (hi - lo) / 500) = f at *
  obtain ⟨a1, a2⟩ := abs_le.1 h1
  obtain ⟨b1, b2⟩ := abs_le.1 h2
  have hs0 : |n / d - f| ≤ (3 * M + 205 / 100) / 2 ^ 53 := by
    have e : n / d - f = ((n - (p - (lo - (hi - lo) / 1000))) + -(f * (d - (hi - lo + (hi - lo) / 500)))) / d := by
      rw [eq_div_iff hd0.ne', sub_mul, div_mul_cancel₀ _ hd0.ne', mul_sub, hf]
      ring
    rw [e, abs_div, abs_of_pos hd0, div_le_iff₀ hd0]
    have hN : |n - (p - (lo - (hi - lo) / 1000))| ≤ (M * (hi - lo) + 102 / 100 * (hi - lo)) / 2 ^ 53 := by
      rw [abs_le]
      norm_num at n1 n2 a1 a2 ⊢
      constructor <;> linarith
    have hD : |d - (hi - lo + (hi - lo) / 500)| ≤ (2 * (M * (hi - lo)) + 103 / 100 * (hi - lo)) / 2 ^ 53 := by
      rw [abs_le]
      norm_num at d1 d2 a1 a2 b1 b2 ⊢
      constructor <;> linarith
    have hfD : |f * (d - (hi - lo + (hi - lo) / 500))| ≤ |d - (hi - lo + (hi - lo) / 500)| := by
      rw [abs_mul, abs_of_nonneg hf0]
      exact mul_le_of_le_one_left (abs_nonneg _) hf1
    refine (abs_add_le _ _).trans ?_
    rw [abs_neg]
    have hlast : (3 * M + 205 / 100) / 2 ^ 53 * (hi - lo) ≤ (3 * M + 205 / 100) / 2 ^ 53 * d := by gcongr
    refine le_trans ?_ hlast
    rw [show (3 * M + 205 / 100) / 2 ^ 53 * (hi - lo) = (3 * (M * (hi - lo)) + 205 / 100 * (hi - lo)) / 2 ^ 53 by ring]
    generalize M * (hi - lo) = B at *
    linarith
  have hlo0 : 86 / 100000 ≤ n / d := by
    rw [le_div_iff₀ hd0]
    norm_num at n1 d2 ⊢
    linarith
  have hup0 : n / d ≤ 99915 / 100000 := by
    rw [div_le_iff₀ hd0]
    norm_num at n2 d1 ⊢
    linarith
  obtain ⟨s1, s2⟩ := fl_pos_bounds (x := n / d) (le_trans (by
    rw [show 1000 = 100 + 900 by norm_num, pow_add, ← div_div]
    refine (div_le_self (by positivity) (one_le_pow₀ (by norm_num))).trans (by norm_num)) hlo0)
  generalize fl (n / d) = s at *
  generalize n / d = s0 at *
  rw [mul_sub, mul_one] at s1
  rw [mul_add, mul_one] at s2
  obtain ⟨f1, f2⟩ := abs_le.1 hs0
  refine ⟨?_, ?_, ?_⟩
  · rw [abs_le]
    norm_num at f1 f2 s1 s2 ⊢
    constructor <;> linarith
  · norm_num at s1 ⊢
    linarith
  · norm_num at s2 ⊢
    linarith

theorem fl_mul_two_pow {s : ℚ} (bits : ℕ) (h64 : IsF64 s) : fl (s * 2 ^ bits) = s * 2 ^ bits := by
  obtain ⟨m, e, hm, he, rfl⟩ := (isF64_iff s).1 h64
  have := fl_rep (m := m) (e := e + bits) hm (by omega)
  rwa [two_zpow_add, zpow_natCast, ← mul_assoc] at this

/-- Positions with close fractions are close. -/
theorem scaled_resolution {M lo hi p p' : ℚ} (h : Side M lo hi) (hM : M ≤ 2 ^ 40) (hp : lo ≤ p ∧ p ≤ hi)
    (hp' : lo ≤ p' ∧ p' ≤ hi) :
    |p - p'| ≤ (|scaledPos lo hi p - scaledPos lo hi p'| + 5 / 2 ^ 53) * (101 / 100 * (hi - lo)) := by
  obtain ⟨o1, o2, o3, o4⟩ := padded_outside h hM
  have hw := h.width
  have hW0 : 0 < hi - lo := lt_of_lt_of_le (by positivity) h.width
  have hlow : (1 : ℚ) / 2 ^ 1000 ≤ (hi - lo) * (87 / 100000) := by
    have : (1 : ℚ) / 2 ^ 1000 ≤ 1 / 2 ^ 900 * (87 / 100000) := by
      rw [show 1000 = 900 + 100 by norm_num, pow_add, ← div_div, div_eq_mul_one_div]
      exact mul_le_mul_of_nonneg_left (by norm_num) (by positivity)
    exact this.trans (by gcongr)
  unfold scaledPos fsub fdiv
  generalize minPadded lo hi = a at *
  generalize maxPadded lo hi = b at *
  obtain ⟨d1, d2⟩ := fl_pos_bounds (x := b - a) (by linarith)
  generalize fl (b - a) = d at *
  have hda : b - a ≤ (hi - lo) * (100226 / 100000) := by linarith
  rw [mul_sub, mul_one] at d1
  rw [mul_add, mul_one] at d2
  have hdW : hi - lo ≤ d := by norm_num at d1 ⊢; linarith
  have hdW' : d ≤ 101 / 100 * (hi - lo) := by norm_num at d2 ⊢; linarith
  have hd0 : 0 < d := by linarith
  have key : ∀ p, lo ≤ p ∧ p ≤ hi → |fl (fl (p - a) / d) * d - (p - a)| ≤ (22 / 10) / 2 ^ 53 * d := by
    intro p hp
    obtain ⟨n1, n2⟩ := fl_pos_bounds (x := p - a) (by linarith)
    generalize fl (p - a) = n at *
    rw [mul_sub, mul_one] at n1
    rw [mul_add, mul_one] at n2
    have hlo0 : 86 / 100000 ≤ n / d := by
      rw [le_div_iff₀ hd0]
      norm_num at n1 d2 ⊢
      linarith
    have hup0 : n / d ≤ 1 := by
      rw [div_le_iff₀ hd0]
      norm_num at n2 d1 ⊢
      linarith
    obtain ⟨s1, s2⟩ := fl_pos_bounds (x := n / d) (le_trans (by
      rw [show 1000 = 100 + 900 by norm_num, pow_add, ← div_div]
      refine (div_le_self (by positivity) (one_le_pow₀ (by norm_num))).trans (by norm_num)) hlo0)
    have hnd : n / d * d = n := div_mul_cancel₀ _ hd0.ne'
    generalize fl (n / d) = s at *
    generalize n / d = s0 at *
    rw [mul_sub, mul_one] at s1
    rw [mul_add, mul_one] at s2
    have t1 : |s - s0| ≤ 1 / 2 ^ 53 := by
      rw [abs_le]
      norm_num at s1 s2 ⊢
      constructor <;> linarith
    have t2 : |n - (p - a)| ≤ (11 / 10) / 2 ^ 53 * d := by
      rw [abs_le]
      norm_num at n1 n2 ⊢
      constructor <;> linarith
    have e : s * d - (p - a) = (s - s0) * d + (n - (p - a)) := by rw [sub_mul, hnd]; ring
    rw [e]
    refine (abs_add_le _ _).trans ?_
    rw [abs_mul, abs_of_pos hd0]
    have t3 : |s - s0| * d ≤ 1 / 2 ^ 53 * d := by gcongr
    norm_num at t2 t3 ⊢
    linarith
  have k1 := key p hp
  have k2 := key p' hp'
  generalize fl (fl (p - a) / d) = s at *
  generalize fl (fl (p' - a) / d) = s' at *
  have e : p - p' = (s - s') * d + (-(s * d - (p - a)) + (s' * d - (p' - a))) := by ring
  have hle : (|s - s'| + 5 / 2 ^ 53) * d ≤ (|s - s'| + 5 / 2 ^ 53) * (101 / 100 * (hi - lo)) := by gcongr
  refine le_trans ?_ hle
  rw [e]
  refine (abs_add_le _ _).trans ?_
  have e2 := abs_add_le (-(s * d - (p - a))) (s' * d - (p' - a))
  rw [abs_neg] at e2
  rw [abs_mul, abs_of_pos hd0, add_mul]
  generalize |s - s'| * d = z
  norm_num at k1 k2 e2 ⊢
  linarith

/-- **C110 (range).** The integer coordinate of a position in the box is in the range in which keys are defined, and it is that of the
exact position up to the rounding of the ends of the box. -/
theorem integer_pos_range {M lo hi p : ℚ} (h : Side M lo hi) (hM : M ≤ 2 ^ 40) (hp : lo ≤ p) (hp' : p ≤ hi) (bits : ℕ)
    (hb : 11 ≤ bits) :
    0 < integerPosF bits lo hi p ∧ integerPosF bits lo hi p < 2 ^ bits ∧
    |(integerPosF bits lo hi p : ℚ) - fraction lo hi p * 2 ^ bits| ≤ (M + 1) / 2 ^ 51 * 2 ^ bits + 1 := by
  obtain ⟨h1, h2, h3⟩ := scaled_err h hM hp hp'
  have h64 : IsF64 (scaledPos lo hi p) := isF64_fl _
  unfold integerPosF fmul
  rw [fl_mul_two_pow bits h64]
  generalize scaledPos lo hi p = s at *
  have hpow : (2 : ℚ) ^ 11 ≤ 2 ^ bits := pow_le_pow_right₀ (by norm_num) hb
  have hpow0 : (0 : ℚ) < 2 ^ bits := by positivity
  have hs0 : 0 ≤ s * 2 ^ bits := by positivity
  refine ⟨?_, ?_, ?_⟩
  · rw [Nat.floor_pos]
    nlinarith
  · rw [Nat.floor_lt hs0]
    push_cast
    nlinarith
  · have f1 := Nat.floor_le hs0
    have f2 := Nat.lt_floor_add_one (s * 2 ^ bits)
    obtain ⟨e1, e2⟩ := abs_le.1 h1
    rw [abs_le]
    constructor
    · nlinarith
    · nlinarith

/-- **C110 (resolution).** Positions with the same integer coordinate are closer than two cells. -/
theorem integer_pos_resolution {M lo hi p p' : ℚ} (h : Side M lo hi) (hM : M ≤ 2 ^ 40) (hp : lo ≤ p ∧ p ≤ hi)
    (hp' : lo ≤ p' ∧ p' ≤ hi) (bits : ℕ) (hb : bits ≤ 48) (he : integerPosF bits lo hi p = integerPosF bits lo hi p') :
    |p - p'| ≤ 2 * (hi - lo) / 2 ^ bits := by
  obtain ⟨-, h2, -⟩ := scaled_err h hM hp.1 hp.2
  obtain ⟨-, h2', -⟩ := scaled_err h hM hp'.1 hp'.2
  have hr := scaled_resolution h hM hp hp'
  have h64 : IsF64 (scaledPos lo hi p) := isF64_fl _
  have h64' : IsF64 (scaledPos lo hi p') := isF64_fl _
  have hW0 : 0 < hi - lo := lt_of_lt_of_le (by positivity) h.width
  unfold integerPosF fmul at he
  rw [fl_mul_two_pow bits h64, fl_mul_two_pow bits h64'] at he
  generalize scaledPos lo hi p = s at *
  generalize scaledPos lo hi p' = s' at *
  have hpow0 : (0 : ℚ) < 2 ^ bits := by positivity
  have f1 := Nat.floor_le (show 0 ≤ s * 2 ^ bits by positivity)
  have f2 := Nat.lt_floor_add_one (s * 2 ^ bits)
  have f1' := Nat.floor_le (show 0 ≤ s' * 2 ^ bits by positivity)
  have f2' := Nat.lt_floor_add_one (s' * 2 ^ bits)
  rw [he] at f1 f2
  have hss : |s - s'| ≤ 1 / 2 ^ bits := by
    have : |s - s'| * 2 ^ bits = |(s - s') * 2 ^ bits| := by rw [abs_mul, abs_of_pos hpow0]
    rw [le_div_iff₀ hpow0, this, abs_le, sub_mul]
    constructor <;> linarith
  have h48 : (1 : ℚ) / 2 ^ 48 ≤ 1 / 2 ^ bits := by
    apply one_div_le_one_div_of_le hpow0
    exact pow_le_pow_right₀ (by norm_num) hb
  refine hr.trans ?_
  have : (|s - s'| + 5 / 2 ^ 53) * (101 / 100 * (hi - lo)) ≤ (1 / 2 ^ bits * (12 / 10)) * (101 / 100 * (hi - lo)) := by
    refine mul_le_mul_of_nonneg_right ?_ (by positivity)
    generalize (1 : ℚ) / 2 ^ bits = z at *
    norm_num at h48 ⊢
    linarith
  refine this.trans ?_
  rw [show 2 * (hi - lo) / 2 ^ bits = (1 / 2 ^ bits) * (2 * (hi - lo)) by ring, mul_assoc]
  refine mul_le_mul_of_nonneg_left ?_ (by positivity)
  linarith

/-- **C110 (keys in space).** Every position in the box has a key, and positions with the same key are closer than two cells along each
axis. -/
theorem key3_resolution {M : ℚ} (hM : M ≤ 2 ^ 40) {lo hi p p' : ℚ × ℚ × ℚ} (hx : Side M lo.1 hi.1) (hy : Side M lo.2.1 hi.2.1)
    (hz : Side M lo.2.2 hi.2.2) (px : lo.1 ≤ p.1 ∧ p.1 ≤ hi.1) (py : lo.2.1 ≤ p.2.1 ∧ p.2.1 ≤ hi.2.1)
    (pz : lo.2.2 ≤ p.2.2 ∧ p.2.2 ≤ hi.2.2) (px' : lo.1 ≤ p'.1 ∧ p'.1 ≤ hi.1) (py' : lo.2.1 ≤ p'.2.1 ∧ p'.2.1 ≤ hi.2.1)
    (pz' : lo.2.2 ≤ p'.2.2 ∧ p'.2.2 ≤ hi.2.2) :
    (∃ k < 2 ^ 126, key3F lo hi p = some k) ∧
    (key3F lo hi p = key3F lo hi p' →
      |p.1 - p'.1| ≤ 2 * (hi.1 - lo.1) / 2 ^ 42 ∧ |p.2.1 - p'.2.1| ≤ 2 * (hi.2.1 - lo.2.1) / 2 ^ 42 ∧
      |p.2.2 - p'.2.2| ≤ 2 * (hi.2.2 - lo.2.2) / 2 ^ 42) := by
  constructor
  · obtain ⟨k, h, hk⟩ := Peano.key3d_in_range (integerPosF 42 lo.1 hi.1 p.1) (integerPosF 42 lo.2.1 hi.2.1 p.2.1)
      (integerPosF 42 lo.2.2 hi.2.2 p.2.2)
    exact ⟨k, hk, h⟩
  · intro he
    obtain ⟨ex, ey, ez⟩ := Peano.key3d_injective _ _ _ _ _ _ (integer_pos_range hx hM px.1 px.2 42 (by norm_num)).2.1
      (integer_pos_range hy hM py.1 py.2 42 (by norm_num)).2.1 (integer_pos_range hz hM pz.1 pz.2 42 (by norm_num)).2.1
      (integer_pos_range hx hM px'.1 px'.2 42 (by norm_num)).2.1 (integer_pos_range hy hM py'.1 py'.2 42 (by norm_num)).2.1
      (integer_pos_range hz hM pz'.1 pz'.2 42 (by norm_num)).2.1 he
    exact ⟨integer_pos_resolution hx hM px px' 42 (by norm_num) ex, integer_pos_resolution hy hM py py' 42 (by norm_num) ey,
      integer_pos_resolution hz hM pz pz' 42 (by norm_num) ez⟩

/-- **C110 (keys in the plane).** Computing the key does not overflow, and positions with the same key are closer than two cells along
each axis. -/
theorem key2_resolution {M : ℚ} (hM : M ≤ 2 ^ 40) {lo hi p p' : ℚ × ℚ} (hx : Side M lo.1 hi.1) (hy : Side M lo.2 hi.2)
    (px : lo.1 ≤ p.1 ∧ p.1 ≤ hi.1) (py : lo.2 ≤ p.2 ∧ p.2 ≤ hi.2) (px' : lo.1 ≤ p'.1 ∧ p'.1 ≤ hi.1)
    (py' : lo.2 ≤ p'.2 ∧ p'.2 ≤ hi.2) :
    (∃ k < 2 ^ 64, key2F lo hi p = some k) ∧
    (key2F lo hi p = key2F lo hi p' →
      |p.1 - p'.1| ≤ 2 * (hi.1 - lo.1) / 2 ^ 32 ∧ |p.2 - p'.2| ≤ 2 * (hi.2 - lo.2) / 2 ^ 32) := by
  have rx := (integer_pos_range hx hM px.1 px.2 32 (by norm_num)).2.1
  have ry := (integer_pos_range hy hM py.1 py.2 32 (by norm_num)).2.1
  constructor
  · obtain ⟨k, h, hk, -⟩ := Peano.key2d_round_trip _ _ rx ry
    exact ⟨k, hk, h⟩
  · intro he
    obtain ⟨ex, ey⟩ := Peano.key2d_injective _ _ _ _ rx ry (integer_pos_range hx hM px'.1 px'.2 32 (by norm_num)).2.1
      (integer_pos_range hy hM py'.1 py'.2 32 (by norm_num)).2.1 he
    exact ⟨integer_pos_resolution hx hM px px' 32 (by norm_num) ex, integer_pos_resolution hy hM py py' 32 (by norm_num) ey⟩

/-- **C110, limit.** In a box which is too far from the origin, the padding is lost in rounding: the integer coordinate of the end of the
box is out of range, in the plane computing its key overflows, and in space its key is that of the opposite end. -/
theorem far_box : ∃ lo hi : ℚ, IsF64 lo ∧ IsF64 hi ∧ lo < hi ∧
    integerPosF 42 lo hi hi = 2 ^ 42 ∧ key2F (lo, 0) (hi, 1) (hi, 1 / 4) = none ∧
    key3F (lo, 0, 0) (hi, 1, 1) (hi, 1 / 4, 1 / 4) = key3F (lo, 0, 0) (hi, 1, 1) (lo, 1 / 4, 1 / 4) := by
  refine ⟨2 ^ 53, 2 ^ 53 + 2, ?_⟩
  decide +kernel

/-! ### The hypotheses are met -/

/-- The box from 0 to 3.2e20, and one which is not at the origin. -/
example : Side 1 0 (32 * 10 ^ 19) ∧ Side (2 ^ 40) (10 ^ 9) (10 ^ 9 + 1) := by
  constructor
  · constructor <;> decide +kernel
  · constructor <;> decide +kernel

example : integerPosF 42 0 1 (1 / 3) ≠ integerPosF 42 0 1 (1 / 3 + 1 / 2 ^ 40) := by decide +kernel

end Verif.Rounding
