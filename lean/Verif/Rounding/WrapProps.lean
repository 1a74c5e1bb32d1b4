import Verif.Rounding.WrapModel
import Verif.Rounding.BinaryProps
import Verif.Rounding.RoundLemmas
import Verif.Geometry.BoxLemmas

/-!
# C127: periodic wrapping in `f64`
-/

namespace Verif.Rounding

open Geometry

/-! ### Lemmas and theorems -/

theorem binary_of_multiple {r : ℚ} {k e : ℤ} (he : -1074 ≤ e) (hr : r = k * (2 : ℚ) ^ e) (hlt : |r| < 2 ^ 53 * (2 : ℚ) ^ e) : Binary r := by
  refine ⟨k, e, ?_, he, hr⟩
  rw [hr, abs_mul, abs_of_pos (two_zpow_pos e)] at hlt
  have := lt_of_mul_lt_mul_right hlt (two_zpow_pos e).le
  exact_mod_cast this

/-- The remainder lies between zero and the dividend and is smaller than the divisor. -/
theorem fmod_bounds (a : ℚ) {b : ℚ} (hb : 0 < b) :
    |fmod a b| < b ∧ |fmod a b| ≤ |a| ∧ (0 ≤ a → 0 ≤ fmod a b) ∧ (a < 0 → fmod a b ≤ 0) := by
  have hmul : b * (a / b) = a := by field_simp
  unfold fmod trunc
  by_cases h : a / b < 0
  · rw [if_pos h]
    have ha : a < 0 := by
      rcases div_neg_iff.1 h with h | h
      · linarith
      · exact h.1
    have h1 : a / b ≤ (⌈a / b⌉ : ℚ) := Int.le_ceil _
    have h2 : (⌈a / b⌉ : ℚ) < a / b + 1 := Int.ceil_lt_add_one _
    have h3 : ((⌈a / b⌉ : ℤ) : ℚ) ≤ 0 := by exact_mod_cast Int.ceil_le.2 (by simpa using h.le)
    have h1' := mul_le_mul_of_nonneg_left h1 hb.le
    have h2' := mul_lt_mul_of_pos_left h2 hb
    have h3' := mul_le_mul_of_nonneg_left h3 hb.le
    rw [mul_add, hmul, mul_one] at h2'
    rw [hmul] at h1'
    generalize b * ((⌈a / b⌉ : ℤ) : ℚ) = n at *
    rw [abs_of_nonpos (by linarith), abs_of_neg ha]
    exact ⟨by linarith, by linarith, fun h0 => by linarith, fun _ => by linarith⟩
  · rw [if_neg h]
    have ha : 0 ≤ a := by
      by_contra hcon
      exact h (div_neg_of_neg_of_pos (not_le.1 hcon) hb)
    have h1 : (⌊a / b⌋ : ℚ) ≤ a / b := Int.floor_le _
    have h2 : a / b < (⌊a / b⌋ : ℚ) + 1 := Int.lt_floor_add_one _
    have h3 : (0 : ℚ) ≤ ((⌊a / b⌋ : ℤ) : ℚ) := by exact_mod_cast Int.floor_nonneg.2 (not_lt.1 h)
    have h1' := mul_le_mul_of_nonneg_left h1 hb.le
    have h2' := mul_lt_mul_of_pos_left h2 hb
    have h3' := mul_le_mul_of_nonneg_left h3 hb.le
    rw [mul_add, hmul, mul_one] at h2'
    rw [hmul] at h1'
    generalize b * ((⌊a / b⌋ : ℤ) : ℚ) = n at *
    rw [abs_of_nonneg (by linarith), abs_of_nonneg ha]
    exact ⟨by linarith, by linarith, fun _ => by linarith, fun h0 => by linarith⟩

theorem fmod_of_lt {a b : ℚ} (ha : 0 ≤ a) (hab : a < b) : fmod a b = a := by
  have hb : 0 < b := ha.trans_lt hab
  unfold fmod trunc
  rw [if_neg (not_lt.2 (by positivity)), Int.floor_eq_zero_iff.2 ⟨by positivity, (div_lt_one hb).2 hab⟩]
  simp

theorem fmod_self {b : ℚ} (hb : 0 < b) : fmod b b = 0 := by
  unfold fmod trunc
  rw [div_self hb.ne']
  norm_num

/-- **C127 (the remainder).** The remainder of two numbers of type `f64` is a number of type `f64`: nothing is rounded in `%`. -/
theorem fmod_exact {a b : ℚ} (ha : IsF64 a) (hb : IsF64 b) (h0 : 0 < b) : IsF64 (fmod a b) := by
  obtain ⟨h1, h2, -, -⟩ := fmod_bounds a h0
  obtain ⟨ma, ea, hma, hea, eqa⟩ := (isF64_iff a).1 ha
  obtain ⟨mb, eb, hmb, heb, eqb⟩ := (isF64_iff b).1 hb
  rw [isF64_iff]
  have hA : |a| < 2 ^ 53 * (2 : ℚ) ^ ea := by
    rw [eqa, abs_mul, abs_of_pos (two_zpow_pos ea)]
    have : ((|ma| : ℤ) : ℚ) < 2 ^ 53 := by exact_mod_cast hma
    push_cast at this
    exact mul_lt_mul_of_pos_right this (two_zpow_pos ea)
  have hB : b < 2 ^ 53 * (2 : ℚ) ^ eb := by
    rw [← abs_of_pos h0, eqb, abs_mul, abs_of_pos (two_zpow_pos eb)]
    have : ((|mb| : ℤ) : ℚ) < 2 ^ 53 := by exact_mod_cast hmb
    push_cast at this
    exact mul_lt_mul_of_pos_right this (two_zpow_pos eb)
  have hr : fmod a b = a - b * (trunc (a / b) : ℤ) := rfl
  rcases le_total ea eb with hle | hle
  · obtain ⟨j, rfl⟩ : ∃ j : ℕ, eb = ea + j := ⟨(eb - ea).toNat, by omega⟩
    refine binary_of_multiple (k := ma - mb * 2 ^ j * trunc (a / b)) hea ?_ (h2.trans_lt hA)
    rw [hr]
    generalize trunc (a / b) = n
    rw [eqa, eqb, zpow_add₀ (by norm_num), zpow_natCast]
    push_cast
    ring
  · obtain ⟨j, rfl⟩ : ∃ j : ℕ, ea = eb + j := ⟨(ea - eb).toNat, by omega⟩
    refine binary_of_multiple (k := ma * 2 ^ j - mb * trunc (a / b)) heb ?_ (h1.trans hB)
    rw [hr]
    generalize trunc (a / b) = n
    rw [eqa, eqb, zpow_add₀ (by norm_num), zpow_natCast]
    push_cast
    ring

/-- What a component of a box which begins at zero is wrapped to. -/
theorem wrapComponentF_zero {v L : ℚ} (hv : IsF64 v) (hL : IsF64 L) (h0 : 0 < L) :
    wrapComponentF v 0 L = if fmod v L < 0 then fl (fmod v L + L) else fmod v L := by
  unfold wrapComponentF remEuclidF fadd fsub
  rw [sub_zero, sub_zero, show fl v = v from hv, show fl L = L from hL, zero_add, abs_of_pos h0]
  simp only
  split_ifs
  · exact fl_fl _
  · exact fmod_exact hv hL h0

/-- The exact result. -/
theorem wrapComponent_zero {v L : ℚ} (h0 : 0 < L) :
    periodicWrapComponent v 0 L = if fmod v L < 0 then fmod v L + L else fmod v L := by
  unfold periodicWrapComponent remEuclid
  rw [sub_zero, sub_zero, zero_add, abs_of_pos h0]

/-- A box which begins at zero, with sides of type `f64`. -/
structure BoxAtZero {d : ℕ} (box : Extent d ℚ) : Prop where
  min : ∀ i, box.min i = 0
  max : ∀ i, IsF64 (box.max i) ∧ 0 < box.max i

/-- **C127 (in the box).** In a box which begins at zero every position is wrapped to one in the closed box. -/
theorem wrapF_in_box {d : ℕ} {box : Extent d ℚ} (hb : BoxAtZero box) {pos : Vec d ℚ} (hp : ∀ i, IsF64 (pos i)) (i : Fin d) :
    IsF64 (periodicWrapF box pos i) ∧ 0 ≤ periodicWrapF box pos i ∧ periodicWrapF box pos i ≤ box.max i := by
  obtain ⟨hL, h0⟩ := hb.max i
  have hb' := fmod_bounds (pos i) h0
  unfold periodicWrapF
  rw [hb.min i, wrapComponentF_zero (hp i) hL h0]
  obtain ⟨b1, b2⟩ := abs_lt.1 hb'.1
  split_ifs with h
  · exact ⟨isF64_fl _, fl_nonneg (by linarith), fl_le hL (by linarith)⟩
  · exact ⟨fmod_exact (hp i) hL h0, not_lt.1 h, b2.le⟩

/-- **C127 (inside).** A position inside of the box is not changed. -/
theorem wrapF_inside {d : ℕ} {box : Extent d ℚ} (hb : BoxAtZero box) {pos : Vec d ℚ} (hp : ∀ i, IsF64 (pos i))
    (hin : ∀ i, 0 ≤ pos i ∧ pos i < box.max i) : periodicWrapF box pos = pos := by
  funext i
  obtain ⟨hL, h0⟩ := hb.max i
  unfold periodicWrapF
  rw [hb.min i, wrapComponentF_zero (hp i) hL h0, fmod_of_lt (hin i).1 (hin i).2, if_neg (not_lt.2 (hin i).1)]

/-- **C127 (accuracy).** The result is that of exact arithmetic for a coordinate which is not negative, and in error by at most 2⁻⁵³ of
the side of the box for a negative one. -/
theorem wrapF_accurate {d : ℕ} {box : Extent d ℚ} (hb : BoxAtZero box) {pos : Vec d ℚ} (hp : ∀ i, IsF64 (pos i)) (i : Fin d) :
    (0 ≤ pos i → periodicWrapF box pos i = periodicWrap box pos i) ∧
      ((2 : ℚ) ^ (-1022 : ℤ) ≤ box.max i → |periodicWrapF box pos i - periodicWrap box pos i| ≤ box.max i / 2 ^ 53) := by
  obtain ⟨hL, h0⟩ := hb.max i
  have hb' := fmod_bounds (pos i) h0
  obtain ⟨b1, b2⟩ := abs_lt.1 hb'.1
  unfold periodicWrapF periodicWrap
  rw [hb.min i, wrapComponentF_zero (hp i) hL h0, wrapComponent_zero h0]
  refine ⟨fun hpos => ?_, fun hbig => ?_⟩
  · have := hb'.2.2.1 hpos
    rw [if_neg (not_lt.2 this), if_neg (not_lt.2 this)]
  · split_ifs with h
    · obtain ⟨e1, e2⟩ := expo_spec h0.ne'
      rw [abs_of_pos h0] at e1 e2
      have he : -1022 ≤ expo (box.max i) := le_expo h0.ne' (by rwa [abs_of_pos h0])
      refine (fl_err (k := expo (box.max i) + 1) ?_ (by omega)).trans ?_
      · rw [abs_of_pos (by linarith)]
        linarith
      · rw [show expo (box.max i) + 1 - 54 = expo (box.max i) + (-53) by ring, zpow_add₀ (by norm_num), le_div_iff₀ (by positivity),
          mul_assoc]
        norm_num
        exact e1
    · rw [sub_self, abs_zero]
      positivity

/-- **C127 (wrapping twice).** A coordinate which is wrapped to the upper side of the box is wrapped to zero the next time, all others
stay: after two times the position is in the half-open box, and it does not change any more. -/
theorem wrapF_twice {d : ℕ} {box : Extent d ℚ} (hb : BoxAtZero box) {pos : Vec d ℚ} (hp : ∀ i, IsF64 (pos i)) :
    let once := periodicWrapF box pos
    let twice := periodicWrapF box once
    (∀ i, twice i = if once i = box.max i then 0 else once i) ∧ (∀ i, 0 ≤ twice i ∧ twice i < box.max i) ∧
      periodicWrapF box twice = twice := by
  intro once twice
  have h1 := wrapF_in_box hb hp
  have h2 : ∀ i, twice i = if once i = box.max i then 0 else once i := by
    intro i
    obtain ⟨hL, h0⟩ := hb.max i
    obtain ⟨a1, a2, a3⟩ := h1 i
    show periodicWrapF box once i = _
    unfold periodicWrapF
    rw [hb.min i, wrapComponentF_zero a1 hL h0]
    split_ifs with c1 c2 c2
    · exfalso
      rw [show periodicWrapF box pos i = box.max i from c2, fmod_self h0] at c1
      exact lt_irrefl _ c1
    · exact absurd ((fmod_bounds _ h0).2.2.1 a2) (not_le.2 c1)
    · rw [show periodicWrapF box pos i = box.max i from c2, fmod_self h0]
    · exact fmod_of_lt a2 (lt_of_le_of_ne a3 c2)
  have h3 : ∀ i, 0 ≤ twice i ∧ twice i < box.max i := by
    intro i
    obtain ⟨-, a2, a3⟩ := h1 i
    rw [h2 i]
    split_ifs with c
    · exact ⟨le_rfl, (hb.max i).2⟩
    · exact ⟨a2, lt_of_le_of_ne a3 c⟩
  exact ⟨h2, h3, wrapF_inside hb (fun i => (wrapF_in_box hb (fun i => (h1 i).1) i).1) h3⟩

/-! ### Disagreements -/

/-- The unit box. -/
def exBox : Extent 2 ℚ := fromMinMax ![0, 0] ![1, 1]

theorem exBox_atZero : BoxAtZero exBox := ⟨by decide +kernel, by decide +kernel⟩

/-- **C127, disagreement with C22.** A position just below zero is wrapped to the upper side of the box, which is not in the half-open
box; wrapping is not idempotent. -/
theorem wrapF_reaches_upper : periodicWrapF exBox ![-1 / 2 ^ 60, 1 / 4] = ![1, 1 / 4] ∧ periodicWrapF exBox ![1, 1 / 4] = ![0, 1 / 4] := by
  constructor <;> funext i <;> fin_cases i <;> decide +kernel

/-- **C127, disagreement with C22.** In a box which does not begin at zero, a position inside can be moved. -/
theorem wrapF_moves_inside : IsF64 (fl (32 / 100)) ∧ fl (-1 / 10) < fl (32 / 100) ∧ fl (32 / 100) < fl (19 / 10) ∧
    wrapComponentF (fl (32 / 100)) (fl (-1 / 10)) (fl (19 / 10)) = fl (32 / 100) + 1 / 2 ^ 54 := by decide +kernel

/-- The hypotheses hold: positions on both sides of the box. -/
example : (∀ i, IsF64 ((![fl (-7 / 3), 5 / 2] : Vec 2 ℚ) i)) ∧ (periodicWrapF exBox ![fl (-7 / 3), 5 / 2]) 1 = 1 / 2 ∧
    (2 : ℚ) ^ (-1022 : ℤ) ≤ exBox.max 0 := by
  refine ⟨by decide +kernel, by decide +kernel, ?_⟩
  rw [show exBox.max 0 = 1 from rfl]
  exact zpow_le_one_of_nonpos₀ (by norm_num) (by norm_num)

end Verif.Rounding
