import Verif.Rounding.LevelModel
import Verif.Rounding.ClockProps
import Mathlib.Analysis.SpecialFunctions.Log.Base
import Mathlib.Analysis.Convex.SpecificFunctions.Basic
import Mathlib.Analysis.Complex.ExponentialBounds

/-!
# C126: levels of time steps in `f64`
-/

namespace Verif.Rounding

/-! ### Specification -/

/-- What the theorems need of `f64::log2`: between 1 and 2³² it is accurate to 2⁻⁴⁷ (an error of two units in the last place), it is
monotone, and it is exact for powers of two. -/
structure Log2Ok (log2 : ℚ → ℚ) : Prop where
  near : ∀ x : ℚ, 1 ≤ x → x ≤ 2 ^ 32 → |(log2 x : ℝ) - Real.logb 2 x| ≤ 1 / 2 ^ 47
  mono : ∀ x y : ℚ, 0 < x → x ≤ y → log2 x ≤ log2 y
  pow : ∀ k : ℕ, log2 (2 ^ k) = k

/-! ### Lemmas -/

theorem Log2Ok.one {log2 : ℚ → ℚ} (h : Log2Ok log2) : log2 1 = 0 := by simpa using h.pow 0

theorem isF64_two_pow_le {k : ℕ} (hk : k ≤ 1000) : IsF64 ((2 : ℚ) ^ k) := by
  rw [isF64_iff]
  refine ⟨1, k, by norm_num, by omega, ?_⟩
  simp

theorem toTimestepF_eq {dt : ℚ} (h64 : IsF64 dt) (hdt : (1 : ℚ) / 2 ^ 900 ≤ dt) {l : ℕ} (hl : l ≤ 100) : toTimestepF l dt = dt / 2 ^ l := by
  unfold toTimestepF fmul
  rw [fl_half_pow h64 hdt hl, one_div, inv_pow, div_eq_mul_inv]

/-- The ceiling of the logarithm, in terms of powers of two. -/
theorem ceil_spec {log2 : ℚ → ℚ} (h : Log2Ok log2) {q : ℚ} (hq : 0 < q) {k : ℕ}
    (hk : k = if 0 < fl q then ⌈log2 (fl q)⌉₊ else 0) :
    (∀ l < k, l ≤ 1000 → 2 ^ l < q) ∧ (k < 31 → q ≤ 2 ^ k * (1 + 1 / 2 ^ 46)) := by
  constructor
  · intro l hl hl'
    by_contra hle
    have h1 : fl q ≤ 2 ^ l := fl_le (isF64_two_pow_le hl') (not_lt.1 hle)
    split_ifs at hk with hpos
    · have h2 := h.mono _ _ hpos h1
      rw [h.pow] at h2
      have : ⌈log2 (fl q)⌉₊ ≤ l := Nat.ceil_le.2 h2
      omega
    · omega
  · intro hk31
    by_cases hq1 : q ≤ 1
    · have : (1 : ℚ) ≤ 2 ^ k := one_le_pow₀ (by norm_num)
      nlinarith
    · have hq1 : 1 ≤ q := (not_le.1 hq1).le
      have hr1 : 1 ≤ fl q := le_fl (by decide +kernel) hq1
      rw [if_pos (by linarith)] at hk
      have hyk : log2 (fl q) ≤ k := by
        rw [hk]
        exact Nat.le_ceil _
      have hr32 : fl q ≤ 2 ^ 32 := by
        by_contra hgt
        have h2 := h.mono (2 ^ 32) (fl q) (by positivity) (not_le.1 hgt).le
        rw [h.pow] at h2
        have : (k : ℚ) < 31 := by exact_mod_cast hk31
        push_cast at h2
        linarith
      have hn := (abs_le.1 (h.near _ hr1 hr32)).1
      have hr0 : (0 : ℝ) < ((fl q : ℚ) : ℝ) := by exact_mod_cast (by linarith : (0 : ℚ) < fl q)
      have hykR : ((log2 (fl q) : ℚ) : ℝ) ≤ k := by exact_mod_cast hyk
      have hL : Real.logb 2 (fl q : ℚ) ≤ k + 1 / 2 ^ 47 := by linarith
      rw [Real.logb_le_iff_le_rpow (by norm_num) hr0, Real.rpow_add (by norm_num), Real.rpow_natCast] at hL
      have hB : (2 : ℝ) ^ ((1 : ℝ) / 2 ^ 47) ≤ 1 + 1 / 2 ^ 47 := by
        have := rpow_one_add_le_one_add_mul_self (s := (1 : ℝ)) (by norm_num) (p := 1 / 2 ^ 47) (by positivity) (by norm_num)
        rwa [one_add_one_eq_two, mul_one] at this
      have hR : ((fl q : ℚ) : ℝ) ≤ 2 ^ k * (1 + 1 / 2 ^ 47) := hL.trans (by gcongr)
      have hQ : fl q ≤ 2 ^ k * (1 + 1 / 2 ^ 47) := by
        have : ((fl q : ℚ) : ℝ) ≤ ((2 ^ k * (1 + 1 / 2 ^ 47) : ℚ) : ℝ) := by
          push_cast
          exact hR
        exact Rat.cast_le.1 this
      have hb := (fl_pos_bounds (x := q) (by
        refine le_trans ?_ hq1
        rw [div_le_one (by positivity)]
        exact one_le_pow₀ (by norm_num))).1
      have hk0 : (0 : ℚ) < 2 ^ k := by positivity
      have h3 : q * (1 - 1 / 2 ^ 53) ≤ 2 ^ k * (1 + 1 / 2 ^ 47) := hb.trans hQ
      generalize (2 : ℚ) ^ k = P at *
      have h4 : q * (1 - 1 / 2 ^ 53) ≤ P * (1 + 1 / 2 ^ 46) * (1 - 1 / 2 ^ 53) := by
        rw [mul_assoc]
        refine h3.trans ?_
        gcongr
        norm_num
      exact le_of_mul_le_mul_right h4 (by norm_num)

/-! ### Theorems -/

/-- **C126 (level).** For positive time steps there is a level, its time step does not exceed the desired one by more than a relative
2⁻⁴⁶ unless it is the deepest level, and the time step of every coarser level exceeds the desired one. -/
theorem level_f64 {log2 : ℚ → ℚ} (h : Log2Ok log2) {n : ℕ} (hn : 0 < n) (hn' : n < 32) {dt d : ℚ} (h64 : IsF64 dt)
    (hdt : (1 : ℚ) / 2 ^ 900 ≤ dt) (hd : 0 < d) :
    ∃ level, levelF log2 n dt d = some level ∧ level < n ∧ (level ≠ n - 1 → toTimestepF level dt ≤ d * (1 + 1 / 2 ^ 46)) ∧
      ∀ l < level, d < toTimestepF l dt := by
  have hdt0 : 0 < dt := lt_of_lt_of_le (by positivity) hdt
  unfold levelF
  rw [if_neg (by omega), if_neg hd.ne']
  obtain ⟨h1, h2⟩ := ceil_spec h (q := dt / d) (by positivity) rfl
  rw [show dt ⊘ d = fl (dt / d) from rfl]
  generalize (if 0 < fl (dt / d) then ⌈log2 (fl (dt / d))⌉₊ else 0) = k at *
  refine ⟨_, rfl, by omega, fun hne => ?_, fun l hl => ?_⟩
  · have hk : min k (n - 1) = k := by omega
    rw [hk, toTimestepF_eq h64 hdt (by omega)]
    have := h2 (by omega)
    rw [div_le_iff₀ hd] at this
    rw [div_le_iff₀ (by positivity)]
    linarith
  · rw [toTimestepF_eq h64 hdt (by omega)]
    have := h1 l (by omega) (by omega)
    rw [lt_div_iff₀ hd] at this
    rw [lt_div_iff₀ (by positivity)]
    linarith

/-- **C126 (exact levels).** A cell whose desired time step is the one of a level gets this level. -/
theorem level_exact {log2 : ℚ → ℚ} (h : Log2Ok log2) {n : ℕ} {dt : ℚ} (h64 : IsF64 dt) (hdt : (1 : ℚ) / 2 ^ 900 ≤ dt) {l : ℕ}
    (hl : l < n) (hn : n ≤ 100) : levelF log2 n dt (toTimestepF l dt) = some l := by
  have hdt0 : 0 < dt := lt_of_lt_of_le (by positivity) hdt
  have hd : (0 : ℚ) < dt / 2 ^ l := by positivity
  rw [toTimestepF_eq h64 hdt (by omega)]
  unfold levelF
  rw [if_neg (by omega), if_neg hd.ne']
  have hr : dt ⊘ (dt / 2 ^ l) = 2 ^ l := by
    unfold fdiv
    rw [div_div_cancel₀ hdt0.ne']
    exact isF64_two_pow_le (by omega)
  rw [hr, if_pos (by positivity), h.pow, Nat.ceil_natCast, min_eq_left (by omega)]

/-- **C126 (monotone).** A cell with a shorter desired time step gets the same or a deeper level. -/
theorem level_mono {log2 : ℚ → ℚ} (h : Log2Ok log2) {n : ℕ} {dt d d' : ℚ} (hdt : 0 < dt) (hd : 0 < d) (hdd : d ≤ d') {l l' : ℕ}
    (hl : levelF log2 n dt d = some l) (hl' : levelF log2 n dt d' = some l') : l' ≤ l := by
  have hd' : 0 < d' := hd.trans_le hdd
  unfold levelF at hl hl'
  by_cases hn : n = 0
  · simp [hn] at hl
  rw [if_neg hn, if_neg hd.ne', Option.some_inj] at hl
  rw [if_neg hn, if_neg hd'.ne', Option.some_inj] at hl'
  subst hl hl'
  have hle : dt ⊘ d' ≤ dt ⊘ d := fl_mono (div_le_div_of_nonneg_left hdt.le hd hdd)
  refine min_le_min_right _ ?_
  split_ifs with h1 h2
  · exact Nat.ceil_mono (h.mono _ _ h1 hle)
  · exact absurd (h1.trans_le hle) h2
  · exact Nat.zero_le _
  · exact le_rfl

/-- **C126 (allowed levels).** The level given to a cell in a run is an allowed one, its time step does not exceed the desired one by
more than a relative 2⁻⁴⁶ unless it is the deepest level, and the time steps of all coarser allowed levels exceed the desired one. -/
theorem desired_level_f64 {log2 : ℚ → ℚ} (h : Log2Ok log2) {n lowest : ℕ} (hn : lowest < n) (hn' : n < 32) {dt d : ℚ} (h64 : IsF64 dt)
    (hdt : (1 : ℚ) / 2 ^ 900 ≤ dt) (hd : 0 < d) :
    ∃ level, desiredLevelF log2 n lowest dt d = some level ∧ lowest ≤ level ∧ level < n ∧
      (level ≠ n - 1 → toTimestepF level dt ≤ d * (1 + 1 / 2 ^ 46)) ∧ ∀ l, lowest ≤ l → l < level → d < toTimestepF l dt := by
  have hdt0 : 0 < dt := lt_of_lt_of_le (by positivity) hdt
  obtain ⟨k, h1, h2, h3, h4⟩ := level_f64 h (by omega) hn' h64 hdt hd (n := n)
  unfold desiredLevelF
  rw [h1, Option.map_some]
  refine ⟨_, rfl, ?_⟩
  split_ifs with hlt
  · refine ⟨le_rfl, hn, fun hne => ?_, fun l hl hl' => by omega⟩
    refine le_trans ?_ (h3 (by omega))
    rw [toTimestepF_eq h64 hdt (by omega), toTimestepF_eq h64 hdt (by omega)]
    gcongr
    norm_num
  · exact ⟨by omega, h2, h3, fun l _ hl' => h4 l hl'⟩

/-- **C126 (degenerate time steps).** A cell with the desired time step zero gets the deepest level, one with a negative desired time
step level zero, as if it could take any time step; without levels the program panics. -/
theorem level_degenerate (log2 : ℚ → ℚ) (n : ℕ) {dt : ℚ} (hdt : 0 < dt) :
    (0 < n → levelF log2 n dt 0 = some (n - 1)) ∧ (0 < n → ∀ d < 0, levelF log2 n dt d = some 0) ∧ ∀ d, levelF log2 0 dt d = none := by
  refine ⟨fun hn => ?_, fun hn d hd => ?_, fun d => rfl⟩
  · unfold levelF
    rw [if_neg (by omega), if_pos rfl, if_pos hdt]
  · unfold levelF
    have : dt ⊘ d ≤ 0 := fl_le fl_zero (div_nonpos_of_nonneg_of_nonpos hdt.le hd.le)
    rw [if_neg (by omega), if_neg hd.ne, if_neg (not_lt.2 this), Nat.zero_min]

/-! ### The desired time step can be exceeded -/

/-- A number whose logarithm is rounded to 4. -/
def aboveSixteen : ℚ := 16 * (1 + 1 / 2 ^ 52)

/-- **C126, disagreement with C26.** 16 (1 + 2⁻⁵²) is a number of type `f64`, and among those 4 is the one next to its logarithm.  With
this result of `log2` a cell which wants the time step 1 gets level 4 and a longer time step. -/
theorem desired_exceeded :
    (IsF64 aboveSixteen ∧ ∀ z, IsF64 z → z ≠ 4 → |(4 : ℝ) - Real.logb 2 aboveSixteen| < |(z : ℝ) - Real.logb 2 aboveSixteen|) ∧
    ∀ log2 : ℚ → ℚ, log2 aboveSixteen = 4 →
      levelF log2 10 aboveSixteen 1 = some 4 ∧ toTimestepF 4 aboveSixteen = 1 + 1 / 2 ^ 52 := by
  refine ⟨⟨by decide +kernel, fun z hz hne => ?_⟩, fun log2 h => ⟨?_, by decide +kernel⟩⟩
  · obtain ⟨δ, hδ0, hδ, hL⟩ : ∃ δ : ℝ, 0 < δ ∧ δ < 2 / 2 ^ 52 ∧ Real.logb 2 aboveSixteen = 4 + δ := by
      refine ⟨Real.logb 2 (1 + 1 / 2 ^ 52), Real.logb_pos (by norm_num) (by norm_num), ?_, ?_⟩
      · have h1 := Real.log_le_sub_one_of_pos (x := (1 + 1 / 2 ^ 52 : ℝ)) (by positivity)
        have h2 := Real.log_two_gt_d9
        rw [Real.logb, div_lt_iff₀ (by linarith)]
        norm_num at h1 h2 ⊢
        linarith
      · unfold aboveSixteen
        push_cast
        rw [Real.logb_mul (by norm_num) (by positivity), show (16 : ℝ) = 2 ^ (4 : ℝ) by norm_num, Real.logb_rpow (by norm_num) (by norm_num)]
    rw [hL]
    have e1 : |(4 : ℝ) - (4 + δ)| = δ := by
      rw [abs_sub_comm]
      simp [abs_of_pos hδ0]
    rw [e1]
    rcases lt_or_gt_of_ne hne with hlt | hgt
    · have hz4 : (z : ℝ) < 4 := by exact_mod_cast hlt
      rw [abs_of_neg (by linarith)]
      linarith
    · have hz' : (4 : ℚ) + 4 / 2 ^ 52 ≤ z := by
        obtain ⟨m, e, hm, -, rfl⟩ := (isF64_iff z).1 hz
        have hm0 : 0 < m := by
          by_contra h0
          have : (m : ℚ) ≤ 0 := by exact_mod_cast not_lt.1 h0
          have := mul_nonpos_of_nonpos_of_nonneg this (two_zpow_pos e).le
          linarith
        have hmR : (m : ℚ) < 2 ^ 53 := by
          rw [abs_of_pos hm0] at hm
          exact_mod_cast hm
        have he : -50 ≤ e := by
          by_contra hcon
          have h1 : (2 : ℚ) ^ e ≤ 2 ^ (-51 : ℤ) := two_zpow_le (by omega)
          have h2 : (m : ℚ) * 2 ^ e ≤ 2 ^ 53 * 2 ^ (-51 : ℤ) := by gcongr
          norm_num at h2
          linarith
        obtain ⟨j, rfl⟩ : ∃ j : ℕ, e = -50 + j := ⟨(e + 50).toNat, by omega⟩
        have hsplit : (m : ℚ) * 2 ^ (-50 + (j : ℤ)) = ((m * 2 ^ j : ℤ) : ℚ) / 2 ^ 50 := by
          rw [zpow_add₀ (by norm_num), zpow_natCast]
          push_cast
          rw [zpow_neg]
          ring
        rw [hsplit] at hgt ⊢
        generalize m * 2 ^ j = M at *
        rw [lt_div_iff₀ (by positivity)] at hgt
        rw [le_div_iff₀ (by positivity)]
        have : (4 * 2 ^ 50 : ℤ) < M := by exact_mod_cast hgt
        have : (4 * 2 ^ 50 + 1 : ℤ) ≤ M := this
        have : ((4 * 2 ^ 50 + 1 : ℤ) : ℚ) ≤ M := by exact_mod_cast this
        push_cast at this
        linarith
      have hzR : (4 : ℝ) + 4 / 2 ^ 52 ≤ z := by
        have : (((4 : ℚ) + 4 / 2 ^ 52 : ℚ) : ℝ) ≤ z := by exact_mod_cast hz'
        push_cast at this
        exact this
      rw [abs_of_pos (by linarith)]
      linarith
  · have hr : aboveSixteen ⊘ 1 = aboveSixteen := by decide +kernel
    unfold levelF
    rw [hr, h]
    decide +kernel

/-! ### Examples -/

/-- A function which meets the requirements: the logarithm, rounded down to a multiple of 2⁻⁴⁷. -/
noncomputable def logDown (x : ℚ) : ℚ := ⌊Real.logb 2 x * 2 ^ 47⌋ / 2 ^ 47

theorem logDown_ok : Log2Ok logDown := by
  refine ⟨fun x _ _ => ?_, fun x y hx hxy => ?_, fun k => ?_⟩
  · unfold logDown
    push_cast
    have h1 := Int.floor_le (Real.logb 2 x * 2 ^ 47)
    have h2 := Int.lt_floor_add_one (Real.logb 2 x * 2 ^ 47)
    rw [abs_le]
    constructor
    · rw [← sub_nonneg]
      have : (⌊Real.logb 2 x * 2 ^ 47⌋ : ℝ) / 2 ^ 47 - Real.logb 2 x - -(1 / 2 ^ 47) =
          ((⌊Real.logb 2 x * 2 ^ 47⌋ : ℝ) + 1 - Real.logb 2 x * 2 ^ 47) / 2 ^ 47 := by ring
      rw [this]
      apply div_nonneg <;> linarith
    · have : (⌊Real.logb 2 x * 2 ^ 47⌋ : ℝ) / 2 ^ 47 ≤ Real.logb 2 x := by
        rw [div_le_iff₀ (by positivity)]
        exact h1
      have h3 : (0 : ℝ) ≤ 1 / 2 ^ 47 := by positivity
      linarith
  · unfold logDown
    gcongr
    norm_num
  · unfold logDown
    push_cast
    rw [Real.logb_pow, Real.logb_self_eq_one (by norm_num), mul_one, show (k : ℝ) * 2 ^ 47 = ((k * 2 ^ 47 : ℤ) : ℝ) by push_cast; ring,
      Int.floor_intCast]
    push_cast
    norm_num

/-- The hypotheses of the theorems hold, and the level of a cell which wants a third of the maximum time step is two. -/
example : IsF64 (fl (3 / 10)) ∧ (1 : ℚ) / 2 ^ 900 ≤ fl (3 / 10) ∧ levelF logDown 5 (fl (3 / 10)) (fl (1 / 10)) = some 2 := by
  have hb : (1 : ℚ) / 2 ^ 900 ≤ fl (3 / 10) := by
    refine le_trans (one_div_le_one_div_of_le (by norm_num) (by
      calc (2 : ℚ) ^ 2 ≤ 2 ^ 900 := pow_le_pow_right₀ (by norm_num) (by norm_num)) : (1 : ℚ) / 2 ^ 900 ≤ 1 / 2 ^ 2) ?_
    decide +kernel
  refine ⟨by decide +kernel, hb, ?_⟩
  obtain ⟨l, h1, h2, h3, h4⟩ := level_f64 logDown_ok (n := 5) (dt := fl (3 / 10)) (d := fl (1 / 10)) (by norm_num) (by norm_num)
    (by decide +kernel) hb (by decide +kernel)
  rw [h1, Option.some_inj]
  have a0 : ¬ toTimestepF 0 (fl (3 / 10)) ≤ fl (1 / 10) * (1 + 1 / 2 ^ 46) := by decide +kernel
  have a1 : ¬ toTimestepF 1 (fl (3 / 10)) ≤ fl (1 / 10) * (1 + 1 / 2 ^ 46) := by decide +kernel
  have a2 : ¬ fl (1 / 10) < toTimestepF 2 (fl (3 / 10)) := by decide +kernel
  rcases Nat.lt_or_ge l 2 with hl | hl
  · rcases (by omega : l = 0 ∨ l = 1) with rfl | rfl
    · exact absurd (h3 (by norm_num)) a0
    · exact absurd (h3 (by norm_num)) a1
  · by_contra hne
    exact a2 (h4 2 (by omega))

end Verif.Rounding
