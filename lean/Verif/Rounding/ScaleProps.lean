import Verif.Rounding.ScaleModel
import Verif.Rounding.BinaryProps
import Verif.Cosmology.Props

/-!
# C135: the search for the scale factor in `f64`

The computed values of the function are arbitrary numbers close to the exact ones.
-/

namespace Verif.Rounding

open Verif.Cosmology

/-- The guess between two neighbouring multiples of `2 ^ -d` is exact as long as `d` is at most 52. -/
theorem guess_exact {d : ℕ} (hd : d ≤ 52) {k : ℤ} (h0 : 0 ≤ k) (h1 : k + 1 ≤ 2 ^ d) :
    ((k : ℚ) / 2 ^ d ⊞ ((k + 1 : ℤ) : ℚ) / 2 ^ d) ⊘ 2 = ((2 * k + 1 : ℤ) : ℚ) / 2 ^ (d + 1) := by
  have hlt : |2 * k + 1| < 2 ^ 53 := by
    have h2 : (2 : ℤ) ^ d ≤ 2 ^ 52 := pow_le_pow_right₀ (by norm_num) hd
    rw [abs_of_nonneg (by omega)]
    norm_num at h2 ⊢
    omega
  have hz : ∀ n : ℕ, ((2 * k + 1 : ℤ) : ℚ) / 2 ^ n = ((2 * k + 1 : ℤ) : ℚ) * (2 : ℚ) ^ (-(n : ℤ)) := fun n => by
    rw [zpow_neg, zpow_natCast, div_eq_mul_inv]
  have e1 : (k : ℚ) / 2 ^ d ⊞ ((k + 1 : ℤ) : ℚ) / 2 ^ d = ((2 * k + 1 : ℤ) : ℚ) / 2 ^ d := by
    show fl _ = _
    rw [← add_div, show (k : ℚ) + ((k + 1 : ℤ) : ℚ) = ((2 * k + 1 : ℤ) : ℚ) by push_cast; ring, hz]
    exact fl_rep hlt (by omega)
  rw [e1]
  show fl _ = _
  rw [div_div, ← pow_succ, hz]
  exact fl_rep hlt (by push_cast; omega)

theorem isF64_half (d : ℕ) (hd : d ≤ 52) {k : ℤ} (h0 : 0 ≤ k) (h1 : k + 1 ≤ 2 ^ d) :
    IsF64 (((2 * k + 1 : ℤ) : ℚ) / 2 ^ (d + 1)) := by
  rw [← guess_exact hd h0 h1]
  exact isF64_fl _

theorem searchF_result_aux (nanNegative : ℕ → Bool) (f : ℚ → Option ℚ) (threshold g : ℚ) :
    ∀ (calls : ℕ) (min max : ℚ), IsF64 min → IsF64 max → 0 ≤ min → min ≤ max → max ≤ 1 →
      searchStepsF nanNegative f threshold calls min max = some g →
      0 ≤ g ∧ g ≤ 1 ∧ IsF64 g ∧ ∃ v, f g = some v ∧ |v| ≤ threshold := by
  intro calls
  induction calls with
  | zero => intro min max _ _ _ _ _ h; exact absurd h (by simp [searchStepsF])
  | succ n ih =>
    intro min max fm fM h0 h1 h2 h
    obtain ⟨guess, hg⟩ : ∃ guess, guess = (min ⊞ max) ⊘ 2 := ⟨_, rfl⟩
    have ftwo : ∀ {x : ℚ}, IsF64 x → fl (2 * x) = 2 * x := by
      intro x hx
      obtain ⟨m, e, hm, he, rfl⟩ := (isF64_iff x).1 hx
      rw [show (2 : ℚ) * (m * 2 ^ e) = m * (2 : ℚ) ^ (e + 1) by rw [zpow_add₀ (by norm_num), zpow_one]; ring]
      exact fl_rep hm (by omega)
    have g1 : min ≤ guess := by
      rw [hg]
      refine le_fl fm ?_
      rw [le_div_iff₀ (by norm_num)]
      show min * 2 ≤ fl _
      rw [mul_comm]
      exact le_fl (ftwo fm) (by linarith)
    have g2 : guess ≤ max := by
      rw [hg]
      refine fl_le fM ?_
      rw [div_le_iff₀ (by norm_num)]
      show fl _ ≤ max * 2
      rw [mul_comm]
      exact fl_le (ftwo fM) (by linarith)
    have fg : IsF64 guess := by rw [hg]; exact isF64_fl _
    rw [searchStepsF, ← hg] at h
    cases hf : f guess with
    | some val =>
      rw [hf] at h
      dsimp only at h
      by_cases c1 : |val| ≤ threshold
      · rw [if_pos c1] at h
        obtain rfl := Option.some.inj h
        exact ⟨h0.trans g1, g2.trans h2, fg, val, hf, c1⟩
      · rw [if_neg c1] at h
        by_cases c2 : val < 0
        · rw [if_pos c2] at h
          exact ih _ _ fg fM (h0.trans g1) g2 h2 h
        · rw [if_neg c2] at h
          exact ih _ _ fm fg h0 g1 (g2.trans h2) h
    | none =>
      rw [hf] at h
      dsimp only at h
      by_cases c2 : nanNegative n = true
      · rw [if_pos c2] at h
        exact ih _ _ fg fM (h0.trans g1) g2 h2 h
      · rw [if_neg c2] at h
        exact ih _ _ fm fg h0 g1 (g2.trans h2) h

/-- **A scale factor which is found is between 0 and 1 and the computed value is below the threshold**, whatever the function
is. -/
theorem searchF_result (nanNegative : ℕ → Bool) (f : ℚ → Option ℚ) (threshold g : ℚ)
    (h : searchF nanNegative f threshold = some g) : 0 ≤ g ∧ g ≤ 1 ∧ IsF64 g ∧ ∃ v, f g = some v ∧ |v| ≤ threshold :=
  searchF_result_aux nanNegative f threshold g _ 0 1 (by decide +kernel) (by decide +kernel) le_rfl (by norm_num) le_rfl h

theorem searchF_same_aux (nanNegative : ℕ → Bool) (f : ℚ → Option ℚ) (threshold g : ℚ) (hg : ∃ m : ℤ, g = m / 2 ^ 53) :
    ∀ (n d : ℕ) (k : ℤ), d + n = 101 → 0 ≤ k → k + 1 ≤ 2 ^ d →
      depthLimitedBinarySearch nanNegative f ((k : ℚ) / 2 ^ d) (((k + 1 : ℤ) : ℚ) / 2 ^ d) threshold d = some g →
      searchStepsF (fun c => nanNegative (100 - c)) f threshold n ((k : ℚ) / 2 ^ d) (((k + 1 : ℤ) : ℚ) / 2 ^ d) = some g := by
  intro n
  induction n with
  | zero =>
    intro d k hd _ _ h
    rw [depthLimitedBinarySearch, if_pos (by unfold maxDepth; omega)] at h
    cases h
  | succ n ih =>
    intro d k hd h0 h1 h
    have hp : (0 : ℚ) < 2 ^ d := by positivity
    have hd52 : d ≤ 52 := by
      by_contra hc
      obtain ⟨m, hm⟩ := hg
      have hmm : ((k : ℚ) / 2 ^ d) < ((k + 1 : ℤ) : ℚ) / 2 ^ d := by
        rw [div_lt_div_iff_of_pos_right hp]
        push_cast
        linarith
      obtain ⟨a1, a2, -⟩ := search_result_aux nanNegative f threshold _ d _ _ g rfl hmm h
      obtain ⟨j, rfl⟩ : ∃ j, d = 53 + j := ⟨d - 53, by omega⟩
      rw [hm] at a1 a2
      have hj : (0 : ℚ) < 2 ^ j := by positivity
      have b1 : (k : ℚ) < m * 2 ^ j := by
        rw [pow_add, div_lt_div_iff₀ (by positivity) (by positivity)] at a1
        have := (mul_lt_mul_iff_left₀ (show (0 : ℚ) < 2 ^ 53 by positivity)).1
          (show (k : ℚ) * 2 ^ 53 < (m * 2 ^ j) * 2 ^ 53 by linarith)
        exact this
      have b2 : m * 2 ^ j < (k + 1 : ℚ) := by
        rw [pow_add, div_lt_div_iff₀ (by positivity) (by positivity)] at a2
        push_cast at a2
        have := (mul_lt_mul_iff_left₀ (show (0 : ℚ) < 2 ^ 53 by positivity)).1
          (show (m * 2 ^ j) * 2 ^ 53 < ((k : ℚ) + 1) * 2 ^ 53 by linarith)
        exact this
      have c1 : k < m * 2 ^ j := by exact_mod_cast b1
      have c2 : m * 2 ^ j < k + 1 := by exact_mod_cast b2
      omega
    have hgu := guess_exact hd52 h0 h1
    have hge : ((k : ℚ) / 2 ^ d + ((k + 1 : ℤ) : ℚ) / 2 ^ d) / 2 = ((2 * k + 1 : ℤ) : ℚ) / 2 ^ (d + 1) := by
      rw [pow_succ]
      push_cast
      field_simp
      ring
    have hmin : (k : ℚ) / 2 ^ d = ((2 * k : ℤ) : ℚ) / 2 ^ (d + 1) := by
      rw [pow_succ]
      push_cast
      field_simp
    have hmax : ((k + 1 : ℤ) : ℚ) / 2 ^ d = ((2 * k + 1 + 1 : ℤ) : ℚ) / 2 ^ (d + 1) := by
      rw [pow_succ]
      push_cast
      field_simp
      ring
    have r1 := ih (d + 1) (2 * k + 1) (by omega) (by omega) (by rw [pow_succ]; omega)
    have r2 := ih (d + 1) (2 * k) (by omega) (by omega) (by rw [pow_succ]; omega)
    rw [← hmax] at r1
    rw [← hmin] at r2
    rw [depthLimitedBinarySearch, if_neg (by unfold maxDepth; omega)] at h
    rw [searchStepsF]
    dsimp only at h ⊢
    rw [hge] at h
    rw [hgu]
    cases hf : f (((2 * k + 1 : ℤ) : ℚ) / 2 ^ (d + 1)) with
    | some val =>
      rw [hf] at h
      dsimp only at h ⊢
      by_cases c1 : |val| ≤ threshold
      · rw [if_pos c1] at h ⊢
        exact h
      · rw [if_neg c1] at h ⊢
        by_cases c2 : val < 0
        · rw [if_pos c2] at h ⊢
          exact r1 h
        · rw [if_neg c2] at h ⊢
          exact r2 h
    | none =>
      rw [hf] at h
      dsimp only at h ⊢
      rw [show 100 - n = d by omega]
      by_cases c2 : nanNegative d = true
      · rw [if_pos c2] at h ⊢
        exact r1 h
      · rw [if_neg c2] at h ⊢
        exact r2 h

/-- **The guesses are not rounded until 53 bits are known**: if the search in exact arithmetic finds a multiple of `2 ^ -53`, the
search in `f64` finds the same. -/
theorem searchF_same (nanNegative : ℕ → Bool) (f : ℚ → Option ℚ) (threshold g : ℚ) (hg : ∃ m : ℤ, g = m / 2 ^ 53)
    (h : binarySearch nanNegative f 0 1 threshold = some g) :
    searchF (fun c => nanNegative (100 - c)) f threshold = some g := by
  have := searchF_same_aux nanNegative f threshold g hg 101 0 0 rfl le_rfl (by norm_num)
  simp only [pow_zero, div_one, Int.cast_zero, zero_add, Int.cast_one] at this
  exact this h

theorem searchF_succeeds_aux (nanNegative : ℕ → Bool) (f : ℚ → ℚ) (F : ℝ → ℝ) (threshold : ℚ) (err root : ℝ)
    (hf : ∀ x : ℚ, IsF64 x → 0 ≤ x → x ≤ 1 → |(f x : ℝ) - F x| ≤ err)
    (hmono : MonotoneOn F (Set.Icc 0 1)) (h0 : 0 ≤ root) (h1 : root ≤ 1) (hroot : F root = 0) (herr : err ≤ threshold)
    (hclose : ∀ x : ℝ, 0 ≤ x → x ≤ 1 → |x - root| ≤ 1 / 2 ^ 53 → |F x| + err ≤ threshold) :
    ∀ (n d : ℕ) (k : ℤ), d + n = 101 → d ≤ 52 → 0 ≤ k → k + 1 ≤ 2 ^ d → (k : ℝ) / 2 ^ d ≤ root → root ≤ (k + 1 : ℝ) / 2 ^ d →
      ∃ g, searchStepsF nanNegative (fun x => some (f x)) threshold n ((k : ℚ) / 2 ^ d) (((k + 1 : ℤ) : ℚ) / 2 ^ d) = some g := by
  intro n
  induction n with
  | zero => intro d k e hd; omega
  | succ n ih =>
    intro d k e hd k0 k1 b0 b1
    have hgu := guess_exact hd k0 k1
    have fgu := isF64_half d hd k0 k1
    have hpR : (0 : ℝ) < 2 ^ d := by positivity
    have kR0 : (0 : ℝ) ≤ k := by exact_mod_cast k0
    have kR1 : (k : ℝ) + 1 ≤ 2 ^ d := by exact_mod_cast k1
    have egu : (((((2 * k + 1 : ℤ) : ℚ) / 2 ^ (d + 1) : ℚ)) : ℝ) = (2 * k + 1) / 2 ^ (d + 1) := by push_cast; ring
    obtain ⟨guess, hguess⟩ : ∃ guess : ℚ, guess = ((2 * k + 1 : ℤ) : ℚ) / 2 ^ (d + 1) := ⟨_, rfl⟩
    rw [← hguess] at hgu fgu egu
    have eR : (guess : ℝ) = ((k : ℝ) / 2 ^ d + (k + 1 : ℝ) / 2 ^ d) / 2 := by
      rw [egu, pow_succ]
      field_simp
      ring
    have m0 : (0 : ℝ) ≤ (k : ℝ) / 2 ^ d := div_nonneg kR0 hpR.le
    have m1 : (k + 1 : ℝ) / 2 ^ d ≤ 1 := (div_le_one hpR).2 kR1
    have hw : (k + 1 : ℝ) / 2 ^ d - (k : ℝ) / 2 ^ d = 1 / 2 ^ d := by
      rw [← sub_div]
      ring
    have hwp : (0 : ℝ) < 1 / 2 ^ d := by positivity
    have gr0 : (0 : ℝ) ≤ guess := by rw [eR]; linarith
    have gr1 : (guess : ℝ) ≤ 1 := by rw [eR]; linarith
    have g0 : 0 ≤ guess := by exact_mod_cast gr0
    have g1 : guess ≤ 1 := by exact_mod_cast gr1
    have hfe := abs_le.1 (hf guess fgu g0 g1)
    have hmin : (k : ℚ) / 2 ^ d = ((2 * k : ℤ) : ℚ) / 2 ^ (d + 1) := by
      rw [pow_succ]
      push_cast
      field_simp
    have hmax : ((k + 1 : ℤ) : ℚ) / 2 ^ d = ((2 * k + 1 + 1 : ℤ) : ℚ) / 2 ^ (d + 1) := by
      rw [pow_succ]
      push_cast
      field_simp
      ring
    rw [searchStepsF]
    dsimp only
    rw [hgu]
    by_cases c1 : |f guess| ≤ threshold
    · rw [if_pos c1]
      exact ⟨_, rfl⟩
    rw [if_neg c1]
    have hd51 : d < 52 := by
      by_contra hc
      obtain rfl : d = 52 := by omega
      refine c1 ?_
      have hcl := hclose guess gr0 gr1 (by
        rw [abs_le, eR]
        constructor <;> norm_num at hw b0 b1 ⊢ <;> linarith)
      have : |(f guess : ℝ)| ≤ threshold := by
        have := abs_add_le ((f guess : ℝ) - F guess) (F guess)
        rw [sub_add_cancel] at this
        have h3 := hf guess fgu g0 g1
        linarith
      exact_mod_cast this
    by_cases c2 : f guess < 0
    · rw [if_pos c2]
      rw [hguess, hmax]
      refine ih (d + 1) (2 * k + 1) (by omega) (by omega) (by omega) (by rw [pow_succ]; omega) ?_ ?_
      · have : (guess : ℝ) ≤ root := by
          by_contra hc
          have hFm := hmono ⟨h0, h1⟩ ⟨gr0, gr1⟩ (not_le.1 hc).le
          rw [hroot] at hFm
          rw [abs_of_neg c2] at c1
          have c1' : (threshold : ℝ) < -(f guess : ℝ) := by exact_mod_cast not_le.1 c1
          linarith [hfe.1]
        push_cast
        linarith [egu]
      · refine b1.trans (le_of_eq ?_)
        rw [pow_succ]
        push_cast
        field_simp
        ring
    · rw [if_neg c2]
      rw [hguess, hmin]
      refine ih (d + 1) (2 * k) (by omega) (by omega) (by omega) (by rw [pow_succ]; omega) ?_ ?_
      · refine le_trans (le_of_eq ?_) b0
        rw [pow_succ]
        push_cast
        field_simp
      · have : root ≤ (guess : ℝ) := by
          by_contra hc
          have hFm := hmono ⟨gr0, gr1⟩ ⟨h0, h1⟩ (not_le.1 hc).le
          rw [hroot] at hFm
          rw [abs_of_nonneg (not_lt.1 c2)] at c1
          have c1' : (threshold : ℝ) < (f guess : ℝ) := by exact_mod_cast not_le.1 c1
          linarith [hfe.2]
        push_cast
        linarith [egu]

/-- **The search succeeds**: `F` is monotone on [0, 1] and zero at `root`, the computed values `f` are right up to `err`, and
`F` is so flat that its values at places not further than `2 ^ -53` from `root` are below the threshold, up to `err`. -/
theorem searchF_succeeds (nanNegative : ℕ → Bool) (f : ℚ → ℚ) (F : ℝ → ℝ) (threshold : ℚ) (err root : ℝ)
    (hf : ∀ x : ℚ, IsF64 x → 0 ≤ x → x ≤ 1 → |(f x : ℝ) - F x| ≤ err)
    (hmono : MonotoneOn F (Set.Icc 0 1)) (h0 : 0 ≤ root) (h1 : root ≤ 1) (hroot : F root = 0) (herr : err ≤ threshold)
    (hclose : ∀ x : ℝ, 0 ≤ x → x ≤ 1 → |x - root| ≤ 1 / 2 ^ 53 → |F x| + err ≤ threshold) :
    ∃ g, searchF nanNegative (fun x => some (f x)) threshold = some g ∧ |F g| ≤ threshold + err := by
  obtain ⟨g, hg⟩ := searchF_succeeds_aux nanNegative f F threshold err root hf hmono h0 h1 hroot herr hclose 101 0 0 rfl
    (by norm_num) le_rfl (by norm_num) (by simpa using h0) (by simpa using h1)
  simp only [pow_zero, div_one, Int.cast_zero, zero_add, Int.cast_one] at hg
  refine ⟨g, hg, ?_⟩
  obtain ⟨a1, a2, a3, v, a4, a5⟩ := searchF_result nanNegative _ threshold g hg
  obtain rfl := Option.some.inj a4
  have h3 := hf g a3 a1 a2
  have h4 : |(f g : ℝ)| ≤ threshold := by exact_mod_cast a5
  have := abs_add_le (F g - f g) (f g)
  rw [sub_add_cancel, abs_sub_comm] at this
  linarith

/-- **The scale factor after an elapsed time in `f64`**: if the computed time differences are right up to `err` seconds and the
true scale factor `a1` is at most 1, the search finds a scale factor whose time differs from the requested one by at most 100
years (as `threshold` in `f64`) and `err`. -/
theorem scale_factor_f64 (nanNegative : ℕ → Bool) (p : CosmologyParams) (hp : p.Flat) (a a1 h deltaT err : ℝ)
    (hh : 0 < h) (f : ℚ → ℚ) (threshold : ℚ)
    (hf : ∀ x : ℚ, IsF64 x → 0 ≤ x → x ≤ 1 → |(f x : ℝ) - ((p.time x - p.time a) / (hubble * h) - deltaT)| ≤ err)
    (h0 : 0 ≤ a1) (h1 : a1 ≤ 1) (htrue : (p.time a1 - p.time a) / (hubble * h) = deltaT)
    (herr : 1 / 2 ^ 53 / √p.omega0 / (hubble * h) + err ≤ threshold) :
    ∃ g, searchF nanNegative (fun x => some (f x)) threshold = some g ∧ 0 ≤ g ∧ g ≤ 1 ∧
      |(p.time g - p.time a) / (hubble * h) - deltaT| ≤ threshold + err := by
  have hH : 0 < hubble * h := mul_pos (by unfold hubble; norm_num) hh
  have hs : 0 < √p.omega0 := Real.sqrt_pos.2 hp.matter_pos
  have hmono : ∀ x y : ℝ, 0 ≤ x → x ≤ y → p.time x ≤ p.time y := by
    intro x y hx hxy
    rcases hxy.lt_or_eq with hlt | rfl
    · exact (time_strictMono p hp _ _ hx hlt).le
    · exact le_rfl
  have hpos : 0 ≤ 1 / 2 ^ 53 / √p.omega0 / (hubble * h) := by positivity
  obtain ⟨g, h2, h3⟩ := searchF_succeeds nanNegative f (fun x => (p.time x - p.time a) / (hubble * h) - deltaT) threshold err a1 hf
    (fun x hx y hy hxy => by
      have := div_le_div_of_nonneg_right (sub_le_sub_right (hmono x y hx.1 hxy) (p.time a)) hH.le
      dsimp only
      linarith) h0 h1 (by rw [htrue, sub_self]) (by linarith) (fun x x0 x1 hx => by
        refine le_trans (add_le_add_left ?_ err) herr
        rw [← htrue, ← sub_div, sub_sub_sub_cancel_right, abs_div, abs_of_pos hH]
        refine div_le_div_of_nonneg_right ?_ hH.le
        rcases le_total x a1 with hle | hle
        · rw [abs_sub_comm, abs_of_nonneg (sub_nonneg.2 (hmono x a1 x0 hle))]
          refine (time_lipschitz p hp x a1 x0 hle h1).trans (div_le_div_of_nonneg_right ?_ hs.le)
          rw [abs_sub_comm, abs_of_nonneg (sub_nonneg.2 hle)] at hx
          exact hx
        · rw [abs_of_nonneg (sub_nonneg.2 (hmono a1 x h0 hle))]
          refine (time_lipschitz p hp a1 x h0 hle x1).trans (div_le_div_of_nonneg_right ?_ hs.le)
          rw [abs_of_nonneg (sub_nonneg.2 hle)] at hx
          exact hx)
  obtain ⟨b1, b2, -⟩ := searchF_result nanNegative _ threshold g h2
  exact ⟨g, h2, b1, b2, h3⟩

/-- The hypotheses of `scale_factor_f64` are met: a flat universe with 0.3 and 0.7, the time from scale factor 0.5 to 0.8, errors of
one second. -/
example : ∃ (p : CosmologyParams) (f : ℚ → ℚ) (deltaT : ℝ) (threshold : ℚ), p.Flat ∧ (threshold : ℝ) = 100 * year ∧
    (∀ x : ℚ, IsF64 x → 0 ≤ x → x ≤ 1 → |(f x : ℝ) - ((p.time x - p.time 0.5) / (hubble * 0.7) - deltaT)| ≤ 1) ∧
    (p.time 0.8 - p.time 0.5) / (hubble * 0.7) = deltaT ∧ 1 / 2 ^ 53 / √p.omega0 / (hubble * 0.7) + 1 ≤ (threshold : ℝ) := by
  let p : CosmologyParams := ⟨0.3, 0.7⟩
  have hex : ∀ x : ℚ, ∃ q : ℚ, |(q : ℝ) - ((p.time x - p.time 0.5) / (hubble * 0.7) - (p.time 0.8 - p.time 0.5) / (hubble * 0.7))| ≤ 1 := by
    intro x
    obtain ⟨q, h1, h2⟩ := exists_rat_btwn (show (p.time x - p.time 0.5) / (hubble * 0.7) - (p.time 0.8 - p.time 0.5) / (hubble * 0.7) <
      (p.time x - p.time 0.5) / (hubble * 0.7) - (p.time 0.8 - p.time 0.5) / (hubble * 0.7) + 1 by linarith)
    exact ⟨q, abs_le.2 ⟨by linarith, by linarith⟩⟩
  choose f hf using hex
  refine ⟨p, f, _, 3155760000, ⟨by norm_num [p], by norm_num [p], by norm_num [p, abs_le]⟩, by unfold year; norm_num, fun x _ _ _ => hf x, rfl, ?_⟩
  have hs : (1 / 2 : ℝ) ≤ √p.omega0 := Real.le_sqrt_of_sq_le (by norm_num [p])
  have h1 : (1 : ℝ) / 2 ^ 53 / √p.omega0 ≤ 1 / 2 ^ 53 / (1 / 2) := div_le_div_of_nonneg_left (by norm_num) (by norm_num) hs
  have hH : 0 < hubble * 0.7 := by unfold hubble; norm_num
  have h2 := div_le_div_of_nonneg_right h1 hH.le
  refine (add_le_add_left h2 1).trans ?_
  unfold hubble
  norm_num

/-- The hypotheses of `searchF_same` are met: 5/16 is found. -/
example : ∃ m : ℤ, (5 / 16 : ℚ) = m / 2 ^ 53 := ⟨5 * 2 ^ 49, by norm_num⟩

example : searchF (fun _ => false) (fun x => some (x ^ 2 - 1 / 10)) (1 / 100) = some (5 / 16) := by decide +kernel

/-- **The limit**: with a smaller threshold the search panics although there is a zero: the guesses no longer change. -/
theorem searchF_stuck : searchF (fun _ => false) (fun x => some (x - (1 / 2 + 1 / 2 ^ 54))) (1 / 2 ^ 60) = none ∧
    searchF (fun _ => false) (fun x => some (x - (1 / 2 + 1 / 2 ^ 53))) (1 / 2 ^ 60) = some (1 / 2 + 1 / 2 ^ 53) := by
  decide +kernel

end Verif.Rounding
