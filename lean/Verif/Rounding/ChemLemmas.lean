import Verif.Rounding.ChemModel
import Verif.Rounding.ChemSpec
import Verif.Rounding.ClockProps

/-!
# Lemmas on the sub-steps of the chemistry in `f64`
-/

namespace Verif.Rounding.Chem

open Chemistry

theorem isF64_abs {x : ℚ} (h : IsF64 x) : IsF64 |x| := by
  rcases abs_choice x with e | e <;> rw [e]
  · exact h
  · rw [IsF64, fl_neg, h]

theorem grid_of_f64 {x : ℚ} (h : IsF64 x) : Grid 1074 x := by
  obtain ⟨m, e, _, he, rfl⟩ := (isF64_iff x).1 h
  refine ⟨m * 2 ^ (e + 1074).toNat, ?_⟩
  have : (2 : ℚ) ^ e = 2 ^ (e + 1074).toNat * 2 ^ (-((1074 : ℕ) : ℤ)) := by
    rw [← zpow_natCast, Int.toNat_of_nonneg (by omega), ← two_zpow_add]
    congr 1
    push_cast
    ring
  rw [this]
  push_cast
  ring

/-- The smallest positive number of type `f64`. -/
theorem fl_grid_pos {x : ℚ} (h : Grid 1074 x) (hx : 0 < x) : 0 < fl x := by
  obtain ⟨m, rfl⟩ := h
  have hp : (0 : ℚ) < 2 ^ (-((1074 : ℕ) : ℤ)) := two_zpow_pos _
  have hm : (0 : ℚ) < m := (pos_iff_pos_of_mul_pos hx).2 hp
  have h1 : (1 : ℤ) ≤ m := by exact_mod_cast hm
  have h2 : (2 : ℚ) ^ (-((1074 : ℕ) : ℤ)) ≤ m * 2 ^ (-((1074 : ℕ) : ℤ)) :=
    le_mul_of_one_le_left hp.le (by exact_mod_cast h1)
  exact lt_of_lt_of_le hp (le_fl (fl_two_zpow (by norm_num)) h2)

/-- A change which is less than the value, as far as rounding can tell, leaves it positive. -/
theorem small_change {v c safety : ℚ} (hv : IsF64 v) (hc : IsF64 c) (h0 : 0 < v) (hs : safety < 1) (h : |c ⊘ v| ≤ safety) :
    |c| < v ∧ 0 < v ⊞ c := by
  have h1 : |c| < v := by
    by_contra hn
    push Not at hn
    have : 1 ≤ |c| / v := (one_le_div h0).2 hn
    have h2 : (1 : ℚ) ≤ fl (|c| / v) := le_fl (by decide +kernel : IsF64 1) this
    have h3 : |c ⊘ v| = fl (|c| / v) := by
      unfold fdiv
      rcases abs_choice c with e | e
      · rw [e, abs_of_nonneg (fl_nonneg (div_nonneg (abs_eq_self.1 e) h0.le))]
      · have hc0 : c ≤ 0 := by
          rw [← neg_nonneg, ← e]
          exact abs_nonneg c
        rw [e, neg_div, fl_neg, abs_of_nonpos]
        have := fl_nonneg (x := (-c) / v) (div_nonneg (by linarith) h0.le)
        rw [neg_div, fl_neg] at this
        linarith
    rw [h3] at h
    linarith
  refine ⟨h1, fl_grid_pos ((grid_of_f64 hv).add (grid_of_f64 hc)) ?_⟩
  have := neg_abs_le c
  linarith

theorem isF64_high : IsF64 highF := isF64_fl _

theorem isF64_between {lo hi x : ℚ} (h1 : IsF64 lo) (h2 : IsF64 hi) (h3 : IsF64 x) : IsF64 (between lo hi x) := by
  unfold between
  rcases max_choice lo (min x hi) with e | e <;> rw [e]
  · exact h1
  · rcases min_choice x hi with e | e <;> rw [e]
    · exact h3
    · exact h2

theorem clampF_eq (s : Solver ℚ) (h : lowerF s.floor ≤ highF) : clampF s = some (limited s) := by
  have key : ∀ x lo hi : ℚ, lo ≤ hi → f64Clamp x lo hi = some (between lo hi x) := by
    intro x lo hi hle
    unfold f64Clamp between
    rw [if_pos hle]
    congr 1
    split_ifs with a b
    · rw [min_eq_left (a.le.trans hle), max_eq_left a.le]
    · rw [min_eq_right b.le, max_eq_right hle]
    · push Not at a b
      rw [min_eq_left b, max_eq_right a]
  obtain ⟨x, T, d, v, l, r, a, floor⟩ := s
  cases floor with
  | none =>
    simp only [clampF, limited, lowerF] at h ⊢
    rw [show f64Clamp x epsF upperF = _ from key x _ _ h]
    rfl
  | some f =>
    obtain ⟨f1, f2⟩ := f
    simp only [clampF, limited, lowerF] at h ⊢
    rw [show f64Clamp x f2 upperF = _ from key x _ _ h]
    simp only [Option.bind_eq_bind, Option.bind_some]
    split_ifs with hT
    · rw [max_eq_left hT.le]
      rfl
    · rw [max_eq_right (not_lt.1 hT)]
      rfl

theorem clampF_none (s : Solver ℚ) (h : highF < lowerF s.floor) : clampF s = none := by
  obtain ⟨x, T, d, v, l, r, a, floor⟩ := s
  have key : ∀ x lo hi : ℚ, hi < lo → f64Clamp x lo hi = none := fun x lo hi h => by
    unfold f64Clamp
    rw [if_neg (not_le.2 h)]
  cases floor with
  | none =>
    simp only [clampF, lowerF] at h ⊢
    rw [show f64Clamp x epsF upperF = _ from key x _ _ h]
    rfl
  | some f =>
    obtain ⟨f1, f2⟩ := f
    simp only [clampF, lowerF] at h ⊢
    rw [show f64Clamp x f2 upperF = _ from key x _ _ h]
    rfl

theorem limited_sound {s : Solver ℚ} (h : Start s) : Sound (limited s) := by
  obtain ⟨x, T, d, v, l, r, a, floor⟩ := s
  obtain ⟨h1, h2, h3, h4, h5⟩ := h
  have hlo : IsF64 (lowerF floor) := by
    cases floor with
    | none => exact isF64_fl _
    | some f => exact (h4 f rfl).2
  refine ⟨?_, ?_, ?_, isF64_between hlo isF64_high h3, le_max_left _ _, max_le h5 (min_le_right _ _)⟩
  · cases floor with
    | none => exact h1
    | some f =>
      simp only [limited]
      rcases max_choice f.1 T with e | e <;> rw [e]
      · exact (h4 f rfl).1
      · exact h1
  · cases floor with
    | none => exact h2
    | some f => exact lt_of_lt_of_le h2 (le_max_right _ _)
  · intro f hf
    simp only [limited] at hf
    subst hf
    exact ⟨(h4 f rfl).1, (h4 f rfl).2, le_max_left _ _⟩

theorem limited_self {s : Solver ℚ} (h : Sound s) : limited s = s := by
  obtain ⟨x, T, d, v, l, r, a, floor⟩ := s
  obtain ⟨h1, h2, h3, h4, h5, h6⟩ := h
  simp only at h5 h6
  have hx : between (lowerF floor) highF x = x := by
    unfold between
    rw [min_eq_left h6, max_eq_right h5]
  simp only [limited, hx]
  cases floor with
  | none => rfl
  | some f =>
    have := (h3 f rfl).2.2
    simp only at this
    simp only [max_eq_right this]

theorem Sound.limits {s : Solver ℚ} (h : Sound s) : lowerF s.floor ≤ highF := h.lower.trans h.upper

theorem Sound.start {s : Solver ℚ} (h : Sound s) : Start s :=
  ⟨h.temperature, h.positive, h.fraction, fun f hf => ⟨(h.floor f hf).1, (h.floor f hf).2.1⟩, h.limits⟩

theorem sameCell_limited (s : Solver ℚ) : SameCell s (limited s) := ⟨rfl, rfl, rfl, rfl, rfl, rfl⟩

theorem sameCell_trans {s t u : Solver ℚ} (h : SameCell s t) (h' : SameCell t u) : SameCell s u :=
  ⟨h'.1.trans h.1, h'.2.trans h.2, h'.3.trans h.3, h'.4.trans h.4, h'.5.trans h.5, h'.6.trans h.6⟩

theorem StepsF.append {δT δx : Change ℚ} {safety : ℚ} {a b : List ℚ} {s t u : Solver ℚ} (h : StepsF δT δx safety a s t)
    (h' : StepsF δT δx safety b t u) : StepsF δT δx safety (a ++ b) s u := by
  induction h with
  | nil => exact h'
  | cons hc _ ih => exact .cons hc (ih h')

/-- Outcome of `update`. -/
theorem updateF_spec (value : ℚ) (change : Option ℚ) {safety timestep : ℚ} (hs0 : 0 < safety) (hs : safety < 1)
    (hsF : IsF64 safety) (ht : 0 < timestep) (htF : IsF64 timestep) :
    (∃ c t, change = some c ∧ |c ⊘ value| ≤ safety ∧ updateF value change safety timestep = some (value ⊞ c, some t) ∧
      (timestep : WithTop ℚ) ≤ t) ∨ updateF value change safety timestep = some (value, none) := by
  by_cases h : relativeChangeF change value > safety
  · right
    unfold updateF
    rw [if_pos h]
  · left
    cases change with
    | none =>
      simp only [relativeChangeF] at h
      push Not at h
      have : (1 : ℚ) < 2 ^ 52 := by norm_num
      linarith
    | some c =>
      have hne : value ≠ 0 := by
        intro e
        simp only [relativeChangeF, if_pos e] at h
        push Not at h
        have : (1 : ℚ) < 2 ^ 52 := by norm_num
        linarith
      have hle : |c ⊘ value| ≤ safety := by
        simp only [relativeChangeF, if_neg hne] at h
        push Not at h
        rcases min_le_iff.1 h with h | h
        · exact h
        · have : (1 : ℚ) < 2 ^ 52 := by norm_num
          linarith
      have hrel : relativeChangeF (some c) value = |c ⊘ value| := by
        simp only [relativeChangeF, if_neg hne]
        apply min_eq_left
        have : (1 : ℚ) < 2 ^ 52 := by norm_num
        linarith
      refine ⟨c, _, rfl, hle, by unfold updateF; rw [if_neg h]; rfl, ?_⟩
      rw [hrel]
      split_ifs with h0
      · exact le_top
      · rw [WithTop.coe_le_coe]
        have hpos : 0 < |c ⊘ value| := lt_of_le_of_ne (abs_nonneg _) (Ne.symm h0)
        have h1 : (1 : ℚ) ≤ safety ⊘ |c ⊘ value| := le_fl (by decide +kernel : IsF64 1) ((one_le_div hpos).2 hle)
        exact le_fl htF (le_mul_of_one_le_right ht.le h1)

/-- Outcome of a single update. -/
theorem tryF_spec {δT δx : Change ℚ} (hδT : IsF64Change δT) (s : Solver ℚ) (h : Sound s) {safety timestep : ℚ}
    (hs0 : 0 < safety) (hs : safety < 1) (hsF : IsF64 safety) (ht : 0 < timestep) (htF : IsF64 timestep) :
    (∃ s' t dT dx, tryTimestepUpdateF δT δx s timestep safety = some (s', some t) ∧ AcceptedF δT δx safety timestep s s' dT dx ∧
      Sound s' ∧ SameCell s s' ∧ (timestep : WithTop ℚ) ≤ t.time) ∨
    ∃ s1, tryTimestepUpdateF δT δx s timestep safety = some (s1, none) ∧
      { s1 with temperature := s.temperature, ionizedHydrogenFraction := s.ionizedHydrogenFraction } = s := by
  unfold tryTimestepUpdateF
  rcases updateF_spec s.temperature (δT s timestep) hs0 hs hsF ht htF with ⟨c, t1, hc, hle, e, ht1⟩ | e
  · rw [e]
    simp only [Option.bind_eq_bind, Option.bind_some]
    rcases updateF_spec s.ionizedHydrogenFraction (δx { s with temperature := s.temperature ⊞ c } timestep) hs0 hs hsF ht htF with
      ⟨c', t2, hc', hle', e', ht2⟩ | e'
    · left
      rw [e']
      simp only [Option.bind_some]
      have hpos := small_change h.temperature (hδT _ _ _ hc) h.positive hs hle
      have hst : Start { s with
          temperature := s.temperature ⊞ c, ionizedHydrogenFraction := s.ionizedHydrogenFraction ⊞ c' } :=
        ⟨isF64_fl _, hpos.2, isF64_fl _, fun f hf => ⟨(h.floor f hf).1, (h.floor f hf).2.1⟩, h.limits⟩
      rw [clampF_eq _ hst.limits]
      refine ⟨_, _, c, c', rfl, ⟨hc, hle, hc', hle', rfl⟩, limited_sound hst, ⟨rfl, rfl, rfl, rfl, rfl, rfl⟩, ?_⟩
      unfold Timescale.min
      split_ifs
      · exact ht1
      · exact ht2
    · right
      rw [e']
      exact ⟨_, rfl, rfl⟩
  · right
    rw [e]
    exact ⟨_, rfl, rfl⟩

/-- The time step can be halved `n` times without rounding. -/
def Halves (n : ℕ) (timestep : ℚ) : Prop := ∀ k ≤ n, IsF64 (timestep / 2 ^ k)

/-- Outcome of the recursion. -/
theorem internalF_spec {δT δx : Change ℚ} (hδT : IsF64Change δT) {safety : ℚ} (hs0 : 0 < safety) (hs : safety < 1)
    (hsF : IsF64 safety) : ∀ (n : ℕ) (s : Solver ℚ), Start s → ∀ timestep : ℚ, 0 < timestep → Halves n timestep →
    ∃ s' r durations, performTimestepInternalF δT δx safety n s timestep = some (s', r) ∧ SameCell s s' ∧ Sound s' ∧
      StepsF δT δx safety durations (limited s) s' ∧ (∀ d ∈ durations, ∃ k, k < n ∧ d = timestep / 2 ^ k) ∧
      (∀ t, r = some t → durations.sum = timestep ∧ ∃ d ∈ durations, (d : WithTop ℚ) ≤ t.time) ∧
      (r = none → durations.sum < timestep) := by
  intro n
  induction n with
  | zero =>
    intro s h timestep ht hh
    refine ⟨limited s, none, [], ?_, sameCell_limited s, limited_sound h, .nil _, by simp, by simp, fun _ => by simpa using ht⟩
    unfold performTimestepInternalF
    rw [clampF_eq s h.limits]
    rfl
  | succ n ih =>
    intro s h timestep ht hh
    have htF : IsF64 timestep := by simpa using hh 0 (Nat.zero_le _)
    have hhalf : timestep ⊘ 2 = timestep / 2 := by
      have : IsF64 (timestep / 2) := by simpa using hh 1 (by omega)
      exact this
    unfold performTimestepInternalF
    rw [clampF_eq s h.limits]
    simp only [Option.bind_eq_bind, Option.bind_some]
    rcases tryF_spec (δx := δx) hδT (limited s) (limited_sound h) hs0 hs hsF ht htF with
      ⟨s', t, dT, dx, e, hacc, hso, hcell, hle⟩ | ⟨s1, e, hres⟩
    · rw [e]
      refine ⟨s', some t, [timestep], rfl, sameCell_trans (sameCell_limited s) hcell, hso, .cons hacc (.nil _), ?_, ?_, by simp⟩
      · intro d hd
        exact ⟨0, by omega, by simpa using hd⟩
      · intro t' ht'
        cases ht'
        exact ⟨by simp, timestep, by simp, hle⟩
    · rw [e]
      simp only [Option.bind_some]
      rw [hres, hhalf]
      have hh' : Halves n (timestep / 2) := fun k hk => by
        have := hh (k + 1) (by omega)
        rwa [pow_succ', ← div_div] at this
      have hpow : ∀ k, timestep / 2 / 2 ^ k = timestep / 2 ^ (k + 1) := fun k => by rw [pow_succ', ← div_div]
      obtain ⟨s2, r2, d2, e2, c2, so2, st2, k2, ok2, no2⟩ := ih (limited s) (limited_sound h).start (timestep / 2) (by linarith) hh'
      rw [limited_self (limited_sound h)] at st2
      rw [e2]
      simp only [Option.bind_some]
      cases r2 with
      | none =>
        refine ⟨s2, none, d2, rfl, sameCell_trans (sameCell_limited s) c2, so2, st2, ?_, by simp, fun _ => ?_⟩
        · intro d hd
          obtain ⟨k, hk, e⟩ := k2 d hd
          exact ⟨k + 1, by omega, by rw [e, hpow]⟩
        · have := no2 rfl
          linarith
      | some t2 =>
        obtain ⟨s3, r3, d3, e3, c3, so3, st3, k3, ok3, no3⟩ := ih s2 so2.start (timestep / 2) (by linarith) hh'
        rw [limited_self so2] at st3
        simp only [e3]
        have hsum := (ok2 t2 rfl).1
        refine ⟨s3, r3, d2 ++ d3, rfl, sameCell_trans (sameCell_trans (sameCell_limited s) c2) c3, so3, st2.append st3, ?_, ?_, ?_⟩
        · intro d hd
          rcases List.mem_append.1 hd with hd | hd
          · obtain ⟨k, hk, e⟩ := k2 d hd
            exact ⟨k + 1, by omega, by rw [e, hpow]⟩
          · obtain ⟨k, hk, e⟩ := k3 d hd
            exact ⟨k + 1, by omega, by rw [e, hpow]⟩
        · intro t ht
          obtain ⟨h1, d, hd, hle⟩ := ok3 t ht
          exact ⟨by rw [List.sum_append, hsum, h1]; ring, d, List.mem_append.2 (Or.inr hd), hle⟩
        · intro hr
          have := no3 hr
          rw [List.sum_append, hsum]
          linarith

theorem halves_of {timestep : ℚ} (htF : IsF64 timestep) (ht : (1 : ℚ) / 2 ^ 800 ≤ timestep) : Halves 101 timestep := by
  intro k hk
  have h1 : (1 : ℚ) / 2 ^ 900 ≤ 1 / 2 ^ 800 :=
    one_div_le_one_div_of_le (by positivity) (pow_le_pow_right₀ (by norm_num) (by norm_num))
  rcases Nat.lt_or_ge k 101 with h | h
  · have := fl_half_pow htF (h1.trans ht) (k := k) (by omega)
    rw [one_div_pow, mul_one_div] at this
    exact this
  · have e : k = 100 + 1 := by omega
    subst e
    have h2 : IsF64 (timestep * (1 / 2) ^ 1) := fl_half_pow htF (h1.trans ht) (by omega)
    have h3 : (1 : ℚ) / 2 ^ 900 ≤ timestep * (1 / 2) ^ 1 := by
      have h4 : (1 : ℚ) / 2 ^ 900 ≤ 1 / 2 ^ 800 * (1 / 2) ^ 1 := by
        rw [one_div_pow, one_div_mul_one_div, ← pow_add]
        exact one_div_le_one_div_of_le (by positivity) (pow_le_pow_right₀ (by norm_num) (by norm_num))
      exact h4.trans (mul_le_mul_of_nonneg_right ht (by positivity))
    have h5 := fl_half_pow h2 h3 (k := 100) le_rfl
    have e2 : timestep / 2 ^ (100 + 1) = timestep * (1 / 2) ^ 1 * (1 / 2) ^ 100 := by
      rw [mul_assoc, ← pow_add, one_div_pow, mul_one_div, Nat.add_comm]
    rw [e2]
    exact h5

end Verif.Rounding.Chem
