import Verif.Rounding.ClockModel
import Verif.Rounding.ErrorLemmas
import Verif.Rounding.BinaryProps
import Verif.Rounding.KeyProps
import Verif.Timestep.Props

/-!
# Theorems about the simulation time in `f64`
-/

namespace Verif.Rounding

open Timestep

/-! ### Lemmas -/

theorem cyclesF_succ (dt : ℚ) (c : ℕ) (x : State × ℚ) :
    cyclesF dt (c + 1) x = ((cyclesF dt c x).1.advanceAllowedLevels, (cyclesF dt c x).2 ⊞ maxTimestepF dt (cyclesF dt c x).1) := by
  induction c generalizing x with
  | zero => rfl
  | succ c ih =>
    obtain ⟨s, t⟩ := x
    rw [show cyclesF dt (c + 1 + 1) (s, t) = cyclesF dt (c + 1) (s.advanceAllowedLevels, t ⊞ maxTimestepF dt s) from rfl, ih]
    rfl

theorem cyclesF_state (dt : ℚ) (c : ℕ) (s : State) (t : ℚ) (t' : ℝ) : (cyclesF dt c (s, t)).1 = (cycles c (s, t')).1 := by
  induction c with
  | zero => rfl
  | succ c ih => rw [cyclesF_succ, cycles_succ, ih]

/-- The lowest allowed level in a cycle. -/
theorem cyclesF_lowest (dt : ℚ) (levels : ℕ) (hl : 0 < levels) (c : ℕ) :
    (cyclesF dt c (⟨dt, levels, levels - 1, false⟩, 0)).1.currentLowestAllowed =
      if c = 0 then levels - 1 else levels - min c levels := by
  rw [cyclesF_state dt c _ _ 0, (cycles_spec (dt : ℝ) levels hl c).1]

/-- Halving a number which is not too small is exact. -/
theorem fl_half_pow {x : ℚ} (hx : IsF64 x) (hn : (1 : ℚ) / 2 ^ 900 ≤ x) {k : ℕ} (hk : k ≤ 100) : fl (x * (1 / 2) ^ k) = x * (1 / 2) ^ k := by
  obtain ⟨m, hm, h⟩ := fl_form x
  rw [show fl x = x from hx] at h
  have hx0 : 0 < x := lt_of_lt_of_le (by positivity) hn
  have he : (-900 : ℤ) ≤ scale x := by
    refine le_trans ?_ (le_max_left _ _)
    apply le_expo hx0.ne'
    rw [abs_of_pos hx0, zpow_neg]
    simpa [one_div] using hn
  have e : x * (1 / 2) ^ k = m * (2 : ℚ) ^ (scale x - 52 - k) := by
    have : (2 : ℚ) ^ (scale x - 52 - k) = 2 ^ (scale x - 52) * (1 / 2) ^ k := by
      rw [zpow_sub₀ (by norm_num), zpow_natCast, one_div, inv_pow, div_eq_mul_inv]
    rw [this, ← mul_assoc, ← h]
  have hb : Binary (x * (1 / 2) ^ k) := by
    rcases lt_or_eq_of_le hm with hlt | heq
    · exact ⟨m, scale x - 52 - k, hlt, by omega, e⟩
    · have h2 : m = 2 * 2 ^ 52 ∨ m = 2 * (-2 ^ 52) := by
        rcases abs_choice m with h | h <;> omega
      rcases h2 with h2 | h2
      · refine ⟨2 ^ 52, scale x - 52 - k + 1, by norm_num, by omega, ?_⟩
        rw [e, h2, two_zpow_add]
        push_cast
        ring
      · refine ⟨-2 ^ 52, scale x - 52 - k + 1, by norm_num, by omega, ?_⟩
        rw [e, h2, two_zpow_add]
        push_cast
        ring
  exact (isF64_iff _).2 hb

/-! ## C111 -/

/-- **C111 (start).** While the levels are unlocked there is no rounding: after `c` of the first cycles the time is the time step of the
lowest level which was allowed, and after as many cycles as there are levels it is exactly the maximum time step. -/
theorem clock_start_exact {dt : ℚ} (h64 : IsF64 dt) (hdt : (1 : ℚ) / 2 ^ 900 ≤ dt) {levels : ℕ} (hl : levels ≤ 100) {c : ℕ} (hc : 0 < c)
    (hc' : c ≤ levels) : clockF dt levels c = some (dt / 2 ^ (levels - c)) := by
  unfold clockF State.new
  rw [if_neg (by omega), Option.map_some, Option.some_inj]
  induction c with
  | zero => omega
  | succ c ih =>
    rw [cyclesF_succ]
    unfold maxTimestepF fadd fmul
    rw [cyclesF_lowest dt levels (by omega), ]
    have hdiv : ∀ k, dt / 2 ^ k = dt * (1 / 2) ^ k := fun k => by rw [one_div, inv_pow, div_eq_mul_inv]
    by_cases h0 : c = 0
    · subst h0
      simp only [cyclesF, if_true, zero_add]
      rw [fl_half_pow h64 hdt (by omega), fl_half_pow h64 hdt (by omega), hdiv]
    · rw [ih (by omega) (by omega), if_neg h0, min_eq_left (by omega), fl_half_pow h64 hdt (by omega), hdiv]
      have : dt * (1 / 2) ^ (levels - c) + dt * (1 / 2) ^ (levels - c) = dt * (1 / 2) ^ (levels - (c + 1)) := by
        rw [show levels - c = levels - (c + 1) + 1 by omega, pow_succ]
        ring
      rw [this, fl_half_pow h64 hdt (by omega), hdiv]

theorem clock_succ {dt : ℚ} (h64 : IsF64 dt) {levels c : ℕ} (hl : 0 < levels) (hc : levels ≤ c) {t : ℚ}
    (h : clockF dt levels c = some t) : clockF dt levels (c + 1) = some (fl (t + dt)) := by
  unfold clockF State.new at h ⊢
  rw [if_neg (by omega), Option.map_some, Option.some_inj] at h ⊢
  rw [cyclesF_succ, h]
  unfold maxTimestepF fadd fmul
  rw [cyclesF_lowest dt levels hl, if_neg (by omega), min_eq_right hc, Nat.sub_self, pow_zero, mul_one]
  rw [show fl dt = dt from h64]

/-- **C111 (accuracy).** Once all levels are allowed, the time after `k` maximum time steps is right up to `k² 2⁻⁵³` time steps. -/
theorem clock_accurate {dt : ℚ} (h64 : IsF64 dt) (hdt : (1 : ℚ) / 2 ^ 900 ≤ dt) {levels : ℕ} (hl0 : 0 < levels) (hl : levels ≤ 100) {k : ℕ}
    (hk : 0 < k) (hk' : k ≤ 2 ^ 52) :
    ∃ t, clockF dt levels (levels + k - 1) = some t ∧ |t - k * dt| ≤ (k : ℚ) ^ 2 / 2 ^ 53 * dt := by
  have hdt0 : 0 < dt := lt_of_lt_of_le (by positivity) hdt
  induction k with
  | zero => omega
  | succ k ih =>
    by_cases h0 : k = 0
    · subst h0
      refine ⟨dt, ?_, ?_⟩
      · rw [show levels + (0 + 1) - 1 = levels by omega, clock_start_exact h64 hdt hl hl0 le_rfl]
        simp
      · simp
        positivity
    · obtain ⟨t, ht, herr⟩ := ih (by omega) (by omega)
      have hstep := clock_succ h64 hl0 (by omega) ht
      rw [show levels + k - 1 + 1 = levels + (k + 1) - 1 by omega] at hstep
      refine ⟨_, hstep, ?_⟩
      obtain ⟨e1, e2⟩ := abs_le.1 herr
      have hk1 : (1 : ℚ) ≤ k := by exact_mod_cast (by omega : 1 ≤ k)
      have hk2 : (k : ℚ) ≤ 2 ^ 52 := by exact_mod_cast (by omega : k ≤ 2 ^ 52)
      have hkk : (k : ℚ) ^ 2 / 2 ^ 53 ≤ k / 2 := by
        rw [div_le_div_iff₀ (by norm_num) (by norm_num)]
        nlinarith
      have hb : (k : ℚ) ^ 2 / 2 ^ 53 * dt ≤ k / 2 * dt := by gcongr
      have ht0 : 0 ≤ t := by nlinarith
      have hrel := (fl_pos_bounds (x := t + dt) (by
        refine le_trans ?_ (le_add_of_nonneg_left ht0)
        refine le_trans ?_ hdt
        exact one_div_le_one_div_of_le (by positivity) (pow_le_pow_right₀ (by norm_num) (by norm_num))))
      obtain ⟨r1, r2⟩ := hrel
      push_cast
      have hT : (t + dt) * (1 / 2 ^ 53) ≤ (3 / 2 * k + 1) / 2 ^ 53 * dt := by
        rw [mul_one_div, div_mul_eq_mul_div]
        gcongr
        linarith
      have hfin : (k : ℚ) ^ 2 / 2 ^ 53 * dt + (3 / 2 * k + 1) / 2 ^ 53 * dt ≤ (k + 1) ^ 2 / 2 ^ 53 * dt := by
        rw [← add_mul, ← add_div]
        gcongr
        nlinarith
      rw [abs_le]
      constructor <;> linarith

/-- Halving makes a step smaller. -/
theorem maxTimestepF_le {dt : ℚ} (h64 : IsF64 dt) (hdt : 0 < dt) (s : State) : 0 ≤ maxTimestepF dt s ∧ maxTimestepF dt s ≤ dt := by
  unfold maxTimestepF fmul
  constructor
  · exact fl_nonneg (by positivity)
  · exact fl_le h64 (mul_le_of_le_one_right hdt.le (pow_le_one₀ (by norm_num) (by norm_num)))

theorem clock_some (dt : ℚ) {levels : ℕ} (hl : 0 < levels) (c : ℕ) :
    clockF dt levels c = some (cyclesF dt c (⟨dt, levels, levels - 1, false⟩, 0)).2 := by
  unfold clockF State.new
  rw [if_neg (by omega), Option.map_some]

theorem clock_zero (dt : ℚ) {levels : ℕ} (hl : 0 < levels) : clockF dt levels 0 = some 0 := by
  rw [clock_some dt hl]
  rfl

/-- The computed time compared to that of exact arithmetic, for a million maximum time steps. -/
theorem clock_close {dt : ℚ} (h64 : IsF64 dt) (hdt : (1 : ℚ) / 2 ^ 900 ≤ dt) {levels : ℕ} (hl0 : 0 < levels) (hl : levels ≤ 100) {c : ℕ}
    (hc : c < levels + 2 ^ 20) :
    ∃ t, clockF dt levels c = some t ∧ |(t : ℝ) - (cycles c (⟨dt, levels, levels - 1, false⟩, 0)).2| ≤ dt / 2 ^ 13 ∧
      (c ≤ levels → (t : ℝ) = (cycles c (⟨dt, levels, levels - 1, false⟩, 0)).2) := by
  have hdt0 : 0 < dt := lt_of_lt_of_le (by positivity) hdt
  have hdtR : (0 : ℝ) < dt := by exact_mod_cast hdt0
  rw [(cycles_spec (dt : ℝ) levels hl0 c).2]
  by_cases h0 : c = 0
  · subst h0
    refine ⟨0, clock_zero dt hl0, ?_, fun _ => by simp⟩
    simp
    positivity
  · rw [if_neg h0]
    by_cases hle : c ≤ levels
    · rw [if_pos hle]
      have e : ((dt / 2 ^ (levels - c) : ℚ) : ℝ) = dt * asFactor (levels - c) := by
        unfold asFactor
        push_cast
        rw [one_div, inv_pow, div_eq_mul_inv]
      refine ⟨_, clock_start_exact h64 hdt hl (by omega) hle, ?_, fun _ => e⟩
      rw [e, sub_self, abs_zero]
      positivity
    · rw [if_neg hle]
      obtain ⟨t, ht, herr⟩ := clock_accurate h64 hdt hl0 hl (k := c - levels + 1) (by omega) (by
        have : (2 : ℕ) ^ 20 ≤ 2 ^ 52 := by norm_num
        omega)
      rw [show levels + (c - levels + 1) - 1 = c by omega] at ht
      refine ⟨t, ht, ?_, fun h => absurd h hle⟩
      have hk : ((c - levels + 1 : ℕ) : ℚ) ≤ 2 ^ 20 := by exact_mod_cast (by omega : c - levels + 1 ≤ 2 ^ 20)
      have hk0 : (0 : ℚ) ≤ ((c - levels + 1 : ℕ) : ℚ) := by positivity
      have hb : ((c - levels + 1 : ℕ) : ℚ) ^ 2 / 2 ^ 53 * dt ≤ dt / 2 ^ 13 := by
        have h2 : ((c - levels + 1 : ℕ) : ℚ) ^ 2 ≤ (2 ^ 20) ^ 2 := by gcongr
        have : ((c - levels + 1 : ℕ) : ℚ) ^ 2 / 2 ^ 53 * dt ≤ (2 ^ 20) ^ 2 / 2 ^ 53 * dt := by gcongr
        refine this.trans (le_of_eq ?_)
        norm_num
        ring
      have h := herr.trans hb
      have hR : |(t : ℝ) - ((c - levels + 1 : ℕ) : ℝ) * dt| ≤ dt / 2 ^ 13 := by exact_mod_cast h
      push_cast [Nat.cast_sub (by omega : levels ≤ c)] at hR
      rw [mul_comm (dt : ℝ)]
      exact hR

/-- **C111 (progress).** The time grows in every call, by at least half a time step once all levels are allowed. -/
theorem clock_grows {dt : ℚ} (h64 : IsF64 dt) (hdt : (1 : ℚ) / 2 ^ 900 ≤ dt) {levels : ℕ} (hl0 : 0 < levels) (hl : levels ≤ 100) {c : ℕ}
    (hc : c < levels + 2 ^ 50) {t t' : ℚ} (ht : clockF dt levels c = some t) (ht' : clockF dt levels (c + 1) = some t') :
    t < t' ∧ (levels ≤ c → t + dt / 2 ≤ t') := by
  have hdt0 : 0 < dt := lt_of_lt_of_le (by positivity) hdt
  by_cases hle : levels ≤ c
  · suffices h : t + dt / 2 ≤ t' from ⟨by linarith, fun _ => h⟩
    rw [clock_succ h64 hl0 hle ht, Option.some_inj] at ht'
    subst ht'
    obtain ⟨t2, ht2, herr⟩ := clock_accurate h64 hdt hl0 hl (k := c - levels + 1) (by omega) (by
      have : (2 : ℕ) ^ 50 ≤ 2 ^ 52 := by norm_num
      omega)
    rw [show levels + (c - levels + 1) - 1 = c by omega, ht, Option.some_inj] at ht2
    subst ht2
    have hk : ((c - levels + 1 : ℕ) : ℚ) ≤ 2 ^ 50 := by exact_mod_cast (by omega : c - levels + 1 ≤ 2 ^ 50)
    have hk1 : (1 : ℚ) ≤ ((c - levels + 1 : ℕ) : ℚ) := by exact_mod_cast (by omega : 1 ≤ c - levels + 1)
    generalize ((c - levels + 1 : ℕ) : ℚ) = k at *
    have hkk : k ^ 2 / 2 ^ 53 ≤ k / 2 := by
      rw [div_le_div_iff₀ (by norm_num) (by norm_num)]
      nlinarith
    have hb : k ^ 2 / 2 ^ 53 * dt ≤ k / 2 * dt := by gcongr
    have hkd : k * dt ≤ 2 ^ 50 * dt := by gcongr
    have hkd0 : 0 ≤ k * dt := by positivity
    obtain ⟨e1, e2⟩ := abs_le.1 herr
    have ht0 : 0 ≤ t := by linarith
    obtain ⟨r1, -⟩ := (fl_pos_bounds (x := t + dt) (by
      refine le_trans ?_ (le_add_of_nonneg_left ht0)
      refine le_trans ?_ hdt
      exact one_div_le_one_div_of_le (by positivity) (pow_le_pow_right₀ (by norm_num) (by norm_num))))
    rw [mul_sub, mul_one] at r1
    norm_num at r1 hkd ⊢
    linarith
  · refine ⟨?_, fun h => absurd h hle⟩
    rw [clock_start_exact h64 hdt hl (by omega) (by omega), Option.some_inj] at ht'
    by_cases h0 : c = 0
    · subst h0
      rw [clock_zero dt hl0, Option.some_inj] at ht
      subst ht ht'
      positivity
    · rw [clock_start_exact h64 hdt hl (by omega) (by omega), Option.some_inj] at ht
      subst ht ht'
      rw [show levels - c = levels - (c + 1) + 1 by omega, pow_succ, ← div_div]
      have : 0 < dt / 2 ^ (levels - (c + 1)) := by positivity
      linarith

/-- **C111 (end of the run).** A run to a final time of up to a million time steps gets there, and the time at its end is beyond the final
time by at most one time step and its rounding. -/
theorem clock_reaches {dt : ℚ} (h64 : IsF64 dt) (hdt : (1 : ℚ) / 2 ^ 900 ≤ dt) {levels : ℕ} (hl0 : 0 < levels) (hl : levels ≤ 100)
    {final : ℚ} (hf : 0 < final) (hf' : final ≤ (2 ^ 20 - 2) * dt) :
    ∃ c t, clockF dt levels c = some t ∧ final ≤ t ∧ (∀ c' < c, ∀ t', clockF dt levels c' = some t' → t' < final) ∧
      t < final + dt + dt / 2 ^ 32 ∧ c ≤ levels + ⌈final / dt⌉₊ := by
  have hdt0 : 0 < dt := lt_of_lt_of_le (by positivity) hdt
  set k := ⌈final / dt⌉₊ + 1 with hkdef
  have hceil : final / dt ≤ ⌈final / dt⌉₊ := Nat.le_ceil _
  have hceil' : ⌈final / dt⌉₊ ≤ 2 ^ 20 - 2 := by
    rw [Nat.ceil_le]
    rw [div_le_iff₀ hdt0]
    refine hf'.trans (le_of_eq ?_)
    norm_num
  have hk20 : k ≤ 2 ^ 20 - 1 := by
    have : (2 : ℕ) ≤ 2 ^ 20 := by norm_num
    omega
  have hreach : ∃ c t, clockF dt levels c = some t ∧ final ≤ t ∧ c ≤ levels + ⌈final / dt⌉₊ := by
    obtain ⟨t, ht, herr⟩ := clock_accurate h64 hdt hl0 hl (k := k) (by omega) (by
      have : (2 : ℕ) ^ 20 ≤ 2 ^ 52 := by norm_num
      omega)
    refine ⟨_, t, ht, ?_, by omega⟩
    obtain ⟨e1, -⟩ := abs_le.1 herr
    have hkq : (k : ℚ) ≤ 2 ^ 20 := by exact_mod_cast (by omega : k ≤ 2 ^ 20)
    have hk0 : (0 : ℚ) ≤ k := by positivity
    have h2 : (k : ℚ) ^ 2 ≤ (2 ^ 20) ^ 2 := by gcongr
    have h3 : (k : ℚ) ^ 2 / 2 ^ 53 * dt ≤ 1 * dt := by
      refine mul_le_mul_of_nonneg_right ?_ hdt0.le
      rw [div_le_one (by norm_num)]
      refine h2.trans (by norm_num)
    have h4 : final ≤ (k - 1 : ℚ) * dt := by
      rw [hkdef]
      push_cast
      rw [add_sub_cancel_right, ← div_le_iff₀ hdt0]
      exact hceil
    linarith
  classical
  have hex : ∃ c, ∃ t, clockF dt levels c = some t ∧ final ≤ t := by
    obtain ⟨c, t, h1, h2, -⟩ := hreach
    exact ⟨c, t, h1, h2⟩
  obtain ⟨t, ht, hft⟩ := Nat.find_spec hex
  have hmin : ∀ c' < Nat.find hex, ∀ t', clockF dt levels c' = some t' → t' < final := by
    intro c' hc' t' ht'
    by_contra hcon
    exact Nat.find_min hex hc' ⟨t', ht', not_lt.1 hcon⟩
  refine ⟨Nat.find hex, t, ht, hft, hmin, ?_, ?_⟩
  · have hpos : Nat.find hex ≠ 0 := by
      intro h0
      rw [h0, clock_zero dt hl0, Option.some_inj] at ht
      linarith
    obtain ⟨c, hc⟩ := Nat.exists_eq_succ_of_ne_zero hpos
    have hlt := hmin c (by omega) _ (clock_some dt hl0 c)
    rw [hc, clock_some dt hl0, Option.some_inj, cyclesF_succ] at ht
    subst ht
    obtain ⟨m1, m2⟩ := maxTimestepF_le h64 hdt0 (cyclesF dt c (⟨dt, levels, levels - 1, false⟩, 0)).1
    generalize (cyclesF dt c (⟨dt, levels, levels - 1, false⟩, 0)).2 = t at *
    generalize maxTimestepF dt (cyclesF dt c (⟨dt, levels, levels - 1, false⟩, 0)).1 = m at *
    have hmono : fl (t + m) ≤ fl (final + dt) := fl_mono (by linarith)
    obtain ⟨-, r2⟩ := (fl_pos_bounds (x := final + dt) (by
      refine le_trans ?_ (le_add_of_nonneg_left hf.le)
      refine le_trans ?_ hdt
      exact one_div_le_one_div_of_le (by positivity) (pow_le_pow_right₀ (by norm_num) (by norm_num))))
    show fl (t + m) < _
    rw [mul_add, mul_one] at r2
    norm_num at r2 hf' ⊢
    linarith
  · obtain ⟨c, t, h1, h2, h3⟩ := hreach
    exact (Nat.find_min' hex ⟨t, h1, h2⟩).trans h3

/-- **C111 (number of calls).** The number of calls until the final time is that of exact arithmetic up to one. -/
theorem clock_count {dt : ℚ} (h64 : IsF64 dt) (hdt : (1 : ℚ) / 2 ^ 900 ≤ dt) {levels : ℕ} (hl0 : 0 < levels) (hl : levels ≤ 100)
    {final : ℚ} {c : ℕ} {t : ℚ} (ht : clockF dt levels c = some t) (hft : final ≤ t)
    (hmin : ∀ c' < c, ∀ t', clockF dt levels c' = some t' → t' < final) {s0 : State} (hs0 : State.new dt levels = some s0) {c0 : ℕ}
    (h0 : (final : ℝ) ≤ (cycles c0 (s0, 0)).2) (hmin0 : ∀ c' < c0, (cycles c' (s0, 0)).2 < final) (hc0 : c0 < levels + (2 ^ 20 - 2)) :
    c ≤ c0 + 1 ∧ c0 ≤ c + 1 := by
  have hdt0 : 0 < dt := lt_of_lt_of_le (by positivity) hdt
  have hdtR : (0 : ℝ) < dt := by exact_mod_cast hdt0
  unfold State.new at hs0
  rw [if_neg (by omega), Option.some_inj] at hs0
  subst hs0
  have hstep : ∀ n, levels ≤ n → (cycles (n + 1) (⟨dt, levels, levels - 1, false⟩, 0)).2 =
      (cycles n (⟨dt, levels, levels - 1, false⟩, 0)).2 + dt := by
    intro n hn
    rw [cycles_succ]
    simp only [State.currentMaxTimestep]
    rw [(cycles_spec (dt : ℝ) levels hl0 n).1, if_neg (by omega), min_eq_right hn, Nat.sub_self]
    simp [asFactor]
  constructor
  · by_contra hcon
    push Not at hcon
    by_cases hle : c0 ≤ levels
    · obtain ⟨t2, ht2, -, h2⟩ := clock_close h64 hdt hl0 hl (c := c0) (by omega)
      have h3 := hmin c0 (by omega) t2 ht2
      rw [← h2 hle] at h0
      exact absurd (by exact_mod_cast h0 : final ≤ t2) (not_le.2 h3)
    · obtain ⟨t2, ht2, h2, -⟩ := clock_close h64 hdt hl0 hl (c := c0 + 1) (by omega)
      have h3 := hmin (c0 + 1) (by omega) t2 ht2
      have h3R : (t2 : ℝ) < final := by exact_mod_cast h3
      rw [hstep c0 (by omega)] at h2
      have := (abs_le.1 h2).1
      norm_num at this
      linarith
  · by_contra hcon
    push Not at hcon
    obtain ⟨t2, ht2, h2, h3⟩ := clock_close h64 hdt hl0 hl (c := c) (by omega)
    rw [ht, Option.some_inj] at ht2
    subst ht2
    have hftR : (final : ℝ) ≤ t := by exact_mod_cast hft
    by_cases hle : c ≤ levels
    · have := hmin0 c (by omega)
      rw [← h3 hle] at this
      linarith
    · have := hmin0 (c + 1) (by omega)
      rw [hstep c (by omega)] at this
      have h4 := (abs_le.1 h2).2
      norm_num at h4
      linarith

/-- **C111, limit.** The time never exceeds 2⁵⁵ maximum time steps; a run to a later final time does not end. -/
theorem clock_bounded {dt : ℚ} (h64 : IsF64 dt) (hdt : (1 : ℚ) / 2 ^ 900 ≤ dt) {levels : ℕ} (c : ℕ) {t : ℚ}
    (ht : clockF dt levels c = some t) : t ≤ 2 ^ 55 * dt := by
  have hdt0 : 0 < dt := lt_of_lt_of_le (by positivity) hdt
  have hl : 0 < levels := by
    by_contra h0
    have : levels = 0 := by omega
    subst this
    simp [clockF, State.new] at ht
  obtain ⟨e1, e2⟩ := expo_spec hdt0.ne'
  rw [abs_of_pos hdt0] at e1 e2
  have he : (-900 : ℤ) ≤ expo dt := by
    apply le_expo hdt0.ne'
    rw [abs_of_pos hdt0, zpow_neg]
    simpa [one_div] using hdt
  generalize expo dt = e at *
  have hZ : fl ((2 : ℚ) ^ (e + 55) + dt) = (2 : ℚ) ^ (e + 55) := by
    have hZ0 := two_zpow_pos (e + 55)
    have hne : (2 : ℚ) ^ (e + 55) + dt ≠ 0 := by positivity
    have hlt : dt < (2 : ℚ) ^ (e + 55) := e2.trans_le (two_zpow_le (by omega))
    have hs : scale ((2 : ℚ) ^ (e + 55) + dt) = e + 55 := by
      have h1 : e + 55 ≤ expo ((2 : ℚ) ^ (e + 55) + dt) := by
        apply le_expo hne
        rw [abs_of_pos (by positivity)]
        linarith
      have h2 : expo ((2 : ℚ) ^ (e + 55) + dt) < e + 55 + 1 := by
        apply expo_lt hne
        rw [abs_of_pos (by positivity), two_zpow_add (e + 55)]
        linarith
      unfold scale
      omega
    unfold fl
    rw [hs]
    have hq : ((2 : ℚ) ^ (e + 55) + dt) * 2 ^ (52 - (e + 55)) = 2 ^ 52 + dt * 2 ^ (-3 - e) := by
      rw [add_mul, ← two_zpow_add, show e + 55 + (52 - (e + 55)) = (52 : ℕ) by push_cast; ring, zpow_natCast,
        show 52 - (e + 55) = -3 - e by ring]
    have hsmall : dt * (2 : ℚ) ^ (-3 - e) < 1 / 2 := by
      have : dt * (2 : ℚ) ^ (-3 - e) < (2 : ℚ) ^ (e + 1) * 2 ^ (-3 - e) := by
        have := two_zpow_pos (-3 - e)
        gcongr
      rw [← two_zpow_add, show e + 1 + (-3 - e) = -2 by ring] at this
      norm_num at this ⊢
      linarith
    have hpos : 0 < dt * (2 : ℚ) ^ (-3 - e) := mul_pos hdt0 (two_zpow_pos _)
    rw [hq]
    generalize dt * (2 : ℚ) ^ (-3 - e) = d at *
    have hfl : ⌊(2 : ℚ) ^ 52 + d⌋ = 2 ^ 52 := by
      rw [Int.floor_eq_iff]
      push_cast
      constructor <;> linarith
    unfold nearest
    rw [hfl]
    push_cast
    rw [if_pos (by linarith)]
    push_cast
    rw [show (4503599627370496 : ℚ) = (2 : ℚ) ^ (52 : ℤ) by norm_num, ← two_zpow_add]
    congr 1
    ring
  have key : t ≤ (2 : ℚ) ^ (e + 55) := by
    induction c generalizing t with
    | zero =>
      rw [clock_zero dt hl, Option.some_inj] at ht
      subst ht
      exact (two_zpow_pos _).le
    | succ c ih =>
      have h1 := ih (clock_some dt hl c)
      rw [clock_some dt hl, Option.some_inj, cyclesF_succ] at ht
      subst ht
      rw [← hZ]
      exact fl_mono (add_le_add h1 (maxTimestepF_le h64 hdt0 _).2)
  refine key.trans ?_
  rw [two_zpow_add, mul_comm]
  have : (2 : ℚ) ^ (55 : ℤ) = 2 ^ 55 := by norm_cast
  rw [this]
  gcongr

/-! ### The hypotheses are met -/

/-- A time step of 1e13 seconds, and five levels: after four calls the time is half a time step, after 10 calls six time steps. -/
example : IsF64 (10 ^ 13) ∧ (1 : ℚ) / 2 ^ 900 ≤ 10 ^ 13 := by decide +kernel

example : clockF (10 ^ 13) 5 4 = some (10 ^ 13 / 2) := by
  have h : IsF64 (10 ^ 13) ∧ (1 : ℚ) / 2 ^ 900 ≤ 10 ^ 13 := by decide +kernel
  rw [clock_start_exact h.1 h.2 (by norm_num) (by norm_num) (by norm_num)]
  norm_num

end Verif.Rounding
