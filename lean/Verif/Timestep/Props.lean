import Verif.Timestep.Model
import Mathlib.Algebra.Order.Floor.Semiring
import Mathlib.Data.Nat.Bitwise
import Mathlib.Tactic.Ring
import Mathlib.Tactic.FieldSimp
import Mathlib.Tactic.Linarith
import Mathlib.Tactic.Positivity

/-!
# C25, C26, C27: hierarchical time stepping
-/

namespace Verif.Timestep

/-! ### Lowest set bit -/

theorem and_shift_pos (i b : Nat) : i &&& (1 <<< b) > 0 ↔ i.testBit b = true := by
  rw [Nat.one_shiftLeft, Nat.and_two_pow]
  cases h : i.testBit b <;> simp

theorem dvd_iff_bits (i k : Nat) : 2 ^ k ∣ i ↔ ∀ b, b < k → i.testBit b = false := by
  rw [Nat.dvd_iff_mod_eq_zero]
  constructor
  · intro h b hb
    have : (i % 2 ^ k).testBit b = false := by rw [h]; simp
    rw [Nat.testBit_mod_two_pow] at this
    simpa [hb] using this
  · intro h
    apply Nat.eq_of_testBit_eq
    intro b
    rw [Nat.testBit_mod_two_pow, Nat.zero_testBit]
    by_cases hb : b < k
    · simp [hb, h b hb]
    · simp [hb]

theorem findLowestSetBit_some (i b : Nat) (h : findLowestSetBit i = some b) :
    b < 32 ∧ ∀ k, 2 ^ k ∣ i ↔ k ≤ b := by
  unfold findLowestSetBit at h
  rw [List.find?_range_eq_some] at h
  obtain ⟨h1, h2, h3⟩ := h
  have h1 : i.testBit b = true := by
    simpa [and_shift_pos] using h1
  refine ⟨List.mem_range.mp h2, ?_⟩
  intro k
  rw [dvd_iff_bits]
  constructor
  · intro h
    by_contra hk
    have := h b (by omega)
    rw [h1] at this; exact absurd this (by simp)
  · intro hk c hc
    have := h3 c (by omega)
    simpa [and_shift_pos, Nat.and_two_pow] using this

theorem findLowestSetBit_none (i : Nat) (hi : i < 2 ^ 32) : findLowestSetBit i = none ↔ i = 0 := by
  unfold findLowestSetBit
  rw [List.find?_eq_none]
  constructor
  · intro h
    apply Nat.eq_of_testBit_eq
    intro b
    rw [Nat.zero_testBit]
    by_cases hb : b < 32
    · have := h b (List.mem_range.mpr hb)
      by_contra hcon
      have hcon : i.testBit b = true := by simpa using hcon
      exact this (by simpa [and_shift_pos] using (and_shift_pos i b).mpr hcon)
    · exact Nat.testBit_eq_false_of_lt (Nat.lt_of_lt_of_le hi (Nat.pow_le_pow_right (by omega)
        (by omega)))
  · rintro rfl b _
    simp

/-- The offset of the level of sweep `i` in a cycle with `m` allowed levels. -/
theorem lowestActive_spec (s : State) (hs : s.maxNumLevels < 32) (m i : Nat) (hm : 0 < m)
    (hm' : m ≤ 31) (hi : i < 2 ^ (m - 1)) :
    ∃ l, s.lowestActiveFromIteration i m = some l ∧ l ≤ m - 1 ∧
      ∀ k, k ≤ m - 1 → (l ≤ k ↔ 2 ^ (m - 1 - k) ∣ i) := by
  unfold State.lowestActiveFromIteration
  rw [if_pos hs]
  have hi32 : i < 2 ^ 32 := Nat.lt_of_lt_of_le hi (Nat.pow_le_pow_right (by omega) (by omega))
  cases h : findLowestSetBit i with
  | none =>
    have := (findLowestSetBit_none i hi32).mp h
    subst this
    refine ⟨0, by simp, by omega, ?_⟩
    intro k _
    simp
  | some b =>
    obtain ⟨_, hb⟩ := findLowestSetBit_some i b h
    have hipos : 0 < i := by
      by_contra hcon
      have : i = 0 := by omega
      rw [(findLowestSetBit_none i hi32).mpr this] at h
      simp at h
    have hble : b ≤ m - 1 := by
      by_contra hcon
      have hd : 2 ^ (m - 1) ∣ i := (hb _).mpr (by omega)
      have := Nat.le_of_dvd hipos hd
      omega
    refine ⟨m - 1 - b, by simp [hble], by omega, ?_⟩
    intro k hk
    rw [hb]
    omega

/-- A state as it occurs in a simulation. -/
structure State.Ok (s : State) : Prop where
  lt : s.currentLowestAllowed < s.maxNumLevels
  small : s.maxNumLevels < 32

theorem iterLevels_spec (s : State) (hs : s.Ok) :
    ∃ ls, s.iterLevelsInSweepOrder = some ls ∧ ls.length = 2 ^ (s.numAllowedLevels - 1) ∧
      ∀ i l, ls[i]? = some l → s.currentLowestAllowed ≤ l ∧ l < s.maxNumLevels ∧
        ∀ k, s.currentLowestAllowed ≤ k → k < s.maxNumLevels →
          (l ≤ k ↔ 2 ^ (s.maxNumLevels - 1 - k) ∣ i) := by
  have hm : s.numAllowedLevels = s.maxNumLevels - s.currentLowestAllowed := rfl
  have h1 := hs.lt
  have h2 := hs.small
  have he1 : ∀ k, s.currentLowestAllowed ≤ k → k < s.maxNumLevels →
      k - s.currentLowestAllowed ≤ s.numAllowedLevels - 1 := by intros; omega
  have he2 : ∀ k, s.currentLowestAllowed ≤ k → k < s.maxNumLevels →
      s.numAllowedLevels - 1 - (k - s.currentLowestAllowed) = s.maxNumLevels - 1 - k := by
    intros; omega
  have hgen : ∀ n, n ≤ 2 ^ (s.numAllowedLevels - 1) →
      ∃ ls, (List.range n).mapM (fun i =>
        (s.lowestActiveFromIteration i s.numAllowedLevels).map (fun l => s.currentLowestAllowed + l))
          = some ls ∧ ls.length = n ∧
      ∀ i l, ls[i]? = some l → s.currentLowestAllowed ≤ l ∧ l < s.maxNumLevels ∧
        ∀ k, s.currentLowestAllowed ≤ k → k < s.maxNumLevels →
          (l ≤ k ↔ 2 ^ (s.maxNumLevels - 1 - k) ∣ i) := by
    intro n
    induction n with
    | zero => intro _; exact ⟨[], by simp, rfl, by simp⟩
    | succ n ih =>
      intro hn
      obtain ⟨ls, e1, e2, e3⟩ := ih (by omega)
      obtain ⟨l, f1, f2, f3⟩ := lowestActive_spec s h2 s.numAllowedLevels n (by omega) (by omega)
        (by omega)
      refine ⟨ls ++ [s.currentLowestAllowed + l], ?_, by simp [e2], ?_⟩
      · rw [List.range_succ, List.mapM_append, e1]
        simp [f1]
      · intro i x hx
        by_cases hi : i < ls.length
        · rw [List.getElem?_append_left hi] at hx
          exact e3 i x hx
        · rw [List.getElem?_append_right (by omega)] at hx
          have hi' : i = n := by
            by_contra hne
            rw [List.getElem?_eq_none (by simp; omega)] at hx
            simp at hx
          subst hi'
          simp only [e2, Nat.sub_self, List.getElem?_cons_zero, Option.some.injEq] at hx
          subst hx
          refine ⟨by omega, by omega, ?_⟩
          intro k hk1 hk2
          have := f3 (k - s.currentLowestAllowed) (he1 k hk1 hk2)
          rw [he2 k hk1 hk2] at this
          rw [← this]
          omega
  exact hgen _ (Nat.le_refl _)

theorem count_multiples (d q : Nat) (hd : 0 < d) :
    ((List.range (q * d)).filter (fun i => decide (d ∣ i))).length = q := by
  induction q with
  | zero => simp
  | succ q ih =>
    rw [Nat.succ_mul, List.range_add, List.filter_append, List.length_append, ih]
    congr 1
    rw [List.filter_map, List.length_map]
    have hc : (List.range d).filter ((fun i => decide (d ∣ i)) ∘ (fun x => q * d + x)) = [0] := by
      obtain ⟨d', rfl⟩ := Nat.exists_eq_succ_of_ne_zero (Nat.ne_of_gt hd)
      rw [List.range_succ_eq_map, List.filter_cons]
      have h0 : ((fun i => decide (d' + 1 ∣ i)) ∘ fun x => q * (d' + 1) + x) 0 = true := by simp
      rw [h0, if_pos rfl]
      congr 1
      rw [List.filter_eq_nil_iff]
      intro a ha
      obtain ⟨b, hb, rfl⟩ := List.mem_map.mp ha
      have hb' := List.mem_range.mp hb
      simp only [Function.comp, decide_eq_true_eq]
      rw [Nat.dvd_add_right (Nat.dvd_mul_left _ _)]
      intro hdvd
      have := Nat.le_of_dvd (by omega) hdvd
      omega
    rw [hc]; rfl

/-- **C25 (which sweeps a level takes part in).** In the sweep with index `i` of a cycle a cell of
allowed level `l` takes part iff `i` is a multiple of `2 ^ (deepest - l)`: the sweeps of each level
are evenly spaced, start with the first sweep of the cycle, and a coarser level never takes part
without all finer ones. -/
theorem sweep_levels_aligned (s : State) (hs : s.Ok) :
    ∃ levels, s.iterLevelsInSweepOrder = some levels ∧
      levels.length = 2 ^ (s.maxNumLevels - 1 - s.currentLowestAllowed) ∧
      ∀ i current, levels[i]? = some current → ∀ l, s.currentLowestAllowed ≤ l →
        l < s.maxNumLevels → (isActive l current = true ↔ 2 ^ (s.maxNumLevels - 1 - l) ∣ i) := by
  obtain ⟨ls, h1, h2, h3⟩ := iterLevels_spec s hs
  refine ⟨ls, h1, ?_, ?_⟩
  · rw [h2]; congr 1; unfold State.numAllowedLevels; omega
  · intro i c hc l hl1 hl2
    rw [← (h3 i c hc).2.2 l hl1 hl2]
    simp [isActive]

/-- **C25 (time balance).** For every allowed level `l` the number of sweeps of a cycle in which
cells of level `l` take part, times the time step of level `l`, is the time by which the cycle
advances the simulation. -/
theorem sweep_levels_time_balance (s : State) (hs : s.Ok) (l : Nat)
    (hl : s.currentLowestAllowed ≤ l) (hl' : l < s.maxNumLevels) :
    ∃ levels, s.iterLevelsInSweepOrder = some levels ∧
      ((levels.filter (fun current => isActive l current)).length : ℝ)
        * toTimestep l s.maxTimestep = s.currentMaxTimestep := by
  obtain ⟨ls, h1, h2, h3⟩ := sweep_levels_aligned s hs
  refine ⟨ls, h1, ?_⟩
  have hcount : (ls.filter (fun current => isActive l current)).length
      = 2 ^ (l - s.currentLowestAllowed) := by
    have hidx : ∀ (xs : List Nat) (n : Nat), (∀ i c, xs[i]? = some c →
        (isActive l c = true ↔ 2 ^ (s.maxNumLevels - 1 - l) ∣ n + i)) →
        (xs.filter (fun c => isActive l c)).length
          = ((List.range' n xs.length).filter
              (fun i => decide (2 ^ (s.maxNumLevels - 1 - l) ∣ i))).length := by
      intro xs
      induction xs with
      | nil => intro n _; rfl
      | cons x xs ih =>
        intro n h
        have hx := h 0 x (by simp)
        have ih' := ih (n + 1) (fun i c hc => by
          have := h (i + 1) c (by simpa using hc)
          rw [this]; rw [Nat.add_assoc, Nat.add_comm 1 i])
        rw [List.length_cons, List.range'_succ, List.filter_cons, List.filter_cons]
        by_cases hd : 2 ^ (s.maxNumLevels - 1 - l) ∣ n
        · rw [if_pos (hx.mpr (by simpa using hd)), if_pos (by simpa using hd), List.length_cons,
            List.length_cons, ih']
        · rw [if_neg (fun hcon => hd (by simpa using hx.mp hcon)), if_neg (by simpa using hd), ih']
    rw [hidx ls 0 (fun i c hc => by rw [h3 i c hc l hl hl', Nat.zero_add]), h2,
      ← List.range_eq_range']
    have hsplit : 2 ^ (s.maxNumLevels - 1 - s.currentLowestAllowed)
        = 2 ^ (l - s.currentLowestAllowed) * 2 ^ (s.maxNumLevels - 1 - l) := by
      rw [← Nat.pow_add]; congr 1; omega
    rw [hsplit, count_multiples _ _ (Nat.two_pow_pos _)]
  rw [hcount]
  unfold toTimestep State.currentMaxTimestep asFactor
  obtain ⟨k, rfl⟩ := Nat.exists_eq_add_of_le hl
  rw [Nat.add_sub_cancel_left, pow_add]
  push_cast
  have : (2 : ℝ) ^ k * (1 / 2) ^ k = 1 := by rw [← mul_pow]; norm_num
  calc (2 : ℝ) ^ k * (s.maxTimestep * ((1 / 2) ^ s.currentLowestAllowed * (1 / 2) ^ k))
      = s.maxTimestep * (1 / 2) ^ s.currentLowestAllowed * (2 ^ k * (1 / 2) ^ k) := by ring
    _ = _ := by rw [this, mul_one]

/-- **C25 (executed sweeps).** `run_sweeps` skips sweeps without active cells.  For every cell, with
the levels of all cells of all ranks being `cellLevels`, the number of *executed* sweeps the cell takes
part in, times its time step, is the time by which the cycle advances the simulation. -/
theorem executed_sweeps_time_balance (s : State) (hs : s.Ok) (cellLevels : List Nat) (l : Nat)
    (hmem : l ∈ cellLevels) (hl : s.currentLowestAllowed ≤ l) (hl' : l < s.maxNumLevels) :
    ∃ levels, executedLevels s cellLevels = some levels ∧
      ((levels.filter (fun current => isActive l current)).length : ℝ)
        * toTimestep l s.maxTimestep = s.currentMaxTimestep := by
  obtain ⟨ls, h1, h2⟩ := sweep_levels_time_balance s hs l hl hl'
  refine ⟨_, by unfold executedLevels; rw [h1]; rfl, ?_⟩
  rw [← h2, List.filter_filter]
  congr 3
  apply List.filter_congr
  intro c _
  by_cases hc : isActive l c = true
  · simp only [hc, Bool.true_and, decide_eq_true_eq]
    exact List.length_pos_iff.mpr
      (List.ne_nil_of_mem (List.mem_filter.mpr ⟨hmem, hc⟩))
  · simp [hc]

/-- **C25 (coarsest level).** Cells of the coarsest allowed level take part exactly in the first
sweep of the cycle. -/
theorem sweep_coarsest_first_only (s : State) (hs : s.Ok) (levels : List Nat)
    (h : s.iterLevelsInSweepOrder = some levels) (i current : Nat)
    (hi : levels[i]? = some current) :
    isActive s.currentLowestAllowed current = true ↔ i = 0 := by
  obtain ⟨ls, h1, h2, h3⟩ := sweep_levels_aligned s hs
  rw [h] at h1
  obtain rfl := Option.some.inj h1
  rw [h3 i current hi _ (Nat.le_refl _) hs.lt]
  constructor
  · intro hd
    by_contra hne
    have := Nat.le_of_dvd (by omega) hd
    have hlt := (List.getElem?_eq_some_iff.mp hi).1
    omega
  · rintro rfl; simp

/-! ### C26 -/

theorem toTimestep_le_iff (m d : ℝ) (hm : 0 < m) (hd : 0 < d) (l : Nat) :
    toTimestep l m ≤ d ↔ Real.logb 2 (m / d) ≤ l := by
  unfold toTimestep asFactor
  have hpow : (0 : ℝ) < 2 ^ l := by positivity
  have h1 : m * (1 / 2) ^ l ≤ d ↔ m / d ≤ 2 ^ l := by
    rw [one_div, inv_pow, ← div_eq_mul_inv, div_le_iff₀ hpow, div_le_iff₀ hd, mul_comm]
  rw [h1, Real.logb_le_iff_le_rpow (by norm_num) (by positivity), Real.rpow_natCast]

/-- **C26.** For positive maximum and desired time steps and at least one level, the level is a valid
level; its time step does not exceed the desired one unless it is the deepest level; and every
coarser level would exceed it. -/
theorem level_respects_desired (n : Nat) (hn : 0 < n) (m d : ℝ) (hm : 0 < m) (hd : 0 < d) :
    ∃ level, fromMaxTimestepAndDesired n m d = some level ∧ level < n ∧
      (level ≠ n - 1 → toTimestep level m ≤ d) ∧
      (∀ l, l < level → d < toTimestep l m) := by
  unfold fromMaxTimestepAndDesired
  rw [if_neg (by omega), if_neg (ne_of_gt hd)]
  refine ⟨_, rfl, by omega, ?_, ?_⟩
  · intro hne
    have hmin : min ⌈Real.logb 2 (m / d)⌉₊ (n - 1) = ⌈Real.logb 2 (m / d)⌉₊ := by omega
    rw [hmin, toTimestep_le_iff m d hm hd]
    exact Nat.le_ceil _
  · intro l hl
    have hlt : l < ⌈Real.logb 2 (m / d)⌉₊ := by omega
    have := Nat.lt_ceil.mp hlt
    by_contra hcon
    push Not at hcon
    exact absurd ((toTimestep_le_iff m d hm hd l).mp hcon) (not_le.mpr this)

/-- A desired time step of zero gives the deepest level. -/
theorem level_of_zero (n : Nat) (hn : 0 < n) (m : ℝ) :
    fromMaxTimestepAndDesired n m 0 = some (n - 1) := by
  unfold fromMaxTimestepAndDesired
  rw [if_neg (by omega), if_pos rfl]

/-- **C26 (with allowed levels).** The level chosen for a cell lies in the allowed range, its time
step does not exceed the desired one unless it is the deepest level, and it is the coarsest allowed
level with this property. -/
theorem desired_level_allowed (s : State) (hs : s.Ok) (d : ℝ) (hm : 0 < s.maxTimestep)
    (hd : 0 < d) :
    ∃ level, s.getDesiredLevel d = some level ∧ s.currentLowestAllowed ≤ level ∧
      level < s.maxNumLevels ∧
      (level ≠ s.maxNumLevels - 1 → toTimestep level s.maxTimestep ≤ d) ∧
      (∀ l, s.currentLowestAllowed ≤ l → l < level → d < toTimestep l s.maxTimestep) := by
  obtain ⟨level, h1, h2, h3, h4⟩ := level_respects_desired s.maxNumLevels
    (by have := hs.lt; omega) s.maxTimestep d hm hd
  unfold State.getDesiredLevel
  rw [h1, Option.map_some]
  have hlt := hs.lt
  by_cases hc : level < s.currentLowestAllowed
  · refine ⟨s.currentLowestAllowed, by rw [if_pos hc], Nat.le_refl _, hlt, ?_, ?_⟩
    · intro _
      refine le_trans ?_ (h3 (by omega))
      unfold toTimestep asFactor
      apply mul_le_mul_of_nonneg_left _ (le_of_lt hm)
      exact pow_le_pow_of_le_one (by norm_num) (by norm_num) (Nat.le_of_lt hc)
    · intro l hl1 hl2; omega
  · exact ⟨level, by rw [if_neg hc], by omega, h2, h3, fun l _ hl => h4 l hl⟩

/-! ### C27 -/

theorem cycles_succ (c : Nat) (x : State × ℝ) :
    cycles (c + 1) x = ((cycles c x).1.advanceAllowedLevels,
      (cycles c x).2 + (cycles c x).1.currentMaxTimestep) := by
  induction c generalizing x with
  | zero => rfl
  | succ c ih =>
    obtain ⟨s, t⟩ := x
    have : cycles (c + 1 + 1) (s, t)
        = cycles (c + 1) (s.advanceAllowedLevels, t + s.currentMaxTimestep) := rfl
    rw [this, ih]
    rfl

theorem asFactor_succ (k : Nat) : asFactor k = 2 * asFactor (k + 1) := by
  unfold asFactor; rw [pow_succ]; ring

theorem cycles_spec (m : ℝ) (n : Nat) (hn : 0 < n) (c : Nat) :
    (cycles c (⟨m, n, n - 1, false⟩, 0)).1
      = ⟨m, n, if c = 0 then n - 1 else n - min c n, decide (0 < c)⟩ ∧
    (cycles c (⟨m, n, n - 1, false⟩, 0)).2
      = if c = 0 then 0 else if c ≤ n then m * asFactor (n - c) else m * (c - n + 1) := by
  induction c with
  | zero => simp [cycles]
  | succ c ih =>
    rw [cycles_succ]
    obtain ⟨h1, h2⟩ := ih
    rw [h1, h2]
    by_cases hc0 : c = 0
    · subst hc0
      constructor
      · simp [State.advanceAllowedLevels]
        omega
      · simp [State.currentMaxTimestep, Nat.succ_le_of_lt hn]
    · have hpos : 0 < c := by omega
      constructor
      · simp only [State.advanceAllowedLevels, hc0, if_false, hpos, decide_true, Bool.true_and]
        by_cases hlow : n - min c n > 0
        · simp only [hlow, decide_true, if_true]
          simp
          omega
        · simp only [hlow, decide_false]
          simp
          omega
      · simp only [hc0, if_false, State.currentMaxTimestep, Nat.add_eq_zero_iff, one_ne_zero,
          and_false]
        by_cases hle : c + 1 ≤ n
        · rw [if_pos (by omega), if_pos hle, Nat.min_eq_left (by omega)]
          have e : n - c = (n - (c + 1)) + 1 := by omega
          rw [e, asFactor_succ (n - (c + 1))]
          ring
        · by_cases heq : c = n
          · subst heq
            rw [if_pos (le_refl _), if_neg hle]
            simp [asFactor]
            ring
          · rw [if_neg (by omega), if_neg hle, Nat.min_eq_right (by omega)]
            simp [asFactor]
            ring

/-- **C27 (alignment).** At the start of every cycle of a run with `n > 0` levels, the time elapsed
is an integer multiple of the time step of the coarsest level allowed in this cycle (hence of the
time steps of all allowed levels). -/
theorem elapsed_multiple_of_coarsest (m : ℝ) (n : Nat) (s0 : State) (h0 : State.new m n = some s0)
    (c : Nat) :
    ∃ k : Nat, (cycles c (s0, 0)).2 = k * (cycles c (s0, 0)).1.currentMaxTimestep := by
  unfold State.new at h0
  split at h0
  · simp at h0
  · rename_i hn
    simp only [Option.some.injEq] at h0
    subst h0
    obtain ⟨h1, h2⟩ := cycles_spec m n (by omega) c
    rw [h1, h2]
    by_cases hc0 : c = 0
    · exact ⟨0, by simp [hc0]⟩
    · simp only [hc0, if_false, State.currentMaxTimestep]
      by_cases hle : c ≤ n
      · exact ⟨1, by rw [if_pos hle, Nat.min_eq_left hle]; simp⟩
      · refine ⟨c - n + 1, ?_⟩
        rw [if_neg hle, Nat.min_eq_right (by omega), Nat.sub_self]
        push_cast [Nat.cast_sub (show n ≤ c by omega)]
        simp [asFactor]
        ring

/-- **C27 (unlocking).** The state stays valid, after `c ≥ n` cycles all levels are unlocked, every
further cycle advances the maximum time step, and the time elapsed after `c ≥ n` cycles is
`(c - n + 1)` maximum time steps. -/
theorem levels_unlocked (m : ℝ) (n : Nat) (s0 : State) (h0 : State.new m n = some s0) (hn : n < 32)
    (c : Nat) :
    (cycles c (s0, 0)).1.Ok ∧
    (n ≤ c → (cycles c (s0, 0)).1.currentLowestAllowed = 0 ∧
      (cycles c (s0, 0)).1.currentMaxTimestep = m ∧
      (cycles c (s0, 0)).2 = (c - n + 1 : ℕ) * m) := by
  unfold State.new at h0
  split at h0
  · simp at h0
  · rename_i hn0
    simp only [Option.some.injEq] at h0
    subst h0
    obtain ⟨h1, h2⟩ := cycles_spec m n (by omega) c
    rw [h1, h2]
    refine ⟨⟨?_, hn⟩, ?_⟩
    · simp only
      split <;> omega
    · intro hc
      have hc0 : c ≠ 0 := by omega
      simp only [hc0, if_false, State.currentMaxTimestep, Nat.min_eq_right hc, Nat.sub_self]
      refine ⟨trivial, by simp [asFactor], ?_⟩
      by_cases heq : c = n
      · subst heq; simp [asFactor]
      · rw [if_neg (by omega)]
        push_cast [Nat.cast_sub hc]
        ring

/-- non-vacuity: the fourth cycle of a run with five levels -/
example : (⟨1, 5, 2, true⟩ : State).Ok ∧
    (⟨1, 5, 2, true⟩ : State).iterLevelsInSweepOrder = some [2, 4, 3, 4] := by
  refine ⟨⟨by decide, by decide⟩, by decide⟩

example : ∃ s0, State.new 1 5 = some s0 := ⟨_, rfl⟩

/-- The sweeps at level 4 are skipped when no cell is that fine. -/
example : executedLevels ⟨1, 5, 2, true⟩ [2, 3] = some [2, 3] := by decide

end Verif.Timestep
