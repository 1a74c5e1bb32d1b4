import Verif.Rounding.TimerModel
import Verif.Rounding.TimerSpec
import Verif.Rounding.ClockProps

/-!
# Lemmas about the snapshot timer in `f64`
-/

namespace Verif.Rounding

open SnapshotTimer

theorem timerRunF_spec (p : Params ℚ) : ∀ (inputs : List (Input ℚ)) (n : ℕ),
    (written (timerRunF p ⟨dueF p n, n⟩ inputs)).map Snapshot.num
      = List.range' n (written (timerRunF p ⟨dueF p n, n⟩ inputs)).length ∧
    (timerRunF p ⟨dueF p n, n⟩ inputs).length = inputs.length ∧
    ∀ k i, inputs[k]? = some i →
      ((timerRunF p ⟨dueF p n, n⟩ inputs)[k]? = some
        (if i.stop ∨ dueF p (n + (written ((timerRunF p ⟨dueF p n, n⟩ inputs).take k)).length) ≤ i.time
         then some ⟨n + (written ((timerRunF p ⟨dueF p n, n⟩ inputs).take k)).length,
            decide (n + (written ((timerRunF p ⟨dueF p n, n⟩ inputs).take k)).length = 0), true⟩
         else none)) := by
  intro inputs
  induction inputs with
  | nil => intro n; simp [timerRunF, written]
  | cons i is ih =>
    intro n
    by_cases hrun : (⟨dueF p n, n⟩ : Timer ℚ).runCriterion i
    · have hupd : updateF (⟨dueF p n, n⟩ : Timer ℚ) p = ⟨dueF p (n + 1), n + 1⟩ := rfl
      have hstep : timerStepF p ⟨dueF p n, n⟩ i
          = (⟨dueF p (n + 1), n + 1⟩, some ⟨n, decide (n = 0), true⟩) := by
        unfold timerStepF
        rw [if_pos hrun, hupd]
        simp only [Timer.datasetWriteRunCriterion, hrun, if_true, Bool.not_true, Bool.false_or,
          Bool.not_false, Bool.true_or]
        congr 3
      have hr : timerRunF p ⟨dueF p n, n⟩ (i :: is) =
          some ⟨n, decide (n = 0), true⟩ :: timerRunF p ⟨dueF p (n + 1), n + 1⟩ is := by
        rw [timerRunF, hstep]
      obtain ⟨h1, h2, h3⟩ := ih (n + 1)
      refine ⟨?_, by rw [hr]; simp [h2], ?_⟩
      · rw [hr]
        simp only [written, List.filterMap_cons, id, List.map_cons, List.length_cons,
          List.range'_succ, List.cons.injEq, true_and]
        exact h1
      · intro k j hk
        rw [hr]
        cases k with
        | zero =>
          simp only [List.getElem?_cons_zero, Option.some.injEq] at hk
          subst hk
          have : (i.stop = true ∨ dueF p n ≤ i.time) := by
            simpa [Timer.runCriterion] using hrun
          simp [written, this]
        | succ k =>
          have := h3 k j (by simpa using hk)
          have hlen : n + (written ((some (⟨n, decide (n = 0), true⟩ : Snapshot)
              :: timerRunF p ⟨dueF p (n + 1), n + 1⟩ is).take (k + 1))).length
              = n + 1 + (written ((timerRunF p ⟨dueF p (n + 1), n + 1⟩ is).take k)).length := by
            simp [written]; omega
          rw [List.getElem?_cons_succ, this, hlen]
    · have hstep : timerStepF p ⟨dueF p n, n⟩ i = (⟨dueF p n, n⟩, none) := by
        unfold timerStepF; rw [if_neg hrun]
      have hr : timerRunF p ⟨dueF p n, n⟩ (i :: is) = none :: timerRunF p ⟨dueF p n, n⟩ is := by
        rw [timerRunF, hstep]
      obtain ⟨h1, h2, h3⟩ := ih n
      refine ⟨?_, by rw [hr]; simp [h2], ?_⟩
      · rw [hr]
        simpa [written] using h1
      · intro k j hk
        rw [hr]
        cases k with
        | zero =>
          simp only [List.getElem?_cons_zero, Option.some.injEq] at hk
          subst hk
          have : ¬ (i.stop = true ∨ dueF p n ≤ i.time) := by
            simpa [Timer.runCriterion] using hrun
          simp [written, this]
        | succ k =>
          have := h3 k j (by simpa using hk)
          have hlen : n + (written (((none : Option Snapshot)
              :: timerRunF p ⟨dueF p n, n⟩ is).take (k + 1))).length
              = n + (written ((timerRunF p ⟨dueF p n, n⟩ is).take k)).length := by
            simp [written]
          rw [List.getElem?_cons_succ, this, hlen]

theorem snapshotsF_eq (p : Params ℚ) (inputs : List (Input ℚ)) : snapshotsF p inputs = timerRunF p ⟨dueF p 0, 0⟩ inputs := rfl

theorem snapshotsF_length (p : Params ℚ) (inputs : List (Input ℚ)) : (snapshotsF p inputs).length = inputs.length := by
  rw [snapshotsF_eq]
  exact (timerRunF_spec p inputs 0).2.1

theorem snapshotsF_get (p : Params ℚ) (inputs : List (Input ℚ)) {k : ℕ} {i : Input ℚ} (hk : inputs[k]? = some i) :
    (snapshotsF p inputs)[k]? = some
      (if i.stop ∨ dueF p (written ((snapshotsF p inputs).take k)).length ≤ i.time
       then some ⟨(written ((snapshotsF p inputs).take k)).length, decide ((written ((snapshotsF p inputs).take k)).length = 0), true⟩
       else none) := by
  have := (timerRunF_spec p inputs 0).2.2 k i hk
  simp only [Nat.zero_add] at this
  rw [snapshotsF_eq]
  convert this using 3

theorem written_take_succ (l : List (Option Snapshot)) {k : ℕ} {o : Option Snapshot} (h : l[k]? = some o) :
    (written (l.take (k + 1))).length = (written (l.take k)).length + (if o.isSome then 1 else 0) := by
  rw [List.take_add_one, h]
  cases o <;> simp [written]

/-! ### Accuracy of the times at which snapshots are due -/

theorem dueTime_nonneg {p : Params ℚ} (hf : 0 ≤ p.timeFirstSnapshot.getD 0) (hd : 0 ≤ p.timeBetweenSnapshots) (n : ℕ) :
    0 ≤ dueTime p n := by
  unfold dueTime
  positivity

theorem dueF_err {p : Params ℚ} (hf : 0 ≤ p.timeFirstSnapshot.getD 0) (hd : (1 : ℚ) / 2 ^ 900 ≤ p.timeBetweenSnapshots) {n : ℕ}
    (hn : n ≤ 2 ^ 51) : |dueF p n - dueTime p n| ≤ n / 2 ^ 52 * dueTime p n := by
  have hd0 : 0 < p.timeBetweenSnapshots := lt_of_lt_of_le (by positivity) hd
  induction n with
  | zero => simp [dueF, dueTime]
  | succ n ih =>
    have ih := ih (by omega)
    have hX := dueTime_nonneg hf hd0.le n
    have hs : dueTime p (n + 1) = dueTime p n + p.timeBetweenSnapshots := by
      unfold dueTime
      push_cast
      ring
    have hn2 : (n : ℚ) / 2 ^ 52 ≤ 1 / 2 := by
      have : (n : ℚ) ≤ 2 ^ 51 := by exact_mod_cast (by omega : n ≤ 2 ^ 51)
      rw [div_le_div_iff₀ (by norm_num) (by norm_num)]
      linarith
    have hb : (n : ℚ) / 2 ^ 52 * dueTime p n ≤ 1 / 2 * dueTime p n := by gcongr
    obtain ⟨e1, e2⟩ := abs_le.1 ih
    have h0 : 0 ≤ dueF p n := by linarith
    obtain ⟨r1, r2⟩ := fl_pos_bounds (x := dueF p n + p.timeBetweenSnapshots) (by
      refine le_trans ?_ (le_add_of_nonneg_left h0)
      refine le_trans ?_ hd
      exact one_div_le_one_div_of_le (by positivity) (pow_le_pow_right₀ (by norm_num) (by norm_num)))
    have hk : (n : ℚ) / 2 ^ 52 * dueTime p n ≤ n / 2 ^ 52 * dueTime p (n + 1) := by
      rw [hs]
      gcongr
      linarith
    rw [show dueF p (n + 1) = fl (dueF p n + p.timeBetweenSnapshots) from rfl]
    push_cast
    rw [add_div, add_mul, abs_le]
    rw [hs] at hk ⊢
    generalize (n : ℚ) / 2 ^ 52 * dueTime p n = A at *
    generalize (n : ℚ) / 2 ^ 52 * (dueTime p n + p.timeBetweenSnapshots) = B at *
    constructor <;> linarith

/-- The times at which snapshots are due are apart. -/
theorem dueF_apart {p : Params ℚ} (hf : 0 ≤ p.timeFirstSnapshot.getD 0) (hd : (1 : ℚ) / 2 ^ 900 ≤ p.timeBetweenSnapshots)
    (hf' : p.timeFirstSnapshot.getD 0 ≤ 2 ^ 20 * p.timeBetweenSnapshots) {n : ℕ} (hn : n ≤ 2 ^ 20) :
    dueF p n + p.timeBetweenSnapshots * (1 - 1 / 2 ^ 30) ≤ dueF p (n + 1) := by
  have hd0 : 0 < p.timeBetweenSnapshots := lt_of_lt_of_le (by positivity) hd
  have he := dueF_err hf hd (n := n) (by norm_num at hn ⊢; omega)
  have hX := dueTime_nonneg hf hd0.le n
  have hn2 : (n : ℚ) / 2 ^ 52 ≤ 1 / 2 := by
    have : (n : ℚ) ≤ 2 ^ 20 := by exact_mod_cast hn
    rw [div_le_div_iff₀ (by norm_num) (by norm_num)]
    linarith
  have hb : (n : ℚ) / 2 ^ 52 * dueTime p n ≤ 1 / 2 * dueTime p n := by gcongr
  obtain ⟨e1, e2⟩ := abs_le.1 he
  have h0 : 0 ≤ dueF p n := by linarith
  have hle : dueTime p n ≤ 2 ^ 21 * p.timeBetweenSnapshots := by
    unfold dueTime
    have : (n : ℚ) * p.timeBetweenSnapshots ≤ 2 ^ 20 * p.timeBetweenSnapshots := by
      gcongr
      exact_mod_cast hn
    linarith
  obtain ⟨r1, r2⟩ := fl_pos_bounds (x := dueF p n + p.timeBetweenSnapshots) (by
    refine le_trans ?_ (le_add_of_nonneg_left h0)
    refine le_trans ?_ hd
    exact one_div_le_one_div_of_le (by positivity) (pow_le_pow_right₀ (by norm_num) (by norm_num)))
  rw [show dueF p (n + 1) = fl (dueF p n + p.timeBetweenSnapshots) from rfl]
  linarith

/-! ### Frames -/

theorem framesF_spec {dt : ℚ} {levels : ℕ} {final : Option ℚ} {n : ℕ} {l : List (Input ℚ)} (h : framesF dt levels final n = some l) :
    l.length ≤ n ∧ (l.length < n → ∃ i ∈ l, i.stop = true) ∧
      ∀ k i, l[k]? = some i → frameF dt levels final k = some i ∧ (i.stop = true → k + 1 = l.length) := by
  induction n generalizing l with
  | zero =>
    simp only [framesF, Option.some.injEq] at h
    subst h
    simp
  | succ n ih =>
    simp only [framesF, Option.bind_eq_bind, Option.bind_eq_some_iff] at h
    obtain ⟨l', hl', h⟩ := h
    obtain ⟨i1, i2, i3⟩ := ih hl'
    split_ifs at h with hs
    · simp only [Option.some.injEq] at h
      subst h
      refine ⟨by omega, fun _ => ?_, i3⟩
      simpa using hs
    · simp only [Option.bind_eq_some_iff, Option.some.injEq] at h
      obtain ⟨i, hi, rfl⟩ := h
      have hlen : l'.length = n := by
        by_contra hne
        obtain ⟨j, hj, hj'⟩ := i2 (by omega)
        exact hs (List.any_eq_true.2 ⟨j, hj, hj'⟩)
      refine ⟨by simp [hlen], fun h => by simp [hlen] at h, fun k j hk => ?_⟩
      rw [List.getElem?_append] at hk
      split_ifs at hk with hlt
      · refine ⟨(i3 k j hk).1, fun hst => ?_⟩
        exact absurd (List.any_eq_true.2 ⟨j, List.mem_of_getElem? hk, hst⟩) hs
      · have hk0 : k - l'.length = 0 := by
          by_contra h0
          rw [List.getElem?_eq_none (by simp; omega)] at hk
          cases hk
        rw [hk0] at hk
        simp only [List.getElem?_cons_zero, Option.some.injEq] at hk
        subst hk
        have : k = n := by omega
        subst this
        exact ⟨hi, fun _ => by simp [hlen]⟩

theorem framesF_ne_none {dt : ℚ} {levels : ℕ} (hl : 0 < levels) (final : Option ℚ) (n : ℕ) : ∃ l, framesF dt levels final n = some l := by
  induction n with
  | zero => exact ⟨[], rfl⟩
  | succ n ih =>
    obtain ⟨l, h⟩ := ih
    simp only [framesF, h, Option.bind_eq_bind, Option.bind_some]
    split_ifs
    · exact ⟨_, rfl⟩
    · simp only [frameF, clock_some dt hl, Option.bind_eq_bind, Option.bind_some]
      exact ⟨_, rfl⟩

theorem framesF_nonstop {dt : ℚ} {levels : ℕ} {final : Option ℚ} {n : ℕ} {l : List (Input ℚ)} (h : framesF dt levels final n = some l)
    {k : ℕ} {i : Input ℚ} (hk : l[k]? = some i) : clockF dt levels k = some i.time := by
  have := ((framesF_spec h).2.2 k i hk).1
  simp only [frameF, Option.bind_eq_bind, Option.bind_eq_some_iff, Option.some.injEq] at this
  obtain ⟨a, ha, b, -, rfl⟩ := this
  exact ha

theorem clock_nonneg {dt : ℚ} (h64 : IsF64 dt) (hdt : 0 < dt) {levels : ℕ} (hl : 0 < levels) {c : ℕ} {t : ℚ}
    (ht : clockF dt levels c = some t) : 0 ≤ t := by
  rw [clock_some dt hl, Option.some_inj] at ht
  subst ht
  induction c with
  | zero => exact le_rfl
  | succ c ih =>
    rw [cyclesF_succ]
    exact fl_nonneg (add_nonneg ih (maxTimestepF_le h64 hdt _).1)

/-- The time grows by at most one maximum time step and the rounding error of a million steps. -/
theorem clock_step_le {dt : ℚ} (h64 : IsF64 dt) (hdt : (1 : ℚ) / 2 ^ 900 ≤ dt) {levels : ℕ} (hl0 : 0 < levels) (hl : levels ≤ 100) {c : ℕ}
    (hc : c < levels + 2 ^ 20) {t t' : ℚ} (ht : clockF dt levels c = some t) (ht' : clockF dt levels (c + 1) = some t') :
    t < t' ∧ t' ≤ t + dt * (1 + 1 / 2 ^ 31) := by
  have hdt0 : 0 < dt := lt_of_lt_of_le (by positivity) hdt
  have hg := clock_grows h64 hdt hl0 hl (by norm_num at hc ⊢; omega) ht ht'
  refine ⟨hg.1, ?_⟩
  by_cases hle : levels ≤ c
  · have h := clock_succ h64 hl0 hle ht
    rw [ht', Option.some_inj] at h
    obtain ⟨u, hu, herr⟩ := clock_accurate h64 hdt hl0 hl (k := c - levels + 1) (by omega) (by norm_num at hc ⊢; omega)
    rw [show levels + (c - levels + 1) - 1 = c by omega, ht, Option.some_inj] at hu
    subst hu
    have hk : ((c - levels + 1 : ℕ) : ℚ) ≤ 2 ^ 20 := by exact_mod_cast (by omega : c - levels + 1 ≤ 2 ^ 20)
    have hk0 : (0 : ℚ) ≤ ((c - levels + 1 : ℕ) : ℚ) := by positivity
    generalize ((c - levels + 1 : ℕ) : ℚ) = q at *
    have hq : q ^ 2 / 2 ^ 53 * dt ≤ 1 * dt := by
      gcongr
      rw [div_le_one (by positivity)]
      nlinarith
    have hqd : q * dt ≤ 2 ^ 20 * dt := by gcongr
    obtain ⟨e1, e2⟩ := abs_le.1 herr
    have ht0 := clock_nonneg h64 hdt0 hl0 ht
    obtain ⟨r1, r2⟩ := fl_pos_bounds (x := t + dt) (by
      refine le_trans ?_ (le_add_of_nonneg_left ht0)
      refine le_trans ?_ hdt
      exact one_div_le_one_div_of_le (by positivity) (pow_le_pow_right₀ (by norm_num) (by norm_num)))
    rw [h]
    linarith
  · rcases Nat.eq_zero_or_pos c with rfl | hc0
    · rw [clock_zero dt hl0, Option.some_inj] at ht
      rw [clock_start_exact h64 hdt hl (by omega) (by omega), Option.some_inj] at ht'
      subst ht ht'
      have : dt / 2 ^ (levels - (0 + 1)) ≤ dt := div_le_self hdt0.le (one_le_pow₀ (by norm_num))
      linarith
    · rw [clock_start_exact h64 hdt hl hc0 (by omega), Option.some_inj] at ht
      rw [clock_start_exact h64 hdt hl (by omega) (by omega), Option.some_inj] at ht'
      have h0 : 0 < t := by rw [← ht]; positivity
      have : dt / 2 ^ (levels - (c + 1)) ≤ dt := div_le_self hdt0.le (one_le_pow₀ (by norm_num))
      linarith

end Verif.Rounding
