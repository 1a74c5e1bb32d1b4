import Verif.IO.TimerModel
import Mathlib.Tactic.Ring
import Mathlib.Algebra.Order.Field.Rat

/-!
# C05: snapshot timer
-/

namespace Verif.SnapshotTimer

variable {K : Type*} [Field K] [LinearOrder K]

/-- Specification: the time before which snapshot `n` is not due. -/
def dueTime (p : Params K) (n : Nat) : K :=
  p.timeFirstSnapshot.getD 0 + n * p.timeBetweenSnapshots

/-- Snapshots actually written, in order. -/
def written (out : List (Option Snapshot)) : List Snapshot := out.filterMap id

theorem run_spec (p : Params K) : ∀ (inputs : List (Input K)) (n : Nat),
    (written (run p ⟨dueTime p n, n⟩ inputs)).map Snapshot.num
      = List.range' n (written (run p ⟨dueTime p n, n⟩ inputs)).length ∧
    (run p ⟨dueTime p n, n⟩ inputs).length = inputs.length ∧
    ∀ k i, inputs[k]? = some i →
      ((run p ⟨dueTime p n, n⟩ inputs)[k]? = some
        (if i.stop ∨ dueTime p (n + (written ((run p ⟨dueTime p n, n⟩ inputs).take k)).length) ≤ i.time
         then some ⟨n + (written ((run p ⟨dueTime p n, n⟩ inputs).take k)).length,
            decide (n + (written ((run p ⟨dueTime p n, n⟩ inputs).take k)).length = 0), true⟩
         else none)) := by
  intro inputs
  induction inputs with
  | nil => intro n; simp [run, written]
  | cons i is ih =>
    intro n
    by_cases hrun : (⟨dueTime p n, n⟩ : Timer K).runCriterion i
    · have hupd : (⟨dueTime p n, n⟩ : Timer K).update p = ⟨dueTime p (n + 1), n + 1⟩ := by
        simp only [Timer.update, dueTime, Timer.mk.injEq, and_true]
        push_cast; ring
      have hstep : step p ⟨dueTime p n, n⟩ i
          = (⟨dueTime p (n + 1), n + 1⟩, some ⟨n, decide (n = 0), true⟩) := by
        unfold step
        rw [if_pos hrun, hupd]
        simp only [Timer.datasetWriteRunCriterion, hrun, if_true, Bool.not_true, Bool.false_or,
          Bool.not_false, Bool.true_or]
        congr 3
      have hr : run p ⟨dueTime p n, n⟩ (i :: is) =
          some ⟨n, decide (n = 0), true⟩ :: run p ⟨dueTime p (n + 1), n + 1⟩ is := by
        rw [run, hstep]
      obtain ⟨h1, h2, h3⟩ := ih (n + 1)
      refine ⟨?_, by rw [hr]; simp [h2], ?_⟩
      · rw [hr]
        simp only [written, List.filterMap_cons, id, List.map_cons, List.length_cons,
          List.range'_succ, List.cons.injEq, true_and]
        exact h1
      · intro k j hk
        rw [hr]
        cases k with
        | zero =>
          simp only [List.getElem?_cons_zero, Option.some.injEq] at hk
          subst hk
          have : (i.stop = true ∨ dueTime p n ≤ i.time) := by
            simpa [Timer.runCriterion] using hrun
          simp [written, this]
        | succ k =>
          have := h3 k j (by simpa using hk)
          have hlen : n + (written ((some (⟨n, decide (n = 0), true⟩ : Snapshot)
              :: run p ⟨dueTime p (n + 1), n + 1⟩ is).take (k + 1))).length
              = n + 1 + (written ((run p ⟨dueTime p (n + 1), n + 1⟩ is).take k)).length := by
            simp [written]; omega
          rw [List.getElem?_cons_succ, this, hlen]
    · have hstep : step p ⟨dueTime p n, n⟩ i = (⟨dueTime p n, n⟩, none) := by
        unfold step; rw [if_neg hrun]
      have hr : run p ⟨dueTime p n, n⟩ (i :: is) = none :: run p ⟨dueTime p n, n⟩ is := by
        rw [run, hstep]
      obtain ⟨h1, h2, h3⟩ := ih n
      refine ⟨?_, by rw [hr]; simp [h2], ?_⟩
      · rw [hr]
        simpa [written] using h1
      · intro k j hk
        rw [hr]
        cases k with
        | zero =>
          simp only [List.getElem?_cons_zero, Option.some.injEq] at hk
          subst hk
          have : ¬ (i.stop = true ∨ dueTime p n ≤ i.time) := by
            simpa [Timer.runCriterion] using hrun
          simp [written, this]
        | succ k =>
          have := h3 k j (by simpa using hk)
          have hlen : n + (written (((none : Option Snapshot)
              :: run p ⟨dueTime p n, n⟩ is).take (k + 1))).length
              = n + (written ((run p ⟨dueTime p n, n⟩ is).take k)).length := by
            simp [written]
          rw [List.getElem?_cons_succ, this, hlen]

theorem simulate_eq (p : Params K) (inputs : List (Input K)) :
    simulate p inputs = run p ⟨dueTime p 0, 0⟩ inputs := by
  unfold simulate Timer.initialize dueTime
  simp

/-- **C05 (numbering).** In every run the written snapshots are numbered 0, 1, 2, ... in order. -/
theorem snapshot_numbers_consecutive (p : Params K) (inputs : List (Input K)) :
    (written (simulate p inputs)).map Snapshot.num
      = List.range (written (simulate p inputs)).length := by
  rw [simulate_eq, (run_spec p inputs 0).1, List.range_eq_range']

/-- **C05 (when and what is written).** In step `k` of a run, with `n` snapshots written in the
steps before, a snapshot is written iff the simulation is stopping or the time has reached
`time_first_snapshot + n * time_between_snapshots`; it then is snapshot number `n`, contains all
non-static datasets, and contains the static ones iff `n = 0`. -/
theorem snapshot_step (p : Params K) (inputs : List (Input K)) (k : Nat) (i : Input K)
    (hk : inputs[k]? = some i) (n : Nat) (hn : n = (written ((simulate p inputs).take k)).length) :
    (i.stop = true ∨ dueTime p n ≤ i.time →
      (simulate p inputs)[k]? = some (some ⟨n, decide (n = 0), true⟩)) ∧
    (¬ (i.stop = true ∨ dueTime p n ≤ i.time) → (simulate p inputs)[k]? = some none) := by
  subst hn
  rw [simulate_eq]
  have := (run_spec p inputs 0).2.2 k i hk
  simp only [Nat.zero_add] at this
  constructor
  · intro h; rw [this, if_pos h]
  · intro h; rw [this, if_neg h]

/-- **C05 (never early).** Snapshot number `n` is written either in a stopping step or at a time not
before `time_first_snapshot + n * time_between_snapshots`, and static datasets are part of snapshot
0 and of no other one. -/
theorem snapshot_never_early (p : Params K) (inputs : List (Input K)) (k : Nat) (i : Input K)
    (hk : inputs[k]? = some i) (s : Snapshot) (hs : (simulate p inputs)[k]? = some (some s)) :
    (i.stop = true ∨ dueTime p s.num ≤ i.time) ∧ (s.writesStatic = true ↔ s.num = 0) ∧
      s.writesDynamic = true := by
  obtain ⟨h1, h2⟩ := snapshot_step p inputs k i hk _ rfl
  by_cases h : i.stop = true ∨ dueTime p (written ((simulate p inputs).take k)).length ≤ i.time
  · have := h1 h
    rw [hs] at this
    simp only [Option.some.injEq] at this
    subst this
    exact ⟨h, by simp, rfl⟩
  · have := h2 h
    rw [hs] at this
    simp at this

/-- non-vacuity: first snapshot at 2, then every 3; the last step stops the simulation -/
example : simulate (K := ℚ) ⟨some 2, 3⟩ [⟨1, false⟩, ⟨2, false⟩, ⟨4, false⟩, ⟨6, false⟩, ⟨7, true⟩]
    = [none, some ⟨0, true, true⟩, none, some ⟨1, false, true⟩, some ⟨2, false, true⟩] := by
  decide +kernel

end Verif.SnapshotTimer
