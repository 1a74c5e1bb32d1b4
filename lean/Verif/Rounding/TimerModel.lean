import Verif.Rounding.ClockModel
import Verif.IO.TimerModel

/-!
# The snapshot timer with `f64` rounding: model of `/repo/src/io/output/timer.rs`

What does not compute with times is that of `Verif.SnapshotTimer`: the time of the next snapshot is only compared and added to.
-/

namespace Verif.Rounding

open SnapshotTimer

/-- `Timer::update_system`, timer.rs lines 60-63, in `f64`. -/
def updateF (t : Timer ℚ) (p : Params ℚ) : Timer ℚ :=
  { nextOutputTime := t.nextOutputTime ⊞ p.timeBetweenSnapshots, snapshotNum := t.snapshotNum + 1 }

/-- One frame of the main loop as far as output is concerned, io/output/plugin.rs lines 99-150. -/
def timerStepF (p : Params ℚ) (t : Timer ℚ) (i : Input ℚ) : Timer ℚ × Option Snapshot :=
  if t.runCriterion i then
    (updateF t p, some ⟨t.snapshotNum, t.datasetWriteRunCriterion i true, t.datasetWriteRunCriterion i false⟩)
  else (t, none)

/-- All frames: for every input what is written. -/
def timerRunF (p : Params ℚ) : Timer ℚ → List (Input ℚ) → List (Option Snapshot)
  | _, [] => []
  | t, i :: is => (timerStepF p t i).2 :: timerRunF p (timerStepF p t i).1 is

/-- The output of a simulation, from `Timer::initialize_system` on (timer.rs lines 21-28). -/
def snapshotsF (p : Params ℚ) (inputs : List (Input ℚ)) : List (Option Snapshot) :=
  timerRunF p (Timer.initialize p) inputs

/-- What the timer sees in frame `k` of a run: `run_sweep_system` does nothing in the first frame and advances the time once in every
other one (sweep/mod.rs lines 707-716), so the time is that after `k` calls; `stop_simulation_system` runs before it and compares the
time of the frame before with the final time (simulation_plugin/mod.rs lines 124-134). -/
def frameF (maxTimestep : ℚ) (levels : ℕ) (final : Option ℚ) (k : ℕ) : Option (Input ℚ) := do
  let now ← clockF maxTimestep levels k
  let before ← clockF maxTimestep levels (k - 1)
  some ⟨now, match final with
    | some f => decide (f ≤ before)
    | none => false⟩

/-- The first `n` frames of a run, fewer if it ends before: the main loop ends with the frame in which a `StopSimulationEvent` is
sent (`exit_system`, simulation_plugin/mod.rs lines 154-158). -/
def framesF (maxTimestep : ℚ) (levels : ℕ) (final : Option ℚ) : ℕ → Option (List (Input ℚ))
  | 0 => some []
  | n + 1 => do
    let l ← framesF maxTimestep levels final n
    if l.any (·.stop) then some l
    else do
      let i ← frameF maxTimestep levels final n
      some (l ++ [i])

end Verif.Rounding
