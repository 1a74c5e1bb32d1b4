import Mathlib.Algebra.Order.Field.Basic

/-!
# Snapshot timer: model of `/repo/src/io/output/timer.rs`

Times are elements of an arbitrary linearly ordered field (exact arithmetic instead of `f64`).
-/

namespace Verif.SnapshotTimer

variable {K : Type*} [Field K] [LinearOrder K]

/-- `OutputParameters` fields used by the timer (io/output/parameters.rs). -/
structure Params (K : Type*) where
  timeFirstSnapshot : Option K
  timeBetweenSnapshots : K

/-- `struct Timer`, timer.rs lines 14-18. -/
structure Timer (K : Type*) where
  nextOutputTime : K
  snapshotNum : Nat

/-- What the systems see in one step of the main loop: the simulation time and whether a
`StopSimulationEvent` is pending. -/
structure Input (K : Type*) where
  time : K
  stop : Bool

/-- `Timer::initialize_system`, timer.rs lines 21-28. -/
def Timer.initialize (p : Params K) : Timer K :=
  { nextOutputTime := p.timeFirstSnapshot.getD 0, snapshotNum := 0 }

/-- `Timer::run_criterion`, timer.rs lines 30-41. -/
def Timer.runCriterion (t : Timer K) (i : Input K) : Bool :=
  i.stop || decide (t.nextOutputTime ≤ i.time)

/-- `Timer::dataset_write_run_criterion`, timer.rs lines 43-58. -/
def Timer.datasetWriteRunCriterion (t : Timer K) (i : Input K) (isStatic : Bool) : Bool :=
  if t.runCriterion i then (!isStatic || t.snapshotNum == 0) else false

/-- `Timer::update_system`, timer.rs lines 60-63. -/
def Timer.update (t : Timer K) (p : Params K) : Timer K :=
  { nextOutputTime := t.nextOutputTime + p.timeBetweenSnapshots, snapshotNum := t.snapshotNum + 1 }

/-- What one step writes to disk: the number of the snapshot (its directory, io/output/mod.rs
142-149) and whether static and non-static datasets are written. -/
structure Snapshot where
  num : Nat
  writesStatic : Bool
  writesDynamic : Bool
deriving DecidableEq, Repr

/-- One step of the main loop as far as output is concerned (io/output/plugin.rs 99-150: all
output systems and `Timer::update_system` run iff `run_criterion` holds at the beginning of the
stage). -/
def step (p : Params K) (t : Timer K) (i : Input K) : Timer K × Option Snapshot :=
  if t.runCriterion i then
    (t.update p, some ⟨t.snapshotNum, t.datasetWriteRunCriterion i true,
      t.datasetWriteRunCriterion i false⟩)
  else (t, none)

/-- All steps of a run: for every input what was written. -/
def run (p : Params K) : Timer K → List (Input K) → List (Option Snapshot)
  | _, [] => []
  | t, i :: is => (step p t i).2 :: run p (step p t i).1 is

/-- A whole simulation. -/
def simulate (p : Params K) (inputs : List (Input K)) : List (Option Snapshot) :=
  run p (Timer.initialize p) inputs

end Verif.SnapshotTimer
