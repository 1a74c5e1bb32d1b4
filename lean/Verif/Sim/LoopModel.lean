import Verif.Sim.WholeModel
import Verif.IO.TimerModel

/-!
# The main loop

Models the stages of one frame of the main loop (`/repo/src/stages.rs` lines 50-61): `stop_simulation_system` in `Initial`,
`run_sweep_system` in `Sweep`, `write_simulated_time_system` in `AfterSweep`, the output of the snapshot and `exit_system` in
`Final` (`/repo/src/simulation_plugin/mod.rs`, `/repo/src/sweep/mod.rs`, `/repo/src/io/output`).  An event which is sent in a
frame is seen by the later stages of this frame; the loop (`ScheduleRunnerPlugin` of Bevy) ends after the first frame in which
`AppExit` was sent.  All ranks have the same time and therefore do the same in each frame.

Not part of the model: the time series, timers other than the one of the whole run, simulations without output.
-/

namespace Verif.Sim

/-- The parameters of a run. -/
structure Loop (R C : Type) where
  physics : Physics R C
  /-- `ionized_hydrogen_fraction` of the species of a site -/
  fraction : C → ℝ
  /-- `SimulationParameters::final_time` -/
  finalTime : Option ℝ
  output : SnapshotTimer.Params ℝ

/-- The resources and components which are changed in the main loop. -/
structure App (R C : Type) where
  sim : Whole R C
  /-- `IsFirstTime` -/
  isFirst : Bool
  /-- `Timer` of the output -/
  timer : SnapshotTimer.Timer ℝ
  /-- the timer `TOTAL_RUNTIME_IDENTIFIER` of `Performance` is running -/
  total : Bool
  /-- the component `IonizationTime` of every particle, infinite by default (components.rs lines 86-90) -/
  ionized : Sweep.Id → WithTop ℝ

/-- What is seen of one frame: the state at the time of the output, what is written, and whether the loop ends. -/
structure Report (R C : Type) where
  sim : Whole R C
  ionized : Sweep.Id → WithTop ℝ
  snapshot : Option SnapshotTimer.Snapshot
  exit : Bool

section
variable {R C : Type}

open Classical in
/-- `stop_simulation_system`, simulation_plugin/mod.rs lines 124-134. -/
noncomputable def Loop.stops (L : Loop R C) (w : Whole R C) : Bool :=
  match L.finalTime with
  | some t => decide (w.time ≥ t)
  | none => false

open Classical in
/-- The last loop of `run_sweep_system`, sweep/mod.rs lines 732-740. -/
noncomputable def Loop.recordIonization (L : Loop R C) (w : Whole R C) (t : Sweep.Id → WithTop ℝ) : Sweep.Id → WithTop ℝ :=
  fun u => if L.fraction (w.cells.chem u) > 0.5 ∧ t u = ⊤ then (w.time : WithTop ℝ) else t u

/-- The stages after `Sweep`: `write_simulated_time_system` (simulation_plugin/mod.rs lines 160-169), which panics if the timer
is not running (performance.rs lines 104-109), the output, and `exit_system` (lines 154-158). -/
noncomputable def Loop.finish (L : Loop R C) (stop : Bool) (a : App R C) : Option (App R C × Report R C) :=
  if stop && !a.total then none
  else
    let o := SnapshotTimer.step L.output a.timer ⟨a.sim.time, stop⟩
    some ({ a with timer := o.1, total := a.total && !stop }, ⟨a.sim, a.ionized, o.2, stop⟩)

variable [AddCommGroup R] [Module ℝ R]

/-- One frame; `run_sweep_system` does nothing in the first one, sweep/mod.rs lines 707-713. -/
inductive Frame (L : Loop R C) (a : App R C) : Option (App R C × Report R C) → Prop
  | first : a.isFirst = true → Frame L a (L.finish (L.stops a.sim) { a with isFirst := false })
  | sweep (w : Whole R C) : a.isFirst = false → Call L.physics a.sim w →
      Frame L a (L.finish (L.stops a.sim) { a with sim := w, ionized := L.recordIonization w a.ionized })

/-- All ranks before the first frame. -/
noncomputable def Loop.start (L : Loop R C) (w0 : Whole R C) : App R C :=
  ⟨w0, true, .initialize L.output, true, fun _ => ⊤⟩

/-- The loop is running after these frames. -/
inductive Frames (L : Loop R C) (a0 : App R C) : App R C → List (Report R C) → Prop
  | nil : Frames L a0 a0 []
  | snoc (a a' : App R C) (rs : List (Report R C)) (r : Report R C) : Frames L a0 a rs → Frame L a (some (a', r)) → r.exit = false →
      Frames L a0 a' (rs ++ [r])

/-- The loop has ended after these frames. -/
def Ended (L : Loop R C) (a0 : App R C) (rs : List (Report R C)) : Prop :=
  ∃ a rs' a' r, Frames L a0 a rs' ∧ Frame L a (some (a', r)) ∧ r.exit = true ∧ rs = rs' ++ [r]

/-- The reports of a run, ended or not. -/
def Observed (L : Loop R C) (a0 : App R C) (rs : List (Report R C)) : Prop := (∃ a, Frames L a0 a rs) ∨ Ended L a0 rs

end

end Verif.Sim
