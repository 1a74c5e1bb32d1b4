import Verif.Rounding.Model
import Verif.Timestep.Model

/-!
# The simulation time with `f64` rounding: model of `/repo/src/sweep/timestep_state.rs` and `/repo/src/sweep/mod.rs` (time)
-/

namespace Verif.Rounding

/-- `current_max_timestep` in `f64`, timestep_state.rs lines 77-79 with `as_factor`, timestep_level.rs lines 46-48: the power of one half
is exact. -/
def maxTimestepF (maxTimestep : ℚ) (s : Timestep.State) : ℚ := maxTimestep ⊠ (1 / 2) ^ s.currentLowestAllowed

/-- The time of the simulation after some calls of `run_sweeps`: `**time += time_elapsed`, sweep/mod.rs lines 258-272 and 715-716. -/
def cyclesF (maxTimestep : ℚ) : ℕ → Timestep.State × ℚ → Timestep.State × ℚ
  | 0, x => x
  | n + 1, (s, t) => cyclesF maxTimestep n (s.advanceAllowedLevels, t ⊞ maxTimestepF maxTimestep s)

/-- The simulation time after `c` calls in a run with the given number of levels; the time starts at zero (`SimulationTime(0.0)`,
simulation_plugin/mod.rs line 79).  `none` if there are no levels (`TimestepState::new` panics). -/
def clockF (maxTimestep : ℚ) (levels c : ℕ) : Option ℚ :=
  (Timestep.State.new maxTimestep levels).map fun s => (cyclesF maxTimestep c (s, 0)).2

end Verif.Rounding
