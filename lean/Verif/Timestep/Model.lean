import Mathlib.Analysis.SpecialFunctions.Log.Base
import Mathlib.Algebra.Order.Floor.Defs

/-!
# Hierarchical time stepping: model

Models `/repo/src/sweep/timestep_level.rs` and `/repo/src/sweep/timestep_state.rs`.  Times are
real numbers, levels are natural numbers.  A result `none` is a panic.
-/

namespace Verif.Timestep

noncomputable section

/-- `TimestepLevel::as_factor`, timestep_level.rs lines 46-48. -/
def asFactor (level : Nat) : ℝ := (1 / 2) ^ level

/-- `TimestepLevel::to_timestep`, timestep_level.rs lines 42-44. -/
def toTimestep (level : Nat) (maxTimestep : ℝ) : ℝ := maxTimestep * asFactor level

/-- `TimestepLevel::is_active`, timestep_level.rs lines 38-40. -/
def isActive (level currentLevel : Nat) : Bool := decide (currentLevel ≤ level)

/-- `TimestepLevel::from_max_timestep_and_desired_timestep`, timestep_level.rs lines 27-36.
`x as usize` truncates negative values to zero, which is what `⌈·⌉₊` does; a desired time step of
zero gives an infinite ratio which saturates and is clamped.  `max_num_levels = 0` underflows. -/
def fromMaxTimestepAndDesired (maxNumLevels : Nat) (maxTimestep desired : ℝ) : Option Nat :=
  if maxNumLevels = 0 then none
  else if desired = 0 then some (maxNumLevels - 1)
  else some (min ⌈Real.logb 2 (maxTimestep / desired)⌉₊ (maxNumLevels - 1))

/-- `struct TimestepState`, timestep_state.rs lines 4-10. -/
structure State where
  maxTimestep : ℝ
  maxNumLevels : Nat
  currentLowestAllowed : Nat
  firstUpdateDone : Bool

/-- `TimestepState::new`, lines 13-20. -/
def State.new (maxTimestep : ℝ) (maxNumLevels : Nat) : Option State :=
  if maxNumLevels = 0 then none
  else some ⟨maxTimestep, maxNumLevels, maxNumLevels - 1, false⟩

/-- `num_allowed_levels`, lines 66-68. -/
def State.numAllowedLevels (s : State) : Nat := s.maxNumLevels - s.currentLowestAllowed

/-- `find_index_of_lowest_set_bit_in_int`, lines 82-90. -/
def findLowestSetBit (iteration : Nat) : Option Nat :=
  (List.range 32).find? (fun bit => decide (iteration &&& (1 <<< bit) > 0))

/-- `lowest_active_from_iteration`, lines 70-75 (with its assertion). -/
def State.lowestActiveFromIteration (s : State) (iteration numLevels : Nat) : Option Nat :=
  if s.maxNumLevels < 32 then
    let firstBit := (findLowestSetBit iteration).getD (numLevels - 1)
    if firstBit ≤ numLevels - 1 then some (numLevels - 1 - firstBit) else none
  else none

/-- `iter_levels_in_sweep_order`, lines 22-27. -/
def State.iterLevelsInSweepOrder (s : State) : Option (List Nat) :=
  (List.range (2 ^ (s.numAllowedLevels - 1))).mapM (fun i =>
    (s.lowestActiveFromIteration i s.numAllowedLevels).map (fun l => s.currentLowestAllowed + l))

/-- `advance_allowed_levels`, lines 37-48. -/
def State.advanceAllowedLevels (s : State) : State :=
  let s := if s.firstUpdateDone && decide (s.currentLowestAllowed > 0) then
      { s with currentLowestAllowed := s.currentLowestAllowed - 1 } else s
  if !s.firstUpdateDone then { s with firstUpdateDone := true } else s

/-- `get_desired_level_from_desired_timestep`, lines 54-64. -/
def State.getDesiredLevel (s : State) (desired : ℝ) : Option Nat :=
  (fromMaxTimestepAndDesired s.maxNumLevels s.maxTimestep desired).map (fun level =>
    if level < s.currentLowestAllowed then s.currentLowestAllowed else level)

/-- `current_max_timestep`, lines 77-79. -/
def State.currentMaxTimestep (s : State) : ℝ := s.maxTimestep * asFactor s.currentLowestAllowed

/-- The levels of the sweeps that `Sweep::run_sweeps` executes (sweep/mod.rs lines 258-266): a sweep
is skipped if no cell on any rank is active in it (`count_cells_global`, lines 234-238).
`cellLevels` are the levels of all cells of all ranks. -/
def executedLevels (s : State) (cellLevels : List Nat) : Option (List Nat) :=
  s.iterLevelsInSweepOrder.map (fun levels => levels.filter (fun current =>
    decide (0 < (cellLevels.filter (fun l => isActive l current)).length)))

/-- The part of `Sweep::run_sweeps` (sweep/mod.rs lines 258-272) that concerns time: one cycle
advances the time by `current_max_timestep` and then advances the allowed levels. -/
def cycles : Nat → State × ℝ → State × ℝ
  | 0, x => x
  | n + 1, (s, t) => cycles n (s.advanceAllowedLevels, t + s.currentMaxTimestep)

end

end Verif.Timestep
