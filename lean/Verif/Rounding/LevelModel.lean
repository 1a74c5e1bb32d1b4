import Verif.Rounding.ClockModel
import Mathlib.Data.Rat.Floor

/-!
# Levels of time steps with `f64` rounding: model of `/repo/src/sweep/timestep_level.rs` and `/repo/src/sweep/timestep_state.rs`

`f64::log2` of the standard library is a parameter.
-/

namespace Verif.Rounding

/-- `TimestepLevel::from_max_timestep_and_desired_timestep` in `f64`, timestep_level.rs lines 27-36.  The conversion to `usize` takes
negative numbers and NaN to zero.  A desired time step of zero gives an infinite ratio, which is clamped to the deepest level, or NaN if
the maximum time step is zero; the logarithm of zero is `-∞` and that of a negative number is NaN.  `max_num_levels = 0` underflows. -/
def levelF (log2 : ℚ → ℚ) (maxNumLevels : ℕ) (maxTimestep desired : ℚ) : Option ℕ :=
  if maxNumLevels = 0 then none
  else if desired = 0 then some (if 0 < maxTimestep then maxNumLevels - 1 else 0)
  else some (min (if 0 < maxTimestep ⊘ desired then ⌈log2 (maxTimestep ⊘ desired)⌉₊ else 0) (maxNumLevels - 1))

/-- `TimestepLevel::to_timestep` in `f64`, timestep_level.rs lines 42-48; the power of one half is exact. -/
def toTimestepF (level : ℕ) (maxTimestep : ℚ) : ℚ := maxTimestep ⊠ (1 / 2) ^ level

/-- `get_desired_level_from_desired_timestep` in `f64`, timestep_state.rs lines 54-64, for the given lowest allowed level. -/
def desiredLevelF (log2 : ℚ → ℚ) (maxNumLevels lowestAllowed : ℕ) (maxTimestep desired : ℚ) : Option ℕ :=
  (levelF log2 maxNumLevels maxTimestep desired).map fun level => if level < lowestAllowed then lowestAllowed else level

end Verif.Rounding
