import Verif.Rounding.Model
import Verif.Geometry.Model
import Mathlib.Data.Rat.Floor

/-!
# Periodic wrapping with `f64` rounding: model of `/repo/src/simulation_box.rs`
-/

namespace Verif.Rounding

open Geometry

/-- `f64::rem_euclid` of the standard library: `let r = self % rhs; if r < 0.0 { r + rhs.abs() } else { r }`.  The operator `%` of `f64`
(`fmod`) is exact, see `fmod_exact`. -/
def remEuclidF (a b : ℚ) : ℚ :=
  let r := fmod a b
  if r < 0 then r ⊞ |b| else r

/-- `periodic_wrap_component`, simulation_box.rs lines 59-61, in `f64`. -/
def wrapComponentF (v lo hi : ℚ) : ℚ := lo ⊞ remEuclidF (v ⊟ lo) (hi ⊟ lo)

/-- `SimulationBox::periodic_wrap`, simulation_box.rs lines 86-106, in `f64`. -/
def periodicWrapF {d : ℕ} (box : Extent d ℚ) (pos : Vec d ℚ) : Vec d ℚ := fun i => wrapComponentF (pos i) (box.min i) (box.max i)

end Verif.Rounding
