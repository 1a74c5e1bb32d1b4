import Verif.Chemistry.StepModel

/-!
# Chemistry: specification
-/

namespace Verif.Chemistry

variable {K : Type} [Field K] [LinearOrder K]

/-- The lower limit of the ionised fraction. -/
def lowerLimit (floor : Option (K × K)) : K :=
  match floor with
  | some f => f.2
  | none => 1 / 10 ^ 10

/-- The solver differs from another one at most in temperature and ionised fraction. -/
structure SameCell (s s' : Solver K) : Prop where
  density : s'.density = s.density
  volume : s'.volume = s.volume
  length : s'.length = s.length
  rate : s'.rate = s.rate
  scaleFactor : s'.scaleFactor = s.scaleFactor
  floor : s'.floor = s.floor

/-- The ionised fraction lies between the lower limit and `1 - 10⁻¹⁰`, the temperature is not below the
floor. -/
def InRange (s : Solver K) : Prop :=
  lowerLimit s.floor ≤ s.ionizedHydrogenFraction ∧ s.ionizedHydrogenFraction ≤ 1 - 1 / 10 ^ 10 ∧
  ∀ f, s.floor = some f → f.1 ≤ s.temperature

/-- `s'` is `s` with ionised fraction and temperature moved to the nearest allowed values. -/
structure Clamped (s s' : Solver K) : Prop where
  cell : SameCell s s'
  range : InRange s'
  fraction_up : s.ionizedHydrogenFraction < s'.ionizedHydrogenFraction →
    s'.ionizedHydrogenFraction = lowerLimit s.floor
  fraction_down : s'.ionizedHydrogenFraction < s.ionizedHydrogenFraction →
    s'.ionizedHydrogenFraction = 1 - 1 / 10 ^ 10
  temperature : s'.temperature = s.temperature ∨
    ∃ f, s.floor = some f ∧ s.temperature < f.1 ∧ s'.temperature = f.1

/-- A change is at most the fraction `safety` of the value. -/
def Small (change value safety : K) : Prop := value ≠ 0 ∧ |change| ≤ safety * |value|

/-- A single accepted update over `duration`: first the temperature, then the ionised fraction with the
rates at the new temperature; both changes are small. -/
structure Accepted (temperatureChange ionizedFractionChange : Change K) (safety duration : K)
    (s s' : Solver K) (dT dx : K) (start middle : Solver K) : Prop where
  clamped_start : Clamped s start
  temperature : temperatureChange start duration = some dT
  temperature_small : Small dT start.temperature safety
  middle_eq : middle = { start with temperature := start.temperature + dT }
  fraction : ionizedFractionChange middle duration = some dx
  fraction_small : Small dx start.ionizedHydrogenFraction safety
  finish : Clamped
    { middle with ionizedHydrogenFraction := start.ionizedHydrogenFraction + dx } s'

/-- A sequence of accepted updates with the given durations. -/
inductive Steps (temperatureChange ionizedFractionChange : Change K) (safety : K) :
    List K → Solver K → Solver K → Prop
  | nil (s : Solver K) : Steps temperatureChange ionizedFractionChange safety [] s s
  | cons {duration : K} {durations : List K} {s s' s'' : Solver K}
      (h : ∃ dT dx start middle, Accepted temperatureChange ionizedFractionChange safety duration s s'
        dT dx start middle)
      (hs : Steps temperatureChange ionizedFractionChange safety durations s' s'') :
      Steps temperatureChange ionizedFractionChange safety (duration :: durations) s s''

end Verif.Chemistry
