import Verif.Rounding.Model
import Verif.Chemistry.Spec

/-!
# Specification of the sub-steps of the chemistry in `f64`
-/

namespace Verif.Rounding.Chem

open Chemistry

/-- The limits of the ionised fraction: the number of type `f64` next to 10⁻¹⁰ (or the floor), and one minus the former, rounded. -/
def lowerF (floor : Option (ℚ × ℚ)) : ℚ :=
  match floor with
  | some f => f.2
  | none => fl (1 / 10 ^ 10)

@[inherit_doc lowerF] def highF : ℚ := fl (1 - fl (1 / 10 ^ 10))

/-- What is required at the beginning: the numbers are of type `f64` and the temperature is positive. -/
structure Start (s : Solver ℚ) : Prop where
  temperature : IsF64 s.temperature
  positive : 0 < s.temperature
  fraction : IsF64 s.ionizedHydrogenFraction
  floor : ∀ f, s.floor = some f → IsF64 f.1 ∧ IsF64 f.2
  limits : lowerF s.floor ≤ highF

/-- Temperature and ionised fraction are numbers of type `f64` within their limits, and the temperature is positive. -/
structure Sound (s : Solver ℚ) : Prop where
  temperature : IsF64 s.temperature
  positive : 0 < s.temperature
  floor : ∀ f, s.floor = some f → IsF64 f.1 ∧ IsF64 f.2 ∧ f.1 ≤ s.temperature
  fraction : IsF64 s.ionizedHydrogenFraction
  lower : lowerF s.floor ≤ s.ionizedHydrogenFraction
  upper : s.ionizedHydrogenFraction ≤ highF

/-- The value next to `x` between two limits. -/
def between (lo hi x : ℚ) : ℚ := max lo (min x hi)

/-- The solver with its ionised fraction and temperature within their limits. -/
def limited (s : Solver ℚ) : Solver ℚ :=
  { s with
    ionizedHydrogenFraction := between (lowerF s.floor) highF s.ionizedHydrogenFraction
    temperature := match s.floor with
      | some f => max f.1 s.temperature
      | none => s.temperature }

/-- An accepted update over `duration`: the changes are at most the fraction `safety` of the values, as computed in `f64`; the second one
is computed with the new temperature. -/
structure AcceptedF (temperatureChange ionizedFractionChange : Change ℚ) (safety duration : ℚ) (s s' : Solver ℚ) (dT dx : ℚ) : Prop where
  temperature : temperatureChange s duration = some dT
  temperature_small : |dT ⊘ s.temperature| ≤ safety
  fraction : ionizedFractionChange { s with temperature := s.temperature ⊞ dT } duration = some dx
  fraction_small : |dx ⊘ s.ionizedHydrogenFraction| ≤ safety
  finish : s' = limited { s with
    temperature := s.temperature ⊞ dT
    ionizedHydrogenFraction := s.ionizedHydrogenFraction ⊞ dx }

/-- A sequence of accepted updates with the given durations. -/
inductive StepsF (temperatureChange ionizedFractionChange : Change ℚ) (safety : ℚ) : List ℚ → Solver ℚ → Solver ℚ → Prop
  | nil (s : Solver ℚ) : StepsF temperatureChange ionizedFractionChange safety [] s s
  | cons {duration : ℚ} {durations : List ℚ} {s s' s'' : Solver ℚ} {dT dx : ℚ}
      (h : AcceptedF temperatureChange ionizedFractionChange safety duration s s' dT dx)
      (hs : StepsF temperatureChange ionizedFractionChange safety durations s' s'') :
      StepsF temperatureChange ionizedFractionChange safety (duration :: durations) s s''

/-- The changes are numbers of type `f64`. -/
def IsF64Change (c : Change ℚ) : Prop := ∀ s t x, c s t = some x → IsF64 x

end Verif.Rounding.Chem
