import Verif.Rounding.Model
import Verif.Chemistry.StepModel

/-!
# Sub-stepping of the chemistry with `f64` rounding: model of `/repo/src/chemistry/hydrogen_only/mod.rs`

As in `Verif/Chemistry/StepModel.lean` the changes of temperature and ionised fraction in a single step are parameters; a change which is
not a finite number is `none`.
-/

namespace Verif.Rounding.Chem

open Chemistry

/-- `IONIZED_HYDROGEN_FRACTION_EPSILON`, line 38: the literal `1e-10`. -/
def epsF : ℚ := fl (1 / 10 ^ 10)

/-- `1.0 - IONIZED_HYDROGEN_FRACTION_EPSILON`, line 363. -/
def upperF : ℚ := 1 ⊟ epsF

/-- `Solver::clamp`, lines 356-369. -/
def clampF (s : Solver ℚ) : Option (Solver ℚ) := do
  let xhiiFloor := match s.floor with
    | some (_, xhii) => xhii
    | none => epsF
  let x ← f64Clamp s.ionizedHydrogenFraction xhiiFloor upperF
  let s := { s with ionizedHydrogenFraction := x }
  match s.floor with
  | some (tempFloor, _) =>
    if s.temperature < tempFloor then some { s with temperature := tempFloor } else some s
  | none => some s

/-- The relative change in `update`, line 453; `1.0 / f64::EPSILON` is 2⁵². -/
def relativeChangeF (change : Option ℚ) (value : ℚ) : ℚ :=
  match change with
  | none => 2 ^ 52
  | some c => if value = 0 then 2 ^ 52 else min |c ⊘ value| (2 ^ 52)

/-- `update`, lines 444-461: the new value, and the recommendation if the step is accepted. -/
def updateF (value : ℚ) (change : Option ℚ) (maxAllowedChange timestep : ℚ) : Option (ℚ × Option (WithTop ℚ)) :=
  if relativeChangeF change value > maxAllowedChange then some (value, none)
  else do
    let c ← change
    some (value ⊞ c,
      some (if relativeChangeF change value = 0 then ⊤
        else ((timestep ⊠ (maxAllowedChange ⊘ relativeChangeF change value) : ℚ) : WithTop ℚ)))

/-- `Solver::try_timestep_update`, lines 371-392. -/
def tryTimestepUpdateF (temperatureChange ionizedFractionChange : Change ℚ) (s : Solver ℚ) (timestep safety : ℚ) :
    Option (Solver ℚ × Option (Timescale ℚ)) := do
  let r1 ← updateF s.temperature (temperatureChange s timestep) safety timestep
  let s := { s with temperature := r1.1 }
  match r1.2 with
  | none => some (s, none)
  | some t1 => do
    let r2 ← updateF s.ionizedHydrogenFraction (ionizedFractionChange s timestep) safety timestep
    let s := { s with ionizedHydrogenFraction := r2.1 }
    match r2.2 with
    | none => some (s, none)
    | some t2 => do
      let s ← clampF s
      some (s, some (Timescale.min ⟨t1, .temperature⟩ ⟨t2, .ionizationFraction⟩))

/-- `Solver::perform_timestep_internal`, lines 394-424; `remaining` is `max_depth + 1 - depth`. -/
def performTimestepInternalF (temperatureChange ionizedFractionChange : Change ℚ) (safety : ℚ) :
    ℕ → Solver ℚ → ℚ → Option (Solver ℚ × Option (Timescale ℚ))
  | 0, s, _ => do
    let s ← clampF s
    some (s, none)
  | remaining + 1, s, timestep => do
    let s ← clampF s
    let r ← tryTimestepUpdateF temperatureChange ionizedFractionChange s timestep safety
    match r.2 with
    | some recommendation => some (r.1, some recommendation)
    | none => do
      let restored : Solver ℚ :=
        { r.1 with
          temperature := s.temperature
          ionizedHydrogenFraction := s.ionizedHydrogenFraction }
      let first ← performTimestepInternalF temperatureChange ionizedFractionChange safety remaining restored (timestep ⊘ 2)
      match first.2 with
      | none => some (first.1, none)
      | some _ => performTimestepInternalF temperatureChange ionizedFractionChange safety remaining first.1 (timestep ⊘ 2)

/-- `Solver::perform_timestep`, lines 426-441. -/
def performTimestepF (temperatureChange ionizedFractionChange : Change ℚ) (s : Solver ℚ) (timestep safety : ℚ) :
    Option (Solver ℚ × Timescale ℚ) := do
  let r ← performTimestepInternalF temperatureChange ionizedFractionChange safety (maxDepth + 1) s timestep
  match r.2 with
  | some t => some (r.1, t)
  | none => some (r.1, ⟨((timestep ⊘ 10 : ℚ) : WithTop ℚ), .temperature⟩)

/-- `HydrogenOnly::update_abundances`, lines 90-119; of the site only species and density are seen. -/
def updateAbundancesF (temperatureChange ionizedFractionChange : Change ℚ) (h : HydrogenOnly ℚ) (species : Species ℚ)
    (density rate timestep volume length : ℚ) : Option (Species ℚ × Timescale ℚ) := do
  let floor := if h.preventCooling then some (species.temperature, species.ionizedHydrogenFraction)
    else none
  let r ← performTimestepF temperatureChange ionizedFractionChange
    ⟨species.ionizedHydrogenFraction, species.temperature, density, volume, length, rate, h.scaleFactor, floor⟩
    timestep h.timestepSafetyFactor
  some (⟨r.1.ionizedHydrogenFraction, r.1.temperature, r.2.time⟩, r.2)

end Verif.Rounding.Chem
