import Verif.Chemistry.Timescale
import Mathlib.Algebra.Order.Group.MinMax
import Mathlib.Tactic.Ring
import Mathlib.Tactic.Linarith
import Mathlib.Tactic.FieldSimp
import Mathlib.Tactic.NormNum

/-!
# Adaptive sub-stepping of the chemistry: model of the second half of
`/repo/src/chemistry/hydrogen_only/mod.rs`

Numbers are elements of a linearly ordered field.  The changes of temperature and ionised fraction in a
single step are parameters here (`Change`); the formulas of the code are in
`Verif/Chemistry/RateModel.lean`.  A change which is not a finite number is `none`.

A result `none` stands for a panic or for a stored NaN.
-/

namespace Verif.Chemistry

variable {K : Type} [Field K] [LinearOrder K]

/-- `Solver`, lines 126-136. -/
@[ext]
structure Solver (K : Type) where
  ionizedHydrogenFraction : K
  temperature : K
  density : K
  volume : K
  length : K
  rate : K
  scaleFactor : K
  floor : Option (K × K)

/-- A function computing the change of a quantity in a time step. -/
abbrev Change (K : Type) := Solver K → K → Option K

/-- `IONIZED_HYDROGEN_FRACTION_EPSILON`, line 38. -/
def epsilon : K := 1 / 10 ^ 10

/-- `1.0 / f64::EPSILON`. -/
def maxRelativeChange : K := 2 ^ 52

/-- `f64::clamp`: panics if the limits are not ordered. -/
def f64Clamp (x lo hi : K) : Option K :=
  if lo ≤ hi then some (if x < lo then lo else if x > hi then hi else x) else none

/-- `Solver::clamp`, lines 356-369. -/
def clamp (s : Solver K) : Option (Solver K) := do
  let xhiiFloor := match s.floor with
    | some (_, xhii) => xhii
    | none => epsilon
  let x ← f64Clamp s.ionizedHydrogenFraction xhiiFloor (1 - epsilon)
  let s := { s with ionizedHydrogenFraction := x }
  match s.floor with
  | some (tempFloor, _) =>
    if s.temperature < tempFloor then some { s with temperature := tempFloor } else some s
  | none => some s

/-- The relative change in `update`, line 453: `NaN.min(x)` is `x`, and division by zero gives NaN or
infinity. -/
def relativeChange (change : Option K) (value : K) : K :=
  match change with
  | none => maxRelativeChange
  | some c => if value = 0 then maxRelativeChange else min |c / value| maxRelativeChange

/-- `update`, lines 444-461: the new value, and the recommendation if the step is accepted. -/
def update (value : K) (change : Option K) (maxAllowedChange timestep : K) :
    Option (K × Option (WithTop K)) :=
  if relativeChange change value > maxAllowedChange then some (value, none)
  else do
    let c ← change
    some (value + c,
      some (if relativeChange change value = 0 then ⊤
        else ((timestep * (maxAllowedChange / relativeChange change value) : K) : WithTop K)))

/-- `Solver::try_timestep_update`, lines 371-392: the solver is modified also when the step is
rejected. -/
def tryTimestepUpdate (temperatureChange ionizedFractionChange : Change K) (s : Solver K)
    (timestep safety : K) : Option (Solver K × Option (Timescale K)) := do
  let r1 ← update s.temperature (temperatureChange s timestep) safety timestep
  let s := { s with temperature := r1.1 }
  match r1.2 with
  | none => some (s, none)
  | some t1 => do
    let r2 ← update s.ionizedHydrogenFraction (ionizedFractionChange s timestep) safety timestep
    let s := { s with ionizedHydrogenFraction := r2.1 }
    match r2.2 with
    | none => some (s, none)
    | some t2 => do
      let s ← clamp s
      some (s, some (Timescale.min ⟨t1, .temperature⟩ ⟨t2, .ionizationFraction⟩))

/-- `Solver::perform_timestep_internal`, lines 394-424; `remaining` is `max_depth + 1 - depth`. -/
def performTimestepInternal (temperatureChange ionizedFractionChange : Change K) (safety : K) :
    ℕ → Solver K → K → Option (Solver K × Option (Timescale K))
  | 0, s, _ => do
    let s ← clamp s
    some (s, none)
  | remaining + 1, s, timestep => do
    let s ← clamp s
    let r ← tryTimestepUpdate temperatureChange ionizedFractionChange s timestep safety
    match r.2 with
    | some recommendation => some (r.1, some recommendation)
    | none => do
      let restored : Solver K :=
        { r.1 with
          temperature := s.temperature
          ionizedHydrogenFraction := s.ionizedHydrogenFraction }
      let first ← performTimestepInternal temperatureChange ionizedFractionChange safety remaining
        restored (timestep / 2)
      match first.2 with
      | none => some (first.1, none)
      | some _ =>
        performTimestepInternal temperatureChange ionizedFractionChange safety remaining first.1
          (timestep / 2)

/-- `MAX_DEPTH`, line 34. -/
def maxDepth : ℕ := 100

/-- `Solver::perform_timestep`, lines 426-441. -/
def performTimestep (temperatureChange ionizedFractionChange : Change K) (s : Solver K)
    (timestep safety : K) : Option (Solver K × Timescale K) := do
  let r ← performTimestepInternal temperatureChange ionizedFractionChange safety (maxDepth + 1) s timestep
  match r.2 with
  | some t => some (r.1, t)
  | none => some (r.1, ⟨((timestep / 10 : K) : WithTop K), .temperature⟩)

/-- `HydrogenOnlySpecies`, lines 48-53. -/
structure Species (K : Type) where
  ionizedHydrogenFraction : K
  temperature : K
  timestep : WithTop K

/-- `HydrogenOnly`, lines 40-46. -/
structure HydrogenOnly (K : Type) where
  rateThreshold : K
  scaleFactor : K
  timestepSafetyFactor : K
  preventCooling : Bool

/-- `HydrogenOnly::update_abundances`, lines 90-119; of the site only species and density are seen. -/
def updateAbundances (temperatureChange ionizedFractionChange : Change K) (h : HydrogenOnly K)
    (species : Species K) (density rate timestep volume length : K) :
    Option (Species K × Timescale K) := do
  let floor := if h.preventCooling then some (species.temperature, species.ionizedHydrogenFraction)
    else none
  let r ← performTimestep temperatureChange ionizedFractionChange
    ⟨species.ionizedHydrogenFraction, species.temperature, density, volume, length, rate,
      h.scaleFactor, floor⟩ timestep h.timestepSafetyFactor
  some (⟨r.1.ionizedHydrogenFraction, r.1.temperature, r.2.time⟩, r.2)

/-- `PhotonRate::relative_change_to`, `/repo/src/chemistry/mod.rs` lines 71-75. -/
def relativeChangeTo (self other : K) : K :=
  if self = 0 then maxRelativeChange else min |(|self - other| / self)| maxRelativeChange

/-- `PhotonRate::below_threshold`, `/repo/src/chemistry/mod.rs` lines 77-79. -/
def belowThreshold (self threshold : K) : Bool := |self| < |threshold|

/-- What `Sweep::update_chemistry` stores for a cell. -/
structure Site (K : Type) where
  species : Species K
  density : K
  previousIncomingTotalRate : K
  changeTimescale : WithTop K

/-- The rate part of the loop body of `Sweep::update_chemistry`, `/repo/src/sweep/mod.rs` lines
559-566 (positive time step). -/
def rateTimescale (significantRateThreshold rate previous timestep : K) : Timescale K :=
  let relativeChange := if belowThreshold rate significantRateThreshold then 0
    else |relativeChangeTo rate previous|
  ⟨if relativeChange = 0 then ⊤ else ((timestep / relativeChange : K) : WithTop K), .photonRate⟩

/-- The loop body of `Sweep::update_chemistry`, `/repo/src/sweep/mod.rs` lines 551-573, for a cell with
total rate `rate` and time step `timestep`. -/
def updateCell (temperatureChange ionizedFractionChange : Change K) (h : HydrogenOnly K)
    (significantRateThreshold : K) (site : Site K) (rate timestep volume size : K)
    (counter : TimescaleCounter K) : Option (Site K × TimescaleCounter K) := do
  let rateTime := rateTimescale significantRateThreshold rate site.previousIncomingTotalRate timestep
  let r ← updateAbundances temperatureChange ionizedFractionChange h site.species site.density rate
    timestep volume size
  let change := rateTime.min r.2
  some ({ site with
    species := r.1
    previousIncomingTotalRate := rate
    changeTimescale := change.time }, counter.count change)

end Verif.Chemistry
