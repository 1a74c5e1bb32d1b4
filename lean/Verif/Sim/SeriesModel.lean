import Verif.Sim.WholeModel

/-!
# The time series

Models `/repo/src/sweep/time_series.rs`.  Every rank sums over its particles, `all_gather_sum` (communication/mpi_world.rs) adds up
the sums of all ranks.  `none` is a quotient with a vanishing denominator, which is written as `NaN` or infinity.
-/

namespace Verif.Sim

/-- The components of a particle which are averaged.  The photoionization rate is an optional component, sweep/mod.rs lines
762-774: particles have it only if it is one of the fields of the snapshots. -/
structure Averaged where
  mass : ℝ
  volume : ℝ
  fraction : ℝ
  temperature : ℝ
  rate : Option ℝ

/-- `compute_global_sum`, time_series.rs lines 157-165: the particles which have the components in the query. -/
def globalSum (ranks : List (List Averaged)) (f : Averaged → Option ℝ) : ℝ :=
  (ranks.map fun l => (l.filterMap f).sum).sum

open Classical in
/-- A quotient of sums. -/
noncomputable def quotient (a b : ℝ) : Option ℝ := if b = 0 then none else some (a / b)

/-- The events which are sent. -/
structure Series where
  massFraction : Option ℝ
  volumeFraction : Option ℝ
  massTemperature : Option ℝ
  volumeTemperature : Option ℝ
  rate : Option ℝ
  weightedRate : Option ℝ

/-- `compute_time_series_system`, time_series.rs lines 62-155. -/
noncomputable def computeTimeSeries (ranks : List (List Averaged)) : Series :=
  let ionizedMass := globalSum ranks fun p => some (p.mass * p.fraction)
  let totalMass := globalSum ranks fun p => some p.mass
  let ionizedVolume := globalSum ranks fun p => some (p.volume * p.fraction)
  let totalVolume := globalSum ranks fun p => some p.volume
  let massTemperature := globalSum ranks fun p => some (p.temperature * p.mass)
  let volumeTemperature := globalSum ranks fun p => some (p.temperature * p.volume)
  let rate := globalSum ranks fun p => p.rate.map (· * p.volume)
  let weightedRate := globalSum ranks fun p => p.rate.map (· * p.fraction * p.volume)
  ⟨quotient ionizedMass totalMass, quotient ionizedVolume totalVolume, quotient massTemperature totalMass,
    quotient volumeTemperature totalVolume, quotient rate totalVolume, quotient weightedRate totalVolume⟩

/-- `num_particles_at_timestep_levels_system`, time_series.rs lines 167-188: level, number and time step of all levels. -/
noncomputable def numParticlesAtLevels (ts : Timestep.State) (maxTimestep : ℝ) (S : List Rank) : Option (List (ℕ × ℕ × ℝ)) :=
  (List.range ts.maxNumLevels).mapM fun l => (countCells S l).map fun n => (l, n, Timestep.toTimestep l maxTimestep)

end Verif.Sim
