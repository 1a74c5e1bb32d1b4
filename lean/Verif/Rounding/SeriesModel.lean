import Verif.Rounding.Model

/-!
# The time series in `f64`

Models `/repo/src/sweep/time_series.rs` with every operation rounded.  Every rank sums over its particles in their order, and
`all_gather_sum` (communication/mpi_world.rs lines 189-198) adds the sums of all ranks in the order of the ranks.  `none` is a quotient
with a vanishing denominator, which is written as `NaN` or infinity.  The photoionization rate is left out for particles which do not
have it.
-/

namespace Verif.Rounding

/-- The components of a particle which are averaged. -/
structure AveragedF where
  mass : ℚ
  volume : ℚ
  fraction : ℚ
  temperature : ℚ
  rate : Option ℚ

/-- `Iterator::sum` of `f64`. -/
def sumF (l : List ℚ) : ℚ := l.foldl (· ⊞ ·) 0

/-- `compute_global_sum`, time_series.rs lines 157-165. -/
def globalSumF (ranks : List (List AveragedF)) (f : AveragedF → Option ℚ) : ℚ :=
  sumF (ranks.map fun l => sumF (l.filterMap f))

/-- A quotient of sums. -/
def quotientF (a b : ℚ) : Option ℚ := if b = 0 then none else some (a ⊘ b)

/-- The events which are sent. -/
structure SeriesF where
  massFraction : Option ℚ
  volumeFraction : Option ℚ
  massTemperature : Option ℚ
  volumeTemperature : Option ℚ
  rate : Option ℚ
  weightedRate : Option ℚ

/-- `compute_time_series_system`, time_series.rs lines 62-155. -/
def computeTimeSeriesF (ranks : List (List AveragedF)) : SeriesF :=
  let ionizedMass := globalSumF ranks fun p => some (p.mass ⊠ p.fraction)
  let totalMass := globalSumF ranks fun p => some p.mass
  let ionizedVolume := globalSumF ranks fun p => some (p.volume ⊠ p.fraction)
  let totalVolume := globalSumF ranks fun p => some p.volume
  let massTemperature := globalSumF ranks fun p => some (p.temperature ⊠ p.mass)
  let volumeTemperature := globalSumF ranks fun p => some (p.temperature ⊠ p.volume)
  let rate := globalSumF ranks fun p => p.rate.map (· ⊠ p.volume)
  let weightedRate := globalSumF ranks fun p => p.rate.map (· ⊠ p.fraction ⊠ p.volume)
  ⟨quotientF ionizedMass totalMass, quotientF ionizedVolume totalVolume, quotientF massTemperature totalMass,
    quotientF volumeTemperature totalVolume, quotientF rate totalVolume, quotientF weightedRate totalVolume⟩

end Verif.Rounding
