import Verif.Chemistry.RateModel

/-!
# Optional output of the chemistry

Model of `/repo/src/sweep/chemistry_output.rs` and of `Sweep::get_solver` (`/repo/src/sweep/mod.rs` lines 612-632).
-/

namespace Verif.Chemistry

noncomputable section

/-- What `get_solver` and `update_chemistry` read of a site (sweep/site.rs lines 12-23) and its cell.  `incoming` and
`periodicSource` have one entry for each direction. -/
structure SiteState where
  species : Species ℝ
  density : ℝ
  source : ℝ
  incoming : List ℝ
  periodicSource : List ℝ
  volume : ℝ
  size : ℝ

/-- `Site::source_per_direction_bin`, sweep/site.rs lines 49-51. -/
def SiteState.sourcePerDirectionBin (s : SiteState) (numDirections : ℕ) : ℝ := s.source / numDirections

/-- `Site::get_rate`, sweep/site.rs lines 53-56.  A missing entry, a panic in the code, is zero here; the theorems assume that
there is none. -/
def SiteState.getRate (s : SiteState) (numDirections dir : ℕ) : ℝ :=
  s.incoming.getD dir 0 + s.sourcePerDirectionBin numDirections + s.periodicSource.getD dir 0

/-- The rate of all directions, sweep/mod.rs lines 616-620 and, in `update_chemistry`, 554-558. -/
def SiteState.totalRate (s : SiteState) (numDirections : ℕ) : ℝ :=
  ((List.range numDirections).map (s.getRate numDirections)).sum

/-- `Sweep::get_solver`, sweep/mod.rs lines 613-631. -/
def getSolver (s : SiteState) (numDirections : ℕ) (scaleFactor : ℝ) : Solver ℝ where
  ionizedHydrogenFraction := s.species.ionizedHydrogenFraction
  temperature := s.species.temperature
  density := s.density
  volume := s.volume
  length := s.size
  rate := s.totalRate numDirections
  scaleFactor := scaleFactor
  floor := none

/-- `timestep`, chemistry_output.rs lines 15-19: one year (units/mod.rs line 48). -/
def outputTimestep : ℝ := 1.0 * 3.15576e7

/-- `PhotoionizationRate::from_solver`, chemistry_output.rs lines 25-29. -/
def outputPhotoionizationRate (s : Solver ℝ) : ℝ := s.photoionizationRate outputTimestep

/-- `HeatingRate::from_solver`, chemistry_output.rs lines 31-35. -/
def outputHeatingRate (s : Solver ℝ) : ℝ := s.photoheatingRate outputTimestep - s.coolingRate

/-- `RecombinationRate::from_solver`, chemistry_output.rs lines 37-45. -/
def outputRecombinationRate (s : Solver ℝ) : ℝ :=
  s.caseBRecombinationRate * s.electronNumberDensity * s.ionizedHydrogenFraction

/-- `CollisionalIonizationRate::from_solver`, chemistry_output.rs lines 47-55. -/
def outputCollisionalIonizationRate (s : Solver ℝ) : ℝ :=
  s.collisionalIonizationRate * s.electronNumberDensity * (1.0 - s.ionizedHydrogenFraction)

end

end Verif.Chemistry
