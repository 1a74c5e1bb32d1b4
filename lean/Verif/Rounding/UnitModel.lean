import Verif.Rounding.Model
import Verif.Rounding.AbsorbModel
import Verif.Units.Model

/-!
# Units and temperatures in `f64`: model of `/repo/src/units/specific_impls.rs`, `/repo/src/units/dimension.rs`,
`/repo/src/io/output/mod.rs`, `/repo/src/io/input/mod.rs` and `/repo/src/main.rs`

A number of type `ℚ` stands for the `f64` with that value, every operation is followed by `fl`.
-/

namespace Verif.Rounding

/-- `BOLTZMANN_CONSTANT`, units/mod.rs line 101; the factors of `joules` and `kelvins` are one. -/
def boltzmannF : ℚ := fl (1380649 / 10 ^ 29)

/-- `GAMMA`, units/mod.rs line 104. -/
def gammaF : ℚ := 5 ⊘ 3

/-- `Temperature::to_internal_energy`, units/specific_impls.rs lines 42-44. -/
def toInternalEnergyF (temperature molecularWeight : ℚ) : ℚ :=
  temperature ⊠ (boltzmannF ⊘ protonMassF) ⊠ (1 ⊘ (gammaF ⊟ 1)) ⊘ molecularWeight

/-- `EnergyPerMass::to_temperature`, units/specific_impls.rs lines 57-59. -/
def toTemperatureF (energy molecularWeight : ℚ) : ℚ :=
  energy ⊠ molecularWeight ⊠ (gammaF ⊟ 1) ⊠ protonMassF ⊘ boltzmannF

/-- `Temperature::from_internal_energy_density_hydrogen_only`, units/specific_impls.rs lines 46-53. -/
def temperatureFromEnergyDensityF (energyDensity ionizedFraction density : ℚ) : ℚ :=
  toTemperatureF (energyDensity ⊘ density) (1 ⊘ (ionizedFraction ⊞ 1))

/-- `EnergyDensity::from_temperature_hydrogen_only`, units/specific_impls.rs lines 63-71. -/
def energyDensityFromTemperatureF (temperature ionizedFraction density : ℚ) : ℚ :=
  toInternalEnergyF temperature (1 ⊘ (ionizedFraction ⊞ 1)) ⊠ density

/-- The temperature of a particle at the start of a run, `insert_missing_components_system`, main.rs lines 158-177. -/
def initialTemperatureF (internalEnergy ionizedFraction density : ℚ) : ℚ :=
  temperatureFromEnergyDensityF (internalEnergy ⊠ density) ionizedFraction density

/-- The constants `LENGTH_TO_SI`, `TIME_TO_SI`, `MASS_TO_SI`, `TEMPERATURE_TO_SI` (units/dimension.rs lines 3-6),
kept as parameters. -/
structure BaseUnitsF where
  lengthToSi : ℚ
  timeToSi : ℚ
  massToSi : ℚ
  temperatureToSi : ℚ

/-- Their values in the code. -/
def BaseUnitsF.si : BaseUnitsF := ⟨1, 1, 1, 1⟩

/-- `Dimension::base_conversion_factor`, units/dimension.rs lines 28-48; `powi` is the function of the standard
library, whose precision is not specified. -/
def baseFactorF (powi : ℚ → ℤ → ℚ) (u : BaseUnitsF) (d : Units.Dimension) : ℚ :=
  powi u.lengthToSi d.length ⊠ powi u.timeToSi d.time ⊠ powi u.massToSi d.mass ⊠ powi u.temperatureToSi d.temperature

/-- What `create_dataset_system` and `write_dataset_system` put into a file for a component of dimension `d`
(io/output/mod.rs lines 286-343): the scale factor, the exponents of length, time, mass and temperature, and the
values. -/
structure DatasetF where
  scaleFactor : ℚ
  length : ℤ
  time : ℤ
  mass : ℤ
  temperature : ℤ
  values : List ℚ

/-- Writing the values of a component. -/
def writeDatasetF (powi : ℚ → ℤ → ℚ) (u : BaseUnitsF) (d : Units.Dimension) (values : List ℚ) : DatasetF :=
  ⟨baseFactorF powi u d, d.length, d.time, d.mass, d.temperature, values⟩

/-- Reading the values of a component: `get_dataset_and_conversion_factor_for_file` and `convert_dataset_units`
(io/input/mod.rs lines 267-309) with `DefaultUnitReader` (io/unit_reader.rs lines 36-67) and `convert_base_units`
(components.rs lines 93-95); `none` is the failed assertion. -/
def readDatasetF (powi : ℚ → ℤ → ℚ) (u : BaseUnitsF) (d : Units.Dimension) (s : DatasetF) : Option (List ℚ) :=
  let dimension : Units.Dimension :=
    { length := s.length, mass := s.mass, time := s.time, h := 0, a := 0, temperature := s.temperature }
  if dimension = d then some (s.values.map fun item => item ⊠ (s.scaleFactor ⊘ baseFactorF powi u d)) else none

end Verif.Rounding
