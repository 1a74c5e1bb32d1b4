import Verif.Cosmology.Model
import Mathlib.Algebra.Field.Basic
import Mathlib.Algebra.GroupWithZero.Basic

/-!
# Units: dimensions, conversion factors, dataset readers, temperature and energy

Model of `/repo/src/units/dimension.rs`, `units/specific_impls.rs`, `io/unit_reader.rs`, the unit handling of
`io/input/mod.rs` and `io/output/mod.rs`, `arepo_postprocess/unit_reader.rs` and `Cosmology::get_factor`.
`f64` is replaced by `ℝ`, `i32` exponents by `ℤ`.
-/

namespace Verif.Units

open Verif.Cosmology

/-- `Dimension` (`units/dimension.rs` lines 8-16). -/
structure Dimension where
  length : ℤ
  time : ℤ
  mass : ℤ
  temperature : ℤ
  h : ℤ
  a : ℤ
deriving DecidableEq

/-- `NONE` (`units/dimension.rs` lines 18-25). -/
def Dimension.none : Dimension := ⟨0, 0, 0, 0, 0, 0⟩

/-- `Dimension::non_cosmological` (`units/dimension.rs` lines 50-59). -/
def Dimension.nonCosmological (d : Dimension) : Dimension := { d with h := 0, a := 0 }

/-- The constants `LENGTH_TO_SI`, `TIME_TO_SI`, `MASS_TO_SI`, `TEMPERATURE_TO_SI`
(`units/dimension.rs` lines 3-6), kept as parameters. -/
structure BaseUnits where
  lengthToSi : ℝ
  timeToSi : ℝ
  massToSi : ℝ
  temperatureToSi : ℝ

/-- Their values in the code. -/
def BaseUnits.si : BaseUnits := ⟨1, 1, 1, 1⟩

/-- `Dimension::base_conversion_factor` (`units/dimension.rs` lines 28-48). -/
noncomputable def baseConversionFactor (u : BaseUnits) (d : Dimension) : ℝ :=
  u.lengthToSi ^ d.length * u.timeToSi ^ d.time * u.massToSi ^ d.mass * u.temperatureToSi ^ d.temperature

/-- `Cosmology::get_factor` (`cosmology.rs` lines 55-60); `none` is the panic. -/
noncomputable def getFactor (c : Cosmology) (d : Dimension) : Option ℝ :=
  match c with
  | .cosmological a h _ => some (a ^ (-d.a) * h ^ (-d.h))
  | .nonCosmological => none

/-- `Quantity::make_non_cosmological` (`units/specific_impls.rs` lines 79-84): the number behind the quantity
of dimension `d`; the result has dimension `d.nonCosmological` by its type. -/
noncomputable def makeNonCosmological (c : Cosmology) (d : Dimension) (value : ℝ) : Option ℝ := do
  let factor ← getFactor c d
  pure (value * factor)

/-! ### The file format of the code itself -/

/-- The attributes of a dataset written by the code (`io/output/mod.rs` lines 42-48). -/
structure Attributes where
  scaleFactorSi : ℝ
  scalingLength : ℤ
  scalingTime : ℤ
  scalingMass : ℤ
  scalingTemperature : ℤ
  scalingH : ℤ
  scalingA : ℤ

/-- `add_dimension_attrs` (`io/output/mod.rs` lines 317-343) for a component of dimension `d`. -/
noncomputable def addDimensionAttrs (u : BaseUnits) (d : Dimension) : Attributes where
  scaleFactorSi := baseConversionFactor u d
  scalingLength := d.length
  scalingTime := d.time
  scalingMass := d.mass
  scalingTemperature := d.temperature
  scalingH := d.h
  scalingA := d.a

/-- A reader of units: scale factor and dimension of a dataset, `none` for a panic (`UnitReader`,
`io/unit_reader.rs` lines 15-18). -/
structure UnitReader (Attr : Type) where
  readScaleFactor : Attr → Option ℝ
  readDimension : Attr → Option Dimension

/-- `DefaultUnitReader` (`io/unit_reader.rs` lines 35-66). Missing attributes (a panic) are not modelled. -/
def defaultUnitReader : UnitReader Attributes where
  readScaleFactor s := some s.scaleFactorSi
  readDimension s := some
    { length := s.scalingLength
      mass := s.scalingMass
      time := s.scalingTime
      h := 0
      a := 0
      temperature := s.scalingTemperature }

/-- `IdReader` (`io/unit_reader.rs` lines 68-79). -/
noncomputable def idReader (Attr : Type) : UnitReader Attr where
  readScaleFactor _ := some 1.0
  readDimension _ := some Dimension.none

/-- `get_dataset_and_conversion_factor_for_file` followed by `convert_dataset_units`
(`io/input/mod.rs` lines 284-309) for a component of dimension `d` whose `convert_base_units` multiplies
(`components.rs` lines 93-95). The splitting into chunks and regions is the subject of C01. -/
noncomputable def readDataset {Attr : Type} (u : BaseUnits) (reader : UnitReader Attr) (d : Dimension)
    (attrs : Attr) (data : List ℝ) : Option (List ℝ) := do
  let factorWritten ← reader.readScaleFactor attrs
  let dimension ← reader.readDimension attrs
  if dimension = d then
    let factorRead := baseConversionFactor u d
    pure (data.map fun item => item * (factorWritten / factorRead))
  else none

/-! ### The Arepo file format -/

/-- The attributes of a dataset of an Arepo snapshot (`arepo_postprocess/unit_reader.rs` lines 14-19). -/
structure ArepoAttributes where
  toCgs : ℝ
  lengthScaling : ℤ
  velocityScaling : ℤ
  massScaling : ℤ
  aScaling : ℤ
  hScaling : ℤ

/-- `ArepoUnitReader::read_raw_dimension` (`arepo_postprocess/unit_reader.rs` lines 71-97). -/
def readRawDimension (s : ArepoAttributes) : Dimension where
  length := s.lengthScaling + s.velocityScaling
  mass := s.massScaling
  time := -s.velocityScaling
  temperature := 0
  h := s.hScaling
  a := s.aScaling

/-- `is_cosmological` (`arepo_postprocess/unit_reader.rs` lines 66-68). -/
def isCosmological (d : Dimension) : Prop := d.a ≠ 0 ∨ d.h ≠ 0

instance (d : Dimension) : Decidable (isCosmological d) :=
  inferInstanceAs (Decidable (d.a ≠ 0 ∨ d.h ≠ 0))

/-- `check_cosmology_available` (`arepo_postprocess/unit_reader.rs` lines 58-63); `none` is the panic. -/
def checkCosmologyAvailable : Cosmology → Option Unit
  | .cosmological _ _ _ => some ()
  | .nonCosmological => none

/-- The factor from scale factor and little h (`arepo_postprocess/unit_reader.rs` lines 102-106). -/
noncomputable def cosmologyScaleFactor (c : Cosmology) (dimension : Dimension) : Option ℝ :=
  if isCosmological dimension then (getFactor c dimension).map (fun f => 1.0 / f) else some 1.0

open Classical in
/-- The unit in cgs, a zero standing for one in dimensionless datasets
(`arepo_postprocess/unit_reader.rs` lines 108-118). -/
noncomputable def cgsFactor (s : ArepoAttributes) (dimension : Dimension) : Option ℝ :=
  if s.toCgs = 0.0 then (if dimension = Dimension.none then some 1.0 else none) else some s.toCgs

/-- `ArepoUnitReader` (`arepo_postprocess/unit_reader.rs` lines 99-133). -/
noncomputable def arepoUnitReader (c : Cosmology) : UnitReader ArepoAttributes where
  readScaleFactor s := do
    let dimension := readRawDimension s
    let cosmologyScaleFactor ← cosmologyScaleFactor c dimension
    let cgsToSi : ℝ := (0.01 : ℝ) ^ dimension.length * (0.001 : ℝ) ^ dimension.mass
    let cgs ← cgsFactor s dimension
    pure (cosmologyScaleFactor * cgsToSi * cgs)
  readDimension s :=
    let dimension := readRawDimension s
    if ¬ isCosmological dimension then some dimension
    else (checkCosmologyAvailable c).map fun _ => dimension.nonCosmological

/-! ### Temperature and internal energy -/

/-- `BOLTZMANN_CONSTANT`, `PROTON_MASS`, `GAMMA` (`units/mod.rs` lines 112-115), in SI units. -/
noncomputable def boltzmannConstant : ℝ := 1.380649e-23
@[inherit_doc boltzmannConstant] noncomputable def protonMass : ℝ := 1.67262192369e-27
@[inherit_doc boltzmannConstant] noncomputable def gamma : ℝ := 5.0 / 3.0

/-- `Temperature::to_internal_energy` (`units/specific_impls.rs` lines 42-44). -/
noncomputable def toInternalEnergy (temperature molecularWeight : ℝ) : ℝ :=
  temperature * (boltzmannConstant / protonMass) * (1.0 / (gamma - 1.0)) / molecularWeight

/-- `EnergyPerMass::to_temperature` (`units/specific_impls.rs` lines 57-59). -/
noncomputable def toTemperature (energy molecularWeight : ℝ) : ℝ :=
  energy * molecularWeight * (gamma - 1.0) * protonMass / boltzmannConstant

/-- `Temperature::from_internal_energy_density_hydrogen_only` (`units/specific_impls.rs` lines 46-53). -/
noncomputable def temperatureFromEnergyDensity (energyDensity ionizedFraction density : ℝ) : ℝ :=
  let molecularWeight := 1.0 / (ionizedFraction + 1.0)
  toTemperature (energyDensity / density) molecularWeight

/-- `EnergyDensity::from_temperature_hydrogen_only` (`units/specific_impls.rs` lines 63-71). -/
noncomputable def energyDensityFromTemperature (temperature ionizedFraction density : ℝ) : ℝ :=
  let molecularWeight := 1.0 / (ionizedFraction + 1.0)
  let internalEnergy := toInternalEnergy temperature molecularWeight
  internalEnergy * density

end Verif.Units
