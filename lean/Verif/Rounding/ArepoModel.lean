import Verif.Rounding.UnitModel

/-!
# Reading Arepo datasets in `f64`: model of `/repo/src/arepo_postprocess/unit_reader.rs`, of `Cosmology::get_factor` and
of the conversion in `/repo/src/io/input/mod.rs`
-/

namespace Verif.Rounding

open Verif.Units

/-- The attributes of a dataset of an Arepo snapshot (arepo_postprocess/unit_reader.rs lines 14-19). -/
structure ArepoAttributesF where
  toCgs : ℚ
  lengthScaling : ℤ
  velocityScaling : ℤ
  massScaling : ℤ
  aScaling : ℤ
  hScaling : ℤ

/-- `Cosmology`, cosmology.rs lines 14-24, without the density parameters; `none` is `NonCosmological`, otherwise the
scale factor and little h. -/
abbrev CosmologyF := Option (ℚ × ℚ)

/-- `ArepoUnitReader::read_raw_dimension`, arepo_postprocess/unit_reader.rs lines 71-97. -/
def rawDimensionF (s : ArepoAttributesF) : Units.Dimension where
  length := s.lengthScaling + s.velocityScaling
  mass := s.massScaling
  time := -s.velocityScaling
  temperature := 0
  h := s.hScaling
  a := s.aScaling

/-- `Cosmology::get_factor`, cosmology.rs lines 56-61; `none` is the panic. -/
def getFactorF (powi : ℚ → ℤ → ℚ) (c : CosmologyF) (d : Units.Dimension) : Option ℚ :=
  c.map fun e => powi e.1 (-d.a) ⊠ powi e.2 (-d.h)

/-- The factor from scale factor and little h, arepo_postprocess/unit_reader.rs lines 101-105; `none` is the panic. -/
def cosmologyFactorF (powi : ℚ → ℤ → ℚ) (c : CosmologyF) (d : Units.Dimension) : Option ℚ :=
  if isCosmological d then (getFactorF powi c d).map fun f => 1 ⊘ f else some 1

/-- The unit in cgs, a zero standing for one in dimensionless datasets, arepo_postprocess/unit_reader.rs lines 107-116;
`none` is the failed assertion. -/
def cgsFactorF (s : ArepoAttributesF) (d : Units.Dimension) : Option ℚ :=
  if s.toCgs = 0 then (if d = Dimension.none then some 1 else none) else some s.toCgs

/-- `ArepoUnitReader::read_scale_factor`, arepo_postprocess/unit_reader.rs lines 99-118; `none` is a panic. -/
def arepoScaleFactorF (powi : ℚ → ℤ → ℚ) (c : CosmologyF) (s : ArepoAttributesF) : Option ℚ :=
  let dimension := rawDimensionF s
  (cosmologyFactorF powi c dimension).bind fun cosmology =>
    let cgsToSi := powi (fl (1 / 100)) dimension.length ⊠ powi (fl (1 / 1000)) dimension.mass
    (cgsFactorF s dimension).map fun cgs => cosmology ⊠ cgsToSi ⊠ cgs

/-- `ArepoUnitReader::read_dimension`, arepo_postprocess/unit_reader.rs lines 120-128; `none` is the panic. -/
def arepoDimensionF (c : CosmologyF) (s : ArepoAttributesF) : Option Units.Dimension :=
  if ¬ isCosmological (rawDimensionF s) then some (rawDimensionF s)
  else c.map fun _ => (rawDimensionF s).nonCosmological

/-- Reading the values of a component from an Arepo dataset: `get_dataset_and_conversion_factor_for_file` and
`convert_dataset_units` (io/input/mod.rs lines 267-309) with `ArepoUnitReader` and `convert_base_units` (components.rs
lines 93-95); `none` is a panic. -/
def readArepoF (powi : ℚ → ℤ → ℚ) (u : BaseUnitsF) (c : CosmologyF) (d : Units.Dimension) (s : ArepoAttributesF)
    (values : List ℚ) : Option (List ℚ) :=
  (arepoScaleFactorF powi c s).bind fun factorWritten =>
    (arepoDimensionF c s).bind fun dimension =>
      if dimension = d then some (values.map fun item => item ⊠ (factorWritten ⊘ baseFactorF powi u d)) else none

end Verif.Rounding
