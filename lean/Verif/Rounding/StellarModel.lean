import Verif.Rounding.Model
import Verif.Bpass.Model

/-!
# Photon rates of stellar populations in `f64`

Model of `/repo/src/arepo_postprocess/bpass.rs` with every operation rounded. A NaN argument is `none`, a panic (index out of
bounds, clamp with reversed bounds) is `none` as result. The conversions to years and solar masses before, and to photons per second
after the lookup are left out.
-/

namespace Verif.Rounding

open Verif.Bpass (Search getIndex clamp before)

/-- `linear_interpolate`, lines 7-9. -/
def interpolateF (x1 x2 y1 y2 x : ℚ) : ℚ := y1 ⊞ (x ⊟ x1) ⊘ (x2 ⊟ x1) ⊠ (y2 ⊟ y1)

/-- The constant `safety`, line 20. -/
def safetyF : ℚ := fl (100001 / 100000)

/-- Clamping to the bins, lines 21-28. -/
def clampToBinsF (bins : List ℚ) (value : Option ℚ) : Option (Option ℚ) := do
  let first ← bins.head?
  let last ← bins.getLast?
  clamp value (first ⊠ safetyF) (last ⊘ safetyF)

/-- `bpass_lookup`, lines 11-56, with the tables as parameters. -/
def bpassLookupF (search : Search ℚ) (ages metallicities : List ℚ) (table : List (List ℚ))
    (age metallicity : Option ℚ) (mass : ℚ) : Option ℚ := do
  let age ← clampToBinsF ages age
  let metallicity ← clampToBinsF metallicities metallicity
  let metallicityIndex := getIndex search metallicities metallicity
  let ageIndex := getIndex search ages age
  let a1 ← before ages ageIndex
  let a2 ← ages[ageIndex]?
  let row1 ← before table ageIndex
  let row2 ← table[ageIndex]?
  let t11 ← before row1 metallicityIndex
  let t21 ← before row2 metallicityIndex
  let t12 ← row1[metallicityIndex]?
  let t22 ← row2[metallicityIndex]?
  let z1 ← before metallicities metallicityIndex
  let z2 ← metallicities[metallicityIndex]?
  -- a NaN never gets here, its index being out of bounds
  let age ← age
  let metallicity ← metallicity
  let l1 := interpolateF a1 a2 t11 t21 age
  let l2 := interpolateF a1 a2 t12 t22 age
  let sourceRatePerMass := interpolateF z1 z2 l1 l2 metallicity
  pure (sourceRatePerMass ⊠ mass)

/-- The function of the code, with its tables: the `f64` next to the decimal numbers. -/
def lookupF (search : Search ℚ) (age metallicity : Option ℚ) (mass : ℚ) : Option ℚ :=
  bpassLookupF search (Bpass.ageBins.map fl) (Bpass.metallicityBins.map fl) (Bpass.table.map (List.map fl)) age metallicity mass

end Verif.Rounding
