import Verif.Rounding.AbsorbModel
import Verif.Rounding.UnitModel

/-!
# The implicit update of the chemistry in `f64`: model of `/repo/src/chemistry/hydrogen_only/mod.rs`

The functions of `Verif/Chemistry/RateModel.lean` which combine the rate coefficients, with every operation rounded.  The coefficients
themselves (fits in the temperature, lines 160-273) and `f64::exp` are parameters.  `none` is a result which is infinite or NaN because
of a division by zero; overflow is not modelled.
-/

namespace Verif.Rounding.Implicit

open Verif.Rounding

/-- The fields of `Solver` which are used, lines 126-135. -/
structure CellF where
  ionizedHydrogenFraction : ℚ
  temperature : ℚ
  density : ℚ
  volume : ℚ
  length : ℚ
  rate : ℚ

/-- The values of the rate coefficients and their derivatives at the temperature of the cell, lines 160-273. -/
structure CoefficientsF where
  recombination : ℚ
  recombinationDerivative : ℚ
  collisional : ℚ
  collisionalDerivative : ℚ
  excitationCooling : ℚ
  excitationCoolingDerivative : ℚ
  ionizationCooling : ℚ
  ionizationCoolingDerivative : ℚ
  recombinationCooling : ℚ
  recombinationCoolingDerivative : ℚ
  bremsstrahlung : ℚ
  bremsstrahlungDerivative : ℚ
  compton : ℚ
  comptonDerivative : ℚ

variable (exp : ℚ → ℚ) (k : CoefficientsF) (s : CellF) (timestep : ℚ)

/-- A quotient. -/
def quotF (a b : ℚ) : Option ℚ := if b = 0 then none else some (a ⊘ b)

/-- `hydrogen_number_density`, lines 139-141. -/
def hydrogenDensityF : ℚ := s.density ⊘ protonMassF

/-- `ionized_hydrogen_number_density` and `electron_number_density`, lines 143-154. -/
def electronDensityF : ℚ := hydrogenDensityF s ⊠ s.ionizedHydrogenFraction

/-- `mu`, lines 156-159. -/
def muF : ℚ := 1 ⊘ (s.ionizedHydrogenFraction ⊞ 1)

/-- `num_newly_ionized_hydrogen_atoms`, lines 312-319. -/
def ionizedAtomsF : ℚ := newlyIonizedF exp s.density s.ionizedHydrogenFraction s.length s.rate timestep

/-- `PHOTON_AVERAGE_ENERGY - RYDBERG_CONSTANT`, units/mod.rs lines 107-108; electron volts are line 61. -/
def excessEnergyF : ℚ :=
  fl (18028356312818811 / 10 ^ 15) ⊠ fl (1602176634 / 10 ^ 28) ⊟ fl (1365693 / 10 ^ 5) ⊠ fl (1602176634 / 10 ^ 28)

/-- `photoheating_rate`, lines 321-325. -/
def photoheatingF : Option ℚ := do
  let ionizationDensity ← quotF (ionizedAtomsF exp s timestep) s.volume
  quotF (ionizationDensity ⊠ excessEnergyF) timestep

/-- `photoionization_rate`, lines 327-332. -/
def photoionizationF : Option ℚ := do
  let fraction ← quotF (ionizedAtomsF exp s timestep) (neutralDensityF s.density s.ionizedHydrogenFraction ⊠ s.volume)
  quotF fraction timestep

/-- `cooling_rate`, lines 275-287. -/
def coolingF : ℚ :=
  let ne := electronDensityF s
  let nhNeutral := neutralDensityF s.density s.ionizedHydrogenFraction
  let nhIonized := electronDensityF s
  (k.excitationCooling ⊞ k.ionizationCooling) ⊠ ne ⊠ nhNeutral ⊞ k.recombinationCooling ⊠ ne ⊠ nhIonized
    ⊞ k.bremsstrahlung ⊠ ne ⊠ nhIonized ⊞ k.compton ⊠ ne

/-- `cooling_rate_derivative`, lines 289-302. -/
def coolingDerivativeF : ℚ :=
  let ne := electronDensityF s
  let nhNeutral := neutralDensityF s.density s.ionizedHydrogenFraction
  let nhIonized := electronDensityF s
  (k.excitationCoolingDerivative ⊞ k.ionizationCoolingDerivative) ⊠ ne ⊠ nhNeutral
    ⊞ k.recombinationCoolingDerivative ⊠ ne ⊠ nhIonized ⊞ k.bremsstrahlungDerivative ⊠ ne ⊠ nhIonized
    ⊞ k.comptonDerivative ⊠ ne

/-- The factor `k` of `temperature_change`, line 305. -/
def heatFactorF : Option ℚ := quotF ((gammaF ⊟ 1) ⊠ protonMassF) (s.density ⊠ boltzmannF)

/-- `temperature_change`, lines 304-310. -/
def temperatureChangeF : Option ℚ := do
  let c ← heatFactorF s
  let heating ← photoheatingF exp s timestep
  let lambda := heating ⊟ coolingF k s
  let dlambdadt := -coolingDerivativeF k s
  let mu := muF s
  quotF (c ⊠ mu ⊠ lambda ⊠ timestep) (1 ⊟ c ⊠ mu ⊠ dlambdadt ⊠ timestep)

/-- `c` of `ionized_fraction_change`, line 343, from the photoionization rate. -/
def creationF (photoionization : ℚ) : ℚ := k.collisional ⊠ electronDensityF s ⊞ photoionization

/-- `d` of `ionized_fraction_change`, line 345. -/
def destructionF : ℚ := k.recombination ⊠ electronDensityF s

/-- `j` of `ionized_fraction_change`, lines 346-352. -/
def jacobianF (photoionization : ℚ) : ℚ :=
  let nh := hydrogenDensityF s
  let ne := electronDensityF s
  let mu := muF s
  let c := creationF k s photoionization
  let d := destructionF k s
  let xhii := s.ionizedHydrogenFraction
  let rhsc := ne ⊠ s.temperature ⊠ mu ⊠ 1 ⊠ k.collisionalDerivative
  let dcdx := nh ⊠ k.collisional ⊟ rhsc
  let rhsd := ne ⊠ s.temperature ⊠ mu ⊠ 1 ⊠ k.recombinationDerivative
  let dddx := nh ⊠ k.recombination ⊟ rhsd
  dcdx ⊟ (c ⊞ d) ⊟ xhii ⊠ (dcdx ⊞ dddx)

/-- `ionized_fraction_change`, lines 334-354. -/
def fractionChangeF : Option ℚ := do
  let photoionization ← photoionizationF exp s timestep
  let c := creationF k s photoionization
  let d := destructionF k s
  let j := jacobianF k s photoionization
  quotF (timestep ⊠ (c ⊟ s.ionizedHydrogenFraction ⊠ (c ⊞ d))) (1 ⊟ j ⊠ timestep)

end Verif.Rounding.Implicit
