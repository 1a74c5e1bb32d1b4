import Verif.Chemistry.StepModel
import Mathlib.Analysis.SpecialFunctions.Pow.Real
import Mathlib.Analysis.SpecialFunctions.Sqrt

/-!
# Rates of the hydrogen chemistry: model of the first half of
`/repo/src/chemistry/hydrogen_only/mod.rs`

Numbers are reals; all quantities are in SI units (`/repo/src/units/dimension.rs`: the base units are
SI).  `powf` is the real power, used with positive bases only.
-/

namespace Verif.Chemistry

noncomputable section

/-- `PROTON_MASS`, `/repo/src/units/mod.rs` line 102. -/
def protonMass : ℝ := 1.67262192369e-27

/-- `BOLTZMANN_CONSTANT`, `/repo/src/units/mod.rs` line 101. -/
def boltzmannConstant : ℝ := 1.380649e-23

/-- `GAMMA`, `/repo/src/units/mod.rs` line 104. -/
def gamma : ℝ := 5.0 / 3.0

/-- `NUMBER_WEIGHTED_AVERAGE_CROSS_SECTION`, `/repo/src/units/mod.rs` line 105. -/
def sigma : ℝ := 2.9580524545305314e-18 * (0.01 * 0.01)

/-- `electron_volts`, `/repo/src/units/mod.rs` line 61. -/
def electronVolt : ℝ := 1.602176634e-19

/-- `PHOTON_AVERAGE_ENERGY`, `/repo/src/units/mod.rs` line 107. -/
def photonAverageEnergy : ℝ := 18.028356312818811 * electronVolt

/-- `RYDBERG_CONSTANT`, `/repo/src/units/mod.rs` line 108. -/
def rydbergConstant : ℝ := 13.65693 * electronVolt

/-- `centimeters_cubed_per_s`, `/repo/src/units/mod.rs` lines 76, 93. -/
def cm3PerS : ℝ := 1e-6

/-- `ergs_per_s`, `/repo/src/units/mod.rs` lines 60, 72. -/
def ergPerS : ℝ := 1e-7

/-- `ergs_centimeters_cubed_per_s`, `/repo/src/units/mod.rs` line 95. -/
def ergCm3PerS : ℝ := ergPerS * cm3PerS

/-- `HYDROGEN_MASS_FRACTION`, line 32. -/
def hydrogenMassFraction : ℝ := 1.0

/-- `HydrogenOnly::get_outgoing_rate`, lines 72-88. -/
def getOutgoingRate (h : HydrogenOnly ℝ) (size density ionizedHydrogenFraction incomingRate : ℝ) : ℝ :=
  let neutralHydrogenNumberDensity := density / protonMass * (1.0 - ionizedHydrogenFraction)
  if incomingRate < h.rateThreshold then 0
  else incomingRate * Real.exp (-neutralHydrogenNumberDensity * sigma * size)

namespace Solver

variable (s : Solver ℝ)

/-- `hydrogen_number_density`, lines 139-141. -/
def hydrogenNumberDensity : ℝ := s.density / protonMass

/-- `ionized_hydrogen_number_density`, lines 143-145. -/
def ionizedHydrogenNumberDensity : ℝ := s.hydrogenNumberDensity * s.ionizedHydrogenFraction

/-- `neutral_hydrogen_number_density`, lines 147-149. -/
def neutralHydrogenNumberDensity : ℝ := s.hydrogenNumberDensity * (1.0 - s.ionizedHydrogenFraction)

/-- `electron_number_density`, lines 151-154. -/
def electronNumberDensity : ℝ := s.ionizedHydrogenNumberDensity

/-- `mu`, lines 156-159. -/
def mu : ℝ := 1.0 / (s.ionizedHydrogenFraction + 1.0)

/-- `collision_fit_function`, lines 161-164. -/
def collisionFitFunction : ℝ :=
  √s.temperature / (1.0 + √(s.temperature / 1e5)) * Real.exp (-157809.1 / s.temperature)

/-- `collision_fit_function_derivative`, lines 166-173. -/
def collisionFitFunctionDerivative : ℝ :=
  let const1 : ℝ := 1.0 / 1e5
  let const2 : ℝ := 157809.1
  let t := s.temperature
  (Real.exp (-const2 / t) * (const1 * const2 * t + 0.5 * √(const1 * t) * (2.0 * const2 + t)))
    / (√(t ^ 3) * √(const1 * t) * (√(const1 * t) + 1.0) ^ 2)

/-- `case_b_recombination_rate`, lines 175-180. -/
def caseBRecombinationRate : ℝ :=
  let lambda := 315614.0 / s.temperature
  2.753e-14 * lambda ^ (1.5 : ℝ) / (1.0 + (lambda / 2.74) ^ (0.407 : ℝ)) ^ (2.242 : ℝ) * cm3PerS

/-- `case_b_recombination_rate_derivative`, lines 182-194. -/
def caseBRecombinationRateDerivative : ℝ :=
  let lambda := 315614.0 / s.temperature
  let dlambdaDt := -315614.0 / s.temperature ^ 2
  let c1 : ℝ := 1.0 / 2.74
  let c2 : ℝ := 0.407
  let c3 : ℝ := 2.242
  let d := -√lambda * ((c1 * lambda) ^ c2 + 1.0) ^ (-c3 - 1.0)
    * (c2 * c3 * (c1 * lambda) ^ c2 - 1.5 * (c1 * lambda) ^ c2 - 1.5)
  2.753e-14 * d * cm3PerS * dlambdaDt

/-- `case_b_recombination_cooling_rate`, lines 196-202. -/
def caseBRecombinationCoolingRate : ℝ :=
  let lambda := 315614.0 / s.temperature
  3.435e-30 * s.temperature * lambda ^ (1.97 : ℝ)
    / (1.0 + (lambda / 2.25) ^ (0.376 : ℝ)) ^ (3.72 : ℝ) * ergCm3PerS

/-- `case_b_recombination_cooling_rate_derivative`, lines 204-216. -/
def caseBRecombinationCoolingRateDerivative : ℝ :=
  let c1 : ℝ := 315614.0
  let c2 : ℝ := 1.97
  let c3 : ℝ := 0.376
  let c4 : ℝ := 3.72
  let c5 : ℝ := 2.25
  let t := s.temperature
  let derivative := (1.0 + (c1 / (c5 * t)) ^ c3) ^ (-1.0 - c4)
    * (1.0 - 1.0 * c2 + (1.0 - 1.0 * c2 + c3 * c4) * (c1 / (c5 * t)) ^ c3) * (c1 / t) ^ c2
  3.435e-30 * derivative * ergCm3PerS

/-- `collisional_ionization_rate`, lines 218-220. -/
def collisionalIonizationRate : ℝ := 5.85e-11 * s.collisionFitFunction * cm3PerS

/-- `collisional_ionization_rate_derivative`, lines 222-225. -/
def collisionalIonizationRateDerivative : ℝ := 5.85e-11 * s.collisionFitFunctionDerivative * cm3PerS

/-- `collisional_ionization_cooling_rate`, lines 227-229. -/
def collisionalIonizationCoolingRate : ℝ := 1.27e-21 * s.collisionFitFunction * ergCm3PerS

/-- `collisional_ionization_cooling_rate_derivative`, lines 231-235. -/
def collisionalIonizationCoolingRateDerivative : ℝ :=
  1.27e-21 * s.collisionFitFunctionDerivative * ergCm3PerS

/-- `collisional_excitation_cooling_rate`, lines 237-242. -/
def collisionalExcitationCoolingRate : ℝ :=
  7.5e-19 / (1.0 + √(s.temperature / 1e5)) * Real.exp (-118348.0 / s.temperature) * ergCm3PerS

/-- `collisional_excitation_cooling_rate_derivative`, lines 244-253. -/
def collisionalExcitationCoolingRateDerivative : ℝ :=
  let t := s.temperature
  let c1 : ℝ := 7.5e-19
  let c2 : ℝ := 118348.0
  let c3 : ℝ := 1.0 / 1e5
  (c1 * Real.exp (-c2 / t) * (c2 * c3 * t - 0.5 * c3 * t ^ 2 + c2 * √(c3 * t)))
    / (t ^ 2 * √(c3 * t) * (1.0 + √(c3 * t)) ^ 2) * ergCm3PerS

/-- `bremsstrahlung_cooling_rate`, lines 255-257. -/
def bremsstrahlungCoolingRate : ℝ := 1.42e-27 * √s.temperature * ergCm3PerS

/-- `bremsstrahlung_cooling_rate_derivative`, lines 259-263. -/
def bremsstrahlungCoolingRateDerivative : ℝ := 1.42e-27 / (2.0 * √s.temperature) * ergCm3PerS

/-- `compton_cooling_rate`, lines 265-268. -/
def comptonCoolingRate : ℝ :=
  let x := 2.727 / s.scaleFactor
  1.017e-37 * x ^ 4 * (s.temperature - x) * ergPerS

/-- `compton_cooling_rate_derivative`, lines 270-273. -/
def comptonCoolingRateDerivative : ℝ :=
  let x := 2.727 / s.scaleFactor
  1.017e-37 * x ^ 4 * ergPerS

/-- `cooling_rate`, lines 275-287. -/
def coolingRate : ℝ :=
  let ne := s.electronNumberDensity
  let nhNeutral := s.neutralHydrogenNumberDensity
  let nhIonized := s.ionizedHydrogenNumberDensity
  let collisional := (s.collisionalExcitationCoolingRate + s.collisionalIonizationCoolingRate)
    * ne * nhNeutral
  let recombination := s.caseBRecombinationCoolingRate * ne * nhIonized
  let bremsstrahlung := s.bremsstrahlungCoolingRate * ne * nhIonized
  let compton := s.comptonCoolingRate * ne
  collisional + recombination + bremsstrahlung + compton

/-- `cooling_rate_derivative`, lines 289-302. -/
def coolingRateDerivative : ℝ :=
  let ne := s.electronNumberDensity
  let nhNeutral := s.neutralHydrogenNumberDensity
  let nhIonized := s.ionizedHydrogenNumberDensity
  let collisional :=
    (s.collisionalExcitationCoolingRateDerivative + s.collisionalIonizationCoolingRateDerivative)
    * ne * nhNeutral
  let recombination := s.caseBRecombinationCoolingRateDerivative * ne * nhIonized
  let bremsstrahlung := s.bremsstrahlungCoolingRateDerivative * ne * nhIonized
  let compton := s.comptonCoolingRateDerivative * ne
  collisional + recombination + bremsstrahlung + compton

/-- `num_newly_ionized_hydrogen_atoms`, lines 312-319. -/
def numNewlyIonizedHydrogenAtoms (timestep : ℝ) : ℝ :=
  let absorbedFraction := 1.0 - Real.exp (-s.neutralHydrogenNumberDensity * sigma * s.length)
  let numPhotons := timestep * s.rate
  numPhotons * absorbedFraction

/-- `photoheating_rate`, lines 321-325. -/
def photoheatingRate (timestep : ℝ) : ℝ :=
  let ionizationDensity := s.numNewlyIonizedHydrogenAtoms timestep / s.volume
  ionizationDensity * (photonAverageEnergy - rydbergConstant) / timestep

/-- `photoionization_rate`, lines 327-332. -/
def photoionizationRate (timestep : ℝ) : ℝ :=
  let fractionIonizedHydrogenAtoms :=
    s.numNewlyIonizedHydrogenAtoms timestep / (s.neutralHydrogenNumberDensity * s.volume)
  fractionIonizedHydrogenAtoms / timestep

/-- `k` in `temperature_change`, line 305. -/
def heatCapacityFactor : ℝ := (gamma - 1.0) * protonMass / (s.density * boltzmannConstant)

/-- The denominator in `temperature_change`, line 309. -/
def temperatureDenominator (timestep : ℝ) : ℝ :=
  1.0 - s.heatCapacityFactor * s.mu * -s.coolingRateDerivative * timestep

open Classical in
/-- `temperature_change`, lines 304-310.  The result is not finite (`none`) if a denominator is zero or
the temperature is not positive. -/
def temperatureChange (timestep : ℝ) : Option ℝ :=
  if s.density = 0 ∨ s.volume = 0 ∨ timestep = 0 ∨ s.temperature ≤ 0 ∨ s.scaleFactor = 0 ∨
      s.ionizedHydrogenFraction + 1.0 = 0 ∨ s.temperatureDenominator timestep = 0 then none
  else
    let lambda := s.photoheatingRate timestep - s.coolingRate
    some (s.heatCapacityFactor * s.mu * lambda * timestep / s.temperatureDenominator timestep)

/-- `c` in `ionized_fraction_change`, line 343: ionisations per second and neutral atom. -/
def ionizationCoefficient (timestep : ℝ) : ℝ :=
  s.collisionalIonizationRate * s.electronNumberDensity + s.photoionizationRate timestep

/-- `d` in `ionized_fraction_change`, line 345: recombinations per second and ion. -/
def recombinationCoefficient : ℝ := s.caseBRecombinationRate * s.electronNumberDensity

/-- `j` in `ionized_fraction_change`, lines 347-352. -/
def jacobian (timestep : ℝ) : ℝ :=
  let nh := s.hydrogenNumberDensity
  let ne := s.electronNumberDensity
  let c := s.ionizationCoefficient timestep
  let d := s.recombinationCoefficient
  let rhsc := ne * s.temperature * s.mu * hydrogenMassFraction * s.collisionalIonizationRateDerivative
  let dcdx := nh * s.collisionalIonizationRate - rhsc
  let rhsd := ne * s.temperature * s.mu * hydrogenMassFraction * s.caseBRecombinationRateDerivative
  let dddx := nh * s.caseBRecombinationRate - rhsd
  dcdx - (c + d) - s.ionizedHydrogenFraction * (dcdx + dddx)

open Classical in
/-- `ionized_fraction_change`, lines 334-354.  The result is not finite (`none`) if a denominator is
zero or the temperature is not positive. -/
def ionizedFractionChange (timestep : ℝ) : Option ℝ :=
  if s.density = 0 ∨ s.volume = 0 ∨ timestep = 0 ∨ s.temperature ≤ 0 ∨
      1.0 - s.ionizedHydrogenFraction = 0 ∨ s.ionizedHydrogenFraction + 1.0 = 0 ∨
      1.0 - s.jacobian timestep * timestep = 0 then none
  else
    let c := s.ionizationCoefficient timestep
    let d := s.recombinationCoefficient
    some (timestep * (c - s.ionizedHydrogenFraction * (c + d)) / (1.0 - s.jacobian timestep * timestep))

end Solver

end

end Verif.Chemistry
