import Verif.Rounding.UnitModel

/-!
# The physical state of the particles at the start of a run in `f64`: model of `/repo/src/main.rs`

The systems of `Verif/Initial/Model.lean` in which numbers are computed, with every operation rounded, for one particle.  The order
of the systems and the exchange between ranks are those of C105; the sources are those of C149.
-/

namespace Verif.Rounding.Start

open Verif.Rounding

/-- The lower bound of the ionized fraction, the constant `1e-10` of main.rs line 214. -/
def floorF : ℚ := fl (1 / 10 ^ 10)

/-- The upper bound of the ionized fraction, `1.0 - 1e-10`, main.rs line 214. -/
def ceilingF : ℚ := 1 ⊟ fl (1 / 10 ^ 10)

/-- `f64::clamp`. -/
def clampF (lo hi x : ℚ) : ℚ := if x < lo then lo else if hi < x then hi else x

/-- The ionized fraction from the input: the parameter (`insert_initial_ionized_fraction_system`, main.rs lines 178-193) or 0.76 times
the electron abundance, clamped (`set_initial_ionized_fraction_from_electron_abundance_system`, main.rs lines 205-217). -/
def initialFractionF (parameter : Option ℚ) (electronAbundance : ℚ) : ℚ :=
  match parameter with
  | some f => f
  | none => clampF floorF ceilingF (fl (76 / 100) ⊠ electronAbundance)

/-- The components of a particle with which the sweep starts. -/
structure StateF where
  density : ℚ
  fraction : ℚ
  temperature : ℚ
  mass : ℚ

/-- `remap_from`, arepo_postprocess/remap.rs lines 380-383: temperature and fraction of the snapshot, if they are larger. -/
def remapFromF (temperature fraction : ℚ) (data : Option (ℚ × ℚ)) : ℚ × ℚ :=
  match data with
  | some (t, f) => (max temperature t, max fraction f)
  | none => (temperature, fraction)

/-- The state of a particle at the start: the fraction, then `insert_missing_components_system` (main.rs lines 158-176), which uses
it, then the remapping, and `compute_cell_mass_system` (main.rs lines 195-203). -/
def startF (parameter : Option ℚ) (density internalEnergy electronAbundance : ℚ) (remap : Option (ℚ × ℚ)) (volume : ℚ) : StateF :=
  let fraction := initialFractionF parameter electronAbundance
  let temperature := initialTemperatureF internalEnergy fraction density
  let remapped := remapFromF temperature fraction remap
  { density := density, fraction := remapped.2, temperature := remapped.1, mass := density ⊠ volume }

end Verif.Rounding.Start
