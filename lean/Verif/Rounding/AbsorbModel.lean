import Verif.Rounding.Model

/-!
# Absorption in `f64`

Model of the absorption of photons in `/repo/src/chemistry/hydrogen_only/mod.rs` with every operation rounded. `f64::exp` of the
standard library is a parameter.
-/

namespace Verif.Rounding

/-- `PROTON_MASS`, `/repo/src/units/mod.rs` line 102. -/
def protonMassF : ℚ := fl (167262192369 / 10 ^ 38)

/-- `NUMBER_WEIGHTED_AVERAGE_CROSS_SECTION`, `/repo/src/units/mod.rs` line 105: a number of square centimetres. -/
def sigmaF : ℚ := fl (29580524545305314 / 10 ^ 34) ⊠ (fl (1 / 100) ⊠ fl (1 / 100))

/-- The density of neutral atoms, lines 78-79, and `neutral_hydrogen_number_density`, lines 139-149. -/
def neutralDensityF (density x : ℚ) : ℚ := (density ⊘ protonMassF) ⊠ (1 ⊟ x)

/-- The fraction of photons which is not absorbed, lines 84-85 and 316. -/
def passedF (exp : ℚ → ℚ) (density x size : ℚ) : ℚ := exp ((-neutralDensityF density x ⊠ sigmaF) ⊠ size)

/-- `HydrogenOnly::get_outgoing_rate`, lines 72-88. -/
def outgoingRateF (exp : ℚ → ℚ) (threshold density x size rate : ℚ) : ℚ :=
  if rate < threshold then 0 else rate ⊠ passedF exp density x size

/-- `num_newly_ionized_hydrogen_atoms`, lines 312-319. -/
def newlyIonizedF (exp : ℚ → ℚ) (density x size rate timestep : ℚ) : ℚ :=
  (timestep ⊠ rate) ⊠ (1 ⊟ passedF exp density x size)

end Verif.Rounding
