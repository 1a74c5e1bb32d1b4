import Mathlib.Analysis.SpecialFunctions.Pow.Real
import Mathlib.Analysis.SpecialFunctions.Sqrt
import Mathlib.Analysis.SpecialFunctions.Log.Basic

/-!
# Cosmology: elapsed time and scale factor

Model of `/repo/src/cosmology.rs` and `/repo/src/time_spec.rs`. `f64` is replaced by an exact ordered
field for the search and by `ℝ` for the formulas; a NaN value of the searched function is `none`.
-/

namespace Verif.Cosmology

section Search
variable {K : Type} [Field K] [LinearOrder K]

/-- `MAX_DEPTH` (`cosmology.rs` line 144). -/
def maxDepth : ℕ := 100

/-- `depth_limited_binary_search` (`cosmology.rs` lines 137-159); `none` is the panic. A comparison with
NaN is false; the sign bit of a NaN is unspecified, so `nanNegative` (by depth) is arbitrary. A negative
zero never reaches the sign test for a non-negative threshold. -/
def depthLimitedBinarySearch (nanNegative : ℕ → Bool) (f : K → Option K) (min max threshold : K)
    (depth : ℕ) : Option K :=
  if maxDepth < depth then none
  else
    let guess := (min + max) / 2
    match f guess with
    | some val =>
      if |val| ≤ threshold then some guess
      else if val < 0 then depthLimitedBinarySearch nanNegative f guess max threshold (depth + 1)
      else depthLimitedBinarySearch nanNegative f min guess threshold (depth + 1)
    | none =>
      if nanNegative depth then depthLimitedBinarySearch nanNegative f guess max threshold (depth + 1)
      else depthLimitedBinarySearch nanNegative f min guess threshold (depth + 1)
termination_by maxDepth + 1 - depth

/-- `binary_search` (`cosmology.rs` lines 133-135). -/
def binarySearch (nanNegative : ℕ → Bool) (f : K → Option K) (min max threshold : K) : Option K :=
  depthLimitedBinarySearch nanNegative f min max threshold 0

end Search

/-- `CosmologyParams` (`cosmology.rs` lines 25-30). -/
structure CosmologyParams where
  omega0 : ℝ
  omegaLambda : ℝ

/-- `Cosmology` (`cosmology.rs` lines 14-23). -/
inductive Cosmology where
  | cosmological (a h : ℝ) (params : Option CosmologyParams)
  | nonCosmological

/-- `HUBBLE` (`cosmology.rs` line 86), in h per second. -/
noncomputable def hubble : ℝ := 3.2407789e-18

/-- `years` (`units/mod.rs` line 53), in seconds. -/
noncomputable def year : ℝ := 3.15576e7

/-- `scalefactor_to_redshift` (`cosmology.rs` lines 32-34). -/
noncomputable def scalefactorToRedshift (a : ℝ) : ℝ := 1.0 / a - 1.0

/-- The closure `time` (`cosmology.rs` lines 96-102), for arguments where no NaN arises. -/
noncomputable def CosmologyParams.time (p : CosmologyParams) (a : ℝ) : ℝ :=
  let factor1 := 2.0 / (3.0 * Real.sqrt p.omegaLambda)
  let term1 := Real.sqrt (p.omegaLambda / p.omega0) * a ^ (1.5 : ℝ)
  let term2 := Real.sqrt (1.0 + p.omegaLambda / p.omega0 * a ^ 3)
  let factor2 := Real.log (term1 + term2)
  factor1 * factor2

/-- Outcome of the time difference. -/
inductive TimeDifference where
  /-- `unimplemented!("Cosmology needs to be flat.")` -/
  | notFlat
  /-- A NaN or infinite intermediate result. -/
  | nan
  | value (t : ℝ)

/-- `CosmologyParams::time_difference_between_scalefactors` (`cosmology.rs` lines 80-107). The formula is
only evaluated in the domain in which no intermediate result is NaN or infinite; outside (vanishing or
negative density parameters, negative scale factors, vanishing h) the outcome `nan` stands for the
exceptional value of IEEE arithmetic. For vanishing `omega_lambda` this is `∞ · ln 1 = NaN`. -/
noncomputable def CosmologyParams.timeDifference (p : CosmologyParams) (a0 a1 h : ℝ) : TimeDifference :=
  if |(p.omegaLambda + p.omega0) - 1.0| > 1e-2 then .notFlat
  else if 0 < p.omegaLambda ∧ 0 < p.omega0 ∧ 0 ≤ a0 ∧ 0 ≤ a1 ∧ h ≠ 0 then
    .value ((p.time a1 - p.time a0) / (hubble * h))
  else .nan

/-- `CosmologyParams::get_scalefactor_from_scalefactor_and_time_difference` (`cosmology.rs` lines
109-130); `none` is a panic. The `unimplemented!` of the first evaluation of the closure is the panic of the
whole function. -/
noncomputable def CosmologyParams.scalefactorAfter (nanNegative : ℕ → Bool) (p : CosmologyParams)
    (a h deltaT : ℝ) : Option ℝ :=
  if |(p.omegaLambda + p.omega0) - 1.0| > 1e-2 then none
  else
    binarySearch nanNegative
      (fun a1 => match p.timeDifference a a1 h with
        | .value t => some (t - deltaT)
        | _ => none)
      0.0 1.0 (100.0 * year)

/-- `TimeSpec` (`time_spec.rs` lines 9-14, 39-44). -/
inductive TimeSpec where
  | time (t : ℝ)
  | cosmological (timeElapsed redshift scaleFactor : ℝ)

/-- `TimeSpec::new` (`time_spec.rs` lines 17-36, 46-54); `none` is a panic. -/
noncomputable def TimeSpec.new (nanNegative : ℕ → Bool) (time : ℝ) : Cosmology → Option TimeSpec
  | .cosmological a h (some params) => do
    let scaleFactor ← params.scalefactorAfter nanNegative a h time
    pure (.cosmological time (scalefactorToRedshift scaleFactor) scaleFactor)
  | .cosmological _ _ none => some (.time time)
  | .nonCosmological => some (.time time)

/-- `Cosmology::scale_factor` (`cosmology.rs` lines 41-46). -/
noncomputable def Cosmology.scaleFactor : Cosmology → ℝ
  | .cosmological a _ _ => a
  | .nonCosmological => 1.0

/-- `Cosmology::little_h` (`cosmology.rs` lines 48-53); `none` is the panic. -/
def Cosmology.littleH : Cosmology → Option ℝ
  | .cosmological _ h _ => some h
  | .nonCosmological => none

end Verif.Cosmology
