import Verif.Rounding.Model
import Verif.Cosmology.Model

/-!
# The search for the scale factor in `f64`

Model of the search in `/repo/src/cosmology.rs` with the guesses rounded. The function whose zero is searched is a parameter:
it gives the computed value, or `none` for NaN.
-/

namespace Verif.Rounding

/-- `depth_limited_binary_search` (`cosmology.rs` lines 137-159) with `calls` calls left before the depth limit is exceeded;
`none` is the panic. `nanNegative` (by `calls`) is the sign bit of a NaN, which is unspecified. -/
def searchStepsF (nanNegative : ℕ → Bool) (f : ℚ → Option ℚ) (threshold : ℚ) : ℕ → ℚ → ℚ → Option ℚ
  | 0, _, _ => none
  | calls + 1, min, max =>
    let guess := (min ⊞ max) ⊘ 2
    match f guess with
    | some val =>
      if |val| ≤ threshold then some guess
      else if val < 0 then searchStepsF nanNegative f threshold calls guess max
      else searchStepsF nanNegative f threshold calls min guess
    | none =>
      if nanNegative calls then searchStepsF nanNegative f threshold calls guess max
      else searchStepsF nanNegative f threshold calls min guess

/-- `binary_search` (`cosmology.rs` lines 133-135) between 0 and 1, as it is called in
`get_scalefactor_from_scalefactor_and_time_difference` (lines 118-129). The depths 0 to `MAX_DEPTH` are allowed. -/
def searchF (nanNegative : ℕ → Bool) (f : ℚ → Option ℚ) (threshold : ℚ) : Option ℚ :=
  searchStepsF nanNegative f threshold (Cosmology.maxDepth + 1) 0 1

end Verif.Rounding
