import Mathlib.Data.Rat.Floor
import Mathlib.Algebra.Order.Field.Power
import Mathlib.Algebra.Order.Field.Rat
import Mathlib.Data.Nat.Log
import Mathlib.Tactic.Linarith
import Mathlib.Tactic.Positivity
import Mathlib.Tactic.FieldSimp
import Mathlib.Tactic.NormNum
import Mathlib.Tactic.Ring
import Mathlib.Tactic.Push

/-!
# Rounding of `f64` arithmetic

The arithmetic operations `+`, `-`, `*`, `/` of Rust on `f64` return the IEEE 754 binary64 number
nearest to the exact result, ties going to the even significand.  `fl` is that function on rational
numbers, with gradual underflow.  Simplifications: there is no overflow (no infinities and NaNs), and
the two zeros are one number; the theorems about `fl` in this project are about values far below the
largest binary64 number.
-/

namespace Verif.Rounding

/-- The exponent of a number: `2 ^ expo x ≤ |x| < 2 ^ (expo x + 1)` unless `x = 0`. -/
def expo (x : ℚ) : ℤ :=
  let e : ℤ := (Nat.log2 x.num.natAbs : ℤ) - (Nat.log2 x.den : ℤ)
  if |x| < (2 : ℚ) ^ e then e - 1 else e

/-- The nearest integer, ties going to the even one. -/
def nearest (q : ℚ) : ℤ :=
  if q - ⌊q⌋ < 1 / 2 then ⌊q⌋
  else if 1 / 2 < q - ⌊q⌋ then ⌊q⌋ + 1
  else if ⌊q⌋ % 2 = 0 then ⌊q⌋ else ⌊q⌋ + 1

/-- The exponent used for rounding: that of the number, or that of the smallest normal number. -/
def scale (x : ℚ) : ℤ := max (expo x) (-1022)

/-- The binary64 number nearest to `x`. -/
def fl (x : ℚ) : ℚ := nearest (x * (2 : ℚ) ^ (52 - scale x)) * (2 : ℚ) ^ (scale x - 52)

/-- A binary64 number. -/
def IsF64 (x : ℚ) : Prop := fl x = x

instance (x : ℚ) : Decidable (IsF64 x) := inferInstanceAs (Decidable (fl x = x))

end Verif.Rounding
