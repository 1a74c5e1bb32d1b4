import Verif.Rounding.Model
import Verif.Peano.Model
import Mathlib.Algebra.Order.Floor.Defs
import Mathlib.Data.Rat.Floor

/-!
# Keys of positions with `f64` rounding: model of `/repo/src/peano_hilbert.rs` (from positions to keys)
-/

namespace Verif.Rounding

/-- The literal `0.001`, peano_hilbert.rs lines 49, 50, 86 and 87. -/
def pad001 : ℚ := fl (1 / 1000)

/-- One coordinate of `min_padded`, peano_hilbert.rs lines 49 and 86. -/
def minPadded (lo hi : ℚ) : ℚ := lo ⊟ (hi ⊟ lo) ⊠ pad001

/-- One coordinate of `max_padded`, peano_hilbert.rs lines 50 and 87. -/
def maxPadded (lo hi : ℚ) : ℚ := hi ⊞ (hi ⊟ lo) ⊠ pad001

/-- One coordinate of the argument of `from_scaled_vec`, peano_hilbert.rs lines 51 and 88. -/
def scaledPos (lo hi p : ℚ) : ℚ := (p ⊟ minPadded lo hi) ⊘ (maxPadded lo hi ⊟ minPadded lo hi)

/-- One coordinate of `get_integer_position_2d` and `get_integer_position_3d`, peano_hilbert.rs lines 31-44, for a number of bits
per dimension.  The conversion rounds towards zero and maps negative numbers to zero; numbers too large for the integer type are
not modelled. -/
def integerPosF (bits : ℕ) (lo hi p : ℚ) : ℕ := ⌊scaledPos lo hi p ⊠ 2 ^ bits⌋₊

/-- `PeanoKey2d::from_point_and_min_max`, peano_hilbert.rs lines 48-52. -/
def key2F (lo hi p : ℚ × ℚ) : Option ℕ :=
  Peano.fromIntegerPos2d (integerPosF 32 lo.1 hi.1 p.1) (integerPosF 32 lo.2 hi.2 p.2)

/-- `PeanoKey3d::from_point_and_min_max`, peano_hilbert.rs lines 85-89. -/
def key3F (lo hi p : ℚ × ℚ × ℚ) : Option ℕ :=
  Peano.fromIntegerPos3d (integerPosF 42 lo.1 hi.1 p.1) (integerPosF 42 lo.2.1 hi.2.1 p.2.1)
    (integerPosF 42 lo.2.2 hi.2.2 p.2.2)

end Verif.Rounding
