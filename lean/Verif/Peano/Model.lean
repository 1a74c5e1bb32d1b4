/-!
# Peano-Hilbert keys: model

Models `/repo/src/peano_hilbert.rs`.  Fixed-width integers are natural numbers; operations that can
overflow, underflow or index out of bounds return `none` (a panic, as in a debug build).
-/

namespace Verif.Peano

/-- `NUM_BITS_PER_DIMENSION_2D`, line 7. -/
def bits2d : Nat := 64 / 2

/-- `NUM_SUBDIVISIONS_2D`, line 8. -/
def numSubdivisions2d : Nat := 2 ^ bits2d

/-- `NUM_BITS_PER_DIMENSION_3D`, line 13. -/
def bits3d : Nat := 128 / 3

/-- Addition of `u64` values. -/
def addU64 (a b : Nat) : Option Nat := if a + b < 2 ^ 64 then some (a + b) else none

/-- Multiplication of `u64` values. -/
def mulU64 (a b : Nat) : Option Nat := if a * b < 2 ^ 64 then some (a * b) else none

/-- Subtraction of unsigned values. -/
def subU (a b : Nat) : Option Nat := if b ≤ a then some (a - b) else none

/-- `PeanoKey2d::rot`, lines 73-82. -/
def rot (n x y rx ry : Nat) : Option (Nat × Nat) :=
  if ry = 0 then
    if rx = 1 then do
      let x' ← subU (n - 1) x
      let y' ← subU (n - 1) y
      pure (y', x')
    else some (y, x)
  else some (x, y)

/-- The loop of `PeanoKey2d::from_integer_pos`, lines 63-69. -/
def loop2d (s x y d : Nat) : Option Nat :=
  if _h : s > 0 then
    let rx := if x &&& s > 0 then 1 else 0
    let ry := if y &&& s > 0 then 1 else 0
    match (mulU64 s s).bind (fun ss => mulU64 ss ((3 * rx) ^^^ ry)) with
    | none => none
    | some inc =>
      match addU64 d inc with
      | none => none
      | some d' =>
        match rot numSubdivisions2d x y rx ry with
        | none => none
        | some (x', y') => loop2d (s / 2) x' y' d'
  else some d
termination_by s

/-- `PeanoKey2d::from_integer_pos`, lines 60-71. -/
def fromIntegerPos2d (x y : Nat) : Option Nat := loop2d (numSubdivisions2d / 2) x y 0

/-- The loop of `PeanoKey2d::to_integer_pos`, lines 230-238 (the decoder next to the encoder in the
test module of the same file). -/
def loopDecode2d (s t x y : Nat) : Option (Nat × Nat) :=
  if _h : s < numSubdivisions2d ∧ 0 < s then
    let rx := 1 &&& (t / 2)
    let ry := 1 &&& (t ^^^ rx)
    match rot s x y rx ry with
    | none => none
    | some (x', y') => loopDecode2d (s * 2) (t / 4) (x' + s * rx) (y' + s * ry)
  else some (x, y)
termination_by numSubdivisions2d - s
decreasing_by omega

/-- `PeanoKey2d::to_integer_pos`, lines 225-240. -/
def toIntegerPos2d (t : Nat) : Option (Nat × Nat) := loopDecode2d 1 t 0 0

/-- `ROTATION_TABLE`, lines 117-166. -/
def rotationTable : List (List Nat) := [
  [36, 28, 25, 27, 10, 10, 25, 27],
  [29, 11, 24, 24, 37, 11, 26, 26],
  [8, 8, 25, 27, 30, 38, 25, 27],
  [9, 39, 24, 24, 9, 31, 26, 26],
  [40, 24, 44, 32, 40, 6, 44, 6],
  [25, 7, 33, 7, 41, 41, 45, 45],
  [4, 42, 4, 46, 26, 42, 34, 46],
  [43, 43, 47, 47, 5, 27, 5, 35],
  [33, 35, 36, 28, 33, 35, 2, 2],
  [32, 32, 29, 3, 34, 34, 37, 3],
  [33, 35, 0, 0, 33, 35, 30, 38],
  [32, 32, 1, 39, 34, 34, 1, 31],
  [24, 42, 32, 46, 14, 42, 14, 46],
  [43, 43, 47, 47, 25, 15, 33, 15],
  [40, 12, 44, 12, 40, 26, 44, 34],
  [13, 27, 13, 35, 41, 41, 45, 45],
  [28, 41, 28, 22, 38, 43, 38, 22],
  [42, 40, 23, 23, 29, 39, 29, 39],
  [41, 36, 20, 36, 43, 30, 20, 30],
  [37, 31, 37, 31, 42, 40, 21, 21],
  [28, 18, 28, 45, 38, 18, 38, 47],
  [19, 19, 46, 44, 29, 39, 29, 39],
  [16, 36, 45, 36, 16, 30, 47, 30],
  [37, 31, 37, 31, 17, 17, 46, 44],
  [12, 4, 1, 3, 34, 34, 1, 3],
  [5, 35, 0, 0, 13, 35, 2, 2],
  [32, 32, 1, 3, 6, 14, 1, 3],
  [33, 15, 0, 0, 33, 7, 2, 2],
  [16, 0, 20, 8, 16, 30, 20, 30],
  [1, 31, 9, 31, 17, 17, 21, 21],
  [28, 18, 28, 22, 2, 18, 10, 22],
  [19, 19, 23, 23, 29, 3, 29, 11],
  [9, 11, 12, 4, 9, 11, 26, 26],
  [8, 8, 5, 27, 10, 10, 13, 27],
  [9, 11, 24, 24, 9, 11, 6, 14],
  [8, 8, 25, 15, 10, 10, 25, 7],
  [0, 18, 8, 22, 38, 18, 38, 22],
  [19, 19, 23, 23, 1, 39, 9, 39],
  [16, 36, 20, 36, 16, 2, 20, 10],
  [37, 3, 37, 11, 17, 17, 21, 21],
  [4, 17, 4, 46, 14, 19, 14, 46],
  [18, 16, 47, 47, 5, 15, 5, 15],
  [17, 12, 44, 12, 19, 6, 44, 6],
  [13, 7, 13, 7, 18, 16, 45, 45],
  [4, 42, 4, 21, 14, 42, 14, 23],
  [43, 43, 22, 20, 5, 15, 5, 15],
  [40, 12, 21, 12, 40, 6, 23, 6],
  [13, 7, 13, 7, 41, 41, 22, 20]]

/-- `SUBPIX_TABLE`, lines 168-217. -/
def subpixTable : List (List Nat) := [
  [0, 7, 1, 6, 3, 4, 2, 5],
  [7, 4, 6, 5, 0, 3, 1, 2],
  [4, 3, 5, 2, 7, 0, 6, 1],
  [3, 0, 2, 1, 4, 7, 5, 6],
  [1, 0, 6, 7, 2, 3, 5, 4],
  [0, 3, 7, 4, 1, 2, 6, 5],
  [3, 2, 4, 5, 0, 1, 7, 6],
  [2, 1, 5, 6, 3, 0, 4, 7],
  [6, 1, 7, 0, 5, 2, 4, 3],
  [1, 2, 0, 3, 6, 5, 7, 4],
  [2, 5, 3, 4, 1, 6, 0, 7],
  [5, 6, 4, 7, 2, 1, 3, 0],
  [7, 6, 0, 1, 4, 5, 3, 2],
  [6, 5, 1, 2, 7, 4, 0, 3],
  [5, 4, 2, 3, 6, 7, 1, 0],
  [4, 7, 3, 0, 5, 6, 2, 1],
  [6, 7, 5, 4, 1, 0, 2, 3],
  [7, 0, 4, 3, 6, 1, 5, 2],
  [0, 1, 3, 2, 7, 6, 4, 5],
  [1, 6, 2, 5, 0, 7, 3, 4],
  [2, 3, 1, 0, 5, 4, 6, 7],
  [3, 4, 0, 7, 2, 5, 1, 6],
  [4, 5, 7, 6, 3, 2, 0, 1],
  [5, 2, 6, 1, 4, 3, 7, 0],
  [7, 0, 6, 1, 4, 3, 5, 2],
  [0, 3, 1, 2, 7, 4, 6, 5],
  [3, 4, 2, 5, 0, 7, 1, 6],
  [4, 7, 5, 6, 3, 0, 2, 1],
  [6, 7, 1, 0, 5, 4, 2, 3],
  [7, 4, 0, 3, 6, 5, 1, 2],
  [4, 5, 3, 2, 7, 6, 0, 1],
  [5, 6, 2, 1, 4, 7, 3, 0],
  [1, 6, 0, 7, 2, 5, 3, 4],
  [6, 5, 7, 4, 1, 2, 0, 3],
  [5, 2, 4, 3, 6, 1, 7, 0],
  [2, 1, 3, 0, 5, 6, 4, 7],
  [0, 1, 7, 6, 3, 2, 4, 5],
  [1, 2, 6, 5, 0, 3, 7, 4],
  [2, 3, 5, 4, 1, 0, 6, 7],
  [3, 0, 4, 7, 2, 1, 5, 6],
  [1, 0, 2, 3, 6, 7, 5, 4],
  [0, 7, 3, 4, 1, 6, 2, 5],
  [7, 6, 4, 5, 0, 1, 3, 2],
  [6, 1, 5, 2, 7, 0, 4, 3],
  [5, 4, 6, 7, 2, 3, 1, 0],
  [4, 3, 7, 0, 5, 2, 6, 1],
  [3, 2, 0, 1, 4, 5, 7, 6],
  [2, 5, 1, 6, 3, 4, 0, 7]]

/-- Two-dimensional array indexing. -/
def lookup (table : List (List Nat)) (i j : Nat) : Option Nat := (table[i]?).bind (fun r => r[j]?)

/-- The index `pix` computed in lines 101-104. -/
def pixOf (mask x y z : Nat) : Nat :=
  (if x &&& mask ≠ 0 then 4 else 0) ||| (if y &&& mask ≠ 0 then 2 else 0)
    ||| (if z &&& mask ≠ 0 then 1 else 0)

/-- The loop of `PeanoKey3d::from_integer_pos`, lines 100-111.  The shift `key <<= 3` of a `u128`
drops the top bits. -/
def loop3d (mask x y z rotation key : Nat) : Option Nat :=
  if _h : mask > 0 then
    match lookup subpixTable rotation (pixOf mask x y z),
        lookup rotationTable rotation (pixOf mask x y z) with
    | some sub, some rotation' =>
      loop3d (mask >>> 1) x y z rotation' (((key <<< 3) % 2 ^ 128) ||| sub)
    | _, _ => none
  else some key
termination_by mask
decreasing_by
  rw [Nat.shiftRight_eq_div_pow]
  omega

/-- `PeanoKey3d::from_integer_pos`, lines 96-114. -/
def fromIntegerPos3d (x y z : Nat) : Option Nat := loop3d (1 <<< (bits3d - 1)) x y z 0 0

end Verif.Peano
