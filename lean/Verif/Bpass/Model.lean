import Verif.Bpass.Table
import Mathlib.Algebra.Order.Field.Basic
import Mathlib.Data.Rat.Cast.Order

/-!
# Photon rates of stellar populations

Model of `/repo/src/arepo_postprocess/bpass.rs`, over an exact ordered field. A NaN argument is `none`, a panic
(index out of bounds, clamp with reversed bounds) is `none` as result.
-/

namespace Verif.Bpass

variable {K : Type} [Field K] [LinearOrder K]

/-- `linear_interpolate` (`bpass.rs` lines 7-9). -/
def linearInterpolate (x1 x2 y1 y2 x : K) : K := y1 + (x - x1) / (x2 - x1) * (y2 - y1)

/-- `slice::binary_search_by_key` of the standard library: `ok` with the index of the value, or `error` with
the index where it would have to be inserted. The standard library is not part of the code, so the function is
a parameter, assumed to satisfy its documentation for strictly sorted slices (`SearchContract`). -/
abbrev Search (K : Type) := List K → K → Except ℕ ℕ

/-- The documented behaviour of the search. -/
structure SearchContract (search : Search K) : Prop where
  found : ∀ (bins : List K) (v : K) (i : ℕ), bins.Pairwise (· < ·) → search bins v = .ok i →
    bins[i]? = some v
  missing : ∀ (bins : List K) (v : K) (i : ℕ), bins.Pairwise (· < ·) → search bins v = .error i →
    i ≤ bins.length ∧ (∀ j x, j < i → bins[j]? = some x → x < v) ∧
    (∀ j x, i ≤ j → bins[j]? = some x → v < x)

/-- The closure `get_index` (`bpass.rs` lines 12-16). A NaN compares greater than every number in
`OrderedFloat`, so it is inserted at the end. -/
def getIndex (search : Search K) (bins : List K) : Option K → ℕ
  | none => bins.length
  | some value =>
    match search bins value with
    | .ok x => x + 1
    | .error e => e

/-- `f64::clamp`: panics if the bounds are reversed, keeps NaN. -/
def clamp (value : Option K) (min max : K) : Option (Option K) :=
  if min ≤ max then
    some (value.map fun v => if v < min then min else if max < v then max else v)
  else none

/-- The constant `safety` (`bpass.rs` line 20). -/
def safety : K := 1.00001

/-- Indexing with `index - 1`, a panic for zero. -/
def before {α : Type} (l : List α) (index : ℕ) : Option α :=
  if index = 0 then none else l[index - 1]?

/-- Clamping to the bins (`bpass.rs` lines 21-28). -/
def clampToBins (bins : List K) (value : Option K) : Option (Option K) := do
  let first ← bins.head?
  let last ← bins.getLast?
  clamp value (first * safety) (last / safety)

/-- `bpass_lookup` (`bpass.rs` lines 11-56), with the tables as parameters and the arguments already converted
to years and solar masses. -/
def bpassLookup (search : Search K) (ages metallicities : List K) (table : List (List K))
    (age metallicity : Option K) (mass : K) : Option K := do
  let age ← clampToBins ages age
  let metallicity ← clampToBins metallicities metallicity
  let metallicityIndex := getIndex search metallicities metallicity
  let ageIndex := getIndex search ages age
  let a1 ← before ages ageIndex
  let a2 ← ages[ageIndex]?
  let row1 ← before table ageIndex
  let row2 ← table[ageIndex]?
  let t11 ← before row1 metallicityIndex
  let t21 ← before row2 metallicityIndex
  let t12 ← row1[metallicityIndex]?
  let t22 ← row2[metallicityIndex]?
  let z1 ← before metallicities metallicityIndex
  let z2 ← metallicities[metallicityIndex]?
  -- a NaN never gets here, its index being out of bounds
  let age ← age
  let metallicity ← metallicity
  let l1 := linearInterpolate a1 a2 t11 t21 age
  let l2 := linearInterpolate a1 a2 t12 t22 age
  let sourceRatePerMass := linearInterpolate z1 z2 l1 l2 metallicity
  pure (sourceRatePerMass * mass)

/-- The function of the code, with its tables. -/
def lookup [IsStrictOrderedRing K] (search : Search K) (age metallicity : Option K) (mass : K) :
    Option K :=
  bpassLookup search (ageBins.map (↑)) (metallicityBins.map (↑)) (table.map (List.map (↑)))
    age metallicity mass

/-- A search satisfying the contract: a linear scan. -/
def scan : Search K
  | [], _ => .error 0
  | b :: bins, v =>
    if v = b then .ok 0
    else if v < b then .error 0
    else match scan bins v with
      | .ok i => .ok (i + 1)
      | .error i => .error (i + 1)

end Verif.Bpass
