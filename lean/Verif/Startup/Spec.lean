import Verif.Startup.Model

/-! # Specification: rows of the input files -/

namespace Verif.Startup

open Verif.Geometry Verif.ExchangeData

variable {V : Type}

/-- One row of the input files: the values of the `m` datasets for one particle. -/
abbrev Row (V : Type) := ℕ → V

/-- The datasets of files with `m` datasets each. -/
def columns (m : ℕ) (files : List (List (Row V))) : List (List (List V)) :=
  (List.range m).map fun c => files.map fun f => f.map fun row => row c

/-- The components of a particle which has the values of a row. -/
def comps (m : ℕ) (row : Row V) : Comps V := fun c => if c < m then some (row c) else none

/-- Two positions are so far apart that they are in different cells of the grid of the keys: along some axis by at least the
`2 ^ 42`nd part of the padded box. -/
def Setup.Apart (S : Setup V) (x y : Vec 3 ℝ) : Prop := ∃ i, 1.002 * (S.hi i - S.lo i) / 2 ^ 42 ≤ |x i - y i|

end Verif.Startup
