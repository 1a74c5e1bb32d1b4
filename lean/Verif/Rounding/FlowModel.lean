import Verif.Rounding.Model

/-!
# The photon rates of the sweep with `f64` rounding: model of `get_outgoing_rate`, `solve_task`, `handle_local_neighbour` and
`handle_local_periodic_neighbour` in `/repo/src/sweep/mod.rs`, `Site::get_rate` in `/repo/src/sweep/site.rs` and `make_positive` in
`/repo/src/chemistry/mod.rs`, seen from one cell

The rates of the cells are corrected by differences: whenever a cell is solved, the change of its outgoing rate is divided among its
downwind neighbours.  The model is the incoming rate of one cell in one direction with everything that happens to it, in any order:
corrections of its upwind cells arrive (from the own rank or as messages; corrections of the same upwind cell arrive in the order in
which they were made), and the cell is solved.
-/

namespace Verif.Rounding

open Verif.Predicates

/-- `face.area * face.normal.dot(**dir)`, sweep/mod.rs lines 453-459. -/
def effectiveAreaF (area : ℚ) (n d : P3 ℚ) : ℚ := area ⊠ dotF n d

/-- `total_effective_area`, sweep/mod.rs lines 453-456: the sum of the effective areas of the downwind faces, in order. -/
def totalAreaF (areas : List ℚ) : ℚ := areas.foldl (· ⊞ ·) 0

/-- `effective_area / total_effective_area` of every downwind face, sweep/mod.rs lines 457-461. -/
def sharesF (areas : List ℚ) : List ℚ := areas.map (· ⊘ totalAreaF areas)

/-- `rate_correction_this_cell`, sweep/mod.rs lines 431-432 and 460-461: `old` and `new` are the outgoing rate before and after. -/
def correctionF (new old share : ℚ) : ℚ := (new ⊟ old) ⊠ share

/-- `Photons::make_positive`, chemistry/mod.rs lines 59-63. -/
def makePositiveF (x : ℚ) : ℚ := if x < 0 then 0 else x

/-- `Site::get_rate`, sweep/site.rs lines 53-56. -/
def getRateF (incoming source periodic : ℚ) : ℚ := incoming ⊞ source ⊞ periodic

/-- The incoming rate of a cell in one direction (`incoming_total_rate`, or `periodic_source` for the periodic neighbours), and the
outgoing rates (`outgoing_total_rate`) its upwind neighbours `J` had at their last correction that arrived. -/
structure Inflow (J : Type) where
  rate : ℚ
  out : J → ℚ

/-- What happens to the incoming rate of a cell. -/
inductive FlowEvent (J : Type) where
  /-- The upwind neighbour `j` has been solved with the new outgoing rate and its correction arrives, sweep/mod.rs lines 423-432,
  487-496 and 505-512. -/
  | correct (j : J) (new : ℚ)
  /-- The cell itself is solved, sweep/mod.rs line 418 (only for `incoming_total_rate`). -/
  | solve

variable {J : Type} [DecidableEq J]

/-- One event; `share` is the part of the outgoing rate of each upwind neighbour that goes to this cell. -/
def Inflow.step (share : J → ℚ) (f : Inflow J) : FlowEvent J → Inflow J
  | .correct j new => { rate := f.rate ⊞ correctionF new (f.out j) (share j), out := Function.update f.out j new }
  | .solve => { f with rate := makePositiveF f.rate }

/-- The rates at the start of the simulation, sweep/site.rs lines 37-39. -/
def Inflow.zero : Inflow J := { rate := 0, out := fun _ => 0 }

/-- A sequence of events. -/
def Inflow.run (share : J → ℚ) (f : Inflow J) (es : List (FlowEvent J)) : Inflow J := es.foldl (Inflow.step share) f

end Verif.Rounding
