import Verif.Domain.DecompositionModel
import Mathlib.Algebra.BigOperators.Group.List.Basic

/-!
# Photon sources: model of `/repo/src/source_systems.rs`

Rates are elements of an arbitrary commutative additive monoid (exact addition).  The k-d tree of
the `kiddo` crate is represented by a function `nearest` from the list of positions and a query to
an index, of which only `NearestContract` is used.  `none` is a panic.
-/

namespace Verif.Sources

/-- `struct Source`, source_systems.rs lines 35-40. -/
structure Source (P R : Type) where
  pos : P
  rate : R

/-- What is used of `KdTree::nearest_one` followed by indexing `particles[index]`: with at least one
particle the index of some particle of minimal distance; without particles the indexing panics. -/
structure NearestContract {P D : Type} [LE D] (dist : P → P → D)
    (nearest : List P → P → Option Nat) : Prop where
  empty : ∀ p, nearest [] p = none
  total : ∀ ps p, ps ≠ [] → ∃ i x, nearest ps p = some i ∧ ps[i]? = some x ∧
    ∀ y ∈ ps, dist p x ≤ dist p y

/-- The loop body of `set_source_terms_system`, lines 63-71, on one rank. -/
def depositStep {P R : Type} [Add R] (nearest : List P → P → Option Nat) (owner : P → Nat)
    (rank : Nat) (positions : List P) (terms : List R) (s : Source P R) : Option (List R) :=
  if owner s.pos = rank then
    match nearest positions s.pos with
    | none => none
    | some i =>
      match terms[i]? with
      | none => none
      | some t => some (terms.set i (t + s.rate))
  else some terms

/-- `set_source_terms_system` on one rank, lines 48-72. -/
def depositRank {P R : Type} [Add R] (nearest : List P → P → Option Nat) (owner : P → Nat)
    (allSources : List (Source P R)) (rank : Nat) (cells : List P × List R) : Option (List R) :=
  allSources.foldlM (depositStep nearest owner rank cells.1) cells.2

/-- All ranks: `all_gather_varcount` gives every rank the concatenation of all ranks' sources
(`Verif.Collective`), then each rank deposits. `world` has positions and source terms of each
rank's cells. -/
def deposit {P R : Type} [Add R] (nearest : List P → P → Option Nat) (owner : P → Nat)
    (sources : List (List (Source P R))) (world : List (List P × List R)) :
    Option (List (List R)) :=
  world.zipIdx.mapM (fun w => depositRank nearest owner sources.flatten w.2 w.1)

/-- The event `TotalLuminosity`, lines 73-74. -/
def totalLuminosity {P R : Type} [AddCommMonoid R] (sources : List (List (Source P R))) : R :=
  (sources.flatten.map Source.rate).sum

end Verif.Sources
