/-!
# `DataByRank`: model of `/repo/src/communication/data_by_rank.rs`

`Vec<Option<T>>` is `List (Option T)`.  `none` as the outer result of an operation is a panic
(index out of bounds).  Ranks are natural numbers (a negative `Rank` would panic on indexing).
-/

namespace Verif.DataByRank

/-- `struct DataByRank<T>(Vec<Option<T>>)`, data_by_rank.rs line 9. -/
abbrev Data (T : Type) := List (Option T)

/-- `empty`, lines 36-38. -/
def empty {T : Type} : Data T := []

/-- `from_closure_size_and_rank`, lines 51-63 (also `from_size_and_rank` and
`same_for_other_ranks_in_communicator`). -/
def fromSizeAndRank {T : Type} (t : T) (size thisRank : Nat) : Data T :=
  (List.range size).map (fun rank => if rank = thisRank then none else some t)

/-- `get` / `get_mut`, lines 120-126. -/
def get {T : Type} (d : Data T) (rank : Nat) : Option (Option T) := d[rank]?

/-- `remove`, lines 128-130: `Option::take` of the entry. -/
def remove {T : Type} (d : Data T) (rank : Nat) : Option (Data T × Option T) :=
  match d[rank]? with
  | none => none
  | some t => some (d.set rank none, t)

/-- `insert` with `extend`, lines 132-144. -/
def insert {T : Type} (d : Data T) (rank : Nat) (t : T) : Data T :=
  let d' := if rank ≥ d.length then d ++ List.replicate (rank - d.length + 1) none else d
  d'.set rank (some t)

/-- The `enumerate().filter_map(..)` of `iter`, `iter_mut` and `drain_all`
(lines 76-81 and 146-158), starting from index `i`. -/
def iterFrom {T : Type} : Nat → Data T → List (Nat × T)
  | _, [] => []
  | i, some t :: rest => (i, t) :: iterFrom (i + 1) rest
  | i, none :: rest => iterFrom (i + 1) rest

/-- `iter`, lines 146-151. -/
def iter {T : Type} (d : Data T) : List (Nat × T) := iterFrom 0 d

/-- `drain_all`, lines 76-81: the items, and an empty vector is left behind. -/
def drainAll {T : Type} (d : Data T) : Data T × List (Nat × T) := ([], iter d)

/-- `IntoIter::next`, lines 181-192, iterated to the end: from `cursor` on, `remove` each entry and
yield it if present.  The first argument is the number of loop iterations left,
`self.data.0.len() - cursor`. -/
def intoIterFrom {T : Type} : Nat → Data T → Nat → List (Nat × T)
  | 0, _, _ => []
  | n + 1, d, cursor =>
    match remove d cursor with
    | some (d', some item) => (cursor, item) :: intoIterFrom n d' (cursor + 1)
    | some (d', none) => intoIterFrom n d' (cursor + 1)
    | none => []

/-- `into_iter`, lines 161-169. -/
def intoIter {T : Type} (d : Data T) : List (Nat × T) := intoIterFrom d.length d 0

/-- `FromIterator`, lines 195-203. -/
def fromIter {T : Type} (l : List (Nat × T)) : Data T :=
  l.foldl (fun d p => insert d p.1 p.2) empty

/-- The operations a user can perform. -/
inductive Op (T : Type)
  | insert (rank : Nat) (t : T)
  | remove (rank : Nat)
  | drainAll

/-- One operation on the container; `none` is a panic. -/
def step {T : Type} (d : Data T) : Op T → Option (Data T)
  | .insert r t => some (insert d r t)
  | .remove r => (remove d r).map Prod.fst
  | .drainAll => some (drainAll d).1

/-- A sequence of operations. -/
def run {T : Type} (d : Data T) (ops : List (Op T)) : Option (Data T) := ops.foldlM step d

end Verif.DataByRank
