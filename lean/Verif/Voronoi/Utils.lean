import Mathlib.Data.Nat.Notation

/-!
# Cyclic arrangement and periodic windows

Model of `/repo/src/voronoi/utils.rs`.  The iterators yield references to the items; here they yield the
indices of the items, which says more if items are equal.
-/

namespace Verif.Voronoi

/-- What `next` of an iterator does, with the state for the next call. -/
inductive Next (σ β : Type) where
  | finished
  | panic
  | item (b : β) (s : σ)

/-- `PeriodicWindows2::next`, utils.rs lines 11-24; `cursor` is the state and `len` the number of values. -/
def windowsNext (len cursor : ℕ) : Next ℕ (ℕ × ℕ) :=
  if len < 2 then .finished
  else if len ≤ cursor then .finished
  else if cursor = len - 1 then .item (cursor, 0) (cursor + 1)
  else .item (cursor, cursor + 1) (cursor + 1)

/-- The state of `Cyclic`, utils.rs lines 33-38; the hash set is modelled by the list of its elements. -/
structure CyclicState where
  visited : List ℕ
  visiting : ℕ

/-- `Cyclic::next`, utils.rs lines 62-89.  `related i j` stands for `related(items[i], items[j])`.  A panic is
the failing assertion (line 69) or the failing `expect` (line 84). -/
def cyclicNext (len : ℕ) (related : ℕ → ℕ → Bool) (s : CyclicState) : Next CyclicState (ℕ × ℕ) :=
  if len < 2 ∨ len = s.visited.length then .finished
  else if s.visited.length = len - 1 then
    if related s.visiting 0 then .item (s.visiting, 0) ⟨s.visiting :: s.visited, s.visiting⟩
    else .panic
  else
    match (List.range len).find? fun i => decide (i ≠ s.visiting) && !s.visited.contains i && related s.visiting i with
    | none => .panic
    | some i => .item (s.visiting, i) ⟨s.visiting :: s.visited, i⟩

/-- The result of collecting the items of an iterator: a list, a panic, or not finished after a given number
of items. -/
inductive Collected (β : Type) where
  | done (l : List β)
  | panic
  | running
  deriving DecidableEq

/-- Puts an item in front of the collected ones. -/
def Collected.cons {β : Type} (b : β) : Collected β → Collected β
  | done l => .done (b :: l)
  | panic => .panic
  | running => .running

/-- Collecting the items of an iterator into a vector, at most `fuel` of them. -/
def collect {σ β : Type} (next : σ → Next σ β) : ℕ → σ → Collected β
  | 0, s =>
    match next s with
    | .finished => .done []
    | .panic => .panic
    | .item _ _ => .running
  | fuel + 1, s =>
    match next s with
    | .finished => .done []
    | .panic => .panic
    | .item b s' => (collect next fuel s').cons b

/-- `periodic_windows_2(values).collect()`, utils.rs lines 29-31. -/
def periodicWindows2 {α : Type} (values : List α) : Collected (ℕ × ℕ) :=
  collect (windowsNext values.length) values.length 0

/-- `related(items[i], items[j])`; the code only uses existing indices. -/
def relatedAt {α : Type} (items : List α) (related : α → α → Bool) (i j : ℕ) : Bool :=
  match items[i]?, items[j]? with
  | some a, some b => related a b
  | _, _ => false

/-- `arrange_cyclic_by(items, related).collect()`, utils.rs lines 46-57. -/
def arrangeCyclicBy {α : Type} (items : List α) (related : α → α → Bool) : Collected (ℕ × ℕ) :=
  collect (cyclicNext items.length (relatedAt items related)) items.length ⟨[], 0⟩

end Verif.Voronoi
