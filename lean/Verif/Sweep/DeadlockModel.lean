import Verif.Sweep.Model

/-!
# The check for deadlocks before a sweep: model of `/repo/src/sweep/deadlock_detection.rs`

All ranks call `check_deadlock` after `get_initial_tasks` (sweep/mod.rs lines 279-281).
-/

namespace Verif.Sweep

/-- `ParticleInfo`, deadlock_detection.rs lines 25-30; the rank is the one of the id. -/
structure ParticleInfo where
  id : Id
  level : Nat
deriving DecidableEq

/-- `Dependency`, deadlock_detection.rs lines 19-23. -/
structure Dependency where
  p1 : ParticleInfo
  p2 : ParticleInfo
deriving DecidableEq

section
variable {K R : Type}

/-- `get_level`, sweep/mod.rs lines 400-406, on rank `r`. -/
def levelSeen (G : Grid K R) (r : Nat) (id : Id) : Nat := if id.rank = r then G.level id else G.haloLevel r id

/-- The dependency between an active cell of rank `r` and its neighbour on another rank, deadlock_detection.rs lines
43-62 and 73-77: the cell of the lower rank comes first. -/
def dependency (G : Grid K R) (r : Nat) (id neigh : Id) : Dependency :=
  if neigh.rank > r then ⟨⟨id, levelSeen G r id⟩, ⟨neigh, levelSeen G r neigh⟩⟩
  else ⟨⟨neigh, levelSeen G r neigh⟩, ⟨id, levelSeen G r id⟩⟩

/-- What a neighbour entry of cell `id` of rank `r` contributes to `dependencies[q]`, deadlock_detection.rs lines 69-81;
periodic neighbours are left out. -/
def dependsOn (G : Grid K R) (r q : Nat) (id : Id) (e : Face K × Neighbour) : Option Dependency :=
  match e.2 with
  | .remote neigh => if isActive G r neigh = true ∧ neigh.rank = q then some (dependency G r id neigh) else none
  | _ => none

/-- `get_dependencies`, deadlock_detection.rs lines 64-84: what rank `r` collects for rank `q`.  The vectors are compared
as sets in the end. -/
def dependencies (G : Grid K R) (r q : Nat) : Finset Dependency :=
  (G.act.filter fun id => id.rank = r).biUnion fun id => ((G.nbrs id).filterMap (dependsOn G r q id)).toFinset

/-- What happens when all ranks check. -/
inductive Check
  | passed
  /-- "No rank has an initial task" -/
  | noInitialTask
  /-- "Found .. different dependencies" -/
  | different
  /-- the ranks wait for each other forever -/
  | hangs
deriving DecidableEq

/-- The calls in which a rank waits for all others. -/
inductive Collective
  | gather
  | exchange
deriving DecidableEq

/-- The calls made by rank `r`: `check_some_initial_task_exists` (deadlock_detection.rs lines 86-98) returns early without
active cells, `check_deadlock` (lines 100-122) exchanges the dependencies. -/
def collectives (G : Grid K R) (r : Nat) : List Collective :=
  (if (G.act.filter fun id => id.rank = r).card = 0 then [] else [.gather]) ++ [.exchange]

/-- `check_deadlock` on all ranks.  `MPI_Allgather` returns when all ranks have called it and the exchange needs a message
from every rank, so that the ranks come through only if they make the same calls.  A panic of one rank ends all. -/
def checkDeadlock (G : Grid K R) (s : State R) : Check :=
  if ∃ r ∈ Finset.range G.numRanks, ∃ q ∈ Finset.range G.numRanks, collectives G r ≠ collectives G q then .hangs
  else if (∃ r ∈ Finset.range G.numRanks, .gather ∈ collectives G r) ∧
      ∑ r ∈ Finset.range G.numRanks, (s.todo r).card = 0 then .noInitialTask
  else if ∃ r ∈ Finset.range G.numRanks, ∃ q ∈ Finset.range G.numRanks, q ≠ r ∧ dependencies G r q ≠ dependencies G q r then
    .different
  else .passed

end

end Verif.Sweep
