import Mathlib.Algebra.Module.Defs
import Mathlib.Algebra.Order.Field.Basic
import Mathlib.Algebra.BigOperators.Group.Finset.Basic
import Mathlib.Data.Finset.Prod
import Mathlib.Data.Multiset.Filter

/-!
# The distributed sweep: model of `/repo/src/sweep/mod.rs`

Models `Sweep::init_counts`, `get_initial_tasks`, `solve`, `receive_all_messages`,
`receive_messages_from_rank`, `solve_task`, the four `handle_*_neighbour` functions and
`is_active` of `/repo/src/sweep/mod.rs`, `try_send_all`/`update_pending_requests`/
`count_remaining_to_send` of `/repo/src/sweep/communicator.rs`, `Site::get_rate` of
`/repo/src/sweep/site.rs`, `CountByDir::reduce` of `/repo/src/sweep/count_by_dir.rs` and the
upwind and downwind tests of `/repo/src/sweep/grid/cell.rs`.

* All ranks run concurrently; a step of the transition relation is one step of one rank.  The loop
  structure of `solve` is kept as a program counter.
* Geometry lives in a linearly ordered field `K`, photon rates in a `K`-module `R` (exact
  arithmetic).
* The chemistry is a function `absorb` from the cell and its incoming rate to the outgoing rate
  (`get_outgoing_rate` reads only site fields that do not change during a sweep).
* The priority queue is a multiset from which an arbitrary element is popped (the code pops one
  with the largest direction index), which covers every order in which a heap breaks ties.
* The network: one FIFO queue of messages (vectors of rate data) per ordered pair of ranks.  A
  probe may fail although a message is under way, and a pending send may be reported as completed
  or not at any time.
* A subtraction below zero is a panic (`none`).
* `log` is a ghost variable: the tasks solved so far, in order, over all ranks.
-/

namespace Verif.Sweep

/-- `ParticleId`, particle.rs. -/
structure Id where
  rank : Nat
  idx : Nat
deriving DecidableEq

/-- `Task`, sweep/task.rs lines 11-15. -/
structure Task where
  id : Id
  dir : Nat
deriving DecidableEq

/-- `RateData`, sweep/task.rs lines 17-23. -/
structure Data (R : Type) where
  id : Id
  dir : Nat
  rate : R
  periodic : Bool

/-- Three-dimensional vectors. -/
structure V3 (K : Type) where
  x : K
  y : K
  z : K
deriving DecidableEq

/-- Scalar product. -/
def V3.dot {K : Type} [Add K] [Mul K] (a b : V3 K) : K := a.x * b.x + a.y * b.y + a.z * b.z

/-- `Face`, sweep/grid/cell.rs lines 119-123. -/
structure Face (K : Type) where
  area : K
  normal : V3 K

/-- `ParticleType`, sweep/grid/cell.rs lines 16-23.  The rank of a remote neighbour is stored twice
in the code (in the id and next to it, asserted to agree in the `Debug` output); here it is the
rank of the id.  The wrap type of periodic neighbours is not used by the sweep and left out. -/
inductive Neighbour
  | loc (id : Id)
  | remote (id : Id)
  | boundary
  | locPeriodic (id : Id)
  | remotePeriodic (id : Id)
deriving DecidableEq

/-- The cell a neighbour entry refers to, and whether through a periodic boundary. -/
def Neighbour.target : Neighbour → Option (Id × Bool)
  | .loc id => some (id, false)
  | .remote id => some (id, false)
  | .boundary => none
  | .locPeriodic id => some (id, true)
  | .remotePeriodic id => some (id, true)

/-- Everything that does not change during one sweep. -/
structure Grid (K R : Type) where
  numRanks : Nat
  numDirs : Nat
  /-- all cells of all ranks -/
  cells : Finset Id
  /-- `Cell::neighbours` -/
  nbrs : Id → List (Face K × Neighbour)
  /-- `Directions` -/
  dir : Nat → V3 K
  /-- the level of each cell in the `ActiveList`s of its rank -/
  level : Id → Nat
  /-- `halo_levels` of each rank -/
  haloLevel : Nat → Id → Nat
  /-- `current_level` -/
  current : Nat
  /-- `chemistry.get_outgoing_rate` as a function of the incoming rate -/
  absorb : Id → R → R
  /-- `source_per_direction_bin` -/
  source : Id → R
  /-- `Photons::make_positive` -/
  makePositive : R → R
  /-- `num_tasks_to_solve_before_send_receive` -/
  batch : Nat

section
variable {K R : Type} [Field K] [LinearOrder K]

/-- `Face::points_upwind`, sweep/grid/cell.rs lines 125-128. -/
def upwind (f : Face K) (d : V3 K) : Prop := f.normal.dot d < 0

/-- `Face::points_downwind`, sweep/grid/cell.rs lines 130-132. -/
def downwind (f : Face K) (d : V3 K) : Prop := 0 < f.normal.dot d

instance (f : Face K) (d : V3 K) : Decidable (upwind f d) := inferInstanceAs (Decidable (_ < _))
instance (f : Face K) (d : V3 K) : Decidable (downwind f d) := inferInstanceAs (Decidable (_ < _))

/-- `Sweep::get_level` and `is_active`, sweep/mod.rs lines 400-410, on rank `r`. -/
def isActive (G : Grid K R) (r : Nat) (id : Id) : Bool :=
  decide (G.current ≤ if id.rank = r then G.level id else G.haloLevel r id)

/-- The activity recorded in the `ActiveList` of the cell's own rank
(`get_mut_and_active_state`). -/
def ownActive (G : Grid K R) (id : Id) : Bool := decide (G.current ≤ G.level id)

/-- The active cells, `enumerate_active(current_level)` over all ranks. -/
def Grid.act (G : Grid K R) : Finset Id := G.cells.filter (fun id => ownActive G id = true)

/-- `other_ranks`. -/
def others (n r : Nat) : List Nat := (List.range n).filter (fun q => q ≠ r)

/-- Where a rank is in `solve`, sweep/mod.rs lines 291-314. -/
inductive PC
  /-- before the loop condition -/
  | head
  /-- in `receive_all_messages`, with the ranks still to be visited -/
  | recv (ranks : List Nat)
  /-- in the inner loop after `k` tasks -/
  | work (k : Nat)
  /-- before `send_all_messages` -/
  | send
  /-- loop left -/
  | done

/-- The state of all ranks and of the network. -/
structure State (R : Type) where
  /-- `num_missing_upwind` -/
  miss : Id → Nat → Nat
  /-- `incoming_total_rate` -/
  inc : Id → Nat → R
  /-- `outgoing_total_rate` -/
  out : Id → Nat → R
  /-- `periodic_source` -/
  per : Id → Nat → R
  /-- `to_solve` of each rank -/
  todo : Nat → Multiset Task
  /-- `to_solve_count` of each rank -/
  solveCount : Nat → Nat → Nat
  /-- `to_receive_count` of each rank, by source rank -/
  recvCount : Nat → Nat → Nat
  /-- `to_send` of each rank, by target rank -/
  toSend : Nat → Nat → List (Data R)
  /-- `send_buffers` of each rank's communicator -/
  sendBuf : Nat → Nat → List (Data R)
  /-- whether there is an outstanding request, `requests` of each rank's communicator -/
  req : Nat → Nat → Bool
  /-- messages sent but not yet received, from the first to the second rank -/
  chan : Nat → Nat → List (List (Data R))
  /-- program counters -/
  pc : Nat → PC
  /-- ghost: tasks solved so far -/
  log : List Task

/-- Point update of a function of one argument. -/
def upd {A B : Type} [DecidableEq A] (f : A → B) (a : A) (v : B) : A → B :=
  fun a' => if a' = a then v else f a'

/-- Point update of a function of two arguments. -/
def upd2 {A B C : Type} [DecidableEq A] [DecidableEq B] (f : A → B → C) (a : A) (b : B) (v : C) :
    A → B → C :=
  fun a' b' => if a' = a ∧ b' = b then v else f a' b'

/-! ### Before the loop -/

/-- Whether a neighbour entry is counted in `num_missing_upwind` on rank `r` for direction `d`
(sweep/mod.rs lines 360-376). -/
def countsMissing (G : Grid K R) (r d : Nat) (e : Face K × Neighbour) : Bool :=
  match e.2 with
  | .loc id => decide (upwind e.1 (G.dir d)) && isActive G r id
  | .remote id => decide (upwind e.1 (G.dir d)) && isActive G r id
  | _ => false

/-- Whether a neighbour entry is counted in `to_receive_count[q]` on rank `r` for direction `d`
(sweep/mod.rs lines 360-381). -/
def countsReceive (G : Grid K R) (r q d : Nat) (e : Face K × Neighbour) : Bool :=
  match e.2 with
  | .remote id => decide (upwind e.1 (G.dir d)) && isActive G r id && decide (id.rank = q)
  | .remotePeriodic id => decide (upwind e.1 (G.dir d)) && isActive G r id && decide (id.rank = q)
  | _ => false

/-- `init_counts` (sweep/mod.rs lines 346-386) and `get_initial_tasks` (lines 388-398) on all ranks,
starting from the rates left by earlier sweeps.  The counting loops are written as sums.  Sites of
inactive cells keep their old `num_missing_upwind`.  The communicator starts with empty buffers (they
are empty after every earlier sweep, see `Verif.Sweep.finished_rank_is_clean`). -/
def initState (G : Grid K R) (miss : Id → Nat → Nat) (inc out per : Id → Nat → R) : State R :=
  let miss' := fun id d =>
    if id ∈ G.act then (G.nbrs id).countP (countsMissing G id.rank d) else miss id d
  { miss := miss'
    inc := inc
    out := out
    per := per
    todo := fun r => (((G.act.filter (fun id => id.rank = r)) ×ˢ Finset.range G.numDirs).filter
      (fun p => miss' p.1 p.2 = 0)).val.map (fun p => Task.mk p.1 p.2)
    solveCount := fun r _ => (G.act.filter (fun id => id.rank = r)).card
    recvCount := fun r q => ∑ id ∈ G.act.filter (fun id => id.rank = r),
      ∑ d ∈ Finset.range G.numDirs, (G.nbrs id).countP (countsReceive G r q d)
    toSend := fun _ _ => []
    sendBuf := fun _ _ => []
    req := fun _ _ => false
    chan := fun _ _ => []
    pc := fun _ => .head
    log := [] }

/-! ### Solving and receiving -/

/-- `handle_local_neighbour`, sweep/mod.rs lines 487-503. -/
def handleLocal [AddCommGroup R] (G : Grid K R) (s : State R) (x : R) (d : Nat) (id : Id) :
    Option (State R) :=
  let s := { s with inc := upd2 s.inc id d (s.inc id d + x) }
  if ownActive G id then
    match s.miss id d with
    | 0 => none
    | m + 1 =>
      let s := { s with miss := upd2 s.miss id d m }
      if m = 0 then some { s with todo := upd s.todo id.rank (⟨id, d⟩ ::ₘ s.todo id.rank) }
      else some s
  else some s

/-- `handle_local_periodic_neighbour`, sweep/mod.rs lines 505-513. -/
def handleLocalPeriodic [AddCommGroup R] (s : State R) (x : R) (d : Nat) (id : Id) : State R :=
  { s with per := upd2 s.per id d (s.per id d + x) }

/-- `handle_remote_neighbour` and `handle_remote_periodic_neighbour`, sweep/mod.rs lines 515-547, on
rank `r`. -/
def handleRemote (G : Grid K R) (s : State R) (r : Nat) (dat : Data R) : State R :=
  if isActive G r dat.id then
    { s with toSend := upd2 s.toSend r dat.id.rank (s.toSend r dat.id.rank ++ [dat]) }
  else s

/-- The part of the outgoing rate of cell `u` that goes through a face: `effective_area /
total_effective_area`, sweep/mod.rs lines 453-461. -/
def fraction (G : Grid K R) (u : Id) (d : Nat) (f : Face K) : K :=
  (f.area * f.normal.dot (G.dir d)) /
    (((G.nbrs u).map Prod.fst).filter (fun f => downwind f (G.dir d))).foldr
      (fun f acc => f.area * f.normal.dot (G.dir d) + acc) 0

/-- One iteration of the loop over faces in `solve_task`, sweep/mod.rs lines 457-484; `delta` is
`outgoing_rate_correction`. -/
def solveEntry [AddCommGroup R] [Module K R] (G : Grid K R) (t : Task) (delta : R) (s : State R)
    (e : Face K × Neighbour) : Option (State R) :=
  if downwind e.1 (G.dir t.dir) then
    let x := fraction G t.id t.dir e.1 • delta
    match e.2 with
    | .loc id => handleLocal G s x t.dir id
    | .remote id => some (handleRemote G s t.id.rank ⟨id, t.dir, x, false⟩)
    | .boundary => some s
    | .locPeriodic id => some (handleLocalPeriodic s x t.dir id)
    | .remotePeriodic id => some (handleRemote G s t.id.rank ⟨id, t.dir, x, true⟩)
  else some s

/-- `solve_task` and `get_outgoing_rate`, sweep/mod.rs lines 412-485, on the rank owning the cell;
`reduce` panics if the count is zero. -/
def solveTask [AddCommGroup R] [Module K R] (G : Grid K R) (s : State R) (t : Task) :
    Option (State R) :=
  let inc := G.makePositive (s.inc t.id t.dir)
  let out := G.absorb t.id (inc + G.source t.id + s.per t.id t.dir)
  let delta := out - s.out t.id t.dir
  match s.solveCount t.id.rank t.dir with
  | 0 => none
  | c + 1 =>
    (G.nbrs t.id).foldlM (solveEntry G t delta)
      { s with
        inc := upd2 s.inc t.id t.dir inc
        out := upd2 s.out t.id t.dir out
        solveCount := upd2 s.solveCount t.id.rank t.dir c
        log := s.log ++ [t] }

/-- The loop body of `receive_messages_from_rank`, sweep/mod.rs lines 332-338. -/
def receiveData [AddCommGroup R] (G : Grid K R) (s : State R) (dat : Data R) : Option (State R) :=
  if dat.periodic then some (handleLocalPeriodic s dat.rate dat.dir dat.id)
  else handleLocal G s dat.rate dat.dir dat.id

/-- `receive_messages_from_rank`, sweep/mod.rs lines 328-340, when the probe finds the message `msg`
from `q` (and `rest` stays in the network). -/
def receiveMsg [AddCommGroup R] (G : Grid K R) (s : State R) (r q : Nat) (msg : List (Data R))
    (rest : List (List (Data R))) : Option (State R) :=
  if s.recvCount r q < msg.length then none
  else msg.foldlM (receiveData G)
    { s with
      recvCount := upd2 s.recvCount r q (s.recvCount r q - msg.length)
      chan := upd2 s.chan q r rest }

/-! ### Sending -/

/-- `update_pending_requests`, sweep/communicator.rs lines 47-57, on rank `r`; `completed q` is the
answer of `MPI_Test` for the request to rank `q`. -/
def updatePending (n r : Nat) (completed : Nat → Bool) (s : State R) : State R :=
  let keep := fun q => s.req r q && !completed q
  { s with
    req := fun r' q => if r' = r ∧ q ∈ others n r then keep q else s.req r' q
    sendBuf := fun r' q => if r' = r ∧ q ∈ others n r then
      (if keep q then s.sendBuf r q else []) else s.sendBuf r' q }

/-- Whether `try_send_all` posts a send from `r` to `q` (sweep/communicator.rs lines 61-65): there
is data and no outstanding request. -/
def posts (n r : Nat) (s : State R) (q : Nat) : Bool :=
  decide (q ∈ others n r) && !(s.toSend r q).isEmpty && !s.req r q

/-- `try_send_all` after `update_pending_requests`, sweep/communicator.rs lines 61-76: the data of
`to_send` is moved to the send buffer, which is sent as one message. -/
def postSends (n r : Nat) (s : State R) : State R :=
  { s with
    sendBuf := fun r' q => if r' = r ∧ posts n r s q = true then s.sendBuf r q ++ s.toSend r q
      else s.sendBuf r' q
    toSend := fun r' q => if r' = r ∧ posts n r s q = true then [] else s.toSend r' q
    req := fun r' q => if r' = r ∧ posts n r s q = true then true else s.req r' q
    chan := fun r' q => if r' = r ∧ posts n r s q = true then
      s.chan r' q ++ [s.sendBuf r q ++ s.toSend r q] else s.chan r' q }

/-- `try_send_all`, sweep/communicator.rs lines 59-77. -/
def trySendAll (n r : Nat) (completed : Nat → Bool) (s : State R) : State R :=
  postSends n r (updatePending n r completed s)

/-! ### The loop -/

/-- The condition of the loop in `solve`, sweep/mod.rs lines 292-299, on rank `r`. -/
def loopCond (G : Grid K R) (s : State R) (r : Nat) : Prop :=
  0 < ∑ d ∈ Finset.range G.numDirs, s.solveCount r d ∨
  0 < ((others G.numRanks r).map (fun q => (s.sendBuf r q).length)).sum ∨
  0 < ((others G.numRanks r).map (fun q => s.recvCount r q)).sum

/-- Setting the program counter. -/
def setPc (s : State R) (r : Nat) (pc : PC) : State R := { s with pc := upd s.pc r pc }

/-- The kinds of steps a rank makes. -/
inductive Act
  | exit
  | enterRecv
  | enterWork
  | skip
  | probe (q : Nat)
  | take (q : Nat)
  | recvDone
  | pop (t : Task)
  | workDone
  | send (completed : Nat → Bool)

/-- One step of rank `r` in `solve`, sweep/mod.rs lines 291-314. -/
inductive Step [AddCommGroup R] [Module K R] (G : Grid K R) :
    Nat → Act → State R → State R → Prop
  /-- leaving the loop -/
  | exit (s : State R) (r : Nat) : r < G.numRanks → s.pc r = .head → ¬ loopCond G s r →
      Step G r .exit s (setPc s r .done)
  /-- `if self.to_solve.is_empty() { self.receive_all_messages() }` -/
  | enterRecv (s : State R) (r : Nat) : r < G.numRanks → s.pc r = .head → loopCond G s r →
      s.todo r = 0 → Step G r .enterRecv s (setPc s r (.recv (others G.numRanks r)))
  | enterWork (s : State R) (r : Nat) : r < G.numRanks → s.pc r = .head → loopCond G s r →
      s.todo r ≠ 0 → Step G r .enterWork s (setPc s r (.work 0))
  /-- nothing expected from `q` -/
  | skip (s : State R) (r q : Nat) (qs : List Nat) : r < G.numRanks → s.pc r = .recv (q :: qs) →
      s.recvCount r q = 0 → Step G r .skip s (setPc s r (.recv qs))
  /-- something expected from `q` but the probe finds nothing -/
  | probe (s : State R) (r q : Nat) (qs : List Nat) : r < G.numRanks → s.pc r = .recv (q :: qs) →
      0 < s.recvCount r q → Step G r (.probe q) s (setPc s r (.recv qs))
  /-- the probe finds a message -/
  | take (s s' : State R) (r q : Nat) (qs : List Nat) (msg : List (Data R))
      (rest : List (List (Data R))) : r < G.numRanks → s.pc r = .recv (q :: qs) →
      0 < s.recvCount r q → s.chan q r = msg :: rest → receiveMsg G s r q msg rest = some s' →
      Step G r (.take q) s (setPc s' r (.recv qs))
  | recvDone (s : State R) (r : Nat) : r < G.numRanks → s.pc r = .recv [] →
      Step G r .recvDone s (setPc s r (.work 0))
  /-- `while let Some(task) = self.to_solve.pop()` -/
  | pop (s s' : State R) (r k : Nat) (t : Task) : r < G.numRanks → s.pc r = .work k →
      t ∈ s.todo r →
      solveTask G { s with todo := upd s.todo r ((s.todo r).erase t) } t = some s' →
      Step G r (.pop t) s (setPc s' r (if k + 1 > G.batch then .send else .work (k + 1)))
  | workDone (s : State R) (r k : Nat) : r < G.numRanks → s.pc r = .work k → s.todo r = 0 →
      Step G r .workDone s (setPc s r .send)
  /-- `send_all_messages` -/
  | send (s : State R) (r : Nat) (completed : Nat → Bool) : r < G.numRanks → s.pc r = .send →
      Step G r (.send completed) s (setPc (trySendAll G.numRanks r completed s) r .head)

/-- The states reachable in one sweep, under every interleaving. -/
inductive Reach [AddCommGroup R] [Module K R] (G : Grid K R) (s0 : State R) : State R → Prop
  | refl : Reach G s0 s0
  | step (s s' : State R) (r : Nat) (a : Act) : Reach G s0 s → Step G r a s s' → Reach G s0 s'

end

end Verif.Sweep
