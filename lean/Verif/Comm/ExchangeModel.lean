import Verif.Comm.DataByRankModel

/-!
# All-to-all exchange: model of `/repo/src/communication/exchange_communicator.rs`

Every rank runs a straight-line program of sends and receives; messages travel in one FIFO queue
per ordered pair of ranks (one tag); sends are buffered (they never block), a receive from a rank
blocks while the queue from that rank is empty.  The assumption that the blocking sends of *empty*
vectors in `empty_send_to_others` do not wait for the receiver is part of this model (see
`Verif.Exchange.unbuffered_exchange_deadlocks` for what happens without it).
-/

namespace Verif.Exchange

open Verif.DataByRank (Data iter)

/-- One communication action of a rank. -/
inductive Act (α : Type)
  | send (dst : Nat) (msg : List α)
  | recv (src : Nat)

/-- `other_ranks` of `SizedCommunicator` (communication/sized_communicator.rs): all ranks except
this one, in increasing order. -/
def otherRanks (size rank : Nat) : List Nat := (List.range size).filter (fun r => r ≠ rank)

/-- The sends of `exchange_all`, exchange_communicator.rs lines 68-80: one per entry of `data`. -/
def dataSends {α : Type} (data : Data (List α)) : List (Act α) :=
  (iter data).map (fun p => Act.send p.1 p.2)

/-- `empty_send_to_others`, lines 61-67: an empty message to every other rank that has no pending
send. -/
def emptySends {α : Type} (size rank : Nat) (data : Data (List α)) : List (Act α) :=
  (otherRanks size rank).filterMap (fun r =>
    if ((iter data).map Prod.fst).contains r then none else some (Act.send r []))

/-- The receive loop of `receive_vec`, lines 92-106. -/
def receives {α : Type} (size rank : Nat) : List (Act α) :=
  (otherRanks size rank).map Act.recv

/-- `exchange_all` on one rank, lines 68-80.  An entry for the own rank or for a rank outside the
communicator panics (`self.pending_data[rank]`), see `Valid` in the property file. -/
def exchangeAll {α : Type} (size rank : Nat) (data : Data (List α)) : List (Act α) :=
  dataSends data ++ emptySends size rank data ++ receives size rank

/-- Several exchanges in a row on one rank. -/
def program {α : Type} (size : Nat) (rounds : List (Nat → Data (List α))) (rank : Nat) :
    List (Act α) :=
  rounds.flatMap (fun data => exchangeAll size rank (data rank))

/-- Global state. `chan s d` is the queue of messages in flight from `s` to `d`; `got r` the
messages received so far by `r` together with their source. -/
structure State (α : Type) where
  rem : Nat → List (Act α)
  chan : Nat → Nat → List (List α)
  got : Nat → List (Nat × List α)

/-- Initial state. -/
def init {α : Type} (size : Nat) (rounds : List (Nat → Data (List α))) : State α :=
  ⟨program size rounds, fun _ _ => [], fun _ => []⟩

/-- One step of some rank. -/
inductive Step {α : Type} (size : Nat) : State α → State α → Prop
  | send (s : State α) (r dst : Nat) (msg : List α) (rest : List (Act α)) (hr : r < size)
      (h : s.rem r = Act.send dst msg :: rest) :
      Step size s
        { rem := fun q => if q = r then rest else s.rem q
          chan := fun a b => if a = r ∧ b = dst then s.chan a b ++ [msg] else s.chan a b
          got := s.got }
  | recv (s : State α) (r src : Nat) (msg : List α) (queue : List (List α)) (rest : List (Act α))
      (hr : r < size) (h : s.rem r = Act.recv src :: rest) (hq : s.chan src r = msg :: queue) :
      Step size s
        { rem := fun q => if q = r then rest else s.rem q
          chan := fun a b => if a = src ∧ b = r then queue else s.chan a b
          got := fun q => if q = r then s.got q ++ [(src, msg)] else s.got q }

/-- Reachability under every interleaving. -/
inductive Reach {α : Type} (size : Nat) (rounds : List (Nat → Data (List α))) : State α → Prop
  | init : Reach size rounds (init size rounds)
  | step (s s' : State α) : Reach size rounds s → Step size s s' → Reach size rounds s'

/-- Unbuffered variant of the step relation: a send only happens together with the matching
receive (the MPI standard allows a blocking standard-mode send to behave like this). -/
inductive SyncStep {α : Type} (size : Nat) : State α → State α → Prop
  | rendezvous (s : State α) (r dst : Nat) (msg : List α) (rest rest' : List (Act α)) (hr : r < size)
      (hd : dst < size) (hne : r ≠ dst) (h : s.rem r = Act.send dst msg :: rest)
      (h' : s.rem dst = Act.recv r :: rest') :
      SyncStep size s
        { rem := fun q => if q = r then rest else if q = dst then rest' else s.rem q
          chan := s.chan
          got := fun q => if q = dst then s.got q ++ [(r, msg)] else s.got q }

end Verif.Exchange
