/-!
# Serial (non parallel-hdf5) snapshot output: model

Each rank runs a fixed program per snapshot; the ranks are interleaved arbitrarily and meet in
`MPI_Barrier`s.
-/

namespace Verif.SerialOutput

/-- Observable actions of one rank while a snapshot is written.  `create` stands for
`create_file_system` (io/output/mod.rs 178-201) plus the dataset creation systems
(lines 265-286), `opn` for `open_file_system` (240-253), `write` for all
`write_dataset_system`s (288-315), `close` for `close_file_system` (255-257), `barrier` for one
`world.barrier()`. -/
inductive Act
  | create | opn | write | close | barrier
deriving DecidableEq, Repr

/-- `init_wait_for_other_ranks_system`, io/output/mod.rs lines 371-384: loop `i in 0..world_size`
with a barrier if `i < rank`. -/
def initWait (worldSize rank : Nat) : List Act :=
  (List.range worldSize).flatMap (fun i => if i < rank then [Act.barrier] else [])

/-- `finish_wait_for_other_ranks_system`, io/output/mod.rs lines 387-397: barrier if
`i >= rank`. -/
def finishWait (worldSize rank : Nat) : List Act :=
  (List.range worldSize).flatMap (fun i => if rank ≤ i then [Act.barrier] else [])

/-- The systems run on one rank when the timer's run criterion holds, in the order given by the
`before`/`after` constraints of io/output/plugin.rs lines 99-150: stage `CreateOutputFiles`
(create, create datasets, close; only on the main rank without parallel-hdf5), then stage
`Output` (init barriers, open, write, close, finish barriers). -/
def snapshotProgram (worldSize rank : Nat) : List Act :=
  (if rank = 0 then [Act.create, Act.close] else [])
    ++ initWait worldSize rank ++ [Act.opn, Act.write, Act.close] ++ finishWait worldSize rank

/-- `k` snapshots in a row. -/
def program (worldSize k rank : Nat) : List Act :=
  (List.replicate k (snapshotProgram worldSize rank)).flatten

/-- Global state: what each rank has left to do and the log of all file actions so far. -/
structure State where
  rem : Nat → List Act
  log : List (Nat × Act)

/-- Initial state of `k` snapshots. -/
def init (worldSize k : Nat) : State := ⟨program worldSize k, []⟩

/-- One step of the machine: some rank performs its next file action, or all ranks have arrived
at a barrier and all leave it. -/
inductive Step (worldSize : Nat) : State → State → Prop
  | act (s : State) (r : Nat) (a : Act) (rest : List Act) (hr : r < worldSize)
      (ha : a ≠ Act.barrier) (h : s.rem r = a :: rest) :
      Step worldSize s ⟨fun q => if q = r then rest else s.rem q, s.log ++ [(r, a)]⟩
  | barrier (s : State) (rest : Nat → List Act)
      (h : ∀ r, r < worldSize → s.rem r = Act.barrier :: rest r) :
      Step worldSize s ⟨fun q => if q < worldSize then rest q else s.rem q, s.log⟩

/-- Reachability under every interleaving. -/
inductive Reach (worldSize k : Nat) : State → Prop
  | init : Reach worldSize k (init worldSize k)
  | step (s s' : State) : Reach worldSize k s → Step worldSize s s' → Reach worldSize k s'

end Verif.SerialOutput
