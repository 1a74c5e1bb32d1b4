import Verif.Sweep.Spec

/-!
# Several sweeps one after the other: model of `run_sweeps`

Models the loop of `run_sweeps` (`/repo/src/sweep/mod.rs` lines 258-273) and `single_sweep` (lines 275-289) on all ranks.
Nothing synchronises the ranks between two sweeps: a rank which has finished a sweep updates the chemistry of its cells and
goes on with the next level while other ranks are still in an earlier sweep, and messages of several sweeps share the same
channels and the same buffers without any mark of the sweep they belong to.

Not part of the model: the optional deadlock check (`DeadlockModel`) and the timers; the collective calls before and after the
loop (`get_cell_counts_per_level`, `update_timestep_levels`).
-/

namespace Verif.Sweep

/-- What does not change during the loop.  The state `C` of a cell stands for the remaining fields of its `Site`. -/
structure Sequence (K R C : Type) where
  /-- cells, neighbours, directions and timestep levels; `current` and `absorb` are not used -/
  base : Grid K R
  /-- number of sweeps -/
  num : Nat
  /-- the level of each sweep: those of `iter_levels_in_sweep_order` with some cell, sweep/mod.rs lines 261-263 -/
  level : Nat → Nat
  /-- `chemistry.get_outgoing_rate` as a function of the state of the cell, the cell and its incoming rate -/
  absorb : C → Id → R → R
  /-- the body of the loop of `update_chemistry` in a sweep, sweep/mod.rs lines 551-571, for a cell with its state, incoming
  rates and periodic sources in all directions -/
  react : Nat → Id → C → List R → List R → C

section
variable {K R C : Type} [Field K] [LinearOrder K]

/-- The grid in sweep `k`. -/
def Sequence.grid (P : Sequence K R C) (k : Nat) (chem : Id → C) : Grid K R :=
  { P.base with current := P.level k, absorb := fun id => P.absorb (chem id) id }

/-- What the sweeps leave in the cells. -/
structure Rates (R C : Type) where
  miss : Id → Nat → Nat
  inc : Id → Nat → R
  out : Id → Nat → R
  per : Id → Nat → R
  chem : Id → C

/-- All ranks at the beginning of sweep `k`. -/
def Sequence.init (P : Sequence K R C) (k : Nat) (b : Rates R C) : State R :=
  initState (P.grid k b.chem) b.miss b.inc b.out b.per

/-- All ranks of a running simulation. -/
structure Overlap (R C : Type) where
  /-- fields of all ranks and the network -/
  s : State R
  /-- the sweep in which each rank is -/
  sweep : Nat → Nat
  chem : Id → C

/-- `update_chemistry` in sweep `k` on rank `r`, sweep/mod.rs lines 549-572: only active cells. -/
def Sequence.evolve (P : Sequence K R C) (k r : Nat) (s : State R) (chem : Id → C) : Id → C :=
  fun id => if id.rank = r ∧ id ∈ (P.grid k chem).act then
      P.react k id (chem id) ((List.range P.base.numDirs).map (s.inc id)) ((List.range P.base.numDirs).map (s.per id))
    else chem id

/-- `init_counts` and `get_initial_tasks` for sweep `k` on rank `r`, sweep/mod.rs lines 277-278.  Rates, buffers, requests
and the network stay as they are. -/
def Sequence.begin (P : Sequence K R C) (k r : Nat) (chem : Id → C) (s : State R) : State R :=
  let i := initState (P.grid k chem) s.miss s.inc s.out s.per
  { s with
    miss := fun id => if id.rank = r then i.miss id else s.miss id
    todo := fun x => if x = r then i.todo x else s.todo x
    solveCount := fun x => if x = r then i.solveCount x else s.solveCount x
    recvCount := fun x => if x = r then i.recvCount x else s.recvCount x
    pc := fun x => if x = r then .head else s.pc x }

/-- The steps of a rank. -/
inductive OAct
  /-- a step of `solve` -/
  | inner (a : Act)
  /-- from the end of `solve` to the beginning of the next `solve` -/
  | next

/-- One step of rank `r`. -/
inductive OStep [AddCommGroup R] [Module K R] (P : Sequence K R C) : Nat → OAct → Overlap R C → Overlap R C → Prop
  | inner (O : Overlap R C) (s' : State R) (r : Nat) (a : Act) :
      Step (P.grid (O.sweep r) O.chem) r a O.s s' → OStep P r (.inner a) O { O with s := s' }
  | next (O : Overlap R C) (r : Nat) : r < P.base.numRanks → O.s.pc r = .done → O.sweep r + 1 < P.num →
      OStep P r .next O
        { s := P.begin (O.sweep r + 1) r (P.evolve (O.sweep r) r O.s O.chem) O.s
          sweep := fun x => if x = r then O.sweep r + 1 else O.sweep x
          chem := P.evolve (O.sweep r) r O.s O.chem }

/-- All ranks at the beginning of the first sweep. -/
def Sequence.start (P : Sequence K R C) (b : Rates R C) : Overlap R C :=
  { s := P.init 0 b, sweep := fun _ => 0, chem := b.chem }

/-- The states which can be reached, under every interleaving. -/
inductive OReach [AddCommGroup R] [Module K R] (P : Sequence K R C) (b : Rates R C) : Overlap R C → Prop
  | refl : OReach P b (P.start b)
  | step (O O' : Overlap R C) (r : Nat) (a : OAct) : OReach P b O → OStep P r a O O' → OReach P b O'

/-- An infinite execution of all ranks; `lab n` says which rank makes which step at time `n`. -/
structure OExecution [AddCommGroup R] [Module K R] (P : Sequence K R C) (b : Rates R C) where
  st : Nat → Overlap R C
  lab : Nat → Option (Nat × OAct)
  start : st 0 = P.start b
  move : ∀ n r a, lab n = some (r, a) → OStep P r a (st n) (st (n + 1))
  idle : ∀ n, lab n = none → st (n + 1) = st n

end

end Verif.Sweep
