import Mathlib.Data.Fintype.Basic
import Mathlib.Logic.Function.Basic

/-!
# Debug output in turns: model of `/repo/src/mpi_log.rs`

`barrierdbg!` lets the ranks print one after the other by calling `MPI_Barrier` before and after.  Ranks are `Fin size`; every rank
runs a list of operations.  A rank enters a collective operation when it gets there, and leaves it at any time after all ranks have
entered it.  Operations of different kinds do not belong together.
-/

namespace Verif.Turns

/-- Kinds of collective operations: the barriers of `mpi_log.rs` and any other collective operation (`all_gather` etc.). -/
inductive Kind
  | barrier
  | other
deriving DecidableEq

/-- What a rank does: a line on the standard error, or a collective operation. -/
inductive Op (M : Type)
  | emit (m : M)
  | collective (k : Kind)
deriving DecidableEq

variable {M : Type}

/-- `start_barrier`, mpi_log.rs lines 69-76.  `RANK` has its value of `initialize` (lines 11-14). -/
def startBarrier (rank : ℕ) : List (Op M) := (List.range rank).flatMap fun _ => [.collective .barrier]

/-- `end_barrier`, mpi_log.rs lines 78-86: `rank..size`. -/
def endBarrier (rank size : ℕ) : List (Op M) := (List.range' rank (size - rank)).flatMap fun _ => [.collective .barrier]

/-- `barrierdbg!`, mpi_log.rs lines 88-120, second and third arm.  `body` is what the evaluation of the expressions and their
printing do; in the third arm this is one `mpidbg!` for every expression.  The first arm is not used anywhere (and does not
compile: a semicolon is missing). -/
def barrierDbg (rank size : ℕ) (body : List (Op M)) : List (Op M) := startBarrier rank ++ body ++ endBarrier rank size

/-- A program which contains `calls` uses of `barrierdbg!`; `body k r` is what rank `r` does in its turn of the use with
number `k`. -/
def program (size calls : ℕ) (body : ℕ → Fin size → List (Op M)) (r : Fin size) : List (Op M) :=
  (List.range calls).flatMap fun k => barrierDbg r size (body k r)

/-- All ranks: the operations which are left, the collective operations each rank has entered so far, whether it has left the last one,
and what has been printed. -/
structure State (size : ℕ) (M : Type) where
  rem : Fin size → List (Op M)
  entered : Fin size → List Kind
  waiting : Fin size → Bool
  output : List (Fin size × M)

/-- The beginning. -/
def State.init (size : ℕ) (prog : Fin size → List (Op M)) : State size M := ⟨prog, fun _ => [], fun _ => false, []⟩

/-- One step of one rank. -/
inductive Step {size : ℕ} : State size M → State size M → Prop
  /-- a line is printed -/
  | emit (s : State size M) (r : Fin size) (m : M) (l : List (Op M)) : s.waiting r = false → s.rem r = .emit m :: l →
      Step s { s with rem := Function.update s.rem r l, output := s.output ++ [(r, m)] }
  /-- a rank arrives at a collective operation -/
  | enter (s : State size M) (r : Fin size) (k : Kind) (l : List (Op M)) : s.waiting r = false →
      s.rem r = .collective k :: l →
      Step s { s with entered := Function.update s.entered r (s.entered r ++ [k]),
                      waiting := Function.update s.waiting r true }
  /-- a rank returns from a collective operation which all ranks have entered -/
  | leave (s : State size M) (r : Fin size) (k : Kind) (l : List (Op M)) : s.waiting r = true →
      s.rem r = .collective k :: l → (∀ q, (s.entered q)[(s.entered r).length - 1]? = some k) →
      Step s { s with rem := Function.update s.rem r l, waiting := Function.update s.waiting r false }

/-- Any number of steps. -/
inductive Reach {size : ℕ} (s : State size M) : State size M → Prop
  | refl : Reach s s
  | tail {t u : State size M} : Reach s t → Step t u → Reach s u

end Verif.Turns
