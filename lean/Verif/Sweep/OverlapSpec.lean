import Verif.Sweep.OverlapModel

/-! # Several sweeps one after the other: specification -/

namespace Verif.Sweep

variable {K R C : Type} [Field K] [LinearOrder K] [AddCommGroup R] [Module K R]

/-- The cells after sweep `k` which ended in `s`, when the chemistry of all ranks has been updated. -/
def Sequence.after (P : Sequence K R C) (k : Nat) (s : State R) (chem : Id → C) : Rates R C where
  miss := s.miss
  inc := s.inc
  out := s.out
  per := s.per
  chem := fun id => P.evolve k id.rank s chem id

/-- What `k` sweeps can leave in the cells if all ranks wait for each other after every sweep. -/
inductive Sequence.Waiting (P : Sequence K R C) (b : Rates R C) : Nat → Rates R C → Prop
  | start : P.Waiting b 0 b
  | sweep (k : Nat) (c : Rates R C) (acts : List (Nat × Act)) (s : State R) : P.Waiting b k c →
      Run (P.grid k c.chem) (P.init k c) acts s → Finished (P.grid k c.chem) s → P.Waiting b (k + 1) (P.after k s c.chem)

/-- All ranks have left the loop of the last sweep. -/
def Sequence.Done (P : Sequence K R C) (O : Overlap R C) : Prop :=
  ∀ r < P.base.numRanks, O.sweep r + 1 = P.num ∧ O.s.pc r = .done

/-- What is in the cells at the end of `run_sweeps`, after the last update of the chemistry. -/
def Sequence.result (P : Sequence K R C) (O : Overlap R C) : Rates R C := P.after (P.num - 1) O.s O.chem

/-- The same assumptions on the machine as for a single sweep. -/
structure OExecution.Fair {P : Sequence K R C} {b : Rates R C} (E : OExecution P b) : Prop where
  ranks : ∀ r < P.base.numRanks, ∀ n, ¬ ((E.st n).s.pc r = .done ∧ (E.st n).sweep r + 1 = P.num) →
    ∃ m ≥ n, ∃ a, E.lab m = some (r, a)
  messages : ∀ r q, (∀ n, ∃ m ≥ n, E.lab m = some (r, .inner (.probe q)) ∧ (E.st m).s.chan q r ≠ []) →
    ∀ n, ∃ m ≥ n, E.lab m = some (r, .inner (.take q))
  requests : ∀ r q, (∀ n, ∃ m ≥ n, ∃ c, E.lab m = some (r, .inner (.send c)) ∧ (E.st m).s.req r q = true ∧
      (E.st m).s.chan r q = []) →
    ∀ n, ∃ m ≥ n, ∃ c, E.lab m = some (r, .inner (.send c)) ∧ (E.st m).s.req r q = true ∧ c q = true

end Verif.Sweep
