import Mathlib.Algebra.Order.Field.Basic
import Mathlib.Order.WithBot

/-!
# Time scales: model of `/repo/src/chemistry/timescale.rs`

A time may be infinite (`⊤`): the code divides by relative changes which can be zero.
-/

namespace Verif.Chemistry

/-- `Process`, lines 42-47. -/
inductive Process where
  | temperature
  | ionizationFraction
  | photonRate
  deriving DecidableEq, Repr

/-- `Timescale`, lines 6-10. -/
structure Timescale (K : Type) where
  time : WithTop K
  process : Process

variable {K : Type} [LinearOrder K]

/-- `Timescale::min`, lines 32-38. -/
def Timescale.min (self other : Timescale K) : Timescale K :=
  if self.time < other.time then self else other

/-- `TimescaleCounter`, lines 70-73; the hash map has an entry for every process (`new`, lines 76-81),
so it is a function. -/
structure TimescaleCounter (K : Type) where
  limitingProcesses : Process → ℕ
  maxTimestep : WithTop K

/-- `TimescaleCounter::new`, lines 76-81. -/
def TimescaleCounter.new (maxTimestep : WithTop K) : TimescaleCounter K := ⟨fun _ => 0, maxTimestep⟩

/-- `TimescaleCounter::count`, lines 83-90. -/
def TimescaleCounter.count (self : TimescaleCounter K) (t : Timescale K) : TimescaleCounter K :=
  if t.time < self.maxTimestep then
    { self with
      limitingProcesses := fun p =>
        if p = t.process then self.limitingProcesses p + 1 else self.limitingProcesses p }
  else self

/-- `TimescaleCounter::reset`, lines 115-117. -/
def TimescaleCounter.reset (self : TimescaleCounter K) : TimescaleCounter K := .new self.maxTimestep

end Verif.Chemistry
