import Verif.Stages.TimerModel
import Mathlib.Data.List.Sort
import Mathlib.Data.Rat.Defs
import Mathlib.Algebra.Order.Field.Rat

/-!
# The performance file: model of `/repo/src/performance.rs`

`Performance::start` and `stop` are those of `Verif.Stages.TimerModel`.  Times are rational numbers, names any linearly
ordered type (strings in the code).
-/

namespace Verif.StageTimers

variable {N : Type} [LinearOrder N]

/-- `Performance::record_number`, performance.rs lines 130-135: `none` is the panic for numbers which are not `i32`. -/
def Performance.recordNumber (p : Performance N ℚ) (n : N) (v : ℤ) : Option (Performance N ℚ) :=
  if -2 ^ 31 ≤ v ∧ v < 2 ^ 31 then some { p with results := set p.results n (some (.number v)) } else none

/-- `Performance::total` with `Result::total`, performance.rs lines 118-128 and 38-49: `none` are the panics for missing
categories and for numbers. -/
def Performance.total (p : Performance N ℚ) (n : N) : Option ℚ :=
  match p.results n with
  | some (.runTimes times) => some times.sum
  | _ => none

/-- `struct Statistics`, performance.rs lines 60-65. -/
structure Statistics where
  average : ℚ
  total : ℚ
  numCalls : ℕ
deriving DecidableEq

/-- `Statistics::new`, performance.rs lines 67-77.  Division by zero is an explicit failure instead of NaN. -/
def Statistics.new (times : List ℚ) : Option Statistics :=
  if times.length = 0 then none else some ⟨times.sum / times.length, times.sum, times.length⟩

/-- What `Result::as_value` gives to the YAML writer. -/
inductive Value
  | statistics (s : Option Statistics)
  | number (v : ℤ)
deriving DecidableEq

/-- `Result::as_value`, performance.rs lines 51-57. -/
def Result.asValue : Result ℚ → Value
  | .runTimes times => .statistics (Statistics.new times)
  | .number v => .number v

/-- `LinkedHashMap::insert`: the value of an existing key is replaced and the key moves to the end. -/
def linkedInsert {V : Type} (l : List (N × V)) (n : N) (v : V) : List (N × V) := l.filter (fun e => e.1 ≠ n) ++ [(n, v)]

/-- `Performance::as_output`, performance.rs lines 142-157.  `names` is the order in which the hash map of results gives its keys,
`totalName` is `TOTAL_RUNTIME_IDENTIFIER`, `now` the present time; `sort` is insertion sort.  The `none` of a missing key cannot occur for the keys
of the map and is left out of the list. -/
def Performance.asOutput (totalName : N) (p : Performance N ℚ) (names : List N) (now : ℚ) : List (N × Value) :=
  let results := (names.insertionSort (· ≤ ·)).foldl
    (fun l n => match p.results n with
      | some r => linkedInsert l n r.asValue
      | none => l) []
  match p.timers totalName with
  | some t => linkedInsert results totalName (Result.asValue (.runTimes [now - t]))
  | none => results

/-- Calls of the methods of `Performance`. -/
inductive Call (N : Type)
  | start (n : N)
  | stop (n : N)
  | record (n : N) (v : ℤ)
deriving DecidableEq

/-- One call at a time. -/
def Performance.call (p : Performance N ℚ) (e : ℚ × Call N) : Option (Performance N ℚ) :=
  match e.2 with
  | .start n => some (p.start e.1 n)
  | .stop n => p.stop e.1 n
  | .record n v => p.recordNumber n v

/-- `Performance::default()`, followed by calls. -/
def Performance.run (calls : List (ℚ × Call N)) : Option (Performance N ℚ) :=
  calls.foldlM Performance.call ⟨fun _ => none, fun _ => none⟩

/-- `Performance::time` with the `Drop` of `TimerGuard`, performance.rs lines 137-140 and 160-170.  The guard borrows the
performance data mutably, so that no other call is possible while it lives. -/
def timed (n : N) (begin_ end_ : ℚ) : List (ℚ × Call N) := [(begin_, .start n), (end_, .stop n)]

end Verif.StageTimers
