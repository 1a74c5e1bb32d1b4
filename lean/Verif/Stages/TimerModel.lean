import Mathlib.Algebra.Order.Group.Defs
import Mathlib.Data.List.Basic

/-!
# Stage timers: model of `/repo/src/stages.rs` and `/repo/src/performance.rs`

The schedule puts a timer stage before and after every stage; systems in the timer stages start and stop a timer under
the name of the stage.  Times are elements of an ordered group instead of `f64` nanoseconds.
-/

namespace Verif.StageTimers

variable {N T : Type} [DecidableEq N]

/-- Labels of stages: `TimerStages` (stages.rs lines 13-29) and all others, given by their names (`as_str`). -/
inductive Label (N : Type)
  | timer (k : ℕ)
  | stage (name : N)
deriving DecidableEq

/-- `TimerStages::all`, stages.rs lines 31-49. -/
def allTimers (N : Type) : List (Label N) := (List.range 14).map fun k => .timer (k + 1)

/-- `add_timers`, stages.rs lines 83-97; `none` is the failed assertion. -/
def addTimers (stages : List N) : Option (List (Label N)) :=
  if (allTimers N).length > stages.length then
    some (((allTimers N).zip stages).flatMap (fun ts => [ts.1, .stage ts.2]) ++ (allTimers N).getLast?.toList)
  else none

/-- `slice::windows(3)`. -/
def windows3 {A : Type} : List A → List (A × A × A)
  | a :: b :: c :: l => (a, b, c) :: windows3 (b :: c :: l)
  | _ => []

/-- What a system in a timer stage does. -/
inductive Action (N : Type)
  | start (name : N)
  | stop (name : N)
deriving DecidableEq

/-- `add_stage_timers_for_stages`, stages.rs lines 114-129: the systems with the stages they are added to. -/
def timerSystems (labels : List (Label N)) : List (Label N × Action N) :=
  (windows3 labels).flatMap fun w =>
    if (allTimers N).any (fun t => w.2.1 == t) then []
    else match w.2.1 with
      | .stage name => [(w.1, .start name), (w.2.2, .stop name)]
      | .timer _ => []

/-- The systems of one timer stage. -/
def systemsOf (labels : List (Label N)) (l : Label N) : List (Action N) :=
  (timerSystems labels).filterMap fun s => if s.1 = l then some s.2 else none

/-- `enum Result`, performance.rs lines 20-23. -/
inductive Result (T : Type)
  | runTimes (times : List T)
  | number (n : ℤ)

/-- `struct Performance`, performance.rs lines 94-99. -/
structure Performance (N T : Type) where
  results : N → Option (Result T)
  timers : N → Option T

/-- Change of a map at one key. -/
def set {B : Type} (f : N → B) (n : N) (b : B) : N → B := fun x => if x = n then b else f x

/-- `Performance::start`, performance.rs lines 102-104; `now` is `Instant::now()`. -/
def Performance.start (p : Performance N T) (now : T) (n : N) : Performance N T :=
  { p with timers := set p.timers n (some now) }

/-- `Performance::stop`, performance.rs lines 106-116; `none` is the panic for a timer which was never started or a category which is
not a run time. -/
def Performance.stop [Sub T] (p : Performance N T) (now : T) (n : N) : Option (Performance N T) :=
  match p.timers n with
  | none => none
  | some t => match (p.results n).getD (.runTimes []) with
    | .runTimes times => some ⟨set p.results n (some (.runTimes (times ++ [now - t]))), set p.timers n none⟩
    | .number _ => none

/-- Clock and performance data. -/
structure World (N T : Type) where
  now : T
  perf : Performance N T

/-- A system of a timer stage.  It takes no time. -/
def act [Sub T] (w : World N T) : Action N → Option (World N T)
  | .start n => some { w with perf := w.perf.start w.now n }
  | .stop n => (w.perf.stop w.now n).map fun p => { w with perf := p }

/-- What happens in one pass through the schedule: the order in which the scheduler runs the systems of every timer
stage, and what the other stages do. -/
structure Frame (N T : Type) where
  order : Label N → List (Action N)
  body : N → World N T → World N T

/-- One stage. -/
def runStage [Sub T] (f : Frame N T) (w : World N T) (l : Label N) : Option (World N T) :=
  match l with
  | .timer k => (f.order (.timer k)).foldlM act w
  | .stage n => some (f.body n w)

/-- One pass through all stages (`make_schedule_from_stage_labels`, stages.rs lines 107-112). -/
def runFrame [Sub T] (labels : List (Label N)) (w : World N T) (f : Frame N T) : Option (World N T) :=
  labels.foldlM (runStage f) w

end Verif.StageTimers
