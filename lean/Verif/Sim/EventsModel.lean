import Verif.Sim.LoopModel

/-!
# Events and the files of the time series

Models `/repo/src/io/time_series.rs` and the queues of events through which the systems send values to it.  The queues are those of
Bevy (`bevy_ecs/src/event.rs`, not part of `/repo`): every event type has two buffers, each reader has its own counter, and
`Events::update_system`, which `add_event` (`/repo/src/simulation/mod.rs` lines 279-285) adds to the stage `CoreStage::First`,
drops in every frame the events which were sent before the frame before.

Not part of the model: the format of the files (YAML), their names.
-/

namespace Verif.Sim

variable {T : Type}

/-- One buffer of a queue; `start` is the number of the first event in it. -/
structure Buffer (T : Type) where
  start : ℕ
  events : List T

/-- `Events<T>`: the older buffer `events_a`, the newer one `events_b` and the number of events sent so far. -/
structure Queue (T : Type) where
  a : Buffer T
  b : Buffer T
  count : ℕ

/-- `Events::default`. -/
def Queue.empty : Queue T := ⟨⟨0, []⟩, ⟨0, []⟩, 0⟩

/-- `EventWriter::send`. -/
def Queue.send (q : Queue T) (x : T) : Queue T := ⟨q.a, ⟨q.b.start, q.b.events ++ [x]⟩, q.count + 1⟩

/-- Several events. -/
def Queue.sendAll (q : Queue T) (xs : List T) : Queue T := xs.foldl Queue.send q

/-- `Events::update`: the buffers are swapped and the newer one is cleared. -/
def Queue.update (q : Queue T) : Queue T := ⟨q.b, ⟨q.count, []⟩, q.count⟩

/-- `EventReader::iter`, iterated to the end: the events in both buffers which have not been counted yet, and the counter of the
reader afterwards. -/
def Queue.read (q : Queue T) (last : ℕ) : List T × ℕ :=
  let xs := q.a.events.drop (last - q.a.start) ++ q.b.events.drop (last - q.b.start)
  (xs, q.count)

/-- The main rank: the queue, the counter of the reader and the entries in the file. -/
structure Logger (T : Type) where
  queue : Queue T
  last : ℕ
  file : List (ℝ × T)

/-- The startup on the main rank: `initialize_output_files_system` (time_series.rs lines 88-97) creates an empty file, whatever was
there before; the systems of the startup send `xs`. -/
def Logger.start (xs : List T) : Logger T := ⟨Queue.empty.sendAll xs, 0, []⟩

/-- What happens to an event type in one frame: the events sent in stages before that of the reader, the time at which it runs, and
the events sent in later stages. -/
structure Round (T : Type) where
  early : List T
  time : ℝ
  late : List T

/-- One frame on the main rank: the update of the queue, `output_time_series_system` (time_series.rs lines 99-125), which appends the
events it reads with the time. -/
def Logger.frame (l : Logger T) (f : Round T) : Logger T :=
  let q := l.queue.update.sendAll f.early
  let r := q.read l.last
  ⟨q.sendAll f.late, r.2, l.file ++ r.1.map fun x => (f.time, x)⟩

/-- The file after some frames. -/
def timeSeriesFile (startup : List T) (frames : List (Round T)) : List (ℝ × T) :=
  (frames.foldl Logger.frame (Logger.start startup)).file

end Verif.Sim
