import Verif.Sim.EventsModel
import Verif.Sim.LoopProps

/-!
# Theorems about events and the files of the time series
-/

namespace Verif.Sim

variable {T R C : Type}

/-! ### Specification -/

/-- Specification: what is read in each frame if `pending` was sent since the last reading. -/
def readings : List T → List (Round T) → List (ℝ × T)
  | _, [] => []
  | pending, f :: fs => (pending ++ f.early).map (fun x => (f.time, x)) ++ readings f.late fs

/-! ### Lemmas -/

theorem sendAll_eq (q : Queue T) (xs : List T) :
    q.sendAll xs = ⟨q.a, ⟨q.b.start, q.b.events ++ xs⟩, q.count + xs.length⟩ := by
  induction xs generalizing q with
  | nil => simp [Queue.sendAll]
  | cons x xs ih =>
    show (q.send x).sendAll xs = _
    rw [ih]
    simp only [Queue.send, List.append_assoc, List.cons_append, List.nil_append, List.length_cons, Queue.mk.injEq, true_and]
    omega

/-- Between two frames: the unread events are the last ones in the newer buffer. -/
structure Waiting (l : Logger T) (pending : List T) : Prop where
  read : ∃ xs, l.queue.b.events = xs ++ pending ∧ l.last = l.queue.b.start + xs.length
  count : l.queue.count = l.last + pending.length

theorem Waiting.frame {l : Logger T} {pending : List T} (h : Waiting l pending) (f : Round T) :
    Waiting (l.frame f) f.late ∧ (l.frame f).file = l.file ++ (pending ++ f.early).map fun x => (f.time, x) := by
  obtain ⟨⟨xs, h1, h2⟩, h3⟩ := h
  obtain ⟨⟨a, b, count⟩, last, file⟩ := l
  simp only at h1 h2 h3
  subst h2 h3
  unfold Logger.frame
  simp only [Queue.update, sendAll_eq, Queue.read, List.nil_append]
  have e1 : b.events.drop (b.start + xs.length - b.start) = pending := by
    rw [h1, Nat.add_sub_cancel_left, List.drop_left]
  have e2 : b.start + xs.length - (b.start + xs.length + pending.length) = 0 := by omega
  rw [e1, e2, List.drop_zero]
  exact ⟨⟨⟨f.early, rfl, rfl⟩, rfl⟩, rfl⟩

theorem Waiting.frames (fs : List (Round T)) : ∀ {l : Logger T} {pending : List T}, Waiting l pending →
    (fs.foldl Logger.frame l).file = l.file ++ readings pending fs := by
  induction fs with
  | nil => intro l pending _; simp [readings]
  | cons f fs ih =>
    intro l pending h
    obtain ⟨h1, h2⟩ := h.frame f
    rw [List.foldl_cons, ih h1, h2, readings, List.append_assoc]

/-! ### Theorems -/

/-- **C106 (file).** Whatever was sent in the startup and in the frames: the file has one entry for every event which was sent before
the last reading, in the order in which they were sent, with the time of the first reading after it was sent.  No event is lost
although the queue forgets, and none is written twice although it remembers events of the last frame. -/
theorem time_series_file (startup : List T) (frames : List (Round T)) :
    timeSeriesFile startup frames = readings startup frames := by
  have h : Waiting (Logger.start startup) startup := by
    unfold Logger.start
    rw [sendAll_eq]
    exact ⟨⟨[], rfl, rfl⟩, by simp [Queue.empty]⟩
  unfold timeSeriesFile
  rw [h.frames frames]
  rfl

/-- **C106 (values).** The values in the file are the events in the order in which they were sent. -/
theorem time_series_values (startup : List T) (frames : List (Round T)) (f : Round T) :
    (timeSeriesFile startup (frames ++ [f])).map Prod.snd =
      startup ++ (frames.flatMap fun g => g.early ++ g.late) ++ f.early := by
  rw [time_series_file]
  have key : ∀ (fs : List (Round T)) (p : List T), (readings p (fs ++ [f])).map Prod.snd =
      p ++ (fs.flatMap fun g => g.early ++ g.late) ++ f.early := by
    intro fs
    induction fs with
    | nil => intro p; simp [readings, Function.comp_def]
    | cons g fs ih =>
      intro p
      rw [List.cons_append, readings, List.map_append, ih]
      simp [Function.comp_def, List.append_assoc]
  exact key frames startup

/-- **C106 (events reach the later stages of the same frame).** A reader which has run in every frame sees in a frame exactly what was
sent since it last ran; an event sent in an earlier stage of this frame is among it, and an event it has seen in the frame before
is not.  (The main loop in `Verif/Sim/LoopModel` uses this for the event which stops the simulation.) -/
theorem events_seen (startup : List T) (frames : List (Round T)) (f : Round T) :
    timeSeriesFile startup (frames ++ [f]) = timeSeriesFile startup frames ++
      ((frames.getLast?.elim startup Round.late) ++ f.early).map fun x => (f.time, x) := by
  rw [time_series_file, time_series_file]
  induction frames generalizing startup with
  | nil => simp [readings]
  | cons g frames ih =>
    rw [List.cons_append, readings, readings, ih, List.append_assoc]
    cases frames with
    | nil => simp
    | cons h t => simp [List.getLast?_cons]

/-- **C106 (one value at the start).** A value which is only sent in the startup, like the total luminosity of the sources
(source_systems.rs line 78), is written once, in the first frame. -/
theorem startup_value_once (x : T) (t : ℝ) (times : List ℝ) :
    timeSeriesFile [x] ((t :: times).map fun t => ⟨[], t, []⟩) = [(t, x)] := by
  rw [time_series_file]
  have key : ∀ times : List ℝ, readings ([] : List T) (times.map fun t => ⟨[], t, []⟩) = [] := by
    intro times
    induction times with
    | nil => rfl
    | cons t times ih => simp [readings, ih]
  simp [readings, key]

section
open Verif.Parallel
variable [AddCommGroup R] [Module ℝ R] {L : Loop R C} {w0 : Whole R C} {W : World 3 Sweep.Id} {eps' : ℝ} {periodic : Bool}
  {G : ℕ → List (Name Sweep.Id × Cell)} {maxTimestep : ℝ} {numLevels : ℕ} {chem : Sweep.Id → C}

/-- **C106 (the time series of a run).** A system which sends one value in every frame before the stage `Output`, as those of
sweep/time_series.rs do: in every run, ended or not, the file has one entry for every frame.  Entry number `k` has the value of
frame `k` and the time after `k` time steps: zero for the initial conditions, then strictly increasing. -/
theorem time_series_of_run (H : Ready eps' periodic W G) (hN : 0 < W.particles.length) (hn : 0 < numLevels) (hn' : numLevels < 32)
    (hm : 0 < maxTimestep) (h0 : firstState maxTimestep numLevels W.particles.length G chem = some w0)
    {rs : List (Report R C)} (h : Observed L (L.start w0) rs) (value : Report R C → T) :
    timeSeriesFile [] (rs.map fun r => ⟨[value r], r.sim.time, []⟩) =
      rs.zipIdx.map (fun r => (clockAfter maxTimestep numLevels r.2, value r.1)) ∧
    (timeSeriesFile [] (rs.map fun r => ⟨[value r], r.sim.time, []⟩)).Pairwise (fun x y => x.1 < y.1) := by
  have hist := observed (firstState_calls h0).1 h
  have e1 : timeSeriesFile [] (rs.map fun r => ⟨[value r], r.sim.time, []⟩) = rs.map fun r => (r.sim.time, value r) := by
    rw [time_series_file]
    have key : ∀ rs : List (Report R C), readings [] (rs.map fun r => ⟨[value r], r.sim.time, []⟩) =
        rs.map fun r => (r.sim.time, value r) := by
      intro rs
      induction rs with
      | nil => rfl
      | cons r rs ih => simp [readings, ih]
    exact key rs
  have e2 : (rs.map fun r => (r.sim.time, value r)) =
      rs.zipIdx.map (fun r => (clockAfter maxTimestep numLevels r.2, value r.1)) := by
    apply List.ext_getElem?
    intro k
    rw [List.getElem?_map, List.getElem?_map, List.getElem?_zipIdx]
    cases hk : rs[k]? with
    | none => rfl
    | some r =>
      obtain ⟨h1, h2⟩ := hist.sim k r hk
      have := Simulated.clock H hN hn hn' h0 h1
      rw [h2] at this
      simp [this]
  refine ⟨e1.trans e2, ?_⟩
  rw [e1, e2, List.pairwise_map]
  have mono : StrictMono (clockAfter maxTimestep numLevels) := strictMono_nat_of_lt_succ fun n => (clockAfter_step hn hm n).1
  have : rs.zipIdx.Pairwise fun a b => a.2 < b.2 := by
    rw [← List.pairwise_map (f := Prod.snd) (R := (· < ·)), List.zipIdx_map_snd]
    exact List.pairwise_lt_range'
  exact this.imp fun h => mono h
end

/-! ### Examples -/

/-- Two values in the startup, one in each frame, one after the reading of the first frame. -/
example : timeSeriesFile [10, 11] [⟨[0], 0, [7]⟩, ⟨[1], 1 / 2, []⟩, ⟨[], 1, []⟩, ⟨[2, 3], 2, []⟩] =
    [((0 : ℝ), 10), (0, 11), (0, 0), (1 / 2, 7), (1 / 2, 1), (2, 2), (2, 3)] := by
  rw [time_series_file]
  simp [readings]

/-- Events are forgotten if nobody reads them for two frames: the reader has to run in every frame. -/
example : ((Queue.empty.send 1).update.update.read 0).1 = ([] : List ℕ) := by
  rfl

end Verif.Sim
