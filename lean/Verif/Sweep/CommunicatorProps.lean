import Verif.Sweep.Runner

/-!
# The sweep communicator: C35

The communicator alone, driven by an arbitrary sequence of pushes, send attempts (with arbitrary
completion results of the pending requests) and receives.
-/

namespace Verif.Sweep

variable {R : Type}

/-- What the surrounding code can do with the communicators of all ranks. -/
inductive COp (R : Type)
  /-- rank `r` pushes a datum for rank `q`: `self.to_send[rank].push(..)`, sweep/mod.rs lines
  515-547 -/
  | push (r q : Nat) (dat : Data R)
  /-- rank `r` calls `try_send_all`, sweep/communicator.rs lines 59-77 -/
  | trySend (r : Nat) (completed : Nat → Bool)
  /-- rank `r` calls `try_recv(q)` and finds a message if there is one, sweep/communicator.rs lines
  79-81 -/
  | recv (r q : Nat)

/-- A state with the history of what was pushed and received, by source and target. -/
structure History (R : Type) where
  st : State R
  pushed : Nat → Nat → List (Data R)
  received : Nat → Nat → List (Data R)

/-- One operation among `n` ranks. -/
def COp.apply (n : Nat) (h : History R) : COp R → History R
  | .push r q dat =>
    { h with
      st := { h.st with toSend := upd2 h.st.toSend r q (h.st.toSend r q ++ [dat]) }
      pushed := upd2 h.pushed r q (h.pushed r q ++ [dat]) }
  | .trySend r completed => { h with st := trySendAll n r completed h.st }
  | .recv r q =>
    match h.st.chan q r with
    | [] => h
    | msg :: rest =>
      { h with
        st := { h.st with chan := upd2 h.st.chan q r rest }
        received := upd2 h.received q r (h.received q r ++ msg) }

/-- Several operations. -/
def runOps (n : Nat) (h : History R) (ops : List (COp R)) : History R := ops.foldl (COp.apply n) h

/-- Fresh communicators. -/
def History.start (s : State R) : History R :=
  ⟨{ s with toSend := fun _ _ => [], sendBuf := fun _ _ => [], req := fun _ _ => false, chan := fun _ _ => [] },
    fun _ _ => [], fun _ _ => []⟩

/-- C35: for every sequence of operations and completion results, what has been received followed by
what is still under way is exactly what was pushed, in order. -/
theorem nothing_lost_or_duplicated (n : Nat) (s : State R) (ops : List (COp R)) (q r : Nat) :
    let h := runOps n (History.start s) ops
    h.received q r ++ undelivered h.st q r = h.pushed q r := by
  have step : ∀ (h : History R) (op : COp R),
      (∀ q r, h.received q r ++ undelivered h.st q r = h.pushed q r) →
      ∀ q r, (op.apply n h).received q r ++ undelivered (op.apply n h).st q r = (op.apply n h).pushed q r := by
    intro h op ih q r
    cases op with
    | push r' q' dat =>
      show h.received q r ++ ((h.st.chan q r).flatten ++ upd2 h.st.toSend r' q' _ q r) =
        upd2 h.pushed r' q' _ q r
      have := ih q r
      unfold undelivered at this
      unfold upd2
      split
      · rename_i hc
        rw [hc.1, hc.2] at this ⊢
        rw [← this]; simp
      · exact this
    | trySend r' completed =>
      show h.received q r ++ undelivered (trySendAll n r' completed h.st) q r = h.pushed q r
      rw [← ih q r]
      congr 1
      exact trySendAll_queue n r' completed h.st q r
    | recv r' q' =>
      cases hc : h.st.chan q' r' with
      | nil =>
        have e : (COp.recv r' q').apply n h = h := by
          simp only [COp.apply]; rw [hc]
        rw [e]; exact ih q r
      | cons msg rest =>
        have e : (COp.recv r' q').apply n h =
            { h with
              st := { h.st with chan := upd2 h.st.chan q' r' rest }
              received := upd2 h.received q' r' (h.received q' r' ++ msg) } := by
          simp only [COp.apply]; rw [hc]
        rw [e]
        show upd2 h.received q' r' _ q r ++ ((upd2 h.st.chan q' r' rest q r).flatten ++ h.st.toSend q r) =
          h.pushed q r
        have := ih q r
        unfold undelivered at this
        unfold upd2
        split
        · rename_i hh
          rw [hh.1, hh.2] at this ⊢
          rw [hc] at this
          rw [← this]; simp
        · exact this
  have key : ∀ (ops : List (COp R)) (h : History R),
      (∀ q r, h.received q r ++ undelivered h.st q r = h.pushed q r) →
      ∀ q r, (runOps n h ops).received q r ++ undelivered (runOps n h ops).st q r =
        (runOps n h ops).pushed q r := by
    intro ops
    induction ops with
    | nil => intro h ih; exact ih
    | cons op ops ih => intro h hh; exact ih _ (step h op hh)
  exact key ops _ (fun _ _ => rfl) q r

/-- C35: while a send from `r` to `q` is pending (its completion has not been reported), the
buffer it reads from is not touched and no second send to `q` is started. -/
theorem pending_send_undisturbed (n r q : Nat) (completed : Nat → Bool) (s : State R)
    (hreq : s.req r q = true) (hc : completed q = false) :
    (trySendAll n r completed s).sendBuf r q = s.sendBuf r q ∧
    (trySendAll n r completed s).chan r q = s.chan r q ∧
    (trySendAll n r completed s).req r q = true := by
  have hu : (updatePending n r completed s).req r q = true ∧
      (updatePending n r completed s).sendBuf r q = s.sendBuf r q := by
    unfold updatePending
    constructor
    · show (if r = r ∧ q ∈ others n r then _ else _) = true
      split <;> simp [hreq, hc]
    · show (if r = r ∧ q ∈ others n r then _ else _) = _
      split <;> simp [hreq, hc]
  have hp : posts n r (updatePending n r completed s) q = false := by
    unfold posts; rw [hu.1]; simp
  unfold trySendAll postSends
  refine ⟨?_, ?_, ?_⟩
  · show (if r = r ∧ posts n r (updatePending n r completed s) q = true then _ else _) = _
    rw [if_neg (by rw [hp]; simp)]; exact hu.2
  · show (if r = r ∧ posts n r (updatePending n r completed s) q = true then _ else _) = _
    rw [if_neg (by rw [hp]; simp)]; rfl
  · show (if r = r ∧ posts n r (updatePending n r completed s) q = true then _ else _) = _
    rw [if_neg (by rw [hp]; simp)]; exact hu.1

/-- C35: a send attempt makes progress: data for `q` is posted as one message as soon as the
previous send to `q` has completed. -/
theorem completed_send_makes_room (n r q : Nat) (completed : Nat → Bool) (s : State R)
    (hq : q < n) (hqr : q ≠ r) (hdata : s.toSend r q ≠ []) (hc : s.req r q = false ∨ completed q = true) :
    (trySendAll n r completed s).toSend r q = [] ∧
    (trySendAll n r completed s).chan r q = s.chan r q ++ [s.toSend r q] := by
  have hqo : q ∈ others n r := mem_others.2 ⟨hq, hqr⟩
  have hkeep : (s.req r q && !completed q) = false := by
    rcases hc with h | h <;> simp [h]
  have hu : (updatePending n r completed s).req r q = false ∧
      (updatePending n r completed s).sendBuf r q = [] ∧
      (updatePending n r completed s).toSend r q = s.toSend r q := by
    unfold updatePending
    refine ⟨?_, ?_, rfl⟩
    · show (if r = r ∧ q ∈ others n r then _ else _) = false
      rw [if_pos ⟨rfl, hqo⟩]; exact hkeep
    · show (if r = r ∧ q ∈ others n r then _ else _) = _
      rw [if_pos ⟨rfl, hqo⟩]
      show (if (s.req r q && !completed q) = true then _ else _) = _
      rw [hkeep]; rfl
  have hp : posts n r (updatePending n r completed s) q = true := by
    unfold posts
    rw [hu.1, hu.2.2]
    simp [hqo, hdata]
  unfold trySendAll postSends
  constructor
  · show (if r = r ∧ posts n r (updatePending n r completed s) q = true then _ else _) = _
    rw [if_pos ⟨rfl, hp⟩]
  · show (if r = r ∧ posts n r (updatePending n r completed s) q = true then
      (updatePending n r completed s).chan r q ++ [_] else _) = _
    rw [if_pos ⟨rfl, hp⟩, hu.2.1, hu.2.2]; rfl

/-- `Drop for SweepCommunicator`, sweep/communicator.rs lines 112-121: the ranks whose requests are
waited for when rank `r` drops its communicator.  The loop returns after the first one. -/
def dropWaits (n r : Nat) (s : State R) : List Nat := ((others n r).filter (fun q => s.req r q)).take 1

/-- A start state for examples. -/
def blank : State Nat :=
  { miss := fun _ _ => 0, inc := fun _ _ => 0, out := fun _ _ => 0, per := fun _ _ => 0
    todo := fun _ => 0, solveCount := fun _ _ => 0, recvCount := fun _ _ => 0
    toSend := fun _ _ => [], sendBuf := fun _ _ => [], req := fun _ _ => false
    chan := fun _ _ => [], pc := fun _ => .head, log := [] }

/-- C35 fails for `drop`: with two pending sends only the first is waited for before the buffers are
freed, although the comment in the code says that all are. -/
theorem drop_misses_pending_sends : ∃ (ops : List (COp Nat)) (q : Nat),
    let s := (runOps 3 (History.start blank) ops).st
    s.req 0 q = true ∧ q ∉ dropWaits 3 0 s :=
  ⟨[.push 0 1 ⟨⟨1, 0⟩, 0, 7, false⟩, .push 0 2 ⟨⟨2, 0⟩, 0, 8, false⟩, .trySend 0 (fun _ => false)], 2,
    by decide⟩

/-- C35: after a sweep this does no harm: no send is pending when a rank has left its loop. -/
theorem drop_after_sweep_is_safe {K : Type} [Field K] [LinearOrder K] [IsStrictOrderedRing K]
    [AddCommGroup R] [Module K R] {G : Grid K R} (hG : WF G) {miss : Id → Nat → Nat}
    {inc out per : Id → Nat → R} {s : State R} (h : Reach G (initState G miss inc out per) s)
    {r : Nat} (hr : r < G.numRanks) (hd : s.pc r = .done) :
    ∀ q, s.req r q = true → q ∈ dropWaits G.numRanks r s := by
  intro q hq
  rw [((finished_rank_is_clean hG h hr hd).2.2.2.1 q).2.2] at hq
  exact absurd hq (by simp)

/-- Three data from rank 0 to rank 1 with a slow first send arrive as two messages, in order. -/
example :
    let d := fun x => (⟨⟨1, 0⟩, 0, x, false⟩ : Data Nat)
    let h := runOps 2 (History.start blank) [.push 0 1 (d 1), .trySend 0 (fun _ => false),
      .push 0 1 (d 2), .trySend 0 (fun _ => false), .push 0 1 (d 3), .trySend 0 (fun _ => true),
      .recv 1 0, .recv 1 0]
    (h.received 0 1).map Data.rate = [1, 2, 3] ∧ h.st.chan 0 1 = [] ∧ h.st.req 0 1 = true := by
  refine ⟨by decide, rfl, by decide⟩

/-- A pending send and its undisturbed buffer. -/
example :
    let d := fun x => (⟨⟨1, 0⟩, 0, x, false⟩ : Data Nat)
    let s := (runOps 2 (History.start blank) [.push 0 1 (d 1), .trySend 0 (fun _ => false),
      .push 0 1 (d 2)]).st
    s.req 0 1 = true ∧ (s.toSend 0 1).map Data.rate = [2] ∧ (s.sendBuf 0 1).map Data.rate = [1] := by
  decide

end Verif.Sweep
