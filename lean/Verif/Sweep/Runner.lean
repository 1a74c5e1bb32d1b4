import Verif.Sweep.Props

/-!
# Executing the sweep model

An executable version of `Step`, used to exhibit concrete runs.
-/

namespace Verif.Sweep

variable {K R : Type} [Field K] [LinearOrder K] [AddCommGroup R] [Module K R]

instance (G : Grid K R) (s : State R) (r : Nat) : Decidable (loopCond G s r) :=
  inferInstanceAs (Decidable (_ ∨ _ ∨ _))

/-- The step of rank `r` with label `a`, if it is possible. -/
def next (G : Grid K R) (s : State R) (r : Nat) (a : Act) : Option (State R) :=
  if r < G.numRanks then
    match s.pc r, a with
    | .head, .exit => if loopCond G s r then none else some (setPc s r .done)
    | .head, .enterRecv => if loopCond G s r ∧ s.todo r = 0 then
        some (setPc s r (.recv (others G.numRanks r))) else none
    | .head, .enterWork => if loopCond G s r ∧ s.todo r ≠ 0 then some (setPc s r (.work 0)) else none
    | .recv [], .recvDone => some (setPc s r (.work 0))
    | .recv (q :: qs), .skip => if s.recvCount r q = 0 then some (setPc s r (.recv qs)) else none
    | .recv (q :: qs), .probe q' => if q' = q ∧ 0 < s.recvCount r q then some (setPc s r (.recv qs))
        else none
    | .recv (q :: qs), .take q' => if q' = q ∧ 0 < s.recvCount r q then
        match s.chan q r with
        | [] => none
        | msg :: rest => (receiveMsg G s r q msg rest).map (fun s' => setPc s' r (.recv qs))
        else none
    | .work k, .pop t => if t ∈ s.todo r then
        (solveTask G { s with todo := upd s.todo r ((s.todo r).erase t) } t).map
          (fun s' => setPc s' r (if k + 1 > G.batch then .send else .work (k + 1))) else none
    | .work _, .workDone => if s.todo r = 0 then some (setPc s r .send) else none
    | .send, .send c => some (setPc (trySendAll G.numRanks r c s) r .head)
    | _, _ => none
  else none

theorem next_sound {G : Grid K R} {s s' : State R} {r : Nat} {a : Act} (h : next G s r a = some s') :
    Step G r a s s' := by
  unfold next at h
  by_cases hr : r < G.numRanks
  · rw [if_pos hr] at h
    cases hpc : s.pc r with
    | head =>
      rw [hpc] at h
      cases a <;> simp only at h <;> try exact (Option.some_ne_none _ h.symm).elim
      · by_cases hc : loopCond G s r
        · rw [if_pos hc] at h; exact absurd h (by simp)
        · rw [if_neg hc, Option.some.injEq] at h
          subst h; exact .exit s r hr hpc hc
      · by_cases hc : loopCond G s r ∧ s.todo r = 0
        · rw [if_pos hc, Option.some.injEq] at h
          subst h; exact .enterRecv s r hr hpc hc.1 hc.2
        · rw [if_neg hc] at h; exact absurd h (by simp)
      · by_cases hc : loopCond G s r ∧ s.todo r ≠ 0
        · rw [if_pos hc, Option.some.injEq] at h
          subst h; exact .enterWork s r hr hpc hc.1 hc.2
        · rw [if_neg hc] at h; exact absurd h (by simp)
    | recv qs =>
      rw [hpc] at h
      cases qs with
      | nil =>
        cases a <;> simp only at h <;> try exact (Option.some_ne_none _ h.symm).elim
        rw [Option.some.injEq] at h
        subst h; exact .recvDone s r hr hpc
      | cons q qs =>
        cases a <;> simp only at h <;> try exact (Option.some_ne_none _ h.symm).elim
        · by_cases hc : s.recvCount r q = 0
          · rw [if_pos hc, Option.some.injEq] at h
            subst h; exact .skip s r q qs hr hpc hc
          · rw [if_neg hc] at h; exact absurd h (by simp)
        · rename_i q'
          by_cases hc : q' = q ∧ 0 < s.recvCount r q
          · rw [if_pos hc, Option.some.injEq] at h
            subst h; rw [hc.1]; exact .probe s r q qs hr hpc hc.2
          · rw [if_neg hc] at h; exact absurd h (by simp)
        · rename_i q'
          by_cases hc : q' = q ∧ 0 < s.recvCount r q
          · rw [if_pos hc] at h
            cases hch : s.chan q r with
            | nil => rw [hch] at h; exact absurd h (by simp)
            | cons msg rest =>
              rw [hch] at h
              simp only [Option.map_eq_some_iff] at h
              obtain ⟨s1, h1, h2⟩ := h
              subst h2; rw [hc.1]; exact .take s s1 r q qs msg rest hr hpc hc.2 hch h1
          · rw [if_neg hc] at h; exact absurd h (by simp)
    | work k =>
      rw [hpc] at h
      cases a <;> simp only at h <;> try exact (Option.some_ne_none _ h.symm).elim
      · rename_i t
        by_cases hc : t ∈ s.todo r
        · rw [if_pos hc, Option.map_eq_some_iff] at h
          obtain ⟨s1, h1, h2⟩ := h
          subst h2; exact .pop s s1 r k t hr hpc hc h1
        · rw [if_neg hc] at h; exact absurd h (by simp)
      · by_cases hc : s.todo r = 0
        · rw [if_pos hc, Option.some.injEq] at h
          subst h; exact .workDone s r k hr hpc hc
        · rw [if_neg hc] at h; exact absurd h (by simp)
    | send =>
      rw [hpc] at h
      cases a <;> simp only at h <;> try exact (Option.some_ne_none _ h.symm).elim
      rename_i c
      rw [Option.some.injEq] at h
      subst h; exact .send s r c hr hpc
    | done => rw [hpc] at h; cases a <;> exact (Option.some_ne_none _ h.symm).elim
  · rw [if_neg hr] at h; exact absurd h (by simp)

/-- Several steps. -/
def play (G : Grid K R) (s : State R) : List (Nat × Act) → Option (State R)
  | [] => some s
  | x :: xs => (next G s x.1 x.2).bind (fun s' => play G s' xs)

theorem play_sound {G : Grid K R} {s0 s s' : State R} {acts acts' : List (Nat × Act)}
    (h : Run G s0 acts s) (h' : play G s acts' = some s') : Run G s0 (acts ++ acts') s' := by
  induction acts' generalizing s acts with
  | nil =>
    simp only [play, Option.some.injEq] at h'
    subst h'; rw [List.append_nil]; exact h
  | cons x xs ih =>
    simp only [play, Option.bind_eq_some_iff] at h'
    obtain ⟨s1, h1, h2⟩ := h'
    have := ih (.snoc acts s s1 x.1 x.2 h (next_sound h1)) h2
    rw [List.append_assoc] at this
    exact this

theorem play_run {G : Grid K R} {s s' : State R} {acts : List (Nat × Act)}
    (h : play G s acts = some s') : Run G s acts s' := play_sound (acts := []) .nil h

/-- A run that finishes can be extended to a fair execution. -/
theorem Run.fair_execution {G : Grid K R} (hG : WF G) {s0 s : State R} (h0 : Good G s0)
    {acts : List (Nat × Act)} (h : Run G s0 acts s) (hf : Finished G s) :
    ∃ E : Execution G s0, E.Fair ∧ E.st acts.length = s := by
  have key : ∀ {acts s}, Run G s0 acts s → ∃ E : Execution G s0,
      (∀ n, acts.length ≤ n → E.st n = s ∧ E.lab n = none) := by
    intro acts s h
    induction h with
    | nil => exact ⟨⟨fun _ => s0, fun _ => none, rfl, fun n r a h => by simp at h, fun _ _ => rfl⟩,
        fun _ _ => ⟨rfl, rfl⟩⟩
    | snoc acts s s' r a hr hs ih =>
      obtain ⟨E, hE⟩ := ih
      refine ⟨⟨fun n => if n ≤ acts.length then E.st n else s',
        fun n => if n = acts.length then some (r, a) else E.lab n, ?_, ?_, ?_⟩, ?_⟩
      · show (if 0 ≤ acts.length then E.st 0 else s') = s0
        rw [if_pos (Nat.zero_le _)]; exact E.start
      · intro n r' a' hl
        show Step G r' a' (if n ≤ acts.length then E.st n else s') (if n + 1 ≤ acts.length then E.st (n + 1) else s')
        by_cases hn : n = acts.length
        · have hl : (if n = acts.length then some (r, a) else E.lab n) = some (r', a') := hl
          rw [if_pos hn, Option.some.injEq, Prod.mk.injEq] at hl
          rw [if_pos (by omega), if_neg (by omega), ← hl.1, ← hl.2, (hE n (by omega)).1]
          exact hs
        · have hl : (if n = acts.length then some (r, a) else E.lab n) = some (r', a') := hl
          rw [if_neg hn] at hl
          by_cases hlt : n < acts.length
          · rw [if_pos (by omega), if_pos (by omega)]; exact E.move n r' a' hl
          · rw [(hE n (by omega)).2] at hl; simp at hl
      · intro n hl
        show (if n + 1 ≤ acts.length then E.st (n + 1) else s') = (if n ≤ acts.length then E.st n else s')
        have hl : (if n = acts.length then some (r, a) else E.lab n) = none := hl
        by_cases hn : n = acts.length
        · rw [if_pos hn] at hl; simp at hl
        · rw [if_neg hn] at hl
          by_cases hlt : n < acts.length
          · rw [if_pos (by omega), if_pos (by omega)]; exact E.idle n hl
          · rw [if_neg (by omega), if_neg (by omega)]
      · intro n hn
        rw [List.length_append, List.length_singleton] at hn
        refine ⟨?_, ?_⟩
        · show (if n ≤ acts.length then E.st n else s') = s'
          rw [if_neg (by omega)]
        · show (if n = acts.length then some (r, a) else E.lab n) = none
          rw [if_neg (by omega)]; exact (hE n (by omega)).2
  obtain ⟨E, hE⟩ := key h
  have hgood : ∀ n, Good G (E.st n) := by
    intro n
    induction n with
    | zero => rw [E.start]; exact h0
    | succ n ih =>
      cases hl : E.lab n with
      | none => rw [E.idle n hl]; exact ih
      | some ra => exact ih.step hG (E.move n ra.1 ra.2 hl)
  refine ⟨E, ⟨?_, ?_, ?_⟩, (hE _ le_rfl).1⟩
  · intro r hr n hne
    by_contra hno
    have hno' : ∀ m ≥ n, ∀ a, E.lab m ≠ some (r, a) := fun m hm a ha => hno ⟨m, hm, a, ha⟩
    have hst : ∀ m ≥ n, (E.st m).pc r ≠ .done := by
      intro m hm
      induction m, hm using Nat.le_induction with
      | base => exact hne
      | succ m hm ih =>
        cases hl : E.lab m with
        | none => rw [E.idle m hl]; exact ih
        | some ra =>
          have : r ≠ ra.1 := by
            intro hc
            exact hno' m hm ra.2 (by rw [hl, hc])
          rw [step_pc hG (hgood m) (E.move m ra.1 ra.2 hl) this]; exact ih
    apply hst (max n acts.length) (le_max_left _ _)
    rw [(hE _ (le_max_right _ _)).1]
    exact hf r hr
  · intro r q hinf
    obtain ⟨m, hm, hl, _⟩ := hinf acts.length
    rw [(hE m hm).2] at hl; simp at hl
  · intro r q hinf
    obtain ⟨m, hm, c, hl, _⟩ := hinf acts.length
    rw [(hE m hm).2] at hl; simp at hl

end Verif.Sweep
