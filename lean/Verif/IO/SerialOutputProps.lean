import Verif.IO.SerialOutputModel

/-!
# C04: serial snapshot output is mutually exclusive and cannot deadlock
-/

namespace Verif.SerialOutput

/-- Specification: the file actions of one rank for one snapshot. -/
def fileActions (rank : Nat) : List Act :=
  (if rank = 0 then [Act.create, Act.close] else []) ++ [Act.opn, Act.write, Act.close]

/-- Specification: the purely sequential log of one snapshot: rank 0 creates and closes, then the
ranks open, write and close one after the other in rank order. -/
def sequentialLog (worldSize : Nat) : List (Nat × Act) :=
  (List.range worldSize).flatMap (fun r => (fileActions r).map (fun a => (r, a)))

/-- Every rank has finished. -/
def State.finished (worldSize : Nat) (s : State) : Prop := ∀ r, r < worldSize → s.rem r = []

/-- Number of actions still to be done. -/
def State.todo (worldSize : Nat) (s : State) : Nat :=
  ((List.range worldSize).map (fun r => (s.rem r).length)).sum

/-! ### Auxiliary description of the programs by phases -/

/-- what rank `r` still has to do from the beginning of phase `p` with `j` barriers left -/
def tail (n r : Nat) : Nat → Nat → List Act
  | _, 0 => []
  | p, j + 1 => (if p % n = r then fileActions r else []) ++ Act.barrier :: tail n r (p + 1) j

theorem initWait_eq (n r : Nat) (h : r ≤ n) : initWait n r = List.replicate r Act.barrier := by
  unfold initWait
  induction n with
  | zero => have : r = 0 := by omega
            subst this; rfl
  | succ n ih =>
    rw [List.range_succ, List.flatMap_append]
    by_cases hr : r ≤ n
    · rw [ih hr]; simp; omega
    · have : r = n + 1 := by omega
      subst this
      have : ∀ m, m ≤ n + 1 → (List.range m).flatMap
          (fun i => if i < n + 1 then [Act.barrier] else []) = List.replicate m Act.barrier := by
        intro m
        induction m with
        | zero => intro _; rfl
        | succ m ihm =>
          intro hm
          rw [List.range_succ, List.flatMap_append, ihm (by omega), List.replicate_succ']
          simp; omega
      rw [this n (by omega), List.replicate_succ']
      simp

theorem finishWait_eq (n r : Nat) : finishWait n r = List.replicate (n - r) Act.barrier := by
  unfold finishWait
  induction n with
  | zero => simp
  | succ n ih =>
    rw [List.range_succ, List.flatMap_append, ih]
    by_cases hr : r ≤ n
    · simp only [List.flatMap_cons, hr, if_true, List.flatMap_nil, List.append_nil]
      rw [← List.replicate_succ']; congr 1; omega
    · simp [hr]; omega

/-- phases in which `r` does nothing -/
theorem tail_skip (n r : Nat) : ∀ m p j, (∀ q, p ≤ q → q < p + m → q % n ≠ r) →
    tail n r p (m + j) = List.replicate m Act.barrier ++ tail n r (p + m) j := by
  intro m
  induction m with
  | zero => intro p j _; simp
  | succ m ih =>
    intro p j h
    have e : m + 1 + j = (m + j) + 1 := by omega
    rw [e, tail, if_neg (h p (by omega) (by omega)), ih (p + 1) j (fun q h1 h2 => h q (by omega)
      (by omega))]
    rw [List.replicate_succ]
    have : p + 1 + m = p + (m + 1) := by omega
    rw [this]; rfl

theorem tail_snapshot (n r k j : Nat) (hr : r < n) :
    tail n r (k * n) (n + j) = snapshotProgram n r ++ tail n r ((k + 1) * n) j := by
  have hn : 0 < n := by omega
  have hmod : ∀ q, k * n ≤ q → q < k * n + n → q % n = q - k * n := by
    intro q h1 h2
    have : q = n * k + (q - k * n) := by rw [Nat.mul_comm]; omega
    rw [this, Nat.mul_add_mod, Nat.mod_eq_of_lt (by omega)]
    rw [Nat.mul_comm]; omega
  have e1 : n + j = r + (n - r - 1 + j + 1) := by omega
  rw [e1, tail_skip n r r (k * n) _ (by
    intro q h1 h2; rw [hmod q h1 (by omega)]; omega)]
  rw [tail, if_pos (by rw [hmod _ (by omega) (by omega)]; omega)]
  rw [tail_skip n r (n - r - 1) (k * n + r + 1) j (by
    intro q h1 h2; rw [hmod q (by omega) (by omega)]; omega)]
  have e2 : k * n + r + 1 + (n - r - 1) = (k + 1) * n := by rw [Nat.succ_mul]; omega
  rw [e2, snapshotProgram, initWait_eq n r (by omega), finishWait_eq]
  have e3 : n - r = (n - r - 1) + 1 := by omega
  rw [e3, List.replicate_succ, fileActions]
  by_cases h0 : r = 0
  · subst h0; simp
  · simp [h0]

theorem program_eq_tail (n r K : Nat) (hr : r < n) : ∀ k, 
    tail n r (k * n) (K * n) = program n K r := by
  induction K with
  | zero => intro k; simp [tail, program]
  | succ K ih =>
    intro k
    have : (K + 1) * n = n + K * n := by rw [Nat.succ_mul]; omega
    rw [this, tail_snapshot n r k _ hr, ih (k + 1)]
    simp [program, List.replicate_succ]

/-- log of the first `p` phases -/
def canon (n p : Nat) : List (Nat × Act) :=
  (List.range p).flatMap (fun q => (fileActions (q % n)).map (fun a => (q % n, a)))

theorem canon_mul (n K : Nat) : canon n (K * n) = (List.replicate K (sequentialLog n)).flatten := by
  induction K with
  | zero => simp [canon]
  | succ K ih =>
    rw [List.replicate_succ', List.flatten_append, ← ih]
    unfold canon
    rw [Nat.succ_mul, List.range_add, List.flatMap_append]
    congr 1
    simp only [List.flatten_cons, List.flatten_nil, List.append_nil, sequentialLog]
    rw [List.flatMap_map]
    rw [List.flatMap_def, List.flatMap_def]
    congr 1
    apply List.map_congr_left
    intro q hq
    have : (K * n + q) % n = q := by
      rw [Nat.mul_comm, Nat.mul_add_mod, Nat.mod_eq_of_lt (List.mem_range.mp hq)]
    simp [this]

theorem barrier_not_mem (r : Nat) : Act.barrier ∉ fileActions r := by
  unfold fileActions; split <;> simp

/-- The invariant: all ranks are in the same phase `p`, `j` phases are left. -/
def Inv (n K : Nat) (s : State) : Prop :=
  ∃ p j, p + j = K * n ∧
    ((j = 0 ∧ s.finished n ∧ s.log = canon n p) ∨
     ∃ j' dn td, j = j' + 1 ∧ fileActions (p % n) = dn ++ td ∧
       s.rem (p % n) = td ++ Act.barrier :: tail n (p % n) (p + 1) j' ∧
       (∀ r, r < n → r ≠ p % n → s.rem r = Act.barrier :: tail n r (p + 1) j') ∧
       s.log = canon n p ++ dn.map (fun a => (p % n, a)))

/-- a state in which all ranks are at the beginning of phase `p` satisfies the invariant -/
theorem inv_of_tail (n K : Nat) (s : State) (p j : Nat) (hp : p + j = K * n)
    (hrem : ∀ r, r < n → s.rem r = tail n r p j) (hn : 0 < n) (hlog : s.log = canon n p) :
    Inv n K s := by
  refine ⟨p, j, hp, ?_⟩
  cases j with
  | zero => exact Or.inl ⟨rfl, fun r hr => by rw [hrem r hr]; rfl, hlog⟩
  | succ j =>
    refine Or.inr ⟨j, [], fileActions (p % n), rfl, rfl, ?_, ?_, by simpa using hlog⟩
    · rw [hrem _ (Nat.mod_lt _ hn), tail, if_pos rfl]
    · intro r hr hne
      rw [hrem r hr, tail, if_neg (fun h => hne h.symm)]; rfl

theorem reach_inv (n K : Nat) (hn : 0 < n) (s : State) (h : Reach n K s) : Inv n K s := by
  induction h with
  | init =>
    refine inv_of_tail n K _ 0 (K * n) (by omega) ?_ hn (by simp [init, canon])
    intro r hr
    have := program_eq_tail n r K hr 0
    rw [Nat.zero_mul] at this
    exact this.symm
  | step s s' _ hs ih =>
    obtain ⟨p, j, hp, hcase⟩ := ih
    rcases hcase with ⟨hj, hfin, hlog⟩ | ⟨j', dn, td, hj, hfa, hown, hoth, hlog⟩
    · -- nothing left: no step possible
      exfalso
      cases hs with
      | act r a rest hr ha h => rw [hfin r hr] at h; exact absurd h (by simp)
      | barrier rest h => have := h 0 hn; rw [hfin 0 hn] at this; exact absurd this (by simp)
    · have hpn : p % n < n := Nat.mod_lt _ hn
      cases hs with
      | act r a rest hr ha h =>
        by_cases hrp : r = p % n
        · subst hrp
          rw [hown] at h
          cases td with
          | nil => simp at h; exact absurd h.1.symm ha
          | cons b td =>
            simp only [List.cons_append, List.cons.injEq] at h
            obtain ⟨rfl, rfl⟩ := h
            refine ⟨p, j, hp, Or.inr ⟨j', dn ++ [b], td, hj, by simp [hfa], by simp, ?_, ?_⟩⟩
            · intro r hr hne
              simp [hne, hoth r hr hne]
            · simp [hlog]
        · rw [hoth r hr hrp] at h
          simp at h; exact absurd h.1.symm ha
      | barrier rest h =>
        have htd : td = [] := by
          cases td with
          | nil => rfl
          | cons b td =>
            have := h _ hpn
            rw [hown] at this
            simp only [List.cons_append, List.cons.injEq] at this
            obtain ⟨rfl, -⟩ := this
            exact absurd (by rw [hfa]; simp) (barrier_not_mem (p % n))
        subst htd
        refine inv_of_tail n K _ (p + 1) j' (by omega) ?_ hn ?_
        · intro r hr
          simp only [hr, if_true]
          have := h r hr
          by_cases hrp : r = p % n
          · subst hrp
            rw [hown] at this; simpa using this.symm
          · rw [hoth r hr hrp] at this; simpa using this.symm
        · simp only [hlog, canon, List.range_succ, List.flatMap_append]
          simp [hfa]

theorem canon_prefix (n p q : Nat) (h : p ≤ q) : canon n p <+: canon n q := by
  obtain ⟨d, rfl⟩ := Nat.exists_eq_add_of_le h
  unfold canon
  rw [List.range_add, List.flatMap_append]
  exact List.prefix_append _ _

/-- **C04 (order and mutual exclusion).** In every reachable state of every interleaving of `n > 0`
ranks writing `K` snapshots, the log of file actions so far is a prefix of the purely sequential
log: rank 0 creates the files, then ranks 0, 1, ..., n-1 open, write and close one after the other,
and only then the next snapshot starts. -/
theorem serial_output_sequential (n K : Nat) (hn : 0 < n) (s : State) (h : Reach n K s) :
    s.log <+: (List.replicate K (sequentialLog n)).flatten := by
  rw [← canon_mul]
  obtain ⟨p, j, hp, hcase⟩ := reach_inv n K hn s h
  rcases hcase with ⟨hj, -, hlog⟩ | ⟨j', dn, td, hj, hfa, -, -, hlog⟩
  · rw [hlog]; exact canon_prefix _ _ _ (by omega)
  · refine List.IsPrefix.trans ?_ (canon_prefix n (p + 1) (K * n) (by omega))
    rw [hlog]
    simp only [canon, List.range_succ, List.flatMap_append, List.flatMap_cons, List.flatMap_nil,
      List.append_nil]
    rw [List.prefix_append_right_inj, hfa, List.map_append]
    exact List.prefix_append _ _

/-- **C04 (no deadlock).** In every reachable state either all ranks are finished, and then the log
is exactly the sequential log, or some step is possible. -/
theorem serial_output_progress (n K : Nat) (hn : 0 < n) (s : State) (h : Reach n K s) :
    (s.finished n ∧ s.log = (List.replicate K (sequentialLog n)).flatten) ∨
      ∃ s', Step n s s' := by
  obtain ⟨p, j, hp, hcase⟩ := reach_inv n K hn s h
  rcases hcase with ⟨hj, hfin, hlog⟩ | ⟨j', dn, td, hj, hfa, hown, hoth, hlog⟩
  · left; refine ⟨hfin, ?_⟩
    rw [hlog, ← canon_mul]; congr 1; omega
  · right
    cases td with
    | nil =>
      exact ⟨_, Step.barrier s (fun r => tail n r (p + 1) j') (by
        intro r hr
        by_cases hrp : r = p % n
        · subst hrp; simpa using hown
        · exact hoth r hr hrp)⟩
    | cons b td =>
      refine ⟨_, Step.act s (p % n) b _ (Nat.mod_lt _ hn) ?_ hown⟩
      intro hb; subst hb
      exact absurd (by rw [hfa]; simp) (barrier_not_mem (p % n))

/-- **C04 (termination).** Every step uses up at least one action, so every execution is finite. -/
theorem serial_output_terminates (n : Nat) (hn : 0 < n) (s s' : State) (h : Step n s s') :
    s'.todo n < s.todo n := by
  unfold State.todo
  have hlt : ∀ (l : List Nat) (f g : Nat → Nat), (∀ r ∈ l, f r ≤ g r) → (∃ r ∈ l, f r < g r) →
      (l.map f).sum < (l.map g).sum := by
    intro l f g hle
    induction l with
    | nil => rintro ⟨r, hr, -⟩; simp at hr
    | cons a l ih =>
      rintro ⟨r, hr, hfr⟩
      have hsum : (l.map f).sum ≤ (l.map g).sum := by
        have hle' : ∀ r ∈ l, f r ≤ g r := fun r hr => hle r (by simp [hr])
        clear ih hfr hr hle
        induction l with
        | nil => simp
        | cons b l ih =>
          simp only [List.map_cons, List.sum_cons]
          have := ih (fun r hr => hle' r (by simp [hr]))
          have := hle' b (by simp)
          omega
      simp only [List.map_cons, List.sum_cons]
      have ha := hle a (by simp)
      rcases List.mem_cons.mp hr with rfl | hr'
      · omega
      · have := ih (fun r hr => hle r (by simp [hr])) ⟨r, hr', hfr⟩
        omega
  cases h with
  | act r a rest hr ha h =>
    apply hlt
    · intro q _
      by_cases hq : q = r
      · subst hq; simp [h]
      · simp [hq]
    · exact ⟨r, List.mem_range.mpr hr, by simp [h]⟩
  | barrier rest h =>
    apply hlt
    · intro q hq
      have hq := List.mem_range.mp hq
      simp [hq, h q hq]
    · exact ⟨0, List.mem_range.mpr hn, by simp [hn, h 0 hn]⟩

/-- **C04 (equal numbers of barriers).** Every rank takes part in exactly `worldSize` barriers per
snapshot. -/
theorem serial_output_barrier_count (n r : Nat) (hr : r < n) :
    (snapshotProgram n r).count Act.barrier = n := by
  rw [snapshotProgram, initWait_eq n r (by omega), finishWait_eq]
  simp only [List.count_append, List.count_replicate_self]
  split <;> simp <;> omega

/-- non-vacuity: a state in the middle of an execution with two ranks, in which rank 0 has written
and closed its files and rank 1 has opened them, is reachable -/
example : ∃ s, Reach 2 1 s ∧ s.log =
    [(0, .create), (0, .close), (0, .opn), (0, .write), (0, .close), (1, .opn)] := by
  refine ⟨_, Reach.step _ _ (Reach.step _ _ (Reach.step _ _ (Reach.step _ _ (Reach.step _ _
      (Reach.step _ _ (Reach.step _ _ Reach.init
      (Step.act _ 0 .create [.close, .opn, .write, .close, .barrier, .barrier] (by decide)
        (by decide) (by decide)))
      (Step.act _ 0 .close [.opn, .write, .close, .barrier, .barrier] (by decide) (by decide)
        (by decide)))
      (Step.act _ 0 .opn [.write, .close, .barrier, .barrier] (by decide) (by decide) (by decide)))
      (Step.act _ 0 .write [.close, .barrier, .barrier] (by decide) (by decide) (by decide)))
      (Step.act _ 0 .close [.barrier, .barrier] (by decide) (by decide) (by decide)))
      (Step.barrier _ (fun r => if r = 0 then [.barrier] else [.opn, .write, .close, .barrier])
        (by decide)))
      (Step.act _ 1 .opn [.write, .close, .barrier] (by decide) (by decide) (by decide)), rfl⟩

/-- the specification log for two ranks -/
example : sequentialLog 2 = [(0, .create), (0, .close), (0, .opn), (0, .write), (0, .close),
    (1, .opn), (1, .write), (1, .close)] := by decide

end Verif.SerialOutput
