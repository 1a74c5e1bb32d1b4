import Verif.Sweep.OverlapRun
import Verif.Sweep.FairExists

/-!
# Several sweeps one after the other: C92
-/

namespace Verif.Sweep

variable {K R C : Type} [Field K] [LinearOrder K] [IsStrictOrderedRing K] [AddCommGroup R] [Module K R]

variable {P : Sequence K R C} {b : Rates R C}

omit [IsStrictOrderedRing K] in
/-- Every reachable state occurs in an execution. -/
theorem OReach.execution {O : Overlap R C} (h : OReach P b O) : ∃ (E : OExecution P b) (n : Nat), E.st n = O := by
  suffices hs : ∃ (E : OExecution P b) (n : Nat), E.st n = O ∧ ∀ m ≥ n, E.lab m = none by
    obtain ⟨E, n, h, -⟩ := hs
    exact ⟨E, n, h⟩
  induction h with
  | refl => exact ⟨⟨fun _ => P.start b, fun _ => none, rfl, fun _ _ _ h => by simp at h, fun _ _ => rfl⟩, 0, rfl, fun _ _ => rfl⟩
  | step O O' r a _ hs ih =>
    obtain ⟨E, n, hn, -⟩ := ih
    refine ⟨⟨fun m => if m ≤ n then E.st m else O', fun m => if m < n then E.lab m else if m = n then some (r, a) else none,
      ?_, ?_, ?_⟩, n + 1, ?_, ?_⟩
    · show (if 0 ≤ n then E.st 0 else O') = _
      rw [if_pos (Nat.zero_le _), E.start]
    · intro m r' a' h
      by_cases h1 : m < n
      · rw [if_pos h1] at h
        rw [if_pos (by omega), if_pos (by omega)]
        exact E.move m r' a' h
      · rw [if_neg h1] at h
        by_cases h2 : m = n
        · rw [if_pos h2] at h
          obtain ⟨rfl, rfl⟩ := Prod.mk.inj (Option.some.inj h)
          rw [if_pos (by omega), if_neg (by omega), h2, hn]
          exact hs
        · rw [if_neg h2] at h
          simp at h
    · intro m h
      by_cases h1 : m < n
      · rw [if_pos h1] at h
        rw [if_pos (by omega), if_pos (by omega)]
        exact E.idle m h
      · rw [if_neg h1] at h
        by_cases h2 : m = n
        · rw [if_pos h2] at h
          simp at h
        · rw [if_neg (by omega), if_neg (by omega)]
    · exact if_neg (by omega)
    · intro m hm
      dsimp only
      rw [if_neg (by omega), if_neg (by omega)]

/-- Every reachable state is made of one state for every sweep. -/
theorem OReach.split {O : Overlap R C} (h : OReach P b O) (hP : WF P.base) : ∃ π S, π 0 = b ∧ Rel P π O S ∧
    (0 < P.num → ∀ r, O.sweep r < P.num) ∧
    ∀ k id, P.base.numRanks ≤ id.rank → (π k).miss id = b.miss id ∧ (π k).inc id = b.inc id ∧ (π k).out id = b.out id ∧
      (π k).per id = b.per id ∧ (π k).chem id = b.chem id := by
  obtain ⟨E, n, rfl⟩ := h.execution
  obtain ⟨S, -, hS, -⟩ := E.split hP
  exact ⟨E.begun, S n, rfl, hS n, fun h0 r => E.sweep_lt h0 n r, fun k id hid => E.begun_outside k hid⟩

omit [Field K] [LinearOrder K] [IsStrictOrderedRing K] [AddCommGroup R] [Module K R] in
theorem after_congr {k : Nat} {s t : State R} {c c' : Id → C} (h1 : s.miss = t.miss) (h2 : s.inc = t.inc)
    (h3 : s.out = t.out) (h4 : s.per = t.per) (h5 : ∀ id, P.evolve k id.rank s c id = P.evolve k id.rank t c' id) :
    P.after k s c = P.after k t c' := by
  unfold Sequence.after
  rw [h1, h2, h3, h4, funext h5]

/-- C92: whatever a run of several sweeps leaves in the cells, in which no rank waits for the others between the sweeps,
could also be the result if all ranks waited for each other after every sweep. -/
theorem overlapped_is_waiting (hP : WF P.base) (h0 : 0 < P.num) {O : Overlap R C} (h : OReach P b O) (hd : P.Done O) :
    P.Waiting b P.num (P.result O) := by
  obtain ⟨π, S, hπ, hS, -, hout⟩ := h.split hP
  have hval : ∀ k id, P.base.numRanks ≤ id.rank → (S k).miss id = b.miss id ∧ (S k).inc id = b.inc id ∧
      (S k).out id = b.out id ∧ (S k).per id = b.per id ∧
      ∀ c : Id → C, ∀ s : State R, P.evolve k id.rank s c id = c id := by
    intro k id hid
    have hs := hS.outside id.rank k hid
    have hna : ∀ c : Id → C, id ∉ (P.grid k c).act := by
      intro c hact
      have := hP.rank_lt id (mem_act.1 hact).1
      omega
    obtain ⟨o1, o2, o3, o4, -⟩ := hout k id hid
    refine ⟨?_, ?_, ?_, ?_, fun c s => if_neg (fun hc => hna c hc.2)⟩
    · rw [← hs.miss id rfl, ← o1]
      funext d
      exact if_neg (hna _)
    · rw [← hs.inc id rfl, ← o2]
      rfl
    · rw [← hs.out id rfl, ← o3]
      rfl
    · rw [← hs.per id rfl, ← o4]
      rfl
  have hfin : ∀ k < P.num, Finished (P.grid k (π k).chem) (S k) := by
    intro k hk r hr
    obtain ⟨h1, h2⟩ := hd r hr
    rcases Nat.lt_or_ge k (O.sweep r) with hlt | hge
    · exact hS.past r k hlt
    · have : k = O.sweep r := by omega
      rw [this, ← (hS.now r).pc]
      exact h2
  have key : ∀ k, k < P.num → P.Waiting b k (π k) := by
    intro k
    induction k with
    | zero =>
      intro _
      rw [hπ]
      exact .start
    | succ k ih =>
      intro hk
      obtain ⟨acts, hrun⟩ := (hS.reach k).run
      have := Sequence.Waiting.sweep k _ acts _ (ih (by omega)) hrun (hfin k (by omega))
      have e : π (k + 1) = P.after k (S k) (π k).chem := by
        have hid : ∀ id, (π (k + 1)).miss id = (S k).miss id ∧ (π (k + 1)).inc id = (S k).inc id ∧
            (π (k + 1)).out id = (S k).out id ∧ (π (k + 1)).per id = (S k).per id ∧
            (π (k + 1)).chem id = P.evolve k id.rank (S k) (π k).chem id := by
          intro id
          by_cases hr : id.rank < P.base.numRanks
          · exact hS.link id k (by have := (hd _ hr).1; omega)
          · obtain ⟨o1, o2, o3, o4, o5⟩ := hout (k + 1) id (by omega)
            obtain ⟨v1, v2, v3, v4, v5⟩ := hval k id (by omega)
            rw [o1, o2, o3, o4, o5, v1, v2, v3, v4, v5, (hout k id (by omega)).2.2.2.2]
            exact ⟨rfl, rfl, rfl, rfl, rfl⟩
        generalize π (k + 1) = c at hid
        cases c
        unfold Sequence.after
        simp only [Rates.mk.injEq]
        exact ⟨funext fun id => (hid id).1, funext fun id => (hid id).2.1, funext fun id => (hid id).2.2.1,
          funext fun id => (hid id).2.2.2.1, funext fun id => (hid id).2.2.2.2⟩
      rw [e]
      exact this
  obtain ⟨k, hk⟩ : ∃ k, P.num = k + 1 := ⟨P.num - 1, by omega⟩
  obtain ⟨acts, hrun⟩ := (hS.reach k).run
  have := Sequence.Waiting.sweep k _ acts _ (key k (by omega)) hrun (hfin k (by omega))
  rw [hk]
  convert this using 1
  unfold Sequence.result
  rw [hk, Nat.add_sub_cancel]
  have hsame : ∀ id, O.s.miss id = (S k).miss id ∧ O.s.inc id = (S k).inc id ∧ O.s.out id = (S k).out id ∧
      O.s.per id = (S k).per id ∧ P.evolve k id.rank O.s O.chem id = P.evolve k id.rank (S k) (π k).chem id := by
    intro id
    have hn := hS.now id.rank
    by_cases hr : id.rank < P.base.numRanks
    · have hsw : O.sweep id.rank = k := by have := (hd _ hr).1; omega
      rw [hsw] at hn
      exact ⟨hn.miss id rfl, hn.inc id rfl, hn.out id rfl, hn.per id rfl,
        evolve_congr P rfl hn (by rw [hS.chem, hsw])⟩
    · have hr' : P.base.numRanks ≤ id.rank := by omega
      have hsw := hS.outer id.rank hr'
      rw [hsw] at hn
      obtain ⟨v1, v2, v3, v4, v5⟩ := hval k id hr'
      obtain ⟨w1, w2, w3, w4, -⟩ := hval 0 id hr'
      rw [hn.miss id rfl, hn.inc id rfl, hn.out id rfl, hn.per id rfl, v1, v2, v3, v4, v5, v5, w1, w2, w3, w4, hS.chem, hsw,
        (hout 0 id hr').2.2.2.2, (hout k id hr').2.2.2.2]
      exact ⟨rfl, rfl, rfl, rfl, rfl⟩
  exact after_congr (funext fun id => (hsame id).1) (funext fun id => (hsame id).2.1) (funext fun id => (hsame id).2.2.1)
    (funext fun id => (hsame id).2.2.2.1) (fun id => (hsame id).2.2.2.2)

/-- C92: nothing panics: every rank which has not finished the last sweep can go on, every task in a queue can be solved, and
every message that a rank finds while it expects something from its sender is accepted. -/
theorem overlapped_never_panics (hP : WF P.base) (h0 : 0 < P.num) {O : Overlap R C} (h : OReach P b O) {r : Nat}
    (hr : r < P.base.numRanks) :
    (¬ (O.s.pc r = .done ∧ O.sweep r + 1 = P.num) → ∃ a O', OStep P r a O O') ∧
    (∀ k t, O.s.pc r = .work k → t ∈ O.s.todo r → ∃ O', OStep P r (.inner (.pop t)) O O') ∧
    (∀ q qs msg rest, O.s.pc r = .recv (q :: qs) → O.s.recvCount r q ≠ 0 → O.s.chan q r = msg :: rest →
      ∃ O', OStep P r (.inner (.take q)) O O') := by
  obtain ⟨π, S, hπ, hS, hlt, -⟩ := h.split hP
  have hn := hS.now r
  obtain ⟨h1, h2, h3⟩ := never_stuck (grid_wf hP (O.sweep r) _) (hS.reach (O.sweep r)) hr
  have hup : ∀ {a t'}, Step (P.grid (O.sweep r) (π (O.sweep r)).chem) r a (S (O.sweep r)) t' →
      ∃ O', OStep P r (.inner a) O O' := by
    intro a t' hs
    obtain ⟨s', hs'⟩ := hS.up hP hs
    exact ⟨_, .inner O s' r a hs'⟩
  refine ⟨?_, ?_, ?_⟩
  · intro hnd
    by_cases hpc : O.s.pc r = .done
    · have := hlt h0 r
      exact ⟨_, _, .next O r hr hpc (by have : ¬ O.sweep r + 1 = P.num := fun e => hnd ⟨hpc, e⟩; omega)⟩
    · obtain ⟨a, t', hs⟩ := h1 (hn.pc ▸ hpc)
      obtain ⟨O', hO⟩ := hup hs
      exact ⟨_, O', hO⟩
  · intro k t hpc ht
    obtain ⟨t', hs⟩ := h2 k t (hn.pc ▸ hpc) (hn.todo ▸ ht)
    exact hup hs
  · intro q qs msg rest hpc hrc hc
    have hpc' := hn.pc ▸ hpc
    have hrc' := hn.recvCount ▸ hrc
    have hq := mem_others.1 ((hS.good hP (O.sweep r)).comm.recvOk r _ hpc' q List.mem_cons_self)
    obtain ⟨rest', hrest⟩ := (hS.head_iff hP hr hq.1 hq.2 hrc' msg).1 ⟨rest, hc⟩
    obtain ⟨t', hs⟩ := h3 q qs msg rest' hpc' hrc' hrest
    exact hup hs

/-- C92: at the end no message is left in the network and no data in the buffers, so that the next call of `run_sweeps`
begins with empty ones. -/
theorem overlapped_leaves_nothing (hP : WF P.base) {O : Overlap R C} (h : OReach P b O) (hd : P.Done O) :
    ∀ r < P.base.numRanks, ∀ q, O.s.chan r q = [] ∧ O.s.toSend r q = [] ∧ O.s.sendBuf r q = [] ∧ O.s.req r q = false := by
  obtain ⟨π, S, hπ, hS, hlt, -⟩ := h.split hP
  intro r hr q
  have hfin : ∀ k < P.num, Finished (P.grid k (π k).chem) (S k) := by
    intro k hk r hr
    obtain ⟨h1, h2⟩ := hd r hr
    rcases Nat.lt_or_ge k (O.sweep r) with hlt | hge
    · exact hS.past r k hlt
    · have : k = O.sweep r := by omega
      rw [this, ← (hS.now r).pc]
      exact h2
  constructor
  · rw [hS.chan]
    apply flatMap_range_nil
    intro k hk
    have hk' : k < P.num := by have := (hd r hr).1; omega
    have hg := hS.good hP k
    have hq := finished_queue (grid_wf hP k _) hg (hfin k hk') r q
    by_contra hne
    obtain ⟨m, hm⟩ := List.exists_mem_of_ne_nil _ hne
    obtain ⟨d, hd⟩ := List.exists_mem_of_ne_nil _ (hg.comm.chanNe r q m hm)
    have : d ∈ queue (S k) r q := by
      unfold queue
      exact List.mem_append_left _ (List.mem_flatten.2 ⟨m, hm, hd⟩)
    rw [hq] at this
    exact absurd this List.not_mem_nil
  · obtain ⟨h1, h2⟩ := hd r hr
    have hn := hS.now r
    obtain ⟨-, -, -, hc, -⟩ := finished_rank_is_clean (grid_wf hP (O.sweep r) _) (hS.reach (O.sweep r)) hr (hn.pc ▸ h2)
    rw [hn.toSend, hn.sendBuf, hn.req]
    exact hc q

/-! ### Termination -/

omit [IsStrictOrderedRing K] in
theorem step_not_done {G : Grid K R} {r : Nat} {a : Act} {s s' : State R} (h : Step G r a s s') : s.pc r ≠ .done := by
  cases h <;> simp_all

/-- C92: if the levels can be swept one by one, all sweeps end although no rank waits for the others. -/
theorem overlapped_terminates (hP : WF P.base) (h0 : 0 < P.num)
    (hac : ∀ k < P.num, Acyclic { P.base with current := P.level k }) (E : OExecution P b) (hE : E.Fair) :
    ∃ n, P.Done (E.st n) := by
  obtain ⟨S, hS0, hS, hmove, hidle⟩ := E.split hP
  have hgood : ∀ n k, Good (P.grid k (E.begun k).chem) (S n k) := fun n k => (hS n).good hP k
  -- the program counter of a rank in a sweep only changes by its steps in this sweep
  have hpc1 : ∀ k r n, (∀ a, E.proj k n ≠ some (r, a)) → (S (n + 1) k).pc r = (S n k).pc r := by
    intro k r n h
    cases hl : E.proj k n with
    | none => rw [hidle n k hl]
    | some x =>
      obtain ⟨r', a⟩ := x
      refine step_pc (grid_wf hP k _) (hgood n k) (hmove n k r' a hl) ?_
      rintro rfl
      exact h a hl
  have hpcs : ∀ k r n m, n ≤ m → (∀ j, n ≤ j → j < m → ∀ a, E.proj k j ≠ some (r, a)) → (S m k).pc r = (S n k).pc r := by
    intro k r n m hnm
    induction m, hnm using Nat.le_induction with
    | base => exact fun _ => rfl
    | succ m hm ih =>
      intro h
      rw [hpc1 k r m (h m hm (Nat.lt_succ_self _)), ih fun j h1 h2 => h j h1 (by omega)]
  have hstay : ∀ k r n m, n ≤ m → (S n k).pc r = .done → (S m k).pc r = .done := by
    intro k r n m hnm hd
    induction m, hnm using Nat.le_induction with
    | base => exact hd
    | succ m hm ih =>
      rw [hpc1 k r m ?_, ih]
      intro a ha
      exact step_not_done (hmove m k r a ha) ih
  -- the next step of a rank
  have hnext : ∀ r < P.base.numRanks, ∀ n, ¬ ((E.st n).s.pc r = .done ∧ (E.st n).sweep r + 1 = P.num) →
      ∃ m ≥ n, ∃ a, E.lab m = some (r, a) ∧ (E.st m).sweep r = (E.st n).sweep r ∧ (E.st m).s.pc r = (E.st n).s.pc r := by
    intro r hr n hn
    have hex : ∃ j, ∃ a, E.lab (n + j) = some (r, a) := by
      obtain ⟨m, hm, a, ha⟩ := hE.ranks r hr n hn
      exact ⟨m - n, a, by rw [show n + (m - n) = m by omega]; exact ha⟩
    classical
    obtain ⟨a, ha⟩ := Nat.find_spec hex
    have hmin : ∀ j, n ≤ j → j < n + Nat.find hex → ∀ a, E.lab j ≠ some (r, a) := by
      intro j h1 h2 a h
      exact Nat.find_min hex (m := j - n) (by omega) ⟨a, by rw [show n + (j - n) = j by omega]; exact h⟩
    have hsw : ∀ j, j ≤ Nat.find hex → (E.st (n + j)).sweep r = (E.st n).sweep r := by
      intro j
      induction j with
      | zero => exact fun _ => rfl
      | succ j ih =>
        intro hj
        rw [← Nat.add_assoc, E.sweep_step, if_neg (hmin _ (by omega) (by omega) _), ih (by omega)]
    refine ⟨n + Nat.find hex, by omega, a, ha, hsw _ le_rfl, ?_⟩
    rw [((hS _).now r).pc, ((hS n).now r).pc, hsw _ le_rfl]
    apply hpcs _ _ _ _ (by omega)
    intro j h1 h2 a h
    exact hmin j h1 h2 _ (E.proj_eq.1 h).1
  -- a rank which makes infinitely many steps in a sweep stays there
  have hever : ∀ k r, (∀ n, ∃ m ≥ n, ∃ a, E.proj k m = some (r, a)) → ∃ n0, ∀ n ≥ n0, (E.st n).sweep r = k := by
    intro k r h
    obtain ⟨m0, -, a, ha⟩ := h 0
    refine ⟨m0, fun n hn => ?_⟩
    have h1 := (E.proj_eq.1 ha).2
    have h2 := E.sweep_mono r hn
    obtain ⟨m1, hm1, a1, ha1⟩ := h n
    have h3 := E.sweep_mono r hm1
    have h4 := (E.proj_eq.1 ha1).2
    omega
  have key : ∀ k, k < P.num → ∃ n0, ∀ n ≥ n0, ∀ r < P.base.numRanks, (S n k).pc r = .done := by
    intro k
    induction k using Nat.strong_induction_on with
    | _ k ih =>
      intro hk
      -- when all earlier sweeps have ended
      have hbefore : ∃ n1, ∀ n ≥ n1, ∀ j < k, ∀ r < P.base.numRanks, (S n j).pc r = .done := by
        have : ∀ m ≤ k, ∃ n1, ∀ n ≥ n1, ∀ j < m, ∀ r < P.base.numRanks, (S n j).pc r = .done := by
          intro m
          induction m with
          | zero => exact fun _ => ⟨0, fun _ _ j hj => absurd hj (Nat.not_lt_zero _)⟩
          | succ m ihm =>
            intro hm
            obtain ⟨n1, h1⟩ := ihm (by omega)
            obtain ⟨n2, h2⟩ := ih m (by omega) (by omega)
            refine ⟨max n1 n2, fun n hn j hj => ?_⟩
            rcases Nat.lt_succ_iff_lt_or_eq.1 hj with hj | rfl
            · exact h1 n (le_trans (le_max_left _ _) hn) j hj
            · exact h2 n (le_trans (le_max_right _ _) hn)
        exact this k le_rfl
      obtain ⟨n1, hn1⟩ := hbefore
      let F : Execution (P.grid k (E.begun k).chem) (P.init k (E.begun k)) :=
        ⟨fun n => S n k, fun n => E.proj k n, hS0 k, fun n r a h => hmove n k r a h, fun n h => hidle n k h⟩
      have hF : F.Fair := by
        refine ⟨?_, ?_, ?_⟩
        · intro r hr n hpc
          by_contra hno
          have hno' : ∀ m ≥ n, ∀ a, E.proj k m ≠ some (r, a) := fun m hm a h => hno ⟨m, hm, a, h⟩
          have hconst : ∀ m ≥ n, (S m k).pc r ≠ .done := by
            intro m hm
            rw [hpcs k r n m hm fun j h1 _ => hno' j h1]
            exact hpc
          have hcase : ∀ m ≥ n, (E.st m).sweep r ≠ k := by
            intro m hm hsw
            have hp : (E.st m).s.pc r ≠ .done := by
              rw [((hS m).now r).pc, hsw]
              exact hconst m hm
            obtain ⟨m', hm', a, ha, h1, h2⟩ := hnext r hr m (fun h => hp h.1)
            cases a with
            | inner a => exact hno' m' (by omega) a (E.proj_eq.2 ⟨ha, h1.trans hsw⟩)
            | next =>
              have hs := E.move m' r _ ha
              generalize E.st (m' + 1) = O' at hs
              cases hs with
              | next _ _ hr hpc hnum =>
                rw [h2] at hpc
                exact hp hpc
          have hle : (E.st (max n n1)).sweep r < k := by
            by_contra hge
            rcases Nat.eq_or_lt_of_le (Nat.le_of_not_lt hge) with h | h
            · exact hcase _ (le_max_left _ _) h.symm
            · exact hconst _ (le_max_left _ _) ((hS _).past r k h)
          have heq : (E.st (max n n1)).sweep r + 1 = k := by
            by_contra hne
            have h1 := hn1 (max n n1) (le_max_right _ _) (k - 1) (by omega) r hr
            have h2 := ((hS (max n n1)).future r (k - 1) (by omega)).pc
            rw [h1] at h2
            have : (P.init (k - 1) (E.begun (k - 1))).pc r = .head := rfl
            rw [this] at h2
            simp at h2
          have hp : (E.st (max n n1)).s.pc r = .done := by
            rw [((hS _).now r).pc]
            exact hn1 _ (le_max_right _ _) _ (by omega) r hr
          obtain ⟨m, hm, a, ha, h1, h2⟩ := hnext r hr (max n n1) (fun h => by have := h.2; omega)
          have hmn : n ≤ m := le_trans (le_max_left _ _) hm
          cases a with
          | inner a =>
            have hs := E.move m r _ ha
            generalize E.st (m + 1) = O' at hs
            cases hs with
            | inner _ s' _ a hst => exact step_not_done hst (h2.trans hp)
          | next =>
            have := E.sweep_step m r
            rw [if_pos ha, h1, heq] at this
            exact hcase (m + 1) (by omega) this
        · intro r q h
          obtain ⟨n0, hn0⟩ := hever k r fun n => by
            obtain ⟨m, hm, h1, -⟩ := h n
            exact ⟨m, hm, _, h1⟩
          have := hE.messages r q fun n => by
            obtain ⟨m, hm, h1, h2⟩ := h n
            have h1' := E.proj_eq.1 h1
            refine ⟨m, hm, h1'.1, ?_⟩
            rw [(hS m).chan]
            intro hnil
            rw [List.flatMap_eq_nil_iff] at hnil
            by_cases hsw : k ≤ (E.st m).sweep q
            · exact h2 (hnil k (List.mem_range.2 (by omega)))
            · exact h2 ((hS m).empty q k r (by omega))
          intro n
          obtain ⟨m, hm, h1⟩ := this (max n n0)
          exact ⟨m, le_trans (le_max_left _ _) hm, E.proj_eq.2 ⟨h1, hn0 m (le_trans (le_max_right _ _) hm)⟩⟩
        · intro r q h
          obtain ⟨n0, hn0⟩ := hever k r fun n => by
            obtain ⟨m, hm, c, h1, -⟩ := h n
            exact ⟨m, hm, _, h1⟩
          have := hE.requests r q fun n => by
            obtain ⟨m, hm, c, h1, h2, h3⟩ := h (max n n1)
            have h1' := E.proj_eq.1 h1
            have hmn : n1 ≤ m := le_trans (le_max_right _ _) hm
            have hg := hgood m k
            have hr : r < P.base.numRanks := hg.comm.reqRank r q h2
            have hq := mem_others.1 (hg.comm.bufOk r q ((hg.comm.reqBuf r q).1 h2))
            refine ⟨m, le_trans (le_max_left _ _) hm, c, h1'.1, ?_, ?_⟩
            · rw [((hS m).now r).req, h1'.2]
              exact h2
            · rw [(hS m).chan, h1'.2]
              apply flatMap_range_nil
              intro j hj
              rcases Nat.lt_succ_iff_lt_or_eq.1 hj with hj | rfl
              · exact ((finished_rank_is_clean (grid_wf hP j _) ((hS m).reach j) hq.1 (hn1 m hmn j hj q hq.1)).2.2.2.2 r
                  hq.2.symm hr).2
              · exact h3
          intro n
          obtain ⟨m, hm, c, h1, h2, h3⟩ := this (max n n0)
          have hsw := hn0 m (le_trans (le_max_right _ _) hm)
          refine ⟨m, le_trans (le_max_left _ _) hm, c, E.proj_eq.2 ⟨h1, hsw⟩, ?_, h3⟩
          rw [((hS m).now r).req, hsw] at h2
          exact h2
      obtain ⟨n2, hn2⟩ := fair_sweep_terminates (grid_wf hP k _) (hac k hk) F hF
      exact ⟨n2, fun n hn r hr => hstay k r n2 n hn (hn2 r hr)⟩
  obtain ⟨n0, hn0⟩ := key (P.num - 1) (by omega)
  refine ⟨n0, fun r hr => ?_⟩
  have h1 := hn0 n0 le_rfl r hr
  have h2 := E.sweep_lt h0 n0 r
  have h3 : (E.st n0).sweep r = P.num - 1 := by
    by_contra hne
    have h4 := ((hS n0).future r (P.num - 1) (by omega)).pc
    rw [h1] at h4
    have : (P.init (P.num - 1) (E.begun (P.num - 1))).pc r = .head := rfl
    rw [this] at h4
    simp at h4
  refine ⟨by omega, ?_⟩
  rw [((hS n0).now r).pc, h3]
  exact h1

/-! ### The result -/

/-- What matters of the contents of the cells. -/
def Agree (P : Sequence K R C) (c c' : Rates R C) : Prop :=
  ∀ v ∈ P.base.cells, (∀ d < P.base.numDirs, c.inc v d = c'.inc v d ∧ c.out v d = c'.out v d ∧ c.per v d = c'.per v d) ∧
    c.chem v = c'.chem v

omit [IsStrictOrderedRing K] in
theorem IsSolution.agree {k : Nat} {c c' : Rates R C} (hc : Agree P c c') {inc out : Id → Nat → R}
    (h : IsSolution (P.grid k c'.chem) c'.inc c'.out c'.per inc out) :
    IsSolution (P.grid k c.chem) c.inc c.out c.per inc out := by
  have hcell : ∀ {v : Id}, v ∈ (P.grid k c.chem).act → v ∈ P.base.cells := fun hv => (mem_act.1 hv).1
  have hsum : ∀ (A : Finset Id), (∀ u ∈ A, u ∈ P.base.cells) → ∀ v, ∀ d < P.base.numDirs,
      ∑ u ∈ A, share (P.grid k c.chem) d u v • (out u d - c.out u d) =
      ∑ u ∈ A, share (P.grid k c'.chem) d u v • (out u d - c'.out u d) := by
    intro A hA v d hd
    apply Finset.sum_congr rfl
    intro u hu
    rw [((hc u (hA u hu)).1 d hd).2.1]
    rfl
  refine ⟨?_, ?_, ?_, ?_⟩
  · intro v hv d hd
    rw [((hc v (hcell hv)).1 d hd).1, hsum _ (fun u hu => hcell hu) v d hd]
    exact h.inc_active v hv d hd
  · intro v hv d hd
    rw [((hc v (hcell hv)).1 d hd).2.2]
    have := h.out_active v hv d hd
    rw [this]
    show P.absorb (c'.chem v) v _ = P.absorb (c.chem v) v _
    rw [(hc v (hcell hv)).2]
    rfl
  · intro v hv hna d hd
    rw [((hc v hv).1 d hd).1, hsum _ (fun u hu => hcell (Finset.mem_filter.1 hu).1) v d hd]
    exact h.inc_inactive v hv hna d hd
  · intro v hv hna d hd
    rw [((hc v hv).1 d hd).2.1]
    exact h.out_inactive v hv hna d hd

omit [IsStrictOrderedRing K] [AddCommGroup R] [Module K R] in
theorem Agree.refl (c : Rates R C) : Agree P c c := fun _ _ => ⟨fun _ _ => ⟨rfl, rfl, rfl⟩, rfl⟩

/-- With waiting ranks the result is unique. -/
theorem waiting_unique (hP : WF P.base) (hnp : NoPeriodic P.base)
    (hac : ∀ k < P.num, Acyclic { P.base with current := P.level k }) {b b' : Rates R C} (hb : Agree P b b') :
    ∀ k ≤ P.num, ∀ c c' : Rates R C, P.Waiting b k c → P.Waiting b' k c' → Agree P c c' := by
  intro k
  induction k with
  | zero =>
    intro _ c c' h h'
    cases h
    cases h'
    exact hb
  | succ k ih =>
    intro hk c c' h h'
    cases h with
    | sweep _ c acts s hw hrun hf =>
      cases h' with
      | sweep _ c' acts' s' hw' hrun' hf' =>
        have hA := ih (by omega) c c' hw hw'
        have hG := grid_wf hP k c.chem
        have hG' := grid_wf hP k c'.chem
        have h1 := sweep_computes_solution hG hnp hrun.reach hf
        have h2 := sweep_computes_solution hG' hnp hrun'.reach hf'
        have hu := solution_unique (G := P.grid k c.chem) (hac k (by omega)) h1 (h2.agree hA)
        have hp : s.per = c.per := ((Val.reach hG (Good.init hG _ _ _ _) (Val.init _ rfl (fun _ _ => rfl)) hrun.reach).noPer
          hnp).2.2
        have hp' : s'.per = c'.per := ((Val.reach hG' (Good.init hG' _ _ _ _) (Val.init _ rfl (fun _ _ => rfl))
          hrun'.reach).noPer hnp).2.2
        intro v hv
        have hper : ∀ d < P.base.numDirs, s.per v d = s'.per v d := by
          intro d hd
          rw [hp, hp']
          exact ((hA v hv).1 d hd).2.2
        refine ⟨fun d hd => ⟨(hu v hv d hd).1, (hu v hv d hd).2, hper d hd⟩, ?_⟩
        show P.evolve k v.rank s c.chem v = P.evolve k v.rank s' c'.chem v
        unfold Sequence.evolve
        have e1 : (List.range P.base.numDirs).map (s.inc v) = (List.range P.base.numDirs).map (s'.inc v) :=
          List.map_congr_left fun d hd => (hu v hv d (List.mem_range.1 hd)).1
        have e2 : (List.range P.base.numDirs).map (s.per v) = (List.range P.base.numDirs).map (s'.per v) :=
          List.map_congr_left fun d hd => hper d (List.mem_range.1 hd)
        rw [e1, e2, (hA v hv).2]
        rfl

/-- C92: without periodic boundaries the rates and the states of all cells after several sweeps do not depend on the order
in which the ranks make their steps and get their messages. -/
theorem overlapped_result_unique (hP : WF P.base) (hnp : NoPeriodic P.base) (h0 : 0 < P.num)
    (hac : ∀ k < P.num, Acyclic { P.base with current := P.level k }) {O O' : Overlap R C} (h : OReach P b O)
    (hd : P.Done O) (h' : OReach P b O') (hd' : P.Done O') : ∀ v ∈ P.base.cells,
    (∀ d < P.base.numDirs, (P.result O).inc v d = (P.result O').inc v d ∧ (P.result O).out v d = (P.result O').out v d) ∧
    (P.result O).chem v = (P.result O').chem v := by
  intro v hv
  have := waiting_unique hP hnp hac (Agree.refl b) P.num le_rfl _ _ (overlapped_is_waiting hP h0 h hd) (overlapped_is_waiting hP h0 h' hd')
    v hv
  exact ⟨fun d hd => ⟨(this.1 d hd).1, (this.1 d hd).2.1⟩, this.2⟩

omit [IsStrictOrderedRing K] in
theorem OExecution.reach (E : OExecution P b) (n : Nat) : OReach P b (E.st n) := by
  induction n with
  | zero => rw [E.start]; exact .refl
  | succ n ih =>
    cases hl : E.lab n with
    | none => rw [E.idle n hl]; exact ih
    | some x => exact .step _ _ _ _ ih (E.move n x.1 x.2 hl)

/-! ### There are fair executions -/

/-- The step is one of the machine in which messages and requests are not delayed. -/
def OPrompt (O : Overlap R C) (r : Nat) : OAct → Prop
  | .inner a => Prompt O.s r a
  | .next => True

theorem overlap_prompt_step (hP : WF P.base) (h0 : 0 < P.num) {O : Overlap R C} (h : OReach P b O) {r : Nat}
    (hr : r < P.base.numRanks) (hnd : ¬ (O.s.pc r = .done ∧ O.sweep r + 1 = P.num)) :
    ∃ a O', OStep P r a O O' ∧ OPrompt O r a := by
  obtain ⟨-, h2, h3⟩ := overlapped_never_panics hP h0 h hr
  have hr' : r < (P.grid (O.sweep r) O.chem).numRanks := hr
  have hin : ∀ {a s'}, Step (P.grid (O.sweep r) O.chem) r a O.s s' → Prompt O.s r a →
      ∃ a O', OStep P r a O O' ∧ OPrompt O r a := fun hs hp => ⟨_, _, .inner O _ r _ hs, hp⟩
  cases hpc : O.s.pc r with
  | head =>
    by_cases hc : loopCond (P.grid (O.sweep r) O.chem) O.s r
    · by_cases ht : O.s.todo r = 0
      · exact hin (.enterRecv O.s r hr' hpc hc ht) trivial
      · exact hin (.enterWork O.s r hr' hpc hc ht) trivial
    · exact hin (.exit O.s r hr' hpc hc) trivial
  | recv qs =>
    cases qs with
    | nil => exact hin (.recvDone O.s r hr' hpc) trivial
    | cons q qs =>
      by_cases h0 : O.s.recvCount r q = 0
      · exact hin (.skip O.s r q qs hr' hpc h0) trivial
      · cases hm : O.s.chan q r with
        | nil => exact hin (.probe O.s r q qs hr' hpc (Nat.pos_of_ne_zero h0)) hm
        | cons msg rest =>
          obtain ⟨O', hs⟩ := h3 q qs msg rest hpc h0 hm
          exact ⟨_, O', hs, trivial⟩
  | work k =>
    by_cases ht : O.s.todo r = 0
    · exact hin (.workDone O.s r k hr' hpc ht) trivial
    · obtain ⟨t, ht⟩ := Multiset.exists_mem_of_ne_zero ht
      obtain ⟨O', hs⟩ := h2 k t hpc ht
      exact ⟨_, O', hs, trivial⟩
  | send => exact hin (.send O.s r (fun _ => true) hr' hpc) fun _ => rfl
  | done =>
    have := (OReach.split h hP).choose_spec.choose_spec.2.2.1 h0 r
    exact ⟨_, _, .next O r hr hpc (by have : ¬ O.sweep r + 1 = P.num := fun e => hnd ⟨hpc, e⟩; omega), trivial⟩

theorem overlap_prompt_turn (hP : WF P.base) (h0 : 0 < P.num) (n : Nat) (O : {O : Overlap R C // OReach P b O}) :
    ∃ x : Option (Nat × OAct) × {O : Overlap R C // OReach P b O},
      (∀ r a, x.1 = some (r, a) → OStep P r a O.1 x.2.1 ∧ OPrompt O.1 r a) ∧ (x.1 = none → x.2 = O) ∧
      (n % P.base.numRanks < P.base.numRanks →
        ¬ (O.1.s.pc (n % P.base.numRanks) = .done ∧ O.1.sweep (n % P.base.numRanks) + 1 = P.num) →
        ∃ a, x.1 = some (n % P.base.numRanks, a)) := by
  by_cases h : n % P.base.numRanks < P.base.numRanks ∧
      ¬ (O.1.s.pc (n % P.base.numRanks) = .done ∧ O.1.sweep (n % P.base.numRanks) + 1 = P.num)
  · obtain ⟨a, O', hs, hp⟩ := overlap_prompt_step hP h0 O.2 h.1 h.2
    refine ⟨(some (n % P.base.numRanks, a), ⟨O', .step _ _ _ _ O.2 hs⟩), ?_, fun h => by simp at h, fun _ _ => ⟨a, rfl⟩⟩
    intro r a' e
    obtain ⟨rfl, rfl⟩ := Prod.mk.inj (Option.some.inj e)
    exact ⟨hs, hp⟩
  · exact ⟨(none, O), fun _ _ h => by simp at h, fun _ => rfl, fun h1 h2 => absurd ⟨h1, h2⟩ h⟩

/-- The assumptions on the machine can be met. -/
theorem exists_fair_overlap (hP : WF P.base) (h0 : 0 < P.num) (b : Rates R C) : ∃ E : OExecution P b, E.Fair := by
  choose f h1 h2 h3 using overlap_prompt_turn hP h0 (b := b)
  let st : Nat → {O : Overlap R C // OReach P b O} := fun n => Nat.rec ⟨_, .refl⟩ (fun n s => (f n s).2) n
  have hst : ∀ n, st (n + 1) = (f n (st n)).2 := fun _ => rfl
  let E : OExecution P b := ⟨fun n => (st n).1, fun n => (f n (st n)).1, rfl, fun n r a h => (h1 n (st n) r a h).1,
    fun n h => congrArg Subtype.val (h2 n (st n) h)⟩
  refine ⟨E, ?_, ?_, ?_⟩
  · intro r hr n hd
    by_contra hno
    have hnone : ∀ m, n ≤ m → ∀ a, E.lab m ≠ some (r, a) := fun m hm a e => hno ⟨m, hm, a, e⟩
    obtain ⟨S, -, hS, hmove, hidle⟩ := E.split hP
    have hsw : ∀ j, (E.st (n + j)).sweep r = (E.st n).sweep r := by
      intro j
      induction j with
      | zero => rfl
      | succ j ih => rw [← Nat.add_assoc, E.sweep_step, if_neg (hnone _ (by omega) _), ih]
    have hpc : ∀ j k, (S (n + j) k).pc r = (S n k).pc r := by
      intro j
      induction j with
      | zero => exact fun _ => rfl
      | succ j ih =>
        intro k
        rw [← ih k, ← Nat.add_assoc]
        cases hl : E.proj k (n + j) with
        | none => rw [hidle _ k hl]
        | some x =>
          obtain ⟨r', a⟩ := x
          refine step_pc (grid_wf hP k _) ((hS _).good hP k) (hmove _ k r' a hl) ?_
          rintro rfl
          exact hnone _ (by omega) _ (E.proj_eq.1 hl).1
    have hstay : ∀ j, ¬ ((E.st (n + j)).s.pc r = .done ∧ (E.st (n + j)).sweep r + 1 = P.num) := by
      intro j
      rw [((hS _).now r).pc, hsw, hpc, ← ((hS _).now r).pc]
      exact hd
    have hm : ∃ j, (n + j) % P.base.numRanks = r := by
      refine ⟨P.base.numRanks - n % P.base.numRanks + r, ?_⟩
      have hlt := Nat.mod_lt n (show 0 < P.base.numRanks by omega)
      have hd := Nat.div_add_mod n P.base.numRanks
      have : n + (P.base.numRanks - n % P.base.numRanks + r) = r + P.base.numRanks * (n / P.base.numRanks + 1) := by
        rw [Nat.mul_add, Nat.mul_one]
        omega
      rw [this, Nat.add_mul_mod_self_left, Nat.mod_eq_of_lt hr]
    obtain ⟨j, hj⟩ := hm
    obtain ⟨a, ha⟩ := h3 (n + j) (st (n + j)) (by rw [hj]; exact hr) (by rw [hj]; exact hstay j)
    rw [hj] at ha
    exact hnone _ (by omega) a ha
  · intro r q h n
    obtain ⟨m, -, e, hne⟩ := h n
    exact absurd (h1 m _ r _ e).2 hne
  · intro r q h n
    obtain ⟨m, hm, c, e, hreq, -⟩ := h n
    exact ⟨m, hm, c, e, hreq, (h1 m _ r _ e).2 q⟩

end Verif.Sweep
