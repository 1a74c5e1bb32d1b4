import Verif.Sweep.Termination
import Verif.Sweep.Values

/-!
# The distributed sweep: C29-C32
-/

namespace Verif.Sweep

variable {K R : Type} [Field K] [LinearOrder K] [IsStrictOrderedRing K] [AddCommGroup R]
  [Module K R]

omit [IsStrictOrderedRing K] in
theorem Run.reach {G : Grid K R} {s0 s : State R} {acts : List (Nat × Act)} (h : Run G s0 acts s) :
    Reach G s0 s := by
  induction h with
  | nil => exact .refl
  | snoc acts s s' r a _ hs ih => exact .step s s' r a ih hs

omit [IsStrictOrderedRing K] in
theorem step_log {G : Grid K R} (hG : WF G) {s s' : State R} {r : Nat} {a : Act} (h : Good G s)
    (hs : Step G r a s s') : s'.log = s.log ++ a.solved.toList := by
  cases hs with
  | take _ s1 _ q qs msg rest hr hpc h0 hc hrecv =>
    obtain ⟨s2, h1, h2, h3, h4⟩ := h.receive hr hpc hc
    rw [hrecv, Option.some.injEq] at h1
    show s1.log = _
    rw [h1, h4]; simp [Act.solved]
  | pop _ s1 _ k t hr hpc ht hsolve =>
    obtain ⟨s2, h1, h2, h3, h4⟩ := h.solve hG hpc ht
    rw [hsolve, Option.some.injEq] at h1
    show s1.log = _
    rw [h1, h4]; simp [Act.solved]
  | _ => simp [Act.solved]; rfl

omit [IsStrictOrderedRing K] in
/-- The ghost variable records exactly the tasks popped. -/
theorem Run.log {G : Grid K R} (hG : WF G) {s0 s : State R} {acts : List (Nat × Act)}
    (h0 : Good G s0) (h : Run G s0 acts s) : s.log = s0.log ++ solved acts := by
  induction h with
  | nil => simp [solved]
  | snoc acts s s' r a hr hs ih =>
    rw [step_log hG (h0.reach hG hr.reach) hs, ih]
    unfold solved
    rw [List.filterMap_append]
    cases hsol : a.solved <;> simp [hsol]

omit [IsStrictOrderedRing K] [AddCommGroup R] [Module K R] in
theorem downCount_pos {G : Grid K R} {d : Nat} {u v : Id} (h : Feeds G d u v) :
    0 < downCount G u v false d := by
  obtain ⟨e, he, hd, ht⟩ := h
  unfold downCount
  rw [List.countP_pos_iff]
  refine ⟨e, he, ?_⟩
  simp only [Bool.and_eq_true, decide_eq_true_eq]
  refine ⟨hd, ?_⟩
  rcases ht with h | h <;> rw [h] <;> rfl

/-- C29: whatever the ranks do, no task is solved twice, only active cells are solved, and never
before all their active upwind neighbours. -/
theorem solved_at_most_once_after_upwind {G : Grid K R} (hG : WF G) {miss : Id → Nat → Nat}
    {inc out per : Id → Nat → R} {acts : List (Nat × Act)} {s : State R}
    (h : Run G (initState G miss inc out per) acts s) :
    (solved acts).Nodup ∧
    (∀ t ∈ solved acts, t.id ∈ G.cells ∧ G.current ≤ G.level t.id ∧ t.dir < G.numDirs) ∧
    (∀ before t after, solved acts = before ++ t :: after →
      ∀ u ∈ G.cells, G.current ≤ G.level u → Feeds G t.dir u t.id →
        (⟨u, t.dir⟩ : Task) ∈ before) := by
  have h0 := Good.init hG miss inc out per
  have hg := h0.reach hG h.reach
  have hlog : s.log = solved acts := by rw [Run.log hG h0 h]; rfl
  rw [← hlog]
  refine ⟨hg.inv.logNodup, ?_, ?_⟩
  · intro t ht
    have := hg.inv.logAct t ht
    have h2 := mem_act.1 this.1
    exact ⟨h2.1, by simpa [ownActive] using h2.2, this.2.1⟩
  · intro l1 t l2 hl u hu hlev hf
    exact hg.inv.order l1 t l2 hl u (mem_act.2 ⟨hu, by simpa [ownActive] using hlev⟩)
      (downCount_pos hf)

/-- C29: a rank that has left its loop has solved every active cell it owns exactly once in every
direction. -/
theorem finished_rank_solved_all {G : Grid K R} (hG : WF G) {miss : Id → Nat → Nat}
    {inc out per : Id → Nat → R} {acts : List (Nat × Act)} {s : State R}
    (h : Run G (initState G miss inc out per) acts s) {r : Nat} (hr : s.pc r = .done) :
    ∀ v ∈ G.cells, v.rank = r → G.current ≤ G.level v → ∀ d < G.numDirs,
      (solved acts).count ⟨v, d⟩ = 1 := by
  intro v hv hvr hlev d hd
  have h0 := Good.init hG miss inc out per
  have hg := h0.reach hG h.reach
  have hlog : s.log = solved acts := by rw [Run.log hG h0 h]; rfl
  rw [← hlog]
  apply List.count_eq_one_of_mem hg.inv.logNodup
  by_contra hnl
  have h1 := (hg.comm.doneOk r hr).1 d hd
  rw [hg.inv.solveEq _ d hd, Finset.card_eq_zero] at h1
  have : v ∈ ((G.act.filter (fun w => w.rank = r)).filter
      (fun w => (⟨w, d⟩ : Task) ∉ s.log)) :=
    Finset.mem_filter.2 ⟨Finset.mem_filter.2
      ⟨mem_act.2 ⟨hv, by simpa [ownActive] using hlev⟩, hvr⟩, hnl⟩
  rw [h1] at this
  exact absurd this (Finset.notMem_empty _)

/-- C30: no step panics: a rank that has not finished can always go on, whatever it is doing, and
whatever message or task it gets. -/
theorem never_stuck {G : Grid K R} (hG : WF G) {miss : Id → Nat → Nat}
    {inc out per : Id → Nat → R} {s : State R} (h : Reach G (initState G miss inc out per) s)
    {r : Nat} (hr : r < G.numRanks) :
    (s.pc r ≠ .done → ∃ a s', Step G r a s s') ∧
    (∀ k t, s.pc r = .work k → t ∈ s.todo r → ∃ s', Step G r (.pop t) s s') ∧
    (∀ q qs msg rest, s.pc r = .recv (q :: qs) → s.recvCount r q ≠ 0 → s.chan q r = msg :: rest →
      ∃ s', Step G r (.take q) s s') := by
  have hg := (Good.init hG miss inc out per).reach hG h
  have hpop : ∀ k t, s.pc r = .work k → t ∈ s.todo r → ∃ s', Step G r (.pop t) s s' := by
    intro k t hpc ht
    obtain ⟨s', h1, _⟩ := hg.solve hG hpc ht
    exact ⟨_, .pop s s' r k t hr hpc ht h1⟩
  refine ⟨?_, hpop, ?_⟩
  · intro hne
    cases hpc : s.pc r with
    | head =>
      by_cases hc : loopCond G s r
      · by_cases ht : s.todo r = 0
        · exact ⟨_, _, .enterRecv s r hr hpc hc ht⟩
        · exact ⟨_, _, .enterWork s r hr hpc hc ht⟩
      · exact ⟨_, _, .exit s r hr hpc hc⟩
    | recv qs =>
      cases qs with
      | nil => exact ⟨_, _, .recvDone s r hr hpc⟩
      | cons q qs =>
        by_cases h0 : s.recvCount r q = 0
        · exact ⟨_, _, .skip s r q qs hr hpc h0⟩
        · exact ⟨_, _, .probe s r q qs hr hpc (Nat.pos_of_ne_zero h0)⟩
    | work k =>
      by_cases ht : s.todo r = 0
      · exact ⟨_, _, .workDone s r k hr hpc ht⟩
      · obtain ⟨t, ht⟩ := Multiset.exists_mem_of_ne_zero ht
        obtain ⟨s', hs'⟩ := hpop k t hpc ht
        exact ⟨_, s', hs'⟩
    | send => exact ⟨_, _, .send s r (fun _ => false) hr hpc⟩
    | done => exact absurd hpc hne
  · intro q qs msg rest hpc h0 hc
    obtain ⟨s', h1, _⟩ := hg.receive hr hpc hc
    exact ⟨_, .take s s' r q qs msg rest hr hpc (Nat.pos_of_ne_zero h0) hc h1⟩

/-- C30: the number of solved tasks, received messages and finished ranks in any run is bounded by
a number depending only on the grid and its initial state. -/
theorem progress_bounded {G : Grid K R} (hG : WF G) (miss : Id → Nat → Nat)
    (inc out per : Id → Nat → R) : ∃ bound, ∀ acts s,
      Run G (initState G miss inc out per) acts s → acts.countP (fun x => x.2.progress) ≤ bound := by
  have h0 := Good.init hG miss inc out per
  refine ⟨pot G (initState G miss inc out per), fun acts s h => ?_⟩
  suffices hs : acts.countP (fun x => x.2.progress) + pot G s ≤ pot G (initState G miss inc out per) by
    omega
  induction h with
  | nil => simp
  | snoc acts s s' r a hr hs ih =>
    have hp := pot_step hG (h0.reach hG hr.reach) hs
    rw [List.countP_append]
    by_cases ha : a.progress = true
    · have : pot G s' ≠ pot G s := by
        intro he
        obtain ⟨_, h1, h2, h3, _⟩ := hp.2 he
        cases a <;> simp [Act.progress] at ha
        · exact h1 rfl
        · exact h3 _ rfl
        · exact h2 _ rfl
      have hlt : pot G s' < pot G s := lt_of_le_of_ne hp.1 this
      simp [ha]; omega
    · have := hp.1
      simp [ha]; omega

/-- C30: if the dependencies are acyclic, every fair execution ends with all ranks finished. -/
theorem fair_sweep_terminates {G : Grid K R} (hG : WF G) (hac : Acyclic G) {miss : Id → Nat → Nat}
    {inc out per : Id → Nat → R} (E : Execution G (initState G miss inc out per)) (hE : E.Fair) :
    ∃ n, Finished G (E.st n) :=
  fair_terminates hG hac (Good.init hG miss inc out per) E hE

/-- C30, C35: a rank that has left its loop has nothing to solve, no unsent data, no pending send
and expects nothing more. -/
theorem finished_rank_is_clean {G : Grid K R} (hG : WF G) {miss : Id → Nat → Nat}
    {inc out per : Id → Nat → R} {s : State R} (h : Reach G (initState G miss inc out per) s)
    {r : Nat} (hr : r < G.numRanks) (hd : s.pc r = .done) :
    s.todo r = 0 ∧ (∀ d < G.numDirs, s.solveCount r d = 0) ∧
    (∀ v ∈ G.act, v.rank = r → ∀ d < G.numDirs, s.miss v d = 0) ∧
    (∀ q, s.toSend r q = [] ∧ s.sendBuf r q = [] ∧ s.req r q = false) ∧
    (∀ q, q ≠ r → q < G.numRanks → s.recvCount r q = 0 ∧ s.chan q r = []) := by
  have hg := (Good.init hG miss inc out per).reach hG h
  obtain ⟨h1, h2, h3, h4⟩ := hg.comm.doneOk r hd
  have hlog : ∀ v ∈ G.act, v.rank = r → ∀ d < G.numDirs, (⟨v, d⟩ : Task) ∈ s.log := by
    intro v hv hvr d hd'
    by_contra hnl
    have h1 := h1 d hd'
    rw [hg.inv.solveEq _ d hd', Finset.card_eq_zero] at h1
    have : v ∈ ((G.act.filter (fun w => w.rank = r)).filter
        (fun w => (⟨w, d⟩ : Task) ∉ s.log)) :=
      Finset.mem_filter.2 ⟨Finset.mem_filter.2 ⟨hv, hvr⟩, hnl⟩
    rw [h1] at this
    exact absurd this (Finset.notMem_empty _)
  refine ⟨?_, h1, ?_, ?_, ?_⟩
  · rw [Multiset.eq_zero_iff_forall_notMem]
    intro t ht
    obtain ⟨a, b, c, d, e⟩ := (hg.inv.todoIff r t).1 ht
    exact e (hlog t.id a b t.dir c)
  · intro v hv hvr d hd'
    exact (hg.inv.logAct _ (hlog v hv hvr d hd')).2.2
  · intro q
    refine ⟨h3 q, h2 q, ?_⟩
    by_contra hne
    exact (hg.comm.reqBuf r q).1 (by simpa using hne) (h2 q)
  · intro q hqr hq
    have h5 := h4 q (mem_others.2 ⟨hq, hqr⟩)
    refine ⟨h5, ?_⟩
    have h6 := hg.inv.recvEq r hr q hq hqr
    by_contra hne
    obtain ⟨m, hm⟩ := List.exists_mem_of_ne_nil _ hne
    obtain ⟨x, hx⟩ := List.exists_mem_of_ne_nil _ (hg.comm.chanNe q r m hm)
    have : 0 < (queue s q r).length := by
      apply List.length_pos_of_mem (a := x)
      unfold queue
      exact List.mem_append_left _ (List.mem_flatten.2 ⟨m, hm, hx⟩)
    omega

/-! ### C32 -/

omit [IsStrictOrderedRing K] [AddCommGroup R] [Module K R] in
theorem crossings_eq {G : Grid K R} (hG : WF G) {u : Id} (hu : u ∈ G.cells) {r : Nat} (hr : u.rank ≠ r)
    (d : Nat) : crossings G u d r = outTo G u r d := by
  rw [outTo_eq]
  unfold crossings
  rw [← List.countP_eq_length_filter]
  apply List.countP_congr
  intro e he
  simp only [Bool.and_eq_true, decide_eq_true_eq]
  constructor
  · rintro ⟨hd, v, hv, hvr, h⟩
    refine ⟨hd, v, Finset.mem_filter.2 ⟨hv, hvr⟩, ?_⟩
    rcases h with h | h <;> rw [h]
    · exact ⟨false, rfl⟩
    · exact ⟨true, rfl⟩
  · rintro ⟨hd, v, hv, p, h⟩
    rw [Finset.mem_filter] at hv
    refine ⟨hd, v, hv.1, hv.2, ?_⟩
    obtain ⟨f, nb⟩ := e
    cases nb with
    | loc id =>
      simp only [Neighbour.target, Option.some.injEq, Prod.mk.injEq] at h
      have := (hG.loc u hu f id (Or.inl he)).2
      rw [h.1, hv.2] at this
      exact absurd this.symm hr
    | remote id =>
      simp only [Neighbour.target, Option.some.injEq, Prod.mk.injEq] at h
      exact Or.inl (by rw [h.1])
    | boundary => simp [Neighbour.target] at h
    | locPeriodic id =>
      simp only [Neighbour.target, Option.some.injEq, Prod.mk.injEq] at h
      have := (hG.loc u hu f id (Or.inr he)).2
      rw [h.1, hv.2] at this
      exact absurd this.symm hr
    | remotePeriodic id =>
      simp only [Neighbour.target, Option.some.injEq, Prod.mk.injEq] at h
      exact Or.inr (by rw [h.1])

/-- C32: the number of data rank `r` expects from rank `q` is the number of faces through which
active cells of `q` have to send to active cells of `r`. -/
theorem expected_equals_crossings {G : Grid K R} (hG : WF G) (miss : Id → Nat → Nat)
    (inc out per : Id → Nat → R) {q r : Nat} (hqr : q ≠ r) :
    (initState G miss inc out per).recvCount r q =
      ∑ u ∈ G.act.filter (fun u => u.rank = q), ∑ d ∈ Finset.range G.numDirs, crossings G u d r := by
  show (∑ id ∈ G.act.filter (fun id => id.rank = r),
      ∑ d ∈ Finset.range G.numDirs, (G.nbrs id).countP (countsReceive G r q d)) = _
  rw [init_recv hG hqr]
  apply Finset.sum_congr rfl
  intro u hu
  apply Finset.sum_congr rfl
  intro d _
  rw [Finset.mem_filter] at hu
  exact (crossings_eq hG (mem_act.1 hu.1).1 (by rw [hu.2]; exact hqr) d).symm

/-- C32: at every moment of a run, what `r` still expects from `q` is what is under way plus what
the unsolved cells of `q` will send; in particular the subtraction on receipt cannot underflow. -/
theorem expected_equals_outstanding {G : Grid K R} (hG : WF G) {miss : Id → Nat → Nat}
    {inc out per : Id → Nat → R} {acts : List (Nat × Act)} {s : State R}
    (h : Run G (initState G miss inc out per) acts s) {q r : Nat} (hqr : q ≠ r)
    (hq : q < G.numRanks) (hr : r < G.numRanks) :
    s.recvCount r q = (undelivered s q r).length +
      ∑ u ∈ G.act.filter (fun u => u.rank = q), ∑ d ∈ Finset.range G.numDirs,
        if (⟨u, d⟩ : Task) ∈ solved acts then 0 else crossings G u d r := by
  have h0 := Good.init hG miss inc out per
  have hg := h0.reach hG h.reach
  have hlog : s.log = solved acts := by rw [Run.log hG h0 h]; rfl
  have := hg.inv.recvEq r hr q hq hqr
  rw [this, ← hlog]
  have hz : (if q = 0 then ([] : List (Data R)).countP (fun d => decide (d.id.rank = r)) else 0) = 0 := by
    simp
  rw [hz, add_zero, add_comm]
  congr 1
  unfold remRecv
  apply Finset.sum_congr rfl
  intro u hu
  apply Finset.sum_congr rfl
  intro d _
  rw [Finset.mem_filter] at hu
  rw [crossings_eq hG (mem_act.1 hu.1).1 (by rw [hu.2]; exact hqr) d]

/-! ### C31 -/

omit [IsStrictOrderedRing K] [AddCommGroup R] [Module K R] in
theorem flow_eq_share {G : Grid K R} (u v : Id) (d : Nat) : flow G u v d = share G d u v := by
  have htot : (((G.nbrs u).map Prod.fst).filter (fun f => downwind f (G.dir d))).foldr
      (fun f acc => f.area * f.normal.dot (G.dir d) + acc) 0 =
      (((G.nbrs u).filter (fun e => decide (downwind e.1 (G.dir d)))).map (effArea G d)).sum := by
    generalize G.nbrs u = es
    induction es with
    | nil => rfl
    | cons e es ih =>
      rw [List.map_cons]
      by_cases hd : downwind e.1 (G.dir d)
      · rw [List.filter_cons_of_pos (by simpa using hd), List.filter_cons_of_pos (by simpa using hd),
          List.foldr_cons, List.map_cons, List.sum_cons, ih]
        rfl
      · rw [List.filter_cons_of_neg (by simpa using hd), List.filter_cons_of_neg (by simpa using hd)]
        exact ih
  unfold flow share fraction
  rw [htot]
  generalize (((G.nbrs u).filter (fun e => decide (downwind e.1 (G.dir d)))).map (effArea G d)).sum = T
  generalize G.nbrs u = es
  have hsame : ∀ e : Face K × Neighbour, (decide (downwind e.1 (G.dir d)) &&
      decide (e.2.target = some (v, false))) =
      decide (downwind e.1 (G.dir d) ∧ (e.2 = .loc v ∨ e.2 = .remote v)) := by
    intro e
    rw [Bool.decide_and]
    congr 1
    cases e.2 <;> simp [Neighbour.target]
  simp only [hsame]
  induction es with
  | nil => simp
  | cons e es ih =>
    by_cases hd : downwind e.1 (G.dir d) ∧ (e.2 = .loc v ∨ e.2 = .remote v)
    · rw [List.filter_cons_of_pos (by simpa using hd), List.map_cons, List.map_cons, List.sum_cons,
        List.sum_cons, ih, add_div]
      rfl
    · rw [List.filter_cons_of_neg (by simpa using hd)]
      exact ih

omit [IsStrictOrderedRing K] in
theorem finished_log {G : Grid K R} (hG : WF G) {s : State R} (hg : Good G s) (hf : Finished G s) :
    ∀ v ∈ G.act, ∀ d < G.numDirs, (⟨v, d⟩ : Task) ∈ s.log := by
  intro v hv d hd
  by_contra hnl
  have h1 := (hg.comm.doneOk v.rank (hf _ (hG.rank_lt _ (mem_act.1 hv).1))).1 d hd
  rw [hg.inv.solveEq _ d hd, Finset.card_eq_zero] at h1
  have : v ∈ ((G.act.filter (fun w => w.rank = v.rank)).filter
      (fun w => (⟨w, d⟩ : Task) ∉ s.log)) :=
    Finset.mem_filter.2 ⟨Finset.mem_filter.2 ⟨hv, rfl⟩, hnl⟩
  rw [h1] at this
  exact absurd this (Finset.notMem_empty _)

omit [IsStrictOrderedRing K] in
theorem finished_queue {G : Grid K R} (hG : WF G) {s : State R} (hg : Good G s) (hf : Finished G s)
    (q r : Nat) : queue s q r = [] := by
  by_contra hne
  obtain ⟨x, hx⟩ := List.exists_mem_of_ne_nil _ hne
  have hok := hg.inv.queueOk q r x hx
  have hr : r < G.numRanks := by rw [← hok.2.2.2.1]; exact hG.rank_lt _ (mem_act.1 hok.2.2.1).1
  have h4 := (hg.comm.doneOk r (hf r hr)).2.2.2 q (mem_others.2 ⟨hok.1, hok.2.1⟩)
  have h5 := hg.inv.recvEq r hr q hok.1 hok.2.1
  have := List.length_pos_of_mem hx
  omega

/-- C31: without periodic connections, a finished sweep has computed a solution, in every schedule. -/
theorem sweep_computes_solution {G : Grid K R} (hG : WF G) (hnp : NoPeriodic G)
    {miss : Id → Nat → Nat} {inc out per : Id → Nat → R} {s : State R}
    (h : Reach G (initState G miss inc out per) s) (hf : Finished G s) :
    IsSolution G inc out per s.inc s.out := by
  have h0 := Good.init hG miss inc out per
  have hg := h0.reach hG h
  have hv := Val.reach hG h0 (Val.init G rfl (fun _ _ => rfl)) h
  have hlog := finished_log hG hg hf
  have hq := finished_queue hG hg hf
  have hnlog : ∀ v, v ∉ G.act → ∀ d, (⟨v, d⟩ : Task) ∉ s.log :=
    fun v hva d hl => hva (hg.inv.logAct _ hl).1
  refine ⟨?_, ?_, ?_, ?_⟩
  · intro v hva d hd
    have := hv.incSolved v d (hlog v hva d hd)
    rw [this]
    simp only [flow_eq_share]
    rfl
  · intro v hva d hd
    exact hv.outSolved hnp v d (hlog v hva d hd)
  · intro v hvc hva d hd
    have := hv.incEq v hvc d hd (hnlog v hva d)
    have h1 : inflightRate G s v d = 0 := by
      unfold inflightRate; apply Finset.sum_eq_zero; intro q _; rw [hq]; rfl
    rw [h1, sumFor_nil, add_zero, add_zero] at this
    rw [this]
    show inc v d + delivered G _ s v d = _
    congr 1
    unfold delivered
    rw [Finset.sum_filter]
    apply Finset.sum_congr rfl
    intro u hu
    rw [flow_eq_share]
    by_cases hur : u.rank = v.rank
    · rw [if_pos ⟨hlog u hu d hd, Or.inr hur⟩, if_pos hur]; rfl
    · rw [if_neg (by rintro ⟨_, hc | hc⟩; exacts [hva hc, hur hc]), if_neg hur]
  · intro v hvc hva d hd
    exact hv.outUnsolved v d (hnlog v hva d)

omit [IsStrictOrderedRing K] in
/-- On acyclic grids there is at most one solution. -/
theorem solution_unique {G : Grid K R} (hac : Acyclic G) {inc0 out0 per0 inc out inc' out' : Id → Nat → R}
    (h : IsSolution G inc0 out0 per0 inc out) (h' : IsSolution G inc0 out0 per0 inc' out') :
    ∀ v ∈ G.cells, ∀ d < G.numDirs, inc v d = inc' v d ∧ out v d = out' v d := by
  obtain ⟨height, hh⟩ := hac
  have hzero : ∀ d u v, ¬ Feeds G d u v → share G d u v = 0 := by
    intro d u v hnf
    rw [← flow_eq_share]
    apply flow_eq_zero
    unfold downCount
    rw [List.countP_eq_zero]
    intro e he
    simp only [Bool.and_eq_true, decide_eq_true_eq, not_and]
    intro hd ht
    apply hnf
    refine ⟨e, he, hd, ?_⟩
    cases hnb : e.2 <;> rw [hnb] at ht <;> simp [Neighbour.target] at ht
    · exact Or.inl (by rw [ht])
    · exact Or.inr (by rw [ht])
  have hact : ∀ d < G.numDirs, ∀ k, ∀ v ∈ G.act, height d v = k →
      inc v d = inc' v d ∧ out v d = out' v d := by
    intro d hd k
    induction k using Nat.strong_induction_on with
    | _ k ih =>
      intro v hv hk
      have hinc : inc v d = inc' v d := by
        rw [h.inc_active v hv d hd, h'.inc_active v hv d hd]
        congr 2
        apply Finset.sum_congr rfl
        intro u hu
        by_cases hf : Feeds G d u v
        · rw [(ih _ (by rw [← hk]; exact hh d hd u hu v hv hf) u hu rfl).2]
        · rw [hzero d u v hf, zero_smul, zero_smul]
      refine ⟨hinc, ?_⟩
      rw [h.out_active v hv d hd, h'.out_active v hv d hd, hinc]
  intro v hv d hd
  by_cases hva : v ∈ G.act
  · exact hact d hd _ v hva rfl
  · refine ⟨?_, ?_⟩
    · rw [h.inc_inactive v hv hva d hd, h'.inc_inactive v hv hva d hd]
      congr 1
      apply Finset.sum_congr rfl
      intro u hu
      rw [(hact d hd _ u (Finset.mem_filter.1 hu).1 rfl).2]
    · rw [h.out_inactive v hv hva d hd, h'.out_inactive v hv hva d hd]

/-- C31: without periodic connections and cycles, the rates after a sweep do not depend on the
schedule (nor on how the cells' counters were left by earlier sweeps). -/
theorem sweep_result_independent_of_schedule {G : Grid K R} (hG : WF G) (hnp : NoPeriodic G)
    (hac : Acyclic G) {miss miss' : Id → Nat → Nat} {inc out per : Id → Nat → R} {s s' : State R}
    (h : Reach G (initState G miss inc out per) s) (hf : Finished G s)
    (h' : Reach G (initState G miss' inc out per) s') (hf' : Finished G s') :
    ∀ v ∈ G.cells, ∀ d < G.numDirs, s.inc v d = s'.inc v d ∧ s.out v d = s'.out v d :=
  solution_unique hac (sweep_computes_solution hG hnp h hf) (sweep_computes_solution hG hnp h' hf')

end Verif.Sweep
