import Verif.Sweep.StepLemmas

/-!
# The distributed sweep: the invariant holds in all reachable states
-/

namespace Verif.Sweep

variable {K R : Type} [Field K] [LinearOrder K]

/-! ### Frame of `deliver` -/

/-- What delivering data on rank `x` leaves alone. -/
structure Frame (x : Nat) (s s' : State R) : Prop where
  out : s'.out = s.out
  solveCount : s'.solveCount = s.solveCount
  recvCount : s'.recvCount = s.recvCount
  sendBuf : s'.sendBuf = s.sendBuf
  req : s'.req = s.req
  chan : s'.chan = s.chan
  pc : s'.pc = s.pc
  log : s'.log = s.log
  toSend : ∀ r q, r ≠ x → s'.toSend r q = s.toSend r q
  todo : ∀ r, r ≠ x → s'.todo r = s.todo r

theorem Frame.rfl' {x : Nat} {s : State R} : Frame x s s :=
  ⟨rfl, rfl, rfl, rfl, rfl, rfl, rfl, rfl, fun _ _ _ => rfl, fun _ _ => rfl⟩

theorem Frame.trans {x : Nat} {a b c : State R} (h1 : Frame x a b) (h2 : Frame x b c) :
    Frame x a c :=
  ⟨h2.out.trans h1.out, h2.solveCount.trans h1.solveCount, h2.recvCount.trans h1.recvCount,
    h2.sendBuf.trans h1.sendBuf, h2.req.trans h1.req, h2.chan.trans h1.chan, h2.pc.trans h1.pc,
    h2.log.trans h1.log, fun r q h => (h2.toSend r q h).trans (h1.toSend r q h),
    fun r h => (h2.todo r h).trans (h1.todo r h)⟩

theorem deliver_frame [AddCommGroup R] {G : Grid K R} {x : Nat} {s s' : State R} {dat : Data R}
    (h : deliver G x s dat = some s') : Frame x s s' := by
  unfold deliver at h
  by_cases hr : dat.id.rank = x
  · rw [if_pos hr] at h
    unfold receiveData at h
    split at h
    · simp only [Option.some.injEq] at h
      subst h
      exact ⟨rfl, rfl, rfl, rfl, rfl, rfl, rfl, rfl, fun _ _ _ => rfl, fun _ _ => rfl⟩
    · unfold handleLocal at h
      simp only at h
      split at h
      · split at h
        · simp at h
        · split at h
          · simp only [Option.some.injEq] at h
            subst h
            refine ⟨rfl, rfl, rfl, rfl, rfl, rfl, rfl, rfl, fun _ _ _ => rfl, fun r hne => ?_⟩
            show upd s.todo dat.id.rank _ r = _
            unfold upd
            rw [if_neg (by rw [hr]; exact hne)]
          · simp only [Option.some.injEq] at h
            subst h
            exact ⟨rfl, rfl, rfl, rfl, rfl, rfl, rfl, rfl, fun _ _ _ => rfl, fun _ _ => rfl⟩
      · simp only [Option.some.injEq] at h
        subst h
        exact ⟨rfl, rfl, rfl, rfl, rfl, rfl, rfl, rfl, fun _ _ _ => rfl, fun _ _ => rfl⟩
  · rw [if_neg hr] at h
    simp only [Option.some.injEq] at h
    subst h
    refine ⟨rfl, rfl, rfl, rfl, rfl, rfl, rfl, rfl, fun r q hne => ?_, fun _ _ => rfl⟩
    show upd2 s.toSend x _ _ r q = _
    unfold upd2
    rw [if_neg (fun hc => hne hc.1)]

theorem foldlM_deliver_frame [AddCommGroup R] {G : Grid K R} {x : Nat} (l : List (Data R))
    {s s' : State R} (h : l.foldlM (deliver G x) s = some s') : Frame x s s' := by
  induction l generalizing s with
  | nil =>
    simp only [List.foldlM_nil, Option.pure_def, Option.some.injEq] at h
    subst h; exact Frame.rfl'
  | cons d l ih =>
    rw [List.foldlM_cons] at h
    cases hd : deliver G x s d with
    | none => rw [hd] at h; simp at h
    | some s1 =>
      rw [hd] at h
      exact (deliver_frame hd).trans (ih h)

/-! ### Initial state -/

theorem init_miss [IsStrictOrderedRing K] {G : Grid K R} (hG : WF G) {v : Id} (hv : v ∈ G.act)
    (d : Nat) :
    (G.nbrs v).countP (countsMissing G v.rank d) = ∑ u ∈ G.act, downCount G u v false d := by
  have hvc := (mem_act.1 hv).1
  have : ∀ u ∈ G.act, downCount G u v false d = upCount G v u false d :=
    fun u hu => (upCount_eq G hG (mem_act.1 hu).1 hvc false d).symm
  rw [Finset.sum_congr rfl this]
  unfold upCount
  rw [← countP_target_sum (G.nbrs v) G.act (fun f => decide (upwind f (G.dir d))) false]
  apply List.countP_congr
  rintro ⟨f, nb⟩ he
  unfold countsMissing
  cases nb with
  | loc id =>
    have hw := hG.loc _ hvc f id (Or.inl he)
    simp only [Neighbour.target, Bool.and_eq_true, decide_eq_true_eq, Option.some.injEq,
      Prod.mk.injEq, and_true]
    rw [← hw.2, isActive_own]
    constructor
    · rintro ⟨h1, h2⟩; exact ⟨h1, id, mem_act.2 ⟨hw.1, h2⟩, rfl⟩
    · rintro ⟨h1, w, h2, rfl⟩; exact ⟨h1, (mem_act.1 h2).2⟩
  | remote id =>
    have hw := hG.remote _ hvc f id (Or.inl he)
    simp only [Neighbour.target, Bool.and_eq_true, decide_eq_true_eq, Option.some.injEq,
      Prod.mk.injEq, and_true]
    rw [isActive_remote hw.2.1 hw.2.2]
    constructor
    · rintro ⟨h1, h2⟩; exact ⟨h1, id, mem_act.2 ⟨hw.1, h2⟩, rfl⟩
    · rintro ⟨h1, w, h2, rfl⟩; exact ⟨h1, (mem_act.1 h2).2⟩
  | boundary => simp [Neighbour.target]
  | locPeriodic id => simp [Neighbour.target]
  | remotePeriodic id => simp [Neighbour.target]

theorem init_recv [IsStrictOrderedRing K] {G : Grid K R} (hG : WF G) {r q : Nat} (hqr : q ≠ r) :
    (∑ id ∈ G.act.filter (fun id => id.rank = r),
      ∑ d ∈ Finset.range G.numDirs, (G.nbrs id).countP (countsReceive G r q d)) =
    ∑ u ∈ G.act.filter (fun u => u.rank = q), ∑ d ∈ Finset.range G.numDirs, outTo G u r d := by
  have h1 : ∀ v ∈ G.act.filter (fun id => id.rank = r), ∀ d,
      (G.nbrs v).countP (countsReceive G r q d) = ∑ u ∈ G.act.filter (fun u => u.rank = q),
        (downCount G u v false d + downCount G u v true d) := by
    intro v hv d
    rw [Finset.mem_filter] at hv
    have hvc := (mem_act.1 hv.1).1
    have : ∀ u ∈ G.act.filter (fun u => u.rank = q),
        downCount G u v false d + downCount G u v true d =
        upCount G v u false d + upCount G v u true d := by
      intro u hu
      have huc := (mem_act.1 (Finset.mem_filter.1 hu).1).1
      rw [upCount_eq G hG huc hvc, upCount_eq G hG huc hvc]
    rw [Finset.sum_congr rfl this]
    unfold upCount
    rw [countP_target_sum2 (G.nbrs v) _ (fun f => decide (upwind f (G.dir d)))]
    apply List.countP_congr
    rintro ⟨f, nb⟩ he
    unfold countsReceive
    cases nb with
    | loc id =>
      have hw := hG.loc _ hvc f id (Or.inl he)
      simp only [Neighbour.target, Bool.and_eq_true, decide_eq_true_eq, Option.some.injEq,
        Prod.mk.injEq, false_iff, not_and, not_exists, Bool.false_eq_true]
      intro _ w hw' p hc
      rw [Finset.mem_filter] at hw'
      exact absurd (by rw [← hw'.2, ← hc, hw.2, hv.2]) hqr
    | locPeriodic id =>
      have hw := hG.loc _ hvc f id (Or.inr he)
      simp only [Neighbour.target, Bool.and_eq_true, decide_eq_true_eq, Option.some.injEq,
        Prod.mk.injEq, false_iff, not_and, not_exists, Bool.false_eq_true]
      intro _ w hw' p hc
      rw [Finset.mem_filter] at hw'
      exact absurd (by rw [← hw'.2, ← hc, hw.2, hv.2]) hqr
    | boundary => simp [Neighbour.target]
    | remote id =>
      have hw := hG.remote _ hvc f id (Or.inl he)
      rw [hv.2] at hw
      simp only [Neighbour.target, Bool.and_eq_true, decide_eq_true_eq, Option.some.injEq,
        Prod.mk.injEq]
      rw [isActive_remote hw.2.1 hw.2.2]
      constructor
      · rintro ⟨⟨h1, h2⟩, h3⟩
        exact ⟨h1, id, Finset.mem_filter.2 ⟨mem_act.2 ⟨hw.1, h2⟩, h3⟩, _, rfl, rfl⟩
      · rintro ⟨h1, w, h2, _, rfl, _⟩
        rw [Finset.mem_filter] at h2
        exact ⟨⟨h1, (mem_act.1 h2.1).2⟩, h2.2⟩
    | remotePeriodic id =>
      have hw := hG.remote _ hvc f id (Or.inr he)
      rw [hv.2] at hw
      simp only [Neighbour.target, Bool.and_eq_true, decide_eq_true_eq, Option.some.injEq,
        Prod.mk.injEq]
      rw [isActive_remote hw.2.1 hw.2.2]
      constructor
      · rintro ⟨⟨h1, h2⟩, h3⟩
        exact ⟨h1, id, Finset.mem_filter.2 ⟨mem_act.2 ⟨hw.1, h2⟩, h3⟩, _, rfl, rfl⟩
      · rintro ⟨h1, w, h2, _, rfl, _⟩
        rw [Finset.mem_filter] at h2
        exact ⟨⟨h1, (mem_act.1 h2.1).2⟩, h2.2⟩
  calc _ = ∑ v ∈ G.act.filter (fun id => id.rank = r), ∑ d ∈ Finset.range G.numDirs,
        ∑ u ∈ G.act.filter (fun u => u.rank = q),
        (downCount G u v false d + downCount G u v true d) :=
        Finset.sum_congr rfl (fun v hv => Finset.sum_congr rfl (fun d _ => h1 v hv d))
    _ = ∑ d ∈ Finset.range G.numDirs, ∑ v ∈ G.act.filter (fun id => id.rank = r),
        ∑ u ∈ G.act.filter (fun u => u.rank = q),
        (downCount G u v false d + downCount G u v true d) := Finset.sum_comm
    _ = ∑ d ∈ Finset.range G.numDirs, ∑ u ∈ G.act.filter (fun u => u.rank = q),
        ∑ v ∈ G.act.filter (fun id => id.rank = r),
        (downCount G u v false d + downCount G u v true d) :=
        Finset.sum_congr rfl (fun d _ => Finset.sum_comm)
    _ = _ := Finset.sum_comm

theorem Inv.init [IsStrictOrderedRing K] {G : Grid K R} (hG : WF G) (miss : Id → Nat → Nat)
    (inc out per : Id → Nat → R) : Inv G (initState G miss inc out per) 0 [] := by
  have hq : ∀ q r, queue (initState G miss inc out per) q r = [] := fun _ _ => rfl
  constructor
  · exact List.nodup_nil
  · intro t ht; exact absurd ht (List.not_mem_nil)
  · intro r
    apply Multiset.Nodup.map _ (Finset.nodup _)
    rintro ⟨a, b⟩ ⟨c, d⟩ h
    simp only [Task.mk.injEq] at h
    rw [h.1, h.2]
  · rintro r ⟨v, d⟩
    show _ ∈ Multiset.map _ _ ↔ _
    rw [Multiset.mem_map]
    constructor
    · rintro ⟨⟨a, b⟩, hab, heq⟩
      rw [Finset.mem_val, Finset.mem_filter, Finset.mem_product, Finset.mem_filter,
        Finset.mem_range] at hab
      simp only [Task.mk.injEq] at heq
      rw [← heq.1, ← heq.2]
      exact ⟨hab.1.1.1, hab.1.1.2, hab.1.2, hab.2, List.not_mem_nil⟩
    · rintro ⟨h1, h2, h3, h4, _⟩
      refine ⟨(v, d), ?_, rfl⟩
      rw [Finset.mem_val, Finset.mem_filter, Finset.mem_product, Finset.mem_filter,
        Finset.mem_range]
      exact ⟨⟨⟨h1, h2⟩, h3⟩, h4⟩
  · intro v hv d _
    have h1 : inflight G (initState G miss inc out per) v d = 0 := by
      unfold inflight; simp [hq]
    rw [h1]
    show (if v ∈ G.act then _ else _) = remMiss G [] v d + 0 + 0
    rw [if_pos hv, init_miss hG hv]
    simp [remMiss]
  · intro r d _
    show (G.act.filter (fun id => id.rank = r)).card = (Finset.filter (fun v => _ ∉ []) _).card
    simp
  · intro r _ q _ hqr
    rw [hq]
    show (∑ id ∈ _, ∑ d ∈ _, _) = remRecv G [] r q + 0 + _
    rw [init_recv hG hqr]
    simp [remRecv]
  · intro q r dat hd
    rw [hq] at hd; exact absurd hd (List.not_mem_nil)
  · intro dat hd; exact absurd hd (List.not_mem_nil)
  · intro l1 t l2 hl
    have : ([] : List Task) = l1 ++ t :: l2 := hl
    simp at this

/-! ### Communication part of the invariant -/

/-- Buffers, requests and program counters. -/
structure Comm (G : Grid K R) (s : State R) : Prop where
  reqBuf : ∀ r q, s.req r q = true ↔ s.sendBuf r q ≠ []
  chanNe : ∀ q r, ∀ m ∈ s.chan q r, m ≠ []
  bufOk : ∀ r q, s.sendBuf r q ≠ [] → q ∈ others G.numRanks r
  reqRank : ∀ r q, s.req r q = true → r < G.numRanks
  headOk : ∀ r q, s.pc r = .head → s.toSend r q ≠ [] → s.sendBuf r q ≠ []
  recvOk : ∀ r qs, s.pc r = .recv qs → ∀ q ∈ qs, q ∈ others G.numRanks r
  doneOk : ∀ r, s.pc r = .done → (∀ d < G.numDirs, s.solveCount r d = 0) ∧
    (∀ q, s.sendBuf r q = []) ∧ (∀ q, s.toSend r q = []) ∧
    (∀ q ∈ others G.numRanks r, s.recvCount r q = 0)

theorem Comm.init (G : Grid K R) (miss : Id → Nat → Nat) (inc out per : Id → Nat → R) :
    Comm G (initState G miss inc out per) :=
  ⟨fun _ _ => by simp [initState], fun _ _ m hm => absurd hm (List.not_mem_nil),
    fun _ _ h => absurd rfl h, fun _ _ h => by simp [initState] at h,
    fun _ _ _ h => absurd rfl h, fun _ _ h => by simp [initState] at h,
    fun _ h => by simp [initState] at h⟩

theorem list_sum_zero {l : List Nat} (h : l.sum = 0) : ∀ a ∈ l, a = 0 := by
  induction l with
  | nil => intro a ha; exact absurd ha (List.not_mem_nil)
  | cons b l ih =>
    rw [List.sum_cons] at h
    intro a ha
    rcases List.mem_cons.1 ha with ha | ha
    · omega
    · exact ih (by omega) a ha

theorem not_loopCond {G : Grid K R} {s : State R} {r : Nat} (h : ¬ loopCond G s r) :
    (∀ d < G.numDirs, s.solveCount r d = 0) ∧
    (∀ q ∈ others G.numRanks r, s.sendBuf r q = []) ∧
    (∀ q ∈ others G.numRanks r, s.recvCount r q = 0) := by
  unfold loopCond at h
  simp only [not_or, Nat.not_lt, Nat.le_zero] at h
  obtain ⟨h1, h2, h3⟩ := h
  rw [Finset.sum_eq_zero_iff] at h1
  replace h2 := list_sum_zero h2
  replace h3 := list_sum_zero h3
  refine ⟨fun d hd => h1 d (Finset.mem_range.2 hd), fun q hq => ?_, fun q hq => ?_⟩
  · exact List.length_eq_zero_iff.1 (h2 _ (List.mem_map.2 ⟨q, hq, rfl⟩))
  · exact h3 _ (List.mem_map.2 ⟨q, hq, rfl⟩)

/-- Invariant of all reachable states. -/
structure Good (G : Grid K R) (s : State R) : Prop where
  inv : Inv G s 0 []
  comm : Comm G s

/-- Changing only the program counter of `r`. -/
theorem Good.setPc {G : Grid K R} {s : State R} (h : Good G s) (r : Nat) (pc : PC)
    (hhead : pc = .head → ∀ q, s.toSend r q ≠ [] → s.sendBuf r q ≠ [])
    (hrecv : ∀ qs, pc = .recv qs → ∀ q ∈ qs, q ∈ others G.numRanks r)
    (hdone : pc = .done → (∀ d < G.numDirs, s.solveCount r d = 0) ∧
      (∀ q, s.sendBuf r q = []) ∧ (∀ q, s.toSend r q = []) ∧
      (∀ q ∈ others G.numRanks r, s.recvCount r q = 0)) : Good G (setPc s r pc) := by
  have hpc : ∀ r', (Sweep.setPc s r pc).pc r' = if r' = r then pc else s.pc r' := fun r' => rfl
  refine ⟨h.inv.congr rfl rfl rfl rfl rfl (fun _ _ => rfl), h.comm.reqBuf, h.comm.chanNe,
    h.comm.bufOk, h.comm.reqRank, ?_, ?_, ?_⟩
  · intro r' q h1 h2
    rw [hpc] at h1
    split at h1
    · rename_i hr
      rw [hr] at h2 ⊢
      exact hhead h1 q h2
    · exact h.comm.headOk r' q h1 h2
  · intro r' qs h1
    rw [hpc] at h1
    split at h1
    · rename_i hr
      rw [hr]
      exact hrecv qs h1
    · exact h.comm.recvOk r' qs h1
  · intro r' h1
    rw [hpc] at h1
    split at h1
    · rename_i hr
      rw [hr]
      exact hdone h1
    · exact h.comm.doneOk r' h1

/-- The communication invariant after delivering data on rank `x`, when `x` is neither at the loop
head nor done. -/
theorem Comm.frame {G : Grid K R} {x : Nat} {s s' : State R} (h : Comm G s) (hf : Frame x s s')
    (h1 : s.pc x ≠ .head) (h2 : s.pc x ≠ .done) : Comm G s' := by
  refine ⟨?_, ?_, ?_, ?_, ?_, ?_, ?_⟩
  · rw [hf.req, hf.sendBuf]; exact h.reqBuf
  · rw [hf.chan]; exact h.chanNe
  · rw [hf.sendBuf]; exact h.bufOk
  · rw [hf.req]; exact h.reqRank
  · intro r q h3 h4
    rw [hf.pc] at h3
    have hr : r ≠ x := fun hc => h1 (hc ▸ h3)
    rw [hf.toSend r q hr] at h4
    rw [hf.sendBuf]
    exact h.headOk r q h3 h4
  · rw [hf.pc]; exact h.recvOk
  · intro r h3
    rw [hf.pc] at h3
    have hr : r ≠ x := fun hc => h2 (hc ▸ h3)
    rw [hf.solveCount, hf.sendBuf, hf.recvCount]
    have := h.doneOk r h3
    exact ⟨this.1, this.2.1, fun q => by rw [hf.toSend r q hr]; exact this.2.2.1 q, this.2.2.2⟩

theorem toSend_others {G : Grid K R} (hG : WF G) {s : State R} {x : Nat} {pend : List (Data R)}
    (h : Inv G s x pend) {r q : Nat} (hne : s.toSend r q ≠ []) :
    r < G.numRanks ∧ q ∈ others G.numRanks r := by
  obtain ⟨d, hd⟩ := List.exists_mem_of_ne_nil _ hne
  have := h.queueOk r q d (by unfold queue; exact List.mem_append_right _ hd)
  refine ⟨this.1, mem_others.2 ⟨?_, this.2.1.symm⟩⟩
  rw [← this.2.2.2.1]
  exact hG.rank_lt _ (mem_act.1 this.2.2.1).1

/-! #### Sending -/

theorem trySendAll_queue (n r : Nat) (completed : Nat → Bool) (s : State R) (q' r' : Nat) :
    queue (trySendAll n r completed s) q' r' = queue s q' r' := by
  set u := updatePending n r completed s with hu
  have hun : ∀ q, posts n r u q = true → u.sendBuf r q = [] ∧ u.toSend r q ≠ [] := by
    intro q hp
    unfold posts at hp
    simp only [Bool.and_eq_true, decide_eq_true_eq, Bool.not_eq_true', List.isEmpty_eq_false_iff] at hp
    obtain ⟨⟨h1, h2⟩, h3⟩ := hp
    refine ⟨?_, h2⟩
    have e1 : u.req r q = (s.req r q && !completed q) := by
      rw [hu]; unfold updatePending; simp [h1]
    have e2 : u.sendBuf r q = if (s.req r q && !completed q) = true then s.sendBuf r q else [] := by
      rw [hu]; unfold updatePending; simp [h1]
    rw [e2, ← e1, h3]; rfl
  show queue (postSends n r u) q' r' = _
  unfold queue
  show (if q' = r ∧ posts n r u r' = true then u.chan q' r' ++ [u.sendBuf r r' ++ u.toSend r r'] else u.chan q' r').flatten ++
    (if q' = r ∧ posts n r u r' = true then [] else u.toSend q' r') = (u.chan q' r').flatten ++ u.toSend q' r'
  by_cases hc : q' = r ∧ posts n r u r' = true
  · rw [if_pos hc, if_pos hc, (hun r' hc.2).1, hc.1]
    simp
  · rw [if_neg hc, if_neg hc]

/-- What `try_send_all` leaves behind, per target rank. -/
theorem trySendAll_spec (n r : Nat) (completed : Nat → Bool) (s : State R)
    (hrb : ∀ q, s.req r q = true ↔ s.sendBuf r q ≠ []) {q : Nat} (hq : q ∈ others n r) :
    let s' := trySendAll n r completed s
    (s'.req r q = true ↔ s'.sendBuf r q ≠ []) ∧ (s'.toSend r q ≠ [] → s'.sendBuf r q ≠ []) := by
  set u := updatePending n r completed s with hu
  have e1 : u.req r q = (s.req r q && !completed q) := by
    rw [hu]; unfold updatePending; simp [hq]
  have e2 : u.sendBuf r q = if (s.req r q && !completed q) = true then s.sendBuf r q else [] := by
    rw [hu]; unfold updatePending; simp [hq]
  have hub : u.req r q = true ↔ u.sendBuf r q ≠ [] := by
    rw [e2, ← e1]
    by_cases hk : u.req r q = true
    · rw [if_pos hk]
      rw [e1] at hk
      simp only [Bool.and_eq_true] at hk
      have := (hrb q).1 hk.1
      rw [e1]
      simp [hk.1, this, hk.2]
    · rw [if_neg hk]; simp [hk]
  have f1 : (trySendAll n r completed s).req r q = if posts n r u q = true then true else u.req r q := by
    show (if r = r ∧ posts n r u q = true then true else u.req r q) = _
    simp
  have f2 : (trySendAll n r completed s).sendBuf r q = if posts n r u q = true then
      u.sendBuf r q ++ u.toSend r q else u.sendBuf r q := by
    show (if r = r ∧ posts n r u q = true then u.sendBuf r q ++ u.toSend r q else u.sendBuf r q) = _
    simp
  have f3 : (trySendAll n r completed s).toSend r q = if posts n r u q = true then [] else u.toSend r q := by
    show (if r = r ∧ posts n r u q = true then [] else u.toSend r q) = _
    simp
  simp only
  rw [f1, f2, f3]
  by_cases hp : posts n r u q = true
  · have hne : u.toSend r q ≠ [] := by
      unfold posts at hp
      simp only [Bool.and_eq_true, decide_eq_true_eq, Bool.not_eq_true', List.isEmpty_eq_false_iff] at hp
      exact hp.1.2
    simp [hp, hne]
  · simp only [hp, if_false, Bool.false_eq_true]
    refine ⟨hub, fun hne => ?_⟩
    rw [← hub]
    by_contra hreq
    apply hp
    unfold posts
    simp only [Bool.and_eq_true, decide_eq_true_eq, Bool.not_eq_true', List.isEmpty_eq_false_iff]
    exact ⟨⟨hq, hne⟩, by simpa using hreq⟩

theorem trySendAll_other (n r : Nat) (completed : Nat → Bool) (s : State R) {r' q : Nat}
    (h : ¬ (r' = r ∧ q ∈ others n r)) :
    let s' := trySendAll n r completed s
    s'.req r' q = s.req r' q ∧ s'.sendBuf r' q = s.sendBuf r' q ∧ s'.toSend r' q = s.toSend r' q ∧
      s'.chan r' q = s.chan r' q := by
  set u := updatePending n r completed s with hu
  have hnp : ¬ (r' = r ∧ posts n r u q = true) := by
    rintro ⟨h1, h2⟩
    unfold posts at h2
    simp only [Bool.and_eq_true, decide_eq_true_eq] at h2
    exact h ⟨h1, h2.1.1⟩
  refine ⟨?_, ?_, ?_, ?_⟩
  · show (if r' = r ∧ posts n r u q = true then true else u.req r' q) = _
    rw [if_neg hnp]
    show (if r' = r ∧ q ∈ others n r then _ else s.req r' q) = _
    rw [if_neg h]
  · show (if r' = r ∧ posts n r u q = true then _ else u.sendBuf r' q) = _
    rw [if_neg hnp]
    show (if r' = r ∧ q ∈ others n r then _ else s.sendBuf r' q) = _
    rw [if_neg h]
  · show (if r' = r ∧ posts n r u q = true then [] else u.toSend r' q) = _
    rw [if_neg hnp]; rfl
  · show (if r' = r ∧ posts n r u q = true then _ else u.chan r' q) = _
    rw [if_neg hnp]; rfl

theorem Good.send {G : Grid K R} (hG : WF G) {s : State R} (h : Good G s) {r : Nat}
    (hr : r < G.numRanks) (completed : Nat → Bool) (hpc : s.pc r = .send) :
    Good G (Sweep.setPc (trySendAll G.numRanks r completed s) r .head) := by
  set s' := trySendAll G.numRanks r completed s with hs'
  have hinv : Inv G s' 0 [] :=
    h.inv.congr rfl rfl rfl rfl rfl (fun q r' => trySendAll_queue _ _ _ _ _ _)
  have hspec : ∀ r' q, (s'.req r' q = true ↔ s'.sendBuf r' q ≠ []) ∧
      (s'.sendBuf r' q ≠ [] → q ∈ others G.numRanks r') := by
    intro r' q
    by_cases hc : r' = r ∧ q ∈ others G.numRanks r
    · obtain ⟨rfl, hq⟩ := hc
      exact ⟨(trySendAll_spec G.numRanks r' completed s (h.comm.reqBuf r') hq).1, fun _ => hq⟩
    · have := trySendAll_other G.numRanks r completed s hc
      rw [this.1, this.2.1]
      exact ⟨h.comm.reqBuf r' q, h.comm.bufOk r' q⟩
  have hother : ∀ r' q, r' ≠ r → s'.sendBuf r' q = s.sendBuf r' q ∧ s'.toSend r' q = s.toSend r' q := by
    intro r' q hne
    have := trySendAll_other G.numRanks r completed s (r' := r') (q := q) (fun hc => hne hc.1)
    exact ⟨this.2.1, this.2.2.1⟩
  have hheadr : ∀ q, s'.toSend r q ≠ [] → s'.sendBuf r q ≠ [] := by
    intro q hne
    have hq := (toSend_others hG hinv hne).2
    exact (trySendAll_spec G.numRanks r completed s (h.comm.reqBuf r) hq).2 hne
  have hgood : Good G s' := by
    refine ⟨hinv, fun r' q => (hspec r' q).1, ?_, fun r' q => (hspec r' q).2, ?_, ?_,
      h.comm.recvOk, ?_⟩
    · intro q r' m hm
      by_cases hc : q = r ∧ r' ∈ others G.numRanks r
      · set u := updatePending G.numRanks r completed s
        have : m ∈ (if q = r ∧ posts G.numRanks r u r' = true then
            u.chan q r' ++ [u.sendBuf r r' ++ u.toSend r r'] else u.chan q r') := hm
        split at this
        · rename_i hp
          rcases List.mem_append.1 this with h1 | h1
          · exact h.comm.chanNe q r' m h1
          · rw [List.mem_singleton] at h1
            have hne : u.toSend r r' ≠ [] := by
              have := hp.2
              unfold posts at this
              simp only [Bool.and_eq_true, decide_eq_true_eq, Bool.not_eq_true',
                List.isEmpty_eq_false_iff] at this
              exact this.1.2
            rw [h1]; simp [hne]
        · exact h.comm.chanNe q r' m this
      · rw [(trySendAll_other G.numRanks r completed s hc).2.2.2] at hm
        exact h.comm.chanNe q r' m hm
    · intro r' q hreq
      by_cases hrr : r' = r
      · rw [hrr]; exact hr
      · have := trySendAll_other G.numRanks r completed s (r' := r') (q := q) (fun hc => hrr hc.1)
        rw [this.1] at hreq
        exact h.comm.reqRank r' q hreq
    · intro r' q h1 h2
      by_cases hr : r' = r
      · rw [hr] at h2 ⊢; exact hheadr q h2
      · rw [(hother r' q hr).2] at h2
        rw [(hother r' q hr).1]
        exact h.comm.headOk r' q h1 h2
    · intro r' h1
      have hr : r' ≠ r := by
        rintro rfl
        have : s.pc r' = .done := h1
        rw [hpc] at this; exact absurd this (by simp)
      have := h.comm.doneOk r' h1
      exact ⟨this.1, fun q => by rw [(hother r' q hr).1]; exact this.2.1 q,
        fun q => by rw [(hother r' q hr).2]; exact this.2.2.1 q, this.2.2.2⟩
  exact hgood.setPc r .head (fun _ => hheadr) (fun _ hc => by simp at hc) (fun hc => by simp at hc)

/-! ### All steps -/

/-- Solving a task that is in the queue of a working rank. -/
theorem Good.solve [AddCommGroup R] [Module K R] {G : Grid K R} (hG : WF G) {s : State R}
    (h : Good G s) {r k : Nat} (hpc : s.pc r = .work k) {t : Task} (ht : t ∈ s.todo r) :
    ∃ s', solveTask G { s with todo := upd s.todo r ((s.todo r).erase t) } t = some s' ∧
      Good G s' ∧ s'.pc = s.pc ∧ s'.log = s.log ++ [t] := by
  obtain ⟨s', hs', hinv⟩ := h.inv.solve hG ht
  refine ⟨s', hs', ?_⟩
  obtain ⟨hact, hrank, hdir, hmiss, hlog⟩ := (h.inv.todoIff r t).1 ht
  have hcell := (mem_act.1 hact).1
  unfold solveTask at hs'
  simp only at hs'
  split at hs'
  · simp at hs'
  · rename_i c hc
    rw [foldlM_solveEntry G hG t hcell _ _ (fun e he => he), hrank] at hs'
    have hf := foldlM_deliver_frame _ hs'
    refine ⟨⟨hinv.any 0, ?_⟩, hf.pc, hf.log⟩
    refine Comm.frame ?_ hf (by show s.pc r ≠ _; rw [hpc]; simp) (by show s.pc r ≠ _; rw [hpc]; simp)
    refine ⟨h.comm.reqBuf, h.comm.chanNe, h.comm.bufOk, h.comm.reqRank, h.comm.headOk, h.comm.recvOk, ?_⟩
    intro r' h1
    have h1' : s.pc r' = .done := h1
    have hr : r' ≠ r := by rintro rfl; rw [hpc] at h1'; simp at h1'
    have := h.comm.doneOk r' h1'
    refine ⟨fun d hd => ?_, this.2⟩
    show upd2 s.solveCount r t.dir c r' d = 0
    unfold upd2
    rw [if_neg (fun hc => hr hc.1)]
    exact this.1 d hd

/-- Receiving a message on a rank that polls. -/
theorem Good.receive [AddCommGroup R] {G : Grid K R} {s : State R} (h : Good G s) {r q : Nat}
    {qs : List Nat} (hr : r < G.numRanks) (hpc : s.pc r = .recv qs) {msg : List (Data R)}
    {rest : List (List (Data R))} (hc : s.chan q r = msg :: rest) :
    ∃ s', receiveMsg G s r q msg rest = some s' ∧ Good G s' ∧ s'.pc = s.pc ∧ s'.log = s.log := by
  have hmne : msg ≠ [] := h.comm.chanNe q r msg (by rw [hc]; exact List.mem_cons_self ..)
  obtain ⟨s', hs', hinv⟩ := h.inv.receive hr hc hmne
  refine ⟨s', hs', ?_⟩
  unfold receiveMsg at hs'
  split at hs'
  · simp at hs'
  · have hrk : ∀ d ∈ msg, d.id.rank = r := fun d hd =>
      (h.inv.queueOk q r d (by unfold queue; rw [hc]; simp [hd])).2.2.2.1
    rw [foldlM_receiveData G r msg hrk] at hs'
    have hf := foldlM_deliver_frame _ hs'
    refine ⟨⟨hinv.any 0, ?_⟩, hf.pc, hf.log⟩
    refine Comm.frame ?_ hf (by show s.pc r ≠ _; rw [hpc]; simp) (by show s.pc r ≠ _; rw [hpc]; simp)
    refine ⟨h.comm.reqBuf, ?_, h.comm.bufOk, h.comm.reqRank, h.comm.headOk, h.comm.recvOk, ?_⟩
    · intro q' r' m hm
      have hm' : m ∈ upd2 s.chan q r rest q' r' := hm
      unfold upd2 at hm'
      split at hm'
      · exact h.comm.chanNe q r m (by rw [hc]; exact List.mem_cons_of_mem _ hm')
      · exact h.comm.chanNe q' r' m hm'
    · intro r' h1
      have h1' : s.pc r' = .done := h1
      have hne : r' ≠ r := by rintro rfl; rw [hpc] at h1'; simp at h1'
      have := h.comm.doneOk r' h1'
      refine ⟨this.1, this.2.1, this.2.2.1, fun q' hq' => ?_⟩
      show upd2 s.recvCount r q _ r' q' = 0
      unfold upd2
      rw [if_neg (fun hc => hne hc.1)]
      exact this.2.2.2 q' hq'

theorem Good.step [AddCommGroup R] [Module K R] {G : Grid K R} (hG : WF G) {s s' : State R}
    (h : Good G s) {r : Nat} {a : Act} (hs : Step G r a s s') : Good G s' := by
  cases hs with
  | exit _ _ hr hpc hcond =>
    have hn := not_loopCond hcond
    have hbuf : ∀ q, s.sendBuf r q = [] := by
      intro q
      by_contra hne
      exact hne (hn.2.1 q (h.comm.bufOk r q hne))
    refine h.setPc r .done (fun hc => by simp at hc) (fun _ hc => by simp at hc) (fun _ => ?_)
    refine ⟨hn.1, hbuf, fun q => ?_, hn.2.2⟩
    by_contra hne
    exact h.comm.headOk r q hpc hne (hbuf q)
  | enterRecv _ _ hr hpc hcond htodo =>
    refine h.setPc r _ (fun hc => by simp at hc) (fun qs hc => ?_) (fun hc => by simp at hc)
    rw [PC.recv.injEq] at hc
    rw [← hc]
    exact fun q hq => hq
  | enterWork _ _ hr hpc hcond htodo =>
    exact h.setPc r _ (fun hc => by simp at hc) (fun qs hc => by simp at hc) (fun hc => by simp at hc)
  | skip _ _ q qs hr hpc h0 =>
    refine h.setPc r _ (fun hc => by simp at hc) (fun qs' hc => ?_) (fun hc => by simp at hc)
    rw [PC.recv.injEq] at hc
    rw [← hc]
    exact fun q' hq' => h.comm.recvOk r _ hpc q' (List.mem_cons_of_mem _ hq')
  | probe _ _ q qs hr hpc h0 =>
    refine h.setPc r _ (fun hc => by simp at hc) (fun qs' hc => ?_) (fun hc => by simp at hc)
    rw [PC.recv.injEq] at hc
    rw [← hc]
    exact fun q' hq' => h.comm.recvOk r _ hpc q' (List.mem_cons_of_mem _ hq')
  | take _ s1 _ q qs msg rest hr hpc h0 hc hrecv =>
    obtain ⟨s2, h1, h2, h3, _⟩ := h.receive hr hpc hc
    rw [hrecv, Option.some.injEq] at h1
    subst h1
    refine h2.setPc r _ (fun hc => by simp at hc) (fun qs' hc => ?_) (fun hc => by simp at hc)
    rw [PC.recv.injEq] at hc
    rw [← hc]
    exact fun q' hq' => h.comm.recvOk r _ hpc q' (List.mem_cons_of_mem _ hq')
  | recvDone _ _ hr hpc =>
    exact h.setPc r _ (fun hc => by simp at hc) (fun qs hc => by simp at hc) (fun hc => by simp at hc)
  | pop _ s1 _ k t hr hpc ht hsolve =>
    obtain ⟨s2, h1, h2, h3, _⟩ := h.solve hG hpc ht
    rw [hsolve, Option.some.injEq] at h1
    subst h1
    by_cases hb : k + 1 > G.batch
    · rw [if_pos hb]
      exact h2.setPc r _ (fun hc => by simp at hc) (fun qs hc => by simp at hc) (fun hc => by simp at hc)
    · rw [if_neg hb]
      exact h2.setPc r _ (fun hc => by simp at hc) (fun qs hc => by simp at hc) (fun hc => by simp at hc)
  | workDone _ _ k hr hpc htodo =>
    exact h.setPc r _ (fun hc => by simp at hc) (fun qs hc => by simp at hc) (fun hc => by simp at hc)
  | send _ _ completed hr hpc => exact h.send hG hr completed hpc

theorem Good.reach [AddCommGroup R] [Module K R] {G : Grid K R} (hG : WF G) {s0 s : State R}
    (h0 : Good G s0) (hs : Reach G s0 s) : Good G s := by
  induction hs with
  | refl => exact h0
  | step s s' r a _ hstep ih => exact ih.step hG hstep

theorem Good.init [IsStrictOrderedRing K] {G : Grid K R} (hG : WF G) (miss : Id → Nat → Nat)
    (inc out per : Id → Nat → R) : Good G (initState G miss inc out per) :=
  ⟨Inv.init hG miss inc out per, Comm.init G miss inc out per⟩

end Verif.Sweep
