import Verif.Sweep.Potential

/-!
# The distributed sweep: fair executions terminate
-/

namespace Verif.Sweep

variable {K R : Type} [Field K] [LinearOrder K] [AddCommGroup R] [Module K R]

theorem eventually_const (f : Nat → Nat) (h : ∀ n, f (n + 1) ≤ f n) :
    ∃ n0, ∀ n ≥ n0, f n = f n0 := by
  have hmono : ∀ n m, n ≤ m → f m ≤ f n := by
    intro n m hnm
    induction m, hnm using Nat.le_induction with
    | base => exact le_rfl
    | succ m _ ih => exact (h m).trans ih
  have : ∃ v, ∃ n, f n = v := ⟨f 0, 0, rfl⟩
  classical
  obtain ⟨n0, hn0⟩ := Nat.find_spec this
  refine ⟨n0, fun n hn => le_antisymm (hmono n0 n hn) ?_⟩
  rw [hn0]
  exact Nat.find_min' this ⟨n, rfl⟩

/-- Only the stepping rank's program counter changes. -/
theorem step_pc {G : Grid K R} (hG : WF G) {s s' : State R} {r r' : Nat} {a : Act} (h : Good G s)
    (hs : Step G r' a s s') (hne : r ≠ r') : s'.pc r = s.pc r := by
  have hset : ∀ (u : State R) p, u.pc = s.pc → (setPc u r' p).pc r = s.pc r := by
    intro u p hu
    show upd u.pc r' p r = _
    unfold upd
    rw [if_neg hne, hu]
  cases hs with
  | exit _ _ hr hpc hcond => exact hset s _ rfl
  | enterRecv _ _ hr hpc hcond htodo => exact hset s _ rfl
  | enterWork _ _ hr hpc hcond htodo => exact hset s _ rfl
  | skip _ _ q qs hr hpc h0 => exact hset s _ rfl
  | probe _ _ q qs hr hpc h0 => exact hset s _ rfl
  | recvDone _ _ hr hpc => exact hset s _ rfl
  | workDone _ _ k hr hpc htodo => exact hset s _ rfl
  | take _ s1 _ q qs msg rest hr hpc h0 hc hrecv =>
    obtain ⟨s2, h1, h2, h3, _⟩ := h.receive hr hpc hc
    rw [hrecv, Option.some.injEq] at h1
    exact hset s1 _ (by rw [h1]; exact h3)
  | pop _ s1 _ k t hr hpc ht hsolve =>
    obtain ⟨s2, h1, h2, h3, _⟩ := h.solve hG hpc ht
    rw [hsolve, Option.some.injEq] at h1
    exact hset s1 _ (by rw [h1]; exact h3)
  | send _ _ completed hr hpc => exact hset _ _ rfl

/-- The moves of a rank that only polls. -/
theorem quiet_step {G : Grid K R} {s s' : State R} {r : Nat} {a : Act} (hs : Step G r a s s')
    (hexit : a ≠ .exit) (hpop : ∀ t, a ≠ .pop t) (htake : ∀ q, a ≠ .take q) :
    (s.pc r = .head ∧ loopCond G s r ∧ ((a = .enterRecv ∧ s'.pc r = .recv (others G.numRanks r)) ∨
      (a = .enterWork ∧ s.todo r ≠ 0 ∧ s'.pc r = .work 0))) ∨
    (∃ q qs, s.pc r = .recv (q :: qs) ∧ s'.pc r = .recv qs ∧
      ((a = .skip ∧ s.recvCount r q = 0) ∨ a = .probe q)) ∨
    (s.pc r = .recv [] ∧ s'.pc r = .work 0) ∨
    (∃ k, s.pc r = .work k ∧ a = .workDone ∧ s.todo r = 0 ∧ s'.pc r = .send) ∨
    (∃ c, s.pc r = .send ∧ a = .send c ∧ s'.pc r = .head) := by
  have hset : ∀ (u : State R) p, (setPc u r p).pc r = p := by
    intro u p
    show upd u.pc r p r = _
    unfold upd
    rw [if_pos rfl]
  cases hs with
  | exit _ _ hr hpc hcond => exact absurd rfl hexit
  | enterRecv _ _ hr hpc hcond htodo => exact Or.inl ⟨hpc, hcond, Or.inl ⟨rfl, hset _ _⟩⟩
  | enterWork _ _ hr hpc hcond htodo => exact Or.inl ⟨hpc, hcond, Or.inr ⟨rfl, htodo, hset _ _⟩⟩
  | skip _ _ q qs hr hpc h0 => exact Or.inr (Or.inl ⟨q, qs, hpc, hset _ _, Or.inl ⟨rfl, h0⟩⟩)
  | probe _ _ q qs hr hpc h0 => exact Or.inr (Or.inl ⟨q, qs, hpc, hset _ _, Or.inr rfl⟩)
  | recvDone _ _ hr hpc => exact Or.inr (Or.inr (Or.inl ⟨hpc, hset _ _⟩))
  | workDone _ _ k hr hpc htodo =>
    exact Or.inr (Or.inr (Or.inr (Or.inl ⟨k, hpc, rfl, htodo, hset _ _⟩)))
  | take _ s1 _ q qs msg rest hr hpc h0 hc hrecv => exact absurd rfl (htake q)
  | pop _ s1 _ k t hr hpc ht hsolve => exact absurd rfl (hpop t)
  | send _ _ completed hr hpc =>
    exact Or.inr (Or.inr (Or.inr (Or.inr ⟨completed, hpc, rfl, hset _ _⟩)))

/-- Distance from the inner loop. -/
def dist (n r : Nat) : PC → Nat
  | .work _ => 0
  | .done => 0
  | .recv qs => 1 + qs.length
  | .head => 2 + (others n r).length
  | .send => 3 + (others n r).length

omit [AddCommGroup R] [Module K R] in
theorem sameData_loopCond {G : Grid K R} {s s' : State R} (h : SameData s s') (r : Nat) :
    loopCond G s' r ↔ loopCond G s r := by
  unfold SameData at h
  rw [h]; rfl

theorem fair_terminates [IsStrictOrderedRing K] {G : Grid K R} (hG : WF G) (hac : Acyclic G)
    {s0 : State R} (h0 : Good G s0) (E : Execution G s0) (hE : E.Fair) :
    ∃ n, ∀ r < G.numRanks, (E.st n).pc r = .done := by
  have hgood : ∀ n, Good G (E.st n) := by
    intro n
    induction n with
    | zero => rw [E.start]; exact h0
    | succ n ih =>
      cases hl : E.lab n with
      | none => rw [E.idle n hl]; exact ih
      | some ra => exact ih.step hG (E.move n ra.1 ra.2 hl)
  obtain ⟨n0, hconst⟩ := eventually_const (fun n => pot G (E.st n)) (by
    intro n
    cases hl : E.lab n with
    | none => rw [E.idle n hl]
    | some ra => exact (pot_step hG (hgood n) (E.move n ra.1 ra.2 hl)).1)
  have hquiet : ∀ n ≥ n0, ∀ r a, E.lab n = some (r, a) → SameData (E.st n) (E.st (n + 1)) ∧
      a ≠ .exit ∧ (∀ t, a ≠ .pop t) ∧ (∀ q, a ≠ .take q) ∧
      ∀ c, a = .send c → ∀ q ∈ others G.numRanks r, ((E.st n).req r q = true → c q = false) ∧
        ((E.st n).req r q = false → (E.st n).toSend r q = []) := by
    intro n hn r a hl
    refine (pot_step hG (hgood n) (E.move n r a hl)).2 ?_
    have h1 := hconst n hn
    have h2 := hconst (n + 1) (by omega)
    exact h2.trans h1.symm
  have hsame : ∀ n ≥ n0, SameData (E.st n0) (E.st n) := by
    intro n hn
    induction n, hn using Nat.le_induction with
    | base => rfl
    | succ n hn ih =>
      cases hl : E.lab n with
      | none => rw [E.idle n hl]; exact ih
      | some ra => exact ih.trans (hquiet n hn ra.1 ra.2 hl).1
  -- ranks not done at `n0` never finish
  have hlive : ∀ r, (E.st n0).pc r ≠ .done → ∀ n ≥ n0, (E.st n).pc r ≠ .done := by
    intro r hr n hn
    induction n, hn using Nat.le_induction with
    | base => exact hr
    | succ n hn ih =>
      cases hl : E.lab n with
      | none => rw [E.idle n hl]; exact ih
      | some ra =>
        obtain ⟨r', a⟩ := ra
        have hstep := E.move n r' a hl
        by_cases hrr : r = r'
        · subst hrr
          have hq := hquiet n hn r a hl
          rcases quiet_step hstep hq.2.1 hq.2.2.1 hq.2.2.2.1 with
            ⟨_, _, ⟨_, h⟩ | ⟨_, _, h⟩⟩ | ⟨_, _, _, h, _⟩ | ⟨_, h⟩ | ⟨_, _, _, _, h⟩ | ⟨_, _, _, h⟩ <;>
            rw [h] <;> simp
        · rw [step_pc hG (hgood n) hstep hrr]; exact ih
  -- the next step of a rank
  have hnext : ∀ r < G.numRanks, (E.st n0).pc r ≠ .done → ∀ n ≥ n0, ∃ m ≥ n, ∃ a,
      E.lab m = some (r, a) ∧ (E.st m).pc r = (E.st n).pc r := by
    intro r hr hnd n hn
    have hex : ∃ k, ∃ a, E.lab (n + k) = some (r, a) := by
      obtain ⟨m, hm, a, ha⟩ := hE.ranks r hr n (hlive r hnd n hn)
      exact ⟨m - n, a, by rw [show n + (m - n) = m by omega]; exact ha⟩
    classical
    obtain ⟨a, ha⟩ := Nat.find_spec hex
    refine ⟨n + Nat.find hex, by omega, a, ha, ?_⟩
    have : ∀ j, j ≤ Nat.find hex → (E.st (n + j)).pc r = (E.st n).pc r := by
      intro j hj
      induction j with
      | zero => rfl
      | succ j ih =>
        have hprev := ih (by omega)
        cases hl : E.lab (n + j) with
        | none => rw [show n + (j + 1) = n + j + 1 by omega, E.idle _ hl]; exact hprev
        | some ra =>
          obtain ⟨r', a'⟩ := ra
          have hne : r ≠ r' := by
            rintro rfl
            exact Nat.find_min hex (by omega) ⟨a', hl⟩
          rw [show n + (j + 1) = n + j + 1 by omega, step_pc hG (hgood _) (E.move _ _ _ hl) hne]
          exact hprev
    exact this _ le_rfl
  -- every live rank reaches the end of its inner loop again and again
  have hwork : ∀ r < G.numRanks, (E.st n0).pc r ≠ .done → ∀ n ≥ n0, ∃ m ≥ n, ∃ k,
      E.lab m = some (r, .workDone) ∧ (E.st m).pc r = .work k ∧ (E.st m).todo r = 0 ∧
      (E.st (m + 1)).pc r = .send := by
    intro r hr hnd
    have key : ∀ d, ∀ n ≥ n0, dist G.numRanks r ((E.st n).pc r) = d → ∃ m ≥ n, ∃ k,
        E.lab m = some (r, .workDone) ∧ (E.st m).pc r = .work k ∧ (E.st m).todo r = 0 ∧
        (E.st (m + 1)).pc r = .send := by
      intro d
      induction d using Nat.strong_induction_on with
      | _ d ih =>
        intro n hn hd
        obtain ⟨m, hm, a, ha, hpc⟩ := hnext r hr hnd n hn
        have hmn : m ≥ n0 := le_trans hn hm
        have hq := hquiet m hmn r a ha
        have hgo : dist G.numRanks r ((E.st (m + 1)).pc r) < d → ∃ m' ≥ n, ∃ k,
            E.lab m' = some (r, .workDone) ∧ (E.st m').pc r = .work k ∧ (E.st m').todo r = 0 ∧
            (E.st (m' + 1)).pc r = .send := by
          intro hlt
          obtain ⟨m', hm', k, h1, h2, h3, h4⟩ := ih _ hlt (m + 1) (by omega) rfl
          exact ⟨m', by omega, k, h1, h2, h3, h4⟩
        rw [← hpc] at hd
        rcases quiet_step (E.move m r a ha) hq.2.1 hq.2.2.1 hq.2.2.2.1 with
          ⟨h1, _, ⟨_, h⟩ | ⟨_, _, h⟩⟩ | ⟨q, qs, h1, h, _⟩ | ⟨h1, h⟩ | ⟨k, h1, h2, h3, h⟩ |
          ⟨_, h1, _, h⟩
        · apply hgo; rw [h, ← hd, h1]; simp only [dist]; omega
        · apply hgo; rw [h, ← hd, h1]; simp only [dist]; omega
        · apply hgo; rw [h, ← hd, h1]; simp only [dist, List.length_cons]; omega
        · apply hgo; rw [h, ← hd, h1]; simp only [dist]; omega
        · exact ⟨m, hm, k, by rw [ha, h2], h1, h3, h⟩
        · apply hgo; rw [h, ← hd, h1]; simp only [dist]; omega
    intro n hn
    exact key _ n hn rfl
  -- hence their queues are empty
  have htodo : ∀ r < G.numRanks, (E.st n0).pc r ≠ .done → (E.st n0).todo r = 0 := by
    intro r hr hnd
    obtain ⟨m, hm, k, _, _, h3, _⟩ := hwork r hr hnd n0 le_rfl
    have := hsame m hm
    unfold SameData at this
    rw [this] at h3
    exact h3
  -- they call `try_send_all` again and again
  have hsend : ∀ r < G.numRanks, (E.st n0).pc r ≠ .done → ∀ n ≥ n0, ∃ m ≥ n, ∃ c,
      E.lab m = some (r, .send c) ∧ (E.st (m + 1)).pc r = .head := by
    intro r hr hnd n hn
    obtain ⟨m, hm, k, _, _, _, h4⟩ := hwork r hr hnd n hn
    obtain ⟨m', hm', a, ha, hpc⟩ := hnext r hr hnd (m + 1) (by omega)
    rw [h4] at hpc
    have hq := hquiet m' (by omega) r a ha
    rcases quiet_step (E.move m' r a ha) hq.2.1 hq.2.2.1 hq.2.2.2.1 with
      ⟨h1, _⟩ | ⟨q, qs, h1, _⟩ | ⟨h1, _⟩ | ⟨k, h1, _⟩ | ⟨c, h1, h2, h⟩
    · rw [h1] at hpc; simp at hpc
    · rw [h1] at hpc; simp at hpc
    · rw [h1] at hpc; simp at hpc
    · rw [h1] at hpc; simp at hpc
    · exact ⟨m', by omega, c, by rw [ha, h2], h⟩
  -- and then poll all other ranks
  have hpoll : ∀ r < G.numRanks, (E.st n0).pc r ≠ .done → loopCond G (E.st n0) r ∧
      ∀ n ≥ n0, ∃ m ≥ n, (E.st m).pc r = .recv (others G.numRanks r) := by
    intro r hr hnd
    have key : ∀ n ≥ n0, loopCond G (E.st n0) r ∧
        ∃ m ≥ n, (E.st m).pc r = .recv (others G.numRanks r) := by
      intro n hn
      obtain ⟨m, hm, c, _, h2⟩ := hsend r hr hnd n hn
      obtain ⟨m', hm', a, ha, hpc⟩ := hnext r hr hnd (m + 1) (by omega)
      rw [h2] at hpc
      have hq := hquiet m' (by omega) r a ha
      have hsm := hsame m' (by omega)
      rcases quiet_step (E.move m' r a ha) hq.2.1 hq.2.2.1 hq.2.2.2.1 with
        ⟨h1, hcond, hh⟩ | ⟨q, qs, h1, _⟩ | ⟨h1, _⟩ | ⟨k, h1, _⟩ | ⟨c, h1, _⟩
      · refine ⟨(sameData_loopCond hsm r).1 hcond, ?_⟩
        rcases hh with ⟨_, h⟩ | ⟨_, hne, _⟩
        · exact ⟨m' + 1, by omega, h⟩
        · exfalso
          unfold SameData at hsm
          rw [hsm] at hne
          exact hne (htodo r hr hnd)
      · rw [h1] at hpc; simp at hpc
      · rw [h1] at hpc; simp at hpc
      · rw [h1] at hpc; simp at hpc
      · rw [h1] at hpc; simp at hpc
    exact ⟨(key n0 le_rfl).1, fun n hn => (key n hn).2⟩
  have hwalk : ∀ r < G.numRanks, (E.st n0).pc r ≠ .done → ∀ q qs, q ∈ qs → ∀ n ≥ n0,
      (E.st n).pc r = .recv qs → ∃ m ≥ n, ∃ a qs', E.lab m = some (r, a) ∧
        (E.st m).pc r = .recv (q :: qs') ∧ (((a = .skip ∧ (E.st m).recvCount r q = 0) ∨ a = .probe q)) := by
    intro r hr hnd q qs
    induction qs with
    | nil => intro hq; exact absurd hq (List.not_mem_nil)
    | cons q0 qs ih =>
      intro hq n hn hpc0
      obtain ⟨m, hm, a, ha, hpc⟩ := hnext r hr hnd n hn
      rw [hpc0] at hpc
      have hqt := hquiet m (by omega) r a ha
      rcases quiet_step (E.move m r a ha) hqt.2.1 hqt.2.2.1 hqt.2.2.2.1 with
        ⟨h1, _⟩ | ⟨q', qs', h1, h2, h3⟩ | ⟨h1, _⟩ | ⟨k, h1, _⟩ | ⟨c, h1, _⟩
      · rw [h1] at hpc; simp at hpc
      · rw [h1] at hpc
        simp only [PC.recv.injEq, List.cons.injEq] at hpc
        obtain ⟨rfl, rfl⟩ := hpc
        rcases List.mem_cons.1 hq with hqq | hqq
        · subst hqq
          exact ⟨m, hm, a, qs', ha, h1, h3⟩
        · obtain ⟨m', hm', rest⟩ := ih hqq (m + 1) (by omega) h2
          exact ⟨m', by omega, rest⟩
      · rw [h1] at hpc; simp at hpc
      · rw [h1] at hpc; simp at hpc
      · rw [h1] at hpc; simp at hpc
  have hg0 := hgood n0
  -- channels are empty
  have hchan : ∀ q r, (E.st n0).chan q r = [] := by
    intro q r
    by_contra hne
    obtain ⟨msg, hmsg⟩ := List.exists_mem_of_ne_nil _ hne
    have hmne := hg0.comm.chanNe q r msg hmsg
    obtain ⟨d, hd⟩ := List.exists_mem_of_ne_nil _ hmne
    have hdq : d ∈ queue (E.st n0) q r := by
      unfold queue
      exact List.mem_append_left _ (List.mem_flatten.2 ⟨msg, hmsg, hd⟩)
    have hok := hg0.inv.queueOk q r d hdq
    have hr : r < G.numRanks := by
      rw [← hok.2.2.2.1]; exact hG.rank_lt _ (mem_act.1 hok.2.2.1).1
    have hrecv := hg0.inv.recvEq r hr q hok.1 hok.2.1
    have hpos : 0 < (queue (E.st n0) q r).length := List.length_pos_of_mem hdq
    have hqo : q ∈ others G.numRanks r := mem_others.2 ⟨hok.1, hok.2.1⟩
    have hnd : (E.st n0).pc r ≠ .done := by
      intro hdone
      have := (hg0.comm.doneOk r hdone).2.2.2 q hqo
      omega
    have hinf : ∀ n, ∃ m ≥ n, E.lab m = some (r, .probe q) ∧ (E.st m).chan q r ≠ [] := by
      intro n
      obtain ⟨m, hm, hpc⟩ := (hpoll r hr hnd).2 (max n n0) (le_max_right _ _)
      have hm0 : m ≥ n0 := le_trans (le_max_right _ _) hm
      obtain ⟨m', hm', a, qs', ha, _, h3⟩ := hwalk r hr hnd q _ hqo m hm0 hpc
      have hsm := hsame m' (by omega)
      unfold SameData at hsm
      refine ⟨m', le_trans (le_trans (le_max_left _ _) hm) hm', ?_, ?_⟩
      · rcases h3 with ⟨_, hz⟩ | h3
        · exfalso
          rw [hsm] at hz
          have : (E.st n0).recvCount r q = 0 := hz
          omega
        · rw [ha, h3]
      · rw [hsm]; exact hne
    obtain ⟨m, hm, hl⟩ := hE.messages r q hinf n0
    exact (hquiet m hm r _ hl).2.2.2.1 q rfl
  -- no requests are pending
  have hreq : ∀ r q, (E.st n0).req r q = false := by
    intro r q
    by_contra hne
    have hreq : (E.st n0).req r q = true := by simpa using hne
    have hbuf := (hg0.comm.reqBuf r q).1 hreq
    have hqo := hg0.comm.bufOk r q hbuf
    have hnd : (E.st n0).pc r ≠ .done := fun hdone => hbuf ((hg0.comm.doneOk r hdone).2.1 q)
    by_cases hr : r < G.numRanks
    · have hinf : ∀ n, ∃ m ≥ n, ∃ c, E.lab m = some (r, .send c) ∧ (E.st m).req r q = true ∧
          (E.st m).chan r q = [] := by
        intro n
        obtain ⟨m, hm, c, hl, _⟩ := hsend r hr hnd (max n n0) (le_max_right _ _)
        have hm0 : m ≥ n0 := le_trans (le_max_right _ _) hm
        have hsm := hsame m hm0
        unfold SameData at hsm
        refine ⟨m, le_trans (le_max_left _ _) hm, c, hl, ?_, ?_⟩
        · rw [hsm]; exact hreq
        · rw [hsm]; exact hchan r q
      obtain ⟨m, hm, c, hl, hrq, hc⟩ := hE.requests r q hinf n0
      have := ((hquiet m hm r _ hl).2.2.2.2 c rfl q hqo).1 hrq
      rw [hc] at this; simp at this
    · -- ranks that do not exist never send
      exact absurd (hg0.comm.reqRank r q hreq) hr
  -- nothing waits to be sent
  have hts : ∀ r q, (E.st n0).toSend r q = [] := by
    intro r q
    by_contra hne
    obtain ⟨hr, hqo⟩ := toSend_others hG hg0.inv hne
    have hnd : (E.st n0).pc r ≠ .done := fun hdone => hne ((hg0.comm.doneOk r hdone).2.2.1 q)
    obtain ⟨m, hm, c, hl, _⟩ := hsend r hr hnd n0 le_rfl
    have hsm := hsame m hm
    unfold SameData at hsm
    have := ((hquiet m hm r _ hl).2.2.2.2 c rfl q hqo).2 (by rw [hsm]; exact hreq r q)
    rw [hsm] at this
    exact hne this
  have hqueue : ∀ q r, queue (E.st n0) q r = [] := by
    intro q r; unfold queue; rw [hchan, hts]; rfl
  -- everything is solved
  have hall : ∀ d < G.numDirs, ∀ k, ∀ v ∈ G.act, hac.choose d v = k →
      (⟨v, d⟩ : Task) ∈ (E.st n0).log := by
    intro d hd k
    induction k using Nat.strong_induction_on with
    | _ k ih =>
      intro v hv hk
      by_contra hnl
      have hrem : remMiss G (E.st n0).log v d = 0 := by
        unfold remMiss
        apply Finset.sum_eq_zero
        intro u hu
        by_cases hul : (⟨u, d⟩ : Task) ∈ (E.st n0).log
        · rw [if_pos hul]
        · rw [if_neg hul]
          by_contra hdc
          apply hul
          have hfeeds : Feeds G d u v := by
            unfold downCount at hdc
            have hpos := Nat.pos_of_ne_zero hdc
            rw [List.countP_pos_iff] at hpos
            obtain ⟨e, he, hcond⟩ := hpos
            simp only [Bool.and_eq_true, decide_eq_true_eq] at hcond
            refine ⟨e, he, hcond.1, ?_⟩
            cases hnb : e.2 <;> rw [hnb] at hcond <;> simp [Neighbour.target] at hcond
            · exact Or.inl (by rw [hcond.2])
            · exact Or.inr (by rw [hcond.2])
          have hlt := hac.choose_spec d hd u hu v hv hfeeds
          rw [hk] at hlt
          exact ih _ hlt u hu rfl
      have hinf : inflight G (E.st n0) v d = 0 := by
        unfold inflight; simp [hqueue]
      have hm := hg0.inv.missEq v hv d hd
      rw [hrem, hinf, List.countP_nil] at hm
      have hmem : (⟨v, d⟩ : Task) ∈ (E.st n0).todo v.rank :=
        (hg0.inv.todoIff v.rank ⟨v, d⟩).2 ⟨hv, rfl, hd, hm, hnl⟩
      have hvr := hG.rank_lt _ (mem_act.1 hv).1
      by_cases hnd : (E.st n0).pc v.rank = .done
      · have h1 := (hg0.comm.doneOk _ hnd).1 d hd
        rw [hg0.inv.solveEq _ d hd, Finset.card_eq_zero] at h1
        have : v ∈ ((G.act.filter (fun w => w.rank = v.rank)).filter
            (fun w => (⟨w, d⟩ : Task) ∉ (E.st n0).log)) :=
          Finset.mem_filter.2 ⟨Finset.mem_filter.2 ⟨hv, rfl⟩, hnl⟩
        rw [h1] at this
        exact absurd this (Finset.notMem_empty _)
      · rw [htodo _ hvr hnd] at hmem
        exact absurd hmem (Multiset.notMem_zero _)
  -- so no loop condition holds
  refine ⟨n0, fun r hr => ?_⟩
  by_contra hnd
  have hcond := (hpoll r hr hnd).1
  unfold loopCond at hcond
  rcases hcond with hcond | hcond | hcond
  · have : ∑ d ∈ Finset.range G.numDirs, (E.st n0).solveCount r d = 0 := by
      apply Finset.sum_eq_zero
      intro d hd
      have hd' := Finset.mem_range.1 hd
      rw [hg0.inv.solveEq r d hd', Finset.card_eq_zero, Finset.filter_eq_empty_iff]
      intro v hv
      rw [not_not]
      exact hall d hd' _ v (Finset.mem_filter.1 hv).1 rfl
    omega
  · have : ((others G.numRanks r).map (fun q => ((E.st n0).sendBuf r q).length)).sum = 0 := by
      apply List.sum_eq_zero
      intro a ha
      obtain ⟨q, _, rfl⟩ := List.mem_map.1 ha
      have : (E.st n0).sendBuf r q = [] := by
        by_contra hne
        have := (hg0.comm.reqBuf r q).2 hne
        rw [hreq] at this; simp at this
      rw [this]; rfl
    omega
  · have : ((others G.numRanks r).map (fun q => (E.st n0).recvCount r q)).sum = 0 := by
      apply List.sum_eq_zero
      intro a ha
      obtain ⟨q, hq, rfl⟩ := List.mem_map.1 ha
      have hq' := mem_others.1 hq
      rw [hg0.inv.recvEq r hr q hq'.1 hq'.2, hqueue]
      have : remRecv G (E.st n0).log r q = 0 := by
        unfold remRecv
        apply Finset.sum_eq_zero
        intro u hu
        apply Finset.sum_eq_zero
        intro d hd
        rw [if_pos (hall d (Finset.mem_range.1 hd) _ u (Finset.mem_filter.1 hu).1 rfl)]
      rw [this]; simp
    omega

end Verif.Sweep
