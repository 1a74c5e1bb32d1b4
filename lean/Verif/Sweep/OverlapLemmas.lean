import Verif.Sweep.OverlapStep

/-!
# All ranks in several sweeps as one state for every sweep
-/

namespace Verif.Sweep

variable {K R C : Type} [Field K] [LinearOrder K] [IsStrictOrderedRing K] [AddCommGroup R] [Module K R]

/-! ### Lists -/

theorem flatMap_range_succ {A : Type} (f : Nat → List A) (n : Nat) :
    (List.range (n + 1)).flatMap f = (List.range n).flatMap f ++ f n := by
  rw [List.range_succ, List.flatMap_append]
  simp

theorem flatMap_range_nil {A : Type} {f : Nat → List A} {n : Nat} (h : ∀ j < n, f j = []) :
    (List.range n).flatMap f = [] := by
  rw [List.flatMap_eq_nil_iff]
  intro j hj
  exact h j (List.mem_range.1 hj)

theorem flatMap_range_congr {A : Type} {f g : Nat → List A} {n : Nat} (h : ∀ j < n, f j = g j) :
    (List.range n).flatMap f = (List.range n).flatMap g := by
  induction n with
  | zero => rfl
  | succ n ih => rw [flatMap_range_succ, flatMap_range_succ, ih (fun j hj => h j (by omega)), h n (by omega)]

/-- If the first `k` lists are empty the others begin with list `k`. -/
theorem flatMap_range_split {A : Type} (f : Nat → List A) {k n : Nat} (h : ∀ j < k, f j = []) (hk : k < n) :
    (List.range n).flatMap f = f k ++ ((List.range (n - k - 1)).flatMap fun j => f (k + 1 + j)) := by
  obtain ⟨m, rfl⟩ : ∃ m, n = k + 1 + m := ⟨n - k - 1, by omega⟩
  rw [show k + 1 + m - k - 1 = m by omega]
  induction m with
  | zero => rw [Nat.add_zero, flatMap_range_succ, flatMap_range_nil h]; simp
  | succ m ih =>
    rw [← Nat.add_assoc, flatMap_range_succ, ih (by omega), flatMap_range_succ, List.append_assoc]

omit [IsStrictOrderedRing K] in
theorem Reach.run {G : Grid K R} {s0 s : State R} (h : Reach G s0 s) : ∃ acts, Run G s0 acts s := by
  induction h with
  | refl => exact ⟨[], .nil⟩
  | step s s' r a _ hs ih =>
    obtain ⟨acts, ih⟩ := ih
    exact ⟨_, .snoc _ _ _ _ _ ih hs⟩

omit [IsStrictOrderedRing K] in
/-- The kind of step determines the next state. -/
theorem step_det {G : Grid K R} {r : Nat} {a : Act} {s s1 s2 : State R} (h1 : Step G r a s s1) (h2 : Step G r a s s2) :
    s1 = s2 := by
  cases h1 with
  | exit _ _ hr hpc hcond => cases h2; rfl
  | enterRecv _ _ hr hpc hcond htodo => cases h2; rfl
  | enterWork _ _ hr hpc hcond htodo => cases h2; rfl
  | skip _ _ q qs hr hpc h0 =>
    cases h2 with
    | skip _ _ q' qs' hr' hpc' h0' =>
      rw [hpc, PC.recv.injEq, List.cons.injEq] at hpc'
      rw [hpc'.2]
  | probe _ _ q qs hr hpc h0 =>
    cases h2 with
    | probe _ _ q' qs' hr' hpc' h0' =>
      rw [hpc, PC.recv.injEq, List.cons.injEq] at hpc'
      rw [hpc'.2]
  | recvDone _ _ hr hpc => cases h2; rfl
  | workDone _ _ k hr hpc htodo => cases h2; rfl
  | take _ s1 _ q qs msg rest hr hpc h0 hc hrecv =>
    cases h2 with
    | take _ s2 _ _ qs' msg' rest' hr' hpc' h0' hc' hrecv' =>
      rw [hpc, PC.recv.injEq, List.cons.injEq] at hpc'
      rw [hc, List.cons.injEq] at hc'
      rw [← hc'.1, ← hc'.2, hrecv, Option.some.injEq] at hrecv'
      rw [hpc'.2, hrecv']
  | pop _ s1 _ k t hr hpc ht hsolve =>
    cases h2 with
    | pop _ s2 _ k' _ hr' hpc' ht' hsolve' =>
      rw [hpc, PC.work.injEq] at hpc'
      rw [hsolve, Option.some.injEq] at hsolve'
      rw [hpc', hsolve']
  | send _ _ completed hr hpc => cases h2; rfl

/-! ### The relation -/

/-- `O` as one state `S k` for every sweep `k`, which began with `π k`. -/
structure Rel (P : Sequence K R C) (π : Nat → Rates R C) (O : Overlap R C) (S : Nat → State R) : Prop where
  reach : ∀ k, Reach (P.grid k (π k).chem) (P.init k (π k)) (S k)
  past : ∀ r k, k < O.sweep r → (S k).pc r = .done
  now : ∀ r, Same r O.s (S (O.sweep r))
  chem : ∀ id, O.chem id = (π (O.sweep id.rank)).chem id
  future : ∀ r k, O.sweep r < k → Same r (P.init k (π k)) (S k)
  empty : ∀ r k y, O.sweep r < k → (S k).chan r y = []
  chan : ∀ x y, O.s.chan x y = (List.range (O.sweep x + 1)).flatMap fun k => (S k).chan x y
  outer : ∀ r, P.base.numRanks ≤ r → O.sweep r = 0
  outside : ∀ r k, P.base.numRanks ≤ r → Same r (P.init k (π k)) (S k)
  link : ∀ id k, k < O.sweep id.rank → (π (k + 1)).miss id = (S k).miss id ∧ (π (k + 1)).inc id = (S k).inc id ∧
    (π (k + 1)).out id = (S k).out id ∧ (π (k + 1)).per id = (S k).per id ∧
    (π (k + 1)).chem id = P.evolve k id.rank (S k) (π k).chem id

section
variable {P : Sequence K R C} {π : Nat → Rates R C} {O : Overlap R C} {S : Nat → State R}

theorem Rel.good (h : Rel P π O S) (hP : WF P.base) (k : Nat) : Good (P.grid k (π k).chem) (S k) :=
  (Good.init (grid_wf hP k _) _ _ _ _).reach (grid_wf hP k _) (h.reach k)

/-- What is in the network for rank `r` from another rank `q` begins with what belongs to the sweep of `r`. -/
theorem Rel.channel (h : Rel P π O S) (hP : WF P.base) {q r : Nat} (hr : r < P.base.numRanks) (hq : q < P.base.numRanks)
    (hqr : q ≠ r) : ∃ later, O.s.chan q r = (S (O.sweep r)).chan q r ++ later ∧
      ((S (O.sweep r)).recvCount r q ≠ 0 → (S (O.sweep r)).chan q r = [] → later = []) ∧
      (∀ f, (O.sweep q < O.sweep r → f = []) → (List.range (O.sweep q + 1)).flatMap (fun k => if k = O.sweep r then f else
        (S k).chan q r) = f ++ later) := by
  have hbefore : ∀ j < O.sweep r, (S j).chan q r = [] := fun j hj =>
    ((finished_rank_is_clean (grid_wf hP j _) (h.reach j) hr (h.past r j hj)).2.2.2.2 q hqr hq).2
  by_cases hle : O.sweep r ≤ O.sweep q
  · refine ⟨_, by rw [h.chan]; exact flatMap_range_split _ hbefore (by omega), ?_, ?_⟩
    · intro h0 hnil
      rcases Nat.eq_or_lt_of_le hle with e | hlt
      · rw [e, show O.sweep q + 1 - O.sweep q - 1 = 0 by omega]
        rfl
      · exfalso
        apply h0
        obtain ⟨acts, hrun⟩ : ∃ acts, Run (P.grid (O.sweep r) (π (O.sweep r)).chem) (P.init _ (π (O.sweep r))) acts
            (S (O.sweep r)) := (h.reach (O.sweep r)).run
        have hdone := h.past q _ hlt
        have hclean := finished_rank_is_clean (grid_wf hP (O.sweep r) _) (h.reach (O.sweep r)) hq hdone
        rw [expected_equals_outstanding (grid_wf hP (O.sweep r) _) hrun hqr hq hr]
        have h1 : undelivered (S (O.sweep r)) q r = [] := by
          unfold undelivered
          rw [hnil, (hclean.2.2.2.1 r).1]
          rfl
        rw [h1, List.length_nil, Nat.zero_add]
        apply Finset.sum_eq_zero
        intro u hu
        rw [Finset.mem_filter] at hu
        apply Finset.sum_eq_zero
        intro d hd
        rw [if_pos]
        have hu2 := mem_act.1 hu.1
        have := finished_rank_solved_all (grid_wf hP (O.sweep r) _) hrun hdone u hu2.1 hu.2 (of_decide_eq_true hu2.2) d
          (Finset.mem_range.1 hd)
        exact List.count_pos_iff.1 (by omega)
    · intro f _
      rw [flatMap_range_split (k := O.sweep r) _ (fun j hj => by rw [if_neg (by omega)]; exact hbefore j hj) (by omega),
        if_pos rfl]
      congr 1
      apply flatMap_range_congr
      intro j _
      rw [if_neg (by omega)]
  · refine ⟨[], ?_, fun _ _ => rfl, ?_⟩
    · rw [h.chan, h.empty q _ r (by omega)]
      exact flatMap_range_nil fun j hj => hbefore j (by omega)
    · intro f hf
      rw [hf (by omega)]
      exact flatMap_range_nil fun j hj => by rw [if_neg (by omega)]; exact hbefore j (by omega)

/-- A message which rank `r` expects and finds belongs to its sweep. -/
theorem Rel.head_iff (h : Rel P π O S) (hP : WF P.base) {q r : Nat} (hr : r < P.base.numRanks) (hq : q < P.base.numRanks)
    (hqr : q ≠ r) (h0 : (S (O.sweep r)).recvCount r q ≠ 0) (msg : List (Data R)) :
    (∃ rest, O.s.chan q r = msg :: rest) ↔ ∃ rest, (S (O.sweep r)).chan q r = msg :: rest := by
  obtain ⟨later, h1, h2, -⟩ := h.channel hP hr hq hqr
  rw [h1]
  cases hc : (S (O.sweep r)).chan q r with
  | nil => rw [h2 h0 hc]; simp
  | cons m rest =>
    simp only [List.cons_append, List.cons.injEq]
    constructor
    · rintro ⟨_, rfl, -⟩
      exact ⟨_, rfl, rfl⟩
    · rintro ⟨_, rfl, -⟩
      exact ⟨_, rfl, rfl⟩

theorem Rel.todo (h : Rel P π O S) (hP : WF P.base) {r k : Nat} : ∀ t ∈ (S k).todo r,
    t.id ∈ P.base.cells ∧ t.id.rank = r := by
  intro t ht
  have := ((h.good hP k).inv.todoIff r t).1 ht
  exact ⟨(mem_act.1 this.1).1, this.2.1⟩

theorem Rel.msg (h : Rel P π O S) (hP : WF P.base) {q r k : Nat} {msg : List (Data R)} {rest : List (List (Data R))}
    (hc : (S k).chan q r = msg :: rest) : ∀ d ∈ msg, d.id.rank = r := fun d hd =>
  ((h.good hP k).inv.queueOk q r d (by unfold queue; rw [hc]; simp [hd])).2.2.2.1

omit [IsStrictOrderedRing K] in
/-- Whom a rank receives from. -/
theorem take_facts {G : Grid K R} {s s' : State R} {r q : Nat} (h : Step G r (.take q) s s') :
    r < G.numRanks ∧ (∃ qs, s.pc r = .recv (q :: qs)) ∧ s.recvCount r q ≠ 0 := by
  cases h with
  | take _ s1 _ _ qs msg rest hr hpc h0 hc hrecv => exact ⟨hr, ⟨qs, hpc⟩, by omega⟩

/-- A step of rank `r` in the network of all sweeps is one in its sweep. -/
theorem Rel.down (h : Rel P π O S) (hP : WF P.base) {r : Nat} {a : Act} {s' : State R}
    (hs : Step (P.grid (O.sweep r) O.chem) r a O.s s') :
    ∃ t', Step (P.grid (O.sweep r) (π (O.sweep r)).chem) r a (S (O.sweep r)) t' ∧ Same r s' t' ∧
      (∀ x, x ≠ r → Same x (S (O.sweep r)) t') ∧
      t'.chan = moved P.base.numRanks r (S (O.sweep r)) a (S (O.sweep r)).chan := by
  have hsame := h.now r
  have htodo : ∀ tk ∈ O.s.todo r, tk.id ∈ P.base.cells ∧ tk.id.rank = r := by
    rw [hsame.todo]
    exact h.todo hP
  refine (hs.chem (c' := (π (O.sweep r)).chem) ?_ fun t ht => (htodo t ht).2).elsewhere (grid_wf hP _ _) hsame htodo ?_
  · intro id hid
    rw [h.chem, hid]
  · rintro q rfl msg rest hc
    obtain ⟨hr, ⟨qs, hpc⟩, h0⟩ := take_facts hs
    have hq := mem_others.1 ((h.good hP (O.sweep r)).comm.recvOk r _ (hsame.pc ▸ hpc) q List.mem_cons_self)
    obtain ⟨rest', hrest⟩ := (h.head_iff hP hr hq.1 hq.2 (hsame.recvCount ▸ h0) msg).1 ⟨rest, hc⟩
    exact ⟨h.msg hP hrest, rest', hrest⟩

/-- A step of rank `r` in its sweep is possible in the network of all sweeps. -/
theorem Rel.up (h : Rel P π O S) (hP : WF P.base) {r : Nat} {a : Act} {t' : State R}
    (hs : Step (P.grid (O.sweep r) (π (O.sweep r)).chem) r a (S (O.sweep r)) t') :
    ∃ s', Step (P.grid (O.sweep r) O.chem) r a O.s s' := by
  have hsame := (h.now r).symm
  have htodo : ∀ tk ∈ (S (O.sweep r)).todo r, tk.id ∈ P.base.cells ∧ tk.id.rank = r := h.todo hP
  obtain ⟨s', h1, -⟩ := (hs.chem (c' := O.chem) (fun id hid => by rw [h.chem, hid]) fun t ht => (htodo t ht).2).elsewhere
    (grid_wf hP _ _) hsame htodo (by
      rintro q rfl msg rest hc
      obtain ⟨hr, ⟨qs, hpc⟩, h0⟩ := take_facts hs
      have hq := mem_others.1 ((h.good hP (O.sweep r)).comm.recvOk r _ hpc q List.mem_cons_self)
      exact ⟨h.msg hP hc, (h.head_iff hP hr hq.1 hq.2 h0 msg).2 ⟨rest, hc⟩⟩)
  exact ⟨s', h1⟩

omit [IsStrictOrderedRing K] in
theorem step_rank {G : Grid K R} {r : Nat} {a : Act} {s s' : State R} (h : Step G r a s s') : r < G.numRanks := by
  cases h <;> assumption

omit [Field K] [LinearOrder K] [IsStrictOrderedRing K] [AddCommGroup R] [Module K R] in
theorem evolve_congr (P : Sequence K R C) {k r : Nat} {s t : State R} {c c' : Id → C} {id : Id} (hid : id.rank = r)
    (h : Same r s t) (hc : c id = c' id) : P.evolve k r s c id = P.evolve k r t c' id := by
  unfold Sequence.evolve
  rw [h.inc id hid, h.per id hid, hc]
  rfl

/-- Steps within a sweep. -/
theorem Rel.inner (h : Rel P π O S) (hP : WF P.base) {r : Nat} {a : Act} {s' : State R}
    (hs : Step (P.grid (O.sweep r) O.chem) r a O.s s') :
    ∃ t', Step (P.grid (O.sweep r) (π (O.sweep r)).chem) r a (S (O.sweep r)) t' ∧
      Rel P π { O with s := s' } (fun k => if k = O.sweep r then t' else S k) := by
  obtain ⟨t', hstep, h1, h2, h3⟩ := h.down hP hs
  have hr := step_rank hs
  have hr' : r < P.base.numRanks := hr
  have hsame := h.now r
  have htodo : ∀ tk ∈ O.s.todo r, tk.id ∈ P.base.cells ∧ tk.id.rank = r := by
    rw [hsame.todo]
    exact h.todo hP
  -- the step only changes the fields of rank `r` and the network
  obtain ⟨s'', g0, -, g2, g3⟩ := hs.elsewhere (grid_wf hP _ _) Same.rfl' htodo (by
    rintro q rfl msg rest hc
    obtain ⟨hr, ⟨qs, hpc⟩, h0⟩ := take_facts hs
    have hq := mem_others.1 ((h.good hP (O.sweep r)).comm.recvOk r _ (hsame.pc ▸ hpc) q List.mem_cons_self)
    obtain ⟨rest', hrest⟩ := (h.head_iff hP hr hq.1 hq.2 (hsame.recvCount ▸ h0) msg).1 ⟨rest, hc⟩
    exact ⟨h.msg hP hrest, rest, hc⟩)
  obtain rfl := step_det g0 hs
  have g3' : s''.chan = moved P.base.numRanks r O.s a O.s.chan := g3
  -- who receives
  have htk : ∀ q, a = .take q → q < P.base.numRanks ∧ q ≠ r ∧ (S (O.sweep r)).chan q r ≠ [] := by
    rintro q rfl
    obtain ⟨-, ⟨qs, hpc⟩, h0⟩ := take_facts hstep
    have hq := mem_others.1 ((h.good hP (O.sweep r)).comm.recvOk r _ hpc q List.mem_cons_self)
    refine ⟨hq.1, hq.2, ?_⟩
    cases hstep with
    | take _ s1 _ _ qs msg rest hr hpc h0 hc hrecv => rw [hc]; simp
  have hchan : ∀ x y, (∀ q, a = .take q → ¬ (x = q ∧ y = r)) → x ≠ r → t'.chan x y = (S (O.sweep r)).chan x y := by
    intro x y hq hx
    rw [h3]
    unfold moved
    cases a with
    | take q => exact if_neg (hq q rfl)
    | _ => exact if_neg hx
  refine ⟨t', hstep, ?_, ?_, ?_, h.chem, ?_, ?_, ?_, h.outer, ?_, ?_⟩
  · intro k
    by_cases hk : k = O.sweep r
    · rw [if_pos hk, hk]
      exact .step _ _ _ _ (h.reach _) hstep
    · rw [if_neg hk]
      exact h.reach k
  · intro x k hk
    by_cases hkr : k = O.sweep r
    · rw [if_pos hkr]
      by_cases hx : x = r
      · rw [hx, hkr] at hk
        exact absurd hk (lt_irrefl _)
      · rw [← (h2 x hx).pc, ← hkr]
        exact h.past x k hk
    · rw [if_neg hkr]
      exact h.past x k hk
  · intro x
    show Same x s'' (if O.sweep x = O.sweep r then t' else S (O.sweep x))
    by_cases hx : x = r
    · rw [hx, if_pos rfl]
      exact h1
    · by_cases hxr : O.sweep x = O.sweep r
      · rw [if_pos hxr]
        exact (g2 x hx).symm.trans ((hxr ▸ h.now x).trans (h2 x hx))
      · rw [if_neg hxr]
        exact (g2 x hx).symm.trans (h.now x)
  · intro x k hk
    by_cases hkr : k = O.sweep r
    · rw [if_pos hkr]
      by_cases hx : x = r
      · rw [hx, hkr] at hk
        exact absurd hk (lt_irrefl _)
      · have := h.future x k hk
        rw [hkr] at this
        rw [hkr]
        exact this.trans (h2 x hx)
    · rw [if_neg hkr]
      exact h.future x k hk
  · intro x k y hk
    by_cases hkr : k = O.sweep r
    · rw [if_pos hkr]
      have hx : x ≠ r := by
        rintro rfl
        rw [hkr] at hk
        exact absurd hk (lt_irrefl _)
      have he := h.empty x k y hk
      rw [hkr] at he
      rw [hchan x y ?_ hx, he]
      rintro q hq ⟨rfl, rfl⟩
      exact (htk x hq).2.2 he
    · rw [if_neg hkr]
      exact h.empty x k y hk
  · intro x y
    show s''.chan x y = _
    rw [g3']
    by_cases hq : ∃ q, a = .take q ∧ x = q ∧ y = r
    · obtain ⟨q, rfl, rfl, rfl⟩ := hq
      obtain ⟨q1, q2, q3⟩ := htk x rfl
      obtain ⟨later, c1, -, c3⟩ := h.channel hP hr' q1 q2
      have c4 := c3 (t'.chan x y) (fun hlt => absurd (h.empty x _ y hlt) q3)
      have e1 : moved P.base.numRanks y O.s (.take x) O.s.chan x y = (O.s.chan x y).tail := if_pos ⟨rfl, rfl⟩
      have e2 : t'.chan x y = ((S (O.sweep y)).chan x y).tail := by
        rw [h3]
        exact if_pos ⟨rfl, rfl⟩
      rw [e1, c1]
      refine Eq.trans ?_ (Eq.trans c4.symm ?_)
      · rw [e2]
        cases hc : (S (O.sweep y)).chan x y with
        | nil => exact absurd hc q3
        | cons m rest => rfl
      · apply flatMap_range_congr
        intro j _
        by_cases hj : j = O.sweep y
        · rw [if_pos hj, if_pos hj]
        · rw [if_neg hj, if_neg hj]
    · by_cases hx : x = r
      · subst hx
        have e1 : ∀ (s : State R) c, moved P.base.numRanks x s a c x y = c x y ++ pushed P.base.numRanks x s a y := by
          intro s c
          unfold moved
          cases a with
          | take q =>
            dsimp only
            rw [if_neg (fun hc => hq ⟨q, rfl, hc⟩)]
            simp [pushed]
          | _ => exact if_pos rfl
        have e2 : pushed P.base.numRanks x O.s a y = pushed P.base.numRanks x (S (O.sweep x)) a y := by
          cases a with
          | send c =>
            show posted _ _ _ _ _ = posted _ _ _ _ _
            rw [posted_same hsame]
          | _ => rfl
        rw [e1, h.chan, flatMap_range_succ, flatMap_range_succ, if_pos rfl, h3, e1, e2, List.append_assoc]
        congr 1
        apply flatMap_range_congr
        intro j hj
        rw [if_neg (by omega)]
      · have hq' : ∀ q, a = .take q → ¬ (x = q ∧ y = r) := fun q ha hc => hq ⟨q, ha, hc⟩
        have e1 : moved P.base.numRanks r O.s a O.s.chan x y = O.s.chan x y := by
          unfold moved
          cases a with
          | take q => exact if_neg (hq' q rfl)
          | _ => exact if_neg hx
        rw [e1, h.chan]
        apply flatMap_range_congr
        intro j _
        by_cases hj : j = O.sweep r
        · rw [if_pos hj, hchan x y hq' hx, hj]
        · rw [if_neg hj]
  · intro x k hx
    by_cases hkr : k = O.sweep r
    · rw [if_pos hkr]
      have := h.outside x k hx
      rw [hkr] at this
      rw [hkr]
      exact this.trans (h2 x (by omega))
    · rw [if_neg hkr]
      exact h.outside x k hx
  · intro id k hk
    by_cases hkr : k = O.sweep r
    · rw [if_pos hkr]
      have hx : id.rank ≠ r := by
        intro e
        have : k < O.sweep id.rank := hk
        rw [e, hkr] at this
        exact absurd this (lt_irrefl _)
      obtain ⟨l1, l2, l3, l4, l5⟩ := h.link id k hk
      have hs := h2 _ hx
      rw [← hkr] at hs
      rw [← hs.miss id rfl, ← hs.inc id rfl, ← hs.out id rfl, ← hs.per id rfl, ← evolve_congr P rfl hs rfl]
      exact ⟨l1, l2, l3, l4, l5⟩
    · rw [if_neg hkr]
      exact h.link id k hk

/-- The beginning of the next sweep. -/
theorem Rel.next (h : Rel P π O S) (hP : WF P.base) {r : Nat} (hr : r < P.base.numRanks) (hpc : O.s.pc r = .done)
    (hπ : ∀ id, id.rank = r → (π (O.sweep r + 1)).miss id = O.s.miss id ∧ (π (O.sweep r + 1)).inc id = O.s.inc id ∧
      (π (O.sweep r + 1)).out id = O.s.out id ∧ (π (O.sweep r + 1)).per id = O.s.per id ∧
      (π (O.sweep r + 1)).chem id = P.evolve (O.sweep r) r O.s O.chem id) :
    Rel P π { s := P.begin (O.sweep r + 1) r (P.evolve (O.sweep r) r O.s O.chem) O.s
              sweep := fun x => if x = r then O.sweep r + 1 else O.sweep x
              chem := P.evolve (O.sweep r) r O.s O.chem } S := by
  have hsame := h.now r
  have hdone : (S (O.sweep r)).pc r = .done := hsame.pc ▸ hpc
  obtain ⟨-, -, -, hclean, -⟩ := finished_rank_is_clean (grid_wf hP (O.sweep r) _) (h.reach (O.sweep r)) hr hdone
  have hsw : ∀ x, x ≠ r → (if x = r then O.sweep r + 1 else O.sweep x) = O.sweep x := fun x hx => if_neg hx
  have hother : ∀ x, x ≠ r → Same x O.s (P.begin (O.sweep r + 1) r (P.evolve (O.sweep r) r O.s O.chem) O.s) := by
    intro x hx
    refine ⟨fun id hid => (if_neg (hid ▸ hx)).symm, fun _ _ => rfl, fun _ _ => rfl, fun _ _ => rfl, (if_neg hx).symm,
      (if_neg hx).symm, (if_neg hx).symm, rfl, rfl, rfl, (if_neg hx).symm⟩
  refine ⟨h.reach, ?_, ?_, ?_, ?_, ?_, ?_, ?_, h.outside, ?_⟩
  · intro x k hk
    dsimp only at hk
    by_cases hx : x = r
    · subst hx
      rw [if_pos rfl] at hk
      rcases Nat.lt_succ_iff_lt_or_eq.1 hk with hk | rfl
      · exact h.past x k hk
      · exact hdone
    · rw [if_neg hx] at hk
      exact h.past x k hk
  · intro x
    dsimp only
    by_cases hx : x = r
    · subst hx
      rw [if_pos rfl]
      refine Same.trans ?_ (h.future x _ (Nat.lt_succ_self _))
      have hmiss : ∀ id, id.rank = x → (P.begin (O.sweep x + 1) x (P.evolve (O.sweep x) x O.s O.chem) O.s).miss id =
          (P.init (O.sweep x + 1) (π (O.sweep x + 1))).miss id := by
        intro id hid
        show (if id.rank = x then _ else _) = _
        rw [if_pos hid]
        funext d
        show (if id ∈ (P.grid (O.sweep x + 1) _).act then _ else O.s.miss id d) =
          if id ∈ (P.grid (O.sweep x + 1) _).act then _ else (π (O.sweep x + 1)).miss id d
        rw [(hπ id hid).1]
        rfl
      refine ⟨hmiss, fun id hid => (hπ id hid).2.1.symm, fun id hid => (hπ id hid).2.2.1.symm,
        fun id hid => (hπ id hid).2.2.2.1.symm, ?_, if_pos rfl, if_pos rfl, ?_, ?_, ?_, if_pos rfl⟩
      · show (if x = x then _ else _) = _
        rw [if_pos rfl]
        refine congrArg (fun f : Finset (Id × Nat) => f.val.map fun p => Task.mk p.1 p.2) ?_
        apply Finset.filter_congr
        rintro ⟨id, d⟩ hid
        have hact := (Finset.mem_filter.1 (Finset.mem_product.1 hid).1).1
        dsimp only
        have hact' : id ∈ (P.grid (O.sweep x + 1) (π (O.sweep x + 1)).chem).act := hact
        rw [if_pos hact, if_pos hact']
        rfl
      · funext y
        exact (congrFun hsame.toSend y).trans (hclean y).1
      · funext y
        exact (congrFun hsame.sendBuf y).trans (hclean y).2.1
      · funext y
        exact (congrFun hsame.req y).trans (hclean y).2.2
    · rw [if_neg hx]
      exact (hother x hx).symm.trans (h.now x)
  · intro id
    dsimp only
    by_cases hx : id.rank = r
    · rw [if_pos hx, (hπ id hx).2.2.2.2]
    · rw [if_neg hx, ← h.chem id]
      exact if_neg (fun hc => hx hc.1)
  · intro x k hk
    dsimp only at hk
    refine h.future x k ?_
    by_cases hx : x = r
    · rw [if_pos hx] at hk
      rw [hx]
      omega
    · rw [if_neg hx] at hk
      exact hk
  · intro x k y hk
    dsimp only at hk
    refine h.empty x k y ?_
    by_cases hx : x = r
    · rw [if_pos hx] at hk
      rw [hx]
      omega
    · rw [if_neg hx] at hk
      exact hk
  · intro x y
    show O.s.chan x y = _
    dsimp only
    by_cases hx : x = r
    · subst hx
      rw [if_pos rfl, flatMap_range_succ, h.empty x _ y (Nat.lt_succ_self _), List.append_nil]
      exact h.chan x y
    · rw [if_neg hx]
      exact h.chan x y
  · intro x hx
    show (if x = r then _ else O.sweep x) = 0
    rw [if_neg (by omega)]
    exact h.outer x hx
  · intro id k hk
    dsimp only at hk
    by_cases hx : id.rank = r
    · rw [if_pos hx] at hk
      rcases Nat.lt_succ_iff_lt_or_eq.1 hk with hk | rfl
      · exact h.link id k (by rw [hx]; exact hk)
      · obtain ⟨l1, l2, l3, l4, l5⟩ := hπ id hx
        refine ⟨l1.trans (hsame.miss id hx), l2.trans (hsame.inc id hx), l3.trans (hsame.out id hx),
          l4.trans (hsame.per id hx), l5.trans ?_⟩
        rw [hx]
        exact evolve_congr P hx hsame (by rw [h.chem, hx])
    · rw [if_neg hx] at hk
      exact h.link id k hk

end

end Verif.Sweep
