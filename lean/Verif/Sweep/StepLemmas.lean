import Verif.Sweep.Lemmas
import Mathlib.Algebra.BigOperators.Group.Finset.Sigma

/-!
# The distributed sweep: the control invariant is preserved by every step
-/

namespace Verif.Sweep

variable {K R : Type} [Field K] [LinearOrder K]

theorem Inv.any {G : Grid K R} {s : State R} {x : Nat} (h : Inv G s x []) (y : Nat) :
    Inv G s y [] :=
  ⟨h.logNodup, h.logAct, h.todoNodup, h.todoIff, h.missEq, h.solveEq,
    fun r hr q hq hqr => by rw [h.recvEq r hr q hq hqr]; simp, h.queueOk,
    fun _ hd => absurd hd (List.not_mem_nil), h.order⟩

/-- The invariant only looks at these components. -/
theorem Inv.congr {G : Grid K R} {s s' : State R} {x : Nat} {pend : List (Data R)}
    (h : Inv G s x pend) (h1 : s'.log = s.log) (h2 : s'.miss = s.miss) (h3 : s'.todo = s.todo)
    (h4 : s'.solveCount = s.solveCount) (h5 : s'.recvCount = s.recvCount)
    (h6 : ∀ q r, queue s' q r = queue s q r) : Inv G s' x pend := by
  have h7 : ∀ v d, inflight G s' v d = inflight G s v d := by
    intro v d; unfold inflight; simp only [h6]
  refine ⟨?_, ?_, ?_, ?_, ?_, ?_, ?_, ?_, h.pendOk, ?_⟩
  · rw [h1]; exact h.logNodup
  · rw [h1, h2]; exact h.logAct
  · rw [h3]; exact h.todoNodup
  · rw [h1, h2, h3]; exact h.todoIff
  · rw [h1, h2]; simp only [h7]; exact h.missEq
  · rw [h1, h4]; exact h.solveEq
  · rw [h1, h5]; simp only [h6]; exact h.recvEq
  · simp only [h6]; exact h.queueOk
  · rw [h1]; exact h.order

theorem isActive_own (G : Grid K R) (v : Id) : isActive G v.rank v = ownActive G v := by
  simp [isActive, ownActive]

theorem isActive_remote {G : Grid K R} {r : Nat} {v : Id} (hne : v.rank ≠ r)
    (hl : G.haloLevel r v = G.level v) : isActive G r v = ownActive G v := by
  simp [isActive, ownActive, hne, hl]

/-- What one entry contributes to the pending data of an active cell. -/
theorem toData_isFor [AddCommGroup R] [Module K R] {G : Grid K R} (h : WF G) {t : Task}
    (ht : t.id ∈ G.cells) (delta : R) {e : Face K × Neighbour} (he : e ∈ G.nbrs t.id) {v : Id}
    (hv : v ∈ G.act) (d : Nat) (p : Bool) :
    (∃ dat, toData G t delta e = some dat ∧ isFor v d p dat = true) ↔
      d = t.dir ∧ downwind e.1 (G.dir t.dir) ∧ e.2.target = some (v, p) := by
  have hva := (mem_act.1 hv).2
  obtain ⟨f, nb⟩ := e
  unfold toData
  by_cases hd : downwind f (G.dir t.dir)
  · simp only [hd, if_true, true_and]
    cases nb with
    | loc id =>
      simp only [Neighbour.target, Option.some.injEq, exists_eq_left', isFor_iff, Prod.mk.injEq]
      tauto
    | boundary => simp [Neighbour.target]
    | locPeriodic id =>
      simp only [Neighbour.target, Option.some.injEq, exists_eq_left', isFor_iff, Prod.mk.injEq]
      tauto
    | remote id =>
      have hw := h.remote _ ht f id (Or.inl he)
      simp only [Neighbour.target, isActive_remote hw.2.1 hw.2.2, Option.some.injEq, Prod.mk.injEq]
      by_cases ha : ownActive G id = true
      · simp only [ha, if_true, Option.some.injEq, exists_eq_left', isFor_iff]
        tauto
      · simp only [ha, false_and, exists_false, false_iff, reduceCtorEq, Bool.false_eq_true, if_false]
        rintro ⟨_, rfl, _⟩
        exact ha hva
    | remotePeriodic id =>
      have hw := h.remote _ ht f id (Or.inr he)
      simp only [Neighbour.target, isActive_remote hw.2.1 hw.2.2, Option.some.injEq, Prod.mk.injEq]
      by_cases ha : ownActive G id = true
      · simp only [ha, if_true, Option.some.injEq, exists_eq_left', isFor_iff]
        tauto
      · simp only [ha, false_and, exists_false, false_iff, reduceCtorEq, Bool.false_eq_true, if_false]
        rintro ⟨_, rfl, _⟩
        exact ha hva
  · simp [hd]

theorem countP_filterMap_eq {A B : Type} (f : A → Option B) (p : B → Bool) (q : A → Bool)
    (l : List A) (h : ∀ a ∈ l, (∃ b, f a = some b ∧ p b = true) ↔ q a = true) :
    (l.filterMap f).countP p = l.countP q := by
  induction l with
  | nil => rfl
  | cons a l ih =>
    have ih' := ih (fun a ha => h a (List.mem_cons_of_mem _ ha))
    have ha := h a (List.mem_cons_self ..)
    rw [List.countP_cons, ← ih']
    cases hf : f a with
    | none =>
      rw [List.filterMap_cons_none hf]
      have : ¬ q a = true := fun hq => by
        obtain ⟨b, hb, _⟩ := ha.2 hq
        rw [hf] at hb; exact absurd hb (by simp)
      simp [this]
    | some b =>
      rw [List.filterMap_cons_some hf, List.countP_cons]
      congr 1
      have : p b = true ↔ q a = true := by
        rw [← ha, hf]; simp
      by_cases hp : p b = true
      · rw [if_pos hp, if_pos (this.1 hp)]
      · rw [if_neg hp, if_neg (fun hq => hp (this.2 hq))]

theorem pend_count [AddCommGroup R] [Module K R] {G : Grid K R} (h : WF G) {t : Task}
    (ht : t.id ∈ G.cells) (delta : R) {v : Id} (hv : v ∈ G.act) (d : Nat) (p : Bool) :
    ((G.nbrs t.id).filterMap (toData G t delta)).countP (isFor v d p) =
      if d = t.dir then downCount G t.id v p t.dir else 0 := by
  by_cases hd : d = t.dir
  · rw [if_pos hd]
    unfold downCount
    apply countP_filterMap_eq
    intro e he
    rw [toData_isFor h ht delta he hv]
    simp [hd]
  · rw [if_neg hd, List.countP_eq_zero]
    intro dat hdat hf
    obtain ⟨e, he, hed⟩ := List.mem_filterMap.1 hdat
    exact hd ((toData_isFor h ht delta he hv d p).1 ⟨dat, hed, hf⟩).1

theorem toData_ok [AddCommGroup R] [Module K R] {G : Grid K R} (h : WF G) {t : Task}
    (ht : t.id ∈ G.cells) {delta : R} {e : Face K × Neighbour} (he : e ∈ G.nbrs t.id)
    {dat : Data R} (hd : toData G t delta e = some dat) :
    downwind e.1 (G.dir t.dir) ∧ e.2.target = some (dat.id, dat.periodic) ∧ dat.dir = t.dir ∧
      dat.rate = fraction G t.id t.dir e.1 • delta ∧
      dat.id ∈ G.cells ∧ (dat.id.rank ≠ t.id.rank → dat.id ∈ G.act) := by
  obtain ⟨f, nb⟩ := e
  unfold toData at hd
  by_cases hdw : downwind f (G.dir t.dir)
  · simp only [hdw, if_true] at hd
    cases nb with
    | loc id =>
      simp only [Option.some.injEq] at hd
      subst hd
      have hw := h.loc _ ht f id (Or.inl he)
      exact ⟨hdw, rfl, rfl, rfl, hw.1, fun hne => absurd hw.2 hne⟩
    | boundary => simp at hd
    | locPeriodic id =>
      simp only [Option.some.injEq] at hd
      subst hd
      have hw := h.loc _ ht f id (Or.inr he)
      exact ⟨hdw, rfl, rfl, rfl, hw.1, fun hne => absurd hw.2 hne⟩
    | remote id =>
      have hw := h.remote _ ht f id (Or.inl he)
      simp only [isActive_remote hw.2.1 hw.2.2] at hd
      by_cases ha : ownActive G id = true
      · simp only [ha, if_true, Option.some.injEq] at hd
        subst hd
        exact ⟨hdw, rfl, rfl, rfl, hw.1, fun _ => mem_act.2 ⟨hw.1, ha⟩⟩
      · simp [ha] at hd
    | remotePeriodic id =>
      have hw := h.remote _ ht f id (Or.inr he)
      simp only [isActive_remote hw.2.1 hw.2.2] at hd
      by_cases ha : ownActive G id = true
      · simp only [ha, if_true, Option.some.injEq] at hd
        subst hd
        exact ⟨hdw, rfl, rfl, rfl, hw.1, fun _ => mem_act.2 ⟨hw.1, ha⟩⟩
      · simp [ha] at hd
  · simp [hdw] at hd

theorem countP_add_of_disjoint {A : Type} (l : List A) (p q r : A → Bool)
    (h : ∀ a ∈ l, (if r a then 1 else 0) = (if p a then 1 else 0) + (if q a then 1 else 0)) :
    l.countP r = l.countP p + l.countP q := by
  induction l with
  | nil => rfl
  | cons a l ih =>
    have := h a (List.mem_cons_self ..)
    rw [List.countP_cons, List.countP_cons, List.countP_cons,
      ih (fun a ha => h a (List.mem_cons_of_mem _ ha)), this]
    omega

theorem countP_target_sum2 (l : List (Face K × Neighbour)) (S : Finset Id) (c : Face K → Bool) :
    ∑ v ∈ S, (l.countP (fun e => c e.1 && decide (e.2.target = some (v, false))) +
      l.countP (fun e => c e.1 && decide (e.2.target = some (v, true)))) =
    l.countP (fun e => c e.1 && decide (∃ v ∈ S, ∃ p, e.2.target = some (v, p))) := by
  rw [Finset.sum_add_distrib, ← countP_target_sum l S c false, ← countP_target_sum l S c true]
  symm
  apply countP_add_of_disjoint
  intro e _
  by_cases hd : c e.1
  · simp only [hd, Bool.true_and, decide_eq_true_eq]
    cases ht : e.2.target with
    | none => simp
    | some vp =>
      obtain ⟨w, p⟩ := vp
      by_cases hw : w ∈ S
      · have h1 : ∃ v ∈ S, ∃ p', some (w, p) = some (v, p') := ⟨w, hw, p, rfl⟩
        rw [if_pos h1]
        cases p
        · rw [if_pos ⟨w, hw, rfl⟩, if_neg]
          rintro ⟨v, _, hv⟩; simp at hv
        · rw [if_neg, if_pos ⟨w, hw, rfl⟩]
          rintro ⟨v, _, hv⟩; simp at hv
      · rw [if_neg, if_neg, if_neg]
        · rintro ⟨v, hv, he⟩
          simp only [Option.some.injEq, Prod.mk.injEq] at he
          exact hw (he.1 ▸ hv)
        · rintro ⟨v, hv, he⟩
          simp only [Option.some.injEq, Prod.mk.injEq] at he
          exact hw (he.1 ▸ hv)
        · rintro ⟨v, hv, p', he⟩
          simp only [Option.some.injEq, Prod.mk.injEq] at he
          exact hw (he.1 ▸ hv)
  · simp [hd]

theorem outTo_eq (G : Grid K R) (u : Id) (r d : Nat) :
    outTo G u r d = (G.nbrs u).countP (fun e => decide (downwind e.1 (G.dir d)) &&
      decide (∃ v ∈ G.act.filter (fun v => v.rank = r), ∃ p, e.2.target = some (v, p))) :=
  countP_target_sum2 _ _ (fun f => decide (downwind f (G.dir d)))

theorem pend_rank [AddCommGroup R] [Module K R] {G : Grid K R} (h : WF G) {t : Task}
    (ht : t.id ∈ G.cells) (delta : R) {r : Nat} (hr : r ≠ t.id.rank) :
    ((G.nbrs t.id).filterMap (toData G t delta)).countP (fun d => decide (d.id.rank = r)) =
      outTo G t.id r t.dir := by
  rw [outTo_eq]
  apply countP_filterMap_eq
  intro e he
  constructor
  · rintro ⟨dat, hd, hdr⟩
    have hok := toData_ok h ht he hd
    have hrk : dat.id.rank = r := by simpa using hdr
    simp only [hok.1, decide_true, Bool.true_and, decide_eq_true_eq]
    exact ⟨dat.id, Finset.mem_filter.2 ⟨hok.2.2.2.2.2 (by rw [hrk]; exact hr), hrk⟩, dat.periodic,
      hok.2.1⟩
  · intro hq
    simp only [Bool.and_eq_true, decide_eq_true_eq] at hq
    obtain ⟨hdw, v, hv, p, htg⟩ := hq
    rw [Finset.mem_filter] at hv
    obtain ⟨dat, hd, hf⟩ := (toData_isFor h ht delta he hv.1 t.dir p).2 ⟨rfl, hdw, htg⟩
    refine ⟨dat, hd, ?_⟩
    rw [(isFor_iff.1 hf).1]
    simpa using hv.2

/-- Sums over unsolved cells when one more task is solved. -/
theorem sum_unsolved {S : Finset Id} {log : List Task} {t : Task} (hS : t.id ∈ S) (hlog : t ∉ log)
    (f : Id → Nat) (d : Nat) :
    (∑ u ∈ S, if (⟨u, d⟩ : Task) ∈ log then 0 else f u) =
      (∑ u ∈ S, if (⟨u, d⟩ : Task) ∈ log ++ [t] then 0 else f u) +
        if d = t.dir then f t.id else 0 := by
  by_cases hd : d = t.dir
  · subst hd
    rw [if_pos rfl, ← Finset.sum_erase_add _ _ hS, ← Finset.sum_erase_add (a := t.id) S _ hS,
      if_neg hlog, if_pos (show (⟨t.id, t.dir⟩ : Task) ∈ log ++ [t] by simp), add_zero]
    congr 1
    apply Finset.sum_congr rfl
    intro u hu
    have hne : (⟨u, t.dir⟩ : Task) ≠ t := fun hc => (Finset.mem_erase.1 hu).1 (by rw [← hc])
    have : (⟨u, t.dir⟩ : Task) ∈ log ++ [t] ↔ (⟨u, t.dir⟩ : Task) ∈ log := by simp [hne]
    simp only [this]
  · rw [if_neg hd, add_zero]
    apply Finset.sum_congr rfl
    intro u hu
    have hne : (⟨u, d⟩ : Task) ≠ t := fun hc => hd (by rw [← hc])
    have : (⟨u, d⟩ : Task) ∈ log ++ [t] ↔ (⟨u, d⟩ : Task) ∈ log := by simp [hne]
    simp only [this]

theorem remRecv_append (G : Grid K R) {log : List Task} {t : Task} (ht : t.id ∈ G.act)
    (hd : t.dir < G.numDirs) (hlog : t ∉ log) (r q : Nat) :
    remRecv G log r q = remRecv G (log ++ [t]) r q +
      if q = t.id.rank then outTo G t.id r t.dir else 0 := by
  unfold remRecv
  rw [Finset.sum_comm, Finset.sum_comm (s := G.act.filter _)]
  by_cases hq : q = t.id.rank
  · have hmem : t.id ∈ G.act.filter (fun u => u.rank = q) := Finset.mem_filter.2 ⟨ht, hq.symm⟩
    rw [if_pos hq]
    have : ∀ d ∈ Finset.range G.numDirs,
        (∑ u ∈ G.act.filter (fun u => u.rank = q), if (⟨u, d⟩ : Task) ∈ log then 0 else outTo G u r d) =
        (∑ u ∈ G.act.filter (fun u => u.rank = q),
          if (⟨u, d⟩ : Task) ∈ log ++ [t] then 0 else outTo G u r d) +
        if d = t.dir then outTo G t.id r t.dir else 0 := by
      intro d _
      rw [sum_unsolved hmem hlog (fun u => outTo G u r d) d]
      split
      · rename_i h; rw [h]
      · rfl
    rw [Finset.sum_congr rfl this, Finset.sum_add_distrib]
    congr 1
    rw [Finset.sum_ite_eq' (Finset.range G.numDirs) t.dir]
    simp [hd]
  · rw [if_neg hq, add_zero]
    apply Finset.sum_congr rfl
    intro d _
    apply Finset.sum_congr rfl
    intro u hu
    have hne : (⟨u, d⟩ : Task) ≠ t := fun hc => hq (by rw [← hc]; exact (Finset.mem_filter.1 hu).2.symm)
    have : (⟨u, d⟩ : Task) ∈ log ++ [t] ↔ (⟨u, d⟩ : Task) ∈ log := by simp [hne]
    simp only [this]

theorem solveCount_append (G : Grid K R) {log : List Task} {t : Task} (ht : t.id ∈ G.act)
    (hlog : t ∉ log) (r d : Nat) :
    ((G.act.filter (fun v => v.rank = r)).filter (fun v => (⟨v, d⟩ : Task) ∉ log)).card =
    ((G.act.filter (fun v => v.rank = r)).filter (fun v => (⟨v, d⟩ : Task) ∉ log ++ [t])).card +
      if r = t.id.rank ∧ d = t.dir then 1 else 0 := by
  by_cases h : r = t.id.rank ∧ d = t.dir
  · rw [if_pos h]
    obtain ⟨rfl, rfl⟩ := h
    have hm : t.id ∈ (G.act.filter (fun v => v.rank = t.id.rank)).filter
        (fun v => (⟨v, t.dir⟩ : Task) ∉ log) :=
      Finset.mem_filter.2 ⟨Finset.mem_filter.2 ⟨ht, rfl⟩, hlog⟩
    rw [← Finset.card_erase_add_one hm]
    congr 2
    ext u
    simp only [Finset.mem_erase, Finset.mem_filter, List.mem_append, List.mem_singleton, not_or]
    constructor
    · rintro ⟨h1, h2, h3⟩
      exact ⟨h2, h3, fun hc => h1 (by rw [← hc])⟩
    · rintro ⟨h2, h3, h4⟩
      exact ⟨fun hc => h4 (by rw [hc]), h2, h3⟩
  · rw [if_neg h, add_zero]
    congr 1
    apply Finset.filter_congr
    intro u hu
    have hne : (⟨u, d⟩ : Task) ≠ t := fun hc => h ⟨by rw [← hc]; exact (Finset.mem_filter.1 hu).2.symm,
      by rw [← hc]⟩
    simp [hne]

theorem append_singleton_split {A : Type} {l l1 l2 : List A} {a b : A}
    (h : l ++ [a] = l1 ++ b :: l2) : (l1 = l ∧ b = a ∧ l2 = []) ∨ ∃ l3, l = l1 ++ b :: l3 := by
  rcases List.eq_nil_or_concat l2 with h2 | ⟨l3, c, h2⟩
  · subst h2
    have := List.append_inj' h rfl
    left
    exact ⟨this.1.symm, by simpa using this.2.symm, rfl⟩
  · right
    rw [h2, List.concat_eq_append] at h
    have : l ++ [a] = (l1 ++ b :: l3) ++ [c] := by rw [h]; simp
    exact ⟨l3, (List.append_inj' this rfl).1⟩

/-- The state in `solve_task` before the loop over the faces. -/
theorem Inv.solve_mid [AddCommGroup R] [Module K R] {G : Grid K R} (hG : WF G) {s : State R}
    {x r : Nat} (h : Inv G s x []) {t : Task} (ht : t ∈ s.todo r) (delta inc1 out1 : R) {c : Nat}
    (hsc : s.solveCount t.id.rank t.dir = c + 1) :
    Inv G { s with
        todo := upd s.todo r ((s.todo r).erase t)
        inc := upd2 s.inc t.id t.dir inc1
        out := upd2 s.out t.id t.dir out1
        solveCount := upd2 s.solveCount t.id.rank t.dir c
        log := s.log ++ [t] } t.id.rank ((G.nbrs t.id).filterMap (toData G t delta)) := by
  obtain ⟨hact, hrank, hdir, hmiss, hlog⟩ := (h.todoIff r t).1 ht
  have hcell := (mem_act.1 hact).1
  have hmz := h.missEq t.id hact t.dir hdir
  rw [hmiss] at hmz
  have hrem : remMiss G s.log t.id t.dir = 0 := by omega
  constructor
  · show (s.log ++ [t]).Nodup
    rw [List.nodup_append]
    exact ⟨h.logNodup, by simp, fun a ha b hb => by
      rw [List.mem_singleton] at hb; rw [hb]; exact fun hc => hlog (hc ▸ ha)⟩
  · intro t' ht'
    rcases List.mem_append.1 ht' with h1 | h1
    · exact h.logAct t' h1
    · rw [List.mem_singleton] at h1
      rw [h1]; exact ⟨hact, hdir, hmiss⟩
  · intro r'
    show (upd s.todo r ((s.todo r).erase t) r').Nodup
    unfold upd
    split
    · exact (h.todoNodup r).erase t
    · exact h.todoNodup r'
  · intro r' t'
    show t' ∈ upd s.todo r ((s.todo r).erase t) r' ↔ _ ∧ _ ∧ _ ∧ s.miss t'.id t'.dir = 0 ∧ t' ∉ s.log ++ [t]
    unfold upd
    by_cases hr : r' = r
    · rw [if_pos hr, hr, (h.todoNodup r).mem_erase_iff, h.todoIff r t']
      simp only [List.mem_append, List.mem_singleton, not_or]
      tauto
    · rw [if_neg hr, h.todoIff r' t']
      simp only [List.mem_append, List.mem_singleton, not_or]
      constructor
      · rintro ⟨h1, h2, h3, h4, h5⟩
        refine ⟨h1, h2, h3, h4, h5, ?_⟩
        rintro rfl
        exact hr (h2.symm.trans hrank)
      · rintro ⟨h1, h2, h3, h4, h5, _⟩
        exact ⟨h1, h2, h3, h4, h5⟩
  · intro v hv d hd
    rw [pend_count hG hcell _ hv]
    show s.miss v d = remMiss G (s.log ++ [t]) v d + inflight G s v d + _
    rw [h.missEq v hv d hd]
    unfold remMiss
    rw [sum_unsolved hact hlog (fun u => downCount G u v false d) d, List.countP_nil]
    by_cases hdd : d = t.dir
    · rw [if_pos hdd, if_pos hdd, hdd]; omega
    · rw [if_neg hdd, if_neg hdd]; omega
  · intro r' d hd
    show upd2 s.solveCount t.id.rank t.dir _ r' d = _
    unfold upd2
    have := h.solveEq r' d hd
    rw [solveCount_append G hact hlog] at this
    split
    · rename_i hc
      rw [if_pos hc, hc.1, hc.2, hsc] at this
      rw [hc.1, hc.2]
      exact Nat.succ.inj this
    · rename_i hc
      rw [if_neg hc, add_zero] at this
      exact this
  · intro r' hr' q hq hqr
    show s.recvCount r' q = remRecv G (s.log ++ [t]) r' q + (queue s q r').length + _
    rw [h.recvEq r' hr' q hq hqr, remRecv_append G hact hdir hlog]
    by_cases hqx : q = t.id.rank
    · rw [if_pos hqx, if_pos hqx, pend_rank hG hcell _ (by rw [← hqx]; exact hqr.symm)]
      simp only [List.countP_nil, ite_self]
      omega
    · rw [if_neg hqx, if_neg hqx]
      simp only [List.countP_nil, ite_self]
      omega
  · exact h.queueOk
  · intro dat hdat
    obtain ⟨e, he, hed⟩ := List.mem_filterMap.1 hdat
    have hok := toData_ok hG hcell he hed
    exact ⟨hok.2.2.2.2.1, by rw [hok.2.2.1]; exact hdir, hok.2.2.2.2.2⟩
  · intro l1 t' l2 hl u hu hdc
    rcases append_singleton_split hl with ⟨h1, h2, _⟩ | ⟨l3, h1⟩
    · rw [h1]
      rw [h2] at hdc ⊢
      unfold remMiss at hrem
      rw [Finset.sum_eq_zero_iff] at hrem
      have := hrem u hu
      by_contra hc
      rw [if_neg hc] at this
      omega
    · exact h.order l1 t' l3 h1 u hu hdc

/-- `solve_task` does not panic and preserves the invariant. -/
theorem Inv.solve [AddCommGroup R] [Module K R] {G : Grid K R} (hG : WF G) {s : State R} {x r : Nat}
    (h : Inv G s x []) {t : Task} (ht : t ∈ s.todo r) :
    ∃ s', solveTask G { s with todo := upd s.todo r ((s.todo r).erase t) } t = some s' ∧
      Inv G s' t.id.rank [] := by
  obtain ⟨hact, hrank, hdir, hmiss, hlog⟩ := (h.todoIff r t).1 ht
  have hcell := (mem_act.1 hact).1
  unfold solveTask
  simp only
  have hsc := h.solveEq t.id.rank t.dir hdir
  rw [solveCount_append G hact hlog, if_pos ⟨rfl, rfl⟩] at hsc
  have hmid := fun delta inc1 out1 => h.solve_mid hG ht delta inc1 out1 hsc
  rw [hsc]
  simp only
  rw [foldlM_solveEntry G hG t hcell _ _ (fun e he => he)]
  exact Inv.foldlM_deliver (hG.rank_lt _ hcell) _ (hmid _ _ _)

/-- The state in `receive_messages_from_rank` before the loop over the data. -/
theorem Inv.receive_mid {G : Grid K R} {s : State R} {x r q : Nat}
    (h : Inv G s x []) (hr : r < G.numRanks) {msg : List (Data R)} {rest : List (List (Data R))}
    (hc : s.chan q r = msg :: rest) (hmsg : msg ≠ []) :
    Inv G { s with
      recvCount := upd2 s.recvCount r q (s.recvCount r q - msg.length)
      chan := upd2 s.chan q r rest } r msg := by
  have hqueue : queue s q r = msg ++ (rest.flatten ++ s.toSend q r) := by
    unfold queue; rw [hc, List.flatten_cons, List.append_assoc]
  have hmem : ∀ dat ∈ msg, dat ∈ queue s q r := by
    intro dat hd; rw [hqueue]; exact List.mem_append_left _ hd
  obtain ⟨d0, hd0⟩ := List.exists_mem_of_ne_nil msg hmsg
  have hq0 := h.queueOk q r d0 (hmem d0 hd0)
  have hrecv := h.recvEq r hr q hq0.1 hq0.2.1
  rw [hqueue, List.length_append] at hrecv
  simp only [List.countP_nil, ite_self] at hrecv
  set s' : State R := { s with
      recvCount := upd2 s.recvCount r q (s.recvCount r q - msg.length)
      chan := upd2 s.chan q r rest } with hs'
  have hq' : ∀ q' r', queue s' q' r' = if q' = q ∧ r' = r then rest.flatten ++ s.toSend q r
      else queue s q' r' := by
    intro q' r'
    unfold queue
    show (upd2 s.chan q r rest q' r').flatten ++ s.toSend q' r' = _
    unfold upd2
    split
    · rename_i hc; rw [hc.1, hc.2]
    · rfl
  have hsub : ∀ q' r', ∀ dat ∈ queue s' q' r', dat ∈ queue s q' r' := by
    intro q' r' dat hd
    rw [hq'] at hd
    split at hd
    · rename_i hc; rw [hc.1, hc.2, hqueue]; exact List.mem_append_right _ hd
    · exact hd
  refine ⟨h.logNodup, h.logAct, h.todoNodup, h.todoIff, ?_, h.solveEq, ?_, ?_, ?_, h.order⟩
  · intro v hv d hd
    show s.miss v d = remMiss G s.log v d + inflight G s' v d + _
    rw [h.missEq v hv d hd, List.countP_nil, add_zero, add_assoc]
    congr 1
    unfold inflight
    by_cases hvr : v.rank = r
    · rw [← Finset.sum_erase_add _ _ (Finset.mem_range.2 hq0.1),
        ← Finset.sum_erase_add (a := q) (Finset.range G.numRanks) _ (Finset.mem_range.2 hq0.1),
        add_assoc]
      congr 1
      · apply Finset.sum_congr rfl
        intro q' hq''
        rw [hq', if_neg (fun hc => (Finset.mem_erase.1 hq'').1 hc.1)]
      · rw [hq', if_pos ⟨rfl, hvr⟩, hvr, hqueue, List.countP_append]
        omega
    · have h1 : msg.countP (isFor v d false) = 0 := by
        rw [List.countP_eq_zero]
        intro dat hdat hf
        apply hvr
        rw [← (isFor_iff.1 hf).1]
        exact (h.queueOk q r dat (hmem dat hdat)).2.2.2.1
      rw [h1, add_zero]
      apply Finset.sum_congr rfl
      intro q' _
      rw [hq', if_neg (fun hc => hvr hc.2)]
  · intro r' hr' q' hq'' hqr
    show upd2 s.recvCount r q _ r' q' = remRecv G s.log r' q' + (queue s' q' r').length + _
    unfold upd2
    have hextra : (if q' = r then msg.countP (fun d => decide (d.id.rank = r')) else 0) = 0 := by
      split
      · rename_i hc
        rw [List.countP_eq_zero]
        intro dat hdat hf
        have h1 := (h.queueOk q r dat (hmem dat hdat)).2.2.2.1
        have h2 : dat.id.rank = r' := by simpa using hf
        apply hqr
        rw [hc, ← h1, h2]
      · rfl
    rw [hextra, hq', add_zero]
    by_cases hcc : r' = r ∧ q' = q
    · rw [if_pos hcc, if_pos ⟨hcc.2, hcc.1⟩, hrecv, hcc.1, hcc.2]
      omega
    · rw [if_neg hcc, if_neg (fun hc => hcc ⟨hc.2, hc.1⟩), h.recvEq r' hr' q' hq'' hqr]
      simp
  · intro q' r' dat hd
    exact h.queueOk q' r' dat (hsub q' r' dat hd)
  · intro dat hd
    have := h.queueOk q r dat (hmem dat hd)
    exact ⟨(mem_act.1 this.2.2.1).1, this.2.2.2.2, fun _ => this.2.2.1⟩

/-- Receiving a message does not panic and preserves the invariant. -/
theorem Inv.receive [AddCommGroup R] {G : Grid K R} {s : State R} {x r q : Nat}
    (h : Inv G s x []) (hr : r < G.numRanks) {msg : List (Data R)} {rest : List (List (Data R))}
    (hc : s.chan q r = msg :: rest) (hmsg : msg ≠ []) :
    ∃ s', receiveMsg G s r q msg rest = some s' ∧ Inv G s' r [] := by
  have hqueue : queue s q r = msg ++ (rest.flatten ++ s.toSend q r) := by
    unfold queue; rw [hc, List.flatten_cons, List.append_assoc]
  have hmem : ∀ dat ∈ msg, dat ∈ queue s q r := by
    intro dat hd; rw [hqueue]; exact List.mem_append_left _ hd
  obtain ⟨d0, hd0⟩ := List.exists_mem_of_ne_nil msg hmsg
  have hq0 := h.queueOk q r d0 (hmem d0 hd0)
  have hrecv := h.recvEq r hr q hq0.1 hq0.2.1
  rw [hqueue, List.length_append] at hrecv
  simp only [List.countP_nil, ite_self] at hrecv
  unfold receiveMsg
  rw [if_neg (by omega), foldlM_receiveData G r msg (fun d hd => (h.queueOk q r d (hmem d hd)).2.2.2.1)]
  exact Inv.foldlM_deliver hr _ (h.receive_mid hr hc hmsg)

theorem mem_others {n r q : Nat} : q ∈ others n r ↔ q < n ∧ q ≠ r := by
  simp [others]

end Verif.Sweep
