import Verif.Sweep.Invariant
import Mathlib.Algebra.Module.BigOperators
import Mathlib.Tactic.Abel

/-!
# The distributed sweep: invariant on the rates
-/

namespace Verif.Sweep

variable {K R : Type} [Field K] [LinearOrder K] [AddCommGroup R] [Module K R]

/-- The part of the outgoing rate of `u` that goes to `v` (not through periodic boundaries). -/
def flow (G : Grid K R) (u v : Id) (d : Nat) : K :=
  (((G.nbrs u).filter (fun e => decide (downwind e.1 (G.dir d)) &&
    decide (e.2.target = some (v, false)))).map (fun e => fraction G u d e.1)).sum

omit [AddCommGroup R] [Module K R] in
theorem flow_eq_zero {G : Grid K R} {u v : Id} {d : Nat} (h : downCount G u v false d = 0) :
    flow G u v d = 0 := by
  unfold downCount at h
  unfold flow
  rw [List.countP_eq_length_filter, List.length_eq_zero_iff] at h
  rw [h]; rfl

/-- Sum of the rates of the data for a cell and direction. -/
def sumFor (l : List (Data R)) (v : Id) (d : Nat) : R :=
  ((l.filter (isFor v d false)).map Data.rate).sum

theorem sumFor_nil (v : Id) (d : Nat) : sumFor ([] : List (Data R)) v d = 0 := rfl

theorem sumFor_append (l m : List (Data R)) (v : Id) (d : Nat) :
    sumFor (l ++ m) v d = sumFor l v d + sumFor m v d := by
  unfold sumFor; simp

theorem sumFor_cons (a : Data R) (l : List (Data R)) (v : Id) (d : Nat) :
    sumFor (a :: l) v d = (if isFor v d false a then a.rate else 0) + sumFor l v d := by
  unfold sumFor
  rw [List.filter_cons]
  split <;> simp

theorem sumFor_eq_zero {l : List (Data R)} {v : Id} {d : Nat}
    (h : l.countP (isFor v d false) = 0) : sumFor l v d = 0 := by
  unfold sumFor
  rw [List.countP_eq_length_filter, List.length_eq_zero_iff] at h
  rw [h]; rfl

/-- Rates on their way to a cell and direction. -/
def inflightRate (G : Grid K R) (s : State R) (v : Id) (d : Nat) : R :=
  ∑ q ∈ Finset.range G.numRanks, sumFor (queue s q v.rank) v d

/-- Rate corrections of solved cells meant for `v`; corrections for inactive cells of other ranks
are not sent. -/
def delivered (G : Grid K R) (s0 s : State R) (v : Id) (d : Nat) : R :=
  ∑ u ∈ G.act, if (⟨u, d⟩ : Task) ∈ s.log ∧ (v ∈ G.act ∨ u.rank = v.rank) then
    flow G u v d • (s.out u d - s0.out u d) else 0

/-- Invariant on the rates, relative to the initial state `s0`. -/
structure Val (G : Grid K R) (s0 s : State R) (pend : List (Data R)) : Prop where
  outUnsolved : ∀ v d, (⟨v, d⟩ : Task) ∉ s.log → s.out v d = s0.out v d
  incEq : ∀ v ∈ G.cells, ∀ d < G.numDirs, (⟨v, d⟩ : Task) ∉ s.log →
    s.inc v d + inflightRate G s v d + sumFor pend v d = s0.inc v d + delivered G s0 s v d
  incSolved : ∀ v d, (⟨v, d⟩ : Task) ∈ s.log → s.inc v d =
    G.makePositive (s0.inc v d + ∑ u ∈ G.act, flow G u v d • (s.out u d - s0.out u d))
  noPer : NoPeriodic G → (∀ q r, ∀ dat ∈ queue s q r, dat.periodic = false) ∧
    (∀ dat ∈ pend, dat.periodic = false) ∧ s.per = s0.per
  outSolved : NoPeriodic G → ∀ v d, (⟨v, d⟩ : Task) ∈ s.log →
    s.out v d = G.absorb v (s.inc v d + G.source v + s0.per v d)

theorem Val.init (G : Grid K R) {s : State R} (hlog : s.log = []) (hq : ∀ q r, queue s q r = []) :
    Val G s s [] := by
  constructor
  · intro _ _ _; rfl
  · intro v _ d _ _
    have h1 : inflightRate G s v d = 0 := by
      unfold inflightRate; apply Finset.sum_eq_zero; intro q _; rw [hq]; rfl
    have h2 : delivered G s s v d = 0 := by
      unfold delivered; apply Finset.sum_eq_zero; intro u _; rw [hlog]; simp
    rw [h1, h2, sumFor_nil, add_zero]
  · intro v d h; rw [hlog] at h; exact absurd h (List.not_mem_nil)
  · intro _
    exact ⟨fun q r dat hd => by rw [hq] at hd; exact absurd hd (List.not_mem_nil),
      fun dat hd => absurd hd (List.not_mem_nil), rfl⟩
  · intro _ v d h; rw [hlog] at h; exact absurd h (List.not_mem_nil)

omit [Module K R] in
/-- Effect of `deliver` on the rates. -/
theorem deliver_rates {G : Grid K R} {x : Nat} {s s' : State R} {dat : Data R}
    (h : deliver G x s dat = some s') :
    (dat.id.rank = x ∧ dat.periodic = true ∧ s'.inc = s.inc ∧ s'.toSend = s.toSend ∧
      s'.per = upd2 s.per dat.id dat.dir (s.per dat.id dat.dir + dat.rate)) ∨
    (dat.id.rank = x ∧ dat.periodic = false ∧ s'.per = s.per ∧ s'.toSend = s.toSend ∧
      s'.inc = upd2 s.inc dat.id dat.dir (s.inc dat.id dat.dir + dat.rate)) ∨
    (dat.id.rank ≠ x ∧ s'.inc = s.inc ∧ s'.per = s.per ∧
      s'.toSend = upd2 s.toSend x dat.id.rank (s.toSend x dat.id.rank ++ [dat])) := by
  unfold deliver at h
  by_cases hr : dat.id.rank = x
  · rw [if_pos hr] at h
    unfold receiveData at h
    split at h
    · rename_i hp
      simp only [Option.some.injEq] at h
      subst h
      exact Or.inl ⟨hr, hp, rfl, rfl, rfl⟩
    · rename_i hp
      have hp' : dat.periodic = false := by simpa using hp
      unfold handleLocal at h
      simp only at h
      split at h
      · split at h
        · simp at h
        · split at h
          · simp only [Option.some.injEq] at h
            subst h
            exact Or.inr (Or.inl ⟨hr, hp', rfl, rfl, rfl⟩)
          · simp only [Option.some.injEq] at h
            subst h
            exact Or.inr (Or.inl ⟨hr, hp', rfl, rfl, rfl⟩)
      · simp only [Option.some.injEq] at h
        subst h
        exact Or.inr (Or.inl ⟨hr, hp', rfl, rfl, rfl⟩)
  · rw [if_neg hr] at h
    simp only [Option.some.injEq] at h
    subst h
    exact Or.inr (Or.inr ⟨hr, rfl, rfl, rfl⟩)

theorem delivered_congr {G : Grid K R} {s0 s s' : State R} (h1 : s'.log = s.log)
    (h2 : s'.out = s.out) (v : Id) (d : Nat) : delivered G s0 s' v d = delivered G s0 s v d := by
  unfold delivered; rw [h1, h2]

theorem Val.deliver {G : Grid K R} {s0 s s' : State R} {x : Nat} {dat : Data R}
    {pend : List (Data R)} (hx : x < G.numRanks) (hi : Inv G s x (dat :: pend))
    (h : Val G s0 s (dat :: pend)) (hd : deliver G x s dat = some s') : Val G s0 s' pend := by
  have hf := deliver_frame hd
  have hok := hi.pendOk dat (List.mem_cons_self ..)
  rcases deliver_rates hd with ⟨hr, hp, e1, e2, e3⟩ | ⟨hr, hp, e1, e2, e3⟩ | ⟨hr, e1, e2, e3⟩
  · -- periodic
    have hq : ∀ q r, queue s' q r = queue s q r := by
      intro q r; unfold queue; rw [hf.chan, e2]
    have hinf : ∀ v d, inflightRate G s' v d = inflightRate G s v d := by
      intro v d; unfold inflightRate; simp only [hq]
    have hnp : ¬ NoPeriodic G := by
      intro hn
      have := (h.noPer hn).2.1 dat (List.mem_cons_self ..)
      rw [hp] at this; simp at this
    refine ⟨?_, ?_, ?_, fun hn => absurd hn hnp, fun hn => absurd hn hnp⟩
    · rw [hf.log, hf.out]; exact h.outUnsolved
    · intro v hv d hd' hl
      rw [hf.log] at hl
      have := h.incEq v hv d hd' hl
      rw [sumFor_cons, if_neg (by rw [isFor_iff, hp]; simp), zero_add] at this
      rw [e1, hinf, delivered_congr hf.log hf.out]
      exact this
    · rw [hf.log, hf.out, e1]; exact h.incSolved
  · -- local
    have hq : ∀ q r, queue s' q r = queue s q r := by
      intro q r; unfold queue; rw [hf.chan, e2]
    have hinf : ∀ v d, inflightRate G s' v d = inflightRate G s v d := by
      intro v d; unfold inflightRate; simp only [hq]
    have hnlog : (⟨dat.id, dat.dir⟩ : Task) ∉ s.log := by
      intro hl
      have h1 := hi.logAct _ hl
      have h2 := hi.missEq dat.id h1.1 dat.dir h1.2.1
      rw [List.countP_cons, if_pos (isFor_iff.2 ⟨rfl, rfl, hp⟩)] at h2
      have h3 : s.miss dat.id dat.dir = 0 := h1.2.2
      omega
    have hinc : ∀ v d, (⟨v, d⟩ : Task) ∈ s.log → s'.inc v d = s.inc v d := by
      intro v d hl
      rw [e3]; unfold upd2
      rw [if_neg]
      rintro ⟨rfl, rfl⟩
      exact hnlog hl
    refine ⟨?_, ?_, ?_, ?_, ?_⟩
    · rw [hf.log, hf.out]; exact h.outUnsolved
    · intro v hv d hd' hl
      rw [hf.log] at hl
      have := h.incEq v hv d hd' hl
      rw [hinf, delivered_congr hf.log hf.out, ← this, sumFor_cons, e3]
      unfold upd2
      by_cases hvd : v = dat.id ∧ d = dat.dir
      · rw [if_pos hvd, if_pos (isFor_iff.2 ⟨hvd.1.symm, hvd.2.symm, hp⟩), hvd.1, hvd.2]
        abel
      · rw [if_neg hvd, if_neg (by rw [isFor_iff]; exact fun hc => hvd ⟨hc.1.symm, hc.2.1.symm⟩),
          zero_add]
    · intro v d hl
      rw [hf.log] at hl
      rw [hinc v d hl, hf.out]; exact h.incSolved v d hl
    · intro hn
      have := h.noPer hn
      refine ⟨fun q r => by rw [hq]; exact this.1 q r,
        fun d hd => this.2.1 d (List.mem_cons_of_mem _ hd), by rw [e1]; exact this.2.2⟩
    · intro hn v d hl
      rw [hf.log] at hl
      rw [hinc v d hl, hf.out]; exact h.outSolved hn v d hl
  · -- remote
    have hq : ∀ q r, queue s' q r =
        if q = x ∧ r = dat.id.rank then queue s q r ++ [dat] else queue s q r := by
      intro q r
      unfold queue
      rw [hf.chan, e3]
      unfold upd2
      split
      · rename_i hc
        rw [hc.1, hc.2, List.append_assoc]
      · rfl
    have hinf : ∀ v d, inflightRate G s' v d = inflightRate G s v d +
        if isFor v d false dat then dat.rate else 0 := by
      intro v d
      unfold inflightRate
      by_cases hf : isFor v d false dat = true
      · have hrk : v.rank = dat.id.rank := by rw [(isFor_iff.1 hf).1]
        rw [if_pos hf, ← Finset.sum_erase_add _ _ (Finset.mem_range.2 hx),
          ← Finset.sum_erase_add (a := x) (Finset.range G.numRanks) _ (Finset.mem_range.2 hx),
          add_assoc]
        congr 1
        · apply Finset.sum_congr rfl
          intro q hq'
          rw [hq, if_neg (fun hc => (Finset.mem_erase.1 hq').1 hc.1)]
        · rw [hq, if_pos ⟨rfl, hrk⟩, sumFor_append, sumFor_cons, if_pos hf, sumFor_nil, add_zero]
      · rw [if_neg hf, add_zero]
        apply Finset.sum_congr rfl
        intro q _
        rw [hq]
        split
        · rw [sumFor_append, sumFor_cons, if_neg hf, sumFor_nil, add_zero, add_zero]
        · rfl
    refine ⟨?_, ?_, ?_, ?_, ?_⟩
    · rw [hf.log, hf.out]; exact h.outUnsolved
    · intro v hv d hd' hl
      rw [hf.log] at hl
      have := h.incEq v hv d hd' hl
      rw [hinf, delivered_congr hf.log hf.out, ← this, sumFor_cons, e1]
      abel
    · rw [hf.log, hf.out, e1]; exact h.incSolved
    · intro hn
      have := h.noPer hn
      refine ⟨fun q r d hd => ?_, fun d hd => this.2.1 d (List.mem_cons_of_mem _ hd),
        by rw [e2]; exact this.2.2⟩
      rw [hq] at hd
      split at hd
      · rcases List.mem_append.1 hd with hd | hd
        · exact this.1 q r d hd
        · rw [List.mem_singleton] at hd
          rw [hd]; exact this.2.1 dat (List.mem_cons_self ..)
      · exact this.1 q r d hd
    · rw [hf.log, hf.out, e1]; exact h.outSolved

theorem Val.foldlM_deliver {G : Grid K R} {s0 : State R} {x : Nat} (hx : x < G.numRanks)
    (pend : List (Data R)) {s s' : State R} (hi : Inv G s x pend) (h : Val G s0 s pend)
    (hd : pend.foldlM (Sweep.deliver G x) s = some s') : Val G s0 s' [] := by
  induction pend generalizing s with
  | nil =>
    simp only [List.foldlM_nil, Option.pure_def, Option.some.injEq] at hd
    subst hd; exact h
  | cons dat pend ih =>
    obtain ⟨s1, h1, h2⟩ := hi.deliver hx
    rw [List.foldlM_cons, h1] at hd
    exact ih h2 (h.deliver hx hi h1) hd

/-- Rates produced by solving a task. -/
theorem sumFor_pend {G : Grid K R} (hG : WF G) {t : Task} (ht : t.id ∈ G.cells) (delta : R)
    (v : Id) (d : Nat) :
    sumFor ((G.nbrs t.id).filterMap (toData G t delta)) v d =
      if d = t.dir ∧ (v ∈ G.act ∨ t.id.rank = v.rank) then flow G t.id v t.dir • delta else 0 := by
  have key : ∀ es : List (Face K × Neighbour), (∀ e ∈ es, e ∈ G.nbrs t.id) →
      sumFor (es.filterMap (toData G t delta)) v d =
      if d = t.dir ∧ (v ∈ G.act ∨ t.id.rank = v.rank) then
        ((es.filter (fun e => decide (downwind e.1 (G.dir t.dir)) &&
          decide (e.2.target = some (v, false)))).map (fun e => fraction G t.id t.dir e.1)).sum • delta
      else 0 := by
    intro es hes
    induction es with
    | nil => simp [sumFor]
    | cons e es ih =>
      have ih' := ih (fun e he => hes e (List.mem_cons_of_mem _ he))
      have he := hes e (List.mem_cons_self ..)
      cases htd : toData G t delta e with
      | none =>
        rw [List.filterMap_cons_none htd, ih', List.filter_cons]
        split
        · rename_i hc
          rw [if_neg]
          intro hq
          simp only [Bool.and_eq_true, decide_eq_true_eq] at hq
          obtain ⟨f, nb⟩ := e
          simp only at hq
          unfold toData at htd
          rw [if_pos hq.1] at htd
          cases nb with
          | loc id => simp at htd
          | boundary => simp [Neighbour.target] at hq
          | locPeriodic id => simp at htd
          | remotePeriodic id => simp [Neighbour.target] at hq
          | remote id =>
            have hw := hG.remote _ ht f id (Or.inl he)
            simp only [Neighbour.target, Option.some.injEq, Prod.mk.injEq, and_true] at hq
            simp only [isActive_remote hw.2.1 hw.2.2, ite_eq_right_iff, reduceCtorEq] at htd
            rcases hc.2 with h1 | h1
            · exact htd (hq.2 ▸ (mem_act.1 h1).2)
            · exact hw.2.1 (by rw [hq.2]; exact h1.symm)
        · rfl
      | some dat =>
        have hok := toData_ok hG ht he htd
        rw [List.filterMap_cons_some htd, sumFor_cons, ih', List.filter_cons]
        by_cases hfor : isFor v d false dat = true
        · obtain ⟨h1, h2, h3⟩ := isFor_iff.1 hfor
          have hcond : d = t.dir ∧ (v ∈ G.act ∨ t.id.rank = v.rank) := by
            refine ⟨by rw [← h2]; exact hok.2.2.1, ?_⟩
            by_cases hrk : t.id.rank = v.rank
            · exact Or.inr hrk
            · left
              rw [← h1] at hrk ⊢
              exact hok.2.2.2.2.2 (fun hc => hrk hc.symm)
          have htg : e.2.target = some (v, false) := by rw [hok.2.1, h1, h3]
          rw [if_pos hfor, if_pos hcond, if_pos hcond, if_pos (by simp [hok.1, htg]),
            List.map_cons, List.sum_cons, add_smul, hok.2.2.2.1]
        · rw [if_neg hfor, zero_add]
          split
          · rename_i hc
            rw [if_neg]
            intro hq
            simp only [Bool.and_eq_true, decide_eq_true_eq] at hq
            apply hfor
            rw [isFor_iff]
            have h3 := hok.2.1
            rw [hq.2] at h3
            simp only [Option.some.injEq, Prod.mk.injEq] at h3
            exact ⟨h3.1.symm, by rw [hok.2.2.1, hc.1], h3.2.symm⟩
          · rfl
  exact key (G.nbrs t.id) (fun e he => he)

theorem Val.solve {G : Grid K R} (hG : WF G) {s0 s s' : State R} {x r : Nat} (hi : Inv G s x [])
    (h : Val G s0 s []) {t : Task} (ht : t ∈ s.todo r)
    (hs : solveTask G { s with todo := upd s.todo r ((s.todo r).erase t) } t = some s') :
    Val G s0 s' [] := by
  obtain ⟨hact, hrank, hdir, hmiss, hlog⟩ := (hi.todoIff r t).1 ht
  have hcell := (mem_act.1 hact).1
  -- the invariant on the intermediate state, recovered from `Inv.solve`
  have hmz := hi.missEq t.id hact t.dir hdir
  rw [hmiss] at hmz
  have hrem : remMiss G s.log t.id t.dir = 0 := by omega
  have hinfl : inflight G s t.id t.dir = 0 := by omega
  have hup : ∀ u ∈ G.act, (⟨u, t.dir⟩ : Task) ∉ s.log → flow G u t.id t.dir = 0 := by
    intro u hu hnl
    unfold remMiss at hrem
    rw [Finset.sum_eq_zero_iff] at hrem
    have := hrem u hu
    rw [if_neg hnl] at this
    exact flow_eq_zero this
  obtain ⟨s'', hs'', hinv''⟩ := hi.solve hG ht
  -- unfold the step
  have hs2 := hs
  unfold solveTask at hs2
  simp only at hs2
  split at hs2
  · simp at hs2
  rename_i c hc
  rw [foldlM_solveEntry G hG t hcell _ _ (fun e he => he)] at hs2
  -- invariant of the intermediate state
  set inc1 := G.makePositive (s.inc t.id t.dir) with hinc1
  set out1 := G.absorb t.id (inc1 + G.source t.id + s.per t.id t.dir) with hout1
  set delta := out1 - s.out t.id t.dir with hdelta
  set s1 : State R := { s with
    todo := upd s.todo r ((s.todo r).erase t)
    inc := upd2 s.inc t.id t.dir inc1
    out := upd2 s.out t.id t.dir out1
    solveCount := upd2 s.solveCount t.id.rank t.dir c
    log := s.log ++ [t] } with hs1
  have hinv1 : Inv G s1 t.id.rank ((G.nbrs t.id).filterMap (toData G t delta)) :=
    hi.solve_mid hG ht delta inc1 out1 hc
  refine Val.foldlM_deliver (hG.rank_lt _ hcell) _ hinv1 ?_ hs2
  have hlogmem : ∀ a : Task, a ∈ s1.log ↔ a ∈ s.log ∨ a = t := by
    intro a; show a ∈ s.log ++ [t] ↔ _; simp
  have houtne : ∀ v d, (⟨v, d⟩ : Task) ≠ t → s1.out v d = s.out v d := by
    intro v d hne
    show upd2 s.out t.id t.dir out1 v d = _
    unfold upd2
    rw [if_neg]
    rintro ⟨rfl, rfl⟩; exact hne rfl
  have houtt : s1.out t.id t.dir = out1 := by
    show upd2 s.out t.id t.dir out1 t.id t.dir = _
    unfold upd2; simp
  have hincne : ∀ v d, (⟨v, d⟩ : Task) ≠ t → s1.inc v d = s.inc v d := by
    intro v d hne
    show upd2 s.inc t.id t.dir inc1 v d = _
    unfold upd2
    rw [if_neg]
    rintro ⟨rfl, rfl⟩; exact hne rfl
  have hinct : s1.inc t.id t.dir = inc1 := by
    show upd2 s.inc t.id t.dir inc1 t.id t.dir = _
    unfold upd2; simp
  have hout0 : s.out t.id t.dir = s0.out t.id t.dir := h.outUnsolved _ _ hlog
  -- the full sum of corrections does not change where `t` does not contribute
  have hfull : ∀ v d, (d = t.dir → flow G t.id v d = 0) →
      ∑ u ∈ G.act, flow G u v d • (s1.out u d - s0.out u d) =
      ∑ u ∈ G.act, flow G u v d • (s.out u d - s0.out u d) := by
    intro v d hz
    apply Finset.sum_congr rfl
    intro u _
    by_cases hut : (⟨u, d⟩ : Task) = t
    · have h1 : u = t.id := by rw [← hut]
      have h2 : d = t.dir := by rw [← hut]
      rw [h1, hz h2, zero_smul, zero_smul]
    · rw [houtne u d hut]
  have hinct0 : s.inc t.id t.dir =
      s0.inc t.id t.dir + ∑ u ∈ G.act, flow G u t.id t.dir • (s.out u t.dir - s0.out u t.dir) := by
    have := h.incEq t.id hcell t.dir hdir hlog
    have hir : inflightRate G s t.id t.dir = 0 := by
      unfold inflightRate
      unfold inflight at hinfl
      rw [Finset.sum_eq_zero_iff] at hinfl
      exact Finset.sum_eq_zero (fun q hq => sumFor_eq_zero (hinfl q hq))
    rw [hir, sumFor_nil, add_zero, add_zero] at this
    rw [this]
    congr 1
    unfold delivered
    apply Finset.sum_congr rfl
    intro u hu
    by_cases hl : (⟨u, t.dir⟩ : Task) ∈ s.log
    · rw [if_pos ⟨hl, Or.inl hact⟩]
    · rw [if_neg (fun hc => hl hc.1), hup u hu hl, zero_smul]
  constructor
  · intro v d hl
    rw [hlogmem, not_or] at hl
    rw [houtne v d hl.2]; exact h.outUnsolved v d hl.1
  · intro v hv d hd hl
    rw [hlogmem, not_or] at hl
    have := h.incEq v hv d hd hl.1
    rw [sumFor_nil, add_zero] at this
    rw [sumFor_pend hG hcell, hincne v d hl.2]
    have hinf : inflightRate G s1 v d = inflightRate G s v d := rfl
    rw [hinf, this, add_assoc]
    congr 1
    unfold delivered
    rw [← Finset.sum_erase_add _ _ hact, ← Finset.sum_erase_add (a := t.id) G.act _ hact, add_assoc]
    congr 1
    · apply Finset.sum_congr rfl
      intro u hu
      have hne : (⟨u, d⟩ : Task) ≠ t := fun hc => (Finset.mem_erase.1 hu).1 (by rw [← hc])
      simp only [hlogmem, hne, or_false, houtne u d hne]
    · by_cases hdd : d = t.dir
      · subst hdd
        rw [if_neg (fun hc => hlog hc.1), zero_add, houtt, hdelta, hout0]
        simp only [hlogmem, true_and, or_true]
      · have hne : (⟨t.id, d⟩ : Task) ≠ t := fun hc => hdd (by rw [← hc])
        simp only [hlogmem, hne, or_false, houtne t.id d hne, hdd, false_and, if_false, add_zero]
  · intro v d hl
    rw [hlogmem] at hl
    rcases hl with hl | hl
    · have hne : (⟨v, d⟩ : Task) ≠ t := fun hc => hlog (hc ▸ hl)
      rw [hincne v d hne, h.incSolved v d hl, hfull]
      intro hdd
      subst hdd
      obtain ⟨l1, l2, hsplit⟩ := List.append_of_mem hl
      apply flow_eq_zero
      by_contra hpos
      have := hi.order l1 _ l2 hsplit t.id hact (Nat.pos_of_ne_zero hpos)
      apply hlog
      rw [hsplit]
      exact List.mem_append_left _ this
    · have h1 : v = t.id := by rw [← hl]
      have h2 : d = t.dir := by rw [← hl]
      subst h1 h2
      rw [hinct, hinc1, hfull _ _ (fun _ => hup t.id hact hlog), hinct0]
  · intro hn
    have hp := h.noPer hn
    refine ⟨hp.1, ?_, hp.2.2⟩
    intro dat hdat
    obtain ⟨e, he, hed⟩ := List.mem_filterMap.1 hdat
    have hok := toData_ok hG hcell he hed
    have hne := hn t.id hcell e he
    cases hpd : dat.periodic with
    | false => rfl
    | true =>
      exfalso
      have htg := hok.2.1
      rw [hpd] at htg
      cases hnb : e.2 with
      | loc id => rw [hnb] at htg; simp [Neighbour.target] at htg
      | remote id => rw [hnb] at htg; simp [Neighbour.target] at htg
      | boundary => rw [hnb] at htg; simp [Neighbour.target] at htg
      | locPeriodic id => exact (hne id).1 hnb
      | remotePeriodic id => exact (hne id).2 hnb
  · intro hn v d hl
    rw [hlogmem] at hl
    rcases hl with hl | hl
    · have hne : (⟨v, d⟩ : Task) ≠ t := fun hc => hlog (hc ▸ hl)
      rw [houtne v d hne, hincne v d hne]; exact h.outSolved hn v d hl
    · have h1 : v = t.id := by rw [← hl]
      have h2 : d = t.dir := by rw [← hl]
      subst h1 h2
      rw [houtt, hinct, hout1, (h.noPer hn).2.2]

theorem Val.receive {G : Grid K R} {s0 s s' : State R} {x r q : Nat} (hi : Inv G s x [])
    (h : Val G s0 s []) (hr : r < G.numRanks) {msg : List (Data R)} {rest : List (List (Data R))}
    (hc : s.chan q r = msg :: rest) (hmsg : msg ≠ [])
    (hs : receiveMsg G s r q msg rest = some s') : Val G s0 s' [] := by
  have hqueue : queue s q r = msg ++ (rest.flatten ++ s.toSend q r) := by
    unfold queue; rw [hc, List.flatten_cons, List.append_assoc]
  have hmem : ∀ dat ∈ msg, dat ∈ queue s q r := by
    intro dat hd; rw [hqueue]; exact List.mem_append_left _ hd
  obtain ⟨d0, hd0⟩ := List.exists_mem_of_ne_nil msg hmsg
  have hq0 := hi.queueOk q r d0 (hmem d0 hd0)
  have hs2 := hs
  unfold receiveMsg at hs2
  split at hs2
  · simp at hs2
  rw [foldlM_receiveData G r msg (fun d hd => (hi.queueOk q r d (hmem d hd)).2.2.2.1)] at hs2
  refine Val.foldlM_deliver hr msg (hi.receive_mid hr hc hmsg) ?_ hs2
  set s1 : State R := { s with
      recvCount := upd2 s.recvCount r q (s.recvCount r q - msg.length)
      chan := upd2 s.chan q r rest } with hs1
  have hq' : ∀ q' r', queue s1 q' r' = if q' = q ∧ r' = r then rest.flatten ++ s.toSend q r
      else queue s q' r' := by
    intro q' r'
    unfold queue
    show (upd2 s.chan q r rest q' r').flatten ++ s.toSend q' r' = _
    unfold upd2
    split
    · rename_i hc; rw [hc.1, hc.2]
    · rfl
  refine ⟨h.outUnsolved, ?_, h.incSolved, ?_, h.outSolved⟩
  · intro v hv d hd hl
    have := h.incEq v hv d hd hl
    rw [sumFor_nil, add_zero] at this
    show s.inc v d + inflightRate G s1 v d + sumFor msg v d = s0.inc v d + delivered G s0 s v d
    rw [← this, add_assoc]
    congr 1
    unfold inflightRate
    by_cases hvr : v.rank = r
    · rw [← Finset.sum_erase_add _ _ (Finset.mem_range.2 hq0.1),
        ← Finset.sum_erase_add (a := q) (Finset.range G.numRanks) _ (Finset.mem_range.2 hq0.1),
        add_assoc]
      congr 1
      · apply Finset.sum_congr rfl
        intro q' hq''
        rw [hq', if_neg (fun hc => (Finset.mem_erase.1 hq'').1 hc.1)]
      · rw [hq', if_pos ⟨rfl, hvr⟩, hvr, hqueue, sumFor_append msg, add_comm]
    · have h1 : sumFor msg v d = 0 := by
        apply sumFor_eq_zero
        rw [List.countP_eq_zero]
        intro dat hdat hf
        apply hvr
        rw [← (isFor_iff.1 hf).1]
        exact (hi.queueOk q r dat (hmem dat hdat)).2.2.2.1
      rw [h1, add_zero]
      apply Finset.sum_congr rfl
      intro q' _
      rw [hq', if_neg (fun hc => hvr hc.2)]
  · intro hn
    have hp := h.noPer hn
    refine ⟨fun q' r' dat hd => ?_, fun dat hd => hp.1 q r dat (hmem dat hd), hp.2.2⟩
    rw [hq'] at hd
    split at hd
    · exact hp.1 q r dat (by rw [hqueue]; exact List.mem_append_right _ hd)
    · exact hp.1 q' r' dat hd

/-- The rate invariant only looks at these components. -/
theorem Val.congr {G : Grid K R} {s0 s s' : State R} (h : Val G s0 s []) (h1 : s'.log = s.log)
    (h2 : s'.inc = s.inc) (h3 : s'.out = s.out) (h4 : s'.per = s.per)
    (h5 : ∀ q r, queue s' q r = queue s q r) : Val G s0 s' [] := by
  have hinf : ∀ v d, inflightRate G s' v d = inflightRate G s v d := by
    intro v d; unfold inflightRate; simp only [h5]
  refine ⟨?_, ?_, ?_, ?_, ?_⟩
  · rw [h1, h3]; exact h.outUnsolved
  · intro v hv d hd hl
    rw [h2, hinf, delivered_congr h1 h3]
    exact h.incEq v hv d hd (by rw [← h1]; exact hl)
  · rw [h1, h2, h3]; exact h.incSolved
  · simp only [h5]; rw [h4]; exact h.noPer
  · rw [h1, h2, h3]; exact h.outSolved

theorem Val.step {G : Grid K R} (hG : WF G) {s0 s s' : State R} (hg : Good G s)
    (h : Val G s0 s []) {r : Nat} {a : Act} (hs : Step G r a s s') : Val G s0 s' [] := by
  cases hs with
  | exit _ _ hr hpc hcond => exact h.congr rfl rfl rfl rfl (fun _ _ => rfl)
  | enterRecv _ _ hr hpc hcond htodo => exact h.congr rfl rfl rfl rfl (fun _ _ => rfl)
  | enterWork _ _ hr hpc hcond htodo => exact h.congr rfl rfl rfl rfl (fun _ _ => rfl)
  | skip _ _ q qs hr hpc h0 => exact h.congr rfl rfl rfl rfl (fun _ _ => rfl)
  | probe _ _ q qs hr hpc h0 => exact h.congr rfl rfl rfl rfl (fun _ _ => rfl)
  | take _ s1 _ q qs msg rest hr hpc h0 hc hrecv =>
    have hmne : msg ≠ [] := hg.comm.chanNe q r msg (by rw [hc]; exact List.mem_cons_self ..)
    exact (h.receive hg.inv hr hc hmne hrecv).congr rfl rfl rfl rfl (fun _ _ => rfl)
  | recvDone _ _ hr hpc => exact h.congr rfl rfl rfl rfl (fun _ _ => rfl)
  | pop _ s1 _ k t hr hpc ht hsolve =>
    exact (h.solve hG hg.inv ht hsolve).congr rfl rfl rfl rfl (fun _ _ => rfl)
  | workDone _ _ k hr hpc htodo => exact h.congr rfl rfl rfl rfl (fun _ _ => rfl)
  | send _ _ completed hr hpc =>
    exact h.congr rfl rfl rfl rfl (fun q r' => trySendAll_queue _ _ _ _ _ _)

theorem Val.reach {G : Grid K R} (hG : WF G) {s0 s : State R} (hg : Good G s0)
    (h0 : Val G s0 s0 []) (hs : Reach G s0 s) : Val G s0 s [] := by
  induction hs with
  | refl => exact h0
  | step s s' r a hr hstep ih => exact ih.step hG (hg.reach hG hr) hstep

end Verif.Sweep
