import Verif.Sweep.Props

/-!
# The distributed sweep: C33, C34
-/

namespace Verif.Sweep

variable {K R : Type} [Field K] [LinearOrder K] [IsStrictOrderedRing K] [AddCommGroup R]
  [Module K R]

/-! ### C33 -/

omit [IsStrictOrderedRing K] [AddCommGroup R] [Module K R] in
theorem fraction_eq (G : Grid K R) (u : Id) (d : Nat) (e : Face K × Neighbour) :
    fraction G u d e.1 = effArea G d e /
      (((G.nbrs u).filter (fun e => decide (downwind e.1 (G.dir d)))).map (effArea G d)).sum := by
  unfold fraction effArea
  congr 1
  generalize G.nbrs u = es
  induction es with
  | nil => rfl
  | cons e es ih =>
    rw [List.map_cons]
    by_cases hd : downwind e.1 (G.dir d)
    · rw [List.filter_cons_of_pos (by simpa using hd), List.filter_cons_of_pos (by simpa using hd),
        List.foldr_cons, List.map_cons, List.sum_cons, ih]
    · rw [List.filter_cons_of_neg (by simpa using hd), List.filter_cons_of_neg (by simpa using hd)]
      exact ih

omit [LinearOrder K] [IsStrictOrderedRing K] in
theorem sum_map_div (l : List (Face K × Neighbour)) (f : Face K × Neighbour → K) (T : K) :
    (l.map (fun e => f e / T)).sum = (l.map f).sum / T := by
  induction l with
  | nil => simp
  | cons e es ih => rw [List.map_cons, List.map_cons, List.sum_cons, List.sum_cons, ih, add_div]

omit [AddCommGroup R] [Module K R] in
theorem total_pos {G : Grid K R} {u : Id} {d : Nat} (harea : ∀ e ∈ G.nbrs u, 0 < e.1.area)
    (hex : ∃ e ∈ G.nbrs u, downwind e.1 (G.dir d)) :
    0 < (((G.nbrs u).filter (fun e => decide (downwind e.1 (G.dir d)))).map (effArea G d)).sum := by
  apply List.sum_pos
  · intro x hx
    obtain ⟨e, he, rfl⟩ := List.mem_map.1 hx
    rw [List.mem_filter] at he
    have hd : downwind e.1 (G.dir d) := by simpa using he.2
    exact mul_pos (harea e he.1) hd
  · obtain ⟨e, he, hd⟩ := hex
    intro hn
    have : effArea G d e ∈ (((G.nbrs u).filter (fun e => decide (downwind e.1 (G.dir d)))).map (effArea G d)) :=
      List.mem_map.2 ⟨e, List.mem_filter.2 ⟨he, by simpa using hd⟩, rfl⟩
    rw [hn] at this
    exact absurd this (List.not_mem_nil)

omit [AddCommGroup R] [Module K R] in
/-- C33: the weights of the downwind faces are positive and add up to one. -/
theorem fractions_partition {G : Grid K R} {u : Id} {d : Nat}
    (harea : ∀ e ∈ G.nbrs u, 0 < e.1.area) (hex : ∃ e ∈ G.nbrs u, downwind e.1 (G.dir d)) :
    (∀ e ∈ G.nbrs u, downwind e.1 (G.dir d) → 0 < fraction G u d e.1) ∧
    (((G.nbrs u).filter (fun e => decide (0 < e.1.normal.dot (G.dir d)))).map
      (fun e => fraction G u d e.1)).sum = 1 := by
  have hT := total_pos harea hex
  constructor
  · intro e he hd
    rw [fraction_eq]
    exact div_pos (mul_pos (harea e he) hd) hT
  · have : ∀ e, fraction G u d e.1 = effArea G d e /
      (((G.nbrs u).filter (fun e => decide (downwind e.1 (G.dir d)))).map (effArea G d)).sum :=
      fraction_eq G u d
    simp only [this]
    rw [sum_map_div]
    exact div_self (ne_of_gt hT)

omit [AddCommGroup R] [Module K R] in
/-- C33: a face points downwind seen from one side exactly if it points upwind seen from the other,
so at most one of the two cells sends through it. -/
theorem face_one_sided (f g : Face K) (hfg : g.normal = f.normal.neg) (d : V3 K) :
    (downwind f d ↔ upwind g d) ∧ (upwind f d ↔ downwind g d) ∧ ¬ (downwind f d ∧ downwind g d) := by
  have h : g.normal.dot d = -(f.normal.dot d) := by rw [hfg, neg_dot]
  unfold downwind upwind
  rw [h]
  refine ⟨by simp, by simp, ?_⟩
  rintro ⟨h1, h2⟩
  linarith

/-- All photon rate stored in the cells or under way between ranks. -/
def held (G : Grid K R) (s : State R) : R :=
  (∑ v ∈ G.cells, ∑ d ∈ Finset.range G.numDirs, (s.inc v d + s.per v d)) +
  ∑ q ∈ Finset.range G.numRanks, ∑ r ∈ Finset.range G.numRanks,
    ((undelivered s q r).map Data.rate).sum

omit [Field K] [LinearOrder K] [IsStrictOrderedRing K] [Module K R] in
theorem sum_upd2 {A B : Type} [DecidableEq A] [DecidableEq B] (S : Finset A) (T : Finset B)
    (f : A → B → R) {a : A} {b : B} (ha : a ∈ S) (hb : b ∈ T) (x : R) :
    ∑ v ∈ S, ∑ d ∈ T, upd2 f a b (f a b + x) v d = (∑ v ∈ S, ∑ d ∈ T, f v d) + x := by
  have h1 : ∀ v d, upd2 f a b (f a b + x) v d = f v d + if v = a then (if d = b then x else 0) else 0 := by
    intro v d
    unfold upd2
    by_cases h : v = a <;> by_cases h' : d = b <;> simp [h, h']
  simp only [h1, Finset.sum_add_distrib]
  congr 1
  rw [Finset.sum_eq_single a]
  · simp [hb]
  · intro v _ hv; simp [hv]
  · intro h; exact absurd ha h

omit [IsStrictOrderedRing K] [Module K R] in
theorem deliver_held {G : Grid K R} (hG : WF G) {x : Nat} (hx : x < G.numRanks) {s s' : State R}
    {dat : Data R} (hc : dat.id ∈ G.cells) (hdir : dat.dir < G.numDirs)
    (h : deliver G x s dat = some s') : held G s' = held G s + dat.rate := by
  have hf := deliver_frame h
  have hr := hG.rank_lt _ hc
  unfold held
  simp only [Finset.sum_add_distrib]
  rcases deliver_rates h with ⟨_, _, e1, e2, e3⟩ | ⟨_, _, e1, e2, e3⟩ | ⟨_, e1, e2, e3⟩
  · have hq : ∀ q r, undelivered s' q r = undelivered s q r := by
      intro q r; unfold undelivered; rw [hf.chan, e2]
    simp only [hq, e1, e3]
    rw [sum_upd2 _ _ _ hc (Finset.mem_range.2 hdir)]
    abel
  · have hq : ∀ q r, undelivered s' q r = undelivered s q r := by
      intro q r; unfold undelivered; rw [hf.chan, e2]
    simp only [hq, e1, e3]
    rw [sum_upd2 _ _ _ hc (Finset.mem_range.2 hdir)]
    abel
  · have hq : ∀ q r, ((undelivered s' q r).map Data.rate).sum =
        upd2 (fun q r => ((undelivered s q r).map Data.rate).sum) x dat.id.rank
          (((undelivered s x dat.id.rank).map Data.rate).sum + dat.rate) q r := by
      intro q r
      unfold undelivered
      rw [hf.chan, e3]
      unfold upd2
      by_cases hc : q = x ∧ r = dat.id.rank
      · rw [if_pos hc, if_pos hc, hc.1, hc.2]
        simp [add_assoc]
      · rw [if_neg hc, if_neg hc]
    simp only [hq, e1, e2]
    rw [sum_upd2 _ _ (fun q r => ((undelivered s q r).map Data.rate).sum) (Finset.mem_range.2 hx)
      (Finset.mem_range.2 hr)]
    abel

omit [IsStrictOrderedRing K] [Module K R] in
theorem foldlM_deliver_held {G : Grid K R} (hG : WF G) {x : Nat} (hx : x < G.numRanks)
    (l : List (Data R)) (hl : ∀ dat ∈ l, dat.id ∈ G.cells ∧ dat.dir < G.numDirs) {s s' : State R}
    (h : l.foldlM (deliver G x) s = some s') : held G s' = held G s + (l.map Data.rate).sum := by
  induction l generalizing s with
  | nil =>
    simp only [List.foldlM_nil, Option.pure_def, Option.some.injEq] at h
    subst h; simp
  | cons d l ih =>
    rw [List.foldlM_cons] at h
    cases hd : deliver G x s d with
    | none => rw [hd] at h; simp at h
    | some s1 =>
      rw [hd] at h
      have hok := hl d (List.mem_cons_self ..)
      rw [ih (fun e he => hl e (List.mem_cons_of_mem _ he)) h, deliver_held hG hx hok.1 hok.2 hd,
        List.map_cons, List.sum_cons, add_assoc]

/-- C33: if no downwind face of the cell is a domain boundary or leads to an inactive cell of
another rank, solving it hands exactly the change of its outgoing rate to other cells. -/
theorem solve_conserves_photons {G : Grid K R} (hG : WF G) {miss : Id → Nat → Nat}
    {inc out per : Id → Nat → R} {s s' : State R} (h : Reach G (initState G miss inc out per) s)
    {r : Nat} {t : Task} (hs : Step G r (.pop t) s s')
    (harea : ∀ e ∈ G.nbrs t.id, 0 < e.1.area)
    (hex : ∃ e ∈ G.nbrs t.id, downwind e.1 (G.dir t.dir))
    (hint : ∀ e ∈ G.nbrs t.id, downwind e.1 (G.dir t.dir) →
      ∃ v p, e.2.target = some (v, p) ∧ (v.rank = t.id.rank ∨ v ∈ G.act))
    (hpos : G.makePositive (s.inc t.id t.dir) = s.inc t.id t.dir) :
    held G s' = held G s + (s'.out t.id t.dir - s.out t.id t.dir) := by
  have hg := (Good.init hG miss inc out per).reach hG h
  cases hs with
  | pop _ s1 _ k _ hr hpc ht hsolve =>
    obtain ⟨hact, hrank, hdir, hmiss, hlog⟩ := (hg.inv.todoIff r t).1 ht
    have hcell := (mem_act.1 hact).1
    unfold solveTask at hsolve
    simp only at hsolve
    split at hsolve
    · simp at hsolve
    · rename_i c hc
      rw [foldlM_solveEntry G hG t hcell _ _ (fun e he => he)] at hsolve
      set delta := G.absorb t.id (G.makePositive (s.inc t.id t.dir) + G.source t.id + s.per t.id t.dir) -
        s.out t.id t.dir with hdelta
      have hpend : ∀ dat ∈ (G.nbrs t.id).filterMap (toData G t delta),
          dat.id ∈ G.cells ∧ dat.dir < G.numDirs := by
        intro dat hd
        obtain ⟨e, he, hed⟩ := List.mem_filterMap.1 hd
        have := toData_ok hG hcell he hed
        exact ⟨this.2.2.2.2.1, by rw [this.2.2.1]; exact hdir⟩
      have hheld := foldlM_deliver_held hG (hrank ▸ hr) _ hpend hsolve
      have hfr := foldlM_deliver_frame _ hsolve
      have hout : s1.out t.id t.dir = G.absorb t.id
          (G.makePositive (s.inc t.id t.dir) + G.source t.id + s.per t.id t.dir) := by
        rw [hfr.out]
        show upd2 _ _ _ _ _ _ = _
        unfold upd2
        rw [if_pos ⟨rfl, rfl⟩]
      have e1 : held G (setPc s1 r (if k + 1 > G.batch then .send else .work (k + 1))) = held G s1 := rfl
      rw [e1, hheld]
      have e2 : (setPc s1 r (if k + 1 > G.batch then .send else .work (k + 1))).out = s1.out := rfl
      rw [e2, hout]
      congr 1
      · unfold held
        congr 1
        apply Finset.sum_congr rfl
        intro v _
        apply Finset.sum_congr rfl
        intro d _
        congr 1
        show upd2 _ _ _ _ _ _ = _
        unfold upd2
        split
        · rename_i hvd
          rw [hpos, hvd.1, hvd.2]
        · rfl
      · rw [← hdelta]
        have key : ∀ es : List (Face K × Neighbour), (∀ e ∈ es, e ∈ G.nbrs t.id) →
            ((es.filterMap (toData G t delta)).map Data.rate).sum =
            ((es.filter (fun e => decide (0 < e.1.normal.dot (G.dir t.dir)))).map
              (fun e => fraction G t.id t.dir e.1)).sum • delta := by
          intro es
          induction es with
          | nil => intro _; simp
          | cons e es ih =>
            intro hes
            have he := hes e (List.mem_cons_self ..)
            have ih := ih (fun e' he' => hes e' (List.mem_cons_of_mem _ he'))
            by_cases hd : downwind e.1 (G.dir t.dir)
            · have hsome : ∃ dat, toData G t delta e = some dat ∧
                  dat.rate = fraction G t.id t.dir e.1 • delta := by
                obtain ⟨v, p, htg, hv⟩ := hint e he hd
                unfold toData
                rw [if_pos hd]
                obtain ⟨f, nb⟩ := e
                cases nb with
                | loc id => exact ⟨_, rfl, rfl⟩
                | locPeriodic id => exact ⟨_, rfl, rfl⟩
                | boundary => simp [Neighbour.target] at htg
                | remote id =>
                  simp only [Neighbour.target, Option.some.injEq, Prod.mk.injEq] at htg
                  have hrem := hG.remote _ hcell f id (Or.inl he)
                  have hact : id ∈ G.act := by
                    rcases hv with hv | hv
                    · rw [← htg.1] at hv; exact absurd hv hrem.2.1
                    · rw [htg.1]; exact hv
                  have : isActive G t.id.rank id = true := by
                    unfold isActive
                    rw [if_neg hrem.2.1, hrem.2.2]
                    exact (mem_act.1 hact).2
                  exact ⟨⟨id, t.dir, fraction G t.id t.dir f • delta, false⟩, by simp only [this, if_true], rfl⟩
                | remotePeriodic id =>
                  simp only [Neighbour.target, Option.some.injEq, Prod.mk.injEq] at htg
                  have hrem := hG.remote _ hcell f id (Or.inr he)
                  have hact : id ∈ G.act := by
                    rcases hv with hv | hv
                    · rw [← htg.1] at hv; exact absurd hv hrem.2.1
                    · rw [htg.1]; exact hv
                  have : isActive G t.id.rank id = true := by
                    unfold isActive
                    rw [if_neg hrem.2.1, hrem.2.2]
                    exact (mem_act.1 hact).2
                  exact ⟨⟨id, t.dir, fraction G t.id t.dir f • delta, true⟩, by simp only [this, if_true], rfl⟩
              obtain ⟨dat, hdat, hrate⟩ := hsome
              rw [List.filterMap_cons_some hdat, List.map_cons, List.sum_cons, ih, hrate,
                List.filter_cons_of_pos (by exact decide_eq_true hd), List.map_cons, List.sum_cons,
                add_smul]
            · have : toData G t delta e = none := by unfold toData; rw [if_neg hd]
              rw [List.filterMap_cons_none this, ih,
                List.filter_cons_of_neg (by rw [decide_eq_true_eq]; exact hd)]
        rw [key _ (fun e he => he), (fractions_partition harea hex).2, one_smul]

/-! ### C34 -/

omit [IsStrictOrderedRing K] in
/-- Outgoing rates of solved cells come from the chemistry. -/
theorem out_solved {G : Grid K R} (hG : WF G) {s0 s : State R} (h0 : Good G s0) (hl0 : s0.log = [])
    (h : Reach G s0 s) : ∀ v d, (⟨v, d⟩ : Task) ∈ s.log → ∃ x, s.out v d = G.absorb v x := by
  induction h with
  | refl => intro v d hl; rw [hl0] at hl; exact absurd hl (List.not_mem_nil)
  | step s s' r a hr hs ih =>
    have hg := h0.reach hG hr
    cases hs with
    | take _ s1 _ q qs msg rest hr hpc h0 hc hrecv =>
      obtain ⟨s2, h1, h2, h3, h4⟩ := hg.receive hr hpc hc
      rw [hrecv, Option.some.injEq] at h1
      have hlog : s1.log = s.log := by rw [h1, h4]
      have hout : s1.out = s.out := by
        unfold receiveMsg at hrecv
        split at hrecv
        · simp at hrecv
        · have hm : ∀ dat ∈ msg, dat.id.rank = r := by
            intro dat hd
            refine (hg.inv.queueOk q r dat ?_).2.2.2.1
            unfold queue
            rw [hc]
            exact List.mem_append_left _ (List.mem_flatten.2 ⟨msg, List.mem_cons_self .., hd⟩)
          rw [foldlM_receiveData G r msg hm] at hrecv
          exact (foldlM_deliver_frame _ hrecv).out
      intro v d hl
      show ∃ x, s1.out v d = _
      rw [hout]
      exact ih v d (by rw [← hlog]; exact hl)
    | pop _ s1 _ k t hr hpc ht hsolve =>
      obtain ⟨s2, h1, h2, h3, h4⟩ := hg.solve hG hpc ht
      have hcell := (mem_act.1 ((hg.inv.todoIff r t).1 ht).1).1
      have hlog : s1.log = s.log ++ [t] := by
        rw [hsolve, Option.some.injEq] at h1; rw [h1, h4]
      unfold solveTask at hsolve
      simp only at hsolve
      split at hsolve
      · simp at hsolve
      · rw [foldlM_solveEntry G hG t hcell _ _ (fun e he => he)] at hsolve
        have hout := (foldlM_deliver_frame _ hsolve).out
        intro v d hl
        show ∃ x, s1.out v d = _
        rw [hout]
        show ∃ x, upd2 _ _ _ _ _ _ = _
        unfold upd2
        by_cases hvd : v = t.id ∧ d = t.dir
        · rw [if_pos hvd, hvd.1]; exact ⟨_, rfl⟩
        · rw [if_neg hvd]
          apply ih
          have hl' : (⟨v, d⟩ : Task) ∈ s1.log := hl
          rw [hlog, List.mem_append, List.mem_singleton] at hl'
          rcases hl' with hl' | hl'
          · exact hl'
          · rw [← hl'] at hvd; exact absurd ⟨rfl, rfl⟩ hvd
    | _ => exact ih

/-- One sweep from given rates to given rates, in some schedule, with arbitrary counters and
periodic sources left by earlier sweeps. -/
def SweepTo (G : Grid K R) (inc out inc' out' : Id → Nat → R) : Prop :=
  ∃ miss per s, Reach G (initState G miss inc out per) s ∧ Finished G s ∧
    (∀ v ∈ G.cells, ∀ d < G.numDirs, inc' v d = s.inc v d ∧ out' v d = s.out v d)

/-- A sequence of sweeps over grids. -/
inductive Sweeps : List (Grid K R) → (Id → Nat → R) → (Id → Nat → R) → (Id → Nat → R) →
    (Id → Nat → R) → Prop
  | nil (inc out) : Sweeps [] inc out inc out
  | snoc (Gs G inc out inc1 out1 inc2 out2) : Sweeps Gs inc out inc1 out1 →
      SweepTo G inc1 out1 inc2 out2 → Sweeps (Gs ++ [G]) inc out inc2 out2

/-- Two grids with the same cells, faces and directions; levels, chemistry and sources may differ. -/
structure SameGeometry (G H : Grid K R) : Prop where
  cells : H.cells = G.cells
  nbrs : H.nbrs = G.nbrs
  dir : H.dir = G.dir
  numDirs : H.numDirs = G.numDirs

omit [IsStrictOrderedRing K] [AddCommGroup R] [Module K R] in
theorem SameGeometry.share_eq {G H : Grid K R} (h : SameGeometry G H) (d : Nat) (u v : Id) :
    share H d u v = share G d u v := by
  unfold share effArea
  rw [h.nbrs, h.dir]

omit [IsStrictOrderedRing K] [AddCommGroup R] [Module K R] in
theorem share_zero {G : Grid K R} {d : Nat} {u v : Id} (hnf : ¬ Feeds G d u v) :
    share G d u v = 0 := by
  rw [← flow_eq_share]
  apply flow_eq_zero
  unfold downCount
  rw [List.countP_eq_zero]
  intro e he
  simp only [Bool.and_eq_true, decide_eq_true_eq, not_and]
  intro hd ht
  apply hnf
  refine ⟨e, he, hd, ?_⟩
  cases hnb : e.2 <;> rw [hnb] at ht <;> simp [Neighbour.target] at ht
  · exact Or.inl (by rw [ht])
  · exact Or.inr (by rw [ht])

omit [AddCommGroup R] [Module K R] in
theorem share_nonneg {G : Grid K R} {u v : Id} {d : Nat} (harea : ∀ e ∈ G.nbrs u, 0 ≤ e.1.area) :
    0 ≤ share G d u v := by
  have h : ∀ l : List (Face K × Neighbour), (∀ e ∈ l, e ∈ G.nbrs u ∧ downwind e.1 (G.dir d)) →
      0 ≤ (l.map (effArea G d)).sum := by
    intro l hl
    apply List.sum_nonneg
    intro x hx
    obtain ⟨e, he, rfl⟩ := List.mem_map.1 hx
    exact mul_nonneg (harea e (hl e he).1) (le_of_lt (hl e he).2)
  unfold share
  apply div_nonneg
  · apply h
    intro e he
    rw [List.mem_filter, decide_eq_true_eq] at he
    exact ⟨he.1, he.2.1⟩
  · apply h
    intro e he
    rw [List.mem_filter, decide_eq_true_eq] at he
    exact ⟨he.1, he.2⟩

/-- C34: over any sequence of sweeps in which every correction meant for a cell reaches it (always
the case on one rank, and if all cells are active), the incoming rate stored in a cell stays the
sum of what its upwind neighbours currently send to it.  `P` is the set of non-negative rates. -/
theorem incremental_equals_full {G : Grid K R} {Gs : List (Grid K R)}
    (hgeo : ∀ H ∈ Gs, SameGeometry G H ∧ WF H)
    (harea : ∀ u ∈ G.cells, ∀ e ∈ G.nbrs u, 0 ≤ e.1.area)
    (P : R → Prop) (hP0 : P 0) (hPadd : ∀ x y, P x → P y → P (x + y))
    (hPsmul : ∀ (c : K) x, 0 ≤ c → P x → P (c • x))
    (hchem : ∀ H ∈ Gs, (∀ v x, P (H.absorb v x)) ∧ ∀ x, P x → H.makePositive x = x)
    (hreach : ∀ H ∈ Gs, ∀ u ∈ H.act, ∀ v ∈ H.cells, (∃ d < G.numDirs, Feeds H d u v) →
      v ∈ H.act ∨ u.rank = v.rank)
    {inc out inc' out' : Id → Nat → R}
    (h0 : ∀ v ∈ G.cells, ∀ d < G.numDirs, inc v d = ∑ u ∈ G.cells, share G d u v • out u d ∧ P (out v d))
    (h : Sweeps Gs inc out inc' out') :
    ∀ v ∈ G.cells, ∀ d < G.numDirs, inc' v d = ∑ u ∈ G.cells, share G d u v • out' u d := by
  suffices hs : ∀ v ∈ G.cells, ∀ d < G.numDirs,
      inc' v d = ∑ u ∈ G.cells, share G d u v • out' u d ∧ P (out' v d) from
    fun v hv d hd => (hs v hv d hd).1
  induction h with
  | nil => exact h0
  | snoc Gs H inc out inc1 out1 inc2 out2 hsw hto ih =>
    have ih := ih (fun H hH => hgeo H (List.mem_append_left _ hH))
      (fun H hH => hchem H (List.mem_append_left _ hH))
      (fun H hH => hreach H (List.mem_append_left _ hH)) h0
    have hmem : H ∈ Gs ++ [H] := List.mem_append_right _ (List.mem_singleton.2 rfl)
    obtain ⟨hsg, hwf⟩ := hgeo H hmem
    obtain ⟨hPa, hmp⟩ := hchem H hmem
    have hrch := hreach H hmem
    obtain ⟨miss, per, s, hr, hf, hres⟩ := hto
    have hg0 := Good.init hwf miss inc1 out1 per
    have hg := hg0.reach hwf hr
    have hv := Val.reach hwf hg0 (Val.init H rfl (fun _ _ => rfl)) hr
    have hlog := finished_log hwf hg hf
    have hq := finished_queue hwf hg hf
    have hout := out_solved hwf hg0 rfl hr
    have hPout : ∀ v ∈ G.cells, ∀ d < G.numDirs, P (s.out v d) := by
      intro v hvc d hd
      by_cases hl : (⟨v, d⟩ : Task) ∈ s.log
      · obtain ⟨x, hx⟩ := hout v d hl
        rw [hx]; exact hPa v x
      · rw [hv.outUnsolved v d hl]
        exact (ih v hvc d hd).2
    have hactsub : H.act ⊆ G.cells := by
      intro u hu; rw [← hsg.cells]; exact (mem_act.1 hu).1
    have hsum : ∀ v ∈ G.cells, ∀ d < G.numDirs,
        inc1 v d + ∑ u ∈ H.act, share G d u v • (s.out u d - out1 u d) =
          ∑ u ∈ G.cells, share G d u v • s.out u d := by
      intro v hvc d hd
      rw [(ih v hvc d hd).1, ← Finset.sum_sdiff hactsub, ← Finset.sum_sdiff hactsub, add_assoc,
        ← Finset.sum_add_distrib]
      congr 1
      · apply Finset.sum_congr rfl
        intro u hu
        rw [Finset.mem_sdiff] at hu
        have : s.out u d = out1 u d := hv.outUnsolved u d (fun hl => hu.2 (hg.inv.logAct _ hl).1)
        rw [this]
      · apply Finset.sum_congr rfl
        intro u _
        rw [← smul_add]
        congr 1
        abel
    have hPsum : ∀ v ∈ G.cells, ∀ d < G.numDirs, P (∑ u ∈ G.cells, share G d u v • s.out u d) := by
      intro v _ d hd
      have : ∀ S : Finset Id, S ⊆ G.cells → P (∑ u ∈ S, share G d u v • s.out u d) := by
        intro S
        induction S using Finset.induction_on with
        | empty => intro _; simpa using hP0
        | insert a S ha ihS =>
          intro hsub
          rw [Finset.sum_insert ha]
          have hac : a ∈ G.cells := hsub (Finset.mem_insert_self _ _)
          exact hPadd _ _ (hPsmul _ _ (share_nonneg (harea a hac)) (hPout a hac d hd))
            (ihS (fun x hx => hsub (Finset.mem_insert_of_mem hx)))
      exact this _ (fun x hx => hx)
    intro v hvc d hd
    have hvc' : v ∈ H.cells := by rw [hsg.cells]; exact hvc
    have hd' : d < H.numDirs := by rw [hsg.numDirs]; exact hd
    obtain ⟨r1, r2⟩ := hres v hvc' d hd'
    refine ⟨?_, by rw [r2]; exact hPout v hvc d hd⟩
    have hout2 : ∀ u ∈ G.cells, out2 u d = s.out u d := fun u hu =>
      (hres u (by rw [hsg.cells]; exact hu) d hd').2
    rw [r1, Finset.sum_congr rfl (fun u hu => by rw [hout2 u hu])]
    by_cases hva : v ∈ H.act
    · rw [hv.incSolved v d (hlog v hva d hd')]
      have e : (initState H miss inc1 out1 per).inc v d + ∑ u ∈ H.act,
          flow H u v d • (s.out u d - (initState H miss inc1 out1 per).out u d) =
          ∑ u ∈ G.cells, share G d u v • s.out u d := by
        rw [← hsum v hvc d hd]
        simp only [flow_eq_share, hsg.share_eq]
        rfl
      rw [e]
      exact hmp _ (hPsum v hvc d hd)
    · have := hv.incEq v hvc' d hd' (fun hl => hva (hg.inv.logAct _ hl).1)
      have h1 : inflightRate H s v d = 0 := by
        unfold inflightRate; apply Finset.sum_eq_zero; intro q _; rw [hq]; rfl
      rw [h1, sumFor_nil, add_zero, add_zero] at this
      rw [this, ← hsum v hvc d hd]
      show inc1 v d + _ = _
      congr 1
      unfold delivered
      apply Finset.sum_congr rfl
      intro u hu
      rw [flow_eq_share, hsg.share_eq]
      by_cases hfd : Feeds H d u v
      · rw [if_pos ⟨hlog u hu d hd', hrch u hu v hvc' ⟨d, hd, hfd⟩⟩]
        rfl
      · rw [← hsg.share_eq, share_zero hfd, zero_smul, zero_smul, ite_self]

end Verif.Sweep
