import Verif.Sweep.Spec
import Mathlib.Algebra.BigOperators.Ring.Finset
import Mathlib.Tactic.Ring
import Mathlib.Tactic.Linarith

/-!
# The distributed sweep: control invariant
-/

namespace Verif.Sweep

variable {K R : Type} [Field K] [LinearOrder K]

/-! ### Counting -/

/-- Number of downwind faces from `u` to `v`. -/
def downCount (G : Grid K R) (u v : Id) (p : Bool) (d : Nat) : Nat :=
  (G.nbrs u).countP
    (fun e => decide (downwind e.1 (G.dir d)) && decide (e.2.target = some (v, p)))

/-- Number of upwind faces from `v` to `u`. -/
def upCount (G : Grid K R) (v u : Id) (p : Bool) (d : Nat) : Nat :=
  (G.nbrs v).countP
    (fun e => decide (upwind e.1 (G.dir d)) && decide (e.2.target = some (u, p)))

theorem countP_filterMap_normals (l : List (Face K × Neighbour)) (v : Id) (p : Bool)
    (q : V3 K → Bool) :
    l.countP (fun e => q e.1.normal && decide (e.2.target = some (v, p))) =
      (l.filterMap (fun e => if e.2.target = some (v, p) then some e.1.normal else none)).countP q := by
  induction l with
  | nil => rfl
  | cons e l ih =>
    rw [List.countP_cons, ih, List.filterMap_cons]
    by_cases h : e.2.target = some (v, p)
    · simp only [h, if_true, decide_true, Bool.and_true, List.countP_cons]
    · simp [h]

theorem neg_dot [IsStrictOrderedRing K] (a d : V3 K) : a.neg.dot d = -(a.dot d) := by
  simp only [V3.neg, V3.dot]; ring

theorem upCount_eq [IsStrictOrderedRing K] (G : Grid K R) (h : WF G) {u v : Id} (hu : u ∈ G.cells)
    (hv : v ∈ G.cells) (p : Bool) (d : Nat) : upCount G v u p d = downCount G u v p d := by
  have e1 : upCount G v u p d = (G.nbrs v).countP (fun e =>
      decide (e.1.normal.dot (G.dir d) < 0) && decide (e.2.target = some (u, p))) := rfl
  have e2 : downCount G u v p d = (G.nbrs u).countP (fun e =>
      decide (0 < e.1.normal.dot (G.dir d)) && decide (e.2.target = some (v, p))) := rfl
  rw [e1, e2, countP_filterMap_normals (G.nbrs v) u p (fun n => decide (n.dot (G.dir d) < 0)),
    countP_filterMap_normals (G.nbrs u) v p (fun n => decide (0 < n.dot (G.dir d)))]
  have hp := h.symm u hu v hv p
  unfold normals at hp
  rw [hp.countP_eq, List.countP_map]
  congr 1
  funext n
  simp [neg_dot]

/-- Counting entries whose target lies in a finite set. -/
theorem countP_target_sum (l : List (Face K × Neighbour)) (S : Finset Id) (c : Face K → Bool)
    (p : Bool) :
    l.countP (fun e => c e.1 && decide (∃ v ∈ S, e.2.target = some (v, p))) =
      ∑ v ∈ S, l.countP (fun e => c e.1 && decide (e.2.target = some (v, p))) := by
  induction l with
  | nil => simp
  | cons e l ih =>
    simp only [List.countP_cons, Finset.sum_add_distrib, ih]
    congr 1
    by_cases hc : c e.1
    · simp only [hc, Bool.true_and, decide_eq_true_eq]
      by_cases h : ∃ v ∈ S, e.2.target = some (v, p)
      · rw [if_pos h]
        obtain ⟨v, hv, ht⟩ := h
        rw [Finset.sum_eq_single v]
        · simp [ht]
        · intro w _ hw
          rw [if_neg]
          rw [ht]
          simp only [Option.some.injEq, Prod.mk.injEq, and_true]
          exact fun h => hw h.symm
        · exact fun h => absurd hv h
      · rw [if_neg h, Finset.sum_eq_zero]
        intro v hv
        rw [if_neg]
        exact fun ht => h ⟨v, hv, ht⟩
    · simp [hc]

/-! ### Virtual messages -/

/-- The message (or local update) that an entry of a solved cell gives rise to. -/
def toData [AddCommGroup R] [Module K R] (G : Grid K R) (t : Task) (delta : R)
    (e : Face K × Neighbour) : Option (Data R) :=
  if downwind e.1 (G.dir t.dir) then
    let x := fraction G t.id t.dir e.1 • delta
    match e.2 with
    | .loc id => some ⟨id, t.dir, x, false⟩
    | .remote id => if isActive G t.id.rank id then some ⟨id, t.dir, x, false⟩ else none
    | .boundary => none
    | .locPeriodic id => some ⟨id, t.dir, x, true⟩
    | .remotePeriodic id => if isActive G t.id.rank id then some ⟨id, t.dir, x, true⟩ else none
  else none

/-- Delivering a datum on rank `x`: locally or into `to_send`. -/
def deliver [AddCommGroup R] (G : Grid K R) (x : Nat) (s : State R) (dat : Data R) :
    Option (State R) :=
  if dat.id.rank = x then receiveData G s dat
  else some { s with toSend := upd2 s.toSend x dat.id.rank (s.toSend x dat.id.rank ++ [dat]) }

theorem solveEntry_eq [AddCommGroup R] [Module K R] (G : Grid K R) (h : WF G) (t : Task)
    (ht : t.id ∈ G.cells) (delta : R) (s : State R) (e : Face K × Neighbour)
    (he : e ∈ G.nbrs t.id) :
    solveEntry G t delta s e =
      match toData G t delta e with
      | none => some s
      | some dat => deliver G t.id.rank s dat := by
  obtain ⟨f, nb⟩ := e
  unfold solveEntry toData deliver receiveData handleRemote
  by_cases hd : downwind f (G.dir t.dir)
  · simp only [hd, if_true]
    cases nb with
    | loc id =>
      have := (h.loc _ ht f id (Or.inl he)).2
      simp [this]
    | remote id =>
      have := (h.remote _ ht f id (Or.inl he)).2.1
      by_cases ha : isActive G t.id.rank id <;> simp [ha, this]
    | boundary => rfl
    | locPeriodic id =>
      have := (h.loc _ ht f id (Or.inr he)).2
      simp [this]
    | remotePeriodic id =>
      have := (h.remote _ ht f id (Or.inr he)).2.1
      by_cases ha : isActive G t.id.rank id <;> simp [ha, this]
  · simp [hd]

theorem foldlM_solveEntry [AddCommGroup R] [Module K R] (G : Grid K R) (h : WF G) (t : Task)
    (ht : t.id ∈ G.cells) (delta : R) (es : List (Face K × Neighbour))
    (hes : ∀ e ∈ es, e ∈ G.nbrs t.id) (s : State R) :
    es.foldlM (solveEntry G t delta) s =
      (es.filterMap (toData G t delta)).foldlM (deliver G t.id.rank) s := by
  induction es generalizing s with
  | nil => rfl
  | cons e es ih =>
    have he := hes e (List.mem_cons_self ..)
    have ih' := ih (fun e he => hes e (List.mem_cons_of_mem _ he))
    rw [List.foldlM_cons, solveEntry_eq G h t ht delta s e he]
    cases htd : toData G t delta e with
    | none =>
      rw [List.filterMap_cons_none htd]
      exact ih' s
    | some dat =>
      rw [List.filterMap_cons_some htd, List.foldlM_cons]
      show (Sweep.deliver G t.id.rank s dat >>= fun s' => es.foldlM (solveEntry G t delta) s') = _
      cases Sweep.deliver G t.id.rank s dat with
      | none => rfl
      | some s' => exact ih' s'

theorem foldlM_receiveData [AddCommGroup R] (G : Grid K R) (r : Nat) (ds : List (Data R))
    (hds : ∀ d ∈ ds, d.id.rank = r) (s : State R) :
    ds.foldlM (receiveData G) s = ds.foldlM (deliver G r) s := by
  induction ds generalizing s with
  | nil => rfl
  | cons d ds ih =>
    have hd := hds d (List.mem_cons_self ..)
    have ih' := ih (fun e he => hds e (List.mem_cons_of_mem _ he))
    rw [List.foldlM_cons, List.foldlM_cons]
    unfold deliver
    rw [if_pos hd]
    cases receiveData G s d with
    | none => rfl
    | some s' => exact ih' s'

/-! ### The invariant -/

/-- Whether a datum is meant for a cell and direction. -/
def isFor (v : Id) (d : Nat) (p : Bool) (x : Data R) : Bool :=
  decide (x.id = v) && decide (x.dir = d) && (x.periodic == p)

/-- Everything on its way from `q` to `r`. -/
def queue (s : State R) (q r : Nat) : List (Data R) := (s.chan q r).flatten ++ s.toSend q r

/-- Data on its way to a cell and direction. -/
def inflight (G : Grid K R) (s : State R) (v : Id) (d : Nat) : Nat :=
  ∑ q ∈ Finset.range G.numRanks, (queue s q v.rank).countP (isFor v d false)

/-- Contributions still to be produced by unsolved cells. -/
def remMiss (G : Grid K R) (log : List Task) (v : Id) (d : Nat) : Nat :=
  ∑ u ∈ G.act, if (⟨u, d⟩ : Task) ∈ log then 0 else downCount G u v false d

/-- Number of data that solving `u` in direction `d` sends to rank `r`. -/
def outTo (G : Grid K R) (u : Id) (r d : Nat) : Nat :=
  ∑ v ∈ G.act.filter (fun v => v.rank = r), (downCount G u v false d + downCount G u v true d)

/-- Messages to `r` still to be produced by unsolved cells of rank `q`. -/
def remRecv (G : Grid K R) (log : List Task) (r q : Nat) : Nat :=
  ∑ u ∈ G.act.filter (fun u => u.rank = q), ∑ d ∈ Finset.range G.numDirs,
    if (⟨u, d⟩ : Task) ∈ log then 0 else outTo G u r d

/-- The invariant, with data `pend` still to be delivered on rank `x`. -/
structure Inv (G : Grid K R) (s : State R) (x : Nat) (pend : List (Data R)) : Prop where
  logNodup : s.log.Nodup
  logAct : ∀ t ∈ s.log, t.id ∈ G.act ∧ t.dir < G.numDirs ∧ s.miss t.id t.dir = 0
  todoNodup : ∀ r, (s.todo r).Nodup
  todoIff : ∀ r t, t ∈ s.todo r ↔
    t.id ∈ G.act ∧ t.id.rank = r ∧ t.dir < G.numDirs ∧ s.miss t.id t.dir = 0 ∧ t ∉ s.log
  missEq : ∀ v ∈ G.act, ∀ d < G.numDirs, s.miss v d =
    remMiss G s.log v d + inflight G s v d + pend.countP (isFor v d false)
  solveEq : ∀ r, ∀ d < G.numDirs, s.solveCount r d =
    ((G.act.filter (fun v => v.rank = r)).filter (fun v => (⟨v, d⟩ : Task) ∉ s.log)).card
  recvEq : ∀ r < G.numRanks, ∀ q < G.numRanks, q ≠ r → s.recvCount r q =
    remRecv G s.log r q + (queue s q r).length +
      if q = x then pend.countP (fun d => decide (d.id.rank = r)) else 0
  queueOk : ∀ q r, ∀ dat ∈ queue s q r, q < G.numRanks ∧ q ≠ r ∧ dat.id ∈ G.act ∧
    dat.id.rank = r ∧ dat.dir < G.numDirs
  pendOk : ∀ dat ∈ pend, dat.id ∈ G.cells ∧ dat.dir < G.numDirs ∧
    (dat.id.rank ≠ x → dat.id ∈ G.act)
  order : ∀ l1 t l2, s.log = l1 ++ t :: l2 → ∀ u ∈ G.act,
    0 < downCount G u t.id false t.dir → (⟨u, t.dir⟩ : Task) ∈ l1

theorem mem_act {G : Grid K R} {v : Id} : v ∈ G.act ↔ v ∈ G.cells ∧ ownActive G v = true := by
  simp [Grid.act]

theorem isFor_iff {v : Id} {d : Nat} {p : Bool} {x : Data R} :
    isFor v d p x = true ↔ x.id = v ∧ x.dir = d ∧ x.periodic = p := by
  simp [isFor, and_assoc]

/-- Delivering the first pending datum. -/
theorem Inv.deliver [AddCommGroup R] {G : Grid K R} {s : State R} {x : Nat} {dat : Data R}
    {pend : List (Data R)} (hx : x < G.numRanks) (h : Inv G s x (dat :: pend)) :
    ∃ s', deliver G x s dat = some s' ∧ Inv G s' x pend := by
  have hok := h.pendOk dat (List.mem_cons_self ..)
  have hpend : ∀ d ∈ pend, d.id ∈ G.cells ∧ d.dir < G.numDirs ∧ (d.id.rank ≠ x → d.id ∈ G.act) :=
    fun d hd => h.pendOk d (List.mem_cons_of_mem _ hd)
  have hrecv : dat.id.rank = x → ∀ r < G.numRanks, ∀ q < G.numRanks, q ≠ r → s.recvCount r q =
      remRecv G s.log r q + (queue s q r).length +
      if q = x then pend.countP (fun d => decide (d.id.rank = r)) else 0 := by
    intro hr r hr' q hq hqr
    rw [h.recvEq r hr' q hq hqr]
    by_cases hqx : q = x
    · rw [if_pos hqx, if_pos hqx, List.countP_cons]
      have : dat.id.rank ≠ r := by rw [hr, ← hqx]; exact hqr
      simp [this]
    · rw [if_neg hqx, if_neg hqx]
  unfold Sweep.deliver
  by_cases hr : dat.id.rank = x
  · rw [if_pos hr]
    unfold receiveData
    by_cases hper : dat.periodic = true
    · rw [if_pos hper]
      refine ⟨_, rfl, ?_⟩
      have hmiss : ∀ v ∈ G.act, ∀ d < G.numDirs, s.miss v d =
          remMiss G s.log v d + inflight G s v d + pend.countP (isFor v d false) := by
        intro v hv d hd
        rw [h.missEq v hv d hd, List.countP_cons]
        have : isFor v d false dat = false := by
          rw [Bool.eq_false_iff, Ne, isFor_iff, hper]; simp
        simp [this]
      exact ⟨h.logNodup, h.logAct, h.todoNodup, h.todoIff, hmiss, h.solveEq, hrecv hr, h.queueOk,
        hpend, h.order⟩
    · rw [if_neg hper]
      have hper' : dat.periodic = false := by simpa using hper
      unfold handleLocal
      by_cases ha : ownActive G dat.id = true
      · have hact : dat.id ∈ G.act := mem_act.2 ⟨hok.1, ha⟩
        simp only [ha, if_true]
        have hm := h.missEq dat.id hact dat.dir hok.2.1
        rw [List.countP_cons, if_pos (isFor_iff.2 ⟨rfl, rfl, hper'⟩)] at hm
        have hm0 : s.miss dat.id dat.dir ≠ 0 := by omega
        have hnlog : (⟨dat.id, dat.dir⟩ : Task) ∉ s.log := fun hl => hm0 (h.logAct _ hl).2.2
        obtain ⟨m, hms⟩ := Nat.exists_eq_succ_of_ne_zero hm0
        have hmiss : ∀ v ∈ G.act, ∀ d < G.numDirs, upd2 s.miss dat.id dat.dir m v d =
            remMiss G s.log v d + inflight G s v d + pend.countP (isFor v d false) := by
          intro v hv d hd
          unfold upd2
          by_cases hvd : v = dat.id ∧ d = dat.dir
          · rw [if_pos hvd, hvd.1, hvd.2]; omega
          · rw [if_neg hvd, h.missEq v hv d hd, List.countP_cons]
            have : isFor v d false dat = false := by
              rw [Bool.eq_false_iff, Ne, isFor_iff]
              exact fun hc => hvd ⟨hc.1.symm, hc.2.1.symm⟩
            simp [this]
        have hlogAct : ∀ t ∈ s.log, t.id ∈ G.act ∧ t.dir < G.numDirs ∧
            upd2 s.miss dat.id dat.dir m t.id t.dir = 0 := by
          intro t ht
          have := h.logAct t ht
          refine ⟨this.1, this.2.1, ?_⟩
          unfold upd2
          rw [if_neg]
          · exact this.2.2
          · rintro ⟨h1, h2⟩
            apply hnlog
            rw [← h1, ← h2]; exact ht
        have htodoOld : ∀ (r : Nat) (t : Task), t ∈ s.todo r → ¬ (t.id = dat.id ∧ t.dir = dat.dir) := by
          rintro r t ht ⟨h1, h2⟩
          have := ((h.todoIff r t).1 ht).2.2.2.1
          rw [h1, h2] at this
          exact hm0 this
        simp only [hms, Nat.succ_eq_add_one]
        by_cases hmz : m = 0
        · rw [if_pos hmz]
          refine ⟨_, rfl, h.logNodup, hlogAct, ?_, ?_, hmiss, h.solveEq, hrecv hr, h.queueOk,
            hpend, h.order⟩
          · intro r
            show (upd s.todo dat.id.rank (_ ::ₘ s.todo dat.id.rank) r).Nodup
            unfold upd
            split
            · rw [Multiset.nodup_cons]
              exact ⟨fun hc => htodoOld _ _ hc ⟨rfl, rfl⟩, h.todoNodup _⟩
            · exact h.todoNodup r
          · intro r t
            show t ∈ upd s.todo dat.id.rank (_ ::ₘ s.todo dat.id.rank) r ↔
              _ ∧ _ ∧ _ ∧ upd2 s.miss dat.id dat.dir m t.id t.dir = 0 ∧ _
            unfold upd upd2
            by_cases htd : t.id = dat.id ∧ t.dir = dat.dir
            · rw [if_pos htd]
              have ht : t = ⟨dat.id, dat.dir⟩ := by
                cases t; simp only at htd; rw [htd.1, htd.2]
              subst ht
              constructor
              · intro hc
                refine ⟨hact, ?_, hok.2.1, hmz, hnlog⟩
                by_contra hne
                rw [if_neg (fun h => hne h.symm)] at hc
                exact htodoOld _ _ hc ⟨rfl, rfl⟩
              · rintro ⟨_, h2, _⟩
                rw [if_pos h2.symm]
                exact Multiset.mem_cons_self _ _
            · rw [if_neg htd, ← h.todoIff r t]
              split
              · rename_i hrr
                rw [Multiset.mem_cons, hrr]
                constructor
                · rintro (hc | hc)
                  · exact absurd (by rw [hc]; exact ⟨rfl, rfl⟩) htd
                  · exact hc
                · exact Or.inr
              · rfl
        · rw [if_neg hmz]
          refine ⟨_, rfl, h.logNodup, hlogAct, h.todoNodup, ?_, hmiss, h.solveEq, hrecv hr, h.queueOk,
            hpend, h.order⟩
          intro r t
          show t ∈ s.todo r ↔ _ ∧ _ ∧ _ ∧ upd2 s.miss dat.id dat.dir m t.id t.dir = 0 ∧ _
          unfold upd2
          by_cases htd : t.id = dat.id ∧ t.dir = dat.dir
          · rw [if_pos htd]
            constructor
            · exact fun hc => absurd htd (htodoOld _ _ hc)
            · exact fun hc => absurd hc.2.2.2.1 hmz
          · rw [if_neg htd]; exact h.todoIff r t
      · simp only [ha]
        refine ⟨_, rfl, ?_⟩
        have hmiss : ∀ v ∈ G.act, ∀ d < G.numDirs, s.miss v d =
            remMiss G s.log v d + inflight G s v d + pend.countP (isFor v d false) := by
          intro v hv d hd
          rw [h.missEq v hv d hd, List.countP_cons]
          have : isFor v d false dat = false := by
            rw [Bool.eq_false_iff, Ne, isFor_iff]
            rintro ⟨h1, _⟩
            exact ha (h1 ▸ (mem_act.1 hv).2)
          simp [this]
        exact ⟨h.logNodup, h.logAct, h.todoNodup, h.todoIff, hmiss, h.solveEq, hrecv hr, h.queueOk,
          hpend, h.order⟩
  · rw [if_neg hr]
    refine ⟨_, rfl, ?_⟩
    have hact := hok.2.2 hr
    set s' : State R :=
      { s with toSend := upd2 s.toSend x dat.id.rank (s.toSend x dat.id.rank ++ [dat]) } with hs'
    have hq : ∀ q r, queue s' q r =
        if q = x ∧ r = dat.id.rank then queue s q r ++ [dat] else queue s q r := by
      intro q r
      unfold queue
      show (s.chan q r).flatten ++ upd2 s.toSend x dat.id.rank _ q r = _
      unfold upd2
      split
      · rename_i hc
        rw [hc.1, hc.2, List.append_assoc]
      · rfl
    refine ⟨h.logNodup, h.logAct, h.todoNodup, h.todoIff, ?_, h.solveEq, ?_, ?_, hpend, h.order⟩
    · intro v hv d hd
      show s.miss v d = remMiss G s.log v d + inflight G s' v d + pend.countP (isFor v d false)
      rw [h.missEq v hv d hd]
      have : inflight G s' v d = inflight G s v d + if isFor v d false dat then 1 else 0 := by
        unfold inflight
        by_cases hf : isFor v d false dat = true
        · have hrk : v.rank = dat.id.rank := by rw [(isFor_iff.1 hf).1]
          rw [if_pos hf, ← Finset.sum_erase_add _ _ (Finset.mem_range.2 hx),
            ← Finset.sum_erase_add (a := x) (Finset.range G.numRanks) _ (Finset.mem_range.2 hx),
            add_assoc]
          congr 1
          · apply Finset.sum_congr rfl
            intro q hq'
            rw [hq, if_neg (fun hc => (Finset.mem_erase.1 hq').1 hc.1)]
          · rw [hq, if_pos ⟨rfl, hrk⟩, List.countP_append]
            simp [hf]
        · rw [if_neg hf, add_zero]
          apply Finset.sum_congr rfl
          intro q _
          rw [hq]
          split
          · rw [List.countP_append]; simp [hf]
          · rfl
      rw [this, List.countP_cons]
      omega
    · intro r hr' q hq' hqr
      show s.recvCount r q = remRecv G s.log r q + (queue s' q r).length + _
      rw [h.recvEq r hr' q hq' hqr, hq]
      by_cases hqx : q = x
      · rw [if_pos hqx, if_pos hqx, List.countP_cons]
        by_cases hrr : r = dat.id.rank
        · have : (decide (dat.id.rank = r)) = true := by simp [hrr]
          simp only [hqx, hrr, and_self, if_true, decide_true, List.length_append, List.length_singleton]
          omega
        · have : dat.id.rank ≠ r := fun hc => hrr hc.symm
          simp [this, hrr]
      · rw [if_neg hqx, if_neg hqx, if_neg (fun hc => hqx hc.1)]
    · intro q r d hd
      rw [hq] at hd
      split at hd
      · rename_i hc
        rcases List.mem_append.1 hd with hd | hd
        · exact h.queueOk q r d hd
        · have hdd : d = dat := by simpa using hd
          subst hdd
          refine ⟨by rw [hc.1]; exact hx, ?_, hact, hc.2.symm, hok.2.1⟩
          rw [hc.1, hc.2]; exact fun he => hr he.symm
      · exact h.queueOk q r d hd

theorem Inv.foldlM_deliver [AddCommGroup R] {G : Grid K R} {x : Nat} (hx : x < G.numRanks)
    (pend : List (Data R)) {s : State R} (h : Inv G s x pend) :
    ∃ s', pend.foldlM (Sweep.deliver G x) s = some s' ∧ Inv G s' x [] := by
  induction pend generalizing s with
  | nil => exact ⟨s, rfl, h⟩
  | cons dat pend ih =>
    obtain ⟨s1, h1, h2⟩ := h.deliver hx
    obtain ⟨s2, h3, h4⟩ := ih h2
    exact ⟨s2, by rw [List.foldlM_cons, h1]; exact h3, h4⟩

end Verif.Sweep
