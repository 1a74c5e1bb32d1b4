import Verif.Sweep.Values
import Mathlib.Algebra.Order.BigOperators.Group.Finset

/-!
# The distributed sweep: a potential that every effective step decreases
-/

namespace Verif.Sweep

variable {K R : Type} [Field K] [LinearOrder K]

/-- What is on its way from one rank to another. -/
def pairPot (s : State R) (q r : Nat) : Nat :=
  3 * (s.toSend q r).length + (s.chan q r).flatten.length + (if s.req q r then 1 else 0)

/-- Potential of the unsolved tasks. -/
def taskPot (G : Grid K R) (log : List Task) : Nat :=
  ∑ v ∈ G.act, ∑ d ∈ Finset.range G.numDirs,
    if (⟨v, d⟩ : Task) ∈ log then 0 else 1 + 3 * (G.nbrs v).length

/-- Ranks that have not left the loop. -/
def livePot (G : Grid K R) (pc : Nat → PC) : Nat :=
  ∑ r ∈ Finset.range G.numRanks, match pc r with | .done => 0 | _ => 1

/-- The potential. -/
def pot (G : Grid K R) (s : State R) : Nat :=
  taskPot G s.log +
  (∑ q ∈ Finset.range G.numRanks, ∑ r ∈ Finset.range G.numRanks, pairPot s q r) +
  livePot G s.pc

/-- Equal up to program counters. -/
def SameData (s s' : State R) : Prop := s' = { s with pc := s'.pc }

theorem SameData.setPc (s : State R) (r : Nat) (pc : PC) : SameData s (setPc s r pc) := rfl

theorem SameData.trans {a b c : State R} (h1 : SameData a b) (h2 : SameData b c) :
    SameData a c := by
  unfold SameData at *
  rw [h2, h1]

theorem taskPot_append (G : Grid K R) {log : List Task} {t : Task} (ht : t.id ∈ G.act)
    (hd : t.dir < G.numDirs) (hlog : t ∉ log) :
    taskPot G log = taskPot G (log ++ [t]) + (1 + 3 * (G.nbrs t.id).length) := by
  unfold taskPot
  rw [Finset.sum_comm, Finset.sum_comm (s := G.act)]
  have : ∀ d ∈ Finset.range G.numDirs,
      (∑ v ∈ G.act, if (⟨v, d⟩ : Task) ∈ log then 0 else 1 + 3 * (G.nbrs v).length) =
      (∑ v ∈ G.act, if (⟨v, d⟩ : Task) ∈ log ++ [t] then 0 else 1 + 3 * (G.nbrs v).length) +
      if d = t.dir then 1 + 3 * (G.nbrs t.id).length else 0 :=
    fun d _ => sum_unsolved ht hlog (fun v => 1 + 3 * (G.nbrs v).length) d
  rw [Finset.sum_congr rfl this, Finset.sum_add_distrib]
  congr 1
  rw [Finset.sum_ite_eq' (Finset.range G.numDirs) t.dir]
  simp [hd]

/-- A double sum when the value at one place grows by at most `c`. -/
theorem sum2_le {n a b c : Nat} {f g : Nat → Nat → Nat} (h1 : f a b ≤ g a b + c)
    (h2 : ∀ q r, ¬ (q = a ∧ r = b) → f q r = g q r) :
    (∑ q ∈ Finset.range n, ∑ r ∈ Finset.range n, f q r) ≤
      (∑ q ∈ Finset.range n, ∑ r ∈ Finset.range n, g q r) + c := by
  have key : ∀ q, (∑ r ∈ Finset.range n, f q r) ≤
      (∑ r ∈ Finset.range n, g q r) + if q = a then c else 0 := by
    intro q
    by_cases hq : q = a
    · rw [if_pos hq]
      by_cases hb : b ∈ Finset.range n
      · rw [← Finset.sum_erase_add _ _ hb, ← Finset.sum_erase_add (a := b) _ (fun r => g q r) hb]
        have : ∑ r ∈ (Finset.range n).erase b, f q r = ∑ r ∈ (Finset.range n).erase b, g q r :=
          Finset.sum_congr rfl (fun r hr => h2 q r (fun hc => (Finset.mem_erase.1 hr).1 hc.2))
        rw [this, hq]
        omega
      · have : ∑ r ∈ Finset.range n, f q r = ∑ r ∈ Finset.range n, g q r :=
          Finset.sum_congr rfl (fun r hr => h2 q r (fun hc => hb (hc.2 ▸ hr)))
        omega
    · rw [if_neg hq]
      have : ∑ r ∈ Finset.range n, f q r = ∑ r ∈ Finset.range n, g q r :=
        Finset.sum_congr rfl (fun r hr => h2 q r (fun hc => hq hc.1))
      omega
  calc _ ≤ ∑ q ∈ Finset.range n, ((∑ r ∈ Finset.range n, g q r) + if q = a then c else 0) :=
        Finset.sum_le_sum (fun q _ => key q)
    _ = (∑ q ∈ Finset.range n, ∑ r ∈ Finset.range n, g q r) +
        ∑ q ∈ Finset.range n, (if q = a then c else 0) := Finset.sum_add_distrib
    _ ≤ _ := by
      gcongr
      rw [Finset.sum_ite_eq' (Finset.range n) a]
      split <;> omega

theorem deliver_pairs [AddCommGroup R] {G : Grid K R} {x : Nat} {s s' : State R} {dat : Data R}
    (n : Nat) (h : deliver G x s dat = some s') :
    (∑ q ∈ Finset.range n, ∑ r ∈ Finset.range n, pairPot s' q r) ≤
      (∑ q ∈ Finset.range n, ∑ r ∈ Finset.range n, pairPot s q r) + 3 := by
  have hf := deliver_frame h
  have same : s'.toSend = s.toSend → (∑ q ∈ Finset.range n, ∑ r ∈ Finset.range n, pairPot s' q r) ≤
      (∑ q ∈ Finset.range n, ∑ r ∈ Finset.range n, pairPot s q r) + 3 := by
    intro e
    have : ∀ q r, pairPot s' q r = pairPot s q r := by
      intro q r; unfold pairPot; rw [e, hf.chan, hf.req]
    simp only [this]
    omega
  rcases deliver_rates h with ⟨_, _, _, e, _⟩ | ⟨_, _, _, e, _⟩ | ⟨_, _, _, e⟩
  · exact same e
  · exact same e
  · apply sum2_le (a := x) (b := dat.id.rank)
    · unfold pairPot
      rw [hf.chan, hf.req, e]
      unfold upd2
      simp only [and_self, if_true, List.length_append, List.length_singleton]
      omega
    · intro q r hne
      unfold pairPot
      rw [hf.chan, hf.req, e]
      unfold upd2
      rw [if_neg hne]

theorem foldlM_deliver_pairs [AddCommGroup R] {G : Grid K R} {x : Nat} (n : Nat) (l : List (Data R))
    {s s' : State R} (h : l.foldlM (deliver G x) s = some s') :
    (∑ q ∈ Finset.range n, ∑ r ∈ Finset.range n, pairPot s' q r) ≤
      (∑ q ∈ Finset.range n, ∑ r ∈ Finset.range n, pairPot s q r) + 3 * l.length := by
  induction l generalizing s with
  | nil =>
    simp only [List.foldlM_nil, Option.pure_def, Option.some.injEq] at h
    subst h; simp
  | cons d l ih =>
    rw [List.foldlM_cons] at h
    cases hd : deliver G x s d with
    | none => rw [hd] at h; simp at h
    | some s1 =>
      rw [hd] at h
      have h1 := deliver_pairs n hd
      have h2 := ih h
      rw [List.length_cons]
      omega

theorem foldlM_deliver_local [AddCommGroup R] {G : Grid K R} {x : Nat} (l : List (Data R))
    (hl : ∀ d ∈ l, d.id.rank = x) {s s' : State R} (h : l.foldlM (deliver G x) s = some s') :
    s'.toSend = s.toSend := by
  induction l generalizing s with
  | nil =>
    simp only [List.foldlM_nil, Option.pure_def, Option.some.injEq] at h
    subst h; rfl
  | cons d l ih =>
    rw [List.foldlM_cons] at h
    cases hd : deliver G x s d with
    | none => rw [hd] at h; simp at h
    | some s1 =>
      rw [hd] at h
      have h1 := ih (fun d hd => hl d (List.mem_cons_of_mem _ hd)) h
      rcases deliver_rates hd with ⟨_, _, _, e, _⟩ | ⟨_, _, _, e, _⟩ | ⟨hne, _⟩
      · rw [h1, e]
      · rw [h1, e]
      · exact absurd (hl d (List.mem_cons_self ..)) hne

/-- `try_send_all` does not increase the potential of a pair of ranks; if it leaves it unchanged
nothing happened. -/
theorem trySendAll_pair (n r : Nat) (completed : Nat → Bool) (s : State R)
    (hrb : ∀ q, s.req r q = true ↔ s.sendBuf r q ≠ []) (r' q : Nat) :
    let s' := trySendAll n r completed s
    pairPot s' r' q ≤ pairPot s r' q ∧
    (pairPot s' r' q = pairPot s r' q → s'.toSend r' q = s.toSend r' q ∧ s'.chan r' q = s.chan r' q ∧
      s'.req r' q = s.req r' q ∧ s'.sendBuf r' q = s.sendBuf r' q ∧
      (r' = r → q ∈ others n r → (s.req r q = true → completed q = false) ∧
        (s.req r q = false → s.toSend r q = []))) := by
  by_cases hc : r' = r ∧ q ∈ others n r
  · obtain ⟨rfl, hq⟩ := hc
    set u := updatePending n r' completed s with hu
    have e1 : u.req r' q = (s.req r' q && !completed q) := by
      rw [hu]; unfold updatePending; simp [hq]
    have e2 : u.sendBuf r' q = if (s.req r' q && !completed q) = true then s.sendBuf r' q else [] := by
      rw [hu]; unfold updatePending; simp [hq]
    have e3 : u.toSend = s.toSend := rfl
    have e4 : u.chan = s.chan := rfl
    have hposts : posts n r' u q = (!(s.toSend r' q).isEmpty && !(s.req r' q && !completed q)) := by
      unfold posts; rw [e1, e3]; simp [hq]
    have f1 : (trySendAll n r' completed s).req r' q =
        if posts n r' u q = true then true else u.req r' q := by
      show (if r' = r' ∧ posts n r' u q = true then true else u.req r' q) = _
      simp
    have f2 : (trySendAll n r' completed s).sendBuf r' q = if posts n r' u q = true then
        u.sendBuf r' q ++ u.toSend r' q else u.sendBuf r' q := by
      show (if r' = r' ∧ posts n r' u q = true then u.sendBuf r' q ++ u.toSend r' q
        else u.sendBuf r' q) = _
      simp
    have f3 : (trySendAll n r' completed s).toSend r' q =
        if posts n r' u q = true then [] else u.toSend r' q := by
      show (if r' = r' ∧ posts n r' u q = true then [] else u.toSend r' q) = _
      simp
    have f4 : (trySendAll n r' completed s).chan r' q = if posts n r' u q = true then
        u.chan r' q ++ [u.sendBuf r' q ++ u.toSend r' q] else u.chan r' q := by
      show (if r' = r' ∧ posts n r' u q = true then
        u.chan r' q ++ [u.sendBuf r' q ++ u.toSend r' q] else u.chan r' q) = _
      simp
    simp only
    unfold pairPot
    rw [f1, f2, f3, f4, hposts, e1, e2, e3, e4]
    have hrbq := hrb q
    cases hreq : s.req r' q <;> cases hcmp : completed q <;> cases hts : s.toSend r' q <;>
      simp_all <;> omega
  · have := trySendAll_other n r completed s hc
    simp only
    unfold pairPot
    rw [this.1, this.2.1, this.2.2.1, this.2.2.2]
    refine ⟨le_rfl, fun _ => ⟨rfl, rfl, rfl, rfl, fun h1 h2 => absurd ⟨h1, h2⟩ hc⟩⟩

theorem livePot_setPc (G : Grid K R) (pc : Nat → PC) (r : Nat) (p : PC) (h : pc r ≠ .done) :
    livePot G (upd pc r p) ≤ livePot G pc := by
  unfold livePot
  apply Finset.sum_le_sum
  intro q _
  unfold upd
  by_cases hq : q = r
  · rw [if_pos hq, hq]
    cases hp : pc r <;> cases p <;> simp_all
  · rw [if_neg hq]

theorem livePot_done (G : Grid K R) (pc : Nat → PC) {r : Nat} (hr : r < G.numRanks)
    (h : pc r ≠ .done) : livePot G (upd pc r .done) < livePot G pc := by
  unfold livePot
  apply Finset.sum_lt_sum
  · intro q _
    unfold upd
    by_cases hq : q = r
    · rw [if_pos hq]; simp
    · rw [if_neg hq]
  · refine ⟨r, Finset.mem_range.2 hr, ?_⟩
    unfold upd
    rw [if_pos rfl]
    cases hp : pc r <;> simp_all

/-- No step increases the potential, and a step that does not decrease it changes only program
counters. -/
theorem pot_step [AddCommGroup R] [Module K R] {G : Grid K R} (hG : WF G) {s s' : State R}
    {r : Nat} {a : Act} (h : Good G s) (hs : Step G r a s s') :
    pot G s' ≤ pot G s ∧ (pot G s' = pot G s → SameData s s' ∧ a ≠ .exit ∧ (∀ t, a ≠ .pop t) ∧
      (∀ q, a ≠ .take q) ∧
      ∀ c, a = .send c → ∀ q ∈ others G.numRanks r, (s.req r q = true → c q = false) ∧
        (s.req r q = false → s.toSend r q = [])) := by
  have plain : ∀ pc, s.pc r ≠ .done → pot G (setPc s r pc) ≤ pot G s := by
    intro pc hne
    unfold pot
    have : livePot G (setPc s r pc).pc ≤ livePot G s.pc := livePot_setPc G s.pc r pc hne
    have h1 : ∀ q r', pairPot (setPc s r pc) q r' = pairPot s q r' := fun _ _ => rfl
    have h2 : taskPot G (setPc s r pc).log = taskPot G s.log := rfl
    simp only [h1, h2]
    omega
  cases hs with
  | exit _ _ hr hpc hcond =>
    have hlt : pot G (setPc s r .done) < pot G s := by
      unfold pot
      have : livePot G (setPc s r .done).pc < livePot G s.pc :=
        livePot_done G s.pc hr (by rw [hpc]; simp)
      have h1 : ∀ q r', pairPot (setPc s r .done) q r' = pairPot s q r' := fun _ _ => rfl
      have h2 : taskPot G (setPc s r .done).log = taskPot G s.log := rfl
      simp only [h1, h2]
      omega
    exact ⟨hlt.le, fun he => absurd he hlt.ne⟩
  | enterRecv _ _ hr hpc hcond htodo =>
    exact ⟨plain _ (by rw [hpc]; simp), fun _ => ⟨rfl, by simp, by simp, by simp, by simp⟩⟩
  | enterWork _ _ hr hpc hcond htodo =>
    exact ⟨plain _ (by rw [hpc]; simp), fun _ => ⟨rfl, by simp, by simp, by simp, by simp⟩⟩
  | skip _ _ q qs hr hpc h0 =>
    exact ⟨plain _ (by rw [hpc]; simp), fun _ => ⟨rfl, by simp, by simp, by simp, by simp⟩⟩
  | probe _ _ q qs hr hpc h0 =>
    exact ⟨plain _ (by rw [hpc]; simp), fun _ => ⟨rfl, by simp, by simp, by simp, by simp⟩⟩
  | recvDone _ _ hr hpc =>
    exact ⟨plain _ (by rw [hpc]; simp), fun _ => ⟨rfl, by simp, by simp, by simp, by simp⟩⟩
  | workDone _ _ k hr hpc htodo =>
    exact ⟨plain _ (by rw [hpc]; simp), fun _ => ⟨rfl, by simp, by simp, by simp, by simp⟩⟩
  | take _ s1 _ q qs msg rest hr hpc h0 hc hrecv =>
    have hmne : msg ≠ [] := h.comm.chanNe q r msg (by rw [hc]; exact List.mem_cons_self ..)
    have hrk : ∀ d ∈ msg, d.id.rank = r := fun d hd =>
      (h.inv.queueOk q r d (by unfold queue; rw [hc]; simp [hd])).2.2.2.1
    obtain ⟨d0, hd0⟩ := List.exists_mem_of_ne_nil msg hmne
    have hq := (h.inv.queueOk q r d0 (by unfold queue; rw [hc]; simp [hd0])).1
    unfold receiveMsg at hrecv
    split at hrecv
    · simp at hrecv
    rw [foldlM_receiveData G r msg hrk] at hrecv
    have hf := foldlM_deliver_frame _ hrecv
    have hts := foldlM_deliver_local msg hrk hrecv
    have hlen : 0 < msg.length := List.length_pos_iff.mpr hmne
    have hlt : pot G (setPc s1 r (.recv qs)) < pot G s := by
      unfold pot
      have h1 : taskPot G (setPc s1 r (.recv qs)).log = taskPot G s.log := by
        show taskPot G s1.log = _; rw [hf.log]
      have h2 : livePot G (setPc s1 r (.recv qs)).pc ≤ livePot G s.pc := by
        have := livePot_setPc G s1.pc r (.recv qs) (by rw [hf.pc]; show s.pc r ≠ _; rw [hpc]; simp)
        rw [hf.pc] at this
        exact le_of_eq_of_le (by show livePot G (upd s1.pc r _) = _; rw [hf.pc]) this
      have h3 : ∀ q' r', pairPot (setPc s1 r (.recv qs)) q' r' =
          3 * (s.toSend q' r').length + (upd2 s.chan q r rest q' r').flatten.length +
          (if s.req q' r' then 1 else 0) := by
        intro q' r'
        show pairPot s1 q' r' = _
        unfold pairPot
        rw [hts, hf.chan, hf.req]
      have h4 : (∑ q' ∈ Finset.range G.numRanks, ∑ r' ∈ Finset.range G.numRanks,
          pairPot (setPc s1 r (.recv qs)) q' r') <
          ∑ q' ∈ Finset.range G.numRanks, ∑ r' ∈ Finset.range G.numRanks, pairPot s q' r' := by
        have hle : ∀ q' r', pairPot (setPc s1 r (.recv qs)) q' r' ≤ pairPot s q' r' := by
          intro q' r'
          rw [h3]; unfold pairPot upd2
          by_cases hcc : q' = q ∧ r' = r
          · rw [if_pos hcc, hcc.1, hcc.2, hc, List.flatten_cons, List.length_append]; omega
          · rw [if_neg hcc]
        apply Finset.sum_lt_sum (fun q' _ => Finset.sum_le_sum (fun r' _ => hle q' r'))
        refine ⟨q, Finset.mem_range.2 hq, ?_⟩
        apply Finset.sum_lt_sum (fun r' _ => hle q r')
        refine ⟨r, Finset.mem_range.2 hr, ?_⟩
        rw [h3]; unfold pairPot upd2
        rw [if_pos ⟨rfl, rfl⟩, hc, List.flatten_cons, List.length_append]; omega
      omega
    exact ⟨hlt.le, fun he => absurd he hlt.ne⟩
  | pop _ s1 _ k t hr hpc ht hsolve =>
    obtain ⟨hact, hrank, hdir, hmiss, hlog⟩ := (h.inv.todoIff r t).1 ht
    have hcell := (mem_act.1 hact).1
    unfold solveTask at hsolve
    simp only at hsolve
    split at hsolve
    · simp at hsolve
    rw [foldlM_solveEntry G hG t hcell _ _ (fun e he => he)] at hsolve
    have hf := foldlM_deliver_frame _ hsolve
    have hp := foldlM_deliver_pairs G.numRanks _ hsolve
    have hlen := List.length_filterMap_le (toData G t (G.absorb t.id (G.makePositive (s.inc t.id t.dir) +
      G.source t.id + s.per t.id t.dir) - s.out t.id t.dir)) (G.nbrs t.id)
    have htask := taskPot_append G hact hdir hlog
    set pc' : PC := if k + 1 > G.batch then .send else .work (k + 1) with hpc'
    have hlt : pot G (setPc s1 r pc') < pot G s := by
      unfold pot
      have h1 : taskPot G (setPc s1 r pc').log = taskPot G (s.log ++ [t]) := by
        show taskPot G s1.log = _; rw [hf.log]
      have h2 : livePot G (setPc s1 r pc').pc ≤ livePot G s.pc := by
        have := livePot_setPc G s1.pc r pc' (by rw [hf.pc]; show s.pc r ≠ _; rw [hpc]; simp)
        exact le_trans this (le_of_eq (by rw [hf.pc]))
      have h3 : ∀ q' r', pairPot (setPc s1 r pc') q' r' = pairPot s1 q' r' := fun _ _ => rfl
      simp only [h3]
      rw [h1, htask]
      have hp' : (∑ q ∈ Finset.range G.numRanks, ∑ r ∈ Finset.range G.numRanks, pairPot s1 q r) ≤
        (∑ q ∈ Finset.range G.numRanks, ∑ r ∈ Finset.range G.numRanks, pairPot s q r) + 3 * _ := hp
      omega
    exact ⟨hlt.le, fun he => absurd he hlt.ne⟩
  | send _ _ completed hr hpc =>
    set s1 := trySendAll G.numRanks r completed s with hs1
    have hpair := trySendAll_pair G.numRanks r completed s (h.comm.reqBuf r)
    have h2 : livePot G (setPc s1 r .head).pc ≤ livePot G s.pc :=
      livePot_setPc G s.pc r .head (by rw [hpc]; simp)
    have h1 : taskPot G (setPc s1 r .head).log = taskPot G s.log := rfl
    have h3 : ∀ q' r', pairPot (setPc s1 r .head) q' r' = pairPot s1 q' r' := fun _ _ => rfl
    have h4 : (∑ q' ∈ Finset.range G.numRanks, ∑ r' ∈ Finset.range G.numRanks, pairPot s1 q' r') ≤
        ∑ q' ∈ Finset.range G.numRanks, ∑ r' ∈ Finset.range G.numRanks, pairPot s q' r' :=
      Finset.sum_le_sum (fun q' _ => Finset.sum_le_sum (fun r' _ => (hpair q' r').1))
    refine ⟨?_, ?_⟩
    · unfold pot
      simp only [h3]
      omega
    · intro he
      have h5 : (∑ q' ∈ Finset.range G.numRanks, ∑ r' ∈ Finset.range G.numRanks, pairPot s1 q' r') =
          ∑ q' ∈ Finset.range G.numRanks, ∑ r' ∈ Finset.range G.numRanks, pairPot s q' r' := by
        unfold pot at he
        simp only [h3] at he
        omega
      have h6 : ∀ q' ∈ Finset.range G.numRanks, ∀ r' ∈ Finset.range G.numRanks,
          pairPot s1 q' r' = pairPot s q' r' := by
        intro q' hq' r' hr'
        have ha := (Finset.sum_eq_sum_iff_of_le
          (fun q' _ => Finset.sum_le_sum (fun r' _ => (hpair q' r').1))).1 h5 q' hq'
        exact (Finset.sum_eq_sum_iff_of_le (fun r' _ => (hpair q' r').1)).1 ha r' hr'
      have hsame : ∀ q' r', s1.toSend q' r' = s.toSend q' r' ∧ s1.chan q' r' = s.chan q' r' ∧
          s1.req q' r' = s.req q' r' ∧ s1.sendBuf q' r' = s.sendBuf q' r' := by
        intro q' r'
        by_cases hc : q' = r ∧ r' ∈ others G.numRanks r
        · have := (hpair q' r').2 (h6 q' (by rw [hc.1]; exact Finset.mem_range.2 hr) r'
            (Finset.mem_range.2 (mem_others.1 hc.2).1))
          exact ⟨this.1, this.2.1, this.2.2.1, this.2.2.2.1⟩
        · have := trySendAll_other G.numRanks r completed s hc
          exact ⟨this.2.2.1, this.2.2.2, this.1, this.2.1⟩
      refine ⟨?_, by simp, by simp, by simp, ?_⟩
      · have e1 : s1.toSend = s.toSend := by funext q' r'; exact (hsame q' r').1
        have e2 : s1.chan = s.chan := by funext q' r'; exact (hsame q' r').2.1
        have e3 : s1.req = s.req := by funext q' r'; exact (hsame q' r').2.2.1
        have e4 : s1.sendBuf = s.sendBuf := by funext q' r'; exact (hsame q' r').2.2.2
        unfold SameData
        have : setPc s1 r .head = { s with
            toSend := s1.toSend
            chan := s1.chan
            req := s1.req
            sendBuf := s1.sendBuf
            pc := upd s.pc r .head } := rfl
        rw [this, e1, e2, e3, e4]
      · intro c hc q hq
        simp only [Act.send.injEq] at hc
        subst hc
        exact ((hpair r q).2 (h6 r (Finset.mem_range.2 hr) q
          (Finset.mem_range.2 (mem_others.1 hq).1))).2.2.2.2 rfl hq

end Verif.Sweep
