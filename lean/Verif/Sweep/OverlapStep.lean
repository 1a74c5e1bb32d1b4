import Verif.Sweep.Merge
import Verif.Sweep.OverlapSpec

/-!
# Steps of one rank in the network of all sweeps and in the network of one sweep
-/

namespace Verif.Sweep

variable {K R C : Type} [Field K] [LinearOrder K] [AddCommGroup R] [Module K R]

omit [AddCommGroup R] [Module K R] in
theorem grid_wf {P : Sequence K R C} (h : WF P.base) (k : Nat) (chem : Id → C) : WF (P.grid k chem) :=
  ⟨h.rank_lt, h.loc, h.remote, h.symm⟩

/-- Only the chemistry of the cells of the rank matters. -/
theorem Step.chem {P : Sequence K R C} {k r : Nat} {c c' : Id → C} {a : Act} {s s' : State R}
    (h : Step (P.grid k c) r a s s') (hc : ∀ id, id.rank = r → c id = c' id) (ht : ∀ t ∈ s.todo r, t.id.rank = r) :
    Step (P.grid k c') r a s s' := by
  cases h with
  | exit _ _ hr hpc hcond => exact .exit s r hr hpc hcond
  | enterRecv _ _ hr hpc hcond htodo => exact .enterRecv s r hr hpc hcond htodo
  | enterWork _ _ hr hpc hcond htodo => exact .enterWork s r hr hpc hcond htodo
  | skip _ _ q qs hr hpc h0 => exact .skip s r q qs hr hpc h0
  | probe _ _ q qs hr hpc h0 => exact .probe s r q qs hr hpc h0
  | recvDone _ _ hr hpc => exact .recvDone s r hr hpc
  | workDone _ _ k hr hpc htodo => exact .workDone s r k hr hpc htodo
  | take _ s1 _ q qs msg rest hr hpc h0 hc hrecv => exact .take s s1 r q qs msg rest hr hpc h0 hc hrecv
  | pop _ s1 _ m t hr hpc htm hsolve =>
    refine .pop s s1 r m t hr hpc htm ?_
    rw [← hsolve]
    unfold solveTask
    have : (P.grid k c').absorb t.id = (P.grid k c).absorb t.id := by
      show P.absorb (c' t.id) t.id = P.absorb (c t.id) t.id
      rw [hc _ (ht t htm)]
    rw [this]
    rfl
  | send _ _ completed hr hpc => exact .send s r completed hr hpc

/-- What rank `r` puts into the network in a step. -/
def pushed (n r : Nat) (s : State R) : Act → Nat → List (List (Data R))
  | .send c => posted n r c s
  | _ => fun _ => []

/-- The network after a step. -/
def moved (n r : Nat) (s : State R) (a : Act) (c : Nat → Nat → List (List (Data R))) :
    Nat → Nat → List (List (Data R)) :=
  fun x y => match a with
    | .take q => if x = q ∧ y = r then (c x y).tail else c x y
    | a => if x = r then c x y ++ pushed n r s a y else c x y

omit [AddCommGroup R] [Module K R] [Field K] [LinearOrder K] in
theorem Same.chanless {r : Nat} {s t : State R} (h : Same r s t) (c : Nat → Nat → List (List (Data R))) (l : List Task) :
    Same r { s with chan := c, log := l } t :=
  ⟨h.miss, h.inc, h.out, h.per, h.todo, h.solveCount, h.recvCount, h.toSend, h.sendBuf, h.req, h.pc⟩

omit [AddCommGroup R] [Module K R] in
theorem posted_same {r n : Nat} {s t : State R} (h : Same r s t) (c : Nat → Bool) : posted n r c s = posted n r c t := by
  have : ∀ q, posted n r c (merge r t.chan t.log s t) q = posted n r c s q := by
    intro q
    unfold posted
    dsimp only
    rw [updatePending_merge, posts_merge]
    simp [merge]
  funext q
  rw [← this, merge_eq h]

/-- The network after a step of rank `r`. -/
theorem Step.chan {G : Grid K R} {r : Nat} {a : Act} {s s' : State R} (h : Step G r a s s') (hG : WF G) (hg : Good G s) :
    s'.chan = moved G.numRanks r s a s.chan := by
  have hno : ∀ a : Act, (∀ q, a ≠ .take q) → (∀ c, a ≠ .send c) → s.chan = moved G.numRanks r s a s.chan := by
    intro a h1 h2
    funext x y
    cases a with
    | take q => exact absurd rfl (h1 q)
    | send c => exact absurd rfl (h2 c)
    | _ => simp [moved, pushed]
  cases h with
  | exit _ _ hr hpc hcond => exact hno _ (by simp) (by simp)
  | enterRecv _ _ hr hpc hcond htodo => exact hno _ (by simp) (by simp)
  | enterWork _ _ hr hpc hcond htodo => exact hno _ (by simp) (by simp)
  | skip _ _ q qs hr hpc h0 => exact hno _ (by simp) (by simp)
  | probe _ _ q qs hr hpc h0 => exact hno _ (by simp) (by simp)
  | recvDone _ _ hr hpc => exact hno _ (by simp) (by simp)
  | workDone _ _ k hr hpc htodo => exact hno _ (by simp) (by simp)
  | take _ s1 _ q qs msg rest hr hpc h0 hc hrecv =>
    have hrk : ∀ d ∈ msg, d.id.rank = r := fun d hd =>
      (hg.inv.queueOk q r d (by unfold queue; rw [hc]; simp [hd])).2.2.2.1
    unfold receiveMsg at hrecv
    split at hrecv
    · simp at hrecv
    · rw [foldlM_receiveData G r msg hrk] at hrecv
      have hf := foldlM_deliver_frame _ hrecv
      show s1.chan = _
      rw [hf.chan]
      funext x y
      show upd2 s.chan q r rest x y = _
      unfold upd2 moved
      dsimp only
      by_cases hxy : x = q ∧ y = r
      · rw [if_pos hxy, if_pos hxy, hxy.1, hxy.2, hc]
        rfl
      · rw [if_neg hxy, if_neg hxy]
  | pop _ s1 _ k t hr hpc ht hsolve =>
    obtain ⟨hact, hrank, hdir, hmiss, hlog⟩ := (hg.inv.todoIff r t).1 ht
    have hcell := (mem_act.1 hact).1
    unfold solveTask at hsolve
    simp only at hsolve
    split at hsolve
    · simp at hsolve
    · rw [foldlM_solveEntry G hG t hcell _ _ (fun e he => he), hrank] at hsolve
      have hf := foldlM_deliver_frame _ hsolve
      show s1.chan = _
      rw [hf.chan]
      exact hno _ (by simp) (by simp)
  | send _ _ completed hr hpc =>
    show (trySendAll G.numRanks r completed s).chan = _
    rw [trySendAll_chan]
    rfl

/-- A step of rank `r` can also be made in another state in which the fields of this rank are the same, and leads to the
same fields. -/
theorem Step.elsewhere {G : Grid K R} {r : Nat} {a : Act} {s s' t : State R} (h : Step G r a s s') (hG : WF G)
    (hst : Same r s t) (htodo : ∀ tk ∈ s.todo r, tk.id ∈ G.cells ∧ tk.id.rank = r)
    (htake : ∀ q, a = .take q → ∀ msg rest, s.chan q r = msg :: rest → (∀ d ∈ msg, d.id.rank = r) ∧
      ∃ rest', t.chan q r = msg :: rest') :
    ∃ t', Step G r a t t' ∧ Same r s' t' ∧ (∀ x, x ≠ r → Same x t t') ∧
      t'.chan = moved G.numRanks r t a t.chan := by
  have hm := merge_eq hst
  have hpcm : ∀ {s1 : State R} {c : Nat → Nat → List (List (Data R))} {l : List Task} (p : PC),
      setPc (merge r c l s1 t) r p = merge r c l (setPc s1 r p) t := fun p => setPc_merge p
  -- steps which only change the program counter
  have hset : ∀ p, (∀ q, a ≠ .take q) → (∀ c, a ≠ .send c) → Step G r a t (setPc t r p) → s' = setPc s r p →
      ∃ t', Step G r a t t' ∧ Same r s' t' ∧ (∀ x, x ≠ r → Same x t t') ∧ t'.chan = moved G.numRanks r t a t.chan := by
    intro p h1 h2 hs e
    refine ⟨_, hs, ?_, ?_, ?_⟩
    · rw [e]
      conv => rhs; rw [← hm]
      rw [hpcm]
      exact (merge_same _ _ _ _ _).symm
    · intro x hx
      conv => rhs; rw [← hm]
      rw [hpcm]
      exact (merge_other _ _ _ _ _ hx).symm
    · show t.chan = _
      funext x y
      cases a with
      | take q => exact absurd rfl (h1 q)
      | send c => exact absurd rfl (h2 c)
      | _ => simp [moved, pushed]
  have hlc : loopCond G t r ↔ loopCond G s r := by
    rw [← hm]
    exact loopCond_merge
  cases h with
  | exit _ _ hr hpc hcond =>
    exact hset _ (by simp) (by simp) (.exit t r hr (hst.pc ▸ hpc) (fun h => hcond (hlc.1 h))) rfl
  | enterRecv _ _ hr hpc hcond h0 =>
    exact hset _ (by simp) (by simp) (.enterRecv t r hr (hst.pc ▸ hpc) (hlc.2 hcond) (hst.todo ▸ h0)) rfl
  | enterWork _ _ hr hpc hcond h0 =>
    exact hset _ (by simp) (by simp) (.enterWork t r hr (hst.pc ▸ hpc) (hlc.2 hcond) (hst.todo ▸ h0)) rfl
  | skip _ _ q qs hr hpc h0 =>
    exact hset _ (by simp) (by simp) (.skip t r q qs hr (hst.pc ▸ hpc) (hst.recvCount ▸ h0)) rfl
  | probe _ _ q qs hr hpc h0 =>
    exact hset _ (by simp) (by simp) (.probe t r q qs hr (hst.pc ▸ hpc) (hst.recvCount ▸ h0)) rfl
  | recvDone _ _ hr hpc => exact hset _ (by simp) (by simp) (.recvDone t r hr (hst.pc ▸ hpc)) rfl
  | workDone _ _ k hr hpc h0 =>
    exact hset _ (by simp) (by simp) (.workDone t r k hr (hst.pc ▸ hpc) (hst.todo ▸ h0)) rfl
  | take _ s1 _ q qs msg rest hr hpc h0 hc hrecv =>
    obtain ⟨hrk, rest', hrest⟩ := htake q rfl msg rest hc
    have e := receiveMsg_merge (G := G) (r := r) (c := t.chan) (l := t.log) (s := s) (t := t) (q := q) (rest := rest)
      (rest' := rest') hrk
    rw [hm, hrecv, Option.map_some] at e
    refine ⟨_, .take t _ r q qs msg rest' hr (hst.pc ▸ hpc) (hst.recvCount ▸ h0) hrest e, ?_, ?_, ?_⟩
    · rw [hpcm]
      exact (merge_same _ _ _ _ _).symm
    · intro x hx
      rw [hpcm]
      exact (merge_other _ _ _ _ _ hx).symm
    · show upd2 t.chan q r rest' = _
      funext x y
      unfold upd2 moved
      dsimp only
      by_cases hxy : x = q ∧ y = r
      · rw [if_pos hxy, if_pos hxy, hxy.1, hxy.2, hrest]
        rfl
      · rw [if_neg hxy, if_neg hxy]
  | pop _ s1 _ k tk hr hpc ht hsolve =>
    have e := solveTask_merge (r := r) (c := t.chan) (l := t.log)
      (s := { s with todo := upd s.todo r ((s.todo r).erase tk) }) (t := t) hG (htodo tk ht).1 (htodo tk ht).2
    rw [hsolve, Option.map_some] at e
    have e2 : merge r t.chan t.log { s with todo := upd s.todo r ((s.todo r).erase tk) } t =
        { t with todo := upd t.todo r ((t.todo r).erase tk) } := by
      conv => rhs; rw [← hm]
      refine State.ext' rfl rfl rfl rfl ?_ rfl rfl rfl rfl rfl rfl rfl rfl
      show (fun x => if x = r then upd s.todo r ((s.todo r).erase tk) x else t.todo x) =
        upd (fun x => if x = r then s.todo x else t.todo x) r _
      rw [upd_rank]
      show _ = fun x => if x = r then upd s.todo r (Multiset.erase (if r = r then s.todo r else t.todo r) tk) x else t.todo x
      rw [if_pos rfl]
    rw [e2] at e
    refine ⟨_, .pop t _ r k tk hr (hst.pc ▸ hpc) (hst.todo ▸ ht) e, ?_, ?_, ?_⟩
    · rw [hpcm]
      exact (merge_same _ _ _ _ _).symm
    · intro x hx
      rw [hpcm]
      exact (merge_other _ _ _ _ _ hx).symm
    · show t.chan = _
      funext x y
      simp [moved, pushed]
  | send _ _ completed hr hpc =>
    have e := trySendAll_merge (r := r) (c := t.chan) (l := t.log) (s := s) (t := t) G.numRanks completed
    rw [hm] at e
    refine ⟨_, .send t r completed hr (hst.pc ▸ hpc), ?_, ?_, ?_⟩
    · rw [e, hpcm]
      exact (merge_same _ _ _ _ _).symm
    · intro x hx
      rw [e, hpcm]
      exact (merge_other _ _ _ _ _ hx).symm
    · show (trySendAll G.numRanks r completed t).chan = _
      rw [trySendAll_chan]
      rfl

end Verif.Sweep
