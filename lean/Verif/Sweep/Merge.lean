import Verif.Sweep.Props

/-!
# Steps of a rank depend only on the fields of this rank and its channels
-/

namespace Verif.Sweep

variable {K R : Type} [Field K] [LinearOrder K]

/-- The fields of rank `r` from `s`, those of the other ranks from `t`. -/
def merge (r : Nat) (c : Nat → Nat → List (List (Data R))) (l : List Task) (s t : State R) : State R where
  miss := fun id => if id.rank = r then s.miss id else t.miss id
  inc := fun id => if id.rank = r then s.inc id else t.inc id
  out := fun id => if id.rank = r then s.out id else t.out id
  per := fun id => if id.rank = r then s.per id else t.per id
  todo := fun x => if x = r then s.todo x else t.todo x
  solveCount := fun x => if x = r then s.solveCount x else t.solveCount x
  recvCount := fun x => if x = r then s.recvCount x else t.recvCount x
  toSend := fun x => if x = r then s.toSend x else t.toSend x
  sendBuf := fun x => if x = r then s.sendBuf x else t.sendBuf x
  req := fun x => if x = r then s.req x else t.req x
  chan := c
  pc := fun x => if x = r then s.pc x else t.pc x
  log := l

/-- The fields of rank `r` are the same. -/
structure Same (r : Nat) (s t : State R) : Prop where
  miss : ∀ id, id.rank = r → s.miss id = t.miss id
  inc : ∀ id, id.rank = r → s.inc id = t.inc id
  out : ∀ id, id.rank = r → s.out id = t.out id
  per : ∀ id, id.rank = r → s.per id = t.per id
  todo : s.todo r = t.todo r
  solveCount : s.solveCount r = t.solveCount r
  recvCount : s.recvCount r = t.recvCount r
  toSend : s.toSend r = t.toSend r
  sendBuf : s.sendBuf r = t.sendBuf r
  req : s.req r = t.req r
  pc : s.pc r = t.pc r

theorem Same.rfl' {r : Nat} {s : State R} : Same r s s :=
  ⟨fun _ _ => rfl, fun _ _ => rfl, fun _ _ => rfl, fun _ _ => rfl, rfl, rfl, rfl, rfl, rfl, rfl, rfl⟩

theorem Same.symm {r : Nat} {s t : State R} (h : Same r s t) : Same r t s :=
  ⟨fun i hi => (h.miss i hi).symm, fun i hi => (h.inc i hi).symm, fun i hi => (h.out i hi).symm,
    fun i hi => (h.per i hi).symm, h.todo.symm, h.solveCount.symm, h.recvCount.symm, h.toSend.symm, h.sendBuf.symm,
    h.req.symm, h.pc.symm⟩

theorem Same.trans {r : Nat} {s t u : State R} (h : Same r s t) (g : Same r t u) : Same r s u :=
  ⟨fun i hi => (h.miss i hi).trans (g.miss i hi), fun i hi => (h.inc i hi).trans (g.inc i hi),
    fun i hi => (h.out i hi).trans (g.out i hi), fun i hi => (h.per i hi).trans (g.per i hi), h.todo.trans g.todo,
    h.solveCount.trans g.solveCount, h.recvCount.trans g.recvCount, h.toSend.trans g.toSend, h.sendBuf.trans g.sendBuf,
    h.req.trans g.req, h.pc.trans g.pc⟩

theorem merge_same (r : Nat) (c : Nat → Nat → List (List (Data R))) (l : List Task) (s t : State R) :
    Same r (merge r c l s t) s :=
  ⟨fun _ h => if_pos h, fun _ h => if_pos h, fun _ h => if_pos h, fun _ h => if_pos h, if_pos rfl, if_pos rfl, if_pos rfl,
    if_pos rfl, if_pos rfl, if_pos rfl, if_pos rfl⟩

theorem merge_other (r : Nat) (c : Nat → Nat → List (List (Data R))) (l : List Task) (s t : State R) {x : Nat}
    (hx : x ≠ r) : Same x (merge r c l s t) t :=
  ⟨fun _ h => if_neg (h ▸ hx), fun _ h => if_neg (h ▸ hx), fun _ h => if_neg (h ▸ hx), fun _ h => if_neg (h ▸ hx),
    if_neg hx, if_neg hx, if_neg hx, if_neg hx, if_neg hx, if_neg hx, if_neg hx⟩

theorem State.ext' {s t : State R} (h1 : s.miss = t.miss) (h2 : s.inc = t.inc) (h3 : s.out = t.out) (h4 : s.per = t.per)
    (h5 : s.todo = t.todo) (h6 : s.solveCount = t.solveCount) (h7 : s.recvCount = t.recvCount) (h8 : s.toSend = t.toSend)
    (h9 : s.sendBuf = t.sendBuf) (h10 : s.req = t.req) (h11 : s.chan = t.chan) (h12 : s.pc = t.pc) (h13 : s.log = t.log) :
    s = t := by
  cases s
  cases t
  simp only at h1 h2 h3 h4 h5 h6 h7 h8 h9 h10 h11 h12 h13
  subst h1 h2 h3 h4 h5 h6 h7 h8 h9 h10 h11 h12 h13
  rfl

theorem merge_eq {r : Nat} {s t : State R} (h : Same r s t) : merge r t.chan t.log s t = t := by
  refine State.ext' ?_ ?_ ?_ ?_ ?_ ?_ ?_ ?_ ?_ ?_ rfl ?_ rfl
  · funext id
    show (if id.rank = r then s.miss id else t.miss id) = _
    split
    · exact h.miss _ (by assumption)
    · rfl
  · funext id
    show (if id.rank = r then s.inc id else t.inc id) = _
    split
    · exact h.inc _ (by assumption)
    · rfl
  · funext id
    show (if id.rank = r then s.out id else t.out id) = _
    split
    · exact h.out _ (by assumption)
    · rfl
  · funext id
    show (if id.rank = r then s.per id else t.per id) = _
    split
    · exact h.per _ (by assumption)
    · rfl
  · funext x
    show (if x = r then s.todo x else t.todo x) = _
    split
    · next e => rw [e]; exact h.todo
    · rfl
  · funext x
    show (if x = r then s.solveCount x else t.solveCount x) = _
    split
    · next e => rw [e]; exact h.solveCount
    · rfl
  · funext x
    show (if x = r then s.recvCount x else t.recvCount x) = _
    split
    · next e => rw [e]; exact h.recvCount
    · rfl
  · funext x
    show (if x = r then s.toSend x else t.toSend x) = _
    split
    · next e => rw [e]; exact h.toSend
    · rfl
  · funext x
    show (if x = r then s.sendBuf x else t.sendBuf x) = _
    split
    · next e => rw [e]; exact h.sendBuf
    · rfl
  · funext x
    show (if x = r then s.req x else t.req x) = _
    split
    · next e => rw [e]; exact h.req
    · rfl
  · funext x
    show (if x = r then s.pc x else t.pc x) = _
    split
    · next e => rw [e]; exact h.pc
    · rfl

section Updates
variable {B D : Type}

theorem upd2_id {f g : Id → Nat → B} {r d : Nat} {id : Id} {v : B} (h : id.rank = r) :
    upd2 (fun i => if i.rank = r then f i else g i) id d v = fun i => if i.rank = r then upd2 f id d v i else g i := by
  funext i e
  unfold upd2
  by_cases hi : i.rank = r
  · simp only [hi, if_true]
  · have : i ≠ id := fun e => hi (e ▸ h)
    simp [hi, this]

theorem upd_rank {f g : Nat → B} {r : Nat} {v : B} :
    upd (fun x => if x = r then f x else g x) r v = fun x => if x = r then upd f r v x else g x := by
  funext x
  unfold upd
  by_cases hx : x = r
  · simp [hx]
  · simp [hx]

theorem upd2_rank {f g : Nat → Nat → B} {r q : Nat} {v : B} :
    upd2 (fun x => if x = r then f x else g x) r q v = fun x => if x = r then upd2 f r q v x else g x := by
  funext x y
  unfold upd2
  by_cases hx : x = r
  · simp [hx]
  · simp [hx]

end Updates

variable {r : Nat} {c : Nat → Nat → List (List (Data R))} {l : List Task} {s t : State R}

theorem setPc_merge (p : PC) : setPc (merge r c l s t) r p = merge r c l (setPc s r p) t := by
  unfold setPc
  rw [show (merge r c l s t).pc = fun x => if x = r then s.pc x else t.pc x from rfl, upd_rank]
  rfl

theorem handleLocal_merge [AddCommGroup R] {G : Grid K R} {x : R} {d : Nat} {id : Id} (h : id.rank = r) :
    handleLocal G (merge r c l s t) x d id = (handleLocal G s x d id).map fun s' => merge r c l s' t := by
  have e1 : (merge r c l s t).inc id d = s.inc id d := by
    show (if id.rank = r then s.inc id else t.inc id) d = _
    rw [if_pos h]
  have e2 : (merge r c l s t).miss id d = s.miss id d := by
    show (if id.rank = r then s.miss id else t.miss id) d = _
    rw [if_pos h]
  have e3 : (merge r c l s t).todo id.rank = s.todo id.rank := by
    show (if id.rank = r then s.todo id.rank else t.todo id.rank) = _
    rw [if_pos h]
  unfold handleLocal
  dsimp only
  rw [e1, e2, e3]
  have u1 : upd2 (merge r c l s t).inc id d (s.inc id d + x) =
      fun i => if i.rank = r then upd2 s.inc id d (s.inc id d + x) i else t.inc i := upd2_id h
  rw [u1]
  by_cases ha : ownActive G id = true
  · rw [if_pos ha, if_pos ha]
    cases hm : s.miss id d with
    | zero => rfl
    | succ m =>
      dsimp only
      have u2 : upd2 (merge r c l s t).miss id d m = fun i => if i.rank = r then upd2 s.miss id d m i else t.miss i :=
        upd2_id h
      have u3 : upd (merge r c l s t).todo id.rank (⟨id, d⟩ ::ₘ s.todo id.rank) =
          fun x => if x = r then upd s.todo id.rank (⟨id, d⟩ ::ₘ s.todo id.rank) x else t.todo x := by
        rw [h]
        exact upd_rank
      rw [u2, u3]
      by_cases h0 : m = 0
      · rw [if_pos h0, if_pos h0]
        rfl
      · rw [if_neg h0, if_neg h0]
        rfl
  · rw [if_neg ha, if_neg ha]
    rfl

theorem handleLocalPeriodic_merge [AddCommGroup R] {x : R} {d : Nat} {id : Id} (h : id.rank = r) :
    handleLocalPeriodic (merge r c l s t) x d id = merge r c l (handleLocalPeriodic s x d id) t := by
  have e1 : (merge r c l s t).per id d = s.per id d := by
    show (if id.rank = r then s.per id else t.per id) d = _
    rw [if_pos h]
  unfold handleLocalPeriodic
  rw [e1]
  have u1 : upd2 (merge r c l s t).per id d (s.per id d + x) =
      fun i => if i.rank = r then upd2 s.per id d (s.per id d + x) i else t.per i := upd2_id h
  rw [u1]
  rfl

theorem handleRemote_merge {G : Grid K R} {dat : Data R} :
    handleRemote G (merge r c l s t) r dat = merge r c l (handleRemote G s r dat) t := by
  unfold handleRemote
  by_cases ha : isActive G r dat.id = true
  · rw [if_pos ha, if_pos ha]
    have e1 : (merge r c l s t).toSend r dat.id.rank = s.toSend r dat.id.rank := by
      show (if r = r then s.toSend r else t.toSend r) _ = _
      rw [if_pos rfl]
    rw [e1]
    have u1 : upd2 (merge r c l s t).toSend r dat.id.rank (s.toSend r dat.id.rank ++ [dat]) =
        fun x => if x = r then upd2 s.toSend r dat.id.rank (s.toSend r dat.id.rank ++ [dat]) x else t.toSend x := upd2_rank
    rw [u1]
    rfl
  · rw [if_neg ha, if_neg ha]

theorem foldlM_map {A S : Type} (M : S → S) (f : S → A → Option S) (as : List A)
    (h : ∀ a ∈ as, ∀ s, f (M s) a = (f s a).map M) (s : S) : as.foldlM f (M s) = (as.foldlM f s).map M := by
  induction as generalizing s with
  | nil => rfl
  | cons a as ih =>
    rw [List.foldlM_cons, List.foldlM_cons, h a List.mem_cons_self]
    cases f s a with
    | none => rfl
    | some s' => exact ih (fun a ha => h a (List.mem_cons_of_mem _ ha)) s'

theorem solveEntry_merge [AddCommGroup R] [Module K R] {G : Grid K R} (hG : WF G) {tk : Task} (ht : tk.id ∈ G.cells)
    (hr : tk.id.rank = r) (delta : R) {e : Face K × Neighbour} (he : e ∈ G.nbrs tk.id) (s : State R) :
    solveEntry G tk delta (merge r c l s t) e = (solveEntry G tk delta s e).map fun s' => merge r c l s' t := by
  obtain ⟨f, nb⟩ := e
  unfold solveEntry
  by_cases hd : downwind f (G.dir tk.dir)
  · rw [if_pos hd, if_pos hd]
    cases nb with
    | loc id => exact handleLocal_merge ((hG.loc _ ht f id (Or.inl he)).2.trans hr)
    | remote id =>
      dsimp only
      rw [hr, handleRemote_merge]
      rfl
    | boundary => rfl
    | locPeriodic id =>
      dsimp only
      rw [handleLocalPeriodic_merge ((hG.loc _ ht f id (Or.inr he)).2.trans hr)]
      rfl
    | remotePeriodic id =>
      dsimp only
      rw [hr, handleRemote_merge]
      rfl
  · rw [if_neg hd, if_neg hd]
    rfl

theorem solveTask_merge [AddCommGroup R] [Module K R] {G : Grid K R} (hG : WF G) {tk : Task} (ht : tk.id ∈ G.cells)
    (hr : tk.id.rank = r) :
    solveTask G (merge r c l s t) tk = (solveTask G s tk).map fun s' => merge r c (l ++ [tk]) s' t := by
  have e1 : (merge r c l s t).inc tk.id tk.dir = s.inc tk.id tk.dir := by
    show (if tk.id.rank = r then s.inc tk.id else t.inc tk.id) _ = _
    rw [if_pos hr]
  have e2 : (merge r c l s t).out tk.id tk.dir = s.out tk.id tk.dir := by
    show (if tk.id.rank = r then s.out tk.id else t.out tk.id) _ = _
    rw [if_pos hr]
  have e3 : (merge r c l s t).per tk.id tk.dir = s.per tk.id tk.dir := by
    show (if tk.id.rank = r then s.per tk.id else t.per tk.id) _ = _
    rw [if_pos hr]
  have e4 : (merge r c l s t).solveCount tk.id.rank tk.dir = s.solveCount tk.id.rank tk.dir := by
    show (if tk.id.rank = r then s.solveCount tk.id.rank else t.solveCount tk.id.rank) _ = _
    rw [if_pos hr]
  unfold solveTask
  dsimp only
  rw [e1, e2, e3, e4]
  cases s.solveCount tk.id.rank tk.dir with
  | zero => rfl
  | succ n =>
    dsimp only
    generalize G.makePositive (s.inc tk.id tk.dir) = a
    generalize G.absorb tk.id (a + G.source tk.id + s.per tk.id tk.dir) = b
    generalize b - s.out tk.id tk.dir = delta
    have u1 : upd2 (merge r c l s t).inc tk.id tk.dir a = fun i => if i.rank = r then upd2 s.inc tk.id tk.dir a i else t.inc i :=
      upd2_id hr
    have u2 : upd2 (merge r c l s t).out tk.id tk.dir b = fun i => if i.rank = r then upd2 s.out tk.id tk.dir b i else t.out i :=
      upd2_id hr
    have u3 : upd2 (merge r c l s t).solveCount tk.id.rank tk.dir n =
        fun x => if x = r then upd2 s.solveCount tk.id.rank tk.dir n x else t.solveCount x := by
      rw [hr]
      exact upd2_rank
    rw [u1, u2, u3]
    exact foldlM_map (fun s' => merge r c (l ++ [tk]) s' t) (solveEntry G tk delta) (G.nbrs tk.id)
      (fun e he s => solveEntry_merge hG ht hr delta he s)
      { s with
        inc := upd2 s.inc tk.id tk.dir a
        out := upd2 s.out tk.id tk.dir b
        solveCount := upd2 s.solveCount tk.id.rank tk.dir n
        log := s.log ++ [tk] }

theorem receiveData_merge [AddCommGroup R] {G : Grid K R} {dat : Data R} (h : dat.id.rank = r) (s : State R) :
    receiveData G (merge r c l s t) dat = (receiveData G s dat).map fun s' => merge r c l s' t := by
  unfold receiveData
  by_cases hp : dat.periodic = true
  · rw [if_pos hp, if_pos hp, handleLocalPeriodic_merge h]
    rfl
  · rw [if_neg hp, if_neg hp, handleLocal_merge h]

theorem receiveMsg_merge [AddCommGroup R] {G : Grid K R} {q : Nat} {msg : List (Data R)} {rest rest' : List (List (Data R))}
    (h : ∀ dat ∈ msg, dat.id.rank = r) :
    receiveMsg G (merge r c l s t) r q msg rest' =
      (receiveMsg G s r q msg rest).map fun s' => merge r (upd2 c q r rest') l s' t := by
  have e1 : (merge r c l s t).recvCount r q = s.recvCount r q := by
    show (if r = r then s.recvCount r else t.recvCount r) _ = _
    rw [if_pos rfl]
  unfold receiveMsg
  rw [e1]
  by_cases hl : s.recvCount r q < msg.length
  · rw [if_pos hl, if_pos hl]
    rfl
  · rw [if_neg hl, if_neg hl]
    have u1 : upd2 (merge r c l s t).recvCount r q (s.recvCount r q - msg.length) =
        fun x => if x = r then upd2 s.recvCount r q (s.recvCount r q - msg.length) x else t.recvCount x := upd2_rank
    rw [u1]
    exact foldlM_map (fun s' => merge r (upd2 c q r rest') l s' t) (receiveData G) msg
      (fun dat hd s => receiveData_merge (h dat hd) s)
      { s with
        recvCount := upd2 s.recvCount r q (s.recvCount r q - msg.length)
        chan := upd2 s.chan q r rest }

/-- The message which `try_send_all` sends from `r` to `q`, if any. -/
def posted (n r : Nat) (completed : Nat → Bool) (s : State R) (q : Nat) : List (List (Data R)) :=
  let u := updatePending n r completed s
  if posts n r u q = true then [u.sendBuf r q ++ u.toSend r q] else []

theorem updatePending_merge (n : Nat) (completed : Nat → Bool) :
    updatePending n r completed (merge r c l s t) = merge r c l (updatePending n r completed s) t := by
  refine State.ext' rfl rfl rfl rfl rfl rfl rfl rfl ?_ ?_ rfl rfl rfl
  · funext x y
    simp only [updatePending, merge]
    by_cases hx : x = r
    · subst hx
      simp
    · simp [hx]
  · funext x y
    simp only [updatePending, merge]
    by_cases hx : x = r
    · subst hx
      simp
    · simp [hx]

theorem posts_merge (n q : Nat) : posts n r (merge r c l s t) q = posts n r s q := by
  simp [posts, merge]

theorem trySendAll_merge (n : Nat) (completed : Nat → Bool) :
    trySendAll n r completed (merge r c l s t) =
      merge r (fun x q => if x = r then c x q ++ posted n r completed s q else c x q) l (trySendAll n r completed s) t := by
  unfold trySendAll
  rw [updatePending_merge]
  unfold posted
  dsimp only
  generalize updatePending n r completed s = u
  unfold postSends
  refine State.ext' rfl rfl rfl rfl rfl rfl rfl ?_ ?_ ?_ ?_ rfl rfl
  · funext x y
    simp only [posts_merge]
    by_cases hx : x = r
    · subst hx
      simp [merge]
    · simp [merge, hx]
  · funext x y
    simp only [posts_merge]
    by_cases hx : x = r
    · subst hx
      simp [merge]
    · simp [merge, hx]
  · funext x y
    simp only [posts_merge]
    by_cases hx : x = r
    · subst hx
      simp [merge]
    · simp [merge, hx]
  · funext x y
    simp only [posts_merge]
    by_cases hx : x = r
    · subst hx
      by_cases hp : posts n x u y = true
      · simp [merge, hp]
      · simp [merge, hp]
    · simp [merge, hx]

theorem trySendAll_chan (n : Nat) (completed : Nat → Bool) (s : State R) :
    (trySendAll n r completed s).chan = fun x q => if x = r then s.chan x q ++ posted n r completed s q else s.chan x q := by
  have := congrArg State.chan (trySendAll_merge (r := r) (c := s.chan) (l := s.log) (s := s) (t := s) n completed)
  rw [merge_eq Same.rfl'] at this
  exact this

theorem loopCond_merge {G : Grid K R} : loopCond G (merge r c l s t) r ↔ loopCond G s r := by
  unfold loopCond merge
  simp

end Verif.Sweep
