import Verif.Domain.ExchangeDataModel
import Verif.Comm.DataByRankProps
import Mathlib.Data.List.Perm.Basic
import Mathlib.Data.List.Nodup
import Mathlib.Data.List.Range

/-!
# Lemmas for C17
-/

namespace Verif.ExchangeData

open Verif.DataByRank

variable {V : Type}

/-- All ranks but `r`, in order. -/
def others (n r : Nat) : List Nat := (List.range n).filter (fun s => s ≠ r)

theorem mem_others (n r s : Nat) : s ∈ others n r ↔ s < n ∧ s ≠ r := by
  simp [others]

theorem others_nodup (n r : Nat) : (others n r).Nodup := List.nodup_range.filter _

theorem perm_others (n r : Nat) (h : r < n) : (List.range n).Perm (r :: others n r) := by
  have h1 : (List.range n).Nodup := List.nodup_range
  rw [List.perm_ext_iff_of_nodup h1]
  · intro a
    rw [List.mem_cons, mem_others, List.mem_range]
    constructor
    · intro ha
      by_cases hr : a = r
      · exact Or.inl hr
      · exact Or.inr ⟨ha, hr⟩
    · rintro (rfl | ⟨h, _⟩) <;> omega
  · rw [List.nodup_cons]
    exact ⟨by simp [mem_others], others_nodup n r⟩

theorem mapM_some {α β : Type} (f : α → Option β) (g : α → β) (l : List α)
    (h : ∀ x ∈ l, f x = some (g x)) : l.mapM f = some (l.map g) := by
  induction l with
  | nil => rfl
  | cons x xs ih =>
    rw [List.mapM_cons, h x (by simp), ih (fun y hy => h y (by simp [hy]))]
    rfl

/-- The container of rank `r` with entry `f s` for each other rank `s`. -/
def tab {T : Type} (n r : Nat) (f : Nat → T) : Data T :=
  (List.range n).map (fun s => if s = r then none else some (f s))

theorem tab_getElem {T : Type} (n r : Nat) (f : Nat → T) (s : Nat) (h : s < n) :
    (tab n r f)[s]? = some (if s = r then none else some (f s)) := by
  unfold tab
  rw [List.getElem?_map, List.getElem?_range h]
  rfl

theorem toMap_tab {T : Type} (n r : Nat) (f : Nat → T) (s : Nat) :
    toMap (tab n r f) s = if s ∈ others n r then some (f s) else none := by
  unfold toMap
  by_cases h : s < n
  · rw [tab_getElem n r f s h]
    by_cases hr : s = r
    · simp [mem_others, hr]
    · simp [mem_others, hr, h]
  · rw [List.getElem?_eq_none (by simp [tab]; omega), if_neg (by simp [mem_others]; omega)]
    rfl

theorem iterFrom_tab {T : Type} (r : Nat) (f : Nat → T) (i k : Nat) :
    iterFrom i ((List.range' i k).map (fun s => if s = r then none else some (f s)))
      = ((List.range' i k).filter (fun s => s ≠ r)).map (fun s => (s, f s)) := by
  induction k generalizing i with
  | zero => rfl
  | succ k ih =>
    rw [List.range'_succ, List.map_cons, List.filter_cons]
    by_cases h : i = r
    · subst h
      simp only [if_true, iterFrom]
      simp only [ne_eq, not_true, decide_false, Bool.false_eq_true, if_false]
      simpa using ih (i + 1)
    · simp only [h, if_false, iterFrom]
      simp only [ne_eq, h, not_false_eq_true, decide_true, if_true, List.map_cons]
      congr 1
      simpa using ih (i + 1)

theorem iter_tab {T : Type} (n r : Nat) (f : Nat → T) :
    iter (tab n r f) = (others n r).map (fun s => (s, f s)) := by
  unfold iter tab others
  rw [List.range_eq_range']
  exact iterFrom_tab r f 0 n

theorem data_ext {T : Type} (d1 d2 : Data T) (hl : d1.length = d2.length)
    (h : ∀ q, toMap d1 q = toMap d2 q) : d1 = d2 := by
  apply List.ext_getElem hl
  intro i h1 h2
  have := h i
  unfold toMap at this
  rw [List.getElem?_eq_getElem h1, List.getElem?_eq_getElem h2] at this
  simpa using this

theorem length_insert {T : Type} (d : Data T) (r : Nat) (t : T) (h : r < d.length) :
    (insert d r t).length = d.length := by
  unfold DataByRank.insert
  simp [Nat.not_le.mpr h]

/-! ### Outgoing entities -/

theorem setOutgoing_fold (owner : Comps V → Nat) (n rank : Nat) (pre suf : Particles V)
    (h : ∀ p ∈ suf, owner p.2 < n) :
    suf.foldlM (setOutgoingStep owner rank)
        (tab n rank (fun r => (pre.filter (fun p => owner p.2 = r)).map Prod.fst))
      = some (tab n rank (fun r => ((pre ++ suf).filter (fun p => owner p.2 = r)).map Prod.fst)) := by
  induction suf generalizing pre with
  | nil => simp
  | cons p suf ih =>
    rw [List.foldlM_cons]
    have hp := h p (by simp)
    have hstep : setOutgoingStep owner rank
        (tab n rank (fun r => (pre.filter (fun p => owner p.2 = r)).map Prod.fst)) p
        = some (tab n rank
          (fun r => ((pre ++ [p]).filter (fun p => owner p.2 = r)).map Prod.fst)) := by
      unfold setOutgoingStep
      by_cases ho : owner p.2 = rank
      · rw [if_neg (by simpa using ho)]
        congr 1
        unfold tab
        apply List.map_congr_left
        intro s hs
        by_cases hsr : s = rank
        · simp [hsr]
        · simp only [hsr, if_false]
          rw [List.filter_append]
          have : ¬ owner p.2 = s := by rw [ho]; exact fun h => hsr h.symm
          simp [this]
      · rw [if_pos (by simpa using ho)]
        unfold addOutgoing
        rw [tab_getElem n rank _ _ hp, if_neg ho]
        simp only [Option.some.injEq]
        apply List.ext_getElem?
        intro i
        rw [List.getElem?_set]
        by_cases hi : i < n
        · rw [tab_getElem n rank _ i hi, tab_getElem n rank _ i hi]
          by_cases hio : owner p.2 = i
          · subst hio
            rw [if_pos rfl, if_pos (by simp [tab]; exact hp), if_neg ho, List.filter_append]
            simp
          · rw [if_neg hio, List.filter_append]
            simp [hio]
        · rw [if_neg (by omega), List.getElem?_eq_none (by simp [tab]; omega),
            List.getElem?_eq_none (by simp [tab]; omega)]
    rw [hstep]
    have := ih (pre ++ [p]) (fun q hq => h q (by simp [hq]))
    rw [List.append_assoc] at this
    exact this

/-- The entities rank `rank` sends to `r`. -/
def sent (owner : Comps V → Nat) (ps : Particles V) (r : Nat) : Particles V :=
  ps.filter (fun p => owner p.2 = r)

theorem setOutgoing_eq (owner : Comps V → Nat) (n rank : Nat) (ps : Particles V)
    (h : ∀ p ∈ ps, owner p.2 < n) :
    setOutgoing owner n rank ps = some (tab n rank (fun r => (sent owner ps r).map Prod.fst)) := by
  have := setOutgoing_fold owner n rank [] ps h
  simpa [setOutgoing, sent, tab, fromSizeAndRank] using this

theorem setOutgoing_panics (owner : Comps V → Nat) (n rank : Nat) (ps : Particles V)
    (hr : rank < n) (h : ∃ p ∈ ps, n ≤ owner p.2) : setOutgoing owner n rank ps = none := by
  unfold setOutgoing
  have hlen : ∀ (l : Particles V) (d : Data (List Nat)), d.length = n → (∃ p ∈ l, n ≤ owner p.2) →
      l.foldlM (setOutgoingStep owner rank) d = none := by
    intro l
    induction l with
    | nil => rintro d _ ⟨p, hp, _⟩; simp at hp
    | cons p l ih =>
      intro d hd hex
      rw [List.foldlM_cons]
      by_cases hp : n ≤ owner p.2
      · have : setOutgoingStep owner rank d p = none := by
          unfold setOutgoingStep addOutgoing
          rw [if_pos (by omega), List.getElem?_eq_none (by omega)]
        rw [this]
        rfl
      · have hex' : ∃ q ∈ l, n ≤ owner q.2 := by
          obtain ⟨q, hq, hqn⟩ := hex
          rcases List.mem_cons.mp hq with rfl | hq
          · exact absurd hqn hp
          · exact ⟨q, hq, hqn⟩
        cases hs : setOutgoingStep owner rank d p with
        | none => rfl
        | some d' =>
          refine ih d' ?_ hex'
          unfold setOutgoingStep at hs
          split at hs
          · unfold addOutgoing at hs
            split at hs
            · simp only [Option.some.injEq] at hs
              subst hs
              simpa using hd
            · simp at hs
          · simp only [Option.some.injEq] at hs
            subst hs
            exact hd
  exact hlen ps _ (by simp [fromSizeAndRank]) h

/-! ### Buffers -/

theorem toMap_foldl_insert {T : Type} (g : Nat → T) (l : List Nat) (d : Data T) (q : Nat) :
    toMap (l.foldl (fun d s => insert d s (g s)) d) q
      = if q ∈ l then some (g q) else toMap d q := by
  induction l generalizing d with
  | nil => simp
  | cons s l ih =>
    rw [List.foldl_cons, ih, toMap_insert]
    by_cases h1 : q ∈ l
    · simp [h1]
    · by_cases h2 : q = s
      · subst h2; simp [h1]
      · simp [h1, h2]

theorem lookup_of_mem (ps : Particles V) (hnd : (ps.map Prod.fst).Nodup) (p : Nat × Comps V)
    (hp : p ∈ ps) : ps.lookup p.1 = some p.2 := by
  induction ps with
  | nil => simp at hp
  | cons x xs ih =>
    rw [List.map_cons, List.nodup_cons] at hnd
    obtain ⟨a, b⟩ := x
    rw [List.lookup_cons]
    rcases List.mem_cons.mp hp with rfl | hp'
    · simp
    · have : p.1 ≠ a := by
        intro e
        exact hnd.1 (List.mem_map.mpr ⟨p, hp', e⟩)
      have hb : (p.1 == a) = false := by simpa using this
      rw [hb]
      exact ih hnd.2 hp'

theorem fillBuffers_eq [Inhabited V] (n rank c : Nat) (ps : Particles V)
    (hnd : (ps.map Prod.fst).Nodup) (hc : ∀ p ∈ ps, (p.2 c).isSome) (owner : Comps V → Nat) :
    ∃ buf, fillBuffers n rank c ps (tab n rank (fun r => (sent owner ps r).map Prod.fst)) = some buf ∧
      ∀ r ∈ others n rank,
        toMap buf r = some ((sent owner ps r).map (fun p => (p.2 c).getD default)) := by
  unfold fillBuffers
  rw [iter_tab]
  have hvals : ∀ r, ((sent owner ps r).map Prod.fst).mapM (getComp ps c)
      = some ((sent owner ps r).map (fun p => (p.2 c).getD default)) := by
    intro r
    rw [List.mapM_map]
    apply mapM_some
    intro p hp
    have hp' : p ∈ ps := (List.mem_filter.mp hp).1
    show getComp ps c p.1 = _
    unfold getComp
    rw [lookup_of_mem ps hnd p hp', Option.bind_some]
    obtain ⟨v, hv⟩ := Option.isSome_iff_exists.mp (hc p hp')
    rw [hv]
    rfl
  have hfold : ∀ (l : List Nat) (d : Data (List V)),
      (l.map (fun s => (s, (sent owner ps s).map Prod.fst))).foldlM (fillStep ps c) d
        = some (l.foldl (fun d s => insert d s
            ((sent owner ps s).map (fun p => (p.2 c).getD default))) d) := by
    intro l
    induction l with
    | nil => intro d; rfl
    | cons s l ih =>
      intro d
      rw [List.map_cons, List.foldlM_cons, List.foldl_cons, ← ih]
      unfold fillStep
      rw [hvals s]
      rfl
  rw [hfold]
  refine ⟨_, rfl, ?_⟩
  intro r hr
  rw [toMap_foldl_insert, if_pos hr]

theorem numEntities_eq {T : Type} (n rank : Nat) (f : Nat → List T) (g : Nat → Nat)
    (hg : ∀ r, g r = (f r).length) (out : Data (List Nat))
    (hout : ∀ r ∈ others n rank, ∃ l, toMap out r = some l ∧ l.length = g r) :
    ∃ num, numEntities n rank out = some num ∧
      ∀ r ∈ others n rank, toMap num r = some [(f r).length] := by
  unfold numEntities
  have h1 : ((List.range n).filter (fun r => r ≠ rank)).mapM (fun r =>
      ((out[r]?).join).map (fun l => (r, [l.length])))
      = some ((others n rank).map (fun r => (r, [(f r).length]))) := by
    apply mapM_some
    intro r hr
    obtain ⟨l, hl, hlen⟩ := hout r hr
    unfold toMap at hl
    rw [hl]
    simp [hlen, hg]
  rw [h1]
  refine ⟨_, rfl, ?_⟩
  intro r hr
  unfold fromIter
  rw [List.foldl_map, toMap_foldl_insert (fun s => [(f s).length]), if_pos hr]

theorem exchangeAll_eq {α : Type} (n r : Nat) (bufs : List (Data (List α))) (hl : bufs.length = n)
    (g : Nat → List α)
    (h : ∀ s ∈ others n r, ∃ d, bufs[s]? = some d ∧ toMap d r = some (g s)) :
    exchangeAll bufs r = tab n r g := by
  unfold exchangeAll tab
  rw [hl]
  apply List.map_congr_left
  intro s hs
  by_cases hsr : s = r
  · simp [hsr]
  · simp only [hsr, if_false]
    obtain ⟨d, h1, h2⟩ := h s ((mem_others _ _ _).mpr ⟨List.mem_range.mp hs, hsr⟩)
    unfold toMap at h2
    rw [h1, Option.bind_some, h2]
    rfl

/-! ### Spawning -/

theorem spawnAll_eq (k : Nat → Nat) (l : List Nat) (hnd : l.Nodup) (next : Nat)
    (sp : Data (List Nat)) (hsp : ∀ s ∈ l, s < sp.length) :
    ∃ sp' ids, spawnAll next (l.map (fun s => (s, [k s]))) sp = some sp' ∧
      sp'.length = sp.length ∧
      (∀ q, toMap sp' q = if q ∈ l then some (ids q) else toMap sp q) ∧
      (∀ s, s ∈ l → (ids s).length = k s) ∧
      l.flatMap ids = List.range' next ((l.map k).sum) := by
  induction l generalizing next sp with
  | nil =>
    exact ⟨sp, fun _ => [], rfl, rfl, by simp, by simp, by simp⟩
  | cons s l ih =>
    obtain ⟨hs, hl⟩ := List.nodup_cons.mp hnd
    have hlen : (insert sp s (List.range' next (k s))).length = sp.length :=
      length_insert _ _ _ (hsp s (by simp))
    obtain ⟨sp', ids, e1, e2, e3, e4, e5⟩ := ih hl (next + k s)
      (insert sp s (List.range' next (k s)))
      (fun q hq => by rw [hlen]; exact hsp q (by simp [hq]))
    refine ⟨sp', fun q => if q = s then List.range' next (k s) else ids q, ?_, by omega, ?_, ?_, ?_⟩
    · rw [List.map_cons, spawnAll]
      exact e1
    · intro q
      rw [e3, toMap_insert]
      by_cases hq : q = s
      · subst hq; simp [hs]
      · simp [hq]
    · intro q hq
      by_cases hqs : q = s
      · simp [hqs]
      · simp only [hqs, if_false]
        exact e4 q (by simpa [hqs] using hq)
    · rw [List.flatMap_cons, if_pos rfl, List.map_cons, List.sum_cons]
      have : l.flatMap (fun q => if q = s then List.range' next (k s) else ids q)
          = l.flatMap ids := by
        rw [List.flatMap_def, List.flatMap_def]
        congr 1
        apply List.map_congr_left
        intro q hq
        rw [if_neg]
        rintro rfl
        exact hs hq
      rw [this, e5, List.range'_append_1]

theorem zipAll_eq (spawned : Data (List Nat)) (l : List Nat) (ids : Nat → List Nat)
    (data : Nat → List V) (h : ∀ s ∈ l, toMap spawned s = some (ids s)) :
    zipAll spawned (l.map (fun s => (s, data s)))
      = some (l.flatMap (fun s => (ids s).zip (data s))) := by
  induction l with
  | nil => rfl
  | cons s l ih =>
    rw [List.map_cons, zipAll]
    have h1 := h s (by simp)
    unfold toMap at h1
    rw [h1, ih (fun q hq => h q (by simp [hq]))]
    simp

theorem flatMap_zip (l : List Nat) (ids : Nat → List Nat) (data : Nat → List V)
    (h : ∀ s ∈ l, (ids s).length = (data s).length) :
    l.flatMap (fun s => (ids s).zip (data s)) = (l.flatMap ids).zip (l.flatMap data) := by
  induction l with
  | nil => rfl
  | cons s l ih =>
    rw [List.flatMap_cons, List.flatMap_cons, List.flatMap_cons,
      List.zip_append (h s (by simp)), ih (fun q hq => h q (by simp [hq]))]

/-! ### Inserting components -/

theorem foldl_insertComp (c : Nat) (l : List (Nat × V)) (hnd : (l.map Prod.fst).Nodup)
    (ps : Particles V) :
    l.foldl (insertComp c) ps = ps.map (fun p =>
      (p.1, fun c' => if c' = c then (l.lookup p.1).or (p.2 c') else p.2 c')) := by
  induction l generalizing ps with
  | nil =>
    rw [List.foldl_nil]
    conv_lhs => rw [← List.map_id ps]
    apply List.map_congr_left
    intro p _
    simp only [id_eq]
    refine Prod.ext rfl ?_
    funext c'
    simp
  | cons e l ih =>
    obtain ⟨a, v⟩ := e
    rw [List.map_cons, List.nodup_cons] at hnd
    rw [List.foldl_cons, ih hnd.2, insertComp, List.map_map]
    apply List.map_congr_left
    intro p _
    simp only [Function.comp]
    have hnone : l.lookup a = none := by
      rw [List.lookup_eq_none_iff]
      intro q hq
      rw [bne_iff_ne]
      intro e
      exact hnd.1 (List.mem_map.mpr ⟨q, hq, e.symm⟩)
    by_cases hp : p.1 = a
    · simp only [hp, if_true]
      refine Prod.ext rfl ?_
      funext c'
      simp only [List.lookup_cons, beq_self_eq_true, hnone]
      by_cases hc : c' = c <;> simp [hc]
    · simp only [hp, if_false]
      refine Prod.ext rfl ?_
      funext c'
      have : (p.1 == a) = false := by simpa using hp
      simp only [List.lookup_cons, this]

theorem fold_all (m : Nat) (f : Nat → List (Nat × V)) (hnd : ∀ c, ((f c).map Prod.fst).Nodup)
    (ps : Particles V) :
    ((((List.range m).map f).zipIdx).foldl (fun ps i => i.1.foldl (insertComp i.2) ps) ps)
      = ps.map (fun p => (p.1, fun c' => if c' < m then ((f c').lookup p.1).or (p.2 c')
          else p.2 c')) := by
  have hz : ((List.range m).map f).zipIdx = (List.range m).map (fun c => (f c, c)) := by
    apply List.ext_getElem (by simp)
    intro i h1 h2
    simp
  rw [hz, List.foldl_map]
  clear hz
  induction m with
  | zero =>
    rw [List.range_zero, List.foldl_nil]
    conv_lhs => rw [← List.map_id ps]
    apply List.map_congr_left
    intro p _
    refine Prod.ext rfl ?_
    funext c'
    simp
  | succ m ih =>
    rw [List.range_succ, List.foldl_append, ih, List.foldl_cons, List.foldl_nil,
      foldl_insertComp m (f m) (hnd m), List.map_map]
    apply List.map_congr_left
    intro p _
    refine Prod.ext rfl ?_
    funext c'
    simp only [Function.comp]
    by_cases h1 : c' = m
    · subst h1; simp
    · by_cases h2 : c' < m
      · simp [h1, h2, Nat.lt_succ_of_lt h2]
      · simp [h1, h2, show ¬ c' < m + 1 by omega]

theorem lookup_zip_none (ids : List Nat) (B : List V) (x : Nat) (h : x ∉ ids) :
    (ids.zip B).lookup x = none := by
  rw [List.lookup_eq_none_iff]
  intro q hq
  rw [bne_iff_ne]
  intro e
  exact h (e ▸ (List.of_mem_zip hq).1)

theorem spawned_comps [Inhabited V] (m : Nat) (ids : List Nat) (hnd : ids.Nodup)
    (A : List (Comps V)) (hl : ids.length = A.length)
    (hA : ∀ a ∈ A, ∀ c, (a c).isSome ↔ c < m) :
    ids.map (fun id => (id, fun c => if c < m then
        (ids.zip (A.map (fun a => (a c).getD default))).lookup id else none)) = ids.zip A := by
  induction ids generalizing A with
  | nil => rfl
  | cons x ids ih =>
    obtain ⟨hx, hnd'⟩ := List.nodup_cons.mp hnd
    cases A with
    | nil => simp at hl
    | cons a A =>
      rw [List.map_cons, List.zip_cons_cons]
      congr 1
      · refine Prod.ext rfl ?_
        funext c
        simp only [List.map_cons, List.zip_cons_cons, List.lookup_cons, beq_self_eq_true]
        have := hA a (by simp) c
        by_cases hc : c < m
        · rw [if_pos hc]
          obtain ⟨v, hv⟩ := Option.isSome_iff_exists.mp (this.mpr hc)
          rw [hv]
          rfl
        · rw [if_neg hc]
          cases hv : a c with
          | none => rfl
          | some v => rw [hv] at this; exact absurd (this.mp rfl) hc
      · rw [← ih hnd' A (by simpa using hl) (fun b hb => hA b (by simp [hb]))]
        apply List.map_congr_left
        intro id hid
        refine Prod.ext rfl ?_
        funext c
        have : (id == x) = false := by
          simp only [beq_eq_false_iff_ne, ne_eq]
          rintro rfl
          exact hx hid
        simp only [List.map_cons, List.zip_cons_cons, List.lookup_cons, this]

end Verif.ExchangeData
