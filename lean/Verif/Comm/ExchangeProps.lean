import Verif.Comm.ExchangeModel
import Verif.Comm.DataByRankProps

/-!
# C10: all-to-all exchange delivers exactly what was sent
-/

namespace Verif.Exchange

open Verif.DataByRank (Data iter toMap)

variable {α : Type}

/-- The precondition under which `exchange_all` does not panic: the data are addressed to other
existing ranks only. -/
def Valid (size : Nat) (rounds : List (Nat → Data (List α))) : Prop :=
  ∀ data ∈ rounds, ∀ r, r < size → ∀ dst items, toMap (data r) dst = some items →
    dst < size ∧ dst ≠ r

/-- Specification: what rank `r` gets from rank `s` in one exchange: what `s` addressed to `r`, or
nothing. -/
def addressed (data : Nat → Data (List α)) (s r : Nat) : List α := (toMap (data s) r).getD []

/-- Specification: everything rank `r` receives, in order. -/
def expected (size : Nat) (rounds : List (Nat → Data (List α))) (r : Nat) :
    List (Nat × List α) :=
  rounds.flatMap (fun data => (otherRanks size r).map (fun s => (s, addressed data s r)))

/-! ### Messages in a program -/

def sentTo (d : Nat) : List (Act α) → List (List α)
  | [] => []
  | Act.send dst m :: rest => if dst = d then m :: sentTo d rest else sentTo d rest
  | Act.recv _ :: rest => sentTo d rest

def sources : List (Act α) → List Nat
  | [] => []
  | Act.send _ _ :: rest => sources rest
  | Act.recv s :: rest => s :: sources rest

theorem sentTo_append (d : Nat) (a b : List (Act α)) :
    sentTo d (a ++ b) = sentTo d a ++ sentTo d b := by
  induction a with
  | nil => rfl
  | cons x a ih => cases x <;> simp [sentTo, ih]; split <;> simp

theorem sources_append (a b : List (Act α)) : sources (a ++ b) = sources a ++ sources b := by
  induction a with
  | nil => rfl
  | cons x a ih => cases x <;> simp [sources, ih]

theorem sentTo_receives (size rank d : Nat) : sentTo d (receives size rank : List (Act α)) = [] := by
  unfold receives
  induction otherRanks size rank with
  | nil => rfl
  | cons a l ih => simpa [sentTo] using ih

theorem sources_receives (size rank : Nat) :
    sources (receives size rank : List (Act α)) = otherRanks size rank := by
  unfold receives
  induction otherRanks size rank with
  | nil => rfl
  | cons a l ih => simpa [sources] using ih

theorem sources_dataSends (data : Data (List α)) : sources (dataSends data) = [] := by
  unfold dataSends
  induction iter data with
  | nil => rfl
  | cons a l ih => simpa [sources] using ih

theorem sources_emptySends (size rank : Nat) (data : Data (List α)) :
    sources (emptySends size rank data) = [] := by
  unfold emptySends
  induction otherRanks size rank with
  | nil => rfl
  | cons a l ih =>
    simp only [List.filterMap_cons]
    split
    · exact ih
    · rename_i h
      split at h
      · simp at h
      · simp only [Option.some.injEq] at h
        subst h
        simpa [sources] using ih

theorem sentTo_pairs (d : Nat) (l : List (Nat × List α)) (hl : (l.map Prod.fst).Nodup) :
    sentTo d (l.map (fun p => Act.send p.1 p.2))
      = match l.find? (fun p => p.1 == d) with
        | some p => [p.2]
        | none => [] := by
  induction l with
  | nil => rfl
  | cons p l ih =>
    have hnd : p.1 ∉ l.map Prod.fst ∧ (l.map Prod.fst).Nodup := List.nodup_cons.mp hl
    by_cases h : p.1 = d
    · simp only [List.map_cons, sentTo, h, if_true, List.find?_cons, beq_self_eq_true]
      have : ∀ q ∈ l, (q.1 == d) = false := by
        intro q hq
        simp only [beq_eq_false_iff_ne, ne_eq]
        intro e
        exact hnd.1 (List.mem_map.mpr ⟨q, hq, by rw [e, h]⟩)
      rw [ih hnd.2, List.find?_eq_none.mpr (by intro x hx; simp [this x hx])]
    · simp only [List.map_cons, sentTo, h, if_false, List.find?_cons]
      have : (p.1 == d) = false := by simpa using h
      rw [this]
      exact ih hnd.2

theorem sentTo_emptySends (size rank : Nat) (data : Data (List α)) (d : Nat) :
    sentTo d (emptySends size rank data) =
      if d ∈ otherRanks size rank ∧ ¬ d ∈ (iter data).map Prod.fst then [[]] else [] := by
  unfold emptySends
  have hnd : (otherRanks size rank).Nodup := List.Nodup.filter _ List.nodup_range
  generalize otherRanks size rank = l at hnd
  induction l with
  | nil => simp [sentTo]
  | cons a l ih =>
    obtain ⟨ha, hl⟩ := List.nodup_cons.mp hnd
    have ih := ih hl
    by_cases hc : a ∈ (iter data).map Prod.fst
    · have hc' : ((iter data).map Prod.fst).contains a = true := by simpa using hc
      simp only [List.filterMap_cons, hc', if_true, ih, List.mem_cons]
      by_cases hd : d = a
      · subst hd; simp only [true_or, hc, not_true, and_false, if_false]
      · simp only [hd, false_or]
    · have hc' : ((iter data).map Prod.fst).contains a = false := by simpa using hc
      simp only [List.filterMap_cons, hc', Bool.false_eq_true, if_false, sentTo, ih, List.mem_cons]
      by_cases hd : d = a
      · subst hd; simp [ha, hc]
      · simp only [Ne.symm hd, hd, if_false, false_or]

theorem sentTo_exchangeAll (size rank : Nat) (data : Data (List α)) (d : Nat)
    (hd : d < size) (hne : d ≠ rank) :
    sentTo d (exchangeAll size rank data) = [(toMap data d).getD []] := by
  unfold exchangeAll
  rw [sentTo_append, sentTo_append, sentTo_receives, sentTo_emptySends, dataSends,
    List.append_nil]
  obtain ⟨h1, h2⟩ := DataByRank.iter_spec data
  have hnd : ((iter data).map Prod.fst).Nodup := h2.imp (fun h => Nat.ne_of_lt h)
  rw [sentTo_pairs d _ hnd]
  have hmem : d ∈ otherRanks size rank := by simp [otherRanks, hd, hne]
  cases hf : (iter data).find? (fun p => p.1 == d) with
  | none =>
    have hnot : d ∉ (iter data).map Prod.fst := by
      intro h
      obtain ⟨p, hp, e⟩ := List.mem_map.mp h
      have := List.find?_eq_none.mp hf p hp
      simp [e] at this
    have hnone : toMap data d = none := by
      cases hm : toMap data d with
      | none => rfl
      | some t => exact absurd (List.mem_map.mpr ⟨(d, t), (h1 d t).mpr hm, rfl⟩) hnot
    rw [if_pos ⟨hmem, hnot⟩, hnone]
    rfl
  | some p =>
    have hp := List.mem_of_find?_eq_some hf
    have he : p.1 = d := by simpa using List.find?_some hf
    have hin : d ∈ (iter data).map Prod.fst := List.mem_map.mpr ⟨p, hp, he⟩
    have hm : toMap data d = some p.2 := (h1 d p.2).mp (by rw [← he]; exact hp)
    rw [if_neg (fun h => h.2 hin), hm]
    rfl

theorem sources_exchangeAll (size rank : Nat) (data : Data (List α)) :
    sources (exchangeAll size rank data) = otherRanks size rank := by
  unfold exchangeAll
  rw [sources_append, sources_append, sources_dataSends, sources_emptySends, sources_receives]
  rfl

theorem sentTo_program (size : Nat) (rounds : List (Nat → Data (List α))) (s d : Nat)
    (hd : d < size) (hne : d ≠ s) :
    sentTo d (program size rounds s) = rounds.map (fun data => addressed data s d) := by
  unfold program
  induction rounds with
  | nil => rfl
  | cons data rounds ih =>
    rw [List.flatMap_cons, sentTo_append, ih, sentTo_exchangeAll size s _ d hd hne]
    rfl

theorem sources_program (size : Nat) (rounds : List (Nat → Data (List α))) (r : Nat) :
    sources (program size rounds r) = rounds.flatMap (fun _ => otherRanks size r) := by
  unfold program
  induction rounds with
  | nil => rfl
  | cons data rounds ih =>
    rw [List.flatMap_cons, sources_append, ih, sources_exchangeAll]
    rfl

/-! ### Invariant -/

/-- messages of a log coming from `s` -/
def fromSrc (s : Nat) (l : List (Nat × List α)) : List (List α) :=
  (l.filter (fun p => p.1 == s)).map Prod.snd

structure Inv (size : Nat) (rounds : List (Nat → Data (List α))) (s : State α) : Prop where
  /-- every message sent and not yet received is in the queue, in order -/
  flow : ∀ a b, a < size → b < size → a ≠ b →
    fromSrc a (s.got b) ++ s.chan a b ++ sentTo b (s.rem a) = sentTo b (program size rounds a)
  /-- messages received so far come from the sources in program order -/
  order : ∀ r, r < size → (s.got r).map Prod.fst ++ sources (s.rem r)
    = sources (program size rounds r)
  suffix : ∀ r, r < size → s.rem r <:+ program size rounds r

theorem reach_inv (size : Nat) (rounds : List (Nat → Data (List α))) (s : State α)
    (h : Reach size rounds s) : Inv size rounds s := by
  induction h with
  | init =>
    constructor
    · intro a b _ _ _; simp [init, fromSrc]
    · intro r _; simp [init]
    · intro r _; simp [init]
  | step s s' _ hs ih =>
    cases hs with
    | send r dst msg rest hr h =>
      constructor
      · intro a b ha hb hab
        have := ih.flow a b ha hb hab
        by_cases har : a = r
        · subst har
          rw [h] at this
          by_cases hbd : b = dst
          · subst hbd
            simp only [sentTo, if_true, and_self] at this ⊢
            rw [← this]; simp
          · simp only [sentTo, Ne.symm hbd, hbd, if_false, and_false, if_true] at this ⊢
            exact this
        · simp only [har, false_and, if_false]
          exact this
      · intro q hq
        have := ih.order q hq
        by_cases hqr : q = r
        · subst hqr
          rw [h] at this
          simpa [sources] using this
        · simpa [hqr] using this
      · intro q hq
        have := ih.suffix q hq
        by_cases hqr : q = r
        · subst hqr
          rw [h] at this
          simp only [if_true]
          exact (List.suffix_cons _ _).trans this
        · simpa [hqr] using this
    | recv r src msg queue rest hr h hq =>
      constructor
      · intro a b ha hb hab
        have := ih.flow a b ha hb hab
        have hrem : sentTo b (if a = r then rest else s.rem a) = sentTo b (s.rem a) := by
          by_cases har : a = r
          · subst har; rw [h]; simp [sentTo]
          · simp [har]
        rw [hrem, ← this]
        congr 1
        by_cases hbr : b = r
        · subst hbr
          by_cases has : a = src
          · subst has
            simp only [if_true, and_self, hq]
            simp [fromSrc, List.filter_append]
          · simp only [has, false_and, if_false, if_true]
            simp [fromSrc, List.filter_append, Ne.symm has]
        · simp [hbr]
      · intro q hq'
        have := ih.order q hq'
        by_cases hqr : q = r
        · subst hqr
          rw [h] at this
          simpa [sources] using this
        · simpa [hqr] using this
      · intro q hq'
        have := ih.suffix q hq'
        by_cases hqr : q = r
        · subst hqr
          rw [h] at this
          simp only [if_true]
          exact (List.suffix_cons _ _).trans this
        · simpa [hqr] using this

/-! ### What was received is determined -/

theorem log_determined (l e : List (Nat × List α)) (hsrc : l.map Prod.fst <+: e.map Prod.fst)
    (hval : ∀ s ∈ l.map Prod.fst, fromSrc s l <+: fromSrc s e) : l <+: e := by
  induction l generalizing e with
  | nil => exact List.nil_prefix
  | cons p l ih =>
    cases e with
    | nil => simp at hsrc
    | cons q e =>
      simp only [List.map_cons, List.cons_prefix_cons] at hsrc
      obtain ⟨h1, h2⟩ := hsrc
      have hv := hval p.1 (by simp)
      have e1 : fromSrc p.1 (p :: l) = p.2 :: fromSrc p.1 l := by simp [fromSrc]
      have e2 : fromSrc p.1 (q :: e) = q.2 :: fromSrc p.1 e := by simp [fromSrc, ← h1]
      rw [e1, e2, List.cons_prefix_cons] at hv
      have hpq : p = q := Prod.ext h1 hv.1
      rw [List.cons_prefix_cons]
      refine ⟨hpq, ih e h2 ?_⟩
      intro s hs
      by_cases hsp : s = p.1
      · subst hsp; exact hv.2
      · have := hval s (by simp at hs ⊢; right; exact hs)
        have f1 : fromSrc s (p :: l) = fromSrc s l := by
          simp [fromSrc, Ne.symm hsp]
        have f2 : fromSrc s (q :: e) = fromSrc s e := by
          simp [fromSrc, ← hpq, Ne.symm hsp]
        rwa [f1, f2] at this

theorem expected_src (size : Nat) (rounds : List (Nat → Data (List α))) (r : Nat) :
    (expected size rounds r).map Prod.fst = rounds.flatMap (fun _ => otherRanks size r) := by
  unfold expected
  induction rounds with
  | nil => rfl
  | cons d rounds ih =>
    simp only [List.flatMap_cons, List.map_append, ih, List.map_map]
    congr 1
    conv_rhs => rw [← List.map_id (otherRanks size r)]
    rfl

theorem expected_from (size : Nat) (rounds : List (Nat → Data (List α))) (s r : Nat)
    (hs : s ∈ otherRanks size r) :
    fromSrc s (expected size rounds r) = rounds.map (fun data => addressed data s r) := by
  unfold expected
  induction rounds with
  | nil => rfl
  | cons d rounds ih =>
    have hround : fromSrc s ((otherRanks size r).map (fun s => (s, addressed d s r)))
        = [addressed d s r] := by
      have hnd : (otherRanks size r).Nodup := List.Nodup.filter _ List.nodup_range
      generalize otherRanks size r = l at hs hnd
      induction l with
      | nil => simp at hs
      | cons a l ihl =>
        obtain ⟨ha, hl⟩ := List.nodup_cons.mp hnd
        by_cases h : a = s
        · subst h
          have hnone : ∀ l : List Nat, a ∉ l →
              fromSrc a (l.map (fun s => (s, addressed d s r))) = [] := by
            intro l hl
            induction l with
            | nil => rfl
            | cons b l ihb =>
              simp only [List.mem_cons, not_or] at hl
              simp only [fromSrc, List.map_cons, List.filter_cons]
              have : (b == a) = false := by simpa using Ne.symm hl.1
              simp only [this, Bool.false_eq_true, if_false]
              exact ihb hl.2
          have := hnone l ha
          simp only [fromSrc, List.map_cons, List.filter_cons, beq_self_eq_true, if_true]
          simp only [fromSrc] at this
          simp [this]
        · simp only [fromSrc, List.map_cons, List.filter_cons]
          have hb : (a == s) = false := by simpa using h
          simp only [hb, Bool.false_eq_true, if_false]
          exact ihl (by
            rcases List.mem_cons.mp hs with h' | h'
            · exact absurd h'.symm h
            · exact h') hl
    have happ : ∀ x y : List (Nat × List α), fromSrc s (x ++ y) = fromSrc s x ++ fromSrc s y := by
      intro x y; simp [fromSrc]
    rw [List.flatMap_cons, happ, hround, ih]
    rfl

theorem mem_otherRanks (size r s : Nat) : s ∈ otherRanks size r ↔ s < size ∧ s ≠ r := by
  simp [otherRanks]

theorem got_sources (size : Nat) (rounds : List (Nat → Data (List α))) (s : State α)
    (hinv : Inv size rounds s) (r : Nat) (hr : r < size) :
    ∀ a ∈ (s.got r).map Prod.fst, a ∈ otherRanks size r := by
  intro a ha
  have := hinv.order r hr
  rw [sources_program] at this
  have : a ∈ rounds.flatMap (fun _ => otherRanks size r) := by
    rw [← this]; exact List.mem_append_left _ ha
  obtain ⟨_, _, h⟩ := List.mem_flatMap.mp this
  exact h

/-- **C10 (nothing wrong is ever received).** In every reachable state of every interleaving, what a
rank has received so far is a prefix of the specified list: in each exchange, from each other rank
in rank order, exactly the list this rank addressed to it (empty if none). -/
theorem exchange_received_prefix (size : Nat) (rounds : List (Nat → Data (List α))) (s : State α)
    (h : Reach size rounds s) (r : Nat) (hr : r < size) :
    s.got r <+: expected size rounds r := by
  have hinv := reach_inv size rounds s h
  apply log_determined
  · rw [expected_src, ← sources_program, ← hinv.order r hr]
    exact List.prefix_append _ _
  · intro a ha
    have hmem := got_sources size rounds s hinv r hr a ha
    obtain ⟨hlt, hne⟩ := (mem_otherRanks _ _ _).mp hmem
    rw [expected_from size rounds a r hmem, ← sentTo_program size rounds a r hr (Ne.symm hne),
      ← hinv.flow a r hlt hr hne, List.append_assoc]
    exact List.prefix_append _ _

/-- **C10 (complete).** When all ranks have finished, every rank has received exactly the specified
messages and no message is left in flight. -/
theorem exchange_complete (size : Nat) (rounds : List (Nat → Data (List α))) (s : State α)
    (h : Reach size rounds s) (hfin : ∀ r, r < size → s.rem r = []) :
    (∀ r, r < size → s.got r = expected size rounds r) ∧
      (∀ a b, a < size → b < size → a ≠ b → s.chan a b = []) := by
  have hinv := reach_inv size rounds s h
  have hgot : ∀ r, r < size → s.got r = expected size rounds r := by
    intro r hr
    refine (exchange_received_prefix size rounds s h r hr).eq_of_length ?_
    have := hinv.order r hr
    rw [hfin r hr, sources_program, ← expected_src] at this
    simpa [sources] using congrArg List.length this
  refine ⟨hgot, ?_⟩
  intro a b ha hb hab
  have hmem : a ∈ otherRanks size b := (mem_otherRanks _ _ _).mpr ⟨ha, hab⟩
  have := hinv.flow a b ha hb hab
  rw [hfin a ha, hgot b hb, expected_from size rounds a b hmem,
    sentTo_program size rounds a b hb (Ne.symm hab)] at this
  simpa [sentTo] using this

/-! ### Progress -/

theorem suffix_append_cases {β : Type} {l a b : List β} (h : l <:+ a ++ b) :
    l <:+ b ∨ ∃ t, l = t ++ b ∧ t <:+ a := by
  obtain ⟨p, hp⟩ := h
  rcases List.append_eq_append_iff.mp hp with ⟨c, h1, h2⟩ | ⟨c, h1, h2⟩
  · exact Or.inr ⟨c, h2, p, h1.symm⟩
  · exact Or.inl ⟨c, h2.symm⟩

/-- A rank that is about to receive is in the receive loop of some exchange. -/
theorem blocked_round (size : Nat) (rounds : List (Nat → Data (List α))) (r : Nat)
    (rem : List (Act α)) (src : Nat) (rest : List (Act α)) (hrem : rem = Act.recv src :: rest)
    (hsuf : rem <:+ program size rounds r) :
    ∃ pre data post done todo, rounds = pre ++ data :: post ∧
      otherRanks size r = done ++ src :: todo ∧
      rem = (src :: todo).map Act.recv ++ program size post r := by
  induction rounds with
  | nil =>
    have : rem = [] := List.suffix_nil.mp hsuf
    rw [this] at hrem; simp at hrem
  | cons data rounds ih =>
    have hp : program size (data :: rounds) r
        = exchangeAll size r (data r) ++ program size rounds r := rfl
    rw [hp] at hsuf
    rcases suffix_append_cases hsuf with h | ⟨t, ht, hte⟩
    · obtain ⟨pre, d, post, done, todo, h1, h2, h3⟩ := ih h
      exact ⟨data :: pre, d, post, done, todo, by rw [h1]; rfl, h2, h3⟩
    · by_cases hnil : t = []
      · subst hnil
        simp only [List.nil_append] at ht
        obtain ⟨pre, d, post, done, todo, h1, h2, h3⟩ := ih (by rw [ht]; exact List.suffix_rfl)
        exact ⟨data :: pre, d, post, done, todo, by rw [h1]; rfl, h2, h3⟩
      · -- `t` is a nonempty suffix of one exchange starting with a receive
        obtain ⟨x, t', rfl⟩ := List.exists_cons_of_ne_nil hnil
        rw [ht] at hrem
        simp only [List.cons_append, List.cons.injEq] at hrem
        obtain ⟨rfl, -⟩ := hrem
        unfold exchangeAll at hte
        have hsend : ∀ y ∈ dataSends (data r) ++ emptySends size r (data r), ∀ q, y ≠ Act.recv q := by
          intro y hy q hq
          subst hq
          rcases List.mem_append.mp hy with hy | hy
          · unfold dataSends at hy
            obtain ⟨p, -, hp⟩ := List.mem_map.mp hy
            simp at hp
          · unfold emptySends at hy
            obtain ⟨p, -, hp⟩ := List.mem_filterMap.mp hy
            split at hp <;> simp at hp
        rcases suffix_append_cases hte with h | ⟨u, hu, hue⟩
        · unfold receives at h
          obtain ⟨pre', hpre'⟩ := h
          obtain ⟨l1, l2, e1, e2, e3⟩ := List.append_eq_map_iff.mp hpre'
          obtain ⟨a, l3, e4, e5, e6⟩ := List.map_eq_cons_iff.mp e3
          simp only [Act.recv.injEq] at e5
          subst e5
          refine ⟨[], data, rounds, l1, l3, rfl, by rw [e1, e4], ?_⟩
          rw [ht, List.map_cons, e6]
        · by_cases hun : u = []
          · subst hun
            simp only [List.nil_append] at hu
            unfold receives at hu
            obtain ⟨a, l3, e4, e5, e6⟩ := List.map_eq_cons_iff.mp hu.symm
            simp only [Act.recv.injEq] at e5
            subst e5
            refine ⟨[], data, rounds, [], l3, rfl, by rw [e4]; rfl, ?_⟩
            rw [ht, List.map_cons, e6]
          · obtain ⟨y, u', rfl⟩ := List.exists_cons_of_ne_nil hun
            exfalso
            simp only [List.cons_append, List.cons.injEq] at hu
            exact hsend y (hue.subset (by simp)) src hu.1.symm

theorem count_otherRanks (size r src : Nat) (h : src ∈ otherRanks size r) :
    (otherRanks size r).count src = 1 :=
  List.count_eq_one_of_mem (List.Nodup.filter _ List.nodup_range) h

theorem count_flatMap_const {β : Type} (l : List β) (size r src : Nat)
    (h : src ∈ otherRanks size r) :
    (l.flatMap (fun _ => otherRanks size r)).count src = l.length := by
  induction l with
  | nil => rfl
  | cons a l ih =>
    rw [List.flatMap_cons, List.count_append, ih, count_otherRanks size r src h, List.length_cons]
    omega

theorem length_fromSrc (s : Nat) (l : List (Nat × List α)) :
    (fromSrc s l).length = (l.map Prod.fst).count s := by
  unfold fromSrc
  rw [List.length_map, List.count_eq_countP, List.countP_map, List.countP_eq_length_filter]
  rfl

theorem sources_map_recv (l : List Nat) : sources (l.map (Act.recv : Nat → Act α)) = l := by
  induction l with
  | nil => rfl
  | cons a l ih => simpa [sources] using ih

theorem sentTo_map_recv (d : Nat) (l : List Nat) :
    sentTo d (l.map (Act.recv : Nat → Act α)) = [] := by
  induction l with
  | nil => rfl
  | cons a l ih => simpa [sentTo] using ih

/-- **C10 (no deadlock).** In every reachable state, as long as some rank has not finished, some
rank can make a step. -/
theorem exchange_progress (size : Nat) (rounds : List (Nat → Data (List α))) (s : State α)
    (h : Reach size rounds s) :
    (∀ r, r < size → s.rem r = []) ∨ ∃ s', Step size s s' := by
  have hinv := reach_inv size rounds s h
  by_cases hstep : ∃ s', Step size s s'
  · exact Or.inr hstep
  left
  by_contra hfin
  push Not at hfin
  -- every unfinished rank is blocked at a receive with an empty queue
  have hblock : ∀ r, r < size → s.rem r ≠ [] →
      ∃ src rest, s.rem r = Act.recv src :: rest ∧ s.chan src r = [] := by
    intro r hr hne
    obtain ⟨a, rest, ha⟩ := List.exists_cons_of_ne_nil hne
    cases a with
    | send dst msg => exact absurd ⟨_, Step.send s r dst msg rest hr ha⟩ hstep
    | recv src =>
      refine ⟨src, rest, ha, ?_⟩
      cases hq : s.chan src r with
      | nil => rfl
      | cons m q => exact absurd ⟨_, Step.recv s r src m q rest hr ha hq⟩ hstep
  -- rounds left after the current one, for a blocked rank; the rank it waits for is further behind
  have hnext : ∀ n, ∀ r, r < size → s.rem r ≠ [] → (∀ post done x todo,
      s.rem r = (x :: todo : List Nat).map Act.recv ++ program size post r →
      (done : List Nat) ++ x :: todo = otherRanks size r → rounds.length - post.length = n → False) := by
    intro n
    induction n using Nat.strongRecOn with
    | _ n ih =>
      intro r hr hne post0 done0 x0 todo0 hrem0 hdt hn
      obtain ⟨src, rest, hrem, hq⟩ := hblock r hr hne
      obtain ⟨pre, data, post, done, todo, e1, e2, e3⟩ :=
        blocked_round size rounds r _ src rest hrem (hinv.suffix r hr)
      have hmem : src ∈ otherRanks size r := by rw [e2]; simp
      obtain ⟨hslt, hsne⟩ := (mem_otherRanks _ _ _).mp hmem
      have hlen : rounds.length = pre.length + (post.length + 1) := by rw [e1]; simp
      -- count what `r` still expects from `src`
      have hc := congrArg (List.count src) (hinv.order r hr)
      rw [sources_program, count_flatMap_const _ size r src hmem, e3, sources_append,
        sources_map_recv, sources_program, List.count_append, List.count_append,
        count_flatMap_const _ size r src hmem, ← length_fromSrc] at hc
      have hone : (src :: todo).count src = 1 := by
        have := count_otherRanks size r src hmem
        rw [e2, List.count_append] at this
        have hp : 0 < (src :: todo).count src := List.count_pos_iff.mpr (by simp)
        omega
      rw [hone] at hc
      have hf := congrArg List.length (hinv.flow src r hslt hr hsne)
      rw [hq, sentTo_program size rounds src r hr (Ne.symm hsne)] at hf
      simp only [List.length_append, List.length_map, List.length_nil, Nat.add_zero] at hf
      -- `src` still has to send to `r`
      have hsrem : (sentTo r (s.rem src)).length = post.length + 1 := by omega
      have hsne' : s.rem src ≠ [] := by
        intro e; rw [e] at hsrem; simp [sentTo] at hsrem
      obtain ⟨src', rest', hrem', hq'⟩ := hblock src hslt hsne'
      obtain ⟨pre', data', post', done', todo', f1, f2, f3⟩ :=
        blocked_round size rounds src _ src' rest' hrem' (hinv.suffix src hslt)
      rw [f3, sentTo_append, sentTo_map_recv, sentTo_program size post' src r hr (Ne.symm hsne)]
        at hsrem
      simp only [List.nil_append, List.length_map] at hsrem
      have hlen' : rounds.length = pre'.length + (post'.length + 1) := by rw [f1]; simp
      -- compare with the round of `r`
      have hpost : post0.length ≤ post.length := by
        have c0 := congrArg (fun l => (sources l).count src) hrem0
        have c1 := congrArg (fun l => (sources l).count src) e3
        simp only [sources_append, sources_map_recv, sources_program, List.count_append,
          count_flatMap_const _ size r src hmem] at c0 c1
        have hx : x0 = src := by
          rw [hrem] at hrem0
          simp only [List.map_cons, List.cons_append, List.cons.injEq, Act.recv.injEq] at hrem0
          exact hrem0.1.symm
        have hp : 0 < (x0 :: todo0).count src := List.count_pos_iff.mpr (by simp [hx])
        omega
      exact ih (rounds.length - post'.length) (by omega) src hslt hsne' post' done'
        src' todo' f3 f2.symm rfl
  obtain ⟨r, hr, hne⟩ := hfin
  obtain ⟨src, rest, hrem, hq⟩ := hblock r hr hne
  obtain ⟨pre, data, post, done, todo, e1, e2, e3⟩ :=
    blocked_round size rounds r _ src rest hrem (hinv.suffix r hr)
  exact hnext _ r hr hne post done src todo e3 e2.symm rfl

/-- **C10 (termination).** Every step uses up one action of one rank. -/
theorem exchange_terminates (size : Nat) (s s' : State α) (h : Step size s s') :
    ∃ r, r < size ∧ (s'.rem r).length + 1 = (s.rem r).length ∧
      ∀ q, q ≠ r → s'.rem q = s.rem q := by
  cases h with
  | send r dst msg rest hr h => exact ⟨r, hr, by simp [h], fun q hq => by simp [hq]⟩
  | recv r src msg queue rest hr h hq => exact ⟨r, hr, by simp [h], fun q hq => by simp [hq]⟩

/-- **C10 (only to addressees).** Under the precondition of `exchange_all`, nothing is ever sent to
the sender itself or outside the communicator. -/
theorem exchange_targets (size : Nat) (rounds : List (Nat → Data (List α)))
    (hv : Valid size rounds) (r dst : Nat) (msg : List α) (hr : r < size)
    (hmem : Act.send dst msg ∈ program size rounds r) : dst < size ∧ dst ≠ r := by
  unfold program at hmem
  obtain ⟨data, hd, hmem⟩ := List.mem_flatMap.mp hmem
  unfold exchangeAll at hmem
  rcases List.mem_append.mp hmem with hmem | hmem
  · rcases List.mem_append.mp hmem with hmem | hmem
    · obtain ⟨p, hp, e⟩ := List.mem_map.mp hmem
      simp only [Act.send.injEq] at e
      obtain ⟨rfl, rfl⟩ := e
      exact hv data hd r hr p.1 p.2 (((DataByRank.iter_spec (data r)).1 p.1 p.2).mp hp)
    · obtain ⟨q, hq, e⟩ := List.mem_filterMap.mp hmem
      split at e
      · simp at e
      · simp only [Option.some.injEq, Act.send.injEq] at e
        obtain ⟨rfl, -⟩ := e
        exact (mem_otherRanks _ _ _).mp hq
  · obtain ⟨q, -, e⟩ := List.mem_map.mp hmem
    simp at e

/-- **Disagreement / assumption.** The exchange relies on MPI buffering the empty messages: if a
blocking send waits for its receiver, two ranks with nothing to say to each other deadlock. -/
theorem unbuffered_exchange_deadlocks :
    (init 2 [fun _ => ([] : Data (List Nat))]).rem 0 ≠ [] ∧
      ∀ s', ¬ SyncStep 2 (init 2 [fun _ => ([] : Data (List Nat))]) s' := by
  refine ⟨by simp [init, program, exchangeAll, dataSends, emptySends, otherRanks, iter,
    DataByRank.iterFrom, List.range_succ], ?_⟩
  intro s' h
  cases h with
  | rendezvous r dst msg rest rest' hr hd hne h h' =>
    have hp : ∀ q, q < 2 → ∃ d m l, (init 2 [fun _ => ([] : Data (List Nat))]).rem q
        = Act.send d m :: l := by
      intro q hq
      have : q = 0 ∨ q = 1 := by omega
      rcases this with rfl | rfl <;>
        simp [init, program, exchangeAll, dataSends, emptySends, otherRanks, iter,
          DataByRank.iterFrom, List.range_succ]
    obtain ⟨d, m, l, e⟩ := hp dst hd
    rw [e] at h'
    simp at h'

/-- non-vacuity: rank 0 sends `[1]` to rank 2, rank 1 sends nothing, rank 2 sends `[2, 3]` to
rank 0 -/
example : Valid 3 [fun r => if r = 0 then [none, none, some [1]] else if r = 2 then [some [2, 3]]
    else ([] : Data (List Nat))] := by
  intro data hd r hr dst items h
  simp only [List.mem_singleton] at hd
  subst hd
  have : r = 0 ∨ r = 1 ∨ r = 2 := by omega
  rcases this with rfl | rfl | rfl
  · rcases dst with _ | _ | _ | dst <;> simp_all [toMap]
  · simp [toMap] at h
  · rcases dst with _ | dst <;> simp_all [toMap]

example : expected 3 [fun r => if r = 0 then [none, none, some [1]] else if r = 2 then [some [2, 3]]
    else ([] : Data (List Nat))] 0 = [(1, []), (2, [2, 3])] := by decide

end Verif.Exchange
