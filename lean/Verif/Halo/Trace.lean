import Verif.Halo.IterProps

/-! # The points which the halo iteration inserts: lemmas -/

namespace Verif.Halo

variable {Id W C K S : Type} [DecidableEq Id] [DecidableEq W]

/-- Insertion of points one after the other. -/
def insertSeq (T : Tri S C K) : S → List C → Option S
  | s, [] => some s
  | s, p :: l => (T.insert s p).bind fun r => insertSeq T r.1 l

theorem insertSeq_append (T : Tri S C K) (s : S) (l l' : List C) :
    insertSeq T s (l ++ l') = (insertSeq T s l).bind fun s' => insertSeq T s' l' := by
  induction l generalizing s with
  | nil => rfl
  | cons p l ih =>
    rw [List.cons_append, insertSeq, insertSeq]
    cases T.insert s p with
    | none => rfl
    | some r => exact ih r.1

theorem insertAll_trace {E : Env Id W C K} {T : Tri S C K} :
    ∀ {rs : List (ℕ × Image Id W C)} {s s' : S} {us us' : List (Undecided K)} {hs hs' : List (PType Id W)},
    insertAll E T rs s us hs = .ok (s', us', hs') →
    insertSeq T s (rs.map fun x => x.2.pos) = some s' ∧ hs' = (rs.map fun x => ptype E x.1 x.2).reverse ++ hs
  | [], s, s', us, us', hs, hs', h => by
    cases h
    exact ⟨rfl, rfl⟩
  | r :: rs, s, s', us, us', hs, hs', h => by
    unfold insertAll insertOne at h
    split_ifs at h with h1
    · cases h
    · cases hi : T.insert s r.2.pos with
      | none =>
        rw [hi] at h
        cases h
      | some x =>
        rw [hi] at h
        obtain ⟨h2, h3⟩ := insertAll_trace (rs := rs) h
        rw [List.map_cons, insertSeq, hi]
        exact ⟨h2, by rw [h3]; simp⟩

section Field
variable [Field K] [LinearOrder K]

/-- One iteration inserts images which searches without panics have found. -/
theorem iterate_trace {E : Env Id W C K} {T : Tri S C K} {len : K} {st st' : St S Id W K}
    (h : iterate E T len st = .ok st') : ∃ l : List (ℕ × Image Id W C),
      insertSeq T st.tri (l.map fun x => x.2.pos) = some st'.tri ∧
      st'.haloes = (l.map fun x => ptype E x.1 x.2).reverse ++ st.haloes ∧
      ∀ x ∈ l, x.1 ∈ E.ranks ∧ Wanted E x.1 x.2 ∧ ∃ d, E.fails d = false ∧ x.2 ∈ E.find x.1 d := by
  unfold iterate at h
  cases hd : getRadiusSearchData T st.tri len st.undecided with
  | error e =>
    rw [hd] at h
    cases h
  | ok d =>
    rw [hd] at h
    dsimp only [Except.bind] at h
    split_ifs at h with hf
    cases hi : insertAll E T (allResults E d.1 st.caches) st.tri d.2 st.haloes with
    | error e =>
      rw [hi] at h
      cases h
    | ok x =>
      rw [hi] at h
      cases h
      obtain ⟨s', us', hs'⟩ := x
      obtain ⟨h1, h2⟩ := insertAll_trace hi
      refine ⟨_, h1, h2, fun x hx => ?_⟩
      obtain ⟨h3, h4⟩ := mem_allResults.1 hx
      obtain ⟨h5, _, e, he, h6⟩ := mem_searchRank h4
      refine ⟨h3, h5, e, ?_, h6⟩
      rw [Bool.not_eq_true, List.any_eq_false] at hf
      exact Bool.not_eq_true _ ▸ hf _ he

/-- The points which the iteration has inserted, labelled with their ranks. -/
theorem iterateN_trace {E : Env Id W C K} {T : Tri S C K} {len : K} :
    ∀ {n : ℕ} {st st' : St S Id W K}, iterateN E T len n st = .ok st' → ∃ l : List (ℕ × Image Id W C),
      insertSeq T st.tri (l.map fun x => x.2.pos) = some st'.tri ∧
      st'.haloes = (l.map fun x => ptype E x.1 x.2).reverse ++ st.haloes ∧
      ∀ x ∈ l, x.1 ∈ E.ranks ∧ Wanted E x.1 x.2 ∧ ∃ d, E.fails d = false ∧ x.2 ∈ E.find x.1 d
  | 0, st, st', h => by
    cases h
    exact ⟨[], rfl, rfl, by simp⟩
  | n + 1, st, st', h => by
    unfold iterateN at h
    cases h1 : iterate E T len st with
    | error e =>
      rw [h1] at h
      cases h
    | ok st1 =>
      rw [h1] at h
      obtain ⟨l, a1, a2, a3⟩ := iterate_trace h1
      obtain ⟨l', b1, b2, b3⟩ := iterateN_trace h
      refine ⟨l ++ l', ?_, ?_, ?_⟩
      · rw [List.map_append, insertSeq_append, a1]
        exact b1
      · rw [b2, a2]
        simp
      · intro x hx
        rcases List.mem_append.1 hx with hx | hx
        · exact a3 x hx
        · exact b3 x hx

end Field

end Verif.Halo
