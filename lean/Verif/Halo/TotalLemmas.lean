import Verif.Halo.Trace

/-! # Halo iterations without panics: lemmas -/

namespace Verif.Halo

variable {Id W C K S : Type} [DecidableEq Id] [DecidableEq W]

/-- The insertions panic only if an insertion into the triangulation does. -/
theorem insertAll_insertion {E : Env Id W C K} {T : Tri S C K} :
    ∀ {rs : List (ℕ × Image Id W C)} {s : S} {us : List (Undecided K)} {hs : List (PType Id W)},
    insertAll E T rs s us hs = .error .insertion → insertSeq T s (rs.map fun x => x.2.pos) = none
  | [], s, us, hs, h => by cases h
  | r :: rs, s, us, hs, h => by
    unfold insertAll insertOne at h
    rw [List.map_cons, insertSeq]
    split_ifs at h with h1
    · cases h
    · cases hi : T.insert s r.2.pos with
      | none => rfl
      | some x =>
        rw [hi] at h
        exact insertAll_insertion (rs := rs) h

section Field
variable [Field K] [LinearOrder K] [IsStrictOrderedRing K]

/-- The search for an undecided tetra: with the full circumsphere, or around the inner vertex. -/
theorem searchOne_cases (T : Tri S C K) (s : S) (len : K) (u : Undecided K) {p : C} (h : T.inner s u.tetra = some p) :
    ∃ r, r = nextRadius (T.radius s u.tetra) len u.searchRadius ∧
      ((r = T.radius s u.tetra * safetyFactor ∧ searchOne T s len u = .ok (⟨T.centre s u.tetra, r⟩, none)) ∨
        (r < T.radius s u.tetra * safetyFactor ∧ searchOne T s len u = .ok (⟨p, r⟩, some ⟨u.tetra, some r⟩))) := by
  refine ⟨_, rfl, ?_⟩
  have hle := nextRadius_le (T.radius s u.tetra) len u.searchRadius
  unfold searchOne searchDataNew
  by_cases hr : T.radius s u.tetra * safetyFactor ≤ nextRadius (T.radius s u.tetra) len u.searchRadius
  · left
    dsimp only
    rw [if_pos hr]; dsimp only [Except.map]; rw [if_pos hr]
    exact ⟨le_antisymm hle hr, rfl⟩
  · right
    dsimp only
    rw [if_neg hr, h]; dsimp only [Except.map]; rw [if_neg hr]
    exact ⟨lt_of_not_ge hr, rfl⟩

/-- An iteration without panics: no search panics and the results can be inserted. -/
theorem iterate_ok {E : Env Id W C K} (hE : EnvOk E) {T : Tri S C K} {next : S → ℕ} (hT : TriOk T next) {len : K}
    {st : St S Id W K} (h : Inv E T next len st)
    (hs : ∀ u ∈ st.undecided, u.tetra ∈ T.tetras st.tri → ∀ x, searchOne T st.tri len u = .ok x → E.fails x.1 = false)
    (hi : ∀ data : List (SearchData C K), (∀ d ∈ data, ∃ u ∈ st.undecided, u.tetra ∈ T.tetras st.tri ∧
        ∃ o, searchOne T st.tri len u = .ok (d, o)) →
      (insertSeq T st.tri ((allResults E data st.caches).map fun x => x.2.pos)).isSome) :
    ∃ st' data, iterate E T len st = .ok st' ∧
      (∀ d ∈ data, ∃ u ∈ st.undecided, u.tetra ∈ T.tetras st.tri ∧ ∃ o, searchOne T st.tri len u = .ok (d, o)) ∧
      insertSeq T st.tri ((allResults E data st.caches).map fun x => x.2.pos) = some st'.tri ∧
      st'.haloes = ((allResults E data st.caches).map fun x => ptype E x.1 x.2).reverse ++ st.haloes ∧
      st'.caches = (fun r => (searchRank E data (st.caches r) r).1) ∧
      ∀ u ∈ st'.undecided, u.searchRadius = none ∨ (u.tetra ∈ T.tetras st'.tri → u.tetra ∈ T.tetras st.tri ∧
        T.inner st'.tri u.tetra = T.inner st.tri u.tetra ∧ (u ∈ st.undecided ∨
        ∃ u0 ∈ st.undecided, u0.tetra = u.tetra ∧ ∃ d ∈ data, searchOne T st.tri len u0 = .ok (d, some u))) := by
  obtain ⟨l, h1, h2, h3⟩ := getRadiusSearchData_spec T st.tri len st.undecided h.inner
  have hd : ∀ x ∈ l, ∃ u ∈ st.undecided, u.tetra ∈ T.tetras st.tri ∧ searchOne T st.tri len u = .ok x := by
    intro x hx
    obtain ⟨u, hu, e⟩ := Forall₂.mem_right h2 hx
    rw [List.mem_filter, decide_eq_true_eq] at hu
    exact ⟨u, List.mem_of_mem_take hu.1, hu.2, e⟩
  have hd' : ∀ d ∈ l.map Prod.fst, ∃ u ∈ st.undecided, u.tetra ∈ T.tetras st.tri ∧
      ∃ o, searchOne T st.tri len u = .ok (d, o) := by
    intro d hdm
    obtain ⟨x, hx, rfl⟩ := List.mem_map.1 hdm
    obtain ⟨u, hu, hl, e⟩ := hd x hx
    exact ⟨u, hu, hl, x.2, e⟩
  have hf : ¬(l.map Prod.fst).any E.fails = true := by
    rw [Bool.not_eq_true, List.any_eq_false]
    intro d hdm
    obtain ⟨x, hx, rfl⟩ := List.mem_map.1 hdm
    obtain ⟨u, hu, hl, e⟩ := hd x hx
    rw [hs u hu hl x e]
    simp
  unfold iterate
  rw [h1]
  dsimp only [Except.bind]
  rw [if_neg hf]
  rcases insertAll_spec (E := E) hT (allResults E (l.map Prod.fst) st.caches) st.tri
    (st.undecided.drop chunkSize ++ l.filterMap Prod.snd) st.haloes (allResults_nodup hE _ _)
    (allResults_fresh hE _ h.halo) with h4 | ⟨s', more, h4, h5, -⟩
  · have := hi _ hd'
    rw [insertAll_insertion h4] at this
    cases this
  rw [h4]
  refine ⟨_, l.map Prod.fst, rfl, hd', (insertAll_trace h4).1, rfl, rfl, ?_⟩
  intro u hu
  dsimp only at hu ⊢
  rcases List.mem_append.1 hu with hu | hu
  · right
    intro hl
    have hlt : u.tetra < next st.tri := by
      rcases h3.from_old u hu with h7 | ⟨h7, _⟩
      · exact h.lt u h7
      · exact hT.lt _ _ h7
    rcases h5.old _ hl with ⟨h7, _⟩ | ⟨h7, _, _, h8⟩
    · exact absurd (Nat.lt_of_lt_of_le hlt h7) (Nat.lt_irrefl _)
    · refine ⟨h7, h8, ?_⟩
      rcases List.mem_append.1 hu with hu | hu
      · exact Or.inl (List.mem_of_mem_drop hu)
      · right
        obtain ⟨x, hx, e⟩ := List.mem_filterMap.1 hu
        obtain ⟨u0, hu0, hl0, e0⟩ := hd x hx
        obtain ⟨d, o⟩ := x
        dsimp only at e
        subst e
        refine ⟨u0, hu0, ?_, d, List.mem_map.2 ⟨_, hx, rfl⟩, e0⟩
        obtain ⟨d', o', e1, -, e2⟩ := searchOne_spec T st.tri len u0 (h.inner u0 hu0 hl0)
        rw [e1] at e0
        cases e0
        rcases e2 with ⟨-, e2⟩ | ⟨-, e2⟩
        · cases e2
        · cases e2
          rfl
  · exact Or.inl (h5.more u hu).1

/-- A run without panics ends with no undecided tetras. -/
theorem iterateN_total [Archimedean K] {E : Env Id W C K} (hE : EnvOk E) {T : Tri S C K} {next : S → ℕ}
    (hT : TriOk T next) {len : K} (hlen : 0 < len) (F : List (PType Id W))
    (hF : ∀ r ∈ E.ranks, ∀ d, ∀ i ∈ E.find r d, ptype E r i ∈ F) (s : S) (Q : St S Id W K → Prop) (h0 : Q (initial T s))
    (hstep : ∀ st, Inv E T next len st → Q st → ∃ st', iterate E T len st = .ok st' ∧ Q st') :
    ∃ n st, iterateN E T len n (initial T s : St S Id W K) = .ok st ∧ st.undecided = [] := by
  have key : ∀ n, ∀ st : St S Id W K, Inv E T next len st → Q st → ∃ st', iterateN E T len n st = .ok st' := by
    intro n
    induction n with
    | zero => exact fun st _ _ => ⟨st, rfl⟩
    | succ n ih =>
      intro st h hq
      obtain ⟨st1, h1, hq1⟩ := hstep st h hq
      rcases iterate_spec hE hT h with ⟨e, -, h2⟩ | ⟨st2, l, h2, h3, -⟩
      · rw [h1] at h2
        cases h2
      · rw [h1] at h2
        cases h2
        obtain ⟨st', h4⟩ := ih st1 h3 hq1
        refine ⟨st', ?_⟩
        unfold iterateN
        rw [h1]
        exact h4
  obtain ⟨n, ⟨e, -, h1⟩ | ⟨st, h1, h2⟩⟩ := halo_iteration_ends hE hT hlen F hF s
  · obtain ⟨st', h3⟩ := key n _ (inv_initial (Id := Id) (W := W) E hT len s) h0
    rw [h1] at h3
    cases h3
  · exact ⟨n, st, h1, h2⟩

end Field

end Verif.Halo
