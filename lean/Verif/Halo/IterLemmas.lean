import Verif.Halo.IterSpec
import Verif.Halo.CacheProps
import Mathlib.Data.List.Perm.Subperm
import Mathlib.Algebra.Order.Archimedean.Basic
import Mathlib.Tactic.Linarith
import Mathlib.Tactic.NormNum
import Mathlib.Tactic.Ring

/-! # Halo iteration: lemmas -/

namespace Verif.Halo

variable {Id W C K S : Type} [DecidableEq Id] [DecidableEq W]

theorem ptype_inj {E : Env Id W C K} (hE : EnvOk E) {r r' : ℕ} {i j : Image Id W C}
    (hi : Wanted E r i) (hj : Wanted E r' j) (h : ptype E r i = ptype E r' j) :
    r = r' ∧ i.id = j.id ∧ i.wrap = j.wrap := by
  unfold ptype at h
  unfold Wanted at hi hj
  by_cases h1 : r = E.own
  · rw [if_pos h1] at h
    by_cases h2 : r' = E.own
    · rw [if_pos h2] at h
      rw [PType.localPeriodic.injEq] at h
      exact ⟨h1.trans h2.symm, h.1, h.2⟩
    · rw [if_neg h2] at h
      split_ifs at h
  · rw [if_neg h1] at h
    by_cases h2 : r' = E.own
    · rw [if_pos h2] at h
      split_ifs at h
    · rw [if_neg h2] at h
      by_cases h3 : E.periodic i.wrap = true
      · rw [if_pos h3] at h
        by_cases h4 : E.periodic j.wrap = true
        · rw [if_pos h4] at h
          rw [PType.remotePeriodic.injEq] at h
          exact ⟨h.2.1, h.1, h.2.2⟩
        · rw [if_neg h4] at h
          cases h
      · rw [if_neg h3] at h
        by_cases h4 : E.periodic j.wrap = true
        · rw [if_pos h4] at h
          cases h
        · rw [if_neg h4] at h
          rw [PType.remote.injEq] at h
          exact ⟨h.2, h.1, hE.wrap _ _ (by simpa using h3) (by simpa using h4)⟩

theorem ptype_congr {E : Env Id W C K} {r : ℕ} {i j : Image Id W C} (h1 : i.id = j.id) (h2 : i.wrap = j.wrap) :
    ptype E r i = ptype E r j := by
  unfold ptype
  rw [h1, h2]

/-! ### The results of one search -/

theorem mem_searchRank {E : Env Id W C K} {data : List (SearchData C K)} {cache : Cache Id W} {r : ℕ}
    {i : Image Id W C} (h : i ∈ (searchRank E data cache r).2) :
    Wanted E r i ∧ key E.own i ∉ cache ∧ ∃ d ∈ data, i ∈ E.find r d := by
  unfold searchRank at h
  obtain ⟨g1, _, g3, _, _⟩ := getNewHaloes_spec E.own (data.flatMap (E.find r)) cache
  dsimp only at h
  have hm : i ∈ (getNewHaloes E.own (data.flatMap (E.find r)) cache).2 ∧ Wanted E r i := by
    unfold Wanted
    by_cases hr : r = E.own
    · rw [if_pos hr] at h
      exact ⟨(List.mem_filter.1 h).1, Or.inr (List.mem_filter.1 h).2⟩
    · rw [if_neg hr] at h
      exact ⟨h, Or.inl hr⟩
  exact ⟨hm.2, g3 i hm.1, List.mem_flatMap.1 (g1.subset hm.1)⟩

theorem searchRank_nodup (E : Env Id W C K) (data : List (SearchData C K)) (cache : Cache Id W) (r : ℕ) :
    ((searchRank E data cache r).2.map (key E.own)).Nodup := by
  unfold searchRank
  obtain ⟨_, g2, _⟩ := getNewHaloes_spec E.own (data.flatMap (E.find r)) cache
  dsimp only
  by_cases hr : r = E.own
  · rw [if_pos hr]
    exact g2.sublist (List.filter_sublist.map _)
  · rw [if_neg hr]
    exact g2

theorem searchRank_complete (E : Env Id W C K) (data : List (SearchData C K)) (cache : Cache Id W) (r : ℕ)
    {d : SearchData C K} (hd : d ∈ data) {i : Image Id W C} (hi : i ∈ E.find r d) (hw : Wanted E r i) :
    key E.own i ∈ cache ∨ ∃ j ∈ (searchRank E data cache r).2, j.id = i.id ∧ j.wrap = i.wrap := by
  obtain ⟨_, _, _, _, g5⟩ := getNewHaloes_spec E.own (data.flatMap (E.find r)) cache
  rcases g5 i (List.mem_flatMap.2 ⟨d, hd, hi⟩) with h | h
  · exact Or.inl h
  · right
    obtain ⟨j, hj, hk⟩ := List.mem_map.1 h
    obtain ⟨_, e1, e2⟩ := key_inj hk
    refine ⟨j, ?_, e1, e2⟩
    unfold searchRank
    dsimp only
    by_cases hr : r = E.own
    · rw [if_pos hr, List.mem_filter]
      refine ⟨hj, ?_⟩
      rw [e2]
      rcases hw with hw | hw
      · exact absurd hr hw
      · exact hw
    · rw [if_neg hr]
      exact hj

theorem searchRank_cache (E : Env Id W C K) (data : List (SearchData C K)) (cache : Cache Id W) (r : ℕ)
    (k : ℕ × Id × W) : k ∈ (searchRank E data cache r).1 ↔
      k ∈ cache ∨ ∃ d ∈ data, ∃ i ∈ E.find r d, key E.own i = k := by
  obtain ⟨_, _, _, g4, _⟩ := getNewHaloes_spec E.own (data.flatMap (E.find r)) cache
  unfold searchRank
  dsimp only
  rw [g4]
  constructor
  · rintro (h | h)
    · exact Or.inl h
    · obtain ⟨i, hi, hk⟩ := List.mem_map.1 h
      obtain ⟨d, hd, hi⟩ := List.mem_flatMap.1 hi
      exact Or.inr ⟨d, hd, i, hi, hk⟩
  · rintro (h | ⟨d, hd, i, hi, hk⟩)
    · exact Or.inl h
    · exact Or.inr (List.mem_map.2 ⟨i, List.mem_flatMap.2 ⟨d, hd, hi⟩, hk⟩)

/-- The haloes and the caches belong together. -/
structure HaloInv (E : Env Id W C K) (haloes : List (PType Id W)) (caches : ℕ → Cache Id W) : Prop where
  nodup : haloes.Nodup
  found : ∀ x ∈ haloes, ∃ r ∈ E.ranks, ∃ d i, i ∈ E.find r d ∧ Wanted E r i ∧ x = ptype E r i ∧
    key E.own i ∈ caches r
  complete : ∀ r ∈ E.ranks, ∀ i : Image Id W C, Wanted E r i → key E.own i ∈ caches r → ptype E r i ∈ haloes

theorem mem_allResults {E : Env Id W C K} {data : List (SearchData C K)} {caches : ℕ → Cache Id W}
    {x : ℕ × Image Id W C} : x ∈ allResults E data caches ↔
      x.1 ∈ E.ranks ∧ x.2 ∈ (searchRank E data (caches x.1) x.1).2 := by
  unfold allResults
  rw [List.mem_flatMap]
  constructor
  · rintro ⟨r, hr, h⟩
    obtain ⟨i, hi, rfl⟩ := List.mem_map.1 h
    exact ⟨hr, hi⟩
  · rintro ⟨h1, h2⟩
    exact ⟨x.1, h1, List.mem_map.2 ⟨x.2, h2, rfl⟩⟩

theorem allResults_nodup {E : Env Id W C K} (hE : EnvOk E) (data : List (SearchData C K))
    (caches : ℕ → Cache Id W) : ((allResults E data caches).map fun x => ptype E x.1 x.2).Nodup := by
  unfold allResults
  have : ∀ l : List ℕ, l.Nodup → ((l.flatMap fun r => (searchRank E data (caches r) r).2.map fun i => (r, i)).map
      fun x => ptype E x.1 x.2).Nodup := by
    intro l hl
    induction l with
    | nil => exact List.nodup_nil
    | cons r l ih =>
      rw [List.nodup_cons] at hl
      rw [List.flatMap_cons, List.map_append, List.nodup_append]
      refine ⟨?_, ih hl.2, ?_⟩
      · rw [List.map_map]
        have h1 := searchRank_nodup E data (caches r) r
        refine (List.nodup_map_iff_inj_on (h1.of_map _)).2 ?_
        intro i hi j hj h
        obtain ⟨_, e1, e2⟩ := ptype_inj hE (mem_searchRank hi).1 (mem_searchRank hj).1 h
        refine List.inj_on_of_nodup_map h1 hi hj ?_
        unfold key
        rw [e1, e2]
      · rintro x hx y hy rfl
        obtain ⟨a, ha, rfl⟩ := List.mem_map.1 hx
        obtain ⟨i, hi, rfl⟩ := List.mem_map.1 ha
        obtain ⟨b, hb, hxy⟩ := List.mem_map.1 hy
        obtain ⟨r', hr', hb⟩ := List.mem_flatMap.1 hb
        obtain ⟨j, hj, rfl⟩ := List.mem_map.1 hb
        obtain ⟨e, _, _⟩ := ptype_inj hE (mem_searchRank hj).1 (mem_searchRank hi).1 hxy
        rw [← e] at hl
        exact hl.1 hr'
  exact this _ hE.ranks

theorem allResults_fresh {E : Env Id W C K} (hE : EnvOk E) (data : List (SearchData C K))
    {haloes : List (PType Id W)} {caches : ℕ → Cache Id W} (h : HaloInv E haloes caches) :
    ∀ x ∈ allResults E data caches, ptype E x.1 x.2 ∉ haloes := by
  intro x hx hc
  obtain ⟨hr, hi⟩ := mem_allResults.1 hx
  obtain ⟨hw, hk, _⟩ := mem_searchRank hi
  obtain ⟨r, _, d, i, _, hw', he, hk'⟩ := h.found _ hc
  obtain ⟨e0, e1, e2⟩ := ptype_inj hE hw hw' he
  refine hk ?_
  rw [e0]
  unfold key at hk' ⊢
  rw [e1, e2]
  exact hk'

theorem HaloInv.step {E : Env Id W C K} (hE : EnvOk E) (data : List (SearchData C K))
    {haloes haloes' : List (PType Id W)} {caches : ℕ → Cache Id W} (h : HaloInv E haloes caches)
    (hn : haloes' = ((allResults E data caches).map fun x => ptype E x.1 x.2).reverse ++ haloes) :
    HaloInv E haloes' (fun r => (searchRank E data (caches r) r).1) := by
  subst hn
  constructor
  · rw [List.nodup_append]
    refine ⟨List.nodup_reverse.2 (allResults_nodup hE data caches), h.nodup, ?_⟩
    rintro x hx y hy rfl
    rw [List.mem_reverse, List.mem_map] at hx
    obtain ⟨a, ha, rfl⟩ := hx
    exact allResults_fresh hE data h a ha hy
  · intro x hx
    rcases List.mem_append.1 hx with hx | hx
    · rw [List.mem_reverse, List.mem_map] at hx
      obtain ⟨a, ha, rfl⟩ := hx
      obtain ⟨hr, hi⟩ := mem_allResults.1 ha
      obtain ⟨hw, hk, d, hd, hf⟩ := mem_searchRank hi
      exact ⟨a.1, hr, d, a.2, hf, hw, rfl, (searchRank_cache _ _ _ _ _).2 (Or.inr ⟨d, hd, a.2, hf, rfl⟩)⟩
    · obtain ⟨r, hr, d, i, h1, h2, h3, h4⟩ := h.found x hx
      exact ⟨r, hr, d, i, h1, h2, h3, (searchRank_cache _ _ _ _ _).2 (Or.inl h4)⟩
  · intro r hr i hw hk
    rw [List.mem_append, List.mem_reverse, List.mem_map]
    have hold : key E.own i ∈ caches r → ptype E r i ∈ haloes := h.complete r hr i hw
    rcases (searchRank_cache _ _ _ _ _).1 hk with h1 | ⟨d, hd, j, hj, hk'⟩
    · exact Or.inr (hold h1)
    · obtain ⟨_, e1, e2⟩ := key_inj hk'
      have hwj : Wanted E r j := by
        unfold Wanted at hw ⊢
        rw [e2]
        exact hw
      rcases searchRank_complete E data (caches r) r hd hj hwj with h2 | ⟨j', hj', e3, e4⟩
      · rw [hk'] at h2
        exact Or.inr (hold h2)
      · exact Or.inl ⟨(r, j'), mem_allResults.2 ⟨hr, hj'⟩, ptype_congr (e3.trans e1) (e4.trans e2)⟩

/-! ### Inserting the results -/

/-- How the triangulation and the list of undecided tetras change while results are inserted. -/
structure TriStep (T : Tri S C K) (next : S → ℕ) (s s' : S) (more : List (Undecided K)) : Prop where
  mono : next s ≤ next s'
  old : ∀ t ∈ T.tetras s', (next s ≤ t ∧ ((T.inner s' t).isSome → ∃ u ∈ more, u.tetra = t)) ∨
    (t ∈ T.tetras s ∧ T.radius s' t = T.radius s t ∧ T.centre s' t = T.centre s t ∧ T.inner s' t = T.inner s t)
  more : ∀ u ∈ more, u.searchRadius = none ∧ u.tetra < next s' ∧
    (u.tetra ∈ T.tetras s' → (T.inner s' u.tetra).isSome)

theorem insertAll_spec {E : Env Id W C K} {T : Tri S C K} {next : S → ℕ} (hT : TriOk T next)
    (rs : List (ℕ × Image Id W C)) (s : S) (us : List (Undecided K)) (hs : List (PType Id W))
    (hn : (rs.map fun x => ptype E x.1 x.2).Nodup) (hf : ∀ x ∈ rs, ptype E x.1 x.2 ∉ hs) :
    insertAll E T rs s us hs = .error .insertion ∨
    ∃ s' more, insertAll E T rs s us hs =
      .ok (s', us ++ more, (rs.map fun x => ptype E x.1 x.2).reverse ++ hs) ∧
      TriStep T next s s' more ∧ (rs = [] → s' = s ∧ more = []) := by
  induction rs generalizing s us hs with
  | nil =>
    right
    refine ⟨s, [], by simp [insertAll], ⟨Nat.le_refl _, fun t ht => Or.inr ⟨ht, rfl, rfl, rfl⟩, by simp⟩,
      fun _ => ⟨rfl, rfl⟩⟩
  | cons r rs ih =>
    rw [List.map_cons, List.nodup_cons] at hn
    have h1 : ptype E r.1 r.2 ∉ hs := hf r List.mem_cons_self
    unfold insertAll insertOne
    rw [if_neg h1]
    cases hi : T.insert s r.2.pos with
    | none => exact Or.inl rfl
    | some x =>
      obtain ⟨s1, ch⟩ := x
      dsimp only [Except.bind]
      rcases ih s1 (us ++ ((ch.filter (shouldBeChecked T s1)).map fun t => ⟨t, none⟩)) (ptype E r.1 r.2 :: hs) hn.2
        (by
          intro x hx hc
          rcases List.mem_cons.1 hc with hc | hc
          · exact hn.1 (List.mem_map.2 ⟨x, hx, hc⟩)
          · exact hf x (List.mem_cons_of_mem _ hx) hc) with h2 | ⟨s', more, h2, h3, h4⟩
      · exact Or.inl h2
      · right
        refine ⟨s', ((ch.filter (shouldBeChecked T s1)).map fun t => ⟨t, none⟩) ++ more, ?_, ?_, by simp⟩
        · rw [h2]
          simp
        · have hm1 := hT.mono s r.2.pos s1 ch hi
          refine ⟨hm1.trans h3.mono, fun t ht => ?_, fun u hu => ?_⟩
          · rcases h3.old t ht with ⟨h5, h6⟩ | ⟨h5, h6, h7, h8⟩
            · refine Or.inl ⟨hm1.trans h5, fun hin => ?_⟩
              obtain ⟨u, hu, e⟩ := h6 hin
              exact ⟨u, List.mem_append.2 (Or.inr hu), e⟩
            · rcases hT.insert s r.2.pos s1 ch hi t h5 with ⟨h9, h10⟩ | ⟨h9, h10, h11, h12⟩
              · refine Or.inl ⟨h10, fun hin => ?_⟩
                refine ⟨⟨t, none⟩, List.mem_append.2 (Or.inl (List.mem_map.2 ⟨t, ?_, rfl⟩)), rfl⟩
                rw [List.mem_filter]
                refine ⟨h9, ?_⟩
                unfold shouldBeChecked
                rw [h8] at hin
                simp [h5, hin]
              · exact Or.inr ⟨h9, h6.trans h10, h7.trans h11, h8.trans h12⟩
          · rcases List.mem_append.1 hu with hu | hu
            · obtain ⟨t, ht, rfl⟩ := List.mem_map.1 hu
              rw [List.mem_filter] at ht
              have hch := ht.2
              unfold shouldBeChecked at hch
              rw [Bool.and_eq_true, decide_eq_true_eq] at hch
              have hlt := hT.lt s1 t hch.1
              refine ⟨rfl, Nat.lt_of_lt_of_le hlt h3.mono, fun hl => ?_⟩
              rcases h3.old t hl with ⟨h5, _⟩ | ⟨_, _, _, h8⟩
              · exact absurd (Nat.lt_of_lt_of_le hlt h5) (Nat.lt_irrefl _)
              · dsimp only
                rw [h8]
                exact hch.2
            · exact h3.more u hu

end Verif.Halo
