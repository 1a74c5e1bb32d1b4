import Verif.GridFile.Spec
import Verif.Comm.CollectiveProps
import Mathlib.Data.List.Nodup
import Mathlib.Tactic.Basic

/-!
# Grids read from a file: helper lemmas
-/

namespace Verif.GridFile

variable {A N V : Type}

/-! ## Hash maps -/

theorem lookup_cons {V : Type} (m : List (UId × V)) (k x : UId) (v : V) :
    List.lookup x ((k, v) :: m) = if x = k then some v else List.lookup x m := by
  rw [List.lookup_cons]
  by_cases h : x = k
  · simp [h]
  · have : (x == k) = false := by simpa using h
    simp [this, h]

theorem lookup_filter {V : Type} (m : List (UId × V)) (k x : UId) (h : x ≠ k) :
    List.lookup x (m.filter (fun e => e.1 ≠ k)) = List.lookup x m := by
  induction m with
  | nil => rfl
  | cons e m ih =>
    obtain ⟨a, b⟩ := e
    by_cases hk : a = k
    · rw [List.filter_cons_of_neg (by simp [hk]), ih, lookup_cons, if_neg (by rw [hk]; exact h)]
    · rw [List.filter_cons_of_pos (by simp [hk]), lookup_cons, lookup_cons, ih]

theorem lookup_hmInsert {V : Type} (m : List (UId × V)) (k x : UId) (v : V) :
    List.lookup x (hmInsert m k v) = if x = k then some v else List.lookup x m := by
  unfold hmInsert
  rw [lookup_cons]
  by_cases h : x = k
  · rw [if_pos h, if_pos h]
  · rw [if_neg h, if_neg h, lookup_filter m k x h]

/-- No key occurs twice. -/
def Keys {V : Type} (m : List (UId × V)) : Prop := (m.map Prod.fst).Nodup

theorem keys_hmInsert {V : Type} (m : List (UId × V)) (k : UId) (v : V) (h : Keys m) :
    Keys (hmInsert m k v) := by
  unfold Keys hmInsert
  rw [List.map_cons, List.nodup_cons]
  refine ⟨?_, ?_⟩
  · intro hm
    obtain ⟨e, he, hk⟩ := List.mem_map.1 hm
    rw [List.mem_filter] at he
    simp [hk] at he
  · exact h.sublist (List.Sublist.map _ List.filter_sublist)

theorem keys_hmExtend {V : Type} (l : List (UId × V)) : ∀ m : List (UId × V), Keys m →
    Keys (hmExtend m l) := by
  induction l with
  | nil => intro m h; exact h
  | cons e l ih => intro m h; exact ih _ (keys_hmInsert m e.1 e.2 h)

theorem mem_iff_lookup {V : Type} (m : List (UId × V)) (h : Keys m) (u : UId) (v : V) :
    (u, v) ∈ m ↔ List.lookup u m = some v := by
  induction m with
  | nil => simp
  | cons e m ih =>
    obtain ⟨a, b⟩ := e
    unfold Keys at h
    rw [List.map_cons, List.nodup_cons] at h
    have ih := ih h.2
    rw [lookup_cons, List.mem_cons]
    by_cases hk : u = a
    · rw [if_pos hk]
      constructor
      · rintro (he | he)
        · rw [Prod.mk.injEq] at he
          rw [he.2]
        · exact absurd (List.mem_map.2 ⟨(u, v), he, hk⟩) h.1
      · intro he
        left
        rw [Prod.mk.injEq]
        exact ⟨hk, (Option.some.inj he).symm⟩
    · rw [if_neg hk, ← ih]
      constructor
      · rintro (he | he)
        · rw [Prod.mk.injEq] at he
          exact absurd he.1 hk
        · exact he
      · exact Or.inr

/-- What an extended map holds comes from the map or from the list. -/
theorem lookup_hmExtend_from {V : Type} (l : List (UId × V)) : ∀ (m : List (UId × V)) (u : UId) (v : V),
    List.lookup u (hmExtend m l) = some v → List.lookup u m = some v ∨ (u, v) ∈ l := by
  induction l with
  | nil => intro m u v h; exact Or.inl h
  | cons e l ih =>
    intro m u v h
    rcases ih _ u v h with h' | h'
    · rw [lookup_hmInsert] at h'
      by_cases hk : u = e.1
      · rw [if_pos hk] at h'
        right
        rw [hk, ← Option.some.inj h']
        exact List.mem_cons_self
      · rw [if_neg hk] at h'
        exact Or.inl h'
    · exact Or.inr (List.mem_cons_of_mem _ h')

/-- An extended map holds all keys of the map and of the list. -/
theorem lookup_hmExtend_some {V : Type} (l : List (UId × V)) : ∀ (m : List (UId × V)) (u : UId),
    ((List.lookup u m).isSome = true ∨ u ∈ l.map Prod.fst) →
    (List.lookup u (hmExtend m l)).isSome = true := by
  induction l with
  | nil =>
    intro m u h
    rcases h with h | h
    · exact h
    · simp at h
  | cons e l ih =>
    intro m u h
    apply ih
    rw [lookup_hmInsert]
    by_cases hk : u = e.1
    · left
      rw [if_pos hk]
      rfl
    · rw [if_neg hk]
      rcases h with h | h
      · exact Or.inl h
      · rw [List.map_cons, List.mem_cons] at h
        rcases h with h | h
        · exact absurd h hk
        · exact Or.inr h

/-- A map made from a list without repeated keys. -/
theorem lookup_hmExtend_nil {V : Type} (l : List (UId × V)) (h : Keys l) (u : UId) (v : V) :
    List.lookup u (hmExtend [] l) = some v ↔ (u, v) ∈ l := by
  constructor
  · intro h'
    rcases lookup_hmExtend_from l [] u v h' with h'' | h''
    · simp at h''
    · exact h''
  · intro h'
    have hs := lookup_hmExtend_some l [] u (Or.inr (List.mem_map.2 ⟨(u, v), h', rfl⟩))
    obtain ⟨w, hw⟩ := Option.isSome_iff_exists.1 hs
    rcases lookup_hmExtend_from l [] u w hw with h'' | h''
    · simp at h''
    · have := (mem_iff_lookup l h u w).1 h''
      rw [(mem_iff_lookup l h u v).1 h'] at this
      rw [hw, this]

/-! ## Owners -/

section
variable {W : ℕ} {particles : ℕ → List (Particle V)}

theorem mem_all {p : Particle V} : p ∈ allParticles W particles ↔ ∃ r < W, p ∈ particles r := by
  simp [allParticles]

theorem inj_of_nodup_map {α β : Type} (f : α → β) (l : List α) (h : (l.map f).Nodup) (a b : α)
    (ha : a ∈ l) (hb : b ∈ l) (hab : f a = f b) : a = b :=
  List.inj_on_of_nodup_map h ha hb hab

theorem owns_unique (hc : Consistent W particles) {u : UId} {p q : PId}
    (hp : Owns W particles u p) (hq : Owns W particles u q) : p = q := by
  obtain ⟨x, hx, hxu, rfl⟩ := hp
  obtain ⟨y, hy, hyu, rfl⟩ := hq
  rw [inj_of_nodup_map _ _ hc.unique x y hx hy (hxu.trans hyu.symm)]

theorem owns_rank (hc : Consistent W particles) {u : UId} {p : PId} (hp : Owns W particles u p) :
    p.rank < W ∧ ∃ x ∈ particles p.rank, x.uid = u ∧ x.id = p := by
  obtain ⟨x, hx, hxu, rfl⟩ := hp
  obtain ⟨r, hr, hxr⟩ := mem_all.1 hx
  have := hc.rank_eq r hr x hxr
  rw [this]
  exact ⟨hr, x, hxr, hxu, rfl⟩

theorem owns_of_mem {r : ℕ} (hr : r < W) {p : Particle V} (hp : p ∈ particles r) :
    Owns W particles p.uid p.id := ⟨p, mem_all.2 ⟨r, hr, hp⟩, rfl, rfl⟩

theorem sublist_all {r : ℕ} (hr : r < W) : List.Sublist (particles r) (allParticles W particles) := by
  unfold allParticles
  rw [List.flatMap_def]
  exact List.sublist_flatten_of_mem (List.mem_map.2 ⟨r, List.mem_range.2 hr, rfl⟩)

theorem local_nodup (hc : Consistent W particles) {r : ℕ} (hr : r < W) :
    ((particles r).map (fun p => p.uid)).Nodup :=
  hc.unique.sublist ((sublist_all hr).map _)

theorem initialMap_lookup (hc : Consistent W particles) {r : ℕ} (hr : r < W) (u : UId) (pid : PId) :
    (initialMap (particles r)).find u = some pid ↔ Owns W particles u pid ∧ pid.rank = r := by
  unfold initialMap IdMap.find
  rw [lookup_hmExtend_nil]
  · constructor
    · intro h
      obtain ⟨p, hp, he⟩ := List.mem_map.1 h
      rw [Prod.mk.injEq] at he
      obtain ⟨rfl, rfl⟩ := he
      exact ⟨owns_of_mem hr hp, hc.rank_eq r hr p hp⟩
    · rintro ⟨h, rfl⟩
      obtain ⟨_, x, hx, rfl, hx2⟩ := owns_rank hc h
      exact List.mem_map.2 ⟨x, hx, by rw [hx2]⟩
  · unfold Keys
    rw [List.map_map]
    exact local_nodup hc hr

theorem initialMap_keys (r : ℕ) : Keys (initialMap (particles r)) :=
  keys_hmExtend _ _ List.nodup_nil

theorem isLocal_iff (m : IdMap) (r : ℕ) (u : UId) :
    m.isLocal r u = true ↔ ∃ pid, m.find u = some pid ∧ pid.rank = r := by
  unfold IdMap.isLocal
  cases h : m.find u with
  | none => simp
  | some p => simp

theorem initialMap_isLocal (hc : Consistent W particles) {r : ℕ} (hr : r < W) (u : UId) :
    (initialMap (particles r)).isLocal r u = true ↔ ∃ pid, Owns W particles u pid ∧ pid.rank = r := by
  rw [isLocal_iff]
  constructor
  · rintro ⟨pid, h, h'⟩
    exact ⟨pid, ((initialMap_lookup hc hr u pid).1 h).1, h'⟩
  · rintro ⟨pid, h, h'⟩
    exact ⟨pid, (initialMap_lookup hc hr u pid).2 ⟨h, h'⟩, h'⟩

/-! ## The lookup -/

/-- The state of the lookup: every map knows only true ids, all its own particles, all ids in `got`,
and nothing besides its own particles and the ids in `asked`. -/
structure Known (W : ℕ) (particles : ℕ → List (Particle V)) (got asked : ℕ → UId → Prop)
    (maps : ℕ → IdMap) : Prop where
  keys : ∀ r < W, Keys (maps r)
  sound : ∀ r < W, ∀ u pid, (maps r).find u = some pid →
    Owns W particles u pid ∧ (pid.rank = r ∨ asked r u)
  own : ∀ r < W, ∀ u pid, Owns W particles u pid → pid.rank = r → ((maps r).find u).isSome = true
  got : ∀ r < W, ∀ u pid, Owns W particles u pid → got r u → ((maps r).find u).isSome = true

theorem mem_replies (m : IdMap) (reqs : List UId) (u : UId) (pid : PId) :
    (u, pid) ∈ replies m reqs ↔ u ∈ reqs ∧ m.find u = some pid := by
  unfold replies
  rw [List.mem_filterMap]
  constructor
  · rintro ⟨a, ha, h⟩
    rw [Option.map_eq_some_iff] at h
    obtain ⟨p, hp, he⟩ := h
    rw [Prod.mk.injEq] at he
    obtain ⟨rfl, rfl⟩ := he
    exact ⟨ha, hp⟩
  · rintro ⟨h, h'⟩
    exact ⟨u, h, by rw [h']; rfl⟩

theorem fold_extend (maps : ℕ → IdMap) (reqs : List UId) (l : List ℕ) : ∀ m : IdMap,
    (Keys m → Keys (l.foldl (fun m s => hmExtend m (replies (maps s) reqs)) m)) ∧
    (∀ u pid, IdMap.find (l.foldl (fun m s => hmExtend m (replies (maps s) reqs)) m) u = some pid →
      m.find u = some pid ∨ u ∈ reqs ∧ ∃ s ∈ l, (maps s).find u = some pid) ∧
    (∀ u, ((m.find u).isSome = true ∨ u ∈ reqs ∧ ∃ s ∈ l, ((maps s).find u).isSome = true) →
      (IdMap.find (l.foldl (fun m s => hmExtend m (replies (maps s) reqs)) m) u).isSome = true) := by
  induction l with
  | nil =>
    intro m
    refine ⟨fun h => h, fun u pid h => Or.inl h, ?_⟩
    rintro u (h | ⟨_, s, hs, _⟩)
    · exact h
    · simp at hs
  | cons s l ih =>
    intro m
    obtain ⟨i1, i2, i3⟩ := ih (hmExtend m (replies (maps s) reqs))
    refine ⟨fun h => i1 (keys_hmExtend _ _ h), ?_, ?_⟩
    · intro u pid h
      rcases i2 u pid h with h' | ⟨h', t, ht, h''⟩
      · rcases lookup_hmExtend_from _ _ _ _ h' with h'' | h''
        · exact Or.inl h''
        · rw [mem_replies] at h''
          exact Or.inr ⟨h''.1, s, by simp, h''.2⟩
      · exact Or.inr ⟨h', t, by simp [ht], h''⟩
    · intro u h
      apply i3
      rcases h with h | ⟨hu, t, ht, h⟩
      · exact Or.inl (lookup_hmExtend_some _ _ _ (Or.inl h))
      · rcases List.mem_cons.1 ht with rfl | ht
        · left
          apply lookup_hmExtend_some
          right
          obtain ⟨pid, hp⟩ := Option.isSome_iff_exists.1 h
          exact List.mem_map.2 ⟨(u, pid), (mem_replies _ _ _ _).2 ⟨hu, hp⟩, rfl⟩
        · exact Or.inr ⟨hu, t, ht, h⟩

theorem known_round (hc : Consistent W particles) (got asked : ℕ → UId → Prop) (maps : ℕ → IdMap)
    (chunk : ℕ → List UId) (h : Known W particles got asked maps)
    (hchunk : ∀ r < W, ∀ u ∈ chunk r, asked r u) :
    Known W particles (fun r u => got r u ∨ u ∈ chunk r) asked (exchangeRequestChunk W maps chunk) := by
  have key := fun r => fold_extend maps (chunk r) ((List.range W).filter (fun s => s ≠ r)) (maps r)
  refine ⟨fun r hr => (key r).1 (h.keys r hr), ?_, ?_, ?_⟩
  · intro r hr u pid hu
    rcases (key r).2.1 u pid hu with h' | ⟨h', s, hs, h''⟩
    · exact h.sound r hr u pid h'
    · simp only [List.mem_filter, List.mem_range] at hs
      exact ⟨(h.sound s hs.1 u pid h'').1, Or.inr (hchunk r hr u h')⟩
  · intro r hr u pid ho hpr
    exact (key r).2.2 u (Or.inl (h.own r hr u pid ho hpr))
  · intro r hr u pid ho hg
    rcases hg with hg | hg
    · exact (key r).2.2 u (Or.inl (h.got r hr u pid ho hg))
    · by_cases hpr : pid.rank = r
      · exact (key r).2.2 u (Or.inl (h.own r hr u pid ho hpr))
      · refine (key r).2.2 u (Or.inr ⟨hg, pid.rank, ?_, h.own _ (owns_rank hc ho).1 u pid ho rfl⟩)
        simp [(owns_rank hc ho).1, hpr]

theorem known_rounds (hc : Consistent W particles) (asked : ℕ → UId → Prop)
    (chunk : ℕ → ℕ → List UId) (hchunk : ∀ k, ∀ r < W, ∀ u ∈ chunk k r, asked r u) (n : ℕ)
    (maps : ℕ → IdMap) (h : Known W particles (fun _ _ => False) asked maps) :
    Known W particles (fun r u => ∃ k < n, u ∈ chunk k r) asked
      ((List.range n).foldl (fun maps k => exchangeRequestChunk W maps (chunk k)) maps) := by
  induction n with
  | zero =>
    refine ⟨h.keys, h.sound, h.own, ?_⟩
    rintro r hr u pid ho ⟨k, hk, _⟩
    exact absurd hk (Nat.not_lt_zero _)
  | succ n ih =>
    rw [List.range_succ, List.foldl_append, List.foldl_cons, List.foldl_nil]
    have := known_round hc _ asked _ (chunk n) ih (hchunk n)
    refine ⟨this.keys, this.sound, this.own, ?_⟩
    rintro r hr u pid ho ⟨k, hk, hu⟩
    refine this.got r hr u pid ho ?_
    rcases Nat.lt_succ_iff_lt_or_eq.1 hk with hk | rfl
    · exact Or.inl ⟨k, hk, hu⟩
    · exact Or.inr hu

theorem performLookup_spec (hW : 0 < W) (hc : Consistent W particles) (reqs : ℕ → List UId) :
    ∃ maps', performLookup W (fun r => initialMap (particles r)) reqs = some maps' ∧
      ∀ r < W, Keys (maps' r) ∧ ∀ u pid, (maps' r).find u = some pid ↔
        Owns W particles u pid ∧ (pid.rank = r ∨ u ∈ reqs r) := by
  obtain ⟨res, n, h1, h2, h3, h4, h5, _⟩ := Verif.Collective.chunks_same_number
    ((List.range W).map reqs) (by simp; omega) 10000 (by decide)
  have hflat : ∀ r < W, ∃ cs, res[r]? = some cs ∧ cs.flatten = reqs r := by
    intro r hr
    have hlen : r < res.length := by rw [h2]; simpa using hr
    refine ⟨res[r], List.getElem?_eq_getElem hlen, ?_⟩
    have : (res.map List.flatten)[r]? = ((List.range W).map reqs)[r]? := by rw [h4]
    rw [List.getElem?_map, List.getElem?_eq_getElem hlen, List.getElem?_map,
      List.getElem?_eq_getElem (by simpa using hr)] at this
    simpa using this
  have hn : (res.map List.length).foldl max 0 = n := by
    have hne : res ≠ [] := by
      intro h
      rw [h] at h2
      simp at h2
      omega
    have aux : ∀ (l : List (List (List UId))) (a : ℕ), (∀ cs ∈ l, cs.length = n) → l ≠ [] → a ≤ n →
        (l.map List.length).foldl max a = n := by
      intro l
      induction l with
      | nil => intro a _ h; exact absurd rfl h
      | cons c l ih =>
        intro a hl _ ha
        rw [List.map_cons, List.foldl_cons, hl c (by simp), Nat.max_eq_right ha]
        by_cases hl' : l = []
        · rw [hl']
          rfl
        · exact ih n (fun cs hcs => hl cs (by simp [hcs])) hl' (le_refl n)
    exact aux res 0 h3 hne (Nat.zero_le _)
  have hchunk : ∀ k, ∀ r < W, ∀ u ∈ chunkOf res k r, u ∈ reqs r := by
    intro k r hr u hu
    obtain ⟨cs, hcs, hfl⟩ := hflat r hr
    unfold chunkOf at hu
    rw [hcs] at hu
    dsimp only at hu
    cases hk : cs[k]? with
    | none => rw [hk] at hu; simp at hu
    | some c =>
      rw [hk] at hu
      rw [← hfl, List.mem_flatten]
      exact ⟨c, List.mem_of_getElem? hk, hu⟩
  have hcov : ∀ r < W, ∀ u ∈ reqs r, ∃ k < n, u ∈ chunkOf res k r := by
    intro r hr u hu
    obtain ⟨cs, hcs, hfl⟩ := hflat r hr
    rw [← hfl, List.mem_flatten] at hu
    obtain ⟨c, hc', huc⟩ := hu
    obtain ⟨k, hk, rfl⟩ := List.getElem_of_mem hc'
    refine ⟨k, ?_, ?_⟩
    · rw [← h3 cs (List.mem_of_getElem? hcs)]
      exact hk
    · unfold chunkOf
      rw [hcs]
      dsimp only
      rw [List.getElem?_eq_getElem hk]
      exact huc
  have h0 : Known W particles (fun _ _ => False) (fun r u => u ∈ reqs r)
      (fun r => initialMap (particles r)) := by
    refine ⟨fun r _ => initialMap_keys r, ?_, ?_, ?_⟩
    · intro r hr u pid h
      have := (initialMap_lookup hc hr u pid).1 h
      exact ⟨this.1, Or.inl this.2⟩
    · intro r hr u pid ho hp
      rw [(initialMap_lookup hc hr u pid).2 ⟨ho, hp⟩]
      rfl
    · intro r hr u pid _ hf
      exact absurd hf id
  have hfin := known_rounds hc _ (chunkOf res) hchunk n _ h0
  refine ⟨(List.range n).foldl (fun maps k => exchangeRequestChunk W maps (chunkOf res k))
    (fun r => initialMap (particles r)), ?_, ?_⟩
  · unfold performLookup
    rw [h1]
    show some _ = some _
    rw [hn]
  · intro r hr
    refine ⟨hfin.keys r hr, fun u pid => ⟨hfin.sound r hr u pid, ?_⟩⟩
    rintro ⟨ho, h⟩
    have hs := h.elim (hfin.own r hr u pid ho) (fun hu => hfin.got r hr u pid ho (hcov r hr u hu))
    obtain ⟨q, hq⟩ := Option.isSome_iff_exists.1 hs
    rw [hq, owns_unique hc (hfin.sound r hr u q hq).1 ho]

theorem mem_addRequest (m : IdMap) (r : ℕ) (reqs : List UId) (id u : UId) :
    u ∈ addLookupRequestIfNecessary m r reqs id ↔ u ∈ reqs ∨ u = id ∧ m.isLocal r id = false := by
  unfold addLookupRequestIfNecessary
  cases hl : m.isLocal r id with
  | true => simp
  | false =>
    simp only [Bool.false_eq_true, if_false, and_true]
    split_ifs with h
    · constructor
      · exact Or.inl
      · rintro (h' | rfl)
        · exact h'
        · exact h
    · simp

theorem mem_addRequests (m : IdMap) (r : ℕ) (cs : List (Connection A N)) (u : UId) :
    u ∈ addLookupRequests m r cs ↔ m.isLocal r u = false ∧ ∃ c ∈ cs, c.id1 = u ∨ c.id2 = u := by
  unfold addLookupRequests
  suffices h : ∀ reqs, u ∈ cs.foldl (fun reqs c => addLookupRequestIfNecessary m r
      (addLookupRequestIfNecessary m r reqs c.id1) c.id2) reqs ↔ u ∈ reqs ∨
        m.isLocal r u = false ∧ ∃ c ∈ cs, c.id1 = u ∨ c.id2 = u by
    rw [h []]
    simp
  induction cs with
  | nil => simp
  | cons c cs ih =>
    intro reqs
    rw [List.foldl_cons, ih, mem_addRequest, mem_addRequest]
    constructor
    · rintro (((h | ⟨rfl, h⟩) | ⟨rfl, h⟩) | ⟨h, c', hc', h'⟩)
      · exact Or.inl h
      · exact Or.inr ⟨h, c, by simp, Or.inl rfl⟩
      · exact Or.inr ⟨h, c, by simp, Or.inr rfl⟩
      · exact Or.inr ⟨h, c', by simp [hc'], h'⟩
    · rintro (h | ⟨h, c', hc', h'⟩)
      · exact Or.inl (Or.inl (Or.inl h))
      · rcases List.mem_cons.1 hc' with rfl | hc'
        · rcases h' with rfl | rfl
          · exact Or.inl (Or.inl (Or.inr ⟨rfl, h⟩))
          · exact Or.inl (Or.inr ⟨rfl, h⟩)
        · exact Or.inr ⟨h, c', hc', h'⟩

end

end Verif.GridFile
