import Verif.GridFile.CellLemmas

/-!
# C38: grids read from a file
-/

namespace Verif.GridFile

variable {A N V : Type} {W : ℕ} {particles : ℕ → List (Particle V)}

/-! ## Connection types -/

theorem flag_of_bit (b : BitVec 32) :
    periodicAndBoundaryFlagsFromBits b = (b.getLsbD 0, b.getLsbD 1) := by
  have h1 : b &&& 1#32 = if b.getLsbD 0 then 1#32 else 0#32 := by
    rw [show (1#32) = BitVec.twoPow 32 0 from rfl, BitVec.and_twoPow]
  have h2 : b &&& 2#32 = if b.getLsbD 1 then 2#32 else 0#32 := by
    rw [show (2#32) = BitVec.twoPow 32 1 from rfl, BitVec.and_twoPow]
  unfold periodicAndBoundaryFlagsFromBits
  rw [h1, h2]
  cases b.getLsbD 0 <;> cases b.getLsbD 1 <;> rfl

/-- A connection is used exactly when neither cell is a boundary cell (bits 1 and 3) and not both are
periodic images (bits 0 and 2), and these two bits are its flags. -/
theorem connection_type_flags (v : BitVec 32) (t : ConnectionType) :
    ConnectionType.tryFrom v = some t ↔
      v.getLsbD 1 = false ∧ v.getLsbD 3 = false ∧ ¬ (v.getLsbD 0 = true ∧ v.getLsbD 2 = true) ∧
        t.periodic1 = v.getLsbD 0 ∧ t.periodic2 = v.getLsbD 2 := by
  have e0 : (v &&& 3#32).getLsbD 0 = v.getLsbD 0 := by
    rw [BitVec.getLsbD_and, show (3#32).getLsbD 0 = true from rfl, Bool.and_true]
  have e1 : (v &&& 3#32).getLsbD 1 = v.getLsbD 1 := by
    rw [BitVec.getLsbD_and, show (3#32).getLsbD 1 = true from rfl, Bool.and_true]
  have e2 : ((v &&& 12#32).sshiftRight 2).getLsbD 0 = v.getLsbD 2 := by
    rw [BitVec.getLsbD_sshiftRight]
    simp
  have e3 : ((v &&& 12#32).sshiftRight 2).getLsbD 1 = v.getLsbD 3 := by
    rw [BitVec.getLsbD_sshiftRight]
    simp
  unfold ConnectionType.tryFrom
  rw [flag_of_bit, flag_of_bit, e0, e1, e2, e3]
  by_cases hm : v.toInt = -1
  · have hv : v = BitVec.ofInt 32 (-1) := by
      rw [← hm, BitVec.ofInt_toInt]
    rw [if_pos hm]
    subst hv
    constructor
    · intro h
      cases h
    · rintro ⟨h, _⟩
      exact absurd h (by decide)
  · rw [if_neg hm]
    obtain ⟨t1, t2⟩ := t
    cases v.getLsbD 0 <;> cases v.getLsbD 1 <;> cases v.getLsbD 2 <;> cases v.getLsbD 3 <;>
      cases t1 <;> cases t2 <;> decide

/-! ## The lookup -/

/-- After the lookup a rank knows exactly its own particles and the existing particles it asked for,
whatever rank holds them, and knows them under the id of the rank which holds them. -/
theorem lookup_finds_owner (hW : 0 < W) (hc : Consistent W particles) (reqs : ℕ → List UId) :
    ∃ maps', performLookup W (fun r => initialMap (particles r)) reqs = some maps' ∧
      ∀ r < W, ∀ u pid, (maps' r).find u = some pid ↔
        Owns W particles u pid ∧ (pid.rank = r ∨ u ∈ reqs r) := by
  obtain ⟨m, h1, h2⟩ := performLookup_spec hW hc reqs
  exact ⟨m, h1, fun r hr => (h2 r hr).2⟩

/-! ## The grid -/

theorem mem_relevant (hc : Consistent W particles) {r : ℕ} (hr : r < W) (cs : List (Connection A N))
    (c : Connection A N) :
    c ∈ filterRelevantConnections (initialMap (particles r)) r cs ↔
      c ∈ cs ∧ Touches W particles r c := by
  unfold filterRelevantConnections Touches
  rw [List.mem_filter, Bool.or_eq_true, initialMap_isLocal hc hr, initialMap_isLocal hc hr]
  constructor
  · rintro ⟨h, ⟨pid, h1, h2⟩ | ⟨pid, h1, h2⟩⟩
    · exact ⟨h, pid, h2, Or.inl h1⟩
    · exact ⟨h, pid, h2, Or.inr h1⟩
  · rintro ⟨h, pid, h1, h2 | h2⟩
    · exact ⟨h, Or.inl ⟨pid, h2, h1⟩⟩
    · exact ⟨h, Or.inr ⟨pid, h2, h1⟩⟩

theorem mapM_range_some {β : Type} (f : ℕ → Option β) : ∀ n, (∀ r < n, (f r).isSome = true) →
    ∃ l, (List.range n).mapM f = some l ∧ l.length = n ∧ ∀ r < n, l[r]? = f r := by
  intro n
  induction n with
  | zero => intro _; exact ⟨[], rfl, rfl, fun r hr => absurd hr (Nat.not_lt_zero r)⟩
  | succ n ih =>
    intro h
    obtain ⟨l, h1, h2, h3⟩ := ih (fun r hr => h r (by omega))
    obtain ⟨b, hb⟩ := Option.isSome_iff_exists.1 (h n (by omega))
    refine ⟨l ++ [b], ?_, by simp [h2], ?_⟩
    · rw [List.range_succ, List.mapM_append, h1]
      simp [hb]
    · intro r hr
      by_cases hrn : r < n
      · rw [List.getElem?_append_left (by omega), h3 r hrn]
      · have : r = n := by omega
        subst this
        rw [List.getElem?_append_right (by omega), h2, hb]
        simp

theorem mapM_range_none {β : Type} (f : ℕ → Option β) (n r : ℕ) (hr : r < n) (h : f r = none) :
    (List.range n).mapM f = none := by
  have aux : ∀ l : List ℕ, r ∈ l → l.mapM f = none := by
    intro l
    induction l with
    | nil => intro hl; simp at hl
    | cons a l ih =>
      intro hl
      rw [List.mapM_cons]
      by_cases har : a = r
      · rw [har, h]
        rfl
      · rw [ih (by rcases List.mem_cons.1 hl with rfl | h'; exact absurd rfl har; exact h')]
        cases f a <;> rfl
  exact aux _ (List.mem_range.2 hr)

/-- Which ids a rank knows after the lookup: the touching connections' ids. -/
theorem known_after (hc : Consistent W particles) {r : ℕ} (hr : r < W) (cs : List (Connection A N))
    (u : UId) (pid : PId) :
    (Owns W particles u pid ∧ (pid.rank = r ∨
      u ∈ addLookupRequests (initialMap (particles r)) r
        (filterRelevantConnections (initialMap (particles r)) r cs))) ↔
    (Owns W particles u pid ∧ (pid.rank = r ∨
      ∃ c ∈ cs, Touches W particles r c ∧ (c.id1 = u ∨ c.id2 = u))) := by
  rw [mem_addRequests]
  constructor
  · rintro ⟨h, h' | ⟨_, c, hcm, hcu⟩⟩
    · exact ⟨h, Or.inl h'⟩
    · rw [mem_relevant hc hr] at hcm
      exact ⟨h, Or.inr ⟨c, hcm.1, hcm.2, hcu⟩⟩
  · rintro ⟨h, h' | ⟨c, hcm, ht, hcu⟩⟩
    · exact ⟨h, Or.inl h'⟩
    · by_cases hp : pid.rank = r
      · exact ⟨h, Or.inl hp⟩
      · refine ⟨h, Or.inr ⟨?_, c, (mem_relevant hc hr cs c).2 ⟨hcm, ht⟩, hcu⟩⟩
        rw [← Bool.not_eq_true, initialMap_isLocal hc hr]
        rintro ⟨q, hq, hqr⟩
        rw [owns_unique hc h hq] at hp
        exact hp hqr

theorem haloes_nodup (hc : Consistent W particles) {r : ℕ} (m : IdMap) (hk : Keys m)
    (hs : ∀ u pid, m.find u = some pid → Owns W particles u pid) :
    ((m.map Prod.snd).filter fun id => id.rank ≠ r).Nodup := by
  apply List.Nodup.filter
  apply List.Nodup.map_on
  · rintro ⟨u, p⟩ h1 ⟨v, q⟩ h2 (rfl : p = q)
    have o1 := hs u p ((mem_iff_lookup m hk u p).1 h1)
    have o2 := hs v p ((mem_iff_lookup m hk v p).1 h2)
    obtain ⟨x, hx, rfl, hx2⟩ := o1
    obtain ⟨y, hy, rfl, hy2⟩ := o2
    rw [inj_of_nodup_map _ _ hc.idsUnique x y hx hy (hx2.trans hy2.symm)]
  · exact List.Nodup.of_map Prod.fst hk

/-- **C38.** If every connection of an existing particle leads to an existing particle, and there are
no periodic connections or the simulation is not periodic, the grid is read without a panic, and on
every rank: the cell of each particle holds exactly the entries of the connections of this particle, in
the order of the file; the halo particles are exactly the particles of other ranks sharing a connection
with a particle of this rank, each once. -/
theorem grid_read_correct [Neg N] (hW : 0 < W) (hc : Consistent W particles) (allow : Bool)
    (rows : List (Row A N)) (own : UId → PId) (hown : ∀ u pid, Owns W particles u pid → own u = pid)
    (hknown : ∀ c ∈ readConnections rows,
      (∃ pid, Owns W particles c.id1 pid ∨ Owns W particles c.id2 pid) →
      (∃ pid, Owns W particles c.id1 pid) ∧ (∃ pid, Owns W particles c.id2 pid))
    (hper : allow = false ∨
      ∀ c ∈ readConnections rows, c.type.periodic1 = false ∧ c.type.periodic2 = false) :
    ∃ grids, readGrid W particles allow rows = some grids ∧ grids.length = W ∧
      ∀ r < W, ∃ g, grids[r]? = some g ∧
        g.cells = (particles r).map
          (fun p => ⟨(readConnections rows).flatMap (entriesOf own r p.uid), p.volume⟩) ∧
        g.haloes.Nodup ∧
        ∀ pid, pid ∈ g.haloes ↔ pid.rank ≠ r ∧ ∃ c ∈ readConnections rows,
          Touches W particles r c ∧ (Owns W particles c.id1 pid ∨ Owns W particles c.id2 pid) := by
  obtain ⟨maps', hm1, hm2⟩ := performLookup_spec hW hc (fun r =>
    addLookupRequests (initialMap (particles r)) r
      (filterRelevantConnections (initialMap (particles r)) r (readConnections rows)))
  have hfin : ∀ r < W, finish (maps' r) r allow (particles r)
      (filterRelevantConnections (initialMap (particles r)) r (readConnections rows))
      = some ⟨(particles r).map
          (fun p => ⟨(readConnections rows).flatMap (entriesOf own r p.uid), p.volume⟩),
          ((maps' r).map Prod.snd).filter fun id => id.rank ≠ r⟩ := by
    intro r hr
    have hk : ∀ c ∈ filterRelevantConnections (initialMap (particles r)) r (readConnections rows),
        ((maps' r).find c.id1 = some (own c.id1) ∧ Owns W particles c.id1 (own c.id1)) ∧
        ((maps' r).find c.id2 = some (own c.id2) ∧ Owns W particles c.id2 (own c.id2)) ∧
        (allow = false ∨ c.type.periodic1 = false ∧ c.type.periodic2 = false) := by
      intro c hcm
      rw [mem_relevant hc hr] at hcm
      obtain ⟨hcm, pid, hpr, hpo⟩ := hcm
      obtain ⟨⟨q1, h1⟩, ⟨q2, h2⟩⟩ := hknown c hcm ⟨pid, hpo⟩
      have o1 : Owns W particles c.id1 (own c.id1) := by rw [hown _ _ h1]; exact h1
      have o2 : Owns W particles c.id2 (own c.id2) := by rw [hown _ _ h2]; exact h2
      have find : ∀ u, Owns W particles u (own u) → (c.id1 = u ∨ c.id2 = u) →
          (maps' r).find u = some (own u) := by
        intro u ho hu
        rw [(hm2 r hr).2, known_after hc hr]
        exact ⟨ho, Or.inr ⟨c, hcm, ⟨pid, hpr, hpo⟩, hu⟩⟩
      exact ⟨⟨find _ o1 (Or.inl rfl), o1⟩, ⟨find _ o2 (Or.inr rfl), o2⟩,
        hper.imp_right (fun h => h c hcm)⟩
    have hcells := addConnections_spec hc hr own hown (maps' r) allow _ hk (fun _ => [])
    have hinit : (cellsFrom (particles r) fun _ => [] : List (Cell A N V))
        = initialCells (particles r) := rfl
    rw [hinit] at hcells
    unfold finish
    rw [hcells]
    show some _ = some _
    congr 2
    unfold cellsFrom
    apply List.map_congr_left
    intro p hp
    congr 1
    show [] ++ _ = _
    rw [List.nil_append]
    -- connections which do not touch the rank contribute nothing
    have hdrop : ∀ cs : List (Connection A N),
        (filterRelevantConnections (initialMap (particles r)) r cs).flatMap (entriesOf own r p.uid)
          = cs.flatMap (entriesOf own r p.uid) := by
      intro cs
      induction cs with
      | nil => rfl
      | cons c cs ih =>
        unfold filterRelevantConnections at ih ⊢
        by_cases hrel : ((initialMap (particles r)).isLocal r c.id1
            || (initialMap (particles r)).isLocal r c.id2) = true
        · rw [List.filter_cons_of_pos (by exact hrel), List.flatMap_cons, List.flatMap_cons, ih]
        · rw [List.filter_cons_of_neg (by exact hrel), ih, List.flatMap_cons]
          rw [Bool.or_eq_true, not_or] at hrel
          have hloc : (initialMap (particles r)).isLocal r p.uid = true :=
            (initialMap_isLocal hc hr _).2 ⟨p.id, owns_of_mem hr hp, hc.rank_eq r hr p hp⟩
          have n1 : c.id1 ≠ p.uid := fun h => hrel.1 (h ▸ hloc)
          have n2 : c.id2 ≠ p.uid := fun h => hrel.2 (h ▸ hloc)
          simp [entriesOf, n1, n2]
    exact hdrop _
  obtain ⟨grids, hg1, hg2, hg3⟩ := mapM_range_some (fun r => finish (maps' r) r allow (particles r)
      (filterRelevantConnections (initialMap (particles r)) r (readConnections rows))) W
      (fun r hr => by rw [hfin r hr]; rfl)
  refine ⟨grids, ?_, hg2, ?_⟩
  · unfold readGrid
    simp only [hm1, Option.bind_eq_bind, Option.bind_some]
    exact hg1
  · intro r hr
    refine ⟨_, (hg3 r hr).trans (hfin r hr), rfl, ?_, ?_⟩
    · exact haloes_nodup hc _ (hm2 r hr).1 (fun u pid h => (((hm2 r hr).2 u pid).1 h).1)
    · intro pid
      rw [List.mem_filter, List.mem_map]
      constructor
      · rintro ⟨⟨⟨u, q⟩, hmem, rfl⟩, hne⟩
        have hne : q.rank ≠ r := by simpa using hne
        rw [mem_iff_lookup _ (hm2 r hr).1] at hmem
        have := (known_after hc hr _ _ _).1 (((hm2 r hr).2 u q).1 hmem)
        obtain ⟨ho, h | ⟨c, hcm, ht, hcu⟩⟩ := this
        · exact absurd h hne
        · refine ⟨hne, c, hcm, ht, ?_⟩
          rcases hcu with h | h
          · exact Or.inl (h ▸ ho)
          · exact Or.inr (h ▸ ho)
      · rintro ⟨hne, c, hcm, ht, ho | ho⟩
        · refine ⟨⟨(c.id1, pid), ?_, rfl⟩, by simpa using hne⟩
          rw [mem_iff_lookup _ (hm2 r hr).1]
          exact ((hm2 r hr).2 _ _).2 ((known_after hc hr _ _ _).2
            ⟨ho, Or.inr ⟨c, hcm, ht, Or.inl rfl⟩⟩)
        · refine ⟨⟨(c.id2, pid), ?_, rfl⟩, by simpa using hne⟩
          rw [mem_iff_lookup _ (hm2 r hr).1]
          exact ((hm2 r hr).2 _ _).2 ((known_after hc hr _ _ _).2
            ⟨ho, Or.inr ⟨c, hcm, ht, Or.inr rfl⟩⟩)

/-- **C38, seen from one connection.** A connection between particle `a` on rank `ra` and particle `b`
on rank `rb`, neither of them a periodic image, gives an entry for `b` in the cell of `a` and an entry
for `a` in the cell of `b`, with equal areas and opposite normals, local exactly when both are on the
same rank. -/
theorem connection_seen_from_both_sides [Neg N] (hW : 0 < W) (hc : Consistent W particles) (allow : Bool)
    (rows : List (Row A N))
    (hknown : ∀ c ∈ readConnections rows,
      (∃ pid, Owns W particles c.id1 pid ∨ Owns W particles c.id2 pid) →
      (∃ pid, Owns W particles c.id1 pid) ∧ (∃ pid, Owns W particles c.id2 pid))
    (hper : allow = false ∨
      ∀ c ∈ readConnections rows, c.type.periodic1 = false ∧ c.type.periodic2 = false)
    (c : Connection A N) (hcm : c ∈ readConnections rows)
    (hcp : c.type.periodic1 = false ∧ c.type.periodic2 = false)
    (ra rb i j : ℕ) (hra : ra < W) (hrb : rb < W) (a b : Particle V)
    (ha : (particles ra)[i]? = some a) (hb : (particles rb)[j]? = some b)
    (h1 : c.id1 = a.uid) (h2 : c.id2 = b.uid) :
    ∃ grids ga gb cella cellb, readGrid W particles allow rows = some grids ∧
      grids[ra]? = some ga ∧ grids[rb]? = some gb ∧ ga.cells[i]? = some cella ∧
      gb.cells[j]? = some cellb ∧
      (⟨c.area, -c.normal⟩, if rb = ra then PType.loc b.id else .remote b.id rb) ∈ cella.neighbours ∧
      (⟨c.area, c.normal⟩, if ra = rb then PType.loc a.id else .remote a.id ra) ∈ cellb.neighbours ∧
      (ra ≠ rb → b.id ∈ ga.haloes ∧ a.id ∈ gb.haloes) := by
  classical
  let own : UId → PId := fun u =>
    if h : ∃ pid, Owns W particles u pid then h.choose else ⟨0, 0⟩
  have hown : ∀ u pid, Owns W particles u pid → own u = pid := by
    intro u pid h
    have hex : ∃ pid, Owns W particles u pid := ⟨pid, h⟩
    show (if h : ∃ pid, Owns W particles u pid then h.choose else ⟨0, 0⟩) = pid
    rw [dif_pos hex]
    exact owns_unique hc hex.choose_spec h
  have oa : Owns W particles c.id1 a.id := h1 ▸ owns_of_mem hra (List.mem_of_getElem? ha)
  have ob : Owns W particles c.id2 b.id := h2 ▸ owns_of_mem hrb (List.mem_of_getElem? hb)
  have rka := hc.rank_eq ra hra a (List.mem_of_getElem? ha)
  have rkb := hc.rank_eq rb hrb b (List.mem_of_getElem? hb)
  obtain ⟨grids, hg, _, hr⟩ := grid_read_correct hW hc allow rows own hown hknown hper
  obtain ⟨ga, hga, hgac, _, hgah⟩ := hr ra hra
  obtain ⟨gb, hgb, hgbc, _, hgbh⟩ := hr rb hrb
  refine ⟨grids, ga, gb, _, _, hg, hga, hgb, by rw [hgac, List.getElem?_map, ha]; rfl,
    by rw [hgbc, List.getElem?_map, hb]; rfl, ?_, ?_, ?_⟩
  · dsimp only
    rw [List.mem_flatMap]
    refine ⟨c, hcm, ?_⟩
    simp [entriesOf, h1, hcp.1, hcp.2, ← h2, hown _ _ ob, entryType, rkb]
  · dsimp only
    rw [List.mem_flatMap]
    refine ⟨c, hcm, ?_⟩
    simp [entriesOf, h2, hcp.1, hcp.2, ← h1, hown _ _ oa, entryType, rka]
  · intro hne
    refine ⟨(hgah _).2 ⟨by rw [rkb]; exact fun h => hne h.symm, c, hcm, ⟨a.id, rka, Or.inl oa⟩,
      Or.inr ob⟩, (hgbh _).2 ⟨by rw [rka]; exact hne, c, hcm, ⟨b.id, rkb, Or.inr ob⟩, Or.inl oa⟩⟩

/-! ## Panics -/

theorem foldlM_none {α β : Type} (f : β → α → Option β) (x : α) (hx : ∀ b, f b x = none) (l : List α)
    (hl : x ∈ l) : ∀ b, l.foldlM f b = none := by
  induction l with
  | nil => simp at hl
  | cons a l ih =>
    intro b
    rw [List.foldlM_cons]
    rcases List.mem_cons.1 hl with rfl | hl
    · rw [hx]
      rfl
    · cases f b a with
      | none => rfl
      | some b' => exact ih hl b'

theorem finish_none [Neg N] (m : IdMap) (r : ℕ) (allow : Bool) (ps : List (Particle V))
    (relevant : List (Connection A N)) (c : Connection A N) (hcm : c ∈ relevant)
    (h : getParticleType m r allow c.id1 c.type.periodic1 = none ∨
      getParticleType m r allow c.id2 c.type.periodic2 = none) :
    finish m r allow ps relevant = none := by
  unfold finish
  rw [foldlM_none _ c _ _ hcm]
  · rfl
  · intro b
    unfold addConnection
    rcases h with h | h
    · simp only [h, Option.bind_eq_bind, Option.bind_none]
    · rw [h]
      cases getParticleType m r allow c.id1 c.type.periodic1 <;> rfl

/-- A periodic connection of an existing particle makes reading panic when the simulation is periodic:
the wrap type is not implemented. -/
theorem periodic_connection_panics [Neg N] (hW : 0 < W) (hc : Consistent W particles)
    (rows : List (Row A N)) (c : Connection A N) (hcm : c ∈ readConnections rows) (r : ℕ) (hr : r < W)
    (ht : Touches W particles r c) (hp : c.type.periodic1 = true ∨ c.type.periodic2 = true) :
    readGrid W particles true rows = none := by
  obtain ⟨maps', hm1, hm2⟩ := performLookup_spec hW hc (fun r =>
    addLookupRequests (initialMap (particles r)) r
      (filterRelevantConnections (initialMap (particles r)) r (readConnections rows)))
  have e : ∀ u, getParticleType (maps' r) r true u true = none := by
    intro u
    unfold getParticleType
    cases (maps' r).find u with
    | none => rfl
    | some pid => by_cases h : pid.rank = r <;> simp [h]
  unfold readGrid
  simp only [hm1, Option.bind_eq_bind, Option.bind_some]
  apply mapM_range_none _ _ r hr
  refine finish_none _ _ _ _ _ c ((mem_relevant hc hr _ c).2 ⟨hcm, ht⟩) ?_
  rcases hp with h | h
  · exact Or.inl (by rw [h]; exact e _)
  · exact Or.inr (by rw [h]; exact e _)

/-- A connection from an existing particle to one which is on no rank makes reading panic. -/
theorem unknown_particle_panics [Neg N] (hW : 0 < W) (hc : Consistent W particles) (allow : Bool)
    (rows : List (Row A N)) (c : Connection A N) (hcm : c ∈ readConnections rows) (r : ℕ) (hr : r < W)
    (ht : Touches W particles r c)
    (hu : (∀ pid, ¬ Owns W particles c.id1 pid) ∨ (∀ pid, ¬ Owns W particles c.id2 pid)) :
    readGrid W particles allow rows = none := by
  obtain ⟨maps', hm1, hm2⟩ := performLookup_spec hW hc (fun r =>
    addLookupRequests (initialMap (particles r)) r
      (filterRelevantConnections (initialMap (particles r)) r (readConnections rows)))
  have e : ∀ u periodic, (∀ pid, ¬ Owns W particles u pid) →
      getParticleType (maps' r) r allow u periodic = none := by
    intro u periodic h
    have : (maps' r).find u = none := by
      cases hf : (maps' r).find u with
      | none => rfl
      | some pid => exact absurd (((hm2 r hr).2 u pid).1 hf).1 (h pid)
    unfold getParticleType
    rw [this]
    rfl
  unfold readGrid
  simp only [hm1, Option.bind_eq_bind, Option.bind_some]
  apply mapM_range_none _ _ r hr
  refine finish_none _ _ _ _ _ c ((mem_relevant hc hr _ c).2 ⟨hcm, ht⟩) ?_
  rcases hu with h | h
  · exact Or.inl (e _ _ h)
  · exact Or.inr (e _ _ h)

/-! ## The hypotheses are met -/

/-- Two ranks: particles 10 and 11 on rank 0, particle 12 on rank 1. -/
def exParticles : ℕ → List (Particle ℕ)
  | 0 => [⟨⟨0, 0⟩, 10, 1⟩, ⟨⟨1, 0⟩, 11, 2⟩]
  | 1 => [⟨⟨0, 1⟩, 12, 3⟩]
  | _ => []

/-- 10-11, 11-12, a connection with a boundary cell, and one with a periodic image of 12. -/
def exRows : List (Row ℕ ℤ) :=
  [⟨10, 11, 0#32, 5, 1⟩, ⟨12, 11, 0#32, 6, 2⟩, ⟨10, 12, 2#32, 7, 3⟩, ⟨10, 12, 4#32, 8, 4⟩]

theorem exParticles_consistent : Consistent 2 exParticles :=
  ⟨by decide, by decide, by decide⟩

example : (∀ c ∈ readConnections exRows,
      (∃ pid, Owns 2 exParticles c.id1 pid ∨ Owns 2 exParticles c.id2 pid) →
      (∃ pid, Owns 2 exParticles c.id1 pid) ∧ (∃ pid, Owns 2 exParticles c.id2 pid)) ∧
    (readConnections exRows).length = 3 := by
  have own : ∀ u ∈ [10, 11, 12], ∃ pid, Owns 2 exParticles u pid := by
    intro u hu
    simp only [List.mem_cons, List.not_mem_nil, or_false] at hu
    rcases hu with rfl | rfl | rfl
    · exact ⟨⟨0, 0⟩, ⟨⟨0, 0⟩, 10, 1⟩, by simp [allParticles, exParticles, List.range_succ], rfl, rfl⟩
    · exact ⟨⟨1, 0⟩, ⟨⟨1, 0⟩, 11, 2⟩, by simp [allParticles, exParticles, List.range_succ], rfl, rfl⟩
    · exact ⟨⟨0, 1⟩, ⟨⟨0, 1⟩, 12, 3⟩, by simp [allParticles, exParticles, List.range_succ], rfl, rfl⟩
  have e : (readConnections exRows).map (fun c => (c.id1, c.id2)) = [(10, 11), (12, 11), (10, 12)] := by
    decide
  refine ⟨?_, by decide⟩
  intro c hc _
  have hm : (c.id1, c.id2) ∈ [(10, 11), (12, 11), (10, 12)] := by
    rw [← e]
    exact List.mem_map.2 ⟨c, hc, rfl⟩
  simp only [List.mem_cons, Prod.mk.injEq, List.not_mem_nil, or_false] at hm
  rcases hm with ⟨h1, h2⟩ | ⟨h1, h2⟩ | ⟨h1, h2⟩ <;> rw [h1, h2] <;>
    exact ⟨own _ (by simp), own _ (by simp)⟩

/-- The whole reading on the example. -/
example : (readGrid 2 exParticles false exRows).map (fun gs => gs.map fun g =>
      (g.cells.map fun c => c.neighbours.map fun e => (e.1.normal, e.2), g.haloes))
    = some [([[(-1, .loc ⟨1, 0⟩), (-4, .boundary)], [(1, .loc ⟨0, 0⟩), (2, .remote ⟨0, 1⟩ 1)]],
        [⟨0, 1⟩]),
      ([[(-2, .remote ⟨1, 0⟩ 0)]], [⟨0, 0⟩, ⟨1, 0⟩])] := by
  decide +kernel

end Verif.GridFile
