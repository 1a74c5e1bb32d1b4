import Verif.GridFile.Lemmas

/-!
# Grids read from a file: the cells
-/

namespace Verif.GridFile

variable {A N V : Type}

theorem getParticleType_spec (m : IdMap) (r : ℕ) (allow : Bool) (u : UId) (periodic : Bool) (pid : PId)
    (h : m.find u = some pid) (hp : allow = false ∨ periodic = false) :
    getParticleType m r allow u periodic = some (entryType r pid periodic) := by
  unfold getParticleType entryType
  rw [h]
  show (match decide (pid.rank = r), periodic with
    | true, false => some (PType.loc pid)
    | true, true => if allow then none else some .boundary
    | false, false => some (.remote pid pid.rank)
    | false, true => if allow then none else some .boundary) = _
  cases periodic with
  | false => by_cases hr : pid.rank = r <;> simp [hr]
  | true =>
    have ha : allow = false := by simpa using hp
    by_cases hr : pid.rank = r <;> simp [hr, ha]

theorem entryType_isLocal (r : ℕ) (pid : PId) (periodic : Bool) :
    (entryType r pid periodic).isLocal = true ↔ pid.rank = r ∧ periodic = false := by
  unfold entryType
  cases periodic <;> by_cases h : pid.rank = r <;> simp [h, PType.isLocal]

theorem index_lookup (ps : List (Particle V)) (hn : (ps.map (fun p => p.uid)).Nodup) (u : UId) (i : ℕ) :
    (uniqueParticleIdToIndex ps).lookup u = some i ↔ ∃ p, ps[i]? = some p ∧ p.uid = u := by
  unfold uniqueParticleIdToIndex
  rw [lookup_hmExtend_nil]
  · rw [List.mem_map]
    constructor
    · rintro ⟨⟨p, j⟩, hm, he⟩
      rw [Prod.mk.injEq] at he
      obtain ⟨rfl, rfl⟩ := he
      exact ⟨p, List.mk_mem_zipIdx_iff_getElem?.1 hm, rfl⟩
    · rintro ⟨p, h, rfl⟩
      exact ⟨(p, i), List.mk_mem_zipIdx_iff_getElem?.2 h, rfl⟩
  · unfold Keys
    rw [List.map_map]
    have : (Prod.fst ∘ fun p : Particle V × ℕ => (p.1.uid, p.2)) = (fun p => p.uid) ∘ Prod.fst := rfl
    rw [this, ← List.map_map, List.zipIdx_map_fst]
    exact hn

/-- Cells whose entries are given by a function of the unique id. -/
def cellsFrom (ps : List (Particle V)) (f : UId → List (Face A N × PType)) : List (Cell A N V) :=
  ps.map fun p => ⟨f p.uid, p.volume⟩

theorem addNeighbour_spec (ps : List (Particle V)) (hn : (ps.map (fun p => p.uid)).Nodup)
    (f : UId → List (Face A N × PType)) (u : UId) (hu : ∃ p ∈ ps, p.uid = u) (face : Face A N)
    (t : PType) :
    addNeighbour (uniqueParticleIdToIndex ps) (cellsFrom ps f) u face t
      = some (cellsFrom ps fun x => f x ++ if u = x then [(face, t)] else []) := by
  obtain ⟨p, hp, rfl⟩ := hu
  obtain ⟨i, hi, rfl⟩ := List.getElem_of_mem hp
  have hl : (uniqueParticleIdToIndex ps).lookup ps[i].uid = some i :=
    (index_lookup ps hn _ i).2 ⟨ps[i], List.getElem?_eq_getElem hi, rfl⟩
  have hcell : (cellsFrom ps f : List (Cell A N V))[i]? = some ⟨f ps[i].uid, ps[i].volume⟩ := by
    unfold cellsFrom
    rw [List.getElem?_map, List.getElem?_eq_getElem hi]
    rfl
  have e : addNeighbour (uniqueParticleIdToIndex ps) (cellsFrom ps f) ps[i].uid face t
      = some ((cellsFrom ps f : List (Cell A N V)).set i
        ⟨f ps[i].uid ++ [(face, t)], ps[i].volume⟩) := by
    unfold addNeighbour
    rw [hl]
    show ((cellsFrom ps f : List (Cell A N V))[i]?.bind fun cell => _) = _
    rw [hcell]
    rfl
  rw [e]
  congr 1
  apply List.ext_getElem?
  intro j
  unfold cellsFrom
  rw [List.getElem?_set]
  by_cases hij : i = j
  · subst hij
    rw [if_pos rfl, if_pos (by simpa using hi), List.getElem?_map, List.getElem?_eq_getElem hi]
    simp
  · rw [if_neg hij, List.getElem?_map, List.getElem?_map]
    by_cases hj : j < ps.length
    · rw [List.getElem?_eq_getElem hj]
      have hne : ps[i].uid ≠ ps[j].uid := by
        intro h
        apply hij
        have := (List.nodup_iff_injective_get.1 hn)
          (a₁ := ⟨i, by simpa using hi⟩) (a₂ := ⟨j, by simpa using hj⟩) (by simpa using h)
        simpa using this
      simp [hne]
    · rw [List.getElem?_eq_none (by omega)]
      rfl

theorem cellsFrom_congr (ps : List (Particle V)) (f g : UId → List (Face A N × PType))
    (h : ∀ p ∈ ps, f p.uid = g p.uid) : (cellsFrom ps f : List (Cell A N V)) = cellsFrom ps g := by
  unfold cellsFrom
  exact List.map_congr_left fun p hp => by rw [h p hp]

variable {W : ℕ} {particles : ℕ → List (Particle V)}

theorem addConnection_spec [Neg N] (hc : Consistent W particles) {r : ℕ} (hr : r < W)
    (own : UId → PId) (hown : ∀ u pid, Owns W particles u pid → own u = pid) (m : IdMap) (allow : Bool)
    (c : Connection A N)
    (h1 : m.find c.id1 = some (own c.id1)) (o1 : Owns W particles c.id1 (own c.id1))
    (h2 : m.find c.id2 = some (own c.id2)) (o2 : Owns W particles c.id2 (own c.id2))
    (hper : allow = false ∨ c.type.periodic1 = false ∧ c.type.periodic2 = false)
    (f : UId → List (Face A N × PType)) :
    addConnection m r allow (uniqueParticleIdToIndex (particles r)) (cellsFrom (particles r) f) c
      = some (cellsFrom (particles r) fun x => f x ++ entriesOf own r x c) := by
  have hn := local_nodup hc hr
  have p1 := getParticleType_spec m r allow c.id1 c.type.periodic1 _ h1 (hper.imp_right And.left)
  have p2 := getParticleType_spec m r allow c.id2 c.type.periodic2 _ h2 (hper.imp_right And.right)
  have isIn : ∀ u, Owns W particles u (own u) → ((own u).rank = r ↔ ∃ p ∈ particles r, p.uid = u) := by
    intro u ho
    constructor
    · intro hur
      obtain ⟨_, x, hx, hxu, _⟩ := owns_rank hc ho
      rw [hur] at hx
      exact ⟨x, hx, hxu⟩
    · rintro ⟨p, hp, rfl⟩
      rw [hown _ _ (owns_of_mem hr hp)]
      exact hc.rank_eq r hr p hp
  -- one of the two conditional additions
  have add : ∀ (g : UId → List (Face A N × PType)) (u : UId) (periodic : Bool) (face : Face A N)
      (t : PType), Owns W particles u (own u) →
      (if (entryType r (own u) periodic).isLocal then
          addNeighbour (uniqueParticleIdToIndex (particles r)) (cellsFrom (particles r) g) u face t
        else some (cellsFrom (particles r) g))
      = some (cellsFrom (particles r) fun x => g x ++
          if u = x ∧ periodic = false then [(face, t)] else []) := by
    intro g u periodic face t ho
    by_cases hl : (entryType r (own u) periodic).isLocal = true
    · rw [if_pos hl]
      rw [entryType_isLocal] at hl
      rw [addNeighbour_spec _ hn g u ((isIn u ho).1 hl.1)]
      simp only [hl.2, and_true]
    · rw [if_neg hl]
      congr 1
      apply cellsFrom_congr
      intro p hp
      rw [if_neg, List.append_nil]
      rintro ⟨rfl, hp2⟩
      exact hl ((entryType_isLocal _ _ _).2 ⟨(isIn _ ho).2 ⟨p, hp, rfl⟩, hp2⟩)
  have e : addConnection m r allow (uniqueParticleIdToIndex (particles r))
        (cellsFrom (particles r) f) c
      = (if (entryType r (own c.id1) c.type.periodic1).isLocal then
          addNeighbour (uniqueParticleIdToIndex (particles r)) (cellsFrom (particles r) f) c.id1
            ⟨c.area, -c.normal⟩ (entryType r (own c.id2) c.type.periodic2)
        else some (cellsFrom (particles r) f)).bind (fun cells =>
          if (entryType r (own c.id2) c.type.periodic2).isLocal then
            addNeighbour (uniqueParticleIdToIndex (particles r)) cells c.id2 ⟨c.area, c.normal⟩
              (entryType r (own c.id1) c.type.periodic1)
          else some cells) := by
    unfold addConnection
    simp only [p1, p2, Option.bind_eq_bind, Option.bind_some]
    by_cases hb : (entryType r (own c.id1) c.type.periodic1).isLocal = true
    · simp only [if_pos hb]
    · simp only [if_neg hb, Option.bind_some]
  rw [e, add f c.id1 c.type.periodic1 _ _ o1, Option.bind_some, add _ c.id2 c.type.periodic2 _ _ o2]
  simp only [entriesOf, List.append_assoc]

theorem addConnections_spec [Neg N] (hc : Consistent W particles) {r : ℕ} (hr : r < W)
    (own : UId → PId) (hown : ∀ u pid, Owns W particles u pid → own u = pid) (m : IdMap) (allow : Bool)
    (cs : List (Connection A N))
    (hk : ∀ c ∈ cs, (m.find c.id1 = some (own c.id1) ∧ Owns W particles c.id1 (own c.id1)) ∧
      (m.find c.id2 = some (own c.id2) ∧ Owns W particles c.id2 (own c.id2)) ∧
      (allow = false ∨ c.type.periodic1 = false ∧ c.type.periodic2 = false)) :
    ∀ f : UId → List (Face A N × PType),
    cs.foldlM (addConnection m r allow (uniqueParticleIdToIndex (particles r)))
      (cellsFrom (particles r) f)
      = some (cellsFrom (particles r) fun x => f x ++ cs.flatMap (entriesOf own r x)) := by
  induction cs with
  | nil =>
    intro f
    simp
  | cons c cs ih =>
    intro f
    obtain ⟨⟨h1, o1⟩, ⟨h2, o2⟩, h3⟩ := hk c (by simp)
    rw [List.foldlM_cons, addConnection_spec hc hr own hown m allow c h1 o1 h2 o2 h3 f]
    show cs.foldlM _ _ = _
    rw [ih (fun c' hc' => hk c' (by simp [hc']))]
    simp only [List.flatMap_cons, List.append_assoc]

end Verif.GridFile
