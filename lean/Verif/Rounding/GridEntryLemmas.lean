import Verif.Cartesian.EntryLemmas
import Verif.Rounding.GridModel

/-!
# Lemmas for C147: the identifiers and entries of the cartesian grid in `f64`

The proofs are those of `Verif/Cartesian/Lemmas.lean` and `EntryLemmas.lean`: they hold for any number of cells and any ranks.
-/

namespace Verif.Rounding.Mesh

open Verif.Cartesian Verif.Predicates Verif.Rounding

namespace ConfigF
variable (c : ConfigF)

theorem assignIds_spec : ∀ (ps : List IPos) (idx : ℤ → ℕ), ps.Nodup →
    (∀ p ∈ ps, ∃ id, (c.assignIds ps idx).lookup p = some id ∧ id.rank = c.getRank p ∧
      idx id.rank ≤ id.index) ∧
    (∀ p ∈ ps, ∀ q ∈ ps, (c.assignIds ps idx).lookup p = (c.assignIds ps idx).lookup q → p = q) ∧
    (∀ p, p ∉ ps → (c.assignIds ps idx).lookup p = none) := by
  intro ps
  induction ps with
  | nil => intro idx _; simp [assignIds]
  | cons y ps ih =>
    intro idx hn
    rw [List.nodup_cons] at hn
    obtain ⟨i1, i2, i3⟩ := ih (Function.update idx (c.getRank y) (idx (c.getRank y) + 1)) hn.2
    have hy : (c.assignIds (y :: ps) idx).lookup y = some ⟨idx (c.getRank y), c.getRank y⟩ := by
      simp [assignIds]
    have hne : ∀ p, p ≠ y → (c.assignIds (y :: ps) idx).lookup p
        = (c.assignIds ps (Function.update idx (c.getRank y) (idx (c.getRank y) + 1))).lookup p := by
      intro p hp
      have : (p == y) = false := by simpa using hp
      simp [assignIds, List.lookup_cons, this]
    have hlater : ∀ p ∈ ps, (c.assignIds (y :: ps) idx).lookup p
        ≠ some ⟨idx (c.getRank y), c.getRank y⟩ := by
      intro p hp h
      have hpy : p ≠ y := fun e => hn.1 (e ▸ hp)
      rw [hne p hpy] at h
      obtain ⟨id, h1, h2, h3⟩ := i1 p hp
      rw [h] at h1
      cases h1
      simp at h3
    refine ⟨?_, ?_, ?_⟩
    · intro p hp
      rcases List.mem_cons.1 hp with rfl | hp
      · exact ⟨_, hy, rfl, le_rfl⟩
      · have hpy : p ≠ y := fun e => hn.1 (e ▸ hp)
        obtain ⟨id, h1, h2, h3⟩ := i1 p hp
        refine ⟨id, by rw [hne p hpy]; exact h1, h2, ?_⟩
        by_cases hr : id.rank = c.getRank y
        · rw [hr] at h3 ⊢
          simp only [Function.update_self] at h3
          omega
        · rwa [Function.update_of_ne hr] at h3
    · intro p hp q hq h
      rcases List.mem_cons.1 hp with hpe | hp' <;> rcases List.mem_cons.1 hq with hqe | hq'
      · rw [hpe, hqe]
      · rw [hpe, hy] at h
        exact absurd h.symm (hlater q hq')
      · rw [hqe, hy] at h
        exact absurd h (hlater p hp')
      · have hpy : p ≠ y := fun e => hn.1 (e ▸ hp')
        have hqy : q ≠ y := fun e => hn.1 (e ▸ hq')
        rw [hne p hpy, hne q hqy] at h
        exact i2 p hp' q hq' h
    · intro p hp
      rw [List.mem_cons, not_or] at hp
      rw [hne p hp.1]
      exact i3 p hp.2

theorem lookupId_spec (p : IPos) (hp : p.contained c.numCells = true) :
    ∃ id, c.lookupId p = some id ∧ id.rank = c.getRank p := by
  obtain ⟨id, h1, h2, _⟩ := (c.assignIds_spec _ (fun _ => 0) (nodup_iterAll c.numCells)).1 p
    ((mem_iterAll _ _).2 hp)
  exact ⟨id, h1, h2⟩

theorem lookupId_inj (p q : IPos) (hp : p.contained c.numCells = true)
    (hq : q.contained c.numCells = true) (h : c.lookupId p = c.lookupId q) : p = q :=
  (c.assignIds_spec _ (fun _ => 0) (nodup_iterAll c.numCells)).2.1 p ((mem_iterAll _ _).2 hp) q
    ((mem_iterAll _ _).2 hq) h

theorem lookupId_none (p : IPos) (hp : ¬ p.contained c.numCells = true) : c.lookupId p = none :=
  (c.assignIds_spec _ (fun _ => 0) (nodup_iterAll c.numCells)).2.2 p
    (fun h => hp ((mem_iterAll _ _).1 h))

end ConfigF

theorem getNeighbour_spec (c : ConfigF) (k : Fin 6) (p : IPos) (hp : p.contained c.numCells = true)
    (r : ℤ) : ∃ id t, c.lookupId (target k p c.numCells) = some id ∧
      id.rank = c.getRank (target k p c.numCells) ∧
      c.getNeighbour (step k p) r = some t ∧
      EntryFor c.periodic r id (OnBoundary k p c.numCells) (boundaryWrap k) t := by
  have ht := target_contained k p c.numCells hp
  obtain ⟨id, h1, h2⟩ := c.lookupId_spec _ ht
  have hw := wrapped_eq_target k p c.numCells hp
  have hb := not_contained_step k p c.numCells hp
  by_cases hin : (step k p).contained c.numCells = true
  · have hs : step k p = target k p c.numCells := by
      rw [← hw, (wrapped_step k p _ hp).2.2.2 hin]
    have hnb : ¬ OnBoundary k p c.numCells := fun h => hb.2 h hin
    have e : c.getNeighbour (step k p) r
        = if r = id.rank then some (.loc id) else some (.remote id id.rank) := by
      unfold ConfigF.getNeighbour
      rw [hin]
      simp only [Bool.not_true, Bool.false_eq_true, if_false, hs, h1, h2, Option.bind_eq_bind,
        Option.bind_some, ne_eq, not_true_eq_false, Bool.not_false, if_true]
    by_cases hr : r = id.rank
    · exact ⟨id, _, h1, h2, by rw [e, if_pos hr], .loc hnb hr.symm⟩
    · exact ⟨id, _, h1, h2, by rw [e, if_neg hr], .remote hnb (fun h => hr h.symm)⟩
  · have hbd := hb.1 hin
    have hwr := wrap_step k p _ hp hbd
    have hin' : (step k p).contained c.numCells = false := by simpa using hin
    have e : c.getNeighbour (step k p) r
        = if c.periodic then
            if r = id.rank then some (.localPeriodic id (boundaryWrap k))
            else some (.remotePeriodic id id.rank (boundaryWrap k))
          else some .boundary := by
      unfold ConfigF.getNeighbour
      rw [hin']
      simp only [Bool.not_true, Bool.false_eq_true, if_false, hw, hwr, h1, h2, Option.bind_eq_bind,
        Option.bind_some, ne_eq, not_true_eq_false, Bool.not_false, if_true]
    cases hper : c.periodic with
    | false =>
      refine ⟨id, _, h1, h2, by rw [e, hper]; rfl, .boundary hbd rfl⟩
    | true =>
      by_cases hr : r = id.rank
      · exact ⟨id, _, h1, h2, by rw [e, hper, if_pos rfl, if_pos hr],
          .localPeriodic hbd rfl hr.symm⟩
      · exact ⟨id, _, h1, h2, by rw [e, hper, if_pos rfl, if_neg hr],
          .remotePeriodic hbd rfl (fun h => hr h.symm)⟩

/-- The entries of a cell. -/
theorem constructCell_spec (c : ConfigF) (p : IPos)
    (hp : p.contained c.numCells = true) : ∃ t : Fin 6 → PType,
      c.constructCell p = some
        { neighbours := (List.finRange 6).map fun k => (⟨c.faceArea, normalF (c.toPos p) (c.toPos (step k p))⟩, t k)
          size := c.cellSize
          volume := c.volume } ∧
      ∀ k, ∃ id, c.lookupId (target k p c.numCells) = some id ∧
        EntryFor c.periodic (c.getRank p) id (OnBoundary k p c.numCells) (boundaryWrap k) (t k) := by
  choose id t h1 h2 h3 h4 using fun k => getNeighbour_spec c k p hp (c.getRank p)
  refine ⟨t, ?_, fun k => ⟨id k, h1 k, h4 k⟩⟩
  unfold ConfigF.constructCell
  dsimp only
  rw [iterNeighbours_eq, List.mapM_map, mapM_some _ (fun k => (⟨c.faceArea, normalF (c.toPos p) (c.toPos (step k p))⟩, t k))]
  · rfl
  · intro k _
    simp only [Function.comp_apply, h3 k, Option.bind_eq_bind,
      Option.bind_some]

theorem constructNeighbours_spec (c : ConfigF) : ∃ cells,
    c.constructNeighbours = some cells ∧ cells.map Prod.fst = c.numCells.iterAllContained ∧
      ∀ p cell, (p, cell) ∈ cells ↔ (p.contained c.numCells = true ∧ c.constructCell p = some cell) := by
  have hsome : ∀ p, ∃ cell : CellG, p.contained c.numCells = true → c.constructCell p = some cell := by
    intro p
    by_cases hp : p.contained c.numCells = true
    · obtain ⟨t, h, _⟩ := constructCell_spec c p hp
      exact ⟨_, fun _ => h⟩
    · exact ⟨⟨[], 0, 0⟩, fun h => absurd h hp⟩
  choose g hg using hsome
  refine ⟨c.numCells.iterAllContained.map (fun p => (p, g p)), ?_, ?_, ?_⟩
  · unfold ConfigF.constructNeighbours
    apply mapM_some
    intro p hp
    rw [hg p ((mem_iterAll _ _).1 hp)]
    rfl
  · rw [List.map_map]
    exact (List.map_congr_left (fun _ _ => rfl)).trans (List.map_id _)
  · intro p cell
    simp only [List.mem_map, mem_iterAll, Prod.mk.injEq]
    constructor
    · rintro ⟨q, hq, rfl, rfl⟩
      exact ⟨hq, hg _ hq⟩
    · rintro ⟨hp, h⟩
      refine ⟨p, hp, rfl, ?_⟩
      rw [hg p hp] at h
      exact Option.some.inj h

end Verif.Rounding.Mesh
