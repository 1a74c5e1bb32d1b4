import Verif.Cartesian.Lemmas

/-!
# The entries of a cell
-/

namespace Verif.Cartesian

open Verif.Geometry (WrapType)

theorem wrapComponent_emod (v n : ℤ) (h0 : -1 ≤ v) (h1 : v ≤ n) (hn : 0 < n) :
    (wrapComponent v n).1 = v % n := by
  unfold wrapComponent
  split_ifs with a b
  · have : v = n := by omega
    simp [this]
  · have : v = -1 := by omega
    subst this
    show -1 + n = -1 % n
    have e := Int.add_emod_right (-1) n
    rw [Int.emod_eq_of_lt (by omega) (by omega)] at e
    exact e
  · exact (Int.emod_eq_of_lt (by omega) (by omega)).symm

theorem wrapped_eq_target (k : Fin 6) (p n : IPos) (hp : p.contained n = true) :
    ((step k p).wrapped n).2 = target k p n := by
  rw [contained_iff] at hp
  obtain ⟨⟨x0, x1⟩, ⟨y0, y1⟩, ⟨z0, z1⟩⟩ := hp
  have hx : -1 ≤ (step k p).x ∧ (step k p).x ≤ n.x := by fin_cases k <;> simp [step] <;> omega
  have hy : -1 ≤ (step k p).y ∧ (step k p).y ≤ n.y := by fin_cases k <;> simp [step] <;> omega
  have hz : -1 ≤ (step k p).z ∧ (step k p).z ≤ n.z := by fin_cases k <;> simp [step] <;> omega
  unfold IPos.wrapped target
  simp only [wrapComponent_emod _ _ hx.1 hx.2 (by omega), wrapComponent_emod _ _ hy.1 hy.2 (by omega),
    wrapComponent_emod _ _ hz.1 hz.2 (by omega)]

theorem not_contained_step (k : Fin 6) (p n : IPos) (hp : p.contained n = true) :
    ¬ (step k p).contained n = true ↔ OnBoundary k p n := by
  rw [contained_iff] at hp ⊢
  obtain ⟨⟨x0, x1⟩, ⟨y0, y1⟩, ⟨z0, z1⟩⟩ := hp
  fin_cases k <;> simp only [step, OnBoundary] <;> omega

theorem wrap_step (k : Fin 6) (p n : IPos) (hp : p.contained n = true) (hb : OnBoundary k p n) :
    ((step k p).wrapped n).1 = boundaryWrap k := by
  rw [contained_iff] at hp
  obtain ⟨⟨x0, x1⟩, ⟨y0, y1⟩, ⟨z0, z1⟩⟩ := hp
  have wp : ∀ v m : ℤ, m ≤ v → (wrapComponent v m).2 = .plus := by
    intro v m h
    unfold wrapComponent
    rw [if_pos h]
  have wm : ∀ v m : ℤ, v < 0 → 0 < m → (wrapComponent v m).2 = .minus := by
    intro v m h h'
    unfold wrapComponent
    rw [if_neg (by omega), if_pos h]
  have ex := wrapComponent_id _ _ x0 x1
  have ey := wrapComponent_id _ _ y0 y1
  have ez := wrapComponent_id _ _ z0 z1
  fin_cases k
  · simp only [OnBoundary] at hb
    simp only [step, IPos.wrapped, ey, ez, boundaryWrap, wm (p.x - 1) n.x (by omega) (by omega)]
  · simp only [OnBoundary] at hb
    simp only [step, IPos.wrapped, ey, ez, boundaryWrap, wp (p.x + 1) n.x (by omega)]
  · simp only [OnBoundary] at hb
    simp only [step, IPos.wrapped, ex, ez, boundaryWrap, wm (p.y - 1) n.y (by omega) (by omega)]
  · simp only [OnBoundary] at hb
    simp only [step, IPos.wrapped, ex, ez, boundaryWrap, wp (p.y + 1) n.y (by omega)]
  · simp only [OnBoundary] at hb
    simp only [step, IPos.wrapped, ex, ey, boundaryWrap, wm (p.z - 1) n.z (by omega) (by omega)]
  · simp only [OnBoundary] at hb
    simp only [step, IPos.wrapped, ex, ey, boundaryWrap, wp (p.z + 1) n.z (by omega)]

theorem target_contained (k : Fin 6) (p n : IPos) (hp : p.contained n = true) :
    (target k p n).contained n = true := by
  rw [← wrapped_eq_target k p n hp]
  exact (wrapped_step k p n hp).1

theorem target_opp (k : Fin 6) (p n : IPos) (hp : p.contained n = true) :
    target (opp k) (target k p n) n = p ∧
      (OnBoundary (opp k) (target k p n) n ↔ OnBoundary k p n) := by
  have ht := target_contained k p n hp
  obtain ⟨_, h2, h3, _⟩ := wrapped_step k p n hp
  rw [wrapped_eq_target k p n hp] at h2 h3
  constructor
  · rw [← wrapped_eq_target (opp k) _ n ht, h2]
  · rw [← not_contained_step _ _ _ ht, ← not_contained_step _ _ _ hp, h3]

theorem getNeighbour_spec (c : Config) (k : Fin 6) (p : IPos) (hp : p.contained c.numCells = true)
    (r : ℤ) : ∃ id t, c.lookupId (target k p c.numCells) = some id ∧
      id.rank = c.getRank (target k p c.numCells) ∧
      c.getNeighbour (step k p) r = some t ∧
      EntryFor c.periodic r id (OnBoundary k p c.numCells) (boundaryWrap k) t := by
  have ht := target_contained k p c.numCells hp
  obtain ⟨id, h1, h2⟩ := c.lookupId_spec _ ht
  have hw := wrapped_eq_target k p c.numCells hp
  have hb := not_contained_step k p c.numCells hp
  by_cases hin : (step k p).contained c.numCells = true
  · have hs : step k p = target k p c.numCells := by
      rw [← hw, (wrapped_step k p _ hp).2.2.2 hin]
    have hnb : ¬ OnBoundary k p c.numCells := fun h => hb.2 h hin
    have e : c.getNeighbour (step k p) r
        = if r = id.rank then some (.loc id) else some (.remote id id.rank) := by
      unfold Config.getNeighbour
      rw [hin]
      simp only [Bool.not_true, Bool.false_eq_true, if_false, hs, h1, h2, Option.bind_eq_bind,
        Option.bind_some, ne_eq, not_true_eq_false, Bool.not_false, if_true]
    by_cases hr : r = id.rank
    · exact ⟨id, _, h1, h2, by rw [e, if_pos hr], .loc hnb hr.symm⟩
    · exact ⟨id, _, h1, h2, by rw [e, if_neg hr], .remote hnb (fun h => hr h.symm)⟩
  · have hbd := hb.1 hin
    have hwr := wrap_step k p _ hp hbd
    have hin' : (step k p).contained c.numCells = false := by simpa using hin
    have e : c.getNeighbour (step k p) r
        = if c.periodic then
            if r = id.rank then some (.localPeriodic id (boundaryWrap k))
            else some (.remotePeriodic id id.rank (boundaryWrap k))
          else some .boundary := by
      unfold Config.getNeighbour
      rw [hin']
      simp only [Bool.not_true, Bool.false_eq_true, if_false, hw, hwr, h1, h2, Option.bind_eq_bind,
        Option.bind_some, ne_eq, not_true_eq_false, Bool.not_false, if_true]
    cases hper : c.periodic with
    | false =>
      refine ⟨id, _, h1, h2, by rw [e, hper]; rfl, .boundary hbd rfl⟩
    | true =>
      by_cases hr : r = id.rank
      · exact ⟨id, _, h1, h2, by rw [e, hper, if_pos rfl, if_pos hr],
          .localPeriodic hbd rfl hr.symm⟩
      · exact ⟨id, _, h1, h2, by rw [e, hper, if_pos rfl, if_neg hr],
          .remotePeriodic hbd rfl (fun h => hr h.symm)⟩

theorem mapM_some {α β : Type*} (f : α → Option β) (g : α → β) (l : List α)
    (h : ∀ a ∈ l, f a = some (g a)) : l.mapM f = some (l.map g) := by
  induction l with
  | nil => rfl
  | cons a l ih =>
    rw [List.mapM_cons, h a (by simp), ih (fun b hb => h b (by simp [hb]))]
    rfl

/-- The entries of a cell. -/
theorem constructCell_spec (c : Config) (hc : c.Valid) (p : IPos)
    (hp : p.contained c.numCells = true) : ∃ t : Fin 6 → PType,
      c.constructCell p = some
        { neighbours := (List.finRange 6).map fun k => (⟨c.cellSize ^ 2, unit k⟩, t k)
          size := c.cellSize
          volume := c.cellSize ^ 3 } ∧
      ∀ k, ∃ id, c.lookupId (target k p c.numCells) = some id ∧
        EntryFor c.periodic (c.getRank p) id (OnBoundary k p c.numCells) (boundaryWrap k) (t k) := by
  choose id t h1 h2 h3 h4 using fun k => getNeighbour_spec c k p hp (c.getRank p)
  refine ⟨t, ?_, fun k => ⟨id k, h1 k, h4 k⟩⟩
  unfold Config.constructCell
  dsimp only
  rw [iterNeighbours_eq, List.mapM_map, mapM_some _ (fun k => (⟨c.cellSize ^ 2, unit k⟩, t k))]
  · rfl
  · intro k _
    simp only [Function.comp_apply, h3 k, normal_eq c hc p hp k, Option.bind_eq_bind,
      Option.bind_some]

theorem constructNeighbours_spec (c : Config) (hc : c.Valid) : ∃ cells,
    c.constructNeighbours = some cells ∧ cells.map Prod.fst = c.numCells.iterAllContained ∧
      ∀ p cell, (p, cell) ∈ cells ↔ (p.contained c.numCells = true ∧ c.constructCell p = some cell) := by
  have hsome : ∀ p, ∃ cell : Cell, p.contained c.numCells = true → c.constructCell p = some cell := by
    intro p
    by_cases hp : p.contained c.numCells = true
    · obtain ⟨t, h, _⟩ := constructCell_spec c hc p hp
      exact ⟨_, fun _ => h⟩
    · exact ⟨⟨[], 0, 0⟩, fun h => absurd h hp⟩
  choose g hg using hsome
  refine ⟨c.numCells.iterAllContained.map (fun p => (p, g p)), ?_, ?_, ?_⟩
  · unfold Config.constructNeighbours
    apply mapM_some
    intro p hp
    rw [hg p ((mem_iterAll _ _).1 hp)]
    rfl
  · rw [List.map_map]
    exact (List.map_congr_left (fun _ _ => rfl)).trans (List.map_id _)
  · intro p cell
    simp only [List.mem_map, mem_iterAll, Prod.mk.injEq]
    constructor
    · rintro ⟨q, hq, rfl, rfl⟩
      exact ⟨hq, hg _ hq⟩
    · rintro ⟨hp, h⟩
      refine ⟨p, hp, rfl, ?_⟩
      rw [hg p hp] at h
      exact Option.some.inj h

end Verif.Cartesian
