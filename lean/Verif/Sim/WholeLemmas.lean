import Verif.Sim.WholeModel
import Verif.Sim.WellFormed
import Verif.Sweep.OverlapProps
import Verif.Timestep.Props

/-! # A whole simulation: lemmas -/

namespace Verif.Sim

open Verif.Parallel Verif.ActiveList

/-! ### Counting cells -/

/-- The bins of the active list are up to date. -/
def Binned (s : Rank) : Prop := ActiveList.Inv s.cells ∧ s.cells.valid = true

theorem count_pos {s : Rank} (h : Binned s) {l : ℕ} (hl : l ≤ s.cells.maxNumLevels) :
    ∃ n, (enumerateActive s.cells l).map List.length = some n ∧ (0 < n ↔ ∃ x ∈ s.cells.levels, l ≤ x) := by
  obtain ⟨hi, hv⟩ := h
  have hbl := hi.binsLen hv
  have hmem := mem_active_indices s.cells hi hv l
  obtain ⟨ys, hys⟩ := mapM_some_of_forall (entry s.cells) (((s.cells.bins.take s.cells.maxNumLevels).drop l).flatten) (by
    intro j hj
    obtain ⟨x, -, hx⟩ := (hmem j).1 hj
    obtain ⟨hlt, -⟩ := List.getElem?_eq_some_iff.1 hx
    rw [hi.len] at hlt
    unfold entry
    rw [List.getElem?_eq_getElem hlt]
    exact ⟨_, rfl⟩)
  refine ⟨ys.length, ?_, ?_⟩
  · unfold enumerateActive
    rw [if_pos hv, if_pos ⟨hl, hbl.ge⟩, hys]
    rfl
  · have hlen := (mapM_forall2 _ _ _ hys).length_eq
    rw [← hlen, List.length_pos_iff_exists_mem]
    constructor
    · rintro ⟨j, hj⟩
      obtain ⟨x, hx, hj⟩ := (hmem j).1 hj
      exact ⟨x, List.mem_of_getElem? hj, hx⟩
    · rintro ⟨x, hx, hlx⟩
      obtain ⟨j, hj⟩ := List.mem_iff_getElem?.1 hx
      exact ⟨j, (hmem j).2 ⟨x, hlx, hj⟩⟩

theorem sum_pos_iff (l : List ℕ) : 0 < l.sum ↔ ∃ x ∈ l, 0 < x := by
  induction l with
  | nil => simp
  | cons a l ih =>
    rw [List.sum_cons, List.exists_mem_cons_iff, ← ih]
    omega

theorem countCells_pos {S : List Rank} (h : ∀ s ∈ S, Binned s) {l : ℕ} (hl : ∀ s ∈ S, l ≤ s.cells.maxNumLevels) :
    ∃ n, countCells S l = some n ∧ (0 < n ↔ ∃ x ∈ S.flatMap (fun s => s.cells.levels), l ≤ x) := by
  obtain ⟨ns, hns⟩ := mapM_some_of_forall (fun s : Rank => (enumerateActive s.cells l).map List.length) S (by
    intro s hs
    obtain ⟨n, hn, -⟩ := count_pos (h s hs) (hl s hs)
    exact ⟨n, hn⟩)
  refine ⟨ns.sum, by unfold countCells; rw [hns]; rfl, ?_⟩
  have h2 := mapM_forall2 _ _ _ hns
  rw [sum_pos_iff]
  constructor
  · rintro ⟨n, hn, hpos⟩
    obtain ⟨i, hi⟩ := List.mem_iff_getElem?.1 hn
    obtain ⟨s, hs, hsn⟩ := (mapM_getElem? hns i).2 n hi
    have hs := List.mem_of_getElem? hs
    obtain ⟨n', hn', hiff⟩ := count_pos (h s hs) (hl s hs)
    rw [hn'] at hsn
    obtain rfl := Option.some.inj hsn
    obtain ⟨x, hx, hlx⟩ := hiff.1 hpos
    exact ⟨x, List.mem_flatMap.2 ⟨s, hs, hx⟩, hlx⟩
  · rintro ⟨x, hx, hlx⟩
    obtain ⟨s, hs, hx⟩ := List.mem_flatMap.1 hx
    obtain ⟨n, hn, hiff⟩ := count_pos (h s hs) (hl s hs)
    obtain ⟨i, hi⟩ := List.mem_iff_getElem?.1 hs
    obtain ⟨hlt, e⟩ := List.getElem?_eq_some_iff.1 hi
    have hlt' : i < ns.length := by rw [← h2.length_eq]; exact hlt
    have := (List.forall₂_iff_get.1 h2).2 i hlt hlt'
    rw [List.get_eq_getElem, List.get_eq_getElem, e, hn] at this
    exact ⟨n, List.mem_iff_getElem.2 ⟨i, hlt', (Option.some.inj this).symm⟩, hiff.2 ⟨x, hx, hlx⟩⟩

/-- The counts do what `executedLevels` says. -/
theorem sweptLevels_eq {ts : Timestep.State} (hts : ts.Ok) {S : List Rank} (h : ∀ s ∈ S, Binned s)
    (hmax : ∀ s ∈ S, s.cells.maxNumLevels = ts.maxNumLevels) :
    sweptLevels ts S = Timestep.executedLevels ts (S.flatMap fun s => s.cells.levels) := by
  obtain ⟨ls, h1, -, h3⟩ := Timestep.iterLevels_spec ts hts
  obtain ⟨counts, hc⟩ := mapM_some_of_forall (countCells S) (List.range ts.maxNumLevels) (by
    intro l hl
    obtain ⟨n, hn, -⟩ := countCells_pos h (l := l) (fun s hs => by rw [hmax s hs]; exact (List.mem_range.1 hl).le)
    exact ⟨n, hn⟩)
  have hget : ∀ l < ts.maxNumLevels, ∃ n, counts[l]? = some n ∧
      (0 < n ↔ ∃ x ∈ S.flatMap (fun s => s.cells.levels), l ≤ x) := by
    intro l hl
    have hlt : l < counts.length := by rw [(mapM_getElem? hc 0).1, List.length_range]; exact hl
    obtain ⟨a, ha, hb⟩ := (mapM_getElem? hc l).2 _ (List.getElem?_eq_getElem hlt)
    obtain ⟨hlt', e⟩ := List.getElem?_eq_some_iff.1 ha
    rw [List.getElem_range] at e
    subst e
    obtain ⟨n, hn, hiff⟩ := countCells_pos h (l := l) (fun s hs => by rw [hmax s hs]; exact hl.le)
    rw [hb] at hn
    exact ⟨_, List.getElem?_eq_getElem hlt, by rw [Option.some.inj hn]; exact hiff⟩
  have hlt : ∀ l ∈ ls, l < ts.maxNumLevels := by
    intro l hl
    obtain ⟨i, hi⟩ := List.mem_iff_getElem?.1 hl
    exact (h3 i l hi).2.1
  unfold sweptLevels Timestep.executedLevels
  rw [hc, h1]
  dsimp only [Option.map_some]
  clear h1 h3
  induction ls with
  | nil => rfl
  | cons l ls ih =>
    obtain ⟨n, hn, hiff⟩ := hget l (hlt l List.mem_cons_self)
    have ih := ih fun x hx => hlt x (List.mem_cons_of_mem _ hx)
    obtain ⟨r, hr, hre⟩ := Option.map_eq_some_iff.1 ih
    rw [List.mapM_cons, hn, Option.map_some, Option.bind_eq_bind, Option.bind_some, hr]
    show some (List.map Prod.fst (List.filter _ ((l, n) :: r))) = _
    rw [List.filter_cons, List.filter_cons, ← hre]
    have hpos : 0 < n ↔ 0 < ((S.flatMap fun s => s.cells.levels).filter fun x => Timestep.isActive x l).length := by
      rw [hiff, List.length_pos_iff_exists_mem]
      constructor
      · rintro ⟨x, hx, hl⟩
        exact ⟨x, List.mem_filter.2 ⟨hx, decide_eq_true hl⟩⟩
      · rintro ⟨x, hx⟩
        exact ⟨x, (List.mem_filter.1 hx).1, of_decide_eq_true (List.mem_filter.1 hx).2⟩
    by_cases h0 : 0 < n
    · rw [if_pos (decide_eq_true h0), if_pos (decide_eq_true (hpos.1 h0)), List.map_cons]
    · rw [if_neg (by simpa using h0), if_neg (by
        rw [decide_eq_true_eq]
        exact fun h => h0 (hpos.2 h))]

/-! ### The lists of active cells stay up to date -/

theorem updateBins_keeps {T : Type} {a b : AL T} (h : updateBins a = some b) : b.levels = a.levels ∧ b.items = a.items := by
  unfold updateBins at h
  split at h
  · simp at h
  · obtain rfl := Option.some.inj h
    exact ⟨rfl, rfl⟩

theorem start_binned {numLevels : ℕ} {cells : List (Sweep.Id × Cell)} (hnd : (cells.map Prod.fst).Nodup)
    {haloIds : List Sweep.Id} {s : Rank} (h : start numLevels cells haloIds = some s) : Binned s := by
  unfold start at h
  split at h
  · simp at h
  · split at h
    · simp at h
    · rename_i a ha
      obtain rfl := Option.some.inj h
      have := new_spec _ (by
        rw [List.map_map]
        have : (Prod.fst ∘ fun e : Sweep.Id × Cell => (key e.1, e.2)) = fun e => key e.1 := rfl
        rw [this]
        have h2 := hnd.map (f := key) (fun _ _ => key_inj)
        rw [List.map_map] at h2
        exact h2) _ _ _ ha
      exact ⟨this.1, this.2.1⟩

theorem startAll_binned {numLevels N : ℕ} {num : ℕ → ℕ} {G : ℕ → List (Name Sweep.Id × Cell)} (F : Facts N num G)
    {S : List Rank} (h : startAll numLevels N G = some S) : ∀ s ∈ S, Binned s := by
  intro s hs
  obtain ⟨i, hi⟩ := List.mem_iff_getElem?.1 hs
  obtain ⟨r, hr, hb⟩ := (mapM_getElem? h i).2 s hi
  have hr := List.mem_range.1 (List.mem_of_getElem? hr)
  refine start_binned ?_ hb
  refine (F.keys r hr).nodup_iff.2 (List.nodup_range.map ?_)
  intro a b e
  exact (Sweep.Id.mk.inj e).2

theorem updateTimestepLevels_binned {desired : Sweep.Id → ℕ} {S S' : List Rank}
    (h : updateTimestepLevels desired S = some S') (hlen : ∀ s ∈ S', s.cells.levels.length = s.cells.items.length) :
    ∀ s ∈ S', Binned s := by
  unfold updateTimestepLevels at h
  split at h
  · simp at h
  · rename_i S1 hS1
    unfold communicateLevels at h
    split at h
    · obtain rfl := Option.some.inj h
      intro s hs
      obtain ⟨i, hi⟩ := List.mem_iff_getElem?.1 hs
      rw [List.getElem?_mapIdx] at hi
      obtain ⟨s1, hs1, rfl⟩ := Option.map_eq_some_iff.1 hi
      obtain ⟨s0, hs0, hu⟩ := (mapM_getElem? hS1 i).2 s1 hs1
      have hl := hlen _ hs
      dsimp only at hl
      unfold updateLocal at hu
      split at hu
      · simp at hu
      · rename_i a ha
        split at hu
        · simp at hu
        · rename_i b hb
          obtain rfl := Option.some.inj hu
          obtain ⟨k1, k2⟩ := updateBins_keeps hb
          dsimp only at hl
          have := inv_updateBins a b (by rw [← k1, ← k2]; exact hl) hb
          exact ⟨this.1, this.2.1⟩
    · simp at h

/-- The update only asks for the levels of cells. -/
theorem updateTimestepLevels_congr {f g : Sweep.Id → ℕ} {S : List Rank}
    (h : ∀ s ∈ S, ∀ i < s.cells.items.length, f ⟨s.cells.rank, i⟩ = g ⟨s.cells.rank, i⟩) :
    updateTimestepLevels f S = updateTimestepLevels g S := by
  have h1 : ∀ s ∈ S, updateLocal f s = updateLocal g s := by
    intro s hs
    unfold updateLocal
    have : ∀ (l : List ℕ), (∀ i ∈ l, i < s.cells.items.length) → ∀ a : AL Cell,
        l.foldlM (fun a i => setLevel a ⟨s.cells.rank, i⟩ (f ⟨s.cells.rank, i⟩)) a =
        l.foldlM (fun a i => setLevel a ⟨s.cells.rank, i⟩ (g ⟨s.cells.rank, i⟩)) a := by
      intro l
      induction l with
      | nil => intro _ a; rfl
      | cons i l ih =>
        intro hl a
        rw [List.foldlM_cons, List.foldlM_cons, h s hs i (hl i List.mem_cons_self)]
        congr 1
        funext b
        exact ih (fun j hj => hl j (List.mem_cons_of_mem _ hj)) b
    rw [this _ (fun i hi => List.mem_range.1 hi)]
  have h2 : S.mapM (updateLocal f) = S.mapM (updateLocal g) := by
    clear h
    induction S with
    | nil => rfl
    | cons s S ih =>
      rw [List.mapM_cons, List.mapM_cons, h1 s List.mem_cons_self, ih fun t ht => h1 t (List.mem_cons_of_mem _ ht)]
  unfold updateTimestepLevels
  rw [h2]

/-! ### The chosen levels -/

theorem desiredLevel_ok {ts : Timestep.State} (hts : ts.Ok) (t : WithTop ℝ) :
    ∃ l, desiredLevel ts t = some l ∧ ts.currentLowestAllowed ≤ l ∧ l < ts.maxNumLevels := by
  have h1 := hts.lt
  cases t with
  | top => exact ⟨ts.currentLowestAllowed, if_neg (by omega), le_rfl, h1⟩
  | coe t =>
    show ∃ l, ts.getDesiredLevel t = some l ∧ _
    unfold Timestep.State.getDesiredLevel Timestep.fromMaxTimestepAndDesired
    rw [if_neg (by omega)]
    have : ∀ x : ℕ, x ≤ ts.maxNumLevels - 1 → ∃ l, Option.map (fun level =>
        if level < ts.currentLowestAllowed then ts.currentLowestAllowed else level) (some x) = some l ∧
        ts.currentLowestAllowed ≤ l ∧ l < ts.maxNumLevels := by
      intro x hx
      refine ⟨_, rfl, ?_⟩
      dsimp only
      split <;> omega
    split
    · exact this _ le_rfl
    · exact this _ (by omega)

theorem advance_ok {ts : Timestep.State} (h : ts.Ok) : ts.advanceAllowedLevels.Ok ∧
    ts.advanceAllowedLevels.maxNumLevels = ts.maxNumLevels ∧ ts.advanceAllowedLevels.maxTimestep = ts.maxTimestep := by
  have h1 := h.lt
  have h2 := h.small
  unfold Timestep.State.advanceAllowedLevels
  dsimp only
  split <;> split <;> refine ⟨⟨?_, ?_⟩, ?_, ?_⟩ <;> first | rfl | assumption | omega | (dsimp only; omega)

end Verif.Sim
