import Verif.Sim.Model
import Verif.Timestep.ActiveListProps

/-! # The levels of all ranks: lemmas -/

namespace Verif.Sim

open Verif.Parallel Verif.ActiveList

theorem key_inj {u v : Sweep.Id} (h : key u = key v) : u = v := by
  cases u
  cases v
  unfold key at h
  cases h
  rfl

theorem insertAll_of_mem {l : List (Sweep.Id × ℕ)} {v : Sweep.Id} {n : ℕ} (hl : ∀ e ∈ l, e.1 = v → e.2 = n)
    (m : Sweep.Id → Option ℕ) (h : (∃ e ∈ l, e.1 = v) ∨ m v = some n) : insertAll m l v = some n := by
  unfold insertAll
  induction l generalizing m with
  | nil =>
    rcases h with ⟨e, he, -⟩ | h
    · simp at he
    · exact h
  | cons a l ih =>
    rw [List.foldl_cons]
    refine ih (fun e he => hl e (List.mem_cons_of_mem _ he)) _ ?_
    by_cases ha : a.1 = v
    · right
      rw [← ha, Function.update_self, hl a List.mem_cons_self ha]
    · rcases h with ⟨e, he, e1⟩ | h
      · rcases List.mem_cons.1 he with rfl | he
        · exact absurd e1 ha
        · exact Or.inl ⟨e, he, e1⟩
      · right
        rw [Function.update_of_ne (Ne.symm ha)]
        exact h

theorem collectItems_ok {T : Type} (rank n index : ℕ) (map : List (ActiveList.Id × T)) (items : List T)
    (h : (map.map Prod.fst).Perm ((List.range' index n).map (ActiveList.Id.mk rank))) :
    ∃ out, collectItems rank n index map items = some (out, []) := by
  induction n generalizing index map items with
  | zero =>
    have : map = [] := by
      rw [List.range'_zero, List.map_nil, List.perm_nil, List.map_eq_nil_iff] at h
      exact h
    subst this
    exact ⟨items, rfl⟩
  | succ n ih =>
    have hnd : (map.map Prod.fst).Nodup := by
      rw [h.nodup_iff]
      exact List.Nodup.map (fun a b e => by cases e; rfl) List.nodup_range'
    rcases removeKey_spec ⟨rank, index⟩ map hnd with ⟨-, hno⟩ | ⟨t, rest, h1, -, h2⟩
    · refine absurd (h.mem_iff.2 (List.mem_map.2 ⟨index, ?_, rfl⟩)) hno
      rw [List.mem_range']
      exact ⟨0, by omega, by omega⟩
    · unfold collectItems
      rw [h1]
      refine ih (index + 1) rest _ ?_
      have h3 := (h2.map Prod.fst).symm.trans h
      rw [List.range'_succ, List.map_cons, List.map_cons] at h3
      exact List.Perm.cons_inv h3

/-- A rank with `n` cells, which have the levels `lev`. -/
structure RankOk (numLevels : ℕ) (lev : Sweep.Id → ℕ) (cells : List (Sweep.Id × Cell)) (r n : ℕ) (s : Rank) : Prop where
  rank : s.cells.rank = r
  max : s.cells.maxNumLevels = numLevels
  items : s.cells.items.length = n
  levels : s.cells.levels = (List.range n).map fun i => lev ⟨r, i⟩
  get : ∀ u c, ActiveList.get s.cells (key u) = some c ↔ (u, c) ∈ cells

theorem start_ok {numLevels : ℕ} (hn : 0 < numLevels) {cells : List (Sweep.Id × Cell)} {r n : ℕ} (h0 : 0 < n)
    (hk : (cells.map Prod.fst).Perm ((List.range n).map (Sweep.Id.mk r))) (haloIds : List Sweep.Id) :
    ∃ s, start numLevels cells haloIds = some s ∧ RankOk numLevels (fun _ => numLevels - 1) cells r n s ∧
      ∀ v ∈ haloIds, s.halo v = some (numLevels - 1) := by
  obtain ⟨map, hmap⟩ : ∃ map, map = cells.map fun e => (key e.1, e.2) := ⟨_, rfl⟩
  have hkeys : (map.map Prod.fst).Perm ((List.range' 0 n).map (ActiveList.Id.mk r)) := by
    have := hk.map key
    rw [hmap, List.map_map]
    rw [List.map_map, List.map_map] at this
    rw [← List.range_eq_range']
    exact this
  have hnd : (map.map Prod.fst).Nodup := by
    rw [hkeys.nodup_iff]
    exact List.Nodup.map (fun a b e => by cases e; rfl) List.nodup_range'
  have hlen : map.length = n := by
    have := hkeys.length_eq
    rwa [List.length_map, List.length_map, List.length_range'] at this
  have hrank : ∀ e ∈ map, e.1.rank = r := by
    intro e he
    obtain ⟨i, -, hi⟩ := List.mem_map.1 (hkeys.mem_iff.1 (List.mem_map.2 ⟨e, he, rfl⟩))
    rw [← hi]
  obtain ⟨out, hout⟩ := collectItems_ok r n 0 map [] hkeys
  obtain ⟨nw, e1, e2, -⟩ := collectItems_some _ _ _ _ _ hnd _ _ hout
  rw [List.nil_append] at e1
  subst e1
  have hub : ∃ a, updateBins (⟨out, List.replicate out.length (numLevels - 1), numLevels, false, [], r⟩ : AL Cell) = some a := by
    unfold updateBins
    have := (fillBins_none (List.replicate out.length (numLevels - 1)) 0 (List.replicate numLevels [])).2 (by
      intro l hl
      rw [List.mem_replicate] at hl
      rw [List.length_replicate]
      omega)
    obtain ⟨b, hb⟩ := Option.ne_none_iff_exists'.1 this
    exact ⟨{ (⟨out, List.replicate out.length (numLevels - 1), numLevels, false, [], r⟩ : AL Cell) with bins := b, valid := true },
      by rw [hb]⟩
  obtain ⟨a, ha⟩ := hub
  have hnew : ActiveList.new map numLevels (numLevels - 1) = some a := by
    unfold ActiveList.new
    cases hm : map with
    | nil =>
      rw [hm] at hlen
      simp at hlen
      omega
    | cons e es =>
      have he : e.1.rank = r := hrank e (by rw [hm]; exact List.mem_cons_self)
      dsimp only
      rw [if_pos (by
        rw [List.all_eq_true]
        intro x hx
        rw [he, hrank x (by rw [hm]; exact hx)]
        exact beq_self_eq_true _), he, ← hm, hlen, hout]
      dsimp only
      rw [if_pos (by rfl), ha]
  obtain ⟨-, -, h1, h2, -⟩ := new_spec map hnd numLevels (numLevels - 1) a hnew
  obtain ⟨-, -, b1, b2, b3, -⟩ := inv_updateBins _ a (by simp) ha
  refine ⟨⟨a, insertAll (fun _ => none) (haloIds.map fun i => (i, numLevels - 1))⟩, ?_, ⟨b3, h1, ?_, ?_, ?_⟩, ?_⟩
  · unfold start
    rw [if_neg (by omega), ← hmap, hnew]
  · show a.items.length = n
    rw [b1, e2]
  · show a.levels = _
    rw [b2, e2]
    refine (List.eq_replicate_iff.2 ⟨by simp, ?_⟩).symm
    intro b hb
    obtain ⟨i, -, rfl⟩ := List.mem_map.1 hb
    rfl
  · intro u c
    show ActiveList.get a (key u) = some c ↔ _
    rw [h2, hmap, List.mem_map]
    constructor
    · rintro ⟨⟨v, c'⟩, hv, e⟩
      obtain ⟨e3, rfl⟩ := Prod.mk.inj e
      rw [← key_inj e3]
      exact hv
    · intro h
      exact ⟨_, h, rfl⟩
  · intro v hv
    refine insertAll_of_mem ?_ _ (Or.inl ⟨(v, numLevels - 1), List.mem_map.2 ⟨v, hv, rfl⟩, rfl⟩)
    intro e he _
    obtain ⟨i, -, rfl⟩ := List.mem_map.1 he
    rfl

/-- The loop of `update_timestep_levels`. -/
theorem setLevels_ok {a : AL Cell} (desired : Sweep.Id → ℕ) (hlen : a.levels.length = a.items.length) (m : ℕ)
    (hm : m ≤ a.items.length) :
    ∃ b, (List.range m).foldlM (fun b i => setLevel b ⟨a.rank, i⟩ (desired ⟨a.rank, i⟩)) a = some b ∧ b.rank = a.rank ∧
      b.items = a.items ∧ b.maxNumLevels = a.maxNumLevels ∧
      b.levels = ((List.range m).map fun i => desired ⟨a.rank, i⟩) ++ a.levels.drop m := by
  induction m with
  | zero => exact ⟨a, rfl, rfl, rfl, rfl, by simp⟩
  | succ m ih =>
    obtain ⟨b, h1, h2, h3, h4, h5⟩ := ih (by omega)
    have hbl : b.levels.length = a.items.length := by
      rw [h5, List.length_append, List.length_map, List.length_range, List.length_drop, hlen]
      omega
    refine ⟨{ b with valid := false, levels := b.levels.set m (desired ⟨a.rank, m⟩) }, ?_, h2, h3, h4, ?_⟩
    · rw [List.range_succ, List.foldlM_append, h1]
      have hs : setLevel b ⟨a.rank, m⟩ (desired ⟨a.rank, m⟩) =
          some { b with valid := false, levels := b.levels.set m (desired ⟨a.rank, m⟩) } := by
        unfold setLevel
        rw [if_pos h2.symm, if_pos (by show m < b.levels.length; omega)]
      rw [Option.bind_eq_bind, Option.bind_some, List.foldlM_cons, hs]
      rfl
    · show b.levels.set m _ = _
      rw [h5, List.set_append_right _ _ (by simp), List.length_map, List.length_range, Nat.sub_self]
      have hd : a.levels.drop m = a.levels[m]'(by omega) :: a.levels.drop (m + 1) := List.drop_eq_getElem_cons (by omega)
      rw [hd, List.set_cons_zero, List.range_succ, List.map_append]
      simp

theorem updateLocal_ok {numLevels : ℕ} {lev desired : Sweep.Id → ℕ} (hd : ∀ u, desired u < numLevels)
    {cells : List (Sweep.Id × Cell)} {r n : ℕ} {s : Rank} (h : RankOk numLevels lev cells r n s) :
    ∃ s', updateLocal desired s = some s' ∧ RankOk numLevels desired cells r n s' ∧ s'.halo = s.halo := by
  have hlen : s.cells.levels.length = s.cells.items.length := by
    rw [h.levels, h.items, List.length_map, List.length_range]
  obtain ⟨b, h1, h2, h3, h4, h5⟩ := setLevels_ok desired hlen s.cells.items.length le_rfl
  rw [List.drop_eq_nil_of_le hlen.le, List.append_nil, h.items, h.rank] at h5
  have hub : ∃ c, updateBins b = some c := by
    unfold updateBins
    have := (fillBins_none b.levels 0 (List.replicate b.maxNumLevels [])).2 (by
      intro l hl
      rw [h5] at hl
      obtain ⟨i, -, rfl⟩ := List.mem_map.1 hl
      rw [List.length_replicate, h4, h.max]
      exact hd _)
    obtain ⟨c, hc⟩ := Option.ne_none_iff_exists'.1 this
    exact ⟨{ b with bins := c, valid := true }, by rw [hc]⟩
  obtain ⟨c, hc⟩ := hub
  obtain ⟨-, -, b1, b2, b3, b4⟩ := inv_updateBins b c (by
    rw [h5, h3, h.items, List.length_map, List.length_range]) hc
  refine ⟨{ s with cells := c }, ?_, ⟨?_, ?_, ?_, ?_, ?_⟩, rfl⟩
  · unfold updateLocal
    rw [h1]
    dsimp only
    rw [hc]
  · exact b3.trans (h2.trans h.rank)
  · exact b4.trans (h4.trans h.max)
  · show c.items.length = n
    rw [b1, h3, h.items]
  · exact b2.trans h5
  · intro u cc
    rw [← h.get u cc]
    show ActiveList.get c (key u) = some cc ↔ _
    unfold ActiveList.get
    rw [b3, h2, b1, h3]

theorem RankOk.getLevel_own {numLevels : ℕ} {lev : Sweep.Id → ℕ} {cells : List (Sweep.Id × Cell)} {r n : ℕ} {s : Rank}
    (h : RankOk numLevels lev cells r n s) {u : Sweep.Id} {c : Cell} (hu : (u, c) ∈ cells) :
    u.rank = r ∧ s.getLevel r u = some (lev u) := by
  have h1 := (h.get u c).2 hu
  unfold ActiveList.get at h1
  split at h1
  · rename_i hr
    have hr' : u.rank = r := hr.trans h.rank
    refine ⟨hr', ?_⟩
    obtain ⟨hlt, -⟩ := List.getElem?_eq_some_iff.1 h1
    unfold Rank.getLevel ActiveList.getLevel
    rw [if_pos hr', if_pos hr, h.levels]
    rw [h.items] at hlt
    rw [List.getElem?_map, List.getElem?_range hlt]
    show some (lev ⟨r, u.idx⟩) = _
    rw [← hr']
  · simp at h1

theorem RankOk.mem_outgoing {numLevels : ℕ} {lev : Sweep.Id → ℕ} {cells : List (Sweep.Id × Cell)} {r n : ℕ} {s : Rank}
    (h : RankOk numLevels lev cells r n s) (q : ℕ) (e : Sweep.Id × ℕ) :
    e ∈ outgoing s q ↔ e.2 = lev e.1 ∧ ∃ c, (e.1, c) ∈ cells ∧ ∃ f ∈ c.neighbours, remoteRank f.2.2 = some q := by
  have henum : ∀ x : Sweep.Id × ℕ × Cell, x ∈ enumerateWithLevels s.cells ↔ x.2.1 = lev x.1 ∧ (x.1, x.2.2) ∈ cells := by
    intro x
    unfold enumerateWithLevels
    rw [List.mem_mapIdx]
    constructor
    · rintro ⟨i, hi, rfl⟩
      rw [List.length_zip] at hi
      have hl : s.cells.levels[i]'(by omega) = lev ⟨r, i⟩ := by
        simp only [h.levels, List.getElem_map, List.getElem_range]
      refine ⟨?_, ?_⟩
      · simp only [List.getElem_zip, hl, h.rank]
      · rw [← h.get]
        unfold ActiveList.get key
        simp only [if_true, List.getElem_zip]
        exact List.getElem?_eq_getElem _
    · rintro ⟨h1, h2⟩
      rw [← h.get] at h2
      unfold ActiveList.get key at h2
      dsimp only at h2
      split at h2
      · rename_i hr
        obtain ⟨hlt, hc⟩ := List.getElem?_eq_some_iff.1 h2
        refine ⟨x.1.idx, ?_, ?_⟩
        · rw [List.length_zip, h.levels, List.length_map, List.length_range, ← h.items]
          omega
        · have hl : s.cells.levels[x.1.idx]'(by rw [h.levels, List.length_map, List.length_range, ← h.items]; exact hlt) =
              lev ⟨r, x.1.idx⟩ := by
            simp only [h.levels, List.getElem_map, List.getElem_range]
          obtain ⟨⟨xr, xi⟩, xl, xc⟩ := x
          dsimp only at *
          subst hr
          rw [List.getElem_zip]
          dsimp only
          rw [hl, h1, hc, h.rank]
      · simp at h2
  unfold outgoing
  rw [List.mem_flatMap]
  constructor
  · rintro ⟨x, hx, he⟩
    obtain ⟨f, hf, rfl⟩ := List.mem_map.1 he
    rw [List.mem_filter, decide_eq_true_eq] at hf
    exact ⟨((henum x).1 hx).1, x.2.2, ((henum x).1 hx).2, f, hf⟩
  · rintro ⟨h1, c, hc, f, hf⟩
    exact ⟨(e.1, lev e.1, c), (henum _).2 ⟨rfl, hc⟩, List.mem_map.2 ⟨f, by rw [List.mem_filter, decide_eq_true_eq]; exact hf,
      by dsimp only; rw [← h1]⟩⟩

end Verif.Sim
