import Verif.Comm.DataByRankModel
import Mathlib.Data.List.Sort
import Mathlib.Order.Basic

/-!
# C09: `DataByRank` is a finite map from ranks to values
-/

namespace Verif.DataByRank

variable {T : Type}

/-- Specification: a map from ranks to values. -/
abbrev RankMap (T : Type) := Nat → Option T

/-- Specification of the operations on maps. -/
def specStep (m : RankMap T) : Op T → RankMap T
  | .insert r t => fun q => if q = r then some t else m q
  | .remove r => fun q => if q = r then none else m q
  | .drainAll => fun _ => none

/-- The map represented by a container. -/
def toMap (d : Data T) : RankMap T := fun r => d[r]?.join

theorem toMap_set (d : Data T) (r : Nat) (v : Option T) (h : r < d.length) (q : Nat) :
    toMap (d.set r v) q = if q = r then v else toMap d q := by
  unfold toMap
  rw [List.getElem?_set]
  by_cases hq : r = q
  · subst hq; simp [h]
  · simp [hq, Ne.symm hq]

theorem toMap_insert (d : Data T) (r : Nat) (t : T) (q : Nat) :
    toMap (insert d r t) q = if q = r then some t else toMap d q := by
  unfold insert
  by_cases h : r ≥ d.length
  · simp only [h, if_true]
    rw [toMap_set _ _ _ (by simp; omega)]
    congr 1
    unfold toMap
    by_cases hq : q < d.length
    · rw [List.getElem?_append_left hq]
    · rw [List.getElem?_append_right (by omega), List.getElem?_eq_none (l := d) (by omega),
        List.getElem?_replicate]
      split <;> simp
  · simp only [h, if_false]
    rw [toMap_set _ _ _ (by omega)]

theorem step_refines (d d' : Data T) (op : Op T) (h : step d op = some d') :
    toMap d' = specStep (toMap d) op := by
  cases op with
  | insert r t =>
    simp only [step, Option.some.injEq] at h
    subst h
    funext q; exact toMap_insert d r t q
  | remove r =>
    simp only [step, remove] at h
    cases hr : d[r]? with
    | none => rw [hr] at h; simp at h
    | some v =>
      rw [hr] at h
      simp only [Option.map_some, Option.some.injEq] at h
      subst h
      funext q
      exact toMap_set d r none (List.getElem?_eq_some_iff.mp hr).1 q
  | drainAll =>
    simp only [step, drainAll, Option.some.injEq] at h
    subst h
    funext q; simp [toMap, specStep]

/-- **C09 (refinement).** Any sequence of insertions, removals and drains which does not panic
acts on the represented map as the corresponding sequence of map operations. -/
theorem run_refines (d d' : Data T) (ops : List (Op T)) (h : run d ops = some d') :
    toMap d' = ops.foldl specStep (toMap d) := by
  induction ops generalizing d with
  | nil => simp only [run, List.foldlM_nil] at h; simp at h; simp [h]
  | cons op ops ih =>
    simp only [run, List.foldlM_cons] at h
    cases hs : step d op with
    | none => rw [hs] at h; simp at h
    | some u =>
      rw [hs] at h
      rw [List.foldl_cons, ← step_refines d u op hs]
      exact ih u h

/-- **C09 (lookup).** Looking up a rank panics iff the rank is outside the container and otherwise
returns the value of the represented map; looking up a rank present in the map never panics. -/
theorem get_eq (d : Data T) (r : Nat) :
    (get d r = none ↔ d.length ≤ r) ∧ (∀ v, get d r = some v → v = toMap d r) ∧
      (∀ t, toMap d r = some t → get d r = some (some t)) := by
  unfold get toMap
  refine ⟨by simp, ?_, ?_⟩
  · intro v hv; rw [hv]; rfl
  · intro t ht
    cases h : d[r]? with
    | none => rw [h] at ht; simp at ht
    | some v => rw [h] at ht; simp at ht; rw [ht]

/-- **C09 (removed value).** `remove` returns the value present before. -/
theorem remove_returns (d d' : Data T) (r : Nat) (v : Option T) (h : remove d r = some (d', v)) :
    v = toMap d r ∧ toMap d' r = none := by
  unfold remove at h
  cases hr : d[r]? with
  | none => rw [hr] at h; simp at h
  | some w =>
    rw [hr] at h
    simp only [Option.some.injEq, Prod.mk.injEq] at h
    obtain ⟨rfl, rfl⟩ := h
    refine ⟨by simp [toMap, hr], ?_⟩
    rw [toMap_set d r none (List.getElem?_eq_some_iff.mp hr).1]; simp

theorem iterFrom_spec (d : Data T) (i : Nat) :
    (∀ r t, (r, t) ∈ iterFrom i d ↔ i ≤ r ∧ toMap d (r - i) = some t) ∧
      ((iterFrom i d).map Prod.fst).Pairwise (· < ·) := by
  induction d generalizing i with
  | nil => simp [iterFrom, toMap]
  | cons x d ih =>
    obtain ⟨h1, h2⟩ := ih (i + 1)
    have hsucc : ∀ r, i + 1 ≤ r → toMap (x :: d) (r - i) = toMap d (r - (i + 1)) := by
      intro r hr
      unfold toMap
      have : r - i = (r - (i + 1)) + 1 := by omega
      rw [this, List.getElem?_cons_succ]
    have hmin : ∀ p ∈ iterFrom (i + 1) d, i < p.1 := by
      rintro ⟨r, t⟩ hp
      have := (h1 r t).mp hp
      simp; omega
    cases x with
    | none =>
      refine ⟨?_, h2⟩
      intro r t
      rw [iterFrom, h1]
      constructor
      · rintro ⟨ha, hb⟩; exact ⟨by omega, by rw [hsucc r ha]; exact hb⟩
      · rintro ⟨ha, hb⟩
        by_cases hr : r = i
        · subst hr; simp [toMap] at hb
        · exact ⟨by omega, by rw [← hsucc r (by omega)]; exact hb⟩
    | some v =>
      refine ⟨?_, ?_⟩
      · intro r t
        rw [iterFrom, List.mem_cons, h1]
        constructor
        · rintro (h | ⟨ha, hb⟩)
          · simp only [Prod.mk.injEq] at h
            obtain ⟨rfl, rfl⟩ := h
            exact ⟨by omega, by simp [toMap]⟩
          · exact ⟨by omega, by rw [hsucc r ha]; exact hb⟩
        · rintro ⟨ha, hb⟩
          by_cases hr : r = i
          · subst hr
            left
            simp [toMap] at hb
            rw [hb]
          · right; exact ⟨by omega, by rw [← hsucc r (by omega)]; exact hb⟩
      · rw [iterFrom, List.map_cons, List.pairwise_cons]
        refine ⟨?_, h2⟩
        intro a ha
        obtain ⟨p, hp, rfl⟩ := List.mem_map.mp ha
        exact hmin p hp

/-- **C09 (iteration).** Iteration yields exactly the present ranks with their values, each once,
in increasing order of the rank. -/
theorem iter_spec (d : Data T) :
    (∀ r t, (r, t) ∈ iter d ↔ toMap d r = some t) ∧
      ((iter d).map Prod.fst).Pairwise (· < ·) := by
  obtain ⟨h1, h2⟩ := iterFrom_spec d 0
  exact ⟨fun r t => by simpa [iter] using h1 r t, h2⟩

theorem iterFrom_drop (d : Data T) (n : Nat) :
    ∀ c, d.length - c = n → intoIterFrom n d c = iterFrom c (d.drop c) := by
  induction n generalizing d with
  | zero =>
    intro c hc
    rw [intoIterFrom, List.drop_eq_nil_of_le (by omega)]
    rfl
  | succ n ih =>
    intro c hc
    have hlt : c < d.length := by omega
    rw [intoIterFrom]
    have hdrop : d.drop c = d[c] :: d.drop (c + 1) := List.drop_eq_getElem_cons hlt
    have hset : (d.set c none).drop (c + 1) = d.drop (c + 1) := by
      rw [List.drop_set_of_lt (by omega)]
    have hrem : remove d c = some (d.set c none, d[c]) := by
      unfold remove; rw [List.getElem?_eq_getElem hlt]
    rw [hrem, hdrop]
    have hih := ih (d.set c none) (c + 1) (by simp; omega)
    rw [hset] at hih
    cases hv : d[c] with
    | none => simp only [iterFrom]; exact hih
    | some t => simp only [iterFrom]; rw [hih]

/-- **C09 (consuming iteration).** `into_iter` and `drain_all` yield the same items as `iter`. -/
theorem into_iter_eq (d : Data T) : intoIter d = iter d ∧ (drainAll d).2 = iter d := by
  refine ⟨?_, rfl⟩
  unfold intoIter iter
  rw [iterFrom_drop d d.length 0 (by omega), List.drop_zero]

/-- **C09 (fresh container).** A fresh container for rank `r` of `n` has exactly the other ranks. -/
theorem fresh_spec (t : T) (size thisRank q : Nat) :
    toMap (fromSizeAndRank t size thisRank) q
      = if q < size ∧ q ≠ thisRank then some t else none := by
  unfold toMap fromSizeAndRank
  rw [List.getElem?_map]
  by_cases h : q < size
  · rw [List.getElem?_range h]
    by_cases hq : q = thisRank <;> simp [h, hq]
  · rw [List.getElem?_eq_none (by simp; omega)]
    simp [h]

theorem foldl_insert (l : List (Nat × T)) (d : Data T) (q : Nat) :
    toMap (l.foldl (fun d p => insert d p.1 p.2) d) q
      = ((l.reverse.find? (fun p => p.1 == q)).map Prod.snd).or (toMap d q) := by
  induction l generalizing d with
  | nil => simp
  | cons p l ih =>
    rw [List.foldl_cons, ih, toMap_insert, List.reverse_cons, List.find?_append]
    cases List.find? (fun p => p.1 == q) l.reverse with
    | some x => simp
    | none =>
      by_cases h : q = p.1
      · simp [h]
      · simp [h, Ne.symm h]

/-- **C09 (collecting).** Collecting pairs gives the map in which the last pair of each rank
counts. -/
theorem fromIter_spec (l : List (Nat × T)) (q : Nat) :
    toMap (fromIter l) q = (l.reverse.find? (fun p => p.1 == q)).map Prod.snd := by
  unfold fromIter
  rw [foldl_insert]
  have : toMap (empty : Data T) q = none := by simp [toMap, empty]
  rw [this]
  simp

/-- non-vacuity: a run without panic -/
example : run (fromSizeAndRank 0 3 1) [.insert 4 7, .remove 0, .insert 1 5]
    = some [none, some 5, some 0, none, some 7] := by decide

example : iter [none, some 5, some 0, none, some 7] = [(1, 5), (2, 0), (4, 7)] := by decide

end Verif.DataByRank
