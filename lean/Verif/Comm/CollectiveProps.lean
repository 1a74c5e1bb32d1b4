import Verif.Comm.CollectiveModel
import Mathlib.Data.List.Perm.Basic
import Mathlib.Data.List.GetD
import Mathlib.Tactic.Ring

/-!
# C07 (equal number of chunks on all ranks) and C08 (variable-count gather)
-/

namespace Verif.Collective

theorem le_foldl_max (xs : List Nat) (a : Nat) : a ≤ xs.foldl max a := by
  induction xs generalizing a with
  | nil => simp
  | cons x xs ih => exact Nat.le_trans (Nat.le_max_left a x) (ih _)

theorem mem_le_foldl_max (xs : List Nat) (a x : Nat) (h : x ∈ xs) : x ≤ xs.foldl max a := by
  induction xs generalizing a with
  | nil => simp at h
  | cons y xs ih =>
    rcases List.mem_cons.mp h with rfl | h
    · exact Nat.le_trans (Nat.le_max_right a x) (le_foldl_max _ _)
    · exact ih _ h

theorem foldl_max_mem (xs : List Nat) (a : Nat) : xs.foldl max a = a ∨ xs.foldl max a ∈ xs := by
  induction xs generalizing a with
  | nil => simp
  | cons y xs ih =>
    simp only [List.foldl_cons, List.mem_cons]
    rcases ih (max a y) with h | h
    · rw [h]
      rcases Nat.le_total a y with h' | h'
      · right; left; exact Nat.max_eq_right h'
      · left; exact Nat.max_eq_left h'
    · exact Or.inr (Or.inr h)

theorem ceil_bounds (x c : Nat) (hc : 0 < c) :
    x ≤ (x / c + if x % c > 0 then 1 else 0) * c ∧
      (0 < x → ((x / c + if x % c > 0 then 1 else 0) - 1) * c < x) := by
  have h := Nat.div_add_mod x c
  have hlt := Nat.mod_lt x hc
  generalize hq : x / c = q at *
  generalize hm : x % c = m at *
  rw [Nat.mul_comm c q] at h
  split
  · constructor
    · rw [Nat.add_mul]; omega
    · intro _; simp; omega
  · constructor
    · simp; omega
    · intro hx
      cases q with
      | zero => simp at *; omega
      | succ q => simp only [Nat.add_zero, Nat.add_sub_cancel]; rw [Nat.add_mul] at h; omega

theorem length_nextChunks {α : Type} (n : Nat) (cs : List (List α)) :
    (nextChunks n cs).length = n := by
  induction n generalizing cs with
  | zero => rfl
  | succ n ih => cases cs <;> simp [nextChunks, ih]

theorem nextChunks_chunks {α : Type} (c : Nat) (hc : 0 < c) (n : Nat) (l : List α)
    (h : l.length ≤ n * c) :
    (nextChunks n (chunks c hc l)).flatten = l ∧
      (∀ x ∈ nextChunks n (chunks c hc l), x.length ≤ c) := by
  induction n generalizing l with
  | zero =>
    have : l = [] := List.length_eq_zero_iff.mp (by omega)
    subst this; simp [nextChunks]
  | succ n ih =>
    by_cases hl : l = []
    · subst hl
      have he : chunks c hc ([] : List α) = [] := by rw [chunks]; simp
      have := ih [] (by simp)
      rw [he] at this
      rw [he, nextChunks]
      refine ⟨by simpa using this.1, ?_⟩
      intro x hx
      rcases List.mem_cons.mp hx with rfl | hx
      · simp
      · exact this.2 x hx
    · rw [chunks, dif_neg hl, nextChunks]
      obtain ⟨h1, h2⟩ := ih (l.drop c) (by simp; rw [Nat.add_mul] at h; omega)
      refine ⟨by rw [List.flatten_cons, h1, List.take_append_drop], ?_⟩
      intro x hx
      rcases List.mem_cons.mp hx with rfl | hx
      · simp
      · exact h2 x hx

/-- **C07.** For every list of the ranks' items (at least one rank) and every positive chunk size,
cutting succeeds; all ranks get the same number `n` of chunks; the chunks of each rank concatenate
to its items; no chunk is larger than the requested size; and `n` is not larger than needed: `n`
chunks minus one would not suffice for some rank. -/
theorem chunks_same_number {α : Type} (items : List (List α)) (hr : items ≠ []) (chunkSize : Nat)
    (hc : 0 < chunkSize) :
    ∃ res n, divideIntoChunks items chunkSize = some res ∧ res.length = items.length ∧
      (∀ cs ∈ res, cs.length = n) ∧
      res.map List.flatten = items ∧
      (∀ cs ∈ res, ∀ x ∈ cs, x.length ≤ chunkSize) ∧
      (0 < n → ∃ l ∈ items, (n - 1) * chunkSize < l.length) := by
  have hm : ∀ ls : List Nat, ls.mapM (fun n => divCeil n chunkSize)
      = some (ls.map (fun x => x / chunkSize + if x % chunkSize > 0 then 1 else 0)) := by
    intro ls
    induction ls with
    | nil => simp
    | cons a ls ih =>
      rw [List.mapM_cons, ih]
      simp [divCeil, Nat.ne_of_gt hc]
  have hg : ∃ n, globalNumChunks (items.map List.length) chunkSize = some n ∧
      (∀ l ∈ items, l.length ≤ n * chunkSize) ∧
      (0 < n → ∃ l ∈ items, (n - 1) * chunkSize < l.length) := by
    unfold globalNumChunks
    rw [hm]
    obtain ⟨a, rest, rfl⟩ := List.exists_cons_of_ne_nil hr
    simp only [List.map_cons, Option.bind_some, allGatherMax]
    refine ⟨_, rfl, ?_, ?_⟩
    · intro l hl
      refine Nat.le_trans (ceil_bounds l.length chunkSize hc).1 (Nat.mul_le_mul_right _ ?_)
      rcases List.mem_cons.mp hl with rfl | hl
      · exact le_foldl_max _ _
      · apply mem_le_foldl_max
        exact List.mem_map.mpr ⟨l.length, List.mem_map.mpr ⟨l, hl, rfl⟩, rfl⟩
    · intro hpos
      have key : ∀ l : List α,
          0 < (l.length / chunkSize + if l.length % chunkSize > 0 then 1 else 0) →
          ((l.length / chunkSize + if l.length % chunkSize > 0 then 1 else 0) - 1) * chunkSize
            < l.length := by
        intro l h
        apply (ceil_bounds l.length chunkSize hc).2
        by_contra hcon
        have : l.length = 0 := by omega
        simp [this] at h
      rcases foldl_max_mem ((rest.map List.length).map
        (fun x => x / chunkSize + if x % chunkSize > 0 then 1 else 0))
        (a.length / chunkSize + if a.length % chunkSize > 0 then 1 else 0) with h | h
      · rw [h] at hpos ⊢
        exact ⟨a, by simp, key a hpos⟩
      · obtain ⟨x, hx, he⟩ := List.mem_map.mp h
        obtain ⟨l, hl, rfl⟩ := List.mem_map.mp hx
        rw [← he] at hpos ⊢
        exact ⟨l, by simp [hl], key l hpos⟩
  obtain ⟨n, hn, hle, hmin⟩ := hg
  refine ⟨items.map (fun l => nextChunks n (chunks chunkSize hc l)), n, ?_, by simp, ?_, ?_, ?_,
    hmin⟩
  · unfold divideIntoChunks; rw [dif_pos hc, hn]; rfl
  · intro cs hcs
    obtain ⟨l, -, rfl⟩ := List.mem_map.mp hcs
    exact length_nextChunks _ _
  · rw [List.map_map]
    conv_rhs => rw [← List.map_id items]
    apply List.map_congr_left
    intro l hl
    exact (nextChunks_chunks chunkSize hc n l (hle l hl)).1
  · intro cs hcs
    obtain ⟨l, hl, rfl⟩ := List.mem_map.mp hcs
    exact (nextChunks_chunks chunkSize hc n l (hle l hl)).2

/-- non-vacuity of C07: three ranks with 5, 0 and 2 items, chunk size 2 -/
example : divideIntoChunks [[1, 2, 3, 4, 5], [], [6, 7]] 2
    = some [[[1, 2], [3, 4], [5]], [[], [], []], [[6, 7], [], []]] := by decide +kernel

/-! ### C08 -/

theorem displacements_getElem? (counts : List Nat) (acc r : Nat) (hr : r < counts.length) :
    (displacements acc counts)[r]? = some (acc + (counts.take r).sum) := by
  induction counts generalizing acc r with
  | nil => simp at hr
  | cons c cs ih =>
    cases r with
    | zero => simp [displacements]
    | succ r =>
      simp only [displacements, List.getElem?_cons_succ]
      rw [ih _ _ (by simpa using hr)]
      simp [List.take_succ_cons]; omega

/-- buffer contents after the contributions of the ranks in `done` are written -/
def filled {α : Type} (sends : List (List α)) (done : Nat → Bool) : List (Option α) :=
  ((sends.zipIdx).map (fun p => if done p.2 then p.1.map some else p.1.map (fun _ => none))).flatten

theorem filled_aux {α : Type} (sends : List (List α)) (k : Nat) (done : Nat → Bool) :
    (((sends.zipIdx k).map
      (fun p => if done p.2 then p.1.map some else p.1.map (fun _ => none))).flatten).length
      = (sends.map List.length).sum := by
  induction sends generalizing k with
  | nil => rfl
  | cons a s ih =>
    simp only [List.zipIdx_cons, List.map_cons, List.flatten_cons, List.length_append, ih,
      List.sum_cons]
    congr 1
    split <;> simp

theorem writeAt_filled {α : Type} (sends : List (List α)) (done : Nat → Bool) (r : Nat) (x : List α)
    (hx : sends[r]? = some x) :
    writeAt (filled sends done) ((sends.map List.length).take r).sum x
      = some (filled sends (fun q => done q || q == r)) ∨ done r := by
  by_cases hd : done r
  · exact Or.inr hd
  left
  obtain ⟨hlt, hget⟩ := List.getElem?_eq_some_iff.mp hx
  -- split the list at r
  have hsplit : sends = sends.take r ++ x :: sends.drop (r + 1) := by
    rw [← hget, ← List.drop_eq_getElem_cons hlt, List.take_append_drop]
  generalize hA : sends.take r = A at hsplit
  generalize hB : sends.drop (r + 1) = B at hsplit
  have hAlen : A.length = r := by rw [← hA]; simp; omega
  have hdisp : ((sends.map List.length).take r).sum = (A.map List.length).sum := by
    rw [← List.map_take, hA]
  have key : ∀ f : Nat → Bool, filled sends f =
      ((A.zipIdx 0).map (fun p => if f p.2 then p.1.map some else p.1.map (fun _ => none))).flatten ++
      ((if f r then x.map some else x.map (fun _ => none)) ++
      ((B.zipIdx (r + 1)).map
        (fun p => if f p.2 then p.1.map some else p.1.map (fun _ => none))).flatten) := by
    intro f
    unfold filled
    rw [hsplit, List.zipIdx_append, List.zipIdx_cons, List.map_append, List.flatten_append]
    simp [hAlen]
  rw [hdisp]
  unfold writeAt
  have hlenA := filled_aux A 0 done
  rw [key done, key (fun q => done q || q == r)]
  simp only [hd, beq_self_eq_true, Bool.or_true, if_true]
  rw [if_pos (by simp only [List.length_append, hlenA]; simp)]
  congr 1
  rw [← hlenA, List.take_left', List.append_assoc]
  · congr 1
    · -- A part unchanged
      congr 1
      apply List.map_congr_left
      rintro ⟨a, i⟩ hp
      have := List.snd_lt_of_mem_zipIdx hp
      have hne : i ≠ r := by simp at this; omega
      simp [hne]
    · congr 1
      rw [← List.append_assoc, List.drop_left']
      · congr 1
        apply List.map_congr_left
        rintro ⟨a, i⟩ hp
        have := List.le_snd_of_mem_zipIdx hp
        have hne : i ≠ r := by simp at this; omega
        simp [hne]
      · simp
  · rfl

theorem writeAll_filled {α : Type} (sends : List (List α)) (order : List Nat) :
    ∀ (done : Nat → Bool), order.Nodup → (∀ r ∈ order, r < sends.length) →
      (∀ r ∈ order, done r = false) →
      writeAll (filled sends done)
        (order.filterMap (contribution sends))
        = some (filled sends (fun q => done q || order.contains q)) := by
  induction order with
  | nil => intro done _ _ _; simp [writeAll]
  | cons r order ih =>
    intro done hnd hlt hdone
    have hr : r < sends.length := hlt r (by simp)
    have hx : sends[r]? = some sends[r] := List.getElem?_eq_getElem hr
    have hd := displacements_getElem? (sends.map List.length) 0 r (by simpa using hr)
    rw [Nat.zero_add] at hd
    simp only [List.filterMap_cons, contribution, hd, hx, writeAll]
    rcases writeAt_filled sends done r _ hx with h | h
    · rw [h, Option.bind_some, ih _ (List.nodup_cons.mp hnd).2 (fun q hq => hlt q (by simp [hq]))]
      · congr 2
        funext q
        rw [Bool.or_assoc, List.contains_cons]
      · intro q hq
        have hne : q ≠ r := by rintro rfl; exact (List.nodup_cons.mp hnd).1 hq
        simp [hdone q (by simp [hq]), hne]
    · rw [hdone r (by simp)] at h; exact absurd h (by simp)

/-- **C08.** Whatever lists the ranks contribute and in whatever order MPI stores them, the gathered
buffer is completely initialised and is the concatenation of the ranks' lists in rank order (all
writes are in bounds). -/
theorem all_gather_varcount_concat {α : Type} (sends : List (List α)) (order : List Nat)
    (horder : order.Perm (List.range sends.length)) :
    allGatherVarcount sends order = some (sends.flatten.map some) := by
  unfold allGatherVarcount
  have h0 : List.replicate (sends.map List.length).sum (none : Option α)
      = filled sends (fun _ => false) := by
    unfold filled
    have : ∀ k, List.replicate (sends.map List.length).sum (none : Option α)
        = ((sends.zipIdx k).map (fun p => if (fun _ : Nat => false) p.2 then p.1.map some
            else p.1.map (fun _ => none))).flatten := by
      intro k
      clear horder
      induction sends generalizing k with
      | nil => rfl
      | cons a s ih =>
        simp only [List.map_cons, List.sum_cons, List.zipIdx_cons, List.flatten_cons,
          List.replicate_add]
        rw [ih (k + 1)]
        congr 1
        simp
    exact this 0
  rw [h0, writeAll_filled sends order _ (horder.nodup_iff.mpr List.nodup_range)
    (fun r hr => List.mem_range.mp (horder.mem_iff.mp hr)) (fun _ _ => rfl)]
  congr 1
  unfold filled
  have : ∀ k, (∀ i, k ≤ i → i < k + sends.length → order.contains i = true) →
      ((sends.zipIdx k).map (fun p => if (false || order.contains p.2) then p.1.map some
        else p.1.map (fun _ => none))).flatten = sends.flatten.map some := by
    clear h0 horder
    induction sends with
    | nil => intro k _; rfl
    | cons a s ih =>
      intro k hk
      simp only [List.zipIdx_cons, List.map_cons, List.flatten_cons, List.map_append]
      rw [ih (k + 1) (fun i h1 h2 => hk i (by omega) (by simp at *; omega))]
      rw [hk k (by omega) (by simp)]
      simp
  apply this 0
  intro i _ hi
  rw [List.contains_iff_mem]
  exact horder.mem_iff.mpr (List.mem_range.mpr (by omega))

/-- The displacement of rank `r` is the number of items of the ranks before it (disjoint,
contiguous ranges). -/
theorem displacement_is_prefix_sum (counts : List Nat) (r : Nat) (hr : r < counts.length) :
    (displacements 0 counts)[r]? = some (counts.take r).sum := by
  rw [displacements_getElem? counts 0 r hr, Nat.zero_add]

/-- non-vacuity of C08 -/
example : allGatherVarcount [[1, 2], [], [3]] [2, 0, 1] = some [some 1, some 2, some 3] := by
  decide

end Verif.Collective
