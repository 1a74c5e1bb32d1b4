import Verif.Sweep.FairExists
import Mathlib.Data.List.Nodup

/-!
# C116: a sweep can be finished exactly if there is no cycle of cells
-/

namespace Verif.Sweep

variable {K R : Type} [Field K] [LinearOrder K] [IsStrictOrderedRing K] [AddCommGroup R] [Module K R]

/-- **C116.** A sweep can end for all ranks if and only if the active cells are not arranged in a cycle: the exact converse of C30. -/
theorem finishes_iff_acyclic {G : Grid K R} (hG : WF G) (miss : Id → Nat → Nat) (inc out per : Id → Nat → R) :
    (∃ acts s, Run G (initState G miss inc out per) acts s ∧ Finished G s) ↔ Acyclic G := by
  constructor
  · rintro ⟨acts, s, h, hf⟩
    obtain ⟨hnd, _, hord⟩ := solved_at_most_once_after_upwind hG h
    refine ⟨fun d u => (solved acts).idxOf ⟨u, d⟩, fun d hd u hu v hv hfeeds => ?_⟩
    have hu' := mem_act.1 hu
    have hv' := mem_act.1 hv
    have hul : G.current ≤ G.level u := by simpa [ownActive] using hu'.2
    have hvl : G.current ≤ G.level v := by simpa [ownActive] using hv'.2
    have hvm : (⟨v, d⟩ : Task) ∈ solved acts := by
      have := finished_rank_solved_all hG h (hf v.rank (hG.rank_lt v hv'.1)) v hv'.1 rfl hvl d hd
      exact List.count_pos_iff.1 (by omega)
    obtain ⟨before, after, hsplit⟩ := List.append_of_mem hvm
    have hub := hord before ⟨v, d⟩ after hsplit u hu'.1 hul hfeeds
    have hvb : (⟨v, d⟩ : Task) ∉ before := by
      intro hb
      rw [hsplit] at hnd
      exact (List.disjoint_of_nodup_append hnd) hb (by simp)
    dsimp only
    rw [hsplit, List.idxOf_append_of_mem hub, List.idxOf_append_of_notMem hvb]
    have := List.idxOf_lt_length_of_mem hub
    omega
  · intro hac
    obtain ⟨acts, s, h1, h2⟩ := exists_finished hG hac miss inc out per
    exact ⟨acts, s, h1, h2⟩

/-- **C116.** Cells in a cycle are never solved, whatever the ranks do: `c 0`, `c 1`, ... are active and each one feeds the next
one, and they return to the first one. -/
theorem cycle_never_solved {G : Grid K R} (hG : WF G) (miss : Id → Nat → Nat) (inc out per : Id → Nat → R)
    {d n : Nat} (hn : 0 < n) {c : Nat → Id} (hact : ∀ i, c i ∈ G.cells ∧ G.current ≤ G.level (c i))
    (hper : ∀ i, c (i + n) = c i) (hfeeds : ∀ i, Feeds G d (c i) (c (i + 1)))
    {acts : List (Nat × Act)} {s : State R} (h : Run G (initState G miss inc out per) acts s) (i : Nat) :
    (⟨c i, d⟩ : Task) ∉ solved acts := by
  obtain ⟨hnd, _, hord⟩ := solved_at_most_once_after_upwind hG h
  -- if one is solved then the one before it is solved earlier
  have step : ∀ i, (⟨c (i + 1), d⟩ : Task) ∈ solved acts →
      (⟨c i, d⟩ : Task) ∈ solved acts ∧ (solved acts).idxOf ⟨c i, d⟩ < (solved acts).idxOf ⟨c (i + 1), d⟩ := by
    intro i hm
    obtain ⟨before, after, hsplit⟩ := List.append_of_mem hm
    have hub := hord before ⟨c (i + 1), d⟩ after hsplit (c i) (hact i).1 (hact i).2 (hfeeds i)
    have hvb : (⟨c (i + 1), d⟩ : Task) ∉ before := by
      intro hb
      rw [hsplit] at hnd
      exact (List.disjoint_of_nodup_append hnd) hb (by simp)
    rw [hsplit, List.idxOf_append_of_mem hub, List.idxOf_append_of_notMem hvb]
    have := List.idxOf_lt_length_of_mem hub
    exact ⟨List.mem_append_left _ hub, by omega⟩
  have back : ∀ k i, (⟨c (i + k), d⟩ : Task) ∈ solved acts →
      (⟨c i, d⟩ : Task) ∈ solved acts ∧ (solved acts).idxOf ⟨c i, d⟩ + k ≤ (solved acts).idxOf ⟨c (i + k), d⟩ := by
    intro k
    induction k with
    | zero => exact fun i hm => ⟨hm, le_refl _⟩
    | succ k ih =>
      intro i hm
      obtain ⟨h1, h2⟩ := step (i + k) hm
      obtain ⟨h3, h4⟩ := ih i h1
      refine ⟨h3, ?_⟩
      rw [← Nat.add_assoc i k 1]
      omega
  intro hm
  rw [← hper i] at hm
  have := (back n i hm).2
  rw [hper i] at this
  omega

end Verif.Sweep
