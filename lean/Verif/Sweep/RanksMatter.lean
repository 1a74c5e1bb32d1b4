import Verif.Sweep.Examples

/-! # Sweeps in which not all cells are active depend on the ranks -/

namespace Verif.Sweep

/-- The two cells of `pair` on one rank. -/
def together (level1 : Nat) (bright : ℚ) : Grid ℚ ℚ where
  numRanks := 1
  numDirs := 1
  cells := {⟨0, 0⟩, ⟨0, 1⟩}
  nbrs := fun id =>
    if id = ⟨0, 0⟩ then [(⟨1, ⟨1, 0, 0⟩⟩, .loc ⟨0, 1⟩)]
    else [(⟨1, ⟨-1, 0, 0⟩⟩, .loc ⟨0, 0⟩)]
  dir := fun _ => ⟨1, 0, 0⟩
  level := fun id => if id = ⟨0, 0⟩ then 1 else level1
  haloLevel := fun _ _ => 0
  current := 1
  absorb := fun id _ => if id = ⟨0, 0⟩ then bright else 0
  source := fun _ => 0
  makePositive := fun x => max x 0
  batch := 10

theorem together_wf : WF (together 0 5) := by
  refine WF.of_check ?_ ?_ ?_
  · decide +kernel
  · decide +kernel
  · decide +kernel

/-- The name on one rank. -/
def merged (u : Id) : Id := ⟨0, u.rank⟩

/-- **The results depend on the ranks** if some cells are not active: the same two cells, the first active and the second not,
on one rank and on two ranks.  The second cell gets the photons of the first only if it is on the same rank. -/
theorem inactive_cells_depend_on_ranks :
    ∃ (G G' : Grid ℚ ℚ) (σ : Id → Id), WF G ∧ WF G' ∧ NoPeriodic G ∧ NoPeriodic G' ∧
      G'.numDirs = G.numDirs ∧ G'.current = G.current ∧ G'.makePositive = G.makePositive ∧ G'.dir = G.dir ∧
      G'.cells = G.cells.image σ ∧ (∀ u ∈ G.cells, ∀ v ∈ G.cells, σ u = σ v → u = v) ∧
      (∀ u ∈ G.cells, (G'.nbrs (σ u)).map Prod.fst = (G.nbrs u).map Prod.fst ∧
        (∀ v ∈ G.cells, ∀ d < G.numDirs, share G' d (σ u) (σ v) = share G d u v) ∧
        G'.level (σ u) = G.level u ∧ G'.source (σ u) = G.source u ∧ G'.absorb (σ u) = G.absorb u) ∧
      ∃ s s', Reach G (initState G (fun _ _ => 0) (fun _ _ => 0) (fun _ _ => 0) (fun _ _ => 0)) s ∧ Finished G s ∧
        Reach G' (initState G' (fun _ _ => 0) (fun _ _ => 0) (fun _ _ => 0) (fun _ _ => 0)) s' ∧ Finished G' s' ∧
        s.out ⟨0, 0⟩ 0 = 5 ∧ s'.out ⟨0, 0⟩ 0 = 5 ∧ s.inc ⟨1, 0⟩ 0 = 0 ∧ s'.inc (σ ⟨1, 0⟩) 0 = 5 := by
  have h1 : (play (pair 0 5) (initState (pair 0 5) (fun _ _ => 0) (fun _ _ => 0) (fun _ _ => 0)
        (fun _ _ => 0))
      [(0, .enterWork), (0, .pop ⟨⟨0, 0⟩, 0⟩), (0, .workDone), (0, .send (fun _ => true)), (0, .exit),
       (1, .exit)]).map (summary [(⟨0, 0⟩, 0), (⟨1, 0⟩, 0)]) =
      some (true, true, [(0, 5), (0, 0)]) := by decide +kernel
  have h2 : (play (together 0 5) (initState (together 0 5) (fun _ _ => 0) (fun _ _ => 0) (fun _ _ => 0)
        (fun _ _ => 0))
      [(0, .enterWork), (0, .pop ⟨⟨0, 0⟩, 0⟩), (0, .workDone), (0, .send (fun _ => true)), (0, .exit)]).map
      (fun s => ((s.pc 0).isDone, s.out ⟨0, 0⟩ 0, s.inc ⟨0, 1⟩ 0)) = some (true, 5, 5) := by decide +kernel
  rw [Option.map_eq_some_iff] at h1 h2
  obtain ⟨s, hs, e⟩ := h1
  obtain ⟨s', hs', e'⟩ := h2
  simp only [summary, List.map_cons, List.map_nil, Prod.mk.injEq, List.cons.injEq, and_true] at e e'
  refine ⟨pair 0 5, together 0 5, merged, pair_wf _ _, together_wf, ?_, ?_, rfl, rfl, rfl, rfl, by decide +kernel,
    by decide +kernel, ?_, s, s', (play_run hs).reach, ?_, (play_run hs').reach, ?_, e.2.2.1.2, e'.2.1, e.2.2.2.1, e'.2.2⟩
  · intro u hu e he v
    have : ∀ u ∈ (pair 0 5).cells, ∀ e ∈ (pair 0 5).nbrs u, e.2 = .remote ⟨1, 0⟩ ∨ e.2 = .remote ⟨0, 0⟩ := by decide +kernel
    rcases this u hu e he with h | h <;> rw [h] <;> exact ⟨by simp, by simp⟩
  · intro u hu e he v
    have : ∀ u ∈ (together 0 5).cells, ∀ e ∈ (together 0 5).nbrs u, e.2 = .loc ⟨0, 1⟩ ∨ e.2 = .loc ⟨0, 0⟩ := by decide +kernel
    rcases this u hu e he with h | h <;> rw [h] <;> exact ⟨by simp, by simp⟩
  · intro u hu
    have hu' : u = ⟨0, 0⟩ ∨ u = ⟨1, 0⟩ := by simpa [pair] using hu
    refine ⟨?_, ?_, ?_, rfl, ?_⟩
    · rcases hu' with rfl | rfl <;> rfl
    · have : ∀ u ∈ (pair 0 5).cells, ∀ v ∈ (pair 0 5).cells, ∀ d < (pair 0 5).numDirs,
          share (together 0 5) d (merged u) (merged v) = share (pair 0 5) d u v := by decide +kernel
      exact this u hu
    · rcases hu' with rfl | rfl <;> rfl
    · rcases hu' with rfl | rfl <;> rfl
  · intro r hr
    have hr : r < 2 := hr
    rcases (by omega : r = 0 ∨ r = 1) with rfl | rfl
    exacts [PC.isDone_iff.1 e.1, PC.isDone_iff.1 e.2.1]
  · intro r hr
    have hr : r < 1 := hr
    rw [show r = 0 by omega]
    exact PC.isDone_iff.1 e'.1

end Verif.Sweep
