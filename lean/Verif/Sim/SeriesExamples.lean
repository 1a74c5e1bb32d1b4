import Verif.Sim.SeriesProps
import Verif.Sim.WholeExamples

/-!
# The time series: examples
-/

namespace Verif.Sim

open Verif.Parallel

/-- Two ranks with three particles. -/
noncomputable def threeParticles : List (List Averaged) :=
  [[⟨1, 2, 1, 100, some 4⟩], [⟨3, 1, 1 / 2, 300, some 1⟩, ⟨4, 1, 0, 200, some 0⟩]]

/-- The same particles on the other ranks. -/
noncomputable def threeParticles' : List (List Averaged) :=
  [[⟨4, 1, 0, 200, some 0⟩, ⟨3, 1, 1 / 2, 300, some 1⟩], [], [⟨1, 2, 1, 100, some 4⟩]]

/-- `series_means`: the averages are 5/16, 5/8, 225, 175, 9/4 and 17/8. -/
example : computeTimeSeries threeParticles = ⟨some (5 / 16), some (5 / 8), some 225, some 175, some (9 / 4), some (17 / 8)⟩ := by
  simp only [computeTimeSeries, globalSum, threeParticles, quotient, List.map, List.filterMap, Option.map, List.sum_cons, List.sum_nil,
    Series.mk.injEq]
  norm_num

/-- `series_distribution` -/
example : computeTimeSeries threeParticles' = computeTimeSeries threeParticles := by
  refine series_distribution ?_
  show ([_, _, _] : List Averaged).Perm [_, _, _]
  exact ((List.Perm.swap _ _ _).cons _).trans ((List.Perm.swap _ _ _).trans ((List.Perm.swap _ _ _).cons _))

/-- `series_bounds` -/
example : ∃ m, (computeTimeSeries threeParticles).massFraction = some m ∧ 0 ≤ m ∧ m ≤ 1 := by
  refine (series_bounds (ranks := threeParticles) (lo := 0) (hi := 1) (tlo := 100) (thi := 300) ?_ (by simp [threeParticles]) ?_ ?_).1
  all_goals
    intro p hp
    simp only [threeParticles, List.flatten_cons, List.flatten_nil, List.cons_append, List.nil_append, List.mem_cons, List.not_mem_nil,
      or_false, List.append_nil] at hp
    rcases hp with rfl | rfl | rfl <;> norm_num

/-- The components of the particles of some rank, with fraction one half. -/
noncomputable def halfIonized (cells : List (Sweep.Id × Cell)) : List Averaged := cells.map fun e => ⟨1, e.2.volume, 1 / 2, 100, none⟩

/-- `series_volume`, `series_rate_missing`: averages over the grid which 1728 ranks have constructed. -/
example : ∃ (W : World 3 Sweep.Id) (G : ℕ → List (Name Sweep.Id × Cell)), W.particles.length = 1728 ∧ Ready 1 false W G ∧
    (computeTimeSeries ((List.range 1728).map fun r => halfIonized (localCells (G r)))).volumeFraction =
      some ((((List.range 1728).map fun r => halfIonized (localCells (G r))).flatten.map fun p => p.volume * p.fraction).sum /
        ∏ i, (W.hi i - W.lo i)) := by
  obtain ⟨W, G, hl, H⟩ := lattice_ready false
  refine ⟨W, G, hl, H, series_volume H (by omega) (by simp [hl]) fun r l h => ?_⟩
  rw [List.getElem?_map, Option.map_eq_some_iff] at h
  obtain ⟨i, hi, rfl⟩ := h
  obtain ⟨h1, h2⟩ := List.getElem?_eq_some_iff.1 hi
  rw [List.getElem_range] at h2
  subst h2
  rw [halfIonized, List.map_map]
  rfl

/-- `series_rate_missing` with two particles. -/
example : (computeTimeSeries [[⟨1, 2, 1, 100, none⟩], [⟨3, 1, 1 / 2, 300, none⟩]]).rate = some 0 :=
  (series_rate_missing (by norm_num) (by simp)).1

/-- `series_counts_at_start`, `series_counts`: three levels and 1728 particles, all of them on level 2. -/
example : ∃ (W : World 3 Sweep.Id) (G : ℕ → List (Name Sweep.Id × Cell)) (w0 w : Whole ℝ (ℝ × WithTop ℝ)),
    W.particles.length = 1728 ∧ Ready 1 false W G ∧ firstState 1 3 W.particles.length G mixed = some w0 ∧
    numParticlesAtLevels w0.ts 1 w0.ranks = some ((List.range 3).map fun l => (l, numberOf W (fun _ _ => True), 1 / 2 ^ l)) ∧
    numberOf W (fun r u => levelOn w0.ranks r u = some 0) = 0 ∧ Simulated clocks w0 w ∧ w.calls = 5 ∧
    ∃ l, numParticlesAtLevels w.ts 1 w.ranks = some l ∧ l.length = 3 := by
  obtain ⟨W, G, hl, H⟩ := lattice_ready false
  have hN : 0 < W.particles.length := by omega
  obtain ⟨w0, h0⟩ := simulation_starts (R := ℝ) (numLevels := 3) H (by norm_num) (by norm_num) 1 mixed
  obtain ⟨w, hw, hc⟩ := simulation_exists (Ph := clocks) H hN (by norm_num) (by norm_num) h0 5
  obtain ⟨h1, h2⟩ := series_counts_at_start H (by norm_num) (by norm_num) h0
  exact ⟨W, G, w0, w, hl, H, h0, h1, h2 0, hw, hc, _, series_counts H (by norm_num) (by norm_num) h0 hw, by simp⟩

end Verif.Sim
