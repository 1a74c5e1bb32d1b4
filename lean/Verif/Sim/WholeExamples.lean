import Verif.Sim.WholeProps
import Verif.Sim.Examples

/-!
# A whole simulation: example

The world with 1728 ranks of `Examples`.
-/

namespace Verif.Sim

open Verif.Parallel

/-- The state of a cell is its own time and its time scale; cells absorb half of the radiation, the directions are swapped
after every call. -/
noncomputable def clocks : Physics ℝ (ℝ × WithTop ℝ) where
  numDirs := 2
  dir := fun n d => if (n + d) % 2 = 0 then ⟨1, 0, 0⟩ else ⟨-1, 0, 0⟩
  rotate := fun _ l => l.reverse
  batch := 10
  source := fun _ => 1
  makePositive := fun x => max x 0
  absorb := fun _ _ x => x / 2
  react := fun dt _ c _ _ => (c.1 + dt, c.2)
  timescale := fun c => c.2
  safety := 1 / 10

/-- Particles on even ranks need short time steps, the others do not change at all. -/
noncomputable def mixed : Sweep.Id → ℝ × WithTop ℝ := fun u => (0, if u.rank % 2 = 0 then ((4 : ℝ) : WithTop ℝ) else ⊤)

/-- C93: a simulation of five calls with three levels; all particles have the time of the simulation, and any other one has the
same result. -/
example : ∃ (W : World 3 Sweep.Id) (G : ℕ → List (Name Sweep.Id × Cell)) (w0 w : Whole ℝ (ℝ × WithTop ℝ)),
    W.particles.length = 1728 ∧ Ready 1 false W G ∧ firstState 1 3 W.particles.length G mixed = some w0 ∧
    Simulated clocks w0 w ∧ w.calls = 5 ∧ w.time = 3 ∧ (∀ r, ∀ p ∈ W.ofRank r, (w.cells.chem p.1).1 = 3) ∧
    (∀ w', Simulated clocks w0 w' → w'.calls = 5 → ∀ r, ∀ p ∈ W.ofRank r, w.cells.inc p.1 1 = w'.cells.inc p.1 1) ∧
    (∃ levels, sweptLevels w.ts w.ranks = some levels ∧ levels ≠ []) ∧
    ∀ r, ∀ p ∈ W.ofRank r, ∃ l, levelOn w.ranks r p.1 = some l ∧ l < 3 := by
  obtain ⟨W, G, hl, H⟩ := lattice_ready false
  have hN : 0 < W.particles.length := by omega
  obtain ⟨w0, h0⟩ := simulation_starts (R := ℝ) (numLevels := 3) H (by norm_num) (by norm_num) 1 mixed
  obtain ⟨w, hw, hc⟩ := simulation_exists (Ph := clocks) H hN (by norm_num) (by norm_num) h0 5
  obtain ⟨⟨ts0, ht, he⟩, hclock⟩ := simulation_time H hN (by norm_num) (by norm_num) h0 hw
  have htime : w.time = 3 := by
    have h3 := ((Timestep.levels_unlocked 1 3 ts0 ht (by norm_num) w.calls).2 (by rw [hc]; norm_num)).2.2
    rw [← he, hc] at h3
    dsimp only at h3
    rw [h3]
    norm_num
  refine ⟨W, G, w0, w, hl, H, h0, hw, hc, htime, fun r p hp => ?_, fun w' hw' hc' r p hp => ?_, ?_, fun r p hp => ?_⟩
  · rw [hclock Prod.fst (fun _ _ _ _ _ => rfl) r p hp, htime]
    simp [mixed]
  · exact (((simulation_unique H hN (by norm_num) (by norm_num) h0 hw hw' (hc.trans hc'.symm)).2.2.2 r p hp).1 1
      (by show 1 < 2; norm_num)).1
  · obtain ⟨levels, h1, h2, -⟩ := simulation_goes_on H hN (by norm_num) (by norm_num) h0 hw
    exact ⟨levels, h1, h2⟩
  · obtain ⟨c, l, -, -, h1, -, h2, -⟩ := simulation_levels H (by norm_num) (by norm_num) h0 hw hp
    exact ⟨l, h1, h2⟩

end Verif.Sim
