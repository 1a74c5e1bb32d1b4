import Verif.Sim.RanksProps
import Verif.Sim.DealtLattice
import Verif.Sim.WholeExamples

/-! # The same particles on 2744 ranks and on 1372 ranks: examples -/

namespace Verif.Sim

open Verif.Parallel Verif.Geometry Verif.Halo

/-- C97: the cells of a particle on the grids of both. -/
example (periodic : Bool) : ∃ (W W' : World 3 Sweep.Id) (G G' : ℕ → List (Name Sweep.Id × Cell)),
    W.particles.length = 2744 ∧ W'.particles.length = 1372 ∧ Ready 1 periodic W G ∧ Ready 1 periodic W' G' ∧ SameParticles W W' ∧
    ∀ r, ∀ p ∈ W.ofRank r, ∃ r', ∃ p' ∈ W'.ofRank r', p'.2 = p.2 ∧ ∃ c c', (p.1, c) ∈ localCells (G r) ∧ (p'.1, c') ∈ localCells (G' r') ∧
      c'.volume = c.volume ∧ ∃ L, L.Perm c'.neighbours ∧ List.Forall₂ (SameFace periodic W W' r r') c.neighbours L := by
  obtain ⟨f, F⟩ := cubes_exist
  obtain ⟨G, H⟩ := dealt_ready singles_deal F periodic
  obtain ⟨G', H'⟩ := dealt_ready pairs_deal F periodic
  have E := dealt_same (f := f) singles_deal pairs_deal
  refine ⟨_, _, G, G', ?_, ?_, H, H', E, fun r p hp => ?_⟩
  · rw [dealt_length, singles, List.length_map, List.length_range]
  · rw [dealt_length, pairs, List.length_map, List.length_range]
  obtain ⟨r', p', hp', e⟩ := (E.places p.2).1 ⟨r, p, hp, rfl⟩
  obtain ⟨c, hc⟩ := H.cell hp
  obtain ⟨c', hc'⟩ := H'.cell hp'
  exact ⟨r', p', hp', e, c, c', hc, hc',
    (distribution_volume H.valid H'.valid H.cube E (H.built r (ofRank_lt hp)) (H'.built r' (ofRank_lt hp')) hp hc hp' hc' e).1,
    distribution_faces H.valid H'.valid H.cube H.inside E (H.built r (ofRank_lt hp)) (H'.built r' (ofRank_lt hp')) hp hc hp' hc' e⟩

/-- Nothing changes on the ranks. -/
theorem clocks_same (W W' : World 3 Sweep.Id) : SamePhysics W W' clocks { clocks with batch := 3 } :=
  ⟨rfl, rfl, rfl, rfl, rfl, rfl, fun _ _ _ => rfl, fun _ _ _ _ => rfl, fun _ _ _ _ => rfl⟩

/-- C98: five calls with one level on both, with different batch sizes. -/
example : ∃ (W W' : World 3 Sweep.Id) (G G' : ℕ → List (Name Sweep.Id × Cell)) (w0 w w0' w' : Whole ℝ (ℝ × WithTop ℝ)),
    W.particles.length = 2744 ∧ W'.particles.length = 1372 ∧ Ready 1 false W G ∧ Ready 1 false W' G' ∧ SameParticles W W' ∧
    firstState 1 1 W.particles.length G (fun _ => (0, ⊤)) = some w0 ∧ Simulated clocks w0 w ∧ w.calls = 5 ∧
    firstState 1 1 W'.particles.length G' (fun _ => (0, ⊤)) = some w0' ∧ Simulated { clocks with batch := 3 } w0' w' ∧ w'.calls = 5 ∧
    ∀ u u', SamePlace W W' u u' → w'.cells.inc u' 1 = w.cells.inc u 1 := by
  obtain ⟨f, F⟩ := cubes_exist
  obtain ⟨G, H⟩ := dealt_ready singles_deal F false
  obtain ⟨G', H'⟩ := dealt_ready pairs_deal F false
  have E := dealt_same (f := f) singles_deal pairs_deal
  have hN : (dealtWorld singles f).particles.length = 2744 := by rw [dealt_length, singles, List.length_map, List.length_range]
  have hN' : (dealtWorld pairs f).particles.length = 1372 := by rw [dealt_length, pairs, List.length_map, List.length_range]
  obtain ⟨w0, h0⟩ := simulation_starts (R := ℝ) (numLevels := 1) H (by norm_num) (by norm_num) 1 (fun _ => ((0, ⊤) : ℝ × WithTop ℝ))
  obtain ⟨w, hw, hc⟩ := simulation_exists (Ph := clocks) H (by omega) (by norm_num) (by norm_num) h0 5
  obtain ⟨w0', h0'⟩ := simulation_starts (R := ℝ) (numLevels := 1) H' (by norm_num) (by norm_num) 1 (fun _ => ((0, ⊤) : ℝ × WithTop ℝ))
  obtain ⟨w', hw', hc'⟩ := simulation_exists (Ph := { clocks with batch := 3 }) H' (by omega) (by norm_num) (by norm_num) h0' 5
  refine ⟨_, _, G, G', w0, w, w0', w', hN, hN', H, H', E, h0, hw, hc, h0', hw', hc', fun u u' hu => ?_⟩
  exact (((simulation_distribution_single H H' (by omega) E (clocks_same _ _) (fun _ _ _ => rfl) h0 h0' hw hw'
    (hc'.trans hc.symm)).2 u u' hu).2.1 1 (by show 1 < 2; norm_num)).1

/-- C98 with three levels: before the first call all particles have the highest level. -/
example : ∃ (W W' : World 3 Sweep.Id) (G G' : ℕ → List (Name Sweep.Id × Cell)) (w0 w w0' w' : Whole ℝ (ℝ × WithTop ℝ)),
    W.particles.length = 2744 ∧ W'.particles.length = 1372 ∧ Ready 1 false W G ∧ Ready 1 false W' G' ∧
    firstState 1 3 W.particles.length G (fun _ => (0, ⊤)) = some w0 ∧ Simulated clocks w0 w ∧ w.calls = 1 ∧
    firstState 1 3 W'.particles.length G' (fun _ => (0, ⊤)) = some w0' ∧ Simulated { clocks with batch := 3 } w0' w' ∧ w'.calls = 1 ∧
    ∀ u u', SamePlace W W' u u' → w'.cells.inc u' 1 = w.cells.inc u 1 := by
  obtain ⟨f, F⟩ := cubes_exist
  obtain ⟨G, H⟩ := dealt_ready singles_deal F false
  obtain ⟨G', H'⟩ := dealt_ready pairs_deal F false
  have E := dealt_same (f := f) singles_deal pairs_deal
  have hN : (dealtWorld singles f).particles.length = 2744 := by rw [dealt_length, singles, List.length_map, List.length_range]
  have hN' : (dealtWorld pairs f).particles.length = 1372 := by rw [dealt_length, pairs, List.length_map, List.length_range]
  obtain ⟨w0, h0⟩ := simulation_starts (R := ℝ) (numLevels := 3) H (by norm_num) (by norm_num) 1 (fun _ => ((0, ⊤) : ℝ × WithTop ℝ))
  obtain ⟨w, hw, hc⟩ := simulation_exists (Ph := clocks) H (by omega) (by norm_num) (by norm_num) h0 1
  obtain ⟨w0', h0'⟩ := simulation_starts (R := ℝ) (numLevels := 3) H' (by norm_num) (by norm_num) 1 (fun _ => ((0, ⊤) : ℝ × WithTop ℝ))
  obtain ⟨w', hw', hc'⟩ := simulation_exists (Ph := { clocks with batch := 3 }) H' (by omega) (by norm_num) (by norm_num) h0' 1
  refine ⟨_, _, G, G', w0, w, w0', w', hN, hN', H, H', h0, hw, hc, h0', hw', hc', fun u u' hu => ?_⟩
  refine (((simulation_distribution H H' (by omega) E (clocks_same _ _) (fun _ _ _ => rfl) (by norm_num) (by norm_num) h0 h0' hw hw'
    (hc'.trans hc.symm) fun v hv hvc => ⟨2, fun r p hp => ?_⟩).2 u u' hu).2.1 1 (by show 1 < 2; norm_num)).1
  cases hv with
  | refl =>
    obtain ⟨T, e1, B⟩ := startAll_ok H.facts (numLevels := 3) (by norm_num)
    rw [(firstState_parts h0).2.2.2.2] at e1
    obtain rfl := Option.some.inj e1
    obtain ⟨c, hcl⟩ := H.cell hp
    have hr := ofRank_lt hp
    obtain rfl := H.id_rank hp
    exact levelOn_own B hr hcl
  | call y _ hy hcy =>
    exfalso
    cases hcy
    dsimp only at hvc
    omega

end Verif.Sim
