import Verif.Sim.LoopProps
import Verif.Sim.WholeExamples

/-!
# The main loop: example

The simulation of `WholeExamples` with a final time and snapshots.
-/

namespace Verif.Sim

open Verif.Parallel

/-- Final time 2.5, a snapshot every 2 units of time; a particle counts as ionized after the time 0.75. -/
noncomputable def shortRun : Loop ℝ (ℝ × WithTop ℝ) where
  physics := clocks
  fraction := fun c => if 3 / 4 < c.1 then 1 else 0
  finalTime := some (5 / 2)
  output := ⟨none, 2⟩

/-- The times are 0, 1/4, 1/2, 1, 2, 3, 4. -/
theorem short_times : (List.range 7).map (clockAfter 1 3) = [0, 1 / 4, 1 / 2, 1, 2, 3, 4] := by
  simp only [List.range, List.range.loop, List.map, clockAfter]
  norm_num

/-- C94, C95: a run of 7 frames: the final time is reached after 5 time steps, the loop ends after 6 with the time 4.  The first
snapshot shows the initial conditions, the last one the last state, and all particles are ionized at the time 1. -/
example : ∃ (W : World 3 Sweep.Id) (G : ℕ → List (Name Sweep.Id × Cell)) (w0 : Whole ℝ (ℝ × WithTop ℝ))
    (rs : List (Report ℝ (ℝ × WithTop ℝ))), W.particles.length = 1728 ∧ Ready 1 false W G ∧
    firstState 1 3 W.particles.length G mixed = some w0 ∧ Ended shortRun (shortRun.start w0) rs ∧ rs.length = 7 ∧
    (∃ r, rs[0]? = some r ∧ r.sim = w0 ∧ r.snapshot = some ⟨0, true, true⟩) ∧
    ∃ r, rs[6]? = some r ∧ r.sim.time = 4 ∧ (∃ s, r.snapshot = some s) ∧ ∀ q, ∀ p ∈ W.ofRank q, r.ionized p.1 = ((1 : ℝ) : WithTop ℝ) := by
  obtain ⟨W, G, hl, H⟩ := lattice_ready false
  have hN : 0 < W.particles.length := by omega
  have hT := short_times
  simp only [List.range, List.range.loop, List.map, List.cons.injEq] at hT
  obtain ⟨c0, c1, c2, c3, c4, c5, c6, -⟩ := hT
  obtain ⟨w0, h0⟩ := simulation_starts (R := ℝ) (numLevels := 3) H (by norm_num) (by norm_num) 1 mixed
  obtain ⟨rs, hrs⟩ := loop_has_end (L := shortRun) H hN (by norm_num) (by norm_num) one_pos h0 rfl
  obtain ⟨t, r, ht, hr, hs, -, hpos⟩ := loop_final H hN (by norm_num) (by norm_num) one_pos h0 hrs
  obtain rfl : 5 / 2 = t := Option.some.inj ht
  obtain ⟨n, e1, e2, e3, e4, -⟩ := hpos (by norm_num)
  have hmono : StrictMono (clockAfter 1 3) :=
    strictMono_nat_of_lt_succ fun n => (clockAfter_step (by norm_num) one_pos n).1
  have hn : n = 4 := by
    have h1 : n < 5 := hmono.lt_iff_lt.1 (by rw [c5]; linarith)
    have h2 : 4 < n + 1 := hmono.lt_iff_lt.1 (by rw [c4]; linarith)
    omega
  subst hn
  have hlast : rs[6]? = some r := by rw [← hr, List.getLast?_eq_getElem?, e1]
  obtain ⟨x, hx⟩ : ∃ r, rs[0]? = some r := ⟨_, List.getElem?_eq_getElem (by omega)⟩
  have hobs : Observed shortRun (shortRun.start w0) rs := Or.inr hrs
  refine ⟨W, G, w0, rs, hl, H, h0, hrs, e1, ⟨x, hx, ?_, ?_⟩, r, hlast, by rw [e4, c6], ⟨hs.choose, hs.choose_spec.1⟩, fun q p hp => ?_⟩
  · exact (loop_states H hN (by norm_num) (by norm_num) h0 hobs hx).2.2.2.1 rfl
  · obtain ⟨m, hm, hsn⟩ := loop_snapshots H hN (by norm_num) (by norm_num) h0 hobs hx
    obtain rfl : m = 0 := by simpa using hm
    rw [hsn, if_pos (Or.inr (by rw [c0]; simp [shortRun]))]
    rfl
  · have hfrac : ∀ k r', rs[k]? = some r' → (r'.sim.cells.chem p.1).1 = clockAfter 1 3 k := by
      intro k r' hr'
      obtain ⟨h1, -, h2, -⟩ := loop_states H hN (by norm_num) (by norm_num) h0 hobs hr'
      rw [(simulation_time H hN (by norm_num) (by norm_num) h0 h1).2 Prod.fst (fun _ _ _ _ _ => rfl) q p hp, h2]
      simp [mixed]
    obtain ⟨y, hy⟩ : ∃ r, rs[3]? = some r := ⟨_, List.getElem?_eq_getElem (by omega)⟩
    have := (ionization_time H hN (by norm_num) (by norm_num) h0 hobs hlast p.1).2 3 y (by norm_num) (by norm_num) hy ?_ ?_
    · rw [this, c3]
    · show 1 / 2 < if 3 / 4 < (y.sim.cells.chem p.1).1 then (1 : ℝ) else 0
      rw [hfrac 3 y hy, c3]
      norm_num
    · intro i z h1 h2 hz
      show (if 3 / 4 < (z.sim.cells.chem p.1).1 then (1 : ℝ) else 0) ≤ 1 / 2
      rw [hfrac i z hz]
      have : i = 1 ∨ i = 2 := by omega
      rcases this with rfl | rfl
      · rw [c1]
        norm_num
      · rw [c2]
        norm_num

end Verif.Sim
