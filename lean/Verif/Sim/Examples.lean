import Verif.Sim.Props
import Verif.Parallel.Lattice
import Verif.Sweep.FairExists

/-! # Examples: the hypotheses of the theorems in `Props` are met -/

namespace Verif.Sim

open Verif.Parallel Verif.Geometry Verif.Halo
open Verif.Predicates (P3)

/-- The name of the only particle of rank `j`. -/
def only (j : ℕ) : Sweep.Id := ⟨j, 0⟩

/-- 1728 ranks have built the grid together. -/
theorem lattice_ready (periodic : Bool) :
    ∃ (W : World 3 Sweep.Id) (G : ℕ → List (Name Sweep.Id × Cell)), W.particles.length = 1728 ∧ Ready 1 periodic W G := by
  obtain ⟨f, H⟩ := lattice_exists
  have hb : ∀ r, ∃ G, r < (latticeWorld only f).particles.length → Built 1 periodic (latticeWorld only f) r G := by
    intro r
    by_cases hr : r < 1728
    · obtain ⟨n, g, G, -, -, B⟩ := lattice_built (name := only) H periodic r hr
      exact ⟨G, fun _ => B⟩
    · exact ⟨[], fun h => absurd (lattice_length (name := only) (f := f) ▸ h) hr⟩
  choose G hG using hb
  refine ⟨latticeWorld only f, G, lattice_length, lattice_valid H, fun _ => rfl, lattice_open H, fun r => ?_, hG⟩
  unfold World.ofRank latticeWorld
  dsimp only
  rw [List.getD_eq_getElem?_getD, List.getElem?_map]
  by_cases hs : r < 1728
  · rw [List.getElem?_range hs]
    simp [only]
  · rw [List.getElem?_eq_none (by rw [List.length_range]; omega)]
    simp

/-- Two directions, cells absorb half of the photons, level 1 is active; cells etc. come from the ranks. -/
noncomputable def half : Sweep.Grid ℝ ℝ where
  numRanks := 0
  numDirs := 2
  cells := ∅
  nbrs _ := []
  dir d := if d = 0 then ⟨1, 0, 0⟩ else ⟨0, 3 / 5, 4 / 5⟩
  level _ := 0
  haloLevel _ _ := 0
  current := 1
  absorb _ x := x / 2
  source _ := 1
  makePositive x := max x 0
  batch := 10

/-- First all cells are at level 1, then those of even ranks are at level 0 and the others at level 2. -/
def twoUpdates : List (Sweep.Id → ℕ) := [fun _ => 1, fun u => if u.rank % 2 = 0 then 0 else 2]

theorem twoUpdates_lt : ∀ f ∈ twoUpdates, ∀ u, f u < 3 := by
  intro f hf u
  simp only [twoUpdates, List.mem_cons, List.not_mem_nil, or_false] at hf
  rcases hf with rfl | rfl
  · norm_num
  · dsimp only
    split <;> norm_num

/-- `levels_agree` and `cells_are_particles`: the rank of the first particle knows its level. -/
example (periodic : Bool) : ∃ (W : World 3 Sweep.Id) (G : ℕ → List (Name Sweep.Id × Cell)) (S : List Rank),
    W.particles.length = 1728 ∧ Ready 1 periodic W G ∧ afterUpdates 3 W.particles.length G twoUpdates = some S ∧
    ∀ r, ∀ p ∈ W.ofRank r, levelOn S r p.1 = some (if p.1.rank % 2 = 0 then 0 else 2) := by
  obtain ⟨W, G, hl, H⟩ := lattice_ready periodic
  obtain ⟨S, hS, -, h⟩ := levels_agree H (numLevels := 3) (by norm_num) twoUpdates_lt
  exact ⟨W, G, S, hl, H, hS, fun r p hp => by obtain ⟨c, -, -, h, -⟩ := h r p hp; exact h⟩

/-- `sweep_ends`, `sweep_never_panics` and `sweep_solves_all`: there are fair executions, and a finished sweep has solved
the cells of odd ranks in both directions. -/
example (periodic : Bool) : ∃ (W : World 3 Sweep.Id) (G : ℕ → List (Name Sweep.Id × Cell)) (S : List Rank),
    W.particles.length = 1728 ∧ Ready 1 periodic W G ∧ afterUpdates 3 W.particles.length G twoUpdates = some S ∧
    (∃ E : Sweep.Execution (sweepGrid half S) (Sweep.initState (sweepGrid half S) (fun _ _ => 0) 0 0 0), E.Fair) ∧
    ∃ acts s, Sweep.Run (sweepGrid half S) (Sweep.initState (sweepGrid half S) (fun _ _ => 0) 0 0 0) acts s ∧
      Sweep.Finished (sweepGrid half S) s ∧
      ∀ r, ∀ p ∈ W.ofRank r, p.1.rank % 2 = 1 → (Sweep.solved acts).count ⟨p.1, 1⟩ = 1 := by
  obtain ⟨W, G, hl, H⟩ := lattice_ready periodic
  obtain ⟨S, hS, -, -⟩ := levels_agree H (numLevels := 3) (by norm_num) twoUpdates_lt
  have A := H.allOk (by norm_num) twoUpdates_lt hS
  obtain ⟨acts, s, h1, h2⟩ := Sweep.exists_finished (wellFormed (G0 := half) H A) (acyclic H A) (fun _ _ => 0) 0 0 0
  refine ⟨W, G, S, hl, H, hS, Sweep.exists_fair_execution (wellFormed H A) _ _ _ _, acts, s, h1, h2, fun r p hp hodd => ?_⟩
  refine (sweep_solves_all H (by norm_num) twoUpdates_lt hS h1 h2 hp ?_ (by show 1 < 2; norm_num)).1
  show 1 ≤ if p.1.rank % 2 = 0 then 0 else 2
  rw [if_neg (by omega)]
  norm_num

/-- `sweep_result_unique`: there are two finished sweeps, from different counts left over from the last sweep. -/
example : ∃ (W : World 3 Sweep.Id) (G : ℕ → List (Name Sweep.Id × Cell)) (S : List Rank) (s s' : Sweep.State ℝ),
    W.particles.length = 1728 ∧ Ready 1 false W G ∧ afterUpdates 3 W.particles.length G twoUpdates = some S ∧
    Sweep.Finished (sweepGrid half S) s ∧ Sweep.Finished (sweepGrid half S) s' ∧
    ∀ r, ∀ p ∈ W.ofRank r, s.out p.1 0 = s'.out p.1 0 := by
  obtain ⟨W, G, hl, H⟩ := lattice_ready false
  obtain ⟨S, hS, -, -⟩ := levels_agree H (numLevels := 3) (by norm_num) twoUpdates_lt
  have A := H.allOk (by norm_num) twoUpdates_lt hS
  obtain ⟨acts, s, h1, h2⟩ := Sweep.exists_finished (wellFormed (G0 := half) H A) (acyclic H A) (fun _ _ => 0) 0 0 0
  obtain ⟨acts', s', h1', h2'⟩ := Sweep.exists_finished (wellFormed (G0 := half) H A) (acyclic H A) (fun _ _ => 7) 0 0 0
  refine ⟨W, G, S, s, s', hl, H, hS, h2, h2', fun r p hp => ?_⟩
  exact (sweep_result_unique H (by norm_num) twoUpdates_lt hS h1.reach h2 h1'.reach h2' hp (by show 0 < 2; norm_num)).2

/-- A task which is solved in a run is solved in some state on the way. -/
theorem solved_step {G : Sweep.Grid ℝ ℝ} {s0 : Sweep.State ℝ} {acts : List (ℕ × Sweep.Act)} {s : Sweep.State ℝ}
    (h : Sweep.Run G s0 acts s) {t : Sweep.Task} (ht : t ∈ Sweep.solved acts) :
    ∃ r s1 s2, Sweep.Reach G s0 s1 ∧ Sweep.Step G r (.pop t) s1 s2 := by
  induction h with
  | nil => simp [Sweep.solved] at ht
  | snoc acts s s' r a hr hs ih =>
    unfold Sweep.solved at ht
    rw [List.filterMap_append, List.mem_append] at ht
    rcases ht with ht | ht
    · exact ih ht
    · obtain ⟨x, hx, e⟩ := List.mem_filterMap.1 ht
      obtain rfl := List.mem_singleton.1 hx
      cases a <;> simp [Sweep.Act.solved] at e
      subst e
      exact ⟨r, s, s', hr.reach, hs⟩

/-- The same with rates which are never corrected. -/
noncomputable def halfPlain : Sweep.Grid ℝ ℝ := { half with makePositive := id }

/-- `sweep_conserves`: some task is solved in a sweep in which everything is active. -/
example : ∃ (W : World 3 Sweep.Id) (G : ℕ → List (Name Sweep.Id × Cell)) (S : List Rank) (s s' : Sweep.State ℝ) (r : ℕ)
    (t : Sweep.Task), W.particles.length = 1728 ∧ Ready 1 true W G ∧ afterUpdates 3 W.particles.length G [] = some S ∧
    Sweep.Step (sweepGrid halfPlain S) r (.pop t) s s' ∧
    Sweep.held (sweepGrid halfPlain S) s' = Sweep.held (sweepGrid halfPlain S) s + (s'.out t.id t.dir - s.out t.id t.dir) := by
  obtain ⟨W, G, hl, H⟩ := lattice_ready true
  obtain ⟨S, hS, -, -⟩ := levels_agree H (numLevels := 3) (updates := []) (by norm_num) (by simp)
  have A := H.allOk (by norm_num) (by simp) hS
  obtain ⟨acts, s, h1, h2⟩ := Sweep.exists_finished (wellFormed (G0 := halfPlain) H A) (acyclic H A) (fun _ _ => 0) 0 0 0
  have hp : ∃ p, p ∈ W.ofRank 0 := by
    have hne := H.valid.nonempty (W.particles[0]'(by omega)) (List.getElem_mem _)
    obtain ⟨p, hp⟩ := List.exists_mem_of_ne_nil _ hne
    refine ⟨p, ?_⟩
    unfold World.ofRank
    rw [List.getD_eq_getElem?_getD, List.getElem?_eq_getElem (by omega)]
    exact hp
  obtain ⟨p, hp⟩ := hp
  have hcount := (sweep_solves_all H (by norm_num) (by simp) hS h1 h2 hp (d := 0) (by show 1 ≤ 2; norm_num)
    (by show 0 < 2; norm_num)).1
  obtain ⟨r, s1, s2, hr, hs⟩ := solved_step h1 (t := ⟨p.1, 0⟩) (List.count_pos_iff.1 (by rw [hcount]; norm_num))
  refine ⟨W, G, S, s1, s2, r, ⟨p.1, 0⟩, hl, H, hS, hs, ?_⟩
  exact sweep_conserves H (by norm_num) (by simp) hS (fun _ _ _ => by show 1 ≤ 2; norm_num) hr hs
    (by simp [halfPlain, half]) rfl

theorem Ready.exists_particle {W : World 3 Sweep.Id} {G : ℕ → List (Name Sweep.Id × Cell)} {periodic : Bool}
    (H : Ready 1 periodic W G) {r : ℕ} (hr : r < W.particles.length) : ∃ p, p ∈ W.ofRank r := by
  have hne := H.valid.nonempty (W.particles[r]'hr) (List.getElem_mem _)
  obtain ⟨p, hp⟩ := List.exists_mem_of_ne_nil _ hne
  refine ⟨p, ?_⟩
  unfold World.ofRank
  rw [List.getD_eq_getElem?_getD, List.getElem?_eq_getElem hr]
  exact hp

/-- `check_on_grid`: the check passes before the levels are changed and hangs after cells of even ranks have become
inactive. -/
example : ∃ (W : World 3 Sweep.Id) (G : ℕ → List (Name Sweep.Id × Cell)) (S S' : List Rank),
    W.particles.length = 1728 ∧ Ready 1 true W G ∧ afterUpdates 3 W.particles.length G [] = some S ∧
    afterUpdates 3 W.particles.length G twoUpdates = some S' ∧
    Sweep.checkDeadlock (sweepGrid half S) (Sweep.initState (sweepGrid half S) (fun _ _ => 0) 0 0 0) = .passed ∧
    Sweep.checkDeadlock (sweepGrid half S') (Sweep.initState (sweepGrid half S') (fun _ _ => 0) 0 0 0) = .hangs := by
  obtain ⟨W, G, hl, H⟩ := lattice_ready true
  obtain ⟨S, hS, -, -⟩ := levels_agree H (numLevels := 3) (updates := []) (by norm_num) (by simp)
  obtain ⟨S', hS', -, -⟩ := levels_agree H (numLevels := 3) (by norm_num) twoUpdates_lt
  refine ⟨W, G, S, S', hl, H, hS, hS',
    (check_on_grid H (by norm_num) (by simp) hS (by show 0 < 2; norm_num)).1 fun r hr => ?_,
    (check_on_grid H (by norm_num) twoUpdates_lt hS' (by show 0 < 2; norm_num)).2 0 1 (by omega) (fun p hp => ?_) ?_⟩
  · obtain ⟨p, hp⟩ := H.exists_particle hr
    exact ⟨p, hp, by show 1 ≤ 2; norm_num⟩
  · show (if p.1.rank % 2 = 0 then 0 else 2) < 1
    rw [if_pos (by rw [H.id_rank hp])]
    norm_num
  · obtain ⟨p, hp⟩ := H.exists_particle (r := 1) (by omega)
    refine ⟨p, hp, ?_⟩
    show 1 ≤ if p.1.rank % 2 = 0 then 0 else 2
    rw [if_neg (by rw [H.id_rank hp]; norm_num)]
    norm_num

/-- `ids_count_particles`: two ranks with three particles. -/
example : ((numbered 0 1 ⟨0, 1⟩ [[0], [0, 1]]).ofRank 1)[1]? = some (⟨1, 1⟩, 1) :=
  ((ids_count_particles 0 1 ⟨0, 1⟩ [[0], [0, 1]]).1 1 1).trans rfl

end Verif.Sim
