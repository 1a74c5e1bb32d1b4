import Verif.Sim.Model
import Verif.Sweep.OverlapSpec
import Verif.Timestep.Model

/-!
# A whole simulation

Models repeated calls of `run_sweep_system` (`/repo/src/sweep/mod.rs` lines 694-741) with `run_sweeps` (lines 258-273) on the
grid which the ranks have built: the cells are counted, the sweeps of all levels follow each other without a barrier
(`Verif/Sweep/OverlapModel`), the time and the allowed levels advance, the new levels are chosen and communicated
(`Verif/Sim/Model`), and the directions may be rotated.  The calls are separated by collective calls (`all_gather_sum` in
`count_cells_global`), for which all ranks have to be at the same place.  `none` is a panic.

Not part of the model: timers, messages to the user, components which are only written for the output.
-/

namespace Verif.Sim

open Verif.Parallel

/-- What the sweep does not decide itself.  The state `C` of a cell stands for the species, the previous rate and the time
scale of its `Site`. -/
structure Physics (R C : Type) where
  numDirs : ℕ
  /-- the directions during each call; they differ if they are rotated in between -/
  dir : ℕ → ℕ → Sweep.V3 ℝ
  /-- `remap` of the rates of one cell after each call, sweep/direction/mod.rs lines 158-174 -/
  rotate : ℕ → List R → List R
  batch : ℕ
  source : Sweep.Id → R
  makePositive : R → R
  /-- `Chemistry::get_outgoing_rate` -/
  absorb : C → Sweep.Id → R → R
  /-- the body of the loop of `update_chemistry` for a time step, sweep/mod.rs lines 551-571 -/
  react : ℝ → Sweep.Id → C → List R → List R → C
  /-- `change_timescale`, which is infinite if nothing changes -/
  timescale : C → WithTop ℝ
  /-- `timestep_safety_factor` -/
  safety : ℝ

/-- All ranks between two calls of `run_sweep_system`. -/
structure Whole (R C : Type) where
  /-- number of calls -/
  calls : ℕ
  /-- `timestep_state`, which is the same on all ranks -/
  ts : Timestep.State
  ranks : List Rank
  /-- the sites of all ranks -/
  cells : Sweep.Rates R C
  /-- `SimulationTime` -/
  time : ℝ

/-- `count_cells_global`, sweep/mod.rs lines 234-238, with `all_gather_sum`. -/
def countCells (S : List Rank) (level : ℕ) : Option ℕ :=
  (S.mapM fun s => (ActiveList.enumerateActive s.cells level).map List.length).map List.sum

/-- The levels of the sweeps, sweep/mod.rs lines 259-266 and 240-245: those with an active cell on some rank; `counts[level.0]`
panics out of bounds. -/
def sweptLevels (ts : Timestep.State) (S : List Rank) : Option (List ℕ) :=
  match (List.range ts.maxNumLevels).mapM (countCells S) with
  | none => none
  | some counts =>
    match ts.iterLevelsInSweepOrder with
    | none => none
    | some levels =>
      (levels.mapM fun l => (counts[l]?).map fun n => (l, n)).map fun ls => (ls.filter fun e => decide (0 < e.2)).map Prod.fst

/-- `get_desired_level_from_desired_timestep` (timestep_state.rs lines 54-64) for a time which can be infinite: the ratio of
the time steps is zero, its logarithm is `-∞`, the level is zero before the bounds are applied. -/
noncomputable def desiredLevel (ts : Timestep.State) : WithTop ℝ → Option ℕ
  | ⊤ => if ts.maxNumLevels = 0 then none else some ts.currentLowestAllowed
  | (t : ℝ) => ts.getDesiredLevel t

section
variable {R C : Type} [AddCommGroup R] [Module ℝ R]

/-- The constant part of the grid in call `n`; `current` and `absorb` are those of the sweeps. -/
def Physics.grid (Ph : Physics R C) (n : ℕ) : Sweep.Grid ℝ R where
  numRanks := 0
  numDirs := Ph.numDirs
  cells := ∅
  nbrs := fun _ => []
  dir := Ph.dir n
  level := fun _ => 0
  haloLevel := fun _ _ => 0
  current := 0
  absorb := fun _ r => r
  source := Ph.source
  makePositive := Ph.makePositive
  batch := Ph.batch

/-- The sweeps of one call of `run_sweeps`: `update_chemistry` uses the time step of the level of the cell
(`timestep_at_level`, timestep_state.rs lines 50-52). -/
noncomputable def sequence (Ph : Physics R C) (w : Whole R C) (levels : List ℕ) : Sweep.Sequence ℝ R C where
  base := sweepGrid (Ph.grid w.calls) w.ranks
  num := levels.length
  level := fun k => levels.getD k 0
  absorb := Ph.absorb
  react := fun _ id => Ph.react (Timestep.toTimestep ((levelOn w.ranks id.rank id).getD 0) w.ts.maxTimestep) id

/-- `remap` for all cells, sweep/direction/mod.rs lines 169-173. -/
def Physics.turn (Ph : Physics R C) (n : ℕ) (c : Sweep.Rates R C) : Sweep.Rates R C :=
  let f : (Sweep.Id → ℕ → R) → Sweep.Id → ℕ → R := fun x id d => (Ph.rotate n ((List.range Ph.numDirs).map (x id))).getD d 0
  { c with inc := f c.inc, out := f c.out, per := f c.per }

/-- One call of `run_sweep_system`: `O` is the state in which the ranks have left the last sweep, `desired` are the levels
which `update_timestep_levels` chooses, sweep/mod.rs lines 571-585. -/
inductive Call (Ph : Physics R C) (w : Whole R C) : Whole R C → Prop
  | mk (levels : List ℕ) (O : Sweep.Overlap R C) (desired : Sweep.Id → ℕ) (ranks : List Rank) :
      sweptLevels w.ts w.ranks = some levels →
      Sweep.OReach (sequence Ph w levels) w.cells O → (sequence Ph w levels).Done O →
      (∀ u, desiredLevel w.ts.advanceAllowedLevels
        ((Ph.timescale (((sequence Ph w levels).result O).chem u)).map (Ph.safety * ·)) = some (desired u)) →
      updateTimestepLevels desired w.ranks = some ranks →
      Call Ph w
        { calls := w.calls + 1
          ts := w.ts.advanceAllowedLevels
          ranks := ranks
          cells := Ph.turn w.calls ((sequence Ph w levels).result O)
          time := w.time + w.ts.currentMaxTimestep }

/-- `init_sweep_system` on all ranks, when the grid of rank `r` is `G r` for `r < N`: no rates yet (`Site::new`, sweep/site.rs
lines 26-42). -/
noncomputable def firstState (maxTimestep : ℝ) (numLevels N : ℕ) (G : ℕ → List (Name Sweep.Id × Cell)) (chem : Sweep.Id → C) :
    Option (Whole R C) :=
  match Timestep.State.new maxTimestep numLevels with
  | none => none
  | some ts =>
    match startAll numLevels N G with
    | none => none
    | some S => some ⟨0, ts, S, ⟨fun _ _ => 0, fun _ _ => 0, fun _ _ => 0, fun _ _ => 0, chem⟩, 0⟩

/-- The states between the calls which the simulation can reach, whatever the schedules of the sweeps are. -/
inductive Simulated (Ph : Physics R C) (w0 : Whole R C) : Whole R C → Prop
  | refl : Simulated Ph w0 w0
  | call (w w' : Whole R C) : Simulated Ph w0 w → Call Ph w w' → Simulated Ph w0 w'

end

end Verif.Sim
