import Verif.Parallel.Model3
import Verif.Sweep.Model
import Verif.Timestep.ActiveListModel

/-!
# From the grid of all ranks to the sweep

Models `determine_particle_ids_system` (`/repo/src/domain/mod.rs`), `init_sweep_system`, `Sweep::new`, `get_level`,
`update_timestep_levels` and `communicate_levels` (`/repo/src/sweep/mod.rs`), and puts the grid which the ranks have built
(`Verif/Parallel`) into the model of the sweep (`Verif/Sweep`).  `none` is a panic.
-/

namespace Verif.Sim

open Verif.Geometry Verif.Parallel

/-- `determine_particle_ids_system` on one rank, domain/mod.rs lines 117-133: the particles are counted.  The index is a
`u32` in the code, here it is not bounded. -/
def assignIds (rank : ℕ) (xs : List (Vec 3 ℝ)) : List (Sweep.Id × Vec 3 ℝ) :=
  xs.zipIdx.map fun e => (⟨rank, e.2⟩, e.1)

/-- The particles of all ranks with their ids, `positions` are those on every rank. -/
def numbered (lo hi : Vec 3 ℝ) (cfg : Quadtree.Config) (positions : List (List (Vec 3 ℝ))) : World 3 Sweep.Id :=
  ⟨lo, hi, cfg, positions.zipIdx.map fun e => assignIds e.2 e.1⟩

/-- The id in the model of `ActiveList`. -/
def key (u : Sweep.Id) : ActiveList.Id := ⟨u.rank, u.idx⟩

/-- The cells of the grid. -/
abbrev Cell := SweepCell Sweep.Id

/-- The fields `cells` and `halo_levels` of `Sweep`, sweep/mod.rs lines 172-192.  `sites` has the same ids and levels as
`cells`. -/
structure Rank where
  cells : ActiveList.AL Cell
  halo : Sweep.Id → Option ℕ

/-- Insertion of entries into a hash map, one after the other. -/
def insertAll (m : Sweep.Id → Option ℕ) (l : List (Sweep.Id × ℕ)) : Sweep.Id → Option ℕ :=
  l.foldl (fun m e => Function.update m e.1 (some e.2)) m

/-- `init_sweep_system` and `Sweep::new`, sweep/mod.rs lines 634-692 and 195-235: the local cells in an `ActiveList` and the
level of all haloes; `num_timestep_levels - 1` overflows for zero levels. -/
def start (numLevels : ℕ) (cells : List (Sweep.Id × Cell)) (haloIds : List Sweep.Id) : Option Rank :=
  if numLevels = 0 then none
  else
    match ActiveList.new (cells.map fun e => (key e.1, e.2)) numLevels (numLevels - 1) with
    | none => none
    | some a => some ⟨a, insertAll (fun _ => none) (haloIds.map fun i => (i, numLevels - 1))⟩

/-- `Sweep::get_level` on rank `r`, sweep/mod.rs lines 400-406; the hash map panics for an unknown id. -/
def Rank.getLevel (s : Rank) (r : ℕ) (u : Sweep.Id) : Option ℕ :=
  if u.rank = r then ActiveList.getLevel s.cells (key u) else s.halo u

/-- The ranks of the neighbours to which levels are sent, sweep/mod.rs lines 595-599. -/
def remoteRank : Name Sweep.Id → Option ℕ
  | .halo (.remote _ r) => some r
  | .halo (.remotePeriodic _ r _) => some r
  | _ => none

/-- `ActiveList::enumerate_with_levels`, active_list.rs lines 68-74. -/
def enumerateWithLevels (a : ActiveList.AL Cell) : List (Sweep.Id × ℕ × Cell) :=
  (List.zip a.levels a.items).mapIdx fun i e => (⟨a.rank, i⟩, e.1, e.2)

/-- What `communicate_levels` sends to rank `q`, sweep/mod.rs lines 587-602. -/
def outgoing (s : Rank) (q : ℕ) : List (Sweep.Id × ℕ) :=
  (enumerateWithLevels s.cells).flatMap fun e =>
    (e.2.2.neighbours.filter fun f => decide (remoteRank f.2.2 = some q)).map fun _ => (e.1, e.2.1)

/-- The index into `DataByRank` is the one of another rank (data_by_rank.rs), otherwise there is a panic. -/
def targetsOk (N r : ℕ) (s : Rank) : Bool :=
  s.cells.items.all fun c => c.neighbours.all fun f =>
    match remoteRank f.2.2 with
    | some q => decide (q < N ∧ q ≠ r)
    | none => true

/-- The loop and the update of the bins in `update_timestep_levels` on one rank, sweep/mod.rs lines 571-582: `desired` is the
level which is chosen for a cell (`get_desired_level_from_desired_timestep`). -/
def updateLocal (desired : Sweep.Id → ℕ) (s : Rank) : Option Rank :=
  match (List.range s.cells.items.length).foldlM
      (fun a i => ActiveList.setLevel a ⟨s.cells.rank, i⟩ (desired ⟨s.cells.rank, i⟩)) s.cells with
  | none => none
  | some a =>
    match ActiveList.updateBins a with
    | none => none
    | some b => some { s with cells := b }

/-- What rank `r` receives in `communicate_levels`: from the other ranks in their order, what they have sent
(`exchange_all`, see C10). -/
def incoming (S : List Rank) (r : ℕ) : List (Sweep.Id × ℕ) :=
  (Sweep.others S.length r).flatMap fun q => match S[q]? with | some s => outgoing s r | none => []

/-- `communicate_levels` on all ranks, sweep/mod.rs lines 587-608. -/
def communicateLevels (S : List Rank) : Option (List Rank) :=
  if S.zipIdx.all fun e => targetsOk S.length e.2 e.1 then
    some (S.mapIdx fun r s => { s with halo := insertAll s.halo (incoming S r) })
  else none

/-- `update_timestep_levels` on all ranks, sweep/mod.rs lines 571-585. -/
def updateTimestepLevels (desired : Sweep.Id → ℕ) (S : List Rank) : Option (List Rank) :=
  match S.mapM (updateLocal desired) with
  | none => none
  | some S' => communicateLevels S'

/-- The ranks at the start, when the grid of rank `r` is `G r` for `r < N`. -/
def startAll (numLevels N : ℕ) (G : ℕ → List (Name Sweep.Id × Cell)) : Option (List Rank) :=
  (List.range N).mapM fun r => start numLevels (localCells (G r)) ((haloParticles (G r)).map Prod.snd)

/-- The ranks after the levels have been updated several times (once after every call of `run_sweeps`, sweep/mod.rs lines
258-273). -/
def afterUpdates (numLevels N : ℕ) (G : ℕ → List (Name Sweep.Id × Cell)) (updates : List (Sweep.Id → ℕ)) :
    Option (List Rank) :=
  match startAll numLevels N G with
  | none => none
  | some S => updates.foldlM (fun S f => updateTimestepLevels f S) S

/-! ### The grid of the sweep -/

/-- The type of a neighbour in the model of the sweep, which stores the rank of a neighbour once and leaves out the wrap
type. -/
def neighbour : Name Sweep.Id → Sweep.Neighbour
  | .own id => .loc id
  | .halo (.remote id _) => .remote id
  | .halo (.localPeriodic id _) => .locPeriodic id
  | .halo (.remotePeriodic id _ _) => .remotePeriodic id
  | .boundary => .boundary

/-- A face in the model of the sweep. -/
def face (f : ℝ × Predicates.P3 ℝ × Name Sweep.Id) : Sweep.Face ℝ × Sweep.Neighbour :=
  (⟨f.1, ⟨f.2.1.x, f.2.1.y, f.2.1.z⟩⟩, neighbour f.2.2)

/-- The cell of `u` on its rank. -/
def cellOf (S : List Rank) (u : Sweep.Id) : Option Cell :=
  match S[u.rank]? with
  | some s => ActiveList.get s.cells (key u)
  | none => none

/-- The level which rank `r` knows of `u`. -/
def levelOn (S : List Rank) (r : ℕ) (u : Sweep.Id) : Option ℕ :=
  match S[r]? with
  | some s => s.getLevel r u
  | none => none

/-- The grid for the model of one sweep: cells, neighbours and levels are those of the ranks, the rest (directions,
chemistry, sources, ...) is the one of `G0`.  The defaults for what does not exist are never used (`levels_agree`). -/
def sweepGrid {R : Type} (G0 : Sweep.Grid ℝ R) (S : List Rank) : Sweep.Grid ℝ R :=
  { G0 with
    numRanks := S.length
    cells := ((List.range S.length).flatMap fun r =>
      match S[r]? with
      | some s => (List.range s.cells.items.length).map (Sweep.Id.mk r)
      | none => []).toFinset
    nbrs := fun u => match cellOf S u with | some c => c.neighbours.map face | none => []
    level := fun u => (levelOn S u.rank u).getD 0
    haloLevel := fun r u => (levelOn S r u).getD 0 }

end Verif.Sim
