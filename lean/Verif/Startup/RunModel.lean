import Verif.Startup.Model
import Verif.Sim.WholeModel

/-!
# The whole program: from the input files to the snapshots

The startup (`Verif/Startup/Model`) followed by the numbering of the particles, the construction of the grid
(`Verif/Parallel`), the simulation (`Verif/Sim`) and the writing of a snapshot (`Verif/IO`).
-/

namespace Verif.Startup

open Verif.Geometry Verif.ExchangeData Verif.FileDist Verif.Parallel Verif.Sim

variable {V R C : Type}

/-- The world in which the grid is constructed: `determine_particle_ids_system` and `construct_quad_tree_system`, domain/mod.rs
lines 117-133 and 75-90, when `rows` are the components of the particles of every rank in the order of the query.  The default
is not used, all particles have a position. -/
def Setup.world (S : Setup V) (cfg : Quadtree.Config) (rows : List (List (Comps V))) : World 3 Sweep.Id :=
  numbered S.lo S.hi cfg (rows.map fun l => l.map fun a => (S.position a).getD 0)

/-- The components of the particle with id `u`. -/
def rowOf (rows : List (List (Comps V))) (u : Sweep.Id) : Comps V := (rows.getD u.rank []).getD u.idx fun _ => none

/-- Volume and size of the cell with id `u`; the fields of `Cell` which the chemistry uses (sweep/grid/cell.rs lines 93-97). -/
noncomputable def sizesOf (G : ℕ → List (Name Sweep.Id × Cell)) (u : Sweep.Id) : ℝ × ℝ :=
  match (localCells (G u.rank)).lookup u with
  | some c => (c.volume, c.size)
  | none => (0, 0)

/-- The parameters of a run and its chemistry, as functions of the components of a particle and of its cell
(`Site::new`, sweep/site.rs lines 26-42, `init_sweep_system`, sweep/mod.rs lines 634-692, and the methods of `Chemistry`,
chemistry/mod.rs). -/
structure Chemistry (V R C : Type) where
  numDirs : ℕ
  dir : ℕ → ℕ → Sweep.V3 ℝ
  rotate : ℕ → List R → List R
  makePositive : R → R
  /-- the state of a cell at the start -/
  init : Comps V → ℝ × ℝ → C
  absorb : C → Comps V → ℝ × ℝ → R → R
  react : ℝ → Comps V → ℝ × ℝ → C → List R → List R → C
  timescale : C → WithTop ℝ
  safety : ℝ

/-- The same for the particles of the ranks of one run.  The sources are those of the cells of this run
(`set_source_terms_system`, source_systems.rs line 48, see C19). -/
noncomputable def Chemistry.physics (M : Chemistry V R C) (batch : ℕ) (source : Sweep.Id → R) (rows : List (List (Comps V)))
    (G : ℕ → List (Name Sweep.Id × Cell)) : Physics R C where
  numDirs := M.numDirs
  dir := M.dir
  rotate := M.rotate
  batch := batch
  source := source
  makePositive := M.makePositive
  absorb := fun c u => M.absorb c (rowOf rows u) (sizesOf G u)
  react := fun dt u => M.react dt (rowOf rows u) (sizesOf G u)
  timescale := M.timescale
  safety := M.safety

/-- What the ranks write for an output dataset (or several together) whose value for a particle is a function `field` of its
components, its cell, its state and its rates: one list for every rank (`write_dataset_system`, io/output/mod.rs lines 288-315). -/
noncomputable def outputData {B : Type} (numDirs : ℕ) (field : Comps V → ℝ × ℝ → C → List R → B) (rows : List (List (Comps V)))
    (G : ℕ → List (Name Sweep.Id × Cell)) (w : Whole R C) : List (List B) :=
  rows.zipIdx.map fun l => l.1.zipIdx.map fun a =>
    field a.1 (sizesOf G ⟨l.2, a.2⟩) (w.cells.chem ⟨l.2, a.2⟩) ((List.range numDirs).map (w.cells.inc ⟨l.2, a.2⟩))

end Verif.Startup
