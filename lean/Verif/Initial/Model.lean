import Verif.Units.Model

/-!
# The physical state of the particles at the start of a run

Model of the startup systems of `/repo/src/main.rs` which give the particles their physical state, with those which they
depend on: `/repo/src/io/input/mod.rs`, `/repo/src/domain/exchange_data_plugin.rs`,
`/repo/src/arepo_postprocess/remap.rs`, `/repo/src/source_systems.rs`, `/repo/src/simulation_plugin/mod.rs` and
`/repo/src/sweep/mod.rs`.

A system runs over all entities which have the components of its query and skips all others without a word.  Values which a
system changes through a query change at once; components which it inserts or removes through `Commands` only change at the end
of the stage.  In which order the systems of a stage run is left to the scheduler, except for declared constraints.

One particle is modelled: none of these systems, apart from the searches of the remapping (C39) and of the sources (C19, C104) and
the construction of the grid (C84), lets one particle influence another one.  Positions and ids are not part of the model, they
do not change here.  Floating point numbers are real numbers.
-/

namespace Verif.Initial

/-- The component types (components.rs, main.rs lines 133-141, sweep/grid/cell.rs).  `cell` stands for the volume of the cell. -/
inductive Comp
  | localParticle | density | internalEnergy | electronAbundance | fraction | source | photonRate | temperature | mass | cell
  deriving DecidableEq

/-- The components of an entity; `none`: the entity does not have the component. -/
abbrev Comps := Comp → Option ℝ

/-- `commands.entity(entity).insert(..)`. -/
def insert (c : Comp) (v : ℝ) (x : Comps) : Comps := fun d => if d = c then some v else x d

/-- `commands.entity(entity).remove::<C>()`. -/
def remove (c : Comp) (x : Comps) : Comps := fun d => if d = c then none else x d

/-- What the systems know about one particle besides its components. -/
structure Env where
  /-- `parameters.initial_fraction_ionized_hydrogen`, arepo_postprocess/mod.rs -/
  initialFraction : Option ℝ
  /-- the entries of the input files for this particle -/
  row : Comp → ℝ
  /-- the particle is sent to another rank in the exchange -/
  moves : Bool
  /-- temperature and ionized fraction of the nearest particle of the snapshot to be remapped (C39); `none` without remapping -/
  remap : Option (ℝ × ℝ)
  /-- the volume of the cell of this particle (C84) -/
  volume : ℝ
  /-- the rates of the sources this particle is the nearest one of (C19, C104) -/
  sources : List ℝ

/-- The systems. -/
inductive Sys
  | spawn | read (c : Comp)
  | insertFraction
  | setFraction | insertMissing
  | exchange
  | remap
  | constructGrid | removeEnergy | removeElectrons
  | cellMass | setSources
  deriving DecidableEq

/-- The component types which move with a particle: those added with `add_derived_component` or as required component
(sweep/mod.rs lines 121-126; `add_component`, simulation/mod.rs lines 417-440, adds the `ExchangeDataPlugin`).  Internal energy
and electron abundance are only read (main.rs lines 73-83 and 122-130), they stay behind. -/
def exchanged : Comp → Bool
  | .localParticle | .density | .fraction | .source | .photonRate | .temperature | .mass => true
  | _ => false

/-- `f64::clamp`. -/
noncomputable def clamp (lo hi x : ℝ) : ℝ := if x < lo then lo else if hi < x then hi else x

/-- What a system changes at once.

* `set_initial_ionized_fraction_from_electron_abundance_system`, main.rs lines 204-217;
* `remap_abundances_and_energies_system` and `remap_from`, arepo_postprocess/remap.rs lines 166-214 and 380-429;
* `set_source_terms_system`, source_systems.rs lines 48-84. -/
noncomputable def now (e : Env) : Sys → Comps → Comps
  | .setFraction, x =>
    match e.initialFraction, x .localParticle, x .electronAbundance, x .fraction with
    | none, some _, some xe, some _ => insert .fraction (clamp (1e-10) (1 - 1e-10) (0.76 * xe)) x
    | _, _, _, _ => x
  | .remap, x =>
    match e.remap, x .localParticle, x .temperature, x .fraction with
    | some (t, f), some _, some _, some _ => insert .fraction f (insert .temperature t x)
    | _, _, _, _ => x
  | .setSources, x =>
    match x .localParticle, x .source with
    | some _, some s => insert .source (e.sources.foldl (· + ·) s) x
    | _, _ => x
  | _, x => x

/-- What a system does through `Commands`: from the components it sees, the change at the end of the stage.

* `spawn_entities_system` and `read_dataset_system`, io/input/mod.rs lines 310-359;
* `insert_initial_ionized_fraction_system`, main.rs lines 176-191;
* `insert_missing_components_system`, main.rs lines 152-174;
* the exchange, domain/exchange_data_plugin.rs lines 113-204: a particle which moves is despawned and one with the components
  which are exchanged is spawned on the other rank (C17);
* `construct_grid_system`, voronoi/constructor/parallel/plugin.rs lines 70-127;
* `remove_components_system`, simulation_plugin/mod.rs lines 171-178;
* `compute_cell_mass_system`, main.rs lines 193-202. -/
noncomputable def later (e : Env) : Sys → Comps → Comps → Comps
  | .spawn, _ => insert .localParticle 0
  | .read c, _ => insert c (e.row c)
  | .insertFraction, x =>
    match x .localParticle with
    | some _ => insert .fraction (e.initialFraction.getD 0)
    | none => id
  | .insertMissing, x =>
    match x .localParticle, x .fraction, x .internalEnergy, x .density with
    | some _, some f, some u, some rho => fun y =>
      insert .mass 0 (insert .temperature (Units.temperatureFromEnergyDensity (u * rho) f rho)
        (insert .source 0 (insert .photonRate 0 y)))
    | _, _, _, _ => id
  | .exchange, x => if e.moves then fun _ c => if exchanged c then x c else none else id
  | .constructGrid, x =>
    match x .localParticle with
    | some _ => insert .cell e.volume
    | none => id
  | .removeEnergy, x => if (x .localParticle).isSome && (x .internalEnergy).isSome then remove .internalEnergy else id
  | .removeElectrons, x =>
    if (x .localParticle).isSome && (x .electronAbundance).isSome then remove .electronAbundance else id
  | .cellMass, x =>
    match x .localParticle, x .density, x .cell with
    | some _, some rho, some v => insert .mass (rho * v)
    | _, _, _ => id
  | _, _ => id

/-- One stage: the systems in the order `order`, then the commands in the same order (`SystemStage` of bevy). -/
noncomputable def runStage (e : Env) (order : List Sys) (x : Comps) : Comps :=
  let r := order.foldl (fun (st : Comps × List (Comps → Comps)) s => (now e s st.1, st.2 ++ [later e s st.1])) (x, [])
  r.2.foldl (fun y f => f y) r.1

/-- The systems of the stages `Initial`, `ReadInput`, `InsertDerivedComponents`, `Exchange`, `Remap`, `InsertGrid` and
`InsertComponentsAfterGrid` (simulation_plugin/mod.rs lines 46-61, main.rs lines 72-131, source_systems.rs lines 92-101;
the grid is constructed, not read).  Stages and systems which do not touch these components are left out.  The electron abundance
is only read if there is no initial fraction. -/
def stages (e : Env) : List (List Sys) :=
  [ [.spawn, .read .density, .read .internalEnergy] ++
      (if e.initialFraction.isNone then [.read .electronAbundance] else []),
    [.insertFraction],
    [.setFraction, .insertMissing],
    [.exchange],
    [.remap],
    [.constructGrid, .removeEnergy, .removeElectrons],
    [.cellMass, .setSources] ]

/-- The declared constraints within a stage: `read_dataset_system` after `spawn_entities_system` (io/input/mod.rs lines 155-160)
and `insert_missing_components_system` after `set_initial_ionized_fraction_from_electron_abundance_system` (main.rs lines
95-99). -/
def before : Sys → Sys → Bool
  | .spawn, .read _ => true
  | .setFraction, .insertMissing => true
  | _, _ => false

/-- The orders in which the scheduler may run the systems of a stage. -/
def Allowed (systems order : List Sys) : Prop :=
  order.Perm systems ∧ order.Pairwise fun a b => before b a = false

/-- A whole startup of a particle; at the beginning the entity does not exist. -/
noncomputable def run (e : Env) (schedule : List (List Sys)) : Comps :=
  schedule.foldl (fun x order => runStage e order x) fun _ => none

/-- What `init_sweep_system` makes of a particle (sweep/mod.rs lines 634-675): density, ionized fraction, temperature and source of
its site.  A particle which lacks a component has no site. -/
def site (x : Comps) : Option (ℝ × ℝ × ℝ × ℝ) :=
  match x .localParticle, x .density, x .fraction, x .temperature, x .source with
  | some _, some rho, some f, some t, some s => some (rho, f, t, s)
  | _, _, _, _, _ => none

end Verif.Initial
