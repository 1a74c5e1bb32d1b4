import Mathlib.Data.Real.Archimedean
import Verif.IO.FileDistributionModel
import Verif.Domain.DecompositionModel
import Verif.Domain.ExchangeDataModel
import Verif.Peano.Model
import Verif.Sim.Model

/-!
# From the input files to the particles of the ranks

Puts together what happens between the start of the program and the construction of the grid: reading the datasets
(`/repo/src/io/input/mod.rs`), checking the positions (`/repo/src/simulation_plugin/mod.rs`), the keys
(`/repo/src/peano_hilbert.rs`), the domain decomposition (`/repo/src/domain/mod.rs`) and the exchange of the particles
(`/repo/src/domain/exchange_data_plugin.rs`).  The order of the stages is that of `/repo/src/simulation_plugin/stages.rs`
(`ReadInput`, `InsertDerivedComponents`, `Decomposition`, `SetOutgoingEntities`, `Exchange`, `AssignParticleIds`).

Component types are numbered, type `0` is the position.  Three dimensions.  Coordinates are real numbers.  `none` is a panic on
some rank.  Not part of the model: systems which insert further components before the exchange (they are further component
types of an entity and move like the others, C17), logging and the performance data.
-/

namespace Verif.Startup

open Verif.Geometry Verif.ExchangeData Verif.FileDist

/-! ### Keys of positions -/

/-- The number of the cell along one axis: `from_point_and_min_max` and `get_integer_position_3d`, peano_hilbert.rs lines 38-44
and 85-89.  `0.001` is exact here; the conversion `as u128` rounds towards zero and maps negative numbers to zero. -/
noncomputable def integerPos (lo hi x : ℝ) : ℕ :=
  let min := lo - (hi - lo) * 0.001
  let max := hi + (hi - lo) * 0.001
  ⌊(x - min) / (max - min) * 2 ^ 42⌋₊

/-- `into_key`, domain/key.rs lines 87-97, with `from_point_and_min_max` and `from_scaled_vec`, peano_hilbert.rs lines 85-94. -/
noncomputable def key (lo hi x : Vec 3 ℝ) : Option ℕ :=
  Peano.fromIntegerPos3d (integerPos (lo 0) (hi 0) (x 0)) (integerPos (lo 1) (hi 1) (x 1)) (integerPos (lo 2) (hi 2) (x 2))

/-! ### Reading -/

/-- `Reader::get_num_entities`, io/input/mod.rs lines 204-210, for a dataset of which `files` are the rows in every file. -/
def numEntities {V : Type} (files : List (List V)) (N r : ℕ) : Option ℕ :=
  (getRankInputAssignmentForRank (files.map List.length) N r).map fun rs => (rs.map Region.size).sum

/-- `spawn_entities_system` on rank `r`, io/input/mod.rs lines 310-340: the number of entities, which has to be the same for all
datasets.  Without datasets there are no entities.  The dataset with which the others are compared is the first one of a hash
map; which one that is makes no difference. -/
def spawn {V : Type} (columns : List (List (List V))) (N r : ℕ) : Option ℕ :=
  match columns with
  | [] => some 0
  | c :: _ =>
    match numEntities c N r with
    | none => none
    | some n => if columns.all fun c' => decide (numEntities c' N r = some n) then some n else none

/-- `read_dataset_system` for all datasets, io/input/mod.rs lines 342-359: row `e` of each dataset is inserted into entity `e`. -/
def readRank {V : Type} (columns : List (List (List V))) (N r : ℕ) : Option (Particles V) :=
  match spawn columns N r, columns.mapM fun files => readDataset files N r with
  | some n, some values => some ((List.range n).map fun e => (e, fun c => (values[c]?).bind fun l => l[e]?))
  | _, _ => none

/-! ### All ranks -/

/-- What does not change: the simulation box, how a value of component type `0` is a position, and the `binary_search` of the
standard library. -/
structure Setup (V : Type) where
  lo : Vec 3 ℝ
  hi : Vec 3 ℝ
  place : V → Vec 3 ℝ
  search : List ℕ → ℕ → Decomp.Search

variable {V : Type}

/-- The position of an entity. -/
def Setup.position (S : Setup V) (a : Comps V) : Option (Vec 3 ℝ) := (a 0).map S.place

/-- `Extent::contains`, domain/extent.rs lines 302-309. -/
def Setup.Contains (S : Setup V) (x : Vec 3 ℝ) : Prop := ∀ i, S.lo i ≤ x i ∧ x i ≤ S.hi i

open Classical in
/-- `check_particles_in_simulation_box_system`, simulation_plugin/mod.rs lines 111-122, on all ranks. -/
noncomputable def Setup.checked (S : Setup V) (world : List (Particles V)) : Bool :=
  world.all fun ps => ps.all fun p => decide (∃ x, S.position p.2 = some x ∧ S.Contains x)

/-- The key of an entity. -/
noncomputable def Setup.keyOf (S : Setup V) (a : Comps V) : Option ℕ := (S.position a).bind (key S.lo S.hi)

/-- `decomposition.get_owning_rank(pos.into_key(&*box_))`, domain/mod.rs lines 171-173.  The default is not used: entities
without a key have led to a panic before. -/
noncomputable def Setup.owner (S : Setup V) (cuts : List ℕ) (a : Comps V) : ℕ :=
  Decomp.owningRank S.search cuts ((S.keyOf a).getD 0)

/-- The stages up to the domain decomposition on `N` ranks: `domain_decomposition_system`, domain/mod.rs lines 150-160.  Keys are
`u128`, `MAX_DEPTH` is 42 (domain/key.rs line 42).  The entities of the ranks and the cuts. -/
noncomputable def Setup.decompose (S : Setup V) (N : ℕ) (columns : List (List (List V))) : Option (List (Particles V) × List ℕ) :=
  match (List.range N).mapM (readRank columns N) with
  | none => none
  | some world =>
    if S.checked world then
      match world.mapM fun ps => ps.mapM fun p => S.keyOf p.2 with
      | none => none
      | some keys => (Decomp.decompose S.search (2 ^ 128 - 1) 42 keys).map fun d => (world, d.1)
    else none

/-- The stages up to the exchange on `N` ranks, with `set_outgoing_entities_system`, domain/mod.rs lines 162-178.  The next unused
entity of a rank is the one after those which were spawned. -/
noncomputable def Setup.startup (S : Setup V) (N : ℕ) (columns : List (List (List V))) : Option (List (Particles V)) :=
  match S.decompose N columns with
  | none => none
  | some (world, cuts) => exchangeStage columns.length (S.owner cuts) (fun r => (world.getD r []).length) world

end Verif.Startup
