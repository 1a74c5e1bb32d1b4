import Mathlib.Data.List.Basic
import Mathlib.Logic.Relation

/-!
# Building the simulation from plugins

Model of `Simulation::add_plugin` (`/repo/src/simulation/mod.rs` lines 91-123), `SubsweepPlugin`
(`/repo/src/simulation/subsweep_plugin.rs`), `validate` and the ordered systems.

The hooks of a plugin are arbitrary code: they change the world (resources, systems, parameters) and add
further plugins. Calls nest, so the model is a machine with a stack of what is still to be done; hooks which
add plugins without end simply never finish.
-/

namespace Verif.Plugins

/-- The hooks of a plugin (`subsweep_plugin.rs` lines 21-44). -/
inductive Hook where
  | alwaysOnce
  | onceEverywhere
  | onceOnMainRank
  | onceOnOtherRanks
  | everywhere
  | onMainRank
  | onOtherRanks
deriving DecidableEq, Repr

/-- A statement in the body of a hook: a change of the world or the addition of a plugin. -/
inductive Statement (P W : Type) where
  | change (f : W → W)
  | addPlugin (plugin : P)

/-- The plugins of a program: the trait `SubsweepPlugin` with `Named::name`. `mainRank` of a world is `none`
without world rank resource (`has_world_rank`, `on_main_rank`, `simulation/mod.rs` lines 359-371). -/
structure Program (P W N : Type) where
  name : P → N
  shouldBuild : P → W → Bool
  allowAddingTwice : P → Bool
  body : P → Hook → List (Statement P W)
  mainRank : W → Option Bool

/-- What is still to be done. -/
inductive Task (P W : Type) where
  /-- A statement of a hook or of the program itself. -/
  | statement (s : Statement P W)
  /-- Call a hook. -/
  | call (plugin : P) (hook : Hook)
  /-- Lines 100-105 of `add_plugin`. -/
  | decide (plugin : P) (alreadyAdded : Bool)
  /-- Lines 108-113 (`once`) and 116-121: choose the hook by rank. -/
  | byRank (plugin : P) (once : Bool)

/-- The simulation under construction: `labels`, everything else (`world`), the stack, and a log of the hooks
called, latest first, which exists only in the model. -/
structure Machine (P W N : Type) where
  labels : List N
  world : W
  stack : List (Task P W)
  log : List (N × Hook)

variable {P W N : Type} [DecidableEq N]

/-- One step; `none` is the panic "Added twice". An empty stack does nothing. -/
def step (prog : Program P W N) (m : Machine P W N) : Option (Machine P W N) :=
  match m.stack with
  | [] => some m
  | .statement (.change f) :: rest => some { m with world := f m.world, stack := rest }
  | .statement (.addPlugin p) :: rest =>
    -- `already_added` (lines 91-93) inserts the label; lines 96-99
    let alreadyAdded := decide (prog.name p ∈ m.labels)
    let labels := if alreadyAdded then m.labels else prog.name p :: m.labels
    let first := if alreadyAdded then [] else [Task.call p .alwaysOnce]
    some { m with labels := labels, stack := first ++ .decide p alreadyAdded :: rest }
  | .decide p alreadyAdded :: rest =>
    -- lines 100-102
    if !prog.shouldBuild p m.world then some { m with stack := rest }
    -- lines 103-105
    else if !prog.allowAddingTwice p && alreadyAdded then none
    -- lines 106-121
    else
      let once := if alreadyAdded then [] else [.call p .onceEverywhere, .byRank p true]
      some { m with stack := once ++ .call p .everywhere :: .byRank p false :: rest }
  | .call p hook :: rest =>
    some { m with
      stack := (prog.body p hook).map .statement ++ rest
      log := (prog.name p, hook) :: m.log }
  | .byRank p once :: rest =>
    match prog.mainRank m.world with
    | none => some { m with stack := rest }
    | some true =>
      some { m with stack := .call p (if once then .onceOnMainRank else .onMainRank) :: rest }
    | some false =>
      some { m with stack := .call p (if once then .onceOnOtherRanks else .onOtherRanks) :: rest }

/-- A fresh simulation about to run the statements of the program. -/
def initial (world : W) (main : List (Statement P W)) : Machine P W N :=
  ⟨[], world, main.map .statement, []⟩

/-- Machines reached by finitely many steps. -/
def Reachable (prog : Program P W N) (world : W) (main : List (Statement P W)) (m : Machine P W N) : Prop :=
  Relation.ReflTransGen (fun m m' => step prog m = some m') (initial world main) m

/-! ### Parameter sections and ordered systems -/

/-- `Simulation::validate` (`simulation/mod.rs` lines 473-498): `false` is the panic. -/
def validate {S : Type} [DecidableEq S] (visualization : S) (inFile registered : List S) : Bool :=
  let unused := inFile.filter fun s => s ∉ registered
  if unused.length = 1 ∧ unused[0]? = some visualization then true
  else unused.isEmpty

/-- A system added to a stage: its label and the labels it has to run after. -/
structure SystemDescriptor (L : Type) where
  label : L
  after : List L

/-- `add_well_ordered_system_to_stage` (`simulation/mod.rs` lines 200-230; 237-267 is the same for startup
stages): the labels registered for the marker so far, and the systems of the stage. -/
def addWellOrdered {L : Type} (state : List L × List (SystemDescriptor L)) (label : L) :
    List L × List (SystemDescriptor L) :=
  let (labels, systems) := state
  match labels with
  | [] => (labels ++ [label], systems ++ [⟨label, []⟩])
  | first :: _ => (labels ++ [label], systems ++ [⟨label, first :: labels⟩])

end Verif.Plugins
