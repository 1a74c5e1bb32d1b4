import Verif.Comm.DataByRankModel

/-!
# Moving particles between ranks: model of `/repo/src/domain/exchange_data_plugin.rs`

Models `set_outgoing_entities_system` and `determine_particle_ids_system` of
`/repo/src/domain/mod.rs` (lines 163-178 and 117-132) and the systems of the `Exchange` stage in
`/repo/src/domain/exchange_data_plugin.rs`.

* The particles of a rank are a list of entities (numbers) with their components.  Component types
  are numbered; types `0 .. m-1` are those for which `ExchangeDataPlugin<T>` was added.  A component
  value of any type is a `V`.
* Bevy's `Commands` take effect at the end of the stage, in the order in which the systems were
  run: spawns, component insertions, despawns of the entities that left.  Spawned entities get
  consecutive unused numbers.
* `exchange_all` is used through its specification, proved for every interleaving in
  `Verif.Exchange.exchange_complete`: rank `r` receives from every other rank `s` what `s` stored
  for `r`, and an empty vector if `s` stored nothing.
* `none` is a panic.
-/

namespace Verif.ExchangeData

open Verif.DataByRank

/-- The components of an entity, by component type. -/
abbrev Comps (V : Type) := Nat → Option V

/-- The particles of one rank. -/
abbrev Particles (V : Type) := List (Nat × Comps V)

/-- `OutgoingEntities::add`, exchange_data_plugin.rs lines 37-41: `self[rank].push(entity)`, which
panics if there is no entry for that rank. -/
def addOutgoing (d : Data (List Nat)) (rank entity : Nat) : Option (Data (List Nat)) :=
  match d[rank]? with
  | some (some l) => some (d.set rank (some (l ++ [entity])))
  | _ => none

/-- One iteration of `set_outgoing_entities_system`, domain/mod.rs lines 171-177. -/
def setOutgoingStep {V : Type} (owner : Comps V → Nat) (rank : Nat) (d : Data (List Nat))
    (p : Nat × Comps V) : Option (Data (List Nat)) :=
  if owner p.2 ≠ rank then addOutgoing d (owner p.2) p.1 else some d

/-- `set_outgoing_entities_system`, domain/mod.rs lines 163-178, where `owner` is
`get_owning_rank(pos.into_key(..))`. -/
def setOutgoing {V : Type} (owner : Comps V → Nat) (size rank : Nat) (ps : Particles V) :
    Option (Data (List Nat)) :=
  ps.foldlM (setOutgoingStep owner rank) (fromSizeAndRank [] size rank)

/-- `query.get(*entity).unwrap()` for component type `c`. -/
def getComp {V : Type} (ps : Particles V) (c entity : Nat) : Option V :=
  (ps.lookup entity).bind (fun comps => comps c)

/-- One iteration of `fill_buffers_system`, exchange_data_plugin.rs lines 120-131. -/
def fillStep {V : Type} (ps : Particles V) (c : Nat) (buffer : Data (List V))
    (e : Nat × List Nat) : Option (Data (List V)) :=
  (e.2.mapM (getComp ps c)).map (fun vs => insert buffer e.1 vs)

/-- `fill_buffers_system`, exchange_data_plugin.rs lines 115-132, on a buffer as created in
`build_everywhere` (lines 96-98). -/
def fillBuffers {V : Type} (size rank c : Nat) (ps : Particles V) (out : Data (List Nat)) :
    Option (Data (List V)) :=
  (iter out).foldlM (fillStep ps c) (fromSizeAndRank [] size rank)

/-- The specification of `exchange_all` used here (see the module comment). -/
def exchangeAll {α : Type} (bufs : List (Data (List α))) (r : Nat) : Data (List α) :=
  (List.range bufs.length).map (fun s =>
    if s = r then none else some ((((bufs[s]?).bind (fun d => d[r]?)).join).getD []))

/-- The numbers announced by `spawn_incoming_entities_system`, exchange_data_plugin.rs lines
168-178: `num_outgoing.get(&rank).unwrap().len()` for each other rank. -/
def numEntities (size rank : Nat) (out : Data (List Nat)) : Option (Data (List Nat)) :=
  (((List.range size).filter (fun r => r ≠ rank)).mapM (fun r =>
    ((out[r]?).join).map (fun l => (r, [l.length])))).map fromIter

/-- The loop of `spawn_incoming_entities_system`, lines 180-188; `next` is the next unused entity.
`num_incoming[0]` panics on an empty message. -/
def spawnAll : Nat → List (Nat × List Nat) → Data (List Nat) → Option (Data (List Nat))
  | _, [], spawned => some spawned
  | _, (_, []) :: _, _ => none
  | next, (rank, k :: _) :: rest, spawned =>
    spawnAll (next + k) rest (insert spawned rank (List.range' next k))

/-- The loop of `exchange_buffers_system`, lines 142-147: which components are inserted into which
entities. -/
def zipAll {V : Type} (spawned : Data (List Nat)) : List (Nat × List V) → Option (List (Nat × V))
  | [] => some []
  | (rank, data) :: rest =>
    match (spawned[rank]?).join with
    | none => none
    | some ids => (zipAll spawned rest).map (fun r => ids.zip data ++ r)

/-- `commands.entity(e).insert(component)` for component type `c`. -/
def insertComp {V : Type} (c : Nat) (ps : Particles V) (ev : Nat × V) : Particles V :=
  ps.map (fun p => if p.1 = ev.1 then (p.1, fun c' => if c' = c then some ev.2 else p.2 c') else p)

/-- The state of one rank after the stage: spawned entities are added, components of types
`0 .. m-1` inserted, outgoing entities despawned. -/
def finish {V : Type} (ps : Particles V) (out spawned : Data (List Nat))
    (inserts : List (List (Nat × V))) : Particles V :=
  let all := ps ++ ((iter spawned).flatMap (fun e => e.2)).map (fun id => (id, fun _ => none))
  let filled := (inserts.zipIdx).foldl (fun ps i => i.1.foldl (insertComp i.2) ps) all
  filled.filter (fun p => !((iter out).flatMap (fun e => e.2)).contains p.1)

/-- All ranks through `SetOutgoingEntities` and the `Exchange` stage.  `next r` is the first unused
entity on rank `r`. -/
def exchangeStage {V : Type} (m : Nat) (owner : Comps V → Nat) (next : Nat → Nat)
    (world : List (Particles V)) : Option (List (Particles V)) := do
  let size := world.length
  let outs ← (world.zipIdx).mapM (fun w => setOutgoing owner size w.2 w.1)
  let nums ← (outs.zipIdx).mapM (fun w => numEntities size w.2 w.1)
  let spawned ← (List.range size).mapM (fun r =>
    spawnAll (next r) (iter (exchangeAll nums r)) (fromSizeAndRank [] size r))
  let buffers ← (List.range m).mapM (fun c =>
    ((world.zip outs).zipIdx).mapM (fun w => fillBuffers size w.2 c w.1.1 w.1.2))
  let inserts ← (List.range size).mapM (fun r =>
    buffers.mapM (fun bufs => zipAll ((spawned[r]?).getD []) (iter (exchangeAll bufs r))))
  some ((List.range size).map (fun r =>
    finish ((world[r]?).getD []) ((outs[r]?).getD []) ((spawned[r]?).getD [])
      ((inserts[r]?).getD [])))

/-- `determine_particle_ids_system`, domain/mod.rs lines 117-132: particle `i` of rank `r` gets id
`(r, i)`. -/
def particleIds {V : Type} (world : List (Particles V)) : List (List ((Nat × Nat) × Nat)) :=
  world.zipIdx.map (fun w => w.1.zipIdx.map (fun p => ((w.2, p.2), p.1.1)))

end Verif.ExchangeData
