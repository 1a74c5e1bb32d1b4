import Verif.Sweep.Model

/-!
# The distributed sweep: assumptions on the grid
-/

namespace Verif.Sweep

variable {K R : Type} [Field K] [LinearOrder K]

/-- The normals of the faces through which `u` sees `v`, directly or through a periodic boundary. -/
def normals (G : Grid K R) (u v : Id) (p : Bool) : List (V3 K) :=
  (G.nbrs u).filterMap (fun e => if e.2.target = some (v, p) then some e.1.normal else none)

/-- The opposite vector. -/
def V3.neg (a : V3 K) : V3 K := ⟨-a.x, -a.y, -a.z⟩

/-- A distributed grid in which all ranks agree: neighbours exist and are classified correctly, the
levels of remote neighbours are known, and the faces between two cells are the same seen from both
sides, with opposite normals. -/
structure WF (G : Grid K R) : Prop where
  rank_lt : ∀ u ∈ G.cells, u.rank < G.numRanks
  loc : ∀ u ∈ G.cells, ∀ f v, (f, Neighbour.loc v) ∈ G.nbrs u ∨ (f, Neighbour.locPeriodic v) ∈ G.nbrs u →
    v ∈ G.cells ∧ v.rank = u.rank
  remote : ∀ u ∈ G.cells, ∀ f v,
    (f, Neighbour.remote v) ∈ G.nbrs u ∨ (f, Neighbour.remotePeriodic v) ∈ G.nbrs u →
    v ∈ G.cells ∧ v.rank ≠ u.rank ∧ G.haloLevel u.rank v = G.level v
  symm : ∀ u ∈ G.cells, ∀ v ∈ G.cells, ∀ p,
    (normals G v u p).Perm ((normals G u v p).map V3.neg)

/-- `v` is directly downwind of `u` in direction `d`: some face of `u` towards `v`, not through a
periodic boundary, points downwind. -/
def Feeds (G : Grid K R) (d : Nat) (u v : Id) : Prop :=
  ∃ e ∈ G.nbrs u, downwind e.1 (G.dir d) ∧ (e.2 = .loc v ∨ e.2 = .remote v)

/-- No cycle of active cells in any direction: the cells can be ordered along every direction. -/
def Acyclic (G : Grid K R) : Prop :=
  ∃ height : Nat → Id → Nat, ∀ d < G.numDirs, ∀ u ∈ G.act, ∀ v ∈ G.act, Feeds G d u v →
    height d u < height d v

/-- No periodic connections. -/
def NoPeriodic (G : Grid K R) : Prop :=
  ∀ u ∈ G.cells, ∀ e ∈ G.nbrs u, ∀ v, e.2 ≠ .locPeriodic v ∧ e.2 ≠ .remotePeriodic v

/-- An infinite execution of all ranks; `lab n` says which rank makes which step at time `n` (`none`:
nothing happens). -/
structure Execution [AddCommGroup R] [Module K R] (G : Grid K R) (s0 : State R) where
  st : Nat → State R
  lab : Nat → Option (Nat × Act)
  start : st 0 = s0
  move : ∀ n r a, lab n = some (r, a) → Step G r a (st n) (st (n + 1))
  idle : ∀ n, lab n = none → st (n + 1) = st n

/-- What has to be assumed of the machine: every rank that has not finished keeps running; a rank
that probes again and again while a message is under way gets it; a send that is tested again and
again after the receiver has received everything is reported as completed. -/
structure Execution.Fair [AddCommGroup R] [Module K R] {G : Grid K R} {s0 : State R}
    (E : Execution G s0) : Prop where
  ranks : ∀ r < G.numRanks, ∀ n, (E.st n).pc r ≠ .done → ∃ m ≥ n, ∃ a, E.lab m = some (r, a)
  messages : ∀ r q, (∀ n, ∃ m ≥ n, E.lab m = some (r, .probe q) ∧ (E.st m).chan q r ≠ []) →
    ∀ n, ∃ m ≥ n, E.lab m = some (r, .take q)
  requests : ∀ r q, (∀ n, ∃ m ≥ n, ∃ c, E.lab m = some (r, .send c) ∧ (E.st m).req r q = true ∧
      (E.st m).chan r q = []) →
    ∀ n, ∃ m ≥ n, ∃ c, E.lab m = some (r, .send c) ∧ (E.st m).req r q = true ∧ c q = true

/-- `Run G s0 acts s`: the ranks can get from `s0` to `s` by the given steps. -/
inductive Run [AddCommGroup R] [Module K R] (G : Grid K R) (s0 : State R) :
    List (Nat × Act) → State R → Prop
  | nil : Run G s0 [] s0
  | snoc (acts : List (Nat × Act)) (s s' : State R) (r : Nat) (a : Act) : Run G s0 acts s →
      Step G r a s s' → Run G s0 (acts ++ [(r, a)]) s'

/-- The task solved in a step. -/
def Act.solved : Act → Option Task
  | .pop t => some t
  | _ => none

/-- The tasks solved during a run, in order, over all ranks. -/
def solved (acts : List (Nat × Act)) : List Task := acts.filterMap (fun x => x.2.solved)

/-- Steps in which a task is solved, a message received or a loop left. -/
def Act.progress : Act → Bool
  | .pop _ => true
  | .take _ => true
  | .exit => true
  | _ => false

/-- All ranks have left their loops. -/
def Finished (G : Grid K R) (s : State R) : Prop := ∀ r < G.numRanks, s.pc r = .done

/-- `face.area * face.normal.dot(dir)` -/
def effArea (G : Grid K R) (d : Nat) (e : Face K × Neighbour) : K :=
  e.1.area * e.1.normal.dot (G.dir d)

/-- The share of the photons leaving `u` in direction `d` that goes to `v`: effective area of the
downwind faces between them over the effective area of all downwind faces of `u`. -/
def share (G : Grid K R) (d : Nat) (u v : Id) : K :=
  (((G.nbrs u).filter (fun e => decide (downwind e.1 (G.dir d) ∧ (e.2 = .loc v ∨ e.2 = .remote v)))).map
    (effArea G d)).sum /
  (((G.nbrs u).filter (fun e => decide (downwind e.1 (G.dir d)))).map (effArea G d)).sum

/-- What a sweep should compute from the rates `inc0`, `out0` and periodic sources `per0` before
it.  An active cell gets the changes of its upwind active neighbours and emits what the chemistry
says; the outgoing rate of an inactive cell stays, its incoming rate follows the changes of the
active cells of its own rank. -/
structure IsSolution [AddCommGroup R] [Module K R] (G : Grid K R) (inc0 out0 per0 inc out : Id → Nat → R) :
    Prop where
  inc_active : ∀ v ∈ G.act, ∀ d < G.numDirs, inc v d =
    G.makePositive (inc0 v d + ∑ u ∈ G.act, share G d u v • (out u d - out0 u d))
  out_active : ∀ v ∈ G.act, ∀ d < G.numDirs, out v d = G.absorb v (inc v d + G.source v + per0 v d)
  inc_inactive : ∀ v ∈ G.cells, v ∉ G.act → ∀ d < G.numDirs, inc v d =
    inc0 v d + ∑ u ∈ G.act.filter (fun u => u.rank = v.rank), share G d u v • (out u d - out0 u d)
  out_inactive : ∀ v ∈ G.cells, v ∉ G.act → ∀ d < G.numDirs, out v d = out0 v d

/-- Number of faces through which solving `u` in direction `d` has to send something to rank `r`:
downwind faces to active cells there. -/
def crossings (G : Grid K R) (u : Id) (d r : Nat) : Nat :=
  ((G.nbrs u).filter (fun e => decide (downwind e.1 (G.dir d) ∧
    ∃ v ∈ G.act, v.rank = r ∧ (e.2 = .remote v ∨ e.2 = .remotePeriodic v)))).length

/-- Everything sent or to be sent from `q` to `r` that has not been received. -/
def undelivered (s : State R) (q r : Nat) : List (Data R) := (s.chan q r).flatten ++ s.toSend q r

end Verif.Sweep
