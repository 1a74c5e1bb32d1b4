import Mathlib.Data.List.Sort
import Mathlib.Data.List.Forall2

/-!
# Domain decomposition: model

Models `/repo/src/domain/decomposition.rs` and the key arithmetic of `/repo/src/domain/key.rs`.  Keys
are natural numbers up to the largest value `keyMax` of the key type.  A `none` is a panic.

The program that a rank runs is a value of `Prog`: its only interaction with the other ranks is
`ParallelCounter::load_in_range`, an all-reduce of the locally computed load.
-/

namespace Verif.Decomp

/-! ### `slice::binary_search` -/

/-- Result of `slice::binary_search`. -/
inductive Search where
  | ok (index : Nat)
  | err (index : Nat)
deriving DecidableEq, Repr

/-- The documented contract of `slice::binary_search` on sorted slices: `Ok` holds the index of *some*
matching element, `Err` the position at which the element could be inserted. -/
structure SearchContract (search : List Nat → Nat → Search) : Prop where
  ok : ∀ ks k i, ks.Pairwise (· ≤ ·) → search ks k = .ok i → ks[i]? = some k
  err : ∀ ks k i, ks.Pairwise (· ≤ ·) → search ks k = .err i →
    k ∉ ks ∧ i = ks.countP (fun x => decide (x < k))

/-- One function with that contract. -/
def firstMatch (ks : List Nat) (k : Nat) : Search :=
  if k ∈ ks then .ok (ks.idxOf k) else .err (ks.countP (fun x => decide (x < k)))

/-! ### Keys -/

/-- `Key::middle`, key.rs lines 30-32 and 44-46. -/
def middle (start stop : Nat) : Nat := start / 2 + stop / 2

/-- `Key::next`, key.rs lines 34-36 and 48-50: saturates at the largest key value. -/
def next (keyMax key : Nat) : Nat := if key + 1 ≤ keyMax then key + 1 else key

/-! ### Counting -/

/-- `KeyCounter::new`, decomposition.rs lines 230-233: keys are sorted (`sort_unstable`; which
algorithm sorts is irrelevant for numbers). -/
def KeyCounter.new (keys : List Nat) : List Nat := keys.insertionSort (· ≤ ·)

/-- Start index in `load_in_range` (line 238). -/
def startIndex : Search → Nat
  | .ok i => i
  | .err i => i

/-- End index in `load_in_range` (lines 239-243). -/
def stopIndex : Search → Nat
  | .ok i => i + 1
  | .err i => i

/-- `KeyCounter::load_in_range`, lines 237-245 (with the `u64` subtraction). -/
def localLoad (search : List Nat → Nat → Search) (keys : List Nat) (start stop : Nat) : Option Nat :=
  let s := startIndex (search keys start)
  let e := stopIndex (search keys stop)
  if s ≤ e then some (e - s) else none

/-! ### Rank programs -/

/-- A rank program: `load a b k` calls `counter.load_in_range(a, b)` and continues with the result. -/
inductive Prog (α : Type) where
  | ret (a : α)
  | panic
  | load (start stop : Nat) (k : Nat → Prog α)

/-- Sequencing. -/
def Prog.bind {α β : Type} : Prog α → (α → Prog β) → Prog β
  | .ret a, f => f a
  | .panic, _ => .panic
  | .load s e k, f => .load s e (fun v => (k v).bind f)

/-- Run a program with a given counter. -/
def run {α : Type} (load : Nat → Nat → Option Nat) : Prog α → Option α
  | .ret a => some a
  | .panic => none
  | .load s e k =>
    match load s e with
    | none => none
    | some v => run load (k v)

/-- `binary_search` with the evaluation function of `find_cut_for_next_segment` and
`get_search_result`, lines 48-61 and 176-192; `fuel = MAX_DEPTH - depth`. -/
def bisect (target segStart : Nat) : Nat → Nat → Nat → Prog Nat
  | 0, lo, hi => .load segStart (middle lo hi) (fun _ => .ret (middle lo hi))
  | fuel + 1, lo, hi => .load segStart (middle lo hi) (fun l =>
      if l < target then bisect target segStart fuel (middle lo hi) hi
      else if target < l then bisect target segStart fuel lo (middle lo hi)
      else .ret (middle lo hi))

/-- `find_segments`, lines 161-174; `n` is the number of cuts still to be determined by bisection. -/
def findSegments (keyMax maxDepth target maxKey : Nat) : Nat → Nat → Prog (List (Nat × Nat))
  | 0, start => .ret [(start, next keyMax maxKey)]
  | n + 1, start => (bisect target start maxDepth start maxKey).bind (fun stop =>
      (findSegments keyMax maxDepth target maxKey n stop).bind (fun rest =>
        .ret ((start, stop) :: rest)))

/-- `get_loads`, lines 194-199. -/
def getLoads : List (Nat × Nat) → Prog (List Nat)
  | [] => .ret []
  | s :: ss => .load s.1 s.2 (fun l => (getLoads ss).bind (fun ls => .ret (l :: ls)))

/-- `Decomposition::new`, lines 72-91: returns cuts and loads. -/
def newProg (keyMax maxDepth minKey maxKey numRanks : Nat) : Prog (List Nat × List Nat) :=
  .load minKey (next keyMax maxKey) (fun total =>
    if numRanks = 0 then .panic
    else (findSegments keyMax maxDepth (total / numRanks) maxKey (numRanks - 1) minKey).bind
      (fun segments => (getLoads segments).bind (fun loads =>
        .ret (segments.map Prod.snd, loads))))

/-- `Decomposition::get_owning_rank`, lines 93-98. -/
def owningRank (search : List Nat → Nat → Search) (cuts : List Nat) (key : Nat) : Nat :=
  stopIndex (search cuts key)

/-! ### All ranks together -/

/-- `all_reduce_sum` of the local loads (lines 274-277); panics if the local computation panics on
any rank. -/
def sumLoads (search : List Nat → Nat → Search) : List (List Nat) → Nat → Nat → Option Nat
  | [], _, _ => some 0
  | ks :: rest, a, b =>
    match localLoad search ks a b, sumLoads search rest a b with
    | some v, some w => some (v + w)
    | _, _ => none

/-- `all_gather_min` / `all_gather_max` of the local smallest and largest keys (lines 256-263);
`min_key` and `max_key` panic on a rank without particles. -/
def globalMin : List (List Nat) → Option Nat
  | [] => none
  | ks :: rest =>
    match ks.min?, rest with
    | none, _ => none
    | some m, [] => some m
    | some m, _ :: _ => (globalMin rest).map (fun m' => min m m')

def globalMax : List (List Nat) → Option Nat
  | [] => none
  | ks :: rest =>
    match ks.max?, rest with
    | none, _ => none
    | some m, [] => some m
    | some m, _ :: _ => (globalMax rest).map (fun m' => max m m')

/-- The decomposition computed for particle keys distributed over the ranks as in `world`
(`get_decomposition_from_points_and_box`, domain/mod.rs lines 138-148), seen as one sequential
computation. -/
def decompose (search : List Nat → Nat → Search) (keyMax maxDepth : Nat) (world : List (List Nat)) :
    Option (List Nat × List Nat) :=
  match globalMin world, globalMax world with
  | some lo, some hi =>
    run (sumLoads search (world.map KeyCounter.new)) (newProg keyMax maxDepth lo hi world.length)
  | _, _ => none

/-- A synchronous execution of one program per rank: either all ranks have finished, or all ranks
are inside the all-reduce, each with its own arguments, and all receive the sum of the local
loads.  (If some ranks wait and others have finished, there is no execution: a deadlock.) -/
inductive Spmd {α : Type} (search : List Nat → Nat → Search) :
    List (List Nat) → List (Prog α) → List α → Prop where
  | done (world : List (List Nat)) (results : List α) :
      world.length = results.length → Spmd search world (results.map Prog.ret) results
  | step (world : List (List Nat)) (reqs : List (Nat × Nat × (Nat → Prog α))) (vals : List Nat)
      (results : List α) :
      reqs ≠ [] →
      List.Forall₂ (fun (kr : List Nat × Nat × Nat × (Nat → Prog α)) (v : Nat) =>
        localLoad search kr.1 kr.2.1 kr.2.2.1 = some v) (world.zip reqs) vals →
      world.length = reqs.length →
      Spmd search world (reqs.map (fun r => r.2.2 vals.sum)) results →
      Spmd search world (reqs.map (fun r => Prog.load r.1 r.2.1 r.2.2)) results

end Verif.Decomp
