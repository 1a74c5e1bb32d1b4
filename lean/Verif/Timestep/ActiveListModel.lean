/-!
# The list of active cells: model

Models `/repo/src/sweep/active_list.rs`.  A particle id is a pair (rank, index); the hash map given to
`new` is a list of entries with distinct keys in an arbitrary order.  A result `none` is a panic.
-/

namespace Verif.ActiveList

/-- `struct ParticleId`, particle.rs. -/
structure Id where
  rank : Nat
  index : Nat
deriving DecidableEq, Repr

/-- `struct ActiveList`, active_list.rs lines 6-13. -/
structure AL (T : Type) where
  items : List T
  levels : List Nat
  maxNumLevels : Nat
  valid : Bool
  bins : List (List Nat)
  rank : Nat
deriving DecidableEq, Repr

variable {T : Type}

/-- `bins[level.0].push(i)`; `none` if the level is out of bounds. -/
def pushBin (bins : List (List Nat)) (level i : Nat) : Option (List (List Nat)) :=
  match bins[level]? with
  | none => none
  | some b => some (bins.set level (b ++ [i]))

/-- The loop of `update_bins`, lines 148-150, from index `i`. -/
def fillBins : List Nat → Nat → List (List Nat) → Option (List (List Nat))
  | [], _, bins => some bins
  | l :: ls, i, bins =>
    match pushBin bins l i with
    | none => none
    | some bins' => fillBins ls (i + 1) bins'

/-- `ActiveList::update_bins`, lines 143-153. -/
def updateBins (a : AL T) : Option (AL T) :=
  match fillBins a.levels 0 (List.replicate a.maxNumLevels []) with
  | none => none
  | some bins => some { a with bins := bins, valid := true }

/-- `HashMap::remove`. -/
def removeKey (id : Id) : List (Id × T) → Option (T × List (Id × T))
  | [] => none
  | e :: es =>
    if e.1 = id then some (e.2, es)
    else match removeKey id es with
      | none => none
      | some (t, rest) => some (t, e :: rest)

/-- The loop of `new`, lines 25-33: `n` further indices starting from `index`. -/
def collectItems (rank : Nat) : Nat → Nat → List (Id × T) → List T →
    Option (List T × List (Id × T))
  | 0, _, map, items => some (items, map)
  | n + 1, index, map, items =>
    match removeKey ⟨rank, index⟩ map with
    | none => none
    | some (t, map') => collectItems rank n (index + 1) map' (items ++ [t])

/-- `ActiveList::new`, lines 16-46. -/
def new (map : List (Id × T)) (maxNumLevels initialLevel : Nat) : Option (AL T) :=
  match map with
  | [] => none
  | e :: es =>
    if (e :: es).all (fun x => x.1.rank == e.1.rank) then
      match collectItems e.1.rank (e :: es).length 0 (e :: es) [] with
      | none => none
      | some (items, rest) =>
        if rest.length = 0 then
          updateBins ⟨items, List.replicate items.length initialLevel, maxNumLevels, false, [],
            e.1.rank⟩
        else none
    else none

/-- One entry of `enumerate_active` (lines 61-64): the id and the item of index `i`. -/
def entry (a : AL T) (i : Nat) : Option (Id × T) :=
  match a.items[i]? with
  | none => none
  | some t => some (⟨a.rank, i⟩, t)

/-- `ActiveList::enumerate_active`, lines 55-66; panics for stale bins, for a level above the number
of levels (slice) and for out-of-range indices. -/
def enumerateActive (a : AL T) (currentLevel : Nat) : Option (List (Id × T)) :=
  if a.valid then
    if currentLevel ≤ a.maxNumLevels ∧ a.maxNumLevels ≤ a.bins.length then
      (((a.bins.take a.maxNumLevels).drop currentLevel).flatten).mapM (entry a)
    else none
  else none

/-- `ActiveList::set_level`, lines 137-141 (`debug_assert` on the rank included). -/
def setLevel (a : AL T) (id : Id) (level : Nat) : Option (AL T) :=
  if id.rank = a.rank then
    if id.index < a.levels.length then
      some { a with valid := false, levels := a.levels.set id.index level }
    else none
  else none

/-- A complete loop over `enumerate_with_levels_mut` (lines 76-94) that assigns to every level the
result of `f`. -/
def updateLevels (a : AL T) (f : Id → Nat → T → Nat) : AL T :=
  { a with valid := false,
           levels := (List.zip a.levels a.items).mapIdx (fun i lt => f ⟨a.rank, i⟩ lt.1 lt.2) }

/-- `ActiveList::get_level`, lines 132-135. -/
def getLevel (a : AL T) (id : Id) : Option Nat :=
  if id.rank = a.rank then a.levels[id.index]? else none

/-- `ActiveList::get`, lines 127-130. -/
def get (a : AL T) (id : Id) : Option T :=
  if id.rank = a.rank then a.items[id.index]? else none

/-- A modification of one item through `get_mut`, lines 115-118. -/
def modifyItem (a : AL T) (id : Id) (f : T → T) : Option (AL T) :=
  if id.rank = a.rank then
    match a.items[id.index]? with
    | none => none
    | some t => some { a with items := a.items.set id.index (f t) }
  else none

/-- `ActiveList::get_mut_and_active_state`, lines 104-113: the activity flag. -/
def activeState (a : AL T) (id : Id) (currentLevel : Nat) : Option Bool :=
  (getLevel a id).map (fun l => decide (currentLevel ≤ l))

/-- The mutating operations of the interface. -/
inductive Op (T : Type) where
  | setLevel (id : Id) (level : Nat)
  | updateLevels (f : Id → Nat → T → Nat)
  | modifyItem (id : Id) (f : T → T)
  | updateBins

/-- One operation. -/
def step (a : AL T) : Op T → Option (AL T)
  | .setLevel id l => setLevel a id l
  | .updateLevels f => some (updateLevels a f)
  | .modifyItem id f => modifyItem a id f
  | .updateBins => updateBins a

/-- A history of operations; `none` if one of them panics. -/
def run (a : AL T) : List (Op T) → Option (AL T)
  | [] => some a
  | op :: ops =>
    match step a op with
    | none => none
    | some a' => run a' ops

end Verif.ActiveList
