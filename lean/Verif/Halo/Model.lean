import Mathlib.Algebra.Field.Basic
import Mathlib.Order.Lattice
import Mathlib.Algebra.Order.Field.Basic

/-!
# Import of haloes

Model of `/repo/src/voronoi/constructor/halo_cache.rs`, `halo_iteration.rs` and of the search in
`parallel/mod.rs`.  `Id` are particle ids, `W` wrap types (the periodic image) and `C`
positions; floating point numbers are elements of an ordered field.
-/

namespace Verif.Halo

variable {Id W C K : Type} [DecidableEq Id] [DecidableEq W]

/-- `SearchResult`, halo_iteration.rs lines 91-96. -/
structure Image (Id W C : Type) where
  id : Id
  wrap : W
  pos : C

/-- The key under which the cache remembers an image sent to `rank`, halo_cache.rs line 11. -/
def key (rank : ℕ) (i : Image Id W C) : ℕ × Id × W := (rank, i.id, i.wrap)

/-- `HaloCache`, halo_cache.rs lines 9-12: the hash set as a list of its elements. -/
abbrev Cache (Id W : Type) := List (ℕ × Id × W)

/-- `get_new_haloes`, halo_cache.rs lines 15-29: `insert` is true exactly if the key was not in the set. -/
def getNewHaloes (rank : ℕ) : List (Image Id W C) → Cache Id W → Cache Id W × List (Image Id W C)
  | [], c => (c, [])
  | i :: l, c =>
    if key rank i ∈ c then getNewHaloes rank l c
    else
      let r := getNewHaloes rank l (key rank i :: c)
      (r.1, i :: r.2)

/-- The sequence of searches which a rank answers during all iterations (`get_outgoing_results` and
`get_local_periodic_haloes`, parallel/mod.rs lines 128-158, without the filter).  A search consists of the
asking rank and the images found for it. -/
def answer : List (ℕ × List (Image Id W C)) → Cache Id W → Cache Id W × List (ℕ × List (Image Id W C))
  | [], c => (c, [])
  | q :: l, c =>
    let r := getNewHaloes q.1 q.2 c
    let r' := answer l r.1
    (r'.1, (q.1, r.2) :: r'.2)

/-! ### The iteration on one rank -/

/-- The panics: no vertex is of kind `Inner` (`unwrap`, halo_iteration.rs line 84), a halo is imported twice
(`assert!`, line 193), the insertion into the triangulation panics, or a search does. -/
inductive Panic where
  | noInner
  | importedTwice
  | insertion
  | search
  deriving DecidableEq

/-- `SearchData`, halo_iteration.rs lines 50-54. -/
structure SearchData (C K : Type) where
  point : C
  radius : K

/-- `UndecidedTetraInfo`, halo_iteration.rs lines 108-111. -/
structure Undecided (K : Type) where
  tetra : ℕ
  searchRadius : Option K

/-- What the iteration uses of `Triangulation`: the existing tetras in the order of the arena, the radius and
centre of the circumcircle of a tetra, the position of the first vertex of kind `Inner`, and `insert`
(delaunay/mod.rs lines 271-279), which returns the tetras on the flip stack; `none` is a panic. -/
structure Tri (S C K : Type) where
  tetras : S → List ℕ
  radius : S → ℕ → K
  centre : S → ℕ → C
  inner : S → ℕ → Option C
  insert : S → C → Option (S × List ℕ)

/-- `ParticleType`, sweep/grid/cell.rs lines 17-23, as far as it is used for haloes. -/
inductive PType (Id W : Type) where
  | remote (id : Id) (rank : ℕ)
  | localPeriodic (id : Id) (wrap : W)
  | remotePeriodic (id : Id) (rank : ℕ) (wrap : W)
  deriving DecidableEq

/-- What surrounds the iteration: the ranks in the order in which their results are looked at, the own rank,
which wrap types are periodic, and the images which rank `r` finds for a search (`get_haloes_from_search`,
parallel/mod.rs lines 160-175, without the cache; empty if the search is not sent to `r`, lines 105-126).
`fails` are the searches which panic on this rank or on one which answers (`find_wrapped_point`,
lines 63-78). -/
structure Env (Id W C K : Type) where
  ranks : List ℕ
  own : ℕ
  periodic : W → Bool
  find : ℕ → SearchData C K → List (Image Id W C)
  fails : SearchData C K → Bool := fun _ => false

/-- `HaloIteration`, halo_iteration.rs lines 126-132, together with the halo caches of all ranks.  Of the
caches only the searches of this rank are modelled: the keys of other asking ranks are different. -/
structure St (S Id W K : Type) where
  tri : S
  undecided : List (Undecided K)
  haloes : List (PType Id W)
  caches : ℕ → Cache Id W

section Field
variable [Field K] [LinearOrder K]

/-- `SEARCH_SAFETY_FACTOR`, halo_iteration.rs line 31. -/
def safetyFactor : K := 1001 / 1000

/-- `SEARCH_RADIUS_INCREASE_FACTOR`, halo_iteration.rs line 37. -/
def increaseFactor : K := 16 / 10

/-- `SEARCH_CHUNK_SIZE`, halo_iteration.rs line 43. -/
def chunkSize : ℕ := 50000

variable {S : Type}

/-- The radius chosen in `SearchData::new`, halo_iteration.rs lines 66-70. -/
def nextRadius (circumradius characteristicLength : K) : Option K → K
  | some r => min (r * increaseFactor) (circumradius * safetyFactor)
  | none => min (circumradius * safetyFactor) characteristicLength

/-- `SearchData::new`, halo_iteration.rs lines 60-88. -/
def searchDataNew (T : Tri S C K) (s : S) (len : K) (u : Undecided K) : Except Panic (SearchData C K) :=
  let r := nextRadius (T.radius s u.tetra) len u.searchRadius
  if T.radius s u.tetra * safetyFactor ≤ r then .ok ⟨T.centre s u.tetra, r⟩
  else
    match T.inner s u.tetra with
    | none => .error .noInner
    | some p => .ok ⟨p, r⟩

/-- The body of the `map` and the following `filter` in `get_radius_search_data`, halo_iteration.rs lines
213-235, for one tetra: the search and, if the radius is not large enough yet, the entry to be checked
again. -/
def searchOne (T : Tri S C K) (s : S) (len : K) (u : Undecided K) :
    Except Panic (SearchData C K × Option (Undecided K)) :=
  (searchDataNew T s len u).map fun d =>
    (d, if T.radius s u.tetra * safetyFactor ≤ d.radius then none else some ⟨u.tetra, some d.radius⟩)

/-- `get_radius_search_data`, halo_iteration.rs lines 207-238. -/
def getRadiusSearchData (T : Tri S C K) (s : S) (len : K) (us : List (Undecided K)) :
    Except Panic (List (SearchData C K) × List (Undecided K)) :=
  let chunk := us.take chunkSize
  let rest := us.drop chunkSize
  (((chunk.filter fun u => u.tetra ∈ T.tetras s).mapM (searchOne T s len)).map fun l =>
    (l.map Prod.fst, rest ++ l.filterMap Prod.snd))

end Field

variable {S : Type}

/-- `radius_search`, parallel/mod.rs lines 226-238, for one answering rank: the results of the own rank keep
only periodic images (lines 144-158). -/
def searchRank (E : Env Id W C K) (data : List (SearchData C K)) (cache : Cache Id W) (rank : ℕ) :
    Cache Id W × List (Image Id W C) :=
  let r := getNewHaloes E.own (data.flatMap (E.find rank)) cache
  (r.1, if rank = E.own then r.2.filter fun i => E.periodic i.wrap else r.2)

/-- The type of a halo, halo_iteration.rs lines 177-192. -/
def ptype (E : Env Id W C K) (rank : ℕ) (i : Image Id W C) : PType Id W :=
  if rank = E.own then .localPeriodic i.id i.wrap
  else if E.periodic i.wrap then .remotePeriodic i.id rank i.wrap
  else .remote i.id rank

/-- `tetra_should_be_checked`, halo_iteration.rs lines 257-267. -/
def shouldBeChecked (T : Tri S C K) (s : S) (t : ℕ) : Bool := decide (t ∈ T.tetras s) && (T.inner s t).isSome

/-- The body of the loop over the results, halo_iteration.rs lines 171-203: the triangulation, the undecided
tetras and the haloes after inserting one image. -/
def insertOne (E : Env Id W C K) (T : Tri S C K) (rank : ℕ) (i : Image Id W C) (s : S)
    (us : List (Undecided K)) (hs : List (PType Id W)) :
    Except Panic (S × List (Undecided K) × List (PType Id W)) :=
  if ptype E rank i ∈ hs then .error .importedTwice
  else
    match T.insert s i.pos with
    | none => .error .insertion
    | some r => .ok (r.1, us ++ ((r.2.filter (shouldBeChecked T r.1)).map fun t => ⟨t, none⟩),
        ptype E rank i :: hs)

/-- The loops of `iterate`, halo_iteration.rs lines 170-204, for results which are labelled with their
rank. -/
def insertAll (E : Env Id W C K) (T : Tri S C K) : List (ℕ × Image Id W C) → S → List (Undecided K) →
    List (PType Id W) → Except Panic (S × List (Undecided K) × List (PType Id W))
  | [], s, us, hs => .ok (s, us, hs)
  | r :: l, s, us, hs => (insertOne E T r.1 r.2 s us hs).bind fun x => insertAll E T l x.1 x.2.1 x.2.2

/-- All results of a search, labelled with their rank, in the order in which `iterate` looks at them. -/
def allResults (E : Env Id W C K) (data : List (SearchData C K)) (caches : ℕ → Cache Id W) :
    List (ℕ × Image Id W C) :=
  E.ranks.flatMap fun r => (searchRank E data (caches r) r).2.map fun i => (r, i)

section Field
variable [Field K] [LinearOrder K]

/-- `iterate`, halo_iteration.rs lines 161-205. -/
def iterate (E : Env Id W C K) (T : Tri S C K) (len : K) (st : St S Id W K) :
    Except Panic (St S Id W K) :=
  (getRadiusSearchData T st.tri len st.undecided).bind fun d =>
    if d.1.any E.fails then .error .search
    else (insertAll E T (allResults E d.1 st.caches) st.tri d.2 st.haloes).map fun x =>
      ⟨x.1, x.2.1, x.2.2, fun r => (searchRank E d.1 (st.caches r) r).1⟩

/-- `n` iterations of the loop of `run`, halo_iteration.rs lines 155-159. -/
def iterateN (E : Env Id W C K) (T : Tri S C K) (len : K) : ℕ → St S Id W K →
    Except Panic (St S Id W K)
  | 0, st => .ok st
  | n + 1, st => (iterate E T len st).bind (iterateN E T len n)

/-- `HaloIteration::new` and `set_all_tetras_undecided`, halo_iteration.rs lines 143-153 and 240-248. -/
def initial (T : Tri S C K) (s : S) : St S Id W K :=
  ⟨s, ((T.tetras s).filter (shouldBeChecked T s)).map (fun t => ⟨t, none⟩), [], fun _ => []⟩

end Field

end Verif.Halo
