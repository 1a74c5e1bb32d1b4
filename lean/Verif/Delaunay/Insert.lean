import Verif.Delaunay.Model

/-!
# Delaunay triangulation: point location and insertion

Model of `/repo/src/voronoi/delaunay/point_location.rs` and of `insert`, `perform_flip_checks` in
`/repo/src/voronoi/delaunay/mod.rs`.  The geometric predicates are parameters (`none` is a panic of the
predicate).  Loops get a number of allowed rounds; `running` means that they were not finished by then.
-/

namespace Verif.Delaunay

/-- How a computation with a bounded number of rounds ends. -/
inductive Outcome (α : Type) where
  | done (a : α)
  | panic
  | running

/-! ### Point location -/

/-- The inner loop over the faces of `find_breadth_first`, point_location.rs lines 72-86: neighbours which
were not seen before are marked as seen and pushed.  Computing the distance of a neighbour panics if it does
not exist; its value only influences the order of the heap, see `searchLoop`. -/
def pushNeighbours (m : Mesh) : List FaceInfo → List ℕ → List ℕ → Option (List ℕ × List ℕ)
  | [], heap, checked => some (heap, checked)
  | f :: fs, heap, checked =>
    match f.opposing with
    | none => pushNeighbours m fs heap checked
    | some c =>
      if c.tetra ∈ checked then pushNeighbours m fs heap checked
      else if m.tetras.contains c.tetra then pushNeighbours m fs (heap ++ [c.tetra]) (c.tetra :: checked)
      else none

/-- The `while` loop of `find_breadth_first`, point_location.rs lines 66-88.  `pop` stands for the binary
heap, ordered by the heuristic distance.  Besides the result the tetras which were tested (`ts` in the code)
are returned. -/
def searchLoop (contains : Tetra → Option Bool) (pop : List ℕ → Option (ℕ × List ℕ)) (m : Mesh) :
    ℕ → List ℕ → List ℕ → List ℕ → Outcome (Option ℕ × List ℕ)
  | 0, _, _, _ => .running
  | fuel + 1, heap, checked, ts =>
    match pop heap with
    | none => .done (none, ts)
    | some (i, heap') =>
      match m.tetras.get i with
      | none => .panic
      | some T =>
        match contains T with
        | none => .panic
        | some true => .done (some i, ts ++ [i])
        | some false =>
          match pushNeighbours m T.faces heap' checked with
          | none => .panic
          | some (heap'', checked') => searchLoop contains pop m fuel heap'' checked' (ts ++ [i])

/-- `find_breadth_first`, point_location.rs lines 48-90. -/
def findBreadthFirst (contains : Tetra → Option Bool) (pop : List ℕ → Option (ℕ × List ℕ)) (m : Mesh)
    (fuel first : ℕ) : Outcome (Option ℕ × List ℕ) :=
  searchLoop contains pop m fuel [first] [first] []

/-- The linear search of `find_containing_tetra`, point_location.rs lines 99-102. -/
def scan (contains : Tetra → Option Bool) : List (ℕ × Tetra) → Outcome (Option ℕ)
  | [] => .done none
  | e :: l =>
    match contains e.2 with
    | none => .panic
    | some true => .done (some e.1)
    | some false => scan contains l

/-- `find_containing_tetra`, point_location.rs lines 92-103. -/
def findContaining (contains : Tetra → Option Bool) (pop : List ℕ → Option (ℕ × List ℕ)) (fuel : ℕ) (m : Mesh)
    (last : Option ℕ) : Outcome (Option ℕ) :=
  match last with
  | none => scan contains m.tetras.entries
  | some first =>
    match findBreadthFirst contains pop m fuel first with
    | .done r => .done r.1
    | .panic => .panic
    | .running => .running

/-! ### Insertion -/

/-- `face_is_invalid` with `circumcircle_contains_point`, mod.rs lines 310-325. -/
def faceIsInvalid (circ : Tetra → ℕ → Option Bool) (m : Mesh) (t f : ℕ) : Option Bool :=
  match m.tetras.get t with
  | none => some false
  | some T =>
    match T.findFace f with
    | none => none
    | some fi =>
      match fi.opposing with
      | none => some false
      | some c => circ T c.point

/-- `flip_check`, mod.rs lines 303-308: the result contains the new mesh and the tetras to be appended. -/
def flipCheck (circ : Tetra → ℕ → Option Bool) (flip : Mesh → ℕ → ℕ → Option (Mesh × List ℕ)) (m : Mesh)
    (t f : ℕ) : Option (Mesh × List ℕ) :=
  match faceIsInvalid circ m t f with
  | none => none
  | some true => flip m t f
  | some false => some (m, [])

/-- The loop of `perform_flip_checks`, mod.rs lines 281-301.  `tetras` and `idx` are the fields of
`FlipCheckStack` (lines 67-97), `last` is `last_insertion_tetra`. -/
def flipLoop (circ : Tetra → ℕ → Option Bool) (flip : Mesh → ℕ → ℕ → Option (Mesh × List ℕ)) (point : ℕ) :
    ℕ → Mesh → Option ℕ → List ℕ → ℕ → Outcome (Mesh × Option ℕ × List ℕ)
  | 0, _, _, _, _ => .running
  | fuel + 1, m, last, tetras, idx =>
    match tetras[idx]? with
    | none => .done (m, last, tetras)
    | some t =>
      match m.tetras.get t with
      | none => flipLoop circ flip point fuel m last tetras (idx + 1)
      | some T =>
        match T.findFaceOpposite point with
        | none => .panic
        | some fi =>
          match flipCheck circ flip m t fi.face with
          | none => .panic
          | some (m', news) => flipLoop circ flip point fuel m' (some t) (tetras ++ news) (idx + 1)

/-- The trait `Delaunay<D>`, mod.rs lines 116-120: the operations which depend on the dimension. -/
structure Ops where
  split : Mesh → ℕ → ℕ → Option (Mesh × List ℕ)
  flip : Mesh → ℕ → ℕ → Option (Mesh × List ℕ)

/-- The geometric predicates: whether a tetra (`contains`) or its circumcircle (`circ`) contains a point. -/
structure Geo where
  contains : Tetra → ℕ → Option Bool
  circ : Tetra → ℕ → Option Bool

/-- The part of `Triangulation` (mod.rs lines 99-107) which is needed for the insertion. -/
structure State where
  mesh : Mesh
  last : Option ℕ

/-- The binary heaps of all point locations of a run.  The order depends on the distances between the simplices of
the mesh and the point which is inserted (the last one of the mesh), see `Heuristic`. -/
abbrev Heaps := Mesh → List ℕ → Option (ℕ × List ℕ)

/-- `insert`, mod.rs lines 271-280 (`point_kinds` is not modelled).  The result also contains the tetras
returned by the code. -/
def insertPoint (g : Geo) (ops : Ops) (pop : Heaps) (fuel : ℕ) (s : State) :
    Outcome (State × List ℕ) :=
  let point := s.mesh.numPoints
  let m := { s.mesh with numPoints := point + 1 }
  match findContaining (fun T => g.contains T point) (pop m) fuel m s.last with
  | .panic => .panic
  | .running => .running
  | .done none => .panic
  | .done (some t) =>
    match ops.split m t point with
    | none => .panic
    | some (m', news) =>
      match flipLoop g.circ ops.flip point fuel m' s.last news 0 with
      | .panic => .panic
      | .running => .running
      | .done (m'', last, tetras) => .done (⟨m'', last⟩, tetras)

/-- Consecutive insertions, as in `construct`, mod.rs lines 126-140 (the points are numbered in the order of
their insertion). -/
def insertMany (g : Geo) (ops : Ops) (pop : Heaps) (fuel : ℕ) :
    ℕ → State → Outcome State
  | 0, s => .done s
  | n + 1, s =>
    match insertPoint g ops pop fuel s with
    | .panic => .panic
    | .running => .running
    | .done (s', _) => insertMany g ops pop fuel n s'

end Verif.Delaunay
