import Verif.Delaunay.GeoModel
import Verif.Predicates.DistanceModel
import Mathlib.Order.WithBot

/-!
# The point location with its heap ordered by distances

In `Insert` the order in which the heap returns its elements is arbitrary.  Here the heap contains the distances,
as in `src/voronoi/delaunay/point_location.rs`.
-/

namespace Verif.Delaunay

open Verif.Predicates (P2 P3 Triangle2)

variable {R : Type}

/-- The loop over the faces, point_location.rs lines 72-86: the distance of a neighbour which was not seen before
is computed (which panics if the neighbour does not exist or if the computation panics) and pushed. -/
def pushByDistance (dist : Tetra → Option R) (m : Mesh) :
    List FaceInfo → List (ℕ × R) → List ℕ → Option (List (ℕ × R) × List ℕ)
  | [], heap, checked => some (heap, checked)
  | f :: fs, heap, checked =>
    match f.opposing with
    | none => pushByDistance dist m fs heap checked
    | some c =>
      if c.tetra ∈ checked then pushByDistance dist m fs heap checked
      else
        match m.tetras.get c.tetra with
        | none => none
        | some U =>
          match dist U with
          | none => none
          | some d => pushByDistance dist m fs (heap ++ [(c.tetra, d)]) (c.tetra :: checked)

/-- The `while` loop of `find_breadth_first`, point_location.rs lines 66-88.  `pop` is `BinaryHeap::pop`. -/
def searchByDistance (contains : Tetra → Option Bool) (dist : Tetra → Option R)
    (pop : List (ℕ × R) → Option ((ℕ × R) × List (ℕ × R))) (m : Mesh) :
    ℕ → List (ℕ × R) → List ℕ → List ℕ → Outcome (Option ℕ × List ℕ)
  | 0, _, _, _ => .running
  | fuel + 1, heap, checked, ts =>
    match pop heap with
    | none => .done (none, ts)
    | some (x, heap') =>
      match m.tetras.get x.1 with
      | none => .panic
      | some T =>
        match contains T with
        | none => .panic
        | some true => .done (some x.1, ts ++ [x.1])
        | some false =>
          match pushByDistance dist m T.faces heap' checked with
          | none => .panic
          | some (heap'', checked') => searchByDistance contains dist pop m fuel heap'' checked' (ts ++ [x.1])

/-- `find_breadth_first`, point_location.rs lines 48-90; `zero` is the distance of the first element. -/
def findByDistance (zero : R) (contains : Tetra → Option Bool) (dist : Tetra → Option R)
    (pop : List (ℕ × R) → Option ((ℕ × R) × List (ℕ × R))) (m : Mesh) (fuel first : ℕ) :
    Outcome (Option ℕ × List ℕ) :=
  searchByDistance contains dist pop m fuel [(first, zero)] [first] []

/-- `find_containing_tetra`, point_location.rs lines 92-103. -/
def findGuided (zero : R) (contains : Tetra → Option Bool) (dist : Tetra → Option R)
    (pop : List (ℕ × R) → Option ((ℕ × R) × List (ℕ × R))) (fuel : ℕ) (m : Mesh) (last : Option ℕ) :
    Outcome (Option ℕ) :=
  match last with
  | none => scan contains m.tetras.entries
  | some first =>
    match findByDistance zero contains dist pop m fuel first with
    | .done r => .done r.1
    | .panic => .panic
    | .running => .running

/-- `insert`, mod.rs lines 271-280, with this point location; `dist T p` is the distance between a simplex and the
point `p`. -/
def insertGuided (zero : R) (g : Geo) (dist : Tetra → ℕ → Option R) (ops : Ops)
    (pop : List (ℕ × R) → Option ((ℕ × R) × List (ℕ × R))) (fuel : ℕ) (s : State) : Outcome (State × List ℕ) :=
  let point := s.mesh.numPoints
  let m := { s.mesh with numPoints := point + 1 }
  match findGuided zero (fun T => g.contains T point) (fun T => dist T point) pop fuel m s.last with
  | .panic => .panic
  | .running => .running
  | .done none => .panic
  | .done (some t) =>
    match ops.split m t point with
    | none => .panic
    | some (m', news) =>
      match flipLoop g.circ ops.flip point fuel m' s.last news 0 with
      | .panic => .panic
      | .running => .running
      | .done (m'', last, tetras) => .done (⟨m'', last⟩, tetras)

/-- Consecutive insertions, as in `construct`, mod.rs lines 126-140. -/
def insertManyGuided (zero : R) (g : Geo) (dist : Tetra → ℕ → Option R) (ops : Ops)
    (pop : List (ℕ × R) → Option ((ℕ × R) × List (ℕ × R))) (fuel : ℕ) : ℕ → State → Outcome State
  | 0, s => .done s
  | n + 1, s =>
    match insertGuided zero g dist ops pop fuel s with
    | .panic => .panic
    | .running => .running
    | .done (s', _) => insertManyGuided zero g dist ops pop fuel n s'

/-- `OrderedFloat`: a number, or NaN, which is greater than all numbers. -/
abbrev OrderedFloat := WithTop ℝ

/-- `distance_to_point` of a triangle of the mesh, for `get_remapped_tetra_data` (mod.rs lines 192-194). -/
noncomputable def dist2 (x : ℕ → P2 ℝ) (T : Tetra) (p : ℕ) : Option OrderedFloat :=
  match T.points with
  | [a, b, c] => some (Triangle2.distanceToPoint ⟨x a, x b, x c⟩ (x p) : ℝ)
  | _ => none

/-- The same for tetrahedra. -/
noncomputable def dist3 (x : ℕ → P3 ℝ) (T : Tetra) (p : ℕ) : Option OrderedFloat :=
  match T.points with
  | [a, b, c, d] => (Predicates.Tetra.distanceToPoint ⟨x a, x b, x c, x d⟩ (x p)).map fun v =>
      match v with
      | none => ⊤
      | some r => (r : ℝ)
  | _ => none

end Verif.Delaunay
