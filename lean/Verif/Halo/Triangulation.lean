import Verif.Halo.IterProps
import Verif.Delaunay.TrackLemmas
import Verif.Delaunay.InsertProps

/-!
# The halo iteration on the Delaunay triangulation

Here the model of the triangulation (`Verif/Delaunay`) is put into the iteration, and it is shown that it meets
the requirements `TriOk`.
-/

namespace Verif.Halo

open Verif.Delaunay

variable {Id W C K : Type} [DecidableEq Id] [DecidableEq W]

/-- `Triangulation`, delaunay/mod.rs lines 99-107, with the positions and kinds (`true` is `Inner`) of the
points, in a state which insertions can reach. -/
structure TriState (D : ℕ) (C : Type) where
  state : State
  points : List (C × Bool)
  ok : StateOk D state
  num : points.length = state.mesh.numPoints

/-- The positions and kinds of the vertices of a tetra. -/
def TriState.vertices {D : ℕ} (s : TriState D C) (t : ℕ) : List (C × Bool) :=
  match s.state.mesh.tetras.get t with
  | some T => T.points.filterMap fun p => s.points[p]?
  | none => []

/-- The dimension dependent parts of the triangulation: the operations and the geometric predicates for given
positions and the order of the heap in the point location. -/
structure Parts (D B : ℕ) (C : Type) where
  ops : List C → Ops
  ops_ok : ∀ ps, OpsOk D B (ops ps)
  geo : List C → Geo
  geo_ok : ∀ ps, (geo ps).Proper
  pop : Heaps
  pop_ok : HeapsOk pop

/-- `insert`, delaunay/mod.rs lines 271-280, for a point which is not of kind `Inner`; the number of allowed
rounds suffices (`insertPoint_terminates`). -/
def TriState.insert {D B : ℕ} (P : Parts D B C) (s : TriState D C) (p : C) : Option (TriState D C × List ℕ) :=
  match h : insertPoint (P.geo ((s.points ++ [(p, false)]).map Prod.fst))
      (P.ops ((s.points ++ [(p, false)]).map Prod.fst)) P.pop
      ((B + 1) * s.state.mesh.tetras.len + 1) s.state with
  | .done (s', ch) => some (⟨s', s.points ++ [(p, false)],
      (insertPoint_track (P.ops_ok _) (P.geo_ok _) P.pop_ok s.ok h).1, by
        rw [(insertPoint_track (P.ops_ok _) (P.geo_ok _) P.pop_ok s.ok h).2.1, List.length_append, s.num]
        rfl⟩, ch)
  | .panic => none
  | .running => none

/-- The triangulation as seen by the halo iteration; `radius` and `centre` compute the circumcircle from the
positions of the vertices (`get_tetra_circumcircle`, halo_iteration.rs lines 250-255), the inner vertex is the
first one of kind `Inner` (lines 76-86). -/
def triangulation {D B : ℕ} (P : Parts D B C) (radius : List C → K) (centre : List C → C) :
    Tri (TriState D C) C K where
  tetras s := s.state.mesh.tetras.entries.map Prod.fst
  radius s t := radius ((s.vertices t).map Prod.fst)
  centre s t := centre ((s.vertices t).map Prod.fst)
  inner s t := ((s.vertices t).find? Prod.snd).map Prod.fst
  insert := TriState.insert P

end Verif.Halo
