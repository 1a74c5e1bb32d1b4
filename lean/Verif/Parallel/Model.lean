import Verif.Halo.Triangulation
import Verif.Quadtree.Props
import Verif.Geometry.BoxProps
import Verif.Voronoi.SpaceCellProps

/-!
# Grid construction on many ranks in a periodic box

Model of `/repo/src/voronoi/constructor/parallel/mod.rs` and of `construct_from_iter` in
`/repo/src/voronoi/constructor/mod.rs`: here the particles of all ranks, their search trees (`Verif/Quadtree`), the
box (`Verif/Geometry`), the triangulation (`Verif/Delaunay`) and the halo iteration (`Verif/Halo`) are put together.
-/

namespace Verif.Parallel

open Verif.Geometry Verif.Quadtree Verif.Halo Verif.Delaunay
open Verif.Predicates (P3)

/-- What all ranks know or own when the grid is constructed: the corners of the simulation box
(`SimulationBox`, simulation_box.rs lines 25-31), the configuration of the search tree and the particles of every rank
with their ids (`construct_quad_tree_system`, domain/mod.rs lines 75-90). -/
structure World (d : ℕ) (Id : Type) where
  lo : Vec d ℝ
  hi : Vec d ℝ
  cfg : Config
  particles : List (List (Id × Vec d ℝ))

/-- The parts which differ between two and three dimensions: quadrants, wrap types and the conversion between the
types of positions of the triangulation and of the box. -/
structure Dim (d n : ℕ) (C : Type) where
  geom : Geom n (Extent d ℝ) (Vec d ℝ)
  wraps : List (Fin d → WrapType)
  toVec : C → Vec d ℝ
  ofVec : Vec d ℝ → C

/-- Three dimensions. -/
noncomputable def dim3 : Dim 3 8 (P3 ℝ) := ⟨geom3, allWraps3, fun p => ![p.x, p.y, p.z], fun v => ⟨v 0, v 1, v 2⟩⟩

variable {d n : ℕ} {C Id : Type}

/-- The simulation box as an extent. -/
noncomputable def World.box (W : World d Id) : Extent d ℝ := fromMinMax W.lo W.hi

/-- The particles of a rank. -/
def World.ofRank (W : World d Id) (r : ℕ) : List (Id × Vec d ℝ) := W.particles.getD r []

/-- `iter_particles_in_radius` on rank `r`, called at parallel/mod.rs lines 165-167: the items which the iterator
yields (`new_yields`) on the tree which the rank has built from its particles and the box. -/
noncomputable def found (D : Dim d n C) (W : World d Id) (r : ℕ) (s : SearchData C ℝ) : List (Id × Vec d ℝ) :=
  (QTree.new D.geom Prod.snd W.cfg (W.ofRank r) W.box).reached (radiusSearch Prod.snd W.box (D.toVec s.point) s.radius)

/-- The image which is returned for a found particle, parallel/mod.rs lines 170-173. -/
noncomputable def imageOf (D : Dim d n C) (W : World d Id) (s : SearchData C ℝ) (p : Id × Vec d ℝ) :
    Except WrapPanic (Image Id (Fin d → WrapType) C) :=
  (findWrappedPoint D.wraps W.box (D.toVec s.point) s.radius p.2).map fun w => ⟨p.1, w.1, D.ofVec w.2⟩

/-- `rank_owns_part_of_search_radius` in `get_outgoing_searches`, parallel/mod.rs lines 105-126; `none` is the
panic if the extents of the rank do not exist. -/
noncomputable def owns (D : Dim d n C) (W : World d Id) (r : ℕ) (s : SearchData C ℝ) : Option Prop :=
  rankOwnsPartOfSearchRadius W.box (communicateExtents (W.particles.map fun l => l.map Prod.snd)) r
    (cubeAroundSphere (D.toVec s.point) s.radius)

/-- A search of rank `own` is answered by rank `r`: by itself (`get_local_periodic_haloes`, lines 144-158) and by the
ranks to which it is sent. -/
def Asked (D : Dim d n C) (W : World d Id) (own r : ℕ) (s : SearchData C ℝ) : Prop :=
  r = own ∨ ∃ o, owns D W r s = some o ∧ o

/-- A search of rank `own` panics: on this rank because the extents of another rank do not exist, or on an answering
rank in `find_wrapped_point`. -/
def Panics (D : Dim d n C) (W : World d Id) (own : ℕ) (s : SearchData C ℝ) : Prop :=
  (∃ r, r < W.particles.length ∧ r ≠ own ∧ owns D W r s = none) ∨
    ∃ r, r < W.particles.length ∧ Asked D W own r s ∧ ∃ p ∈ found D W r s, ∃ e, imageOf D W s p = .error e

open Classical in
/-- The surroundings of the halo iteration on rank `own`; `order` is the order in which the results of the ranks are
looked at (the order of a hash map).  The results of a rank are those of `get_haloes_from_search`, parallel/mod.rs lines
160-175, before the cache. -/
noncomputable def env (D : Dim d n C) (W : World d Id) (order : List ℕ) (own : ℕ) :
    Env Id (Fin d → WrapType) C ℝ where
  ranks := order
  own := own
  periodic w := decide (isPeriodic w)
  find r s := if Asked D W own r s then (found D W r s).filterMap fun p => (imageOf D W s p).toOption else []
  fails s := decide (Panics D W own s)

end Verif.Parallel
