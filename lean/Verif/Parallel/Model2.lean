import Verif.Parallel.Model
import Verif.Parallel.Start2
import Verif.Voronoi.Cell
import Verif.Voronoi.CellSize

/-!
# The grid of one rank in two dimensions

Model of `construct_from_iter`, `/repo/src/voronoi/constructor/mod.rs` lines 53-82, and of `sweep_grid`, lines 138-169, with the
cargo feature `2d`, for the search of `ParallelSearch` (`/repo/src/voronoi/constructor/parallel/mod.rs`): local construction,
halo iteration, the names of the points and the cells of the sweep.  The three-dimensional version is
`Verif/Parallel/Model3.lean`.
-/

namespace Verif.Parallel

open Verif.Geometry Verif.Quadtree Verif.Delaunay
open Verif.Predicates (P2)

/-- Two dimensions. -/
noncomputable def dim2 : Dim 2 4 (P2 ℝ) := ⟨geom2, allWraps2, fun p => ![p.x, p.y], fun v => ⟨v 0, v 1⟩⟩

/-- The corners of the box of a world in two dimensions. -/
noncomputable def World.corners2 {Id : Type} (W : World 2 Id) : P2 ℝ × P2 ℝ := (dim2.ofVec W.lo, dim2.ofVec W.hi)

/-- The box of the triangulation, constructor/mod.rs lines 64-70, with `Extent::including_periodic_images`, extent.rs lines
28-34: the global extent is the one of the simulation box (`determine_global_extent`, parallel/mod.rs lines 240-242), enlarged by
its periodic images. -/
noncomputable def World.enlarged2 {Id : Type} (W : World 2 Id) : P2 ℝ × P2 ℝ :=
  let lo := W.corners2.1
  let hi := W.corners2.2
  (⟨lo.x - (hi.x - lo.x), lo.y - (hi.y - lo.y)⟩, ⟨hi.x + (hi.x - lo.x), hi.y + (hi.y - lo.y)⟩)

end Verif.Parallel

namespace Verif.Parallel.Plane

open Verif.Geometry Verif.Halo Verif.Delaunay
open Verif.Predicates (P2 Triangle2)

variable {Id : Type}

/-- `get_remapped_point`, delaunay/mod.rs lines 202-204, where the box of the construction has corners `b`. -/
noncomputable def remapped (b : P2 ℝ × P2 ℝ) (ps : List (P2 ℝ)) (i : ℕ) : P2 ℝ :=
  remapPoint2 (extent2 (Triangle2.allEncompassing b.1 b.2)) (positionOf ps i)

/-- The two-dimensional triangulation in a box with corners `b`: `geo2` with the remapped positions and `ops2`. -/
noncomputable def parts (b : P2 ℝ × P2 ℝ) {pop : Heaps} (hp : HeapsOk pop) : Parts 2 3 (P2 ℝ) where
  ops _ := ops2
  ops_ok _ := ops2_ok
  geo ps := geo2 (remapped b ps)
  geo_ok _ := geo2_proper _
  pop := pop
  pop_ok := hp

/-- The centre in `get_original_tetra_circumcircle`, delaunay/mod.rs lines 210-217, for the given vertices.  The other branch is
never reached, a triangle has three vertices. -/
noncomputable def circleCentre : List (P2 ℝ) → P2 ℝ
  | [a, b, c] => Triangle2.circumcentre ⟨a, b, c⟩
  | _ => ⟨0, 0⟩

/-- The radius in the same function: the distance from the centre to the first vertex. -/
noncomputable def circleRadius (l : List (P2 ℝ)) : ℝ :=
  distance (dim2.toVec (circleCentre l)) (dim2.toVec (l.headD ⟨0, 0⟩))

/-- The triangulation as seen by the halo iteration. -/
noncomputable def tri (b : P2 ℝ × P2 ℝ) {pop : Heaps} (hp : HeapsOk pop) : Tri (TriState 2 (P2 ℝ)) (P2 ℝ) ℝ :=
  triangulation (parts b hp) circleRadius circleCentre

/-- The triangulation of the local points with the kinds of its points: the three vertices of the initial triangle
are `Outer` (impl_2d.rs lines 193-199), the others `Inner` (delaunay/mod.rs lines 125-139). -/
def localState {N : Type} (r : Construction ℝ N) (h : StateOk 2 r.state) : TriState 2 (P2 ℝ) where
  state := r.state
  points := (List.range r.state.mesh.numPoints).map fun i => (r.position i, decide (3 ≤ i))
  ok := h
  num := by rw [List.length_map, List.length_range]

/-- The name of a point of the triangulation, `ParticleType` in sweep/grid/cell.rs lines 17-23. -/
inductive Name (Id : Type) where
  | own (id : Id)
  | halo (h : PType Id (Fin 2 → WrapType))
  | boundary

/-- `Constructor`: the triangulation and the map from names to points (`TriangulationData`,
delaunay/mod.rs and voronoi/mod.rs). -/
structure Grid (Id : Type) where
  tri : TriState 2 (P2 ℝ)
  names : List (Name Id × ℕ)

/-- The position of a point, `get_original_point`, delaunay/mod.rs lines 110-112. -/
noncomputable def Grid.position (g : Grid Id) (i : ℕ) : P2 ℝ := positionOf (g.tri.points.map Prod.fst) i

/-- `construct_from_iter` on rank `own`, constructor/mod.rs lines 53-82, in a run in which all ranks are done after `n`
iterations (`run`, halo_iteration.rs lines 155-159).  The haloes have the indices following those of the local
points in the order in which they are inserted (halo_iteration.rs lines 194-202).  `none`: a panic, or the rank is not done
after `n` iterations. -/
noncomputable def constructRank [DecidableEq Id] (key : P2 ℝ → ℕ) {pop : Heaps}
    (hp : HeapsOk pop) (fuel : ℕ) (len : ℝ) (order : List ℕ) (W : World 2 Id) (own n : ℕ) : Option (Grid Id) :=
  match h : construct2 key pop fuel W.enlarged2.1 W.enlarged2.2 ((W.ofRank own).map fun p => (p.1, dim2.ofVec p.2)) with
  | .done r =>
    match iterateN (env dim2 W order own) (tri W.enlarged2 hp) len n
        (initial (tri W.enlarged2 hp) (localState r (construct2_stateOk hp h))) with
    | .ok st =>
      if st.undecided.isEmpty then
        some ⟨st.tri, r.indices.map (fun e => (Name.own e.1, e.2)) ++
          st.haloes.reverse.zipIdx.map fun e => (Name.halo e.1, r.state.mesh.numPoints + e.2)⟩
      else none
    | .error _ => none
  | .panic => none
  | .running => none

/-- The faces of the cell of point `i` of the grid, `Cell::new` (voronoi/cell.rs), see `getFaces2`. -/
noncomputable def Grid.faces (g : Grid Id) (i : ℕ) : Option (List Voronoi.Face2) :=
  Voronoi.getFaces2 g.tri.state.mesh g.position (Voronoi.centre2 g.tri.state.mesh g.position) i

/-- The polygon of the cell of point `i` of the grid, `Cell::new` (voronoi/cell.rs), see `getPoints2`. -/
noncomputable def Grid.outline (g : Grid Id) (i : ℕ) : Option (List (P2 ℝ)) :=
  Voronoi.getPoints2 g.tri.state.mesh (Voronoi.centre2 g.tri.state.mesh g.position) i

/-! ### The grid of the sweep -/

/-- `point_to_cell_map.get_by_right(&p)`.  The code keeps the names in a `BiMap`; since names and points occur once
(`names_nodup`), this is the same as a search in the list. -/
def Grid.lookup (g : Grid Id) (p : ℕ) : Option (Name Id) := (g.names.find? fun e => e.2 == p).map Prod.fst

/-- `get_particle_type`, triangulation_data.rs lines 73-78: `Boundary` for the vertices of the initial triangle, which
are the `Outer` points (impl_2d.rs lines 193-199); `none` is a point without name. -/
def Grid.particleType (g : Grid Id) (p : ℕ) : Option (Name Id) := if p < 3 then some .boundary else g.lookup p

/-- `map_ptype`, constructor/mod.rs lines 125-135. -/
def mapPtype (periodic : Bool) : Name Id → Name Id
  | .halo (.localPeriodic id w) => if periodic then .halo (.localPeriodic id w) else .boundary
  | .halo (.remotePeriodic id r w) => if periodic then .halo (.remotePeriodic id r w) else .boundary
  | n => n

/-- `grid::Cell`, sweep/grid/cell.rs; a neighbour is the area and the normal of the face and the type of the particle
behind it. -/
structure SweepCell (Id : Type) where
  neighbours : List (ℝ × P2 ℝ × Name Id)
  size : ℝ
  volume : ℝ

/-- The closure in `sweep_grid`, constructor/mod.rs lines 142-166, for the cell of point `p`, with the parts of `Cell::new`
(cell.rs lines 137-150, 80-108) which look up the types of the particles. -/
noncomputable def Grid.sweepCell (g : Grid Id) (periodic : Bool) (p : ℕ) : Option (Name Id × SweepCell Id) := do
  let l ← g.outline p
  let _ ← g.lookup p
  let F ← g.faces p
  let neighbours ← F.mapM fun f => (g.particleType f.connection).map fun t => (f.area, f.normal, mapPtype periodic t)
  let type ← g.particleType p
  let size ← Voronoi.size2 l
  let volume ← Voronoi.volume2 l
  some (mapPtype periodic type, ⟨neighbours, size, volume⟩)

/-- `sweep_grid`, constructor/mod.rs lines 138-169: the cells of all points but the vertices of the initial triangle
(`iter_non_boundary_points`, delaunay/mod.rs lines 225-230). -/
noncomputable def Grid.sweepGrid (g : Grid Id) (periodic : Bool) : Option (List (Name Id × SweepCell Id)) :=
  ((List.range g.tri.state.mesh.numPoints).filter fun p => 3 ≤ p).mapM (g.sweepCell periodic)

/-- `is_local`, sweep/grid/cell.rs lines 30-32. -/
def Name.isLocal : Name Id → Bool
  | .own _ => true
  | _ => false

/-- The first branch of the loop in `construct_grid_system`, parallel/plugin.rs lines 110-115: the cell is inserted at the
entity of the local particle. -/
def localCell (e : Name Id × SweepCell Id) : Option (Id × SweepCell Id) :=
  match e.1 with
  | .own id => some (id, e.2)
  | _ => none

/-- The cells which `construct_grid_system` adds to the world, parallel/plugin.rs lines 109-125. -/
def localCells (G : List (Name Id × SweepCell Id)) : List (Id × SweepCell Id) := G.filterMap localCell

/-- `add_halo` and the branches which call it, parallel/plugin.rs lines 95-124: a halo particle is spawned for a remote
particle, without or with periodic wrap, whose cell has a local neighbour, with rank and id.  Its position, which is the
one of the image, is omitted. -/
def haloParticle (e : Name Id × SweepCell Id) : Option (ℕ × Id) :=
  match e.1 with
  | .halo (.remote id r) => if e.2.neighbours.any fun f => f.2.2.isLocal then some (r, id) else none
  | .halo (.remotePeriodic id r _) => if e.2.neighbours.any fun f => f.2.2.isLocal then some (r, id) else none
  | _ => none

/-- The halo particles which `construct_grid_system` spawns, parallel/plugin.rs lines 109-125. -/
def haloParticles (G : List (Name Id × SweepCell Id)) : List (ℕ × Id) := G.filterMap haloParticle

end Verif.Parallel.Plane
