import Verif.Parallel.Model
import Verif.Parallel.Start3
import Verif.Voronoi.Cell
import Verif.Voronoi.CellSize

/-!
# The grid of one rank in three dimensions

Model of `construct_from_iter`, `/repo/src/voronoi/constructor/mod.rs` lines 53-82, in three dimensions for the search
of `ParallelSearch` (`/repo/src/voronoi/constructor/parallel/mod.rs`): local construction, halo iteration, and the
names of the points.
-/

namespace Verif.Parallel

open Verif.Geometry Verif.Halo Verif.Delaunay
open Verif.Predicates (P3)

variable {Id : Type}

/-- `get_remapped_point`, delaunay/mod.rs lines 202-204, where the box of the construction has corners `b`. -/
noncomputable def remapped3 (b : P3 ℝ × P3 ℝ) (ps : List (P3 ℝ)) (i : ℕ) : P3 ℝ :=
  remapPoint3 (extent3 (Predicates.Tetra.allEncompassing b.1 b.2)) (positionOf3 ps i)

/-- The three-dimensional triangulation in a box with corners `b`: `geo3` and `ops3` with the remapped positions. -/
noncomputable def parts3 (eps : ℝ) (b : P3 ℝ × P3 ℝ) {pop : Heaps} (hp : HeapsOk pop) :
    Parts 3 4 (P3 ℝ) where
  ops ps := ops3 (intersect3 (remapped3 b ps))
  ops_ok _ := ops3_ok _
  geo ps := geo3 eps (remapped3 b ps)
  geo_ok _ := geo3_proper _ _
  pop := pop
  pop_ok := hp

/-- The centre in `get_original_tetra_circumcircle`, delaunay/mod.rs lines 210-217, for the given vertices; `eps` is
`GAUSS_3X4_EPSILON`.  The other branches are never reached, a tetra has four vertices and is not flat
(`circumcentre_correct`). -/
noncomputable def sphereCentre (eps : ℝ) : List (P3 ℝ) → P3 ℝ
  | [a, b, c, d] => (Predicates.Tetra.circumcentre eps ⟨a, b, c, d⟩).getD a
  | _ => ⟨0, 0, 0⟩

/-- The radius in the same function: the distance from the centre to the first vertex. -/
noncomputable def sphereRadius (eps : ℝ) (l : List (P3 ℝ)) : ℝ :=
  distance (dim3.toVec (sphereCentre eps l)) (dim3.toVec (l.headD ⟨0, 0, 0⟩))

/-- The triangulation as seen by the halo iteration. -/
noncomputable def tri3 (eps eps' : ℝ) (b : P3 ℝ × P3 ℝ) {pop : Heaps} (hp : HeapsOk pop) :
    Tri (TriState 3 (P3 ℝ)) (P3 ℝ) ℝ :=
  triangulation (parts3 eps b hp) (sphereRadius eps') (sphereCentre eps')

/-- The triangulation of the local points with the kinds of its points: the four vertices of the initial tetrahedron
are `Outer` (impl_3d.rs lines 402-413), the others `Inner` (delaunay/mod.rs lines 125-139). -/
def localState {N : Type} (r : Construction3 ℝ N) (h : StateOk 3 r.state) : TriState 3 (P3 ℝ) where
  state := r.state
  points := (List.range r.state.mesh.numPoints).map fun i => (r.position i, decide (4 ≤ i))
  ok := h
  num := by rw [List.length_map, List.length_range]

/-- The name of a point of the triangulation, `ParticleType` in sweep/grid/cell.rs lines 17-23. -/
inductive Name (Id : Type) where
  | own (id : Id)
  | halo (h : PType Id (Fin 3 → WrapType))
  | boundary

/-- `Constructor`: the triangulation and the map from names to points (`TriangulationData`,
delaunay/mod.rs and voronoi/mod.rs). -/
structure Grid3 (Id : Type) where
  tri : TriState 3 (P3 ℝ)
  names : List (Name Id × ℕ)

/-- The position of a point, `get_original_point`, delaunay/mod.rs lines 110-112. -/
noncomputable def Grid3.position (g : Grid3 Id) (i : ℕ) : P3 ℝ := positionOf3 (g.tri.points.map Prod.fst) i

/-- The corners of the box of a world in three dimensions. -/
noncomputable def World.corners (W : World 3 Id) : P3 ℝ × P3 ℝ := (dim3.ofVec W.lo, dim3.ofVec W.hi)

/-- The box of the triangulation, constructor/mod.rs lines 64-70: the global extent is the one of the simulation box
(`determine_global_extent`, parallel/mod.rs lines 240-242), enlarged by its periodic images. -/
noncomputable def World.enlarged (W : World 3 Id) : P3 ℝ × P3 ℝ := withPeriodicImages W.corners.1 W.corners.2

/-- `construct_from_iter` on rank `own`, constructor/mod.rs lines 53-82, in a run in which all ranks are done after `n`
iterations (`run`, halo_iteration.rs lines 155-159).  The haloes have the indices following those of the local
points in the order in which they are inserted (halo_iteration.rs lines 194-202).  `none`: a panic, or the rank is not done
after `n` iterations. -/
noncomputable def constructRank [DecidableEq Id] (eps eps' : ℝ) (key : P3 ℝ → ℕ) {pop : Heaps}
    (hp : HeapsOk pop) (fuel : ℕ) (len : ℝ) (order : List ℕ) (W : World 3 Id) (own n : ℕ) : Option (Grid3 Id) :=
  match h : construct3 eps key pop fuel W.enlarged.1 W.enlarged.2 ((W.ofRank own).map fun p => (p.1, dim3.ofVec p.2)) with
  | .done r =>
    match iterateN (env dim3 W order own) (tri3 eps eps' W.enlarged hp) len n
        (initial (tri3 eps eps' W.enlarged hp) (localState r (construct3_stateOk hp h))) with
    | .ok st =>
      if st.undecided.isEmpty then
        some ⟨st.tri, r.indices.map (fun e => (Name.own e.1, e.2)) ++
          st.haloes.reverse.zipIdx.map fun e => (Name.halo e.1, r.state.mesh.numPoints + e.2)⟩
      else none
    | .error _ => none
  | .panic => none
  | .running => none

/-- The faces of the cell of point `i` of the grid, `Cell::new` (voronoi/cell.rs), see `getFaces3`. -/
noncomputable def Grid3.faces (eps' : ℝ) (g : Grid3 Id) (i : ℕ) : Option (List Voronoi.Face3) :=
  Voronoi.getFaces3 g.tri.state.mesh g.position (Voronoi.centre3 eps' g.tri.state.mesh g.position) i

/-! ### The grid of the sweep -/

/-- `point_to_cell_map.get_by_right(&p)`.  The code keeps the names in a `BiMap`; since names and points occur once
(`names_nodup`), this is the same as a search in the list. -/
def Grid3.lookup (g : Grid3 Id) (p : ℕ) : Option (Name Id) := (g.names.find? fun e => e.2 == p).map Prod.fst

/-- `get_particle_type`, triangulation_data.rs lines 73-78: `Boundary` for the vertices of the initial tetrahedron, which
are the `Outer` points (impl_3d.rs lines 402-413); `none` is a point without name. -/
def Grid3.particleType (g : Grid3 Id) (p : ℕ) : Option (Name Id) := if p < 4 then some .boundary else g.lookup p

/-- `map_ptype`, constructor/mod.rs lines 125-135. -/
def mapPtype (periodic : Bool) : Name Id → Name Id
  | .halo (.localPeriodic id w) => if periodic then .halo (.localPeriodic id w) else .boundary
  | .halo (.remotePeriodic id r w) => if periodic then .halo (.remotePeriodic id r w) else .boundary
  | n => n

/-- `grid::Cell`, sweep/grid/cell.rs; a neighbour is the area and the normal of the face and the type of the particle
behind it. -/
structure SweepCell (Id : Type) where
  neighbours : List (ℝ × P3 ℝ × Name Id)
  size : ℝ
  volume : ℝ

/-- The closure in `sweep_grid`, constructor/mod.rs lines 142-166, for the cell of point `p`, with the parts of `Cell::new`
(cell.rs lines 199-212, 238) which look up the types of the particles.  `eps'` is `GAUSS_3X4_EPSILON`. -/
noncomputable def Grid3.sweepCell (eps' : ℝ) (g : Grid3 Id) (periodic : Bool) (p : ℕ) : Option (Name Id × SweepCell Id) := do
  let F ← g.faces eps' p
  let _ ← g.lookup p
  let neighbours ← F.mapM fun f => (g.particleType f.connection).map fun t => (f.area, f.normal, mapPtype periodic t)
  let type ← g.particleType p
  let size ← Voronoi.size3 F (g.position p)
  let volume ← Voronoi.volume3 F (g.position p)
  some (mapPtype periodic type, ⟨neighbours, size, volume⟩)

/-- `sweep_grid`, constructor/mod.rs lines 138-169: the cells of all points but the vertices of the initial tetrahedron
(`iter_non_boundary_points`, delaunay/mod.rs lines 225-230). -/
noncomputable def Grid3.sweepGrid (eps' : ℝ) (g : Grid3 Id) (periodic : Bool) : Option (List (Name Id × SweepCell Id)) :=
  ((List.range g.tri.state.mesh.numPoints).filter fun p => 4 ≤ p).mapM (g.sweepCell eps' periodic)

/-- `is_local`, sweep/grid/cell.rs lines 30-32. -/
def Name.isLocal : Name Id → Bool
  | .own _ => true
  | _ => false

/-- The first branch of the loop in `construct_grid_system`, parallel/plugin.rs lines 110-115: the cell is inserted at the
entity of the local particle. -/
def localCell (e : Name Id × SweepCell Id) : Option (Id × SweepCell Id) :=
  match e.1 with
  | .own id => some (id, e.2)
  | _ => none

/-- The cells which `construct_grid_system` adds to the world, parallel/plugin.rs lines 109-125. -/
def localCells (G : List (Name Id × SweepCell Id)) : List (Id × SweepCell Id) := G.filterMap localCell

/-- `add_halo` and the branches which call it, parallel/plugin.rs lines 95-124: a halo particle is spawned for a remote
particle, without or with periodic wrap, whose cell has a local neighbour, with rank and id.  Its position, which is the
one of the image, is omitted. -/
def haloParticle (e : Name Id × SweepCell Id) : Option (ℕ × Id) :=
  match e.1 with
  | .halo (.remote id r) => if e.2.neighbours.any fun f => f.2.2.isLocal then some (r, id) else none
  | .halo (.remotePeriodic id r _) => if e.2.neighbours.any fun f => f.2.2.isLocal then some (r, id) else none
  | _ => none

/-- The halo particles which `construct_grid_system` spawns, parallel/plugin.rs lines 109-125. -/
def haloParticles (G : List (Name Id × SweepCell Id)) : List (ℕ × Id) := G.filterMap haloParticle

end Verif.Parallel
