import Verif.Rounding.FaceModel
import Verif.Rounding.SqrtProps

/-!
# Circumcentres with `f64` rounding: model of `get_center_of_circumcircle` in `/repo/src/voronoi/primitives/tetrahedron.rs` with the
solver it uses, of `get_original_tetra_circumcircle` in `/repo/src/voronoi/delaunay/mod.rs` and of the radius of the search for
haloes in `/repo/src/voronoi/constructor/halo_iteration.rs`, three dimensions
-/

namespace Verif.Rounding

open Verif.Predicates

/-- `GAUSS_3X4_EPSILON`, math/utils.rs line 16. -/
def eps8 : ℚ := fl (1 / 10 ^ 8)

/-- `add_row_to_another`, math/utils.rs lines 110-114. -/
def addRowToAnotherF (m : Mat 3 4 ℚ) (r1 r2 : Fin 3) (factor : ℚ) : Mat 3 4 ℚ :=
  fun i k => if i = r1 then m r1 k ⊞ factor ⊠ m r2 k else m i k

/-- `solve_3x4_system_of_equations_error`, math/utils.rs lines 73-108, with every operation rounded.  `none` is
`Err(PrecisionError)`.  If all entries of the first column are zero, the code divides zero by zero before it checks the pivot; the
entries which are not a number then pass the other checks, and the check of `m[ix][0]` gives the error.  The model has the error as
well. -/
def solve3x4F (m : Mat 3 4 ℚ) : Option (ℚ × ℚ × ℚ) :=
  let (ix, iy, iz) : Fin 3 × Fin 3 × Fin 3 :=
    if |m 1 0| > |m 0 0| then (1, 0, 2) else (0, 1, 2)
  let (ix, iy, iz) : Fin 3 × Fin 3 × Fin 3 :=
    if |m 2 0| > |m ix 0| then (2, 0, 1) else (ix, iy, iz)
  let m := addRowToAnotherF m iy ix (-m iy 0 ⊘ m ix 0)
  let m := addRowToAnotherF m iz ix (-m iz 0 ⊘ m ix 0)
  let (iy, iz) : Fin 3 × Fin 3 := if |m iz 1| > |m iy 1| then (iz, iy) else (iy, iz)
  if !checked (m iy 1) eps8 then none else
  let m := addRowToAnotherF m iz iy (-m iz 1 ⊘ m iy 1)
  if !checked (m iz 2) eps8 then none else
  if !checked (m iy 1) eps8 then none else
  if !checked (m ix 0) eps8 then none else
  let x3 := m iz 3 ⊘ m iz 2
  let x2 := (m iy 3 ⊟ x3 ⊠ m iy 2) ⊘ m iy 1
  let x1 := (m ix 3 ⊟ x3 ⊠ m ix 2 ⊟ x2 ⊠ m ix 1) ⊘ m ix 0
  some (x1, x2, x3)

/-- One row of the system, tetrahedron.rs lines 350-366. -/
def centreRowF (p0 p : P3 ℚ) : Fin 4 → ℚ :=
  let ax := p.x ⊟ p0.x
  let ay := p.y ⊟ p0.y
  let az := p.z ⊟ p0.z
  ![ax, ay, az, (1 / 2) ⊠ (ax ⊠ ax ⊞ ay ⊠ ay ⊞ az ⊠ az)]

/-- `get_center_of_circumcircle_float`, tetrahedron.rs lines 344-368. -/
def circumcentreFloatF (t : Tetra ℚ) : Option (P3 ℚ) :=
  (solve3x4F ![centreRowF t.p1 t.p2, centreRowF t.p1 t.p3, centreRowF t.p1 t.p4]).map
    fun x => ⟨x.1 ⊞ t.p1.x, x.2.1 ⊞ t.p1.y, x.2.2 ⊞ t.p1.z⟩

/-- `get_center_of_circumcircle`, tetrahedron.rs lines 223-267: the exact path is evaluated in rational numbers and its results are
rounded (`to_f64` of `BigRational` is taken to round to the nearest `f64`).  `none`: division by zero. -/
def circumcentreF (t : Tetra ℚ) : Option (P3 ℚ) :=
  match circumcentreFloatF t with
  | some c => some c
  | none => t.circumcentreExact.map fun c => ⟨fl c.x, fl c.y, fl c.z⟩

/-- The radius in `get_original_tetra_circumcircle`, delaunay/mod.rs lines 210-217: `center.distance(sample_point)` of glam, where
`sample_point` is the first point of the tetrahedron. -/
noncomputable def circumradiusF (t : Tetra ℚ) (centre : P3 ℚ) : ℚ := sqrtF (dotF (subF centre t.p1) (subF centre t.p1))

/-- `max_necessary_radius` in `SearchData::new`, halo_iteration.rs line 66; `SEARCH_SAFETY_FACTOR` is 1.001. -/
noncomputable def maxNecessaryRadiusF (t : Tetra ℚ) (centre : P3 ℚ) : ℚ := circumradiusF t centre ⊠ fl (1001 / 1000)

end Verif.Rounding
