import Mathlib.Data.Fin.VecNotation
import Mathlib.Algebra.Field.Basic
import Mathlib.Algebra.Order.Field.Basic
import Mathlib.Data.Fin.Tuple.Basic
import Mathlib.Data.List.FinRange

/-!
# Linear algebra and geometric predicates: model of `/repo/src/voronoi/math/utils.rs`,
`/repo/src/voronoi/math/precision_types.rs`, `/repo/src/voronoi/primitives/triangle.rs` and
`/repo/src/voronoi/primitives/tetrahedron.rs`

The code evaluates most predicates in `f64` first and, if the result is too close to zero, again with
exact rational arithmetic (`num::BigRational`).  The model is over an arbitrary ordered field `K`: for
`K = ℚ` it is the exact path.  `none` is a panic: `panic_if_zero`, division by zero of rationals.
`PrecisionError::check` never fails for rationals (precision_types.rs lines 48-52).
-/

namespace Verif.Predicates

/-- `Matrix<M, N, F>`, math/utils.rs line 21. -/
abbrev Mat (m n : ℕ) (K : Type) := Fin m → Fin n → K

/-! ## Determinants -/

section Ring
variable {K : Type} [Ring K]

/-- `determinant3x3`, math/utils.rs lines 281-291. -/
def determinant3x3 (a : Mat 3 3 K) : K :=
  a 0 0 * a 1 1 * a 2 2
    + a 0 1 * a 1 2 * a 2 0
    + a 0 2 * a 1 0 * a 2 1
    - a 0 2 * a 1 1 * a 2 0
    - a 0 1 * a 1 0 * a 2 2
    - a 0 0 * a 1 2 * a 2 1

/-- `determinant4x4`, math/utils.rs lines 294-301. -/
def determinant4x4 (a : Mat 4 4 K) : K :=
  a 0 0 * determinant3x3 ![![a 1 1, a 1 2, a 1 3], ![a 2 1, a 2 2, a 2 3], ![a 3 1, a 3 2, a 3 3]]
  - a 1 0 * determinant3x3 ![![a 0 1, a 0 2, a 0 3], ![a 2 1, a 2 2, a 2 3], ![a 3 1, a 3 2, a 3 3]]
  + a 2 0 * determinant3x3 ![![a 0 1, a 0 2, a 0 3], ![a 1 1, a 1 2, a 1 3], ![a 3 1, a 3 2, a 3 3]]
  - a 3 0 * determinant3x3 ![![a 0 1, a 0 2, a 0 3], ![a 1 1, a 1 2, a 1 3], ![a 2 1, a 2 2, a 2 3]]

/-- `determinant5x5`, math/utils.rs lines 304-312. -/
def determinant5x5 (a : Mat 5 5 K) : K :=
  a 0 0 * determinant4x4 ![![a 1 1, a 1 2, a 1 3, a 1 4], ![a 2 1, a 2 2, a 2 3, a 2 4],
      ![a 3 1, a 3 2, a 3 3, a 3 4], ![a 4 1, a 4 2, a 4 3, a 4 4]]
  - a 1 0 * determinant4x4 ![![a 0 1, a 0 2, a 0 3, a 0 4], ![a 2 1, a 2 2, a 2 3, a 2 4],
      ![a 3 1, a 3 2, a 3 3, a 3 4], ![a 4 1, a 4 2, a 4 3, a 4 4]]
  + a 2 0 * determinant4x4 ![![a 0 1, a 0 2, a 0 3, a 0 4], ![a 1 1, a 1 2, a 1 3, a 1 4],
      ![a 3 1, a 3 2, a 3 3, a 3 4], ![a 4 1, a 4 2, a 4 3, a 4 4]]
  - a 3 0 * determinant4x4 ![![a 0 1, a 0 2, a 0 3, a 0 4], ![a 1 1, a 1 2, a 1 3, a 1 4],
      ![a 2 1, a 2 2, a 2 3, a 2 4], ![a 4 1, a 4 2, a 4 3, a 4 4]]
  + a 4 0 * determinant4x4 ![![a 0 1, a 0 2, a 0 3, a 0 4], ![a 1 1, a 1 2, a 1 3, a 1 4],
      ![a 2 1, a 2 2, a 2 3, a 2 4], ![a 3 1, a 3 2, a 3 3, a 3 4]]

end Ring

/-! ## Solvers -/

section Field
variable {K : Type} [Field K] [LinearOrder K]

/-- The row with the largest absolute value in column `k` among rows `h..M`, math/utils.rs lines
28-30.  `Iterator::max_by` returns the last of several maximal elements. -/
def pivotRow {m n : ℕ} (a : Mat m n K) (h : Fin m) (k : Fin n) : Fin m :=
  ((List.finRange m).filter (fun i => h < i)).foldl
    (fun best i => if |a best k| ≤ |a i k| then i else best) h

/-- `swap_rows`, math/utils.rs lines 49-59. -/
def swapRows {m n : ℕ} (a : Mat m n K) (r1 r2 : Fin m) : Mat m n K :=
  fun i => if i = r1 then a r2 else if i = r2 then a r1 else a i

/-- The elimination of column `k` below row `h`, math/utils.rs lines 35-41.  The code modifies only the
rows below `h`, each using row `h` and itself, so the updates are independent. -/
def eliminate {m n : ℕ} (a : Mat m n K) (h : Fin m) (k : Fin n) : Mat m n K :=
  fun i j =>
    if h < i then
      if j = k then 0
      else if k < j then a i j - a h j * (a i k / a h k)
      else a i j
    else a i j

/-- The `while` loop of `solve_system_of_equations`, math/utils.rs lines 27-45.  Column `k` increases
in every pass; `fuel` is a bound on the number of passes, `M + 1 - k` is enough. -/
def elimination {m n : ℕ} : ℕ → ℕ → ℕ → Mat m n K → Mat m n K
  | 0, _, _, a => a
  | fuel + 1, h, k, a =>
    if hh : h < m then
      if hk : k < n then
        let iMax := pivotRow a ⟨h, hh⟩ ⟨k, hk⟩
        if a iMax ⟨k, hk⟩ = 0 then elimination fuel h (k + 1) a
        else
          elimination fuel (h + 1) (k + 1)
            (eliminate (swapRows a ⟨h, hh⟩ iMax) ⟨h, hh⟩ ⟨k, hk⟩)
      else a
    else a

/-- One step of `backward_substitution`, math/utils.rs lines 64-68: the value of unknown `i`, given
the values found so far; `none` if the diagonal entry is zero (division by zero). -/
def backStep {m : ℕ} (a : Mat m (m + 1) K) (x : Fin m → K) (i : Fin m) : Option (Fin m → K) :=
  let v := ((List.finRange m).filter (fun j => i < j)).foldl
    (fun acc j => acc - a i j.castSucc * x j) (a i (Fin.last m))
  if a i i.castSucc = 0 then none
  else some (Function.update x i (v / a i i.castSucc))

/-- `backward_substitution`, math/utils.rs lines 61-71. -/
def backwardSubstitution {m : ℕ} (a : Mat m (m + 1) K) : Option (Fin m → K) :=
  (List.finRange m).reverse.foldlM (backStep a) (fun _ => 0)

/-- `solve_system_of_equations`, math/utils.rs lines 23-47. -/
def solveSystem {m : ℕ} (a : Mat m (m + 1) K) : Option (Fin m → K) :=
  backwardSubstitution (elimination (m + 1) 0 0 a)

/-- `add_row_to_another`, math/utils.rs lines 110-114. -/
def addRowToAnother (m : Mat 3 4 K) (r1 r2 : Fin 3) (factor : K) : Mat 3 4 K :=
  fun i k => if i = r1 then m r1 k + factor * m r2 k else m i k

/-- `PrecisionError::check` for floats, precision_types.rs lines 20-26 and 40-44: accepted? -/
def checked (v eps : K) : Bool := !decide (|v| < eps)

/-- `solve_3x4_system_of_equations_error`, math/utils.rs lines 73-108; `eps` is
`GAUSS_3X4_EPSILON`.  `none` is `Err(PrecisionError)`.  Divisions by a pivot `m[ix][0] = 0` happen in the
code before that pivot is checked; the result is an error then in both code and model. -/
def solve3x4 (eps : K) (m : Mat 3 4 K) : Option (K × K × K) :=
  let (ix, iy, iz) : Fin 3 × Fin 3 × Fin 3 :=
    if |m 1 0| > |m 0 0| then (1, 0, 2) else (0, 1, 2)
  let (ix, iy, iz) : Fin 3 × Fin 3 × Fin 3 :=
    if |m 2 0| > |m ix 0| then (2, 0, 1) else (ix, iy, iz)
  let m := addRowToAnother m iy ix (-m iy 0 / m ix 0)
  let m := addRowToAnother m iz ix (-m iz 0 / m ix 0)
  let (iy, iz) : Fin 3 × Fin 3 := if |m iz 1| > |m iy 1| then (iz, iy) else (iy, iz)
  if !checked (m iy 1) eps then none else
  let m := addRowToAnother m iz iy (-m iz 1 / m iy 1)
  if !checked (m iz 2) eps then none else
  if !checked (m iy 1) eps then none else
  if !checked (m ix 0) eps then none else
  let x3 := m iz 3 / m iz 2
  let x2 := (m iy 3 - x3 * m iy 2) / m iy 1
  let x1 := (m ix 3 - x3 * m ix 2 - x2 * m ix 1) / m ix 0
  some (x1, x2, x3)

/-! ## Signs -/

/-- `enum Sign`, math/utils.rs lines 130-134. -/
inductive Sign where
  | positive
  | negative
  | zero
deriving DecidableEq, Repr

/-- `Sign::of` and, for rationals, `Sign::try_from_val`, math/utils.rs lines 157-175. -/
def Sign.of (v : K) : Sign := if v < 0 then .negative else if v = 0 then .zero else .positive

/-- `Mul for Sign`, math/utils.rs lines 136-154. -/
def Sign.mul : Sign → Sign → Sign
  | .positive, .positive => .positive
  | .positive, .negative => .negative
  | .positive, .zero => .zero
  | .negative, .positive => .negative
  | .negative, .negative => .positive
  | .negative, .zero => .zero
  | .zero, _ => .zero

/-- `panic_if_zero` followed by `is_positive`, math/utils.rs lines 177-190. -/
def Sign.checkedPositive : Sign → Option Bool
  | .positive => some true
  | .negative => some false
  | .zero => none

/-- `panic_if_zero` followed by `is_negative`, math/utils.rs lines 181-190. -/
def Sign.checkedNegative : Sign → Option Bool
  | .positive => some false
  | .negative => some true
  | .zero => none

/-! ## Triangles in the plane -/

/-- `Point2d`. -/
@[ext] structure P2 (K : Type) where
  x : K
  y : K
deriving DecidableEq

/-- `Point3d`. -/
@[ext] structure P3 (K : Type) where
  x : K
  y : K
  z : K
deriving DecidableEq

def P2.sub (a b : P2 K) : P2 K := ⟨a.x - b.x, a.y - b.y⟩
def P3.sub (a b : P3 K) : P3 K := ⟨a.x - b.x, a.y - b.y, a.z - b.z⟩

/-- `TriangleData<Point2d>`, triangle.rs lines 115-119. -/
structure Triangle2 (K : Type) where
  p1 : P2 K
  p2 : P2 K
  p3 : P2 K

/-- `TriangleData<Point3d>`, triangle.rs lines 115-119. -/
structure Triangle3 (K : Type) where
  p1 : P3 K
  p2 : P3 K
  p3 : P3 K

/-- `TetrahedronData`, tetrahedron.rs lines 44-49. -/
structure Tetra (K : Type) where
  p1 : P3 K
  p2 : P3 K
  p3 : P3 K
  p4 : P3 K

/-- `transform_point_to_canonical_coordinates`, triangle.rs lines 152-162. -/
def Triangle2.canonical (t : Triangle2 K) (p : P2 K) : Option (K × K) :=
  let a := t.p2.sub t.p1
  let b := t.p3.sub t.p1
  let c := p.sub t.p1
  (solveSystem ![![a.x, b.x, c.x], ![a.y, b.y, c.y]]).map fun rs => (rs 0, rs 1)

/-- `generic_contains` with exact arithmetic, triangle.rs lines 164-187: outside if some sign is
negative, otherwise panic if some sign is zero, otherwise inside. -/
def Triangle2.contains (t : Triangle2 K) (p : P2 K) : Option Bool := do
  let (r, s) ← t.canonical p
  let signs := [Sign.of r, Sign.of s, Sign.of (1 - (r + s))]
  if signs.any (fun sg => sg = .negative) then some false
  else if signs.any (fun sg => sg = .zero) then none
  else some true

/-- `DTetraData::all_encompassing` in two dimensions, triangle.rs lines 207-220. -/
def Triangle2.allEncompassing (lo hi : P2 K) : Triangle2 K :=
  let alpha : K := 1
  let pa : P2 K := ⟨lo.x - (hi.x - lo.x) * alpha, lo.y - (hi.y - lo.y) * alpha⟩
  let pb : P2 K := ⟨lo.x, hi.y + (hi.y - lo.y) * (1 + alpha)⟩
  let pc : P2 K := ⟨hi.x + (hi.x - lo.x) * (1 + alpha), lo.y⟩
  { p1 := pb, p2 := pa, p3 := pc }

/-- `circumcircle_contains` in two dimensions, triangle.rs lines 245-259.  `determinant3x3_sign`
(math/utils.rs lines 225-278) is the sign of the exact determinant. -/
def Triangle2.circumcircleContains (t : Triangle2 K) (d : P2 K) : Option Bool :=
  let a := t.p1
  let b := t.p2
  let c := t.p3
  (Sign.of (determinant3x3 ![
    ![b.x - a.x, b.y - a.y, (b.x - a.x) ^ 2 + (b.y - a.y) ^ 2],
    ![c.x - a.x, c.y - a.y, (c.x - a.x) ^ 2 + (c.y - a.y) ^ 2],
    ![d.x - a.x, d.y - a.y, (d.x - a.x) ^ 2 + (d.y - a.y) ^ 2]])).checkedNegative

/-- `get_center_of_circumcircle` in two dimensions, triangle.rs lines 261-276. -/
def Triangle2.circumcentre (t : Triangle2 K) : P2 K :=
  let a := t.p1
  let b := t.p2
  let c := t.p3
  let d := 2 * (a.x * (b.y - c.y) + b.x * (c.y - a.y) + c.x * (a.y - b.y))
  { x := 1 / d * ((a.x ^ 2 + a.y ^ 2) * (b.y - c.y) + (b.x ^ 2 + b.y ^ 2) * (c.y - a.y)
      + (c.x ^ 2 + c.y ^ 2) * (a.y - b.y))
    y := 1 / d * ((a.x ^ 2 + a.y ^ 2) * (c.x - b.x) + (b.x ^ 2 + b.y ^ 2) * (a.x - c.x)
      + (c.x ^ 2 + c.y ^ 2) * (b.x - a.x)) }

/-! ## Triangles in space -/

/-- `enum EdgeIdentifier`, triangle.rs lines 39-43. -/
inductive Edge where
  | one
  | two
  | three
deriving DecidableEq, Repr

/-- `enum IntersectionType`, triangle.rs lines 32-36. -/
inductive IntersectionType where
  | inside
  | outsideOneEdge (e : Edge)
  | outsideTwoEdges (e f : Edge)
deriving DecidableEq, Repr

/-- `get_intersection_type` with exact arithmetic, triangle.rs lines 302-336. -/
def intersectionType (r s : K) : Option IntersectionType :=
  let signs := [Sign.of r, Sign.of s, Sign.of (1 - (r + s))]
  if signs.any (fun sg => sg = .zero) then none
  else
    let identifiers := ((signs.zip [Edge.two, Edge.three, Edge.one]).filter
      (fun p => p.1 = .negative)).map (fun p => p.2)
    match identifiers with
    | [] => some .inside
    | [e] => some (.outsideOneEdge e)
    | [e, f] => some (.outsideTwoEdges e f)
    | _ => none

/-- `generic_get_line_intersection_type`, triangle.rs lines 280-300. -/
def Triangle3.lineIntersectionType (t : Triangle3 K) (q1 q2 : P3 K) : Option IntersectionType := do
  let a := t.p2.sub t.p1
  let b := t.p3.sub t.p1
  let k := q2.sub q1
  let c := q1.sub t.p1
  let rst ← solveSystem ![![a.x, b.x, -k.x, c.x], ![a.y, b.y, -k.y, c.y], ![a.z, b.z, -k.z, c.z]]
  intersectionType (rst 0) (rst 1)

/-! ## Tetrahedra -/

/-- `Cross3d::cross`, precision_types.rs lines 91-97. -/
def cross (u v : P3 K) : P3 K :=
  { x := u.y * v.z - v.y * u.z, y := u.z * v.x - v.z * u.x, z := u.x * v.y - v.x * u.y }

/-- `Dot::dot`, precision_types.rs lines 108-110. -/
def dot (u v : P3 K) : K := u.x * v.x + u.y * v.y + u.z * v.z

/-- `points_are_on_same_side_of_triangle` with exact arithmetic, tetrahedron.rs lines 371-389. -/
def onSameSide (p1 p2 pa pb pc : P3 K) : Option Bool :=
  let normal := cross (pb.sub pa) (pc.sub pa)
  ((Sign.of (dot (p1.sub pa) normal)).mul (Sign.of (dot (p2.sub pa) normal))).checkedPositive

/-- `&&` of two fallible conditions: the second is evaluated only if the first is true. -/
def andThen (a : Option Bool) (b : Option Bool) : Option Bool :=
  match a with
  | none => none
  | some false => some false
  | some true => b

/-- `f64_contains` / `arbitrary_precision_contains`, tetrahedron.rs lines 90-136. -/
def Tetra.contains (t : Tetra K) (p : P3 K) : Option Bool :=
  andThen (onSameSide p t.p1 t.p2 t.p3 t.p4)
    (andThen (onSameSide p t.p2 t.p1 t.p3 t.p4)
      (andThen (onSameSide p t.p3 t.p1 t.p2 t.p4)
        (onSameSide p t.p4 t.p1 t.p2 t.p3)))

/-- `DTetraData::all_encompassing` in three dimensions, tetrahedron.rs lines 142-152. -/
def Tetra.allEncompassing (lo hi : P3 K) : Tetra K :=
  let alpha : K := 1 / 100
  let dir := hi.sub lo
  let f : K := 21 / 10 + alpha
  let projected : P3 K := ⟨hi.x + dir.x * f, hi.y + dir.y * f, hi.z + dir.z * f⟩
  { p1 := ⟨lo.x - dir.x * alpha, lo.y - dir.y * alpha, lo.z - dir.z * alpha⟩
    p2 := ⟨projected.x, lo.y, lo.z⟩
    p3 := ⟨lo.x, projected.y, lo.z⟩
    p4 := ⟨lo.x, lo.y, projected.z⟩ }

/-- The matrix of the exact in-sphere test, tetrahedron.rs lines 200-211. -/
def inSphereMatrix (a b c d e : P3 K) : Mat 5 5 K := ![
  ![1, a.x, a.y, a.z, a.x ^ 2 + a.y ^ 2 + a.z ^ 2],
  ![1, b.x, b.y, b.z, b.x ^ 2 + b.y ^ 2 + b.z ^ 2],
  ![1, c.x, c.y, c.z, c.x ^ 2 + c.y ^ 2 + c.z ^ 2],
  ![1, d.x, d.y, d.z, d.x ^ 2 + d.y ^ 2 + d.z ^ 2],
  ![1, e.x, e.y, e.z, e.x ^ 2 + e.y ^ 2 + e.z ^ 2]]

/-- The exact path of `circumcircle_contains` in three dimensions, tetrahedron.rs lines 199-220. -/
def Tetra.circumsphereContainsExact (t : Tetra K) (e : P3 K) : Option Bool :=
  (Sign.of (determinant5x5 (inSphereMatrix t.p1 t.p2 t.p3 t.p4 e))).checkedNegative

/-- `circumcircle_contains_float`, tetrahedron.rs lines 271-341: the value `x` and the error bound;
`eps` is `1e-14`. -/
def Tetra.inSphereFloat (eps : K) (t : Tetra K) (point : P3 K) : K × K :=
  let ax := t.p1.x - point.x
  let ay := t.p1.y - point.y
  let az := t.p1.z - point.z
  let bx := t.p2.x - point.x
  let bY := t.p2.y - point.y
  let bz := t.p2.z - point.z
  let cx := t.p3.x - point.x
  let cy := t.p3.y - point.y
  let cz := t.p3.z - point.z
  let dx := t.p4.x - point.x
  let dy := t.p4.y - point.y
  let dz := t.p4.z - point.z
  let axby := ax * bY
  let bxay := bx * ay
  let bxcy := bx * cy
  let cxby := cx * bY
  let cxdy := cx * dy
  let dxcy := dx * cy
  let dxay := dx * ay
  let axdy := ax * dy
  let axcy := ax * cy
  let cxay := cx * ay
  let bxdy := bx * dy
  let dxby := dx * bY
  let ab := axby - bxay
  let bc := bxcy - cxby
  let cd := cxdy - dxcy
  let da := dxay - axdy
  let ac := axcy - cxay
  let bd := bxdy - dxby
  let abc := az * bc - bz * ac + cz * ab
  let bcd := bz * cd - cz * bd + dz * bc
  let cda := cz * da + dz * ac + az * cd
  let dab := dz * ab + az * bd + bz * da
  let a2 := ax * ax + ay * ay + az * az
  let b2 := bx * bx + bY * bY + bz * bz
  let c2 := cx * cx + cy * cy + cz * cz
  let d2 := dx * dx + dy * dy + dz * dz
  let x := (c2 * dab - d2 * abc) + (a2 * bcd - b2 * cda)
  let ab' := |axby| + |bxay|
  let bc' := |bxcy| + |cxby|
  let cd' := |cxdy| + |dxcy|
  let da' := |dxay| + |axdy|
  let ac' := |axcy| + |cxay|
  let bd' := |bxdy| + |dxby|
  let az' := |az|
  let bz' := |bz|
  let cz' := |cz|
  let dz' := |dz|
  let abc' := az' * bc' + bz' * ac' + cz' * ab'
  let bcd' := bz' * cd' + cz' * bd' + dz' * bc'
  let cda' := cz' * da' + dz' * ac' + az' * cd'
  let dab' := dz' * ab' + az' * bd' + bz' * da'
  let sizeLimit := (c2 * dab' + d2 * abc') + (a2 * bcd' + b2 * cda')
  (x, eps * sizeLimit)

/-- `circumcircle_contains` in three dimensions, tetrahedron.rs lines 198-221, with the `f64` path
evaluated without rounding: accepted if `|x|` is not below the error bound. -/
def Tetra.circumsphereContains (eps : K) (t : Tetra K) (e : P3 K) : Option Bool :=
  let xb := t.inSphereFloat eps e
  if |xb.1| < xb.2 then t.circumsphereContainsExact e
  else some (Sign.of xb.1 = .positive)

/-- The exact path of `get_center_of_circumcircle` in three dimensions, tetrahedron.rs lines
225-265 (without the final conversion to `f64`).  `none`: division by zero. -/
def Tetra.circumcentreExact (t : Tetra K) : Option (P3 K) :=
  let p1 := t.p1
  let p2 := t.p2
  let p3 := t.p3
  let p4 := t.p4
  let v1 := p1.x ^ 2 + p1.y ^ 2 + p1.z ^ 2
  let v2 := p2.x ^ 2 + p2.y ^ 2 + p2.z ^ 2
  let v3 := p3.x ^ 2 + p3.y ^ 2 + p3.z ^ 2
  let v4 := p4.x ^ 2 + p4.y ^ 2 + p4.z ^ 2
  let dx := determinant4x4 ![![v1, p1.y, p1.z, 1], ![v2, p2.y, p2.z, 1], ![v3, p3.y, p3.z, 1],
    ![v4, p4.y, p4.z, 1]]
  let dy := -determinant4x4 ![![v1, p1.x, p1.z, 1], ![v2, p2.x, p2.z, 1], ![v3, p3.x, p3.z, 1],
    ![v4, p4.x, p4.z, 1]]
  let dz := determinant4x4 ![![v1, p1.x, p1.y, 1], ![v2, p2.x, p2.y, 1], ![v3, p3.x, p3.y, 1],
    ![v4, p4.x, p4.y, 1]]
  let a := determinant4x4 ![![p1.x, p1.y, p1.z, 1], ![p2.x, p2.y, p2.z, 1], ![p3.x, p3.y, p3.z, 1],
    ![p4.x, p4.y, p4.z, 1]]
  if 2 * a = 0 then none
  else
    let factor := 1 / (2 * a)
    some ⟨dx * factor, dy * factor, dz * factor⟩

/-- `get_center_of_circumcircle_float`, tetrahedron.rs lines 344-368, without rounding. -/
def Tetra.circumcentreFloat (eps : K) (t : Tetra K) : Option (P3 K) :=
  let p0 := t.p1
  let p1 := t.p2
  let p2 := t.p3
  let p3 := t.p4
  let ax := p1.x - p0.x
  let ay := p1.y - p0.y
  let az := p1.z - p0.z
  let bx := p2.x - p0.x
  let bY := p2.y - p0.y
  let bz := p2.z - p0.z
  let cx := p3.x - p0.x
  let cy := p3.y - p0.y
  let cz := p3.z - p0.z
  (solve3x4 eps ![
    ![p1.x - p0.x, p1.y - p0.y, p1.z - p0.z, 1 / 2 * (ax * ax + ay * ay + az * az)],
    ![p2.x - p0.x, p2.y - p0.y, p2.z - p0.z, 1 / 2 * (bx * bx + bY * bY + bz * bz)],
    ![p3.x - p0.x, p3.y - p0.y, p3.z - p0.z, 1 / 2 * (cx * cx + cy * cy + cz * cz)]]).map
    fun x => ⟨x.1 + p0.x, x.2.1 + p0.y, x.2.2 + p0.z⟩

/-- `get_center_of_circumcircle` in three dimensions, tetrahedron.rs lines 223-267: the exact path if
the first one reports a precision error. -/
def Tetra.circumcentre (eps : K) (t : Tetra K) : Option (P3 K) :=
  match t.circumcentreFloat eps with
  | some c => some c
  | none => t.circumcentreExact

end Field

end Verif.Predicates
