import Verif.Rounding.Binary64
import Verif.Predicates.SimplexProps

/-!
# The geometric predicates with `f64` rounding: model of `/repo/src/voronoi/math/utils.rs`,
`/repo/src/voronoi/math/precision_types.rs`, `/repo/src/voronoi/primitives/triangle.rs`,
`/repo/src/voronoi/primitives/tetrahedron.rs` and `remap_point` in `/repo/src/dimension.rs`

Every arithmetic operation on `f64` is followed by `fl`.  A number of type `ℚ` stands for the `f64`
with that value.  `BigRational` arithmetic is exact, `PrecisionFloat::from_f64` is the identity.  A
result of type `Option (Option A)` is `Result<A, PrecisionError>` of a function that may panic: `none`
is `Err(PrecisionError)`, `some none` a panic.
-/

namespace Verif.Rounding

open Verif.Predicates

/-- `+` on `f64`. -/
def fadd (a b : ℚ) : ℚ := fl (a + b)
/-- `-` on `f64`. -/
def fsub (a b : ℚ) : ℚ := fl (a - b)
/-- `*` on `f64`. -/
def fmul (a b : ℚ) : ℚ := fl (a * b)
/-- `/` on `f64`; only for `b ≠ 0`. -/
def fdiv (a b : ℚ) : ℚ := fl (a / b)

@[inherit_doc] scoped infixl:65 " ⊞ " => fadd
@[inherit_doc] scoped infixl:65 " ⊟ " => fsub
@[inherit_doc] scoped infixl:70 " ⊠ " => fmul
@[inherit_doc] scoped infixl:70 " ⊘ " => fdiv

/-- The literal `1e-15`: `TRIANGLE_CONTAINS_EPSILON`, `TETRAHEDRON_POINTS_ON_SAME_SIDE_EPSILON`,
`DETERMINANT_3X3_EPSILON`, `TRIANGLE_INTERSECTION_TYPE_EPSILON`, precision_types.rs lines 29-34. -/
def eps15 : ℚ := fl (1 / 10 ^ 15)

/-- The literal `1.0e-14`, tetrahedron.rs line 339. -/
def eps14 : ℚ := fl (1 / 10 ^ 14)

/-- `Sign::try_from_val` for `f64`, math/utils.rs lines 165-175, with `is_too_close_to_zero`,
precision_types.rs lines 40-44. -/
def trySign (v eps : ℚ) : Option Sign := if |v| < eps then none else some (Sign.of v)

/-! ## Remapping -/

/-- One coordinate of `remap_point`, dimension.rs lines 44-47 and 56-59; `side_lengths` is `max - min`. -/
def remapF (lo hi p : ℚ) : ℚ := 1 ⊞ ((p ⊟ lo) ⊠ (1 ⊘ (hi ⊟ lo)))

/-! ## Containment in a tetrahedron -/

/-- `Point3d - Point3d`. -/
def subF (a b : P3 ℚ) : P3 ℚ := ⟨a.x ⊟ b.x, a.y ⊟ b.y, a.z ⊟ b.z⟩

/-- `DVec3::cross` of glam. -/
def crossF (u v : P3 ℚ) : P3 ℚ :=
  { x := u.y ⊠ v.z ⊟ v.y ⊠ u.z, y := u.z ⊠ v.x ⊟ v.z ⊠ u.x, z := u.x ⊠ v.y ⊟ v.x ⊠ u.y }

/-- `DVec3::dot` of glam. -/
def dotF (u v : P3 ℚ) : ℚ := u.x ⊠ v.x ⊞ u.y ⊠ v.y ⊞ u.z ⊠ v.z

/-- `points_are_on_same_side_of_triangle` for `f64`, tetrahedron.rs lines 371-389. -/
def onSameSideF (p1 p2 pa pb pc : P3 ℚ) : Option (Option Bool) :=
  let normal := crossF (subF pb pa) (subF pc pa)
  match trySign (dotF (subF p1 pa) normal) eps15 with
  | none => none
  | some s1 =>
    match trySign (dotF (subF p2 pa) normal) eps15 with
    | none => none
    | some s2 => some (s1.mul s2).checkedPositive

/-- `a? && b?`: the second is evaluated only if the first is true. -/
def andThenF (a b : Option (Option Bool)) : Option (Option Bool) :=
  match a with
  | none => none
  | some none => some none
  | some (some false) => some (some false)
  | some (some true) => b

/-- `f64_contains`, tetrahedron.rs lines 90-109. -/
def tetraContainsF (t : Tetra ℚ) (p : P3 ℚ) : Option (Option Bool) :=
  andThenF (onSameSideF p t.p1 t.p2 t.p3 t.p4)
    (andThenF (onSameSideF p t.p2 t.p1 t.p3 t.p4)
      (andThenF (onSameSideF p t.p3 t.p1 t.p2 t.p4)
        (onSameSideF p t.p4 t.p1 t.p2 t.p3)))

/-- `contains` of a tetrahedron, tetrahedron.rs lines 158-161: `f64_contains`, and with rational
arithmetic (lines 111-136) if that reports a precision error. -/
def tetraContains (t : Tetra ℚ) (p : P3 ℚ) : Option Bool :=
  match tetraContainsF t p with
  | some r => r
  | none => t.contains p

/-! ## The in-sphere test -/

/-- The value `x` of `circumcircle_contains_float`, tetrahedron.rs lines 271-317. -/
def inSphereValueF (t : Tetra ℚ) (point : P3 ℚ) : ℚ :=
  let ax := t.p1.x ⊟ point.x
  let ay := t.p1.y ⊟ point.y
  let az := t.p1.z ⊟ point.z
  let bx := t.p2.x ⊟ point.x
  let bY := t.p2.y ⊟ point.y
  let bz := t.p2.z ⊟ point.z
  let cx := t.p3.x ⊟ point.x
  let cy := t.p3.y ⊟ point.y
  let cz := t.p3.z ⊟ point.z
  let dx := t.p4.x ⊟ point.x
  let dy := t.p4.y ⊟ point.y
  let dz := t.p4.z ⊟ point.z
  let ab := ax ⊠ bY ⊟ bx ⊠ ay
  let bc := bx ⊠ cy ⊟ cx ⊠ bY
  let cd := cx ⊠ dy ⊟ dx ⊠ cy
  let da := dx ⊠ ay ⊟ ax ⊠ dy
  let ac := ax ⊠ cy ⊟ cx ⊠ ay
  let bd := bx ⊠ dy ⊟ dx ⊠ bY
  let abc := az ⊠ bc ⊟ bz ⊠ ac ⊞ cz ⊠ ab
  let bcd := bz ⊠ cd ⊟ cz ⊠ bd ⊞ dz ⊠ bc
  let cda := cz ⊠ da ⊞ dz ⊠ ac ⊞ az ⊠ cd
  let dab := dz ⊠ ab ⊞ az ⊠ bd ⊞ bz ⊠ da
  let a2 := ax ⊠ ax ⊞ ay ⊠ ay ⊞ az ⊠ az
  let b2 := bx ⊠ bx ⊞ bY ⊠ bY ⊞ bz ⊠ bz
  let c2 := cx ⊠ cx ⊞ cy ⊠ cy ⊞ cz ⊠ cz
  let d2 := dx ⊠ dx ⊞ dy ⊠ dy ⊞ dz ⊠ dz
  (c2 ⊠ dab ⊟ d2 ⊠ abc) ⊞ (a2 ⊠ bcd ⊟ b2 ⊠ cda)

/-- The value `size_limit` of `circumcircle_contains_float`, tetrahedron.rs lines 271-338. -/
def inSphereSizeF (t : Tetra ℚ) (point : P3 ℚ) : ℚ :=
  let ax := t.p1.x ⊟ point.x
  let ay := t.p1.y ⊟ point.y
  let az := t.p1.z ⊟ point.z
  let bx := t.p2.x ⊟ point.x
  let bY := t.p2.y ⊟ point.y
  let bz := t.p2.z ⊟ point.z
  let cx := t.p3.x ⊟ point.x
  let cy := t.p3.y ⊟ point.y
  let cz := t.p3.z ⊟ point.z
  let dx := t.p4.x ⊟ point.x
  let dy := t.p4.y ⊟ point.y
  let dz := t.p4.z ⊟ point.z
  let a2 := ax ⊠ ax ⊞ ay ⊠ ay ⊞ az ⊠ az
  let b2 := bx ⊠ bx ⊞ bY ⊠ bY ⊞ bz ⊠ bz
  let c2 := cx ⊠ cx ⊞ cy ⊠ cy ⊞ cz ⊠ cz
  let d2 := dx ⊠ dx ⊞ dy ⊠ dy ⊞ dz ⊠ dz
  let ab := |ax ⊠ bY| ⊞ |bx ⊠ ay|
  let bc := |bx ⊠ cy| ⊞ |cx ⊠ bY|
  let cd := |cx ⊠ dy| ⊞ |dx ⊠ cy|
  let da := |dx ⊠ ay| ⊞ |ax ⊠ dy|
  let ac := |ax ⊠ cy| ⊞ |cx ⊠ ay|
  let bd := |bx ⊠ dy| ⊞ |dx ⊠ bY|
  let az := |az|
  let bz := |bz|
  let cz := |cz|
  let dz := |dz|
  let abc := az ⊠ bc ⊞ bz ⊠ ac ⊞ cz ⊠ ab
  let bcd := bz ⊠ cd ⊞ cz ⊠ bd ⊞ dz ⊠ bc
  let cda := cz ⊠ da ⊞ dz ⊠ ac ⊞ az ⊠ cd
  let dab := dz ⊠ ab ⊞ az ⊠ bd ⊞ bz ⊠ da
  (c2 ⊠ dab ⊞ d2 ⊠ abc) ⊞ (a2 ⊠ bcd ⊞ b2 ⊠ cda)

/-- `circumcircle_contains_float`, tetrahedron.rs lines 271-341; `none` is a precision error. -/
def inSphereF (t : Tetra ℚ) (point : P3 ℚ) : Option Bool :=
  (trySign (inSphereValueF t point) (eps14 ⊠ inSphereSizeF t point)).map fun s => decide (s = .positive)

/-- `x.powi(2)`: one multiplication. -/
def sqF (x : ℚ) : ℚ := x ⊠ x

/-- `a.x.powi(2) + a.y.powi(2) + a.z.powi(2)` in `f64`, tetrahedron.rs lines 206-210. -/
def normF (a : P3 ℚ) : ℚ := sqF a.x ⊞ sqF a.y ⊞ sqF a.z

/-- The matrix of the exact in-sphere test, tetrahedron.rs lines 205-211: its last column is computed
in `f64` before the matrix is lifted to rational numbers. -/
def inSphereMatrixF (a b c d e : P3 ℚ) : Mat 5 5 ℚ := ![
  ![1, a.x, a.y, a.z, normF a],
  ![1, b.x, b.y, b.z, normF b],
  ![1, c.x, c.y, c.z, normF c],
  ![1, d.x, d.y, d.z, normF d],
  ![1, e.x, e.y, e.z, normF e]]

/-- `circumcircle_contains` in three dimensions, tetrahedron.rs lines 198-221. -/
def inSphere (t : Tetra ℚ) (e : P3 ℚ) : Option Bool :=
  match inSphereF t e with
  | some r => some r
  | none => (Sign.of (determinant5x5 (inSphereMatrixF t.p1 t.p2 t.p3 t.p4 e))).checkedNegative

/-! ## The in-circle test -/

/-- `determinant3x3::<f64>`, math/utils.rs lines 281-291. -/
def determinant3x3F (a : Mat 3 3 ℚ) : ℚ :=
  a 0 0 ⊠ a 1 1 ⊠ a 2 2
    ⊞ a 0 1 ⊠ a 1 2 ⊠ a 2 0
    ⊞ a 0 2 ⊠ a 1 0 ⊠ a 2 1
    ⊟ a 0 2 ⊠ a 1 1 ⊠ a 2 0
    ⊟ a 0 1 ⊠ a 1 0 ⊠ a 2 2
    ⊟ a 0 0 ⊠ a 1 2 ⊠ a 2 1

/-- Is the value accepted by `compare_result_against_entries`, math/utils.rs lines 193-204?  A division
by an entry that is zero gives an infinity, or NaN if the value is zero too; neither is too close to
zero (`NaN < epsilon` is false). -/
def accepted {n : ℕ} (val : ℚ) (m : Mat n n ℚ) : Bool :=
  (List.finRange n).all fun i => (List.finRange n).all fun j =>
    decide (m i j = 0) || !decide (|val ⊘ m i j| < eps15)

/-- `determinant3x3_sign`, math/utils.rs lines 225-262. -/
def determinant3x3Sign (m : Mat 3 3 ℚ) : Sign :=
  if accepted (determinant3x3F m) m then Sign.of (determinant3x3F m) else Sign.of (determinant3x3 m)

/-- The matrix of the in-circle test, triangle.rs lines 251-257, computed in `f64`. -/
def inCircleMatrixF (a b c d : P2 ℚ) : Mat 3 3 ℚ :=
  let row (p : P2 ℚ) : Fin 3 → ℚ := ![p.x ⊟ a.x, p.y ⊟ a.y, sqF (p.x ⊟ a.x) ⊞ sqF (p.y ⊟ a.y)]
  ![row b, row c, row d]

/-- `circumcircle_contains` in two dimensions, triangle.rs lines 245-259. -/
def inCircle (t : Triangle2 ℚ) (d : P2 ℚ) : Option Bool :=
  (determinant3x3Sign (inCircleMatrixF t.p1 t.p2 t.p3 d)).checkedNegative

/-! ## Containment in a triangle -/

/-- The elimination of column `k` below row `h` in `f64`, math/utils.rs lines 35-41. -/
def eliminateF {m n : ℕ} (a : Mat m n ℚ) (h : Fin m) (k : Fin n) : Mat m n ℚ :=
  fun i j =>
    if h < i then
      if j = k then 0
      else if k < j then a i j ⊟ a h j ⊠ (a i k ⊘ a h k)
      else a i j
    else a i j

/-- The `while` loop of `solve_system_of_equations::<f64>`, math/utils.rs lines 27-45. -/
def eliminationF {m n : ℕ} : ℕ → ℕ → ℕ → Mat m n ℚ → Mat m n ℚ
  | 0, _, _, a => a
  | fuel + 1, h, k, a =>
    if hh : h < m then
      if hk : k < n then
        let iMax := pivotRow a ⟨h, hh⟩ ⟨k, hk⟩
        if a iMax ⟨k, hk⟩ = 0 then eliminationF fuel h (k + 1) a
        else
          eliminationF fuel (h + 1) (k + 1)
            (eliminateF (swapRows a ⟨h, hh⟩ iMax) ⟨h, hh⟩ ⟨k, hk⟩)
      else a
    else a

/-- One step of `backward_substitution::<f64>`, math/utils.rs lines 64-68; `none` if the diagonal
entry is zero: the code divides by zero then, and infinities are not modelled. -/
def backStepF {m : ℕ} (a : Mat m (m + 1) ℚ) (x : Fin m → ℚ) (i : Fin m) : Option (Fin m → ℚ) :=
  let v := ((List.finRange m).filter (fun j => i < j)).foldl
    (fun acc j => acc ⊟ a i j.castSucc ⊠ x j) (a i (Fin.last m))
  if a i i.castSucc = 0 then none
  else some (Function.update x i (v ⊘ a i i.castSucc))

/-- `solve_system_of_equations::<f64>`, math/utils.rs lines 23-47 and 61-71. -/
def solveSystemF {m : ℕ} (a : Mat m (m + 1) ℚ) : Option (Fin m → ℚ) :=
  (List.finRange m).reverse.foldlM (backStepF (eliminationF (m + 1) 0 0 a)) (fun _ => 0)

/-- `generic_contains` for `f64`, triangle.rs lines 164-187, after
`transform_point_to_canonical_coordinates`, lines 152-162.  The outer `none` also stands for a division
by zero in the solver. -/
def triangleContainsF (t : Triangle2 ℚ) (p : P2 ℚ) : Option (Option Bool) := do
  let rs ← solveSystemF ![![t.p2.x ⊟ t.p1.x, t.p3.x ⊟ t.p1.x, p.x ⊟ t.p1.x],
    ![t.p2.y ⊟ t.p1.y, t.p3.y ⊟ t.p1.y, p.y ⊟ t.p1.y]]
  let signs := [trySign (rs 0) eps15, trySign (rs 1) eps15, trySign (1 ⊟ (rs 0 ⊞ rs 1)) eps15]
  if signs.any (fun sg => sg = some .negative) then some (some false)
  else if signs.any (fun sg => sg = none) then none
  else if signs.any (fun sg => sg = some .zero) then some none
  else some (some true)

/-- `contains` of a triangle, triangle.rs lines 226-229. -/
def triangleContains (t : Triangle2 ℚ) (p : P2 ℚ) : Option Bool :=
  match triangleContainsF t p with
  | some r => r
  | none => t.contains p

/-! ## Intersections of lines and triangles -/

/-- `get_intersection_type` for `f64`, triangle.rs lines 302-336.  A sign that is not an error is not
zero, so that the panic of lines 312-316 cannot happen. -/
def intersectionTypeF (r s : ℚ) : Option (Option IntersectionType) :=
  let signs := [trySign r eps15, trySign s eps15, trySign (1 ⊟ (r ⊞ s)) eps15]
  if signs.any (fun sg => sg = none) then none
  else
    let identifiers := ((signs.zip [Edge.two, Edge.three, Edge.one]).filter
      (fun p => p.1 = some .negative)).map (fun p => p.2)
    match identifiers with
    | [] => some (some .inside)
    | [e] => some (some (.outsideOneEdge e))
    | [e, f] => some (some (.outsideTwoEdges e f))
    | _ => some none

/-- `generic_get_line_intersection_type` for `f64`, triangle.rs lines 280-300.  The outer `none` also
stands for a division by zero in the solver. -/
def lineIntersectionTypeF (t : Triangle3 ℚ) (q1 q2 : P3 ℚ) : Option (Option IntersectionType) := do
  let a := subF t.p2 t.p1
  let b := subF t.p3 t.p1
  let k := subF q2 q1
  let c := subF q1 t.p1
  let rst ← solveSystemF ![![a.x, b.x, -k.x, c.x], ![a.y, b.y, -k.y, c.y], ![a.z, b.z, -k.z, c.z]]
  intersectionTypeF (rst 0) (rst 1)

/-- `get_line_intersection_type`, triangle.rs lines 340-358. -/
def lineIntersectionType (t : Triangle3 ℚ) (q1 q2 : P3 ℚ) : Option IntersectionType :=
  match lineIntersectionTypeF t q1 q2 with
  | some r => r
  | none => t.lineIntersectionType q1 q2

end Verif.Rounding
