import Verif.Predicates.Model
import Mathlib.Analysis.SpecialFunctions.Pow.NNReal

/-!
# Model of the distances which guide the point location

`closest_point` and `distance_to_point` of `src/voronoi/primitives/triangle.rs` and `tetrahedron.rs`.
Numbers are exact.  A division by zero gives NaN in the code and `none` here.
-/

namespace Verif.Predicates

section
variable {K : Type} [Field K] [LinearOrder K]

def P3.add (a b : P3 K) : P3 K := ⟨a.x + b.x, a.y + b.y, a.z + b.z⟩
def P3.smul (v : K) (a : P3 K) : P3 K := ⟨v * a.x, v * a.y, v * a.z⟩

/-- The quotient of two numbers; `none` stands for the result of a division by zero. -/
def divide (a b : K) : Option K := if b = 0 then none else some (a / b)

/-- `closest_point`, triangle.rs lines 361-411. -/
def Triangle3.closestPoint (t : Triangle3 K) (p : P3 K) : Option (P3 K) :=
  let a := t.p1
  let b := t.p2
  let c := t.p3
  let ab := b.sub a
  let ac := c.sub a
  let ap := p.sub a
  let d1 := dot ab ap
  let d2 := dot ac ap
  if d1 ≤ 0 ∧ d2 ≤ 0 then some a else
  let bp := p.sub b
  let d3 := dot ab bp
  let d4 := dot ac bp
  if d3 ≥ 0 ∧ d4 ≤ d3 then some b else
  let cp := p.sub c
  let d5 := dot ab cp
  let d6 := dot ac cp
  if d6 ≥ 0 ∧ d5 ≤ d6 then some c else
  let vc := d1 * d4 - d3 * d2
  if vc ≤ 0 ∧ d1 ≥ 0 ∧ d3 ≤ 0 then (divide d1 (d1 - d3)).map fun v => a.add (ab.smul v) else
  let vb := d5 * d2 - d1 * d6
  if vb ≤ 0 ∧ d2 ≥ 0 ∧ d6 ≤ 0 then (divide d2 (d2 - d6)).map fun v => a.add (ac.smul v) else
  let va := d3 * d6 - d5 * d4
  if va ≤ 0 ∧ d4 - d3 ≥ 0 ∧ d5 - d6 ≥ 0 then
    (divide (d4 - d3) ((d4 - d3) + (d5 - d6))).map fun v => b.add ((c.sub b).smul v) else
  (divide 1 (va + vb + vc)).map fun denom =>
    let v := vb * denom
    let w := vc * denom
    (a.add (ab.smul v)).add (ac.smul w)

end

/-- `distance` of two points in space (`glam`), over the real numbers. -/
noncomputable def distance3 (p q : P3 ℝ) : ℝ := Real.sqrt ((p.x - q.x) ^ 2 + (p.y - q.y) ^ 2 + (p.z - q.z) ^ 2)

/-- `distance` of two points in the plane (`glam`), over the real numbers. -/
noncomputable def distance2 (p q : P2 ℝ) : ℝ := Real.sqrt ((p.x - q.x) ^ 2 + (p.y - q.y) ^ 2)

/-- `distance_to_point` of a triangle in space, triangle.rs lines 357-359. -/
noncomputable def Triangle3.distanceToPoint (t : Triangle3 ℝ) (p : P3 ℝ) : Option ℝ :=
  (t.closestPoint p).map fun q => distance3 q p

/-- `f64::min`, which ignores NaN. -/
noncomputable def minIgnoring : Option ℝ → Option ℝ → Option ℝ
  | none, b => b
  | a, none => a
  | some a, some b => some (min a b)

/-- What the distance of a simplex to a point can be: a panic of the containment test, NaN, or a number. -/
abbrev Distance := Option (Option ℝ)

/-- `distance_to_point` of a tetrahedron, tetrahedron.rs lines 164-196. -/
noncomputable def Tetra.distanceToPoint (t : Tetra ℝ) (p : P3 ℝ) : Distance :=
  match t.contains p with
  | none => none
  | some true => some (some 0)
  | some false =>
    let a1 := Triangle3.distanceToPoint ⟨t.p1, t.p2, t.p3⟩ p
    let a2 := Triangle3.distanceToPoint ⟨t.p2, t.p3, t.p4⟩ p
    let a3 := Triangle3.distanceToPoint ⟨t.p3, t.p4, t.p1⟩ p
    let a4 := Triangle3.distanceToPoint ⟨t.p4, t.p1, t.p2⟩ p
    some (minIgnoring (minIgnoring (minIgnoring a1 a2) a3) a4)

/-- The closure `distance_to_side`, triangle.rs lines 232-235. -/
noncomputable def distanceToSide (p pa pb : P2 ℝ) : ℝ :=
  ((pb.y - pa.y) * p.x - (pb.x - pa.x) * p.y + pb.x * pa.y - pa.x * pb.y) / distance2 pa pb

/-- `distance_to_point` of a triangle in the plane, triangle.rs lines 231-242.  A vertex which occurs twice
(NaN in the code) is not modelled: the theorems are about triangles with a positive area. -/
noncomputable def Triangle2.distanceToPoint (t : Triangle2 ℝ) (p : P2 ℝ) : ℝ :=
  let d1 := distanceToSide p t.p1 t.p2
  let d2 := distanceToSide p t.p2 t.p3
  let d3 := distanceToSide p t.p3 t.p1
  max (max d1 d2) d3

end Verif.Predicates
