import Verif.Rounding.Model

/-!
# Normals of faces and the flow direction through them with `f64` rounding: model of `get_normal` in
`/repo/src/voronoi/cell.rs`, `Face::points_upwind` and `Face::points_downwind` in `/repo/src/sweep/grid/cell.rs` and the periodic
images of `/repo/src/simulation_box.rs`, three dimensions
-/

namespace Verif.Rounding

open Verif.Predicates

/-- `y` is the correctly rounded square root of `x ≥ 0` (`f64::sqrt`, IEEE 754): the exact square root lies between two numbers that
are both rounded to `y`. -/
def SqrtRounded (x y : ℚ) : Prop := ∃ lo hi : ℚ, 0 ≤ lo ∧ 0 ≤ hi ∧ lo ^ 2 ≤ x ∧ x ≤ hi ^ 2 ∧ fl lo = y ∧ fl hi = y

/-- `DVec3 * f64` of glam. -/
def scaleF (v : P3 ℚ) (r : ℚ) : P3 ℚ := ⟨v.x ⊠ r, v.y ⊠ r, v.z ⊠ r⟩

/-- `DVec3::normalize` of glam, `self.mul(self.length().recip())`, with the length given. -/
def normalizeWith (v : P3 ℚ) (len : ℚ) : P3 ℚ := scaleF v (1 ⊘ len)

/-- `n` is the result of `get_normal(p1, p2)`, voronoi/cell.rs lines 63-71: `(p2 - p1).normalize()`.  Points whose distance is
computed as zero have no normal (the result is not a number). -/
def IsNormal (p1 p2 n : P3 ℚ) : Prop :=
  ∃ len, 0 < len ∧ SqrtRounded (dotF (subF p2 p1) (subF p2 p1)) len ∧ n = normalizeWith (subF p2 p1) len

/-- `Face::points_upwind`, sweep/grid/cell.rs lines 125-128 (`is_negative` of the library of units is taken to be `< 0`). -/
def upwindF (n d : P3 ℚ) : Prop := dotF n d < 0

/-- `Face::points_downwind`, sweep/grid/cell.rs lines 130-132. -/
def downwindF (n d : P3 ℚ) : Prop := 0 < dotF n d

/-- The periodic image of a point, `point + type_.as_translation(self)` in `iter_periodic_images`, simulation_box.rs lines 134-147;
the translation is `0`, `-side_length` or `+side_length` in each coordinate. -/
def imageF (p t : P3 ℚ) : P3 ℚ := ⟨p.x ⊞ t.x, p.y ⊞ t.y, p.z ⊞ t.z⟩

/-- A triple of decimal numbers of a direction table, sweep/direction (`from_num` does not normalise). -/
def tableDirection (x y z : ℚ) : P3 ℚ := ⟨fl x, fl y, fl z⟩

end Verif.Rounding
