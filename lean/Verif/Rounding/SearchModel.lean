import Verif.Rounding.SqrtProps
import Verif.Quadtree.Model

/-!
# The radius search with `f64` rounding: model of `/repo/src/quadtree/radius_search.rs`, `/repo/src/extent.rs`,
`/repo/src/domain/extent.rs` and `/repo/src/simulation_box.rs`, three dimensions

The tree and its iterator are those of `Verif.Quadtree.Model`, which are generic in the functions of the extents.
-/

namespace Verif.Rounding

open Verif.Geometry Verif.Quadtree

/-- `Extent::from_min_max`, extent.rs lines 23-26: `(min + max) / 2.0`. -/
def fromMinMaxF (lo hi : Vec 3 ℚ) : Extent 3 ℚ := { min := lo, max := hi, center := fun i => (lo i ⊞ hi i) ⊘ 2 }

/-- `Extent::side_lengths`, extent.rs lines 40-42. -/
def sideLengthsF (e : Extent 3 ℚ) : Vec 3 ℚ := fun i => e.max i ⊟ e.min i

/-- `Extent3d::get_quadrants`, domain/extent.rs lines 268-295. -/
def quadrantsF3 (e : Extent 3 ℚ) : Fin 8 → Extent 3 ℚ :=
  let min_000 := ![e.min 0, e.min 1, e.min 2]
  let min_100 := ![e.center 0, e.min 1, e.min 2]
  let min_010 := ![e.min 0, e.center 1, e.min 2]
  let min_110 := ![e.center 0, e.center 1, e.min 2]
  let min_001 := ![e.min 0, e.min 1, e.center 2]
  let min_101 := ![e.center 0, e.min 1, e.center 2]
  let min_011 := ![e.min 0, e.center 1, e.center 2]
  let min_111 := ![e.center 0, e.center 1, e.center 2]
  let max_000 := ![e.center 0, e.center 1, e.center 2]
  let max_100 := ![e.max 0, e.center 1, e.center 2]
  let max_010 := ![e.center 0, e.max 1, e.center 2]
  let max_110 := ![e.max 0, e.max 1, e.center 2]
  let max_001 := ![e.center 0, e.center 1, e.max 2]
  let max_101 := ![e.max 0, e.center 1, e.max 2]
  let max_011 := ![e.center 0, e.max 1, e.max 2]
  let max_111 := ![e.max 0, e.max 1, e.max 2]
  ![fromMinMaxF min_000 max_000, fromMinMaxF min_100 max_100, fromMinMaxF min_010 max_010,
    fromMinMaxF min_110 max_110, fromMinMaxF min_001 max_001, fromMinMaxF min_101 max_101,
    fromMinMaxF min_011 max_011, fromMinMaxF min_111 max_111]

/-- The functions of the extents the tree uses; `get_quadrant_index` only compares, domain/extent.rs lines 252-267. -/
def geomF3 : Geom 8 (Extent 3 ℚ) (Vec 3 ℚ) := ⟨quadrantIndex3, quadrantsF3⟩

/-- `minimize_component`, simulation_box.rs lines 63-71. -/
def minimizeF (v length : ℚ) : ℚ :=
  if v > length ⊘ 2 then v ⊟ length
  else if v < (-length) ⊘ 2 then v ⊞ length
  else v

/-- `SimulationBox::periodic_distance_vec`, simulation_box.rs lines 108-127. -/
def periodicDistanceVecF (box : Extent 3 ℚ) (p1 p2 : Vec 3 ℚ) : Vec 3 ℚ :=
  fun i => minimizeF (p1 i ⊟ p2 i) (sideLengthsF box i)

/-- `DVec3::length` of glam, `self.dot(self).sqrt()`. -/
noncomputable def lengthF (v : Vec 3 ℚ) : ℚ := sqrtF (v 0 ⊠ v 0 ⊞ v 1 ⊠ v 1 ⊞ v 2 ⊠ v 2)

/-- `SimulationBox::periodic_distance`, simulation_box.rs lines 129-131. -/
noncomputable def periodicDistanceF (box : Extent 3 ℚ) (p1 p2 : Vec 3 ℚ) : ℚ := lengthF (periodicDistanceVecF box p1 p2)

/-- `bounding_boxes_overlap_periodic` with `relative_bounding_box_overlap`, radius_search.rs lines 10-35. -/
def boundingBoxesOverlapPeriodicF (box : Extent 3 ℚ) (pos1 size1 pos2 size2 : Vec 3 ℚ) : Prop :=
  ∀ i, |periodicDistanceVecF box pos1 pos2 i| ≤ size1 i ⊞ size2 i

instance (box : Extent 3 ℚ) (pos1 size1 pos2 size2 : Vec 3 ℚ) :
    Decidable (boundingBoxesOverlapPeriodicF box pos1 size1 pos2 size2) := inferInstanceAs (Decidable (∀ _, _))

open Classical in
/-- `PeriodicRadiusSearch`, radius_search.rs lines 196-220; `VecLength::from_vector_and_scale(MVec::ONE, radius)` multiplies. -/
noncomputable def radiusSearchF {L : Type} (loc : L → Vec 3 ℚ) (box : Extent 3 ℚ) (q : Vec 3 ℚ) (radius : ℚ) :
    Criterion 8 (Extent 3 ℚ) L :=
  { visit := fun t => decide (boundingBoxesOverlapPeriodicF box t.extent.center (sideLengthsF t.extent) q (fun _ => 1 ⊠ radius))
    included := fun l => decide (periodicDistanceF box q (loc l) < radius) }

end Verif.Rounding
