import Mathlib.Data.Fin.VecNotation
import Mathlib.Algebra.Order.Floor.Ring
import Mathlib.Algebra.BigOperators.Fin
import Mathlib.Analysis.SpecialFunctions.Pow.Real

/-!
# Extents and the periodic box: model of `/repo/src/extent.rs`, `/repo/src/domain/extent.rs` and
`/repo/src/simulation_box.rs`

Vectors are functions `Fin d → K`; the code has separate two and three dimensional versions of every
function, all of which act component by component, so the model has one definition for all `d` and
literal tables for `d = 2` and `d = 3` where the code has such tables.  `K` is an arbitrary linearly
ordered field (exact arithmetic instead of `f64`); units are dropped.  Distances use `ℝ`.
-/

namespace Verif.Geometry

/-- `Vec2Length` / `Vec3Length` / `MVec2` / `MVec3`. -/
abbrev Vec (d : ℕ) (K : Type) := Fin d → K

/-- `struct Extent<P>`, extent.rs lines 15-20. -/
structure Extent (d : ℕ) (K : Type) where
  min : Vec d K
  max : Vec d K
  center : Vec d K

section Field
variable {d : ℕ} {K : Type} [Field K] [LinearOrder K]

/-- `Extent::from_min_max`, extent.rs lines 23-26. -/
def fromMinMax (lo hi : Vec d K) : Extent d K :=
  { min := lo, max := hi, center := fun i => (lo i + hi i) / 2 }

/-- `Extent::side_lengths`, extent.rs lines 40-42. -/
def Extent.sideLengths (e : Extent d K) : Vec d K := fun i => e.max i - e.min i

/-- `Extent::including_periodic_images`, extent.rs lines 31-34. -/
def Extent.includingPeriodicImages (e : Extent d K) : Extent d K :=
  fromMinMax (fun i => e.min i - (e.max i - e.min i)) (fun i => e.max i + (e.max i - e.min i))

/-- Component-wise `min` of two vectors. -/
def vmin (a b : Vec d K) : Vec d K := fun i => Min.min (a i) (b i)

/-- Component-wise `max` of two vectors. -/
def vmax (a b : Vec d K) : Vec d K := fun i => Max.max (a i) (b i)

/-- `update_min` / `update_max` of `Extent::from_positions`, domain/extent.rs lines 54-67. -/
def updateWith (f : Vec d K → Vec d K → Vec d K) (acc : Option (Vec d K)) (pos : Vec d K) :
    Option (Vec d K) :=
  match acc with
  | some m => some (f m pos)
  | none => some pos

/-- `Extent::from_positions`, domain/extent.rs lines 49-73. -/
def fromPositions (positions : List (Vec d K)) : Option (Extent d K) := do
  let mm := positions.foldl
    (fun (acc : Option (Vec d K) × Option (Vec d K)) pos =>
      (updateWith vmin acc.1 pos, updateWith vmax acc.2 pos)) (none, none)
  let lo ← mm.1
  let hi ← mm.2
  pure (fromMinMax lo hi)

/-- `Extent::get_all_encompassing`, domain/extent.rs lines 41-47. -/
def getAllEncompassing (es : List (Extent d K)) : Option (Extent d K) :=
  fromPositions (es.flatMap (fun e => [e.min, e.max]))

/-- `get_extent_from_min_and_max_reduce` as used by `Extent::from_points`, extent.rs lines 55-85. -/
def fromPoints : List (Vec d K) → Option (Extent d K)
  | [] => none
  | v0 :: vs =>
    let mm := vs.foldl (fun (acc : Vec d K × Vec d K) v => (vmin acc.1 v, vmax acc.2 v)) (v0, v0)
    some (fromMinMax mm.1 mm.2)

/-- `Extent::contains`, domain/extent.rs lines 154-156, 192-199, 238-243, 302-309. -/
def Extent.contains (e : Extent d K) (pos : Vec d K) : Prop :=
  ∀ i, e.min i ≤ pos i ∧ pos i ≤ e.max i

instance (e : Extent d K) (pos : Vec d K) : Decidable (e.contains pos) := by
  unfold Extent.contains; infer_instance

/-- `Extent3d::squared_distance_to_pos`, domain/extent.rs lines 316-327. -/
def Extent.squaredDistanceToPos (e : Extent 3 K) (pos : Vec 3 K) : K :=
  let dx := Max.max (Max.max 0 (e.min 0 - pos 0)) (pos 0 - e.max 0)
  let dy := Max.max (Max.max 0 (e.min 1 - pos 1)) (pos 1 - e.max 1)
  let dz := Max.max (Max.max 0 (e.min 2 - pos 2)) (pos 2 - e.max 2)
  dx ^ 2 + dy ^ 2 + dz ^ 2

/-- `VExtent::cube_around_sphere`, domain/extent.rs lines 130-134 and 164-168. -/
def cubeAroundSphere (center : Vec d K) (radius : K) : Extent d K :=
  { center := center, min := fun i => center i - 1 * radius, max := fun i => center i + 1 * radius }

/-- `Extent2d::get_quadrant_index`, domain/extent.rs lines 207-215. -/
def quadrantIndex2 (e : Extent 2 K) (pos : Vec 2 K) : Fin 4 :=
  match decide (pos 0 < e.center 0), decide (pos 1 < e.center 1) with
  | true, true => 0
  | false, true => 1
  | true, false => 2
  | false, false => 3

/-- `Extent2d::get_quadrants`, domain/extent.rs lines 216-231. -/
def quadrants2 (e : Extent 2 K) : Fin 4 → Extent 2 K :=
  let min_00 := ![e.min 0, e.min 1]
  let min_10 := ![e.center 0, e.min 1]
  let min_01 := ![e.min 0, e.center 1]
  let min_11 := ![e.center 0, e.center 1]
  let max_00 := ![e.center 0, e.center 1]
  let max_10 := ![e.max 0, e.center 1]
  let max_01 := ![e.center 0, e.max 1]
  let max_11 := ![e.max 0, e.max 1]
  ![fromMinMax min_00 max_00, fromMinMax min_10 max_10, fromMinMax min_01 max_01,
    fromMinMax min_11 max_11]

/-- `Extent3d::get_quadrant_index`, domain/extent.rs lines 252-267. -/
def quadrantIndex3 (e : Extent 3 K) (pos : Vec 3 K) : Fin 8 :=
  match decide (pos 0 < e.center 0), decide (pos 1 < e.center 1),
    decide (pos 2 < e.center 2) with
  | true, true, true => 0
  | false, true, true => 1
  | true, false, true => 2
  | false, false, true => 3
  | true, true, false => 4
  | false, true, false => 5
  | true, false, false => 6
  | false, false, false => 7

/-- `Extent3d::get_quadrants`, domain/extent.rs lines 268-295. -/
def quadrants3 (e : Extent 3 K) : Fin 8 → Extent 3 K :=
  let min_000 := ![e.min 0, e.min 1, e.min 2]
  let min_100 := ![e.center 0, e.min 1, e.min 2]
  let min_010 := ![e.min 0, e.center 1, e.min 2]
  let min_110 := ![e.center 0, e.center 1, e.min 2]
  let min_001 := ![e.min 0, e.min 1, e.center 2]
  let min_101 := ![e.center 0, e.min 1, e.center 2]
  let min_011 := ![e.min 0, e.center 1, e.center 2]
  let min_111 := ![e.center 0, e.center 1, e.center 2]
  let max_000 := ![e.center 0, e.center 1, e.center 2]
  let max_100 := ![e.max 0, e.center 1, e.center 2]
  let max_010 := ![e.center 0, e.max 1, e.center 2]
  let max_110 := ![e.max 0, e.max 1, e.center 2]
  let max_001 := ![e.center 0, e.center 1, e.max 2]
  let max_101 := ![e.max 0, e.center 1, e.max 2]
  let max_011 := ![e.center 0, e.max 1, e.max 2]
  let max_111 := ![e.max 0, e.max 1, e.max 2]
  ![fromMinMax min_000 max_000, fromMinMax min_100 max_100, fromMinMax min_010 max_010,
    fromMinMax min_110 max_110, fromMinMax min_001 max_001, fromMinMax min_101 max_101,
    fromMinMax min_011 max_011, fromMinMax min_111 max_111]

/-- `minimize_component`, simulation_box.rs lines 63-71. -/
def minimizeComponent (v length : K) : K :=
  if v > length / 2 then v - length
  else if v < -length / 2 then v + length
  else v

/-- `SimulationBox::periodic_distance_vec`, simulation_box.rs lines 108-127. -/
def periodicDistanceVec (box : Extent d K) (p1 p2 : Vec d K) : Vec d K :=
  fun i => minimizeComponent (p1 i - p2 i) (box.sideLengths i)

/-- `enum WrapType`, simulation_box.rs lines 166-171. -/
inductive WrapType where
  | noWrap
  | minus
  | plus
deriving DecidableEq, Repr

/-- `WrapType::iter_all`, simulation_box.rs lines 174-176. -/
def WrapType.iterAll : List WrapType := [.noWrap, .minus, .plus]

/-- `WrapType::as_sign`, simulation_box.rs lines 178-184. -/
def WrapType.asSign : WrapType → K
  | .noWrap => 0
  | .minus => -1
  | .plus => 1

/-- The wrap types visited by the two dimensional `iter_periodic_images`, in order,
simulation_box.rs lines 155-158. -/
def allWraps2 : List (Fin 2 → WrapType) :=
  (WrapType.iterAll.flatMap fun x => WrapType.iterAll.map fun y => (x, y)).map
    fun xy => ![xy.1, xy.2]

/-- The wrap types visited by the three dimensional `iter_periodic_images`, in order,
simulation_box.rs lines 139-143. -/
def allWraps3 : List (Fin 3 → WrapType) :=
  ((WrapType.iterAll.flatMap fun x => WrapType.iterAll.map fun y => (x, y)).flatMap
    fun xy => WrapType.iterAll.map fun z => (xy.1, xy.2, z)).map
    fun xyz => ![xyz.1, xyz.2.1, xyz.2.2]

/-- `PeriodicWrapType2d::as_translation` and `PeriodicWrapType3d::as_translation`,
simulation_box.rs lines 216-220 and 243-248: the sum of the axis vectors times the signs, which has
component `side_length_i * sign_i`. -/
def asTranslation (w : Fin d → WrapType) (box : Extent d K) : Vec d K :=
  fun i => box.sideLengths i * (w i).asSign

/-- `PeriodicWrapType3d::is_periodic`, simulation_box.rs lines 211-213 and 238-240. -/
def isPeriodic (w : Fin d → WrapType) : Prop := ∃ i, w i ≠ .noWrap

/-- `iter_periodic_images`, simulation_box.rs lines 134-162; `wraps` is `allWraps2` or
`allWraps3`. -/
def iterPeriodicImages (wraps : List (Fin d → WrapType)) (box : Extent d K) (point : Vec d K) :
    List ((Fin d → WrapType) × Vec d K) :=
  wraps.map fun w => (w, fun i => point i + asTranslation w box i)

end Field

section Wrap
variable {d : ℕ} {K : Type} [Field K] [LinearOrder K] [IsStrictOrderedRing K] [FloorRing K]

/-- Rounding towards zero. -/
def trunc (x : K) : ℤ := if x < 0 then ⌈x⌉ else ⌊x⌋

/-- The `%` operator of `f64`, exact: the result has the sign of the dividend. -/
def fmod (a b : K) : K := a - b * (trunc (a / b) : K)

/-- `f64::rem_euclid` of the standard library: `let r = self % rhs; if r < 0.0 { r + rhs.abs() }
else { r }`. -/
def remEuclid (a b : K) : K :=
  let r := fmod a b
  if r < 0 then r + |b| else r

/-- `periodic_wrap_component`, simulation_box.rs lines 59-61. -/
def periodicWrapComponent (v lo hi : K) : K := lo + remEuclid (v - lo) (hi - lo)

/-- `SimulationBox::periodic_wrap`, simulation_box.rs lines 86-106. -/
def periodicWrap (box : Extent d K) (pos : Vec d K) : Vec d K :=
  fun i => periodicWrapComponent (pos i) (box.min i) (box.max i)

end Wrap

section Distance
variable {d : ℕ}

/-- The euclidean length of a vector (`length()` of the vector types). -/
noncomputable def length (v : Vec d ℝ) : ℝ := Real.sqrt (∑ i, v i ^ 2)

/-- `distance` of the vector types. -/
noncomputable def distance (a b : Vec d ℝ) : ℝ := length (fun i => a i - b i)

/-- `SimulationBox::periodic_distance`, simulation_box.rs lines 129-131. -/
noncomputable def periodicDistance (box : Extent d ℝ) (p1 p2 : Vec d ℝ) : ℝ :=
  length (periodicDistanceVec box p1 p2)

/-- The two ways in which `find_wrapped_point` panics: `unwrap` on `None` and the `assert!`. -/
inductive WrapPanic where
  | noImage
  | twoImages
deriving DecidableEq

open Classical in
/-- `find_wrapped_point`, voronoi/constructor/parallel/mod.rs lines 63-78. -/
noncomputable def findWrappedPoint (wraps : List (Fin d → WrapType)) (box : Extent d ℝ)
    (searchPoint : Vec d ℝ) (searchRadius : ℝ) (point : Vec d ℝ) :
    Except WrapPanic ((Fin d → WrapType) × Vec d ℝ) :=
  match (iterPeriodicImages wraps box point).filter
      (fun tp => distance searchPoint tp.2 < searchRadius) with
  | [] => .error .noImage
  | [result] => .ok result
  | _ :: _ :: _ => .error .twoImages

/-- `relative_bounding_box_overlap`, quadtree/radius_search.rs lines 10-20. -/
def relativeBoundingBoxOverlap (dist totalSize : Vec d ℝ) : Prop := ∀ i, |dist i| ≤ totalSize i

/-- `bounding_boxes_overlap_periodic`, quadtree/radius_search.rs lines 25-35. -/
noncomputable def boundingBoxesOverlapPeriodic (box : Extent d ℝ) (pos1 size1 pos2 size2 : Vec d ℝ) : Prop :=
  relativeBoundingBoxOverlap (periodicDistanceVec box pos1 pos2) (fun i => size1 i + size2 i)

/-- `within_radius_periodic`, quadtree/radius_search.rs lines 37-44. -/
def withinRadiusPeriodic (box : Extent d ℝ) (pos1 pos2 : Vec d ℝ) (radius : ℝ) : Prop :=
  periodicDistance box pos1 pos2 < radius

/-- `DecompositionState::rank_owns_part_of_search_radius` applied to the cube around the search
sphere, domain/decomposition.rs lines 136-150 and voronoi/constructor/parallel/mod.rs lines
112-122.  `none` is the panic of indexing `self.extents[rank]`. -/
noncomputable def rankOwnsPartOfSearchRadius (box : Extent d ℝ) (extents : List (Extent d ℝ)) (rank : ℕ)
    (extent : Extent d ℝ) : Option Prop :=
  (extents[rank]?).map fun rankExtent =>
    boundingBoxesOverlapPeriodic box extent.center extent.sideLengths rankExtent.center
      rankExtent.sideLengths

/-- `communicate_extents` followed by `set_extents`, domain/mod.rs lines 92-97 and 180-186: every
rank computes the extent of its positions, all of them are gathered and ranks without any position
are dropped by `filter_map`. `positions` has one list for each rank. -/
def communicateExtents {K : Type} [Field K] [LinearOrder K] (positions : List (List (Vec d K))) :
    List (Extent d K) :=
  positions.filterMap fromPositions

end Distance

end Verif.Geometry
