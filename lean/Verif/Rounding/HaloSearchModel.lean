import Verif.Rounding.SearchModel

/-!
# The searches for haloes between ranks in `f64`: model of `/repo/src/voronoi/constructor/parallel/mod.rs`

The functions of `Verif/Geometry/Model.lean` in which numbers are computed, with every operation rounded, three dimensions.
-/

namespace Verif.Rounding.Haloes

open Verif.Geometry Verif.Rounding

/-- `PeriodicWrapType3d::as_translation`, simulation_box.rs lines 242-248: the sum of the axis vectors times the signs. -/
def asTranslationF (w : Fin 3 → WrapType) (box : Extent 3 ℚ) : Vec 3 ℚ :=
  let x_dist : Vec 3 ℚ := ![sideLengthsF box 0, 0, 0]
  let y_dist : Vec 3 ℚ := ![0, sideLengthsF box 1, 0]
  let z_dist : Vec 3 ℚ := ![0, 0, sideLengthsF box 2]
  fun i => x_dist i ⊠ (w 0).asSign ⊞ y_dist i ⊠ (w 1).asSign ⊞ z_dist i ⊠ (w 2).asSign

/-- `iter_periodic_images`, simulation_box.rs lines 133-147. -/
def iterPeriodicImagesF (box : Extent 3 ℚ) (point : Vec 3 ℚ) : List ((Fin 3 → WrapType) × Vec 3 ℚ) :=
  allWraps3.map fun w => (w, fun i => point i ⊞ asTranslationF w box i)

/-- `DVec3::distance` of glam, the length of the difference. -/
noncomputable def distanceF (a b : Vec 3 ℚ) : ℚ := lengthF fun i => a i ⊟ b i

/-- `find_wrapped_point`, voronoi/constructor/parallel/mod.rs lines 63-78. -/
noncomputable def findWrappedPointF (box : Extent 3 ℚ) (searchPoint : Vec 3 ℚ) (searchRadius : ℚ) (point : Vec 3 ℚ) :
    Except WrapPanic ((Fin 3 → WrapType) × Vec 3 ℚ) :=
  match (iterPeriodicImagesF box point).filter (fun tp => distanceF searchPoint tp.2 < searchRadius) with
  | [] => .error .noImage
  | [result] => .ok result
  | _ :: _ :: _ => .error .twoImages

/-- `VExtent::cube_around_sphere`, domain/extent.rs lines 164-168. -/
def cubeAroundSphereF (center : Vec 3 ℚ) (radius : ℚ) : Extent 3 ℚ :=
  { center := center, min := fun i => center i ⊟ 1 ⊠ radius, max := fun i => center i ⊞ 1 ⊠ radius }

/-- `Extent::from_positions`, domain/extent.rs lines 49-73; minimum and maximum only compare. -/
def fromPositionsF (ps : List (Vec 3 ℚ)) : Option (Extent 3 ℚ) :=
  (fromPositions ps).map fun e => fromMinMaxF e.min e.max

/-- `Decomposition::rank_owns_part_of_search_radius`, domain/decomposition.rs lines 135-150; `none` is the panic of indexing. -/
def rankOwnsPartF (extents : List (Extent 3 ℚ)) (rank : ℕ) (extent : Extent 3 ℚ) (box : Extent 3 ℚ) : Option Bool :=
  extents[rank]?.map fun rankExtent =>
    decide (boundingBoxesOverlapPeriodicF box extent.center (sideLengthsF extent) rankExtent.center (sideLengthsF rankExtent))

/-- The searches sent to one other rank in `get_outgoing_searches`, voronoi/constructor/parallel/mod.rs lines 105-126; a search is a
point and a radius. -/
def outgoingF (extents : List (Extent 3 ℚ)) (box : Extent 3 ℚ) (data : List (Vec 3 ℚ × ℚ)) (rank : ℕ) : Option (List (Vec 3 ℚ × ℚ)) :=
  (data.mapM fun search => (rankOwnsPartF extents rank (cubeAroundSphereF search.1 search.2) box).map fun b => (search, b)).map
    fun l => (l.filter fun x => x.2).map Prod.fst

/-- The positions of the haloes of `get_haloes_from_search`, voronoi/constructor/parallel/mod.rs lines 158-173, before the cache:
`particles` are the results of the tree. -/
noncomputable def haloesF (box : Extent 3 ℚ) (search : Vec 3 ℚ × ℚ) (particles : List (Vec 3 ℚ)) :
    Except WrapPanic (List ((Fin 3 → WrapType) × Vec 3 ℚ)) :=
  particles.mapM fun p => findWrappedPointF box search.1 search.2 p

end Verif.Rounding.Haloes
