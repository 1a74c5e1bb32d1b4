import Verif.Geometry.BoxLemmas
import Verif.Geometry.ExtentProps

/-!
# The periodic box: properties
-/

namespace Verif.Geometry

/-! ## C22: wrapping -/

section Wrap
variable {d : ℕ} {K : Type} [Field K] [LinearOrder K] [IsStrictOrderedRing K] [FloorRing K]

/-- **C22** (range).  A wrapped position is inside the half-open box. -/
theorem wrapped_is_in_box (box : Extent d K) (hbox : ∀ i, box.min i < box.max i) (pos : Vec d K)
    (i : Fin d) :
    box.min i ≤ periodicWrap box pos i ∧ periodicWrap box pos i < box.max i := by
  obtain ⟨h1, h2, _⟩ := remEuclid_spec (pos i - box.min i) (box.max i - box.min i)
    (by have := hbox i; linarith)
  unfold periodicWrap periodicWrapComponent
  constructor <;> linarith

/-- **C22** (lattice).  Wrapping moves every coordinate by a whole number of box lengths. -/
theorem wrapped_by_box_lengths (box : Extent d K) (hbox : ∀ i, box.min i < box.max i)
    (pos : Vec d K) :
    ∃ k : Fin d → ℤ, ∀ i,
      periodicWrap box pos i = pos i + k i * (box.max i - box.min i) := by
  have h : ∀ i, ∃ k : ℤ, periodicWrap box pos i = pos i + k * (box.max i - box.min i) := by
    intro i
    obtain ⟨_, _, k, hk⟩ := remEuclid_spec (pos i - box.min i) (box.max i - box.min i)
      (by have := hbox i; linarith)
    refine ⟨k, ?_⟩
    unfold periodicWrap periodicWrapComponent
    rw [hk]; ring
  exact ⟨fun i => (h i).choose, fun i => (h i).choose_spec⟩

/-- **C22** (canonical).  Wrapping is the only such position: every position of the half-open box
that differs from `pos` by whole box lengths is the wrapped position.  Hence positions inside the
box are unchanged, wrapping twice is wrapping once, and all periodic images wrap to one point. -/
theorem wrapped_is_unique (box : Extent d K) (hbox : ∀ i, box.min i < box.max i)
    (pos w : Vec d K) (hw : ∀ i, box.min i ≤ w i ∧ w i < box.max i) (k : Fin d → ℤ)
    (hk : ∀ i, w i = pos i + k i * (box.max i - box.min i)) :
    periodicWrap box pos = w := by
  funext i
  obtain ⟨k', hk'⟩ := wrapped_by_box_lengths box hbox pos
  have hr := wrapped_is_in_box box hbox pos i
  have hw := hw i
  have hL : 0 < box.max i - box.min i := by have := hbox i; linarith
  have e : periodicWrap box pos i - w i = ((k' i - k i : ℤ) : K) * (box.max i - box.min i) := by
    rw [hk' i, hk i]; push_cast; ring
  generalize hm : k' i - k i = m at e
  generalize hLL : box.max i - box.min i = L at e hL
  rcases lt_trichotomy m 0 with h | h | h
  · exfalso
    have : (m : K) ≤ -1 := by exact_mod_cast (by omega : m ≤ -1)
    have h2 : (m : K) * L ≤ -1 * L := mul_le_mul_of_nonneg_right this hL.le
    linarith
  · subst h
    simp at e
    linarith
  · exfalso
    have : (1 : K) ≤ m := by exact_mod_cast (by omega : 1 ≤ m)
    have h2 : 1 * L ≤ (m : K) * L := mul_le_mul_of_nonneg_right this hL.le
    linarith

/-- **C22** (inside).  Positions of the half-open box are unchanged; so wrapping twice is wrapping
once. -/
theorem wrap_leaves_inside_unchanged (box : Extent d K) (hbox : ∀ i, box.min i < box.max i) :
    (∀ w : Vec d K, (∀ i, box.min i ≤ w i ∧ w i < box.max i) → periodicWrap box w = w) ∧
    (∀ pos, periodicWrap box (periodicWrap box pos) = periodicWrap box pos) := by
  have h : ∀ w : Vec d K, (∀ i, box.min i ≤ w i ∧ w i < box.max i) → periodicWrap box w = w := by
    intro w hw
    exact wrapped_is_unique box hbox w w hw (fun _ => 0) (by simp)
  exact ⟨h, fun pos => h _ (wrapped_is_in_box box hbox pos)⟩

example : periodicWrap (fromMinMax ![-1, 0] ![1, 3] : Extent 2 ℚ) ![-7/2, 19/2] = ![1/2, 1/2] := by
  funext i; fin_cases i <;> decide +kernel

end Wrap

/-! ## C23: the periodic distance is the minimal image distance -/

section Distance
variable {d : ℕ}

/-- The image of a position moved by `k i` box lengths along each axis `i`. -/
def image (box : Extent d ℝ) (k : Fin d → ℤ) (p : Vec d ℝ) : Vec d ℝ :=
  fun i => p i + k i * (box.max i - box.min i)

/-- **C23** (minimal).  For positions inside the box the periodic distance is not larger than the
distance to any periodic image, however far away, and equals the distance to one of them. -/
theorem periodic_distance_is_minimal (box : Extent d ℝ) (hbox : ∀ i, box.min i < box.max i)
    (p1 p2 : Vec d ℝ) (h1 : box.contains p1) (h2 : box.contains p2) :
    (∀ k, periodicDistance box p1 p2 ≤ distance p1 (image box k p2)) ∧
    (∃ k, periodicDistance box p1 p2 = distance p1 (image box k p2)) := by
  constructor
  · intro k
    apply length_mono
    intro i
    have hL : 0 < box.sideLengths i := by
      have := hbox i; unfold Extent.sideLengths; linarith
    have hv : |p1 i - p2 i| ≤ 3 / 2 * box.sideLengths i := by
      have a := h1 i; have b := h2 i
      unfold Extent.sideLengths at hL ⊢
      apply abs_le.2; constructor <;> linarith
    have := minimize_le_all (p1 i - p2 i) (box.sideLengths i) hL hv (-k i)
    unfold periodicDistanceVec image
    refine this.trans (le_of_eq ?_)
    unfold Extent.sideLengths
    congr 1; push_cast; ring
  · have h : ∀ i, ∃ k : ℤ, minimizeComponent (p1 i - p2 i) (box.sideLengths i)
        = p1 i - (p2 i + k * (box.max i - box.min i)) := by
      intro i
      obtain ⟨w, hw⟩ := minimize_eq (p1 i - p2 i) (box.sideLengths i)
      rw [hw]
      unfold Extent.sideLengths
      cases w
      · exact ⟨0, by simp [WrapType.asSign]⟩
      · exact ⟨-1, by simp [WrapType.asSign]; ring⟩
      · exact ⟨1, by simp [WrapType.asSign]; ring⟩
    refine ⟨fun i => (h i).choose, ?_⟩
    apply length_congr
    intro i
    show |minimizeComponent (p1 i - p2 i) (box.sideLengths i)| = _
    rw [(h i).choose_spec]; rfl

/-- **C23** (symmetric). -/
theorem periodic_distance_symmetric (box : Extent d ℝ) (hbox : ∀ i, box.min i < box.max i)
    (p1 p2 : Vec d ℝ) : periodicDistance box p1 p2 = periodicDistance box p2 p1 := by
  apply length_congr
  intro i
  have hL : 0 < box.sideLengths i := by
    have := hbox i; unfold Extent.sideLengths; linarith
  unfold periodicDistanceVec
  rw [← neg_sub (p2 i) (p1 i), minimize_neg _ _ hL, abs_neg]

/-- **C23** (anywhere).  For arbitrary positions (the search centres of the halo search can be
outside of the box) the periodic distance is still the smallest distance to the images moved by at
most one box length along each axis. -/
theorem periodic_distance_is_minimal_of_images (box : Extent d ℝ)
    (hbox : ∀ i, box.min i < box.max i) (p1 p2 : Vec d ℝ) :
    (∀ k : Fin d → ℤ, (∀ i, k i = -1 ∨ k i = 0 ∨ k i = 1) →
      periodicDistance box p1 p2 ≤ distance p1 (image box k p2)) ∧
    (∃ k : Fin d → ℤ, (∀ i, k i = -1 ∨ k i = 0 ∨ k i = 1) ∧
      periodicDistance box p1 p2 = distance p1 (image box k p2)) := by
  constructor
  · intro k hk
    apply length_mono
    intro i
    have hL : 0 < box.sideLengths i := by
      have := hbox i; unfold Extent.sideLengths; linarith
    unfold periodicDistanceVec image
    rcases hk i with h | h | h
    · refine (minimize_le _ _ hL .minus).trans (le_of_eq ?_)
      rw [h]; unfold Extent.sideLengths; simp only [WrapType.asSign]
      congr 1; push_cast; ring
    · refine (minimize_le _ _ hL .noWrap).trans (le_of_eq ?_)
      rw [h]; unfold Extent.sideLengths; simp only [WrapType.asSign]
      congr 1; push_cast; ring
    · refine (minimize_le _ _ hL .plus).trans (le_of_eq ?_)
      rw [h]; unfold Extent.sideLengths; simp only [WrapType.asSign]
      congr 1; push_cast; ring
  · have h : ∀ i, ∃ k : ℤ, (k = -1 ∨ k = 0 ∨ k = 1) ∧
        minimizeComponent (p1 i - p2 i) (box.sideLengths i)
        = p1 i - (p2 i + k * (box.max i - box.min i)) := by
      intro i
      obtain ⟨w, hw⟩ := minimize_eq (p1 i - p2 i) (box.sideLengths i)
      rw [hw]
      unfold Extent.sideLengths
      cases w
      · exact ⟨0, by simp, by simp [WrapType.asSign]⟩
      · exact ⟨-1, by simp, by simp [WrapType.asSign]; ring⟩
      · exact ⟨1, by simp, by simp [WrapType.asSign]; ring⟩
    refine ⟨fun i => (h i).choose, fun i => (h i).choose_spec.1, ?_⟩
    apply length_congr
    intro i
    show |minimizeComponent (p1 i - p2 i) (box.sideLengths i)| = _
    rw [(h i).choose_spec.2]; rfl

/-- Positions outside of the box are really different: one and a half box lengths away along one
axis is the limit, a point `7/4` box lengths away is at a smaller distance than claimed. -/
theorem periodic_distance_not_minimal_outside :
    let box : Extent 1 ℝ := fromMinMax ![0] ![1]
    periodicDistance box ![7/4] ![0] = 3 / 4 ∧ distance ![7/4] (image box ![2] ![0]) = 1 / 4 := by
  constructor
  · unfold periodicDistance length periodicDistanceVec minimizeComponent
    norm_num [fromMinMax, Extent.sideLengths]
    rw [show (9 : ℝ) = 3 ^ 2 by norm_num, show (16 : ℝ) = 4 ^ 2 by norm_num,
      Real.sqrt_sq (by norm_num), Real.sqrt_sq (by norm_num)]
  · unfold distance length image
    norm_num [fromMinMax]
    rw [show (16 : ℝ) = 4 ^ 2 by norm_num, Real.sqrt_sq (by norm_num)]
    norm_num

example : (∀ i, (fromMinMax ![0, 0] ![1, 2] : Extent 2 ℝ).min i <
      (fromMinMax ![0, 0] ![1, 2] : Extent 2 ℝ).max i) ∧
    (fromMinMax ![0, 0] ![1, 2] : Extent 2 ℝ).contains ![1/10, 1] := by
  constructor
  · intro i; fin_cases i <;> norm_num [fromMinMax]
  · intro i; fin_cases i <;> norm_num [fromMinMax]

/-! ## C24: the image of a found neighbour is found again -/

/-- All wrap types appear exactly once. -/
def AllWraps (wraps : List (Fin d → WrapType)) : Prop := wraps.Nodup ∧ ∀ w, w ∈ wraps

theorem allWraps3_complete : AllWraps allWraps3 := ⟨nodup_allWraps3, mem_allWraps3⟩
theorem allWraps2_complete : AllWraps allWraps2 := ⟨nodup_allWraps2, mem_allWraps2⟩

/-- **C24** (found again).  If the periodic distance of a point from the search centre is below the
search radius (so the radius search returns it), one of the images produced by
`iter_periodic_images` is within the radius: the `unwrap` in `find_wrapped_point` cannot fail.  This
holds for search centres outside of the box too. -/
theorem found_neighbour_has_image (wraps : List (Fin d → WrapType)) (hw : AllWraps wraps)
    (box : Extent d ℝ) (q p : Vec d ℝ) (r : ℝ) (hfound : periodicDistance box q p < r) :
    findWrappedPoint wraps box q r p ≠ .error .noImage := by
  have h : ∀ i, ∃ w : WrapType, minimizeComponent (q i - p i) (box.sideLengths i)
      = q i - p i - box.sideLengths i * w.asSign := fun i => minimize_eq _ _
  choose w hwi using h
  have hd : distance q (fun i => p i + asTranslation w box i) = periodicDistance box q p := by
    apply length_congr
    intro i
    show |q i - (p i + box.sideLengths i * (w i).asSign)|
      = |minimizeComponent (q i - p i) (box.sideLengths i)|
    rw [hwi i]; congr 1; ring
  have hmem : (w, fun i => p i + asTranslation w box i) ∈
      (iterPeriodicImages wraps box p).filter
        (fun tp => decide (distance q tp.2 < r)) := by
    rw [List.mem_filter]
    constructor
    · exact List.mem_map.2 ⟨w, hw.2 w, rfl⟩
    · simp only [decide_eq_true_eq]; rw [hd]; exact hfound
  unfold findWrappedPoint
  split
  · rename_i he
    exfalso
    have := List.ne_nil_of_mem hmem
    apply this
    convert he
  · simp
  · simp

/-- **C24** (unique).  If moreover the radius is at most half of every side of the box, exactly one
image is within the radius, so `find_wrapped_point` returns: its result is an image of the point
within the search radius, at the periodic distance. -/
theorem found_image_is_unique (wraps : List (Fin d → WrapType)) (hw : AllWraps wraps)
    (box : Extent d ℝ) (q p : Vec d ℝ) (r : ℝ)
    (hr : ∀ i, r ≤ (box.max i - box.min i) / 2)
    (hfound : periodicDistance box q p < r) :
    ∃ w : Fin d → WrapType,
      findWrappedPoint wraps box q r p = .ok (w, fun i => p i + asTranslation w box i) ∧
      distance q (fun i => p i + asTranslation w box i) < r := by
  have hne := found_neighbour_has_image wraps hw box q p r hfound
  have huniq : ∀ w w' : Fin d → WrapType,
      distance q (fun i => p i + asTranslation w box i) < r →
      distance q (fun i => p i + asTranslation w' box i) < r → w = w' := by
    intro w w' h h'
    funext i
    have c := lt_of_le_of_lt (component_le_length (fun i => q i - (p i + asTranslation w box i)) i) h
    have c' := lt_of_le_of_lt
      (component_le_length (fun i => q i - (p i + asTranslation w' box i)) i) h'
    have hri := hr i
    have e : box.sideLengths i = box.max i - box.min i := rfl
    simp only [asTranslation] at c c'
    rw [e] at c c'
    have c := abs_lt.1 c
    have c' := abs_lt.1 c'
    obtain ⟨c1, c2⟩ := c
    obtain ⟨c1', c2'⟩ := c'
    generalize box.max i - box.min i = L at *
    cases hwi : w i <;> cases hwi' : w' i <;> simp only [hwi, hwi', WrapType.asSign] at * <;>
      first | rfl | (exfalso; linarith)
  unfold findWrappedPoint at hne ⊢
  split at hne
  · exact absurd rfl hne
  · rename_i res he
    have hm : res ∈ (iterPeriodicImages wraps box p).filter
        (fun tp => @decide (distance q tp.2 < r) (Classical.propDecidable _)) := by rw [he]; simp
    rw [List.mem_filter] at hm
    obtain ⟨h1, h2⟩ := hm
    obtain ⟨w, _, hw'⟩ := List.mem_map.1 h1
    subst hw'
    exact ⟨w, rfl, by simpa using h2⟩
  · rename_i a b l he
    exfalso
    have hnd : (iterPeriodicImages wraps box p).Nodup := by
      unfold iterPeriodicImages
      refine hw.1.map ?_
      intro w w' h
      exact (Prod.mk.inj h).1
    have hnd' := hnd.filter (fun tp => @decide (distance q tp.2 < r) (Classical.propDecidable _))
    rw [he] at hnd'
    have hma : a ∈ (iterPeriodicImages wraps box p).filter
        (fun tp => @decide (distance q tp.2 < r) (Classical.propDecidable _)) := by rw [he]; simp
    have hmb : b ∈ (iterPeriodicImages wraps box p).filter
        (fun tp => @decide (distance q tp.2 < r) (Classical.propDecidable _)) := by rw [he]; simp
    rw [List.mem_filter] at hma hmb
    obtain ⟨wa, _, rfl⟩ := List.mem_map.1 hma.1
    obtain ⟨wb, _, rfl⟩ := List.mem_map.1 hmb.1
    have := huniq wa wb (by simpa using hma.2) (by simpa using hmb.2)
    subst this
    simp at hnd'

/-- **C24** (limit).  The bound on the radius is needed: with a radius of six tenths of the box
length a neighbour half a box length away has two images within the radius and the assertion in
`find_wrapped_point` fails. -/
theorem large_radius_finds_two_images :
    findWrappedPoint allWraps2 (fromMinMax ![0, 0] ![1, 1]) ![1/2, 1/2] (3/5) ![0, 1/2]
      = .error .twoImages := by
  have hl : ∀ x y : ℝ, (Real.sqrt (∑ i : Fin 2, (![x, y] i) ^ 2) < 3 / 5 ↔
      x ^ 2 + y ^ 2 < 9 / 25) := by
    intro x y
    rw [Fin.sum_univ_two, Real.sqrt_lt' (by norm_num)]
    norm_num
  have hd : ∀ w : Fin 2 → WrapType, distance (![1/2, 1/2] : Vec 2 ℝ)
      (fun i => (![0, 1/2] : Vec 2 ℝ) i + asTranslation w (fromMinMax ![0, 0] ![1, 1]) i) < 3 / 5 ↔
      (1/2 - (w 0).asSign) ^ 2 + (-(w 1).asSign) ^ 2 < (9 / 25 : ℝ) := by
    intro w
    rw [← hl]
    unfold distance length
    rw [Fin.sum_univ_two, Fin.sum_univ_two]
    simp [asTranslation, fromMinMax, Extent.sideLengths]
  have hlist : (iterPeriodicImages allWraps2 (fromMinMax ![0, 0] ![1, 1]) ![0, 1/2]).filter
      (fun tp => @decide (distance (![1/2, 1/2] : Vec 2 ℝ) tp.2 < 3 / 5)
        (Classical.propDecidable _)) =
      ([![.noWrap, .noWrap], ![.plus, .noWrap]] : List (Fin 2 → WrapType)).map
        fun w => (w, fun i => (![0, 1/2] : Vec 2 ℝ) i +
          asTranslation w (fromMinMax ![0, 0] ![1, 1]) i) := by
    unfold iterPeriodicImages
    rw [List.filter_map]
    congr 1
    have : ((fun tp : (Fin 2 → WrapType) × Vec 2 ℝ =>
        @decide (distance (![1/2, 1/2] : Vec 2 ℝ) tp.2 < 3 / 5) (Classical.propDecidable _)) ∘
        fun w => (w, fun i => (![0, 1/2] : Vec 2 ℝ) i +
          asTranslation w (fromMinMax ![0, 0] ![1, 1]) i)) =
        fun w : Fin 2 → WrapType => decide (w 1 = .noWrap ∧ w 0 ≠ .minus) := by
      funext w
      simp only [Function.comp]
      rw [decide_eq_decide, hd]
      cases w 0 <;> cases w 1 <;> simp [WrapType.asSign] <;> norm_num
    rw [this]
    decide
  unfold findWrappedPoint
  rw [hlist]
  rfl

example : AllWraps allWraps3 ∧ (∀ i, (1/4 : ℝ) ≤ ((fromMinMax ![0, 0, 0] ![1, 1, 1]).max i -
    (fromMinMax ![0, 0, 0] ![1, 1, 1] : Extent 3 ℝ).min i) / 2) ∧
    periodicDistance (fromMinMax ![0, 0, 0] ![1, 1, 1]) ![9/10, 0, 0] ![1/10, 0, 0] < 1 / 4 := by
  refine ⟨allWraps3_complete, ?_, ?_⟩
  · intro i; fin_cases i <;> norm_num [fromMinMax]
  · unfold periodicDistance length periodicDistanceVec minimizeComponent
    rw [Real.sqrt_lt' (by norm_num), Fin.sum_univ_three]
    simp only [fromMinMax, Extent.sideLengths, Matrix.cons_val]
    norm_num

/-! ## C62: searches reach every rank that can answer them -/

/-- **C62**.  If every rank has particles, a search is sent to every rank that holds a particle
within the search radius (by periodic distance). -/
theorem search_reaches_owning_ranks (box : Extent d ℝ) (hbox : ∀ i, box.min i < box.max i)
    (positions : List (List (Vec d ℝ))) (hne : ∀ ps ∈ positions, ps ≠ [])
    (rank : ℕ) (ps : List (Vec d ℝ)) (hrank : positions[rank]? = some ps)
    (q p : Vec d ℝ) (hp : p ∈ ps) (r : ℝ) (hfound : periodicDistance box q p < r) :
    ∃ owns, rankOwnsPartOfSearchRadius box (communicateExtents positions) rank
      (cubeAroundSphere q r) = some owns ∧ owns := by
  have hsome : ∀ l : List (List (Vec d ℝ)), (∀ x ∈ l, x ≠ []) →
      ∀ k : ℕ, (l.filterMap fromPositions)[k]? = (l[k]?).bind fromPositions := by
    intro l
    induction l with
    | nil => intro _ k; simp
    | cons x l ih =>
      intro h k
      rcases bounding_extent_smallest x with ⟨hx, _⟩ | ⟨e, he, _⟩
      · exact absurd hx (h x (by simp))
      · rw [List.filterMap_cons, he]
        cases k with
        | zero => simp [he]
        | succ k => simpa using ih (fun y hy => h y (List.mem_cons_of_mem _ hy)) k
  rcases bounding_extent_smallest ps with ⟨hps, _⟩ | ⟨e, he, _, hin, _, _⟩
  · exact absurd hps (hne ps (List.mem_of_getElem? hrank))
  have hext : (communicateExtents positions)[rank]? = some e := by
    unfold communicateExtents
    rw [hsome positions hne, hrank]; exact he
  refine ⟨_, by unfold rankOwnsPartOfSearchRadius; rw [hext]; rfl, ?_⟩
  intro i
  have hL : 0 < box.sideLengths i := by
    have := hbox i; unfold Extent.sideLengths; linarith
  have hpi := hin p hp i
  have hcen : e.center i = (e.min i + e.max i) / 2 := by
    unfold fromPositions at he
    simp only [Option.bind_eq_bind, Option.bind_eq_some_iff] at he
    obtain ⟨lo, _, hi, _, he⟩ := he
    have : e = fromMinMax lo hi := (Option.some.inj he).symm
    subst this; rfl
  obtain ⟨w, hw⟩ := minimize_eq (q i - p i) (box.sideLengths i)
  have hc : |minimizeComponent (q i - p i) (box.sideLengths i)| < r :=
    lt_of_le_of_lt (component_le_length (periodicDistanceVec box q p) i) hfound
  have hle := minimize_le (q i - e.center i) (box.sideLengths i) hL w
  show |minimizeComponent (q i - e.center i) (box.sideLengths i)| ≤
    (cubeAroundSphere q r).sideLengths i + e.sideLengths i
  refine hle.trans ?_
  rw [hw] at hc
  have hc := abs_lt.1 hc
  unfold Extent.sideLengths cubeAroundSphere
  unfold Extent.sideLengths at hc
  simp only
  apply abs_le.2
  rw [hcen]
  constructor <;> linarith

/-- **C62** (limit).  A rank without particles shifts the extents of all later ranks: with two ranks
of which the first is empty, deciding whether to ask rank 1 panics (index out of bounds). -/
theorem empty_rank_shifts_extents (box : Extent d ℝ) (ps : List (Vec d ℝ)) (extent : Extent d ℝ) :
    rankOwnsPartOfSearchRadius box (communicateExtents [[], ps]) 1 extent = none := by
  have h : (communicateExtents [[], ps])[1]? = none := by
    unfold communicateExtents
    have hnil : fromPositions ([] : List (Vec d ℝ)) = none := rfl
    rw [List.filterMap_cons, hnil]
    simp only [List.filterMap_cons, List.filterMap_nil]
    cases fromPositions ps <;> simp
  unfold rankOwnsPartOfSearchRadius
  rw [h]; rfl

end Distance

end Verif.Geometry
