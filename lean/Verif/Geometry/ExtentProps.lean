import Verif.Geometry.Model
import Mathlib.Tactic.Linarith
import Mathlib.Tactic.Ring
import Mathlib.Tactic.FinCases

/-!
# Bounding extents: properties
-/

namespace Verif.Geometry

section Spec
variable {d : ℕ} {K : Type} [LinearOrder K]

/-- The point is inside the closed box. -/
def InBox (lo hi p : Vec d K) : Prop := ∀ i, lo i ≤ p i ∧ p i ≤ hi i

end Spec

variable {d : ℕ} {K : Type} [Field K] [LinearOrder K]

/-- The fold of `from_positions` computes lower and upper bounds which are attained. -/
private theorem fold_spec (ps : List (Vec d K)) : ∀ lo hi : Vec d K,
    ∃ lo' hi', ps.foldl (fun (acc : Option (Vec d K) × Option (Vec d K)) pos =>
      (updateWith vmin acc.1 pos, updateWith vmax acc.2 pos)) (some lo, some hi)
        = (some lo', some hi') ∧
      (∀ i, lo' i ≤ lo i ∧ hi i ≤ hi' i) ∧ (∀ p ∈ ps, InBox lo' hi' p) ∧
      (∀ a b : Vec d K, (∀ i, a i ≤ lo i ∧ hi i ≤ b i) → (∀ p ∈ ps, InBox a b p) →
        ∀ i, a i ≤ lo' i ∧ hi' i ≤ b i) := by
  induction ps with
  | nil =>
    intro lo hi
    exact ⟨lo, hi, rfl, fun i => ⟨le_rfl, le_rfl⟩, by simp, fun a b h _ => h⟩
  | cons p ps ih =>
    intro lo hi
    obtain ⟨lo', hi', e, h1, h2, h3⟩ := ih (vmin lo p) (vmax hi p)
    refine ⟨lo', hi', by simpa [updateWith] using e, ?_, ?_, ?_⟩
    · intro i
      exact ⟨(h1 i).1.trans (min_le_left _ _), (le_max_left _ _).trans (h1 i).2⟩
    · intro q hq
      rcases List.mem_cons.1 hq with rfl | hq
      · exact fun i => ⟨(h1 i).1.trans (min_le_right _ _), (le_max_right _ _).trans (h1 i).2⟩
      · exact h2 q hq
    · intro a b hab hps
      apply h3 a b
      · intro i
        have := hps p (by simp) i
        exact ⟨le_min (hab i).1 this.1, max_le (hab i).2 this.2⟩
      · exact fun q hq => hps q (List.mem_cons_of_mem _ hq)

/-- **C18** (box of a point set).  For every non-empty list of positions `from_positions` gives a box
which contains all positions and is contained in every box containing them; without positions it
gives none. -/
theorem bounding_extent_smallest (ps : List (Vec d K)) :
    (ps = [] ∧ fromPositions ps = none) ∨
    ∃ e, fromPositions ps = some e ∧ ps ≠ [] ∧ (∀ p ∈ ps, e.contains p) ∧
      (∀ lo hi, (∀ p ∈ ps, InBox lo hi p) → ∀ i, lo i ≤ e.min i ∧ e.max i ≤ hi i) ∧
      (∀ i, e.min i ≤ e.max i) := by
  cases ps with
  | nil => exact Or.inl ⟨rfl, rfl⟩
  | cons p ps =>
    right
    obtain ⟨lo', hi', e, h1, h2, h3⟩ := fold_spec ps p p
    refine ⟨fromMinMax lo' hi', ?_, by simp, ?_, ?_, ?_⟩
    · unfold fromPositions
      rw [List.foldl_cons]
      have e' := e
      change List.foldl _ (updateWith vmin none p, updateWith vmax none p) ps = _ at e'
      rw [e']; rfl
    · intro q hq
      rcases List.mem_cons.1 hq with rfl | hq
      · exact h1
      · exact h2 q hq
    · intro lo hi h
      exact h3 lo hi (h p (by simp)) (fun q hq => h q (List.mem_cons_of_mem _ hq))
    · intro i
      exact (h1 i).1.trans (h1 i).2

/-- The centre of the box is its midpoint and the generic `from_points` gives the same box. -/
theorem from_points_eq_from_positions (ps : List (Vec d K)) :
    fromPoints ps = fromPositions ps := by
  cases ps with
  | nil => rfl
  | cons p ps =>
    have key : ∀ (l : List (Vec d K)) (a b : Vec d K),
        l.foldl (fun (acc : Option (Vec d K) × Option (Vec d K)) pos =>
          (updateWith vmin acc.1 pos, updateWith vmax acc.2 pos)) (some a, some b)
        = (some (l.foldl (fun (acc : Vec d K × Vec d K) v => (vmin acc.1 v, vmax acc.2 v)) (a, b)).1,
           some (l.foldl (fun (acc : Vec d K × Vec d K) v => (vmin acc.1 v, vmax acc.2 v))
            (a, b)).2) := by
      intro l
      induction l with
      | nil => intro a b; rfl
      | cons q l ih => intro a b; simp only [List.foldl_cons, updateWith]; exact ih _ _
    unfold fromPoints fromPositions
    rw [List.foldl_cons]
    have e := key ps p p
    change List.foldl _ (updateWith vmin none p, updateWith vmax none p) ps = _ at e
    rw [e]; rfl

/-- **C18** (combining).  The extent encompassing a list of (proper) extents contains everything any
of them contains, and is contained in every box doing so. -/
theorem encompassing_extent (es : List (Extent d K)) (hes : es ≠ [])
    (hproper : ∀ e ∈ es, ∀ i, e.min i ≤ e.max i) :
    ∃ big, getAllEncompassing es = some big ∧
      (∀ e ∈ es, ∀ p, e.contains p → big.contains p) ∧
      (∀ lo hi, (∀ e ∈ es, ∀ p, e.contains p → InBox lo hi p) →
        ∀ i, lo i ≤ big.min i ∧ big.max i ≤ hi i) := by
  rcases bounding_extent_smallest (es.flatMap (fun e => [e.min, e.max])) with ⟨h, _⟩ | h
  · exfalso
    cases es with
    | nil => exact hes rfl
    | cons e es => simp at h
  obtain ⟨big, hb, _, hin, hsm, _⟩ := h
  refine ⟨big, hb, ?_, ?_⟩
  · intro e he p hp i
    have h1 := hin e.min (List.mem_flatMap.2 ⟨e, he, by simp⟩) i
    have h2 := hin e.max (List.mem_flatMap.2 ⟨e, he, by simp⟩) i
    exact ⟨h1.1.trans (hp i).1, (hp i).2.trans h2.2⟩
  · intro lo hi h
    apply hsm
    intro p hp
    obtain ⟨e, he, hpe⟩ := List.mem_flatMap.1 hp
    simp only [List.mem_cons, List.not_mem_nil, or_false] at hpe
    rcases hpe with rfl | rfl
    · exact h e he _ (fun i => ⟨le_rfl, hproper e he i⟩)
    · exact h e he _ (fun i => ⟨hproper e he i, le_rfl⟩)

variable [IsStrictOrderedRing K]

omit [Field K] [IsStrictOrderedRing K] in
private theorem gap_le [Field K] [IsStrictOrderedRing K] (lo hi p q : K) (h1 : lo ≤ p) (h2 : p ≤ hi) :
    (max (max 0 (lo - q)) (q - hi)) ^ 2 ≤ (p - q) ^ 2 := by
  have h0 : (0 : K) ≤ max (max 0 (lo - q)) (q - hi) := le_max_of_le_left (le_max_left _ _)
  rw [← sq_abs (p - q)]
  apply pow_le_pow_left₀ h0
  apply max_le
  · apply max_le (abs_nonneg _)
    exact le_trans (by linarith) (le_abs_self _)
  · exact le_trans (by linarith) (neg_le_abs _)

omit [Field K] [IsStrictOrderedRing K] in
private theorem gap_eq [Field K] [IsStrictOrderedRing K] (lo hi q : K) (h : lo ≤ hi) :
    (max (max 0 (lo - q)) (q - hi)) ^ 2 = (max lo (min hi q) - q) ^ 2 := by
  rcases le_total q lo with h1 | h1
  · have e1 : max (max 0 (lo - q)) (q - hi) = lo - q := by
      rw [max_eq_right (by linarith : (0 : K) ≤ lo - q), max_eq_left (by linarith)]
    rw [e1, min_eq_right (by linarith), max_eq_left h1]
  · rw [max_eq_left (by linarith : lo - q ≤ 0)]
    rcases le_total q hi with h2 | h2
    · rw [max_eq_left (by linarith), min_eq_right h2, max_eq_right h1]; ring
    · rw [max_eq_right (by linarith), min_eq_left h2, max_eq_right h]; ring

/-- **C18** (distance to a box).  `squared_distance_to_pos` is the square of the distance from the
point to the nearest point of the box: a lower bound for the squared distance to everything inside,
and attained by some point inside. -/
theorem squared_distance_is_minimal (e : Extent 3 K) (q : Vec 3 K) (he : ∀ i, e.min i ≤ e.max i) :
    (∀ p, e.contains p → e.squaredDistanceToPos q ≤ ∑ i, (p i - q i) ^ 2) ∧
    (∃ p, e.contains p ∧ e.squaredDistanceToPos q = ∑ i, (p i - q i) ^ 2) := by
  constructor
  · intro p hp
    rw [Fin.sum_univ_three]
    unfold Extent.squaredDistanceToPos
    exact add_le_add (add_le_add (gap_le _ _ _ _ (hp 0).1 (hp 0).2)
      (gap_le _ _ _ _ (hp 1).1 (hp 1).2)) (gap_le _ _ _ _ (hp 2).1 (hp 2).2)
  · refine ⟨fun i => max (e.min i) (min (e.max i) (q i)), ?_, ?_⟩
    · intro i
      exact ⟨le_max_left _ _, max_le (he i) (min_le_left _ _)⟩
    · rw [Fin.sum_univ_three]
      unfold Extent.squaredDistanceToPos
      simp only [gap_eq _ _ _ (he 0), gap_eq _ _ _ (he 1), gap_eq _ _ _ (he 2)]

/-- **C18** (quadrants, 3d).  Every point of a box is in the quadrant whose index
`get_quadrant_index` returns, and the quadrants are parts of the box. -/
theorem quadrants3_cover (e : Extent 3 K) (hc : ∀ i, e.min i ≤ e.center i ∧ e.center i ≤ e.max i)
    (p : Vec 3 K) (hp : e.contains p) :
    (quadrants3 e (quadrantIndex3 e p)).contains p ∧
    (∀ k q, (quadrants3 e k).contains q → e.contains q) := by
  constructor
  · unfold quadrantIndex3
    by_cases h0 : p 0 < e.center 0 <;> by_cases h1 : p 1 < e.center 1 <;>
      by_cases h2 : p 2 < e.center 2 <;>
      simp only [h0, h1, h2, decide_true, decide_false] <;>
      (have a0 := hp 0; have a1 := hp 1; have a2 := hp 2
       try simp only [not_lt] at h0 h1 h2
       intro i; fin_cases i <;> simp [quadrants3, fromMinMax] <;>
        constructor <;> linarith)
  · intro k q hq i
    have a := hq i
    have c := hc i
    revert a c
    fin_cases k <;> fin_cases i <;> simp [quadrants3, fromMinMax] <;> intros <;>
      constructor <;> linarith

/-- **C18** (quadrants, 2d). -/
theorem quadrants2_cover (e : Extent 2 K) (hc : ∀ i, e.min i ≤ e.center i ∧ e.center i ≤ e.max i)
    (p : Vec 2 K) (hp : e.contains p) :
    (quadrants2 e (quadrantIndex2 e p)).contains p ∧
    (∀ k q, (quadrants2 e k).contains q → e.contains q) := by
  constructor
  · unfold quadrantIndex2
    by_cases h0 : p 0 < e.center 0 <;> by_cases h1 : p 1 < e.center 1 <;>
      simp only [h0, h1, decide_true, decide_false] <;>
      (have a0 := hp 0; have a1 := hp 1
       try simp only [not_lt] at h0 h1
       intro i; fin_cases i <;> simp [quadrants2, fromMinMax] <;>
        constructor <;> linarith)
  · intro k q hq i
    have a := hq i
    have c := hc i
    revert a c
    fin_cases k <;> fin_cases i <;> simp [quadrants2, fromMinMax] <;> intros <;>
      constructor <;> linarith

/-- **C18** (quadrants do not overlap, 3d).  A point in the interior of a quadrant is in no other quadrant,
and `get_quadrant_index` returns its index; each quadrant has half the side lengths of the box. -/
theorem quadrants3_disjoint (lo hi : Vec 3 K) (k : Fin 8) :
    (∀ p : Vec 3 K, (∀ i, (quadrants3 (fromMinMax lo hi) k).min i < p i ∧
        p i < (quadrants3 (fromMinMax lo hi) k).max i) →
      quadrantIndex3 (fromMinMax lo hi) p = k) ∧
    ∀ i, (quadrants3 (fromMinMax lo hi) k).max i - (quadrants3 (fromMinMax lo hi) k).min i
      = (hi i - lo i) / 2 := by
  constructor
  · intro p hp
    have a0 := hp 0; have a1 := hp 1; have a2 := hp 2
    revert a0 a1 a2
    fin_cases k <;> simp [quadrants3, fromMinMax, quadrantIndex3] <;> intros <;>
      simp only [*, decide_true, decide_false, not_lt.2 (le_of_lt _)]
  · intro i
    fin_cases k <;> fin_cases i <;> simp [quadrants3, fromMinMax] <;> field_simp <;> ring

/-- **C18** (quadrants do not overlap, 2d). -/
theorem quadrants2_disjoint (lo hi : Vec 2 K) (k : Fin 4) :
    (∀ p : Vec 2 K, (∀ i, (quadrants2 (fromMinMax lo hi) k).min i < p i ∧
        p i < (quadrants2 (fromMinMax lo hi) k).max i) →
      quadrantIndex2 (fromMinMax lo hi) p = k) ∧
    ∀ i, (quadrants2 (fromMinMax lo hi) k).max i - (quadrants2 (fromMinMax lo hi) k).min i
      = (hi i - lo i) / 2 := by
  constructor
  · intro p hp
    have a0 := hp 0; have a1 := hp 1
    revert a0 a1
    fin_cases k <;> simp [quadrants2, fromMinMax, quadrantIndex2] <;> intros <;>
      simp only [*, decide_true, decide_false, not_lt.2 (le_of_lt _)]
  · intro i
    fin_cases k <;> fin_cases i <;> simp [quadrants2, fromMinMax] <;> field_simp <;> ring

/-- **C18** (cube around a sphere).  The box has the sphere's centre, contains every point within the radius,
and is the smallest such box. -/
theorem cube_around_sphere_smallest (c : Vec d K) (r : K) (hr : 0 ≤ r) :
    (cubeAroundSphere c r).center = c ∧
    (∀ p : Vec d K, ∑ i, (p i - c i) ^ 2 ≤ r ^ 2 → (cubeAroundSphere c r).contains p) ∧
    ∀ lo hi : Vec d K, (∀ p : Vec d K, ∑ i, (p i - c i) ^ 2 ≤ r ^ 2 → InBox lo hi p) →
      ∀ i, lo i ≤ (cubeAroundSphere c r).min i ∧ (cubeAroundSphere c r).max i ≤ hi i := by
  refine ⟨rfl, ?_, ?_⟩
  · intro p hp i
    have h1 : (p i - c i) ^ 2 ≤ r ^ 2 := le_trans
      (Finset.single_le_sum (f := fun i => (p i - c i) ^ 2) (fun j _ => sq_nonneg _) (Finset.mem_univ i)) hp
    have h2 := abs_le.1 (abs_le_of_sq_le_sq h1 hr)
    simp only [cubeAroundSphere]
    constructor <;> linarith
  · intro lo hi h i
    have key : ∀ a : K, a ^ 2 = r ^ 2 → ∑ j, ((Function.update c i (c i + a)) j - c j) ^ 2 ≤ r ^ 2 := by
      intro a ha
      rw [Finset.sum_eq_single i]
      · rw [Function.update_self, add_sub_cancel_left, ha]
      · intro j _ hj
        rw [Function.update_of_ne hj, sub_self]
        ring
      · intro h
        exact absurd (Finset.mem_univ i) h
    have k1 := h _ (key r rfl) i
    have k2 := h _ (key (-r) (by ring)) i
    rw [Function.update_self] at k1 k2
    simp only [cubeAroundSphere]
    constructor
    · linarith [k2.1]
    · linarith [k1.2]

/-! The hypotheses are met: two points, a box, and a point outside of it. -/

example : ∃ e, fromPositions [(![1, 5, 2] : Vec 3 ℚ), ![3, 0, 2]] = some e ∧
    e.min = ![1, 0, 2] ∧ e.max = ![3, 5, 2] ∧ e.squaredDistanceToPos ![0, 6, 2] = 2 := by
  refine ⟨_, rfl, ?_, ?_, ?_⟩
  · funext i; fin_cases i <;> rfl
  · funext i; fin_cases i <;> rfl
  · decide +kernel

example : (∀ i, (fromMinMax ![0, 0, 0] ![1, 2, 4] : Extent 3 ℚ).min i ≤
      (fromMinMax ![0, 0, 0] ![1, 2, 4] : Extent 3 ℚ).center i) ∧
    (fromMinMax ![0, 0, 0] ![1, 2, 4] : Extent 3 ℚ).contains ![1, 1, 1] ∧
    quadrantIndex3 (fromMinMax ![0, 0, 0] ![1, 2, 4] : Extent 3 ℚ) ![1, 1, 1] = 3 := by
  decide +kernel

end Verif.Geometry
