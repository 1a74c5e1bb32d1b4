import Verif.Rounding.HaloSearchLemmas

/-!
# C148: the searches for haloes between ranks in `f64`
-/

namespace Verif.Rounding.Haloes

open Verif.Geometry Verif.Rounding

/-! ### Lemmas -/

theorem side_bound {M : ℚ} {depth : ℕ} {lo hi : Vec 3 ℚ} (hbox : SearchBox M depth lo hi) (i : Fin 3) :
    |sideLengthsF (fromMinMaxF lo hi) i| ≤ 21 / 10 * M ∧ |sideLengthsF (fromMinMaxF lo hi) i - (hi i - lo i)| ≤ 3 * (M / 2 ^ 53) := by
  have hM0 := hbox.pos
  obtain ⟨h1, h2⟩ := hbox.bounds i
  have h3 := hbox.sides' i
  have h0 : 0 < M / 2 ^ 40 := by positivity
  have e := fl_err_M hbox.notTiny (x := hi i - lo i) (k := 2) (abs_le.2 ⟨by linarith, by linarith⟩)
  change |sideLengthsF (fromMinMaxF lo hi) i - (hi i - lo i)| ≤ _ at e
  have m0 : 0 < M / 2 ^ 53 := by positivity
  have m1 : M / 2 ^ 53 ≤ 1 / 1000 * M := by
    rw [div_le_iff₀ (by positivity)]
    have : (1 : ℚ) ≤ 1 / 1000 * 2 ^ 53 := by norm_num
    nlinarith
  have e' := abs_le.1 e
  exact ⟨abs_le.2 ⟨by linarith, by linarith⟩, e.trans (by linarith)⟩

/-- Computed lengths of vectors whose components hardly differ. -/
theorem lengthF_close {M : ℚ} (hM : 1 / 2 ^ 200 ≤ M) {a b : Vec 3 ℚ} (ha : ∀ i, |a i| ≤ 44 / 10 * M) (hb : ∀ i, |b i| ≤ 44 / 10 * M)
    (h : ∀ i, |a i| ≤ |b i| + 13 * (M / 2 ^ 53)) : lengthF a < lengthF b + M / 2 ^ 46 := by
  have hM0 : 0 < M := lt_of_lt_of_le (by positivity) hM
  have cast : ∀ {x y : ℚ}, x ≤ y → (x : ℝ) ≤ (y : ℝ) := fun h => (Rat.cast_le (K := ℝ)).2 h
  have M0 : (0 : ℝ) < M := (Rat.cast_pos (K := ℝ)).2 hM0
  have bound : ∀ {v : Vec 3 ℚ}, (∀ i, |v i| ≤ 44 / 10 * M) → Geometry.length (fun i => (v i : ℝ)) ≤ 9 * M := by
    intro v hv
    have z : Geometry.length (fun _ : Fin 3 => (0 : ℝ)) = 0 := by
      unfold Geometry.length
      simp
    have := length_close (a := fun i => (v i : ℝ)) (b := fun _ => 0) (e := 44 / 10 * M) (by positivity) (fun i => by
      have := cast (hv i)
      push_cast at this
      rw [abs_zero, zero_add]
      exact this)
    rw [z] at this
    linarith
  have ea := abs_le.1 (lengthF_err a (bound ha))
  have eb := abs_le.1 (lengthF_err b (bound hb))
  have m : (0 : ℝ) < M / 2 ^ 53 := by positivity
  have hl := length_close (a := fun i => (a i : ℝ)) (b := fun i => (b i : ℝ)) (e := 13 * (M / 2 ^ 53)) (by positivity) (fun i => by
    have := cast (h i)
    push_cast at this
    exact this)
  have tiny : (3 : ℝ) / 2 ^ 500 ≤ M / 2 ^ 53 := by
    have h1 := cast hM
    push_cast at h1
    have h2 : (3 : ℝ) / 2 ^ 500 ≤ 1 / 2 ^ 200 / 2 ^ 53 := by
      rw [div_div, ← pow_add, div_le_div_iff₀ (by positivity) (by positivity)]
      have : (2 : ℝ) ^ 500 = 2 ^ 253 * 2 ^ 247 := by rw [← pow_add]
      rw [this, one_mul, mul_comm (3 : ℝ)]
      refine mul_le_mul_of_nonneg_left ?_ (by positivity)
      calc (3 : ℝ) ≤ 2 ^ 2 := by norm_num
        _ ≤ 2 ^ 247 := pow_le_pow_right₀ (by norm_num) (by norm_num)
    exact h2.trans (div_le_div_of_nonneg_right h1 (by positivity))
  have k : (9 * (M : ℝ)) * (4 / 2 ^ 53) = 36 * (M / 2 ^ 53) := by ring
  rw [k] at ea eb
  refine (Rat.cast_lt (K := ℝ)).1 ?_
  push_cast
  have fin : (M : ℝ) / 2 ^ 46 = 128 * (M / 2 ^ 53) := by ring
  rw [fin]
  generalize (3 : ℝ) / 2 ^ 500 = t at *
  generalize (M : ℝ) / 2 ^ 53 = e at *
  linarith

theorem sign_cases (w : WrapType) : (w.asSign : ℚ) = 0 ∨ (w.asSign : ℚ) = -1 ∨ (w.asSign : ℚ) = 1 := by
  cases w <;> simp [WrapType.asSign]

/-- The image which belongs to the computed periodic distance. -/
theorem image_close {M : ℚ} {depth : ℕ} {lo hi : Vec 3 ℚ} (hbox : SearchBox M depth lo hi) {p q : Vec 3 ℚ} (hp : ∀ i, |p i| ≤ M)
    (hq : ∀ i, |q i| ≤ M) : ∃ w : Fin 3 → WrapType,
      distanceF q (fun i => p i ⊞ asTranslationF w (fromMinMaxF lo hi) i) < periodicDistanceF (fromMinMaxF lo hi) q p + M / 2 ^ 46 ∧
      periodicDistanceF (fromMinMaxF lo hi) q p < distanceF q (fun i => p i ⊞ asTranslationF w (fromMinMaxF lo hi) i) + M / 2 ^ 46 := by
  have hM := hbox.notTiny
  have hM0 := hbox.pos
  have hmin := fun i => minimize_component hM (hp i) (hq i) (L := sideLengthsF (fromMinMaxF lo hi) i) (isF64_fl _) (side_ok hbox i)
    (side_bound hbox i).1
  choose w hw using hmin
  have himg := fun i => image_component hM (hp i) (hq i) (side_bound hbox i).1 (sign_cases (w i))
  have m0 : 0 < M / 2 ^ 53 := by positivity
  have m1 : M / 2 ^ 53 ≤ 1 / 1000 * M := by
    rw [div_le_iff₀ (by positivity)]
    have : (1 : ℚ) ≤ 1 / 1000 * 2 ^ 53 := by norm_num
    nlinarith
  have ex : ∀ i, |q i - p i - sideLengthsF (fromMinMaxF lo hi) i * (w i).asSign| ≤ 42 / 10 * M := by
    intro i
    have hp' := abs_le.1 (hp i)
    have hq' := abs_le.1 (hq i)
    have hL := abs_le.1 (side_bound hbox i).1
    rcases sign_cases (w i) with h | h | h <;> rw [h] <;> exact abs_le.2 ⟨by linarith, by linarith⟩
  have tri : ∀ {x y z a b : ℚ}, |x - z| ≤ a → |y - z| ≤ b → |x| ≤ |y| + (a + b) := by
    intro x y z a b h1 h2
    have e : x = y + ((x - z) - (y - z)) := by ring
    calc |x| = |y + ((x - z) - (y - z))| := by rw [← e]
      _ ≤ |y| + |(x - z) - (y - z)| := abs_add_le _ _
      _ ≤ |y| + (a + b) := by
        have := abs_sub (x - z) (y - z)
        linarith
  have big : ∀ {x z a : ℚ}, |x - z| ≤ a → |z| ≤ 42 / 10 * M → a ≤ 8 * (M / 2 ^ 53) → |x| ≤ 44 / 10 * M := by
    intro x z a h1 h2 h3
    have := tri (y := z) (b := 0) h1 (by rw [sub_self, abs_zero])
    linarith
  refine ⟨w, ?_, ?_⟩
  · refine lengthF_close hM (fun i => ?_) (fun i => big (hw i) (ex i) (by linarith)) (fun i => ?_)
    · show |q i ⊟ (p i ⊞ asTranslationF w (fromMinMaxF lo hi) i)| ≤ _
      rw [translation_eq]
      exact big (himg i) (ex i) le_rfl
    · show |q i ⊟ (p i ⊞ asTranslationF w (fromMinMaxF lo hi) i)| ≤ _
      rw [translation_eq]
      refine (tri (himg i) (hw i)).trans (le_of_eq ?_)
      show |minimizeF _ _| + _ = |minimizeF _ _| + _
      ring
  · refine lengthF_close hM (fun i => big (hw i) (ex i) (by linarith)) (fun i => ?_) (fun i => ?_)
    · show |q i ⊟ (p i ⊞ asTranslationF w (fromMinMaxF lo hi) i)| ≤ _
      rw [translation_eq]
      exact big (himg i) (ex i) le_rfl
    · show _ ≤ |q i ⊟ (p i ⊞ asTranslationF w (fromMinMaxF lo hi) i)| + _
      rw [translation_eq]
      refine (tri (hw i) (himg i)).trans (le_of_eq ?_)
      ring

theorem mem_images {box : Extent 3 ℚ} {p : Vec 3 ℚ} (w : Fin 3 → WrapType) :
    (w, fun i => p i ⊞ asTranslationF w box i) ∈ iterPeriodicImagesF box p :=
  List.mem_map.2 ⟨w, mem_allWraps3 w, rfl⟩

theorem not_noImage {box : Extent 3 ℚ} {q p : Vec 3 ℚ} {r : ℚ} (w : Fin 3 → WrapType)
    (h : distanceF q (fun i => p i ⊞ asTranslationF w box i) < r) : findWrappedPointF box q r p ≠ .error .noImage := by
  have hm : (w, fun i => p i ⊞ asTranslationF w box i) ∈
      (iterPeriodicImagesF box p).filter (fun tp => decide (distanceF q tp.2 < r)) := by
    rw [List.mem_filter]
    exact ⟨mem_images w, by simpa using h⟩
  unfold findWrappedPointF
  split
  · rename_i he
    rw [he] at hm
    exact absurd hm (by simp)
  · simp
  · simp

/-- Two images within the radius have the same type. -/
theorem image_unique {M : ℚ} {depth : ℕ} {lo hi : Vec 3 ℚ} (hbox : SearchBox M depth lo hi) {p q : Vec 3 ℚ} (hp : ∀ i, |p i| ≤ M)
    (hq : ∀ i, |q i| ≤ M) {r : ℚ} (hr : ∀ i, r ≤ (hi i - lo i) / 2 - M / 2 ^ 46) (w w' : Fin 3 → WrapType)
    (h : distanceF q (fun i => p i ⊞ asTranslationF w (fromMinMaxF lo hi) i) < r)
    (h' : distanceF q (fun i => p i ⊞ asTranslationF w' (fromMinMaxF lo hi) i) < r) : w = w' := by
  funext i
  have hM := hbox.notTiny
  have hM0 := hbox.pos
  have m0 : 0 < M / 2 ^ 53 := by positivity
  have m1 : M / 2 ^ 53 ≤ 1 / 1000 * M := by
    rw [div_le_iff₀ (by positivity)]
    have : (1 : ℚ) ≤ 1 / 1000 * 2 ^ 53 := by norm_num
    nlinarith
  have m2 : M / 2 ^ 46 = 128 * (M / 2 ^ 53) := by ring
  obtain ⟨hL, hL'⟩ := side_bound hbox i
  have hri := hr i
  have hp' := abs_le.1 (hp i)
  have hq' := abs_le.1 (hq i)
  have key : ∀ t : Fin 3 → WrapType, distanceF q (fun i => p i ⊞ asTranslationF t (fromMinMaxF lo hi) i) < r →
      |q i - p i - sideLengthsF (fromMinMaxF lo hi) i * (t i).asSign| ≤ r + 28 * (M / 2 ^ 53) := by
    intro t ht
    have c := lt_of_le_of_lt (component_le (fun i => q i ⊟ (p i ⊞ asTranslationF t (fromMinMaxF lo hi) i)) i) ht
    rw [translation_eq] at c
    have hi := image_component hM (hp i) (hq i) hL (sign_cases (t i))
    have hL := abs_le.1 hL
    have i2 := abs_le.1 hi
    have c1 := comp_le hM (by
      rcases sign_cases (t i) with h | h | h <;> rw [h] at i2 ⊢ <;> exact abs_le.2 ⟨by linarith, by linarith⟩) c
    have c2 := abs_le.1 c1
    exact abs_le.2 ⟨by linarith, by linarith⟩
  have k := abs_le.1 (key w h)
  have k' := abs_le.1 (key w' h')
  have hL2 := abs_le.1 hL'
  rw [m2] at hri
  generalize sideLengthsF (fromMinMaxF lo hi) i = L at *
  obtain ⟨k1, k2⟩ := k
  obtain ⟨k3, k4⟩ := k'
  cases hwi : w i <;> cases hwi' : w' i <;> simp only [hwi, hwi', WrapType.asSign] at * <;>
    first | rfl | (exfalso; linarith)

/-! ## C148 -/

/-- **C148 (ranks).** A search with a radius of at least `M/2^46` is sent to every rank which holds a particle whose computed
periodic distance is below the radius. -/
theorem searches_reach_ranks_f64 {M : ℚ} {depth : ℕ} {lo hi : Vec 3 ℚ} (hbox : SearchBox M depth lo hi)
    (positions : ℕ → List (Vec 3 ℚ)) (extents : List (Extent 3 ℚ)) (rank : ℕ) (hext : extents[rank]? = fromPositionsF (positions rank))
    (hpos : ∀ p ∈ positions rank, ∀ i, lo i ≤ p i ∧ p i ≤ hi i) (data : List (Vec 3 ℚ × ℚ))
    (hdata : ∀ s ∈ data, (∀ i, |s.1 i| ≤ M) ∧ IsF64 s.2 ∧ M / 2 ^ 46 ≤ s.2) (out : List (Vec 3 ℚ × ℚ))
    (hout : outgoingF extents (fromMinMaxF lo hi) data rank = some out) (s : Vec 3 ℚ × ℚ) (hs : s ∈ data) (p : Vec 3 ℚ)
    (hp : p ∈ positions rank) (hnear : periodicDistanceF (fromMinMaxF lo hi) s.1 p < s.2) : s ∈ out := by
  have hM := hbox.notTiny
  rcases bounding_extent_smallest (positions rank) with ⟨h, -⟩ | ⟨e, he, -, hcont, htight, -⟩
  · rw [h] at hp
    exact absurd hp (by simp)
  have hex : extents[rank]? = some (fromMinMaxF e.min e.max) := by
    rw [hext]
    unfold fromPositionsF
    rw [he]
    rfl
  have howns : ∀ x : Vec 3 ℚ × ℚ, rankOwnsPartF extents rank (cubeAroundSphereF x.1 x.2) (fromMinMaxF lo hi) =
      some (decide (boundingBoxesOverlapPeriodicF (fromMinMaxF lo hi) x.1 (sideLengthsF (cubeAroundSphereF x.1 x.2))
        (fromMinMaxF e.min e.max).center (sideLengthsF (fromMinMaxF e.min e.max)))) := by
    intro x
    unfold rankOwnsPartF
    rw [hex]
    rfl
  unfold outgoingF at hout
  simp only [howns, Option.map_some] at hout
  have hmap : ∀ (l : List (Vec 3 ℚ × ℚ)) (f : Vec 3 ℚ × ℚ → Bool), l.mapM (fun x => some (x, f x)) = some (l.map fun x => (x, f x)) := by
    intro l f
    induction l with
    | nil => rfl
    | cons x l ih => simp [List.mapM_cons, ih]
  rw [hmap data fun x => decide _, Option.map_some] at hout
  have hout := Option.some.inj hout
  rw [← hout, List.mem_map]
  refine ⟨(s, _), List.mem_filter.2 ⟨List.mem_map.2 ⟨s, hs, rfl⟩, ?_⟩, rfl⟩
  rw [decide_eq_true_eq]
  intro i
  obtain ⟨hq, hr, hrM⟩ := hdata s hs
  obtain ⟨hlo, hhi⟩ := htight lo hi (fun x hx i => hpos x hx i) i
  have hc := lt_of_le_of_lt (component_le (periodicDistanceVecF (fromMinMaxF lo hi) s.1 p) i) hnear
  exact rank_component hM ((hbox.bounds i).1.trans hlo) (hhi.trans (hbox.bounds i).2) (hcont p hp i).1 (hcont p hp i).2 (hq i)
    (isF64_fl _) (side_ok hbox i) hr hrM hc

/-- **C148 (images).** For a particle whose computed periodic distance is below the radius by at least `M/2^46`, the search for its
image within the radius does not panic for lack of an image. -/
theorem found_neighbour_has_image_f64 {M : ℚ} {depth : ℕ} {lo hi : Vec 3 ℚ} (hbox : SearchBox M depth lo hi) {p q : Vec 3 ℚ}
    (hp : ∀ i, |p i| ≤ M) (hq : ∀ i, |q i| ≤ M) {r : ℚ} (h : periodicDistanceF (fromMinMaxF lo hi) q p ≤ r - M / 2 ^ 46) :
    findWrappedPointF (fromMinMaxF lo hi) q r p ≠ .error .noImage := by
  obtain ⟨w, hw, -⟩ := image_close hbox hp hq
  exact not_noImage w (by linarith)

/-- **C148 (inside).** The same for every particle below the radius, if the way to it does not lead through the boundary of the box. -/
theorem inner_neighbour_has_image_f64 {lo hi : Vec 3 ℚ} {p q : Vec 3 ℚ} (hp : ∀ i, IsF64 (p i)) {r : ℚ}
    (hin : ∀ i, |q i ⊟ p i| ≤ (hi i ⊟ lo i) ⊘ 2) (h : periodicDistanceF (fromMinMaxF lo hi) q p < r) :
    findWrappedPointF (fromMinMaxF lo hi) q r p ≠ .error .noImage := by
  refine not_noImage (fun _ => .noWrap) ?_
  have e : distanceF q (fun i => p i ⊞ asTranslationF (fun _ => .noWrap) (fromMinMaxF lo hi) i) =
      periodicDistanceF (fromMinMaxF lo hi) q p := by
    unfold distanceF periodicDistanceF
    congr 1
    funext i
    show q i ⊟ (p i ⊞ asTranslationF (fun _ => .noWrap) (fromMinMaxF lo hi) i) = _
    rw [translation_eq]
    show q i ⊟ fl (p i + _ * 0) = minimizeF (q i ⊟ p i) (hi i ⊟ lo i)
    rw [mul_zero, add_zero, hp i]
    have hi' := abs_le.1 (hin i)
    have n : (-(hi i ⊟ lo i)) ⊘ 2 = -((hi i ⊟ lo i) ⊘ 2) := by
      unfold fdiv
      rw [neg_div, fl_neg]
    unfold minimizeF
    rw [if_neg (by linarith [hi'.2]), if_neg (by rw [n]; linarith [hi'.1])]
  rw [e]
  exact h

/-- **C148 (one image).** If moreover the radius is at most half of every side of the box, up to `M/2^46`, there is exactly one image
within the radius: the search succeeds with an image of the particle within the radius, at the periodic distance up to
`M/2^46`. -/
theorem found_image_is_unique_f64 {M : ℚ} {depth : ℕ} {lo hi : Vec 3 ℚ} (hbox : SearchBox M depth lo hi) {p q : Vec 3 ℚ}
    (hp : ∀ i, |p i| ≤ M) (hq : ∀ i, |q i| ≤ M) {r : ℚ} (hr : ∀ i, r ≤ (hi i - lo i) / 2 - M / 2 ^ 46)
    (h : periodicDistanceF (fromMinMaxF lo hi) q p ≤ r - M / 2 ^ 46) :
    ∃ w x, findWrappedPointF (fromMinMaxF lo hi) q r p = .ok (w, x) ∧ (∀ i, x i = p i ⊞ (hi i ⊟ lo i) * (w i).asSign) ∧
      distanceF q x < r ∧ |distanceF q x - periodicDistanceF (fromMinMaxF lo hi) q p| < M / 2 ^ 46 := by
  obtain ⟨w0, hw0, hw1⟩ := image_close hbox hp hq
  have hd0 : distanceF q (fun i => p i ⊞ asTranslationF w0 (fromMinMaxF lo hi) i) < r := by linarith
  have hne := not_noImage w0 hd0
  have huniq := image_unique hbox hp hq hr
  unfold findWrappedPointF at hne ⊢
  split at hne
  · exact absurd rfl hne
  · rename_i res he
    have hm : res ∈ (iterPeriodicImagesF (fromMinMaxF lo hi) p).filter
        (fun tp => decide (distanceF q tp.2 < r)) := by rw [he]; simp
    rw [List.mem_filter] at hm
    obtain ⟨h1, h2⟩ := hm
    obtain ⟨w, _, hw'⟩ := List.mem_map.1 h1
    subst hw'
    have h2 : distanceF q (fun i => p i ⊞ asTranslationF w (fromMinMaxF lo hi) i) < r := by simpa using h2
    have := huniq w w0 h2 hd0
    subst this
    exact ⟨w, _, rfl, fun i => by rw [translation_eq]; rfl, h2, abs_lt.2 ⟨by linarith, by linarith⟩⟩
  · rename_i a b l he
    exfalso
    have hnd : (iterPeriodicImagesF (fromMinMaxF lo hi) p).Nodup := by
      unfold iterPeriodicImagesF
      refine nodup_allWraps3.map ?_
      intro w w' h
      exact (Prod.mk.inj h).1
    have hnd' := hnd.filter (fun tp => decide (distanceF q tp.2 < r))
    rw [he] at hnd'
    have hma : a ∈ (iterPeriodicImagesF (fromMinMaxF lo hi) p).filter
        (fun tp => decide (distanceF q tp.2 < r)) := by rw [he]; simp
    have hmb : b ∈ (iterPeriodicImagesF (fromMinMaxF lo hi) p).filter
        (fun tp => decide (distanceF q tp.2 < r)) := by rw [he]; simp
    rw [List.mem_filter] at hma hmb
    obtain ⟨wa, _, rfl⟩ := List.mem_map.1 hma.1
    obtain ⟨wb, _, rfl⟩ := List.mem_map.1 hmb.1
    have := huniq wa wb (by simpa using hma.2) (by simpa using hmb.2)
    subst this
    simp at hnd'

/-- **C148 (search).** A search with such a radius is answered without a panic, with one image for every particle found, if no particle
lies in the shell of thickness `M/2^46` below the radius. -/
theorem searches_answered_f64 {M : ℚ} {depth : ℕ} {lo hi : Vec 3 ℚ} (hbox : SearchBox M depth lo hi) (s : Vec 3 ℚ × ℚ)
    (hq : ∀ i, |s.1 i| ≤ M) (hr : ∀ i, s.2 ≤ (hi i - lo i) / 2 - M / 2 ^ 46) (particles : List (Vec 3 ℚ))
    (hp : ∀ p ∈ particles, ∀ i, |p i| ≤ M)
    (hshell : ∀ p ∈ particles, periodicDistanceF (fromMinMaxF lo hi) s.1 p ≤ s.2 - M / 2 ^ 46) :
    ∃ haloes, haloesF (fromMinMaxF lo hi) s particles = .ok haloes ∧
      List.Forall₂ (fun p h => (∀ i, h.2 i = p i ⊞ (hi i ⊟ lo i) * (h.1 i).asSign) ∧ distanceF s.1 h.2 < s.2) particles haloes := by
  unfold haloesF
  induction particles with
  | nil => exact ⟨[], rfl, List.Forall₂.nil⟩
  | cons p ps ih =>
    obtain ⟨w, x, h1, h2, h3, -⟩ := found_image_is_unique_f64 hbox (hp p (by simp)) hq hr (hshell p (by simp))
    obtain ⟨l, hl, hf⟩ := ih (fun p' h => hp p' (by simp [h])) (fun p' h => hshell p' (by simp [h]))
    refine ⟨(w, x) :: l, ?_, List.Forall₂.cons ⟨h2, h3⟩ hf⟩
    rw [List.mapM_cons, h1]
    simp only [bind, Except.bind] at hl ⊢
    rw [hl]
    rfl

/-! ### The witness -/

theorem length_ge (v : Vec 3 ℚ) (i : Fin 3) (R : ℚ) (h : R ^ 2 ≤ v i ⊠ v i) : fl R ≤ lengthF v :=
  (le_sqrtF (fl_sq_nonneg _) h).trans (component_le v i)

/-- A search point just inside of the box, a particle on the other side of it. -/
def searchPoint : Vec 3 ℚ := ![3 / 2 ^ 56, 1 / 2, 1 / 2]

/-- The particle. -/
def particle : Vec 3 ℚ := ![3 / 4, 1 / 2, 1 / 2]

/-- The radius: the `f64` after 1/4. -/
def radius : ℚ := 1 / 4 + 1 / 2 ^ 54

/-- **C148 (disagreement 82).** In the unit box a particle is found by the search in the tree (computed periodic distance 1/4, below
the radius), but the distances of all of its images are computed to be at least the radius: the search panics. -/
theorem halo_search_panics_f64 :
    (∀ i, IsF64 (searchPoint i) ∧ IsF64 (particle i)) ∧ IsF64 radius ∧
    (∀ i, (0 ≤ searchPoint i ∧ searchPoint i ≤ 1) ∧ 0 ≤ particle i ∧ particle i ≤ 1) ∧ radius < 1 / 2 ∧
    periodicDistanceF (fromMinMaxF (fun _ => 0) (fun _ => 1)) searchPoint particle < radius ∧
    haloesF (fromMinMaxF (fun _ => 0) (fun _ => 1)) (searchPoint, radius) [particle] = .error .noImage := by
  refine ⟨by unfold IsF64; decide +kernel, by unfold IsF64; decide +kernel, by decide +kernel, by decide +kernel, ?_, ?_⟩
  · have h : periodicDistanceVecF (fromMinMaxF (fun _ => 0) (fun _ => 1)) searchPoint particle = ![1 / 4, 0, 0] := by
      funext i
      fin_cases i <;> decide +kernel
    unfold periodicDistanceF lengthF
    rw [h]
    refine lt_of_le_of_lt (sqrtF_le (R := 1 / 4) (by decide +kernel) (by norm_num) (by decide +kernel)) (by decide +kernel)
  · have h : findWrappedPointF (fromMinMaxF (fun _ => 0) (fun _ => 1)) searchPoint radius particle = .error .noImage := by
      have hnil : (iterPeriodicImagesF (fromMinMaxF (fun _ => 0) (fun _ => 1)) particle).filter
          (fun tp => decide (distanceF searchPoint tp.2 < radius)) = [] := by
        rw [List.filter_eq_nil_iff]
        intro tp htp
        obtain ⟨w, -, rfl⟩ := List.mem_map.1 htp
        rw [decide_eq_true_eq, not_lt]
        have key : ∀ (i : Fin 3) (R : ℚ), radius ≤ fl R → R ^ 2 ≤
            (searchPoint i ⊟ (particle i ⊞ (sideLengthsF (fromMinMaxF (fun _ => 0) (fun _ => 1)) i * (w i).asSign))) ⊠
            (searchPoint i ⊟ (particle i ⊞ (sideLengthsF (fromMinMaxF (fun _ => 0) (fun _ => 1)) i * (w i).asSign))) →
            radius ≤ distanceF searchPoint (fun i => particle i ⊞ asTranslationF w (fromMinMaxF (fun _ => 0) (fun _ => 1)) i) := by
          intro i R hR h
          refine hR.trans (length_ge _ i R ?_)
          show _ ≤ (searchPoint i ⊟ (particle i ⊞ asTranslationF w (fromMinMaxF (fun _ => 0) (fun _ => 1)) i)) ⊠
            (searchPoint i ⊟ (particle i ⊞ asTranslationF w (fromMinMaxF (fun _ => 0) (fun _ => 1)) i))
          rw [translation_eq]
          exact h
        cases hw : w 0 with
        | noWrap => exact key 0 (1 / 2) (by decide +kernel) (by rw [hw]; decide +kernel)
        | plus => exact key 0 1 (by decide +kernel) (by rw [hw]; decide +kernel)
        | minus => exact key 0 (1 / 4 + 1 / 2 ^ 54 - 1 / 2 ^ 106) (by decide +kernel) (by rw [hw]; decide +kernel)
      unfold findWrappedPointF
      rw [hnil]
    unfold haloesF
    rw [List.mapM_cons]
    dsimp only
    rw [h]
    rfl

/-- **C148 (the image answered).** Whatever the box and the radius, an answer is the only image of the particle within the radius: with
two of them the search panics. -/
theorem answered_image_is_the_only_one_f64 {box : Extent 3 ℚ} {q p : Vec 3 ℚ} {r : ℚ} {res : (Fin 3 → WrapType) × Vec 3 ℚ}
    (h : findWrappedPointF box q r p = .ok res) : (iterPeriodicImagesF box p).filter (fun tp => distanceF q tp.2 < r) = [res] ∧
      res ∈ iterPeriodicImagesF box p ∧ distanceF q res.2 < r ∧
      ∀ tp ∈ iterPeriodicImagesF box p, distanceF q tp.2 < r → tp = res := by
  have he : (iterPeriodicImagesF box p).filter (fun tp => decide (distanceF q tp.2 < r)) = [res] := by
    unfold findWrappedPointF at h
    split at h
    · cases h
    · rename_i a ha
      cases h
      exact ha
    · cases h
  have hm : ∀ tp, tp ∈ iterPeriodicImagesF box p ∧ distanceF q tp.2 < r ↔ tp = res := by
    intro tp
    have : tp ∈ (iterPeriodicImagesF box p).filter (fun tp => decide (distanceF q tp.2 < r)) ↔ tp = res := by rw [he]; simp
    rw [← this, List.mem_filter, decide_eq_true_iff]
  exact ⟨he, ((hm res).2 rfl).1, ((hm res).2 rfl).2, fun tp h1 h2 => (hm tp).1 ⟨h1, h2⟩⟩

/-! ## The hypotheses are met -/

/-- A search point, its radius and a particle through the boundary of the box of side four. -/
example : SearchBox 4 0 (fun _ => 0) (fun _ => 4) ∧ (∀ i, |(![1 / 2, 1, 1] : Vec 3 ℚ) i| ≤ 4) ∧ (∀ i, |(![7 / 2, 1, 1] : Vec 3 ℚ) i| ≤ 4) ∧
    (3 / 2 : ℚ) ≤ (4 - 0) / 2 - 4 / 2 ^ 46 ∧ IsF64 (3 / 2) ∧ (4 : ℚ) / 2 ^ 46 ≤ 3 / 2 ∧
    periodicDistanceF (fromMinMaxF (fun _ => 0) (fun _ => 4)) ![1 / 2, 1, 1] ![7 / 2, 1, 1] ≤ 3 / 2 - 4 / 2 ^ 46 ∧
    outgoingF [fromMinMaxF ![1 / 2, 1, 1] ![1 / 2, 1, 1], fromMinMaxF ![7 / 2, 1, 1] ![7 / 2, 1, 1]] (fromMinMaxF (fun _ => 0) (fun _ => 4))
      [(![1 / 2, 1, 1], 3 / 2)] 1 = some [(![1 / 2, 1, 1], 3 / 2)] := by
  refine ⟨box4 0 (by norm_num), by decide +kernel, by decide +kernel, by norm_num, by unfold IsF64; decide +kernel, by norm_num, ?_,
    by decide +kernel⟩
  have h : periodicDistanceVecF (fromMinMaxF (fun _ => 0) (fun _ => 4)) ![1 / 2, 1, 1] ![7 / 2, 1, 1] = ![1, 0, 0] := by
    funext i
    fin_cases i <;> decide +kernel
  unfold periodicDistanceF lengthF
  rw [h]
  refine (sqrtF_le (R := 1) (by decide +kernel) (by norm_num) (by decide +kernel)).trans (by decide +kernel)

end Verif.Rounding.Haloes
