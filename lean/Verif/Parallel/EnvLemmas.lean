import Verif.Parallel.Model

/-! # The images which a search finds: lemmas -/

namespace Verif.Parallel

open Verif.Geometry Verif.Quadtree Verif.Halo

variable {d n : ℕ} {C Id : Type}

/-- The image of a position with a wrap type. -/
noncomputable def World.image (W : World d Id) (w : Fin d → WrapType) (p : Vec d ℝ) : Vec d ℝ :=
  fun i => p i + asTranslation w W.box i

/-- What the search needs: the dimension has all wrap types and a tree whose search is exact, the box is not empty,
contains all particles, and no rank is without particles. -/
structure Ready (D : Dim d n C) (W : World d Id) : Prop where
  wraps : AllWraps D.wraps
  exact : ∀ (r : ℕ) (s : SearchData C ℝ) (p : Id × Vec d ℝ), p ∈ found D W r s ↔
    p ∈ W.ofRank r ∧ periodicDistance W.box (D.toVec s.point) p.2 < s.radius
  box : ∀ i, W.lo i < W.hi i
  inverse : ∀ v, D.toVec (D.ofVec v) = v
  nonempty : ∀ l ∈ W.particles, l ≠ []

theorem sign_int (w : WrapType) : ∃ k : ℤ, (k = -1 ∨ k = 0 ∨ k = 1) ∧ (w.asSign : ℝ) = k := by
  cases w
  · exact ⟨0, by simp, by simp [WrapType.asSign]⟩
  · exact ⟨-1, by simp, by simp [WrapType.asSign]⟩
  · exact ⟨1, by simp, by simp [WrapType.asSign]⟩

theorem image_int (W : World d Id) (w : Fin d → WrapType) (p : Vec d ℝ) :
    ∃ k : Fin d → ℤ, (∀ i, k i = -1 ∨ k i = 0 ∨ k i = 1) ∧ W.image w p = Geometry.image W.box k p := by
  choose k hk hk' using fun i => sign_int (w i)
  refine ⟨k, hk, ?_⟩
  funext i
  unfold World.image asTranslation Geometry.image Extent.sideLengths
  rw [hk', mul_comm]

/-- A particle with an image within the radius is found. -/
theorem periodicDistance_le_image (W : World d Id) (hb : ∀ i, W.lo i < W.hi i) (q p : Vec d ℝ) (w : Fin d → WrapType) :
    periodicDistance W.box q p ≤ distance q (W.image w p) := by
  obtain ⟨k, hk, e⟩ := image_int W w p
  rw [e]
  exact (periodic_distance_is_minimal_of_images W.box hb q p).1 k hk

/-- The result of `find_wrapped_point` is the only image within the radius. -/
theorem findWrappedPoint_ok {wraps : List (Fin d → WrapType)} (hw : AllWraps wraps) {box : Extent d ℝ}
    {q p : Vec d ℝ} {r : ℝ} {x : (Fin d → WrapType) × Vec d ℝ} (h : findWrappedPoint wraps box q r p = .ok x) :
    x.2 = (fun i => p i + asTranslation x.1 box i) ∧ distance q x.2 < r ∧
      ∀ w, distance q (fun i => p i + asTranslation w box i) < r → w = x.1 := by
  classical
  unfold findWrappedPoint at h
  split at h
  · cases h
  · rename_i res he
    cases h
    have hm : ∀ y, y ∈ (iterPeriodicImages wraps box p).filter
        (fun tp => @decide (distance q tp.2 < r) (Classical.propDecidable _)) ↔ y = x := by
      intro y
      rw [he, List.mem_singleton]
    have h1 := (hm x).2 rfl
    rw [List.mem_filter] at h1
    obtain ⟨h1, h2⟩ := h1
    obtain ⟨w, _, rfl⟩ := List.mem_map.1 h1
    refine ⟨rfl, by simpa using h2, fun w' hw' => ?_⟩
    have := (hm (w', fun i => p i + asTranslation w' box i)).1 (by
      rw [List.mem_filter]
      exact ⟨List.mem_map.2 ⟨w', hw.2 w', rfl⟩, by simpa using hw'⟩)
    exact congrArg Prod.fst this
  · cases h

/-- What a search which does not panic finds on rank `r`: all images of the particles of this rank within the
radius. -/
theorem mem_find {D : Dim d n C} {W : World d Id} (R : Ready D W) {order : List ℕ} {own r : ℕ} (hr : r < W.particles.length)
    {s : SearchData C ℝ} (hs : (env D W order own).fails s = false) (i : Image Id (Fin d → WrapType) C) :
    i ∈ (env D W order own).find r s ↔ ∃ p ∈ W.ofRank r, i.id = p.1 ∧ i.pos = D.ofVec (W.image i.wrap p.2) ∧
      distance (D.toVec s.point) (W.image i.wrap p.2) < s.radius := by
  classical
  have hp : ¬Panics D W own s := by
    intro h
    unfold env at hs
    dsimp only at hs
    rw [decide_eq_false_iff_not] at hs
    exact hs h
  unfold Panics at hp
  push Not at hp
  obtain ⟨_, hp⟩ := hp
  unfold env
  dsimp only
  constructor
  · intro h
    split_ifs at h with ha
    · obtain ⟨p, hp1, hp2⟩ := List.mem_filterMap.1 h
      unfold imageOf at hp2
      cases hf : findWrappedPoint D.wraps W.box (D.toVec s.point) s.radius p.2 with
      | error e =>
        rw [hf] at hp2
        cases hp2
      | ok x =>
        rw [hf] at hp2
        obtain ⟨h1, h2, _⟩ := findWrappedPoint_ok R.wraps hf
        have e : i = ⟨p.1, x.1, D.ofVec x.2⟩ := (Option.some.inj hp2).symm
        subst e
        refine ⟨p, ((R.exact r s p).1 hp1).1, rfl, ?_, ?_⟩
        · dsimp only
          rw [h1]
          rfl
        · dsimp only
          rw [h1] at h2
          exact h2
    · cases h
  · rintro ⟨p, hp1, h1, h2, h3⟩
    have hpd : periodicDistance W.box (D.toVec s.point) p.2 < s.radius :=
      (periodicDistance_le_image W R.box _ _ _).trans_lt h3
    have hask : Asked D W own r s := by
      right
      have hget : W.particles[r]? = some (W.ofRank r) := by
        unfold World.ofRank
        rw [List.getD_eq_getElem?_getD, List.getElem?_eq_getElem hr]
        rfl
      refine search_reaches_owning_ranks W.box R.box _ ?_ r ((W.ofRank r).map Prod.snd) ?_ (D.toVec s.point) p.2
        (List.mem_map.2 ⟨p, hp1, rfl⟩) s.radius hpd
      · intro ps hps
        obtain ⟨l, hl, rfl⟩ := List.mem_map.1 hps
        simpa using R.nonempty l hl
      · rw [List.getElem?_map, hget]
        rfl
    rw [if_pos hask]
    have hf1 : p ∈ found D W r s := (R.exact r s p).2 ⟨hp1, hpd⟩
    refine List.mem_filterMap.2 ⟨p, hf1, ?_⟩
    have hne := hp r hr hask p hf1
    unfold imageOf at hne ⊢
    cases hf : findWrappedPoint D.wraps W.box (D.toVec s.point) s.radius p.2 with
    | error e =>
      rw [hf] at hne
      exact absurd rfl (hne e)
    | ok x =>
      obtain ⟨h4, _, h5⟩ := findWrappedPoint_ok R.wraps hf
      have e := h5 i.wrap h3
      have : i = ⟨p.1, x.1, D.ofVec x.2⟩ := by
        cases i
        dsimp only at h1 h2 e
        subst e h1
        rw [h2, h4]
        rfl
      rw [this]
      rfl

theorem env_ok (D : Dim d n C) (W : World d Id) {order : List ℕ} (ho : order.Nodup) (own : ℕ) :
    EnvOk (env D W order own) where
  ranks := ho
  wrap w w' h h' := by
    unfold env isPeriodic at h h'
    simp only [decide_eq_false_iff_not, not_exists, not_not] at h h'
    funext i
    rw [h i, h' i]

end Verif.Parallel
