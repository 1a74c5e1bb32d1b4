import Verif.Parallel.SpaceGrid

/-! # Searches with small radii do not panic: lemmas -/

namespace Verif.Parallel

open Verif.Geometry Verif.Quadtree Verif.Halo

variable {d n : ℕ} {C Id : Type}

/-- Every rank has extents. -/
theorem owns_some (D : Dim d n C) {W : World d Id} (hb : ∀ i, W.lo i < W.hi i) (hne : ∀ l ∈ W.particles, l ≠ []) {r : ℕ}
    (hr : r < W.particles.length) (s : SearchData C ℝ) : owns D W r s ≠ none := by
  have hmem : W.particles[r] ∈ W.particles := List.getElem_mem hr
  obtain ⟨p, l, e⟩ := List.exists_cons_of_ne_nil (hne _ hmem)
  obtain ⟨o, h1, -⟩ := search_reaches_owning_ranks W.box hb (W.particles.map fun l => l.map Prod.snd) (by
      intro ps hps
      obtain ⟨l, hl, rfl⟩ := List.mem_map.1 hps
      simpa using hne l hl) r ((W.particles[r]).map Prod.snd) (by
      rw [List.getElem?_map, List.getElem?_eq_getElem hr]
      rfl) p.2 p.2 (by rw [e]; simp) (periodicDistance W.box p.2 p.2 + 1) (by linarith)
  unfold owns
  unfold rankOwnsPartOfSearchRadius at h1 ⊢
  cases hx : (communicateExtents (W.particles.map fun l => l.map Prod.snd))[r]? with
  | none =>
    rw [hx] at h1
    cases h1
  | some e =>
    intro h
    cases h

/-- A search whose radius is at most half of the box does not panic. -/
theorem search_ok {D : Dim d n C} {W : World d Id} (R : Ready D W) {order : List ℕ} {own : ℕ} {s : SearchData C ℝ}
    (hs : ∀ i, s.radius ≤ (W.hi i - W.lo i) / 2) : (env D W order own).fails s = false := by
  classical
  unfold env
  dsimp only
  rw [decide_eq_false_iff_not]
  rintro (⟨r, hr, -, h⟩ | ⟨r, hr, -, p, hp, e, h⟩)
  · exact owns_some D R.box R.nonempty hr s h
  · obtain ⟨w, h1, -⟩ := found_image_is_unique D.wraps R.wraps W.box (D.toVec s.point) p.2 s.radius hs
      ((R.exact r s p).1 hp).2
    unfold imageOf at h
    rw [h1] at h
    cases h

/-- The images which searches can find are finitely many. -/
theorem found_finite [DecidableEq Id] {D : Dim d n C} {W : World d Id} (R : Ready D W) (order : List ℕ) (own : ℕ) :
    ∃ F : List (PType Id (Fin d → WrapType)), ∀ r ∈ (env D W order own).ranks, ∀ s,
      ∀ i ∈ (env D W order own).find r s, ptype (env D W order own) r i ∈ F := by
  by_cases hC : Nonempty C
  · obtain ⟨c⟩ := hC
    refine ⟨order.flatMap fun r => (W.ofRank r).flatMap fun p => D.wraps.map fun w =>
      ptype (env D W order own) r ⟨p.1, w, c⟩, ?_⟩
    intro r hr s i hi
    have hi' : ∃ p ∈ W.ofRank r, i.id = p.1 := by
      unfold env at hi
      dsimp only at hi
      split_ifs at hi
      · obtain ⟨p, hp, e⟩ := List.mem_filterMap.1 hi
        refine ⟨p, ((R.exact r s p).1 hp).1, ?_⟩
        unfold imageOf at e
        cases hf : findWrappedPoint D.wraps W.box (D.toVec s.point) s.radius p.2 with
        | error x =>
          rw [hf] at e
          cases e
        | ok x =>
          rw [hf] at e
          cases e
          rfl
      · cases hi
    obtain ⟨p, hp, e⟩ := hi'
    rw [List.mem_flatMap]
    refine ⟨r, hr, List.mem_flatMap.2 ⟨p, hp, List.mem_map.2 ⟨i.wrap, R.wraps.2 _, ptype_congr e.symm rfl⟩⟩⟩
  · exact ⟨[], fun r _ s i _ => absurd ⟨i.pos⟩ hC⟩

end Verif.Parallel
