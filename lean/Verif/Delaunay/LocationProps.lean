import Verif.Delaunay.InsertProps

/-! # Point location is sound and complete -/

namespace Verif.Delaunay

/-- The best-first search from an existing simplex `first`, in any mesh whose neighbour links lead to existing
simplices, for any containment test and any order in which the heap returns its elements (that is, for any
distance heuristic).

* With a result `i`, the simplex `i` exists and contains the point.
* Without a result no simplex which can be reached through neighbour links contains the point, all of them were
  tested, and the test was never degenerate.
* It panics only if the test of a reachable simplex is degenerate.
* No simplex is tested twice, and only reachable ones are.
* It ends after at most as many rounds as there are simplices, plus one. -/
theorem location_sound_complete (contains : Tetra → Option Bool) {pop : List ℕ → Option (ℕ × List ℕ)}
    (hp : HeapOk pop) {m : Mesh} (hm : m.LinksLive) {first : ℕ} (hf : ∃ T, m.tetras.get first = some T)
    (fuel : ℕ) :
    (∀ i ts, findBreadthFirst contains pop m fuel first = .done (some i, ts) →
      m.Reach first i ∧ ∃ T, m.tetras.get i = some T ∧ contains T = some true) ∧
    (∀ ts, findBreadthFirst contains pop m fuel first = .done (none, ts) →
      ∀ i, m.Reach first i → i ∈ ts ∧ ∃ T, m.tetras.get i = some T ∧ contains T = some false) ∧
    (findBreadthFirst contains pop m fuel first = .panic →
      ∃ i T, m.Reach first i ∧ m.tetras.get i = some T ∧ contains T = none) ∧
    (∀ r ts, findBreadthFirst contains pop m fuel first = .done (r, ts) → ts.Nodup ∧ ∀ i ∈ ts, m.Reach first i) ∧
    (m.tetras.len < fuel → findBreadthFirst contains pop m fuel first ≠ .running) := by
  obtain ⟨h1, h2⟩ := searchLoop_spec contains hp hm fuel (searchInv_init contains hf)
  unfold findBreadthFirst
  refine ⟨fun i ts h => ?_, fun ts h i hi => ?_, fun h => ?_, fun r ts h => ?_, fun h => h2 (by simpa using h)⟩
  · rw [h] at h1
    obtain ⟨⟨T, hT, hc⟩, h3, _⟩ := h1
    exact ⟨h3, T, hT, hc⟩
  · rw [h] at h1
    obtain ⟨h3, h4, h5⟩ := h1
    exact ⟨(h5 i).2 hi, h3 i hi⟩
  · rw [h] at h1
    exact h1
  · rw [h] at h1
    cases r with
    | none =>
      obtain ⟨_, h4, h5⟩ := h1
      exact ⟨h4, fun i hi => (h5 i).1 hi⟩
    | some i =>
      obtain ⟨_, _, h4, h5⟩ := h1
      exact ⟨h4, h5⟩

/-- The hypotheses hold in every mesh which arises from insertions, for example in the one with four inserted
points of `examplePoints2`. -/
example : ∃ (m : Mesh) (first : ℕ), m.LinksLive ∧ (∃ T, m.tetras.get first = some T) ∧ m.tetras.len = 9 ∧ HeapsOk popHead := by
  obtain ⟨s0, h0⟩ : ∃ s, start2 = some s := ⟨_, rfl⟩
  have h1 : (start2.map fun s => (insertMany (geo2 examplePoints2) ops2 popHead 40 4 s).isDone) = some true := by
    decide +kernel
  rw [h0] at h1
  simp only [Option.map_some, Option.some.injEq] at h1
  revert h1
  cases hr : insertMany (geo2 examplePoints2) ops2 popHead 40 4 s0 with
  | done s =>
    intro _
    obtain ⟨h2, h3, _, _, _, h4, h5⟩ := insert2_consistent (geo2_proper examplePoints2) popHead_ok h0 hr
    obtain ⟨l, hl⟩ := h5 (by omega)
    exact ⟨s.mesh, l, h2.linksLive, h4 l hl, h3, popHead_ok⟩
  | panic => exact fun h => by cases h
  | running => exact fun h => by cases h

end Verif.Delaunay
