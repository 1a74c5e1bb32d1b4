import Verif.Delaunay.Construct3
import Verif.Delaunay.TrackLemmas
import Verif.Delaunay.HistoryLemmas
import Verif.Delaunay.InsertProps

/-! # The state after the local construction: lemmas -/

namespace Verif.Delaunay

open Verif.Predicates (P3)

variable {K : Type} [Field K] [LinearOrder K] [IsStrictOrderedRing K] {N : Type}

/-- Insertions keep the mesh valid. -/
theorem insertMany_stateOk {D B : ℕ} {o : Ops} (ho : OpsOk D B o) {g : Geo} (hg : g.Proper)
    {pop : Heaps} (hp : HeapsOk pop) {fuel : ℕ} :
    ∀ {n : ℕ} {s s' : State}, StateOk D s → insertMany g o pop fuel n s = .done s' → StateOk D s'
  | 0, s, s', h, hr => by
    cases hr
    exact h
  | n + 1, s, s', h, hr => by
    unfold insertMany at hr
    cases hi : insertPoint g o pop fuel s with
    | running =>
      rw [hi] at hr
      cases hr
    | panic =>
      rw [hi] at hr
      cases hr
    | done r =>
      rw [hi] at hr
      exact insertMany_stateOk ho hg hp (insertPoint_track ho hg hp h hi).1 hr

/-- The result of the local construction is a valid mesh. -/
theorem construct3_stateOk {eps : K} {key : P3 K → ℕ} {pop : Heaps} (hp : HeapsOk pop) {fuel : ℕ}
    {lo hi : P3 K} {points : List (N × P3 K)} {r : Construction3 K N}
    (h : construct3 eps key pop fuel lo hi points = .done r) : StateOk 3 r.state := by
  unfold construct3 at h
  dsimp only at h
  cases h0 : start3 with
  | none =>
    rw [h0] at h
    cases h
  | some s0 =>
    rw [h0] at h
    dsimp only at h
    split at h
    · cases h
    · cases h
    · rename_i s hs
      cases h
      refine insertMany_stateOk (ops3_ok _) (geo3_proper _ _) hp ?_ hs
      obtain ⟨h1, _, _, _, h2, _⟩ := insert3_consistent (geo3_proper eps fun i => ⟨0, 0, 0⟩) (intersect := fun _ _ _ => none)
        hp (fuel := 0) (n := 0) h0 rfl
      exact ⟨h1, h2⟩

omit [IsStrictOrderedRing K] in
/-- The order of the points after the local construction. -/
theorem construct3_indices {eps : K} {key : P3 K → ℕ} {pop : Heaps} {fuel : ℕ}
    {lo hi : P3 K} {points : List (N × P3 K)} {r : Construction3 K N}
    (h : construct3 eps key pop fuel lo hi points = .done r) :
    r.indices.map Prod.snd = (List.range points.length).map (4 + ·) ∧
    r.position 0 = (Predicates.Tetra.allEncompassing lo hi).p1 ∧ r.position 1 = (Predicates.Tetra.allEncompassing lo hi).p2 ∧
    r.position 2 = (Predicates.Tetra.allEncompassing lo hi).p3 ∧ r.position 3 = (Predicates.Tetra.allEncompassing lo hi).p4 := by
  unfold construct3 at h
  dsimp only at h
  cases h0 : start3 with
  | none =>
    rw [h0] at h
    cases h
  | some s0 =>
    rw [h0] at h
    dsimp only at h
    split at h
    · cases h
    · cases h
    · cases h
      refine ⟨?_, rfl, rfl, rfl, rfl⟩
      dsimp only
      rw [List.map_map]
      have : (Prod.snd ∘ fun e : (N × P3 K) × ℕ => (e.1.1, 4 + e.2)) = (4 + ·) ∘ Prod.snd := rfl
      rw [this, ← List.map_map, List.zipIdx_map_snd, List.length_insertionSort, List.range_eq_range']

end Verif.Delaunay
