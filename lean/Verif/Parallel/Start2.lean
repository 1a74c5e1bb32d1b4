import Verif.Parallel.Start3
import Verif.Delaunay.Construct
import Verif.Delaunay.PlaneStar

/-! # The state after the local construction in the plane: lemmas -/

namespace Verif.Delaunay

open Verif.Predicates (P2 Triangle2)

variable {K : Type} [Field K] [LinearOrder K] [IsStrictOrderedRing K] {N : Type}

/-- The result of the local construction is a valid mesh. -/
theorem construct2_stateOk {key : P2 K → ℕ} {pop : Heaps} (hp : HeapsOk pop) {fuel : ℕ}
    {lo hi : P2 K} {points : List (N × P2 K)} {r : Construction K N}
    (h : construct2 key pop fuel lo hi points = .done r) : StateOk 2 r.state := by
  unfold construct2 at h
  dsimp only at h
  cases h0 : start2 with
  | none =>
    rw [h0] at h
    cases h
  | some s0 =>
    rw [h0] at h
    dsimp only at h
    split at h
    · cases h
    · cases h
    · rename_i s hs
      cases h
      refine insertMany_stateOk ops2_ok (geo2_proper _) hp ?_ hs
      let x : ℕ → P2 K := fun i => if i = 1 then ⟨1, 0⟩ else if i = 2 then ⟨0, 1⟩ else ⟨0, 0⟩
      have ho : 0 < area (x 0) (x 1) (x 2) := by simp [area_def, x]
      exact (start_plane (x := x) ho h0).1.ok

omit [IsStrictOrderedRing K] in
/-- The order of the points after the local construction. -/
theorem construct2_indices {key : P2 K → ℕ} {pop : Heaps} {fuel : ℕ}
    {lo hi : P2 K} {points : List (N × P2 K)} {r : Construction K N}
    (h : construct2 key pop fuel lo hi points = .done r) :
    r.indices.map Prod.snd = (List.range points.length).map (3 + ·) ∧
    r.position 0 = (Triangle2.allEncompassing lo hi).p1 ∧ r.position 1 = (Triangle2.allEncompassing lo hi).p2 ∧
    r.position 2 = (Triangle2.allEncompassing lo hi).p3 := by
  unfold construct2 at h
  dsimp only at h
  cases h0 : start2 with
  | none =>
    rw [h0] at h
    cases h
  | some s0 =>
    rw [h0] at h
    dsimp only at h
    split at h
    · cases h
    · cases h
    · cases h
      refine ⟨?_, rfl, rfl, rfl⟩
      dsimp only
      rw [List.map_map]
      have : (Prod.snd ∘ fun e : (N × P2 K) × ℕ => (e.1.1, 3 + e.2)) = (3 + ·) ∘ Prod.snd := rfl
      rw [this, ← List.map_map, List.zipIdx_map_snd, List.length_insertionSort, List.range_eq_range']

end Verif.Delaunay
