import Verif.Voronoi.SpaceCellVolume
import Verif.Parallel.SpaceCore

/-! # Cells with a common face touch: lemmas -/

namespace Verif.Voronoi

open Verif.Delaunay
open Verif.Predicates (P3 distSq3)

variable {x : ℕ → P3 ℝ}

/-- A point is connected to an inserted point exactly if there is a place at the same distance from both which is further
away from all other points. -/
theorem connected_iff_touch {s : State} (P : SpaceOk x s) {p q : ℕ} (hp : 4 ≤ p) (hpn : p < s.mesh.numPoints)
    (hqn : q < s.mesh.numPoints) (hqp : q ≠ p) : q ∈ connectedPoints s.mesh p ↔
      ∃ y, distSq3 y (x p) = distSq3 y (x q) ∧ ∀ w, w < s.mesh.numPoints → w ≠ p → w ≠ q → distSq3 y (x p) < distSq3 y (x w) := by
  have hc := P.ok.cons
  constructor
  · intro hq
    obtain ⟨c, g, m, σ, -, -, hP⟩ := cell_polyhedron one_pos P hp hpn
    have hD : ∀ w, w < s.mesh.numPoints → w ≠ p → 0 < distSq3 (x w) (x p) := fun w hw hne =>
      distSq3_pos fun e => hne (P.injective hw hpn e)
    have h0 := hP.mid q (List.mem_toFinset.2 hq)
    unfold half at h0
    have e : distSq3 (m q) (x p) = distSq3 (m q) (x q) := by
      rcases div_eq_zero_iff.1 h0 with h | h
      · linarith
      · exact absurd h (hD q hqn hqp).ne'
    have hcon : ∀ w ∈ connectedPoints s.mesh p, w ≠ q → distSq3 (m q) (x p) < distSq3 (m q) (x w) := by
      intro w hw hne
      have h1 := hP.midpos q (List.mem_toFinset.2 hq) w (List.mem_toFinset.2 hw) hne
      obtain ⟨hwp, t, T, hT, -, hwT⟩ := (mem_connectedPoints hc).1 hw
      have h2 := hD w (hc.points_lt t T hT w hwT) hwp
      unfold half at h1
      rw [lt_div_iff₀ h2, zero_mul] at h1
      linarith
    refine ⟨m q, e, fun w hw hwp hwq => ?_⟩
    by_cases hwc : w ∈ connectedPoints s.mesh p
    · exact hcon w hwc hwq
    · refine P.nearest_outside hp hpn ?_ ?_
      · intro i σ' k l hat hk hl
        obtain ⟨T, hT, hinj, hm⟩ := id hat
        have hin : σ' l ∈ connectedPoints s.mesh p :=
          (mem_connectedPoints hc).2 ⟨fun e => hl (hinj (e.trans hk.symm)), i, T, hT, hk ▸ hm k, hm l⟩
        by_cases h : σ' l = q
        · rw [h, e]
        · exact (hcon _ hin h).le
      · intro i σ' k hat hk
        refine P.empty i σ' hat w hw fun l hl => hwc ?_
        obtain ⟨T, hT, hinj, hm⟩ := id hat
        exact (mem_connectedPoints hc).2 ⟨hwp, i, T, hT, hk ▸ hm k, hl ▸ hm l⟩
  · rintro ⟨y, h1, h2⟩
    by_contra hq
    have := P.nearest_outside hp hpn (y := y) (q := x q) ?_ ?_
    · exact absurd h1 this.ne
    · intro i σ k l hat hk hl
      obtain ⟨T, hT, hinj, hm⟩ := id hat
      have hin : σ l ∈ connectedPoints s.mesh p :=
        (mem_connectedPoints hc).2 ⟨fun e => hl (hinj (e.trans hk.symm)), i, T, hT, hk ▸ hm k, hm l⟩
      exact (h2 _ (hc.points_lt i T hT _ (hm l)) ((mem_connectedPoints hc).1 hin).1 fun e => hq (e ▸ hin)).le
    · intro i σ k hat hk
      refine P.empty i σ hat q hqn fun l hl => hq ?_
      obtain ⟨T, hT, hinj, hm⟩ := id hat
      exact (mem_connectedPoints hc).2 ⟨hqp, i, T, hT, hk ▸ hm k, hl ▸ hm l⟩

end Verif.Voronoi
