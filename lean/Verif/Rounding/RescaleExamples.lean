import Verif.Rounding.RescaleConstructProps

/-! # C142: examples, and points which are too close to each other -/

namespace Verif.Rounding

open Verif.Predicates Verif.Delaunay

/-- The construction has been completed. -/
private def isDone {A : Type} : Outcome A → Bool
  | .done _ => true
  | _ => false

private theorem of_isDone {A : Type} {o : Outcome A} (h : isDone o = true) : ∃ r, o = .done r := by
  cases o with
  | done r => exact ⟨r, rfl⟩
  | panic => cases h
  | running => cases h

/-- The box of the simulation is the unit cube; the construction is given the box including the periodic images. -/
theorem boxAxis_example : BoxAxis (-1) 2 := by
  refine ⟨by decide +kernel, by decide +kernel, ?_, ?_, ?_⟩
  · have : (1 : ℚ) / 2 ^ 150 ≤ 1 := by
      rw [div_le_one (by positivity)]
      exact one_le_pow₀ one_le_two
    linarith
  · have : (4 : ℚ) ≤ 2 ^ 150 := by
      have h : (4 : ℚ) = 2 ^ 2 := by norm_num
      rw [h]
      exact pow_le_pow_right₀ one_le_two (by decide)
    linarith
  · norm_num

/-- Two points in the unit cube. -/
def twoPoints : List (ℕ × P3 ℚ) :=
  [(0, ⟨fl (9 / 10), fl (4 / 5), fl (7 / 10)⟩), (1, ⟨fl (1 / 10), fl (1 / 5), fl (3 / 10)⟩)]

theorem twoPoints_done : ∃ r, constructF (1 / 100) (fun _ => 0) popHead 100 ⟨-1, -1, -1⟩ ⟨2, 2, 2⟩ twoPoints = .done r :=
  of_isDone (by decide +kernel)

theorem twoPoints_box : ∀ e ∈ twoPoints, InBox3 ⟨-1, -1, -1⟩ ⟨2, 2, 2⟩ e.2 := by
  unfold InBox3
  decide +kernel

/-- The hypotheses of `nearly_delaunay_f64` are met, and the mesh contains tetrahedra with given points. -/
example : ∃ r : Construction3 ℚ ℕ,
    (∀ i T, r.state.mesh.tetras.get i = some T → ∃ a b c d, T.points = [a, b, c, d] ∧
      NearlyEmptySphere ((((2 : ℚ) : ℝ) - ((-1 : ℚ) : ℝ)) / 2 ^ 47) r.position 6 a b c d) ∧
    (r.indices.map fun e => (e.1, r.position e.2)).Perm twoPoints := by
  obtain ⟨r, hr⟩ := twoPoints_done
  exact ⟨r, nearly_delaunay_f64 (by norm_num) popHead_ok boxAxis_example twoPoints_box hr⟩

/-- The hypotheses of `rescaled_distinct_f64` are met. -/
example : (twoPoints.map fun e => rescaleF ⟨-1, -1, -1⟩ ⟨2, 2, 2⟩ e.2).Nodup := by
  obtain ⟨r, hr⟩ := twoPoints_done
  exact rescaled_distinct_f64 (by norm_num) popHead_ok ⟨boxAxis_example, boxAxis_example, boxAxis_example⟩ hr

/-- The hypotheses of `initial_tetra_contains_f64` are met, by a corner of the box. -/
example : ∃ t, InteriorTetra t (rescaleF ⟨-1, -1, -1⟩ ⟨2, 2, 2⟩ ⟨2, 2, 2⟩) :=
  ⟨_, (initial_tetra_contains_f64 ⟨boxAxis_example, boxAxis_example, boxAxis_example⟩).2 _
    ⟨by norm_num, by norm_num, by norm_num, by norm_num, by norm_num, by norm_num⟩⟩

/-- The hypotheses of `rescaled_near_f64` are met, by a point whose rescaled coordinates are rounded. -/
example : CoordsNear (7 / 2 ^ 53) (real3 (rescaleF ⟨-1, -1, -1⟩ ⟨2, 2, 2⟩ ⟨fl (1 / 3), 0, 2⟩))
    (exact3 ⟨-1, -1, -1⟩ ⟨2, 2, 2⟩ ⟨fl (1 / 3), 0, 2⟩) :=
  rescaled_near_f64 ⟨boxAxis_example, boxAxis_example, boxAxis_example⟩ (by unfold InCorners; decide +kernel)

/-- The hypotheses of `rescaled_ne_f64` are met, by points which are close to each other. -/
example : rescaleF ⟨-1, -1, -1⟩ ⟨2, 2, 2⟩ ⟨1 / 2, 0, 0⟩ ≠ rescaleF ⟨-1, -1, -1⟩ ⟨2, 2, 2⟩ ⟨1 / 2 + 1 / 2 ^ 45, 0, 0⟩ :=
  rescaled_ne_f64 ⟨boxAxis_example, boxAxis_example, boxAxis_example⟩
    ⟨by norm_num, by norm_num, by norm_num, by norm_num, by norm_num, by norm_num⟩
    ⟨by norm_num, by norm_num, by norm_num, by norm_num, by norm_num, by norm_num⟩ (.inl (by norm_num [abs_of_neg]))

/-- A test of general position. -/
private theorem general_of_tests {f : P3 ℚ → P3 ℚ} {S : P3 ℚ → Prop} {l : List (P3 ℚ × P3 ℚ)}
    (hl : ∀ p, S p → ∃ e ∈ l, e.1 = p ∧ e.2 = f p)
    (h1 : ∀ i ∈ l, ∀ j ∈ l, ∀ k ∈ l, ∀ m ∈ l, [i.1, j.1, k.1, m.1].Nodup → orient3 ⟨i.2, j.2, k.2, m.2⟩ ≠ 0)
    (h2 : ∀ i ∈ l, ∀ j ∈ l, ∀ k ∈ l, ∀ m ∈ l, ∀ n ∈ l, [i.1, j.1, k.1, m.1, n.1].Nodup →
      pw3 ![i.2, j.2, k.2, m.2] n.2 ≠ 0) : GeneralUnder3 f S := by
  constructor
  · intro p q r t hp hq hr ht hnd
    obtain ⟨i, mi, rfl, ei⟩ := hl p hp
    obtain ⟨j, mj, rfl, ej⟩ := hl q hq
    obtain ⟨k, mk, rfl, ek⟩ := hl r hr
    obtain ⟨m, mm, rfl, em⟩ := hl t ht
    rw [← ei, ← ej, ← ek, ← em]
    exact h1 i mi j mj k mk m mm hnd
  · rintro p q r t z hp hq hr ht hz hnd o ⟨o1, o2, o3, o4⟩
    obtain ⟨i, mi, rfl, ei⟩ := hl p hp
    obtain ⟨j, mj, rfl, ej⟩ := hl q hq
    obtain ⟨k, mk, rfl, ek⟩ := hl r hr
    obtain ⟨m, mm, rfl, em⟩ := hl t ht
    obtain ⟨n, mn, rfl, en⟩ := hl z hz
    rw [← ei, ← ej] at o1
    rw [← ei, ← ek] at o2
    rw [← ei, ← em] at o3
    rw [← ei, ← en] at o4
    have hv : vol ![i.2, j.2, k.2, m.2] ≠ 0 := h1 i mi j mj k mk m mm (hnd.sublist (by
      exact List.sublist_append_left [i.1, j.1, k.1, m.1] [n.1]))
    refine h2 i mi j mj k mk m mm n mn hnd ?_
    rw [pw3_sphere hv (o := o) (rho := distSq3 i.2 o) (forall_fin_four.2 ⟨rfl, o1.symm, o2.symm, o3.symm⟩), ← o4, sub_self]

/-- The sites of a triangulation of one point, with their rescaled positions. -/
private def exTable : List (P3 ℚ × P3 ℚ) :=
  (allPointsF ⟨-1, -1, -1⟩ ⟨2, 2, 2⟩ [⟨1 / 4, 1 / 2, 7 / 8⟩]).map fun p => (p, rescaleF ⟨-1, -1, -1⟩ ⟨2, 2, 2⟩ p)

/-- The hypotheses of `construct_completes_f64` are met. -/
example : ∃ r, constructF (1 / 100) (fun _ => 0) popHead 3126 ⟨-1, -1, -1⟩ ⟨2, 2, 2⟩ [((0 : ℕ), ⟨1 / 4, 1 / 2, 7 / 8⟩)] = .done r := by
  refine construct_completes_f64 (by norm_num) popHead_ok ⟨boxAxis_example, boxAxis_example, boxAxis_example⟩ ?_ (by simp) ?_ (by simp)
  · unfold InBox3
    decide +kernel
  · refine general_of_tests (l := exTable) ?_ (by decide +kernel) ?_
    · rintro p hp
      refine ⟨(p, rescaleF ⟨-1, -1, -1⟩ ⟨2, 2, 2⟩ p), List.mem_map.2 ⟨p, ?_, rfl⟩, rfl, rfl⟩
      unfold allPointsF
      simp only [List.mem_cons, List.not_mem_nil, or_false]
      rcases hp with h | h | h | h | ⟨e, he, h⟩
      · exact .inl h
      · exact .inr (.inl h)
      · exact .inr (.inr (.inl h))
      · exact .inr (.inr (.inr (.inl h)))
      · rw [List.mem_singleton] at he
        subst he
        exact .inr (.inr (.inr (.inr h.symm)))
    · simp only [pw3, co, vol, Fin.sum_univ_four, lift]
      decide +kernel

/-- **C142** (disagreement 78): there are two points in the unit cube, with coordinates in `f64`, which are different,
which the construction completes in exact arithmetic, but for which the construction with coordinates rescaled in
`f64` panics, since both have the same rescaled coordinates. -/
theorem close_points_panic_f64 : ∃ p q : P3 ℚ, p ≠ q ∧
    (∀ v ∈ [p, q], (IsF64 v.x ∧ IsF64 v.y ∧ IsF64 v.z) ∧ InBox3 ⟨0, 0, 0⟩ ⟨1, 1, 1⟩ v) ∧
    (∃ r, construct3 (1 / 100) (fun _ => 0) popHead 100 ⟨-1, -1, -1⟩ ⟨2, 2, 2⟩ [((0 : ℕ), p), (1, q)] = .done r) ∧
    rescaleF ⟨-1, -1, -1⟩ ⟨2, 2, 2⟩ p = rescaleF ⟨-1, -1, -1⟩ ⟨2, 2, 2⟩ q ∧
    (match constructF (1 / 100) (fun _ => 0) popHead 100 ⟨-1, -1, -1⟩ ⟨2, 2, 2⟩ [((0 : ℕ), p), (1, q)] with
      | .panic => True
      | _ => False) := by
  refine ⟨⟨1 / 2 ^ 60, 1 / 2, 1 / 4⟩, ⟨1 / 2 ^ 61, 1 / 2, 1 / 4⟩, by decide +kernel, ?_, of_isDone (by decide +kernel), by decide +kernel, ?_⟩
  · unfold InBox3
    decide +kernel
  · have h : (match constructF (1 / 100) (fun _ => 0) popHead 100 ⟨-1, -1, -1⟩ ⟨2, 2, 2⟩
        [((0 : ℕ), (⟨1 / 2 ^ 60, 1 / 2, 1 / 4⟩ : P3 ℚ)), (1, ⟨1 / 2 ^ 61, 1 / 2, 1 / 4⟩)] with
      | .panic => true
      | _ => false) = true := by decide +kernel
    revert h
    cases constructF (1 / 100) (fun _ => 0) popHead 100 ⟨-1, -1, -1⟩ ⟨2, 2, 2⟩
        [((0 : ℕ), (⟨1 / 2 ^ 60, 1 / 2, 1 / 4⟩ : P3 ℚ)), (1, ⟨1 / 2 ^ 61, 1 / 2, 1 / 4⟩)] with
    | panic => exact fun _ => trivial
    | done r => exact fun h => by cases h
    | running => exact fun h => by cases h

end Verif.Rounding
