import Verif.Delaunay.SpaceStar

/-! # Places closest to a point if only some of the other points are in the mesh: lemmas -/

namespace Verif.Delaunay

open Verif.Predicates (P3 orient3 distSq3)

variable {K : Type} [Field K] [LinearOrder K] [IsStrictOrderedRing K] {x : ℕ → P3 K}

/-- Only the positions of the points of the mesh matter. -/
theorem SpaceOk.congr {x' : ℕ → P3 K} {s : State} (P : SpaceOk x s) (h : ∀ i, i < s.mesh.numPoints → x' i = x i) :
    SpaceOk x' s := by
  have h4 : ∀ a b c d, a < s.mesh.numPoints → b < s.mesh.numPoints → c < s.mesh.numPoints → d < s.mesh.numPoints →
      x' ∘ ![a, b, c, d] = x ∘ ![a, b, c, d] := by
    intro a b c d ha hb hc hd
    funext i
    match i with
    | 0 => exact h a ha
    | 1 => exact h b hb
    | 2 => exact h c hc
    | 3 => exact h d hd
  have hat : ∀ {i σ}, At3 s.mesh i σ → x' ∘ σ = x ∘ σ := by
    intro i σ ha
    funext k
    exact h _ (at3_vertex_lt P.ok.cons ha k)
  have hpt : ∀ i T, s.mesh.tetras.get i = some T → ∀ v sl, (v, sl) ∈ T.slots → v < s.mesh.numPoints := by
    intro i T hT v sl hs
    exact P.ok.cons.points_lt i T hT v (List.mem_map.2 ⟨_, hs, rfl⟩)
  have hfc : ∀ i T, s.mesh.tetras.get i = some T → ∀ v sl, (v, sl) ∈ T.slots → ∀ a b c,
      s.mesh.faces.get sl.face = some [a, b, c] → a < s.mesh.numPoints ∧ b < s.mesh.numPoints ∧ c < s.mesh.numPoints := by
    intro i T hT v sl hs a b c hf
    obtain ⟨pts, h1, _, h2⟩ := P.ok.cons.face_points i T hT v sl hs
    rw [hf] at h1
    obtain rfl := Option.some.inj h1
    have hlt : ∀ z ∈ [a, b, c], z < s.mesh.numPoints := fun z hz =>
      P.ok.cons.points_lt i T hT z ((h2 z).1 hz).1
    exact ⟨hlt a (by simp), hlt b (by simp), hlt c (by simp)⟩
  have hn := P.four
  have hb := h4 0 1 2 3 (by omega) (by omega) (by omega) (by omega)
  refine ⟨P.ok, ⟨?_, ?_, ?_, ?_⟩, ?_, P.four, P.nonempty, ?_, ?_, ?_⟩
  · intro i T hT v sl hs a b c hf
    obtain ⟨ha, hb, hc⟩ := hfc i T hT v sl hs a b c hf
    rw [h4 a b c v ha hb hc (hpt i T hT v sl hs)]
    exact P.space.facing i T hT v sl hs a b c hf
  · intro i T hT a b c d hp
    have hlt : ∀ z ∈ [a, b, c, d], z < s.mesh.numPoints := fun z hz =>
      P.ok.cons.points_lt i T hT z (by rw [hp]; exact hz)
    rw [h4 a b c d (hlt a (by simp)) (hlt b (by simp)) (hlt c (by simp)) (hlt d (by simp))]
    exact P.space.pos i T hT a b c d hp
  · intro i T hT v sl hs hso a b c hf w hw
    obtain ⟨ha, hb, hc⟩ := hfc i T hT v sl hs a b c hf
    rw [h4 a b c w ha hb hc hw]
    exact P.space.hull i T hT v sl hs hso a b c hf w hw
  · refine ⟨fun h => P.space.solid.perm h, fun h => P.space.solid.same h, fun h => ?_, fun h h' hne y hy => ?_⟩
    · rw [hat h]
      exact P.space.solid.nondeg h
    · rw [hat h] at hy
      rw [hat h']
      exact P.space.solid.disjoint h h' hne y hy
  · intro i σ ha w hw hne
    rw [hat ha, h w hw]
    exact P.empty i σ ha w hw hne
  · intro w hw
    rw [hb, h w hw]
    exact P.hull w hw
  · rw [hb]
    exact P.orient
  · intro w hw4 hw
    rw [hb, h w hw]
    exact P.strict w hw4 hw

/-- A place which is not further from an inserted point than from the points which share a tetrahedron with it is
closer to it than to every place outside of the circumspheres of the tetrahedra at this point. -/
theorem SpaceOk.nearest_outside {s : State} (P : SpaceOk x s) {p : ℕ} (hp : 4 ≤ p) (hpn : p < s.mesh.numPoints)
    {y : P3 K} (hy : ∀ i σ k l, At3 s.mesh i σ → σ k = p → l ≠ k → distSq3 y (x p) ≤ distSq3 y (x (σ l))) {q : P3 K}
    (hq : ∀ i σ k, At3 s.mesh i σ → σ k = p → 0 < pw3 (x ∘ σ) q) : distSq3 y (x p) < distSq3 y q := by
  obtain ⟨i, σ, k, h, rfl, hc⟩ := P.cone hp (P.vertex hpn) q
  have hne := P.space.solid.nondeg h
  have hpos := hq i σ k h rfl
  have hg : IsAff fun z : P3 K => distSq3 y z - distSq3 y (x (σ k)) - pw3 (x ∘ σ) z := by
    have h1 := lift_sub_dist y
    have h2 := lift_sub_pw3 (x ∘ σ)
    have h3 := (h2.sub h1).sub (IsAff.const (distSq3 y (x (σ k))))
    have e : (fun z : P3 K => distSq3 y z - distSq3 y (x (σ k)) - pw3 (x ∘ σ) z) =
        fun z => lift z - pw3 (x ∘ σ) z - (lift z - distSq3 z y) - distSq3 y (x (σ k)) := by
      funext z
      have : distSq3 y z = distSq3 z y := by unfold distSq3; ring
      rw [this]
      ring
    rw [e]
    exact h3
  have hb := hg.bary hne q
  have hnn : 0 ≤ ∑ l, co (x ∘ σ) l q * (distSq3 y ((x ∘ σ) l) - distSq3 y (x (σ k)) - pw3 (x ∘ σ) ((x ∘ σ) l)) := by
    refine Finset.sum_nonneg fun l _ => ?_
    rw [pw3_vertex hne]
    by_cases hl : l = k
    · subst hl
      rw [Function.comp_apply, sub_self, sub_zero, mul_zero]
    · refine mul_nonneg (hc l hl) ?_
      have := hy i σ k l h rfl hl
      rw [Function.comp_apply]
      linarith
  rw [← hb] at hnn
  linarith

end Verif.Delaunay
