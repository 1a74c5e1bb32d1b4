import Verif.Voronoi.SpaceCellVolume

/-! # The same face in two meshes which agree around an edge, up to a translation: lemmas -/

namespace Verif.Voronoi

open Verif.Delaunay
open Verif.Predicates (P3 distSq3 cross dot)

/-- A translation. -/
def moved (v a : P3 ℝ) : P3 ℝ := ⟨a.x + v.x, a.y + v.y, a.z + v.z⟩

theorem distSq3_moved (v a b : P3 ℝ) : distSq3 (moved v a) (moved v b) = distSq3 a b := by
  unfold distSq3 moved
  ring

theorem moved_sub (v a b : P3 ℝ) : (moved v a).sub (moved v b) = a.sub b := by
  unfold moved P3.sub
  refine P3.ext ?_ ?_ ?_ <;> · dsimp only; ring

theorem moved_inj {v a b : P3 ℝ} (h : moved v a = moved v b) : a = b := by
  unfold moved at h
  obtain ⟨h1, h2, h3⟩ := P3.mk.injEq _ _ _ _ _ _ ▸ h
  exact P3.ext (by linarith) (by linarith) (by linarith)

/-- The area does not depend on the place. -/
theorem area_moved (v : P3 ℝ) (l : List (P3 ℝ)) : polygonArea (l.map (moved v)) = polygonArea l := by
  unfold polygonArea
  cases l with
  | nil => rfl
  | cons a l =>
    show Option.map List.sum (mapWindows ((a :: l).map (moved v)) fun p1 p2 =>
        0.5 * length3 (cross ((moved v a).sub p1) ((moved v a).sub p2))) =
      Option.map List.sum (mapWindows (a :: l) fun p1 p2 => 0.5 * length3 (cross (a.sub p1) (a.sub p2)))
    rw [mapWindows_eq, mapWindows_eq, List.length_map, ← List.map_rotate, List.zipWith_map]
    simp only [moved_sub]

/-- There is only one place at the same distance from the vertices of a tetrahedron. -/
theorem centre_unique {v : Fin 4 → P3 ℝ} (h : vol v ≠ 0) {o o' : P3 ℝ} (h1 : ∀ i j, distSq3 (v i) o = distSq3 (v j) o)
    (h2 : ∀ i j, distSq3 (v i) o' = distSq3 (v j) o') : o = o' := by
  have hf : IsAff fun z : P3 ℝ => distSq3 z o - distSq3 z o' - (distSq3 (v 0) o - distSq3 (v 0) o') := by
    intro z
    simp only [distSq3]
    ring
  have hz : ∀ z, distSq3 z o - distSq3 z o' - (distSq3 (v 0) o - distSq3 (v 0) o') = 0 := by
    intro z
    rw [hf.bary h z]
    refine Finset.sum_eq_zero fun i _ => ?_
    rw [h1 i 0, h2 i 0, sub_self, mul_zero]
  have a := hz o
  have b := hz o'
  by_contra hne
  have hp := distSq3_pos hne
  have e1 : distSq3 o o = 0 := by unfold distSq3; ring
  have e2 : distSq3 o' o' = 0 := by unfold distSq3; ring
  rw [distSq3_comm' o' o] at b
  linarith

variable {x x' : ℕ → P3 ℝ}

/-- The Voronoi points of tetrahedra with the same vertices, up to a translation. -/
theorem centre_moved {eps : ℝ} (heps : 0 < eps) {s s' : State} (P : SpaceOk x s) (P' : SpaceOk x' s') {v : P3 ℝ} {t t' : ℕ}
    {σ σ' : Fin 4 → ℕ} (h : At3 s.mesh t σ) (h' : At3 s'.mesh t' σ') (hx : ∀ k, x' (σ' k) = moved v (x (σ k))) {o : P3 ℝ}
    (ho : centre3 eps s.mesh x t = some o) : centre3 eps s'.mesh x' t' = some (moved v o) := by
  obtain ⟨T, hT, hinj, hm⟩ := id h
  obtain ⟨T', hT', hinj', hm'⟩ := id h'
  obtain ⟨o1, e1, k1, -⟩ := centre_at3 heps P hT
  obtain ⟨o2, e2, k2, -⟩ := centre_at3 heps P' hT'
  rw [ho] at e1
  obtain rfl := Option.some.inj e1
  rw [e2]
  congr 1
  refine centre_unique (P'.space.solid.nondeg h') (fun i j => ?_) (fun i j => ?_)
  · rw [distSq3_comm', distSq3_comm' _ o2]
    exact k2 _ (hm' i) _ (hm' j)
  · rw [Function.comp_apply, Function.comp_apply, hx, hx, distSq3_moved, distSq3_moved, distSq3_comm', distSq3_comm' _ o]
    exact k1 _ (hm i) _ (hm j)

/-- The tetrahedra around an edge in the order of the vertices of the face. -/
theorem face_ring {eps : ℝ} {s : State} (P : SpaceOk x s) {p q : ℕ} (hp : 4 ≤ p) (hq : q ∈ connectedPoints s.mesh p) {f : Face3}
    (hf : facePolygon s.mesh x (centre3 eps s.mesh x) p q = some f) : ∃ c : List ℕ, c.Perm (tetrasWithBoth s.mesh p q) ∧
      (∀ e ∈ sidesOf c, Follows3 x s.mesh p q e.1 e.2 ∨ Follows3 x s.mesh p q e.2 e.1) ∧
      c.mapM (centre3 eps s.mesh x) = some f.points := by
  obtain ⟨c, h1, h2, h3, h4⟩ := edge_ring P hp hq
  obtain ⟨l, k1, k2, k3, k4, k5⟩ := facePolygon_spec hf
  rw [h1] at k1
  obtain rfl := Option.some.inj k1
  refine ⟨c, h2, fun e he => ?_, ?_⟩
  · rcases h4 with h4 | h4
    · exact Or.inl ((h4 _ _).1 he)
    · exact Or.inr ((h4 _ _).1 he)
  · have : (sidesOf c).map Prod.fst = c := by
      unfold sidesOf
      rw [List.map_fst_zip (by simp)]
    rw [← k2, ← this, List.mapM_map, this]
    rfl

/-- **The same face in two meshes.** -/
theorem face_moved {eps : ℝ} (heps : 0 < eps) {s s' : State} (P : SpaceOk x s) (P' : SpaceOk x' s') {v : P3 ℝ}
    {p q p' q' : ℕ} (hp : 4 ≤ p) (hpn : p < s.mesh.numPoints) (hp' : 4 ≤ p') (hpn' : p' < s'.mesh.numPoints)
    (epp : x' p' = moved v (x p)) (eqq : x' q' = moved v (x q))
    (hto : ∀ t b c, Wedge x s.mesh t p q b c →
      ∃ t' b' c', Wedge x' s'.mesh t' p' q' b' c' ∧ x' b' = moved v (x b) ∧ x' c' = moved v (x c))
    (hback : ∀ t' b' c', Wedge x' s'.mesh t' p' q' b' c' →
      ∃ t b c, Wedge x s.mesh t p q b c ∧ x' b' = moved v (x b) ∧ x' c' = moved v (x c))
    {F F' : List Face3} (hF : getFaces3 s.mesh x (centre3 eps s.mesh x) p = some F)
    (hF' : getFaces3 s'.mesh x' (centre3 eps s'.mesh x') p' = some F') {f f' : Face3} (hf : f ∈ F) (hf' : f' ∈ F')
    (hq : f.connection = q) (hq' : f'.connection = q') : f'.area = f.area ∧ f'.normal = f.normal := by
  have hc := P.ok.cons
  have hc' := P'.ok.cons
  obtain ⟨_, _, _, _, -, hface⟩ := cell_faces3 heps P hp hpn hF
  obtain ⟨a1, a2, -, a4, a5, -⟩ := hface f hf
  obtain ⟨_, _, m', σ', hP', hface'⟩ := cell_faces3 heps P' hp' hpn' hF'
  obtain ⟨b1, b2, -, b4, b5, -, b7, b8, b9, b10⟩ := hface' f' hf'
  rw [hq] at a1 a2 a5
  rw [hq'] at b1 b2 b5 b7 b8 b9 b10
  have hnormal : f'.normal = f.normal := by
    rw [epp, eqq, moved_sub, a5] at b5
    exact (Option.some.inj b5).symm
  refine ⟨?_, hnormal⟩
  obtain ⟨q1, _, hfq⟩ := (mem_of_mapM hF).1 hf
  obtain ⟨_, _, _, _, _, hcq⟩ := facePolygon_spec hfq
  rw [← hcq, hq] at hfq
  obtain ⟨q1', _, hfq'⟩ := (mem_of_mapM hF').1 hf'
  obtain ⟨_, _, _, _, _, hcq'⟩ := facePolygon_spec hfq'
  rw [← hcq', hq'] at hfq'
  obtain ⟨c, c1, c2, c3⟩ := face_ring P hp a1 hfq
  obtain ⟨d, d1, d2, d3⟩ := face_ring P' hp' b1 hfq'
  have hpq : p ≠ q := Ne.symm ((mem_connectedPoints hc).1 a1).1
  have hpq' : p' ≠ q' := Ne.symm ((mem_connectedPoints hc').1 b1).1
  have wlt : ∀ {t b c}, Wedge x s.mesh t p q b c → b < s.mesh.numPoints ∧ c < s.mesh.numPoints := fun h =>
    ⟨P.lt h.1 2, P.lt h.1 3⟩
  have wlt' : ∀ {t b c}, Wedge x' s'.mesh t p' q' b c → b < s'.mesh.numPoints ∧ c < s'.mesh.numPoints := fun h =>
    ⟨P'.lt h.1 2, P'.lt h.1 3⟩
  have hφ : ∀ t, ∃ t', ∀ b c, Wedge x s.mesh t p q b c →
      ∃ b' c', Wedge x' s'.mesh t' p' q' b' c' ∧ x' b' = moved v (x b) ∧ x' c' = moved v (x c) := by
    intro t
    by_cases h : ∃ b c, Wedge x s.mesh t p q b c
    · obtain ⟨b, c, h⟩ := h
      obtain ⟨t', b', c', h1, h2, h3⟩ := hto t b c h
      refine ⟨t', fun b2 c2 h' => ?_⟩
      obtain ⟨rfl, rfl⟩ := h.pair P h'
      exact ⟨b', c', h1, h2, h3⟩
    · exact ⟨0, fun b c h' => absurd ⟨b, c, h'⟩ h⟩
  choose φ hφ using hφ
  have hfol : ∀ t u, Follows3 x s.mesh p q t u → Follows3 x' s'.mesh p' q' (φ t) (φ u) := by
    rintro t u ⟨b, c, d, h1, h2⟩
    obtain ⟨b', c', k1, k2, k3⟩ := hφ t b c h1
    obtain ⟨c'', d', k4, k5, k6⟩ := hφ u c d h2
    obtain rfl := P'.injective (wlt' k1).2 (wlt' k4).1 (k3.trans k5.symm)
    exact ⟨b', c', d', k1, k4⟩
  have hmem : ∀ t, t ∈ c ↔ ∃ b e, Wedge x s.mesh t p q b e := fun t => c1.mem_iff.trans (mem_edge P hpq)
  have hmem' : ∀ t, t ∈ d ↔ ∃ b e, Wedge x' s'.mesh t p' q' b e := fun t => d1.mem_iff.trans (mem_edge P' hpq')
  have hinj : ∀ t ∈ c, ∀ u ∈ c, φ t = φ u → t = u := by
    intro t ht u hu e
    obtain ⟨b, a, h1⟩ := (hmem t).1 ht
    obtain ⟨b2, a2, h2⟩ := (hmem u).1 hu
    obtain ⟨b', a', k1, k2, k3⟩ := hφ t b a h1
    obtain ⟨b2', a2', k4, k5, k6⟩ := hφ u b2 a2 h2
    rw [← e] at k4
    obtain ⟨rfl, rfl⟩ := k1.pair P' k4
    obtain rfl := P.injective (wlt h1).1 (wlt h2).1 (moved_inj (k2.symm.trans k5))
    exact h1.same_fst P h2
  have hcn : c.Nodup := c1.nodup_iff.2 (tetrasWithBoth_nodup hc p q)
  have hperm : d.Perm (c.map φ) := by
    rw [List.perm_ext_iff_of_nodup (d1.nodup_iff.2 (tetrasWithBoth_nodup hc' p' q')) (hcn.map_on hinj)]
    intro t'
    rw [hmem', List.mem_map]
    constructor
    · rintro ⟨b', e', h⟩
      obtain ⟨t, b, e, h1, h2, h3⟩ := hback t' b' e' h
      refine ⟨t, (hmem t).2 ⟨b, e, h1⟩, ?_⟩
      obtain ⟨b2, e2, k1, k2, k3⟩ := hφ t b e h1
      obtain rfl := P'.injective (wlt' k1).1 (wlt' h).1 (k2.trans h2.symm)
      exact k1.same_fst P' h
    · rintro ⟨t, ht, rfl⟩
      obtain ⟨b, e, h⟩ := (hmem t).1 ht
      obtain ⟨b', e', k1, -⟩ := hφ t b e h
      exact ⟨b', e', k1⟩
  have hsame : SamePolygon (c.map φ) d := by
    refine cycles_same (R := fun t u => Follows3 x' s'.mesh p' q' t u ∨ Follows3 x' s'.mesh p' q' u t) ?_ (fun a b h => h.symm)
      (hcn.map_on hinj) hperm ?_ d2
    · rintro a b e f (h1 | h1) (h2 | h2) (h3 | h3)
      · exact Or.inl (next_fun3 P' h1 h2)
      · exact Or.inl (next_fun3 P' h1 h2)
      · exact Or.inr (Or.inl (next_fun3 P' h1 h3))
      · exact Or.inr (Or.inr (next_inj3 P' h2 h3))
      · exact Or.inr (Or.inr (next_fun3 P' h2 h3))
      · exact Or.inr (Or.inl (next_inj3 P' h1 h3))
      · exact Or.inl (next_inj3 P' h1 h2)
      · exact Or.inl (next_inj3 P' h1 h2)
    · intro e he
      rw [sidesOf_map] at he
      obtain ⟨e', he', rfl⟩ := List.mem_map.1 he
      exact (c2 e' he').imp (hfol _ _) (hfol _ _)
  have hpts : (c.map φ).mapM (centre3 eps s'.mesh x') = some (f.points.map (moved v)) := by
    rw [mapM_iff_map, List.map_map, List.map_map]
    have h1 := mapM_iff_map.1 c3
    have h2 : ∀ t ∈ c, (centre3 eps s'.mesh x' ∘ φ) t = (centre3 eps s.mesh x t).map (moved v) := by
      intro t ht
      obtain ⟨b, e, h⟩ := (hmem t).1 ht
      obtain ⟨b', e', k1, k2, k3⟩ := hφ t b e h
      obtain ⟨T, hT, -⟩ := id h.1
      obtain ⟨o, ho, -⟩ := centre_at3 heps P hT
      rw [ho]
      refine centre_moved heps P P' h.1 k1.1 (fun k => ?_) ho
      match k with
      | 0 => exact epp
      | 1 => exact eqq
      | 2 => exact k2
      | 3 => exact k3
    rw [List.map_congr_left h2]
    have h3 := congrArg (List.map (Option.map (moved v))) h1
    rw [List.map_map, List.map_map] at h3
    exact h3
  have hpoly := mapM_samePolygon hsame hpts d3
  have hpoly' : SamePolygon f'.points (f.points.map (moved v)) := by
    rcases hpoly with h | h
    · exact Or.inl h.symm
    · right
      have := h.reverse
      rw [List.reverse_reverse] at this
      exact this.symm
  exact (area_same b2 b7 (b10.imp And.left And.left) b8 hpoly' b4 (by rw [area_moved]; exact a4)).symm

end Verif.Voronoi
