import Verif.Voronoi.PlaneCell
import Verif.Delaunay.PlaneSpec

/-! # The Voronoi cell of an inserted point: lemmas -/

namespace Verif.Voronoi

open Verif.Delaunay
open Verif.Predicates (P2 Triangle2 orient2 distSq2)

/-- The side of a Voronoi cell between the centres of the triangles `p, b, c` and `p, c, d`: a point is on its left
exactly if it is nearer to `p` than to `c`. -/
theorem side_sign {K : Type} [Field K] [LinearOrder K] [IsStrictOrderedRing K] {p c d o o' : P2 K}
    (h1 : distSq2 o c = distSq2 o p) (h2 : distSq2 o' c = distSq2 o' p) (h3 : distSq2 o' d = distSq2 o' p)
    (h4 : distSq2 o p < distSq2 o d) (hpos : 0 < area p c d) :
    ∃ l : K, 0 < l ∧ ∀ y, orient2 ⟨y, o, o'⟩ = l * (distSq2 y c - distSq2 y p) := by
  have hcp : c ≠ p := by
    rintro rfl
    rw [(area_self _ _).2.2] at hpos
    exact lt_irrefl _ hpos
  have hD : 0 < distSq2 c p := distSq_pos hcp
  set m : K := (o'.x - o.x) * (-(c.y - p.y)) + (o'.y - o.y) * (c.x - p.x) with hm
  have e1 : distSq2 c p * ((distSq2 o d - distSq2 o p) - (distSq2 o' d - distSq2 o' p)) =
      2 * m * area p c d + ((distSq2 o c - distSq2 o p) - (distSq2 o' c - distSq2 o' p)) *
        ((c.x - p.x) * (d.x - p.x) + (c.y - p.y) * (d.y - p.y)) := by
    simp only [hm, distSq2, area_def]
    ring
  rw [h1, h2, h3, sub_self, sub_self, sub_self, sub_zero, zero_mul, add_zero] at e1
  have e2 : 0 < 2 * m * area p c d := by
    rw [← e1]
    exact mul_pos hD (sub_pos.2 h4)
  have hm0 : 0 < m := by
    have := pos_of_mul_pos_left e2 hpos.le
    linarith
  refine ⟨m / (2 * distSq2 c p), div_pos hm0 (by linarith), fun y => ?_⟩
  have e3 : 2 * distSq2 c p * orient2 ⟨y, o, o'⟩ = m * (distSq2 y c - distSq2 y p) +
      (((distSq2 o c - distSq2 o p) - (distSq2 o' c - distSq2 o' p)) *
        ((c.x - p.x) * (y.y - o.y) - (c.y - p.y) * (y.x - o.x)) - m * (distSq2 o c - distSq2 o p)) := by
    simp only [hm, distSq2, orient2]
    ring
  rw [h1, h2, sub_self, sub_self, sub_self, zero_mul, mul_zero, sub_zero, add_zero] at e3
  rw [div_mul_eq_mul_div, eq_div_iff (by linarith), ← e3]
  ring

variable {x : ℕ → P2 ℝ}

theorem distSq2_comm' (a b : P2 ℝ) : distSq2 a b = distSq2 b a := by unfold distSq2; ring

/-- The Voronoi point of a triangle. -/
theorem centre_at {s : State} (P : PlaneOk x s) {t a b c : ℕ} (h : At s.mesh t a b c) :
    ∃ o, centre2 s.mesh x t = some o ∧ distSq2 o (x b) = distSq2 o (x a) ∧ distSq2 o (x c) = distSq2 o (x a) ∧
      ∀ w, w < s.mesh.numPoints → w ≠ a → w ≠ b → w ≠ c → distSq2 o (x a) < distSq2 o (x w) := by
  have V := P.valid
  have key : ∀ {t a b c : ℕ}, At s.mesh t a b c →
      distSq2 (Triangle2.circumcentre ⟨x a, x b, x c⟩) (x b) = distSq2 (Triangle2.circumcentre ⟨x a, x b, x c⟩) (x a) ∧
      distSq2 (Triangle2.circumcentre ⟨x a, x b, x c⟩) (x c) = distSq2 (Triangle2.circumcentre ⟨x a, x b, x c⟩) (x a) ∧
      ∀ w, w < s.mesh.numPoints → w ≠ a → w ≠ b → w ≠ c →
        distSq2 (Triangle2.circumcentre ⟨x a, x b, x c⟩) (x a) < distSq2 (Triangle2.circumcentre ⟨x a, x b, x c⟩) (x w) := by
    intro t a b c h
    obtain ⟨e1, e2, e3⟩ := pw_vertices (V.pos h).ne'
    have e2' := sub_eq_zero.1 e2
    have e3' := sub_eq_zero.1 e3
    refine ⟨?_, ?_, ?_⟩
    · rw [distSq2_comm' _ (x b), distSq2_comm' _ (x a)]
      exact e2'
    · rw [distSq2_comm' _ (x c), distSq2_comm' _ (x a)]
      exact e3'
    · intro w hw n1 n2 n3
      rw [distSq2_comm' _ (x w), distSq2_comm' _ (x a)]
      exact sub_pos.1 (P.empty h w hw n1 n2 n3)
  obtain ⟨T, hT, hp⟩ := id h
  have hc : ∀ {a b c : ℕ}, T.points = [a, b, c] → centre2 s.mesh x t = some (Triangle2.circumcentre ⟨x a, x b, x c⟩) := by
    intro a b c hp
    unfold centre2
    rw [hT, Option.bind_some, hp]
  rcases hp with hp | hp | hp
  · obtain ⟨k1, k2, k3⟩ := key h
    exact ⟨_, hc hp, k1, k2, k3⟩
  · obtain ⟨k1, k2, k3⟩ := key (V.cyc h)
    refine ⟨_, hc hp, k2.symm, k1.trans k2.symm, fun w hw n1 n2 n3 => ?_⟩
    rw [k2]
    exact k3 w hw n2 n3 n1
  · obtain ⟨k1, k2, k3⟩ := key (V.cyc' h)
    refine ⟨_, hc hp, k2.trans k1.symm, k1.symm, fun w hw n1 n2 n3 => ?_⟩
    rw [k1]
    exact k3 w hw n3 n1 n2

/-- The polygon of the cell of an inserted point: the Voronoi points `g t` of the triangles `t` in `c`. -/
theorem cell_cycle {s : State} (P : PlaneOk x s) {p : ℕ} (hp : 3 ≤ p) (hpn : p < s.mesh.numPoints) :
    ∃ (c : List ℕ) (g : ℕ → P2 ℝ), getPoints2 s.mesh (centre2 s.mesh x) p = some (c.map g) ∧
      c.Perm (tetrasOf s.mesh p) ∧ 3 ≤ c.length ∧ (∀ t ∈ c, centre2 s.mesh x t = some (g t)) ∧
      ∃ σ : ℝ, (σ = 1 ∨ σ = -1) ∧
      (∀ e ∈ sidesOf c, ∃ t b c d u, At s.mesh t p b c ∧ At s.mesh u p c d ∧ (e = (t, u) ∨ e = (u, t)) ∧ ∃ r : ℝ, 0 < r ∧
        ∀ y, σ * orient2 ⟨y, g e.1, g e.2⟩ = r * (distSq2 y (x c) - distSq2 y (x p))) ∧
      ∀ t b c' d u, At s.mesh t p b c' → At s.mesh u p c' d → ∃ e ∈ sidesOf c, ∃ r : ℝ, 0 < r ∧
        ∀ y, σ * orient2 ⟨y, g e.1, g e.2⟩ = r * (distSq2 y (x c') - distSq2 y (x p)) := by
  have V := P.valid
  obtain ⟨c, harr, hperm, h3, hdir⟩ := star_arranged P hp hpn
  -- the centres
  have hcen : ∀ t ∈ c, ∃ o, centre2 s.mesh x t = some o := by
    intro t ht
    obtain ⟨b, c', h⟩ := (mem_star P).1 (hperm.mem_iff.1 ht)
    obtain ⟨o, ho, _⟩ := centre_at P h
    exact ⟨o, ho⟩
  have : Nonempty (P2 ℝ) := ⟨⟨0, 0⟩⟩
  choose! g hg using hcen
  have hpts : getPoints2 s.mesh (centre2 s.mesh x) p = some (c.map g) := by
    unfold getPoints2
    rw [harr, Option.bind_some]
    have h1 : (sidesOf c).mapM (fun e => centre2 s.mesh x e.1) = some ((sidesOf c).map fun e => g e.1) := by
      rw [mapM_iff_map, List.map_map]
      refine List.map_congr_left fun e he => ?_
      exact hg e.1 (mem_sidesOf he).1
    rw [h1]
    congr 1
    have : (sidesOf c).map Prod.fst = c := by
      unfold sidesOf
      rw [List.map_fst_zip (by simp)]
    conv_rhs => rw [← this]
    rw [List.map_map]
    rfl
  have hmem : ∀ {t b d : ℕ}, At s.mesh t p b d → t ∈ c := fun h => hperm.mem_iff.2 ((mem_star P).2 ⟨_, _, h⟩)
  -- one side
  have hside : ∀ {t b c d u : ℕ}, At s.mesh t p b c → At s.mesh u p c d → ∃ r : ℝ, 0 < r ∧
      ∀ y, orient2 ⟨y, g t, g u⟩ = r * (distSq2 y (x c) - distSq2 y (x p)) := by
    intro t b c' d u k1 k2
    obtain ⟨o, ho, a1, a2, a3⟩ := centre_at P k1
    obtain ⟨o', ho', b1, b2, b3⟩ := centre_at P k2
    rw [hg t (hmem k1), Option.some.injEq] at ho
    rw [hg u (hmem k2), Option.some.injEq] at ho'
    subst ho ho'
    obtain ⟨n1, n2, n3⟩ := V.ne' k1
    obtain ⟨m1, m2, m3⟩ := V.ne' k2
    have hdb : d ≠ b := by
      rintro rfl
      have g1 := V.pos k1
      have g2 := V.pos k2
      have g3 : area (x p) (x c') (x d) = -area (x p) (x d) (x c') := by simp only [area_def]; ring
      rw [g3] at g2
      linarith
    exact side_sign a2 b1 b2 (a3 d (V.lt (V.cyc' k2)) m3 hdb m2.symm) (V.pos k2)
  refine ⟨c, g, hpts, hperm, h3, hg, ?_⟩
  rcases hdir with hdir | hdir
  · refine ⟨1, Or.inl rfl, ?_, ?_⟩
    · rintro ⟨t, u⟩ he'
      obtain ⟨b, c', d, k1, k2⟩ := (hdir t u).1 he'
      obtain ⟨r, hr, hy⟩ := hside k1 k2
      exact ⟨t, b, c', d, u, k1, k2, Or.inl rfl, r, hr, fun y => by rw [one_mul]; exact hy y⟩
    · intro t b c' d u k1 k2
      obtain ⟨r, hr, hy⟩ := hside k1 k2
      exact ⟨(t, u), (hdir t u).2 ⟨_, _, _, k1, k2⟩, r, hr, fun y => by rw [one_mul]; exact hy y⟩
  · have hflip : ∀ y a b : P2 ℝ, -1 * orient2 ⟨y, b, a⟩ = orient2 ⟨y, a, b⟩ := by
      intro y a b
      unfold orient2
      ring
    refine ⟨-1, Or.inr rfl, ?_, ?_⟩
    · rintro ⟨t, u⟩ he'
      obtain ⟨b, c', d, k1, k2⟩ := (hdir t u).1 he'
      obtain ⟨r, hr, hy⟩ := hside k1 k2
      exact ⟨u, b, c', d, t, k1, k2, Or.inr rfl, r, hr, fun y => by rw [hflip]; exact hy y⟩
    · intro t b c' d u k1 k2
      obtain ⟨r, hr, hy⟩ := hside k1 k2
      exact ⟨(u, t), (hdir u t).2 ⟨_, _, _, k1, k2⟩, r, hr, fun y => by rw [hflip]; exact hy y⟩

/-- The polygon is convex, it surrounds the inserted point, and the region inside of it consists of the points which
are nearest. -/
theorem cell_region {s : State} (P : PlaneOk x s) {p : ℕ} (hp : 3 ≤ p) (hpn : p < s.mesh.numPoints) :
    ∃ (c : List ℕ) (g : ℕ → P2 ℝ), getPoints2 s.mesh (centre2 s.mesh x) p = some (c.map g) ∧
      c.Nodup ∧ 3 ≤ c.length ∧ ∃ σ : ℝ, (σ = 1 ∨ σ = -1) ∧
      (∀ e ∈ sidesOf c, 0 < σ * orient2 ⟨x p, g e.1, g e.2⟩) ∧
      (∀ e ∈ sidesOf c, ∀ w ∈ c, w ≠ e.1 → w ≠ e.2 → 0 < σ * orient2 ⟨g w, g e.1, g e.2⟩) ∧
      ∀ y, (∀ e ∈ sidesOf c, 0 ≤ σ * orient2 ⟨y, g e.1, g e.2⟩) ↔
        ∀ w, w < s.mesh.numPoints → distSq2 y (x p) ≤ distSq2 y (x w) := by
  have V := P.valid
  obtain ⟨c, g, hl, hperm, h3, hg, σ, hσ, h1, h2⟩ := cell_cycle P hp hpn
  refine ⟨c, g, hl, hperm.nodup_iff.2 (tetrasOf_nodup P.ok.cons p), h3, σ, hσ, ?_, ?_, fun y => ⟨?_, ?_⟩⟩
  · intro e he
    obtain ⟨t, b, c, d, u, k1, k2, _, r, hr, hy⟩ := h1 e he
    rw [hy]
    have : distSq2 (x p) (x p) = 0 := by unfold distSq2; ring
    rw [this, sub_zero]
    exact mul_pos hr (distSq_pos (V.ne k2))
  · intro e he w hw n1 n2
    obtain ⟨t, b, c', d, u, k1, k2, ht, r, hr, hy⟩ := h1 e he
    rw [hy]
    have hwt : w ≠ t := by rcases ht with rfl | rfl <;> assumption
    have hwu : w ≠ u := by rcases ht with rfl | rfl <;> assumption
    obtain ⟨b2, c2, k⟩ := (mem_star P).1 (hperm.mem_iff.1 hw)
    obtain ⟨o, ho, _, _, hempty⟩ := centre_at P k
    rw [hg w hw, Option.some.injEq] at ho
    subst ho
    refine mul_pos hr (sub_pos.2 (hempty c' (V.lt (V.cyc k2)) (V.ne' k2).1.symm ?_ ?_))
    · rintro rfl
      exact hwu (V.same k k2)
    · rintro rfl
      exact hwt (V.same (V.cyc' k) (V.cyc' k1))
  · intro hall w hw
    rw [distSq2_comm' y, distSq2_comm' y]
    refine P.nearest hpn ?_ hw
    have key : ∀ {t b c d u : ℕ}, At s.mesh t p b c → At s.mesh u p c d → distSq2 (x p) y ≤ distSq2 (x c) y := by
      intro t b c d u k1 k2
      obtain ⟨e, he, r, hr, hy⟩ := h2 t b c d u k1 k2
      have h5 := hall e he
      rw [hy] at h5
      have := nonneg_of_mul_nonneg_right h5 hr
      rw [distSq2_comm' (x p), distSq2_comm' (x c)]
      linarith
    rintro i a b c h (e | e | e)
    · rw [e]
    · subst e
      have k := V.cyc h
      obtain ⟨j, d, k'⟩ := P.next hp k
      exact key k k'
    · subst e
      have k := V.cyc' h
      obtain ⟨j, d, k'⟩ := P.prev hp k
      exact key k' k
  · intro hall e he
    obtain ⟨t, b, c, d, u, k1, k2, _, r, hr, hy⟩ := h1 e he
    rw [hy]
    exact mul_nonneg hr.le (sub_nonneg.2 (hall c (V.lt (V.cyc k2))))

/-- **The cell consists of the points which are nearest.** -/
theorem cell_contains {s : State} (P : PlaneOk x s) {p : ℕ} (hp : 3 ≤ p) (hpn : p < s.mesh.numPoints) :
    ∃ l, getPoints2 s.mesh (centre2 s.mesh x) p = some l ∧ ∀ y, contains2 l y = some true ↔
      ∀ w, w < s.mesh.numPoints → distSq2 y (x p) ≤ distSq2 y (x w) := by
  obtain ⟨c, g, hl, hn, h3, σ, hσ, hpos, -, hreg⟩ := cell_region P hp hpn
  refine ⟨_, hl, fun y => ?_⟩
  have hne : sidesOf c ≠ [] := by
    intro h
    have := congrArg List.length h
    unfold sidesOf at this
    rw [List.length_zip, List.length_rotate, Nat.min_self, List.length_nil] at this
    omega
  rw [← hreg]
  rcases hσ with rfl | rfl
  · rw [contains2_iff _ (x p) y, sidesOf_map]
    · simp only [one_mul, List.forall_mem_map]
    · rw [sidesOf_map, List.map_map]
      refine List.sum_pos _ ?_ (by simpa using hne)
      intro z hz
      obtain ⟨e, he, rfl⟩ := List.mem_map.1 hz
      have := hpos e he
      rwa [one_mul] at this
  · rw [contains2_iff_clockwise _ (x p) y, sidesOf_map]
    · rw [List.forall_mem_map]
      refine forall₂_congr fun e _ => ?_
      rw [neg_one_mul]
      exact neg_nonneg.symm
    · have h4 : 0 < ((sidesOf c).map fun e => -1 * orient2 ⟨x p, g e.1, g e.2⟩).sum := by
        refine List.sum_pos _ ?_ (by simpa using hne)
        intro z hz
        obtain ⟨e, he, rfl⟩ := List.mem_map.1 hz
        exact hpos e he
      rw [List.sum_map_mul_left] at h4
      rw [sidesOf_map, List.map_map]
      simp only [Function.comp_def]
      linarith

/-- The faces of the cell exist, and lead to the points which share a triangle with `p`. -/
theorem cell_faces {s : State} (P : PlaneOk x s) {p : ℕ} (hp : 3 ≤ p) (hpn : p < s.mesh.numPoints) :
    ∃ F, getFaces2 s.mesh x (centre2 s.mesh x) p = some F ∧ (F.map Face2.connection).Nodup ∧
      ∀ q, q ∈ F.map Face2.connection ↔ ∃ c, s.mesh.HasTriangle p q c := by
  have V := P.valid
  obtain ⟨c, harr, hperm, h3, _⟩ := star_arranged P hp hpn
  obtain ⟨F, hF⟩ := faces_exist2 (x := x) P.ok.cons (distinct_of_plane P) (centre := centre2 s.mesh x) (p := p)
    (by
      intro t T hT a ha b hb hab
      obtain ⟨c, d, h⟩ := at_of_slot P.ok.cons hT ha
      rcases (h.mem hT b).1 hb with e | e | e
      · exact absurd e.symm hab
      · rw [e]
        exact V.ne h
      · rw [e]
        exact (V.ne (V.cyc' h)).symm)
    (by
      intro t T hT
      obtain ⟨a, b, c, _, h⟩ := At.of_get P.ok.cons hT
      obtain ⟨o, ho, _⟩ := centre_at P h
      exact ⟨o, ho⟩)
    (by rw [harr]; rfl)
  obtain ⟨g1, g2⟩ := connections2 P.ok.cons (distinct_of_plane P) (facesDistinct_of_plane P) hF
    (by rw [← hperm.length_eq]; exact h3)
  refine ⟨F, hF, g1, fun q => (g2 q).trans ⟨?_, ?_⟩⟩
  · rintro ⟨hqp, t, T, hT, hpT, hqT⟩
    obtain ⟨b, c, h⟩ := at_of_slot P.ok.cons hT hpT
    rcases (h.mem hT q).1 hqT with e | e | e
    · exact absurd e hqp
    · rw [e]
      exact ⟨c, t, h⟩
    · rw [e]
      obtain ⟨j, d, k⟩ := P.next hp h
      exact ⟨d, j, k⟩
  · rintro ⟨c, i, h⟩
    have h : At s.mesh i p q c := h
    obtain ⟨T, hT, _⟩ := id h
    exact ⟨(V.ne' h).1.symm, i, T, hT, (h.mem hT p).2 (Or.inl rfl), (h.mem hT q).2 (Or.inr (Or.inl rfl))⟩

end Verif.Voronoi
