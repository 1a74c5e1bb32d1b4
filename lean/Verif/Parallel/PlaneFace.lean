import Verif.Parallel.PlaneCore

/-! # The faces of a cell in two dimensions: lemmas -/

namespace Verif.Voronoi

open Verif.Delaunay
open Verif.Predicates (P2 distSq2)

variable {x : ℕ → P2 ℝ}

/-- The places on the face between two points: as far from the one as from the other, and not closer to a third. -/
def onFace (x : ℕ → P2 ℝ) (n p q : ℕ) : Set (P2 ℝ) :=
  {y | distSq2 y (x p) = distSq2 y (x q) ∧ ∀ w, w < n → distSq2 y (x p) ≤ distSq2 y (x w)}

/-- A face is the side between the centres of the two triangles at the edge to its neighbour. -/
theorem face_ends {s : State} (P : PlaneOk x s) {p : ℕ} (hp : 3 ≤ p) (hpn : p < s.mesh.numPoints) {F : List Face2}
    (hF : getFaces2 s.mesh x (centre2 s.mesh x) p = some F) {f : Face2} (hf : f ∈ F) :
    (∃ t u b d o o', At s.mesh t p b f.connection ∧ At s.mesh u p f.connection d ∧ centre2 s.mesh x t = some o ∧
      centre2 s.mesh x u = some o' ∧ f.area = √(distSq2 o o')) ∧ distSq2 f.normal ⟨0, 0⟩ = 1 ∧
      ∃ r > 0, (x f.connection).sub (x p) = ⟨r * f.normal.x, r * f.normal.y⟩ := by
  have V := P.valid
  have hconn : f.connection < s.mesh.numPoints := by
    obtain ⟨F', hF', -, h⟩ := cell_faces P hp hpn
    obtain rfl := Option.some.inj (hF.symm.trans hF')
    obtain ⟨c, i, h⟩ := (h f.connection).1 (List.mem_map.2 ⟨f, hf, rfl⟩)
    have h : At s.mesh i p f.connection c := h
    exact V.lt (V.cyc h)
  obtain ⟨c, g, hl, hperm, h3, hg, σ, hσ, h1, -⟩ := cell_cycle P hp hpn
  obtain ⟨hlen, h2⟩ := faces_are_sides2 P.ok.cons (distinct_of_plane P) (centres2_equidistant P.ok.cons (notFlat_of_plane P)).1 hF hl
  obtain ⟨n, hn, rfl⟩ := List.mem_iff_getElem.1 hf
  have hsl : (sidesOf (c.map g)).length = F.length := by
    rw [hlen]
    unfold sidesOf
    rw [List.length_zip, List.length_rotate, Nat.min_self]
  have hn' : n < (sidesOf c).length := by
    rw [sidesOf_map, List.length_map] at hsl
    omega
  have hside : (sidesOf (c.map g))[n]? = some (g (sidesOf c)[n].1, g (sidesOf c)[n].2) := by
    rw [sidesOf_map, List.getElem?_map, List.getElem?_eq_getElem hn']
    rfl
  obtain ⟨a1, a2, a3, a4, a5⟩ := h2 n _ _ (List.getElem?_eq_getElem hn) hside
  dsimp only at a1 a2 a3
  refine ⟨?_, a4, a5⟩
  have he := List.getElem_mem hn'
  generalize (sidesOf c)[n] = e at he a1 a2 a3
  generalize F[n] = f at *
  have hfne : f.connection ≠ p := by
    intro e'
    obtain ⟨r, hr, hx⟩ := a5
    rw [e'] at hx
    have hx1 := congrArg P2.x hx
    have hx2 := congrArg P2.y hx
    simp only [P2.sub, sub_self] at hx1 hx2
    have n1 := (mul_eq_zero.1 hx1.symm).resolve_left hr.ne'
    have n2 := (mul_eq_zero.1 hx2.symm).resolve_left hr.ne'
    unfold distSq2 at a4
    rw [n1, n2] at a4
    norm_num at a4
  obtain ⟨t, b, q, d, u, k1, k2, hee, -⟩ := h1 e he
  obtain ⟨o, ho, b1, b2, b3⟩ := centre_at P k1
  obtain ⟨o', ho', c1, c2, c3⟩ := centre_at P k2
  have hmem : ∀ {t b d}, At s.mesh t p b d → t ∈ c := fun h => hperm.mem_iff.2 ((mem_star P).2 ⟨_, _, h⟩)
  have go : g t = o := Option.some.inj ((hg t (hmem k1)).symm.trans ho)
  have go' : g u = o' := Option.some.inj ((hg u (hmem k2)).symm.trans ho')
  have d1 : distSq2 o (x p) = distSq2 o (x f.connection) := by
    rcases hee with rfl | rfl
    · exact go ▸ a2
    · exact go ▸ a3
  have d2 : distSq2 o' (x p) = distSq2 o' (x f.connection) := by
    rcases hee with rfl | rfl
    · exact go' ▸ a3
    · exact go' ▸ a2
  have hq : f.connection = q := by
    by_contra hne
    have e1 : f.connection = b := by
      by_contra hb
      exact (b3 _ hconn hfne hb hne).ne d1
    have e2 : f.connection = d := by
      by_contra hb
      exact (c3 _ hconn hfne hne hb).ne d2
    have p1 := V.pos k1
    have p2 := V.pos k2
    rw [← e1] at p1
    rw [← e2] at p2
    unfold area Predicates.orient2 at p1 p2
    linarith
  rw [hq]
  refine ⟨t, u, b, d, o, o', k1, k2, ho, ho', ?_⟩
  rcases hee with rfl | rfl
  · rw [a1, go, go']
  · rw [a1, go, go', distSq2_comm']

theorem distSq2_line (o o' : P2 ℝ) (t t' : ℝ) :
    distSq2 ⟨o.x + t * (o'.x - o.x), o.y + t * (o'.y - o.y)⟩ ⟨o.x + t' * (o'.x - o.x), o.y + t' * (o'.y - o.y)⟩ =
      (t - t') ^ 2 * distSq2 o o' := by
  unfold distSq2
  ring

/-- The area of a face is its length, the largest distance of two places on it. -/
theorem face_greatest {s : State} (P : PlaneOk x s) {p : ℕ} (hp : 3 ≤ p) (hpn : p < s.mesh.numPoints) {F : List Face2}
    (hF : getFaces2 s.mesh x (centre2 s.mesh x) p = some F) {f : Face2} (hf : f ∈ F) :
    0 < f.area ∧ IsGreatest {r | ∃ y ∈ onFace x s.mesh.numPoints p f.connection, ∃ z ∈ onFace x s.mesh.numPoints p f.connection,
      r = √(distSq2 y z)} f.area := by
  have V := P.valid
  obtain ⟨⟨t, u, b, d, o, o', k1, k2, ho, ho', ha⟩, hn, r, hr, hx⟩ := face_ends P hp hpn hF hf
  generalize f.connection = q at *
  generalize f.area = A at *
  subst ha
  obtain ⟨o1, e1, b1, b2, b3⟩ := centre_at P k1
  obtain rfl := Option.some.inj (ho.symm.trans e1)
  obtain ⟨o2, e2, c1, c2, c3⟩ := centre_at P k2
  obtain rfl := Option.some.inj (ho'.symm.trans e2)
  have hbd : b ≠ d := by
    rintro rfl
    have p1 := V.pos k1
    have p2 := V.pos k2
    unfold area Predicates.orient2 at p1 p2
    linarith
  obtain ⟨m1, m2, m3⟩ := V.ne' k1
  obtain ⟨n1, n2, n3⟩ := V.ne' k2
  have s1 : distSq2 o (x p) < distSq2 o (x d) := b3 d (V.lt (V.cyc' k2)) n3 hbd.symm n2.symm
  have s2 : distSq2 o' (x p) < distSq2 o' (x b) := c3 b (V.lt (V.cyc k1)) m1.symm m2 hbd
  have mem1 : o ∈ onFace x s.mesh.numPoints p q := by
    refine ⟨b2.symm, fun w hw => ?_⟩
    by_cases w1 : w = p
    · rw [w1]
    by_cases w2 : w = b
    · rw [w2, b1]
    by_cases w3 : w = q
    · rw [w3, b2]
    exact (b3 w hw w1 w2 w3).le
  have mem2 : o' ∈ onFace x s.mesh.numPoints p q := by
    refine ⟨c1.symm, fun w hw => ?_⟩
    by_cases w1 : w = p
    · rw [w1]
    by_cases w2 : w = q
    · rw [w2, c1]
    by_cases w3 : w = d
    · rw [w3, c2]
    exact (c3 w hw w1 w2 w3).le
  have hoo : o ≠ o' := by
    rintro rfl
    exact absurd c2 s1.ne'
  have hpos : 0 < distSq2 o o' := distSq_pos hoo
  have hqp : x p ≠ x q := V.ne k2
  -- the places on the face are between the ends
  have line : ∀ y ∈ onFace x s.mesh.numPoints p q, ∃ a, 0 ≤ a ∧ a ≤ 1 ∧
      y = ⟨o.x + a * (o'.x - o.x), o.y + a * (o'.y - o.y)⟩ := by
    rintro y ⟨y1, y2⟩
    have yb := y2 b (V.lt (V.cyc k1))
    have yd := y2 d (V.lt (V.cyc' k2))
    let a := ((y.x - o.x) * (o'.x - o.x) + (y.y - o.y) * (o'.y - o.y)) / distSq2 o o'
    have ha : a * distSq2 o o' = (y.x - o.x) * (o'.x - o.x) + (y.y - o.y) * (o'.y - o.y) := div_mul_cancel₀ _ hpos.ne'
    -- both `o' - o` and `y - o` are orthogonal to the edge
    have g1 : (o'.x - o.x) * ((x q).x - (x p).x) + (o'.y - o.y) * ((x q).y - (x p).y) = 0 := by
      have h1 := mem1.1
      have h2 := mem2.1
      unfold distSq2 at h1 h2
      linarith
    have g2 : (y.x - o.x) * ((x q).x - (x p).x) + (y.y - o.y) * ((x q).y - (x p).y) = 0 := by
      have h1 := mem1.1
      unfold distSq2 at h1 y1
      linarith
    have hcr : (y.x - o.x) * (o'.y - o.y) - (y.y - o.y) * (o'.x - o.x) = 0 := by
      have h1 : ((y.x - o.x) * (o'.y - o.y) - (y.y - o.y) * (o'.x - o.x)) * ((x q).x - (x p).x) = 0 := by
        linear_combination (o'.y - o.y) * g2 - (y.y - o.y) * g1
      have h2 : ((y.x - o.x) * (o'.y - o.y) - (y.y - o.y) * (o'.x - o.x)) * ((x q).y - (x p).y) = 0 := by
        linear_combination (y.x - o.x) * g1 - (o'.x - o.x) * g2
      by_contra h0
      have k1 := (mul_eq_zero.1 h1).resolve_left h0
      have k2 := (mul_eq_zero.1 h2).resolve_left h0
      exact hqp (P2.ext (by linarith) (by linarith))
    have hy : y = ⟨o.x + a * (o'.x - o.x), o.y + a * (o'.y - o.y)⟩ := by
      refine P2.ext ?_ ?_
      · refine mul_right_cancel₀ hpos.ne' ?_
        dsimp only
        have : distSq2 o o' = (o'.x - o.x) ^ 2 + (o'.y - o.y) ^ 2 := by unfold distSq2; ring
        have : (y.x - o.x) * distSq2 o o' = a * distSq2 o o' * (o'.x - o.x) := by
          rw [ha, this]
          linear_combination (o'.y - o.y) * hcr
        linarith
      · refine mul_right_cancel₀ hpos.ne' ?_
        dsimp only
        have : distSq2 o o' = (o'.x - o.x) ^ 2 + (o'.y - o.y) ^ 2 := by unfold distSq2; ring
        have : (y.y - o.y) * distSq2 o o' = a * distSq2 o o' * (o'.y - o.y) := by
          rw [ha, this]
          linear_combination -(o'.x - o.x) * hcr
        linarith
    refine ⟨a, ?_, ?_, hy⟩
    · have e : distSq2 y (x b) - distSq2 y (x p) = (1 - a) * (distSq2 o (x b) - distSq2 o (x p)) +
          a * (distSq2 o' (x b) - distSq2 o' (x p)) := by
        rw [hy]
        unfold distSq2
        ring
      rw [b1, sub_self, mul_zero, zero_add] at e
      exact nonneg_of_mul_nonneg_left (by rw [← e]; linarith) (sub_pos.2 s2)
    · have e : distSq2 y (x d) - distSq2 y (x p) = (1 - a) * (distSq2 o (x d) - distSq2 o (x p)) +
          a * (distSq2 o' (x d) - distSq2 o' (x p)) := by
        rw [hy]
        unfold distSq2
        ring
      rw [c2, sub_self, mul_zero, add_zero] at e
      have := nonneg_of_mul_nonneg_left (a := 1 - a) (by rw [← e]; linarith) (sub_pos.2 s1)
      linarith
  refine ⟨Real.sqrt_pos.2 hpos, ⟨o, mem1, o', mem2, rfl⟩, ?_⟩
  rintro _ ⟨y, hy, z, hz, rfl⟩
  obtain ⟨a, a0, a1, rfl⟩ := line y hy
  obtain ⟨a', a0', a1', rfl⟩ := line z hz
  refine Real.sqrt_le_sqrt ?_
  rw [distSq2_line]
  have : (a - a') ^ 2 ≤ 1 := by
    rw [sq_le_one_iff_abs_le_one, abs_le]
    constructor <;> linarith
  nlinarith

/-- The normal of a face is determined by the two points. -/
theorem normal_unique {n n' : P2 ℝ} {r r' : ℝ} (hr : 0 < r) (hr' : 0 < r') (h : distSq2 n ⟨0, 0⟩ = 1) (h' : distSq2 n' ⟨0, 0⟩ = 1)
    (h1 : r * n.x = r' * n'.x) (h2 : r * n.y = r' * n'.y) : n = n' := by
  have e : r ^ 2 = r' ^ 2 := by
    unfold distSq2 at h h'
    have e1 : r ^ 2 * (n.x ^ 2 + n.y ^ 2) = r' ^ 2 * (n'.x ^ 2 + n'.y ^ 2) := by
      linear_combination (r * n.x + r' * n'.x) * h1 + (r * n.y + r' * n'.y) * h2
    have h0 : n.x ^ 2 + n.y ^ 2 = 1 := by linarith
    have h0' : n'.x ^ 2 + n'.y ^ 2 = 1 := by linarith
    rwa [h0, h0', mul_one, mul_one] at e1
  obtain rfl : r = r' := by
    rcases sq_eq_sq_iff_eq_or_eq_neg.1 e with e | e
    · exact e
    · linarith
  exact P2.ext (mul_left_cancel₀ hr.ne' h1) (mul_left_cancel₀ hr.ne' h2)

end Verif.Voronoi
