import Verif.Voronoi.PlaneCellGeo

/-! # The faces of the Voronoi cell of an inserted point in the plane: lemmas -/

namespace Verif.Voronoi

open Verif.Delaunay
open Verif.Predicates (P2 Triangle2 orient2 distSq2)

variable {x : ℕ → P2 ℝ}

theorem notFlat_of_plane {s : State} (P : PlaneOk x s) : NotFlat2 s.mesh x := by
  intro t T hT a b c hp
  obtain ⟨a', b', c', hp', h⟩ := At.of_get P.ok.cons hT
  rw [hp] at hp'
  cases hp'
  exact (P.valid.pos h).ne'

/-- The length of a side in the middle between two points, times the direction between them. -/
theorem side_vector {p q a b n : P2 ℝ} {r σ : ℝ} (hr : 0 < r) (hn : distSq2 n ⟨0, 0⟩ = 1)
    (hq : q.sub p = ⟨r * n.x, r * n.y⟩) (ha : distSq2 a p = distSq2 a q) (hb : distSq2 b p = distSq2 b q)
    (hσ : σ = 1 ∨ σ = -1) (hpos : 0 < σ * orient2 ⟨p, a, b⟩) :
    0 < √(distSq2 a b) ∧ √(distSq2 a b) * n.x = σ * (b.y - a.y) ∧ √(distSq2 a b) * n.y = -(σ * (b.x - a.x)) := by
  have hx : q.x = p.x + r * n.x := by
    have := congrArg P2.x hq
    unfold P2.sub at this
    dsimp only at this
    linarith
  have hy : q.y = p.y + r * n.y := by
    have := congrArg P2.y hq
    unfold P2.sub at this
    dsimp only at this
    linarith
  unfold distSq2 at hn ha hb
  rw [hx, hy] at ha hb
  dsimp only at hn
  have hn' : n.x * n.x + n.y * n.y = 1 := by linear_combination hn
  have ha' : 2 * ((a.x - p.x) * n.x + (a.y - p.y) * n.y) = r := by
    have : r * (2 * ((a.x - p.x) * n.x + (a.y - p.y) * n.y) - r) = 0 := by linear_combination ha + r ^ 2 * hn'
    rcases mul_eq_zero.1 this with h | h
    · exact absurd h hr.ne'
    · linarith
  have hb' : 2 * ((b.x - p.x) * n.x + (b.y - p.y) * n.y) = r := by
    have : r * (2 * ((b.x - p.x) * n.x + (b.y - p.y) * n.y) - r) = 0 := by linear_combination hb + r ^ 2 * hn'
    rcases mul_eq_zero.1 this with h | h
    · exact absurd h hr.ne'
    · linarith
  obtain ⟨k, hk⟩ : ∃ k, k = (b.y - a.y) * n.x - (b.x - a.x) * n.y := ⟨_, rfl⟩
  have hperp : (b.x - a.x) * n.x + (b.y - a.y) * n.y = 0 := by linarith
  have e1 : b.x - a.x = -(k * n.y) := by
    rw [hk]
    linear_combination (-(b.x - a.x)) * hn' + n.x * hperp
  have e2 : b.y - a.y = k * n.x := by
    rw [hk]
    linear_combination (-(b.y - a.y)) * hn' + n.y * hperp
  have ho : orient2 ⟨p, a, b⟩ = k * (r / 2) := by
    unfold orient2
    dsimp only
    have : (a.x - p.x) * (b.y - p.y) - (a.y - p.y) * (b.x - p.x) =
        (a.x - p.x) * (b.y - a.y) - (a.y - p.y) * (b.x - a.x) := by ring
    rw [this, e1, e2]
    linear_combination k / 2 * ha'
  have hd : distSq2 a b = k ^ 2 := by
    unfold distSq2
    have f1 : a.x - b.x = k * n.y := by linarith
    have f2 : a.y - b.y = -(k * n.x) := by linarith
    rw [f1, f2]
    linear_combination k ^ 2 * hn'
  rw [ho, ← mul_assoc] at hpos
  have hσk : 0 < σ * k := (pos_iff_pos_of_mul_pos hpos).2 (by linarith)
  have hs : √(distSq2 a b) = σ * k := by
    rw [hd, Real.sqrt_sq_eq_abs]
    rcases hσ with rfl | rfl
    · rw [one_mul] at hσk ⊢
      exact abs_of_pos hσk
    · rw [abs_of_neg (by linarith)]
      ring
  rw [hs, e1, e2]
  exact ⟨hσk, by ring, by ring⟩

/-- The faces of the cell of an inserted point have positive areas, and the sum of the areas times the normals is
zero. -/
theorem cell_closed2 {s : State} (P : PlaneOk x s) {p : ℕ} (hp : 3 ≤ p) (hpn : p < s.mesh.numPoints) {F : List Face2}
    (hF : getFaces2 s.mesh x (centre2 s.mesh x) p = some F) :
    (∀ f ∈ F, 0 < f.area) ∧ ∀ d : P2 ℝ, (F.map fun f => f.area * (f.normal.x * d.x + f.normal.y * d.y)).sum = 0 := by
  have hc := P.ok.cons
  obtain ⟨he, -⟩ := centres2_equidistant hc (notFlat_of_plane P)
  obtain ⟨c, g, hl, hnd, h3, σ, hσ, hpos, -, -⟩ := cell_region P hp hpn
  obtain ⟨hlen, hside⟩ := faces_are_sides2 hc (distinct_of_plane P) he hF hl
  have hlen' : F.length = (sidesOf (c.map g)).length := by
    rw [hlen]
    unfold sidesOf
    rw [List.length_zip, List.length_rotate, Nat.min_self]
  have hpos' : ∀ e ∈ sidesOf (c.map g), 0 < σ * orient2 ⟨x p, e.1, e.2⟩ := by
    rw [sidesOf_map, List.forall_mem_map]
    exact hpos
  have key : ∀ (i : ℕ) (h : i < F.length) (h' : i < (sidesOf (c.map g)).length),
      0 < F[i].area ∧ F[i].area * F[i].normal.x = σ * ((sidesOf (c.map g))[i].2.y - (sidesOf (c.map g))[i].1.y) ∧
      F[i].area * F[i].normal.y = -(σ * ((sidesOf (c.map g))[i].2.x - (sidesOf (c.map g))[i].1.x)) := by
    intro i h h'
    obtain ⟨k1, k2, k3, k4, r, hr, k5⟩ := hside i F[i] (sidesOf (c.map g))[i] (List.getElem?_eq_getElem h)
      (List.getElem?_eq_getElem h')
    rw [k1]
    exact side_vector hr k4 k5 k2 k3 hσ (hpos' _ (List.getElem_mem h'))
  constructor
  · intro f hf
    obtain ⟨i, hi, rfl⟩ := List.mem_iff_getElem.1 hf
    exact (key i hi (hlen' ▸ hi)).1
  · intro d
    have e : (F.map fun f => f.area * (f.normal.x * d.x + f.normal.y * d.y)) =
        (sidesOf (c.map g)).map fun e => (σ * (e.2.y * d.x - e.2.x * d.y)) - (σ * (e.1.y * d.x - e.1.x * d.y)) := by
      refine List.ext_getElem (by rw [List.length_map, List.length_map, hlen']) fun i h h' => ?_
      rw [List.length_map] at h h'
      rw [List.getElem_map, List.getElem_map]
      obtain ⟨_, k1, k2⟩ := key i h h'
      linear_combination d.x * k1 + d.y * k2
    rw [e]
    have := cyclicSum_telescope (fun a : P2 ℝ => σ * (a.y * d.x - a.x * d.y)) (c.map g)
    rw [cyclicSum_sides] at this
    exact this

/-- In every direction there is a neighbour. -/
theorem cell_downwind2 {s : State} (P : PlaneOk x s) {p : ℕ} (hp : 3 ≤ p) (hpn : p < s.mesh.numPoints) {F : List Face2}
    (hF : getFaces2 s.mesh x (centre2 s.mesh x) p = some F) {d : P2 ℝ} (hd : d ≠ ⟨0, 0⟩) :
    ∃ f ∈ F, 0 < f.normal.x * d.x + f.normal.y * d.y := by
  have V := P.valid
  have hc := P.ok.cons
  obtain ⟨he, -⟩ := centres2_equidistant hc (notFlat_of_plane P)
  obtain ⟨F', hF', -, hcon⟩ := cell_faces P hp hpn
  rw [hF] at hF'
  cases hF'
  -- a neighbour in this direction
  have hdd : 0 < d.x * d.x + d.y * d.y := by
    rcases eq_or_ne d.x 0 with h | h
    · have : d.y ≠ 0 := fun h' => hd (P2.ext h h')
      have := mul_self_pos.2 this
      nlinarith [mul_self_nonneg d.x]
    · have := mul_self_pos.2 h
      nlinarith [mul_self_nonneg d.y]
  obtain ⟨e, he0, -, i, -, b, c, hat, hw⟩ := P.fan hp ⟨(x p).x + d.x, (x p).y + d.y⟩ {i | ∃ b c, At s.mesh i p b c}
    (fun i hi => hi)
    (by
      obtain ⟨t, ht⟩ := star_nonempty P hpn
      exact ⟨t, (mem_star P).1 ht⟩)
    (fun i _ b c j d _ h => ⟨c, d, h⟩) (fun i _ b c j d _ h => ⟨d, b, h⟩)
  have hpos := V.pos hat
  have hq : ∃ q, (∃ c, s.mesh.HasTriangle p q c) ∧ 0 < ((x q).x - (x p).x) * d.x + ((x q).y - (x p).y) * d.y := by
    by_contra hcon
    push Not at hcon
    have hb := hcon b ⟨c, i, hat⟩
    have hc' := hcon c (by
      obtain ⟨j, w, k⟩ := P.next hp hat
      exact ⟨w, j, k⟩)
    obtain ⟨w1, w2, w3⟩ := hw
    rw [area_towards] at w1 w3
    rw [area_def] at w1 w3 hpos
    simp only [area_def] at w1 w3
    have q1 : 0 ≤ ((x b).x - (x p).x) * d.y - ((x b).y - (x p).y) * d.x := by
      have : 0 ≤ e * (((x b).x - (x p).x) * d.y - ((x b).y - (x p).y) * d.x) := by linarith
      exact (mul_nonneg_iff_of_pos_left he0).1 this
    have q3 : 0 ≤ d.x * ((x c).y - (x p).y) - d.y * ((x c).x - (x p).x) := by
      have : 0 ≤ e * (d.x * ((x c).y - (x p).y) - d.y * ((x c).x - (x p).x)) := by linarith
      exact (mul_nonneg_iff_of_pos_left he0).1 this
    have h1 := mul_nonneg q1 (neg_nonneg.2 hc')
    have h2 := mul_nonneg q3 (neg_nonneg.2 hb)
    have h3 := mul_pos hpos hdd
    nlinarith
  obtain ⟨q, hq1, hq2⟩ := hq
  obtain ⟨f, hf, rfl⟩ := List.mem_map.1 ((hcon q).2 hq1)
  refine ⟨f, hf, ?_⟩
  obtain ⟨c', g, hl, -⟩ := cell_region P hp hpn
  obtain ⟨hlen, hside⟩ := faces_are_sides2 hc (distinct_of_plane P) he hF hl
  obtain ⟨k, hk, rfl⟩ := List.mem_iff_getElem.1 hf
  have hk' : k < (sidesOf (c'.map g)).length := by
    unfold sidesOf
    rw [List.length_zip, List.length_rotate, Nat.min_self, ← hlen]
    exact hk
  obtain ⟨-, -, -, -, r, hr, k5⟩ := hside k F[k] _ (List.getElem?_eq_getElem hk) (List.getElem?_eq_getElem hk')
  have e1 := congrArg P2.x k5
  have e2 := congrArg P2.y k5
  unfold P2.sub at e1 e2
  dsimp only at e1 e2
  rw [e1, e2] at hq2
  have : 0 < r * (F[k].normal.x * d.x + F[k].normal.y * d.y) := by linarith
  exact (pos_iff_pos_of_mul_pos this).1 hr

end Verif.Voronoi
