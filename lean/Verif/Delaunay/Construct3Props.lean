import Verif.Delaunay.Construct3Spec
import Verif.Delaunay.SpaceProps

/-! # The construction in space yields the Delaunay mesh of the given points -/

namespace Verif.Delaunay

open Verif.Predicates (P3 orient3 distSq3 Bary3)

section
variable {K : Type} [Field K] [LinearOrder K] [IsStrictOrderedRing K] {N : Type}

private theorem dist_scaled {f g : P3 K → P3 K} {c1 c2 c3 s : K}
    (h : ∀ p, g p = ⟨c1 + s * (f p).x, c2 + s * (f p).y, c3 + s * (f p).z⟩) (p o : P3 K) :
    distSq3 (g p) ⟨c1 + s * o.x, c2 + s * o.y, c3 + s * o.z⟩ = s ^ 2 * distSq3 (f p) o := by
  rw [h p]
  unfold distSq3
  dsimp only
  ring

private theorem orient_scaled {f g : P3 K → P3 K} {c1 c2 c3 s : K}
    (h : ∀ p, g p = ⟨c1 + s * (f p).x, c2 + s * (f p).y, c3 + s * (f p).z⟩) (p q r t : P3 K) :
    orient3 ⟨g p, g q, g r, g t⟩ = s ^ 3 * orient3 ⟨f p, f q, f r, f t⟩ := by
  rw [h p, h q, h r, h t]
  rw [Predicates.orient3_eq, Predicates.orient3_eq]
  dsimp only
  ring

private theorem centre {c1 c2 c3 s : K} (hs : 0 < s) (o : P3 K) :
    ∃ o' : P3 K, o = ⟨c1 + s * o'.x, c2 + s * o'.y, c3 + s * o'.z⟩ := by
  refine ⟨⟨(o.x - c1) / s, (o.y - c2) / s, (o.z - c3) / s⟩, ?_⟩
  apply P3.ext
  · dsimp only
    rw [mul_div_cancel₀ _ hs.ne']
    ring
  · dsimp only
    rw [mul_div_cancel₀ _ hs.ne']
    ring
  · dsimp only
    rw [mul_div_cancel₀ _ hs.ne']
    ring

private theorem delaunayUnder_scaled {f g : P3 K → P3 K} {c1 c2 c3 s : K} (hs : 0 < s)
    (h : ∀ p, g p = ⟨c1 + s * (f p).x, c2 + s * (f p).y, c3 + s * (f p).z⟩) {S : P3 K → Prop} {p q r t : P3 K} :
    DelaunayUnder3 g S p q r t ↔ DelaunayUnder3 f S p q r t := by
  have h2 : 0 < s ^ 2 := pow_pos hs 2
  have h3 : s ^ 3 ≠ 0 := (pow_pos hs 3).ne'
  unfold DelaunayUnder3
  have h4 : orient3 ⟨g p, g q, g r, g t⟩ ≠ 0 ↔ orient3 ⟨f p, f q, f r, f t⟩ ≠ 0 := by
    rw [orient_scaled h]
    exact ⟨fun h => right_ne_zero_of_mul h, mul_ne_zero h3⟩
  rw [h4]
  refine and_congr_right fun _ => and_congr_right fun _ => and_congr_right fun _ => and_congr_right fun _ =>
    and_congr_right fun _ => ?_
  constructor
  · rintro ⟨o, rho, e1, e2, e3, e4, e5⟩
    obtain ⟨o', rfl⟩ := centre (c1 := c1) (c2 := c2) (c3 := c3) hs o
    simp only [dist_scaled h] at e1 e2 e3 e4 e5
    subst e1
    refine ⟨o', _, rfl, mul_left_cancel₀ h2.ne' e2, mul_left_cancel₀ h2.ne' e3, mul_left_cancel₀ h2.ne' e4,
      fun z h1 n1 n2 n3 n4 => ?_⟩
    exact (mul_lt_mul_iff_right₀ h2).1 (e5 z h1 n1 n2 n3 n4)
  · rintro ⟨o, rho, e1, e2, e3, e4, e5⟩
    refine ⟨⟨c1 + s * o.x, c2 + s * o.y, c3 + s * o.z⟩, s ^ 2 * rho, ?_, ?_, ?_, ?_, fun z h1 n1 n2 n3 n4 => ?_⟩
    · rw [dist_scaled h, e1]
    · rw [dist_scaled h, e2]
    · rw [dist_scaled h, e3]
    · rw [dist_scaled h, e4]
    · rw [dist_scaled h]
      exact (mul_lt_mul_iff_right₀ h2).2 (e5 z h1 n1 n2 n3 n4)

theorem generalUnder_scaled {f g : P3 K → P3 K} {c1 c2 c3 s : K} (hs : 0 < s)
    (h : ∀ p, g p = ⟨c1 + s * (f p).x, c2 + s * (f p).y, c3 + s * (f p).z⟩) {S : P3 K → Prop}
    (hg : GeneralUnder3 f S) : GeneralUnder3 g S := by
  have h2 : s ^ 2 ≠ 0 := (pow_pos hs 2).ne'
  refine ⟨fun p q r t h1 h3 h4 h5 n => ?_, ?_⟩
  · rw [orient_scaled h]
    exact mul_ne_zero (pow_pos hs 3).ne' (hg.1 p q r t h1 h3 h4 h5 n)
  · intro p q r t z h1 h3 h4 h5 h6 n o ho
    obtain ⟨o', rfl⟩ := centre (c1 := c1) (c2 := c2) (c3 := c3) hs o
    simp only [dist_scaled h] at ho
    exact hg.2 p q r t z h1 h3 h4 h5 h6 n o' ⟨mul_left_cancel₀ h2 ho.1, mul_left_cancel₀ h2 ho.2.1,
      mul_left_cancel₀ h2 ho.2.2.1, mul_left_cancel₀ h2 ho.2.2.2⟩

private theorem min_axis {l h : K} (hl : l < h) : min (min (min (l - (h - l) * (1 / 100)) (h + (h - l) * (21 / 10 + 1 / 100))) l) l =
    l - (h - l) / 100 ∧ max (max (max (l - (h - l) * (1 / 100)) (h + (h - l) * (21 / 10 + 1 / 100))) l) l =
    l + (h - l) * (311 / 100) ∧ min (min (min (l - (h - l) * (1 / 100)) l) (h + (h - l) * (21 / 10 + 1 / 100))) l =
    l - (h - l) / 100 ∧ max (max (max (l - (h - l) * (1 / 100)) l) (h + (h - l) * (21 / 10 + 1 / 100))) l =
    l + (h - l) * (311 / 100) ∧ min (min (min (l - (h - l) * (1 / 100)) l) l) (h + (h - l) * (21 / 10 + 1 / 100)) =
    l - (h - l) / 100 ∧ max (max (max (l - (h - l) * (1 / 100)) l) l) (h + (h - l) * (21 / 10 + 1 / 100)) =
    l + (h - l) * (311 / 100) := by
  have a : 0 < h - l := sub_pos.2 hl
  generalize hd : h - l = d at a
  have hh : h = l + d := by rw [← hd]; ring
  subst hh
  have b : l - d * (1 / 100) ≤ l := by linarith
  have c : l ≤ l + d + d * (21 / 10 + 1 / 100) := by linarith
  have e : l - d * (1 / 100) ≤ l + d + d * (21 / 10 + 1 / 100) := b.trans c
  refine ⟨?_, ?_, ?_, ?_, ?_, ?_⟩
  · rw [min_eq_left e, min_eq_left b, min_eq_left b]; ring
  · rw [max_eq_right e, max_eq_left c, max_eq_left c]; ring
  · rw [min_eq_left b, min_eq_left e, min_eq_left b]; ring
  · rw [max_eq_right b, max_eq_right c, max_eq_left c]; ring
  · rw [min_eq_left b, min_eq_left b, min_eq_left e]; ring
  · rw [max_eq_right b, max_self, max_eq_right c]; ring

/-- The extent of the initial tetrahedron. -/
private theorem extent3_initial {lo hi : P3 K} (hx : lo.x < hi.x) (hy : lo.y < hi.y) (hz : lo.z < hi.z) :
    extent3 (Predicates.Tetra.allEncompassing lo hi) =
      (⟨lo.x - (hi.x - lo.x) / 100, lo.y - (hi.y - lo.y) / 100, lo.z - (hi.z - lo.z) / 100⟩,
       ⟨lo.x + (hi.x - lo.x) * (311 / 100), lo.y + (hi.y - lo.y) * (311 / 100), lo.z + (hi.z - lo.z) * (311 / 100)⟩) := by
  unfold extent3 Predicates.Tetra.allEncompassing
  simp only [P3.sub]
  obtain ⟨x1, x2, -⟩ := min_axis hx
  obtain ⟨-, -, y1, y2, -⟩ := min_axis hy
  obtain ⟨-, -, -, -, z1, z2⟩ := min_axis hz
  rw [x1, x2, y1, y2, z1, z2]

private theorem remap_eq {lo hi : P3 K} (hx : lo.x < hi.x) (hy : lo.y < hi.y) (hz : lo.z < hi.z) (p : P3 K) :
    remapPoint3 (extent3 (Predicates.Tetra.allEncompassing lo hi)) p =
      ⟨(1 - (lo.x - (hi.x - lo.x) / 100) / (312 / 100 * (hi.x - lo.x))) + 100 / 312 * (inBoxUnits3 lo hi p).x,
       (1 - (lo.y - (hi.y - lo.y) / 100) / (312 / 100 * (hi.y - lo.y))) + 100 / 312 * (inBoxUnits3 lo hi p).y,
       (1 - (lo.z - (hi.z - lo.z) / 100) / (312 / 100 * (hi.z - lo.z))) + 100 / 312 * (inBoxUnits3 lo hi p).z⟩ := by
  rw [extent3_initial hx hy hz]
  have key : ∀ {l h : K} (q : K), l < h → 1 + (q - (l - (h - l) / 100)) * (1 / (l + (h - l) * (311 / 100) - (l - (h - l) / 100))) =
      (1 - (l - (h - l) / 100) / (312 / 100 * (h - l))) + 100 / 312 * (q / (h - l)) := by
    intro l h q hl
    have a : h - l ≠ 0 := (sub_pos.2 hl).ne'
    have e : l + (h - l) * (311 / 100) - (l - (h - l) / 100) = 312 / 100 * (h - l) := by ring
    rw [e]
    field_simp
    ring
  unfold remapPoint3 inBoxUnits3
  apply P3.ext
  · exact key p.x hx
  · exact key p.y hy
  · exact key p.z hz

/-- In a cubic box `remap_point` is a scaling. -/
theorem remap_cube {lo hi : P3 K} (hx : lo.x < hi.x) (h1 : hi.x - lo.x = hi.y - lo.y) (h2 : hi.x - lo.x = hi.z - lo.z) :
    ∃ c1 c2 c3 k : K, 0 < k ∧ ∀ p, remapPoint3 (extent3 (Predicates.Tetra.allEncompassing lo hi)) p =
      ⟨c1 + k * p.x, c2 + k * p.y, c3 + k * p.z⟩ := by
  have hw : 0 < hi.x - lo.x := sub_pos.2 hx
  have hy : lo.y < hi.y := by rw [h1] at hw; exact sub_pos.1 hw
  have hz : lo.z < hi.z := by rw [h2] at hw; exact sub_pos.1 hw
  refine ⟨1 - (lo.x - (hi.x - lo.x) / 100) / (312 / 100 * (hi.x - lo.x)),
    1 - (lo.y - (hi.y - lo.y) / 100) / (312 / 100 * (hi.y - lo.y)),
    1 - (lo.z - (hi.z - lo.z) / 100) / (312 / 100 * (hi.z - lo.z)),
    100 / 312 * (1 / (hi.x - lo.x)), mul_pos (by norm_num) (one_div_pos.2 hw), fun p => ?_⟩
  rw [remap_eq hx hy hz]
  unfold inBoxUnits3
  rw [← h1, ← h2]
  apply P3.ext
  · dsimp only
    ring
  · dsimp only
    ring
  · dsimp only
    ring

private theorem positionOf_eq {l : List (P3 K)} {i : ℕ} (h : i < l.length) : positionOf3 l i = l[i] := by
  unfold positionOf3
  rw [List.getElem?_eq_getElem h]
  rfl

/-- The vertices of the initial tetrahedron are different and lie outside of the box. -/
theorem allPoints3_nodup {lo hi : P3 K} (hx : lo.x < hi.x) (hy : lo.y < hi.y) (hz : lo.z < hi.z)
    {pts : List (P3 K)} (hin : ∀ p ∈ pts, InBox3 lo hi p) (hn : pts.Nodup) : (allPoints3 lo hi pts).Nodup := by
  unfold allPoints3 Predicates.Tetra.allEncompassing
  simp only [P3.sub]
  have a1 : 0 < hi.x - lo.x := sub_pos.2 hx
  have a2 : 0 < hi.y - lo.y := sub_pos.2 hy
  have a3 : 0 < hi.z - lo.z := sub_pos.2 hz
  rw [List.nodup_cons, List.nodup_cons, List.nodup_cons, List.nodup_cons]
  refine ⟨?_, ?_, ?_, ?_, hn⟩
  · intro h
    rcases List.mem_cons.1 h with e | h
    · have := congrArg P3.x e
      dsimp only at this
      linarith
    rcases List.mem_cons.1 h with e | h
    · have := congrArg P3.x e
      dsimp only at this
      linarith
    rcases List.mem_cons.1 h with e | h
    · have := congrArg P3.x e
      dsimp only at this
      linarith
    · have := (hin _ h).1
      dsimp only at this
      linarith
  · intro h
    rcases List.mem_cons.1 h with e | h
    · have := congrArg P3.x e
      dsimp only at this
      linarith
    rcases List.mem_cons.1 h with e | h
    · have := congrArg P3.x e
      dsimp only at this
      linarith
    · have := (hin _ h).2.1
      dsimp only at this
      linarith
  · intro h
    rcases List.mem_cons.1 h with e | h
    · have := congrArg P3.y e
      dsimp only at this
      linarith
    · have := (hin _ h).2.2.2.1
      dsimp only at this
      linarith
  · intro h
    have := (hin _ h).2.2.2.2.2
    dsimp only at this
    linarith

private theorem orient_remap {lo hi : P3 K} (hx : lo.x < hi.x) (hy : lo.y < hi.y) (hz : lo.z < hi.z) (p q r t : P3 K) :
    orient3 ⟨remapPoint3 (extent3 (Predicates.Tetra.allEncompassing lo hi)) p,
      remapPoint3 (extent3 (Predicates.Tetra.allEncompassing lo hi)) q,
      remapPoint3 (extent3 (Predicates.Tetra.allEncompassing lo hi)) r,
      remapPoint3 (extent3 (Predicates.Tetra.allEncompassing lo hi)) t⟩ *
      ((312 / 100) ^ 3 * ((hi.x - lo.x) * (hi.y - lo.y) * (hi.z - lo.z))) = orient3 ⟨p, q, r, t⟩ := by
  have a1 : hi.x - lo.x ≠ 0 := (sub_pos.2 hx).ne'
  have a2 : hi.y - lo.y ≠ 0 := (sub_pos.2 hy).ne'
  have a3 : hi.z - lo.z ≠ 0 := (sub_pos.2 hz).ne'
  rw [orient_scaled (remap_eq hx hy hz), Predicates.orient3_eq, Predicates.orient3_eq]
  unfold inBoxUnits3
  dsimp only
  generalize hi.x - lo.x = u at *
  generalize hi.y - lo.y = v at *
  generalize hi.z - lo.z = w at *
  field_simp

theorem inTetra_remap {lo hi : P3 K} {t : Predicates.Tetra K} {p : P3 K} (h : InTetra t p) :
    InTetra ⟨remapPoint3 (extent3 (Predicates.Tetra.allEncompassing lo hi)) t.p1,
      remapPoint3 (extent3 (Predicates.Tetra.allEncompassing lo hi)) t.p2,
      remapPoint3 (extent3 (Predicates.Tetra.allEncompassing lo hi)) t.p3,
      remapPoint3 (extent3 (Predicates.Tetra.allEncompassing lo hi)) t.p4⟩
      (remapPoint3 (extent3 (Predicates.Tetra.allEncompassing lo hi)) p) := by
  generalize extent3 (Predicates.Tetra.allEncompassing lo hi) = e
  obtain ⟨w1, w2, w3, w4, h1, h2, h3, h4, e1, e2, e3, e4⟩ := h
  refine ⟨w1, w2, w3, w4, h1, h2, h3, h4, e1, ?_, ?_, ?_⟩
  · dsimp only [remapPoint3]
    rw [e2]
    linear_combination (-1 + e.1.x * (1 / (e.2.x - e.1.x))) * e1
  · dsimp only [remapPoint3]
    rw [e3]
    linear_combination (-1 + e.1.y * (1 / (e.2.y - e.1.y))) * e1
  · dsimp only [remapPoint3]
    rw [e4]
    linear_combination (-1 + e.1.z * (1 / (e.2.z - e.1.z))) * e1

theorem inTetra_site {lo hi : P3 K} (hx : lo.x < hi.x) (hy : lo.y < hi.y) (hz : lo.z < hi.z)
    {points : List (N × P3 K)} (hin : ∀ e ∈ points, InBox3 lo hi e.2) {p : P3 K}
    (h : Site3 lo hi points p) : InTetra (Predicates.Tetra.allEncompassing lo hi) p := by
  obtain ⟨hor, hc⟩ := Verif.Predicates.initial_tetra_contains lo hi hx hy hz
  rcases h with rfl | rfl | rfl | rfl | ⟨e, he, rfl⟩
  · exact ⟨1, 0, 0, 0, zero_le_one, le_rfl, le_rfl, le_rfl, by ring, by ring, by ring, by ring⟩
  · exact ⟨0, 1, 0, 0, le_rfl, zero_le_one, le_rfl, le_rfl, by ring, by ring, by ring, by ring⟩
  · exact ⟨0, 0, 1, 0, le_rfl, le_rfl, zero_le_one, le_rfl, by ring, by ring, by ring, by ring⟩
  · exact ⟨0, 0, 0, 1, le_rfl, le_rfl, le_rfl, zero_le_one, by ring, by ring, by ring, by ring⟩
  · obtain ⟨w1, w2, w3, w4, hw⟩ := Verif.Predicates.bary3_exists _ hor.ne' e.2
    obtain ⟨h1, h2, h3, h4, h5, h6⟩ := hin e he
    obtain ⟨p1, p2, p3, p4⟩ := (Verif.Predicates.tetra_contains_correct _ hor.ne' e.2 w1 w2 w3 w4 hw).1.1
      (hc e.2 h1 h2 h3 h4 h5 h6)
    exact ⟨w1, w2, w3, w4, p1.le, p2.le, p3.le, p4.le, hw⟩

/-- What `construct` does: the points of the result are the given ones and the vertices of the initial tetrahedron. -/
theorem construct3_run {eps : K} {key : P3 K → ℕ} {pop : Heaps}
    {fuel : ℕ} {lo hi : P3 K} (hx : lo.x < hi.x) (hy : lo.y < hi.y) (hz : lo.z < hi.z) {points : List (N × P3 K)} :
    ∃ (s0 : State) (position : ℕ → P3 K) (indices : List (N × ℕ)), start3 = some s0 ∧
      construct3 eps key pop fuel lo hi points =
        (match insertMany (geo3 eps fun i => remapPoint3 (extent3 (Predicates.Tetra.allEncompassing lo hi)) (position i))
          (ops3 (intersect3 fun i => remapPoint3 (extent3 (Predicates.Tetra.allEncompassing lo hi)) (position i)))
          pop fuel points.length s0 with
        | .panic => .panic
        | .running => .running
        | .done s => .done ⟨s, position, indices⟩) ∧
      0 < orient3 ⟨remapPoint3 (extent3 (Predicates.Tetra.allEncompassing lo hi)) (position 0),
        remapPoint3 (extent3 (Predicates.Tetra.allEncompassing lo hi)) (position 1),
        remapPoint3 (extent3 (Predicates.Tetra.allEncompassing lo hi)) (position 2),
        remapPoint3 (extent3 (Predicates.Tetra.allEncompassing lo hi)) (position 3)⟩ ∧
      (∀ i, i < 4 + points.length → Site3 lo hi points (position i)) ∧
      (∀ p, Site3 lo hi points p → ∃ i, i < 4 + points.length ∧ position i = p) ∧
      ((∀ e ∈ points, InBox3 lo hi e.2) → (points.map Prod.snd).Nodup →
        ∀ i j, i < 4 + points.length → j < 4 + points.length → i ≠ j → position i ≠ position j) ∧
      position 0 = (Predicates.Tetra.allEncompassing lo hi).p1 ∧ position 1 = (Predicates.Tetra.allEncompassing lo hi).p2 ∧
      position 2 = (Predicates.Tetra.allEncompassing lo hi).p3 ∧ position 3 = (Predicates.Tetra.allEncompassing lo hi).p4 ∧
      (indices.map fun e => (e.1, position e.2)).Perm points ∧
      ∀ e ∈ indices, 4 ≤ e.2 ∧ e.2 < 4 + points.length := by
  unfold construct3
  dsimp only
  set sorted := points.insertionSort fun a b => key a.2 ≤ key b.2 with hsorted
  have hperm : sorted.Perm points := List.perm_insertionSort _ _
  set all := allPoints3 lo hi (sorted.map Prod.snd) with hall
  have hlen : all.length = 4 + points.length := by
    rw [hall]
    unfold allPoints3
    simp only [List.length_cons, List.length_map, hperm.length_eq]
    omega
  have hsite : ∀ p, Site3 lo hi points p ↔ p ∈ all := by
    intro p
    rw [hall]
    unfold allPoints3 Site3
    simp only [List.mem_cons, List.mem_map, hperm.mem_iff]
  have hpos : ∀ i, i < 4 + points.length → Site3 lo hi points (positionOf3 all i) := by
    intro i hi
    rw [← hlen] at hi
    rw [hsite, positionOf_eq hi]
    exact List.getElem_mem hi
  have hsurj : ∀ p, Site3 lo hi points p → ∃ i, i < 4 + points.length ∧ positionOf3 all i = p := by
    intro p hp
    obtain ⟨i, hi, e⟩ := List.mem_iff_getElem.1 ((hsite p).1 hp)
    exact ⟨i, hlen ▸ hi, by rw [positionOf_eq hi]; exact e⟩
  obtain ⟨s0, h0⟩ : ∃ s, start3 = some s := ⟨_, rfl⟩
  refine ⟨s0, positionOf3 all, sorted.zipIdx.map fun e => (e.1.1, 4 + e.2), h0, ?_, ?_, hpos, hsurj, ?_, rfl, rfl, rfl, rfl, ?_, ?_⟩
  · rw [h0, hperm.length_eq]
    dsimp only
    generalize insertMany _ _ _ _ _ _ = o
    cases o <;> rfl
  · have h1 := (Verif.Predicates.initial_tetra_contains lo hi hx hy hz).1
    have h2 := orient_remap hx hy hz (Predicates.Tetra.allEncompassing lo hi).p1 (Predicates.Tetra.allEncompassing lo hi).p2
      (Predicates.Tetra.allEncompassing lo hi).p3 (Predicates.Tetra.allEncompassing lo hi).p4
    have h3 : 0 < (312 / 100 : K) ^ 3 * ((hi.x - lo.x) * (hi.y - lo.y) * (hi.z - lo.z)) :=
      mul_pos (by norm_num) (mul_pos (mul_pos (sub_pos.2 hx) (sub_pos.2 hy)) (sub_pos.2 hz))
    exact (mul_pos_iff_of_pos_right h3).1 (by rw [← h2] at h1; exact h1)
  · intro hin hn i j hi hj hne
    have hnodup : all.Nodup := by
      apply allPoints3_nodup hx hy hz
      · intro p hp
        obtain ⟨e, he, rfl⟩ := List.mem_map.1 hp
        exact hin e (hperm.mem_iff.1 he)
      · exact (hperm.map Prod.snd).nodup_iff.2 hn
    rw [← hlen] at hi hj
    rw [positionOf_eq hi, positionOf_eq hj]
    exact fun e => hne (hnodup.getElem_inj_iff.1 e)
  · have : (List.map (fun e => (e.1, positionOf3 all e.2)) (sorted.zipIdx.map fun e => (e.1.1, 4 + e.2))) = sorted := by
      apply List.ext_getElem
      · simp
      · intro i h1 h2
        simp only [List.getElem_map, List.getElem_zipIdx, zero_add]
        have h3 : 4 + i < all.length := by rw [hlen, ← hperm.length_eq]; omega
        rw [positionOf_eq h3]
        have h4 : all[4 + i] = (sorted.map Prod.snd)[i]'(by simpa using h2) := by
          have : 4 + i = i + 1 + 1 + 1 + 1 := by omega
          simp only [hall, allPoints3, this, List.getElem_cons_succ]
        rw [h4, List.getElem_map]
    rw [this]
    exact hperm
  · intro e he
    obtain ⟨⟨a, i⟩, he', rfl⟩ := List.mem_map.1 he
    have := List.snd_lt_of_mem_zipIdx he'
    rw [hperm.length_eq] at this
    dsimp only at this ⊢
    omega

/-- What `construct` returns, in the coordinates of `remap_point`. -/
private theorem construct3_remapped {eps : K} (heps : 0 < eps) {key : P3 K → ℕ} {pop : Heaps}
    (hp : HeapsOk pop) {fuel : ℕ} {lo hi : P3 K} (hx : lo.x < hi.x) (hy : lo.y < hi.y) (hz : lo.z < hi.z)
    {points : List (N × P3 K)} (hin : ∀ e ∈ points, InBox3 lo hi e.2) (hn : (points.map Prod.snd).Nodup) :
    (∀ r, construct3 eps key pop fuel lo hi points = .done r →
      (∀ p q z t, r.HasTetra p q z t ↔ DelaunayUnder3 (remapPoint3 (extent3 (Predicates.Tetra.allEncompassing lo hi)))
        (Site3 lo hi points) p q z t) ∧
      (r.indices.map fun e => (e.1, r.position e.2)).Perm points) ∧
    (GeneralUnder3 (remapPoint3 (extent3 (Predicates.Tetra.allEncompassing lo hi))) (Site3 lo hi points) →
      5 * (4 + points.length) ^ 4 + 1 ≤ fuel → ∃ r, construct3 eps key pop fuel lo hi points = .done r) := by
  obtain ⟨s0, position, indices, h0, hcon, hor, hpos, hsurj, hinj', z0, z1, z2, z3, hidx, -⟩ :=
    construct3_run (eps := eps) (key := key) (pop := pop) (fuel := fuel) hx hy hz (points := points)
  have hinj := hinj' hin hn
  rw [hcon]
  clear hcon hinj'
  have hinside : ∀ i, i < 4 + points.length →
      InTetra ⟨remapPoint3 (extent3 (Predicates.Tetra.allEncompassing lo hi)) (position 0),
        remapPoint3 (extent3 (Predicates.Tetra.allEncompassing lo hi)) (position 1),
        remapPoint3 (extent3 (Predicates.Tetra.allEncompassing lo hi)) (position 2),
        remapPoint3 (extent3 (Predicates.Tetra.allEncompassing lo hi)) (position 3)⟩
        (remapPoint3 (extent3 (Predicates.Tetra.allEncompassing lo hi)) (position i)) := by
    intro i hi
    rw [z0, z1, z2, z3]
    exact inTetra_remap (inTetra_site hx hy hz hin (hpos i hi))
  generalize remapPoint3 (extent3 (Predicates.Tetra.allEncompassing lo hi)) = f at *
  obtain ⟨x, hxdef⟩ : ∃ x : ℕ → P3 K, x = fun i => f (position i) := ⟨_, rfl⟩
  have hxi : ∀ i, f (position i) = x i := fun i => by rw [hxdef]
  rw [← hxdef]
  simp only [hxi] at hor hinside
  refine ⟨?_, fun hg hf => ?_⟩
  swap
  · have hgen : GeneralPosition3 x (4 + points.length) := by
      constructor
      · intro i j k l hi hj hk hl hnd
        rw [← hxi, ← hxi, ← hxi, ← hxi]
        refine hg.1 _ _ _ _ (hpos i hi) (hpos j hj) (hpos k hk) (hpos l hl) ?_
        simp only [List.nodup_cons, List.mem_cons, List.not_mem_nil, or_false, not_or, not_false_eq_true,
          List.nodup_nil, and_true] at hnd ⊢
        obtain ⟨⟨n1, n2, n3⟩, ⟨n4, n5⟩, n6⟩ := hnd
        exact ⟨⟨hinj i j hi hj n1, hinj i k hi hk n2, hinj i l hi hl n3⟩, ⟨hinj j k hj hk n4, hinj j l hj hl n5⟩,
          hinj k l hk hl n6⟩
      · intro i j k l m hi hj hk hl hm hnd
        rw [← hxi, ← hxi, ← hxi, ← hxi, ← hxi]
        refine hg.2 _ _ _ _ _ (hpos i hi) (hpos j hj) (hpos k hk) (hpos l hl) (hpos m hm) ?_
        simp only [List.nodup_cons, List.mem_cons, List.not_mem_nil, or_false, not_or, not_false_eq_true,
          List.nodup_nil, and_true] at hnd ⊢
        obtain ⟨⟨n1, n2, n3, n7⟩, ⟨n4, n5, n8⟩, ⟨n6, n9⟩, n10⟩ := hnd
        exact ⟨⟨hinj i j hi hj n1, hinj i k hi hk n2, hinj i l hi hl n3, hinj i m hi hm n7⟩,
          ⟨hinj j k hj hk n4, hinj j l hj hl n5, hinj j m hj hm n8⟩, ⟨hinj k l hk hl n6, hinj k m hk hm n9⟩,
          hinj l m hl hm n10⟩
    obtain ⟨s, hs⟩ := delaunay3_complete heps hor hp hgen hinside hf h0
    exact ⟨_, by rw [hs]⟩
  intro r hr
  obtain ⟨s, hs⟩ : ∃ s, insertMany (geo3 eps x) (ops3 (intersect3 x)) pop fuel points.length s0 = .done s := by
    revert hr
    cases insertMany (geo3 eps x) (ops3 (intersect3 x)) pop fuel points.length s0 with
    | done s => exact fun _ => ⟨s, rfl⟩
    | panic => exact fun h => by cases h
    | running => exact fun h => by cases h
  rw [hs] at hr
  dsimp only at hr
  rw [Outcome.done.injEq] at hr
  subst hr
  refine ⟨?_, hidx⟩
  intro p q z t
  unfold Construction3.HasTetra
  dsimp only
  constructor
  · rintro ⟨a, b, c, d, ht, rfl, rfl, rfl, rfl⟩
    obtain ⟨i, T, hT, hpts⟩ := id ht
    obtain ⟨a', b', c', d', e, l1, l2, l3, l4, hpos', -⟩ := delaunay3 heps hor hp h0 hs i T hT
    have hl : ∀ w ∈ [a, b, c, d], w < 4 + points.length := by
      intro w hw
      rw [← hpts.mem_iff, e] at hw
      simp only [List.mem_cons, List.not_mem_nil, or_false] at hw
      rcases hw with rfl | rfl | rfl | rfl <;> assumption
    have ho : orient3 ⟨x a, x b, x c, x d⟩ ≠ 0 := hasTetra_nonflat heps hor hp h0 hs ht
    have la := hl a (by simp)
    have lb := hl b (by simp)
    have lc := hl c (by simp)
    have ld := hl d (by simp)
    obtain ⟨o, rho, e1, e2, e3, e4, e5⟩ := (delaunay3_iff heps hor hp h0 hs la lb lc ld ho).1 ht
    unfold DelaunayUnder3
    simp only [hxi]
    refine ⟨hpos a la, hpos b lb, hpos c lc, hpos d ld, ho, o, rho, e1, e2, e3, e4, ?_⟩
    intro z hz n1 n2 n3 n4
    obtain ⟨w, hw, rfl⟩ := hsurj z hz
    rw [hxi]
    exact e5 w hw (fun h => n1 (h ▸ rfl)) (fun h => n2 (h ▸ rfl)) (fun h => n3 (h ▸ rfl)) (fun h => n4 (h ▸ rfl))
  · rintro ⟨hp', hq', hz', ht', ho, o, rho, e1, e2, e3, e4, e5⟩
    obtain ⟨a, la, rfl⟩ := hsurj p hp'
    obtain ⟨b, lb, rfl⟩ := hsurj q hq'
    obtain ⟨c, lc, rfl⟩ := hsurj z hz'
    obtain ⟨d, ld, rfl⟩ := hsurj t ht'
    simp only [hxi] at ho e1 e2 e3 e4
    refine ⟨a, b, c, d, (delaunay3_iff heps hor hp h0 hs la lb lc ld ho).2 ⟨o, rho, e1, e2, e3, e4, ?_⟩, rfl, rfl, rfl, rfl⟩
    intro w hw n1 n2 n3 n4
    rw [← hxi]
    exact e5 _ (hpos w hw) (hinj w a hw la n1) (hinj w b hw lb n2) (hinj w c hw lc n3) (hinj w d hw ld n4)

/-- **The tetrahedra are the Delaunay tetrahedra in box units.**  Whenever the construction is completed for
different points in the box, the tetrahedra are exactly the Delaunay tetrahedra of the given points and the
vertices of the initial tetrahedron, if lengths along each axis are measured in units of the side of the box; and
every name is mapped to the index of its own point. -/
theorem construct3_delaunay_in_box_units {eps : K} (heps : 0 < eps) {key : P3 K → ℕ}
    {pop : Heaps} (hp : HeapsOk pop)
    {fuel : ℕ} {lo hi : P3 K} (hx : lo.x < hi.x) (hy : lo.y < hi.y) (hz : lo.z < hi.z) {points : List (N × P3 K)}
    (hin : ∀ e ∈ points, InBox3 lo hi e.2) (hn : (points.map Prod.snd).Nodup) {r : Construction3 K N}
    (hr : construct3 eps key pop fuel lo hi points = .done r) :
    (∀ p q z t, r.HasTetra p q z t ↔ DelaunayUnder3 (inBoxUnits3 lo hi) (Site3 lo hi points) p q z t) ∧
      (r.indices.map fun e => (e.1, r.position e.2)).Perm points := by
  obtain ⟨h1, h2⟩ := (construct3_remapped (key := key) (fuel := fuel) heps hp hx hy hz hin hn).1 r hr
  exact ⟨fun p q z t => (h1 p q z t).trans
    (delaunayUnder_scaled (by norm_num : (0 : K) < 100 / 312) (remap_eq hx hy hz)), h2⟩

omit [LinearOrder K] [IsStrictOrderedRing K] in
/-- In a cubic box the map to box units is a scaling. -/
private theorem cube_scaled {lo hi : P3 K} (h1 : hi.x - lo.x = hi.y - lo.y) (h2 : hi.x - lo.x = hi.z - lo.z) (p : P3 K) :
    inBoxUnits3 lo hi p = ⟨0 + 1 / (hi.x - lo.x) * (id p).x, 0 + 1 / (hi.x - lo.x) * (id p).y,
      0 + 1 / (hi.x - lo.x) * (id p).z⟩ := by
  unfold inBoxUnits3
  rw [← h1, ← h2]
  apply P3.ext
  · dsimp only [id]
    ring
  · dsimp only [id]
    ring
  · dsimp only [id]
    ring

/-- **In cubic boxes the result is the Delaunay mesh.**  Whenever the construction is completed for different points
in a cubic box, its tetrahedra are exactly the Delaunay tetrahedra of the given points and the vertices of the
initial tetrahedron. -/
theorem construct3_delaunay {eps : K} (heps : 0 < eps) {key : P3 K → ℕ} {pop : Heaps}
    (hp : HeapsOk pop) {fuel : ℕ} {lo hi : P3 K} (hx : lo.x < hi.x) (hc : hi.x - lo.x = hi.y - lo.y)
    (hc' : hi.x - lo.x = hi.z - lo.z) {points : List (N × P3 K)}
    (hin : ∀ e ∈ points, InBox3 lo hi e.2) (hn : (points.map Prod.snd).Nodup) {r : Construction3 K N}
    (hr : construct3 eps key pop fuel lo hi points = .done r) (p q z t : P3 K) :
    r.HasTetra p q z t ↔ DelaunayTetra (Site3 lo hi points) p q z t := by
  have hw : 0 < hi.x - lo.x := sub_pos.2 hx
  have hy : lo.y < hi.y := by rw [hc] at hw; exact sub_pos.1 hw
  have hz : lo.z < hi.z := by rw [hc'] at hw; exact sub_pos.1 hw
  exact ((construct3_delaunay_in_box_units heps hp hx hy hz hin hn hr).1 p q z t).trans
    (delaunayUnder_scaled (one_div_pos.2 hw) (cube_scaled hc hc'))

/-- **The construction succeeds for points in general position.**  If no four points are in a plane and no five
on a sphere in box units (in a cubic box: in the given coordinates, see `construct3_succeeds_cube`), the
construction is completed, for all ways to order the points and the heap of the point location. -/
theorem construct3_succeeds {eps : K} (heps : 0 < eps) {key : P3 K → ℕ} {pop : Heaps}
    (hp : HeapsOk pop) {fuel : ℕ} {lo hi : P3 K} (hx : lo.x < hi.x) (hy : lo.y < hi.y) (hz : lo.z < hi.z)
    {points : List (N × P3 K)} (hin : ∀ e ∈ points, InBox3 lo hi e.2) (hn : (points.map Prod.snd).Nodup)
    (hg : GeneralUnder3 (inBoxUnits3 lo hi) (Site3 lo hi points)) (hf : 5 * (4 + points.length) ^ 4 + 1 ≤ fuel) :
    ∃ r, construct3 eps key pop fuel lo hi points = .done r :=
  (construct3_remapped heps hp hx hy hz hin hn).2
    (generalUnder_scaled (by norm_num : (0 : K) < 100 / 312) (remap_eq hx hy hz) hg) hf

/-- The same in a cubic box. -/
theorem construct3_succeeds_cube {eps : K} (heps : 0 < eps) {key : P3 K → ℕ} {pop : Heaps}
    (hp : HeapsOk pop) {fuel : ℕ} {lo hi : P3 K} (hx : lo.x < hi.x) (hc : hi.x - lo.x = hi.y - lo.y)
    (hc' : hi.x - lo.x = hi.z - lo.z) {points : List (N × P3 K)} (hin : ∀ e ∈ points, InBox3 lo hi e.2)
    (hn : (points.map Prod.snd).Nodup) (hg : GeneralUnder3 id (Site3 lo hi points))
    (hf : 5 * (4 + points.length) ^ 4 + 1 ≤ fuel) : ∃ r, construct3 eps key pop fuel lo hi points = .done r := by
  have hw : 0 < hi.x - lo.x := sub_pos.2 hx
  have hy : lo.y < hi.y := by rw [hc] at hw; exact sub_pos.1 hw
  have hz : lo.z < hi.z := by rw [hc'] at hw; exact sub_pos.1 hw
  exact construct3_succeeds heps hp hx hy hz hin hn
    (generalUnder_scaled (one_div_pos.2 hw) (cube_scaled hc hc') hg) hf

/-- **The order of the points is irrelevant.**  Two completed constructions for the same points, given in
different orders, sorted by different keys and located with different heaps, have the same tetrahedra. -/
theorem construct3_order {eps eps' : K} (heps : 0 < eps) (heps' : 0 < eps') {key key' : P3 K → ℕ}
    {pop pop' : Heaps} (hp : HeapsOk pop) (hp' : HeapsOk pop') {fuel fuel' : ℕ} {lo hi : P3 K}
    (hx : lo.x < hi.x) (hy : lo.y < hi.y) (hz : lo.z < hi.z) {points points' : List (N × P3 K)}
    (hperm : points.Perm points') (hin : ∀ e ∈ points, InBox3 lo hi e.2) (hn : (points.map Prod.snd).Nodup)
    {r r' : Construction3 K N} (hr : construct3 eps key pop fuel lo hi points = .done r)
    (hr' : construct3 eps' key' pop' fuel' lo hi points' = .done r') (p q z t : P3 K) :
    r.HasTetra p q z t ↔ r'.HasTetra p q z t := by
  rw [(construct3_delaunay_in_box_units heps hp hx hy hz hin hn hr).1,
    (construct3_delaunay_in_box_units heps' hp' hx hy hz (fun e he => hin e (hperm.mem_iff.2 he))
      ((hperm.map Prod.snd).nodup_iff.1 hn) hr').1]
  have : Site3 lo hi points = Site3 lo hi points' := by
    funext p
    unfold Site3
    simp only [hperm.mem_iff]
  rw [this]

end

/-! ### The hypotheses hold for concrete points, and the result is wrong in long boxes -/

section
variable {K : Type} [Field K] [LinearOrder K] [IsStrictOrderedRing K]

omit [IsStrictOrderedRing K] in
/-- General position of finitely many points can be decided. -/
private theorem generalUnder3_of_tests {f : P3 K → P3 K} {S : P3 K → Prop} {l : List (P3 K)} (hnl : l.Nodup)
    (hl : ∀ p, S p → p ∈ l)
    (h1 : (l.all fun i => l.all fun j => l.all fun k => l.all fun m =>
      !decide [i, j, k, m].Nodup || decide (orient3 ⟨f i, f j, f k, f m⟩ ≠ 0)) = true)
    (h2 : (l.sublists.all fun L =>
      match L with
      | [i, j, k, l, m] =>
        decide (Predicates.determinant5x5 (Predicates.inSphereMatrix (f i) (f j) (f k) (f l) (f m)) ≠ 0)
      | _ => true) = true) : GeneralUnder3 f S := by
  simp only [List.all_eq_true, Bool.or_eq_true, Bool.not_eq_true', decide_eq_false_iff_not,
    decide_eq_true_eq] at h1
  refine ⟨?_, ?_⟩
  · intro i j k m hi hj hk hm hnd
    exact (h1 i (hl i hi) j (hl j hj) k (hl k hk) m (hl m hm)).resolve_left (not_not.2 hnd)
  · intro i j k n m hi hj hk hn hm hnd o ho
    rw [List.all_eq_true] at h2
    have hp : (l.filter fun w => decide (w ∈ [i, j, k, n, m])).Perm [i, j, k, n, m] := by
      refine (List.perm_ext_iff_of_nodup (hnl.filter _) hnd).2 fun w => ?_
      rw [List.mem_filter, decide_eq_true_eq]
      refine ⟨fun h => h.2, fun h => ⟨?_, h⟩⟩
      simp only [List.mem_cons, List.not_mem_nil, or_false] at h
      rcases h with rfl | rfl | rfl | rfl | rfl
      · exact hl _ hi
      · exact hl _ hj
      · exact hl _ hk
      · exact hl _ hn
      · exact hl _ hm
    have h3 := h2 _ (List.mem_sublists.2 (List.filter_sublist (p := fun w => decide (w ∈ [i, j, k, n, m]))))
    have hlen := hp.length_eq
    have hmem : ∀ w ∈ (l.filter fun w => decide (w ∈ [i, j, k, n, m])), distSq3 (f w) o = distSq3 (f i) o := by
      intro w hw
      have := hp.mem_iff.1 hw
      simp only [List.mem_cons, List.not_mem_nil, or_false] at this
      rcases this with rfl | rfl | rfl | rfl | rfl
      · rfl
      · exact ho.1.symm
      · exact ho.2.1.symm
      · exact ho.2.2.1.symm
      · exact ho.2.2.2.symm
    revert h3 hlen hmem
    generalize l.filter (fun w => decide (w ∈ [i, j, k, n, m])) = L
    intro h3 hlen hmem
    match L, hlen, h3, hmem with
    | [a, b, c, d, e], _, h3, hmem =>
      dsimp only at h3
      rw [decide_eq_true_eq] at h3
      refine h3 ?_
      rw [Predicates.inSphere_identity _ _ _ _ _ o _ (hmem a (by simp)) (hmem b (by simp)) (hmem c (by simp))
        (hmem d (by simp)), hmem e (by simp), sub_self, mul_zero]

end

/-- Five named points. -/
def examplePoints5 : List (ℕ × P3 ℚ) := [(10, ⟨1, 1 / 5, 1 / 2⟩), (11, ⟨9 / 10, 4 / 5, 4 / 5⟩),
  (12, ⟨16 / 5, 7 / 10, 2 / 5⟩), (13, ⟨4 / 5, 4 / 5, 1 / 10⟩), (14, ⟨13 / 5, 7 / 10, 1 / 10⟩)]

/-- Three points in a cubic box meet all hypotheses. -/
example : (⟨0, 0, -1⟩ : P3 ℚ).x < (⟨4, 4, 3⟩ : P3 ℚ).x ∧ (4 : ℚ) - 0 = 4 - 0 ∧ (4 : ℚ) - 0 = 3 - -1 ∧
    (∀ e ∈ examplePoints5.take 3, InBox3 ⟨0, 0, -1⟩ ⟨4, 4, 3⟩ e.2) ∧ ((examplePoints5.take 3).map Prod.snd).Nodup ∧
    GeneralUnder3 id (Site3 (⟨0, 0, -1⟩ : P3 ℚ) ⟨4, 4, 3⟩ (examplePoints5.take 3)) ∧
    ∃ r, construct3 (1 / 100) (fun _ => 0) popHead 12006 ⟨0, 0, -1⟩ ⟨4, 4, 3⟩ (examplePoints5.take 3) = .done r := by
  have h1 : (⟨0, 0, -1⟩ : P3 ℚ).x < (⟨4, 4, 3⟩ : P3 ℚ).x := by decide +kernel
  have h2 : ∀ e ∈ examplePoints5.take 3, InBox3 ⟨0, 0, -1⟩ ⟨4, 4, 3⟩ e.2 := by
    unfold InBox3
    decide +kernel
  have h3 : ((examplePoints5.take 3).map Prod.snd).Nodup := by decide +kernel
  have h4 : GeneralUnder3 id (Site3 (⟨0, 0, -1⟩ : P3 ℚ) ⟨4, 4, 3⟩ (examplePoints5.take 3)) := by
    apply generalUnder3_of_tests (l := allPoints3 ⟨0, 0, -1⟩ ⟨4, 4, 3⟩ ((examplePoints5.take 3).map Prod.snd))
    · decide +kernel
    · intro p hp
      unfold Site3 at hp
      unfold allPoints3
      simp only [List.mem_cons, List.mem_map]
      exact hp
    · decide +kernel
    · decide +kernel
  exact ⟨h1, by norm_num, by norm_num, h2, h3, h4, construct3_succeeds_cube (by norm_num) popHead_ok h1 (by norm_num)
    (by norm_num) h2 h3 h4 (by decide)⟩

/-- **In long boxes the result is not the Delaunay mesh.**  In the box from (0, 0, 0) to (4, 1, 1) the mesh of five
points contains a tetrahedron with another of the points inside of its circumsphere. -/
theorem long_box_not_delaunay3 :
    ∃ r, construct3 (1 / 100) (fun _ => 0) popHead 100 ⟨0, 0, 0⟩ ⟨4, 1, 1⟩ examplePoints5 = .done r ∧
      r.HasTetra ⟨1, 1 / 5, 1 / 2⟩ ⟨9 / 10, 4 / 5, 4 / 5⟩ ⟨16 / 5, 7 / 10, 2 / 5⟩ ⟨4 / 5, 4 / 5, 1 / 10⟩ ∧
      ¬DelaunayTetra (Site3 (⟨0, 0, 0⟩ : P3 ℚ) ⟨4, 1, 1⟩ examplePoints5) ⟨1, 1 / 5, 1 / 2⟩ ⟨9 / 10, 4 / 5, 4 / 5⟩
        ⟨16 / 5, 7 / 10, 2 / 5⟩ ⟨4 / 5, 4 / 5, 1 / 10⟩ := by
  have hd : (match construct3 (1 / 100) (fun _ => 0) popHead 100 ⟨0, 0, 0⟩ ⟨4, 1, 1⟩ examplePoints5 with
      | .done r => decide (((List.range 100).any fun i =>
          match r.state.mesh.tetras.get i with
          | some T => decide (T.points.Perm [4, 5, 6, 7])
          | none => false) = true ∧
          r.position 4 = ⟨1, 1 / 5, 1 / 2⟩ ∧ r.position 5 = ⟨9 / 10, 4 / 5, 4 / 5⟩ ∧
          r.position 6 = ⟨16 / 5, 7 / 10, 2 / 5⟩ ∧ r.position 7 = ⟨4 / 5, 4 / 5, 1 / 10⟩)
      | _ => false) = true := by decide +kernel
  revert hd
  cases construct3 (1 / 100) (fun _ => 0) popHead 100 (⟨0, 0, 0⟩ : P3 ℚ) ⟨4, 1, 1⟩ examplePoints5 with
  | panic => exact fun h => by cases h
  | running => exact fun h => by cases h
  | done r =>
    intro hd
    obtain ⟨h1, h2, h3, h4, h5⟩ := of_decide_eq_true hd
    refine ⟨r, rfl, ?_, ?_⟩
    · obtain ⟨i, -, hi⟩ := List.any_eq_true.1 h1
      cases hT : r.state.mesh.tetras.get i with
      | none => rw [hT] at hi; cases hi
      | some T =>
        rw [hT] at hi
        exact ⟨4, 5, 6, 7, ⟨i, T, hT, of_decide_eq_true hi⟩, h2, h3, h4, h5⟩
    · rintro ⟨-, -, -, -, ho, o, rho, e1, e2, e3, e4, e5⟩
      have := e5 ⟨13 / 5, 7 / 10, 1 / 10⟩
        (Or.inr (Or.inr (Or.inr (Or.inr ⟨(14, ⟨13 / 5, 7 / 10, 1 / 10⟩), by decide +kernel, rfl⟩))))
        (by decide +kernel) (by decide +kernel) (by decide +kernel) (by decide +kernel)
      unfold distSq3 at *
      dsimp only [id] at *
      linarith

end Verif.Delaunay
