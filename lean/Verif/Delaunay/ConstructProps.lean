import Verif.Delaunay.ConstructSpec
import Verif.Delaunay.PlaneProps

/-! # The construction yields the Delaunay triangulation of the given points -/

namespace Verif.Delaunay

open Verif.Predicates (P2 Triangle2 orient2 distSq2 Bary2)

section
variable {K : Type} [Field K] [LinearOrder K] [IsStrictOrderedRing K] {N : Type}

private theorem dist_scaled {f g : P2 K → P2 K} {c1 c2 s : K}
    (h : ∀ p, g p = ⟨c1 + s * (f p).x, c2 + s * (f p).y⟩) (p o : P2 K) :
    distSq2 (g p) ⟨c1 + s * o.x, c2 + s * o.y⟩ = s ^ 2 * distSq2 (f p) o := by
  rw [h p]
  unfold distSq2
  dsimp only
  ring

private theorem orient_scaled {f g : P2 K → P2 K} {c1 c2 s : K}
    (h : ∀ p, g p = ⟨c1 + s * (f p).x, c2 + s * (f p).y⟩) (p q r : P2 K) :
    orient2 ⟨g p, g q, g r⟩ = s ^ 2 * orient2 ⟨f p, f q, f r⟩ := by
  rw [h p, h q, h r]
  unfold orient2
  dsimp only
  ring

private theorem centre {c1 c2 s : K} (hs : 0 < s) (o : P2 K) :
    ∃ o' : P2 K, o = ⟨c1 + s * o'.x, c2 + s * o'.y⟩ := by
  refine ⟨⟨(o.x - c1) / s, (o.y - c2) / s⟩, ?_⟩
  apply P2.ext
  · dsimp only
    rw [mul_div_cancel₀ _ hs.ne']
    ring
  · dsimp only
    rw [mul_div_cancel₀ _ hs.ne']
    ring

private theorem delaunayUnder_scaled {f g : P2 K → P2 K} {c1 c2 s : K} (hs : 0 < s)
    (h : ∀ p, g p = ⟨c1 + s * (f p).x, c2 + s * (f p).y⟩) {S : P2 K → Prop} {p q r : P2 K} :
    DelaunayUnder g S p q r ↔ DelaunayUnder f S p q r := by
  have h2 : 0 < s ^ 2 := pow_pos hs 2
  unfold DelaunayUnder
  rw [orient_scaled h, mul_pos_iff_of_pos_left h2]
  refine and_congr_right fun _ => and_congr_right fun _ => and_congr_right fun _ => and_congr_right fun _ => ?_
  constructor
  · rintro ⟨o, rho, e1, e2, e3, e4⟩
    obtain ⟨o', rfl⟩ := centre (c1 := c1) (c2 := c2) hs o
    simp only [dist_scaled h] at e1 e2 e3 e4
    subst e1
    refine ⟨o', _, rfl, mul_left_cancel₀ h2.ne' e2, mul_left_cancel₀ h2.ne' e3, fun z h1 n1 n2 n3 => ?_⟩
    exact (mul_lt_mul_iff_right₀ h2).1 (e4 z h1 n1 n2 n3)
  · rintro ⟨o, rho, e1, e2, e3, e4⟩
    refine ⟨⟨c1 + s * o.x, c2 + s * o.y⟩, s ^ 2 * rho, ?_, ?_, ?_, fun z h1 n1 n2 n3 => ?_⟩
    · rw [dist_scaled h, e1]
    · rw [dist_scaled h, e2]
    · rw [dist_scaled h, e3]
    · rw [dist_scaled h]
      exact (mul_lt_mul_iff_right₀ h2).2 (e4 z h1 n1 n2 n3)

theorem generalUnder_scaled2 {f g : P2 K → P2 K} {c1 c2 s : K} (hs : 0 < s)
    (h : ∀ p, g p = ⟨c1 + s * (f p).x, c2 + s * (f p).y⟩) {S : P2 K → Prop} (hg : GeneralUnder f S) :
    GeneralUnder g S := by
  have h2 : s ^ 2 ≠ 0 := (pow_pos hs 2).ne'
  refine ⟨fun p q r h1 h3 h4 n1 n2 n3 => ?_, ?_⟩
  · rw [orient_scaled h]
    exact mul_ne_zero h2 (hg.1 p q r h1 h3 h4 n1 n2 n3)
  · intro p q r z h1 h3 h4 h5 n1 n2 n3 n4 n5 n6 o ho
    obtain ⟨o', rfl⟩ := centre (c1 := c1) (c2 := c2) hs o
    simp only [dist_scaled h] at ho
    exact hg.2 p q r z h1 h3 h4 h5 n1 n2 n3 n4 n5 n6 o' ⟨mul_left_cancel₀ h2 ho.1, mul_left_cancel₀ h2 ho.2.1,
      mul_left_cancel₀ h2 ho.2.2⟩

/-- The extent of the initial triangle. -/
private theorem extent2_initial {lo hi : P2 K} (hx : lo.x < hi.x) (hy : lo.y < hi.y) :
    extent2 (Triangle2.allEncompassing lo hi) =
      (⟨lo.x - (hi.x - lo.x), lo.y - (hi.y - lo.y)⟩,
       ⟨hi.x + 2 * (hi.x - lo.x), hi.y + 2 * (hi.y - lo.y)⟩) := by
  unfold extent2 Triangle2.allEncompassing
  dsimp only
  have a1 : 0 < hi.x - lo.x := sub_pos.2 hx
  have a2 : 0 < hi.y - lo.y := sub_pos.2 hy
  congr 1
  · apply P2.ext
    · dsimp only
      rw [min_eq_right (a := lo.x) (by linarith), min_eq_left (by linarith)]
      ring
    · dsimp only
      rw [min_eq_right (a := hi.y + _) (by linarith), min_eq_left (by linarith)]
      ring
  · apply P2.ext
    · dsimp only
      rw [max_eq_left (a := lo.x) (by linarith), max_eq_right (by linarith)]
      ring
    · dsimp only
      rw [max_eq_left (a := hi.y + _) (by linarith), max_eq_left (by linarith)]
      ring

private theorem remap_eq {lo hi : P2 K} (hx : lo.x < hi.x) (hy : lo.y < hi.y) (p : P2 K) :
    remapPoint2 (extent2 (Triangle2.allEncompassing lo hi)) p =
      ⟨(1 - (lo.x - (hi.x - lo.x)) / (4 * (hi.x - lo.x))) + 1 / 4 * (inBoxUnits lo hi p).x,
       (1 - (lo.y - (hi.y - lo.y)) / (4 * (hi.y - lo.y))) + 1 / 4 * (inBoxUnits lo hi p).y⟩ := by
  rw [extent2_initial hx hy]
  have a1 : hi.x - lo.x ≠ 0 := (sub_pos.2 hx).ne'
  have a2 : hi.y - lo.y ≠ 0 := (sub_pos.2 hy).ne'
  unfold remapPoint2 inBoxUnits
  dsimp only
  have e1 : hi.x + 2 * (hi.x - lo.x) - (lo.x - (hi.x - lo.x)) = 4 * (hi.x - lo.x) := by ring
  have e2 : hi.y + 2 * (hi.y - lo.y) - (lo.y - (hi.y - lo.y)) = 4 * (hi.y - lo.y) := by ring
  rw [e1, e2]
  apply P2.ext
  · dsimp only
    field_simp
    ring
  · dsimp only
    field_simp
    ring

private theorem positionOf_eq {l : List (P2 K)} {i : ℕ} (h : i < l.length) : positionOf l i = l[i] := by
  unfold positionOf
  rw [List.getElem?_eq_getElem h]
  rfl

/-- The vertices of the initial triangle are different and lie outside of the box. -/
theorem allPoints2_nodup {lo hi : P2 K} (hx : lo.x < hi.x) (hy : lo.y < hi.y) {pts : List (P2 K)}
    (hin : ∀ p ∈ pts, lo.x ≤ p.x ∧ p.x ≤ hi.x ∧ lo.y ≤ p.y ∧ p.y ≤ hi.y) (hn : pts.Nodup) :
    (allPoints2 lo hi pts).Nodup := by
  unfold allPoints2 Triangle2.allEncompassing
  dsimp only
  have a1 : 0 < hi.x - lo.x := sub_pos.2 hx
  have a2 : 0 < hi.y - lo.y := sub_pos.2 hy
  rw [List.nodup_cons, List.nodup_cons, List.nodup_cons]
  refine ⟨?_, ?_, ?_, hn⟩
  · intro h
    rcases List.mem_cons.1 h with e | h
    · have := congrArg P2.x e
      dsimp only at this
      linarith
    rcases List.mem_cons.1 h with e | h
    · have := congrArg P2.x e
      dsimp only at this
      linarith
    · have := (hin _ h).2.2.2
      dsimp only at this
      linarith
  · intro h
    rcases List.mem_cons.1 h with e | h
    · have := congrArg P2.x e
      dsimp only at this
      linarith
    · have := (hin _ h).1
      dsimp only at this
      linarith
  · intro h
    have := (hin _ h).2.1
    dsimp only at this
    linarith

private theorem orient_remap {lo hi : P2 K} (hx : lo.x < hi.x) (hy : lo.y < hi.y) (p q r : P2 K) :
    orient2 ⟨remapPoint2 (extent2 (Triangle2.allEncompassing lo hi)) p,
      remapPoint2 (extent2 (Triangle2.allEncompassing lo hi)) q,
      remapPoint2 (extent2 (Triangle2.allEncompassing lo hi)) r⟩ * (16 * ((hi.x - lo.x) * (hi.y - lo.y))) =
    orient2 ⟨p, q, r⟩ := by
  have a1 : hi.x - lo.x ≠ 0 := (sub_pos.2 hx).ne'
  have a2 : hi.y - lo.y ≠ 0 := (sub_pos.2 hy).ne'
  rw [orient_scaled (remap_eq hx hy)]
  unfold orient2 inBoxUnits
  dsimp only
  field_simp
  ring

theorem inTriangle_remap {lo hi : P2 K} (hx : lo.x < hi.x) (hy : lo.y < hi.y) {t : Triangle2 K} {p : P2 K}
    (h : InTriangle t p) :
    InTriangle ⟨remapPoint2 (extent2 (Triangle2.allEncompassing lo hi)) t.p1,
      remapPoint2 (extent2 (Triangle2.allEncompassing lo hi)) t.p2,
      remapPoint2 (extent2 (Triangle2.allEncompassing lo hi)) t.p3⟩
      (remapPoint2 (extent2 (Triangle2.allEncompassing lo hi)) p) := by
  obtain ⟨w1, w2, w3, h1, h2, h3, e1, e2, e3⟩ := h
  refine ⟨w1, w2, w3, h1, h2, h3, e1, ?_, ?_⟩
  · dsimp only [remapPoint2]
    rw [e2]
    linear_combination (-1 + (extent2 (Triangle2.allEncompassing lo hi)).1.x *
      (1 / ((extent2 (Triangle2.allEncompassing lo hi)).2.x - (extent2 (Triangle2.allEncompassing lo hi)).1.x))) * e1
  · dsimp only [remapPoint2]
    rw [e3]
    linear_combination (-1 + (extent2 (Triangle2.allEncompassing lo hi)).1.y *
      (1 / ((extent2 (Triangle2.allEncompassing lo hi)).2.y - (extent2 (Triangle2.allEncompassing lo hi)).1.y))) * e1

theorem inTriangle_site {lo hi : P2 K} (hx : lo.x < hi.x) (hy : lo.y < hi.y) {points : List (N × P2 K)}
    (hin : ∀ e ∈ points, lo.x ≤ e.2.x ∧ e.2.x ≤ hi.x ∧ lo.y ≤ e.2.y ∧ e.2.y ≤ hi.y) {p : P2 K}
    (h : Site lo hi points p) : InTriangle (Triangle2.allEncompassing lo hi) p := by
  obtain ⟨hor, hc⟩ := Verif.Predicates.initial_triangle_contains lo hi hx hy
  rcases h with rfl | rfl | rfl | ⟨e, he, rfl⟩
  · exact ⟨1, 0, 0, zero_le_one, le_rfl, le_rfl, by ring, by ring, by ring⟩
  · exact ⟨0, 1, 0, le_rfl, zero_le_one, le_rfl, by ring, by ring, by ring⟩
  · exact ⟨0, 0, 1, le_rfl, le_rfl, zero_le_one, by ring, by ring, by ring⟩
  · obtain ⟨w1, w2, w3, hw⟩ := Verif.Predicates.bary2_exists _ hor.ne' e.2
    obtain ⟨h1, h2, h3, h4⟩ := hin e he
    obtain ⟨p1, p2, p3⟩ := (Verif.Predicates.triangle_contains_correct _ hor.ne' e.2 w1 w2 w3 hw).1.1
      (hc e.2 h1 h2 h3 h4)
    exact ⟨w1, w2, w3, p1.le, p2.le, p3.le, hw⟩

/-- What `construct` returns, in the coordinates of `remap_point`. -/
private theorem construct2_remapped {key : P2 K → ℕ} {pop : Heaps} (hp : HeapsOk pop)
    {fuel : ℕ} {lo hi : P2 K} (hx : lo.x < hi.x) (hy : lo.y < hi.y) {points : List (N × P2 K)}
    (hin : ∀ e ∈ points, lo.x ≤ e.2.x ∧ e.2.x ≤ hi.x ∧ lo.y ≤ e.2.y ∧ e.2.y ≤ hi.y)
    (hn : (points.map Prod.snd).Nodup) :
    (∀ r, construct2 key pop fuel lo hi points = .done r →
      (∀ p q z, r.HasTriangle p q z ↔
        DelaunayUnder (remapPoint2 (extent2 (Triangle2.allEncompassing lo hi))) (Site lo hi points) p q z) ∧
      (r.indices.map fun e => (e.1, r.position e.2)).Perm points) ∧
    (GeneralUnder (remapPoint2 (extent2 (Triangle2.allEncompassing lo hi))) (Site lo hi points) →
      8 * points.length + 5 ≤ fuel → ∃ r, construct2 key pop fuel lo hi points = .done r) := by
  unfold construct2
  dsimp only
  set sorted := points.insertionSort fun a b => key a.2 ≤ key b.2 with hsorted
  have hperm : sorted.Perm points := List.perm_insertionSort _ _
  set all := allPoints2 lo hi (sorted.map Prod.snd) with hall
  set f := remapPoint2 (extent2 (Triangle2.allEncompassing lo hi)) with hfdef
  have hlen : all.length = 3 + points.length := by
    rw [hall]
    unfold allPoints2
    simp only [List.length_cons, List.length_map, hperm.length_eq]
    omega
  have hnodup : all.Nodup := by
    apply allPoints2_nodup hx hy
    · intro p hp
      obtain ⟨e, he, rfl⟩ := List.mem_map.1 hp
      exact hin e (hperm.mem_iff.1 he)
    · exact (hperm.map Prod.snd).nodup_iff.2 hn
  have hsite : ∀ p, Site lo hi points p ↔ p ∈ all := by
    intro p
    rw [hall]
    unfold allPoints2 Site
    simp only [List.mem_cons, List.mem_map, hperm.mem_iff]
  have hpos : ∀ i, i < 3 + points.length → Site lo hi points (positionOf all i) := by
    intro i hi
    rw [← hlen] at hi
    rw [hsite, positionOf_eq hi]
    exact List.getElem_mem hi
  have hinj : ∀ i j, i < 3 + points.length → j < 3 + points.length → i ≠ j → positionOf all i ≠ positionOf all j := by
    intro i j hi hj hne
    rw [← hlen] at hi hj
    rw [positionOf_eq hi, positionOf_eq hj]
    exact fun e => hne (hnodup.getElem_inj_iff.1 e)
  have hsurj : ∀ p, Site lo hi points p → ∃ i, i < 3 + points.length ∧ positionOf all i = p := by
    intro p hp
    obtain ⟨i, hi, e⟩ := List.mem_iff_getElem.1 ((hsite p).1 hp)
    exact ⟨i, hlen ▸ hi, by rw [positionOf_eq hi]; exact e⟩
  set x : ℕ → P2 K := fun i => f (positionOf all i) with hxdef
  have z0 : positionOf all 0 = (Triangle2.allEncompassing lo hi).p1 := rfl
  have z1 : positionOf all 1 = (Triangle2.allEncompassing lo hi).p2 := rfl
  have z2 : positionOf all 2 = (Triangle2.allEncompassing lo hi).p3 := rfl
  have hor : 0 < orient2 ⟨x 0, x 1, x 2⟩ := by
    have h1 := (Verif.Predicates.initial_triangle_contains lo hi hx hy).1
    have h2 := orient_remap hx hy (Triangle2.allEncompassing lo hi).p1 (Triangle2.allEncompassing lo hi).p2
      (Triangle2.allEncompassing lo hi).p3
    have h3 : 0 < 16 * ((hi.x - lo.x) * (hi.y - lo.y)) :=
      mul_pos (by norm_num) (mul_pos (sub_pos.2 hx) (sub_pos.2 hy))
    exact (mul_pos_iff_of_pos_right h3).1 (by rw [← h2] at h1; exact h1)
  have hinside : ∀ i, i < 3 + points.length → InTriangle ⟨x 0, x 1, x 2⟩ (x i) := by
    intro i hi
    exact inTriangle_remap hx hy (inTriangle_site hx hy hin (hpos i hi))
  obtain ⟨s0, h0⟩ : ∃ s, start2 = some s := ⟨_, rfl⟩
  rw [h0, hperm.length_eq]
  dsimp only
  refine ⟨?_, fun hg hf => ?_⟩
  swap
  · have hgen : GeneralPosition x (3 + points.length) := by
      constructor
      · intro i j k hi hj hk n1 n2 n3
        exact hg.1 _ _ _ (hpos i hi) (hpos j hj) (hpos k hk) (hinj i j hi hj n1) (hinj i k hi hk n2) (hinj j k hj hk n3)
      · intro i j k l hi hj hk hl n1 n2 n3 n4 n5 n6
        exact hg.2 _ _ _ _ (hpos i hi) (hpos j hj) (hpos k hk) (hpos l hl) (hinj i j hi hj n1) (hinj i k hi hk n2)
          (hinj i l hi hl n3) (hinj j k hj hk n4) (hinj j l hj hl n5) (hinj k l hk hl n6)
    obtain ⟨s, hs⟩ := delaunay2_complete hor hp hgen hinside hf h0
    exact ⟨_, by rw [hs]⟩
  intro r hr
  obtain ⟨s, hs⟩ : ∃ s, insertMany (geo2 x) ops2 pop fuel points.length s0 = .done s := by
    revert hr
    cases insertMany (geo2 x) ops2 pop fuel points.length s0 with
    | done s => exact fun _ => ⟨s, rfl⟩
    | panic => exact fun h => by cases h
    | running => exact fun h => by cases h
  rw [hs] at hr
  dsimp only at hr
  rw [Outcome.done.injEq] at hr
  subst hr
  refine ⟨?_, ?_⟩
  · intro p q z
    unfold Construction.HasTriangle
    dsimp only
    constructor
    · rintro ⟨a, b, c, ht, rfl, rfl, rfl⟩
      obtain ⟨i, T, hT, hpts⟩ := id ht
      obtain ⟨a', b', c', e, l1, l2, l3, hpos', -⟩ := delaunay2 hor hp h0 hs i T hT
      have hl : (a < 3 + points.length ∧ b < 3 + points.length ∧ c < 3 + points.length) ∧
          0 < orient2 ⟨x a, x b, x c⟩ := by
        rw [e] at hpts
        rcases hpts with h | h | h <;>
          (simp only [List.cons.injEq, and_true] at h; obtain ⟨rfl, rfl, rfl⟩ := h)
        · exact ⟨⟨l1, l2, l3⟩, hpos'⟩
        · refine ⟨⟨l3, l1, l2⟩, ?_⟩
          have := area_cyc' (x a') (x b') (x c')
          unfold area at this
          rwa [← this] at hpos'
        · refine ⟨⟨l2, l3, l1⟩, ?_⟩
          have := area_cyc (x a') (x b') (x c')
          unfold area at this
          rwa [← this] at hpos'
      obtain ⟨⟨la, lb, lc⟩, ho⟩ := hl
      obtain ⟨o, rho, e1, e2, e3, e4⟩ := (delaunay2_iff hor hp h0 hs la lb lc ho).1 ht
      refine ⟨hpos a la, hpos b lb, hpos c lc, ho, o, rho, e1, e2, e3, ?_⟩
      intro z hz n1 n2 n3
      obtain ⟨w, hw, rfl⟩ := hsurj z hz
      exact e4 w hw (fun h => n1 (h ▸ rfl)) (fun h => n2 (h ▸ rfl)) (fun h => n3 (h ▸ rfl))
    · rintro ⟨hp', hq', hz', ho, o, rho, e1, e2, e3, e4⟩
      obtain ⟨a, la, rfl⟩ := hsurj p hp'
      obtain ⟨b, lb, rfl⟩ := hsurj q hq'
      obtain ⟨c, lc, rfl⟩ := hsurj z hz'
      refine ⟨a, b, c, (delaunay2_iff hor hp h0 hs la lb lc ho).2 ⟨o, rho, e1, e2, e3, ?_⟩, rfl, rfl, rfl⟩
      intro w hw n1 n2 n3
      exact e4 _ (hpos w hw) (hinj w a hw la n1) (hinj w b hw lb n2) (hinj w c hw lc n3)
  · have : (List.map (fun e => (e.1, positionOf all e.2)) (sorted.zipIdx.map fun e => (e.1.1, 3 + e.2))) = sorted := by
      apply List.ext_getElem
      · simp
      · intro i h1 h2
        simp only [List.getElem_map, List.getElem_zipIdx, zero_add]
        have h3 : 3 + i < all.length := by rw [hlen, ← hperm.length_eq]; omega
        rw [positionOf_eq h3]
        have h4 : all[3 + i] = (sorted.map Prod.snd)[i]'(by simpa using h2) := by
          have : 3 + i = i + 1 + 1 + 1 := by omega
          simp only [hall, allPoints2, this, List.getElem_cons_succ]
        rw [h4, List.getElem_map]
    rw [this]
    exact hperm

/-- What `construct` does: the points of the result are the given ones and the vertices of the initial triangle. -/
theorem construct2_run {key : P2 K → ℕ} {pop : Heaps}
    {fuel : ℕ} {lo hi : P2 K} (hx : lo.x < hi.x) (hy : lo.y < hi.y) {points : List (N × P2 K)}
    {r : Construction K N} (hr : construct2 key pop fuel lo hi points = .done r) :
    ∃ s0, start2 = some s0 ∧
      insertMany (geo2 fun i => remapPoint2 (extent2 (Triangle2.allEncompassing lo hi)) (r.position i)) ops2 pop fuel
        points.length s0 = .done r.state ∧
      0 < orient2 ⟨remapPoint2 (extent2 (Triangle2.allEncompassing lo hi)) (r.position 0),
        remapPoint2 (extent2 (Triangle2.allEncompassing lo hi)) (r.position 1),
        remapPoint2 (extent2 (Triangle2.allEncompassing lo hi)) (r.position 2)⟩ ∧
      (∀ i, i < 3 + points.length → Site lo hi points (r.position i)) ∧
      (∀ p, Site lo hi points p → ∃ i, i < 3 + points.length ∧ r.position i = p) ∧
      (r.indices.map fun e => (e.1, r.position e.2)).Perm points ∧
      ∀ e ∈ r.indices, 3 ≤ e.2 ∧ e.2 < 3 + points.length := by
  unfold construct2 at hr
  dsimp only at hr
  set sorted := points.insertionSort fun a b => key a.2 ≤ key b.2 with hsorted
  have hperm : sorted.Perm points := List.perm_insertionSort _ _
  set all := allPoints2 lo hi (sorted.map Prod.snd) with hall
  have hlen : all.length = 3 + points.length := by
    rw [hall]
    unfold allPoints2
    simp only [List.length_cons, List.length_map, hperm.length_eq]
    omega
  have hsite : ∀ p, Site lo hi points p ↔ p ∈ all := by
    intro p
    rw [hall]
    unfold allPoints2 Site
    simp only [List.mem_cons, List.mem_map, hperm.mem_iff]
  have hpos : ∀ i, i < 3 + points.length → Site lo hi points (positionOf all i) := by
    intro i hi
    rw [← hlen] at hi
    rw [hsite, positionOf_eq hi]
    exact List.getElem_mem hi
  have hsurj : ∀ p, Site lo hi points p → ∃ i, i < 3 + points.length ∧ positionOf all i = p := by
    intro p hp
    obtain ⟨i, hi, e⟩ := List.mem_iff_getElem.1 ((hsite p).1 hp)
    exact ⟨i, hlen ▸ hi, by rw [positionOf_eq hi]; exact e⟩
  obtain ⟨s0, h0⟩ : ∃ s, start2 = some s := ⟨_, rfl⟩
  rw [h0, hperm.length_eq] at hr
  dsimp only at hr
  refine ⟨s0, h0, ?_⟩
  cases hs : insertMany (geo2 fun i => remapPoint2 (extent2 (Triangle2.allEncompassing lo hi)) (positionOf all i)) ops2
      pop fuel points.length s0 with
  | panic => rw [hs] at hr; cases hr
  | running => rw [hs] at hr; cases hr
  | done s =>
    rw [hs] at hr
    dsimp only at hr
    rw [Outcome.done.injEq] at hr
    subst hr
    refine ⟨hs, ?_, hpos, hsurj, ?_, ?_⟩
    · have h1 := (Verif.Predicates.initial_triangle_contains lo hi hx hy).1
      have h2 := orient_remap hx hy (Triangle2.allEncompassing lo hi).p1 (Triangle2.allEncompassing lo hi).p2
        (Triangle2.allEncompassing lo hi).p3
      have h3 : 0 < 16 * ((hi.x - lo.x) * (hi.y - lo.y)) :=
        mul_pos (by norm_num) (mul_pos (sub_pos.2 hx) (sub_pos.2 hy))
      exact (mul_pos_iff_of_pos_right h3).1 (by rw [← h2] at h1; exact h1)
    · have : (List.map (fun e => (e.1, positionOf all e.2)) (sorted.zipIdx.map fun e => (e.1.1, 3 + e.2))) = sorted := by
        apply List.ext_getElem
        · simp
        · intro i h1 h2
          simp only [List.getElem_map, List.getElem_zipIdx, zero_add]
          have h3 : 3 + i < all.length := by rw [hlen, ← hperm.length_eq]; omega
          rw [positionOf_eq h3]
          have h4 : all[3 + i] = (sorted.map Prod.snd)[i]'(by simpa using h2) := by
            have : 3 + i = i + 1 + 1 + 1 := by omega
            simp only [hall, allPoints2, this, List.getElem_cons_succ]
          rw [h4, List.getElem_map]
      dsimp only
      rw [this]
      exact hperm
    · intro e he
      dsimp only at he
      obtain ⟨⟨a, i⟩, he', rfl⟩ := List.mem_map.1 he
      have := List.snd_lt_of_mem_zipIdx he'
      rw [hperm.length_eq] at this
      dsimp only at this ⊢
      omega

/-- In a square box `remap_point` is a scaling. -/
theorem remap_square {lo hi : P2 K} (hx : lo.x < hi.x) (hsq : hi.x - lo.x = hi.y - lo.y) :
    ∃ c1 c2 k : K, 0 < k ∧ ∀ p, remapPoint2 (extent2 (Triangle2.allEncompassing lo hi)) p =
      ⟨c1 + k * p.x, c2 + k * p.y⟩ := by
  have hw : 0 < hi.x - lo.x := sub_pos.2 hx
  have hy : lo.y < hi.y := by rw [hsq] at hw; exact sub_pos.1 hw
  refine ⟨1 - (lo.x - (hi.x - lo.x)) / (4 * (hi.x - lo.x)), 1 - (lo.y - (hi.y - lo.y)) / (4 * (hi.y - lo.y)),
    1 / (4 * (hi.x - lo.x)), by positivity, fun p => ?_⟩
  rw [remap_eq hx hy]
  unfold inBoxUnits
  rw [← hsq]
  apply P2.ext
  · dsimp only
    congr 1
    field_simp
  · dsimp only
    congr 1
    field_simp

/-- **The triangles are the Delaunay triangles in box units.**  Whenever the construction is completed for
different points in the box, the triangles are exactly the Delaunay triangles of the given points and the
vertices of the initial triangle, if lengths along each axis are measured in units of the side of the box; and every
name is mapped to the index of its own point. -/
theorem construct2_delaunay_in_box_units {key : P2 K → ℕ} {pop : Heaps} (hp : HeapsOk pop)
    {fuel : ℕ} {lo hi : P2 K} (hx : lo.x < hi.x) (hy : lo.y < hi.y) {points : List (N × P2 K)}
    (hin : ∀ e ∈ points, lo.x ≤ e.2.x ∧ e.2.x ≤ hi.x ∧ lo.y ≤ e.2.y ∧ e.2.y ≤ hi.y)
    (hn : (points.map Prod.snd).Nodup) {r : Construction K N}
    (hr : construct2 key pop fuel lo hi points = .done r) :
    (∀ p q z, r.HasTriangle p q z ↔ DelaunayUnder (inBoxUnits lo hi) (Site lo hi points) p q z) ∧
      (r.indices.map fun e => (e.1, r.position e.2)).Perm points := by
  obtain ⟨h1, h2⟩ := (construct2_remapped (key := key) (fuel := fuel) hp hx hy hin hn).1 r hr
  exact ⟨fun p q z => (h1 p q z).trans (delaunayUnder_scaled (by norm_num : (0 : K) < 1 / 4) (remap_eq hx hy)), h2⟩

/-- In a square box the map to box units is a scaling. -/
private theorem square_scaled {lo hi : P2 K} (hsq : hi.x - lo.x = hi.y - lo.y) (p : P2 K) :
    inBoxUnits lo hi p = ⟨0 + 1 / (hi.x - lo.x) * (id p).x, 0 + 1 / (hi.x - lo.x) * (id p).y⟩ := by
  unfold inBoxUnits
  rw [← hsq]
  apply P2.ext
  · dsimp only [id]
    ring
  · dsimp only [id]
    ring

/-- **In square boxes the result is the Delaunay triangulation.**  Whenever the construction is completed for
different points in a square box, its triangles are exactly the Delaunay triangles of the given points and the
vertices of the initial triangle. -/
theorem construct2_delaunay {key : P2 K → ℕ} {pop : Heaps} (hp : HeapsOk pop)
    {fuel : ℕ} {lo hi : P2 K} (hx : lo.x < hi.x) (hsq : hi.x - lo.x = hi.y - lo.y) {points : List (N × P2 K)}
    (hin : ∀ e ∈ points, lo.x ≤ e.2.x ∧ e.2.x ≤ hi.x ∧ lo.y ≤ e.2.y ∧ e.2.y ≤ hi.y)
    (hn : (points.map Prod.snd).Nodup) {r : Construction K N}
    (hr : construct2 key pop fuel lo hi points = .done r) (p q z : P2 K) :
    r.HasTriangle p q z ↔ DelaunayTriangle (Site lo hi points) p q z := by
  have hw : 0 < hi.x - lo.x := sub_pos.2 hx
  have hy : lo.y < hi.y := by rw [hsq] at hw; exact sub_pos.1 hw
  exact ((construct2_delaunay_in_box_units hp hx hy hin hn hr).1 p q z).trans
    (delaunayUnder_scaled (one_div_pos.2 hw) (square_scaled hsq))

/-- **The construction succeeds for points in general position.**  If no three points are on a line and no four
on a circle in box units (in a square box: in the given coordinates, see `construct2_succeeds_square`), the
construction is completed, for all ways to order the points and the heap of the point location. -/
theorem construct2_succeeds {key : P2 K → ℕ} {pop : Heaps} (hp : HeapsOk pop)
    {fuel : ℕ} {lo hi : P2 K} (hx : lo.x < hi.x) (hy : lo.y < hi.y) {points : List (N × P2 K)}
    (hin : ∀ e ∈ points, lo.x ≤ e.2.x ∧ e.2.x ≤ hi.x ∧ lo.y ≤ e.2.y ∧ e.2.y ≤ hi.y)
    (hn : (points.map Prod.snd).Nodup) (hg : GeneralUnder (inBoxUnits lo hi) (Site lo hi points))
    (hf : 8 * points.length + 5 ≤ fuel) : ∃ r, construct2 key pop fuel lo hi points = .done r :=
  (construct2_remapped hp hx hy hin hn).2
    (generalUnder_scaled2 (by norm_num : (0 : K) < 1 / 4) (remap_eq hx hy) hg) hf

/-- The same in a square box. -/
theorem construct2_succeeds_square {key : P2 K → ℕ} {pop : Heaps} (hp : HeapsOk pop)
    {fuel : ℕ} {lo hi : P2 K} (hx : lo.x < hi.x) (hsq : hi.x - lo.x = hi.y - lo.y) {points : List (N × P2 K)}
    (hin : ∀ e ∈ points, lo.x ≤ e.2.x ∧ e.2.x ≤ hi.x ∧ lo.y ≤ e.2.y ∧ e.2.y ≤ hi.y)
    (hn : (points.map Prod.snd).Nodup) (hg : GeneralUnder id (Site lo hi points))
    (hf : 8 * points.length + 5 ≤ fuel) : ∃ r, construct2 key pop fuel lo hi points = .done r := by
  have hw : 0 < hi.x - lo.x := sub_pos.2 hx
  have hy : lo.y < hi.y := by rw [hsq] at hw; exact sub_pos.1 hw
  exact construct2_succeeds hp hx hy hin hn
    (generalUnder_scaled2 (one_div_pos.2 hw) (square_scaled hsq) hg) hf

/-- **The order of the points is irrelevant.**  Two completed constructions for the same points, given in
different orders, sorted by different keys and located with different heaps, have the same triangles. -/
theorem construct2_order {key key' : P2 K → ℕ} {pop pop' : Heaps} (hp : HeapsOk pop)
    (hp' : HeapsOk pop') {fuel fuel' : ℕ} {lo hi : P2 K} (hx : lo.x < hi.x) (hy : lo.y < hi.y)
    {points points' : List (N × P2 K)} (hperm : points.Perm points')
    (hin : ∀ e ∈ points, lo.x ≤ e.2.x ∧ e.2.x ≤ hi.x ∧ lo.y ≤ e.2.y ∧ e.2.y ≤ hi.y)
    (hn : (points.map Prod.snd).Nodup) {r r' : Construction K N}
    (hr : construct2 key pop fuel lo hi points = .done r)
    (hr' : construct2 key' pop' fuel' lo hi points' = .done r') (p q z : P2 K) :
    r.HasTriangle p q z ↔ r'.HasTriangle p q z := by
  rw [(construct2_delaunay_in_box_units hp hx hy hin hn hr).1,
    (construct2_delaunay_in_box_units hp' hx hy (fun e he => hin e (hperm.mem_iff.2 he))
      ((hperm.map Prod.snd).nodup_iff.1 hn) hr').1]
  have : Site lo hi points = Site lo hi points' := by
    funext p
    unfold Site
    simp only [hperm.mem_iff]
  rw [this]

end

/-! ### The hypotheses hold for concrete points, and the result is wrong in long boxes -/

section
variable {K : Type} [Field K] [LinearOrder K] [IsStrictOrderedRing K]

/-- General position of finitely many points can be decided. -/
theorem generalUnder_of_tests {f : P2 K → P2 K} {S : P2 K → Prop} {l : List (P2 K)} (hl : ∀ p, S p → p ∈ l)
    (h1 : ∀ p ∈ l, ∀ q ∈ l, ∀ r ∈ l, (decide (p = q) || decide (p = r) || decide (q = r) ||
      !decide (orient2 ⟨f p, f q, f r⟩ = 0)) = true)
    (h2 : ∀ p ∈ l, ∀ q ∈ l, ∀ r ∈ l, ∀ z ∈ l, (decide (p = q) || decide (p = r) || decide (p = z) ||
      decide (q = r) || decide (q = z) || decide (r = z) ||
      ((⟨f p, f q, f r⟩ : Triangle2 K).circumcircleContains (f z)).isSome) = true) : GeneralUnder f S := by
  refine ⟨?_, ?_⟩
  · intro p q r hp hq hr n1 n2 n3 h
    have := h1 p (hl p hp) q (hl q hq) r (hl r hr)
    simp [n1, n2, n3, h] at this
  · intro p q r z hp hq hr hz n1 n2 n3 n4 n5 n6 o ho
    have := h2 p (hl p hp) q (hl q hq) r (hl r hr) z (hl z hz)
    simp [n1, n2, n3, n4, n5, n6, circumcircleContains_of_cocircular ho.1 ho.2.1 ho.2.2] at this

end

/-- Four named points. -/
def examplePoints : List (ℕ × P2 ℚ) := [(10, ⟨1, 1 / 2⟩), (11, ⟨3, 51 / 100⟩), (12, ⟨2, 9 / 10⟩), (13, ⟨21 / 10, 1 / 10⟩)]

/-- In a square box the example points meet all hypotheses. -/
example : (⟨0, -1⟩ : P2 ℚ).x < (⟨4, 3⟩ : P2 ℚ).x ∧ (4 : ℚ) - 0 = 3 - -1 ∧
    (∀ e ∈ examplePoints, 0 ≤ e.2.x ∧ e.2.x ≤ 4 ∧ -1 ≤ e.2.y ∧ e.2.y ≤ 3) ∧ (examplePoints.map Prod.snd).Nodup ∧
    GeneralUnder id (Site (⟨0, -1⟩ : P2 ℚ) ⟨4, 3⟩ examplePoints) ∧
    ∃ r, construct2 (fun _ => 0) popHead 100 ⟨0, -1⟩ ⟨4, 3⟩ examplePoints = .done r := by
  have h1 : (⟨0, -1⟩ : P2 ℚ).x < (⟨4, 3⟩ : P2 ℚ).x := by decide +kernel
  have h2 : ∀ e ∈ examplePoints, 0 ≤ e.2.x ∧ e.2.x ≤ 4 ∧ -1 ≤ e.2.y ∧ e.2.y ≤ 3 := by decide +kernel
  have h3 : (examplePoints.map Prod.snd).Nodup := by decide +kernel
  have h4 : GeneralUnder id (Site (⟨0, -1⟩ : P2 ℚ) ⟨4, 3⟩ examplePoints) := by
    apply generalUnder_of_tests (l := allPoints2 ⟨0, -1⟩ ⟨4, 3⟩ (examplePoints.map Prod.snd))
    · intro p hp
      unfold Site at hp
      unfold allPoints2
      simp only [List.mem_cons, List.mem_map]
      exact hp
    · decide +kernel
    · decide +kernel
  exact ⟨h1, by norm_num, h2, h3, h4, construct2_succeeds_square popHead_ok h1 (by norm_num) h2 h3 h4 (by decide)⟩

/-- **In long boxes the result is not the Delaunay triangulation.**  In the box from (0, 0) to (4, 1) the
triangulation of four points contains a triangle with another of the points inside of its circumcircle. -/
theorem long_box_not_delaunay :
    ∃ r, construct2 (fun _ => 0) popHead 100 ⟨0, 0⟩ ⟨4, 1⟩ examplePoints = .done r ∧
      r.HasTriangle ⟨1, 1 / 2⟩ ⟨3, 51 / 100⟩ ⟨2, 9 / 10⟩ ∧
      ¬DelaunayTriangle (Site (⟨0, 0⟩ : P2 ℚ) ⟨4, 1⟩ examplePoints) ⟨1, 1 / 2⟩ ⟨3, 51 / 100⟩ ⟨2, 9 / 10⟩ ∧
      (Triangle2.circumcircleContains (⟨⟨1, 1 / 2⟩, ⟨3, 51 / 100⟩, ⟨2, 9 / 10⟩⟩ : Triangle2 ℚ)
        ⟨21 / 10, 1 / 10⟩) = some true := by
  have hc : (Triangle2.circumcircleContains (⟨⟨1, 1 / 2⟩, ⟨3, 51 / 100⟩, ⟨2, 9 / 10⟩⟩ : Triangle2 ℚ)
      ⟨21 / 10, 1 / 10⟩) = some true := by decide +kernel
  have hd : (match construct2 (fun _ => 0) popHead 100 ⟨0, 0⟩ ⟨4, 1⟩ examplePoints with
      | .done r => decide (((r.state.mesh.tetras.get 9).map Tetra.points) = some [3, 4, 5] ∧
          r.position 3 = ⟨1, 1 / 2⟩ ∧ r.position 4 = ⟨3, 51 / 100⟩ ∧ r.position 5 = ⟨2, 9 / 10⟩)
      | _ => false) = true := by decide +kernel
  revert hd
  cases construct2 (fun _ => 0) popHead 100 (⟨0, 0⟩ : P2 ℚ) ⟨4, 1⟩ examplePoints with
  | panic => exact fun h => by cases h
  | running => exact fun h => by cases h
  | done r =>
    intro hd
    obtain ⟨h1, h2, h3, h4⟩ := of_decide_eq_true hd
    refine ⟨r, rfl, ?_, ?_, hc⟩
    · obtain ⟨T, hT, e⟩ := Option.map_eq_some_iff.1 h1
      exact ⟨3, 4, 5, ⟨9, T, hT, Or.inl e⟩, h2, h3, h4⟩
    · rintro ⟨-, -, -, ho, o, rho, e1, e2, e3, e4⟩
      have := e4 ⟨21 / 10, 1 / 10⟩ (Or.inr (Or.inr (Or.inr ⟨(13, ⟨21 / 10, 1 / 10⟩), by decide +kernel, rfl⟩)))
        (by decide +kernel) (by decide +kernel) (by decide +kernel)
      unfold distSq2 at *
      dsimp only [id] at *
      nlinarith

end Verif.Delaunay
