import Verif.Parallel.TotalSpec
import Verif.Parallel.SearchLemmas
import Verif.Halo.TotalLemmas
import Mathlib.Analysis.InnerProductSpace.PiL2
import Mathlib.Analysis.Normed.Affine.AddTorsor

/-! # The construction of the grid of a rank ends: lemmas -/

namespace Verif.Parallel

open Verif.Geometry Verif.Halo Verif.Delaunay
open Verif.Predicates (P3 orient3 distSq3)

variable {Id : Type}

theorem distance_eq_dist {d : ℕ} (a b : Vec d ℝ) :
    distance a b = dist (WithLp.toLp 2 a : EuclideanSpace ℝ (Fin d)) (WithLp.toLp 2 b) := by
  rw [EuclideanSpace.dist_eq]
  unfold distance length
  congr 1
  refine Finset.sum_congr rfl fun i _ => ?_
  rw [Real.dist_eq, sq_abs]

theorem distance_triangle {d : ℕ} (a b c : Vec d ℝ) : distance a c ≤ distance a b + distance b c := by
  rw [distance_eq_dist, distance_eq_dist, distance_eq_dist]
  exact dist_triangle _ _ _

theorem distance_comm' {d : ℕ} (a b : Vec d ℝ) : distance a b = distance b a := by
  rw [distance_eq_dist, distance_eq_dist, dist_comm]

theorem distance_self' {d : ℕ} (a : Vec d ℝ) : distance a a = 0 := by
  rw [distance_eq_dist, dist_self]

theorem distance_nonneg' {d : ℕ} (a b : Vec d ℝ) : 0 ≤ distance a b := by
  rw [distance_eq_dist]
  exact dist_nonneg

/-- A ball around `o` through `p` which is larger than the cell of `p` contains a particle or image close to `p`. -/
theorem caged {W : World 3 Id} {p : Id × Vec 3 ℝ} {h : ℝ} (hh : 0 < h) (hcell : W.CellWithin p h) {o : Vec 3 ℝ}
    (ho : h ≤ distance o p.2) : ∃ s q k, q ∈ W.ofRank s ∧ distance p.2 (image W.box k q.2) < 2 * h ∧
      distance o (image W.box k q.2) < distance o p.2 := by
  have hc : 0 < distance o p.2 := hh.trans_le ho
  obtain ⟨y, h1, h2⟩ : ∃ y : Vec 3 ℝ, distance y p.2 = h ∧ distance o y = distance o p.2 - h := by
    have hq : h / distance o p.2 ≤ 1 := (div_le_one hc).2 ho
    have hq0 : 0 ≤ h / distance o p.2 := by positivity
    refine ⟨WithLp.ofLp (AffineMap.lineMap (WithLp.toLp 2 p.2 : EuclideanSpace ℝ (Fin 3)) (WithLp.toLp 2 o)
      (h / distance o p.2)), ?_, ?_⟩
    · rw [distance_eq_dist, WithLp.toLp_ofLp, dist_lineMap_left, Real.norm_eq_abs, abs_of_nonneg hq0, dist_comm,
        ← distance_eq_dist, div_mul_cancel₀ _ hc.ne']
    · rw [distance_eq_dist, WithLp.toLp_ofLp, dist_comm, dist_lineMap_right, Real.norm_eq_abs,
        abs_of_nonneg (by linarith), dist_comm, ← distance_eq_dist, sub_mul, div_mul_cancel₀ _ hc.ne', one_mul]
  by_contra hn
  push Not at hn
  refine absurd (hcell y fun s q k hq => ?_) (by rw [h1]; exact lt_irrefl _)
  by_contra hlt
  rw [not_le, h1] at hlt
  have t1 := distance_triangle p.2 y (image W.box k q.2)
  rw [distance_comm' p.2 y, h1] at t1
  have t2 := distance_triangle o y (image W.box k q.2)
  have := hn s q k hq (by linarith)
  linarith

/-- An image which is close to a point of the box is a neighbouring one. -/
theorem near_shift {W : World 3 Id} (V : W.Valid) {L : ℝ} (hL : ∀ i, W.hi i - W.lo i = L) {r s : ℕ} {p q : Id × Vec 3 ℝ}
    (hp : p ∈ W.ofRank r) (hq : q ∈ W.ofRank s) {k : Fin 3 → ℤ} (hd : distance p.2 (image W.box k q.2) < L) :
    ∃ w : Fin 3 → WrapType, k = fun i => shift (w i) := by
  have h : ∀ i, ∃ w, shift w = k i := by
    intro i
    have hLi := hL i
    have hL0 : 0 < L := by
      have := V.box i
      linarith
    have h1 : |p.2 i - image W.box k q.2 i| < L := (component_le_length (fun i => p.2 i - image W.box k q.2 i) i).trans_lt hd
    have e : image W.box k q.2 i = q.2 i + k i * L := by
      rw [← hLi]
      rfl
    rw [e] at h1
    obtain ⟨a1, a2⟩ := abs_lt.1 h1
    obtain ⟨p1, p2⟩ := V.inside r p hp i
    obtain ⟨q1, q2⟩ := V.inside s q hq i
    have b1 : (k i : ℝ) * L < 2 * L := by linarith
    have b2 : (-2 : ℝ) * L < k i * L := by linarith
    have c1 : (k i : ℝ) < 2 := lt_of_mul_lt_mul_right b1 hL0.le
    have c2 : (-2 : ℝ) < k i := lt_of_mul_lt_mul_right b2 hL0.le
    have d1 : k i < 2 := by exact_mod_cast c1
    have d2 : -2 < k i := by exact_mod_cast c2
    exact exists_shift (by omega) (by omega)
  choose w hw using h
  exact ⟨w, by funext i; rw [hw]⟩

theorem periodic_iff {w : Fin 3 → WrapType} : isPeriodic w ↔ (fun i => shift (w i)) ≠ 0 := by
  unfold isPeriodic
  constructor
  · rintro ⟨i, hi⟩ e
    exact hi (shift_eq_zero.1 (congrFun e i))
  · intro h
    by_contra hn
    push Not at hn
    refine h ?_
    funext i
    exact shift_eq_zero.2 (hn i)

/-- What is known of the triangulation of the local points. -/
structure LocalData (W : World 3 Id) (own : ℕ) (s0 : TriState 3 (P3 ℝ)) : Prop where
  space : SpaceOk (remapped3 W.enlarged (s0.points.map Prod.fst)) s0.state
  len : s0.points.length = 4 + (W.ofRank own).length
  corner : positionOf3 (s0.points.map Prod.fst) 0 = (Predicates.Tetra.allEncompassing W.enlarged.1 W.enlarged.2).p1 ∧
    positionOf3 (s0.points.map Prod.fst) 1 = (Predicates.Tetra.allEncompassing W.enlarged.1 W.enlarged.2).p2 ∧
    positionOf3 (s0.points.map Prod.fst) 2 = (Predicates.Tetra.allEncompassing W.enlarged.1 W.enlarged.2).p3 ∧
    positionOf3 (s0.points.map Prod.fst) 3 = (Predicates.Tetra.allEncompassing W.enlarged.1 W.enlarged.2).p4
  kind : ∀ v ∈ s0.points, v.2 = true → ∃ p ∈ W.ofRank own, v.1 = dim3.ofVec p.2
  pos : ∀ i, 4 ≤ i → i < s0.points.length → ∃ p ∈ W.ofRank own, positionOf3 (s0.points.map Prod.fst) i = dim3.ofVec p.2
  all : ∀ p ∈ W.ofRank own, ∃ i, i < s0.points.length ∧ positionOf3 (s0.points.map Prod.fst) i = dim3.ofVec p.2

/-- The halo is an image close to a particle of this rank. -/
def Close (W : World 3 Id) (own : ℕ) (R : ℝ) (x : ℕ × Image Id (Fin 3 → WrapType) (P3 ℝ)) : Prop :=
  (x.1 ≠ own ∨ isPeriodic x.2.wrap) ∧ ∃ q, W.Near own R x.1 q (fun i => shift (x.2.wrap i)) ∧ x.2.id = q.1 ∧
    x.2.pos = dim3.ofVec (image W.box (fun i => shift (x.2.wrap i)) q.2)

/-- The haloes `l` have been inserted. -/
structure Loaded [DecidableEq Id] (W : World 3 Id) (own : ℕ) (R : ℝ) (E : Env Id (Fin 3 → WrapType) (P3 ℝ) ℝ)
    (s0 s : TriState 3 (P3 ℝ)) (l : List (ℕ × Image Id (Fin 3 → WrapType) (P3 ℝ))) : Prop where
  space : SpaceOk (remapped3 W.enlarged (s.points.map Prod.fst)) s.state
  points : s.points = s0.points ++ l.map fun x => (x.2.pos, false)
  close : ∀ x ∈ l, Close W own R x
  nodup : (l.map fun x => ptype E x.1 x.2).Nodup

theorem positionOf_get {l : List (P3 ℝ)} {i : ℕ} (h : i < l.length) : positionOf3 l i = l[i] := by
  unfold positionOf3
  rw [List.getElem?_eq_getElem h]
  rfl

/-- Images of particles by at most one box length are in the enlarged box. -/
theorem image_inBox {W : World 3 Id} (V : W.Valid) {s : ℕ} {q : Id × Vec 3 ℝ} (hq : q ∈ W.ofRank s) (w : Fin 3 → WrapType) :
    InBox3 W.enlarged.1 W.enlarged.2 (dim3.ofVec (image W.box (fun i => shift (w i)) q.2)) := by
  have key : ∀ i, W.lo i - (W.hi i - W.lo i) ≤ image W.box (fun i => shift (w i)) q.2 i ∧
      image W.box (fun i => shift (w i)) q.2 i ≤ W.hi i + (W.hi i - W.lo i) := by
    intro i
    have h1 := V.inside s q hq i
    have h2 := V.box i
    have e : image W.box (fun i => shift (w i)) q.2 i = q.2 i + shift (w i) * (W.hi i - W.lo i) := rfl
    rw [e]
    generalize w i = v
    cases v <;> simp only [shift] <;> push_cast <;> constructor <;> linarith
  exact ⟨(key 0).1, (key 0).2, (key 1).1, (key 1).2, (key 2).1, (key 2).2⟩

variable [DecidableEq Id]

section
variable {W : World 3 Id} {own : ℕ} {R : ℝ} {order : List ℕ} {s0 s : TriState 3 (P3 ℝ)}
  {l : List (ℕ × Image Id (Fin 3 → WrapType) (P3 ℝ))}

theorem wanted_iff {r : ℕ} {i : Image Id (Fin 3 → WrapType) (P3 ℝ)} : Wanted (env dim3 W order own) r i ↔
    (r ≠ own ∨ isPeriodic i.wrap) := by
  unfold Wanted env
  simp

theorem LocalData.near (D : LocalData W own s0) (hR : 0 < R) {p : Id × Vec 3 ℝ} (hp : p ∈ W.ofRank own) :
    W.Near own R own p 0 := ⟨hp, p, hp, by rw [image_zero, distance_self']; exact hR⟩

theorem Loaded.site (D : LocalData W own s0) (hR : 0 < R) (H : Loaded W own R (env dim3 W order own) s0 s l) {i : ℕ}
    (hi : i < s.points.length) : W.Candidate own R (positionOf3 (s.points.map Prod.fst) i) := by
  by_cases h0 : i < s0.points.length
  · have e : positionOf3 (s.points.map Prod.fst) i = positionOf3 (s0.points.map Prod.fst) i := by
      rw [H.points, List.map_append, positionOf_append (by rw [List.length_map]; exact h0)]
    rw [e]
    obtain ⟨c0, c1, c2, c3⟩ := D.corner
    unfold World.Candidate
    by_cases h4 : 4 ≤ i
    · obtain ⟨p, hp, e⟩ := D.pos i h4 h0
      exact Or.inr (Or.inr (Or.inr (Or.inr ⟨own, p, 0, D.near hR hp, by rw [e, image_zero]⟩)))
    · obtain rfl | rfl | rfl | rfl : i = 0 ∨ i = 1 ∨ i = 2 ∨ i = 3 := by omega
      · exact Or.inl c0
      · exact Or.inr (Or.inl c1)
      · exact Or.inr (Or.inr (Or.inl c2))
      · exact Or.inr (Or.inr (Or.inr (Or.inl c3)))
  · rw [H.points, List.length_append, List.length_map] at hi
    have hj : i - s0.points.length < l.length := by omega
    have e : positionOf3 (s.points.map Prod.fst) i = (l[i - s0.points.length]).2.pos := by
      unfold positionOf3
      rw [H.points, List.map_append, List.getElem?_append_right (by rw [List.length_map]; omega), List.length_map]
      simp [hj]
    obtain ⟨-, q, h1, -, h3⟩ := H.close _ (List.getElem_mem hj)
    rw [e, h3]
    exact Or.inr (Or.inr (Or.inr (Or.inr ⟨_, q, _, h1, rfl⟩)))

/-- A new halo is not at the place of another point. -/
theorem Loaded.fresh (V : W.Valid) (hG : W.General own R) (hord : order.Nodup) (D : LocalData W own s0) (hR : 0 < R)
    (H : Loaded W own R (env dim3 W order own) s0 s l) {x : ℕ × Image Id (Fin 3 → WrapType) (P3 ℝ)}
    (hx : Close W own R x) (hn : ptype (env dim3 W order own) x.1 x.2 ∉ l.map fun x => ptype (env dim3 W order own) x.1 x.2)
    {i : ℕ} (hi : i < s.points.length) : positionOf3 (s.points.map Prod.fst) i ≠ x.2.pos := by
  intro e
  obtain ⟨hw, q, hq, hid, hpos⟩ := hx
  have hbox := image_inBox V hq.1 x.2.wrap
  rw [← hpos] at hbox
  by_cases h0 : i < s0.points.length
  · have e' : positionOf3 (s.points.map Prod.fst) i = positionOf3 (s0.points.map Prod.fst) i := by
      rw [H.points, List.map_append, positionOf_append (by rw [List.length_map]; exact h0)]
    rw [e'] at e
    by_cases h4 : 4 ≤ i
    · obtain ⟨p, hp, e2⟩ := D.pos i h4 h0
      rw [e2, hpos] at e
      have e3 := ofVec_inj e
      have := hG.distinct own p 0 x.1 q _ (D.near hR hp) hq (by rw [image_zero]; exact e3)
      obtain ⟨a1, a2⟩ := Prod.mk.inj this
      obtain ⟨a2, a3⟩ := Prod.mk.inj a2
      rcases hw with hw | hw
      · exact hw a1.symm
      · exact periodic_iff.1 hw a3.symm
    · have hx : W.enlarged.1.x < W.enlarged.2.x := by
        have := V.box 0
        simp only [World.enlarged, withPeriodicImages, World.corners, dim3]
        linarith
      have hy : W.enlarged.1.y < W.enlarged.2.y := by
        have := V.box 1
        simp only [World.enlarged, withPeriodicImages, World.corners, dim3]
        linarith
      have hz : W.enlarged.1.z < W.enlarged.2.z := by
        have := V.box 2
        simp only [World.enlarged, withPeriodicImages, World.corners, dim3]
        linarith
      have hnd := allPoints3_nodup hx hy hz (pts := [x.2.pos]) (by simpa using hbox) (by simp)
      unfold allPoints3 at hnd
      simp only [List.nodup_cons, List.mem_cons, List.not_mem_nil, or_false, not_or] at hnd
      obtain ⟨⟨-, -, -, n0⟩, ⟨-, -, n1⟩, ⟨-, n2⟩, n3, -⟩ := hnd
      obtain ⟨c0, c1, c2, c3⟩ := D.corner
      obtain rfl | rfl | rfl | rfl : i = 0 ∨ i = 1 ∨ i = 2 ∨ i = 3 := by omega
      · exact n0 (c0.symm.trans e)
      · exact n1 (c1.symm.trans e)
      · exact n2 (c2.symm.trans e)
      · exact n3 (c3.symm.trans e)
  · rw [H.points, List.length_append, List.length_map] at hi
    have hj : i - s0.points.length < l.length := by omega
    have e' : positionOf3 (s.points.map Prod.fst) i = (l[i - s0.points.length]).2.pos := by
      unfold positionOf3
      rw [H.points, List.map_append, List.getElem?_append_right (by rw [List.length_map]; omega), List.length_map]
      simp [hj]
    have hmem := List.getElem_mem hj
    generalize l[i - s0.points.length] = y at e' hmem
    obtain ⟨-, q', hq', hid', hpos'⟩ := H.close y hmem
    rw [e', hpos', hpos] at e
    have := hG.distinct _ _ _ _ _ _ hq' hq (ofVec_inj e)
    obtain ⟨a1, a2⟩ := Prod.mk.inj this
    obtain ⟨a2, a3⟩ := Prod.mk.inj a2
    refine hn (List.mem_map.2 ⟨y, hmem, ?_⟩)
    rw [a1]
    refine ptype_congr (by rw [hid, hid', a2]) ?_
    funext j
    have := congrFun a3 j
    generalize y.2.wrap j = v at *
    generalize x.2.wrap j = v' at *
    cases v <;> cases v' <;> simp [shift] at this ⊢

theorem generalPosition_of {f : P3 ℝ → P3 ℝ} {S : P3 ℝ → Prop} (hg : GeneralUnder3 f S) {pos : ℕ → P3 ℝ} {n : ℕ}
    (hS : ∀ i, i < n → S (pos i)) (hinj : ∀ i j, i < n → j < n → i ≠ j → pos i ≠ pos j) :
    GeneralPosition3 (fun i => f (pos i)) n := by
  constructor
  · intro i j k l hi hj hk hl hnd
    refine hg.1 _ _ _ _ (hS i hi) (hS j hj) (hS k hk) (hS l hl) ?_
    simp only [List.nodup_cons, List.mem_cons, List.not_mem_nil, or_false, not_or, not_false_eq_true,
      List.nodup_nil, and_true] at hnd ⊢
    obtain ⟨⟨n1, n2, n3⟩, ⟨n4, n5⟩, n6⟩ := hnd
    exact ⟨⟨hinj i j hi hj n1, hinj i k hi hk n2, hinj i l hi hl n3⟩, ⟨hinj j k hj hk n4, hinj j l hj hl n5⟩,
      hinj k l hk hl n6⟩
  · intro i j k l m hi hj hk hl hm hnd
    refine hg.2 _ _ _ _ _ (hS i hi) (hS j hj) (hS k hk) (hS l hl) (hS m hm) ?_
    simp only [List.nodup_cons, List.mem_cons, List.not_mem_nil, or_false, not_or, not_false_eq_true,
      List.nodup_nil, and_true] at hnd ⊢
    obtain ⟨⟨n1, n2, n3, n7⟩, ⟨n4, n5, n8⟩, ⟨n6, n9⟩, n10⟩ := hnd
    exact ⟨⟨hinj i j hi hj n1, hinj i k hi hk n2, hinj i l hi hl n3, hinj i m hi hm n7⟩,
      ⟨hinj j k hj hk n4, hinj j l hj hl n5, hinj j m hj hm n8⟩, ⟨hinj k l hk hl n6, hinj k m hk hm n9⟩,
      hinj l m hl hm n10⟩

theorem enlarged_lt (V : W.Valid) : W.enlarged.1.x < W.enlarged.2.x ∧ W.enlarged.1.y < W.enlarged.2.y ∧
    W.enlarged.1.z < W.enlarged.2.z := by
  refine ⟨?_, ?_, ?_⟩
  · have := V.box 0
    simp only [World.enlarged, withPeriodicImages, World.corners, dim3]
    linarith
  · have := V.box 1
    simp only [World.enlarged, withPeriodicImages, World.corners, dim3]
    linarith
  · have := V.box 2
    simp only [World.enlarged, withPeriodicImages, World.corners, dim3]
    linarith

theorem enlarged_cube (hc : ∀ i, W.hi i - W.lo i = W.hi 0 - W.lo 0) :
    W.enlarged.2.x - W.enlarged.1.x = W.enlarged.2.y - W.enlarged.1.y ∧
      W.enlarged.2.x - W.enlarged.1.x = W.enlarged.2.z - W.enlarged.1.z := by
  refine ⟨?_, ?_⟩
  · have := hc 1
    simp only [World.enlarged, withPeriodicImages, World.corners, dim3]
    linarith
  · have := hc 2
    simp only [World.enlarged, withPeriodicImages, World.corners, dim3]
    linarith

/-- A new halo can be inserted. -/
theorem Loaded.insert {eps eps' : ℝ} (heps : 0 < eps) {pop : Heaps} (hp : HeapsOk pop)
    (V : W.Valid) (hc : ∀ i, W.hi i - W.lo i = W.hi 0 - W.lo 0) (hG : W.General own R) (hord : order.Nodup)
    (D : LocalData W own s0) (hR : 0 < R) (H : Loaded W own R (env dim3 W order own) s0 s l)
    {x : ℕ × Image Id (Fin 3 → WrapType) (P3 ℝ)} (hx : Close W own R x)
    (hn : ptype (env dim3 W order own) x.1 x.2 ∉ l.map fun x => ptype (env dim3 W order own) x.1 x.2) :
    ∃ s' ch, (tri3 eps eps' W.enlarged hp).insert s x.2.pos = some (s', ch) ∧
      Loaded W own R (env dim3 W order own) s0 s' (l ++ [x]) := by
  obtain ⟨hlx, hly, hlz⟩ := enlarged_lt V
  obtain ⟨hcy, hcz⟩ := enlarged_cube hc
  obtain ⟨c1, c2, c3, k, hk, e⟩ := remap_cube hlx hcy hcz
  have hgen := generalUnder_scaled (g := remapPoint3 (extent3 (Predicates.Tetra.allEncompassing W.enlarged.1 W.enlarged.2)))
    hk e hG.general
  cases hi : (tri3 eps eps' W.enlarged hp).insert s x.2.pos with
  | some r =>
    obtain ⟨s', ch⟩ := r
    obtain ⟨h1, h2⟩ := insert_space heps hp hi H.space
    refine ⟨s', ch, rfl, h1, by rw [h2, H.points]; simp, ?_, ?_⟩
    · intro y hy
      rcases List.mem_append.1 hy with hy | hy
      · exact H.close y hy
      · rw [List.mem_singleton.1 hy]
        exact hx
    · rw [List.map_append, List.map_singleton, List.nodup_append]
      refine ⟨H.nodup, List.nodup_singleton _, ?_⟩
      intro a ha b hb hab
      rw [List.mem_singleton] at hb
      rw [hab, hb] at ha
      exact hn ha
  | none =>
    exfalso
    have h1 := triangulation_insert_none (parts3 eps W.enlarged hp) hi
    have P' : SpaceOk (remapped3 W.enlarged ((s.points ++ [(x.2.pos, false)]).map Prod.fst)) s.state := by
      refine H.space.congr fun i hi => ?_
      unfold remapped3
      rw [List.map_append, positionOf_append (by rw [List.length_map, s.num]; exact hi)]
    have h3 := insertPoint_space heps P' hp ((4 + 1) * s.state.mesh.tetras.len + 1)
    have h4 : insertPoint (geo3 eps (remapped3 W.enlarged ((s.points ++ [(x.2.pos, false)]).map Prod.fst)))
        (ops3 (intersect3 (remapped3 W.enlarged ((s.points ++ [(x.2.pos, false)]).map Prod.fst)))) pop
        ((4 + 1) * s.state.mesh.tetras.len + 1) s.state = .panic := h1
    rw [h4] at h3
    have hold : ∀ i, i < s.points.length → positionOf3 ((s.points ++ [(x.2.pos, false)]).map Prod.fst) i =
        positionOf3 (s.points.map Prod.fst) i := by
      intro i hi
      rw [List.map_append, positionOf_append (by rw [List.length_map]; exact hi)]
    have hnew : positionOf3 ((s.points ++ [(x.2.pos, false)]).map Prod.fst) s.points.length = x.2.pos := by
      unfold positionOf3
      rw [List.map_append, List.getElem?_append_right (by rw [List.length_map])]
      simp
    have hsite : W.Candidate own R x.2.pos := by
      obtain ⟨-, q, h1, -, h3⟩ := hx
      exact Or.inr (Or.inr (Or.inr (Or.inr ⟨_, q, _, h1, h3⟩)))
    have h4' := P'.four
    have hlen : 4 ≤ s.points.length := by rw [s.num]; exact h4'
    refine no_panic_general P'.orient.ne' h4' ?_ ?_ h3
    · rw [← s.num]
      refine generalPosition_of hgen (pos := positionOf3 ((s.points ++ [(x.2.pos, false)]).map Prod.fst)) ?_ ?_
      · intro i hi
        rcases Nat.lt_succ_iff_lt_or_eq.1 hi with hi | rfl
        · rw [hold i hi]
          exact H.site D hR hi
        · rw [hnew]
          exact hsite
      · intro i j hi hj hij
        rcases Nat.lt_succ_iff_lt_or_eq.1 hi with hi | rfl
        · rcases Nat.lt_succ_iff_lt_or_eq.1 hj with hj | rfl
          · rw [hold i hi, hold j hj]
            intro e
            refine hij (H.space.injective (by rw [← s.num]; exact hi) (by rw [← s.num]; exact hj) ?_)
            unfold remapped3
            rw [e]
          · rw [hold i hi, hnew]
            exact H.fresh V hG hord D hR hx hn hi
        · rcases Nat.lt_succ_iff_lt_or_eq.1 hj with hj | rfl
          · rw [hold j hj, hnew]
            exact (H.fresh V hG hord D hR hx hn hj).symm
          · exact absurd rfl hij
    · rw [← s.num]
      have hcor : ∀ i, i < 4 → positionOf3 ((s.points ++ [(x.2.pos, false)]).map Prod.fst) i =
          positionOf3 (s0.points.map Prod.fst) i := by
        intro i hi
        have : i < s0.points.length := by rw [D.len]; omega
        rw [hold i (by omega), H.points, List.map_append, positionOf_append (by rw [List.length_map]; exact this)]
      unfold remapped3
      rw [hcor 0 (by omega), hcor 1 (by omega), hcor 2 (by omega), hcor 3 (by omega), hnew, D.corner.1, D.corner.2.1,
        D.corner.2.2.1, D.corner.2.2.2]
      obtain ⟨-, q, hq, -, hpos⟩ := hx
      have hbox := image_inBox V hq.1 x.2.wrap
      rw [← hpos] at hbox
      exact inTetra_remap (inTetra_site hlx hly hlz (points := [((), x.2.pos)]) (by simpa using hbox)
        (Or.inr (Or.inr (Or.inr (Or.inr ⟨_, List.mem_singleton.2 rfl, rfl⟩)))))

/-- New haloes can be inserted one after the other. -/
theorem Loaded.insertSeq {eps eps' : ℝ} (heps : 0 < eps) {pop : Heaps} (hp : HeapsOk pop)
    (V : W.Valid) (hc : ∀ i, W.hi i - W.lo i = W.hi 0 - W.lo 0) (hG : W.General own R) (hord : order.Nodup)
    (D : LocalData W own s0) (hR : 0 < R) :
    ∀ (rs : List (ℕ × Image Id (Fin 3 → WrapType) (P3 ℝ))) {s : TriState 3 (P3 ℝ)}
      {l : List (ℕ × Image Id (Fin 3 → WrapType) (P3 ℝ))}, Loaded W own R (env dim3 W order own) s0 s l →
      (∀ x ∈ rs, Close W own R x) → ((l ++ rs).map fun x => ptype (env dim3 W order own) x.1 x.2).Nodup →
      ∃ s', Halo.insertSeq (tri3 eps eps' W.enlarged hp) s (rs.map fun x => x.2.pos) = some s' ∧
        Loaded W own R (env dim3 W order own) s0 s' (l ++ rs)
  | [], s, l, H, _, _ => ⟨s, rfl, by rw [List.append_nil]; exact H⟩
  | x :: rs, s, l, H, hx, hn => by
    have hn' : ptype (env dim3 W order own) x.1 x.2 ∉ l.map fun x => ptype (env dim3 W order own) x.1 x.2 := by
      rw [List.map_append, List.map_cons, List.nodup_append] at hn
      intro h
      exact hn.2.2 _ h _ List.mem_cons_self rfl
    obtain ⟨s1, ch, h1, h2⟩ := H.insert (eps' := eps') heps hp V hc hG hord D hR (hx x List.mem_cons_self) hn'
    have e : l ++ x :: rs = l ++ [x] ++ rs := by simp
    rw [e] at hn ⊢
    obtain ⟨s', h3, h4⟩ := Loaded.insertSeq heps hp V hc hG hord D hR rs h2 (fun y hy => hx y (List.mem_cons_of_mem _ hy)) hn
    refine ⟨s', ?_, h4⟩
    rw [List.map_cons, Halo.insertSeq, h1]
    exact h3

end

end Verif.Parallel
