import Verif.Parallel.PlaneTotalSpec
import Verif.Parallel.PlaneNames
import Verif.Parallel.TotalLemmas

/-! # The construction of the grid of a rank ends, in two dimensions: lemmas -/

namespace Verif.Parallel.Plane

open Verif.Geometry Verif.Halo Verif.Delaunay
open Verif.Predicates (P2 Triangle2 orient2 distSq2)

variable {Id : Type}

/-- A ball around `o` through `p` which is larger than the cell of `p` contains a particle or image close to `p`. -/
theorem caged {W : World 2 Id} {p : Id × Vec 2 ℝ} {h : ℝ} (hh : 0 < h) (hcell : CellWithin W p h) {o : Vec 2 ℝ}
    (ho : h ≤ distance o p.2) : ∃ s q k, q ∈ W.ofRank s ∧ distance p.2 (image W.box k q.2) < 2 * h ∧
      distance o (image W.box k q.2) < distance o p.2 := by
  have hc : 0 < distance o p.2 := hh.trans_le ho
  obtain ⟨y, h1, h2⟩ : ∃ y : Vec 2 ℝ, distance y p.2 = h ∧ distance o y = distance o p.2 - h := by
    have hq : h / distance o p.2 ≤ 1 := (div_le_one hc).2 ho
    have hq0 : 0 ≤ h / distance o p.2 := by positivity
    refine ⟨WithLp.ofLp (AffineMap.lineMap (WithLp.toLp 2 p.2 : EuclideanSpace ℝ (Fin 2)) (WithLp.toLp 2 o)
      (h / distance o p.2)), ?_, ?_⟩
    · rw [distance_eq_dist, WithLp.toLp_ofLp, dist_lineMap_left, Real.norm_eq_abs, abs_of_nonneg hq0, dist_comm,
        ← distance_eq_dist, div_mul_cancel₀ _ hc.ne']
    · rw [distance_eq_dist, WithLp.toLp_ofLp, dist_comm, dist_lineMap_right, Real.norm_eq_abs,
        abs_of_nonneg (by linarith), dist_comm, ← distance_eq_dist, sub_mul, div_mul_cancel₀ _ hc.ne', one_mul]
  by_contra hn
  push Not at hn
  refine absurd (hcell y fun s q k hq => ?_) (by rw [h1]; exact lt_irrefl _)
  by_contra hlt
  rw [not_le, h1] at hlt
  have t1 := distance_triangle p.2 y (image W.box k q.2)
  rw [distance_comm' p.2 y, h1] at t1
  have t2 := distance_triangle o y (image W.box k q.2)
  have := hn s q k hq (by linarith)
  linarith

/-- An image which is close to a point of the box is a neighbouring one. -/
theorem near_shift {W : World 2 Id} (V : W.Valid) {L : ℝ} (hL : ∀ i, W.hi i - W.lo i = L) {r s : ℕ} {p q : Id × Vec 2 ℝ}
    (hp : p ∈ W.ofRank r) (hq : q ∈ W.ofRank s) {k : Fin 2 → ℤ} (hd : distance p.2 (image W.box k q.2) < L) :
    ∃ w : Fin 2 → WrapType, k = fun i => shift (w i) := by
  have h : ∀ i, ∃ w, shift w = k i := by
    intro i
    have hLi := hL i
    have hL0 : 0 < L := by
      have := V.box i
      linarith
    have h1 : |p.2 i - image W.box k q.2 i| < L := (component_le_length (fun i => p.2 i - image W.box k q.2 i) i).trans_lt hd
    have e : image W.box k q.2 i = q.2 i + k i * L := by
      rw [← hLi]
      rfl
    rw [e] at h1
    obtain ⟨a1, a2⟩ := abs_lt.1 h1
    obtain ⟨p1, p2⟩ := V.inside r p hp i
    obtain ⟨q1, q2⟩ := V.inside s q hq i
    have b1 : (k i : ℝ) * L < 2 * L := by linarith
    have b2 : (-2 : ℝ) * L < k i * L := by linarith
    have c1 : (k i : ℝ) < 2 := lt_of_mul_lt_mul_right b1 hL0.le
    have c2 : (-2 : ℝ) < k i := lt_of_mul_lt_mul_right b2 hL0.le
    have d1 : k i < 2 := by exact_mod_cast c1
    have d2 : -2 < k i := by exact_mod_cast c2
    exact exists_shift (by omega) (by omega)
  choose w hw using h
  exact ⟨w, by funext i; rw [hw]⟩

theorem periodic_iff {w : Fin 2 → WrapType} : isPeriodic w ↔ (fun i => shift (w i)) ≠ 0 := by
  unfold isPeriodic
  constructor
  · rintro ⟨i, hi⟩ e
    exact hi (shift_eq_zero.1 (congrFun e i))
  · intro h
    by_contra hn
    push Not at hn
    refine h ?_
    funext i
    exact shift_eq_zero.2 (hn i)

/-- What is known of the triangulation of the local points. -/
structure LocalData (W : World 2 Id) (own : ℕ) (s0 : TriState 2 (P2 ℝ)) : Prop where
  plane : PlaneOk (remapped W.enlarged2 (s0.points.map Prod.fst)) s0.state
  len : s0.points.length = 3 + (W.ofRank own).length
  corner : positionOf (s0.points.map Prod.fst) 0 = (Triangle2.allEncompassing W.enlarged2.1 W.enlarged2.2).p1 ∧
    positionOf (s0.points.map Prod.fst) 1 = (Triangle2.allEncompassing W.enlarged2.1 W.enlarged2.2).p2 ∧
    positionOf (s0.points.map Prod.fst) 2 = (Triangle2.allEncompassing W.enlarged2.1 W.enlarged2.2).p3
  kind : ∀ v ∈ s0.points, v.2 = true → ∃ p ∈ W.ofRank own, v.1 = dim2.ofVec p.2
  pos : ∀ i, 3 ≤ i → i < s0.points.length → ∃ p ∈ W.ofRank own, positionOf (s0.points.map Prod.fst) i = dim2.ofVec p.2
  all : ∀ p ∈ W.ofRank own, ∃ i, i < s0.points.length ∧ positionOf (s0.points.map Prod.fst) i = dim2.ofVec p.2

/-- The halo is an image close to a particle of this rank. -/
def Close (W : World 2 Id) (own : ℕ) (R : ℝ) (x : ℕ × Image Id (Fin 2 → WrapType) (P2 ℝ)) : Prop :=
  (x.1 ≠ own ∨ isPeriodic x.2.wrap) ∧ ∃ q, Near W own R x.1 q (fun i => shift (x.2.wrap i)) ∧ x.2.id = q.1 ∧
    x.2.pos = dim2.ofVec (image W.box (fun i => shift (x.2.wrap i)) q.2)

/-- The haloes `l` have been inserted. -/
structure Loaded [DecidableEq Id] (W : World 2 Id) (own : ℕ) (R : ℝ) (E : Env Id (Fin 2 → WrapType) (P2 ℝ) ℝ)
    (s0 s : TriState 2 (P2 ℝ)) (l : List (ℕ × Image Id (Fin 2 → WrapType) (P2 ℝ))) : Prop where
  plane : PlaneOk (remapped W.enlarged2 (s.points.map Prod.fst)) s.state
  points : s.points = s0.points ++ l.map fun x => (x.2.pos, false)
  close : ∀ x ∈ l, Close W own R x
  nodup : (l.map fun x => ptype E x.1 x.2).Nodup

theorem positionOf_get {l : List (P2 ℝ)} {i : ℕ} (h : i < l.length) : positionOf l i = l[i] := by
  unfold positionOf
  rw [List.getElem?_eq_getElem h]
  rfl

/-- Images of particles by at most one box length are in the enlarged2 box. -/
theorem image_inBox {W : World 2 Id} (V : W.Valid) {s : ℕ} {q : Id × Vec 2 ℝ} (hq : q ∈ W.ofRank s) (w : Fin 2 → WrapType) :
    W.enlarged2.1.x ≤ (dim2.ofVec (image W.box (fun i => shift (w i)) q.2)).x ∧
      (dim2.ofVec (image W.box (fun i => shift (w i)) q.2)).x ≤ W.enlarged2.2.x ∧
      W.enlarged2.1.y ≤ (dim2.ofVec (image W.box (fun i => shift (w i)) q.2)).y ∧
      (dim2.ofVec (image W.box (fun i => shift (w i)) q.2)).y ≤ W.enlarged2.2.y := by
  have key : ∀ i, W.lo i - (W.hi i - W.lo i) ≤ image W.box (fun i => shift (w i)) q.2 i ∧
      image W.box (fun i => shift (w i)) q.2 i ≤ W.hi i + (W.hi i - W.lo i) := by
    intro i
    have h1 := V.inside s q hq i
    have h2 := V.box i
    have e : image W.box (fun i => shift (w i)) q.2 i = q.2 i + shift (w i) * (W.hi i - W.lo i) := rfl
    rw [e]
    generalize w i = v
    cases v <;> simp only [shift] <;> push_cast <;> constructor <;> linarith
  exact ⟨(key 0).1, (key 0).2, (key 1).1, (key 1).2⟩

/-- The reasons for a panic are excluded in general position. -/
theorem no_panic_general {x : ℕ → P2 ℝ} {n : ℕ} (ho : 0 < area (x 0) (x 1) (x 2)) (hn : 3 ≤ n) (hg : GeneralPosition x (n + 1))
    (hin : InTriangle ⟨x 0, x 1, x 2⟩ (x n)) : ¬(OnEdge x n ∨ ¬Within (x 0) (x 1) (x 2) (x n) ∨ Cocircular x n) := by
  rintro (⟨a, b, l1, l2, hne, hz⟩ | hz | ⟨a, b, q, l1, l2, l3, n1, n2, n3, hpos, hz⟩)
  · exact absurd hz (hg.line a b n (by omega) (by omega) (by omega) hne (by omega) (by omega))
  · exact absurd ((inTriangle_iff ho).1 hin) hz
  · exfalso
    obtain ⟨z1, z2, z3⟩ := pw_vertices hpos.ne'
    exact hg.circle n a b q (by omega) (by omega) (by omega) (by omega) (by omega) (by omega) (by omega)
      n1 n2 n3 _ ⟨(sub_eq_zero.1 z2).symm, (sub_eq_zero.1 z3).symm, (sub_eq_zero.1 hz).symm⟩

variable [DecidableEq Id]

section
variable {W : World 2 Id} {own : ℕ} {R : ℝ} {order : List ℕ} {s0 s : TriState 2 (P2 ℝ)}
  {l : List (ℕ × Image Id (Fin 2 → WrapType) (P2 ℝ))}

theorem wanted_iff {r : ℕ} {i : Image Id (Fin 2 → WrapType) (P2 ℝ)} : Wanted (env dim2 W order own) r i ↔
    (r ≠ own ∨ isPeriodic i.wrap) := by
  unfold Wanted env
  simp

theorem LocalData.near (D : LocalData W own s0) (hR : 0 < R) {p : Id × Vec 2 ℝ} (hp : p ∈ W.ofRank own) :
    Near W own R own p 0 := ⟨hp, p, hp, by rw [image_zero, distance_self']; exact hR⟩

theorem Loaded.site (D : LocalData W own s0) (hR : 0 < R) (H : Loaded W own R (env dim2 W order own) s0 s l) {i : ℕ}
    (hi : i < s.points.length) : Candidate W own R (positionOf (s.points.map Prod.fst) i) := by
  by_cases h0 : i < s0.points.length
  · have e : positionOf (s.points.map Prod.fst) i = positionOf (s0.points.map Prod.fst) i := by
      rw [H.points, List.map_append, positionOf_append (by rw [List.length_map]; exact h0)]
    rw [e]
    obtain ⟨c0, c1, c2⟩ := D.corner
    unfold Candidate
    by_cases h4 : 3 ≤ i
    · obtain ⟨p, hp, e⟩ := D.pos i h4 h0
      exact Or.inr (Or.inr (Or.inr ⟨own, p, 0, D.near hR hp, by rw [e, image_zero]⟩))
    · obtain rfl | rfl | rfl : i = 0 ∨ i = 1 ∨ i = 2 := by omega
      · exact Or.inl c0
      · exact Or.inr (Or.inl c1)
      · exact Or.inr (Or.inr (Or.inl c2))
  · rw [H.points, List.length_append, List.length_map] at hi
    have hj : i - s0.points.length < l.length := by omega
    have e : positionOf (s.points.map Prod.fst) i = (l[i - s0.points.length]).2.pos := by
      unfold positionOf
      rw [H.points, List.map_append, List.getElem?_append_right (by rw [List.length_map]; omega), List.length_map]
      simp [hj]
    obtain ⟨-, q, h1, -, h3⟩ := H.close _ (List.getElem_mem hj)
    rw [e, h3]
    exact Or.inr (Or.inr (Or.inr ⟨_, q, _, h1, rfl⟩))

/-- A new halo is not at the place of another point. -/
theorem Loaded.fresh (V : W.Valid) (hG : General W own R) (hord : order.Nodup) (D : LocalData W own s0) (hR : 0 < R)
    (H : Loaded W own R (env dim2 W order own) s0 s l) {x : ℕ × Image Id (Fin 2 → WrapType) (P2 ℝ)}
    (hx : Close W own R x) (hn : ptype (env dim2 W order own) x.1 x.2 ∉ l.map fun x => ptype (env dim2 W order own) x.1 x.2)
    {i : ℕ} (hi : i < s.points.length) : positionOf (s.points.map Prod.fst) i ≠ x.2.pos := by
  intro e
  obtain ⟨hw, q, hq, hid, hpos⟩ := hx
  have hbox := image_inBox V hq.1 x.2.wrap
  rw [← hpos] at hbox
  by_cases h0 : i < s0.points.length
  · have e' : positionOf (s.points.map Prod.fst) i = positionOf (s0.points.map Prod.fst) i := by
      rw [H.points, List.map_append, positionOf_append (by rw [List.length_map]; exact h0)]
    rw [e'] at e
    by_cases h4 : 3 ≤ i
    · obtain ⟨p, hp, e2⟩ := D.pos i h4 h0
      rw [e2, hpos] at e
      have e3 := ofVec_inj e
      have := hG.distinct own p 0 x.1 q _ (D.near hR hp) hq (by rw [image_zero]; exact e3)
      obtain ⟨a1, a2⟩ := Prod.mk.inj this
      obtain ⟨a2, a3⟩ := Prod.mk.inj a2
      rcases hw with hw | hw
      · exact hw a1.symm
      · exact periodic_iff.1 hw a3.symm
    · have hx : W.enlarged2.1.x < W.enlarged2.2.x := by
        have := V.box 0
        simp only [World.enlarged2, World.corners2, dim2]
        linarith
      have hy : W.enlarged2.1.y < W.enlarged2.2.y := by
        have := V.box 1
        simp only [World.enlarged2, World.corners2, dim2]
        linarith
      have hnd := allPoints2_nodup hx hy (pts := [x.2.pos]) (by simpa using hbox) (by simp)
      unfold allPoints2 at hnd
      simp only [List.nodup_cons, List.mem_cons, List.not_mem_nil, or_false, not_or] at hnd
      obtain ⟨⟨-, -, n0⟩, ⟨-, n1⟩, n2, -⟩ := hnd
      obtain ⟨c0, c1, c2⟩ := D.corner
      obtain rfl | rfl | rfl : i = 0 ∨ i = 1 ∨ i = 2 := by omega
      · exact n0 (c0.symm.trans e)
      · exact n1 (c1.symm.trans e)
      · exact n2 (c2.symm.trans e)
  · rw [H.points, List.length_append, List.length_map] at hi
    have hj : i - s0.points.length < l.length := by omega
    have e' : positionOf (s.points.map Prod.fst) i = (l[i - s0.points.length]).2.pos := by
      unfold positionOf
      rw [H.points, List.map_append, List.getElem?_append_right (by rw [List.length_map]; omega), List.length_map]
      simp [hj]
    have hmem := List.getElem_mem hj
    generalize l[i - s0.points.length] = y at e' hmem
    obtain ⟨-, q', hq', hid', hpos'⟩ := H.close y hmem
    rw [e', hpos', hpos] at e
    have := hG.distinct _ _ _ _ _ _ hq' hq (ofVec_inj e)
    obtain ⟨a1, a2⟩ := Prod.mk.inj this
    obtain ⟨a2, a3⟩ := Prod.mk.inj a2
    refine hn (List.mem_map.2 ⟨y, hmem, ?_⟩)
    rw [a1]
    refine ptype_congr (by rw [hid, hid', a2]) ?_
    funext j
    have := congrFun a3 j
    generalize y.2.wrap j = v at *
    generalize x.2.wrap j = v' at *
    cases v <;> cases v' <;> simp [shift] at this ⊢

theorem generalPosition_of {f : P2 ℝ → P2 ℝ} {S : P2 ℝ → Prop} (hg : GeneralUnder f S) {pos : ℕ → P2 ℝ} {n : ℕ}
    (hS : ∀ i, i < n → S (pos i)) (hinj : ∀ i j, i < n → j < n → i ≠ j → pos i ≠ pos j) :
    GeneralPosition (fun i => f (pos i)) n := by
  constructor
  · intro i j k hi hj hk n1 n2 n3
    exact hg.1 _ _ _ (hS i hi) (hS j hj) (hS k hk) (hinj i j hi hj n1) (hinj i k hi hk n2) (hinj j k hj hk n3)
  · intro i j k l hi hj hk hl n1 n2 n3 n4 n5 n6
    exact hg.2 _ _ _ _ (hS i hi) (hS j hj) (hS k hk) (hS l hl) (hinj i j hi hj n1) (hinj i k hi hk n2)
      (hinj i l hi hl n3) (hinj j k hj hk n4) (hinj j l hj hl n5) (hinj k l hk hl n6)

theorem enlarged_lt (V : W.Valid) : W.enlarged2.1.x < W.enlarged2.2.x ∧ W.enlarged2.1.y < W.enlarged2.2.y := by
  refine ⟨?_, ?_⟩
  · have := V.box 0
    simp only [World.enlarged2, World.corners2, dim2]
    linarith
  · have := V.box 1
    simp only [World.enlarged2, World.corners2, dim2]
    linarith

theorem enlarged_square (hc : ∀ i, W.hi i - W.lo i = W.hi 0 - W.lo 0) :
    W.enlarged2.2.x - W.enlarged2.1.x = W.enlarged2.2.y - W.enlarged2.1.y := by
  have := hc 1
  simp only [World.enlarged2, World.corners2, dim2]
  linarith

/-- A new halo can be inserted. -/
theorem Loaded.insert {pop : Heaps} (hp : HeapsOk pop)
    (V : W.Valid) (hc : ∀ i, W.hi i - W.lo i = W.hi 0 - W.lo 0) (hG : General W own R) (hord : order.Nodup)
    (D : LocalData W own s0) (hR : 0 < R) (H : Loaded W own R (env dim2 W order own) s0 s l)
    {x : ℕ × Image Id (Fin 2 → WrapType) (P2 ℝ)} (hx : Close W own R x)
    (hn : ptype (env dim2 W order own) x.1 x.2 ∉ l.map fun x => ptype (env dim2 W order own) x.1 x.2) :
    ∃ s' ch, (tri W.enlarged2 hp).insert s x.2.pos = some (s', ch) ∧
      Loaded W own R (env dim2 W order own) s0 s' (l ++ [x]) := by
  obtain ⟨hlx, hly⟩ := enlarged_lt V
  have hcy := enlarged_square hc
  obtain ⟨c1, c2, k, hk, e⟩ := remap_square hlx hcy
  have hgen := generalUnder_scaled2 (g := remapPoint2 (extent2 (Triangle2.allEncompassing W.enlarged2.1 W.enlarged2.2)))
    hk e hG.general
  cases hi : (tri W.enlarged2 hp).insert s x.2.pos with
  | some r =>
    obtain ⟨s', ch⟩ := r
    obtain ⟨h1, h2⟩ := insert_plane hp hi H.plane
    refine ⟨s', ch, rfl, h1, by rw [h2, H.points]; simp, ?_, ?_⟩
    · intro y hy
      rcases List.mem_append.1 hy with hy | hy
      · exact H.close y hy
      · rw [List.mem_singleton.1 hy]
        exact hx
    · rw [List.map_append, List.map_singleton, List.nodup_append]
      refine ⟨H.nodup, List.nodup_singleton _, ?_⟩
      intro a ha b hb hab
      rw [List.mem_singleton] at hb
      rw [hab, hb] at ha
      exact hn ha
  | none =>
    exfalso
    have h1 := triangulation_insert_none (parts W.enlarged2 hp) hi
    have P' : PlaneOk (remapped W.enlarged2 ((s.points ++ [(x.2.pos, false)]).map Prod.fst)) s.state := by
      refine H.plane.congr fun i hi => ?_
      unfold remapped
      rw [List.map_append, positionOf_append (by rw [List.length_map, s.num]; exact hi)]
    have h3 := insertPoint_plane P' hp ((3 + 1) * s.state.mesh.tetras.len + 1)
    have h4 : insertPoint (geo2 (remapped W.enlarged2 ((s.points ++ [(x.2.pos, false)]).map Prod.fst)))
        ops2 pop
        ((3 + 1) * s.state.mesh.tetras.len + 1) s.state = .panic := h1
    rw [h4] at h3
    have hold : ∀ i, i < s.points.length → positionOf ((s.points ++ [(x.2.pos, false)]).map Prod.fst) i =
        positionOf (s.points.map Prod.fst) i := by
      intro i hi
      rw [List.map_append, positionOf_append (by rw [List.length_map]; exact hi)]
    have hnew : positionOf ((s.points ++ [(x.2.pos, false)]).map Prod.fst) s.points.length = x.2.pos := by
      unfold positionOf
      rw [List.map_append, List.getElem?_append_right (by rw [List.length_map])]
      simp
    have hsite : Candidate W own R x.2.pos := by
      obtain ⟨-, q, h1, -, h3⟩ := hx
      exact Or.inr (Or.inr (Or.inr ⟨_, q, _, h1, h3⟩))
    have h3' := P'.three
    have hlen : 3 ≤ s.points.length := by rw [s.num]; exact h3'
    refine no_panic_general P'.orient h3' ?_ ?_ h3
    · rw [← s.num]
      refine generalPosition_of hgen (pos := positionOf ((s.points ++ [(x.2.pos, false)]).map Prod.fst)) ?_ ?_
      · intro i hi
        rcases Nat.lt_succ_iff_lt_or_eq.1 hi with hi | rfl
        · rw [hold i hi]
          exact H.site D hR hi
        · rw [hnew]
          exact hsite
      · intro i j hi hj hij
        rcases Nat.lt_succ_iff_lt_or_eq.1 hi with hi | rfl
        · rcases Nat.lt_succ_iff_lt_or_eq.1 hj with hj | rfl
          · rw [hold i hi, hold j hj]
            intro e
            refine hij (H.plane.injective (by rw [← s.num]; exact hi) (by rw [← s.num]; exact hj) ?_)
            unfold remapped
            rw [e]
          · rw [hold i hi, hnew]
            exact H.fresh V hG hord D hR hx hn hi
        · rcases Nat.lt_succ_iff_lt_or_eq.1 hj with hj | rfl
          · rw [hold j hj, hnew]
            exact (H.fresh V hG hord D hR hx hn hj).symm
          · exact absurd rfl hij
    · rw [← s.num]
      have hcor : ∀ i, i < 3 → positionOf ((s.points ++ [(x.2.pos, false)]).map Prod.fst) i =
          positionOf (s0.points.map Prod.fst) i := by
        intro i hi
        have : i < s0.points.length := by rw [D.len]; omega
        rw [hold i (by omega), H.points, List.map_append, positionOf_append (by rw [List.length_map]; exact this)]
      unfold remapped
      rw [hcor 0 (by omega), hcor 1 (by omega), hcor 2 (by omega), hnew, D.corner.1, D.corner.2.1,
        D.corner.2.2]
      obtain ⟨-, q, hq, -, hpos⟩ := hx
      have hbox := image_inBox V hq.1 x.2.wrap
      rw [← hpos] at hbox
      exact inTriangle_remap hlx hly (inTriangle_site hlx hly (points := [((), x.2.pos)]) (by simpa using hbox)
        (Or.inr (Or.inr (Or.inr ⟨_, List.mem_singleton.2 rfl, rfl⟩))))

/-- New haloes can be inserted one after the other. -/
theorem Loaded.insertSeq {pop : Heaps} (hp : HeapsOk pop)
    (V : W.Valid) (hc : ∀ i, W.hi i - W.lo i = W.hi 0 - W.lo 0) (hG : General W own R) (hord : order.Nodup)
    (D : LocalData W own s0) (hR : 0 < R) :
    ∀ (rs : List (ℕ × Image Id (Fin 2 → WrapType) (P2 ℝ))) {s : TriState 2 (P2 ℝ)}
      {l : List (ℕ × Image Id (Fin 2 → WrapType) (P2 ℝ))}, Loaded W own R (env dim2 W order own) s0 s l →
      (∀ x ∈ rs, Close W own R x) → ((l ++ rs).map fun x => ptype (env dim2 W order own) x.1 x.2).Nodup →
      ∃ s', Halo.insertSeq (tri W.enlarged2 hp) s (rs.map fun x => x.2.pos) = some s' ∧
        Loaded W own R (env dim2 W order own) s0 s' (l ++ rs)
  | [], s, l, H, _, _ => ⟨s, rfl, by rw [List.append_nil]; exact H⟩
  | x :: rs, s, l, H, hx, hn => by
    have hn' : ptype (env dim2 W order own) x.1 x.2 ∉ l.map fun x => ptype (env dim2 W order own) x.1 x.2 := by
      rw [List.map_append, List.map_cons, List.nodup_append] at hn
      intro h
      exact hn.2.2 _ h _ List.mem_cons_self rfl
    obtain ⟨s1, ch, h1, h2⟩ := H.insert hp V hc hG hord D hR (hx x List.mem_cons_self) hn'
    have e : l ++ x :: rs = l ++ [x] ++ rs := by simp
    rw [e] at hn ⊢
    obtain ⟨s', h3, h4⟩ := Loaded.insertSeq hp V hc hG hord D hR rs h2 (fun y hy => hx y (List.mem_cons_of_mem _ hy)) hn
    refine ⟨s', ?_, h4⟩
    rw [List.map_cons, Halo.insertSeq, h1]
    exact h3

end

end Verif.Parallel.Plane
