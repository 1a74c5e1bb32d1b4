import Verif.Delaunay.PlaneLink

/-! # Insertions keep a triangulation Delaunay: lemmas -/

namespace Verif.Delaunay

open Verif.Predicates (P2 Triangle2 orient2 distSq2)

variable {K : Type} [Field K] [LinearOrder K] [IsStrictOrderedRing K] {x : ℕ → P2 K}

theorem geo2_contains {T : Tetra} {a b c p : ℕ} (hp : T.points = [a, b, c])
    (hpos : 0 < area (x a) (x b) (x c)) :
    ((geo2 x).contains T p = some true ↔ Inside (x a) (x b) (x c) (x p)) ∧
    ((geo2 x).contains T p = some false ↔ ¬Within (x a) (x b) (x c) (x p)) := by
  have e : (geo2 x).contains T p = Triangle2.contains ⟨x a, x b, x c⟩ (x p) := by
    unfold geo2
    dsimp only
    rw [hp]
  rw [e]
  have hw : Predicates.Bary2 (⟨x a, x b, x c⟩ : Triangle2 K) (x p)
      (area (x b) (x c) (x p) / area (x a) (x b) (x c)) (area (x c) (x a) (x p) / area (x a) (x b) (x c))
      (area (x a) (x b) (x p) / area (x a) (x b) (x c)) := by
    refine ⟨?_, ?_, ?_⟩
    · rw [← add_div, ← add_div, div_eq_one_iff_eq hpos.ne', ← area_sum (x a) (x b) (x c) (x p)]
      ring
    · dsimp only
      rw [div_mul_eq_mul_div, div_mul_eq_mul_div, div_mul_eq_mul_div, ← add_div, ← add_div, eq_div_iff hpos.ne']
      simp only [area_def]
      ring
    · dsimp only
      rw [div_mul_eq_mul_div, div_mul_eq_mul_div, div_mul_eq_mul_div, ← add_div, ← add_div, eq_div_iff hpos.ne']
      simp only [area_def]
      ring
  obtain ⟨h1, h2, _⟩ := Predicates.triangle_contains_correct (⟨x a, x b, x c⟩ : Triangle2 K) hpos.ne' (x p) _ _ _ hw
  rw [h1, h2]
  simp only [div_pos_iff_of_pos_right hpos, div_neg_iff, hpos, hpos.not_gt, and_true, and_false, false_or, or_false]
  unfold Inside Within
  constructor
  · exact ⟨fun ⟨h1, h2, h3⟩ => ⟨h3, h1, h2⟩, fun ⟨h1, h2, h3⟩ => ⟨h2, h3, h1⟩⟩
  · rw [not_and_or, not_and_or, not_le, not_le, not_le]
    constructor
    · rintro (h | h | h)
      · exact Or.inr (Or.inl h)
      · exact Or.inr (Or.inr h)
      · exact Or.inl h
    · rintro (h | h | h)
      · exact Or.inr (Or.inr h)
      · exact Or.inl h
      · exact Or.inr (Or.inl h)

theorem geo2_circ {T : Tetra} {a b c q : ℕ} (hp : T.points = [a, b, c])
    (hpos : 0 < area (x a) (x b) (x c)) :
    ((geo2 x).circ T q = some true ↔ pw (x a) (x b) (x c) (x q) < 0) ∧
    ((geo2 x).circ T q = some false ↔ 0 < pw (x a) (x b) (x c) (x q)) ∧
    ((geo2 x).circ T q = none ↔ pw (x a) (x b) (x c) (x q) = 0) := by
  have e : (geo2 x).circ T q = Triangle2.circumcircleContains ⟨x a, x b, x c⟩ (x q) := by
    unfold geo2
    dsimp only
    rw [hp]
  rw [e]
  obtain ⟨g1, g2⟩ := Predicates.circumcentre2_equidistant (⟨x a, x b, x c⟩ : Triangle2 K) hpos.ne'
  obtain ⟨h1, h2, h3⟩ := Predicates.in_circle_correct (⟨x a, x b, x c⟩ : Triangle2 K) hpos (x q)
    (Triangle2.circumcentre ⟨x a, x b, x c⟩) _ rfl g1.symm g2.symm
  rw [h1, h2, h3]
  unfold pw power
  exact ⟨sub_neg.symm, sub_pos.symm, sub_eq_zero.symm⟩

/-- The circumcircle test, with the vertices started at any of them. -/
theorem geo2_circ_at {M : Mesh} {n i a b c q : ℕ} {T : Tetra} (V : Valid x (At M) n)
    (hT : M.tetras.get i = some T) (h : At M i a b c) :
    ((geo2 x).circ T q = some true ↔ pw (x a) (x b) (x c) (x q) < 0) ∧
    ((geo2 x).circ T q = some false ↔ 0 < pw (x a) (x b) (x c) (x q)) ∧
    ((geo2 x).circ T q = none ↔ pw (x a) (x b) (x c) (x q) = 0) := by
  have hpos := V.pos h
  obtain ⟨T', hT', hp⟩ := h
  rw [hT] at hT'
  cases hT'
  rcases hp with hp | hp | hp
  · exact geo2_circ hp hpos
  · have hpos' : 0 < area (x b) (x c) (x a) := by rw [area_cyc]; exact hpos
    have := geo2_circ (q := q) hp hpos'
    rwa [pw_cyc hpos.ne'] at this
  · have hpos' : 0 < area (x c) (x a) (x b) := by rw [area_cyc']; exact hpos
    have := geo2_circ (q := q) hp hpos'
    rwa [← pw_cyc hpos'.ne'] at this

theorem geo2_contains_at {M : Mesh} {n i a b c q : ℕ} {T : Tetra} (V : Valid x (At M) n)
    (hT : M.tetras.get i = some T) (h : At M i a b c) :
    ((geo2 x).contains T q = some true ↔ Inside (x a) (x b) (x c) (x q)) ∧
    ((geo2 x).contains T q = some false ↔ ¬Within (x a) (x b) (x c) (x q)) := by
  have hpos := V.pos h
  obtain ⟨T', hT', hp⟩ := h
  rw [hT] at hT'
  cases hT'
  rcases hp with hp | hp | hp
  · exact geo2_contains hp hpos
  · have hpos' : 0 < area (x b) (x c) (x a) := by rw [area_cyc]; exact hpos
    obtain ⟨h1, h2⟩ := geo2_contains (p := q) hp hpos'
    rw [h1, h2]
    exact ⟨⟨fun h => h.cyc.cyc, fun h => h.cyc⟩, not_congr ⟨fun h => h.cyc.cyc, fun h => h.cyc⟩⟩
  · have hpos' : 0 < area (x c) (x a) (x b) := by rw [area_cyc']; exact hpos
    obtain ⟨h1, h2⟩ := geo2_contains (p := q) hp hpos'
    rw [h1, h2]
    exact ⟨⟨fun h => h.cyc, fun h => h.cyc.cyc⟩, not_congr ⟨fun h => h.cyc, fun h => h.cyc.cyc⟩⟩

theorem kept_slots {T T' : Tetra} (h : T.shape = T'.shape) {v : ℕ} {s : FaceInfo} (hs : (v, s) ∈ T'.slots) :
    ∃ s0, (v, s0) ∈ T.slots ∧ s0.face = s.face ∧ s0.flipped = s.flipped := by
  have h1 : (v, s.face, s.flipped) ∈ T'.shape := List.mem_map.2 ⟨(v, s), hs, rfl⟩
  rw [← h] at h1
  obtain ⟨⟨v0, s0⟩, h2, h3⟩ := List.mem_map.1 h1
  simp only [Prod.mk.injEq] at h3
  obtain ⟨rfl, h4, h5⟩ := h3
  exact ⟨s0, h2, h4, h5⟩

/-- The orientation of the edges after an operation. -/
theorem Replaced.facing {M M0 M' : Mesh} {olds : List ℕ} {news : List Tetra} (h : Consistent 2 M)
    (hr : Replaced M M0 olds news M') (hf : Facing x M)
    (hfaces : ∀ i T v s, M.tetras.get i = some T → i ∉ olds → (v, s) ∈ T.slots →
      M'.faces.get s.face = M.faces.get s.face)
    (hnew : ∀ T ∈ news, ∀ v s, (v, s) ∈ T.slots → ∀ a b, M'.faces.get s.face = some [a, b] →
      0 < area (x (if s.flipped then b else a)) (x (if s.flipped then a else b)) (x v)) : Facing x M' := by
  intro i T hT v s hs a b hab
  by_cases hi : i < M.tetras.next
  · have ho : i ∉ olds := by
      intro ho
      rw [hr.gone i ho] at hT
      cases hT
    have hk := hr.kept i hi ho
    rw [hT] at hk
    obtain ⟨T0, h0, h1⟩ := Option.map_eq_some_iff.1 hk.symm
    obtain ⟨s0, h2, h3, h4⟩ := kept_slots h1 hs
    rw [← h3, hfaces i T0 v s0 h0 ho h2] at hab
    have := hf i T0 h0 v s0 h2 a b hab
    rwa [h4] at this
  · obtain ⟨k, rfl⟩ := Nat.exists_eq_add_of_le (Nat.le_of_not_lt hi)
    have hk := hr.fresh k
    rw [hT] at hk
    obtain ⟨T0, h0, h1⟩ := Option.map_eq_some_iff.1 hk.symm
    obtain ⟨s0, h2, h3, h4⟩ := kept_slots h1 hs
    have := hnew T0 (List.mem_of_getElem? h0) v s0 h2 a b (by rw [h3]; exact hab)
    rwa [h4] at this

theorem at_lt {M : Mesh} (h : Consistent 2 M) (i u v w : ℕ) (hr : At M i u v w) : i < M.tetras.next := by
  obtain ⟨T, hT, _⟩ := hr
  exact h.tetras_ok.get_lt hT

/-- An inherited edge seen from another vertex on the same side. -/
theorem inherit_facing {M M' : Mesh} (h : Consistent 2 M) (hf : Facing x M) {i : ℕ} {T : Tetra}
    (hT : M.tetras.get i = some T) {v u w z : ℕ} {s : FaceInfo} (hs : (v, s) ∈ T.slots)
    (hset : ∀ z, z ∈ T.points ↔ z = v ∨ z = u ∨ z = w) (hpos : 0 < area (x v) (x u) (x w))
    (hz : 0 < area (x u) (x w) (x z)) (hfc : M'.faces.get s.face = M.faces.get s.face) (a b : ℕ)
    (hab : M'.faces.get s.face = some [a, b]) :
    0 < area (x (if s.flipped then b else a)) (x (if s.flipped then a else b)) (x z) := by
  obtain ⟨a', b', e, hne, hset', hva, hvb, hor⟩ := facing_edge h hf hT hs
  rw [hfc, e] at hab
  cases hab
  have ha : a = u ∨ a = w := by
    have := (hset a).1 ((hset' a).2 (by simp))
    omega
  have hb : b = u ∨ b = w := by
    have := (hset b).1 ((hset' b).2 (by simp))
    omega
  have := dir_eq hpos hor (by split_ifs <;> omega) (by split_ifs <;> assumption) (by split_ifs <;> assumption)
  rw [this.1, this.2]
  exact hz

theorem split2d_plane {M M' : Mesh} {t p : ℕ} {T : Tetra} {news : List ℕ} (h : Consistent 2 M)
    (hf : Facing x M) (hn : M.numPoints = p + 1) (V : Valid x (At M) p) (E : Empty2 x (At M) p)
    (hT : M.tetras.get t = some T) (hc : (geo2 x).contains T p = some true)
    (hu : FacesUnique M) (hs : M.split2d t p = some (M', news)) :
    Facing x M' ∧ FacesUnique M' ∧ Star x (At M') p news := by
  have hpT : p ∉ T.points := by
    obtain ⟨a, b, c, hp⟩ := h.points_three hT
    have hat : At M t a b c := ⟨T, hT, Or.inl hp⟩
    have l1 := V.lt hat
    have l2 := V.lt (V.cyc hat)
    have l3 := V.lt (V.cyc' hat)
    rw [hp]
    simp
    omega
  obtain ⟨p1, o1, p2, o2, p3, o3, M0, M1, hsl, hrun, _, hrep, hc', _, hfo, hf1, hf2, hf3, hfn⟩ :=
    split2d_lemma h hT (by omega) hpT
  rw [hrun] at hs
  cases hs
  have hpts : T.points = [p1, p2, p3] := by unfold Tetra.points; rw [hsl]; rfl
  have hat : At M t p1 p2 p3 := ⟨T, hT, Or.inl hpts⟩
  have hpos := V.pos hat
  have hin : Inside (x p1) (x p2) (x p3) (x p) := (geo2_contains_at V hT hat).1.1 hc
  have hrel : ReplacedBy (At M) (At M') [t] (splitN M.tetras.next p1 p2 p3 p) := by
    intro i u v w
    rw [hrep.at h (fun o ho => by rw [List.mem_singleton.1 ho]; exact h.tetras_ok.get_lt hT)]
    apply or_congr_right
    unfold splitN splitNews2d
    constructor
    · rintro ⟨k, T', hk, rfl, h1⟩
      match k, hk with
      | 0, hk =>
        cases hk
        refine ⟨_, List.mem_cons_self, rfl, ?_⟩
        simp [Tetra.points] at h1
        unfold Cyc3
        dsimp only
        omega
      | 1, hk =>
        cases hk
        refine ⟨_, List.mem_cons_of_mem _ List.mem_cons_self, rfl, ?_⟩
        simp [Tetra.points] at h1
        unfold Cyc3
        dsimp only
        omega
      | 2, hk =>
        cases hk
        refine ⟨_, List.mem_cons_of_mem _ (List.mem_cons_of_mem _ List.mem_cons_self), rfl, ?_⟩
        simp [Tetra.points] at h1
        unfold Cyc3
        dsimp only
        omega
    · rintro ⟨s, hs, rfl, h1⟩
      simp only [List.mem_cons, List.not_mem_nil, or_false] at hs
      unfold Cyc3 at h1
      rcases hs with rfl | rfl | rfl
      · refine ⟨0, _, rfl, rfl, ?_⟩
        simp [Tetra.points]
        dsimp only at h1
        omega
      · refine ⟨1, _, rfl, rfl, ?_⟩
        simp [Tetra.points]
        dsimp only at h1
        omega
      · refine ⟨2, _, rfl, rfl, ?_⟩
        simp [Tetra.points]
        dsimp only at h1
        omega
  have huniq : FacesUnique M' := by
    -- the points of the old edges are older than `p`
    have hold : ∀ f pts, f < M.faces.next → M'.faces.get f = some pts → p ∉ pts := by
      intro f pts hlt he hc
      rw [hfo f hlt] at he
      obtain ⟨i, U, v, s, hU, hs, rfl⟩ := h.used f pts he
      obtain ⟨pts', e, _, hm⟩ := h.face_points i U hU v s hs
      rw [he] at e
      cases e
      obtain ⟨a, b, c, hp⟩ := h.points_three hU
      have hat : At M i a b c := ⟨U, hU, Or.inl hp⟩
      have l1 := V.lt hat
      have l2 := V.lt (V.cyc hat)
      have l3 := V.lt (V.cyc' hat)
      have := ((hm p).1 hc).1
      rw [hp] at this
      simp at this
      omega
    have hnew : ∀ f pts, ¬f < M.faces.next → M'.faces.get f = some pts →
        (f = M.faces.next ∧ pts = [p, p1]) ∨ (f = M.faces.next + 1 ∧ pts = [p, p2]) ∨
        (f = M.faces.next + 2 ∧ pts = [p, p3]) := by
      intro f pts hge he
      have := hc'.faces_ok.get_lt he
      obtain ⟨k, rfl⟩ := Nat.exists_eq_add_of_le (Nat.le_of_not_lt hge)
      match k, he with
      | 0, he => rw [Nat.add_zero, hf1] at he; cases he; exact Or.inl ⟨rfl, rfl⟩
      | 1, he => rw [hf2] at he; cases he; exact Or.inr (Or.inl ⟨rfl, rfl⟩)
      | 2, he => rw [hf3] at he; cases he; exact Or.inr (Or.inr ⟨rfl, rfl⟩)
      | k + 3, he => omega
    obtain ⟨n1, n2, n3⟩ := V.ne' hat
    intro f g pts pts' ef eg hz
    by_cases hf : f < M.faces.next <;> by_cases hg : g < M.faces.next
    · rw [hfo f hf] at ef
      rw [hfo g hg] at eg
      exact hu f g pts pts' ef eg hz
    · exact absurd ((hz p).2 (by rcases hnew g pts' hg eg with ⟨_, rfl⟩ | ⟨_, rfl⟩ | ⟨_, rfl⟩ <;> simp)) (hold f pts hf ef)
    · exact absurd ((hz p).1 (by rcases hnew f pts hf ef with ⟨_, rfl⟩ | ⟨_, rfl⟩ | ⟨_, rfl⟩ <;> simp)) (hold g pts' hg eg)
    · have m1 : p ≠ p1 := fun e => hpT (by rw [hpts, e]; simp)
      have m2 : p ≠ p2 := fun e => hpT (by rw [hpts, e]; simp)
      have m3 : p ≠ p3 := fun e => hpT (by rw [hpts, e]; simp)
      rcases hnew f pts hf ef with ⟨e1, rfl⟩ | ⟨e1, rfl⟩ | ⟨e1, rfl⟩ <;>
        rcases hnew g pts' hg eg with ⟨e2, rfl⟩ | ⟨e2, rfl⟩ | ⟨e2, rfl⟩ <;>
        first
        | exact e1.trans e2.symm
        | (exfalso
           have w1 := hz p1
           have w2 := hz p2
           have w3 := hz p3
           simp at w1 w2 w3
           omega)
  refine ⟨?_, huniq, Star.start V E hrel hat (at_lt h) hin⟩
  have q1 : 0 < area (x p2) (x p3) (x p) := hin.2.1
  have q2 : 0 < area (x p3) (x p1) (x p) := hin.2.2
  have q3 : 0 < area (x p1) (x p2) (x p) := hin.1
  have hmem : ∀ z, z ∈ T.points ↔ z = p1 ∨ z = p2 ∨ z = p3 := by intro z; rw [hpts]; simp
  have hm1 : (p1, o1) ∈ T.slots := by rw [hsl]; simp
  have hm2 : (p2, o2) ∈ T.slots := by rw [hsl]; simp
  have hm3 : (p3, o3) ∈ T.slots := by rw [hsl]; simp
  have c1 := fun a b => inherit_facing (M' := M') h hf hT hm1 hmem hpos q1 (hfo _ (h.face_lt hT hm1)) a b
  have c2 := fun a b => inherit_facing (M' := M') h hf hT hm2 (u := p3) (w := p1)
    (by intro z; rw [hmem]; tauto) (by rw [area_cyc]; exact hpos) q2 (hfo _ (h.face_lt hT hm2)) a b
  have c3 := fun a b => inherit_facing (M' := M') h hf hT hm3 (u := p1) (w := p2)
    (by intro z; rw [hmem]; tauto) (by rw [area_cyc']; exact hpos) q3 (hfo _ (h.face_lt hT hm3)) a b
  have r1 : ∀ u v w : ℕ, 0 < area (x u) (x v) (x w) → 0 < area (x v) (x w) (x u) := fun _ _ _ h => by
    rw [area_cyc]; exact h
  refine hrep.facing h hf (fun i T v s hT _ hs => hfo _ (h.face_lt hT hs)) ?_
  intro T' hT' v s hs a b hab
  simp only [splitNews2d, List.mem_cons, List.not_mem_nil, or_false] at hT'
  rcases hT' with rfl | rfl | rfl <;>
    simp only [List.mem_cons, Prod.mk.injEq, List.not_mem_nil, or_false] at hs <;>
    rcases hs with ⟨rfl, rfl⟩ | ⟨rfl, rfl⟩ | ⟨rfl, rfl⟩
  · rw [show (newFace (M.faces.next + 2) true).face = M.faces.next + 2 from rfl, hf3] at hab
    cases hab
    exact r1 _ _ _ q1
  · rw [show (newFace (M.faces.next + 1) false).face = M.faces.next + 1 from rfl, hf2] at hab
    cases hab
    exact r1 _ _ _ (r1 _ _ _ q1)
  · exact c1 a b hab
  · rw [show (newFace M.faces.next true).face = M.faces.next from rfl, hf1] at hab
    cases hab
    exact r1 _ _ _ q2
  · rw [show (newFace (M.faces.next + 2) false).face = M.faces.next + 2 from rfl, hf3] at hab
    cases hab
    exact r1 _ _ _ (r1 _ _ _ q2)
  · exact c2 a b hab
  · rw [show (newFace (M.faces.next + 1) true).face = M.faces.next + 1 from rfl, hf2] at hab
    cases hab
    exact r1 _ _ _ q3
  · rw [show (newFace M.faces.next false).face = M.faces.next from rfl, hf1] at hab
    cases hab
    exact r1 _ _ _ (r1 _ _ _ q3)
  · exact c3 a b hab

/-- The neighbour of a triangle at an edge. -/
theorem neighbour_at {M : Mesh} {n : ℕ} (h : Consistent 2 M) (hf : Facing x M) (V : Valid x (At M) n) {t u p q : ℕ}
    {T : Tetra} {s : FaceInfo} (hT : M.tetras.get t = some T) (hs : (p, s) ∈ T.slots)
    (hso : s.opposing = some ⟨u, q⟩) : ∃ a b, M.faces.get s.face = some [a, b] ∧
      At M t p (if s.flipped then b else a) (if s.flipped then a else b) ∧
      At M u q (if s.flipped then a else b) (if s.flipped then b else a) := by
  obtain ⟨hut, U, r, hU, hr, hre⟩ := (h.neighbour t T hT p s hs u q).1 hso
  obtain ⟨a, b, e, hab, hset, hpa, hpb, hor⟩ := facing_edge h hf hT hs
  obtain ⟨a', b', e', _, hset', hqa, hqb, hor'⟩ := facing_edge h hf hU hr
  rw [hre, e] at e'
  cases e'
  rw [h.sides t T hT p s hs u U hU q r hr hre hut] at hor'
  refine ⟨a, b, e, ?_, ?_⟩
  · refine at_of_pos h hT V.pos ?_ ?_ ?_ ?_ hor
    · intro z
      rw [hset]
      split_ifs <;> tauto
    · split_ifs <;> assumption
    · split_ifs <;> assumption
    · split_ifs
      · exact hab.symm
      · exact hab
  · refine at_of_pos h hU V.pos ?_ ?_ ?_ ?_ ?_
    · intro z
      rw [hset']
      split_ifs <;> tauto
    · split_ifs <;> assumption
    · split_ifs <;> assumption
    · split_ifs
      · exact hab
      · exact hab.symm
    · cases hfl : s.flipped <;> simp [hfl] at hor' ⊢ <;> exact hor'

set_option maxHeartbeats 1000000 in
theorem flip2d_plane {M M' : Mesh} {t p : ℕ} {T : Tetra} {s : FaceInfo} {c : Conn} {news Q : List ℕ}
    (h : Consistent 2 M) (hf : Facing x M) (S : Star x (At M) p (t :: Q)) (hT : M.tetras.get t = some T)
    (hs : (p, s) ∈ T.slots) (hso : s.opposing = some c) (hci : (geo2 x).circ T c.point = some true)
    (hu : FacesUnique M) (hfl : M.flip2d t s.face = some (M', news)) :
    Facing x M' ∧ FacesUnique M' ∧ Star x (At M') p (Q ++ news) := by
  obtain ⟨u, q⟩ := c
  have V := S.valid
  have hqT : q ∉ T.points := geo2_proper x T q hci
  obtain ⟨a, b, e, hat, hau⟩ := neighbour_at h hf V hT hs hso
  obtain ⟨U, r, a', b', p1, x1, y1, p2, x2, y2, M0, M1, hU, hre, e', hp1, hp2, hTp, hUp, hrun, _, hrep, hc', _, hfo, hf1, hfn, hfg⟩ :=
    flip2d_lemma h hT hs hso hqT
  rw [e] at e'
  cases e'
  rw [← hp1, ← hp2] at hat hau
  rw [hrun] at hfl
  cases hfl
  have hin : pw (x p) (x p1) (x p2) (x q) < 0 := (geo2_circ_at V hT hat).1.1 hci
  have hrel : ReplacedBy (At M) (At M') [t, u] (flipN M.tetras.next p q p1 p2) := by
    intro i e f g
    rw [hrep.at h (fun o ho => by
      rcases List.mem_cons.1 ho with rfl | ho
      · exact h.tetras_ok.get_lt hT
      · rw [List.mem_singleton.1 ho]; exact h.tetras_ok.get_lt hU)]
    apply or_congr_right
    unfold flipN flipNews2d
    constructor
    · rintro ⟨k, T', hk, rfl, h1⟩
      match k, hk with
      | 0, hk =>
        cases hk
        refine ⟨_, List.mem_cons_self, rfl, ?_⟩
        simp [Tetra.points] at h1
        unfold Cyc3
        dsimp only
        omega
      | 1, hk =>
        cases hk
        refine ⟨_, List.mem_cons_of_mem _ List.mem_cons_self, rfl, ?_⟩
        simp [Tetra.points] at h1
        unfold Cyc3
        dsimp only
        omega
    · rintro ⟨s, hs, rfl, h1⟩
      simp only [List.mem_cons, List.not_mem_nil, or_false] at hs
      unfold Cyc3 at h1
      rcases hs with rfl | rfl
      · refine ⟨0, _, rfl, rfl, ?_⟩
        simp [Tetra.points]
        dsimp only at h1
        omega
      · refine ⟨1, _, rfl, rfl, ?_⟩
        simp [Tetra.points]
        dsimp only at h1
        omega
  have hpos := V.pos hat
  have hpos2 := V.pos hau
  have hpos' : 0 < area (x p2) (x p1) (x q) := V.pos (V.cyc hau)
  obtain ⟨v1, v2, v3⟩ := pw_vertices hpos.ne'
  obtain ⟨k1, k2⟩ := convex_of_inside hpos v1 v2 v3 hpos' hin
  have hstar := S.flip hrel hat hau (at_lt h) hin
  have hfac : Facing x M' := ?_
  · refine ⟨hfac, ?_, hstar⟩
    have V' := hstar.valid
    have m1 : At M' M.tetras.next q p p1 := (hrel _ _ _ _).2
      (Or.inr ⟨_, List.mem_cons_self, rfl, Or.inr (Or.inr ⟨rfl, rfl, rfl⟩)⟩)
    have m2 : At M' (M.tetras.next + 1) p q p2 := (hrel _ _ _ _).2
      (Or.inr ⟨_, List.mem_cons_of_mem _ List.mem_cons_self, rfl, Or.inr (Or.inl ⟨rfl, rfl, rfl⟩)⟩)
    -- an edge with the end points `p` and `q` is the new one
    have hnew : ∀ g pts, M'.faces.get g = some pts → (∀ z, z ∈ pts ↔ z = p ∨ z = q) → g = M.faces.next := by
      intro g pts hg hz
      obtain ⟨i, W, w, r', hW, hr', rfl⟩ := hc'.used g pts hg
      obtain ⟨a1, b1, e1, hn1, hset, hwa, hwb, hor⟩ := facing_edge hc' hfac hW hr'
      rw [hg] at e1
      cases e1
      have hz1 := (hz a1).1 (by simp)
      have hz2 := (hz b1).1 (by simp)
      have hW' : At M' i w (if r'.flipped then b1 else a1) (if r'.flipped then a1 else b1) := by
        refine at_of_pos hc' hW V'.pos ?_ ?_ ?_ ?_ hor
        · intro z
          rw [hset]
          split_ifs <;> tauto
        · split_ifs <;> assumption
        · split_ifs <;> assumption
        · split_ifs
          · exact hn1.symm
          · exact hn1
      have hdir : At M' i w p q ∨ At M' i w q p := by
        cases hfl' : r'.flipped <;> simp [hfl'] at hW'
        · rcases hz1 with rfl | rfl <;> rcases hz2 with rfl | rfl
          · exact absurd rfl hn1
          · exact Or.inl hW'
          · exact Or.inr hW'
          · exact absurd rfl hn1
        · rcases hz1 with rfl | rfl <;> rcases hz2 with rfl | rfl
          · exact absurd rfl hn1
          · exact Or.inr hW'
          · exact Or.inl hW'
          · exact absurd rfl hn1
      have slot : ∀ k T0 v s0, (flipNews2d p q p1 p2 M.faces.next x1 x2 y1 y2)[k]? = some T0 → (v, s0) ∈ T0.slots →
          i = M.tetras.next + k → w = v → r'.face = s0.face := by
        intro k T0 v s0 hk hv hi hw
        have hfr := hrep.fresh k
        rw [← hi, hW, hk] at hfr
        simp only [Option.map_some, Option.some.injEq] at hfr
        obtain ⟨s1, g1, g2, _⟩ := kept_slots (T := W) (T' := T0) hfr hv
        rw [← hw] at g1
        rw [slot_unique (hc'.points_nodup i W hW) hr' g1]
        exact g2
      rcases hdir with hd | hd
      · have e2 := V'.same (V'.cyc hd) m2
        subst e2
        have e3 := V'.same_third (V'.cyc hd) m2
        exact slot 1 _ p2 (newFace M.faces.next false) rfl (by simp) rfl e3
      · have e2 := V'.same (V'.cyc hd) m1
        subst e2
        have e3 := V'.same_third (V'.cyc hd) m1
        exact slot 0 _ p1 (newFace M.faces.next true) rfl (by simp) rfl e3
    have hcase : ∀ f pts, M'.faces.get f = some pts → (f = M.faces.next ∧ pts = [p, q]) ∨ M.faces.get f = some pts := by
      intro f pts hg
      have hlt := hc'.faces_ok.get_lt hg
      by_cases hf : f < M.faces.next
      · right
        rw [← hfo f hf (fun e => by rw [e, hfg] at hg; cases hg)]
        exact hg
      · left
        have : f = M.faces.next := by omega
        subst this
        rw [hf1] at hg
        cases hg
        exact ⟨rfl, rfl⟩
    intro f g pts pts' ef eg hz
    rcases hcase f pts ef with ⟨e1, rfl⟩ | h1
    · rw [e1]
      exact (hnew g pts' eg (fun z => by rw [← hz]; simp)).symm
    · rcases hcase g pts' eg with ⟨e2, rfl⟩ | h2
      · rw [e2]
        exact hnew f pts ef (fun z => by rw [hz]; simp)
      · exact hu f g pts pts' h1 h2 hz
  have hTm : ∀ z, z ∈ T.points ↔ z = p ∨ z = p1 ∨ z = p2 := by
    intro z
    rw [(points_of_slots hTp).mem_iff]
    simp
  have hUm : ∀ z, z ∈ U.points ↔ z = q ∨ z = p1 ∨ z = p2 := by
    intro z
    rw [(points_of_slots hUp).mem_iff]
    simp
  have hx1 : (p1, x1) ∈ T.slots := hTp.mem_iff.2 (by simp)
  have hx2 : (p2, x2) ∈ T.slots := hTp.mem_iff.2 (by simp)
  have hy1 : (p1, y1) ∈ U.slots := hUp.mem_iff.2 (by simp)
  have hy2 : (p2, y2) ∈ U.slots := hUp.mem_iff.2 (by simp)
  have hr : (q, r) ∈ U.slots := hUp.mem_iff.2 (by simp)
  obtain ⟨npa, nab, nbp⟩ := V.ne' hat
  obtain ⟨nqb, _, naq⟩ := V.ne' hau
  have fne : ∀ {i W v w}, M.tetras.get i = some W → (v, w) ∈ W.slots → (i = t → v ≠ p) → (i = u → v ≠ q) →
      (i = t ∨ i = u) → w.face ≠ s.face := by
    intro i W v w hW hw n1 n2 hi he
    rcases hi with rfl | rfl
    · rw [hT] at hW
      cases hW
      exact n1 rfl (congrArg Prod.fst (slot_of_face (h.facesNodup _ T hT) hw hs he))
    · rw [hU] at hW
      cases hW
      exact n2 rfl (congrArg Prod.fst (slot_of_face (h.facesNodup _ U hU) hw hr (he.trans hre.symm)))
  have hut : u ≠ t := ((h.neighbour t T hT p s hs u q).1 hso).1
  have d1 : x1.face ≠ s.face := fne hT hx1 (fun _ => npa.symm) (fun e => absurd e hut.symm) (Or.inl rfl)
  have d2 : x2.face ≠ s.face := fne hT hx2 (fun _ => nbp) (fun e => absurd e hut.symm) (Or.inl rfl)
  have d3 : y1.face ≠ s.face := fne hU hy1 (fun e => absurd e hut) (fun _ => naq) (Or.inr rfl)
  have d4 : y2.face ≠ s.face := fne hU hy2 (fun e => absurd e hut) (fun _ => nqb.symm) (Or.inr rfl)
  have r1 : ∀ u v w : ℕ, 0 < area (x u) (x v) (x w) → 0 < area (x v) (x w) (x u) := fun _ _ _ h => by
    rw [area_cyc]; exact h
  have c1 := fun a b => inherit_facing (M' := M') h hf hT hx1 (u := p2) (w := p) (z := q)
    (by intro z; rw [hTm]; tauto) (r1 _ _ _ hpos) k2 (hfo _ (h.face_lt hT hx1) d1) a b
  have c2 := fun a b => inherit_facing (M' := M') h hf hT hx2 (u := p) (w := p1) (z := q)
    (by intro z; rw [hTm]; tauto) (r1 _ _ _ (r1 _ _ _ hpos)) k1 (hfo _ (h.face_lt hT hx2) d2) a b
  have c3 := fun a b => inherit_facing (M' := M') h hf hU hy1 (u := q) (w := p2) (z := p)
    (by intro z; rw [hUm]; tauto) (r1 _ _ _ (r1 _ _ _ hpos2)) (r1 _ _ _ (r1 _ _ _ k2))
    (hfo _ (h.face_lt hU hy1) d3) a b
  have c4 := fun a b => inherit_facing (M' := M') h hf hU hy2 (u := p1) (w := q) (z := p)
    (by intro z; rw [hUm]; tauto) (r1 _ _ _ hpos2) (r1 _ _ _ k1) (hfo _ (h.face_lt hU hy2) d4) a b
  refine hrep.facing h hf ?_ ?_
  · intro i W v w hW hi hw
    refine hfo _ (h.face_lt hW hw) fun he => hi ?_
    by_cases hit : i = t
    · rw [hit]; exact List.mem_cons_self
    · have := h.at_most_two hT hU hW hs hr hw hre he hut hit
      rw [← this]
      simp
  · intro T' hT' v w hw a b hab
    simp only [flipNews2d, List.mem_cons, List.not_mem_nil, or_false] at hT'
    rcases hT' with rfl | rfl <;>
      simp only [List.mem_cons, Prod.mk.injEq, List.not_mem_nil, or_false] at hw <;>
      rcases hw with ⟨rfl, rfl⟩ | ⟨rfl, rfl⟩ | ⟨rfl, rfl⟩
    · exact c4 a b hab
    · rw [show (newFace M.faces.next true).face = M.faces.next from rfl, hf1] at hab
      cases hab
      exact r1 _ _ _ (r1 _ _ _ k1)
    · exact c2 a b hab
    · rw [show (newFace M.faces.next false).face = M.faces.next from rfl, hf1] at hab
      cases hab
      exact r1 _ _ _ k2
    · exact c3 a b hab
    · exact c1 a b hab

end Verif.Delaunay
