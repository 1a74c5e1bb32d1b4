import Verif.Delaunay.SpaceMesh
import Verif.Delaunay.GeoModel

/-! # The geometric tests of the three-dimensional code: lemmas -/

namespace Verif.Delaunay

open Verif.Predicates (P3 Triangle3 orient3 distSq3 Edge IntersectionType opposite LineBary Bary3)

section
variable {K : Type} [Field K]

theorem isAff_x : IsAff fun y : P3 K => y.x := fun y => by ring

theorem isAff_y : IsAff fun y : P3 K => y.y := fun y => by ring

theorem isAff_z : IsAff fun y : P3 K => y.z := fun y => by ring

/-- The coordinates of a point in a tetrahedron. -/
theorem bary3_co {v : Fin 4 → P3 K} (h : vol v ≠ 0) (y : P3 K) :
    Bary3 ⟨v 0, v 1, v 2, v 3⟩ y (co v 0 y) (co v 1 y) (co v 2 y) (co v 3 y) := by
  have h0 := co_sum h y
  have h1 := isAff_x.bary h y
  have h2 := isAff_y.bary h y
  have h3 := isAff_z.bary h y
  rw [Fin.sum_univ_four] at h0 h1 h2 h3
  exact ⟨h0, h1, h2, h3⟩

end

variable {K : Type} [Field K] [LinearOrder K] [IsStrictOrderedRing K] {x : ℕ → P3 K}

theorem forall_fin_four {P : Fin 4 → Prop} : (∀ k, P k) ↔ P 0 ∧ P 1 ∧ P 2 ∧ P 3 := by
  constructor
  · exact fun h => ⟨h 0, h 1, h 2, h 3⟩
  · rintro ⟨h0, h1, h2, h3⟩ k
    fin_cases k <;> assumption

theorem eq_of_distSq3 {u v : P3 K} (h : distSq3 u v = 0) : u = v := by
  unfold distSq3 at h
  have n1 := sq_nonneg (u.x - v.x)
  have n2 := sq_nonneg (u.y - v.y)
  have n3 := sq_nonneg (u.z - v.z)
  have z1 : u.x - v.x = 0 := pow_eq_zero_iff two_ne_zero |>.1 (by linarith)
  have z2 : u.y - v.y = 0 := pow_eq_zero_iff two_ne_zero |>.1 (by linarith)
  have z3 : u.z - v.z = 0 := pow_eq_zero_iff two_ne_zero |>.1 (by linarith)
  cases u
  cases v
  rw [P3.mk.injEq]
  exact ⟨sub_eq_zero.1 z1, sub_eq_zero.1 z2, sub_eq_zero.1 z3⟩

/-- A point inside of a tetrahedron is inside of its circumsphere. -/
theorem pw3_inside {v : Fin 4 → P3 K} (h : vol v ≠ 0) {y : P3 K} (hy : Inside3 v y) : pw3 v y < 0 := by
  rw [pw3_eq h (lift_sub_dist y) y]
  have hd : distSq3 y y = 0 := by simp [distSq3, P3.sub, Predicates.dot]
  rw [hd, zero_sub, neg_lt_zero]
  have h0 : ∀ i, 0 ≤ co v i y * distSq3 (v i) y := fun i => mul_nonneg (hy i).le (by
    simp only [distSq3]
    positivity)
  refine lt_of_le_of_ne (Finset.sum_nonneg fun i _ => h0 i) ?_
  intro he
  have hz := (Finset.sum_eq_zero_iff_of_nonneg fun i _ => h0 i).1 he.symm
  have hv : ∀ i, v i = y := by
    intro i
    exact eq_of_distSq3 ((mul_eq_zero.1 (hz i (Finset.mem_univ i))).resolve_left (hy i).ne')
  exact absurd (vol_injective h ((hv 0).trans (hv 1).symm)) (by decide)

theorem geo3_contains {eps : K} {T : Tetra} {a b c d p : ℕ} (hp : T.points = [a, b, c, d])
    (hne : vol (x ∘ ![a, b, c, d]) ≠ 0) :
    ((geo3 eps x).contains T p = some true ↔ Inside3 (x ∘ ![a, b, c, d]) (x p)) ∧
    ((geo3 eps x).contains T p = some false → ¬Within3 (x ∘ ![a, b, c, d]) (x p)) ∧
    ((geo3 eps x).contains T p = none → ∃ k, co (x ∘ ![a, b, c, d]) k (x p) = 0) := by
  have e : (geo3 eps x).contains T p = Predicates.Tetra.contains ⟨x a, x b, x c, x d⟩ (x p) := by
    unfold geo3
    dsimp only
    rw [hp]
  rw [e]
  obtain ⟨h1, h2, h3⟩ := Predicates.tetra_contains_correct (⟨x a, x b, x c, x d⟩ : Predicates.Tetra K) hne (x p) _ _ _ _
    (bary3_co hne (x p))
  refine ⟨?_, ?_, ?_⟩
  · rw [h1]
    exact (forall_fin_four (P := fun k => 0 < co (x ∘ ![a, b, c, d]) k (x p))).symm
  · intro hf hw
    have := forall_fin_four.1 hw
    rcases h2 hf with h | h | h | h <;> linarith [this.1, this.2.1, this.2.2.1, this.2.2.2]
  · intro hf
    rcases h3 hf with h | h | h | h
    · exact ⟨0, h⟩
    · exact ⟨1, h⟩
    · exact ⟨2, h⟩
    · exact ⟨3, h⟩

/-- The error bound of the in-sphere test is positive unless the point is a vertex. -/
theorem float_bound_pos {eps : K} (heps : 0 < eps) {t : Predicates.Tetra K} (hne : orient3 t ≠ 0) {e : P3 K}
    (h1 : e ≠ t.p1) (h2 : e ≠ t.p2) (h3 : e ≠ t.p3) (h4 : e ≠ t.p4) : 0 < (t.inSphereFloat eps e).2 := by
  unfold Predicates.Tetra.inSphereFloat
  dsimp only
  refine mul_pos heps ?_
  have hsq : ∀ u : P3 K, e ≠ u → 0 < (u.x - e.x) * (u.x - e.x) + (u.y - e.y) * (u.y - e.y) + (u.z - e.z) * (u.z - e.z) := by
    intro u hu
    have n1 := mul_self_nonneg (u.x - e.x)
    have n2 := mul_self_nonneg (u.y - e.y)
    have n3 := mul_self_nonneg (u.z - e.z)
    refine lt_of_le_of_ne (by positivity) fun hc => hu ?_
    have z1 : u.x - e.x = 0 := mul_self_eq_zero.1 (by linarith)
    have z2 : u.y - e.y = 0 := mul_self_eq_zero.1 (by linarith)
    have z3 : u.z - e.z = 0 := mul_self_eq_zero.1 (by linarith)
    cases u
    cases e
    simp only [P3.mk.injEq]
    exact ⟨(sub_eq_zero.1 z1).symm, (sub_eq_zero.1 z2).symm, (sub_eq_zero.1 z3).symm⟩
  have a2 := hsq t.p1 h1
  have b2 := hsq t.p2 h2
  have c2 := hsq t.p3 h3
  have d2 := hsq t.p4 h4
  rw [Predicates.orient3_eq] at hne
  generalize ha : t.p1.x - e.x = ax at *
  generalize ha' : t.p1.y - e.y = ay at *
  generalize ha'' : t.p1.z - e.z = az at *
  generalize hb : t.p2.x - e.x = bx at *
  generalize hb' : t.p2.y - e.y = bY at *
  generalize hb'' : t.p2.z - e.z = bz at *
  generalize hc : t.p3.x - e.x = cx at *
  generalize hc' : t.p3.y - e.y = cy at *
  generalize hc'' : t.p3.z - e.z = cz at *
  generalize hd : t.p4.x - e.x = dx at *
  generalize hd' : t.p4.y - e.y = dy at *
  generalize hd'' : t.p4.z - e.z = dz at *
  have hvol : (bz * (cx * dy - dx * cy) - cz * (bx * dy - dx * bY) + dz * (bx * cy - cx * bY))
      - (cz * (dx * ay - ax * dy) + dz * (ax * cy - cx * ay) + az * (cx * dy - dx * cy))
      + (dz * (ax * bY - bx * ay) + az * (bx * dy - dx * bY) + bz * (dx * ay - ax * dy))
      - (az * (bx * cy - cx * bY) - bz * (ax * cy - cx * ay) + cz * (ax * bY - bx * ay)) ≠ 0 := by
    intro he
    apply hne
    rw [← he, ← ha, ← ha', ← ha'', ← hb, ← hb', ← hb'', ← hc, ← hc', ← hc'', ← hd, ← hd', ← hd'']
    ring
  have t1 : ∀ z a b : K, |z * (a - b)| ≤ |z| * (|a| + |b|) := fun z a b => by
    rw [abs_mul]
    exact mul_le_mul_of_nonneg_left (abs_sub _ _) (abs_nonneg _)
  have tri : ∀ z1 a1 b1 z2 a2 b2 z3 a3 b3 : K,
      |z1| * (|a1| + |b1|) + |z2| * (|a2| + |b2|) + |z3| * (|a3| + |b3|) = 0 →
      z1 * (a1 - b1) = 0 ∧ z2 * (a2 - b2) = 0 ∧ z3 * (a3 - b3) = 0 := by
    intro z1 a1 b1 z2 a2 b2 z3 a3 b3 h0
    have q1 := t1 z1 a1 b1
    have q2 := t1 z2 a2 b2
    have q3 := t1 z3 a3 b3
    have r1 := abs_nonneg (z1 * (a1 - b1))
    have r2 := abs_nonneg (z2 * (a2 - b2))
    have r3 := abs_nonneg (z3 * (a3 - b3))
    exact ⟨abs_eq_zero.1 (by linarith), abs_eq_zero.1 (by linarith), abs_eq_zero.1 (by linarith)⟩
  have nn : ∀ z1 a1 b1 z2 a2 b2 z3 a3 b3 : K,
      0 ≤ |z1| * (|a1| + |b1|) + |z2| * (|a2| + |b2|) + |z3| * (|a3| + |b3|) := by
    intro z1 a1 b1 z2 a2 b2 z3 a3 b3
    positivity
  by_contra hle
  rw [not_lt] at hle
  have m1 := nn dz (ax * bY) (bx * ay) az (bx * dy) (dx * bY) bz (dx * ay) (ax * dy)
  have m2 := nn az (bx * cy) (cx * bY) bz (ax * cy) (cx * ay) cz (ax * bY) (bx * ay)
  have m3 := nn bz (cx * dy) (dx * cy) cz (bx * dy) (dx * bY) dz (bx * cy) (cx * bY)
  have m4 := nn cz (dx * ay) (ax * dy) dz (ax * cy) (cx * ay) az (cx * dy) (dx * cy)
  have n1 := mul_nonneg c2.le m1
  have n2 := mul_nonneg d2.le m2
  have n3 := mul_nonneg a2.le m3
  have n4 := mul_nonneg b2.le m4
  have z1 := tri _ _ _ _ _ _ _ _ _ ((mul_eq_zero.1 (le_antisymm (by linarith) n1)).resolve_left c2.ne')
  have z2 := tri _ _ _ _ _ _ _ _ _ ((mul_eq_zero.1 (le_antisymm (by linarith) n2)).resolve_left d2.ne')
  have z3 := tri _ _ _ _ _ _ _ _ _ ((mul_eq_zero.1 (le_antisymm (by linarith) n3)).resolve_left a2.ne')
  have z4 := tri _ _ _ _ _ _ _ _ _ ((mul_eq_zero.1 (le_antisymm (by linarith) n4)).resolve_left b2.ne')
  apply hvol
  rw [z1.1, z1.2.1, z1.2.2, z2.1, z2.2.1, z2.2.2, z3.1, z3.2.1, z3.2.2, z4.1, z4.2.1, z4.2.2]
  simp

theorem geo3_circ {eps : K} (heps : 0 < eps) {T : Tetra} {a b c d q : ℕ} (hp : T.points = [a, b, c, d])
    (hpos : 0 < vol (x ∘ ![a, b, c, d])) (hq : ∀ k, x q ≠ (x ∘ ![a, b, c, d]) k) :
    ((geo3 eps x).circ T q = some true ↔ pw3 (x ∘ ![a, b, c, d]) (x q) < 0) ∧
    ((geo3 eps x).circ T q = some false ↔ 0 < pw3 (x ∘ ![a, b, c, d]) (x q)) ∧
    ((geo3 eps x).circ T q = none ↔ pw3 (x ∘ ![a, b, c, d]) (x q) = 0) := by
  have e : (geo3 eps x).circ T q = Predicates.Tetra.circumsphereContains eps ⟨x a, x b, x c, x d⟩ (x q) := by
    unfold geo3
    dsimp only
    rw [hp]
  rw [e]
  obtain ⟨o, _, g1, g2, g3⟩ := Predicates.circumcentre_correct eps heps (⟨x a, x b, x c, x d⟩ : Predicates.Tetra K) hpos.ne'
  dsimp only at g1 g2 g3
  obtain ⟨h1, h2⟩ := Predicates.in_sphere_correct eps heps.le (⟨x a, x b, x c, x d⟩ : Predicates.Tetra K) hpos (x q)
    o _ rfl g1.symm g2.symm g3.symm
  obtain ⟨c1, c2, c3⟩ := Predicates.in_sphere_exact_correct (⟨x a, x b, x c, x d⟩ : Predicates.Tetra K) hpos (x q)
    o _ rfl g1.symm g2.symm g3.symm
  dsimp only at h1 h2 c1 c2 c3
  have hpw : pw3 (x ∘ ![a, b, c, d]) (x q) = distSq3 (x q) o - distSq3 (x a) o := by
    refine pw3_sphere hpos.ne' (forall_fin_four.2 ⟨rfl, g1.symm, g2.symm, g3.symm⟩) (x q)
  rw [hpw]
  have hnone : distSq3 (x q) o = distSq3 (x a) o →
      Predicates.Tetra.circumsphereContains eps ⟨x a, x b, x c, x d⟩ (x q) = none := by
    intro he
    have hb := float_bound_pos heps (t := ⟨x a, x b, x c, x d⟩) hpos.ne' (e := x q) (hq 0) (hq 1) (hq 2) (hq 3)
    have hx := Predicates.float_formula_is_minus_determinant eps ⟨x a, x b, x c, x d⟩ (x q)
    have hid := Predicates.inSphere_identity (x a) (x b) (x c) (x d) (x q) o _ rfl g1.symm g2.symm g3.symm
    dsimp only at hx
    rw [hid, he, sub_self, mul_zero, neg_zero] at hx
    unfold Predicates.Tetra.circumsphereContains
    dsimp only
    rw [hx, abs_zero, if_pos hb]
    exact c3.2 he
  rw [sub_neg, sub_pos, sub_eq_zero]
  refine ⟨h1, ⟨fun h => ?_, h2⟩, ⟨fun h => ?_, hnone⟩⟩
  · rcases lt_trichotomy (distSq3 (x q) o) (distSq3 (x a) o) with hl | hl | hl
    · rw [h1.2 hl] at h; cases h
    · rw [hnone hl] at h; cases h
    · exact hl
  · rcases lt_trichotomy (distSq3 (x q) o) (distSq3 (x a) o) with hl | hl | hl
    · rw [h1.2 hl] at h; cases h
    · exact hl
    · rw [h2 hl] at h; cases h

/-- The line from `p` to `q` through a face with `p` on its other side. -/
theorem intersect3_correct {s1 s2 s3 p q : ℕ} (hne : vol (x ∘ ![s1, s2, s3, q]) ≠ 0)
    (hp : co (x ∘ ![s1, s2, s3, q]) 3 (x p) < 0) :
    (intersect3 x [s1, s2, s3] p q = some .inside ↔ ∀ k, k ≠ 3 → 0 < co (x ∘ ![s1, s2, s3, q]) k (x p)) ∧
    (∀ e, intersect3 x [s1, s2, s3] p q = some (.outsideOneEdge e) ↔
      opposite (co (x ∘ ![s1, s2, s3, q]) 0 (x p)) (co (x ∘ ![s1, s2, s3, q]) 1 (x p)) (co (x ∘ ![s1, s2, s3, q]) 2 (x p)) e < 0 ∧
      ∀ f, f ≠ e → 0 < opposite (co (x ∘ ![s1, s2, s3, q]) 0 (x p)) (co (x ∘ ![s1, s2, s3, q]) 1 (x p))
        (co (x ∘ ![s1, s2, s3, q]) 2 (x p)) f) ∧
    (∀ e f, intersect3 x [s1, s2, s3] p q = some (.outsideTwoEdges e f) → 0 ≤ pw3 (x ∘ ![s1, s2, s3, q]) (x p)) ∧
    (intersect3 x [s1, s2, s3] p q = none ↔ ∃ k, k ≠ 3 ∧ co (x ∘ ![s1, s2, s3, q]) k (x p) = 0) := by
  have hb := bary3_co hne (x p)
  set δ := co (x ∘ ![s1, s2, s3, q]) 3 (x p) with hδ
  set α := co (x ∘ ![s1, s2, s3, q]) 0 (x p) with hα
  set β := co (x ∘ ![s1, s2, s3, q]) 1 (x p) with hβ
  set γ := co (x ∘ ![s1, s2, s3, q]) 2 (x p) with hγ
  have hδ1 : 0 < 1 - δ := by linarith
  obtain ⟨b0, b1, b2, b3⟩ := hb
  have hvp : vol (x ∘ ![s1, s2, s3, p]) = δ * vol (x ∘ ![s1, s2, s3, q]) := by
    rw [← vol_update hne]
    congr 1
    funext i
    fin_cases i <;> rfl
  have hw : LineBary (⟨x s1, x s2, x s3⟩ : Triangle3 K) (x p) (x q) (-δ / (1 - δ)) (α / (1 - δ)) (β / (1 - δ)) (γ / (1 - δ)) := by
    refine ⟨?_, ?_, ?_, ?_⟩
    · field_simp
      linarith
    · have : (x p).x = α * (x s1).x + β * (x s2).x + γ * (x s3).x + δ * (x q).x := b1
      dsimp only
      field_simp
      linear_combination this
    · have : (x p).y = α * (x s1).y + β * (x s2).y + γ * (x s3).y + δ * (x q).y := b2
      dsimp only
      field_simp
      linear_combination this
    · have : (x p).z = α * (x s1).z + β * (x s2).z + γ * (x s3).z + δ * (x q).z := b3
      dsimp only
      field_simp
      linear_combination this
  have hnp : orient3 (⟨⟨0, 0, 0⟩, (x s2).sub (x s1), (x s3).sub (x s1), (x q).sub (x p)⟩ : Predicates.Tetra K) ≠ 0 := by
    have : orient3 (⟨⟨0, 0, 0⟩, (x s2).sub (x s1), (x s3).sub (x s1), (x q).sub (x p)⟩ : Predicates.Tetra K) =
        vol (x ∘ ![s1, s2, s3, q]) - vol (x ∘ ![s1, s2, s3, p]) := by
      rw [Predicates.orient3_eq]
      simp only [vol_def, P3.sub]
      simp
      ring
    rw [this, hvp]
    have : vol (x ∘ ![s1, s2, s3, q]) - δ * vol (x ∘ ![s1, s2, s3, q]) = (1 - δ) * vol (x ∘ ![s1, s2, s3, q]) := by ring
    rw [this]
    exact mul_ne_zero hδ1.ne' hne
  obtain ⟨c1, c2, c3, c4⟩ := Predicates.line_intersection_correct (⟨x s1, x s2, x s3⟩ : Triangle3 K) (x p) (x q) _ _ _ _ hnp hw
  have hop : ∀ e, opposite (α / (1 - δ)) (β / (1 - δ)) (γ / (1 - δ)) e = opposite α β γ e / (1 - δ) := by
    intro e
    cases e <;> rfl
  simp only [hop, div_pos_iff_of_pos_right hδ1, div_neg_iff, hδ1, hδ1.not_gt, and_true, and_false, false_or, or_false,
    div_eq_zero_iff, hδ1.ne'] at c1 c2 c3 c4
  unfold intersect3
  dsimp only
  refine ⟨?_, c2, ?_, ?_⟩
  · rw [c1]
    constructor
    · intro h k hk
      fin_cases k
      · exact h .one
      · exact h .two
      · exact h .three
      · exact absurd rfl hk
    · intro h e
      cases e
      · exact h 0 (by decide)
      · exact h 1 (by decide)
      · exact h 2 (by decide)
  · intro e f h
    obtain ⟨hef, n1, n2, n3⟩ := c3 e f h
    -- only the third vertex of the face can have a positive coordinate
    have key : ∀ k : Fin 4, (∀ i, i ≠ k → co (x ∘ ![s1, s2, s3, q]) i (x p) ≤ 0) → 0 ≤ pw3 (x ∘ ![s1, s2, s3, q]) (x p) :=
      fun k hk => pw3_nonneg hne hk
    cases e <;> cases f <;> first
      | exact absurd rfl hef
      | (refine key 0 fun i hi => ?_
         fin_cases i
         · exact absurd rfl hi
         · first | exact n1.le | exact n2.le
         · first | exact n1.le | exact n2.le
         · exact hp.le)
      | (refine key 1 fun i hi => ?_
         fin_cases i
         · first | exact n1.le | exact n2.le
         · exact absurd rfl hi
         · first | exact n1.le | exact n2.le
         · exact hp.le)
      | (refine key 2 fun i hi => ?_
         fin_cases i
         · first | exact n1.le | exact n2.le
         · first | exact n1.le | exact n2.le
         · exact absurd rfl hi
         · exact hp.le)
  · rw [c4]
    constructor
    · rintro ⟨e, he⟩
      cases e
      · exact ⟨0, by decide, he⟩
      · exact ⟨1, by decide, he⟩
      · exact ⟨2, by decide, he⟩
    · rintro ⟨k, hk, he⟩
      fin_cases k
      · exact ⟨.one, he⟩
      · exact ⟨.two, he⟩
      · exact ⟨.three, he⟩
      · exact absurd rfl hk

end Verif.Delaunay
