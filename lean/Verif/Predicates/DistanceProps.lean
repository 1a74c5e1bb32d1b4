import Verif.Predicates.DistanceModel
import Verif.Predicates.SimplexProps
import Mathlib.Tactic.Linarith
import Mathlib.Tactic.FieldSimp
import Mathlib.Tactic.LinearCombination

/-!
# C123: distances between points and simplices
-/

namespace Verif.Predicates

section
variable {K : Type} [Field K] [LinearOrder K]

/-- `q` is a point of the triangle: a convex combination of its vertices. -/
def Triangle3.Has (t : Triangle3 K) (q : P3 K) : Prop :=
  ∃ w1 w2 w3, 0 ≤ w1 ∧ 0 ≤ w2 ∧ 0 ≤ w3 ∧ w1 + w2 + w3 = 1 ∧
    q.x = w1 * t.p1.x + w2 * t.p2.x + w3 * t.p3.x ∧
    q.y = w1 * t.p1.y + w2 * t.p2.y + w3 * t.p3.y ∧
    q.z = w1 * t.p1.z + w2 * t.p2.z + w3 * t.p3.z

/-- The vertices are not on a line. -/
def Triangle3.Proper (t : Triangle3 K) : Prop := cross (t.p2.sub t.p1) (t.p3.sub t.p1) ≠ ⟨0, 0, 0⟩

variable [IsStrictOrderedRing K]

/-- A point of the triangle from which no vertex is in the direction of `p` is nearest to `p`. -/
private theorem nearest_of (t : Triangle3 K) (p q : P3 K)
    (h1 : dot (p.sub q) (t.p1.sub q) ≤ 0) (h2 : dot (p.sub q) (t.p2.sub q) ≤ 0)
    (h3 : dot (p.sub q) (t.p3.sub q) ≤ 0) : ∀ r, t.Has r → distSq3 q p ≤ distSq3 r p := by
  rintro r ⟨w1, w2, w3, g1, g2, g3, e, ex, ey, ez⟩
  have e' : w1 = 1 - w2 - w3 := by linarith
  have key : dot (p.sub q) (r.sub q) = w1 * dot (p.sub q) (t.p1.sub q) + w2 * dot (p.sub q) (t.p2.sub q)
      + w3 * dot (p.sub q) (t.p3.sub q) := by
    simp only [dot, P3.sub, ex, ey, ez, e']
    ring
  have h4 : dot (p.sub q) (r.sub q) ≤ 0 := by
    rw [key]
    have := mul_nonpos_of_nonneg_of_nonpos g1 h1
    have := mul_nonpos_of_nonneg_of_nonpos g2 h2
    have := mul_nonpos_of_nonneg_of_nonpos g3 h3
    linarith
  have h5 : distSq3 r p = distSq3 q p + distSq3 r q - 2 * dot (p.sub q) (r.sub q) := by
    simp only [dot, P3.sub, distSq3]
    ring
  have h6 : 0 ≤ distSq3 r q := by
    unfold distSq3
    positivity
  linarith

/-- Behind the corner `x` on the outer side of the edge `xy`: one of the regions of the corners `x` and `z` or of
the edge `xz`. -/
private theorem no_corner {A C e d1 d2 : K} (hA : 0 < A) (hC : 0 < C) (hAC : e * e < A * C)
    (hx : ¬(d1 ≤ 0 ∧ d2 ≤ 0)) (hz : ¬(0 ≤ d2 - C ∧ d1 - e ≤ d2 - C))
    (hxz : ¬((d1 - e) * d2 - d1 * (d2 - C) ≤ 0 ∧ 0 ≤ d2 ∧ d2 - C ≤ 0)) (h1 : d1 < 0)
    (hv : d1 * (d2 - e) - (d1 - A) * d2 ≤ 0) : False := by
  have h2 : 0 < d2 := by
    by_contra h
    exact hx ⟨h1.le, not_lt.1 h⟩
  have hv' : A * d2 ≤ e * d1 := by linarith
  have he : e < 0 := by
    by_contra h
    have := mul_nonpos_of_nonneg_of_nonpos (not_lt.1 h) h1.le
    have := mul_pos hA h2
    linarith
  have hb : C * d1 - e * d2 < 0 := by
    have g1 : (-e) * (A * d2) ≤ (-e) * (e * d1) := mul_le_mul_of_nonneg_left hv' (by linarith)
    have g2 : e * e * (-d1) < A * C * (-d1) := mul_lt_mul_of_pos_right hAC (by linarith)
    have g3 : A * (C * d1 - e * d2) < 0 := by linarith
    by_contra h
    have := mul_nonneg hA.le (not_lt.1 h)
    linarith
  have h6 : 0 < d2 - C := by
    by_contra h
    exact hxz ⟨by linarith, h2.le, not_lt.1 h⟩
  have h5 : 0 < d1 - e := by
    by_contra h
    exact hz ⟨h6.le, by linarith⟩
  have g1 : e * d1 < e * e := mul_lt_mul_of_neg_left (by linarith) he
  have g2 : A * C < A * d2 := mul_lt_mul_of_pos_left (by linarith) hA
  linarith

omit [IsStrictOrderedRing K] in
private theorem dot_parts (ab ac a p : P3 K) :
    dot ab (p.sub (a.add ab)) = dot ab (p.sub a) - dot ab ab ∧
    dot ac (p.sub (a.add ab)) = dot ac (p.sub a) - dot ab ac := by
  constructor <;> simp only [dot, P3.sub, P3.add] <;> ring

/-- The squared area is what Gram says. -/
private theorem gram_pos (t : Triangle3 K) (ht : t.Proper) :
    dot (t.p2.sub t.p1) (t.p3.sub t.p1) * dot (t.p2.sub t.p1) (t.p3.sub t.p1) <
      dot (t.p2.sub t.p1) (t.p2.sub t.p1) * dot (t.p3.sub t.p1) (t.p3.sub t.p1) := by
  have h : dot (t.p2.sub t.p1) (t.p2.sub t.p1) * dot (t.p3.sub t.p1) (t.p3.sub t.p1) -
      dot (t.p2.sub t.p1) (t.p3.sub t.p1) * dot (t.p2.sub t.p1) (t.p3.sub t.p1) =
      dot (cross (t.p2.sub t.p1) (t.p3.sub t.p1)) (cross (t.p2.sub t.p1) (t.p3.sub t.p1)) := by
    simp only [dot, cross]
    ring
  have h2 : 0 < dot (cross (t.p2.sub t.p1) (t.p3.sub t.p1)) (cross (t.p2.sub t.p1) (t.p3.sub t.p1)) := by
    by_contra hc
    apply ht
    generalize cross (t.p2.sub t.p1) (t.p3.sub t.p1) = n at hc
    unfold dot at hc
    have hx := mul_self_nonneg n.x
    have hy := mul_self_nonneg n.y
    have hz := mul_self_nonneg n.z
    have ex : n.x = 0 := mul_self_eq_zero.1 (by linarith)
    have ey : n.y = 0 := mul_self_eq_zero.1 (by linarith)
    have ez : n.z = 0 := mul_self_eq_zero.1 (by linarith)
    ext <;> assumption
  linarith

private theorem dot_self_nonneg (u : P3 K) : 0 ≤ dot u u := by
  unfold dot
  have := mul_self_nonneg u.x
  have := mul_self_nonneg u.y
  have := mul_self_nonneg u.z
  linarith

/-- **C123** (triangle in space): `closest_point` finds the point of the triangle which is nearest to `p`. -/
theorem closest_point_nearest (t : Triangle3 K) (ht : t.Proper) (p : P3 K) :
    ∃ q, t.closestPoint p = some q ∧ t.Has q ∧ ∀ r, t.Has r → distSq3 q p ≤ distSq3 r p := by
  obtain ⟨a, b, c⟩ := t
  have hG := gram_pos _ ht
  unfold Triangle3.closestPoint
  dsimp only at hG ⊢
  have hab := dot_self_nonneg (b.sub a)
  have hac := dot_self_nonneg (c.sub a)
  -- everything in terms of five numbers
  have e3 : dot (b.sub a) (p.sub b) = dot (b.sub a) (p.sub a) - dot (b.sub a) (b.sub a) := by
    simp only [dot, P3.sub]; ring
  have e4 : dot (c.sub a) (p.sub b) = dot (c.sub a) (p.sub a) - dot (b.sub a) (c.sub a) := by
    simp only [dot, P3.sub]; ring
  have e5 : dot (b.sub a) (p.sub c) = dot (b.sub a) (p.sub a) - dot (b.sub a) (c.sub a) := by
    simp only [dot, P3.sub]; ring
  have e6 : dot (c.sub a) (p.sub c) = dot (c.sub a) (p.sub a) - dot (c.sub a) (c.sub a) := by
    simp only [dot, P3.sub]; ring
  rw [e3, e4, e5, e6]
  -- directions from a point `a + v ab + w ac` to the vertices
  have dirs : ∀ v w : K, ∀ q : P3 K, q = (a.add ((b.sub a).smul v)).add ((c.sub a).smul w) →
      (let P := dot (b.sub a) (p.sub a) - v * dot (b.sub a) (b.sub a) - w * dot (b.sub a) (c.sub a)
       let Q := dot (c.sub a) (p.sub a) - v * dot (b.sub a) (c.sub a) - w * dot (c.sub a) (c.sub a)
       0 ≤ v → 0 ≤ w → v + w ≤ 1 → -(v * P) - w * Q ≤ 0 → (1 - v) * P - w * Q ≤ 0 → -(v * P) + (1 - w) * Q ≤ 0 →
       (⟨a, b, c⟩ : Triangle3 K).Has q ∧ ∀ r, (⟨a, b, c⟩ : Triangle3 K).Has r → distSq3 q p ≤ distSq3 r p) := by
    intro v w q hq P Q hv hw hvw h1 h2 h3
    subst hq
    refine ⟨⟨1 - v - w, v, w, by linarith, hv, hw, by ring, ?_, ?_, ?_⟩, nearest_of _ p _ ?_ ?_ ?_⟩
    · simp only [P3.add, P3.smul, P3.sub]; ring
    · simp only [P3.add, P3.smul, P3.sub]; ring
    · simp only [P3.add, P3.smul, P3.sub]; ring
    · refine le_of_eq_of_le ?_ h1
      simp only [P, Q, dot, P3.add, P3.smul, P3.sub]; ring
    · refine le_of_eq_of_le ?_ h2
      simp only [P, Q, dot, P3.add, P3.smul, P3.sub]; ring
    · refine le_of_eq_of_le ?_ h3
      simp only [P, Q, dot, P3.add, P3.smul, P3.sub]; ring
  have qa : a = (a.add ((b.sub a).smul 0)).add ((c.sub a).smul 0) := by
    ext <;> simp [P3.add, P3.smul]
  have qb : b = (a.add ((b.sub a).smul 1)).add ((c.sub a).smul 0) := by
    ext <;> simp [P3.add, P3.smul, P3.sub]
  have qc : c = (a.add ((b.sub a).smul 0)).add ((c.sub a).smul 1) := by
    ext <;> simp [P3.add, P3.smul, P3.sub]
  have qab : ∀ v, a.add ((b.sub a).smul v) = (a.add ((b.sub a).smul v)).add ((c.sub a).smul 0) := by
    intro v; ext <;> simp [P3.add, P3.smul]
  have qac : ∀ v, a.add ((c.sub a).smul v) = (a.add ((b.sub a).smul 0)).add ((c.sub a).smul v) := by
    intro v; ext <;> simp [P3.add, P3.smul]
  have qbc : ∀ v, b.add ((c.sub b).smul v) = (a.add ((b.sub a).smul (1 - v))).add ((c.sub a).smul v) := by
    intro v; ext <;> simp [P3.add, P3.smul, P3.sub] <;> ring
  clear e3 e4 e5 e6
  generalize dot (b.sub a) (p.sub a) = d1 at *
  generalize dot (c.sub a) (p.sub a) = d2 at *
  generalize dot (b.sub a) (b.sub a) = A at *
  generalize dot (c.sub a) (c.sub a) = C at *
  generalize dot (b.sub a) (c.sub a) = e at *
  have hA : 0 < A := by
    rcases hab.lt_or_eq with h | h
    · exact h
    · rw [← h, zero_mul] at hG
      linarith [mul_self_nonneg e]
  have hC : 0 < C := by
    rcases hac.lt_or_eq with h | h
    · exact h
    · rw [← h, mul_zero] at hG
      linarith [mul_self_nonneg e]
  have hB : 0 < A + C - 2 * e := by
    by_contra h
    have h1 : (A + C) * (A + C) ≤ 2 * e * (2 * e) :=
      mul_self_le_mul_self (by linarith) (by linarith)
    have h2 := mul_self_nonneg (A - C)
    linarith
  split_ifs with ha hb hc hvc hvb hva
  · exact ⟨a, rfl, dirs 0 0 a qa le_rfl le_rfl (by norm_num) (by simp) (by simpa using ha.1) (by simpa using ha.2)⟩
  · exact ⟨b, rfl, dirs 1 0 b qb zero_le_one le_rfl (by norm_num) (by simpa using hb.1) (by simp)
      (by simp; linarith [hb.2])⟩
  · exact ⟨c, rfl, dirs 0 1 c qc le_rfl zero_le_one (by norm_num) (by simpa using hc.1)
      (by simp; linarith [hc.2]) (by simp)⟩
  · have hd : d1 - (d1 - A) = A := by ring
    rw [hd, divide, if_neg hA.ne']
    have hv : d1 / A * A = d1 := div_mul_cancel₀ _ hA.ne'
    have h0 : 0 ≤ d1 / A := div_nonneg hvc.2.1 hA.le
    have h1 : d1 / A ≤ 1 := by rw [div_le_one hA]; linarith [hvc.2.2]
    have h2 : d2 - d1 / A * e ≤ 0 := by
      have : (d2 - d1 / A * e) = (d1 * (d2 - e) - (d1 - A) * d2) / A := by field_simp; ring
      rw [this]
      exact div_nonpos_of_nonpos_of_nonneg hvc.1 hA.le
    refine ⟨_, rfl, dirs (d1 / A) 0 _ (qab _) h0 le_rfl (by linarith) ?_ ?_ ?_⟩
    · rw [hv]; simp
    · rw [hv]; simp
    · rw [hv]; simpa using h2
  · have hd : d2 - (d2 - C) = C := by ring
    rw [hd, divide, if_neg hC.ne']
    have hv : d2 / C * C = d2 := div_mul_cancel₀ _ hC.ne'
    have h0 : 0 ≤ d2 / C := div_nonneg hvb.2.1 hC.le
    have h1 : d2 / C ≤ 1 := by rw [div_le_one hC]; linarith [hvb.2.2]
    have h2 : d1 - d2 / C * e ≤ 0 := by
      have : (d1 - d2 / C * e) = ((d1 - e) * d2 - d1 * (d2 - C)) / C := by field_simp; ring
      rw [this]
      exact div_nonpos_of_nonpos_of_nonneg hvb.1 hC.le
    refine ⟨_, rfl, dirs 0 (d2 / C) _ (qac _) le_rfl h0 (by linarith) ?_ ?_ ?_⟩
    · rw [hv]; simp
    · rw [hv]; simpa using h2
    · rw [hv]; simp
  · have hd : d2 - e - (d1 - A) + (d1 - e - (d2 - C)) = A + C - 2 * e := by ring
    rw [hd, divide, if_neg hB.ne']
    generalize hB' : A + C - 2 * e = B at hB
    set v := (d2 - e - (d1 - A)) / B with hvdef
    have hv : v * B = d2 - e - (d1 - A) := div_mul_cancel₀ _ hB.ne'
    have h0 : 0 ≤ v := div_nonneg hva.2.1 hB.le
    have h1 : v ≤ 1 := by rw [hvdef, div_le_one hB]; linarith [hva.2.2]
    -- the gradient is orthogonal to the edge
    have hPQ : d1 - (1 - v) * A - v * e = d2 - (1 - v) * e - v * C := by
      rw [← hB'] at hv
      linear_combination hv
    have hP : 0 ≤ d1 - (1 - v) * A - v * e := by
      have : d1 - (1 - v) * A - v * e = -((d1 - A) * (d2 - C) - (d1 - e) * (d2 - e)) / B := by
        rw [eq_div_iff hB.ne']
        have : (d1 - (1 - v) * A - v * e) * B = (d1 - A) * B + (A - e) * (v * B) := by ring
        rw [this, hv, ← hB']
        ring
      rw [this]
      exact div_nonneg (by linarith [hva.1]) hB.le
    refine ⟨_, rfl, dirs (1 - v) v _ (qbc _) (by linarith) h0 (by linarith) ?_ ?_ ?_⟩
    · rw [← hPQ]; linarith
    · rw [← hPQ]; linarith
    · rw [← hPQ]; linarith
  · -- inside
    have hvc' : 0 < d1 * (d2 - e) - (d1 - A) * d2 := by
      by_contra hv
      rw [not_lt] at hv
      rcases lt_or_ge d1 0 with h | h
      · exact no_corner hA hC hG ha (by simpa [ge_iff_le] using hc) (by simpa [ge_iff_le] using hvb) h hv
      · have h3 : 0 < d1 - A := by
          by_contra h3
          exact hvc ⟨hv, h, not_lt.1 h3⟩
        refine no_corner (A := A) (C := A + C - 2 * e) (e := A - e) (d1 := A - d1) (d2 := d2 - e - (d1 - A))
          hA hB (by linarith) ?_ ?_ ?_ (by linarith) (by linarith)
        · rintro ⟨g1, g2⟩
          exact hb ⟨by linarith, by linarith⟩
        · rintro ⟨g1, g2⟩
          exact hc ⟨by linarith, by linarith⟩
        · rintro ⟨g1, g2, g3⟩
          exact hva ⟨by linarith, by linarith, by linarith⟩
    have hvb' : 0 < (d1 - e) * d2 - d1 * (d2 - C) := by
      by_contra hv
      rw [not_lt] at hv
      rcases lt_or_ge d2 0 with h | h
      · refine no_corner (A := C) (C := A) (e := e) (d1 := d2) (d2 := d1) hC hA (by linarith) ?_ ?_ ?_ h (by linarith)
        · rintro ⟨g1, g2⟩
          exact ha ⟨g2, g1⟩
        · rintro ⟨g1, g2⟩
          exact hb ⟨by linarith, by linarith⟩
        · rintro ⟨g1, g2, g3⟩
          exact hvc ⟨by linarith, by linarith, by linarith⟩
      · have h3 : 0 < d2 - C := by
          by_contra h3
          exact hvb ⟨hv, h, not_lt.1 h3⟩
        refine no_corner (A := C) (C := A + C - 2 * e) (e := C - e) (d1 := C - d2) (d2 := d1 - e - (d2 - C))
          hC hB (by linarith) ?_ ?_ ?_ (by linarith) (by linarith)
        · rintro ⟨g1, g2⟩
          exact hc ⟨by linarith, by linarith⟩
        · rintro ⟨g1, g2⟩
          exact hb ⟨by linarith, by linarith⟩
        · rintro ⟨g1, g2, g3⟩
          exact hva ⟨by linarith, by linarith, by linarith⟩
    have hva' : 0 < (d1 - A) * (d2 - C) - (d1 - e) * (d2 - e) := by
      by_contra hv
      rw [not_lt] at hv
      rcases lt_or_ge (d2 - e - (d1 - A)) 0 with h | h
      · -- behind the corner b
        refine no_corner (A := A + C - 2 * e) (C := A) (e := A - e) (d1 := d2 - e - (d1 - A)) (d2 := A - d1)
          hB hA (by linarith) ?_ ?_ ?_ h (by linarith)
        · rintro ⟨g1, g2⟩
          exact hb ⟨by linarith, by linarith⟩
        · rintro ⟨g1, g2⟩
          exact ha ⟨by linarith, by linarith⟩
        · rintro ⟨g1, g2, g3⟩
          exact hvc ⟨by linarith, by linarith, by linarith⟩
      · have h3 : d1 - e - (d2 - C) < 0 := by
          by_contra h3
          exact hva ⟨hv, h, not_lt.1 h3⟩
        refine no_corner (A := A + C - 2 * e) (C := C) (e := C - e) (d1 := d1 - e - (d2 - C)) (d2 := C - d2)
          hB hC (by linarith) ?_ ?_ ?_ h3 (by linarith)
        · rintro ⟨g1, g2⟩
          exact hc ⟨by linarith, by linarith⟩
        · rintro ⟨g1, g2⟩
          exact ha ⟨by linarith, by linarith⟩
        · rintro ⟨g1, g2, g3⟩
          exact hvb ⟨by linarith, by linarith, by linarith⟩
    have hsum : (d1 - A) * (d2 - C) - (d1 - e) * (d2 - e) + ((d1 - e) * d2 - d1 * (d2 - C)) +
        (d1 * (d2 - e) - (d1 - A) * d2) = A * C - e * e := by ring
    rw [hsum]
    generalize hD : A * C - e * e = D at hsum ⊢
    have hDpos : 0 < D := by linarith
    rw [divide, if_neg hDpos.ne']
    have hi : 1 / D * D = 1 := div_mul_cancel₀ _ hDpos.ne'
    have hipos : 0 < 1 / D := one_div_pos.2 hDpos
    generalize 1 / D = i at hi hipos
    have hP : d1 - ((d1 - e) * d2 - d1 * (d2 - C)) * i * A - (d1 * (d2 - e) - (d1 - A) * d2) * i * e = 0 := by
      rw [← hD] at hi
      linear_combination -d1 * hi
    have hQ : d2 - ((d1 - e) * d2 - d1 * (d2 - C)) * i * e - (d1 * (d2 - e) - (d1 - A) * d2) * i * C = 0 := by
      rw [← hD] at hi
      linear_combination -d2 * hi
    refine ⟨_, rfl, dirs _ _ _ rfl (mul_pos hvb' hipos).le (mul_pos hvc' hipos).le ?_ ?_ ?_ ?_⟩
    · have := mul_pos hva' hipos
      have h7 : (((d1 - A) * (d2 - C) - (d1 - e) * (d2 - e)) + ((d1 - e) * d2 - d1 * (d2 - C)) +
        (d1 * (d2 - e) - (d1 - A) * d2)) * i = 1 := by rw [hsum, mul_comm]; exact hi
      linarith
    · rw [hP, hQ]; simp
    · rw [hP, hQ]; simp
    · rw [hP, hQ]; simp

end


/-- The point `(0, 0, 1)` and a triangle in the plane `z = 0`: the nearest point is inside of the triangle; for
`(2, -2, 0)` and `(3, 3, 0)` it is on an edge, for `(-2, -1, 5)` at a corner. -/
example : (⟨⟨-1, -1, 0⟩, ⟨3, -1, 0⟩, ⟨-1, 3, 0⟩⟩ : Triangle3 ℚ).Proper ∧
    (⟨⟨-1, -1, 0⟩, ⟨3, -1, 0⟩, ⟨-1, 3, 0⟩⟩ : Triangle3 ℚ).closestPoint ⟨0, 0, 1⟩ = some ⟨0, 0, 0⟩ ∧
    (⟨⟨-1, -1, 0⟩, ⟨3, -1, 0⟩, ⟨-1, 3, 0⟩⟩ : Triangle3 ℚ).closestPoint ⟨2, -2, 0⟩ = some ⟨2, -1, 0⟩ ∧
    (⟨⟨-1, -1, 0⟩, ⟨3, -1, 0⟩, ⟨-1, 3, 0⟩⟩ : Triangle3 ℚ).closestPoint ⟨3, 3, 0⟩ = some ⟨1, 1, 0⟩ ∧
    (⟨⟨-1, -1, 0⟩, ⟨3, -1, 0⟩, ⟨-1, 3, 0⟩⟩ : Triangle3 ℚ).closestPoint ⟨-2, -1, 5⟩ = some ⟨-1, -1, 0⟩ := by
  unfold Triangle3.Proper
  decide +kernel

/-- Without an area there may be no result (NaN): the triangle is a segment and `p` is beside it. -/
theorem closest_point_degenerate :
    (⟨⟨0, 0, 0⟩, ⟨0, 0, 0⟩, ⟨2, 0, 0⟩⟩ : Triangle3 ℚ).closestPoint ⟨1, 1, 0⟩ = none := by
  decide +kernel

/-! ### Tetrahedra -/

/-- `q` is a point of the tetrahedron: a convex combination of its vertices. -/
def Tetra.Has (t : Tetra ℝ) (q : P3 ℝ) : Prop :=
  ∃ w1 w2 w3 w4, 0 ≤ w1 ∧ 0 ≤ w2 ∧ 0 ≤ w3 ∧ 0 ≤ w4 ∧ Bary3 t q w1 w2 w3 w4

private theorem distance3_eq (p q : P3 ℝ) : distance3 p q = Real.sqrt (distSq3 p q) := rfl

private theorem triangle3_distance (t : Triangle3 ℝ) (ht : t.Proper) (p : P3 ℝ) :
    ∃ d, t.distanceToPoint p = some d ∧ (∃ q, t.Has q ∧ distance3 q p = d) ∧ ∀ r, t.Has r → d ≤ distance3 r p := by
  obtain ⟨q, h1, h2, h3⟩ := closest_point_nearest t ht p
  refine ⟨distance3 q p, by rw [Triangle3.distanceToPoint, h1]; rfl, ⟨q, h2, rfl⟩, fun r hr => ?_⟩
  rw [distance3_eq, distance3_eq]
  exact Real.sqrt_le_sqrt (h3 r hr)

/-- On the way from a point with weights `r` (all at least zero) to a point with a negative weight, one weight
becomes zero while all others are still at least zero. -/
private theorem weight_vanishes (r p : Fin 4 → ℝ) (hr : ∀ i, 0 ≤ r i) (hp : ∃ i, p i < 0) :
    ∃ s : ℝ, 0 ≤ s ∧ s ≤ 1 ∧ (∀ j, 0 ≤ (1 - s) * r j + s * p j) ∧ ∃ i, (1 - s) * r i + s * p i = 0 := by
  obtain ⟨i0, hi0⟩ := hp
  obtain ⟨i, hi, hmin⟩ := Finset.exists_min_image (Finset.univ.filter fun i => p i < 0)
    (fun i => r i / (r i - p i)) ⟨i0, by simp [hi0]⟩
  have hpi : p i < 0 := by simpa using hi
  have hpos : 0 < r i - p i := by linarith [hr i]
  refine ⟨r i / (r i - p i), div_nonneg (hr i) hpos.le, ?_, fun j => ?_, i, ?_⟩
  · rw [div_le_one hpos]
    linarith
  · have h0 : 0 ≤ r i / (r i - p i) := div_nonneg (hr i) hpos.le
    have h1 : r i / (r i - p i) ≤ 1 := by
      rw [div_le_one hpos]
      linarith
    rcases lt_or_ge (p j) 0 with hj | hj
    · have hposj : 0 < r j - p j := by linarith [hr j]
      have h2 := hmin j (by simp [hj])
      rw [le_div_iff₀ hposj] at h2
      linarith
    · have := mul_nonneg h0 hj
      have := mul_nonneg (sub_nonneg.2 h1) (hr j)
      linarith
  · field_simp
    ring

private theorem faces_proper (t : Tetra ℝ) (h : orient3 t ≠ 0) :
    (⟨t.p1, t.p2, t.p3⟩ : Triangle3 ℝ).Proper ∧ (⟨t.p2, t.p3, t.p4⟩ : Triangle3 ℝ).Proper ∧
    (⟨t.p3, t.p4, t.p1⟩ : Triangle3 ℝ).Proper ∧ (⟨t.p4, t.p1, t.p2⟩ : Triangle3 ℝ).Proper := by
  rw [orient3_eq] at h
  refine ⟨?_, ?_, ?_, ?_⟩ <;> intro hc <;> apply h <;>
    simp only [cross, P3.sub, P3.mk.injEq] at hc <;> obtain ⟨c1, c2, c3⟩ := hc
  · linear_combination (t.p4.x - t.p1.x) * c1 + (t.p4.y - t.p1.y) * c2 + (t.p4.z - t.p1.z) * c3
  · linear_combination -(t.p1.x - t.p2.x) * c1 - (t.p1.y - t.p2.y) * c2 - (t.p1.z - t.p2.z) * c3
  · linear_combination (t.p2.x - t.p3.x) * c1 + (t.p2.y - t.p3.y) * c2 + (t.p2.z - t.p3.z) * c3
  · linear_combination -(t.p3.x - t.p4.x) * c1 - (t.p3.y - t.p4.y) * c2 - (t.p3.z - t.p4.z) * c3

/-- **C123** (tetrahedron): `distance_to_point` is the distance between the point and the tetrahedron.  It is
zero for points in the tetrahedron and positive for all others; it panics exactly if the containment test does. -/
theorem tetra_distance (t : Tetra ℝ) (hne : orient3 t ≠ 0) (p : P3 ℝ) :
    (t.distanceToPoint p = none ↔ t.contains p = none) ∧
    ∀ b, t.contains p = some b → ∃ d, t.distanceToPoint p = some (some d) ∧
      (∃ q, t.Has q ∧ distance3 q p = d) ∧ (∀ r, t.Has r → d ≤ distance3 r p) ∧ 0 ≤ d ∧ (d = 0 ↔ b = true) := by
  obtain ⟨w1, w2, w3, w4, hw⟩ := bary3_exists t hne p
  obtain ⟨c1, c2, c3⟩ := tetra_contains_correct t hne p w1 w2 w3 w4 hw
  obtain ⟨f1, f2, f3, f4⟩ := faces_proper t hne
  constructor
  · unfold Tetra.distanceToPoint
    cases h : t.contains p with
    | none => simp
    | some b => cases b <;> simp
  intro b hb
  unfold Tetra.distanceToPoint
  rw [hb]
  cases b with
  | true =>
    obtain ⟨g1, g2, g3, g4⟩ := c1.1 hb
    refine ⟨0, rfl, ⟨p, ⟨w1, w2, w3, w4, g1.le, g2.le, g3.le, g4.le, hw⟩, ?_⟩, fun r _ => Real.sqrt_nonneg _, le_rfl, by simp⟩
    simp [distance3]
  | false =>
    have hneg := c2 hb
    obtain ⟨d1, e1, ⟨q1, hq1, hd1⟩, m1⟩ := triangle3_distance _ f1 p
    obtain ⟨d2, e2, ⟨q2, hq2, hd2⟩, m2⟩ := triangle3_distance _ f2 p
    obtain ⟨d3, e3, ⟨q3, hq3, hd3⟩, m3⟩ := triangle3_distance _ f3 p
    obtain ⟨d4, e4, ⟨q4, hq4, hd4⟩, m4⟩ := triangle3_distance _ f4 p
    rw [e1, e2, e3, e4]
    have hmin : ∃ q, t.Has q ∧ distance3 q p = min (min (min d1 d2) d3) d4 := by
      have k1 : t.Has q1 := by
        obtain ⟨u, v, w, a1, a2, a3, s, x, y, z⟩ := hq1
        exact ⟨u, v, w, 0, a1, a2, a3, le_rfl, by linarith, by rw [x]; ring, by rw [y]; ring, by rw [z]; ring⟩
      have k2 : t.Has q2 := by
        obtain ⟨u, v, w, a1, a2, a3, s, x, y, z⟩ := hq2
        exact ⟨0, u, v, w, le_rfl, a1, a2, a3, by linarith, by rw [x]; ring, by rw [y]; ring, by rw [z]; ring⟩
      have k3 : t.Has q3 := by
        obtain ⟨u, v, w, a1, a2, a3, s, x, y, z⟩ := hq3
        exact ⟨w, 0, u, v, a3, le_rfl, a1, a2, by linarith, by rw [x]; ring, by rw [y]; ring, by rw [z]; ring⟩
      have k4 : t.Has q4 := by
        obtain ⟨u, v, w, a1, a2, a3, s, x, y, z⟩ := hq4
        exact ⟨v, w, 0, u, a2, a3, le_rfl, a1, by linarith, by rw [x]; ring, by rw [y]; ring, by rw [z]; ring⟩
      rcases min_choice (min (min d1 d2) d3) d4 with h | h <;> rw [h]
      · rcases min_choice (min d1 d2) d3 with h | h <;> rw [h]
        · rcases min_choice d1 d2 with h | h <;> rw [h]
          · exact ⟨q1, k1, hd1⟩
          · exact ⟨q2, k2, hd2⟩
        · exact ⟨q3, k3, hd3⟩
      · exact ⟨q4, k4, hd4⟩
    obtain ⟨q, hq, hd⟩ := hmin
    refine ⟨min (min (min d1 d2) d3) d4, rfl, ⟨q, hq, hd⟩, fun r hr => ?_, ?_, ?_⟩
    · obtain ⟨r1, r2, r3, r4, a1, a2, a3, a4, hs, hx, hy, hz⟩ := hr
      obtain ⟨ws, wx, wy, wz⟩ := hw
      obtain ⟨s, hs0, hs1, hall, i, hi⟩ := weight_vanishes ![r1, r2, r3, r4] ![w1, w2, w3, w4]
        (by intro i; fin_cases i <;> assumption)
        (by rcases hneg with h | h | h | h
            · exact ⟨0, h⟩
            · exact ⟨1, h⟩
            · exact ⟨2, h⟩
            · exact ⟨3, h⟩)
      let y : P3 ℝ := ⟨(1 - s) * r.x + s * p.x, (1 - s) * r.y + s * p.y, (1 - s) * r.z + s * p.z⟩
      have hyr : distance3 y p ≤ distance3 r p := by
        apply Real.sqrt_le_sqrt
        have h1 : (y.x - p.x) ^ 2 + (y.y - p.y) ^ 2 + (y.z - p.z) ^ 2 =
            (1 - s) ^ 2 * ((r.x - p.x) ^ 2 + (r.y - p.y) ^ 2 + (r.z - p.z) ^ 2) := by
          simp only [y]
          ring
        rw [h1]
        refine mul_le_of_le_one_left (by positivity) ?_
        exact pow_le_one₀ (by linarith) (by linarith)
      refine le_trans ?_ hyr
      have b0 : 0 ≤ (1 - s) * r1 + s * w1 := hall 0
      have b1 : 0 ≤ (1 - s) * r2 + s * w2 := hall 1
      have b2 : 0 ≤ (1 - s) * r3 + s * w3 := hall 2
      have b3 : 0 ≤ (1 - s) * r4 + s * w4 := hall 3
      have hsum : ((1 - s) * r1 + s * w1) + ((1 - s) * r2 + s * w2) + ((1 - s) * r3 + s * w3) +
          ((1 - s) * r4 + s * w4) = 1 := by linear_combination (1 - s) * hs + s * ws
      have yx : y.x = ((1 - s) * r1 + s * w1) * t.p1.x + ((1 - s) * r2 + s * w2) * t.p2.x +
          ((1 - s) * r3 + s * w3) * t.p3.x + ((1 - s) * r4 + s * w4) * t.p4.x := by
        simp only [y, hx, wx]; ring
      have yy : y.y = ((1 - s) * r1 + s * w1) * t.p1.y + ((1 - s) * r2 + s * w2) * t.p2.y +
          ((1 - s) * r3 + s * w3) * t.p3.y + ((1 - s) * r4 + s * w4) * t.p4.y := by
        simp only [y, hy, wy]; ring
      have yz : y.z = ((1 - s) * r1 + s * w1) * t.p1.z + ((1 - s) * r2 + s * w2) * t.p2.z +
          ((1 - s) * r3 + s * w3) * t.p3.z + ((1 - s) * r4 + s * w4) * t.p4.z := by
        simp only [y, hz, wz]; ring
      fin_cases i
      · have hi : (1 - s) * r1 + s * w1 = 0 := hi
        rw [hi] at hsum yx yy yz
        refine (min_le_left _ _).trans ((min_le_left _ _).trans ((min_le_right _ _).trans (m2 y
          ⟨_, _, _, b1, b2, b3, by linarith, ?_, ?_, ?_⟩)))
        · rw [yx]; ring
        · rw [yy]; ring
        · rw [yz]; ring
      · have hi : (1 - s) * r2 + s * w2 = 0 := hi
        rw [hi] at hsum yx yy yz
        refine (min_le_left _ _).trans ((min_le_right _ _).trans (m3 y
          ⟨_, _, _, b2, b3, b0, by linarith, ?_, ?_, ?_⟩))
        · rw [yx]; ring
        · rw [yy]; ring
        · rw [yz]; ring
      · have hi : (1 - s) * r3 + s * w3 = 0 := hi
        rw [hi] at hsum yx yy yz
        refine (min_le_right _ _).trans (m4 y ⟨_, _, _, b3, b0, b1, by linarith, ?_, ?_, ?_⟩)
        · rw [yx]; ring
        · rw [yy]; ring
        · rw [yz]; ring
      · have hi : (1 - s) * r4 + s * w4 = 0 := hi
        rw [hi] at hsum yx yy yz
        refine (min_le_left _ _).trans ((min_le_left _ _).trans ((min_le_left _ _).trans (m1 y
          ⟨_, _, _, b0, b1, b2, by linarith, ?_, ?_, ?_⟩)))
        · rw [yx]; ring
        · rw [yy]; ring
        · rw [yz]; ring
    · rw [← hd]
      exact Real.sqrt_nonneg _
    · refine iff_of_false (fun h0 => ?_) (by simp)
      rw [h0, distance3, Real.sqrt_eq_zero (by positivity)] at hd
      have hx : q.x = p.x := by
        have := sq_nonneg (q.y - p.y); have := sq_nonneg (q.z - p.z); have := sq_nonneg (q.x - p.x)
        exact sub_eq_zero.1 (pow_eq_zero_iff (n := 2) (by norm_num) |>.1 (by linarith))
      have hy : q.y = p.y := by
        have := sq_nonneg (q.y - p.y); have := sq_nonneg (q.z - p.z); have := sq_nonneg (q.x - p.x)
        exact sub_eq_zero.1 (pow_eq_zero_iff (n := 2) (by norm_num) |>.1 (by linarith))
      have hz : q.z = p.z := by
        have := sq_nonneg (q.y - p.y); have := sq_nonneg (q.z - p.z); have := sq_nonneg (q.x - p.x)
        exact sub_eq_zero.1 (pow_eq_zero_iff (n := 2) (by norm_num) |>.1 (by linarith))
      have hqp : q = p := by ext <;> assumption
      subst hqp
      obtain ⟨u1, u2, u3, u4, a1, a2, a3, a4, hu⟩ := hq
      obtain ⟨_, g2, _⟩ := tetra_contains_correct t hne q u1 u2 u3 u4 hu
      rcases g2 hb with h | h | h | h <;> linarith

/-- A proper tetrahedron, a point in it and a point outside of it. -/
example : orient3 (⟨⟨0, 0, 0⟩, ⟨1, 0, 0⟩, ⟨0, 1, 0⟩, ⟨0, 0, 1⟩⟩ : Tetra ℚ) = 1 ∧
    (⟨⟨0, 0, 0⟩, ⟨1, 0, 0⟩, ⟨0, 1, 0⟩, ⟨0, 0, 1⟩⟩ : Tetra ℚ).contains ⟨1 / 5, 1 / 5, 1 / 5⟩ = some true ∧
    (⟨⟨0, 0, 0⟩, ⟨1, 0, 0⟩, ⟨0, 1, 0⟩, ⟨0, 0, 1⟩⟩ : Tetra ℚ).contains ⟨2, 3, 5⟩ = some false := by
  rw [orient3_eq]
  decide +kernel

/-! ### Triangles in the plane -/

/-- `q` is a point of the triangle: a convex combination of its vertices. -/
def Triangle2.Has (t : Triangle2 ℝ) (q : P2 ℝ) : Prop :=
  ∃ w1 w2 w3, 0 ≤ w1 ∧ 0 ≤ w2 ∧ 0 ≤ w3 ∧ Bary2 t q w1 w2 w3

/-- No point beyond a side is nearer to the line through the side than the points of the triangle. -/
private theorem side_le (p r a b : P2 ℝ) (hab : 0 < distance2 a b)
    (hr : (b.y - a.y) * r.x - (b.x - a.x) * r.y + b.x * a.y - a.x * b.y ≤ 0) :
    distanceToSide p a b ≤ distance2 r p := by
  unfold distanceToSide
  rw [div_le_iff₀ hab]
  have h1 : (b.y - a.y) * p.x - (b.x - a.x) * p.y + b.x * a.y - a.x * b.y ≤
      (b.y - a.y) * (p.x - r.x) - (b.x - a.x) * (p.y - r.y) := by linarith
  refine h1.trans ?_
  unfold distance2
  rw [← Real.sqrt_mul (by positivity)]
  apply Real.le_sqrt_of_sq_le
  have := sq_nonneg ((b.y - a.y) * (p.y - r.y) + (b.x - a.x) * (p.x - r.x))
  linarith

private theorem distance2_pos (a b : P2 ℝ) (h : a ≠ b) : 0 < distance2 a b := by
  unfold distance2
  apply Real.sqrt_pos.2
  by_contra hc
  apply h
  have hx := sq_nonneg (a.x - b.x)
  have hy := sq_nonneg (a.y - b.y)
  ext
  · exact sub_eq_zero.1 (pow_eq_zero_iff (n := 2) (by norm_num) |>.1 (by linarith))
  · exact sub_eq_zero.1 (pow_eq_zero_iff (n := 2) (by norm_num) |>.1 (by linarith))

/-- **C123** (plane): for a counterclockwise triangle `distance_to_point` is negative exactly in its interior,
zero exactly on its boundary, and outside it is positive and at most the distance to the triangle. -/
theorem triangle_distance (t : Triangle2 ℝ) (ht : 0 < orient2 t) (p : P2 ℝ) (w1 w2 w3 : ℝ) (hw : Bary2 t p w1 w2 w3) :
    (t.distanceToPoint p < 0 ↔ 0 < w1 ∧ 0 < w2 ∧ 0 < w3) ∧
    (t.distanceToPoint p ≤ 0 ↔ 0 ≤ w1 ∧ 0 ≤ w2 ∧ 0 ≤ w3) ∧
    ∀ r, t.Has r → t.distanceToPoint p ≤ distance2 r p := by
  obtain ⟨hs, hx, hy⟩ := hw
  have e1 : w1 = 1 - w2 - w3 := by linarith
  have n12 : 0 < distance2 t.p1 t.p2 := distance2_pos _ _ fun h => by
    unfold orient2 at ht; rw [h] at ht; linarith
  have n23 : 0 < distance2 t.p2 t.p3 := distance2_pos _ _ fun h => by
    unfold orient2 at ht; rw [h] at ht; linarith
  have n31 : 0 < distance2 t.p3 t.p1 := distance2_pos _ _ fun h => by
    unfold orient2 at ht; rw [h] at ht; linarith
  have s12 : distanceToSide p t.p1 t.p2 = -(w3 * orient2 t) / distance2 t.p1 t.p2 := by
    unfold distanceToSide orient2
    congr 1
    rw [hx, hy, e1]; ring
  have s23 : distanceToSide p t.p2 t.p3 = -(w1 * orient2 t) / distance2 t.p2 t.p3 := by
    unfold distanceToSide orient2
    congr 1
    rw [hx, hy, e1]; ring
  have s31 : distanceToSide p t.p3 t.p1 = -(w2 * orient2 t) / distance2 t.p3 t.p1 := by
    unfold distanceToSide orient2
    congr 1
    rw [hx, hy, e1]; ring
  have neg : ∀ w d : ℝ, 0 < d → (-(w * orient2 t) / d < 0 ↔ 0 < w) := by
    intro w d hd
    rw [div_lt_iff₀ hd, zero_mul, neg_lt_zero, mul_pos_iff_of_pos_right ht]
  have nonpos : ∀ w d : ℝ, 0 < d → (-(w * orient2 t) / d ≤ 0 ↔ 0 ≤ w) := by
    intro w d hd
    rw [div_le_iff₀ hd, zero_mul, neg_nonpos, mul_nonneg_iff_of_pos_right ht]
  refine ⟨?_, ?_, fun r hr => ?_⟩
  · unfold Triangle2.distanceToPoint
    dsimp only
    rw [max_lt_iff, max_lt_iff, s12, s23, s31, neg _ _ n12, neg _ _ n23, neg _ _ n31]
    tauto
  · unfold Triangle2.distanceToPoint
    dsimp only
    rw [max_le_iff, max_le_iff, s12, s23, s31, nonpos _ _ n12, nonpos _ _ n23, nonpos _ _ n31]
    tauto
  · obtain ⟨r1, r2, r3, a1, a2, a3, hs', hx', hy'⟩ := hr
    have e1' : r1 = 1 - r2 - r3 := by linarith
    unfold Triangle2.distanceToPoint
    refine max_le (max_le (side_le _ _ _ _ n12 ?_) (side_le _ _ _ _ n23 ?_)) (side_le _ _ _ _ n31 ?_)
    · have h := mul_nonneg a3 ht.le
      unfold orient2 at h
      rw [hx', hy', e1']
      linarith
    · have h := mul_nonneg a1 ht.le
      unfold orient2 at h
      rw [e1'] at h
      rw [hx', hy', e1']
      linarith
    · have h := mul_nonneg a2 ht.le
      unfold orient2 at h
      rw [hx', hy', e1']
      linarith

/-- A counterclockwise triangle and the weights of a point outside of it. -/
example : 0 < orient2 (⟨⟨0, 0⟩, ⟨1, 0⟩, ⟨0, 1⟩⟩ : Triangle2 ℝ) ∧
    Bary2 (⟨⟨0, 0⟩, ⟨1, 0⟩, ⟨0, 1⟩⟩ : Triangle2 ℝ) ⟨-3, -4⟩ 8 (-3) (-4) := by
  norm_num [orient2, Bary2]

/-- The heuristic of the plane is less than the distance behind a corner: the corner is the nearest point, at
distance 5 of `(-3, -4)`, but the result is 4. -/
theorem triangle_distance_too_small :
    (⟨⟨0, 0⟩, ⟨1, 0⟩, ⟨0, 1⟩⟩ : Triangle2 ℝ).distanceToPoint ⟨-3, -4⟩ = 4 ∧
    ∀ r, (⟨⟨0, 0⟩, ⟨1, 0⟩, ⟨0, 1⟩⟩ : Triangle2 ℝ).Has r → 5 ≤ distance2 r ⟨-3, -4⟩ := by
  constructor
  · have h1 : distance2 ⟨0, 0⟩ ⟨1, 0⟩ = 1 := by norm_num [distance2]
    have h3 : distance2 ⟨0, 1⟩ ⟨0, 0⟩ = 1 := by norm_num [distance2]
    have h2 : distanceToSide ⟨-3, -4⟩ ⟨1, 0⟩ ⟨0, 1⟩ ≤ 0 := by
      unfold distanceToSide
      exact div_nonpos_of_nonpos_of_nonneg (by norm_num) (Real.sqrt_nonneg _)
    have g1 : distanceToSide ⟨-3, -4⟩ ⟨0, 0⟩ ⟨1, 0⟩ = 4 := by unfold distanceToSide; rw [h1]; norm_num
    have g3 : distanceToSide ⟨-3, -4⟩ ⟨0, 1⟩ ⟨0, 0⟩ = 3 := by unfold distanceToSide; rw [h3]; norm_num
    unfold Triangle2.distanceToPoint
    dsimp only
    rw [g1, g3, max_eq_left (h2.trans (by norm_num))]
    norm_num
  · rintro r ⟨w1, w2, w3, a1, a2, a3, _, hx, hy⟩
    apply Real.le_sqrt_of_sq_le
    dsimp only at hx hy ⊢
    have k1 : 0 ≤ r.x := by rw [hx]; linarith
    have k2 : 0 ≤ r.y := by rw [hy]; linarith
    have := mul_nonneg k1 k1
    have := mul_nonneg k2 k2
    linarith

/-- In a clockwise triangle the sign is wrong: the point `(1/5, 1/5)` is inside, but the result is positive. -/
theorem triangle_distance_clockwise :
    orient2 (⟨⟨0, 0⟩, ⟨0, 1⟩, ⟨1, 0⟩⟩ : Triangle2 ℝ) < 0 ∧
    Bary2 (⟨⟨0, 0⟩, ⟨0, 1⟩, ⟨1, 0⟩⟩ : Triangle2 ℝ) ⟨1 / 5, 1 / 5⟩ (3 / 5) (1 / 5) (1 / 5) ∧
    0 < (⟨⟨0, 0⟩, ⟨0, 1⟩, ⟨1, 0⟩⟩ : Triangle2 ℝ).distanceToPoint ⟨1 / 5, 1 / 5⟩ := by
  refine ⟨by norm_num [orient2], by norm_num [Bary2], ?_⟩
  unfold Triangle2.distanceToPoint
  refine lt_max_of_lt_left (lt_max_of_lt_left ?_)
  have h1 : distance2 ⟨0, 0⟩ ⟨0, 1⟩ = 1 := by norm_num [distance2]
  unfold distanceToSide
  rw [h1]
  norm_num

end Verif.Predicates
