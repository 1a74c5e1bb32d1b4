import Verif.Predicates.CircleProps
import Mathlib.Tactic.FieldSimp
import Mathlib.Tactic.Ring
import Mathlib.Tactic.Linarith
import Mathlib.Tactic.LinearCombination

/-! # Triangles and circles in the plane: lemmas -/

namespace Verif.Delaunay

open Verif.Predicates (P2 Triangle2 orient2 distSq2)

variable {K : Type} [Field K] [LinearOrder K] [IsStrictOrderedRing K]

/-- Twice the signed area of a triangle. -/
def area (a b c : P2 K) : K := orient2 ⟨a, b, c⟩

/-- The power of a point with respect to the circle with centre `o` and squared radius `rho`. -/
def power (o : P2 K) (rho : K) (y : P2 K) : K := distSq2 y o - rho

/-- Strictly inside a counterclockwise triangle. -/
def Inside (a b c y : P2 K) : Prop := 0 < area a b y ∧ 0 < area b c y ∧ 0 < area c a y

/-- Inside a counterclockwise triangle or on its boundary. -/
def Within (a b c y : P2 K) : Prop := 0 ≤ area a b y ∧ 0 ≤ area b c y ∧ 0 ≤ area c a y

section
omit [LinearOrder K] [IsStrictOrderedRing K]

theorem area_def (a b c : P2 K) : area a b c = (b.x - a.x) * (c.y - a.y) - (b.y - a.y) * (c.x - a.x) := rfl

theorem area_cyc (a b c : P2 K) : area b c a = area a b c := by
  simp only [area_def]; ring

theorem area_cyc' (a b c : P2 K) : area c a b = area a b c := by
  simp only [area_def]; ring

theorem area_swap (a b c : P2 K) : area b a c = -area a b c := by
  simp only [area_def]; ring

theorem area_self (a b : P2 K) : area a b a = 0 ∧ area a b b = 0 ∧ area a a b = 0 := by
  simp only [area_def]; refine ⟨?_, ?_, ?_⟩ <;> ring

theorem area_sum (a b c y : P2 K) : area a b y + area b c y + area c a y = area a b c := by
  simp only [area_def]; ring

/-- The signed area is an affine function of a vertex. -/
theorem area_bary (a b c y u v : P2 K) :
    area a b c * area u v y = area b c y * area u v a + area c a y * area u v b + area a b y * area u v c := by
  simp only [area_def]; ring

/-- The power of a combination of three points. -/
theorem power_bary (o : P2 K) (rho : K) (a b c y : P2 K) :
    area a b c * power o rho y = area b c y * power o rho a + area c a y * power o rho b +
      area a b y * power o rho c -
      (area b c y * distSq2 a y + area c a y * distSq2 b y + area a b y * distSq2 c y) := by
  simp only [area_def, power, distSq2]; ring

/-- The difference of two powers is an affine function. -/
theorem power_diff (o o' : P2 K) (rho rho' : K) (a b d y : P2 K) :
    area b d y * (power o rho a - power o' rho' a) - area a d y * (power o rho b - power o' rho' b) +
      area a b y * (power o rho d - power o' rho' d) = area a b d * (power o rho y - power o' rho' y) := by
  simp only [area_def, power, distSq2]; ring

/-- The power of a point, expanded at a vertex. -/
theorem power_cone (o : P2 K) (rho : K) (p a b q : P2 K) :
    area p a b * power o rho q = area p a b * distSq2 q a - area a b q * distSq2 p a - area p a q * distSq2 b a
      + area a b q * (power o rho p - power o rho a) + area p a q * (power o rho b - power o rho a)
      + area p a b * power o rho a := by
  simp only [area_def, power, distSq2]; ring

/-- A point between `y` and `z`. -/
def mix (e : K) (y z : P2 K) : P2 K := ⟨(1 - e) * y.x + e * z.x, (1 - e) * y.y + e * z.y⟩

theorem area_mix (e : K) (a b y z : P2 K) : area a b (mix e y z) = (1 - e) * area a b y + e * area a b z := by
  simp only [area_def, mix]; ring

end

theorem distSq_nonneg (a b : P2 K) : 0 ≤ distSq2 a b := by
  unfold distSq2; positivity

theorem distSq_pos {a b : P2 K} (h : a ≠ b) : 0 < distSq2 a b := by
  rcases lt_or_eq_of_le (distSq_nonneg a b) with h1 | h1
  · exact h1
  · exfalso
    unfold distSq2 at h1
    have hx : (a.x - b.x) ^ 2 = 0 := by nlinarith [sq_nonneg (a.x - b.x), sq_nonneg (a.y - b.y)]
    have hy : (a.y - b.y) ^ 2 = 0 := by nlinarith [sq_nonneg (a.x - b.x), sq_nonneg (a.y - b.y)]
    have hx' := pow_eq_zero_iff (two_ne_zero) |>.1 hx
    have hy' := pow_eq_zero_iff (two_ne_zero) |>.1 hy
    apply h
    cases a; cases b
    simp only [P2.mk.injEq]
    exact ⟨sub_eq_zero.1 hx', sub_eq_zero.1 hy'⟩

omit [IsStrictOrderedRing K] in
theorem Inside.cyc {a b c y : P2 K} (h : Inside a b c y) : Inside b c a y := ⟨h.2.1, h.2.2, h.1⟩

omit [IsStrictOrderedRing K] in
theorem Within.cyc {a b c y : P2 K} (h : Within a b c y) : Within b c a y := ⟨h.2.1, h.2.2, h.1⟩

theorem Inside.within {a b c y : P2 K} (h : Inside a b c y) : Within a b c y := ⟨h.1.le, h.2.1.le, h.2.2.le⟩

theorem Inside.ne {a b c y : P2 K} (h : Inside a b c y) : y ≠ a := by
  rintro rfl
  have := h.1
  rw [(area_self _ _).1] at this
  exact lt_irrefl _ this

/-- The interior of a triangle is inside its circle. -/
theorem power_inside {a b c y o : P2 K} {rho : K} (hpos : 0 < area a b c) (ha : power o rho a = 0)
    (hb : power o rho b = 0) (hc : power o rho c = 0) (h : Inside a b c y) : power o rho y < 0 := by
  have h1 := power_bary o rho a b c y
  rw [ha, hb, hc] at h1
  have h2 : 0 < area b c y * distSq2 a y := mul_pos h.2.1 (distSq_pos h.ne.symm)
  have h3 := mul_nonneg h.2.2.le (distSq_nonneg b y)
  have h4 := mul_nonneg h.1.le (distSq_nonneg c y)
  have : area a b c * power o rho y < 0 := by linarith
  exact neg_of_mul_neg_right this hpos.le

theorem power_within {a b c y o : P2 K} {rho : K} (hpos : 0 < area a b c) (ha : power o rho a = 0)
    (hb : power o rho b = 0) (hc : power o rho c = 0) (h : Within a b c y) : power o rho y ≤ 0 := by
  have h1 := power_bary o rho a b c y
  rw [ha, hb, hc] at h1
  have h2 := mul_nonneg h.2.1 (distSq_nonneg a y)
  have h3 := mul_nonneg h.2.2 (distSq_nonneg b y)
  have h4 := mul_nonneg h.1 (distSq_nonneg c y)
  have : area a b c * power o rho y ≤ 0 := by linarith
  exact nonpos_of_mul_nonpos_right this hpos

/-- Crossing an edge which is locally Delaunay, towards a point, decreases the power of the point. -/
theorem power_cross {a b d y o o' : P2 K} {rho rho' : K} (ha : power o rho a = 0) (hb : power o rho b = 0)
    (ha' : power o' rho' a = 0) (hb' : power o' rho' b = 0) (hd' : power o' rho' d = 0)
    (hd : 0 < power o rho d) (hs : 0 < area b a d) (hy : area a b y < 0) : power o' rho' y < power o rho y := by
  have h := power_diff o o' rho rho' a b d y
  rw [ha, hb, ha', hb', hd'] at h
  have h1 : area a b d < 0 := by rw [area_swap] at hs; linarith
  have h2 : area a b y * power o rho d < 0 := mul_neg_of_neg_of_pos hy hd
  have h3 : area a b d * (power o rho y - power o' rho' y) < 0 := by linarith
  have := pos_of_mul_neg_right h3 h1.le
  linarith

/-- Two triangles at the edge `p v`, and a circle through `p` and `v` with the other two vertices outside. -/
theorem power_spoke {p v w w' o o' : P2 K} {rho rho' : K} (hp : power o rho p = 0) (hv : power o rho v = 0)
    (hw : 0 < power o rho w) (hw' : 0 < power o rho w') (hp' : power o' rho' p = 0) (hv' : power o' rho' v = 0)
    (hw0 : power o' rho' w = 0) (h1 : 0 < area p v w) (h2 : 0 < area v p w') : 0 < power o' rho' w' := by
  have h := power_diff o o' rho rho' p v w w'
  rw [hp, hv, hp', hv', hw0] at h
  have h3 : area p v w' < 0 := by rw [area_swap] at h2; linarith
  have h4 : area p v w' * power o rho w < 0 := mul_neg_of_neg_of_pos h3 hw
  have h5 : area p v w * (power o rho w' - power o' rho' w') < 0 := by linarith
  have := neg_of_mul_neg_right h5 h1.le
  linarith

/-- A circle through `v` with `p` inside can be shrunk to a circle through `v` and `p`. -/
theorem power_shrink {v p o : P2 K} {rho : K} (hv : power o rho v = 0) (hp : power o rho p < 0) :
    ∃ o' rho', power o' rho' v = 0 ∧ power o' rho' p = 0 ∧
      ∀ w, w ≠ v → 0 ≤ power o rho w → 0 < power o' rho' w := by
  have hne : p ≠ v := by rintro rfl; rw [hv] at hp; exact lt_irrefl _ hp
  have hd := distSq_pos hne
  set D := distSq2 p v with hD
  set F := power o rho p with hF
  have hden : 0 < D - F := by linarith
  -- weight of the circle of radius zero
  set t := -F / (D - F) with ht
  have ht0 : 0 < t := div_pos (by linarith) hden
  have ht1 : 1 - t = D / (D - F) := by
    rw [ht]; field_simp; ring
  have ht2 : 0 < 1 - t := by rw [ht1]; exact div_pos hd hden
  -- `(1 - t) * power o rho y + t * distSq y v` is the power of `y` for another circle
  let o' : P2 K := ⟨(1 - t) * o.x + t * v.x, (1 - t) * o.y + t * v.y⟩
  let rho' : K := (o'.x ^ 2 + o'.y ^ 2) - ((1 - t) * (o.x ^ 2 + o.y ^ 2 - rho) + t * (v.x ^ 2 + v.y ^ 2))
  have key : ∀ y, power o' rho' y = (1 - t) * power o rho y + t * distSq2 y v := by
    intro y
    simp only [power, distSq2, o', rho']
    ring
  refine ⟨o', rho', ?_, ?_, ?_⟩
  · rw [key, hv]
    unfold distSq2
    ring
  · rw [key, ← hF, ← hD, ht1, ht]
    field_simp
    ring
  · intro w hw h0
    rw [key]
    have := mul_pos ht0 (distSq_pos hw)
    have := mul_nonneg ht2.le h0
    linarith

/-- If the point `q` beyond the edge `a b` lies inside the circle of the triangle `p a b`, then the
quadrilateral `p a q b` is convex. -/
theorem convex_of_inside {p a b q o : P2 K} {rho : K} (hpos : 0 < area p a b) (hp : power o rho p = 0)
    (ha : power o rho a = 0) (hb : power o rho b = 0) (hq : 0 < area b a q) (hin : power o rho q < 0) :
    0 < area p a q ∧ 0 < area b p q := by
  have hab : area a b q < 0 := by rw [area_swap] at hq; linarith
  have hneg : area p a b * power o rho q < 0 := mul_neg_of_pos_of_neg hpos hin
  constructor
  · by_contra hc
    have hc := not_lt.1 hc
    have h := power_cone o rho p a b q
    rw [hp, ha, hb] at h
    have h1 := mul_nonneg hpos.le (distSq_nonneg q a)
    have h2 := mul_nonneg (neg_nonneg.2 hab.le) (distSq_nonneg p a)
    have h3 := mul_nonneg (neg_nonneg.2 hc) (distSq_nonneg b a)
    linarith
  · by_contra hc
    have hc := not_lt.1 hc
    have hpos' : 0 < area a b p := by rw [area_cyc]; exact hpos
    have h := power_cone o rho a b p q
    have h' : area a b p * power o rho q = area a b p * distSq2 q b - area b p q * distSq2 a b
        - area a b q * distSq2 p b := by
      rw [h, hp, ha, hb]; ring
    have h1 := mul_nonneg hpos'.le (distSq_nonneg q b)
    have h2 := mul_nonneg (neg_nonneg.2 hab.le) (distSq_nonneg p b)
    have h3 := mul_nonneg (neg_nonneg.2 hc) (distSq_nonneg a b)
    have h4 : area a b p = area p a b := area_cyc _ _ _
    rw [h4] at h' h1
    linarith

/-! ### Perturbations -/

theorem exists_eps {u : K} (hu : 0 < u) (v : K) :
    ∃ d, 0 < d ∧ d ≤ 1 / 2 ∧ ∀ e, 0 < e → e ≤ d → 0 < (1 - e) * u + e * v := by
  have hs : 0 < u + |v| := by have := abs_nonneg v; linarith
  refine ⟨u / (2 * (u + |v|)), by positivity, ?_, ?_⟩
  · rw [div_le_div_iff₀ (by positivity) (by norm_num)]
    have := abs_nonneg v
    linarith
  · intro e he hle
    rw [le_div_iff₀ (by positivity)] at hle
    have h1 : e * |v| ≥ -(e * v) := by
      have := neg_abs_le v
      have := mul_le_mul_of_nonneg_left this he.le
      linarith
    nlinarith

/-- A point inside one triangle and within another is close to a point inside both. -/
theorem inside_both {a b c a' b' c' y : P2 K} (h : Inside a b c y) (hpos : 0 < area a' b' c')
    (h' : Within a' b' c' y) : ∃ z, Inside a b c z ∧ Inside a' b' c' z := by
  set g : P2 K := ⟨(a'.x + b'.x + c'.x) / 3, (a'.y + b'.y + c'.y) / 3⟩ with hg
  have e1 : area a' b' g = area a' b' c' / 3 := by
    simp only [area_def, hg]; field_simp; ring
  have e2 : area b' c' g = area a' b' c' / 3 := by
    simp only [area_def, hg]; field_simp; ring
  have e3 : area c' a' g = area a' b' c' / 3 := by
    simp only [area_def, hg]; field_simp; ring
  obtain ⟨d1, p1, q1, r1⟩ := exists_eps h.1 (area a b g)
  obtain ⟨d2, p2, q2, r2⟩ := exists_eps h.2.1 (area b c g)
  obtain ⟨d3, p3, q3, r3⟩ := exists_eps h.2.2 (area c a g)
  set e := min d1 (min d2 d3) with he
  have he0 : 0 < e := lt_min p1 (lt_min p2 p3)
  have hed1 : e ≤ d1 := min_le_left _ _
  have hed2 : e ≤ d2 := (min_le_right _ _).trans (min_le_left _ _)
  have hed3 : e ≤ d3 := (min_le_right _ _).trans (min_le_right _ _)
  have hk : 0 < e * (area a' b' c' / 3) := by positivity
  have h1e : 0 ≤ 1 - e := by linarith
  refine ⟨mix e y g, ⟨?_, ?_, ?_⟩, ?_, ?_, ?_⟩
  · rw [area_mix]; exact r1 e he0 hed1
  · rw [area_mix]; exact r2 e he0 hed2
  · rw [area_mix]; exact r3 e he0 hed3
  · rw [area_mix, e1]; have := mul_nonneg h1e h'.1; linarith
  · rw [area_mix, e2]; have := mul_nonneg h1e h'.2.1; linarith
  · rw [area_mix, e3]; have := mul_nonneg h1e h'.2.2; linarith

/-- Two triangles on the same side of an edge overlap. -/
theorem overlap {a b c c' : P2 K} (h : 0 < area a b c) (h' : 0 < area a b c') :
    ∃ z, Inside a b c z ∧ Inside a b c' z := by
  set m : P2 K := ⟨(a.x + b.x) / 2, (a.y + b.y) / 2⟩ with hm
  have e0 : area a b m = 0 := by simp only [area_def, hm]; field_simp; ring
  have e1 : ∀ d, area b d m = area a b d / 2 := by
    intro d; simp only [area_def, hm]; field_simp; ring
  have e2 : ∀ d, area d a m = area a b d / 2 := by
    intro d; simp only [area_def, hm]; field_simp; ring
  obtain ⟨d1, p1, q1, r1⟩ := exists_eps (show 0 < area b c' m by rw [e1]; linarith) (area b c' c)
  obtain ⟨d2, p2, q2, r2⟩ := exists_eps (show 0 < area c' a m by rw [e2]; linarith) (area c' a c)
  set e := min d1 d2 with he
  have he0 : 0 < e := lt_min p1 p2
  have hed1 : e ≤ d1 := min_le_left _ _
  have hed2 : e ≤ d2 := min_le_right _ _
  have h1e : 0 < 1 - e := by linarith
  have s1 : area b c c = 0 := (area_self _ _).2.1
  have s2 : area c a c = 0 := (area_self _ _).1
  refine ⟨mix e m c, ⟨?_, ?_, ?_⟩, ?_, ?_, ?_⟩
  · rw [area_mix, e0]; have := mul_pos he0 h; linarith
  · rw [area_mix, e1, s1]; have := mul_pos h1e h; linarith
  · rw [area_mix, e2, s2]; have := mul_pos h1e h; linarith
  · rw [area_mix, e0]; have := mul_pos he0 h; linarith
  · rw [area_mix]; exact r1 e he0 hed1
  · rw [area_mix]; exact r2 e he0 hed2

/-! ### Splitting and flipping -/

/-- A combination of three points on one side of a line is on this side. -/
theorem area_nonneg_of_within {a b c y u v : P2 K} (hpos : 0 < area a b c) (h : Within a b c y)
    (ha : 0 ≤ area u v a) (hb : 0 ≤ area u v b) (hc : 0 ≤ area u v c) : 0 ≤ area u v y := by
  have h1 := area_bary a b c y u v
  have h2 := mul_nonneg h.2.1 ha
  have h3 := mul_nonneg h.2.2 hb
  have h4 := mul_nonneg h.1 hc
  have : 0 ≤ area a b c * area u v y := by linarith
  exact nonneg_of_mul_nonneg_right this hpos

theorem area_pos_of_inside {a b c y u v : P2 K} (hpos : 0 < area a b c) (h : Inside a b c y)
    (huv : u ≠ v) (ha : 0 ≤ area u v a) (hb : 0 ≤ area u v b) (hc : 0 ≤ area u v c) : 0 < area u v y := by
  have h1 := area_bary a b c y u v
  have h2 := mul_nonneg h.2.1.le ha
  have h3 := mul_nonneg h.2.2.le hb
  have h4 := mul_nonneg h.1.le hc
  by_contra hn
  have hn := not_lt.1 hn
  have h5 : area a b c * area u v y ≤ 0 := mul_nonpos_of_nonneg_of_nonpos hpos.le hn
  have z1 : area u v a = 0 := by
    have : area b c y * area u v a = 0 := by linarith
    exact (mul_eq_zero.1 this).resolve_left h.2.1.ne'
  have z2 : area u v b = 0 := by
    have : area c a y * area u v b = 0 := by linarith
    exact (mul_eq_zero.1 this).resolve_left h.2.2.ne'
  have z3 : area u v c = 0 := by
    have : area a b y * area u v c = 0 := by linarith
    exact (mul_eq_zero.1 this).resolve_left h.1.ne'
  -- three points of a line
  simp only [area_def] at z1 z2 z3 hpos
  have hx : (v.x - u.x) * ((b.x - a.x) * (c.y - a.y) - (b.y - a.y) * (c.x - a.x)) = 0 := by
    linear_combination (b.x - a.x) * (z3 - z1) - (c.x - a.x) * (z2 - z1)
  have hy : (v.y - u.y) * ((b.x - a.x) * (c.y - a.y) - (b.y - a.y) * (c.x - a.x)) = 0 := by
    linear_combination (b.y - a.y) * (z3 - z1) - (c.y - a.y) * (z2 - z1)
  have hx' := (mul_eq_zero.1 hx).resolve_right hpos.ne'
  have hy' := (mul_eq_zero.1 hy).resolve_right hpos.ne'
  apply huv
  cases u; cases v
  simp only [P2.mk.injEq]
  exact ⟨(sub_eq_zero.1 hx').symm, (sub_eq_zero.1 hy').symm⟩

/-- The triangle between an edge and an inner point is part of the triangle. -/
theorem within_split {a b c p y : P2 K} (hp : Inside a b c p) (hpos : 0 < area a b c)
    (h : Within b c p y) : Within a b c y := by
  have hb : 0 < area b c p := hp.2.1
  refine ⟨?_, h.1, ?_⟩
  · refine area_nonneg_of_within hb h ?_ hpos.le hp.1.le
    rw [(area_self _ _).2.1]
  · refine area_nonneg_of_within hb h ?_ ?_ hp.2.2.le
    · rw [area_cyc']; exact hpos.le
    · rw [(area_self _ _).1]

/-- The triangle `p a q` is part of the quadrilateral. -/
theorem within_flip {p a b q y : P2 K} (hpos : 0 < area p a b) (hq : 0 < area b a q) (h1 : 0 < area p a q)
    (h2 : 0 < area b p q) (h : Within p a q y) : Within p a b y ∨ Within q b a y := by
  rcases le_total 0 (area a b y) with hy | hy
  · left
    refine ⟨h.1, hy, ?_⟩
    refine area_nonneg_of_within h1 h ?_ ?_ h2.le
    · rw [(area_self _ _).2.1]
    · rw [area_cyc']; exact hpos.le
  · right
    refine ⟨?_, ?_, h.2.1⟩
    · refine area_nonneg_of_within h1 h ?_ ?_ ?_
      · rw [area_cyc' b p q]; exact h2.le
      · rw [area_cyc' b a q]; exact hq.le
      · rw [(area_self _ _).1]
    · rw [area_swap]; linarith

end Verif.Delaunay
