import Verif.Rounding.RescaleLemmas
import Verif.Rounding.CellConstructProps
import Verif.Delaunay.Construct3Spec

/-! # C142: the triangulation of rescaled coordinates in `f64` -/

namespace Verif.Rounding

open Verif.Predicates Verif.Delaunay Verif.Voronoi

/-- A box with three such axes. -/
structure BoxF64 (lo hi : P3 ℚ) : Prop where
  x : BoxAxis lo.x hi.x
  y : BoxAxis lo.y hi.y
  z : BoxAxis lo.z hi.z

/-- The distance of two points. -/
noncomputable def distance3 (p : P3 ℚ) (o : P3 ℝ) : ℝ := Real.sqrt (distSq3 (real3 p) o)

/-- There is a sphere such that the four points `a, b, c, d` are at most `e` away from it and no other of the first
`n` points is farther than `e` in its interior. -/
def NearlyEmptySphere (e : ℝ) (x : ℕ → P3 ℚ) (n a b c d : ℕ) : Prop :=
  ∃ (o : P3 ℝ) (r : ℝ), (∀ v ∈ [a, b, c, d], |distance3 (x v) o - r| ≤ e) ∧
    ∀ w, w < n → w ∉ [a, b, c, d] → r - e < distance3 (x w) o

theorem extent_corners {lo hi : P3 ℚ} (h : BoxF64 lo hi) : extent3 (allEncompassingF lo hi) =
    (⟨cornerF lo.x hi.x, cornerF lo.y hi.y, cornerF lo.z hi.z⟩,
      ⟨projectedF lo.x hi.x, projectedF lo.y hi.y, projectedF lo.z hi.z⟩) := by
  have key : ∀ {l h : ℚ}, BoxAxis l h → cornerF l h ≤ l ∧ l ≤ projectedF l h := by
    intro l h hb
    obtain ⟨c1, c2, c3, -⟩ := corners_real hb
    have : l ≤ h := by exact_mod_cast (sub_pos.1 c3).le
    exact ⟨c1, this.trans c2⟩
  obtain ⟨x1, x2⟩ := key h.x
  obtain ⟨y1, y2⟩ := key h.y
  obtain ⟨z1, z2⟩ := key h.z
  unfold extent3 allEncompassingF
  dsimp only
  simp only [min_eq_left x1, min_eq_left y1, min_eq_left z1, min_eq_left (x1.trans x2), min_eq_left (y1.trans y2),
    min_eq_left (z1.trans z2), max_eq_right (x1.trans x2), max_eq_left x2, max_eq_right x1, max_eq_right y1,
    max_eq_right z1, max_eq_right y2, max_eq_right z2, max_eq_left y2, max_self]

/-- The coordinate which `remap_point` computes, with exact arithmetic but the same corners. -/
noncomputable def exactF (lo hi p : ℚ) : ℝ :=
  1 + ((p : ℝ) - cornerF lo hi) / ((projectedF lo hi : ℝ) - cornerF lo hi)

/-- The side length of the extent of the initial tetrahedron. -/
theorem side_real {lo hi : ℚ} (h : BoxAxis lo hi) : (0 : ℝ) < (hi : ℝ) - lo ∧
    31198 / 10000 * ((hi : ℝ) - lo) ≤ (projectedF lo hi : ℝ) - cornerF lo hi ∧
    (projectedF lo hi : ℝ) - cornerF lo hi ≤ 31202 / 10000 * ((hi : ℝ) - lo) := by
  obtain ⟨-, -, c3, c4, c5, c6, c7⟩ := corners_real h
  exact ⟨c3, by linarith, by linarith⟩

theorem exact_real {lo hi p : ℚ} (h : BoxAxis lo hi) (h1 : cornerF lo hi ≤ p) (h2 : p ≤ projectedF lo hi) :
    |((remapF (cornerF lo hi) (projectedF lo hi) p : ℚ) : ℝ) - exactF lo hi p| ≤ 7 / 2 ^ 53 := by
  obtain ⟨c0, c1, c2⟩ := side_real h
  have g1 := (Rat.cast_le (K := ℝ)).2 h.long
  have g2 := (Rat.cast_le (K := ℝ)).2 h.short
  push_cast at g1 g2
  refine remap_real ?_ ?_ h1 h2
  · have : (1 : ℝ) / 2 ^ 200 ≤ 1 / 2 ^ 150 :=
      one_div_le_one_div_of_le (by positivity) (pow_le_pow_right₀ one_le_two (by decide))
    generalize (1 : ℝ) / 2 ^ 200 = A at *
    generalize (1 : ℝ) / 2 ^ 150 = B at *
    linarith
  · have : (4 : ℝ) * 2 ^ 150 ≤ 2 ^ 200 := by
      have : (4 : ℝ) = 2 ^ 2 := by norm_num
      rw [this, ← pow_add]
      exact pow_le_pow_right₀ one_le_two (by decide)
    generalize (2 : ℝ) ^ 200 = A at *
    generalize (2 : ℝ) ^ 150 = B at *
    linarith

/-- The exact rescaled coordinates of the vertices of the initial tetrahedron and of a place in the box. -/
theorem exact_values {lo hi : ℚ} (h : BoxAxis lo hi) : exactF lo hi (cornerF lo hi) = 1 ∧
    exactF lo hi (projectedF lo hi) = 2 ∧ 1 + 3 / 1000 ≤ exactF lo hi lo ∧ exactF lo hi lo ≤ 1 + 33 / 10000 ∧
    ∀ p : ℚ, lo ≤ p → p ≤ hi → exactF lo hi lo ≤ exactF lo hi p ∧ exactF lo hi p ≤ exactF lo hi lo + 3206 / 10000 := by
  obtain ⟨-, -, c3, c4, c5, c6, c7⟩ := corners_real h
  obtain ⟨-, s1, s2⟩ := side_real h
  unfold exactF
  obtain ⟨S, hS⟩ : ∃ S : ℝ, S = (projectedF lo hi : ℝ) - cornerF lo hi := ⟨_, rfl⟩
  have S0 : 0 < S := by rw [hS]; linarith
  rw [← hS] at s1 s2 ⊢
  refine ⟨by rw [sub_self, zero_div, add_zero], by rw [div_self S0.ne']; norm_num, ?_, ?_, fun p h1 h2 => ⟨?_, ?_⟩⟩
  · rw [add_le_add_iff_left, le_div_iff₀ S0]
    linarith
  · rw [add_le_add_iff_left, div_le_iff₀ S0]
    linarith
  · have : (lo : ℝ) ≤ p := by exact_mod_cast h1
    rw [add_le_add_iff_left]
    exact div_le_div_of_nonneg_right (by linarith) S0.le
  · have : (p : ℝ) ≤ hi := by exact_mod_cast h2
    rw [add_assoc, add_le_add_iff_left, div_add' _ _ _ S0.ne']
    exact div_le_div_of_nonneg_right (by linarith) S0.le

/-- The exact rescaled position. -/
noncomputable def exact3 (lo hi p : P3 ℚ) : P3 ℝ := ⟨exactF lo.x hi.x p.x, exactF lo.y hi.y p.y, exactF lo.z hi.z p.z⟩

/-- The coordinates are in the extent of the initial tetrahedron. -/
def InCorners (lo hi p : P3 ℚ) : Prop :=
  (cornerF lo.x hi.x ≤ p.x ∧ p.x ≤ projectedF lo.x hi.x) ∧ (cornerF lo.y hi.y ≤ p.y ∧ p.y ≤ projectedF lo.y hi.y) ∧
    (cornerF lo.z hi.z ≤ p.z ∧ p.z ≤ projectedF lo.z hi.z)

/-- **C142** (rescaled coordinates): the coordinates from which the code decides the triangulation are within
`7 / 2 ^ 53` of the exact ones. -/
theorem rescaled_near_f64 {lo hi p : P3 ℚ} (h : BoxF64 lo hi) (hp : InCorners lo hi p) :
    CoordsNear (7 / 2 ^ 53) (real3 (rescaleF lo hi p)) (exact3 lo hi p) := by
  unfold rescaleF
  rw [extent_corners h]
  exact ⟨exact_real h.x hp.1.1 hp.1.2, exact_real h.y hp.2.1.1 hp.2.1.2, exact_real h.z hp.2.2.1 hp.2.2.2⟩

private theorem axis_le {l h : ℚ} (hb : BoxAxis l h) {p : ℚ} (h1 : l ≤ p) (h2 : p ≤ h) :
    cornerF l h ≤ p ∧ p ≤ projectedF l h := by
  obtain ⟨c1, c2, -⟩ := corners_real hb
  exact ⟨c1.trans h1, h2.trans c2⟩

private theorem axis_lt {l h : ℚ} (hb : BoxAxis l h) : l ≤ h := by
  obtain ⟨-, -, c3, -⟩ := corners_real hb
  exact_mod_cast (sub_pos.1 c3).le

theorem inCorners_of_box {lo hi p : P3 ℚ} (h : BoxF64 lo hi) (hp : InBox3 lo hi p) : InCorners lo hi p :=
  ⟨axis_le h.x hp.1 hp.2.1, axis_le h.y hp.2.2.1 hp.2.2.2.1, axis_le h.z hp.2.2.2.2.1 hp.2.2.2.2.2⟩

/-- The vertices of the initial tetrahedron are in its extent. -/
theorem inCorners_vertices {lo hi : P3 ℚ} (h : BoxF64 lo hi) :
    InCorners lo hi (allEncompassingF lo hi).p1 ∧ InCorners lo hi (allEncompassingF lo hi).p2 ∧
    InCorners lo hi (allEncompassingF lo hi).p3 ∧ InCorners lo hi (allEncompassingF lo hi).p4 := by
  have x0 := axis_le h.x le_rfl (axis_lt h.x)
  have y0 := axis_le h.y le_rfl (axis_lt h.y)
  have z0 := axis_le h.z le_rfl (axis_lt h.z)
  have x1 := x0.1.trans x0.2
  have y1 := y0.1.trans y0.2
  have z1 := z0.1.trans z0.2
  exact ⟨⟨⟨le_rfl, x1⟩, ⟨le_rfl, y1⟩, ⟨le_rfl, z1⟩⟩, ⟨⟨x1, le_rfl⟩, y0, z0⟩, ⟨x0, ⟨y1, le_rfl⟩, z0⟩,
    ⟨x0, y0, ⟨z1, le_rfl⟩⟩⟩

/-- The volumes below, as numbers. -/
private theorem corner_pos {X Y Z a b c : ℝ} (a1 : 3 / 1000 ≤ a) (b1 : 3 / 1000 ≤ b) (b2 : b ≤ 33 / 10000)
    (c1 : 3 / 1000 ≤ c) (c2 : c ≤ 33 / 10000) (hX : a ≤ X) (hY1 : b ≤ Y) (hY : Y ≤ b + 3206 / 10000) (hZ1 : c ≤ Z)
    (hZ : Z ≤ c + 3206 / 10000) : 1 / 10000 ≤ X * (1 - b * c) - a * (Y * (1 - c) + Z * (1 - b)) := by
  have k1 : b * c ≤ 33 / 10000 * (33 / 10000) := mul_le_mul b2 c2 (by linarith) (by norm_num)
  have k2 : a * (1 - b * c) ≤ X * (1 - b * c) := mul_le_mul_of_nonneg_right hX (by linarith)
  have k3 : Y * (1 - c) ≤ Y * 1 := mul_le_mul_of_nonneg_left (by linarith) (by linarith)
  have k4 : Z * (1 - b) ≤ Z * 1 := mul_le_mul_of_nonneg_left (by linarith) (by linarith)
  have k5 : 3 / 1000 * (1 / 10) ≤ a * (1 - b * c - (Y * (1 - c) + Z * (1 - b))) :=
    mul_le_mul a1 (by linarith) (by norm_num) (by linarith)
  rw [mul_sub] at k5
  linarith

private theorem base_pos {X Y Z a b c : ℝ} (a1 : 3 / 1000 ≤ a) (a2 : a ≤ 33 / 10000) (b1 : 3 / 1000 ≤ b) (b2 : b ≤ 33 / 10000)
    (c1 : 3 / 1000 ≤ c) (c2 : c ≤ 33 / 10000) (hX1 : a ≤ X) (hX : X ≤ a + 3206 / 10000) (hY1 : b ≤ Y)
    (hY : Y ≤ b + 3206 / 10000) (hZ1 : c ≤ Z) (hZ : Z ≤ c + 3206 / 10000) :
    1 / 10000 ≤ (1 - a) * ((1 - b) * (1 - c)) + (1 - b) * (1 - c) * (a - X) + (1 - a) * (1 - c) * (b - Y)
      + (1 - a) * (1 - b) * (c - Z) := by
  have p1 : ∀ {s t u : ℝ}, 0 ≤ s → s ≤ 1 → 0 ≤ t → t ≤ 1 → 0 ≤ u → u ≤ 3206 / 10000 → s * t * u ≤ 3206 / 10000 := by
    intro s t u s0 s1 t0 t1 u0 u1
    have h1 : s * t ≤ 1 := by nlinarith
    have h2 : s * t * u ≤ 1 * (3206 / 10000) := mul_le_mul h1 u1 u0 zero_le_one
    linarith
  have q1 := p1 (s := 1 - b) (t := 1 - c) (u := X - a) (by linarith) (by linarith) (by linarith) (by linarith) (by linarith) (by linarith)
  have q2 := p1 (s := 1 - a) (t := 1 - c) (u := Y - b) (by linarith) (by linarith) (by linarith) (by linarith) (by linarith) (by linarith)
  have q3 := p1 (s := 1 - a) (t := 1 - b) (u := Z - c) (by linarith) (by linarith) (by linarith) (by linarith) (by linarith) (by linarith)
  have q4 : 9967 / 10000 * (9967 / 10000 * (9967 / 10000)) ≤ (1 - a) * ((1 - b) * (1 - c)) :=
    mul_le_mul (by linarith) (mul_le_mul (by linarith) (by linarith) (by norm_num) (by linarith)) (by norm_num) (by linarith)
  have e1 : (1 - b) * (1 - c) * (a - X) = -((1 - b) * (1 - c) * (X - a)) := by ring
  have e2 : (1 - a) * (1 - c) * (b - Y) = -((1 - a) * (1 - c) * (Y - b)) := by ring
  have e3 : (1 - a) * (1 - b) * (c - Z) = -((1 - a) * (1 - b) * (Z - c)) := by ring
  rw [e1, e2, e3]
  norm_num at q4
  linarith

private theorem vol_real (v : Fin 4 → P3 ℚ) : vol (real3 ∘ v) = ((vol v : ℚ) : ℝ) :=
  orient3_real ⟨v 0, v 1, v 2, v 3⟩

private theorem vol_pos_of {v : Fin 4 → P3 ℚ} {w : Fin 4 → P3 ℝ} (h : ∀ k, CoordsNear (7 / 2 ^ 53) (real3 (v k)) (w k))
    (hw : ∀ k, CoordsNear 1 (w k) (w 0)) (hp : 1 / 10000 ≤ vol w) : 0 < vol v := by
  have := vol_near (v := real3 ∘ v) (e := 7 / 2 ^ 53) (by norm_num) h hw
  rw [vol_real, abs_le] at this
  have : (0 : ℝ) < ((vol v : ℚ) : ℝ) := by
    have k1 := this.1
    norm_num at k1 hp
    linarith
  exact_mod_cast this

/-- **C142** (initial tetrahedron): with the corners and the rescaled coordinates in `f64`, the initial tetrahedron
is positively oriented and all points of the box are strictly inside of it. -/
theorem initial_tetra_contains_f64 {lo hi : P3 ℚ} (h : BoxF64 lo hi) :
    let t := allEncompassingF lo hi
    let t' : Predicates.Tetra ℚ := ⟨rescaleF lo hi t.p1, rescaleF lo hi t.p2, rescaleF lo hi t.p3, rescaleF lo hi t.p4⟩
    0 < orient3 t' ∧ ∀ p, InBox3 lo hi p → InteriorTetra t' (rescaleF lo hi p) := by
  intro t t'
  obtain ⟨i1, i2, i3, i4⟩ := inCorners_vertices h
  have n1 := rescaled_near_f64 h i1
  have n2 := rescaled_near_f64 h i2
  have n3 := rescaled_near_f64 h i3
  have n4 := rescaled_near_f64 h i4
  obtain ⟨x1, x2, x3, x4, xp⟩ := exact_values h.x
  obtain ⟨y1, y2, y3, y4, yp⟩ := exact_values h.y
  obtain ⟨z1, z2, z3, z4, zp⟩ := exact_values h.z
  obtain ⟨a, ha⟩ : ∃ a, exactF lo.x hi.x lo.x = 1 + a := ⟨exactF lo.x hi.x lo.x - 1, by ring⟩
  obtain ⟨b, hb⟩ : ∃ b, exactF lo.y hi.y lo.y = 1 + b := ⟨exactF lo.y hi.y lo.y - 1, by ring⟩
  obtain ⟨c, hc⟩ : ∃ c, exactF lo.z hi.z lo.z = 1 + c := ⟨exactF lo.z hi.z lo.z - 1, by ring⟩
  rw [ha] at x3 x4 xp
  rw [hb] at y3 y4 yp
  rw [hc] at z3 z4 zp
  have e1 : exact3 lo hi t.p1 = ⟨1, 1, 1⟩ := by unfold exact3; congr 1
  have e2 : exact3 lo hi t.p2 = ⟨2, 1 + b, 1 + c⟩ := by unfold exact3; congr 1
  have e3 : exact3 lo hi t.p3 = ⟨1 + a, 2, 1 + c⟩ := by unfold exact3; congr 1
  have e4 : exact3 lo hi t.p4 = ⟨1 + a, 1 + b, 2⟩ := by unfold exact3; congr 1
  rw [e1] at n1
  rw [e2] at n2
  rw [e3] at n3
  rw [e4] at n4
  have a1 : 3 / 1000 ≤ a := by linarith
  have a2 : a ≤ 33 / 10000 := by linarith
  have b1 : 3 / 1000 ≤ b := by linarith
  have b2 : b ≤ 33 / 10000 := by linarith
  have c1 : 3 / 1000 ≤ c := by linarith
  have c2 : c ≤ 33 / 10000 := by linarith
  obtain ⟨v, hv⟩ : ∃ v : Fin 4 → P3 ℚ, v = ![t'.p1, t'.p2, t'.p3, t'.p4] := ⟨_, rfl⟩
  have near1 : ∀ {s t : ℝ}, 0 ≤ s → s ≤ 1 → 0 ≤ t → t ≤ 1 → |(1 + s) - (1 + t)| ≤ 1 := by
    intro s t s0 s1 t0 t1
    rw [abs_le]
    constructor <;> linarith
  have two : (2 : ℝ) = 1 + 1 := by norm_num
  have one : (1 : ℝ) = 1 + 0 := by norm_num
  have pos4 : 0 < vol v := by
    refine vol_pos_of (w := ![⟨1, 1, 1⟩, ⟨2, 1 + b, 1 + c⟩, ⟨1 + a, 2, 1 + c⟩, ⟨1 + a, 1 + b, 2⟩]) ?_ ?_ ?_
    · rw [hv]
      exact forall_fin_four.2 ⟨n1, n2, n3, n4⟩
    · refine forall_fin_four.2 ⟨⟨?_, ?_, ?_⟩, ⟨?_, ?_, ?_⟩, ⟨?_, ?_, ?_⟩, ⟨?_, ?_, ?_⟩⟩ <;> dsimp <;> rw [abs_le] <;>
        constructor <;> linarith
    · have := corner_pos (X := 1) (Y := b) (Z := c) a1 b1 b2 c1 c2 (by linarith) le_rfl (by linarith) le_rfl (by linarith)
      refine this.trans_eq ?_
      rw [vol_def]
      simp only [Matrix.cons_val]
      ring
  have ho : 0 < orient3 t' := by
    have e : vol v = orient3 t' := by rw [hv]; rfl
    rw [← e]
    exact pos4
  refine ⟨ho, fun p hp => ?_⟩
  have np := rescaled_near_f64 h (inCorners_of_box h hp)
  obtain ⟨X1, X2⟩ := xp p.x hp.1 hp.2.1
  obtain ⟨Y1, Y2⟩ := yp p.y hp.2.2.1 hp.2.2.2.1
  obtain ⟨Z1, Z2⟩ := zp p.z hp.2.2.2.2.1 hp.2.2.2.2.2
  obtain ⟨X, hX⟩ : ∃ X, exactF lo.x hi.x p.x = 1 + X := ⟨exactF lo.x hi.x p.x - 1, by ring⟩
  obtain ⟨Y, hY⟩ : ∃ Y, exactF lo.y hi.y p.y = 1 + Y := ⟨exactF lo.y hi.y p.y - 1, by ring⟩
  obtain ⟨Z, hZ⟩ : ∃ Z, exactF lo.z hi.z p.z = 1 + Z := ⟨exactF lo.z hi.z p.z - 1, by ring⟩
  have ep : exact3 lo hi p = ⟨1 + X, 1 + Y, 1 + Z⟩ := by unfold exact3; rw [hX, hY, hZ]
  rw [ep] at np
  rw [hX] at X1 X2
  rw [hY] at Y1 Y2
  rw [hZ] at Z1 Z2
  have X1' : a ≤ X := by linarith
  have X2' : X ≤ a + 3206 / 10000 := by linarith
  have Y1' : b ≤ Y := by linarith
  have Y2' : Y ≤ b + 3206 / 10000 := by linarith
  have Z1' : c ≤ Z := by linarith
  have Z2' : Z ≤ c + 3206 / 10000 := by linarith
  clear X1 X2 Y1 Y2 Z1 Z2 xp yp zp e1 e2 e3 e4 ep x1 x2 x3 x4 y1 y2 y3 y4 z1 z2 z3 z4
  obtain ⟨y, hy⟩ : ∃ y, y = rescaleF lo hi p := ⟨_, rfl⟩
  rw [← hy] at np ⊢
  have u0 : vol (Function.update v 0 y) = vol ![y, t'.p2, t'.p3, t'.p4] := by rw [hv]; rfl
  have u1 : vol (Function.update v 1 y) = vol ![t'.p1, y, t'.p3, t'.p4] := by rw [hv]; rfl
  have u2 : vol (Function.update v 2 y) = vol ![t'.p1, t'.p2, y, t'.p4] := by rw [hv]; rfl
  have u3 : vol (Function.update v 3 y) = vol ![t'.p1, t'.p2, t'.p3, y] := by rw [hv]; rfl
  have pos0 : 0 < vol ![y, t'.p2, t'.p3, t'.p4] := by
    refine vol_pos_of (w := ![⟨1 + X, 1 + Y, 1 + Z⟩, ⟨2, 1 + b, 1 + c⟩, ⟨1 + a, 2, 1 + c⟩, ⟨1 + a, 1 + b, 2⟩]) ?_ ?_ ?_
    · exact forall_fin_four.2 ⟨np, n2, n3, n4⟩
    · refine forall_fin_four.2 ⟨⟨?_, ?_, ?_⟩, ⟨?_, ?_, ?_⟩, ⟨?_, ?_, ?_⟩, ⟨?_, ?_, ?_⟩⟩ <;> dsimp <;> rw [abs_le] <;>
        constructor <;> linarith
    · refine (base_pos a1 a2 b1 b2 c1 c2 X1' X2' Y1' Y2' Z1' Z2').trans_eq ?_
      rw [vol_def]
      simp only [Matrix.cons_val]
      ring
  have pos1 : 0 < vol ![t'.p1, y, t'.p3, t'.p4] := by
    refine vol_pos_of (w := ![⟨1, 1, 1⟩, ⟨1 + X, 1 + Y, 1 + Z⟩, ⟨1 + a, 2, 1 + c⟩, ⟨1 + a, 1 + b, 2⟩]) ?_ ?_ ?_
    · exact forall_fin_four.2 ⟨n1, np, n3, n4⟩
    · refine forall_fin_four.2 ⟨⟨?_, ?_, ?_⟩, ⟨?_, ?_, ?_⟩, ⟨?_, ?_, ?_⟩, ⟨?_, ?_, ?_⟩⟩ <;> dsimp <;> rw [abs_le] <;>
        constructor <;> linarith
    · refine (corner_pos a1 b1 b2 c1 c2 X1' Y1' Y2' Z1' Z2').trans_eq ?_
      rw [vol_def]
      simp only [Matrix.cons_val]
      ring
  have pos2 : 0 < vol ![t'.p1, t'.p2, y, t'.p4] := by
    refine vol_pos_of (w := ![⟨1, 1, 1⟩, ⟨2, 1 + b, 1 + c⟩, ⟨1 + X, 1 + Y, 1 + Z⟩, ⟨1 + a, 1 + b, 2⟩]) ?_ ?_ ?_
    · exact forall_fin_four.2 ⟨n1, n2, np, n4⟩
    · refine forall_fin_four.2 ⟨⟨?_, ?_, ?_⟩, ⟨?_, ?_, ?_⟩, ⟨?_, ?_, ?_⟩, ⟨?_, ?_, ?_⟩⟩ <;> dsimp <;> rw [abs_le] <;>
        constructor <;> linarith
    · refine (corner_pos b1 a1 a2 c1 c2 Y1' X1' X2' Z1' Z2').trans_eq ?_
      rw [vol_def]
      simp only [Matrix.cons_val]
      ring
  have pos3 : 0 < vol ![t'.p1, t'.p2, t'.p3, y] := by
    refine vol_pos_of (w := ![⟨1, 1, 1⟩, ⟨2, 1 + b, 1 + c⟩, ⟨1 + a, 2, 1 + c⟩, ⟨1 + X, 1 + Y, 1 + Z⟩]) ?_ ?_ ?_
    · exact forall_fin_four.2 ⟨n1, n2, n3, np⟩
    · refine forall_fin_four.2 ⟨⟨?_, ?_, ?_⟩, ⟨?_, ?_, ?_⟩, ⟨?_, ?_, ?_⟩, ⟨?_, ?_, ?_⟩⟩ <;> dsimp <;> rw [abs_le] <;>
        constructor <;> linarith
    · refine (corner_pos c1 a1 a2 b1 b2 Z1' X1' X2' Y1' Y2').trans_eq ?_
      rw [vol_def]
      simp only [Matrix.cons_val]
      ring
  have hbary := bary3_co pos4.ne' y
  rw [hv] at hbary
  refine ⟨co v 0 y, co v 1 y, co v 2 y, co v 3 y, ?_, ?_, ?_, ?_, by rw [hv]; exact hbary⟩
  · exact div_pos (u0 ▸ pos0) pos4
  · exact div_pos (u1 ▸ pos1) pos4
  · exact div_pos (u2 ▸ pos2) pos4
  · exact div_pos (u3 ▸ pos3) pos4

end Verif.Rounding
