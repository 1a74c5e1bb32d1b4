import Verif.Rounding.ContainsProps

/-!
# C99: remapped points, and containment of remapped points
-/

namespace Verif.Rounding

open Verif.Predicates

/-- `remap_point` for a point in space, with the extent from `lo` to `hi`. -/
def remapPointF (lo hi p : P3 ℚ) : P3 ℚ :=
  ⟨remapF lo.x hi.x p.x, remapF lo.y hi.y p.y, remapF lo.z hi.z p.z⟩

/-- `remap_point` for a tetrahedron, delaunay/mod.rs lines 190-192. -/
def remapTetraF (lo hi : P3 ℚ) (t : Tetra ℚ) : Tetra ℚ :=
  ⟨remapPointF lo hi t.p1, remapPointF lo hi t.p2, remapPointF lo hi t.p3, remapPointF lo hi t.p4⟩

/-- An interval of binary64 numbers whose length and its inverse are far from underflow and overflow. -/
structure Axis (lo hi : ℚ) : Prop where
  lo_f64 : IsF64 lo
  hi_f64 : IsF64 hi
  long : (2 : ℚ) ^ (-1000 : ℤ) ≤ hi - lo
  short : hi - lo ≤ (2 : ℚ) ^ (1000 : ℤ)

/-- **C99** (range): one coordinate of a remapped point is a binary64 number between one and two. -/
theorem remap_coord {lo hi p : ℚ} (h : Axis lo hi) (h1 : lo ≤ p) (h2 : p ≤ hi) :
    Coord (remapF lo hi p) := by
  have f1 : IsF64 (1 : ℚ) := by decide +kernel
  have f2 : IsF64 (2 : ℚ) := by decide +kernel
  have hS1 : (2 : ℚ) ^ (-1000 : ℤ) ≤ hi ⊟ lo := le_fl (fl_two_zpow (by norm_num)) h.long
  have hS2 : hi ⊟ lo ≤ (2 : ℚ) ^ (1000 : ℤ) := fl_le (fl_two_zpow (by norm_num)) h.short
  have hS0 : 0 < hi ⊟ lo := (two_zpow_pos _).trans_le hS1
  have hq0 : 0 ≤ p ⊟ lo := fl_nonneg (by linarith)
  have hq : p ⊟ lo ≤ hi ⊟ lo := fl_mono (by linarith)
  have hc0 : 0 ≤ 1 ⊘ (hi ⊟ lo) := fl_nonneg (by positivity)
  have hc : (hi ⊟ lo) * (1 ⊘ (hi ⊟ lo)) ≤ 1 + (2 : ℚ) ^ (-53 : ℤ) := by
    have hpos : (0 : ℚ) < 1 / (hi ⊟ lo) := by positivity
    have := fl_rel (x := 1 / (hi ⊟ lo)) (by
      rw [abs_of_pos hpos, le_div_iff₀ hS0]
      calc _ ≤ (2 : ℚ) ^ (-1022 : ℤ) * (2 : ℚ) ^ (1000 : ℤ) :=
            mul_le_mul_of_nonneg_left hS2 (two_zpow_pos _).le
        _ ≤ 1 := by rw [← two_zpow_add]; norm_num)
    rw [abs_of_pos hpos, abs_le] at this
    have h3 : 1 ⊘ (hi ⊟ lo) ≤ 1 / (hi ⊟ lo) * (1 + (2 : ℚ) ^ (-53 : ℤ)) := by
      unfold fdiv
      linarith
    calc _ ≤ (hi ⊟ lo) * (1 / (hi ⊟ lo) * (1 + (2 : ℚ) ^ (-53 : ℤ))) :=
          mul_le_mul_of_nonneg_left h3 hS0.le
      _ = _ := by field_simp
  have ht0 : 0 ≤ (p ⊟ lo) ⊠ (1 ⊘ (hi ⊟ lo)) := fl_nonneg (mul_nonneg hq0 hc0)
  have ht1 : (p ⊟ lo) ⊠ (1 ⊘ (hi ⊟ lo)) ≤ 1 := by
    have tie := fl_tie (k := 0) (by norm_num)
    have : (p ⊟ lo) * (1 ⊘ (hi ⊟ lo)) ≤ (2 : ℚ) ^ (0 : ℤ) + (2 : ℚ) ^ ((0 : ℤ) - 53) := by
      refine (mul_le_mul_of_nonneg_right hq hc0).trans (hc.trans_eq ?_)
      norm_num
    have := fl_mono this
    rw [tie, zpow_zero] at this
    exact this
  exact ⟨isF64_fl _, le_fl f1 (by linarith), fl_le f2 (by linarith)⟩

/-- **C99** (order): remapping does not change the order of points along an axis. -/
theorem remap_mono {lo hi p q : ℚ} (h : Axis lo hi) (hpq : p ≤ q) : remapF lo hi p ≤ remapF lo hi q := by
  have hS1 : (2 : ℚ) ^ (-1000 : ℤ) ≤ hi ⊟ lo := le_fl (fl_two_zpow (by norm_num)) h.long
  have hS0 : 0 < hi ⊟ lo := (two_zpow_pos _).trans_le hS1
  have hc0 : 0 ≤ 1 ⊘ (hi ⊟ lo) := fl_nonneg (by positivity)
  refine fl_mono (add_le_add_right (fl_mono ?_) 1)
  exact mul_le_mul_of_nonneg_right (fl_mono (by linarith)) hc0

/-- The point is in the extent: the debug assertion in dimension.rs line 57. -/
def InExtent (lo hi p : P3 ℚ) : Prop :=
  (lo.x ≤ p.x ∧ p.x ≤ hi.x) ∧ (lo.y ≤ p.y ∧ p.y ≤ hi.y) ∧ (lo.z ≤ p.z ∧ p.z ≤ hi.z)

/-- An extent with three such axes. -/
structure Extents (lo hi : P3 ℚ) : Prop where
  x : Axis lo.x hi.x
  y : Axis lo.y hi.y
  z : Axis lo.z hi.z

theorem remap_cube {lo hi p : P3 ℚ} (h : Extents lo hi) (hp : InExtent lo hi p) :
    InCube (remapPointF lo hi p) :=
  ⟨remap_coord h.x hp.1.1 hp.1.2, remap_coord h.y hp.2.1.1 hp.2.1.2, remap_coord h.z hp.2.2.1 hp.2.2.2⟩

/-- **C99**: for every tetrahedron and point in the extent, the test made by the triangulation is true
iff the remapped point has positive barycentric coordinates in the remapped tetrahedron, false only if
one of them is negative, and panics only if one is zero. -/
theorem remapped_contains_correct (lo hi : P3 ℚ) (he : Extents lo hi) (t : Tetra ℚ) (p : P3 ℚ)
    (h1 : InExtent lo hi t.p1) (h2 : InExtent lo hi t.p2) (h3 : InExtent lo hi t.p3)
    (h4 : InExtent lo hi t.p4) (hp : InExtent lo hi p) (hne : orient3 (remapTetraF lo hi t) ≠ 0)
    (w1 w2 w3 w4 : ℚ) (hw : Bary3 (remapTetraF lo hi t) (remapPointF lo hi p) w1 w2 w3 w4) :
    (tetraContains (remapTetraF lo hi t) (remapPointF lo hi p) = some true ↔
      0 < w1 ∧ 0 < w2 ∧ 0 < w3 ∧ 0 < w4) ∧
    (tetraContains (remapTetraF lo hi t) (remapPointF lo hi p) = some false →
      w1 < 0 ∨ w2 < 0 ∨ w3 < 0 ∨ w4 < 0) ∧
    (tetraContains (remapTetraF lo hi t) (remapPointF lo hi p) = none →
      w1 = 0 ∨ w2 = 0 ∨ w3 = 0 ∨ w4 = 0) := by
  obtain ⟨q1, e1⟩ : ∃ q, q = remapPointF lo hi t.p1 := ⟨_, rfl⟩
  obtain ⟨q2, e2⟩ : ∃ q, q = remapPointF lo hi t.p2 := ⟨_, rfl⟩
  obtain ⟨q3, e3⟩ : ∃ q, q = remapPointF lo hi t.p3 := ⟨_, rfl⟩
  obtain ⟨q4, e4⟩ : ∃ q, q = remapPointF lo hi t.p4 := ⟨_, rfl⟩
  obtain ⟨q, e⟩ : ∃ q, q = remapPointF lo hi p := ⟨_, rfl⟩
  have c1 := remap_cube he h1
  have c2 := remap_cube he h2
  have c3 := remap_cube he h3
  have c4 := remap_cube he h4
  have c := remap_cube he hp
  have ht : remapTetraF lo hi t = ⟨q1, q2, q3, q4⟩ := by rw [e1, e2, e3, e4]; rfl
  rw [← e1] at c1
  rw [← e2] at c2
  rw [← e3] at c3
  rw [← e4] at c4
  rw [← e] at c
  rw [ht] at hne hw ⊢
  rw [← e] at hw ⊢
  rw [tetra_contains_exact ⟨q1, q2, q3, q4⟩ q c1 c2 c3 c4 c]
  exact tetra_contains_correct _ hne q w1 w2 w3 w4 hw

/-- An extent, a tetrahedron in it and two points: one that the test in `f64` decides and one that
is too close to a face for it. -/
example : let lo : P3 ℚ := ⟨0, 0, 0⟩
    let hi : P3 ℚ := ⟨2, 2, 2⟩
    let t : Tetra ℚ := ⟨⟨0, 0, 0⟩, ⟨2, 0, 0⟩, ⟨0, 2, 0⟩, ⟨0, 0, 2⟩⟩
    let near : P3 ℚ := ⟨1 / 2, 1 / 2, 1 / 2 ^ 50⟩
    Extents lo hi ∧ InExtent lo hi t.p1 ∧ InExtent lo hi t.p2 ∧ InExtent lo hi t.p3
      ∧ InExtent lo hi t.p4 ∧ InExtent lo hi near ∧ orient3 (remapTetraF lo hi t) ≠ 0
      ∧ tetraContainsF (remapTetraF lo hi t) (remapPointF lo hi ⟨1 / 4, 1 / 4, 1 / 4⟩) = some (some true)
      ∧ tetraContainsF (remapTetraF lo hi t) (remapPointF lo hi near) = none
      ∧ tetraContains (remapTetraF lo hi t) (remapPointF lo hi near) = some true
      ∧ Bary3 (remapTetraF lo hi t) (remapPointF lo hi near) (1 / 2 - 1 / 2 ^ 51) (1 / 4) (1 / 4)
        (1 / 2 ^ 51) := by
  refine ⟨⟨⟨?_, ?_, ?_, ?_⟩, ⟨?_, ?_, ?_, ?_⟩, ⟨?_, ?_, ?_, ?_⟩⟩, ?_, ?_, ?_, ?_, ?_, ?_, ?_, ?_, ?_, ?_⟩
  all_goals (try unfold InExtent); (try unfold Bary3); decide +kernel

end Verif.Rounding
