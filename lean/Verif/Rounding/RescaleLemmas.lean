import Verif.Rounding.RescaleModel
import Verif.Rounding.AreaLemmas
import Verif.Delaunay.SpaceProps

/-! # C142: lemmas -/

namespace Verif.Rounding

open Verif.Predicates Verif.Delaunay Verif.Voronoi

/-- An interval which is far from underflow and overflow and not too far from the origin. -/
structure BoxAxis (lo hi : ℚ) : Prop where
  lo_f64 : IsF64 lo
  hi_f64 : IsF64 hi
  long : 1 / 2 ^ 150 ≤ hi - lo
  short : hi - lo ≤ 2 ^ 150
  near : |lo| ≤ 2 ^ 30 * (hi - lo)

/-- One rescaled coordinate. -/
theorem remap_real {lo hi p : ℚ} (h1 : (1 : ℝ) / 2 ^ 200 ≤ (hi : ℝ) - lo) (h2 : (hi : ℝ) - lo ≤ 2 ^ 200)
    (hp1 : lo ≤ p) (hp2 : p ≤ hi) :
    |((remapF lo hi p : ℚ) : ℝ) - (1 + ((p : ℝ) - lo) / ((hi : ℝ) - lo))| ≤ 7 / 2 ^ 53 := by
  obtain ⟨s, hs⟩ : ∃ s : ℝ, s = (hi : ℝ) - lo := ⟨_, rfl⟩
  have hp1' : (lo : ℝ) ≤ p := by exact_mod_cast hp1
  have hp2' : (p : ℝ) ≤ hi := by exact_mod_cast hp2
  rw [← hs] at h1 h2 ⊢
  have s0 : 0 < s := lt_of_lt_of_le (by positivity) h1
  obtain ⟨d, hd⟩ : ∃ d : ℝ, d = ((p : ℝ) - lo) / s := ⟨_, rfl⟩
  have hpd : (p : ℝ) - lo = d * s := by rw [hd]; field_simp
  have d0 : 0 ≤ d := by rw [hd]; exact div_nonneg (by linarith) s0.le
  have d1 : d ≤ 1 := by rw [hd, div_le_one s0]; linarith
  rw [← hd]
  -- side length
  have e1 := fl_real (x := hi - lo) (k := 1) (M := s) h1 zero_le_one (by push_cast; rw [← hs, abs_of_pos s0, one_mul])
  have e2 := fl_real (x := p - lo) (k := 1) (M := s) h1 zero_le_one (by
    push_cast; rw [hpd, abs_of_nonneg (by positivity)]; exact mul_le_mul_of_nonneg_right d1 s0.le)
  push_cast at e1 e2
  change |((hi ⊟ lo : ℚ) : ℝ) - _| ≤ _ at e1
  change |((p ⊟ lo : ℚ) : ℝ) - _| ≤ _ at e2
  rw [← hs] at e1
  rw [hpd] at e2
  obtain ⟨S, hS⟩ : ∃ S, S = hi ⊟ lo := ⟨_, rfl⟩
  obtain ⟨q, hq⟩ : ∃ q, q = p ⊟ lo := ⟨_, rfl⟩
  rw [← hS] at e1
  rw [← hq] at e2
  have S1 : 99 / 100 * s ≤ (S : ℝ) := by
    have := (abs_le.1 e1).1
    norm_num at this ⊢
    linarith
  have S0 : (0 : ℝ) < S := lt_of_lt_of_le (by positivity) S1
  -- inverse
  have e3 := fl_real (x := 1 / S) (k := 100 / 99) (M := 1 / s) (one_div_le_one_div_of_le s0 h2) (by norm_num) (by
    push_cast
    rw [abs_of_pos (by positivity), div_mul_div_comm, div_le_div_iff₀ S0 (by positivity)]
    linarith)
  push_cast at e3
  change |((1 ⊘ S : ℚ) : ℝ) - _| ≤ _ at e3
  obtain ⟨r, hr⟩ : ∃ r, r = 1 ⊘ S := ⟨_, rfl⟩
  rw [← hr] at e3
  obtain ⟨a, ha⟩ : ∃ a : ℝ, a = (S : ℝ) / s := ⟨_, rfl⟩
  obtain ⟨b, hb⟩ : ∃ b : ℝ, b = (r : ℝ) * s := ⟨_, rfl⟩
  obtain ⟨c, hc⟩ : ∃ c : ℝ, c = (q : ℝ) / s := ⟨_, rfl⟩
  have ea : |a - 1| ≤ (1 + 1 / 1000) / 2 ^ 53 := by
    have t : a - 1 = ((S : ℝ) - s) / s := by rw [ha]; field_simp
    rw [t, abs_div, abs_of_pos s0, div_le_iff₀ s0]
    refine e1.trans_eq ?_
    ring
  have ec : |c - d| ≤ (1 + 1 / 1000) / 2 ^ 53 := by
    have t : c - d = ((q : ℝ) - d * s) / s := by rw [hc]; field_simp
    rw [t, abs_div, abs_of_pos s0, div_le_iff₀ s0]
    refine e2.trans_eq ?_
    ring
  have eb : |b - 1 / a| ≤ (100 / 99 + 1 / 1000) / 2 ^ 53 := by
    have t : b - 1 / a = ((r : ℝ) - 1 / S) * s := by rw [hb, ha, one_div_div]; ring
    rw [t, abs_mul, abs_of_pos s0]
    refine (mul_le_mul_of_nonneg_right e3 s0.le).trans_eq ?_
    field_simp
  obtain ⟨u, hu⟩ : ∃ u : ℝ, u = 1 / 2 ^ 53 := ⟨_, rfl⟩
  have u0 : 0 < u := by rw [hu]; positivity
  have u1 : u ≤ 1 / 1000000 := by rw [hu]; norm_num
  rw [div_eq_mul_one_div _ ((2 : ℝ) ^ 53), ← hu] at ea eb ec ⊢
  have a1 : 99 / 100 ≤ a := by rw [ha, le_div_iff₀ s0]; exact S1
  have a0 : 0 < a := by linarith
  have ea' : |1 / a - 1| ≤ 102 / 100 * u := by
    have t : 1 / a - 1 = (1 - a) / a := by field_simp
    rw [t, abs_div, abs_of_pos a0, div_le_iff₀ a0, abs_sub_comm]
    nlinarith
  have eb' : |b - 1| ≤ 21 / 10 * u := by
    have := abs_sub_le b (1 / a) 1
    linarith
  have b1 : |b| ≤ 101 / 100 := by
    have := abs_of_near eb' (b := 1) (c := 1) (by norm_num)
    linarith
  have ecb : |c * b - d| ≤ 32 / 10 * u := by
    have t : c * b - d = (c - d) * b + d * (b - 1) := by ring
    rw [t]
    have k1 := abs_add_le ((c - d) * b) (d * (b - 1))
    rw [abs_mul, abs_mul, abs_of_nonneg d0] at k1
    have k2 := mul_le_mul ec b1 (abs_nonneg _) (by positivity)
    have k3 := mul_le_mul d1 eb' (abs_nonneg _) zero_le_one
    linarith
  have hcb : ((q * r : ℚ) : ℝ) = c * b := by push_cast; rw [hc, hb]; field_simp
  have cb1 : |c * b| ≤ 101 / 100 := by
    have := abs_of_near ecb (c := 1) (by rw [abs_of_nonneg d0]; exact d1)
    linarith
  have one : (1 : ℝ) / 2 ^ 200 ≤ 1 := by
    rw [div_le_one (by positivity)]
    exact one_le_pow₀ one_le_two
  have e4 := fl_real (x := q * r) (k := 101 / 100) (M := 1) one (by norm_num) (by rw [hcb, mul_one]; exact cb1)
  rw [hcb] at e4
  change |((q ⊠ r : ℚ) : ℝ) - _| ≤ _ at e4
  rw [← hu] at e4
  obtain ⟨t, ht⟩ : ∃ t, t = q ⊠ r := ⟨_, rfl⟩
  rw [← ht] at e4
  have t1 : |(t : ℝ)| ≤ 102 / 100 := by
    have := abs_of_near e4 cb1
    linarith
  have e5 := fl_real (x := 1 + t) (k := 202 / 100) (M := 1) one (by norm_num) (by
    push_cast
    have := abs_add_le (1 : ℝ) t
    rw [abs_one] at this
    linarith)
  push_cast at e5
  change |((1 ⊞ t : ℚ) : ℝ) - _| ≤ _ at e5
  rw [← hu] at e5
  have hrem : remapF lo hi p = 1 ⊞ t := by rw [ht, hq, hr, hS]; rfl
  rw [hrem]
  have k1 := abs_sub_le ((1 ⊞ t : ℚ) : ℝ) (1 + t) (1 + d)
  have k2 := abs_sub_le (t : ℝ) (c * b) d
  have k3 : (1 + (t : ℝ)) - (1 + d) = t - d := by ring
  rw [k3] at k1
  linarith

/-- The corners of the initial tetrahedron. -/
theorem corners_real {lo hi : ℚ} (h : BoxAxis lo hi) : cornerF lo hi ≤ lo ∧ hi ≤ projectedF lo hi ∧
    (0 : ℝ) < (hi : ℝ) - lo ∧
    99 / 10000 * ((hi : ℝ) - lo) ≤ lo - cornerF lo hi ∧ lo - cornerF lo hi ≤ 101 / 10000 * ((hi : ℝ) - lo) ∧
    21099 / 10000 * ((hi : ℝ) - lo) ≤ projectedF lo hi - hi ∧
    projectedF lo hi - hi ≤ 21101 / 10000 * ((hi : ℝ) - lo) := by
  obtain ⟨w, hw⟩ : ∃ w : ℝ, w = (hi : ℝ) - lo := ⟨_, rfl⟩
  have g1 := (Rat.cast_le (K := ℝ)).2 h.long
  have g2 := (Rat.cast_le (K := ℝ)).2 h.near
  push_cast at g1 g2
  rw [← hw] at g1 g2 ⊢
  have w200 : (1 : ℝ) / 2 ^ 200 ≤ w :=
    (one_div_le_one_div_of_le (by positivity) (pow_le_pow_right₀ one_le_two (by decide))).trans g1
  have w0 : 0 < w := lt_of_lt_of_le (by positivity) g1
  have hlt : lo < hi := by
    have : (lo : ℝ) < hi := by linarith
    exact_mod_cast this
  have a0 : 0 ≤ fl (1 / 100) := fl_nonneg (by norm_num)
  have b0 : 0 ≤ fl (21 / 10) ⊞ fl (1 / 100) := fl_nonneg (add_nonneg (fl_nonneg (by norm_num)) a0)
  have d0 : 0 ≤ hi ⊟ lo := fl_nonneg (by linarith)
  have one : (1 : ℝ) / 2 ^ 200 ≤ 1 := by
    rw [div_le_one (by positivity)]
    exact one_le_pow₀ one_le_two
  -- the constants
  have ca : |((fl (1 / 100) : ℚ) : ℝ) - 1 / 100| ≤ 1 / 10 ^ 9 := by
    have := fl_real (x := 1 / 100) (k := 1) one zero_le_one (by push_cast; norm_num)
    push_cast at this
    norm_num at this ⊢
    linarith
  have cb : |((fl (21 / 10) : ℚ) : ℝ) - 21 / 10| ≤ 1 / 10 ^ 9 := by
    have := fl_real (x := 21 / 10) (k := 3) one (by norm_num) (by push_cast; norm_num)
    push_cast at this
    norm_num at this ⊢
    linarith
  have cc : |((fl (21 / 10) ⊞ fl (1 / 100) : ℚ) : ℝ) - 211 / 100| ≤ 3 / 10 ^ 9 := by
    have := fl_real (x := fl (21 / 10) + fl (1 / 100)) (k := 3) one (by norm_num) (by
      push_cast
      rw [abs_le] at ca cb ⊢
      norm_num at ca cb ⊢
      constructor <;> linarith)
    push_cast at this
    change |((fl (21 / 10) ⊞ fl (1 / 100) : ℚ) : ℝ) - _| ≤ _ at this
    rw [abs_le] at this ca cb ⊢
    norm_num at this ca cb ⊢
    constructor <;> linarith
  have ed := fl_real (x := hi - lo) (k := 1) (M := w) w200 zero_le_one (by push_cast; rw [← hw, abs_of_pos w0, one_mul])
  push_cast at ed
  change |((hi ⊟ lo : ℚ) : ℝ) - _| ≤ _ at ed
  rw [← hw] at ed
  have ed' : |((hi ⊟ lo : ℚ) : ℝ) - w| ≤ 1 / 10 ^ 9 * w := by
    norm_num at ed ⊢
    linarith
  -- a product of the side length with a constant
  have prod : ∀ (c : ℚ) (C : ℝ), 0 ≤ C → C ≤ 3 → |(c : ℝ) - C| ≤ 3 / 10 ^ 9 →
      |(((hi ⊟ lo) ⊠ c : ℚ) : ℝ) - C * w| ≤ 1 / 10 ^ 7 * w := by
    intro c C hC0 hC3 hcC
    have m : |((hi ⊟ lo : ℚ) : ℝ) * c - C * w| ≤ 1 / 10 ^ 8 * w := by
      have t : ((hi ⊟ lo : ℚ) : ℝ) * c - C * w = (((hi ⊟ lo : ℚ) : ℝ) - w) * c + w * (c - C) := by ring
      rw [t]
      have k1 := abs_add_le ((((hi ⊟ lo : ℚ) : ℝ) - w) * c) (w * ((c : ℝ) - C))
      rw [abs_mul, abs_mul, abs_of_pos w0] at k1
      have kc : |(c : ℝ)| ≤ 4 := by
        have := abs_of_near hcC (c := 3) (by rw [abs_of_nonneg hC0]; exact hC3)
        norm_num at this ⊢
        linarith
      have k2 := mul_le_mul ed' kc (abs_nonneg _) (by positivity)
      have k3 := mul_le_mul_of_nonneg_left hcC w0.le
      norm_num at k1 k2 k3 ⊢
      linarith
    have f := fl_real (x := (hi ⊟ lo) * c) (k := 4) (M := w) w200 (by norm_num) (by
      push_cast
      have := abs_of_near m (c := 3 * w) (by
        rw [abs_of_nonneg (by positivity)]; exact mul_le_mul_of_nonneg_right hC3 w0.le)
      norm_num at this ⊢
      linarith)
    push_cast at f
    change |(((hi ⊟ lo) ⊠ c : ℚ) : ℝ) - _| ≤ _ at f
    have := abs_sub_le (((hi ⊟ lo) ⊠ c : ℚ) : ℝ) (((hi ⊟ lo : ℚ) : ℝ) * c) (C * w)
    norm_num at f m this ⊢
    linarith
  have p1 := prod (fl (1 / 100)) (1 / 100) (by norm_num) (by norm_num) (ca.trans (by norm_num))
  have p2 := prod (fl (21 / 10) ⊞ fl (1 / 100)) (211 / 100) (by norm_num) (by norm_num) cc
  refine ⟨?_, ?_, w0, ?_⟩
  · exact fl_le h.lo_f64 (sub_le_self _ (fl_nonneg (mul_nonneg d0 a0)))
  · exact le_fl h.hi_f64 (le_add_of_nonneg_right (fl_nonneg (mul_nonneg d0 b0)))
  have g3 : |(hi : ℝ)| ≤ (2 ^ 30 + 1) * w := by
    have : (hi : ℝ) = lo + w := by rw [hw]; ring
    rw [this]
    have := abs_add_le (lo : ℝ) w
    rw [abs_of_pos w0] at this
    linarith
  have f1 := fl_real (x := lo - (hi ⊟ lo) ⊠ fl (1 / 100)) (k := 2 ^ 30 + 3) (M := w) w200 (by positivity) (by
    push_cast
    have k1 := abs_sub (lo : ℝ) (((hi ⊟ lo) ⊠ fl (1 / 100) : ℚ) : ℝ)
    have k2 := abs_of_near p1 (c := w) (by rw [abs_of_pos (by positivity)]; linarith)
    norm_num at k1 k2 g2 ⊢
    linarith)
  have f2 := fl_real (x := hi + (hi ⊟ lo) ⊠ (fl (21 / 10) ⊞ fl (1 / 100))) (k := 2 ^ 30 + 5) (M := w) w200 (by positivity) (by
    push_cast
    have k1 := abs_add_le (hi : ℝ) (((hi ⊟ lo) ⊠ (fl (21 / 10) ⊞ fl (1 / 100)) : ℚ) : ℝ)
    have k2 := abs_of_near p2 (c := 3 * w) (by rw [abs_of_pos (by positivity)]; linarith)
    norm_num at k1 k2 g3 ⊢
    linarith)
  push_cast at f1 f2
  change |((cornerF lo hi : ℚ) : ℝ) - _| ≤ _ at f1
  change |((projectedF lo hi : ℚ) : ℝ) - _| ≤ _ at f2
  rw [abs_le] at f1 f2 p1 p2
  norm_num at f1 f2 p1 p2 ⊢
  refine ⟨?_, ?_, ?_, ?_⟩ <;> linarith

/-- The product of three numbers which are known up to `e`. -/
private theorem prod3 {a b c A B C e : ℝ} (he : e ≤ 1 / 50) (ha : |a - A| ≤ e) (hb : |b - B| ≤ e) (hc : |c - C| ≤ e)
    (hA : |A| ≤ 1) (hB : |B| ≤ 1) (hC : |C| ≤ 1) : |a * (b * c) - A * (B * C)| ≤ 4 * e := by
  have e0 : 0 ≤ e := (abs_nonneg _).trans ha
  have t : a * (b * c) - A * (B * C) = (a - A) * (b * c) + A * ((b - B) * c) + A * (B * (c - C)) := by ring
  rw [t]
  have k1 := abs_add_le ((a - A) * (b * c) + A * ((b - B) * c)) (A * (B * (c - C)))
  have k2 := abs_add_le ((a - A) * (b * c)) (A * ((b - B) * c))
  simp only [abs_mul] at k1 k2
  have b1 := abs_of_near hb hB
  have c1 := abs_of_near hc hC
  have hb2 : |b| ≤ 51 / 50 := by linarith
  have hc2 : |c| ≤ 51 / 50 := by linarith
  have m1 : |a - A| * (|b| * |c|) ≤ e * (51 / 50 * (51 / 50)) :=
    mul_le_mul ha (mul_le_mul hb2 hc2 (abs_nonneg _) (by norm_num)) (by positivity) e0
  have m2 : |A| * (|b - B| * |c|) ≤ 1 * (e * (51 / 50)) :=
    mul_le_mul hA (mul_le_mul hb hc2 (abs_nonneg _) e0) (by positivity) zero_le_one
  have m3 : |A| * (|B| * |c - C|) ≤ 1 * (1 * e) :=
    mul_le_mul hA (mul_le_mul hB hc (abs_nonneg _) zero_le_one) (by positivity) zero_le_one
  linarith

/-- The coordinates of two points differ by at most `e`. -/
def CoordsNear (e : ℝ) (p q : P3 ℝ) : Prop := |p.x - q.x| ≤ e ∧ |p.y - q.y| ≤ e ∧ |p.z - q.z| ≤ e

/-- The volume of a tetrahedron whose vertices are known up to `e`. -/
theorem vol_near {v w : Fin 4 → P3 ℝ} {e : ℝ} (he : e ≤ 1 / 100) (h : ∀ k, CoordsNear e (v k) (w k))
    (hw : ∀ k, CoordsNear 1 (w k) (w 0)) : |vol v - vol w| ≤ 48 * e := by
  have sub : ∀ {a b A B : ℝ}, |a - A| ≤ e → |b - B| ≤ e → |(a - b) - (A - B)| ≤ 2 * e := by
    intro a b A B h1 h2
    have t : (a - b) - (A - B) = (a - A) - (b - B) := by ring
    rw [t]
    have := abs_sub (a - A) (b - B)
    linarith
  have X : ∀ k, |((v k).x - (v 0).x) - ((w k).x - (w 0).x)| ≤ 2 * e := fun k => sub (h k).1 (h 0).1
  have Y : ∀ k, |((v k).y - (v 0).y) - ((w k).y - (w 0).y)| ≤ 2 * e := fun k => sub (h k).2.1 (h 0).2.1
  have Z : ∀ k, |((v k).z - (v 0).z) - ((w k).z - (w 0).z)| ≤ 2 * e := fun k => sub (h k).2.2 (h 0).2.2
  have he2 : 2 * e ≤ 1 / 50 := by linarith
  have q1 := prod3 he2 (X 1) (Y 2) (Z 3) (hw 1).1 (hw 2).2.1 (hw 3).2.2
  have q2 := prod3 he2 (X 1) (Z 2) (Y 3) (hw 1).1 (hw 2).2.2 (hw 3).2.1
  have q3 := prod3 he2 (Y 1) (X 2) (Z 3) (hw 1).2.1 (hw 2).1 (hw 3).2.2
  have q4 := prod3 he2 (Y 1) (Z 2) (X 3) (hw 1).2.1 (hw 2).2.2 (hw 3).1
  have q5 := prod3 he2 (Z 1) (X 2) (Y 3) (hw 1).2.2 (hw 2).1 (hw 3).2.1
  have q6 := prod3 he2 (Z 1) (Y 2) (X 3) (hw 1).2.2 (hw 2).2.1 (hw 3).1
  clear X Y Z h hw
  rw [vol_def, vol_def]
  rw [abs_le] at q1 q2 q3 q4 q5 q6 ⊢
  simp only [mul_sub (_ - _ : ℝ) (_ * _) (_ * _)]
  constructor <;> linarith

end Verif.Rounding
