import Verif.Rounding.AreaProps

/-! # C141: volumes of cells in f64 -/

namespace Verif.Rounding

open Verif.Predicates Verif.Voronoi

theorem abs_le_length3 (v : P3 ℝ) : |v.x| ≤ length3 v ∧ |v.y| ≤ length3 v ∧ |v.z| ≤ length3 v := by
  unfold length3
  refine ⟨?_, ?_, ?_⟩ <;> rw [← Real.sqrt_sq_eq_abs] <;> exact Real.sqrt_le_sqrt (by nlinarith [sq_nonneg v.x, sq_nonneg v.y, sq_nonneg v.z])

/-- **C141.**  The normal of a face is computed for points which are not too near to each other, and all its components have the
precision of `f64`. -/
theorem face_normal_accurate_f64 {p1 p2 : P3 ℚ} (hlo : 1 / 2 ^ 100 ≤ length3 ((real3 p2).sub (real3 p1)))
    (hhi : length3 ((real3 p2).sub (real3 p1)) ≤ 2 ^ 200) :
    ∃ n n', normalF p1 p2 = some n ∧ normalize3 ((real3 p2).sub (real3 p1)) = some n' ∧ CloseTo (10 / 2 ^ 53) n' n ∧
      |n'.x| ≤ 1 ∧ |n'.y| ≤ 1 ∧ |n'.z| ≤ 1 := by
  set l := length3 ((real3 p2).sub (real3 p1)) with hl
  have hl0 : 0 < l := lt_of_lt_of_le (by positivity) hlo
  have hl200 : 1 / 2 ^ 200 ≤ l := le_trans (one_div_le_one_div_of_le (by positivity) (pow_le_pow_right₀ one_le_two (by decide))) hlo
  obtain ⟨sx, sy, sz⟩ := abs_le_length3 ((real3 p2).sub (real3 p1))
  rw [← hl] at sx sy sz
  have dd : ∀ {a b : ℚ}, |(a : ℝ) - b| ≤ l → |((a ⊟ b : ℚ) : ℝ) - ((a : ℝ) - b)| ≤ 1001 / 1000 * (l / 2 ^ 53) := by
    intro a b h
    have := (diff_real (δ := 0) hl200 (by simp : |(a : ℝ) - a| ≤ 0) (by simp : |(b : ℝ) - b| ≤ 0) h).1
    linarith
  have dx := dd sx
  have dy := dd sy
  have dz := dd sz
  have hu : 0 ≤ l / 2 ^ 53 := by positivity
  have hv := length3_close (v := real3 (subF p2 p1)) (w := (real3 p2).sub (real3 p1)) (by positivity : (0 : ℝ) ≤ 1001 / 1000 * (l / 2 ^ 53))
    dx dy dz
  rw [← hl] at hv
  have hk : length3 (real3 (subF p2 p1)) ≤ 1001 / 1000 * l := by
    have := (abs_le.1 hv).2
    norm_num at this ⊢
    linarith
  have hf := length3F_err hk
  have ht : (3 : ℝ) / 2 ^ 500 ≤ 1 / 100 * (l / 2 ^ 53) := by
    have k2 : (1 : ℝ) / 2 ^ 500 = 1 / 2 ^ 200 / 2 ^ 300 := by rw [div_div, ← pow_add]
    have k3 : (1 : ℝ) / 2 ^ 200 / 2 ^ 300 ≤ l / 2 ^ 300 := div_le_div_of_nonneg_right hl200 (by positivity)
    have k5 : l / 2 ^ 300 ≤ l / 2 ^ 100 := div_le_div_of_nonneg_left (by positivity) (by positivity) (pow_le_pow_right₀ one_le_two (by decide))
    have k4 : l / 2 ^ 100 ≤ 1 / 1000 * (l / 2 ^ 53) := by
      norm_num
      linarith
    rw [show (3 : ℝ) / 2 ^ 500 = 3 * (1 / 2 ^ 500) by ring]
    generalize (1 : ℝ) / 2 ^ 500 = τ at *
    linarith
  have hlen : |(length3F (subF p2 p1) : ℝ) - l| ≤ 603 / 100 * (l / 2 ^ 53) := by
    have k := abs_add_le ((length3F (subF p2 p1) : ℝ) - length3 (real3 (subF p2 p1))) (length3 (real3 (subF p2 p1)) - l)
    rw [sub_add_sub_cancel] at k
    have e : 1001 / 1000 * l * (4 / 2 ^ 53) = 4004 / 1000 * (l / 2 ^ 53) := by ring
    rw [e] at hf
    generalize (3 : ℝ) / 2 ^ 500 = τ at *
    linarith
  have hpos : 999 / 1000 * l ≤ (length3F (subF p2 p1) : ℝ) := by
    have := (abs_le.1 hlen).1
    norm_num at this ⊢
    linarith
  have hpos0 : (0 : ℝ) < (length3F (subF p2 p1) : ℝ) := lt_of_lt_of_le (by positivity) hpos
  have hne : length3F (subF p2 p1) ≠ 0 := by
    intro h
    rw [h] at hpos0
    simp at hpos0
  refine ⟨normalizeWith (subF p2 p1) (length3F (subF p2 p1)), ⟨((real3 p2).sub (real3 p1)).x / l, ((real3 p2).sub (real3 p1)).y / l,
    ((real3 p2).sub (real3 p1)).z / l⟩, ?_, ?_, ?_, ?_⟩
  · unfold normalF
    rw [if_neg hne]
  · unfold normalize3
    rw [if_neg hl0.ne']
  · -- the reciprocal
    have hrec : |((1 ⊘ length3F (subF p2 p1) : ℚ) : ℝ) - 1 / l| ≤ 71 / 10 * (1 / l / 2 ^ 53) := by
      generalize length3F (subF p2 p1) = m at *
      have h1 : |1 / (m : ℝ) - 1 / l| ≤ 604 / 100 * (1 / l / 2 ^ 53) := by
        have e : 1 / (m : ℝ) - 1 / l = -(((m : ℝ) - l) / (m * l)) := by
          field_simp
          ring
        rw [e, abs_neg, abs_div, abs_of_pos (mul_pos hpos0 hl0), div_le_iff₀ (mul_pos hpos0 hl0)]
        have e2 : 604 / 100 * (1 / l / 2 ^ 53) * ((m : ℝ) * l) = 604 / 100 * ((m : ℝ) / 2 ^ 53) := by field_simp
        rw [e2]
        have : l / 2 ^ 53 ≤ 10011 / 10000 * ((m : ℝ) / 2 ^ 53) := by
          rw [← mul_div_assoc]
          exact div_le_div_of_nonneg_right (by linarith) (by positivity)
        have h5 : 603 / 100 * (l / 2 ^ 53) ≤ 604 / 100 * ((m : ℝ) / 2 ^ 53) := by
          have k := (abs_le.1 hlen).1
          have : l / 2 ^ 53 ≤ 10001 / 10000 * ((m : ℝ) / 2 ^ 53) := by
            rw [← mul_div_assoc]
            refine div_le_div_of_nonneg_right ?_ (by positivity)
            norm_num at k ⊢
            linarith
          have : 0 ≤ (m : ℝ) / 2 ^ 53 := by positivity
          linarith
        linarith
      have hi0 : 0 ≤ 1 / l / 2 ^ 53 := by positivity
      have hil : 1 / 2 ^ 200 ≤ 1 / l := one_div_le_one_div_of_le hl0 hhi
      have h2 : |((1 / m : ℚ) : ℝ)| ≤ 101 / 100 * (1 / l) := by
        push_cast
        have := abs_of_near h1 (le_of_eq (abs_of_pos (by positivity : (0 : ℝ) < 1 / l)))
        have hil0 : 0 ≤ 1 / l := by positivity
        generalize 1 / l = q at *
        norm_num at this ⊢
        linarith
      have h3 := fl_real hil (by norm_num) h2
      change |((1 ⊘ m : ℚ) : ℝ) - _| ≤ _ at h3
      push_cast at h3
      have k := abs_add_le (((1 ⊘ m : ℚ) : ℝ) - 1 / (m : ℝ)) (1 / (m : ℝ) - 1 / l)
      rw [sub_add_sub_cancel] at k
      linarith
    have hrs : |((1 ⊘ length3F (subF p2 p1) : ℚ) : ℝ)| ≤ 1001 / 1000 * (1 / l) := by
      have := abs_of_near hrec (le_of_eq (abs_of_pos (by positivity : (0 : ℝ) < 1 / l)))
      have hil0 : 0 ≤ 1 / l := by positivity
      generalize 1 / l = q at *
      norm_num at this ⊢
      linarith
    have comp : ∀ {a : ℚ} {A : ℝ}, |A| ≤ l → |(a : ℝ) - A| ≤ 1001 / 1000 * (l / 2 ^ 53) →
        |((a ⊠ (1 ⊘ length3F (subF p2 p1)) : ℚ) : ℝ) - A / l| ≤ 10 / 2 ^ 53 := by
      intro a A hA ha
      generalize 1 ⊘ length3F (subF p2 p1) = q at *
      have h1 : |(a : ℝ) * q - A / l| ≤ 82 / 10 * (1 / 2 ^ 53) := by
        have e : (a : ℝ) * q - A / l = ((a : ℝ) - A) * q + A * ((q : ℝ) - 1 / l) := by ring
        rw [e]
        have k := abs_add_le (((a : ℝ) - A) * q) (A * ((q : ℝ) - 1 / l))
        rw [abs_mul, abs_mul] at k
        have k1 := mul_le_mul ha hrs (abs_nonneg _) (by positivity)
        have k2 := mul_le_mul hA hrec (abs_nonneg _) hl0.le
        have e1 : 1001 / 1000 * (l / 2 ^ 53) * (1001 / 1000 * (1 / l)) = 1002001 / 1000000 * (1 / 2 ^ 53) := by
          field_simp
          norm_num
        have e2 : l * (71 / 10 * (1 / l / 2 ^ 53)) = 71 / 10 * (1 / 2 ^ 53) := by field_simp
        rw [e1] at k1
        rw [e2] at k2
        have : (0 : ℝ) ≤ 1 / 2 ^ 53 := by positivity
        linarith
      have hAl : |A / l| ≤ 1 := by
        rw [abs_div, abs_of_pos hl0]
        exact (div_le_one hl0).2 hA
      have h2 : |((a * q : ℚ) : ℝ)| ≤ 1001 / 1000 * 1 := by
        push_cast
        have := abs_of_near h1 hAl
        norm_num at this ⊢
        linarith
      have h3 := fl_real (M := 1) (by norm_num) (by norm_num) h2
      change |((a ⊠ q : ℚ) : ℝ) - _| ≤ _ at h3
      push_cast at h3
      have k := abs_add_le (((a ⊠ q : ℚ) : ℝ) - (a : ℝ) * q) ((a : ℝ) * q - A / l)
      rw [sub_add_sub_cancel] at k
      norm_num at h1 h3 ⊢
      linarith
    exact ⟨comp sx dx, comp sy dy, comp sz dz⟩
  · have one : ∀ {A : ℝ}, |A| ≤ l → |A / l| ≤ 1 := by
      intro A hA
      rw [abs_div, abs_of_pos hl0]
      exact (div_le_one hl0).2 hA
    exact ⟨one sx, one sy, one sz⟩

/-- The height of a pyramid. -/
theorem height_real {n p r : P3 ℚ} {N R : P3 ℝ} {D δ : ℝ} (hD : 1 / 2 ^ 100 ≤ D) (hn : CloseTo (10 / 2 ^ 53) N n)
    (hN : |N.x| ≤ 1 ∧ |N.y| ≤ 1 ∧ |N.z| ≤ 1) (hr : CloseTo δ R r) (hpr : Within D (real3 p) R) (hpr' : Within D (real3 p) (real3 r)) :
    |abs ((dotF n (subF p r) : ℚ) : ℝ) - abs (dot N ((real3 p).sub R))| ≤ 3 * δ + 45 * (D / 2 ^ 53) ∧
    |((dotF n (subF p r) : ℚ) : ℝ)| ≤ 31 / 10 * D ∧ |dot N ((real3 p).sub R)| ≤ 3 * D := by
  have hD0 : 0 < D := lt_of_lt_of_le (by positivity) hD
  have hD' : 1 / 2 ^ 200 ≤ D := le_trans (one_div_le_one_div_of_le (by positivity) (pow_le_pow_right₀ one_le_two (by decide))) hD
  have hu : 0 ≤ D / 2 ^ 53 := by positivity
  have hδ : 0 ≤ δ := (abs_nonneg _).trans hr.1
  have hsmall : D / 2 ^ 53 ≤ 1 / 10 ^ 12 * D := by norm_num; linarith
  have term : ∀ {a b c : ℚ} {A C : ℝ}, |(a : ℝ) - A| ≤ 10 / 2 ^ 53 → |A| ≤ 1 → |(c : ℝ) - C| ≤ δ → |(b : ℝ) - c| ≤ D → |(b : ℝ) - C| ≤ D →
      |((a ⊠ (b ⊟ c) : ℚ) : ℝ) - A * ((b : ℝ) - C)| ≤ δ + 121 / 10 * (D / 2 ^ 53) ∧ |((a ⊠ (b ⊟ c) : ℚ) : ℝ)| ≤ 1002 / 1000 * D := by
    intro a b c A C ha hA hc hbc hbC
    have e := fl_real (x := b - c) (k := 1) hD' zero_le_one (by push_cast; linarith)
    push_cast at e
    change |((b ⊟ c : ℚ) : ℝ) - ((b : ℝ) - c)| ≤ _ at e
    have hd : |((b ⊟ c : ℚ) : ℝ) - ((b : ℝ) - C)| ≤ δ + 1001 / 1000 * (D / 2 ^ 53) := by
      have t : ((b ⊟ c : ℚ) : ℝ) - ((b : ℝ) - C) = (((b ⊟ c : ℚ) : ℝ) - ((b : ℝ) - c)) + -((c : ℝ) - C) := by ring
      rw [t]
      have := abs_add_le (((b ⊟ c : ℚ) : ℝ) - ((b : ℝ) - c)) (-((c : ℝ) - C))
      rw [abs_neg] at this
      linarith
    have hs : |((b ⊟ c : ℚ) : ℝ)| ≤ 10001 / 10000 * D := by
      have := abs_of_near e hbc
      linarith
    generalize b ⊟ c = d at *
    have ha' : |(a : ℝ)| ≤ 10001 / 10000 := by
      have := abs_of_near ha hA
      norm_num at this ⊢
      linarith
    have hp : |((a * d : ℚ) : ℝ)| ≤ 1001 / 1000 * D := by
      push_cast
      rw [abs_mul]
      have := mul_le_mul ha' hs (abs_nonneg _) (by norm_num)
      linarith
    have e2 := fl_real hD' (by norm_num) hp
    change |((a ⊠ d : ℚ) : ℝ) - _| ≤ _ at e2
    push_cast at e2 hp
    constructor
    · have t : ((a ⊠ d : ℚ) : ℝ) - A * ((b : ℝ) - C) = (((a ⊠ d : ℚ) : ℝ) - (a : ℝ) * d) + (((a : ℝ) - A) * d + A * ((d : ℝ) - ((b : ℝ) - C))) := by ring
      rw [t]
      have k1 := abs_add_le (((a ⊠ d : ℚ) : ℝ) - (a : ℝ) * d) (((a : ℝ) - A) * d + A * ((d : ℝ) - ((b : ℝ) - C)))
      have k2 := abs_add_le (((a : ℝ) - A) * d) (A * ((d : ℝ) - ((b : ℝ) - C)))
      rw [abs_mul, abs_mul] at k2
      have k3 := mul_le_mul ha hs (abs_nonneg _) (by positivity)
      have k4 := mul_le_mul hA hd (abs_nonneg _) zero_le_one
      have e3 : 10 / 2 ^ 53 * (10001 / 10000 * D) = 10001 / 1000 * (D / 2 ^ 53) := by ring
      rw [e3] at k3
      linarith
    · have := abs_of_near e2 hp
      linarith
  obtain ⟨x1, x2⟩ := term hn.1 hN.1 hr.1 hpr'.1 hpr.1
  obtain ⟨y1, y2⟩ := term hn.2.1 hN.2.1 hr.2.1 hpr'.2.1 hpr.2.1
  obtain ⟨z1, z2⟩ := term hn.2.2 hN.2.2 hr.2.2 hpr'.2.2 hpr.2.2
  have hex : |dot N ((real3 p).sub R)| ≤ 3 * D := by
    have t : ∀ {a b : ℝ}, |a| ≤ 1 → |b| ≤ D → |a * b| ≤ D := by
      intro a b ha hb
      rw [abs_mul]
      have := mul_le_mul ha hb (abs_nonneg _) zero_le_one
      linarith
    have k := abs_add_three (N.x * ((real3 p).x - R.x)) (N.y * ((real3 p).y - R.y)) (N.z * ((real3 p).z - R.z))
    have := t hN.1 hpr.1
    have := t hN.2.1 hpr.2.1
    have := t hN.2.2 hpr.2.2
    show |N.x * ((real3 p).x - R.x) + N.y * ((real3 p).y - R.y) + N.z * ((real3 p).z - R.z)| ≤ _
    linarith
  have hdot : |((dotF n (subF p r) : ℚ) : ℝ) - dot N ((real3 p).sub R)| ≤ 3 * δ + 45 * (D / 2 ^ 53) ∧
      |((dotF n (subF p r) : ℚ) : ℝ)| ≤ 31 / 10 * D := by
    show |((n.x ⊠ (p.x ⊟ r.x) ⊞ n.y ⊠ (p.y ⊟ r.y) ⊞ n.z ⊠ (p.z ⊟ r.z) : ℚ) : ℝ)
      - (N.x * ((p.x : ℝ) - R.x) + N.y * ((p.y : ℝ) - R.y) + N.z * ((p.z : ℝ) - R.z))| ≤ _ ∧
      |((n.x ⊠ (p.x ⊟ r.x) ⊞ n.y ⊠ (p.y ⊟ r.y) ⊞ n.z ⊠ (p.z ⊟ r.z) : ℚ) : ℝ)| ≤ _
    generalize n.x ⊠ (p.x ⊟ r.x) = X at *
    generalize n.y ⊠ (p.y ⊟ r.y) = Y at *
    generalize n.z ⊠ (p.z ⊟ r.z) = Z at *
    have s1 : |((X + Y : ℚ) : ℝ)| ≤ 2004 / 1000 * D := by
      push_cast
      have := abs_add_le (X : ℝ) Y
      linarith
    have f1 := fl_real hD' (by norm_num) s1
    change |((X ⊞ Y : ℚ) : ℝ) - _| ≤ _ at f1
    have s1' := abs_of_near f1 s1
    generalize X ⊞ Y = W at *
    have s2 : |((W + Z : ℚ) : ℝ)| ≤ 301 / 100 * D := by
      push_cast
      have := abs_add_le (W : ℝ) Z
      linarith
    have f2 := fl_real hD' (by norm_num) s2
    change |((W ⊞ Z : ℚ) : ℝ) - _| ≤ _ at f2
    have s2' := abs_of_near f2 s2
    push_cast at f1 f2
    constructor
    · have t : ((W ⊞ Z : ℚ) : ℝ) - (N.x * ((p.x : ℝ) - R.x) + N.y * ((p.y : ℝ) - R.y) + N.z * ((p.z : ℝ) - R.z))
          = (((W ⊞ Z : ℚ) : ℝ) - ((W : ℝ) + Z)) + ((W : ℝ) - ((X : ℝ) + Y)) + (((X : ℝ) - N.x * ((p.x : ℝ) - R.x))
            + ((Y : ℝ) - N.y * ((p.y : ℝ) - R.y)) + ((Z : ℝ) - N.z * ((p.z : ℝ) - R.z))) := by ring
      rw [t]
      have k1 := abs_add_three (((W ⊞ Z : ℚ) : ℝ) - ((W : ℝ) + Z)) ((W : ℝ) - ((X : ℝ) + Y)) (((X : ℝ) - N.x * ((p.x : ℝ) - R.x))
            + ((Y : ℝ) - N.y * ((p.y : ℝ) - R.y)) + ((Z : ℝ) - N.z * ((p.z : ℝ) - R.z)))
      have k2 := abs_add_three ((X : ℝ) - N.x * ((p.x : ℝ) - R.x)) ((Y : ℝ) - N.y * ((p.y : ℝ) - R.y)) ((Z : ℝ) - N.z * ((p.z : ℝ) - R.z))
      linarith
    · linarith
  refine ⟨(abs_abs_sub_abs_le _ _).trans hdot.1, hdot.2, hex⟩

/-- The error of the volume of a pyramid. -/
theorem pyramid_real {n p : P3 ℚ} {N : P3 ℝ} {vs : List (P3 ℝ)} {ws : List (P3 ℚ)} {D δ : ℝ} (hD : 1 / 2 ^ 50 ≤ D)
    (hn : CloseTo (10 / 2 ^ 53) N n) (hN : |N.x| ≤ 1 ∧ |N.y| ≤ 1 ∧ |N.z| ≤ 1) (h : PolygonNear D δ vs ws)
    (hv : ∀ v ∈ vs, Within D (real3 p) v) (hw : ∀ w ∈ ws, Within D (real3 p) (real3 w)) (hk : ws.length ≤ 2 ^ 20) :
    ∃ P P', pyramidVolumeF n p ws = some P ∧ pyramidVolume N (real3 p) vs = some P' ∧ IsF64 P ∧ 0 ≤ P ∧
      |(P : ℝ) - P'| ≤ ws.length * (12 * D ^ 2 * δ + (70 + 4 * ws.length) * (D ^ 3 / 2 ^ 53)) ∧ (P : ℝ) ≤ ws.length * (9 / 4 * D ^ 3) := by
  have hD1 : 1 / 2 ^ 100 ≤ D := le_trans (one_div_le_one_div_of_le (by positivity) (pow_le_pow_right₀ one_le_two (by decide))) hD
  have hD0 : 0 < D := lt_of_lt_of_le (by positivity) hD
  obtain ⟨A, A', a1, a2, a3, a4, a5, a6, a7⟩ := area_real hD1 h hk
  obtain ⟨R, r, V, W, rfl, rfl, hf⟩ := h
  have hr : CloseTo δ R r := by
    cases hf with
    | cons h _ => exact h.1
  have hδ : 0 ≤ δ := (abs_nonneg _).trans hr.1
  obtain ⟨h1, h2, h3⟩ := height_real (p := p) hD1 hn hN hr (hv R List.mem_cons_self) (hw r List.mem_cons_self)
  have hlen : (1 : ℝ) ≤ ((r :: W).length : ℝ) := by
    rw [List.length_cons]
    push_cast
    linarith [(Nat.cast_nonneg W.length : (0 : ℝ) ≤ (W.length : ℝ))]
  refine ⟨((1 ⊘ 3) ⊠ A) ⊠ |dotF n (subF p r)|, 1.0 / 3.0 * A' * |dot N ((real3 p).sub R)|, ?_, ?_, isF64_fl _, ?_, ?_⟩
  · unfold pyramidVolumeF
    rw [a1]
    rfl
  · unfold pyramidVolume
    rw [a2]
    rfl
  · refine fl_nonneg (mul_nonneg (fl_nonneg (mul_nonneg (fl_nonneg (by norm_num)) a3)) (abs_nonneg _))
  have hq : ((|dotF n (subF p r)| : ℚ) : ℝ) = (|((dotF n (subF p r) : ℚ) : ℝ)| : ℝ) := by push_cast; rfl
  have hH0 : 0 ≤ |dotF n (subF p r)| := abs_nonneg _
  have hh0 : 0 ≤ |dot N ((real3 p).sub R)| := abs_nonneg _
  rw [← hq] at h1 h2
  generalize |dotF n (subF p r)| = H at *
  generalize |dot N ((real3 p).sub R)| = h at *
  generalize ((r :: W).length : ℝ) = k at *
  have hH0' : (0 : ℝ) ≤ (H : ℝ) := by exact_mod_cast hH0
  have hA0 : (0 : ℝ) ≤ (A : ℝ) := by exact_mod_cast a3
  have hk0 : 0 ≤ k := by linarith
  -- a third
  have h13 : |((1 ⊘ 3 : ℚ) : ℝ) - 1 / 3| ≤ 1 / 2 / 2 ^ 53 := by
    have : |(1 ⊘ 3 : ℚ) - 1 / 3| ≤ 1 / 2 / 2 ^ 53 := by decide +kernel
    have := (Rat.cast_le (K := ℝ)).2 this
    push_cast at this
    exact this
  have hM2 : 1 / 2 ^ 200 ≤ k * D ^ 2 := by
    have : ((1 : ℝ) / 2 ^ 100) ^ 2 ≤ D ^ 2 := pow_le_pow_left₀ (by positivity) hD1 2
    rw [div_pow, one_pow, ← pow_mul] at this
    refine this.trans ?_
    have := mul_le_mul_of_nonneg_right hlen (by positivity : (0 : ℝ) ≤ D ^ 2)
    linarith
  have hM3 : 1 / 2 ^ 200 ≤ k * D ^ 3 := by
    have : ((1 : ℝ) / 2 ^ 50) ^ 3 ≤ D ^ 3 := pow_le_pow_left₀ (by positivity) hD 3
    rw [div_pow, one_pow, ← pow_mul] at this
    have h150 : (1 : ℝ) / 2 ^ 200 ≤ 1 / 2 ^ (50 * 3) := one_div_le_one_div_of_le (by positivity) (pow_le_pow_right₀ one_le_two (by decide))
    refine h150.trans (this.trans ?_)
    have := mul_le_mul_of_nonneg_right hlen (by positivity : (0 : ℝ) ≤ D ^ 3)
    linarith
  have hkD2 : 0 ≤ k * D ^ 2 := by positivity
  have hkD3 : 0 ≤ k * D ^ 3 := by positivity
  -- the first product
  have p1 : |((1 ⊘ 3 * A : ℚ) : ℝ) - 1 / 3 * (A : ℝ)| ≤ 105 / 100 * (k * D ^ 2 / 2 ^ 53) := by
    push_cast
    rw [← sub_mul, abs_mul, abs_of_nonneg hA0]
    have := mul_le_mul h13 a7 hA0 (by positivity)
    have e : 1 / 2 / 2 ^ 53 * (k * (21 / 10 * D ^ 2)) = 105 / 100 * (k * D ^ 2 / 2 ^ 53) := by ring
    linarith
  have hA3 : |1 / 3 * (A : ℝ)| ≤ 7 / 10 * (k * D ^ 2) := by
    rw [abs_of_nonneg (by linarith)]
    linarith
  have hs2 : k * D ^ 2 / 2 ^ 53 ≤ 1 / 10 ^ 12 * (k * D ^ 2) := by
    generalize k * D ^ 2 = q at *
    norm_num
    linarith
  have hs3 : k * D ^ 3 / 2 ^ 53 ≤ 1 / 10 ^ 12 * (k * D ^ 3) := by
    generalize k * D ^ 3 = q at *
    norm_num
    linarith
  have p2 : |((1 ⊘ 3 * A : ℚ) : ℝ)| ≤ 701 / 1000 * (k * D ^ 2) := by
    have := abs_of_near p1 hA3
    linarith
  have p3 := fl_real hM2 (by norm_num) p2
  change |(((1 ⊘ 3) ⊠ A : ℚ) : ℝ) - _| ≤ _ at p3
  have p4 : |(((1 ⊘ 3) ⊠ A : ℚ) : ℝ) - 1 / 3 * (A : ℝ)| ≤ 176 / 100 * (k * D ^ 2 / 2 ^ 53) := by
    have t := abs_add_le ((((1 ⊘ 3) ⊠ A : ℚ) : ℝ) - ((1 ⊘ 3 * A : ℚ) : ℝ)) (((1 ⊘ 3 * A : ℚ) : ℝ) - 1 / 3 * (A : ℝ))
    rw [sub_add_sub_cancel] at t
    have : 0 ≤ k * D ^ 2 / 2 ^ 53 := by positivity
    linarith
  have p5 : |(((1 ⊘ 3) ⊠ A : ℚ) : ℝ)| ≤ 702 / 1000 * (k * D ^ 2) := by
    have := abs_of_near p4 hA3
    linarith
  generalize (1 ⊘ 3) ⊠ A = B at *
  have q1 : |((B * H : ℚ) : ℝ)| ≤ 218 / 100 * (k * D ^ 3) := by
    push_cast
    rw [abs_mul, abs_of_nonneg hH0']
    have := mul_le_mul p5 h2 hH0' (by positivity)
    have e : 702 / 1000 * (k * D ^ 2) * (31 / 10 * D) = 21762 / 10000 * (k * D ^ 3) := by ring
    linarith
  have q2 := fl_real hM3 (by norm_num) q1
  change |((B ⊠ H : ℚ) : ℝ) - _| ≤ _ at q2
  push_cast at q2 q1
  have hu3 : 0 ≤ k * D ^ 3 / 2 ^ 53 := by positivity
  constructor
  · -- the error
    have t : ((B ⊠ H : ℚ) : ℝ) - 1.0 / 3.0 * A' * h = (((B ⊠ H : ℚ) : ℝ) - (B : ℝ) * H) + (((B : ℝ) - 1 / 3 * (A : ℝ)) * H
        + 1 / 3 * (((A : ℝ) - A') * H) + 1 / 3 * (A' * ((H : ℝ) - h))) := by
      norm_num
      ring
    rw [t]
    have k1 := abs_add_le (((B ⊠ H : ℚ) : ℝ) - (B : ℝ) * H) (((B : ℝ) - 1 / 3 * (A : ℝ)) * H
        + 1 / 3 * (((A : ℝ) - A') * H) + 1 / 3 * (A' * ((H : ℝ) - h)))
    have k2 := abs_add_three (((B : ℝ) - 1 / 3 * (A : ℝ)) * H) (1 / 3 * (((A : ℝ) - A') * H)) (1 / 3 * (A' * ((H : ℝ) - h)))
    rw [abs_mul, abs_mul (1 / 3 : ℝ), abs_mul (1 / 3 : ℝ), abs_mul ((A : ℝ) - A'), abs_mul A', abs_of_nonneg hH0', abs_of_nonneg a4,
      abs_of_nonneg (by norm_num : (0 : ℝ) ≤ 1 / 3)] at k2
    have m1 := mul_le_mul p4 h2 hH0' (by positivity)
    have m2 := mul_le_mul a5 h2 hH0' (by positivity)
    have m3 := mul_le_mul a6 h1 (abs_nonneg _) (by positivity)
    have e1 : 176 / 100 * (k * D ^ 2 / 2 ^ 53) * (31 / 10 * D) = 5456 / 1000 * (k * D ^ 3 / 2 ^ 53) := by ring
    have e2 : k * (9 * D * δ + (20 + 3 * k) * (D ^ 2 / 2 ^ 53)) * (31 / 10 * D)
        = 279 / 10 * (k * D ^ 2 * δ) + 62 * (k * D ^ 3 / 2 ^ 53) + 93 / 10 * (k * (k * D ^ 3 / 2 ^ 53)) := by ring
    have e3 : k * (2 * D ^ 2) * (3 * δ + 45 * (D / 2 ^ 53)) = 6 * (k * D ^ 2 * δ) + 90 * (k * D ^ 3 / 2 ^ 53) := by ring
    have e4 : k * (12 * D ^ 2 * δ + (70 + 4 * k) * (D ^ 3 / 2 ^ 53))
        = 12 * (k * D ^ 2 * δ) + 70 * (k * D ^ 3 / 2 ^ 53) + 4 * (k * (k * D ^ 3 / 2 ^ 53)) := by ring
    rw [e1] at m1
    rw [e2] at m2
    rw [e3] at m3
    rw [e4]
    have z1 : 0 ≤ k * D ^ 2 * δ := by positivity
    have z2 : 0 ≤ k * (k * D ^ 3 / 2 ^ 53) := by positivity
    linarith
  · have := (abs_le.1 q2).2
    have := (abs_le.1 q1).2
    linarith

end Verif.Rounding
