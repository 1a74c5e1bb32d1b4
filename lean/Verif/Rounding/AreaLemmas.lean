import Verif.Rounding.AreaModel
import Verif.Rounding.SearchAccuracyProps
import Verif.Rounding.SeriesProps
import Verif.Voronoi.PolygonLemmas

/-! # C141: lemmas -/

namespace Verif.Rounding

open Verif.Predicates Verif.Voronoi

/-- Rounding a number of size `k * M`. -/
theorem fl_real {x : ℚ} {k M : ℝ} (hM : 1 / 2 ^ 200 ≤ M) (hk : 0 ≤ k) (h : |(x : ℝ)| ≤ k * M) :
    |(fl x : ℝ) - (x : ℝ)| ≤ (k + 1 / 1000) * (M / 2 ^ 53) := by
  have e := fl_abs_err_real x
  have hM0 : 0 < M := lt_of_lt_of_le (by positivity) hM
  have t : (1 : ℝ) / 2 ^ 1074 ≤ 1 / 1000 * (M / 2 ^ 53) := by
    have k1 : (1 : ℝ) / 2 ^ 1074 ≤ 1 / 2 ^ 300 := one_div_le_one_div_of_le (by positivity) (pow_le_pow_right₀ one_le_two (by decide))
    have k2 : (1 : ℝ) / 2 ^ 300 = 1 / 2 ^ 200 / 2 ^ 100 := by rw [div_div, ← pow_add]
    have k3 : (1 : ℝ) / 2 ^ 200 / 2 ^ 100 ≤ M / 2 ^ 100 := div_le_div_of_nonneg_right hM (by positivity)
    have k4 : M / 2 ^ 100 ≤ 1 / 1000 * (M / 2 ^ 53) := by
      norm_num
      linarith
    exact k1.trans (k2.le.trans (k3.trans k4))
  have s : |(x : ℝ)| / 2 ^ 53 ≤ k * (M / 2 ^ 53) := by
    have := div_le_div_of_nonneg_right h (show (0 : ℝ) ≤ 2 ^ 53 by positivity)
    rwa [mul_div_assoc] at this
  generalize (1 : ℝ) / 2 ^ 1074 = η at *
  linarith

theorem abs_of_near {a b e c : ℝ} (h : |a - b| ≤ e) (hb : |b| ≤ c) : |a| ≤ c + e := by
  have := abs_add_le (a - b) b
  rw [sub_add_cancel] at this
  linarith

/-- One component of a difference: the exact coordinates are known up to `δ`. -/
theorem diff_real {a b : ℚ} {A B δ D : ℝ} (hD : 1 / 2 ^ 200 ≤ D) (ha : |(a : ℝ) - A| ≤ δ) (hb : |(b : ℝ) - B| ≤ δ)
    (hab : |(a : ℝ) - b| ≤ D) :
    |((a ⊟ b : ℚ) : ℝ) - (A - B)| ≤ 2 * δ + 1001 / 1000 * (D / 2 ^ 53) ∧ |((a ⊟ b : ℚ) : ℝ)| ≤ 1001 / 1000 * D := by
  have hD0 : 0 < D := lt_of_lt_of_le (by positivity) hD
  have e := fl_real (x := a - b) (k := 1) hD zero_le_one (by push_cast; linarith)
  push_cast at e
  change |((a ⊟ b : ℚ) : ℝ) - ((a : ℝ) - b)| ≤ _ at e
  constructor
  · have t : ((a ⊟ b : ℚ) : ℝ) - (A - B) = (((a ⊟ b : ℚ) : ℝ) - ((a : ℝ) - b)) + (((a : ℝ) - A) - ((b : ℝ) - B)) := by ring
    rw [t]
    have := abs_add_le (((a ⊟ b : ℚ) : ℝ) - ((a : ℝ) - b)) (((a : ℝ) - A) - ((b : ℝ) - B))
    have := abs_sub ((a : ℝ) - A) ((b : ℝ) - B)
    linarith
  · have := abs_of_near e hab
    norm_num at this ⊢
    linarith

/-- One component of the cross product. -/
theorem cross_real {a b c d : ℚ} {A B C E ε D : ℝ} (hD : 1 / 2 ^ 100 ≤ D)
    (ha : |(a : ℝ) - A| ≤ ε) (hb : |(b : ℝ) - B| ≤ ε) (hc : |(c : ℝ) - C| ≤ ε) (hd : |(d : ℝ) - E| ≤ ε)
    (sa : |(a : ℝ)| ≤ 1001 / 1000 * D) (sb : |(b : ℝ)| ≤ 1001 / 1000 * D) (sc : |(c : ℝ)| ≤ 1001 / 1000 * D)
    (sd : |(d : ℝ)| ≤ 1001 / 1000 * D) (tA : |A| ≤ D) (tC : |C| ≤ D) :
    |((a ⊠ b ⊟ c ⊠ d : ℚ) : ℝ) - (A * B - C * E)| ≤ 402 / 100 * D * ε + 41 / 10 * (D ^ 2 / 2 ^ 53) ∧
    |((a ⊠ b ⊟ c ⊠ d : ℚ) : ℝ)| ≤ 201 / 100 * D ^ 2 := by
  have hD0 : 0 < D := lt_of_lt_of_le (by positivity) hD
  have hM : 1 / 2 ^ 200 ≤ D ^ 2 := by
    have : ((1 : ℝ) / 2 ^ 100) ^ 2 ≤ D ^ 2 := pow_le_pow_left₀ (by positivity) hD 2
    rwa [div_pow, one_pow, ← pow_mul] at this
  have prod : ∀ {a b : ℚ} {A B : ℝ}, |(a : ℝ) - A| ≤ ε → |(b : ℝ) - B| ≤ ε → |(b : ℝ)| ≤ 1001 / 1000 * D → |A| ≤ D →
      |(a : ℝ)| ≤ 1001 / 1000 * D → |((a ⊠ b : ℚ) : ℝ) - A * B| ≤ 201 / 100 * D * ε + 1004 / 1000 * (D ^ 2 / 2 ^ 53) ∧
        |((a ⊠ b : ℚ) : ℝ)| ≤ 1003 / 1000 * D ^ 2 := by
    intro a b A B ha hb sb tA sa
    have hp : |(a : ℝ) * b| ≤ 1002001 / 1000000 * D ^ 2 := by
      rw [abs_mul]
      have := mul_le_mul sa sb (abs_nonneg _) (by positivity)
      have e : 1001 / 1000 * D * (1001 / 1000 * D) = 1002001 / 1000000 * D ^ 2 := by ring
      linarith
    have e := fl_real (x := a * b) hM (by norm_num : (0 : ℝ) ≤ 1002001 / 1000000) (by push_cast; exact hp)
    push_cast at e
    change |((a ⊠ b : ℚ) : ℝ) - (a : ℝ) * b| ≤ _ at e
    have h0 : 0 ≤ D ^ 2 / 2 ^ 53 := by positivity
    constructor
    · have t : ((a ⊠ b : ℚ) : ℝ) - A * B = (((a ⊠ b : ℚ) : ℝ) - (a : ℝ) * b) + (((a : ℝ) - A) * b + A * ((b : ℝ) - B)) := by ring
      rw [t]
      have k1 := abs_add_le (((a ⊠ b : ℚ) : ℝ) - (a : ℝ) * b) (((a : ℝ) - A) * b + A * ((b : ℝ) - B))
      have k2 := abs_add_le (((a : ℝ) - A) * b) (A * ((b : ℝ) - B))
      rw [abs_mul, abs_mul] at k2
      have k3 := mul_le_mul ha sb (abs_nonneg _) ((abs_nonneg _).trans ha)
      have k4 := mul_le_mul tA hb (abs_nonneg _) hD0.le
      have hε : 0 ≤ D * ε := mul_nonneg hD0.le ((abs_nonneg _).trans ha)
      have e1 : ε * (1001 / 1000 * D) = 1001 / 1000 * (D * ε) := by ring
      have e2 : 201 / 100 * D * ε = 201 / 100 * (D * ε) := by ring
      rw [e2]
      rw [e1] at k3
      linarith
    · have := abs_of_near e hp
      have : D ^ 2 / 2 ^ 53 ≤ 1 / 10000 * D ^ 2 := by
        have : 0 ≤ D ^ 2 := by positivity
        generalize D ^ 2 = q at *
        norm_num
        linarith
      have : 0 ≤ D ^ 2 := by positivity
      linarith
  obtain ⟨p1, q1⟩ := prod ha hb sb tA sa
  obtain ⟨p2, q2⟩ := prod hc hd sd tC sc
  generalize a ⊠ b = v at *
  generalize c ⊠ d = w at *
  have hs : |(v : ℝ) - w| ≤ 2006 / 1000 * D ^ 2 := by
    have := abs_sub (v : ℝ) w
    linarith
  have e := fl_real (x := v - w) hM (by norm_num : (0 : ℝ) ≤ 2006 / 1000) (by push_cast; exact hs)
  push_cast at e
  change |((v ⊟ w : ℚ) : ℝ) - ((v : ℝ) - w)| ≤ _ at e
  have h0 : 0 ≤ D ^ 2 / 2 ^ 53 := by positivity
  constructor
  · have t : ((v ⊟ w : ℚ) : ℝ) - (A * B - C * E) = (((v ⊟ w : ℚ) : ℝ) - ((v : ℝ) - w)) + (((v : ℝ) - A * B) - ((w : ℝ) - C * E)) := by ring
    rw [t]
    have k1 := abs_add_le (((v ⊟ w : ℚ) : ℝ) - ((v : ℝ) - w)) (((v : ℝ) - A * B) - ((w : ℝ) - C * E))
    have k2 := abs_sub ((v : ℝ) - A * B) ((w : ℝ) - C * E)
    have e2 : 402 / 100 * D * ε = 201 / 100 * D * ε + 201 / 100 * D * ε := by ring
    rw [e2]
    linarith
  · have := abs_of_near e hs
    have : D ^ 2 / 2 ^ 53 ≤ 1 / 10000 * D ^ 2 := by
      have : 0 ≤ D ^ 2 := by positivity
      generalize D ^ 2 = q at *
      norm_num
      linarith
    have : 0 ≤ D ^ 2 := by positivity
    linarith

/-- The computed point `w` is near the exact point `v`. -/
def CloseTo (δ : ℝ) (v : P3 ℝ) (w : P3 ℚ) : Prop := |(w.x : ℝ) - v.x| ≤ δ ∧ |(w.y : ℝ) - v.y| ≤ δ ∧ |(w.z : ℝ) - v.z| ≤ δ

/-- Two points are not farther apart than `D` in any coordinate. -/
def Within (D : ℝ) (v w : P3 ℝ) : Prop := |v.x - w.x| ≤ D ∧ |v.y - w.y| ≤ D ∧ |v.z - w.z| ≤ D

/-- The same numbers as real numbers. -/
def real3 (p : P3 ℚ) : P3 ℝ := ⟨p.x, p.y, p.z⟩

theorem length3_eq (v : P3 ℝ) : length3 v = Geometry.length ![v.x, v.y, v.z] := by
  unfold length3 Geometry.length
  rw [Fin.sum_univ_three]
  simp only [Matrix.cons_val]
  congr 1
  ring

theorem length3_close {v w : P3 ℝ} {e : ℝ} (he : 0 ≤ e) (hx : |v.x - w.x| ≤ e) (hy : |v.y - w.y| ≤ e) (hz : |v.z - w.z| ≤ e) :
    |length3 v - length3 w| ≤ 2 * e := by
  rw [length3_eq, length3_eq, abs_le]
  have one : ∀ {a b : ℝ}, |a - b| ≤ e → |a| ≤ |b| + e ∧ |b| ≤ |a| + e := by
    intro a b h
    have h1 := abs_sub_abs_le_abs_sub a b
    have h2 := abs_sub_abs_le_abs_sub b a
    rw [abs_sub_comm] at h2
    exact ⟨by linarith, by linarith⟩
  constructor
  · have := length_close (a := ![w.x, w.y, w.z]) (b := ![v.x, v.y, v.z]) he (fun i => by
      fin_cases i
      · exact (one hx).2
      · exact (one hy).2
      · exact (one hz).2)
    linarith
  · have := length_close (a := ![v.x, v.y, v.z]) (b := ![w.x, w.y, w.z]) he (fun i => by
      fin_cases i
      · exact (one hx).1
      · exact (one hy).1
      · exact (one hz).1)
    linarith

theorem length3_zero : length3 ⟨0, 0, 0⟩ = 0 := by
  unfold length3
  simp

theorem length3_le {v : P3 ℝ} {e : ℝ} (he : 0 ≤ e) (hx : |v.x| ≤ e) (hy : |v.y| ≤ e) (hz : |v.z| ≤ e) : length3 v ≤ 2 * e := by
  have h := (abs_le.1 (length3_close (v := v) (w := ⟨0, 0, 0⟩) he (by simpa using hx) (by simpa using hy) (by simpa using hz))).2
  rw [length3_zero] at h
  linarith

theorem length3F_eq (v : P3 ℚ) : length3F v = lengthF ![v.x, v.y, v.z] := rfl

theorem length3F_err {v : P3 ℚ} {K : ℝ} (hK : length3 (real3 v) ≤ K) :
    |(length3F v : ℝ) - length3 (real3 v)| ≤ K * (4 / 2 ^ 53) + 3 / 2 ^ 500 := by
  have e : length3 (real3 v) = Geometry.length (fun i => ((![v.x, v.y, v.z] : Fin 3 → ℚ) i : ℝ)) := by
    rw [length3_eq]
    congr 1
    funext i
    fin_cases i <;> rfl
  rw [e] at hK ⊢
  rw [length3F_eq]
  exact lengthF_err _ hK

theorem length3F_nonneg (v : P3 ℚ) : 0 ≤ length3F v := by
  have h : 0 ≤ dotF v v := fadd_nonneg (fadd_nonneg (fl_sq_nonneg _) (fl_sq_nonneg _)) (fl_sq_nonneg _)
  obtain ⟨lo, hi, h1, h2, h3, h4, h5, h6⟩ := sqrtF_spec h
  unfold length3F
  rw [← h5]
  exact fl_nonneg h1

/-- The area of one triangle. -/
theorem triangle_real {r p q : P3 ℚ} {R P Q : P3 ℝ} {δ D : ℝ} (hD : 1 / 2 ^ 100 ≤ D)
    (hr : CloseTo δ R r) (hp : CloseTo δ P p) (hq : CloseTo δ Q q)
    (erp : Within D R P) (erq : Within D R Q) (frp : Within D (real3 r) (real3 p)) (frq : Within D (real3 r) (real3 q)) :
    |(((1 / 2) ⊠ length3F (crossF (subF r p) (subF r q)) : ℚ) : ℝ) - 0.5 * length3 (cross (R.sub P) (R.sub Q))|
      ≤ 9 * D * δ + 20 * (D ^ 2 / 2 ^ 53) ∧
    0.5 * length3 (cross (R.sub P) (R.sub Q)) ≤ 2 * D ^ 2 ∧
    (((1 / 2) ⊠ length3F (crossF (subF r p) (subF r q)) : ℚ) : ℝ) ≤ 203 / 100 * D ^ 2 := by
  have hD0 : 0 < D := lt_of_lt_of_le (by positivity) hD
  have hD' : 1 / 2 ^ 200 ≤ D := le_trans (one_div_le_one_div_of_le (by positivity) (pow_le_pow_right₀ one_le_two (by decide))) hD
  have hM : 1 / 2 ^ 200 ≤ D ^ 2 := by
    have : ((1 : ℝ) / 2 ^ 100) ^ 2 ≤ D ^ 2 := pow_le_pow_left₀ (by positivity) hD 2
    rwa [div_pow, one_pow, ← pow_mul] at this
  have hδ : 0 ≤ δ := (abs_nonneg _).trans hr.1
  obtain ⟨ax, ax'⟩ := diff_real hD' hr.1 hp.1 frp.1
  obtain ⟨ay, ay'⟩ := diff_real hD' hr.2.1 hp.2.1 frp.2.1
  obtain ⟨az, az'⟩ := diff_real hD' hr.2.2 hp.2.2 frp.2.2
  obtain ⟨bx, bx'⟩ := diff_real hD' hr.1 hq.1 frq.1
  obtain ⟨bY, bY'⟩ := diff_real hD' hr.2.1 hq.2.1 frq.2.1
  obtain ⟨bz, bz'⟩ := diff_real hD' hr.2.2 hq.2.2 frq.2.2
  obtain ⟨cx, cx'⟩ := cross_real hD ay bz bY az ay' bz' bY' az' erp.2.1 erq.2.1
  obtain ⟨cy, cy'⟩ := cross_real hD az bx bz ax az' bx' bz' ax' erp.2.2 erq.2.2
  obtain ⟨cz, cz'⟩ := cross_real hD ax bY bx ay ax' bY' bx' ay' erp.1 erq.1
  have h0 : 0 ≤ D ^ 2 / 2 ^ 53 := by positivity
  have hDδ : 0 ≤ D * δ := by positivity
  set ε := 2 * δ + 1001 / 1000 * (D / 2 ^ 53) with hε
  have he : 402 / 100 * D * ε + 41 / 10 * (D ^ 2 / 2 ^ 53) = 804 / 100 * (D * δ) + (41 / 10 + 402 / 100 * (1001 / 1000)) * (D ^ 2 / 2 ^ 53) := by
    rw [hε]; ring
  rw [he] at cx cy cz
  have he0 : 0 ≤ 804 / 100 * (D * δ) + (41 / 10 + 402 / 100 * (1001 / 1000)) * (D ^ 2 / 2 ^ 53) := by positivity
  have hl := length3_close (v := real3 (crossF (subF r p) (subF r q))) (w := cross (R.sub P) (R.sub Q)) he0 cx cy cz
  have hk := length3_le (v := real3 (crossF (subF r p) (subF r q))) (by positivity : (0 : ℝ) ≤ 201 / 100 * D ^ 2) cx' cy' cz'
  have hf := length3F_err hk
  have hx : length3 (cross (R.sub P) (R.sub Q)) ≤ 4 * D ^ 2 := by
    have comp : ∀ {a b c d : ℝ}, |a| ≤ D → |b| ≤ D → |c| ≤ D → |d| ≤ D → |a * b - c * d| ≤ 2 * D ^ 2 := by
      intro a b c d ha hb hc hd
      have k := abs_sub (a * b) (c * d)
      rw [abs_mul, abs_mul] at k
      have := mul_le_mul ha hb (abs_nonneg _) hD0.le
      have := mul_le_mul hc hd (abs_nonneg _) hD0.le
      linarith
    have := length3_le (v := cross (R.sub P) (R.sub Q)) (by positivity : (0 : ℝ) ≤ 2 * D ^ 2)
      (comp erp.2.1 erq.2.2 erq.2.1 erp.2.2) (comp erp.2.2 erq.1 erq.2.2 erp.1) (comp erp.1 erq.2.1 erq.1 erp.2.1)
    linarith
  have ht : (3 : ℝ) / 2 ^ 500 ≤ 1 / 100 * (D ^ 2 / 2 ^ 53) := by
    have k2 : (1 : ℝ) / 2 ^ 500 = 1 / 2 ^ 200 / 2 ^ 300 := by rw [div_div, ← pow_add]
    have k3 : (1 : ℝ) / 2 ^ 200 / 2 ^ 300 ≤ D ^ 2 / 2 ^ 300 := div_le_div_of_nonneg_right hM (by positivity)
    have k5 : D ^ 2 / 2 ^ 300 ≤ D ^ 2 / 2 ^ 100 := div_le_div_of_nonneg_left (by positivity) (by positivity) (pow_le_pow_right₀ one_le_two (by decide))
    have k4 : D ^ 2 / 2 ^ 100 ≤ 1 / 1000 * (D ^ 2 / 2 ^ 53) := by
      have : 0 ≤ D ^ 2 := by positivity
      generalize D ^ 2 = q at *
      norm_num
      linarith
    rw [show (3 : ℝ) / 2 ^ 500 = 3 * (1 / 2 ^ 500) by ring]
    generalize (1 : ℝ) / 2 ^ 500 = τ at *
    linarith
  have hn := length3F_nonneg (crossF (subF r p) (subF r q))
  have hn' : (0 : ℝ) ≤ (length3F (crossF (subF r p) (subF r q)) : ℝ) := by exact_mod_cast hn
  have hL : (length3F (crossF (subF r p) (subF r q)) : ℝ) ≤ 403 / 100 * D ^ 2 := by
    have := (abs_le.1 hf).2
    have : D ^ 2 / 2 ^ 53 ≤ 1 / 10000 * D ^ 2 := by
      have : 0 ≤ D ^ 2 := by positivity
      generalize D ^ 2 = q at *
      norm_num
      linarith
    have e : 2 * (201 / 100 * D ^ 2) * (4 / 2 ^ 53) = 1608 / 100 * (D ^ 2 / 2 ^ 53) := by ring
    rw [e] at *
    generalize (3 : ℝ) / 2 ^ 500 = τ at *
    linarith
  generalize length3 (real3 (crossF (subF r p) (subF r q))) = V at *
  generalize length3 (cross (R.sub P) (R.sub Q)) = W at *
  generalize length3F (crossF (subF r p) (subF r q)) = L at *
  have hh : |((1 / 2 * L : ℚ) : ℝ)| ≤ 202 / 100 * D ^ 2 := by
    push_cast
    rw [abs_of_nonneg (by linarith)]
    linarith
  have e := fl_real (x := 1 / 2 * L) hM (by norm_num : (0 : ℝ) ≤ 202 / 100) hh
  change |(((1 / 2) ⊠ L : ℚ) : ℝ) - _| ≤ _ at e
  push_cast at e
  refine ⟨?_, ?_, ?_⟩
  · have t : (((1 / 2) ⊠ L : ℚ) : ℝ) - 0.5 * W = ((((1 / 2) ⊠ L : ℚ) : ℝ) - 1 / 2 * (L : ℝ)) + (1 / 2 * ((L : ℝ) - V) + 1 / 2 * (V - W)) := by
      norm_num
      ring
    rw [t]
    have k1 := abs_add_le ((((1 / 2) ⊠ L : ℚ) : ℝ) - 1 / 2 * (L : ℝ)) (1 / 2 * ((L : ℝ) - V) + 1 / 2 * (V - W))
    have k2 := abs_add_le (1 / 2 * ((L : ℝ) - V)) (1 / 2 * (V - W))
    rw [abs_mul, abs_mul, abs_of_nonneg (by norm_num : (0 : ℝ) ≤ 1 / 2)] at k2
    have e : 2 * (201 / 100 * D ^ 2) * (4 / 2 ^ 53) = 1608 / 100 * (D ^ 2 / 2 ^ 53) := by ring
    rw [e] at hf
    have e2 : 9 * D * δ = 9 * (D * δ) := by ring
    rw [e2]
    generalize (3 : ℝ) / 2 ^ 500 = τ at *
    linarith
  · norm_num
    linarith
  · have e1 := (abs_le.1 e).2
    have : D ^ 2 / 2 ^ 53 ≤ 1 / 10000 * D ^ 2 := by
      have : 0 ≤ D ^ 2 := by positivity
      generalize D ^ 2 = q at *
      norm_num
      linarith
    linarith

end Verif.Rounding
