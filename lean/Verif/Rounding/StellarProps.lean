import Verif.Rounding.StellarModel
import Verif.Rounding.ChemLemmas
import Verif.Rounding.SearchLemmas
import Verif.Rounding.SolverError
import Verif.Bpass.Props

/-!
# C137: photon rates of stellar populations in `f64`
-/

namespace Verif.Rounding

open Verif.Bpass (Search SearchContract getIndex clamp before ValidBins ValidTable getIndex_spec scan scan_contract)

/-! ### Interpolation -/

/-- a difference of two `f64` is computed with a relative error of half a unit in the last place, however small it is -/
theorem fsub_rel {a b : ℚ} (ha : IsF64 a) (hb : IsF64 b) : |a ⊟ b - (a - b)| ≤ |a - b| / 2 ^ 53 := by
  unfold fsub
  by_cases h : (2 : ℚ) ^ (-1022 : ℤ) ≤ |a - b|
  · have := fl_rel h
    rw [u_eq] at this
    unfold u at this
    calc _ ≤ _ := this
      _ = _ := by ring
  · rw [Grid.fl_self ((Chem.grid_of_f64 ha).sub (Chem.grid_of_f64 hb)) le_rfl, sub_self, abs_zero]
    · positivity
    · exact lt_trans (not_le.1 h) (zpow_lt_zpow_right₀ one_lt_two (by decide))

/-- the weight of the second value -/
theorem weight_bounds {x1 x2 x : ℚ} (h1 : IsF64 x1) (h2 : IsF64 x2) (h : IsF64 x) (hx1 : x1 ≤ x) (hx2 : x ≤ x2) (hlt : x1 < x2) :
    0 ≤ (x ⊟ x1) ⊘ (x2 ⊟ x1) ∧ (x ⊟ x1) ⊘ (x2 ⊟ x1) ≤ 1 ∧
    |(x ⊟ x1) ⊘ (x2 ⊟ x1) - (x - x1) / (x2 - x1)| ≤ 26 / 10 / 2 ^ 53 := by
  have hw : 0 < x2 - x1 := by linarith
  have e1 := abs_le.1 (fsub_rel h h1)
  have e2 := abs_le.1 (fsub_rel h2 h1)
  rw [abs_of_nonneg (by linarith : 0 ≤ x - x1)] at e1
  rw [abs_of_pos hw] at e2
  have hpq : x ⊟ x1 ≤ x2 ⊟ x1 := fl_mono (by linarith)
  have hp : 0 ≤ x ⊟ x1 := fl_nonneg (by linarith)
  generalize x ⊟ x1 = p at *
  generalize x2 ⊟ x1 = q at *
  have hq : 0 < q := by linarith
  have h0 : 0 ≤ p / q := div_nonneg hp hq.le
  have h1' : p / q ≤ 1 := (div_le_one hq).2 hpq
  have hr : |fl (p / q) - p / q| ≤ (2 : ℚ) ^ ((0 : ℤ) - 54) := fl_err (by rw [abs_of_nonneg h0]; simpa using h1') (by norm_num)
  have hd : |p / q - (x - x1) / (x2 - x1)| ≤ 205 / 100 / 2 ^ 53 := by
    rw [div_sub_div _ _ hq.ne' hw.ne', abs_div, abs_of_pos (mul_pos hq hw), div_le_iff₀ (mul_pos hq hw)]
    have hb : p * (x2 - x1) - q * (x - x1) = (p - (x - x1)) * (x2 - x1) - (q - (x2 - x1)) * (x - x1) := by ring
    have hq' : (x2 - x1) * (99 / 100) ≤ q := by linarith
    rw [hb]
    have b1 : |(p - (x - x1)) * (x2 - x1)| ≤ (x - x1) / 2 ^ 53 * (x2 - x1) := by
      rw [abs_mul, abs_of_pos hw]
      exact mul_le_mul_of_nonneg_right (abs_le.2 e1) hw.le
    have b2 : |(q - (x2 - x1)) * (x - x1)| ≤ (x2 - x1) / 2 ^ 53 * (x - x1) := by
      rw [abs_mul, abs_of_nonneg (by linarith : 0 ≤ x - x1)]
      exact mul_le_mul_of_nonneg_right (abs_le.2 e2) (by linarith)
    have b3 : (x - x1) * (x2 - x1) ≤ (x2 - x1) * (x2 - x1) := mul_le_mul_of_nonneg_right (by linarith) hw.le
    have b4 : (x2 - x1) * (99 / 100) * (x2 - x1) ≤ q * (x2 - x1) := mul_le_mul_of_nonneg_right hq' hw.le
    have tri := abs_sub ((p - (x - x1)) * (x2 - x1)) ((q - (x2 - x1)) * (x - x1))
    have : (x - x1) / 2 ^ 53 * (x2 - x1) + (x2 - x1) / 2 ^ 53 * (x - x1) ≤ 205 / 100 / 2 ^ 53 * (q * (x2 - x1)) := by
      have e : (x - x1) / 2 ^ 53 * (x2 - x1) + (x2 - x1) / 2 ^ 53 * (x - x1) = 2 / 2 ^ 53 * ((x - x1) * (x2 - x1)) := by ring
      rw [e]
      linarith [mul_self_nonneg (x2 - x1)]
    linarith
  refine ⟨fl_nonneg h0, fl_le isF64_one h1', ?_⟩
  have hr' : |fl (p / q) - p / q| ≤ 1 / 2 / 2 ^ 53 := by
    refine hr.trans (le_of_eq ?_)
    norm_num
  have := abs_add_le (fl (p / q) - p / q) (p / q - (x - x1) / (x2 - x1))
  rw [sub_add_sub_cancel] at this
  change |fl (p / q) - _| ≤ _
  linarith

/-- the interpolated value is not negative -/
theorem interpolate_nonneg {x1 x2 x y1 y2 : ℚ} (h1 : IsF64 x1) (h2 : IsF64 x2) (h : IsF64 x) (hx1 : x1 ≤ x) (hx2 : x ≤ x2)
    (hlt : x1 < x2) (g1 : IsF64 y1) (hy1 : 0 ≤ y1) (hy2 : 0 ≤ y2) : 0 ≤ interpolateF x1 x2 y1 y2 x := by
  obtain ⟨t0, t1, _⟩ := weight_bounds h1 h2 h hx1 hx2 hlt
  unfold interpolateF
  generalize (x ⊟ x1) ⊘ (x2 ⊟ x1) = t at *
  refine fl_nonneg ?_
  have hd : -y1 ≤ y2 ⊟ y1 := by
    have hneg : IsF64 (-y1) := by
      change fl (-y1) = -y1
      rw [fl_neg, g1]
    exact le_fl hneg (by linarith)
  have hd64 : IsF64 (y2 ⊟ y1) := isF64_fl _
  generalize y2 ⊟ y1 = d at *
  rcases le_total 0 d with hd0 | hd0
  · have : 0 ≤ t ⊠ d := fl_nonneg (mul_nonneg t0 hd0)
    linarith
  · have : d ≤ t ⊠ d := le_fl hd64 (by nlinarith)
    linarith

/-- the interpolated value is right up to six units of roundoff of the larger value -/
theorem interpolate_error {x1 x2 x y1 y2 M : ℚ} (h1 : IsF64 x1) (h2 : IsF64 x2) (h : IsF64 x) (hx1 : x1 ≤ x) (hx2 : x ≤ x2)
    (hlt : x1 < x2) (hM : 1 / 2 ^ 200 ≤ M) (hy1 : 0 ≤ y1) (hy1M : y1 ≤ M) (hy2 : 0 ≤ y2) (hy2M : y2 ≤ M) :
    |interpolateF x1 x2 y1 y2 x - (y1 + (x - x1) / (x2 - x1) * (y2 - y1))| ≤ 6 * (M / 2 ^ 53) := by
  obtain ⟨t0, t1, te⟩ := weight_bounds h1 h2 h hx1 hx2 hlt
  have hw : 0 < x2 - x1 := by linarith
  have s0 : 0 ≤ (x - x1) / (x2 - x1) := div_nonneg (by linarith) hw.le
  have s1 : (x - x1) / (x2 - x1) ≤ 1 := (div_le_one hw).2 (by linarith)
  have hM0 : 0 < M := lt_of_lt_of_le (by positivity) hM
  unfold interpolateF
  generalize (x ⊟ x1) ⊘ (x2 ⊟ x1) = t at *
  generalize (x - x1) / (x2 - x1) = s at *
  have hdy : |y2 - y1| ≤ M := abs_le.2 ⟨by linarith, by linarith⟩
  have ed := fl_err_M hM (x := y2 - y1) (k := 1) (by linarith)
  change |y2 ⊟ y1 - (y2 - y1)| ≤ _ at ed
  generalize y2 ⊟ y1 = d at *
  obtain ⟨e, he⟩ : ∃ e, e = M / 2 ^ 53 := ⟨_, rfl⟩
  have eM : M = 2 ^ 53 * e := by rw [he]; field_simp
  have e0 : 0 < e := he ▸ by positivity
  rw [← he] at ed ⊢
  have hd : |d| ≤ 101 / 100 * M := by
    have := abs_add_le (d - (y2 - y1)) (y2 - y1)
    rw [sub_add_cancel] at this
    linarith
  have htd : |t * d| ≤ 101 / 100 * M := by
    rw [abs_mul, abs_of_nonneg t0]
    calc t * |d| ≤ 1 * |d| := mul_le_mul_of_nonneg_right t1 (abs_nonneg _)
      _ ≤ _ := by rw [one_mul]; exact hd
  have em := fl_err_M hM htd
  rw [← he] at em
  change |t ⊠ d - t * d| ≤ _ at em
  generalize t ⊠ d = m at *
  -- the parts of the error before the last operation
  have p1 : |(t - s) * (y2 - y1)| ≤ 26 / 10 * e := by
    rw [abs_mul]
    calc |t - s| * |y2 - y1| ≤ 26 / 10 / 2 ^ 53 * M := mul_le_mul te hdy (abs_nonneg _) (by positivity)
      _ = 26 / 10 * e := by rw [eM]; ring
  have p2 : |t * (d - (y2 - y1))| ≤ (1 + 1 / 64) * e := by
    rw [abs_mul, abs_of_nonneg t0]
    calc t * |d - (y2 - y1)| ≤ 1 * |d - (y2 - y1)| := mul_le_mul_of_nonneg_right t1 (abs_nonneg _)
      _ ≤ _ := by rw [one_mul]; exact ed
  have q : m - s * (y2 - y1) = (m - t * d) + (t * (d - (y2 - y1)) + (t - s) * (y2 - y1)) := by ring
  have hq : |m - s * (y2 - y1)| ≤ 48 / 10 * e := by
    rw [q]
    have a1 := abs_add_le (m - t * d) (t * (d - (y2 - y1)) + (t - s) * (y2 - y1))
    have a2 := abs_add_le (t * (d - (y2 - y1))) ((t - s) * (y2 - y1))
    linarith
  have v0 : 0 ≤ y1 + s * (y2 - y1) := by nlinarith
  have v1 : y1 + s * (y2 - y1) ≤ M := by nlinarith
  have hq' := abs_le.1 hq
  have er := fl_err_M hM (x := y1 + m) (k := 101 / 100) (abs_le.2 ⟨by linarith, by linarith⟩)
  rw [← he] at er
  have er' := abs_le.1 er
  change |fl (y1 + m) - _| ≤ _
  exact abs_le.2 ⟨by linarith, by linarith⟩

/-! ### Specification -/

/-- Bins as they should be: `f64`, sorted, positive, and wide compared to the safety factor. -/
structure ValidBinsF (bins : List ℚ) (first last : ℚ) : Prop where
  f64 : ∀ b ∈ bins, IsF64 b
  sorted : bins.Pairwise (· < ·)
  head : bins.head? = some first
  getLast : bins.getLast? = some last
  pos : 0 < first
  low : first < first ⊠ safetyF
  wide : first * 1.00001 ≤ last / 1.00001
  wideF : first ⊠ safetyF ≤ last ⊘ safetyF
  high : last ⊘ safetyF < last

/-- The value of the table at ages and metallicities outside: that just inside of it. -/
def insideF (first last value : ℚ) : ℚ := max (first ⊠ safetyF) (min (last ⊘ safetyF) value)

/-- The bilinear interpolation of four values. -/
def bilinear (s t t11 t12 t21 t22 : ℚ) : ℚ := (1 - s) * (1 - t) * t11 + (1 - s) * t * t12 + s * (1 - t) * t21 + s * t * t22

theorem bilinear_range {s t t11 t12 t21 t22 M : ℚ} (s0 : 0 ≤ s) (s1 : s ≤ 1) (t0 : 0 ≤ t) (t1 : t ≤ 1)
    (h11 : 0 ≤ t11 ∧ t11 ≤ M) (h12 : 0 ≤ t12 ∧ t12 ≤ M) (h21 : 0 ≤ t21 ∧ t21 ≤ M) (h22 : 0 ≤ t22 ∧ t22 ≤ M) :
    (0 ≤ t11 + s * (t21 - t11) ∧ t11 + s * (t21 - t11) ≤ M) ∧ (0 ≤ t12 + s * (t22 - t12) ∧ t12 + s * (t22 - t12) ≤ M) ∧
    bilinear s t t11 t12 t21 t22 = (1 - t) * (t11 + s * (t21 - t11)) + t * (t12 + s * (t22 - t12)) := by
  have mix : ∀ a b : ℚ, 0 ≤ a ∧ a ≤ M → 0 ≤ b ∧ b ≤ M → 0 ≤ a + s * (b - a) ∧ a + s * (b - a) ≤ M := by
    intro a b ha hb
    have e : a + s * (b - a) = (1 - s) * a + s * b := by ring
    rw [e]
    have k1 := mul_le_mul_of_nonneg_left ha.2 (by linarith : 0 ≤ 1 - s)
    have k2 := mul_le_mul_of_nonneg_left hb.2 s0
    exact ⟨add_nonneg (mul_nonneg (by linarith) ha.1) (mul_nonneg s0 hb.1), by linarith⟩
  exact ⟨mix _ _ h11 h21, mix _ _ h12 h22, by unfold bilinear; ring⟩

/-- the errors of the interpolations between the ages and between the metallicities, and of the product -/
theorem rate_error {M e t p1 p2 l1 l2 l mass B : ℚ} (hM : M = 2 ^ 53 * e) (e0 : 0 < e) (t0 : 0 ≤ t) (t1 : t ≤ 1)
    (hp1 : 0 ≤ p1 ∧ p1 ≤ M) (hp2 : 0 ≤ p2 ∧ p2 ≤ M) (E1 : |l1 - p1| ≤ 6 * e) (E2 : |l2 - p2| ≤ 6 * e)
    (E3 : |l - (l1 + t * (l2 - l1))| ≤ 61 / 10 * e) (hl : 0 ≤ l) (hmass : 0 ≤ mass) (hB : B = (1 - t) * p1 + t * p2) :
    |l ⊠ mass - mass * B| ≤ 15 / 2 ^ 53 * (mass * M) + 1 / 2 ^ 1074 := by
  have t1' : 0 ≤ 1 - t := by linarith
  have hlin : |l - B| ≤ 13 * e := by
    have q1 : (l1 + t * (l2 - l1)) - B = (1 - t) * (l1 - p1) + t * (l2 - p2) := by
      rw [hB]
      ring
    have q2 : |(1 - t) * (l1 - p1) + t * (l2 - p2)| ≤ 6 * e := by
      refine (abs_add_le _ _).trans ?_
      rw [abs_mul, abs_mul, abs_of_nonneg t0, abs_of_nonneg t1']
      calc _ ≤ (1 - t) * (6 * e) + t * (6 * e) :=
            add_le_add (mul_le_mul_of_nonneg_left E1 t1') (mul_le_mul_of_nonneg_left E2 t0)
        _ = 6 * e := by ring
    rw [← q1] at q2
    have := abs_add_le (l - (l1 + t * (l2 - l1))) ((l1 + t * (l2 - l1)) - B)
    rw [sub_add_sub_cancel] at this
    linarith
  have hB1 : B ≤ M := by
    rw [hB]
    have k1 := mul_le_mul_of_nonneg_left hp1.2 t1'
    have k2 := mul_le_mul_of_nonneg_left hp2.2 t0
    linarith
  have hfin := fl_abs_err (l * mass)
  rw [abs_of_nonneg (mul_nonneg hl hmass)] at hfin
  generalize (1 : ℚ) / 2 ^ 1074 = η at *
  have hl13 : l ≤ M + 13 * e := by linarith [(abs_le.1 hlin).2]
  have k1 : |(l - B) * mass| ≤ 13 * e * mass := by
    rw [abs_mul, abs_of_nonneg hmass]
    exact mul_le_mul_of_nonneg_right hlin hmass
  have k3 : l / 2 ^ 53 ≤ 2 * e := by
    rw [div_le_iff₀ (by positivity)]
    linarith
  have k2 : l * mass / 2 ^ 53 ≤ 2 * e * mass := by
    rw [mul_div_right_comm]
    exact mul_le_mul_of_nonneg_right k3 hmass
  have k5 : 15 / 2 ^ 53 * (mass * M) = 15 * e * mass := by
    rw [hM]
    ring
  rw [k5]
  have tri := abs_add_le (fl (l * mass) - l * mass) ((l - B) * mass)
  have q : fl (l * mass) - l * mass + (l - B) * mass = l ⊠ mass - mass * B := by
    change _ = fl (l * mass) - _
    ring
  rw [q] at tri
  linarith

theorem clampF_eq {bins : List ℚ} {first last : ℚ} (hb : ValidBinsF bins first last) (value : ℚ) :
    clampToBinsF bins (some value) = some (some (insideF first last value)) := by
  unfold clampToBinsF
  rw [hb.head, hb.getLast]
  change clamp (some value) (first ⊠ safetyF) (last ⊘ safetyF) = _
  unfold clamp insideF
  have hw := hb.wideF
  rw [if_pos hw]
  generalize first ⊠ safetyF = lo at *
  generalize last ⊘ safetyF = hi at *
  simp only [Option.map_some, Option.some.injEq]
  split_ifs with h1 h2
  · rw [min_eq_right (h1.le.trans hw), max_eq_left h1.le]
  · rw [min_eq_left h2.le, max_eq_right hw]
  · rw [min_eq_right (not_lt.1 h2), max_eq_right (not_lt.1 h1)]

theorem insideF_range {bins : List ℚ} {first last : ℚ} (hb : ValidBinsF bins first last) (value : ℚ) :
    first < insideF first last value ∧ insideF first last value < last :=
  ⟨lt_of_lt_of_le hb.low (le_max_left _ _),
    max_lt (lt_of_le_of_lt hb.wideF hb.high) (lt_of_le_of_lt (min_le_left _ _) hb.high)⟩

theorem insideF_f64 {first last value : ℚ} (h : IsF64 value) : IsF64 (insideF first last value) := by
  unfold insideF
  rcases max_choice (first ⊠ safetyF) (min (last ⊘ safetyF) value) with e | e <;> rw [e]
  · exact isF64_fl _
  · rcases min_choice (last ⊘ safetyF) value with e | e <;> rw [e]
    · exact isF64_fl _
    · exact h

theorem lookupF_eq (search : Search ℚ) (hs : SearchContract search) {ages metallicities : List ℚ}
    {table : List (List ℚ)} {a0 aN z0 zN : ℚ} (ha : ValidBinsF ages a0 aN) (hz : ValidBinsF metallicities z0 zN)
    (ht : ValidTable ages metallicities table) (age metallicity mass : ℚ) :
    ∃ (i j : ℕ) (row1 row2 : List ℚ) (a1 a2 z1 z2 t11 t12 t21 t22 : ℚ),
      ages[i]? = some a1 ∧ ages[i + 1]? = some a2 ∧ a1 ≤ insideF a0 aN age ∧ insideF a0 aN age < a2 ∧
      metallicities[j]? = some z1 ∧ metallicities[j + 1]? = some z2 ∧ z1 ≤ insideF z0 zN metallicity ∧
      insideF z0 zN metallicity < z2 ∧
      table[i]? = some row1 ∧ table[i + 1]? = some row2 ∧
      row1[j]? = some t11 ∧ row1[j + 1]? = some t12 ∧ row2[j]? = some t21 ∧ row2[j + 1]? = some t22 ∧
      bpassLookupF search ages metallicities table (some age) (some metallicity) mass = some
        (interpolateF z1 z2 (interpolateF a1 a2 t11 t21 (insideF a0 aN age)) (interpolateF a1 a2 t12 t22 (insideF a0 aN age))
          (insideF z0 zN metallicity) ⊠ mass) := by
  obtain ⟨i, a1, a2, hi, ha1, ha2, hl1, hl2⟩ := getIndex_spec search hs ages a0 aN (insideF a0 aN age)
    ⟨ha.sorted, ha.head, ha.getLast, ha.pos, ha.wide⟩ (insideF_range ha age).1 (insideF_range ha age).2
  obtain ⟨j, z1, z2, hj, hz1, hz2, hm1, hm2⟩ := getIndex_spec search hs metallicities z0 zN (insideF z0 zN metallicity)
    ⟨hz.sorted, hz.head, hz.getLast, hz.pos, hz.wide⟩ (insideF_range hz metallicity).1 (insideF_range hz metallicity).2
  have hil : i + 1 < ages.length := (List.getElem?_eq_some_iff.1 ha2).1
  have hjl : j + 1 < metallicities.length := (List.getElem?_eq_some_iff.1 hz2).1
  have hi1 : i < table.length := by rw [ht.rows]; omega
  have hi2 : i + 1 < table.length := by rw [ht.rows]; omega
  have hc1 := ht.columns table[i] (List.getElem_mem hi1)
  have hc2 := ht.columns table[i + 1] (List.getElem_mem hi2)
  refine ⟨i, j, table[i], table[i + 1], a1, a2, z1, z2, (table[i])[j]'(by omega), (table[i])[j + 1]'(by omega),
    (table[i + 1])[j]'(by omega), (table[i + 1])[j + 1]'(by omega),
    ha1, ha2, hl1, hl2, hz1, hz2, hm1, hm2, List.getElem?_eq_getElem hi1, List.getElem?_eq_getElem hi2,
    List.getElem?_eq_getElem _, List.getElem?_eq_getElem _, List.getElem?_eq_getElem _,
    List.getElem?_eq_getElem _, ?_⟩
  unfold bpassLookupF
  rw [clampF_eq ha, clampF_eq hz]
  dsimp only [bind, Option.bind_some]
  rw [hi, hj]
  unfold before
  rw [if_neg (Nat.succ_ne_zero i), Nat.add_sub_cancel, ha1, ha2, if_neg (Nat.succ_ne_zero i),
    Nat.add_sub_cancel, List.getElem?_eq_getElem hi1, List.getElem?_eq_getElem hi2]
  dsimp only [Option.bind_some]
  simp only [if_neg (Nat.succ_ne_zero j), Nat.add_sub_cancel]
  rw [hz1, hz2,
    List.getElem?_eq_getElem (show j < (table[i]).length by omega),
    List.getElem?_eq_getElem (show j < (table[i + 1]).length by omega),
    List.getElem?_eq_getElem (show j + 1 < (table[i]).length by omega),
    List.getElem?_eq_getElem (show j + 1 < (table[i + 1]).length by omega)]
  rfl

/-! ### The lookup -/

/-- **C137 (lookup).** For every age, metallicity and mass the lookup stays inside the tables. The rate is not negative, and it is
mass times the bilinear interpolation of the four table entries around the point (moved just inside the table if it lies outside), up
to 15 units of roundoff of mass times the largest of the four entries. -/
theorem lookup_f64 (search : Search ℚ) (hs : SearchContract search) {ages metallicities : List ℚ}
    {table : List (List ℚ)} {a0 aN z0 zN : ℚ} (ha : ValidBinsF ages a0 aN) (hz : ValidBinsF metallicities z0 zN)
    (ht : ValidTable ages metallicities table) (hpos : ∀ row ∈ table, ∀ x ∈ row, IsF64 x ∧ 1 / 2 ^ 200 ≤ x)
    {age metallicity mass : ℚ} (hage : IsF64 age) (hmet : IsF64 metallicity) (hmass : 0 ≤ mass) :
    ∃ (i j : ℕ) (row1 row2 : List ℚ) (a1 a2 z1 z2 t11 t12 t21 t22 s t r : ℚ),
      ages[i]? = some a1 ∧ ages[i + 1]? = some a2 ∧ a1 ≤ insideF a0 aN age ∧ insideF a0 aN age < a2 ∧
      metallicities[j]? = some z1 ∧ metallicities[j + 1]? = some z2 ∧ z1 ≤ insideF z0 zN metallicity ∧
      insideF z0 zN metallicity < z2 ∧
      table[i]? = some row1 ∧ table[i + 1]? = some row2 ∧
      row1[j]? = some t11 ∧ row1[j + 1]? = some t12 ∧ row2[j]? = some t21 ∧ row2[j + 1]? = some t22 ∧
      s * (a2 - a1) = insideF a0 aN age - a1 ∧ 0 ≤ s ∧ s < 1 ∧
      t * (z2 - z1) = insideF z0 zN metallicity - z1 ∧ 0 ≤ t ∧ t < 1 ∧
      bpassLookupF search ages metallicities table (some age) (some metallicity) mass = some r ∧ 0 ≤ r ∧
      |r - mass * bilinear s t t11 t12 t21 t22| ≤ 15 / 2 ^ 53 * (mass * max (max t11 t12) (max t21 t22)) + 1 / 2 ^ 1074 := by
  obtain ⟨i, j, row1, row2, a1, a2, z1, z2, t11, t12, t21, t22, ha1, ha2, hl1, hl2, hz1, hz2, hm1, hm2, hr1, hr2, h11, h12, h21,
    h22, hl⟩ := lookupF_eq search hs ha hz ht age metallicity mass
  have hA := insideF_f64 (first := a0) (last := aN) hage
  have hZ := insideF_f64 (first := z0) (last := zN) hmet
  have fa1 := ha.f64 a1 (List.mem_of_getElem? ha1)
  have fa2 := ha.f64 a2 (List.mem_of_getElem? ha2)
  have fz1 := hz.f64 z1 (List.mem_of_getElem? hz1)
  have fz2 := hz.f64 z2 (List.mem_of_getElem? hz2)
  obtain ⟨f11, p11⟩ := hpos row1 (List.mem_of_getElem? hr1) t11 (List.mem_of_getElem? h11)
  obtain ⟨f12, p12⟩ := hpos row1 (List.mem_of_getElem? hr1) t12 (List.mem_of_getElem? h12)
  obtain ⟨f21, p21⟩ := hpos row2 (List.mem_of_getElem? hr2) t21 (List.mem_of_getElem? h21)
  obtain ⟨f22, p22⟩ := hpos row2 (List.mem_of_getElem? hr2) t22 (List.mem_of_getElem? h22)
  have w1 : 0 < a2 - a1 := by linarith
  have w2 : 0 < z2 - z1 := by linarith
  obtain ⟨M, hM⟩ : ∃ M, M = max (max t11 t12) (max t21 t22) := ⟨_, rfl⟩
  have m11 : t11 ≤ M := hM ▸ (le_max_left _ _).trans (le_max_left _ _)
  have m12 : t12 ≤ M := hM ▸ (le_max_right _ _).trans (le_max_left _ _)
  have m21 : t21 ≤ M := hM ▸ (le_max_left _ _).trans (le_max_right _ _)
  have m22 : t22 ≤ M := hM ▸ (le_max_right _ _).trans (le_max_right _ _)
  have hp : (0 : ℚ) < 1 / 2 ^ 200 := by positivity
  have hM0 : 1 / 2 ^ 200 ≤ M := p11.trans m11
  have hMp : 0 < M := hp.trans_le hM0
  have E1 := interpolate_error fa1 fa2 hA hl1 hl2.le (by linarith) hM0 (by linarith) m11 (by linarith) m21
  have E2 := interpolate_error fa1 fa2 hA hl1 hl2.le (by linarith) hM0 (by linarith) m12 (by linarith) m22
  have N1 := interpolate_nonneg fa1 fa2 hA hl1 hl2.le (by linarith) f11 (by linarith) (by linarith : 0 ≤ t21)
  have N2 := interpolate_nonneg fa1 fa2 hA hl1 hl2.le (by linarith) f12 (by linarith) (by linarith : 0 ≤ t22)
  have F1 : IsF64 (interpolateF a1 a2 t11 t21 (insideF a0 aN age)) := isF64_fl _
  have s0 : 0 ≤ (insideF a0 aN age - a1) / (a2 - a1) := div_nonneg (by linarith) w1.le
  have s1 : (insideF a0 aN age - a1) / (a2 - a1) < 1 := by rw [div_lt_one w1]; linarith
  have u0 : 0 ≤ (insideF z0 zN metallicity - z1) / (z2 - z1) := div_nonneg (by linarith) w2.le
  have u1 : (insideF z0 zN metallicity - z1) / (z2 - z1) < 1 := by rw [div_lt_one w2]; linarith
  refine ⟨i, j, row1, row2, a1, a2, z1, z2, t11, t12, t21, t22, (insideF a0 aN age - a1) / (a2 - a1),
    (insideF z0 zN metallicity - z1) / (z2 - z1), _, ha1, ha2, hl1, hl2, hz1, hz2, hm1, hm2, hr1, hr2, h11, h12, h21, h22,
    div_mul_cancel₀ _ w1.ne', s0, s1, div_mul_cancel₀ _ w2.ne', u0, u1, hl, ?_, ?_⟩
  · exact fl_nonneg (mul_nonneg (interpolate_nonneg fz1 fz2 hZ hm1 hm2.le (by linarith) F1 N1 N2) hmass)
  rw [← hM]
  generalize interpolateF a1 a2 t11 t21 (insideF a0 aN age) = l1 at *
  generalize interpolateF a1 a2 t12 t22 (insideF a0 aN age) = l2 at *
  generalize (insideF a0 aN age - a1) / (a2 - a1) = s at *
  obtain ⟨e, he⟩ : ∃ e, e = M / 2 ^ 53 := ⟨_, rfl⟩
  have eM : M = 2 ^ 53 * e := by rw [he]; field_simp
  have e0 : 0 < e := he ▸ by positivity
  rw [← he] at E1 E2
  obtain ⟨v1, v2, hb⟩ := bilinear_range s0 s1.le u0 u1.le ⟨by linarith, m11⟩ ⟨by linarith, m12⟩ ⟨by linarith, m21⟩ ⟨by linarith, m22⟩
  have e50 : M * (1 + 1 / 2 ^ 50) = M + 8 * e := by
    rw [eM]
    ring
  have E3 := interpolate_error (M := M * (1 + 1 / 2 ^ 50)) fz1 fz2 hZ hm1 hm2.le (by linarith) (by rw [e50]; linarith) N1
    (by rw [e50]; linarith [(abs_le.1 E1).2, v1.2]) N2 (by rw [e50]; linarith [(abs_le.1 E2).2, v2.2])
  have e3 : 6 * (M * (1 + 1 / 2 ^ 50) / 2 ^ 53) ≤ 61 / 10 * e := by
    rw [e50, mul_div_assoc', div_le_iff₀ (by positivity), eM]
    linarith
  exact rate_error eM e0 u0 u1.le v1 v2 E1 E2 (E3.trans e3) (interpolate_nonneg fz1 fz2 hZ hm1 hm2.le (by linarith) F1 N1 N2) hmass hb

/-- **C137 (table points).** At an age and a metallicity which are bins, not the outermost ones, the lookup returns the product of
the table entry and the mass, rounded once. -/
theorem lookup_points_f64 (search : Search ℚ) (hs : SearchContract search) {ages metallicities : List ℚ}
    {table : List (List ℚ)} {a0 aN z0 zN : ℚ} (ha : ValidBinsF ages a0 aN) (hz : ValidBinsF metallicities z0 zN)
    (ht : ValidTable ages metallicities table) (hf : ∀ row ∈ table, ∀ x ∈ row, IsF64 x)
    {k l : ℕ} {age metallicity mass : ℚ} {row : List ℚ} {x : ℚ}
    (hk : ages[k]? = some age) (hk' : a0 ⊠ safetyF ≤ age ∧ age ≤ aN ⊘ safetyF)
    (hl : metallicities[l]? = some metallicity) (hl' : z0 ⊠ safetyF ≤ metallicity ∧ metallicity ≤ zN ⊘ safetyF)
    (hrow : table[k]? = some row) (hx : row[l]? = some x) :
    bpassLookupF search ages metallicities table (some age) (some metallicity) mass = some (x ⊠ mass) := by
  obtain ⟨i, j, row1, row2, a1, a2, z1, z2, t11, t12, t21, t22, ha1, ha2, hl1, hl2, hz1, hz2, hm1, hm2, hr1, hr2, h11, h12, h21,
    h22, hlk⟩ := lookupF_eq search hs ha hz ht age metallicity mass
  have eA : insideF a0 aN age = age := by
    unfold insideF
    rw [min_eq_right hk'.2, max_eq_right hk'.1]
  have eZ : insideF z0 zN metallicity = metallicity := by
    unfold insideF
    rw [min_eq_right hl'.2, max_eq_right hl'.1]
  rw [eA] at hl1 hl2 hlk
  rw [eZ] at hm1 hm2 hlk
  have pick : ∀ (bins : List ℚ) (first last v lo hi : ℚ) (n i : ℕ), ValidBinsF bins first last → bins[n]? = some v →
      bins[i]? = some lo → bins[i + 1]? = some hi → lo ≤ v → v < hi → n = i := by
    intro bins first last v lo hi n i hb hn hi1 hi2 h1 h2
    obtain ⟨hn', rfl⟩ := List.getElem?_eq_some_iff.1 hn
    obtain ⟨hi1', rfl⟩ := List.getElem?_eq_some_iff.1 hi1
    obtain ⟨hi2', rfl⟩ := List.getElem?_eq_some_iff.1 hi2
    have hm := List.pairwise_iff_getElem.1 hb.sorted
    rcases lt_trichotomy n i with h | h | h
    · exact absurd (hm n i hn' hi1' h) (not_lt.2 h1)
    · exact h
    · rcases Nat.lt_or_ge (i + 1) n with h' | h'
      · exact absurd (hm (i + 1) n hi2' hn' h') (not_lt.2 h2.le)
      · obtain rfl : n = i + 1 := by omega
        exact absurd h2 (lt_irrefl _)
  obtain rfl := pick _ _ _ _ _ _ _ _ ha hk ha1 ha2 hl1 hl2
  obtain rfl := pick _ _ _ _ _ _ _ _ hz hl hz1 hz2 hm1 hm2
  obtain rfl : age = a1 := Option.some.inj (hk.symm.trans ha1)
  obtain rfl : metallicity = z1 := Option.some.inj (hl.symm.trans hz1)
  obtain rfl : row = row1 := Option.some.inj (hrow.symm.trans hr1)
  obtain rfl : x = t11 := Option.some.inj (hx.symm.trans h11)
  have start : ∀ a b y1 y2 : ℚ, IsF64 y1 → interpolateF a b y1 y2 a = y1 := by
    intro a b y1 y2 h
    unfold interpolateF fsub fdiv fmul fadd
    rw [sub_self, fl_zero, zero_div, fl_zero, zero_mul, fl_zero, add_zero, h]
  have fx := hf row (List.mem_of_getElem? hrow) x (List.mem_of_getElem? hx)
  rw [hlk, start _ _ _ _ fx, start _ _ _ _ fx]

/-! ### The tables of the code -/

theorem ageBins_f64 : ValidBinsF (Bpass.ageBins.map fl) 1000000 100000000000 where
  f64 := by
    intro b hb
    obtain ⟨_, _, rfl⟩ := List.mem_map.1 hb
    exact isF64_fl _
  sorted := by decide +kernel
  head := by decide +kernel
  getLast := by decide +kernel
  pos := by norm_num
  low := by decide +kernel
  wide := by norm_num
  wideF := by decide +kernel
  high := by decide +kernel

theorem metallicityBins_f64 : ValidBinsF (Bpass.metallicityBins.map fl) (fl (1 / 100000)) (fl (4 / 100)) where
  f64 := by
    intro b hb
    obtain ⟨_, _, rfl⟩ := List.mem_map.1 hb
    exact isF64_fl _
  sorted := by decide +kernel
  head := by decide +kernel
  getLast := by decide +kernel
  pos := by decide +kernel
  low := by decide +kernel
  wide := by decide +kernel
  wideF := by decide +kernel
  high := by decide +kernel

theorem table_f64 : ValidTable (Bpass.ageBins.map fl) (Bpass.metallicityBins.map fl) (Bpass.table.map (List.map fl)) := by
  constructor
  · rw [List.length_map, List.length_map]
    decide +kernel
  · intro row hrow
    rw [List.mem_map] at hrow
    obtain ⟨row', hrow', rfl⟩ := hrow
    rw [List.length_map, List.length_map]
    have : ∀ row ∈ Bpass.table, row.length = Bpass.metallicityBins.length := by decide +kernel
    exact this row' hrow'

theorem table_entries : ∀ row ∈ Bpass.table.map (List.map fl), ∀ x ∈ row, IsF64 x ∧ 18 * 10 ^ 29 ≤ x ∧ x ≤ 65 * 10 ^ 45 := by
  intro row hrow x hx
  have h : ∀ row ∈ Bpass.table.map (List.map fl), ∀ x ∈ row, (18 * 10 ^ 29 : ℚ) ≤ x ∧ x ≤ 65 * 10 ^ 45 := by decide +kernel
  refine ⟨?_, h row hrow x hx⟩
  obtain ⟨row', _, rfl⟩ := List.mem_map.1 hrow
  obtain ⟨_, _, rfl⟩ := List.mem_map.1 hx
  exact isF64_fl _

/-- an entry of the table of the code -/
def entry (i j : ℕ) : ℚ := (((Bpass.table.map (List.map fl))[i]?.getD [])[j]?).getD 0

theorem entry_of {i j : ℕ} {row : List ℚ} {x : ℚ} (h : (Bpass.table.map (List.map fl))[i]? = some row) (h' : row[j]? = some x) :
    entry i j = x := by
  unfold entry
  rw [h, Option.getD_some, h', Option.getD_some]

/-- neighbouring entries differ by less than a factor of `2^38` -/
theorem entries_close : ∀ i < 50, ∀ j < 12, ∀ a ∈ [entry i j, entry i (j + 1), entry (i + 1) j, entry (i + 1) (j + 1)],
    ∀ b ∈ [entry i j, entry i (j + 1), entry (i + 1) j, entry (i + 1) (j + 1)], a ≤ 2 ^ 38 * b := by
  decide +kernel

/-- **C137 (the code's tables).** With the tables of the code every population, whatever its age and metallicity, gets a rate: no
panic. Unless the mass is extremely small the rate is positive, between 1.7e30 and 6.6e46 photons per second and solar mass. -/
theorem every_rate_f64 (search : Search ℚ) (hs : SearchContract search) {age metallicity mass : ℚ} (hage : IsF64 age)
    (hmet : IsF64 metallicity) (hmass : 0 ≤ mass) :
    ∃ r, lookupF search (some age) (some metallicity) mass = some r ∧ 0 ≤ r ∧
      (1 / 2 ^ 900 ≤ mass → mass * (17 * 10 ^ 29) ≤ r ∧ r ≤ mass * (66 * 10 ^ 45)) := by
  have hpos : ∀ row ∈ Bpass.table.map (List.map fl), ∀ x ∈ row, IsF64 x ∧ 1 / 2 ^ 200 ≤ x := by
    intro row hrow x hx
    obtain ⟨h1, h2, _⟩ := table_entries row hrow x hx
    exact ⟨h1, le_trans (by norm_num) h2⟩
  obtain ⟨i, j, row1, row2, a1, a2, z1, z2, t11, t12, t21, t22, s, t, r, ha1, ha2, hl1, hl2, hz1, hz2, hm1, hm2, hr1, hr2, h11, h12,
    h21, h22, hse, s0, s1, hte, t0, t1, hlk, hr0, herr⟩ :=
    lookup_f64 search hs ageBins_f64 metallicityBins_f64 table_f64 hpos hage hmet hmass
  refine ⟨r, hlk, hr0, fun hsmall => ?_⟩
  have hi : i < 50 := by
    have := (List.getElem?_eq_some_iff.1 ha2).1
    rw [List.length_map] at this
    have hlen : Bpass.ageBins.length = 51 := by decide +kernel
    omega
  have hj : j < 12 := by
    have := (List.getElem?_eq_some_iff.1 hz2).1
    rw [List.length_map] at this
    have hlen : Bpass.metallicityBins.length = 13 := by decide +kernel
    omega
  have hc := entries_close i hi j hj
  rw [entry_of hr1 h11, entry_of hr1 h12, entry_of hr2 h21, entry_of hr2 h22] at hc
  obtain ⟨_, b11, c11⟩ := table_entries row1 (List.mem_of_getElem? hr1) t11 (List.mem_of_getElem? h11)
  obtain ⟨_, b12, c12⟩ := table_entries row1 (List.mem_of_getElem? hr1) t12 (List.mem_of_getElem? h12)
  obtain ⟨_, b21, c21⟩ := table_entries row2 (List.mem_of_getElem? hr2) t21 (List.mem_of_getElem? h21)
  obtain ⟨_, b22, c22⟩ := table_entries row2 (List.mem_of_getElem? hr2) t22 (List.mem_of_getElem? h22)
  obtain ⟨M, hM, hMu⟩ : ∃ M ∈ [t11, t12, t21, t22], M = max (max t11 t12) (max t21 t22) := by
    refine ⟨_, ?_, rfl⟩
    rcases max_choice (max t11 t12) (max t21 t22) with e | e <;> rw [e]
    · rcases max_choice t11 t12 with e | e <;> rw [e] <;> simp
    · rcases max_choice t21 t22 with e | e <;> rw [e] <;> simp
  rw [← hMu] at herr
  have m11 : t11 ≤ M := hMu ▸ (le_max_left _ _).trans (le_max_left _ _)
  have m12 : t12 ≤ M := hMu ▸ (le_max_right _ _).trans (le_max_left _ _)
  have m21 : t21 ≤ M := hMu ▸ (le_max_left _ _).trans (le_max_right _ _)
  have m22 : t22 ≤ M := hMu ▸ (le_max_right _ _).trans (le_max_right _ _)
  have hm : ∀ x ∈ [t11, t12, t21, t22], M / 2 ^ 38 ≤ x ∧ 18 * 10 ^ 29 ≤ x ∧ x ≤ 65 * 10 ^ 45 := by
    intro x hx
    refine ⟨by rw [div_le_iff₀ (by positivity), mul_comm]; exact hc M hM x hx, ?_⟩
    simp only [List.mem_cons, List.not_mem_nil, or_false] at hx
    rcases hx with rfl | rfl | rfl | rfl
    · exact ⟨b11, c11⟩
    · exact ⟨b12, c12⟩
    · exact ⟨b21, c21⟩
    · exact ⟨b22, c22⟩
  have hM65 := (hm M hM).2.2
  -- all entries are at least `m`, which is not small compared to the largest one
  obtain ⟨m, hm0, hm1, hmM⟩ : ∃ m, 18 * 10 ^ 29 ≤ m ∧ (∀ x ∈ [t11, t12, t21, t22], m ≤ x) ∧ M ≤ 2 ^ 38 * m := by
    refine ⟨max (18 * 10 ^ 29) (M / 2 ^ 38), le_max_left _ _, fun x hx => max_le (hm x hx).2.1 (hm x hx).1, ?_⟩
    have := le_max_right (18 * 10 ^ 29) (M / 2 ^ 38)
    rw [div_le_iff₀ (by positivity)] at this
    linarith
  have w1 : 0 ≤ (1 - s) * (1 - t) := mul_nonneg (by linarith) (by linarith)
  have w2 : 0 ≤ (1 - s) * t := mul_nonneg (by linarith) t0
  have w3 : 0 ≤ s * (1 - t) := mul_nonneg s0 (by linarith)
  have w4 : 0 ≤ s * t := mul_nonneg s0 t0
  have hw : (1 - s) * (1 - t) + (1 - s) * t + s * (1 - t) + s * t = 1 := by ring
  have hB0 : m ≤ bilinear s t t11 t12 t21 t22 := by
    have k1 := mul_le_mul_of_nonneg_left (hm1 t11 (by simp)) w1
    have k2 := mul_le_mul_of_nonneg_left (hm1 t12 (by simp)) w2
    have k3 := mul_le_mul_of_nonneg_left (hm1 t21 (by simp)) w3
    have k4 := mul_le_mul_of_nonneg_left (hm1 t22 (by simp)) w4
    have : m = ((1 - s) * (1 - t) + (1 - s) * t + s * (1 - t) + s * t) * m := by rw [hw, one_mul]
    unfold bilinear
    linarith
  have hB1 : bilinear s t t11 t12 t21 t22 ≤ M := by
    have k1 := mul_le_mul_of_nonneg_left m11 w1
    have k2 := mul_le_mul_of_nonneg_left m12 w2
    have k3 := mul_le_mul_of_nonneg_left m21 w3
    have k4 := mul_le_mul_of_nonneg_left m22 w4
    have : M = ((1 - s) * (1 - t) + (1 - s) * t + s * (1 - t) + s * t) * M := by rw [hw, one_mul]
    unfold bilinear
    linarith
  have hη : (1 : ℚ) / 2 ^ 1074 ≤ mass :=
    (one_div_le_one_div_of_le (by positivity) (pow_le_pow_right₀ (by norm_num) (by norm_num))).trans hsmall
  generalize (1 : ℚ) / 2 ^ 1074 = η at *
  generalize bilinear s t t11 t12 t21 t22 = B at *
  have herr' := abs_le.1 herr
  have k1 := mul_le_mul_of_nonneg_left hB0 hmass
  have k2 := mul_le_mul_of_nonneg_left hB1 hmass
  have k3 := mul_le_mul_of_nonneg_left hmM hmass
  have k4 := mul_le_mul_of_nonneg_left hm0 hmass
  have k5 := mul_le_mul_of_nonneg_left hM65 hmass
  constructor
  · have : 15 / 2 ^ 53 * (mass * M) ≤ 1 / 1000 * (mass * m) := by linarith
    linarith
  · have : 15 / 2 ^ 53 * (mass * M) ≤ 1 / 1000 * (mass * (65 * 10 ^ 45)) := by linarith
    linarith

/-- **C137 (NaN).** An age which is not a number is out of bounds: a panic. -/
theorem nan_age_f64 (search : Search ℚ) (metallicity : Option ℚ) (mass : ℚ) :
    lookupF search none metallicity mass = none := by
  have hA : clampToBinsF (Bpass.ageBins.map fl) none = some none := by
    unfold clampToBinsF
    rw [ageBins_f64.head, ageBins_f64.getLast]
    change clamp none _ _ = _
    unfold clamp
    rw [if_pos ageBins_f64.wideF]
    rfl
  unfold lookupF bpassLookupF
  rw [hA]
  dsimp only [bind, Option.bind_some]
  cases clampToBinsF (Bpass.metallicityBins.map fl) metallicity with
  | none => rfl
  | some z =>
    dsimp only [Option.bind_some]
    have h1 : (Bpass.ageBins.map fl)[getIndex search (Bpass.ageBins.map fl) none]? = none := by
      unfold getIndex
      simp
    rw [h1]
    cases before (Bpass.ageBins.map fl) (getIndex search (Bpass.ageBins.map fl) none) <;> rfl

/-- **C137 (cancellation).** The error is small compared to the largest entry, not to the value itself where the table falls steeply:
between the last two ages of the third metallicity the rate falls by eleven orders of magnitude, and for populations older than the
table the computed rate differs from the exact interpolation of the same numbers by more than 2900 units of roundoff. -/
theorem steep_table :
    ∃ r, lookupF scan (some (10 ^ 12)) (some (fl (1 / 1000))) 1 = some r ∧
      2900 / 2 ^ 53 * (entry 49 2 + (insideF (10 ^ 6) (10 ^ 11) (10 ^ 12) - 79432823500) / (10 ^ 11 - 79432823500) *
        (entry 50 2 - entry 49 2)) <
      |r - (entry 49 2 + (insideF (10 ^ 6) (10 ^ 11) (10 ^ 12) - 79432823500) / (10 ^ 11 - 79432823500) *
        (entry 50 2 - entry 49 2))| := by
  exact ⟨_, (Option.some_get (by decide +kernel)).symm, by decide +kernel⟩

/-! ### The hypotheses are met -/

/-- A point between bins, and one outside of the table. -/
example : ((lookupF scan (some 123456789) (some (fl (123 / 10000))) 3).isSome ∧
    (lookupF scan (some (-5)) (some 7) 3).isSome) ∧ IsF64 123456789 ∧ IsF64 (fl (123 / 10000)) := by
  refine ⟨by decide +kernel, by decide +kernel, isF64_fl _⟩

/-- A point of the table: one hundred million years (bin 20), metallicity one percent (bin 8). -/
example : (Bpass.ageBins.map fl)[20]? = some 100000000 ∧ (Bpass.metallicityBins.map fl)[8]? = some (fl (1 / 100)) ∧
    lookupF scan (some 100000000) (some (fl (1 / 100))) 2 = some (entry 20 8 ⊠ 2) := by decide +kernel

end Verif.Rounding
