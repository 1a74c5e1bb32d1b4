import Verif.Bpass.Model
import Mathlib.Tactic.FieldSimp
import Mathlib.Tactic.Linarith
import Mathlib.Tactic.Positivity
import Mathlib.Tactic.NormNum
import Mathlib.Tactic.Ring

/-!
# C60: the stellar population table
-/

namespace Verif.Bpass

variable {K : Type} [Field K] [LinearOrder K] [IsStrictOrderedRing K]

theorem scan_contract : SearchContract (scan : Search K) := by
  constructor
  · intro bins
    induction bins with
    | nil => intro v i _ h; cases h
    | cons b bins ih =>
      intro v i hs h
      unfold scan at h
      split_ifs at h with h1 h2
      · cases h
        rw [h1]
        rfl
      · cases hr : scan bins v with
        | ok j =>
          rw [hr] at h
          cases h
          exact ih v j hs.of_cons hr
        | error j =>
          rw [hr] at h
          cases h
  · intro bins
    induction bins with
    | nil =>
      intro v i _ h
      cases h
      refine ⟨le_refl _, fun j x hj => absurd hj (Nat.not_lt_zero _), fun j x _ hx => by simp at hx⟩
    | cons b bins ih =>
      intro v i hs h
      unfold scan at h
      split_ifs at h with h1 h2
      · cases h
        refine ⟨Nat.zero_le _, fun j x hj => absurd hj (Nat.not_lt_zero _), ?_⟩
        intro j x _ hx
        cases j with
        | zero =>
          cases hx
          exact h2
        | succ j =>
          exact h2.trans ((List.pairwise_cons.1 hs).1 x (List.mem_of_getElem? hx))
      · cases hr : scan bins v with
        | ok j =>
          rw [hr] at h
          cases h
        | error j =>
          rw [hr] at h
          cases h
          obtain ⟨h3, h4, h5⟩ := ih v j hs.of_cons hr
          refine ⟨Nat.succ_le_succ h3, ?_, ?_⟩
          · intro k x hk hx
            cases k with
            | zero =>
              cases hx
              exact lt_of_le_of_ne (not_lt.1 h2) (Ne.symm h1)
            | succ k => exact h4 k x (by omega) hx
          · intro k x hk hx
            cases k with
            | zero => omega
            | succ k => exact h5 k x (by omega) hx

/-! ### Specification -/

/-- Bins as they should be: sorted, positive, and wide compared to the safety factor. -/
structure ValidBins (bins : List K) (first last : K) : Prop where
  sorted : bins.Pairwise (· < ·)
  head : bins.head? = some first
  getLast : bins.getLast? = some last
  pos : 0 < first
  wide : first * 1.00001 ≤ last / 1.00001

/-- The value of the table at ages and metallicities outside: that just inside of it. -/
def inside (first last value : K) : K := max (first * 1.00001) (min (last / 1.00001) value)

theorem clamp_eq (bins : List K) (first last value : K) (hb : ValidBins bins first last) :
    clampToBins bins (some value) = some (some (inside first last value)) := by
  unfold clampToBins
  rw [hb.head, hb.getLast]
  change clamp (some value) (first * safety) (last / safety) = _
  unfold clamp inside safety
  have hw := hb.wide
  rw [if_pos hw]
  generalize first * 1.00001 = lo at *
  generalize last / 1.00001 = hi at *
  simp only [Option.map_some, Option.some.injEq]
  split_ifs with h1 h2
  · rw [min_eq_right (h1.le.trans hw), max_eq_left h1.le]
  · rw [min_eq_left h2.le, max_eq_right hw]
  · rw [min_eq_right (not_lt.1 h2), max_eq_right (not_lt.1 h1)]

theorem inside_range (bins : List K) (first last value : K) (hb : ValidBins bins first last) :
    first < inside first last value ∧ inside first last value < last := by
  have hpos := hb.pos
  have hlast : 0 < last := by
    by_contra hc
    have h1 : last / 1.00001 ≤ 0 := div_nonpos_of_nonpos_of_nonneg (not_lt.1 hc) (by norm_num)
    have h2 : 0 < first * 1.00001 := mul_pos hpos (by norm_num)
    linarith [hb.wide]
  have e1 : first < first * 1.00001 := by
    have : (1 : K) < 1.00001 := by norm_num
    nlinarith
  have e2 : last / 1.00001 < last := by
    rw [div_lt_iff₀ (by norm_num)]
    have : (1 : K) < 1.00001 := by norm_num
    nlinarith
  unfold inside
  constructor
  · exact lt_of_lt_of_le e1 (le_max_left _ _)
  · exact max_lt (lt_of_le_of_lt hb.wide e2) (lt_of_le_of_lt (min_le_left _ _) e2)

/-- The index found is the right end of the interval of the bins containing the value. -/
theorem getIndex_spec (search : Search K) (hs : SearchContract search) (bins : List K) (first last v : K)
    (hb : ValidBins bins first last) (h1 : first < v) (h2 : v < last) :
    ∃ i lo hi, getIndex search bins (some v) = i + 1 ∧ bins[i]? = some lo ∧ bins[i + 1]? = some hi ∧
      lo ≤ v ∧ v < hi := by
  have hhead : bins[0]? = some first := by
    rw [← hb.head]
    cases bins <;> rfl
  have hlast : bins[bins.length - 1]? = some last := by
    rw [← hb.getLast, List.getLast?_eq_getElem?]
  have hmono : ∀ (i j : ℕ) (x y : K), bins[i]? = some x → bins[j]? = some y → i < j → x < y := by
    intro i j x y hi hj hij
    obtain ⟨hi', rfl⟩ := List.getElem?_eq_some_iff.1 hi
    obtain ⟨hj', rfl⟩ := List.getElem?_eq_some_iff.1 hj
    exact List.pairwise_iff_getElem.1 hb.sorted i j hi' hj' hij
  unfold getIndex
  dsimp only
  cases hr : search bins v with
  | ok i =>
    have hi := hs.found bins v i hb.sorted hr
    have hil : i < bins.length := (List.getElem?_eq_some_iff.1 hi).1
    have hne : i ≠ bins.length - 1 := by
      intro h
      rw [h, hlast] at hi
      cases hi
      exact lt_irrefl _ h2
    have hil' : i + 1 < bins.length := by omega
    refine ⟨i, v, bins[i + 1], rfl, hi, List.getElem?_eq_getElem hil', le_refl _, ?_⟩
    exact hmono i (i + 1) _ _ hi (List.getElem?_eq_getElem hil') (by omega)
  | error i =>
    obtain ⟨h3, h4, h5⟩ := hs.missing bins v i hb.sorted hr
    have hi0 : i ≠ 0 := by
      rintro rfl
      exact absurd (h5 0 first le_rfl hhead) (not_lt.2 h1.le)
    have hil : i < bins.length := by
      rcases lt_or_eq_of_le h3 with h | h
      · exact h
      · have hl : 0 < bins.length := by omega
        exact absurd (h4 (bins.length - 1) last (by omega) hlast) (not_lt.2 h2.le)
    have hil' : i - 1 < bins.length := by omega
    refine ⟨i - 1, bins[i - 1], bins[i], (by dsimp only; omega), List.getElem?_eq_getElem hil', ?_, ?_, ?_⟩
    · rw [show i - 1 + 1 = i by omega]
      exact List.getElem?_eq_getElem hil
    · exact (h4 (i - 1) _ (by omega) (List.getElem?_eq_getElem hil')).le
    · exact h5 i _ le_rfl (List.getElem?_eq_getElem hil)

/-- A table with one row per age and one column per metallicity. -/
structure ValidTable (ages metallicities : List K) (table : List (List K)) : Prop where
  rows : table.length = ages.length
  columns : ∀ row ∈ table, row.length = metallicities.length

/-- **C60 (lookup).** For every age, metallicity and mass the lookup stays inside the tables and returns the
mass times the bilinear interpolation of the four table entries around the point (moved just inside the table
if it lies outside): each entry is weighted with how close the point is to it, relative to the size of the
surrounding rectangle. -/
theorem lookup_is_bilinear (search : Search K) (hs : SearchContract search) (ages metallicities : List K)
    (table : List (List K)) (a0 aN z0 zN : K) (ha : ValidBins ages a0 aN) (hz : ValidBins metallicities z0 zN)
    (ht : ValidTable ages metallicities table) (age metallicity mass : K) :
    ∃ (i j : ℕ) (row1 row2 : List K) (a1 a2 z1 z2 t11 t12 t21 t22 s t : K),
      ages[i]? = some a1 ∧ ages[i + 1]? = some a2 ∧ a1 ≤ inside a0 aN age ∧ inside a0 aN age < a2 ∧
      metallicities[j]? = some z1 ∧ metallicities[j + 1]? = some z2 ∧ z1 ≤ inside z0 zN metallicity ∧
      inside z0 zN metallicity < z2 ∧
      table[i]? = some row1 ∧ table[i + 1]? = some row2 ∧
      row1[j]? = some t11 ∧ row1[j + 1]? = some t12 ∧ row2[j]? = some t21 ∧ row2[j + 1]? = some t22 ∧
      s * (a2 - a1) = inside a0 aN age - a1 ∧ 0 ≤ s ∧ s < 1 ∧
      t * (z2 - z1) = inside z0 zN metallicity - z1 ∧ 0 ≤ t ∧ t < 1 ∧
      bpassLookup search ages metallicities table (some age) (some metallicity) mass = some
        (mass * ((1 - s) * (1 - t) * t11 + (1 - s) * t * t12 + s * (1 - t) * t21 + s * t * t22)) := by
  obtain ⟨i, a1, a2, hi, ha1, ha2, hl1, hl2⟩ := getIndex_spec search hs ages a0 aN (inside a0 aN age) ha
    (inside_range ages a0 aN age ha).1 (inside_range ages a0 aN age ha).2
  obtain ⟨j, z1, z2, hj, hz1, hz2, hm1, hm2⟩ := getIndex_spec search hs metallicities z0 zN
    (inside z0 zN metallicity) hz (inside_range metallicities z0 zN metallicity hz).1
    (inside_range metallicities z0 zN metallicity hz).2
  have hil : i + 1 < ages.length := (List.getElem?_eq_some_iff.1 ha2).1
  have hjl : j + 1 < metallicities.length := (List.getElem?_eq_some_iff.1 hz2).1
  have hi1 : i < table.length := by rw [ht.rows]; omega
  have hi2 : i + 1 < table.length := by rw [ht.rows]; omega
  have hc1 := ht.columns table[i] (List.getElem_mem hi1)
  have hc2 := ht.columns table[i + 1] (List.getElem_mem hi2)
  have w1 : 0 < a2 - a1 := by linarith
  have w2 : 0 < z2 - z1 := by linarith
  refine ⟨i, j, table[i], table[i + 1], a1, a2, z1, z2, (table[i])[j]'(by omega), (table[i])[j + 1]'(by omega),
    (table[i + 1])[j]'(by omega), (table[i + 1])[j + 1]'(by omega),
    (inside a0 aN age - a1) / (a2 - a1), (inside z0 zN metallicity - z1) / (z2 - z1),
    ha1, ha2, hl1, hl2, hz1, hz2, hm1, hm2, List.getElem?_eq_getElem hi1, List.getElem?_eq_getElem hi2,
    List.getElem?_eq_getElem _, List.getElem?_eq_getElem _, List.getElem?_eq_getElem _,
    List.getElem?_eq_getElem _, div_mul_cancel₀ _ w1.ne', div_nonneg (by linarith) w1.le, ?_,
    div_mul_cancel₀ _ w2.ne', div_nonneg (by linarith) w2.le, ?_, ?_⟩
  · rw [div_lt_one w1]
    linarith
  · rw [div_lt_one w2]
    linarith
  · unfold bpassLookup
    rw [clamp_eq ages a0 aN age ha, clamp_eq metallicities z0 zN metallicity hz]
    dsimp only [bind, Option.bind_some]
    rw [hi, hj]
    unfold before
    rw [if_neg (Nat.succ_ne_zero i), Nat.add_sub_cancel, ha1, ha2, if_neg (Nat.succ_ne_zero i),
      Nat.add_sub_cancel, List.getElem?_eq_getElem hi1, List.getElem?_eq_getElem hi2]
    dsimp only [Option.bind_some]
    simp only [if_neg (Nat.succ_ne_zero j), Nat.add_sub_cancel]
    rw [hz1, hz2,
      List.getElem?_eq_getElem (show j < (table[i]).length by omega),
      List.getElem?_eq_getElem (show j < (table[i + 1]).length by omega),
      List.getElem?_eq_getElem (show j + 1 < (table[i]).length by omega),
      List.getElem?_eq_getElem (show j + 1 < (table[i + 1]).length by omega)]
    dsimp only [Option.bind_some, pure]
    unfold linearInterpolate
    congr 1
    generalize (inside a0 aN age - a1) / (a2 - a1) = s
    generalize (inside z0 zN metallicity - z1) / (z2 - z1) = t
    ring

/-- **C60 (bounds).** The result of a lookup with non-negative mass is between mass times the smallest and
mass times the largest of the four entries, so between mass times any lower and any upper bound of the whole
table. -/
theorem lookup_within_table (search : Search K) (hs : SearchContract search) (ages metallicities : List K)
    (table : List (List K)) (a0 aN z0 zN : K) (ha : ValidBins ages a0 aN) (hz : ValidBins metallicities z0 zN)
    (ht : ValidTable ages metallicities table) (age metallicity mass : K) (hmass : 0 ≤ mass) :
    ∃ (i j : ℕ) (row1 row2 : List K) (t11 t12 t21 t22 r : K),
      table[i]? = some row1 ∧ table[i + 1]? = some row2 ∧
      row1[j]? = some t11 ∧ row1[j + 1]? = some t12 ∧ row2[j]? = some t21 ∧ row2[j + 1]? = some t22 ∧
      bpassLookup search ages metallicities table (some age) (some metallicity) mass = some r ∧
      mass * min (min t11 t12) (min t21 t22) ≤ r ∧ r ≤ mass * max (max t11 t12) (max t21 t22) ∧
      ∀ lo hi, (∀ row ∈ table, ∀ x ∈ row, lo ≤ x ∧ x ≤ hi) → mass * lo ≤ r ∧ r ≤ mass * hi := by
  obtain ⟨i, j, row1, row2, a1, a2, z1, z2, t11, t12, t21, t22, s, t, _, _, _, _, _, _, _, _, hr1, hr2, h11,
    h12, h21, h22, _, hs0, hs1, _, ht0, ht1, hl⟩ :=
    lookup_is_bilinear search hs ages metallicities table a0 aN z0 zN ha hz ht age metallicity mass
  have w1 : 0 ≤ (1 - s) * (1 - t) := mul_nonneg (by linarith) (by linarith)
  have w2 : 0 ≤ (1 - s) * t := mul_nonneg (by linarith) ht0
  have w3 : 0 ≤ s * (1 - t) := mul_nonneg hs0 (by linarith)
  have w4 : 0 ≤ s * t := mul_nonneg hs0 ht0
  have wsum : (1 - s) * (1 - t) + (1 - s) * t + s * (1 - t) + s * t = 1 := by ring
  have hbound : ∀ lo hi, (lo ≤ t11 ∧ t11 ≤ hi) → (lo ≤ t12 ∧ t12 ≤ hi) → (lo ≤ t21 ∧ t21 ≤ hi) →
      (lo ≤ t22 ∧ t22 ≤ hi) →
      mass * lo ≤ mass * ((1 - s) * (1 - t) * t11 + (1 - s) * t * t12 + s * (1 - t) * t21 + s * t * t22) ∧
      mass * ((1 - s) * (1 - t) * t11 + (1 - s) * t * t12 + s * (1 - t) * t21 + s * t * t22) ≤ mass * hi := by
    intro lo hi b1 b2 b3 b4
    have e1 : lo = ((1 - s) * (1 - t) + (1 - s) * t + s * (1 - t) + s * t) * lo := by rw [wsum, one_mul]
    have e2 : hi = ((1 - s) * (1 - t) + (1 - s) * t + s * (1 - t) + s * t) * hi := by rw [wsum, one_mul]
    constructor
    · refine mul_le_mul_of_nonneg_left ?_ hmass
      rw [e1]
      have := mul_le_mul_of_nonneg_left b1.1 w1
      have := mul_le_mul_of_nonneg_left b2.1 w2
      have := mul_le_mul_of_nonneg_left b3.1 w3
      have := mul_le_mul_of_nonneg_left b4.1 w4
      linarith
    · refine mul_le_mul_of_nonneg_left ?_ hmass
      rw [e2]
      have := mul_le_mul_of_nonneg_left b1.2 w1
      have := mul_le_mul_of_nonneg_left b2.2 w2
      have := mul_le_mul_of_nonneg_left b3.2 w3
      have := mul_le_mul_of_nonneg_left b4.2 w4
      linarith
  have hall := hbound (min (min t11 t12) (min t21 t22)) (max (max t11 t12) (max t21 t22))
    ⟨by simp, by simp⟩ ⟨by simp, by simp⟩ ⟨by simp, by simp⟩ ⟨by simp, by simp⟩
  refine ⟨i, j, row1, row2, t11, t12, t21, t22, _, hr1, hr2, h11, h12, h21, h22, hl, hall.1, hall.2, ?_⟩
  intro lo hi hb
  have m1 := hb row1 (List.mem_of_getElem? hr1)
  have m2 := hb row2 (List.mem_of_getElem? hr2)
  exact hbound lo hi (m1 t11 (List.mem_of_getElem? h11)) (m1 t12 (List.mem_of_getElem? h12))
    (m2 t21 (List.mem_of_getElem? h21)) (m2 t22 (List.mem_of_getElem? h22))

/-- **C60 (table points).** At an age and a metallicity which are bins, not the outermost ones, the lookup
returns mass times the table entry. -/
theorem lookup_at_table_points (search : Search K) (hs : SearchContract search) (ages metallicities : List K)
    (table : List (List K)) (a0 aN z0 zN : K) (ha : ValidBins ages a0 aN) (hz : ValidBins metallicities z0 zN)
    (ht : ValidTable ages metallicities table) (k l : ℕ) (age metallicity mass : K) (row : List K) (x : K)
    (hk : ages[k]? = some age) (hk' : a0 * 1.00001 ≤ age ∧ age ≤ aN / 1.00001)
    (hl : metallicities[l]? = some metallicity)
    (hl' : z0 * 1.00001 ≤ metallicity ∧ metallicity ≤ zN / 1.00001)
    (hrow : table[k]? = some row) (hx : row[l]? = some x) :
    bpassLookup search ages metallicities table (some age) (some metallicity) mass = some (mass * x) := by
  obtain ⟨i, j, row1, row2, a1, a2, z1, z2, t11, t12, t21, t22, s, t, ha1, ha2, hb1, hb2, hz1, hz2, hd1, hd2,
    hr1, hr2, h11, h12, h21, h22, hse, hs0, hs1, hte, ht0, ht1, hlk⟩ :=
    lookup_is_bilinear search hs ages metallicities table a0 aN z0 zN ha hz ht age metallicity mass
  have eA : inside a0 aN age = age := by
    unfold inside
    rw [min_eq_right hk'.2, max_eq_right hk'.1]
  have eZ : inside z0 zN metallicity = metallicity := by
    unfold inside
    rw [min_eq_right hl'.2, max_eq_right hl'.1]
  rw [eA] at hb1 hb2 hse
  rw [eZ] at hd1 hd2 hte
  have huniq : ∀ (bins : List K) (v lo hi : K) (m n : ℕ), bins.Pairwise (· < ·) → bins[m]? = some v →
      bins[n]? = some lo → bins[n + 1]? = some hi → lo ≤ v → v < hi → m = n := by
    intro bins v lo hi m n hso hm hn hn1 h1 h2
    obtain ⟨hm', rfl⟩ := List.getElem?_eq_some_iff.1 hm
    obtain ⟨hn', rfl⟩ := List.getElem?_eq_some_iff.1 hn
    obtain ⟨hn1', rfl⟩ := List.getElem?_eq_some_iff.1 hn1
    rcases lt_trichotomy m n with h | h | h
    · exact absurd (List.pairwise_iff_getElem.1 hso m n hm' hn' h) (not_lt.2 h1)
    · exact h
    · rcases Nat.lt_or_ge (n + 1) m with h' | h'
      · exact absurd (List.pairwise_iff_getElem.1 hso (n + 1) m hn1' hm' h') (not_lt.2 h2.le)
      · have : m = n + 1 := by omega
        subst this
        exact absurd h2 (lt_irrefl _)
  obtain rfl := huniq ages age a1 a2 k i ha.sorted hk ha1 ha2 hb1 hb2
  obtain rfl := huniq metallicities metallicity z1 z2 l j hz.sorted hl hz1 hz2 hd1 hd2
  rw [hk] at ha1
  rw [hl] at hz1
  rw [hrow] at hr1
  cases ha1
  cases hz1
  cases hr1
  rw [hx] at h11
  cases h11
  have es : s = 0 := by
    rw [sub_self] at hse
    rcases mul_eq_zero.1 hse with h | h
    · exact h
    · linarith
  have et : t = 0 := by
    rw [sub_self] at hte
    rcases mul_eq_zero.1 hte with h | h
    · exact h
    · linarith
  rw [hlk, es, et]
  congr 1
  ring

/-! ### The tables of the code -/

theorem ageBins_valid : ValidBins (ageBins.map (↑) : List K) (1000000 : K) (100000000000 : K) := by
  have hs : ageBins.Pairwise (· < ·) := by decide +kernel
  constructor
  · rw [List.pairwise_map]
    exact hs.imp fun h => Rat.cast_lt.2 h
  · rw [List.head?_map]
    have : ageBins.head? = some 1000000 := by decide +kernel
    rw [this]
    simp
  · rw [List.getLast?_map]
    have : ageBins.getLast? = some 100000000000 := by decide +kernel
    rw [this]
    simp
  · norm_num
  · norm_num

theorem metallicityBins_valid : ValidBins (metallicityBins.map (↑) : List K) (1 / 100000 : K) (4 / 100 : K) := by
  have hs : metallicityBins.Pairwise (· < ·) := by decide +kernel
  constructor
  · rw [List.pairwise_map]
    exact hs.imp fun h => Rat.cast_lt.2 h
  · rw [List.head?_map]
    have : metallicityBins.head? = some (1 / 100000) := by decide +kernel
    rw [this]
    simp
  · rw [List.getLast?_map]
    have : metallicityBins.getLast? = some (4 / 100) := by decide +kernel
    rw [this]
    simp
  · norm_num
  · norm_num

theorem table_valid : ValidTable (ageBins.map (↑) : List K) (metallicityBins.map (↑) : List K)
    (table.map (List.map (↑))) := by
  constructor
  · rw [List.length_map, List.length_map]
    decide +kernel
  · intro row hrow
    rw [List.mem_map] at hrow
    obtain ⟨row', hrow', rfl⟩ := hrow
    rw [List.length_map, List.length_map]
    have : ∀ row ∈ table, row.length = metallicityBins.length := by decide +kernel
    exact this row' hrow'

/-- **C60 (the code's tables).** With the tables of the code every population of non-negative mass, whatever
its age and metallicity, gets a rate between 1.8e30 and 6.5e46 photons per second and solar mass: no panic, no
negative rate. -/
theorem every_population_has_a_rate (search : Search K) (hs : SearchContract search)
    (age metallicity mass : K) (hmass : 0 ≤ mass) :
    ∃ r, lookup search (some age) (some metallicity) mass = some r ∧ mass * 1.8e30 ≤ r ∧
      r ≤ mass * 6.5e46 := by
  obtain ⟨_, _, _, _, _, _, _, _, r, _, _, _, _, _, _, hr, _, _, hb⟩ :=
    lookup_within_table search hs _ _ _ _ _ _ _ ageBins_valid metallicityBins_valid table_valid age
      metallicity mass hmass
  refine ⟨r, hr, hb 1.8e30 6.5e46 ?_⟩
  intro row hrow x hx
  rw [List.mem_map] at hrow
  obtain ⟨row', hrow', rfl⟩ := hrow
  rw [List.mem_map] at hx
  obtain ⟨x', hx', rfl⟩ := hx
  have hall : ∀ row ∈ table, ∀ x ∈ row, (18 * 10 ^ 29 : ℚ) ≤ x ∧ x ≤ 65 * 10 ^ 45 := by decide +kernel
  obtain ⟨h1, h2⟩ := hall row' hrow' x' hx'
  constructor
  · have : ((18 * 10 ^ 29 : ℚ) : K) ≤ (x' : K) := Rat.cast_le.2 h1
    refine le_trans (le_of_eq ?_) this
    norm_num
  · have : (x' : K) ≤ ((65 * 10 ^ 45 : ℚ) : K) := Rat.cast_le.2 h2
    refine le_trans this (le_of_eq ?_)
    norm_num

/-- **C60 (NaN).** An age or metallicity which is not a number is out of bounds: a panic. -/
theorem nan_panics (search : Search K) (value : Option K) (mass : K) :
    lookup search none value mass = none ∧ lookup search value none mass = none := by
  have hA : clampToBins (ageBins.map (↑) : List K) none = some none := by
    unfold clampToBins
    rw [(ageBins_valid (K := K)).head, (ageBins_valid (K := K)).getLast]
    change clamp none _ _ = _
    unfold clamp safety
    rw [if_pos (ageBins_valid (K := K)).wide]
    rfl
  have hZ : clampToBins (metallicityBins.map (↑) : List K) none = some none := by
    unfold clampToBins
    rw [(metallicityBins_valid (K := K)).head, (metallicityBins_valid (K := K)).getLast]
    change clamp none _ _ = _
    unfold clamp safety
    rw [if_pos (metallicityBins_valid (K := K)).wide]
    rfl
  constructor
  · unfold lookup bpassLookup
    rw [hA]
    dsimp only [bind, Option.bind_some]
    cases clampToBins (metallicityBins.map (↑) : List K) value with
    | none => rfl
    | some z =>
      dsimp only [Option.bind_some]
      have h1 : (ageBins.map (↑) : List K)[getIndex search (ageBins.map (↑) : List K) none]? = none := by
        unfold getIndex
        simp
      rw [h1]
      cases before (ageBins.map (↑) : List K) (getIndex search (ageBins.map (↑) : List K) none) <;> rfl
  · unfold lookup bpassLookup
    rw [hZ]
    cases clampToBins (ageBins.map (↑) : List K) value with
    | none => rfl
    | some a =>
      dsimp only [bind, Option.bind_some]
      have h1 : (metallicityBins.map (↑) : List K)[getIndex search (metallicityBins.map (↑) : List K) none]?
          = none := by
        unfold getIndex
        simp
      rw [h1]
      simp only [Option.bind_none, Option.bind_fun_none]

/-! ### The hypotheses are met -/

/-- An exact point of the table: one hundred million years (bin 20), metallicity one percent (bin 8). -/
example : (ageBins[20]? = some 100000000 ∧ metallicityBins[8]? = some (1 / 100)) ∧
    lookup (K := ℚ) scan (some 100000000) (some (1 / 100)) 2
      = some (2 * ((table[20]?.bind fun r => r[8]?).getD 0)) := by decide +kernel

example : lookup (K := ℚ) scan (some 0) (some 5) 1 ≠ none := by decide +kernel

end Verif.Bpass
