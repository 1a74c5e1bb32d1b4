import Verif.Rounding.SeriesModel
import Verif.Rounding.StellarProps
import Mathlib.Algebra.Order.BigOperators.Group.List
import Mathlib.Algebra.BigOperators.Ring.List

/-!
# C138: the time series in `f64`
-/

namespace Verif.Rounding

/-! ### Sums -/

/-- a sum of two `f64` is computed with a relative error of half a unit in the last place, however small it is -/
theorem fadd_rel {a b : ℚ} (ha : IsF64 a) (hb : IsF64 b) : |a ⊞ b - (a + b)| ≤ |a + b| / 2 ^ 53 := by
  have hneg : IsF64 (-b) := by
    change fl (-b) = -b
    rw [fl_neg, hb]
  have := fsub_rel ha hneg
  unfold fsub at this
  rw [sub_neg_eq_add] at this
  exact this

theorem sum_from (l : List ℚ) (h : ∀ a ∈ l, IsF64 a ∧ 0 ≤ a) (t S c d : ℚ) (ht : IsF64 t) (ht0 : 0 ≤ t)
    (hd : 0 ≤ d) (hdc : d ≤ 1) (hc : 1 ≤ c) (h1 : S * d ≤ t) (h2 : t ≤ S * c) :
    (S + l.sum) * (d * (1 - 1 / 2 ^ 53) ^ l.length) ≤ l.foldl (· ⊞ ·) t ∧
    l.foldl (· ⊞ ·) t ≤ (S + l.sum) * (c * (1 + 1 / 2 ^ 53) ^ l.length) := by
  induction l generalizing t S c d with
  | nil => simpa using ⟨h1, h2⟩
  | cons a l ih =>
    obtain ⟨ha, ha0⟩ := h a List.mem_cons_self
    have hb := abs_le.1 (fadd_rel ht ha)
    rw [abs_of_nonneg (add_nonneg ht0 ha0)] at hb
    have e1 : (0 : ℚ) ≤ 1 - 1 / 2 ^ 53 := by norm_num
    have b1 : (t + a) * (1 - 1 / 2 ^ 53) ≤ t ⊞ a := by linarith [hb.1]
    have b2 : t ⊞ a ≤ (t + a) * (1 + 1 / 2 ^ 53) := by linarith [hb.2]
    have k1 : (S + a) * (d * (1 - 1 / 2 ^ 53)) ≤ t ⊞ a := by
      refine le_trans ?_ b1
      rw [← mul_assoc]
      refine mul_le_mul_of_nonneg_right ?_ e1
      rw [add_mul]
      have := mul_le_mul_of_nonneg_left hdc ha0
      linarith
    have k2 : t ⊞ a ≤ (S + a) * (c * (1 + 1 / 2 ^ 53)) := by
      refine le_trans b2 ?_
      rw [← mul_assoc]
      refine mul_le_mul_of_nonneg_right ?_ (by positivity)
      rw [add_mul]
      have := mul_le_mul_of_nonneg_left hc ha0
      linarith
    have := ih (fun b hb => h b (List.mem_cons_of_mem _ hb)) (t ⊞ a) (S + a) (c * (1 + 1 / 2 ^ 53)) (d * (1 - 1 / 2 ^ 53))
      (isF64_fl _) (fl_nonneg (add_nonneg ht0 ha0)) (mul_nonneg hd e1)
      (by
        calc d * (1 - 1 / 2 ^ 53) ≤ 1 * 1 := mul_le_mul hdc (by norm_num) e1 zero_le_one
          _ = 1 := one_mul 1)
      (by
        calc (1 : ℚ) = 1 * 1 := (one_mul 1).symm
          _ ≤ c * (1 + 1 / 2 ^ 53) := mul_le_mul hc (by norm_num) zero_le_one (by linarith)) k1 k2
    rw [List.foldl_cons, List.sum_cons, List.length_cons]
    have r1 : d * (1 - 1 / 2 ^ 53) ^ (l.length + 1) = d * (1 - 1 / 2 ^ 53) * (1 - 1 / 2 ^ 53 : ℚ) ^ l.length := by ring
    have r2 : c * (1 + 1 / 2 ^ 53) ^ (l.length + 1) = c * (1 + 1 / 2 ^ 53) * (1 + 1 / 2 ^ 53 : ℚ) ^ l.length := by ring
    rw [r1, r2, ← add_assoc]
    exact this

theorem sumF_f64 (l : List ℚ) : IsF64 (sumF l) := by
  unfold sumF
  induction l using List.reverseRecOn with
  | nil => exact fl_zero
  | append_singleton l a _ =>
    rw [List.foldl_append]
    exact isF64_fl _

theorem sumF_nonneg (l : List ℚ) (h : ∀ a ∈ l, 0 ≤ a) : 0 ≤ sumF l := by
  unfold sumF
  induction l using List.reverseRecOn with
  | nil => exact le_rfl
  | append_singleton l a ih =>
    rw [List.foldl_append]
    exact fl_nonneg (add_nonneg (ih fun b hb => h b (by simp [hb])) (h a (by simp)))

theorem sumF_bounds (l : List ℚ) (h : ∀ a ∈ l, IsF64 a ∧ 0 ≤ a) :
    l.sum * (1 - 1 / 2 ^ 53) ^ l.length ≤ sumF l ∧ sumF l ≤ l.sum * (1 + 1 / 2 ^ 53) ^ l.length := by
  have := sum_from l h 0 0 1 1 fl_zero le_rfl zero_le_one le_rfl le_rfl (by norm_num) (by norm_num)
  rw [zero_add, one_mul, one_mul] at this
  exact this

/-- sums are monotone: no sum of smaller numbers is larger, also with rounding -/
theorem sumF_mono {α : Type} (l : List α) (f g : α → ℚ) (h : ∀ a ∈ l, f a ≤ g a) : sumF (l.map f) ≤ sumF (l.map g) := by
  unfold sumF
  induction l using List.reverseRecOn with
  | nil => exact le_rfl
  | append_singleton l a ih =>
    rw [List.map_append, List.map_append, List.foldl_append, List.foldl_append]
    exact fl_mono (add_le_add (ih fun b hb => h b (by simp [hb])) (h a (by simp)))

/-- the sum over all ranks: not more roundings than there are particles and ranks -/
theorem ranks_bounds (ranks : List (List ℚ)) (h : ∀ l ∈ ranks, ∀ a ∈ l, IsF64 a ∧ 0 ≤ a) {n : ℕ} (hn : ∀ l ∈ ranks, l.length ≤ n) :
    ranks.flatten.sum * (1 - 1 / 2 ^ 53) ^ (n + ranks.length) ≤ sumF (ranks.map sumF) ∧
    sumF (ranks.map sumF) ≤ ranks.flatten.sum * (1 + 1 / 2 ^ 53) ^ (n + ranks.length) := by
  have e1 : (0 : ℚ) ≤ 1 - 1 / 2 ^ 53 := by norm_num
  obtain ⟨b1, b2⟩ := sumF_bounds (ranks.map sumF) (by
    intro a ha
    obtain ⟨l, hl, rfl⟩ := List.mem_map.1 ha
    exact ⟨sumF_f64 l, sumF_nonneg l fun a ha => (h l hl a ha).2⟩)
  rw [List.length_map] at b1 b2
  have inner : ranks.flatten.sum * (1 - 1 / 2 ^ 53) ^ n ≤ (ranks.map sumF).sum ∧
      (ranks.map sumF).sum ≤ ranks.flatten.sum * (1 + 1 / 2 ^ 53) ^ n := by
    clear b1 b2
    induction ranks with
    | nil => simp
    | cons l ranks ih =>
      obtain ⟨i1, i2⟩ := ih (fun l' hl' => h l' (List.mem_cons_of_mem _ hl')) fun l' hl' => hn l' (List.mem_cons_of_mem _ hl')
      obtain ⟨j1, j2⟩ := sumF_bounds l (h l List.mem_cons_self)
      have hl : 0 ≤ l.sum := List.sum_nonneg fun a ha => (h l List.mem_cons_self a ha).2
      have hlen := hn l List.mem_cons_self
      rw [List.flatten_cons, List.sum_append, List.map_cons, List.sum_cons, add_mul, add_mul]
      constructor
      · refine add_le_add (le_trans ?_ j1) i1
        exact mul_le_mul_of_nonneg_left (pow_le_pow_of_le_one e1 (by norm_num) hlen) hl
      · refine add_le_add (le_trans j2 ?_) i2
        exact mul_le_mul_of_nonneg_left (pow_le_pow_right₀ (by norm_num) hlen) hl
  constructor
  · rw [pow_add, ← mul_assoc]
    exact le_trans (mul_le_mul_of_nonneg_right inner.1 (pow_nonneg e1 _)) b1
  · rw [pow_add, ← mul_assoc]
    exact le_trans b2 (mul_le_mul_of_nonneg_right inner.2 (by positivity))

/-! ### Averages -/

theorem pow_low (N : ℕ) : 1 - (N : ℚ) / 2 ^ 53 ≤ (1 - 1 / 2 ^ 53 : ℚ) ^ N := by
  have := one_add_mul_le_pow (a := (-(1 / 2 ^ 53) : ℚ)) (by norm_num) N
  calc 1 - (N : ℚ) / 2 ^ 53 = 1 + (N : ℚ) * -(1 / 2 ^ 53) := by ring
    _ ≤ _ := this
    _ = _ := by rw [← sub_eq_add_neg]

theorem pow_high {N : ℕ} (hN : N ≤ 2 ^ 40) : (1 + 1 / 2 ^ 53 : ℚ) ^ N * (1 - (N : ℚ) / 2 ^ 53) ≤ 1 := by
  calc (1 + 1 / 2 ^ 53 : ℚ) ^ N * (1 - (N : ℚ) / 2 ^ 53) ≤ (1 + 1 / 2 ^ 53 : ℚ) ^ N * (1 - 1 / 2 ^ 53 : ℚ) ^ N :=
        mul_le_mul_of_nonneg_left (pow_low N) (by positivity)
    _ = ((1 + 1 / 2 ^ 53) * (1 - 1 / 2 ^ 53) : ℚ) ^ N := (mul_pow _ _ _).symm
    _ ≤ 1 := pow_le_one₀ (by norm_num) (by norm_num)

/-- A quotient of two sums with relative errors. -/
theorem quotient_error {a b A B e v η u : ℚ} (hB : 0 < B) (hA : 0 ≤ A) (he : 0 ≤ e) (he' : e ≤ 1 / 2 ^ 13) (hu : u = 1 / 2 ^ 53)
    (hv : 0 ≤ v) (hv' : v ≤ 3 * u)
    (a1 : A * (1 - v) * (1 - e) ≤ a) (a2 : a * (1 - e) ≤ A * (1 + v)) (b1 : B * (1 - e) ≤ b) (b2 : b * (1 - e) ≤ B)
    {m : ℚ} (hm : |m - a / b| ≤ a / b * u + η) :
    |m - A / B| ≤ (3 * e + 2 * v + 2 * u) * (A / B) + η := by
  have p1 : 0 < 1 - e := by linarith [show (1 : ℚ) / 2 ^ 13 < 1 by norm_num]
  have hb : 0 < b := lt_of_lt_of_le (mul_pos hB p1) b1
  have hu0 : 0 < u := by rw [hu]; norm_num
  have hu1 : u ≤ 1 / 2 ^ 50 := by rw [hu]; norm_num
  have hv1 : v ≤ 1 / 2 ^ 50 := by rw [hu] at hv'; norm_num at hv' ⊢; linarith
  have hM : 0 ≤ A / B := div_nonneg hA hB.le
  set M := A / B with hMd
  have hAB : A = M * B := by rw [hMd]; field_simp
  have he2 : e * e ≤ 1 / 2 ^ 13 * e := mul_le_mul_of_nonneg_right he' he
  have hq1 : M * ((1 - v) * (1 - e) * (1 - e)) ≤ a / b := by
    rw [le_div_iff₀ hb]
    calc M * ((1 - v) * (1 - e) * (1 - e)) * b = M * (1 - v) * (1 - e) * (b * (1 - e)) := by ring
      _ ≤ M * (1 - v) * (1 - e) * B := mul_le_mul_of_nonneg_left b2
          (mul_nonneg (mul_nonneg hM (by linarith [show (1 : ℚ) / 2 ^ 50 < 1 by norm_num])) p1.le)
      _ = A * (1 - v) * (1 - e) := by rw [hAB]; ring
      _ ≤ a := a1
  have hq2 : a / b * ((1 - e) * (1 - e)) ≤ M * (1 + v) := by
    rw [div_mul_eq_mul_div, div_le_iff₀ hb]
    calc a * ((1 - e) * (1 - e)) = a * (1 - e) * (1 - e) := by ring
      _ ≤ A * (1 + v) * (1 - e) := mul_le_mul_of_nonneg_right a2 p1.le
      _ = M * (1 + v) * (B * (1 - e)) := by rw [hAB]; ring
      _ ≤ M * (1 + v) * b := mul_le_mul_of_nonneg_left b1 (mul_nonneg hM (by linarith))
  generalize a / b = q at *
  have hm' := abs_le.1 hm
  have ve : v * e ≤ 1 / 2 ^ 13 * v := by
    calc v * e ≤ v * (1 / 2 ^ 13) := mul_le_mul_of_nonneg_left he' hv
      _ = _ := mul_comm _ _
  have ue : u * e ≤ 1 / 2 ^ 13 * u := by
    calc u * e ≤ u * (1 / 2 ^ 13) := mul_le_mul_of_nonneg_left he' hu0.le
      _ = _ := mul_comm _ _
  have uv : u * v ≤ 1 / 2 ^ 13 * u := by
    calc u * v ≤ u * (1 / 2 ^ 13) := mul_le_mul_of_nonneg_left (hv1.trans (by norm_num)) hu0.le
      _ = _ := mul_comm _ _
  have ve0 := mul_nonneg hv he
  have ue0 := mul_nonneg hu0.le he
  have uv0 := mul_nonneg hu0.le hv
  -- upper bound of the quotient
  have hup : q * (1 + u) ≤ M * (1 + (3 * e + 2 * v + 2 * u)) := by
    have k : (1 + v) * (1 + u) ≤ (1 + (3 * e + 2 * v + 2 * u)) * ((1 - e) * (1 - e)) := by
      have s : (1 - 2 * e) ≤ (1 - e) * (1 - e) := by linarith [mul_self_nonneg e]
      refine le_trans ?_ (mul_le_mul_of_nonneg_left s (by linarith))
      have : (1 + (3 * e + 2 * v + 2 * u)) * (1 - 2 * e) = 1 + e + 2 * v + 2 * u - 6 * (e * e) - 4 * (v * e) - 4 * (u * e) := by ring
      rw [this]
      have : (1 + v) * (1 + u) = 1 + v + u + u * v := by ring
      rw [this]
      norm_num at he2 ve ue uv
      linarith
    have p2 : 0 < (1 - e) * (1 - e) := mul_pos p1 p1
    refine le_of_mul_le_mul_right ?_ p2
    calc q * (1 + u) * ((1 - e) * (1 - e)) = q * ((1 - e) * (1 - e)) * (1 + u) := by ring
      _ ≤ M * (1 + v) * (1 + u) := mul_le_mul_of_nonneg_right hq2 (by linarith)
      _ = M * ((1 + v) * (1 + u)) := by ring
      _ ≤ M * ((1 + (3 * e + 2 * v + 2 * u)) * ((1 - e) * (1 - e))) := mul_le_mul_of_nonneg_left k hM
      _ = _ := by ring
  have hlo : M * (1 - (3 * e + 2 * v + 2 * u)) ≤ q * (1 - u) := by
    have k : 1 - (3 * e + 2 * v + 2 * u) ≤ (1 - v) * (1 - e) * (1 - e) * (1 - u) := by
      have s : 1 - v - 2 * e ≤ (1 - v) * (1 - e) * (1 - e) := by
        have : (1 - v) * (1 - e) * (1 - e) = 1 - v - 2 * e + 2 * (v * e) + e * e * (1 - v) := by ring
        rw [this]
        have : 0 ≤ e * e * (1 - v) := mul_nonneg (mul_self_nonneg e) (by linarith [show (1 : ℚ) / 2 ^ 50 < 1 by norm_num])
        linarith
      have hu2 : 0 ≤ 1 - u := by linarith [show (1 : ℚ) / 2 ^ 50 < 1 by norm_num]
      refine le_trans ?_ (mul_le_mul_of_nonneg_right s hu2)
      have : (1 - v - 2 * e) * (1 - u) = 1 - v - 2 * e - u + u * v + 2 * (u * e) := by ring
      rw [this]
      linarith
    calc M * (1 - (3 * e + 2 * v + 2 * u)) ≤ M * ((1 - v) * (1 - e) * (1 - e) * (1 - u)) := mul_le_mul_of_nonneg_left k hM
      _ = M * ((1 - v) * (1 - e) * (1 - e)) * (1 - u) := by ring
      _ ≤ q * (1 - u) := mul_le_mul_of_nonneg_right hq1 (by linarith [show (1 : ℚ) / 2 ^ 50 < 1 by norm_num])
  rw [abs_le]
  constructor
  · linarith [hm'.1]
  · linarith [hm'.2]

theorem globalSumF_eq (ranks : List (List AveragedF)) (f : AveragedF → ℚ) :
    globalSumF ranks (fun p => some (f p)) = sumF ((ranks.map (List.map f)).map sumF) := by
  unfold globalSumF
  rw [List.map_map]
  congr 1
  refine List.map_congr_left fun l _ => ?_
  change sumF (l.filterMap (some ∘ f)) = sumF (l.map f)
  rw [List.filterMap_eq_map]

theorem flatten_map_sum (ranks : List (List AveragedF)) (f : AveragedF → ℚ) :
    (ranks.map (List.map f)).flatten.sum = (ranks.flatten.map f).sum := by
  rw [List.map_flatten]

theorem globalSumF_bounds {ranks : List (List AveragedF)} {f : AveragedF → ℚ} {n : ℕ} (hn : ∀ l ∈ ranks, l.length ≤ n)
    (hf : ∀ p ∈ ranks.flatten, IsF64 (f p) ∧ 0 ≤ f p) :
    (ranks.flatten.map f).sum * (1 - 1 / 2 ^ 53) ^ (n + ranks.length) ≤ globalSumF ranks (fun p => some (f p)) ∧
    globalSumF ranks (fun p => some (f p)) ≤ (ranks.flatten.map f).sum * (1 + 1 / 2 ^ 53) ^ (n + ranks.length) := by
  have := ranks_bounds (ranks.map (List.map f)) (by
    intro l hl a ha
    obtain ⟨l', hl', rfl⟩ := List.mem_map.1 hl
    obtain ⟨p, hp, rfl⟩ := List.mem_map.1 ha
    exact hf p (List.mem_flatten.2 ⟨l', hl', hp⟩)) (n := n) (by
    intro l hl
    obtain ⟨l', hl', rfl⟩ := List.mem_map.1 hl
    rw [List.length_map]
    exact hn l' hl')
  rw [flatten_map_sum, List.length_map] at this
  rw [globalSumF_eq]
  exact this

/-- The weighted mean of a quantity. -/
def Mean (ps : List AveragedF) (w x : AveragedF → ℚ) : ℚ := (ps.map fun p => w p * x p).sum / (ps.map w).sum

/-- The average of terms which are right up to a relative error. -/
theorem average_accurate {ranks : List (List AveragedF)} {w x f : AveragedF → ℚ} {v : ℚ} {n : ℕ} (hn : ∀ l ∈ ranks, l.length ≤ n)
    (hN : n + ranks.length ≤ 2 ^ 40) (hne : ranks.flatten ≠ []) (hw : ∀ p ∈ ranks.flatten, IsF64 (w p) ∧ 0 < w p)
    (hx : ∀ p ∈ ranks.flatten, 0 ≤ x p) (hv : 0 ≤ v) (hv' : v ≤ 3 / 2 ^ 53)
    (hf : ∀ p ∈ ranks.flatten, IsF64 (f p) ∧ w p * x p * (1 - v) ≤ f p ∧ f p ≤ w p * x p * (1 + v)) :
    ∃ m, quotientF (globalSumF ranks fun p => some (f p)) (globalSumF ranks fun p => some (w p)) = some m ∧
      |m - Mean ranks.flatten w x| ≤
        (3 * ((n + ranks.length : ℕ) : ℚ) / 2 ^ 53 + 2 * v + 2 / 2 ^ 53) * Mean ranks.flatten w x + 1 / 2 ^ 1074 := by
  have hv1 : 0 ≤ 1 - v := by linarith [show (3 : ℚ) / 2 ^ 53 < 1 by norm_num]
  have hwx : ∀ p ∈ ranks.flatten, 0 ≤ w p * x p := fun p hp => mul_nonneg (hw p hp).2.le (hx p hp)
  have hf0 : ∀ p ∈ ranks.flatten, 0 ≤ f p := fun p hp => (mul_nonneg (hwx p hp) hv1).trans (hf p hp).2.1
  obtain ⟨a1, a2⟩ := globalSumF_bounds hn (f := f) fun p hp => ⟨(hf p hp).1, hf0 p hp⟩
  obtain ⟨b1, b2⟩ := globalSumF_bounds hn (f := w) fun p hp => ⟨(hw p hp).1, (hw p hp).2.le⟩
  have s1 : (ranks.flatten.map fun p => w p * x p).sum * (1 - v) ≤ (ranks.flatten.map f).sum := by
    rw [← List.sum_map_mul_right]
    exact List.sum_le_sum fun p hp => (hf p hp).2.1
  have s2 : (ranks.flatten.map f).sum ≤ (ranks.flatten.map fun p => w p * x p).sum * (1 + v) := by
    rw [← List.sum_map_mul_right]
    exact List.sum_le_sum fun p hp => (hf p hp).2.2
  have hA : 0 ≤ (ranks.flatten.map fun p => w p * x p).sum := List.sum_nonneg (by
    intro a ha
    obtain ⟨p, hp, rfl⟩ := List.mem_map.1 ha
    exact hwx p hp)
  have hB : 0 < (ranks.flatten.map w).sum := List.sum_pos _ (by
    intro a ha
    obtain ⟨p, hp, rfl⟩ := List.mem_map.1 ha
    exact (hw p hp).2) (by simpa using hne)
  have hS : 0 ≤ (ranks.flatten.map f).sum := le_trans (mul_nonneg hA hv1) s1
  generalize hNd : n + ranks.length = N at *
  have c1 := pow_low N
  have c2 := pow_high hN
  have hNq : (N : ℚ) ≤ 2 ^ 40 := by exact_mod_cast hN
  have he : (0 : ℚ) ≤ (N : ℚ) / 2 ^ 53 := by positivity
  have he' : (N : ℚ) / 2 ^ 53 ≤ 1 / 2 ^ 13 := by
    calc (N : ℚ) / 2 ^ 53 ≤ 2 ^ 40 / 2 ^ 53 := div_le_div_of_nonneg_right hNq (by norm_num)
      _ = 1 / 2 ^ 13 := by norm_num
  unfold Mean
  generalize globalSumF ranks (fun p => some (f p)) = a at *
  generalize globalSumF ranks (fun p => some (w p)) = b at *
  generalize (ranks.flatten.map fun p => w p * x p).sum = A at *
  generalize (ranks.flatten.map f).sum = A' at *
  generalize (ranks.flatten.map w).sum = B at *
  have p1 : 0 ≤ 1 - (N : ℚ) / 2 ^ 53 := by linarith [show (1 : ℚ) / 2 ^ 13 < 1 by norm_num]
  have p1' : 0 < 1 - (N : ℚ) / 2 ^ 53 := by linarith [show (1 : ℚ) / 2 ^ 13 < 1 by norm_num]
  have k1 : A * (1 - v) * (1 - (N : ℚ) / 2 ^ 53) ≤ a :=
    le_trans (le_trans (mul_le_mul_of_nonneg_right s1 p1) (mul_le_mul_of_nonneg_left c1 hS)) a1
  have k2 : a * (1 - (N : ℚ) / 2 ^ 53) ≤ A * (1 + v) := by
    refine le_trans (mul_le_mul_of_nonneg_right a2 p1) ?_
    rw [mul_assoc]
    exact le_trans (mul_le_of_le_one_right hS c2) s2
  have k3 : B * (1 - (N : ℚ) / 2 ^ 53) ≤ b := le_trans (mul_le_mul_of_nonneg_left c1 hB.le) b1
  have k4 : b * (1 - (N : ℚ) / 2 ^ 53) ≤ B := by
    refine le_trans (mul_le_mul_of_nonneg_right b2 p1) ?_
    rw [mul_assoc]
    exact mul_le_of_le_one_right hB.le c2
  have hb : 0 < b := lt_of_lt_of_le (mul_pos hB p1') k3
  have ha : 0 ≤ a := le_trans (mul_nonneg (mul_nonneg hA hv1) p1) k1
  refine ⟨a ⊘ b, ?_, ?_⟩
  · unfold quotientF
    rw [if_neg hb.ne']
  · have hm := fl_abs_err (a / b)
    rw [abs_of_nonneg (div_nonneg ha hb.le), div_eq_mul_one_div (a / b)] at hm
    have h3 : v ≤ 3 * (1 / 2 ^ 53) := hv'.trans (by norm_num)
    generalize (1 : ℚ) / 2 ^ 1074 = η at *
    refine le_trans (quotient_error hB hA he he' rfl hv h3 k1 k2 k3 k4 hm) (le_of_eq ?_)
    ring

theorem globalSumF_mono {ranks : List (List AveragedF)} {f g : AveragedF → ℚ} (h : ∀ p ∈ ranks.flatten, f p ≤ g p) :
    globalSumF ranks (fun p => some (f p)) ≤ globalSumF ranks (fun p => some (g p)) := by
  rw [globalSumF_eq, globalSumF_eq, List.map_map, List.map_map]
  exact sumF_mono ranks _ _ fun l hl => sumF_mono l f g fun p hp => h p (List.mem_flatten.2 ⟨l, hl, hp⟩)

/-! ### The theorems -/

/-- A number which is not tiny: zero or at least `2^-400`. -/
def NotTiny (x : ℚ) : Prop := IsF64 x ∧ (x = 0 ∨ 1 / 2 ^ 400 ≤ x)

/-- Masses and volumes are positive, nothing is tiny, and there are not too many particles. -/
structure SeriesOk (ranks : List (List AveragedF)) (n : ℕ) : Prop where
  some_particles : ranks.flatten ≠ []
  lengths : ∀ l ∈ ranks, l.length ≤ n
  number : n + ranks.length ≤ 2 ^ 40
  weights : ∀ p ∈ ranks.flatten, IsF64 p.mass ∧ 1 / 2 ^ 400 ≤ p.mass ∧ IsF64 p.volume ∧ 1 / 2 ^ 400 ≤ p.volume
  values : ∀ p ∈ ranks.flatten, NotTiny p.fraction ∧ NotTiny p.temperature

theorem NotTiny.nonneg {x : ℚ} (h : NotTiny x) : 0 ≤ x := by
  rcases h.2 with h | h
  · exact h.ge
  · exact le_trans (by positivity) h

theorem tiny_split : (1 : ℚ) / 2 ^ 1000 ≤ 1 / 2 ^ 400 * (1 / 2 ^ 400) := by
  rw [div_mul_div_comm, one_mul, ← pow_add]
  exact one_div_le_one_div_of_le (by positivity) (pow_le_pow_right₀ one_le_two (by decide))

theorem NotTiny.mul {w x : ℚ} (hw : 1 / 2 ^ 400 ≤ w) (hx : NotTiny x) :
    w * x * (1 - 1 / 2 ^ 53) ≤ fl (w * x) ∧ fl (w * x) ≤ w * x * (1 + 1 / 2 ^ 53) := by
  rcases hx.2 with h | h
  · rw [h, mul_zero, fl_zero]
    norm_num
  · refine fl_pos_bounds (tiny_split.trans ?_)
    exact mul_le_mul hw h (by positivity) (le_trans (by positivity) hw)

theorem small_pos {w : ℚ} (hw : 1 / 2 ^ 400 ≤ w) : 0 < w := lt_of_lt_of_le (by positivity) hw

/-- A computed average `m` of `x` with the weights `w`, with the number `N` of the roundings of a sum. -/
def IsAverage (N : ℕ) (ps : List AveragedF) (w x : AveragedF → ℚ) (m : ℚ) : Prop :=
  |m - Mean ps w x| ≤ (3 * (N : ℚ) + 4) / 2 ^ 53 * Mean ps w x + 1 / 2 ^ 1074

theorem average_product {ranks : List (List AveragedF)} {w x f : AveragedF → ℚ} {n : ℕ} (h : SeriesOk ranks n)
    (hw : ∀ p ∈ ranks.flatten, IsF64 (w p) ∧ 1 / 2 ^ 400 ≤ w p) (hx : ∀ p ∈ ranks.flatten, NotTiny (x p))
    (hf : ∀ p, f p = fl (w p * x p)) :
    ∃ m, quotientF (globalSumF ranks fun p => some (f p)) (globalSumF ranks fun p => some (w p)) = some m ∧
      IsAverage (n + ranks.length) ranks.flatten w x m := by
  obtain ⟨m, h1, h2⟩ := average_accurate (w := w) (x := x) (f := f) (v := 1 / 2 ^ 53) h.lengths h.number h.some_particles
    (fun p hp => ⟨(hw p hp).1, small_pos (hw p hp).2⟩) (fun p hp => (hx p hp).nonneg) (by norm_num) (by norm_num)
    (by
      intro p hp
      rw [hf]
      exact ⟨isF64_fl _, NotTiny.mul (hw p hp).2 (hx p hp)⟩)
  refine ⟨m, h1, h2.trans (le_of_eq ?_)⟩
  generalize (1 : ℚ) / 2 ^ 1074 = η
  ring

/-- **C138.**  The averages of the ionized fraction and of the temperature are the means weighted with mass and volume, up to a relative
error of the number of the particles of a rank and of the ranks times three units of roundoff. -/
theorem series_f64 {ranks : List (List AveragedF)} {n : ℕ} (h : SeriesOk ranks n) :
    ∃ a b c d, (computeTimeSeriesF ranks).massFraction = some a ∧ (computeTimeSeriesF ranks).volumeFraction = some b ∧
      (computeTimeSeriesF ranks).massTemperature = some c ∧ (computeTimeSeriesF ranks).volumeTemperature = some d ∧
      IsAverage (n + ranks.length) ranks.flatten (·.mass) (·.fraction) a ∧
      IsAverage (n + ranks.length) ranks.flatten (·.volume) (·.fraction) b ∧
      IsAverage (n + ranks.length) ranks.flatten (·.mass) (·.temperature) c ∧
      IsAverage (n + ranks.length) ranks.flatten (·.volume) (·.temperature) d := by
  have wm : ∀ p ∈ ranks.flatten, IsF64 p.mass ∧ 1 / 2 ^ 400 ≤ p.mass := fun p hp => ⟨(h.weights p hp).1, (h.weights p hp).2.1⟩
  have wv : ∀ p ∈ ranks.flatten, IsF64 p.volume ∧ 1 / 2 ^ 400 ≤ p.volume := fun p hp => (h.weights p hp).2.2
  have xf : ∀ p ∈ ranks.flatten, NotTiny p.fraction := fun p hp => (h.values p hp).1
  have xt : ∀ p ∈ ranks.flatten, NotTiny p.temperature := fun p hp => (h.values p hp).2
  obtain ⟨a, a1, a2⟩ := average_product h (f := fun p => p.mass ⊠ p.fraction) wm xf fun p => rfl
  obtain ⟨b, b1, b2⟩ := average_product h (f := fun p => p.volume ⊠ p.fraction) wv xf fun p => rfl
  obtain ⟨c, c1, c2⟩ := average_product h (f := fun p => p.temperature ⊠ p.mass) wm xt fun p => congrArg fl (mul_comm _ _)
  obtain ⟨d, d1, d2⟩ := average_product h (f := fun p => p.temperature ⊠ p.volume) wv xt fun p => congrArg fl (mul_comm _ _)
  exact ⟨a, b, c, d, a1, b1, c1, d1, a2, b2, c2, d2⟩

/-- The photoionization rates of the particles. -/
def RatesOk (ranks : List (List AveragedF)) (rate : AveragedF → ℚ) : Prop :=
  ∀ p ∈ ranks.flatten, p.rate = some (rate p) ∧ NotTiny (rate p) ∧ 1 / 2 ^ 100 ≤ p.fraction ∧ (rate p = 0 ∨ 1 / 2 ^ 100 ≤ rate p) ∧
    1 / 2 ^ 400 ≤ p.volume

theorem globalSumF_congr {ranks : List (List AveragedF)} {f g : AveragedF → Option ℚ} (h : ∀ p ∈ ranks.flatten, f p = g p) :
    globalSumF ranks f = globalSumF ranks g := by
  unfold globalSumF
  congr 1
  refine List.map_congr_left fun l hl => ?_
  congr 1
  exact List.filterMap_congr fun p hp => h p (List.mem_flatten.2 ⟨l, hl, hp⟩)

/-- **C138.**  The averages of the photoionization rate, if all particles have one. -/
theorem series_rates_f64 {ranks : List (List AveragedF)} {n : ℕ} (h : SeriesOk ranks n) {rate : AveragedF → ℚ} (hr : RatesOk ranks rate) :
    ∃ a b, (computeTimeSeriesF ranks).rate = some a ∧ (computeTimeSeriesF ranks).weightedRate = some b ∧
      IsAverage (n + ranks.length) ranks.flatten (·.volume) rate a ∧
      |b - Mean ranks.flatten (·.volume) (fun p => rate p * p.fraction)| ≤
        (3 * ((n + ranks.length : ℕ) : ℚ) + 8) / 2 ^ 53 * Mean ranks.flatten (·.volume) (fun p => rate p * p.fraction) + 1 / 2 ^ 1074 := by
  have wv : ∀ p ∈ ranks.flatten, IsF64 p.volume ∧ 1 / 2 ^ 400 ≤ p.volume := fun p hp => (h.weights p hp).2.2
  obtain ⟨a, a1, a2⟩ := average_product h (f := fun p => rate p ⊠ p.volume) wv (fun p hp => (hr p hp).2.1)
    fun p => congrArg fl (mul_comm _ _)
  obtain ⟨b, b1, b2⟩ := average_accurate (w := (·.volume)) (x := fun p => rate p * p.fraction)
    (f := fun p => rate p ⊠ p.fraction ⊠ p.volume) (v := 3 / 2 ^ 53) h.lengths h.number h.some_particles
    (fun p hp => ⟨(wv p hp).1, small_pos (wv p hp).2⟩)
    (fun p hp => mul_nonneg (hr p hp).2.1.nonneg (h.values p hp).1.nonneg) (by norm_num) (by norm_num)
    (by
      intro p hp
      refine ⟨isF64_fl _, ?_⟩
      obtain ⟨-, -, r3, r4, r5⟩ := hr p hp
      have hfr : 0 < p.fraction := lt_of_lt_of_le (by positivity) r3
      rcases r4 with r4 | r4
      · rw [r4]
        unfold fmul
        rw [zero_mul, fl_zero, zero_mul, fl_zero, mul_zero]
        norm_num
      · have q : (1 : ℚ) / 2 ^ 200 ≤ rate p * p.fraction := by
          calc (1 : ℚ) / 2 ^ 200 = 1 / 2 ^ 100 * (1 / 2 ^ 100) := by norm_num
            _ ≤ _ := mul_le_mul r4 r3 (by positivity) (le_trans (by positivity) r4)
        obtain ⟨k1, k2⟩ := fl_pos_bounds (x := rate p * p.fraction) (le_trans
          (one_div_le_one_div_of_le (by positivity) (pow_le_pow_right₀ one_le_two (by decide))) q)
        have hq : 0 < rate p * p.fraction := lt_of_lt_of_le (by positivity) q
        have q2 : (1 : ℚ) / 2 ^ 400 ≤ fl (rate p * p.fraction) := by
          refine le_trans ?_ k1
          calc (1 : ℚ) / 2 ^ 400 ≤ 1 / 2 ^ 200 * (1 / 2) := by
                rw [div_mul_div_comm, one_mul, ← pow_succ]
                exact one_div_le_one_div_of_le (by positivity) (pow_le_pow_right₀ one_le_two (by decide))
            _ ≤ _ := mul_le_mul q (by norm_num) (by norm_num) hq.le
        obtain ⟨j1, j2⟩ := fl_pos_bounds (x := fl (rate p * p.fraction) * p.volume)
          (tiny_split.trans (mul_le_mul q2 r5 (by positivity) (le_trans (by positivity) q2)))
        have hv : 0 < p.volume := small_pos r5
        change p.volume * (rate p * p.fraction) * (1 - 3 / 2 ^ 53) ≤ fl (fl (rate p * p.fraction) * p.volume) ∧
          fl (fl (rate p * p.fraction) * p.volume) ≤ p.volume * (rate p * p.fraction) * (1 + 3 / 2 ^ 53)
        generalize fl (fl (rate p * p.fraction) * p.volume) = z at *
        generalize fl (rate p * p.fraction) = y at *
        generalize rate p * p.fraction = t at *
        have hvt : 0 < p.volume * t := mul_pos hv hq
        constructor
        · refine le_trans ?_ j1
          refine le_trans ?_ (mul_le_mul_of_nonneg_right (mul_le_mul_of_nonneg_right k1 hv.le) (by norm_num))
          calc p.volume * t * (1 - 3 / 2 ^ 53) ≤ p.volume * t * ((1 - 1 / 2 ^ 53) * (1 - 1 / 2 ^ 53)) :=
                mul_le_mul_of_nonneg_left (by norm_num) hvt.le
            _ = _ := by ring
        · refine le_trans j2 ?_
          refine le_trans (mul_le_mul_of_nonneg_right (mul_le_mul_of_nonneg_right k2 hv.le) (by norm_num)) ?_
          calc t * (1 + 1 / 2 ^ 53) * p.volume * (1 + 1 / 2 ^ 53) = p.volume * t * ((1 + 1 / 2 ^ 53) * (1 + 1 / 2 ^ 53)) := by ring
            _ ≤ _ := mul_le_mul_of_nonneg_left (by norm_num) hvt.le)
  refine ⟨a, b, ?_, ?_, a2, b2.trans (le_of_eq ?_)⟩
  · rw [← a1]
    change quotientF (globalSumF ranks fun p => p.rate.map (· ⊠ p.volume)) _ = _
    rw [globalSumF_congr fun p hp => by rw [(hr p hp).1]]
    rfl
  · rw [← b1]
    change quotientF (globalSumF ranks fun p => p.rate.map (· ⊠ p.fraction ⊠ p.volume)) _ = _
    rw [globalSumF_congr fun p hp => by rw [(hr p hp).1]]
    rfl
  · generalize (1 : ℚ) / 2 ^ 1074 = η
    ring

/-- **C138.**  The averages of the ionized fraction never leave the interval from zero to one, in spite of the rounding. -/
theorem fractions_f64 {ranks : List (List AveragedF)} (h : ∀ p ∈ ranks.flatten, IsF64 p.mass ∧ 0 ≤ p.mass ∧ IsF64 p.volume ∧ 0 ≤ p.volume ∧
      0 ≤ p.fraction ∧ p.fraction ≤ 1) :
    (∀ a, (computeTimeSeriesF ranks).massFraction = some a → 0 ≤ a ∧ a ≤ 1) ∧
    ∀ a, (computeTimeSeriesF ranks).volumeFraction = some a → 0 ≤ a ∧ a ≤ 1 := by
  have key : ∀ w : AveragedF → ℚ, (∀ p ∈ ranks.flatten, IsF64 (w p) ∧ 0 ≤ w p ∧ 0 ≤ p.fraction ∧ p.fraction ≤ 1) →
      ∀ a, quotientF (globalSumF ranks fun p => some (w p ⊠ p.fraction)) (globalSumF ranks fun p => some (w p)) = some a → 0 ≤ a ∧ a ≤ 1 := by
    intro w hw a ha
    unfold quotientF at ha
    split at ha
    · cases ha
    · rename_i hb
      have hz : globalSumF ranks (fun _ => some 0) = 0 := by
        have z : ∀ l : List AveragedF, sumF (l.map fun _ => (0 : ℚ)) = 0 := by
          intro l
          unfold sumF
          induction l with
          | nil => rfl
          | cons _ l ih =>
            rw [List.map_cons, List.foldl_cons]
            change List.foldl _ (fl (0 + 0)) _ = 0
            rw [add_zero, fl_zero]
            exact ih
        rw [globalSumF_eq, List.map_map]
        have : (sumF ∘ List.map fun _ : AveragedF => (0 : ℚ)) = fun _ => 0 := funext z
        rw [this]
        unfold sumF
        induction ranks with
        | nil => rfl
        | cons _ l ih =>
          rw [List.map_cons, List.foldl_cons]
          change List.foldl _ (fl (0 + 0)) _ = 0
          rw [add_zero, fl_zero]
          clear ha hb h hw ih
          induction l with
          | nil => rfl
          | cons _ l ih =>
            rw [List.map_cons, List.foldl_cons]
            change List.foldl _ (fl (0 + 0)) _ = 0
            rw [add_zero, fl_zero]
            exact ih
      have n0 := globalSumF_mono (ranks := ranks) (f := fun _ => 0) (g := fun p => w p ⊠ p.fraction)
        fun p hp => fl_nonneg (mul_nonneg (hw p hp).2.1 (hw p hp).2.2.1)
      have b0 := globalSumF_mono (ranks := ranks) (f := fun _ => 0) (g := fun p => w p) fun p hp => (hw p hp).2.1
      have ab := globalSumF_mono (ranks := ranks) (f := fun p => w p ⊠ p.fraction) (g := fun p => w p) fun p hp => by
        calc w p ⊠ p.fraction ≤ fl (w p) := fl_mono (mul_le_of_le_one_right (hw p hp).2.1 (hw p hp).2.2.2)
          _ = w p := (hw p hp).1
      rw [hz] at n0 b0
      cases ha
      have hpos := lt_of_le_of_ne b0 (Ne.symm hb)
      refine ⟨fl_nonneg (div_nonneg n0 b0), ?_⟩
      calc _ ≤ fl 1 := fl_mono ((div_le_one hpos).2 ab)
        _ = 1 := by decide +kernel
  exact ⟨key (·.mass) fun p hp => ⟨(h p hp).1, (h p hp).2.1, (h p hp).2.2.2.2⟩,
    key (·.volume) fun p hp => ⟨(h p hp).2.2.1, (h p hp).2.2.2.1, (h p hp).2.2.2.2⟩⟩

theorem Mean.nonneg {ps : List AveragedF} {w x : AveragedF → ℚ} (hw : ∀ p ∈ ps, 0 ≤ w p) (hx : ∀ p ∈ ps, 0 ≤ x p) : 0 ≤ Mean ps w x := by
  refine div_nonneg (List.sum_nonneg ?_) (List.sum_nonneg ?_)
  · intro a ha
    obtain ⟨p, hp, rfl⟩ := List.mem_map.1 ha
    exact mul_nonneg (hw p hp) (hx p hp)
  · intro a ha
    obtain ⟨p, hp, rfl⟩ := List.mem_map.1 ha
    exact hw p hp

theorem Mean.range {ps : List AveragedF} {w x : AveragedF → ℚ} {lo hi : ℚ} (hne : ps ≠ []) (hw : ∀ p ∈ ps, 0 < w p)
    (hx : ∀ p ∈ ps, lo ≤ x p ∧ x p ≤ hi) : lo ≤ Mean ps w x ∧ Mean ps w x ≤ hi := by
  have hB : 0 < (ps.map w).sum := List.sum_pos _ (by
    intro a ha
    obtain ⟨p, hp, rfl⟩ := List.mem_map.1 ha
    exact hw p hp) (by simpa using hne)
  unfold Mean
  rw [le_div_iff₀ hB, div_le_iff₀ hB, ← List.sum_map_mul_left, ← List.sum_map_mul_left]
  constructor
  · refine List.sum_le_sum fun p hp => ?_
    rw [mul_comm]
    exact mul_le_mul_of_nonneg_left (hx p hp).1 (hw p hp).le
  · refine List.sum_le_sum fun p hp => ?_
    rw [mul_comm hi]
    exact mul_le_mul_of_nonneg_left (hx p hp).2 (hw p hp).le

/-- **C138.**  The average temperatures are between the lowest and the highest temperature up to rounding. -/
theorem temperatures_f64 {ranks : List (List AveragedF)} {n : ℕ} (h : SeriesOk ranks n) {lo hi c : ℚ}
    (hT : ∀ p ∈ ranks.flatten, lo ≤ p.temperature ∧ p.temperature ≤ hi)
    (hc : (computeTimeSeriesF ranks).massTemperature = some c ∨ (computeTimeSeriesF ranks).volumeTemperature = some c) :
    lo - (3 * ((n + ranks.length : ℕ) : ℚ) + 4) / 2 ^ 53 * hi - 1 / 2 ^ 1074 ≤ c ∧
    c ≤ hi + (3 * ((n + ranks.length : ℕ) : ℚ) + 4) / 2 ^ 53 * hi + 1 / 2 ^ 1074 := by
  obtain ⟨_, _, c', d', -, -, c1, d1, -, -, c2, d2⟩ := series_f64 h
  have key : ∀ w : AveragedF → ℚ, (∀ p ∈ ranks.flatten, 0 < w p) → IsAverage (n + ranks.length) ranks.flatten w (·.temperature) c →
      lo - (3 * ((n + ranks.length : ℕ) : ℚ) + 4) / 2 ^ 53 * hi - 1 / 2 ^ 1074 ≤ c ∧
      c ≤ hi + (3 * ((n + ranks.length : ℕ) : ℚ) + 4) / 2 ^ 53 * hi + 1 / 2 ^ 1074 := by
    intro w hw hI
    obtain ⟨m1, m2⟩ := Mean.range h.some_particles hw hT
    unfold IsAverage at hI
    generalize (1 : ℚ) / 2 ^ 1074 = η at *
    have k : (0 : ℚ) ≤ (3 * ((n + ranks.length : ℕ) : ℚ) + 4) / 2 ^ 53 := by positivity
    generalize (3 * ((n + ranks.length : ℕ) : ℚ) + 4) / 2 ^ 53 = e at *
    have := mul_le_mul_of_nonneg_left m2 k
    have a := abs_le.1 hI
    constructor <;> linarith [a.1, a.2]
  rcases hc with hc | hc
  · rw [c1] at hc
    cases hc
    exact key _ (fun p hp => small_pos (h.weights p hp).2.1) c2
  · rw [d1] at hc
    cases hc
    exact key _ (fun p hp => small_pos (h.weights p hp).2.2.2) d2

/-- **C138.**  Another distribution of the particles over ranks, or another order of the particles, changes the averages by not more than
the errors of both. -/
theorem distribution_f64 {ranks ranks' : List (List AveragedF)} {n n' : ℕ} (h : SeriesOk ranks n) (h' : SeriesOk ranks' n')
    (hp : ranks.flatten.Perm ranks'.flatten) :
    ∃ c c', (computeTimeSeriesF ranks).massTemperature = some c ∧ (computeTimeSeriesF ranks').massTemperature = some c' ∧
      |c - c'| ≤ (3 * ((n + ranks.length : ℕ) : ℚ) + 3 * ((n' + ranks'.length : ℕ) : ℚ) + 8) / 2 ^ 53 *
        Mean ranks.flatten (·.mass) (·.temperature) + 2 / 2 ^ 1074 := by
  obtain ⟨_, _, c, _, -, -, c1, -, -, -, c2, -⟩ := series_f64 h
  obtain ⟨_, _, d, _, -, -, d1, -, -, -, d2, -⟩ := series_f64 h'
  refine ⟨c, d, c1, d1, ?_⟩
  have e : Mean ranks'.flatten (·.mass) (·.temperature) = Mean ranks.flatten (·.mass) (·.temperature) := by
    unfold Mean
    rw [(hp.map _).sum_eq, (hp.map _).sum_eq]
  unfold IsAverage at c2 d2
  rw [e] at d2
  have e2 : (2 : ℚ) / 2 ^ 1074 = 2 * (1 / 2 ^ 1074) := by rw [mul_one_div]
  rw [e2]
  generalize (1 : ℚ) / 2 ^ 1074 = η at *
  generalize Mean ranks.flatten (·.mass) (·.temperature) = M at *
  have a1 := abs_le.1 c2
  have a2 := abs_le.1 d2
  rw [abs_le]
  have r : (3 * ((n + ranks.length : ℕ) : ℚ) + 3 * ((n' + ranks'.length : ℕ) : ℚ) + 8) / 2 ^ 53 * M =
      (3 * ((n + ranks.length : ℕ) : ℚ) + 4) / 2 ^ 53 * M + (3 * ((n' + ranks'.length : ℕ) : ℚ) + 4) / 2 ^ 53 * M := by ring
  rw [r]
  constructor <;> linarith [a1.1, a1.2, a2.1, a2.2]

/-! ### Examples -/

/-- a particle with a temperature -/
def exampleParticle (t : ℚ) : AveragedF := ⟨1, 2, 1 / 2, t, some 4⟩

/-- **C138.**  The averages depend on the distribution over ranks: the same particles on one and on two ranks. -/
theorem series_depends_f64 :
    ∃ ranks ranks' : List (List AveragedF), ranks.flatten = ranks'.flatten ∧
      (computeTimeSeriesF ranks).massTemperature ≠ (computeTimeSeriesF ranks').massTemperature :=
  ⟨[[exampleParticle (2 ^ 53), exampleParticle 1, exampleParticle 1]], [[exampleParticle (2 ^ 53)], [exampleParticle 1, exampleParticle 1]], rfl, by
    decide +kernel⟩

theorem example_ok : SeriesOk [[exampleParticle 100, exampleParticle 0], [exampleParticle 300]] 2 := by
  have small : ∀ x : ℚ, 1 / 4 ≤ x → (1 : ℚ) / 2 ^ 400 ≤ x := fun x hx =>
    le_trans (le_trans (one_div_le_one_div_of_le (by norm_num) (pow_le_pow_right₀ one_le_two (by decide : 2 ≤ 400))) (by norm_num)) hx
  refine ⟨by decide, by decide, by decide, ?_, ?_⟩
  · intro p hp
    simp only [List.flatten_cons, List.flatten_nil, List.append_nil, List.cons_append, List.nil_append, List.mem_cons, List.not_mem_nil,
      or_false] at hp
    rcases hp with rfl | rfl | rfl <;>
      exact ⟨by change fl 1 = 1; decide +kernel, small _ (by change (1 : ℚ) / 4 ≤ 1; norm_num), by change fl 2 = 2; decide +kernel,
        small _ (by change (1 : ℚ) / 4 ≤ 2; norm_num)⟩
  · intro p hp
    simp only [List.flatten_cons, List.flatten_nil, List.append_nil, List.cons_append, List.nil_append, List.mem_cons, List.not_mem_nil,
      or_false] at hp
    have half : NotTiny (1 / 2) := ⟨by change fl (1 / 2) = 1 / 2; decide +kernel, Or.inr (small _ (by norm_num))⟩
    rcases hp with rfl | rfl | rfl
    · exact ⟨half, by change fl 100 = 100; decide +kernel, Or.inr (small _ (by change (1 : ℚ) / 4 ≤ 100; norm_num))⟩
    · exact ⟨half, by change fl 0 = 0; decide +kernel, Or.inl rfl⟩
    · exact ⟨half, by change fl 300 = 300; decide +kernel, Or.inr (small _ (by change (1 : ℚ) / 4 ≤ 300; norm_num))⟩

example : (computeTimeSeriesF [[exampleParticle 100, exampleParticle 0], [exampleParticle 300]]).massTemperature =
    some (fl (400 / 3)) := by decide +kernel

example : (computeTimeSeriesF [[exampleParticle 100, exampleParticle 0], [exampleParticle 300]]).weightedRate = some 2 := by
  decide +kernel

example : RatesOk [[exampleParticle 100, exampleParticle 0], [exampleParticle 300]] fun _ => 4 := by
  intro p hp
  simp only [List.flatten_cons, List.flatten_nil, List.append_nil, List.cons_append, List.nil_append, List.mem_cons, List.not_mem_nil,
    or_false] at hp
  have h4 : (1 : ℚ) / 2 ^ 400 ≤ 1 := by
    rw [div_le_one (by positivity)]
    exact one_le_pow₀ one_le_two
  have k : NotTiny 4 := ⟨by change fl 4 = 4; decide +kernel, Or.inr (h4.trans (by norm_num))⟩
  rcases hp with rfl | rfl | rfl <;>
    exact ⟨rfl, k, by change (1 : ℚ) / 2 ^ 100 ≤ 1 / 2; norm_num, Or.inr (by norm_num),
      h4.trans (by change (1 : ℚ) ≤ 2; norm_num)⟩

/-- the hypotheses of `distribution_f64` -/
example : SeriesOk [[exampleParticle 100, exampleParticle 0], [exampleParticle 300]] 2 ∧
    [[exampleParticle 100, exampleParticle 0], [exampleParticle 300]].flatten.Perm
      [[exampleParticle 300], [exampleParticle 0, exampleParticle 100]].flatten :=
  ⟨example_ok, by
    refine (List.reverse_perm _).symm.trans ?_
    exact List.Perm.refl _⟩

/-- the hypotheses of `fractions_f64` -/
example : ∀ p ∈ [[exampleParticle 100, exampleParticle 0], [exampleParticle 300]].flatten,
    IsF64 p.mass ∧ 0 ≤ p.mass ∧ IsF64 p.volume ∧ 0 ≤ p.volume ∧ 0 ≤ p.fraction ∧ p.fraction ≤ 1 := by
  intro p hp
  simp only [List.flatten_cons, List.flatten_nil, List.append_nil, List.cons_append, List.nil_append, List.mem_cons, List.not_mem_nil,
    or_false] at hp
  rcases hp with rfl | rfl | rfl <;>
    exact ⟨by change fl 1 = 1; decide +kernel, by change (0 : ℚ) ≤ 1; norm_num, by change fl 2 = 2; decide +kernel,
      by change (0 : ℚ) ≤ 2; norm_num, by change (0 : ℚ) ≤ 1 / 2; norm_num, by change (1 : ℚ) / 2 ≤ 1; norm_num⟩

end Verif.Rounding
