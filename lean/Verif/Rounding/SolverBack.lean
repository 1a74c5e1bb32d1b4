import Verif.Rounding.SolverError

/-!
# Rounding errors of the backward substitution

Helper lemmas.
-/

namespace Verif.Rounding

open Verif.Predicates

/-- Two small relative changes are one. -/
theorem rel_mul {e d v n : ℚ} (hv : 0 ≤ v) (hn : 0 ≤ n) (hnv : n * v ≤ 1 / 200) (he : |e| ≤ 101 / 100 * v) (hd : |d| ≤ 102 / 100 * n * v) :
    |(1 + e) * (1 + d) - 1| ≤ 102 / 100 * (n + 1) * v := by
  have h1 : |(1 + e) * (1 + d) - 1| ≤ |e| + |d| + |e| * |d| := by
    calc |(1 + e) * (1 + d) - 1| = |e + d + e * d| := by congr 1; ring
      _ ≤ |e + d| + |e * d| := abs_add_le _ _
      _ ≤ |e| + |d| + |e| * |d| := by rw [abs_mul]; linarith [abs_add_le e d]
  have h2 : |e| * |d| ≤ 101 / 100 * v * (102 / 100 * n * v) := mul_le_mul he hd (abs_nonneg _) (by positivity)
  have h3 : 101 / 100 * v * (102 / 100 * n * v) ≤ 101 / 100 * v * (102 / 100 * (1 / 200)) := by
    refine mul_le_mul_of_nonneg_left ?_ (by positivity)
    linarith
  linarith

/-- The differences of the backward substitution: the start is the result plus the products, with small relative changes and a
tiny absolute one. -/
theorem backFold_near {m : ℕ} (b x : Fin m → ℚ) : ∀ (l : List (Fin m)) (c : ℚ), l.Nodup → l.length ≤ 2 ^ 40 →
    ∃ (α γ : ℚ) (β : Fin m → ℚ), |α| ≤ 102 / 100 * l.length * (1 / 2 ^ 53) ∧ (∀ j, |β j| ≤ 102 / 100 * l.length * (1 / 2 ^ 53)) ∧
      |γ| ≤ 5 * l.length * (1 / 2 ^ 1074) ∧
      c = (1 + α) * l.foldl (fun acc j => acc ⊟ b j ⊠ x j) c + (l.map fun j => b j * (1 + β j) * x j).sum + γ := by
  intro l
  induction l with
  | nil =>
    intro c _ _
    exact ⟨0, 0, fun _ => 0, by simp, by simp, by simp, by simp⟩
  | cons i l ih =>
    intro c hnd hlen
    rw [List.nodup_cons] at hnd
    rw [List.length_cons] at hlen
    obtain ⟨α, γ, β, h1, h2, h3, h4⟩ := ih (c ⊟ b i ⊠ x i) hnd.2 (by omega)
    obtain ⟨e, n, he, hn, hs⟩ := fl_back (c - b i ⊠ x i)
    obtain ⟨d, q, hd, hq, hp⟩ := fl_forward (b i * x i)
    change c - b i ⊠ x i = (c ⊟ b i ⊠ x i) * (1 + e) + n at hs
    change b i ⊠ x i = b i * x i * (1 + d) + q at hp
    rw [List.foldl_cons]
    generalize l.foldl (fun acc j => acc ⊟ b j ⊠ x j) (c ⊟ b i ⊠ x i) = y at *
    have hL : ((l.length : ℚ) + 1) ≤ 2 ^ 40 := by exact_mod_cast hlen
    have hL0 : (0 : ℚ) ≤ l.length := Nat.cast_nonneg _
    have hnv : (l.length : ℚ) * (1 / 2 ^ 53) ≤ 1 / 200 := by
      norm_num at hL ⊢
      linarith
    have hv : (0 : ℚ) ≤ 1 / 2 ^ 53 := by norm_num
    have he' : |e| ≤ 101 / 100 * (1 / 2 ^ 53) := by rw [mul_one_div]; exact he
    have hd' : |d| ≤ 101 / 100 * (1 / 2 ^ 53) := by rw [mul_one_div]; exact hd
    have hlc : ((i :: l).length : ℚ) = l.length + 1 := by push_cast [List.length_cons]; ring
    rw [hlc]
    refine ⟨(1 + e) * (1 + α) - 1, q + n + (1 + e) * γ, fun j => if j = i then d else (1 + e) * (1 + β j) - 1, ?_, ?_, ?_, ?_⟩
    · exact rel_mul hv hL0 hnv he' h1
    · intro j
      dsimp only
      split_ifs with hj
      · refine hd'.trans ?_
        refine mul_le_mul_of_nonneg_right ?_ hv
        linarith
      · exact rel_mul hv hL0 hnv he' (h2 j)
    · have ht : (0 : ℚ) < 1 / 2 ^ 1074 := by positivity
      generalize (1 : ℚ) / 2 ^ 1074 = t at *
      have hg : |(1 + e) * γ| ≤ |γ| + |e| * |γ| := by
        calc |(1 + e) * γ| = |γ + e * γ| := by congr 1; ring
          _ ≤ _ := by rw [← abs_mul]; exact abs_add_le _ _
      have hg2 : |e| * |γ| ≤ 101 / 100 * (1 / 2 ^ 53) * (5 * l.length * t) := mul_le_mul he' h3 (abs_nonneg _) (by positivity)
      have hg3 : 101 / 100 * (1 / 2 ^ 53) * (5 * l.length * t) ≤ 1 / 10 * t := by
        have : (l.length : ℚ) * (1 / 2 ^ 53) * t ≤ 1 / 200 * t := mul_le_mul_of_nonneg_right hnv ht.le
        calc 101 / 100 * (1 / 2 ^ 53) * (5 * l.length * t) = 505 / 100 * ((l.length : ℚ) * (1 / 2 ^ 53) * t) := by ring
          _ ≤ 505 / 100 * (1 / 200 * t) := mul_le_mul_of_nonneg_left this (by norm_num)
          _ ≤ _ := by linarith
      have h5 : |q + n + (1 + e) * γ| ≤ |q| + |n| + |(1 + e) * γ| := (abs_add_le _ _).trans (by linarith [abs_add_le q n])
      linarith
    · rw [List.map_cons, List.sum_cons]
      dsimp only
      rw [if_pos rfl]
      have hsum : (l.map fun j => b j * (1 + (if j = i then d else (1 + e) * (1 + β j) - 1)) * x j).sum
          = (1 + e) * (l.map fun j => b j * (1 + β j) * x j).sum := by
        rw [← List.sum_map_mul_left]
        congr 1
        refine List.map_congr_left fun j hj => ?_
        rw [if_neg (by rintro rfl; exact hnd.1 hj)]
        ring
      rw [hsum]
      generalize (l.map fun j => b j * (1 + β j) * x j).sum = S at *
      generalize c ⊟ b i ⊠ x i = y1 at *
      generalize b i ⊠ x i = p at *
      subst h4
      linear_combination hs + hp

/-- One step of the backward substitution makes its row an equation, up to rounding errors. -/
theorem backStepF_near {m : ℕ} (hm : m ≤ 2 ^ 40) {a : Mat m (m + 1) ℚ} (hu : UpperUntil a m) {B : ℚ} (hB : 1 / 2 ^ 200 ≤ B)
    (hb : ∀ i j, |a i j| ≤ B) {x0 x : Fin m → ℚ} {i : Fin m}
    (hx : ∀ j, i < j → x j = x0 j)
    (hi : x i = (((List.finRange m).filter (fun j => i < j)).foldl (fun acc j => acc ⊟ a i j.castSucc ⊠ x0 j) (a i (Fin.last m)))
      ⊘ a i i.castSucc) (hne : a i i.castSucc ≠ 0) :
    NearRow (a i) x 1 (103 / 100 * m * (B / 2 ^ 53)) := by
  have hB0 : 0 ≤ B := le_trans (by positivity) hB
  set l := (List.finRange m).filter (fun j => i < j) with hl
  have hnd : l.Nodup := (List.nodup_finRange m).filter _
  have hmem : ∀ j, j ∈ l ↔ i < j := by
    intro j
    rw [hl, List.mem_filter]
    simp
  have hlen : l.length + 1 ≤ m := by
    have h1 : (i :: l).Nodup := List.nodup_cons.2 ⟨fun h => lt_irrefl _ ((hmem i).1 h), hnd⟩
    have h2 := h1.length_le_card
    rw [Fintype.card_fin, List.length_cons] at h2
    exact h2
  obtain ⟨α, γ, β, h1, h2, h3, h4⟩ := backFold_near (fun j => a i j.castSucc) x0 l (a i (Fin.last m)) hnd (by omega)
  generalize hy : l.foldl (fun acc j => acc ⊟ a i j.castSucc ⊠ x0 j) (a i (Fin.last m)) = y at *
  obtain ⟨e, n, he, hn, hq⟩ := fl_back (y / a i i.castSucc)
  change y / a i i.castSucc = (y ⊘ a i i.castSucc) * (1 + e) + n at hq
  rw [← hi] at hq
  have hy' : y = a i i.castSucc * (x i * (1 + e) + n) := by rw [← hq]; field_simp
  have hL : ((l.length : ℚ) + 1) ≤ m := by exact_mod_cast hlen
  have hM : (m : ℚ) ≤ 2 ^ 40 := by exact_mod_cast hm
  have hL0 : (0 : ℚ) ≤ l.length := Nat.cast_nonneg _
  have hv : (0 : ℚ) ≤ 1 / 2 ^ 53 := by norm_num
  have hnv : (l.length : ℚ) * (1 / 2 ^ 53) ≤ 1 / 200 := by
    have h40 : (l.length : ℚ) ≤ 2 ^ 40 := by linarith
    calc _ ≤ (2 : ℚ) ^ 40 * (1 / 2 ^ 53) := mul_le_mul_of_nonneg_right h40 hv
      _ ≤ _ := by norm_num
  have he' : |e| ≤ 101 / 100 * (1 / 2 ^ 53) := by rw [mul_one_div]; exact he
  have hcoef : 102 / 100 * ((l.length : ℚ) + 1) * (1 / 2 ^ 53) ≤ 102 / 100 * m * (1 / 2 ^ 53) := by
    refine mul_le_mul_of_nonneg_right ?_ hv
    linarith
  have small : ∀ (z d : ℚ), |z| ≤ B → |d| ≤ 102 / 100 * m * (1 / 2 ^ 53) → |z * d| ≤ 103 / 100 * m * (B / 2 ^ 53) := by
    intro z d hz hd
    rw [abs_mul]
    have hm0 : (0 : ℚ) ≤ m := Nat.cast_nonneg _
    calc |z| * |d| ≤ B * (102 / 100 * m * (1 / 2 ^ 53)) := mul_le_mul hz hd (abs_nonneg _) hB0
      _ = 102 / 100 * (m * (B / 2 ^ 53)) := by ring
      _ ≤ 103 / 100 * (m * (B / 2 ^ 53)) := by
        have : 0 ≤ m * (B / 2 ^ 53) := by positivity
        linarith
      _ = _ := by ring
  -- the changed row
  refine ⟨Fin.lastCases (a i (Fin.last m) - γ - (1 + α) * a i i.castSucc * n) (fun j =>
    if j = i then a i i.castSucc * ((1 + e) * (1 + α)) else if i < j then a i j.castSucc * (1 + β j) else 0), ?_, ?_⟩
  · intro j
    refine Fin.lastCases ?_ (fun j => ?_) j
    · dsimp only
      rw [Fin.lastCases_last]
      -- the right-hand side
      have ht : (1 : ℚ) / 2 ^ 1074 ≤ 1 / 2 ^ 800 * (1 / 2 ^ 200) := by
        rw [one_div_mul_one_div, ← pow_add]
        exact one_div_le_one_div_of_le (by positivity) (pow_le_pow_right₀ (by norm_num) (by norm_num))
      have h800 : (1 : ℚ) / 2 ^ 800 ≤ 1 / 2 ^ 200 :=
        one_div_le_one_div_of_le (by positivity) (pow_le_pow_right₀ (by norm_num) (by norm_num))
      have ht0 : (0 : ℚ) < 1 / 2 ^ 1074 := by positivity
      have htB : (1 : ℚ) / 2 ^ 1074 ≤ 1 / 2 ^ 200 * B :=
        ht.trans (mul_le_mul h800 hB (by positivity) (by positivity))
      have ht1 : (1 : ℚ) / 2 ^ 1074 ≤ 1 / 2 ^ 200 := by
        refine ht.trans ?_
        calc (1 : ℚ) / 2 ^ 800 * (1 / 2 ^ 200) ≤ 1 * (1 / 2 ^ 200) :=
              mul_le_mul_of_nonneg_right (h800.trans (by norm_num)) (by positivity)
          _ = _ := one_mul _
      generalize (1 : ℚ) / 2 ^ 1074 = t at *
      have g1 : |a i (Fin.last m) - γ - (1 + α) * a i i.castSucc * n - a i (Fin.last m)| ≤ |γ| + |(1 + α) * a i i.castSucc * n| := by
        calc _ = |-(γ + (1 + α) * a i i.castSucc * n)| := by congr 1; ring
          _ ≤ _ := by rw [abs_neg]; exact abs_add_le _ _
      have g2 : |1 + α| ≤ 2 := by
        have : |1 + α| ≤ 1 + |α| := (abs_add_le _ _).trans (by rw [abs_one])
        have h6 : 102 / 100 * (l.length : ℚ) * (1 / 2 ^ 53) ≤ 1 := by linarith
        linarith
      have g3 : |(1 + α) * a i i.castSucc * n| ≤ 2 * B * (2 * t) := by
        rw [abs_mul, abs_mul]
        exact mul_le_mul (mul_le_mul g2 (hb _ _) (abs_nonneg _) (by norm_num)) hn (abs_nonneg _) (by positivity)
      have g4 : 2 * B * (2 * t) ≤ 4 * (1 / 2 ^ 200) * B := by
        have := mul_le_mul_of_nonneg_left ht1 hB0
        linarith
      have hm1 : (1 : ℚ) ≤ m := by linarith
      have g5 : 5 * (l.length : ℚ) * t ≤ 5 * (m * (1 / 2 ^ 200 * B)) := by
        have : (l.length : ℚ) * t ≤ m * (1 / 2 ^ 200 * B) := mul_le_mul (by linarith) htB ht0.le (by linarith)
        linarith
      have g6 : 4 * (1 / 2 ^ 200) * B ≤ 4 * (m * (1 / 2 ^ 200 * B)) := by
        have : 1 / 2 ^ 200 * B ≤ m * (1 / 2 ^ 200 * B) := le_mul_of_one_le_left (by positivity) hm1
        linarith
      have g7 : 9 * (m * (1 / 2 ^ 200 * B)) ≤ 103 / 100 * m * (B / 2 ^ 53) := by
        have hmB : 0 ≤ m * B := by positivity
        have e1 : 9 * (m * (1 / 2 ^ 200 * B)) = 9 / 2 ^ 200 * (m * B) := by ring
        have e2 : 103 / 100 * m * (B / 2 ^ 53) = 103 / 100 / 2 ^ 53 * (m * B) := by ring
        rw [e1, e2]
        exact mul_le_mul_of_nonneg_right (by norm_num) hmB
      linarith
    · dsimp only
      rw [Fin.lastCases_castSucc]
      by_cases hj : j = i
      · rw [if_pos hj, hj]
        have : a i i.castSucc * ((1 + e) * (1 + α)) - a i i.castSucc = a i i.castSucc * ((1 + e) * (1 + α) - 1) := by ring
        rw [this]
        exact small _ _ (hb _ _) ((rel_mul hv hL0 hnv he' h1).trans hcoef)
      · rw [if_neg hj]
        by_cases hij : i < j
        · rw [if_pos hij]
          have : a i j.castSucc * (1 + β j) - a i j.castSucc = a i j.castSucc * β j := by ring
          rw [this]
          refine small _ _ (hb _ _) ((h2 j).trans (le_trans ?_ hcoef))
          refine mul_le_mul_of_nonneg_right ?_ hv
          linarith
        · rw [if_neg hij]
          have hlt : j < i := lt_of_le_of_ne (not_lt.1 hij) hj
          rw [hu i j.castSucc i.isLt (by simpa using hlt)]
          simp
          positivity
  · unfold resid
    simp only [Fin.lastCases_castSucc, Fin.lastCases_last]
    have hsplit : ∀ j, (if j = i then a i i.castSucc * ((1 + e) * (1 + α)) else if i < j then a i j.castSucc * (1 + β j) else 0) * x j
        = (if j = i then a i i.castSucc * ((1 + e) * (1 + α)) * x i else 0) +
          (if i < j then a i j.castSucc * (1 + β j) * x0 j else 0) := by
      intro j
      by_cases hj : j = i
      · subst hj; simp
      · by_cases hij : i < j
        · rw [if_neg hj, if_neg hj, if_pos hij, if_pos hij, hx j hij]; ring
        · rw [if_neg hj, if_neg hj, if_neg hij, if_neg hij]; ring
    rw [Finset.sum_congr rfl fun j _ => hsplit j, Finset.sum_add_distrib, Finset.sum_ite_eq', if_pos (Finset.mem_univ _),
      ← sum_filter_finRange, ← hl]
    generalize (l.map fun j => a i j.castSucc * (1 + β j) * x0 j).sum = S at *
    generalize a i i.castSucc = z at *
    generalize a i (Fin.last m) = c at *
    linear_combination (-1 : ℚ) * h4 - (1 + α) * hy'

theorem backwardF_near {m : ℕ} (hm : m ≤ 2 ^ 40) {a : Mat m (m + 1) ℚ} (hu : UpperUntil a m) {B : ℚ} (hB : 1 / 2 ^ 200 ≤ B)
    (hb : ∀ i j, |a i j| ≤ B) :
    ∀ (l : List (Fin m)) (x0 x : Fin m → ℚ), l.Pairwise (fun i j => j < i) →
      l.foldlM (backStepF a) x0 = some x →
      (∀ j, j ∉ l → x j = x0 j) ∧ (∀ i ∈ l, NearRow (a i) x 1 (103 / 100 * m * (B / 2 ^ 53))) := by
  intro l
  induction l with
  | nil =>
    intro x0 x _ h
    simp only [List.foldlM_nil] at h
    cases h
    exact ⟨fun _ _ => rfl, by simp⟩
  | cons y l ih =>
    intro x0 x hp h
    rw [List.pairwise_cons] at hp
    rw [List.foldlM_cons] at h
    rcases Option.bind_eq_some_iff.1 h with ⟨x1, h1, h2⟩
    unfold backStepF at h1
    dsimp only at h1
    by_cases hz : a y y.castSucc = 0
    · rw [if_pos hz] at h1
      cases h1
    · rw [if_neg hz] at h1
      obtain ⟨i2, i3⟩ := ih x1 x hp.2 h2
      have hx1 : x1 = _ := (Option.some.inj h1).symm
      have hyl : y ∉ l := fun hy => lt_irrefl _ (hp.1 y hy)
      refine ⟨?_, ?_⟩
      · intro j hj
        have hj1 : j ∉ l := fun hh => hj (List.mem_cons_of_mem _ hh)
        have hj2 : j ≠ y := fun hh => hj (by simp [hh])
        rw [i2 j hj1, hx1, Function.update_of_ne hj2]
      · intro i hi
        rcases List.mem_cons.1 hi with rfl | hi
        · refine backStepF_near hm hu hB hb (x0 := x0) ?_ ?_ hz
          · intro j hj
            have hjl : j ∉ l := fun hh => lt_asymm hj (hp.1 j hh)
            rw [i2 j hjl, hx1, Function.update_of_ne hj.ne']
          · rw [i2 i hyl, hx1, Function.update_self]
        · exact i3 i hi

theorem backwardF_none {m : ℕ} {a : Mat m (m + 1) ℚ} :
    ∀ (l : List (Fin m)) (x0 : Fin m → ℚ), l.foldlM (backStepF a) x0 = none → ∃ i ∈ l, a i i.castSucc = 0 := by
  intro l
  induction l with
  | nil => intro x0 h; cases h
  | cons y l ih =>
    intro x0 h
    by_cases hz : a y y.castSucc = 0
    · exact ⟨y, by simp, hz⟩
    · rw [List.foldlM_cons] at h
      have e : backStepF a x0 y = some _ := if_neg hz
      rw [e] at h
      obtain ⟨i, hi, h0⟩ := ih _ h
      exact ⟨i, by simp [hi], h0⟩

/-- The error of a solution of `m` equations, in units of the rounding error of the largest entry. -/
theorem solver_constant (m : ℕ) (hm : 1 ≤ m) (B : ℚ) (hB : 0 ≤ B) :
    2 ^ (m - 1 - 0) * (103 / 100 * m * ((201 / 100) ^ (m - 1 - 0) * B / 2 ^ 53))
      + (2 ^ (m - 1 - 0) - 1) * (4 * ((201 / 100) ^ (m - 1 - 0) * B / 2 ^ 53))
    ≤ (402 / 100 : ℚ) ^ (m - 1) * (103 / 100 * m + 4) * (B / 2 ^ 53) := by
  have e : (402 / 100 : ℚ) ^ (m - 1) = 2 ^ (m - 1) * (201 / 100) ^ (m - 1) := by rw [← mul_pow]; norm_num
  rw [Nat.sub_zero, e]
  have hq : 0 ≤ (201 / 100 : ℚ) ^ (m - 1) * (B / 2 ^ 53) := by positivity
  have e2 : (201 / 100 : ℚ) ^ (m - 1) * B / 2 ^ 53 = (201 / 100 : ℚ) ^ (m - 1) * (B / 2 ^ 53) := by ring
  rw [e2]
  have e3 : 2 ^ (m - 1) * (201 / 100) ^ (m - 1) * (103 / 100 * m + 4) * (B / 2 ^ 53)
      = 2 ^ (m - 1) * (103 / 100 * m + 4) * ((201 / 100 : ℚ) ^ (m - 1) * (B / 2 ^ 53)) := by ring
  rw [e3]
  generalize (201 / 100 : ℚ) ^ (m - 1) * (B / 2 ^ 53) = q at *
  generalize (2 : ℚ) ^ (m - 1) = w at *
  have : w * (103 / 100 * m + 4) * q = w * (103 / 100 * m * q) + (w - 1) * (4 * q) + 4 * q := by ring
  linarith

/-- What the solver returns solves a system with nearly the same entries. -/
theorem solveSystemF_near {m : ℕ} (hm1 : 1 ≤ m) (hm : m ≤ 2 ^ 40) {a : Mat m (m + 1) ℚ} {B : ℚ} (hB : 1 / 2 ^ 200 ≤ B)
    (hb : ∀ i j, |a i j| ≤ B) {x : Fin m → ℚ} (h : solveSystemF a = some x) (i : Fin m) :
    NearRow (a i) x 1 ((402 / 100) ^ (m - 1) * (103 / 100 * m + 4) * (B / 2 ^ 53)) := by
  have hB0 : 0 ≤ B := le_trans (by positivity) hB
  obtain ⟨i1, i2, i3⟩ := eliminationF_near (m + 1) 0 0 a B hB hb le_rfl (by omega) (fun _ _ _ hj => absurd hj (Nat.not_lt_zero _))
    (fun _ _ hi => absurd hi (Nat.not_lt_zero _))
  have p1 : (1 : ℚ) ≤ (201 / 100) ^ (m - 1 - 0) := one_le_pow₀ (by norm_num)
  have hB' : 1 / 2 ^ 200 ≤ (201 / 100) ^ (m - 1 - 0) * B := hB.trans (le_mul_of_one_le_left hB0 p1)
  obtain ⟨-, b2⟩ := backwardF_near hm i1 hB' i2 _ _ _ (finRange_reverse_pairwise m) h
  have hm0 : (0 : ℚ) ≤ m := Nat.cast_nonneg _
  exact (i3 x 1 _ (by positivity) (fun i => b2 i (by simp)) i).mono (solver_constant m hm1 B hB0)

/-- If the solver meets a zero on the diagonal, then a system with nearly the same entries is singular. -/
theorem solveSystemF_none {m : ℕ} (hm1 : 1 ≤ m) {a : Mat m (m + 1) ℚ} {B : ℚ} (hB : 1 / 2 ^ 200 ≤ B)
    (hb : ∀ i j, |a i j| ≤ B) (h : solveSystemF a = none) :
    ∃ v : Fin m → ℚ, v ≠ 0 ∧ ∀ i, NearRow (a i) v 0 ((402 / 100) ^ (m - 1) * (103 / 100 * m + 4) * (B / 2 ^ 53)) := by
  have hB0 : 0 ≤ B := le_trans (by positivity) hB
  obtain ⟨i1, i2, i3⟩ := eliminationF_near (m + 1) 0 0 a B hB hb le_rfl (by omega) (fun _ _ _ hj => absurd hj (Nat.not_lt_zero _))
    (fun _ _ hi => absurd hi (Nat.not_lt_zero _))
  obtain ⟨i, -, hi⟩ := backwardF_none _ _ h
  set e := eliminationF (m + 1) 0 0 a
  have hdet : (Matrix.of fun i j : Fin m => e i j.castSucc).det = 0 := by
    rw [Matrix.det_of_isUpperTriangular]
    · exact Finset.prod_eq_zero (Finset.mem_univ i) hi
    · intro i j hij
      exact i1 i j.castSucc i.isLt (by simpa using hij)
  obtain ⟨v, hv, hv0⟩ := Matrix.exists_mulVec_eq_zero_iff.2 hdet
  refine ⟨v, hv, fun i => ?_⟩
  have hm0 : (0 : ℚ) ≤ m := Nat.cast_nonneg _
  have hn : ∀ i, NearRow (e i) v 0 0 := by
    intro i
    refine ⟨e i, by simp, ?_⟩
    have := congrFun hv0 i
    simpa [resid, Matrix.mulVec, dotProduct] using this
  refine (i3 v 0 0 le_rfl hn i).mono (le_trans ?_ (solver_constant m hm1 B hB0))
  have : 0 ≤ 2 ^ (m - 1 - 0) * (103 / 100 * m * ((201 / 100 : ℚ) ^ (m - 1 - 0) * B / 2 ^ 53)) := by positivity
  linarith

end Verif.Rounding
