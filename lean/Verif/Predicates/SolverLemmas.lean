import Verif.Predicates.Model
import Mathlib.LinearAlgebra.Matrix.ToLinearEquiv
import Mathlib.LinearAlgebra.Matrix.Block
import Mathlib.Algebra.BigOperators.Fin
import Mathlib.Algebra.Order.BigOperators.Group.Finset
import Mathlib.Tactic.Ring
import Mathlib.Tactic.Linarith
import Mathlib.Tactic.LinearCombination
import Mathlib.Tactic.FieldSimp

/-!
# Helper lemmas for the solvers
-/

namespace Verif.Predicates

variable {K : Type} [Field K] [LinearOrder K]

/-- `x` solves the system with the right-hand side scaled by `c`. -/
def Sol {m : ℕ} (a : Mat m (m + 1) K) (x : Fin m → K) (c : K) : Prop :=
  ∀ i, ∑ j, a i j.castSucc * x j = c * a i (Fin.last m)

/-- The residual of a row. -/
def resid {m : ℕ} (r : Fin (m + 1) → K) (x : Fin m → K) (c : K) : K :=
  ∑ j, r j.castSucc * x j - c * r (Fin.last m)

omit [LinearOrder K] in
theorem sol_iff {m : ℕ} (a : Mat m (m + 1) K) (x : Fin m → K) (c : K) :
    Sol a x c ↔ ∀ i, resid (a i) x c = 0 := by
  simp only [Sol, resid, sub_eq_zero]

omit [LinearOrder K] in
theorem resid_sub_mul {m : ℕ} (r s : Fin (m + 1) → K) (f : K) (x : Fin m → K) (c : K) :
    resid (fun j => r j - s j * f) x c = resid r x c - f * resid s x c := by
  simp only [resid]
  have : ∑ j : Fin m, (r j.castSucc - s j.castSucc * f) * x j
      = ∑ j : Fin m, r j.castSucc * x j - f * ∑ j : Fin m, s j.castSucc * x j := by
    rw [Finset.mul_sum, ← Finset.sum_sub_distrib]
    exact Finset.sum_congr rfl fun j _ => by ring
  rw [this]
  ring

theorem sol_swapRows {m : ℕ} (a : Mat m (m + 1) K) (r1 r2 : Fin m) (x : Fin m → K) (c : K) :
    Sol (swapRows a r1 r2) x c ↔ Sol a x c := by
  simp only [Sol, swapRows]
  constructor
  · intro h i
    by_cases h1 : i = r1
    · subst h1
      have := h r2
      by_cases h2 : r2 = i
      · subst h2
        simpa using this
      · simpa [h2] using this
    · by_cases h2 : i = r2
      · subst h2
        simpa using h r1
      · have := h i
        simpa [h1, h2] using this
  · intro h i
    by_cases h1 : i = r1
    · simpa [h1] using h r2
    · by_cases h2 : i = r2
      · subst h2
        simpa [h1] using h r1
      · simpa [h1, h2] using h i

/-- All entries left of column `k` in the rows from `h` on are zero. -/
def ZeroBelow {m n : ℕ} (a : Mat m n K) (h k : ℕ) : Prop :=
  ∀ (i : Fin m) (j : Fin n), h ≤ i.val → j.val < k → a i j = 0

/-- The first `h` rows are upper triangular. -/
def UpperUntil {m n : ℕ} (a : Mat m n K) (h : ℕ) : Prop :=
  ∀ (i : Fin m) (j : Fin n), i.val < h → j.val < i.val → a i j = 0

theorem eliminate_row {m n : ℕ} {a : Mat m n K} {h : Fin m} {k : Fin n}
    (hz : ZeroBelow a h.val k.val) (hp : a h k ≠ 0) {i : Fin m} (hi : h < i) :
    eliminate a h k i = fun j => a i j - a h j * (a i k / a h k) := by
  funext j
  unfold eliminate
  rw [if_pos hi]
  by_cases h1 : j = k
  · subst h1
    rw [if_pos rfl]
    field_simp
    ring
  · rw [if_neg h1]
    by_cases h2 : k < j
    · rw [if_pos h2]
    · rw [if_neg h2]
      have hlt : j.val < k.val := by
        have : j ≤ k := not_lt.1 h2
        exact lt_of_le_of_ne this (fun e => h1 (Fin.ext e))
      rw [hz h j le_rfl hlt]
      ring

theorem sol_eliminate {m : ℕ} {a : Mat m (m + 1) K} {h : Fin m} {k : Fin (m + 1)}
    (hz : ZeroBelow a h.val k.val) (hp : a h k ≠ 0) (x : Fin m → K) (c : K) :
    Sol (eliminate a h k) x c ↔ Sol a x c := by
  rw [sol_iff, sol_iff]
  have hrow : ∀ i, ¬ h < i → eliminate a h k i = a i := by
    intro i hi
    funext j
    unfold eliminate
    rw [if_neg hi]
  have hrow' : ∀ i, h < i → resid (eliminate a h k i) x c
      = resid (a i) x c - (a i k / a h k) * resid (a h) x c := by
    intro i hi
    rw [eliminate_row hz hp hi, resid_sub_mul]
  constructor
  · intro hs i
    have hh : resid (a h) x c = 0 := by
      have := hs h
      rwa [hrow h (lt_irrefl _)] at this
    by_cases hi : h < i
    · have := hs i
      rw [hrow' i hi, hh] at this
      linear_combination this
    · have := hs i
      rwa [hrow i hi] at this
  · intro hs i
    by_cases hi : h < i
    · rw [hrow' i hi, hs i, hs h]
      ring
    · rw [hrow i hi]
      exact hs i

/-- The chosen pivot row is one of the remaining rows and has the largest entry. -/
theorem pivotRow_spec {m n : ℕ} (a : Mat m n K) (h : Fin m) (k : Fin n) :
    h ≤ pivotRow a h k ∧ ∀ i, h ≤ i → |a i k| ≤ |a (pivotRow a h k) k| := by
  have gen : ∀ (l : List (Fin m)) (b : Fin m), (∀ i ∈ l, h ≤ i) → h ≤ b →
      h ≤ l.foldl (fun best i => if |a best k| ≤ |a i k| then i else best) b ∧
      |a b k| ≤ |a (l.foldl (fun best i => if |a best k| ≤ |a i k| then i else best) b) k| ∧
      ∀ i ∈ l, |a i k|
        ≤ |a (l.foldl (fun best i => if |a best k| ≤ |a i k| then i else best) b) k| := by
    intro l
    induction l with
    | nil => intro b _ hb; exact ⟨hb, le_rfl, by simp⟩
    | cons y l ih =>
      intro b hl hb
      rw [List.foldl_cons]
      have hy := hl y (by simp)
      by_cases hc : |a b k| ≤ |a y k|
      · rw [if_pos hc]
        obtain ⟨h1, h2, h3⟩ := ih y (fun i hi => hl i (by simp [hi])) hy
        refine ⟨h1, hc.trans h2, ?_⟩
        intro i hi
        rcases List.mem_cons.1 hi with rfl | hi
        · exact h2
        · exact h3 i hi
      · rw [if_neg hc]
        obtain ⟨h1, h2, h3⟩ := ih b (fun i hi => hl i (by simp [hi])) hb
        refine ⟨h1, h2, ?_⟩
        intro i hi
        rcases List.mem_cons.1 hi with rfl | hi
        · exact (not_le.1 hc).le.trans h2
        · exact h3 i hi
  obtain ⟨h1, h2, h3⟩ := gen ((List.finRange m).filter (fun i => h < i)) h
    (fun i hi => by
      have := (List.mem_filter.1 hi).2
      exact (of_decide_eq_true this).le) le_rfl
  refine ⟨h1, fun i hi => ?_⟩
  rcases eq_or_lt_of_le hi with rfl | hlt
  · exact h2
  · exact h3 i (List.mem_filter.2 ⟨List.mem_finRange i, decide_eq_true hlt⟩)

theorem zeroBelow_swap {m n : ℕ} {a : Mat m n K} {h k : ℕ} (hz : ZeroBelow a h k) {r1 r2 : Fin m}
    (h1 : h ≤ r1.val) (h2 : h ≤ r2.val) : ZeroBelow (swapRows a r1 r2) h k := by
  intro i j hi hj
  unfold swapRows
  split_ifs
  · exact hz r2 j h2 hj
  · exact hz r1 j h1 hj
  · exact hz i j hi hj

theorem upperUntil_swap {m n : ℕ} {a : Mat m n K} {h : ℕ} (hz : UpperUntil a h) {r1 r2 : Fin m}
    (h1 : h ≤ r1.val) (h2 : h ≤ r2.val) : UpperUntil (swapRows a r1 r2) h := by
  intro i j hi hj
  unfold swapRows
  split_ifs with e1 e2
  · subst e1; omega
  · subst e2; omega
  · exact hz i j hi hj

/-- What the elimination loop preserves and establishes. -/
theorem elimination_spec {m : ℕ} [IsStrictOrderedRing K] : ∀ (fuel h k : ℕ) (a : Mat m (m + 1) K),
    h ≤ k → m + 1 ≤ k + fuel → ZeroBelow a h k → UpperUntil a h →
    (∀ x c, Sol (elimination fuel h k a) x c ↔ Sol a x c) ∧
    UpperUntil (elimination fuel h k a) m := by
  intro fuel
  induction fuel with
  | zero =>
    intro h k a hhk hf hz hu
    refine ⟨fun x c => Iff.rfl, ?_⟩
    intro i j hi hj
    by_cases hih : i.val < h
    · exact hu i j hih hj
    · exact hz i j (by omega) (by omega)
  | succ fuel ih =>
    intro h k a hhk hf hz hu
    rw [elimination]
    by_cases hh : h < m
    · rw [dif_pos hh]
      by_cases hk : k < m + 1
      · rw [dif_pos hk]
        dsimp only
        obtain ⟨hp1, hp2⟩ := pivotRow_spec a ⟨h, hh⟩ ⟨k, hk⟩
        set p := pivotRow a ⟨h, hh⟩ ⟨k, hk⟩
        by_cases h0 : a p ⟨k, hk⟩ = 0
        · rw [if_pos h0]
          refine ih h (k + 1) a (by omega) (by omega) ?_ hu
          intro i j hi hj
          by_cases hjk : j.val < k
          · exact hz i j hi hjk
          · have hjk' : j = ⟨k, hk⟩ := Fin.ext (show j.val = k by omega)
            have := hp2 i (Fin.mk_le_of_le_val hi)
            rw [h0, abs_zero] at this
            rw [hjk']
            exact abs_eq_zero.1 (le_antisymm this (abs_nonneg _))
        · rw [if_neg h0]
          have hpv : h ≤ p.val := hp1
          have hz' : ZeroBelow (swapRows a ⟨h, hh⟩ p) h k := zeroBelow_swap hz le_rfl hpv
          have hu' : UpperUntil (swapRows a ⟨h, hh⟩ p) h := upperUntil_swap hu le_rfl hpv
          have hne : (swapRows a ⟨h, hh⟩ p) ⟨h, hh⟩ ⟨k, hk⟩ ≠ 0 := by
            unfold swapRows
            rw [if_pos rfl]
            exact h0
          have hse := fun x c => sol_eliminate (h := ⟨h, hh⟩) (k := ⟨k, hk⟩) hz' hne x c
          obtain ⟨i1, i2⟩ := ih (h + 1) (k + 1)
            (eliminate (swapRows a ⟨h, hh⟩ p) ⟨h, hh⟩ ⟨k, hk⟩) (by omega) (by omega)
            (by
              intro i j hi hj
              have hlt : (⟨h, hh⟩ : Fin m) < i := Fin.mk_lt_of_lt_val (by omega)
              unfold eliminate
              rw [if_pos hlt]
              by_cases hjk : j = ⟨k, hk⟩
              · rw [if_pos hjk]
              · rw [if_neg hjk]
                have hjlt : j.val < k := by
                  have : j.val ≠ k := fun e => hjk (Fin.ext e)
                  omega
                rw [if_neg (by
                  intro hc
                  have : k < j.val := hc
                  omega)]
                exact hz' i j (by omega) hjlt)
            (by
              intro i j hi hj
              have hnlt : ¬ (⟨h, hh⟩ : Fin m) < i := by
                intro hc
                have : h < i.val := hc
                omega
              unfold eliminate
              rw [if_neg hnlt]
              by_cases hih : i.val < h
              · exact hu' i j hih hj
              · exact hz' i j (by omega) (by omega))
          refine ⟨fun x c => ?_, i2⟩
          rw [i1, hse, sol_swapRows]
      · rw [dif_neg hk]
        refine ⟨fun x c => Iff.rfl, ?_⟩
        intro i j hi hj
        by_cases hih : i.val < h
        · exact hu i j hih hj
        · exact hz i j (by omega) (by omega)
    · rw [dif_neg hh]
      refine ⟨fun x c => Iff.rfl, ?_⟩
      intro i j hi hj
      exact hu i j (by omega) hj

/-! ## Backward substitution -/

omit [LinearOrder K] in
theorem foldl_sub_eq {m : ℕ} (f : Fin m → K) : ∀ (l : List (Fin m)) (v : K),
    l.foldl (fun acc j => acc - f j) v = v - (l.map f).sum := by
  intro l
  induction l with
  | nil => intro v; simp
  | cons y l ih => intro v; rw [List.foldl_cons, ih]; simp; ring

omit [LinearOrder K] in
theorem sum_filter_finRange {m : ℕ} (f : Fin m → K) (i : Fin m) :
    (((List.finRange m).filter (fun j => i < j)).map f).sum
      = ∑ j, if i < j then f j else 0 := by
  have : ∀ l : List (Fin m), ((l.filter (fun j => i < j)).map f).sum
      = (l.map (fun j => if i < j then f j else 0)).sum := by
    intro l
    induction l with
    | nil => rfl
    | cons y l ih =>
      rw [List.filter_cons]
      by_cases h : i < y
      · rw [if_pos (decide_eq_true h)]
        simp [ih, h]
      · rw [if_neg (by simpa using h)]
        simp [ih, h]
  rw [this, ← List.ofFn_id, List.map_ofFn, List.sum_ofFn]
  rfl

/-- Row `i` holds for an upper triangular matrix once unknown `i` is set from the later ones. -/
theorem row_of_upper {m : ℕ} {a : Mat m (m + 1) K} (hu : UpperUntil a m) (x : Fin m → K) (i : Fin m) :
    ∑ j, a i j.castSucc * x j
      = a i i.castSucc * x i + ∑ j, if i < j then a i j.castSucc * x j else 0 := by
  have : ∀ j, a i j.castSucc * x j
      = (if j = i then a i i.castSucc * x i else 0) + (if i < j then a i j.castSucc * x j else 0) := by
    intro j
    rcases lt_trichotomy j i with h | h | h
    · rw [if_neg h.ne, if_neg h.not_gt, hu i j.castSucc i.isLt (by simpa using h)]
      ring
    · subst h
      rw [if_pos rfl, if_neg (lt_irrefl _)]
      ring
    · rw [if_neg h.ne', if_pos h]
      ring
  rw [Finset.sum_congr rfl (fun j _ => this j), Finset.sum_add_distrib, Finset.sum_ite_eq']
  simp

theorem backward_spec {m : ℕ} {a : Mat m (m + 1) K} (hu : UpperUntil a m) :
    ∀ (l : List (Fin m)) (x0 x : Fin m → K), l.Pairwise (fun i j => j < i) →
      l.foldlM (backStep a) x0 = some x →
      (∀ i ∈ l, a i i.castSucc ≠ 0) ∧ (∀ j, j ∉ l → x j = x0 j) ∧
      (∀ i ∈ l, ∑ j, a i j.castSucc * x j = a i (Fin.last m)) := by
  intro l
  induction l with
  | nil =>
    intro x0 x _ h
    simp only [List.foldlM_nil] at h
    cases h
    exact ⟨by simp, fun _ _ => rfl, by simp⟩
  | cons y l ih =>
    intro x0 x hp h
    rw [List.pairwise_cons] at hp
    rw [List.foldlM_cons] at h
    rcases Option.bind_eq_some_iff.1 h with ⟨x1, h1, h2⟩
    unfold backStep at h1
    dsimp only at h1
    by_cases hz : a y y.castSucc = 0
    · rw [if_pos hz] at h1
      cases h1
    · rw [if_neg hz] at h1
      obtain ⟨i1, i2, i3⟩ := ih x1 x hp.2 h2
      have hx1 : x1 = _ := (Option.some.inj h1).symm
      have hyl : y ∉ l := fun hy => lt_irrefl _ (hp.1 y hy)
      refine ⟨?_, ?_, ?_⟩
      · intro i hi
        rcases List.mem_cons.1 hi with rfl | hi
        · exact hz
        · exact i1 i hi
      · intro j hj
        have hj1 : j ∉ l := fun hh => hj (List.mem_cons_of_mem _ hh)
        have hj2 : j ≠ y := fun hh => hj (by simp [hh])
        rw [i2 j hj1, hx1, Function.update_of_ne hj2]
      · intro i hi
        rcases List.mem_cons.1 hi with rfl | hi
        · rw [row_of_upper hu]
          have e1 : x i = x1 i := i2 i hyl
          rw [e1, hx1, Function.update_self, foldl_sub_eq (fun j => a i j.castSucc * x0 j),
            sum_filter_finRange]
          have e2 : (∑ j, if i < j then a i j.castSucc * x j else 0)
              = ∑ j, if i < j then a i j.castSucc * x0 j else 0 := by
            refine Finset.sum_congr rfl fun j _ => ?_
            by_cases hj : i < j
            · have hjl : j ∉ l := fun hh => lt_asymm hj (hp.1 j hh)
              rw [if_pos hj, if_pos hj, i2 j hjl, hx1, Function.update_of_ne hj.ne']
            · rw [if_neg hj, if_neg hj]
          rw [e2, mul_div_cancel₀ _ hz]
          ring
        · exact i3 i hi

theorem backward_isSome {m : ℕ} {a : Mat m (m + 1) K} :
    ∀ (l : List (Fin m)) (x0 : Fin m → K), (∀ i ∈ l, a i i.castSucc ≠ 0) →
      ∃ x, l.foldlM (backStep a) x0 = some x := by
  intro l
  induction l with
  | nil => intro x0 _; exact ⟨x0, rfl⟩
  | cons y l ih =>
    intro x0 h
    rw [List.foldlM_cons]
    have hy := h y (by simp)
    have : ∃ x1, backStep a x0 y = some x1 := by
      unfold backStep
      dsimp only
      rw [if_neg hy]
      exact ⟨_, rfl⟩
    obtain ⟨x1, hx1⟩ := this
    obtain ⟨x, hx⟩ := ih x1 (fun i hi => h i (by simp [hi]))
    exact ⟨x, by rw [hx1]; exact hx⟩

theorem finRange_reverse_pairwise (m : ℕ) :
    (List.finRange m).reverse.Pairwise (fun i j => j < i) := by
  rw [List.pairwise_reverse]
  exact List.pairwise_lt_finRange m

end Verif.Predicates
