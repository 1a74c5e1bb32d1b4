import Verif.Rounding.FlowModel
import Verif.Rounding.KeyProps
import Mathlib.Algebra.BigOperators.Fin
import Mathlib.Algebra.Order.Ring.Pow

/-!
# C119: the bookkeeping of the photon rates with `f64` rounding
-/

namespace Verif.Rounding

open Finset

/-! ## Specification -/

/-- The number of corrections. -/
def corrections {J : Type} (es : List (FlowEvent J)) : ℕ :=
  (es.filter fun | .correct _ _ => true | .solve => false).length

/-- All outgoing rates are nonnegative and those of the cell `j` are at most `K j`. -/
def RatesBounded {J : Type} (K : J → ℚ) (es : List (FlowEvent J)) : Prop :=
  ∀ j o, FlowEvent.correct j o ∈ es → 0 ≤ o ∧ o ≤ K j

/-- The exact incoming rate: the shares of the present outgoing rates of all upwind cells. -/
def exactRate {J : Type} [Fintype J] (share out : J → ℚ) : ℚ := ∑ j, share j * out j

/-! ## The drift -/

section Drift
variable {J : Type} [DecidableEq J] [Fintype J]

theorem exactRate_update (share out : J → ℚ) (j : J) (o : ℚ) :
    exactRate share (Function.update out j o) = exactRate share out + share j * (o - out j) := by
  unfold exactRate
  rw [← Finset.add_sum_erase _ _ (Finset.mem_univ j), ← Finset.add_sum_erase univ (fun i => share i * out i) (Finset.mem_univ j)]
  have : ∀ i ∈ univ.erase j, share i * Function.update out j o i = share i * out i := by
    intro i hi
    rw [Function.update_of_ne (Finset.ne_of_mem_erase hi)]
  rw [Finset.sum_congr rfl this, Function.update_self]
  ring

theorem makePositive_closer {x y : ℚ} (hy : 0 ≤ y) : |makePositiveF x - y| ≤ |x - y| := by
  unfold makePositiveF
  split_ifs with h
  · rw [abs_of_nonpos (by linarith : 0 - y ≤ 0), abs_of_nonpos (by linarith : x - y ≤ 0)]
    linarith
  · exact le_rfl

/-- One correction. -/
theorem correct_step {K x y o o' s : ℚ} {n : ℕ} (hK : 1 / 2 ^ 900 ≤ K) (hn : n ≤ 2 ^ 40) (hs : 0 ≤ s) (hs1 : s ≤ 1)
    (ho : 0 ≤ o) (hoK : o ≤ K) (ho' : 0 ≤ o') (hoK' : o' ≤ K) (hy : 0 ≤ y + s * (o' - o)) (hyK : y + s * (o' - o) ≤ K)
    (h : |x - y| ≤ n * (4 * (K / 2 ^ 53))) :
    |x ⊞ correctionF o' o s - (y + s * (o' - o))| ≤ (n + 1 : ℕ) * (4 * (K / 2 ^ 53)) := by
  have hK0 : 0 < K := lt_of_lt_of_le (by positivity) hK
  obtain ⟨e, he⟩ : ∃ e, e = K / 2 ^ 53 := ⟨_, rfl⟩
  have e0 : 0 < e := he ▸ by positivity
  have eK : K = 2 ^ 53 * e := by rw [he]; field_simp
  rw [← he] at h ⊢
  have hη : (1 : ℚ) / 2 ^ 1074 ≤ e / 2 ^ 100 := by
    have := tiny hK
    rw [he]
    refine this.trans ?_
    rw [div_div, div_div, ← pow_add, ← pow_add]
    exact div_le_div_of_nonneg_left hK0.le (by positivity) (pow_le_pow_right₀ (by norm_num) (by norm_num))
  have err : ∀ {z k : ℚ}, |z| ≤ k * K → |fl z - z| ≤ (k + 1 / 2 ^ 100) * e := by
    intro z k hz
    have h1 := fl_abs_err z
    have h2 : |z| / 2 ^ 53 ≤ k * e := by
      rw [he, ← mul_div_assoc]
      exact div_le_div_of_nonneg_right hz (by positivity)
    linarith
  have hnq : (n : ℚ) ≤ 2 ^ 40 := by exact_mod_cast hn
  have hdrift : (n : ℚ) * (4 * e) ≤ 2 ^ 40 * (4 * e) := mul_le_mul_of_nonneg_right hnq (by linarith)
  unfold correctionF
  -- the difference
  have d1 := err (z := o' - o) (k := 1) (abs_le.2 ⟨by linarith, by linarith⟩)
  change |o' ⊟ o - _| ≤ _ at d1
  generalize o' ⊟ o = δ at *
  have d1' := abs_le.1 d1
  have hδ : |δ| ≤ 101 / 100 * K := abs_le.2 ⟨by linarith, by linarith⟩
  -- the share
  have hδs : |δ * s| ≤ 101 / 100 * K := by
    rw [abs_mul, abs_of_nonneg hs]
    calc |δ| * s ≤ |δ| * 1 := mul_le_mul_of_nonneg_left hs1 (abs_nonneg _)
      _ ≤ _ := by rw [mul_one]; exact hδ
  have d2 := abs_le.1 (err hδs)
  change _ ≤ δ ⊠ s - _ ∧ δ ⊠ s - _ ≤ _ at d2
  have d3 : |δ * s - s * (o' - o)| ≤ (1 + 1 / 2 ^ 100) * e := by
    rw [show δ * s - s * (o' - o) = (δ - (o' - o)) * s by ring, abs_mul, abs_of_nonneg hs]
    calc |δ - (o' - o)| * s ≤ |δ - (o' - o)| * 1 := mul_le_mul_of_nonneg_left hs1 (abs_nonneg _)
      _ ≤ _ := by rw [mul_one]; exact d1
  have d3' := abs_le.1 d3
  generalize δ ⊠ s = c at *
  generalize s * (o' - o) = t at *
  -- the sum
  have h' := abs_le.1 h
  have d4 := abs_le.1 (err (z := x + c) (k := 101 / 100) (abs_le.2 ⟨by linarith, by linarith⟩))
  change _ ≤ x ⊞ c - _ ∧ x ⊞ c - _ ≤ _ at d4
  push_cast
  exact abs_le.2 ⟨by linarith, by linarith⟩

theorem exactRate_bounds {share K out : J → ℚ} (hs : ∀ j, 0 ≤ share j ∧ share j ≤ 1) (ho : ∀ j, 0 ≤ out j ∧ out j ≤ K j) :
    0 ≤ exactRate share out ∧ exactRate share out ≤ ∑ j, K j := by
  constructor
  · exact Finset.sum_nonneg fun j _ => mul_nonneg (hs j).1 (ho j).1
  · refine Finset.sum_le_sum fun j _ => ?_
    calc share j * out j ≤ 1 * out j := mul_le_mul_of_nonneg_right (hs j).2 (ho j).1
      _ ≤ K j := by rw [one_mul]; exact (ho j).2

theorem drift_from (share K : J → ℚ) (hs : ∀ j, 0 ≤ share j ∧ share j ≤ 1) (hK : 1 / 2 ^ 900 ≤ ∑ j, K j) (es : List (FlowEvent J))
    (hes : RatesBounded K es) (f : Inflow J) (n : ℕ) (hn : n + corrections es ≤ 2 ^ 40)
    (ho : ∀ j, 0 ≤ f.out j ∧ f.out j ≤ K j) (hf : |f.rate - exactRate share f.out| ≤ n * (4 * ((∑ j, K j) / 2 ^ 53))) :
    (∀ j, 0 ≤ (f.run share es).out j ∧ (f.run share es).out j ≤ K j) ∧
    |(f.run share es).rate - exactRate share (f.run share es).out| ≤ (n + corrections es : ℕ) * (4 * ((∑ j, K j) / 2 ^ 53)) := by
  induction es generalizing f n with
  | nil => exact ⟨ho, by simpa [corrections, Inflow.run] using hf⟩
  | cons ev es ih =>
    have hes' : RatesBounded K es := fun j o h => hes j o (List.mem_cons_of_mem _ h)
    have hrun : f.run share (ev :: es) = (f.step share ev).run share es := rfl
    rw [hrun]
    cases ev with
    | solve =>
      have hc : corrections (FlowEvent.solve :: es) = corrections es := rfl
      rw [hc] at hn ⊢
      refine ih hes' _ n hn ho ?_
      exact (makePositive_closer (exactRate_bounds hs ho).1).trans hf
    | correct j o =>
      have hc : corrections (FlowEvent.correct j o :: es) = corrections es + 1 := rfl
      have hjo := hes j o List.mem_cons_self
      have hK0 : ∀ i, K i ≤ ∑ j, K j := fun i =>
        Finset.single_le_sum (f := K) (fun i _ => (ho i).1.trans (ho i).2) (Finset.mem_univ i)
      have ho2 : ∀ i, 0 ≤ (f.step share (.correct j o)).out i ∧ (f.step share (.correct j o)).out i ≤ K i := by
        intro i
        show 0 ≤ Function.update f.out j o i ∧ Function.update f.out j o i ≤ K i
        by_cases h : i = j
        · subst h
          rw [Function.update_self]
          exact hjo
        · rw [Function.update_of_ne h]
          exact ho i
      have hx := exactRate_bounds hs ho2
      have hstep : (f.step share (.correct j o)).out = Function.update f.out j o := rfl
      rw [hstep, exactRate_update] at hx
      rw [hc] at hn ⊢
      have := ih hes' (f.step share (.correct j o)) (n + 1) (by omega) ho2 (by
        rw [hstep, exactRate_update]
        exact correct_step hK (by omega) (hs j).1 (hs j).2 (ho j).1 ((ho j).2.trans (hK0 j)) hjo.1 (hjo.2.trans (hK0 j)) hx.1 hx.2 hf)
      rw [show n + (corrections es + 1) = n + 1 + corrections es by omega]
      exact this

/-- **C119 (drift).** The incoming rate of a cell after any sequence of corrections and solutions of the cell itself, since the
start of the simulation: it differs from the exact shares of the present outgoing rates of its upwind cells by at most four units of
roundoff of the largest possible rate for every correction.  (The rates of the upwind cells are nonnegative and at most `K j`.) -/
theorem rate_drift (share K : J → ℚ) (hs : ∀ j, 0 ≤ share j ∧ share j ≤ 1) (hK0 : ∀ j, 0 ≤ K j) (hK : 1 / 2 ^ 900 ≤ ∑ j, K j)
    (es : List (FlowEvent J)) (hes : RatesBounded K es) (hn : corrections es ≤ 2 ^ 40) :
    |((Inflow.zero).run share es).rate - exactRate share ((Inflow.zero).run share es).out|
      ≤ corrections es * (4 * ((∑ j, K j) / 2 ^ 53)) := by
  have := (drift_from share K hs hK es hes Inflow.zero 0 (by omega) (fun j => ⟨le_rfl, hK0 j⟩) (by
    simp [Inflow.zero, exactRate])).2
  rwa [zero_add] at this

/-- **C119 (schedules).** Two sequences of events which leave the upwind cells with the same outgoing rates, for example the
same sweeps with messages in a different order: the two incoming rates differ at most by the drifts. -/
theorem schedules_close (share K : J → ℚ) (hs : ∀ j, 0 ≤ share j ∧ share j ≤ 1) (hK0 : ∀ j, 0 ≤ K j) (hK : 1 / 2 ^ 900 ≤ ∑ j, K j)
    (es es' : List (FlowEvent J)) (hes : RatesBounded K es) (hes' : RatesBounded K es') (hn : corrections es ≤ 2 ^ 40)
    (hn' : corrections es' ≤ 2 ^ 40) (hout : ((Inflow.zero).run share es).out = ((Inflow.zero).run share es').out) :
    |((Inflow.zero).run share es).rate - ((Inflow.zero).run share es').rate|
      ≤ (corrections es + corrections es' : ℕ) * (4 * ((∑ j, K j) / 2 ^ 53)) := by
  have h1 := abs_le.1 (rate_drift share K hs hK0 hK es hes hn)
  have h2 := abs_le.1 (rate_drift share K hs hK0 hK es' hes' hn')
  rw [hout] at h1
  push_cast
  exact abs_le.2 ⟨by linarith, by linarith⟩

end Drift

end Verif.Rounding
