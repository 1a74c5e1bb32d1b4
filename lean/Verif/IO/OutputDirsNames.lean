import Verif.IO.OutputDirsModel
import Mathlib.Data.List.Lex
import Mathlib.Tactic.IntervalCases
import Mathlib.Tactic.Ring
import Mathlib.Tactic.Linarith

/-!
# Names of the output: lemmas
-/

namespace Verif.OutputDirs

/-- the value of a digit -/
def digitVal (c : Char) : ℕ := c.toNat - 48

/-- the number written by a list of digits -/
def val (l : Name) : ℕ := l.foldl (fun a c => 10 * a + digitVal c) 0

/-- a decimal digit -/
def IsDigit (c : Char) : Prop := 48 ≤ c.toNat ∧ c.toNat < 58

theorem digitChar_spec (n : ℕ) (h : n < 10) : IsDigit (Nat.digitChar n) ∧ digitVal (Nat.digitChar n) = n := by
  unfold IsDigit digitVal
  interval_cases n <;> decide

theorem val_append (a : Name) (c : Char) : val (a ++ [c]) = 10 * val a + digitVal c := by
  simp [val]

theorem foldl_val (l : Name) (x : ℕ) :
    l.foldl (fun a c => 10 * a + digitVal c) x = x * 10 ^ l.length + val l := by
  induction l using List.reverseRecOn with
  | nil => simp [val]
  | append_singleton l c ih =>
    rw [List.foldl_append, ih, val_append]
    simp only [List.foldl_cons, List.foldl_nil, List.length_append, List.length_cons, List.length_nil, pow_succ, zero_add,
      pow_zero, one_mul]
    ring

theorem val_cons (c : Char) (l : Name) : val (c :: l) = digitVal c * 10 ^ l.length + val l := by
  rw [val, List.foldl_cons, foldl_val]
  simp

theorem decimal_spec (n : ℕ) : (∀ c ∈ decimal n, IsDigit c) ∧ val (decimal n) = n := by
  induction n using Nat.strongRecOn with
  | _ n ih =>
    unfold decimal
    split
    · rename_i h
      obtain ⟨h1, h2⟩ := digitChar_spec n h
      refine ⟨?_, ?_⟩
      · intro c hc
        rw [List.mem_singleton] at hc
        rw [hc]
        exact h1
      · rw [val_cons, h2]
        simp [val]
    · rename_i h
      obtain ⟨i1, i2⟩ := ih (n / 10) (by omega)
      obtain ⟨h1, h2⟩ := digitChar_spec (n % 10) (by omega)
      refine ⟨?_, ?_⟩
      · intro c hc
        rw [List.mem_append, List.mem_singleton] at hc
        rcases hc with hc | hc
        · exact i1 c hc
        · rw [hc]
          exact h1
      · rw [val_append, i2, h2]
        omega

theorem val_lt (l : Name) (h : ∀ c ∈ l, IsDigit c) : val l < 10 ^ l.length := by
  induction l with
  | nil => simp [val]
  | cons c l ih =>
    have h1 := ih fun x hx => h x (by simp [hx])
    have h2 := h c (by simp)
    rw [val_cons, List.length_cons, pow_succ]
    have : digitVal c ≤ 9 := by
      unfold digitVal
      unfold IsDigit at h2
      omega
    nlinarith [Nat.mul_le_mul_right (10 ^ l.length) this]

theorem decimal_length (n k : ℕ) (hk : 0 < k) (h : n < 10 ^ k) : (decimal n).length ≤ k := by
  induction k generalizing n with
  | zero => omega
  | succ k ih =>
    unfold decimal
    split
    · simp
    · rename_i hn
      have hk0 : 0 < k := by
        by_contra hc
        have : k = 0 := by omega
        subst this
        simp at h
        omega
      have := ih (n / 10) hk0 (by
        rw [pow_succ] at h
        exact Nat.div_lt_of_lt_mul (by linarith))
      simp only [List.length_append, List.length_cons, List.length_nil]
      omega

theorem padded_digits (w n : ℕ) : ∀ c ∈ padded w n, IsDigit c := by
  intro c hc
  unfold padded at hc
  rw [List.mem_append] at hc
  rcases hc with hc | hc
  · rw [List.eq_of_mem_replicate hc]
    unfold IsDigit
    decide
  · exact (decimal_spec n).1 c hc

theorem padded_val (w n : ℕ) : val (padded w n) = n := by
  unfold padded
  have hz : ∀ k, val (List.replicate k '0') = 0 := by
    intro k
    induction k with
    | zero => rfl
    | succ k ih =>
      rw [List.replicate_succ, val_cons, ih]
      have : digitVal '0' = 0 := by decide
      simp [this]
  have : ∀ a b : Name, val (a ++ b) = val a * 10 ^ b.length + val b := by
    intro a b
    rw [val, List.foldl_append, foldl_val]
    rfl
  rw [this, hz, (decimal_spec n).2]
  simp

theorem padded_injective (w : ℕ) {i j : ℕ} (h : padded w i = padded w j) : i = j := by
  rw [← padded_val w i, ← padded_val w j, h]

theorem padded_length (w n : ℕ) (hw : 0 < w) (h : n < 10 ^ w) : (padded w n).length = w := by
  have := decimal_length n w hw h
  unfold padded
  rw [List.length_append, List.length_replicate]
  omega

/-- lists of digits of the same length are ordered as the numbers they write -/
theorem lex_of_val (a b : Name) (hlen : a.length = b.length) (ha : ∀ c ∈ a, IsDigit c) (hb : ∀ c ∈ b, IsDigit c)
    (h : val a < val b) (s t : Name) : a ++ s < b ++ t := by
  induction a generalizing b with
  | nil =>
    cases b with
    | nil => simp [val] at h
    | cons d b => simp at hlen
  | cons c a ih =>
    cases b with
    | nil => simp at hlen
    | cons d b =>
      have hl : a.length = b.length := by simpa using hlen
      have hc := ha c (by simp)
      have hd := hb d (by simp)
      rw [val_cons, val_cons, hl] at h
      have h1 := val_lt a fun x hx => ha x (by simp [hx])
      have h2 := val_lt b fun x hx => hb x (by simp [hx])
      rw [hl] at h1
      rw [List.cons_append, List.cons_append, List.cons_lt_cons_iff]
      unfold digitVal IsDigit at *
      rcases lt_trichotomy c.toNat d.toNat with hcd | hcd | hcd
      · left
        exact hcd
      · right
        refine ⟨Char.toNat_inj.1 hcd, ih b hl (fun x hx => ha x (by simp [hx])) (fun x hx => hb x (by simp [hx])) ?_⟩
        rw [hcd] at h
        omega
      · exfalso
        have : d.toNat - 48 + 1 ≤ c.toNat - 48 := by omega
        have := Nat.mul_le_mul_right (10 ^ b.length) this
        rw [add_mul] at this
        omega

theorem padded_lt (w i j : ℕ) (hw : 0 < w) (hij : i < j) (hj : j < 10 ^ w) (s t : Name) :
    padded w i ++ s < padded w j ++ t :=
  lex_of_val _ _ (by rw [padded_length w i hw (by omega), padded_length w j hw hj]) (padded_digits w i)
    (padded_digits w j) (by rw [padded_val, padded_val]; exact hij) s t

theorem index_lt (n i : ℕ) (h : i < n) : i < 10 ^ indexPadding n :=
  lt_trans h (Nat.lt_pow_succ_log_self (by omega) n)

theorem extension_fileName (n i : ℕ) : extension (fileName n i) = some "hdf5".toList := by
  have hrev : (fileName n i).reverse = "5fdh".toList ++ '.' :: (padded (indexPadding n) i).reverse := by
    unfold fileName
    rw [List.reverse_append]
    rfl
  have hpne : padded (indexPadding n) i ≠ [] := by
    unfold padded
    intro h
    rw [List.append_eq_nil_iff] at h
    have := h.2
    unfold decimal at this
    split at this <;> simp at this
  have hdot : (fileName n i).contains '.' = true := by
    unfold fileName
    simp
  unfold extension
  rw [hrev]
  have e1 : List.dropWhile (· ≠ '.') ("5fdh".toList ++ '.' :: (padded (indexPadding n) i).reverse)
      = '.' :: (padded (indexPadding n) i).reverse := rfl
  have e2 : List.takeWhile (· ≠ '.') ("5fdh".toList ++ '.' :: (padded (indexPadding n) i).reverse)
      = "5fdh".toList := rfl
  dsimp only
  rw [e1, e2, hdot]
  rw [if_pos]
  · rfl
  · refine ⟨rfl, ?_⟩
    simpa using hpne

end Verif.OutputDirs
