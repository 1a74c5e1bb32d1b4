import Verif.Remap.SnapshotModel
import Verif.IO.OutputDirsNames
import Verif.Startup.Lemmas

/-!
# Finding and reading the snapshots to remap from: lemmas
-/

namespace Verif.Remap

open Verif.Geometry (Vec)
open Verif.OutputDirs

theorem digit_eq {c : Char} (h : IsDigit c) : digit c = some (digitVal c) := by
  unfold digit digitVal
  unfold IsDigit at h
  rw [if_pos h]

theorem digits_fold (l : Name) (hl : ∀ c ∈ l, IsDigit c) (x : ℕ) (h : x * 10 ^ l.length + val l < 2 ^ 64) :
    l.foldlM parseStep x = some (x * 10 ^ l.length + val l) := by
  induction l generalizing x with
  | nil => simp [val]
  | cons c l ih =>
    rw [val_cons, List.length_cons, pow_succ] at *
    have e : x * (10 ^ l.length * 10) + (digitVal c * 10 ^ l.length + val l) =
        (10 * x + digitVal c) * 10 ^ l.length + val l := by ring
    rw [e] at h ⊢
    rw [List.foldlM_cons]
    have hs : 10 * x + digitVal c < 2 ^ 64 := by
      have : 10 * x + digitVal c ≤ (10 * x + digitVal c) * 10 ^ l.length :=
        Nat.le_mul_of_pos_right _ (by positivity)
      omega
    have : parseStep x c = some (10 * x + digitVal c) := by
      unfold parseStep
      rw [digit_eq (hl c (by simp))]
      exact if_pos hs
    rw [this]
    exact ih (fun c hc => hl c (by simp [hc])) _ h

theorem fold_digits (l : Name) (x n : ℕ) (hx : x < 2 ^ 64) (h : l.foldlM parseStep x = some n) :
    (∀ c ∈ l, IsDigit c) ∧ n = x * 10 ^ l.length + val l ∧ n < 2 ^ 64 := by
  induction l generalizing x with
  | nil =>
    obtain rfl : x = n := by simpa using h
    exact ⟨by simp, by simp [val], hx⟩
  | cons c l ih =>
    rw [List.foldlM_cons] at h
    obtain ⟨y, hy, h⟩ := Option.bind_eq_some_iff.1 h
    unfold parseStep at hy
    obtain ⟨d, hd, hy⟩ := Option.bind_eq_some_iff.1 hy
    have hc : IsDigit c := by
      unfold digit at hd
      unfold IsDigit
      split at hd
      · assumption
      · cases hd
    obtain rfl : digitVal c = d := by
      rw [digit_eq hc] at hd
      exact Option.some.inj hd
    split at hy
    · rename_i hlt
      obtain rfl := Option.some.inj hy
      obtain ⟨h1, h2, h3⟩ := ih _ hlt h
      refine ⟨?_, ?_, h3⟩
      · intro e he
        rcases List.mem_cons.1 he with rfl | he
        · exact hc
        · exact h1 e he
      · rw [h2, val_cons, List.length_cons, pow_succ]
        ring
    · cases hy

/-- the name of a snapshot is read as its number -/
theorem parse_padded (w n : ℕ) (hn : n < 2 ^ 64) : parseUsize (padded w n) = some n := by
  have hne : padded w n ≠ [] := by
    intro h
    unfold padded at h
    have h := (List.append_eq_nil_iff.1 h).2
    unfold decimal at h
    split at h <;> simp at h
  have hd := padded_digits w n
  have hv := padded_val w n
  unfold parseUsize
  have hplus : dropSign (padded w n) = padded w n := by
    unfold dropSign
    split
    · rename_i rest h
      exfalso
      have := hd '+' (by rw [h]; simp)
      unfold IsDigit at this
      revert this
      decide
    · rfl
  rw [hplus, if_neg hne, digits_fold _ hd 0 (by rw [hv]; omega), hv]
  simp

theorem keys_of (dirs : List Name) (num : Name → ℕ) (h : ∀ d ∈ dirs, parseUsize d = some (num d)) :
    (dirs.mapM fun name => (parseUsize name).map fun n => (n, name)) = some (dirs.map fun d => (num d, d)) := by
  induction dirs with
  | nil => rfl
  | cons d dirs ih =>
    rw [List.mapM_cons, ih fun d hd => h d (by simp [hd]), h d (by simp)]
    rfl

theorem fold_max (l : List (ℕ × Name)) (x : ℕ × Name) :
    l.foldl pickMax x ∈ x :: l ∧ ∀ y ∈ x :: l, y.1 ≤ (l.foldl pickMax x).1 := by
  induction l generalizing x with
  | nil => simp
  | cons y l ih =>
    obtain ⟨h1, h2⟩ := ih (pickMax x y)
    rw [List.foldl_cons]
    have hx : x.1 ≤ (pickMax x y).1 ∧ y.1 ≤ (pickMax x y).1 ∧ (pickMax x y = x ∨ pickMax x y = y) := by
      unfold pickMax
      split
      · exact ⟨le_refl _, by omega, Or.inl rfl⟩
      · exact ⟨by omega, le_refl _, Or.inr rfl⟩
    have h3 := h2 _ (List.mem_cons_self)
    refine ⟨?_, ?_⟩
    · rcases List.mem_cons.1 h1 with h | h
      · rw [h]
        rcases hx.2.2 with e | e <;> rw [e] <;> simp
      · simp [h]
    · intro z hz
      rcases List.mem_cons.1 hz with rfl | hz
      · exact hx.1.trans h3
      rcases List.mem_cons.1 hz with rfl | hz
      · exact hx.2.1.trans h3
      · exact h2 z (by simp [hz])

theorem fold_min (l : List (ℕ × Name)) (x : ℕ × Name) :
    l.foldl pickMin x ∈ x :: l ∧ ∀ y ∈ x :: l, (l.foldl pickMin x).1 ≤ y.1 := by
  induction l generalizing x with
  | nil => simp
  | cons y l ih =>
    obtain ⟨h1, h2⟩ := ih (pickMin x y)
    rw [List.foldl_cons]
    have hx : (pickMin x y).1 ≤ x.1 ∧ (pickMin x y).1 ≤ y.1 ∧ (pickMin x y = x ∨ pickMin x y = y) := by
      unfold pickMin
      split
      · exact ⟨by omega, le_refl _, Or.inr rfl⟩
      · exact ⟨le_refl _, by omega, Or.inl rfl⟩
    have h3 := h2 _ (List.mem_cons_self)
    refine ⟨?_, ?_⟩
    · rcases List.mem_cons.1 h1 with h | h
      · rw [h]
        rcases hx.2.2 with e | e <;> rw [e] <;> simp
      · simp [h]
    · intro z hz
      rcases List.mem_cons.1 hz with rfl | hz
      · exact h3.trans hx.1
      rcases List.mem_cons.1 hz with rfl | hz
      · exact h3.trans hx.2.1
      · exact h2 z (by simp [hz])

theorem keys_none (dirs : List Name) (d : Name) (hd : d ∈ dirs) (h : parseUsize d = none) :
    (dirs.mapM fun name => (parseUsize name).map fun n => (n, name)) = none := by
  induction dirs with
  | nil => cases hd
  | cons x dirs ih =>
    rw [List.mapM_cons]
    rcases List.mem_cons.1 hd with rfl | hd
    · rw [h]
      rfl
    · rw [ih hd]
      cases parseUsize x <;> rfl

/-! ### Reading -/

variable {K : Type}

theorem asVec_map (l : List (Vec 3 K)) : (l.map Value.vec).mapM Value.asVec = some l := by
  induction l with
  | nil => rfl
  | cons x l ih =>
    rw [List.map_cons, List.mapM_cons, ih]
    rfl

theorem asNum_map (l : List K) : (l.map Value.num).mapM Value.asNum = some l := by
  induction l with
  | nil => rfl
  | cons x l ih =>
    rw [List.map_cons, List.mapM_cons, ih]
    rfl

theorem zip_flatten {ι A B : Type} (is : List ι) (x : ι → List A) (y : ι → List B)
    (h : ∀ i ∈ is, (x i).length = (y i).length) :
    (is.map fun i => (x i).zip (y i)).flatten = (is.map x).flatten.zip (is.map y).flatten := by
  induction is with
  | nil => rfl
  | cons i is ih =>
    simp only [List.map_cons, List.flatten_cons]
    rw [ih fun j hj => h j (by simp [hj]), List.zip_append (h i (by simp))]

/-- the three values of a row -/
def row [Field K] (factor : K) (x : Vec 3 K × K × K) : Full K := ⟨fun i => x.1 i * factor, x.2.2, x.2.1⟩

variable [Field K]

theorem read_files (W : ℕ) (hW : 0 < W) (is : List ℕ) (hne : is ≠ []) (x0 : ℕ → List (Vec 3 K)) (x1 x2 : ℕ → List K)
    (h1 : ∀ i ∈ is, (x1 i).length = (x0 i).length) (h2 : ∀ i ∈ is, (x2 i).length = (x0 i).length)
    (first last : ℕ → FileData K) (g0 : ∀ i ∈ is, (first i).sets "position" = some ((x0 i).map .vec))
    (g1 : ∀ i ∈ is, (last i).sets "ionized_hydrogen_fraction" = some ((x1 i).map .num))
    (g2 : ∀ i ∈ is, (last i).sets "temperature" = some ((x2 i).map .num)) (a b h : K)
    (gb : ∀ i ∈ is, (first i).attrs "scale_factor" = some (.num b))
    (gh : ∀ i ∈ is, (first i).attrs "little_h" = some (.num h)) :
    ∃ parts : List (List (Full K)), parts.length = W ∧
      parts.flatten = (is.map fun i => ((x0 i).zip ((x1 i).zip (x2 i))).map (row (a / b))).flatten ∧
      ∀ r, r < W → readRemapFiles (some a) W r (is.map last) (is.map first) = parts[r]? := by
  obtain ⟨parts, p1, p2, _, p4⟩ :=
    Verif.Startup.read_parts (is.map fun i => (x0 i).zip ((x1 i).zip (x2 i))) W hW
  refine ⟨parts.map fun l => l.map (row (a / b)), by simp [p1], ?_, ?_⟩
  · rw [← List.map_flatten, p2, List.map_flatten, List.map_map]
    rfl
  · intro r hr
    obtain ⟨p, hp⟩ : ∃ p, parts[r]? = some p := ⟨_, List.getElem?_eq_getElem (by omega)⟩
    have e0 : readValues (is.map first) "position" W r = some (p.map fun x => .vec x.1) := by
      have := (p4 (Value K) (fun x => .vec x.1) r p hp).1
      rw [List.map_map] at this
      unfold readValues
      rw [← this, List.map_map]
      congr 1
      apply List.map_congr_left
      intro i hi
      simp only [Function.comp_apply, g0 i hi, Option.getD_some]
      have hz : ((x0 i).zip ((x1 i).zip (x2 i))).map Prod.fst = x0 i :=
        List.map_fst_zip (by simp [h1 i hi, h2 i hi])
      conv_lhs => rw [← hz, List.map_map]
      rfl
    have e1 : readValues (is.map last) "ionized_hydrogen_fraction" W r = some (p.map fun x => .num x.2.1) := by
      have := (p4 (Value K) (fun x => .num x.2.1) r p hp).1
      rw [List.map_map] at this
      unfold readValues
      rw [← this, List.map_map]
      congr 1
      apply List.map_congr_left
      intro i hi
      simp only [Function.comp_apply, g1 i hi, Option.getD_some]
      have hz : (((x0 i).zip ((x1 i).zip (x2 i))).map Prod.snd).map Prod.fst = x1 i := by
        rw [List.map_snd_zip (by simp [h1 i hi, h2 i hi])]
        exact List.map_fst_zip (by simp [h1 i hi, h2 i hi])
      conv_lhs => rw [← hz, List.map_map, List.map_map]
      rfl
    have e2 : readValues (is.map last) "temperature" W r = some (p.map fun x => .num x.2.2) := by
      have := (p4 (Value K) (fun x => .num x.2.2) r p hp).1
      rw [List.map_map] at this
      unfold readValues
      rw [← this, List.map_map]
      congr 1
      apply List.map_congr_left
      intro i hi
      simp only [Function.comp_apply, g2 i hi, Option.getD_some]
      have hz : (((x0 i).zip ((x1 i).zip (x2 i))).map Prod.snd).map Prod.snd = x2 i := by
        rw [List.map_snd_zip (by simp [h1 i hi, h2 i hi])]
        exact List.map_snd_zip (by simp [h1 i hi, h2 i hi])
      conv_lhs => rw [← hz, List.map_map, List.map_map]
      rfl
    obtain ⟨i0, hi0, hhead⟩ : ∃ i0 ∈ is, (is.map first).head? = some (first i0) := by
      cases is with
      | nil => exact absurd rfl hne
      | cons i is => exact ⟨i, by simp, rfl⟩
    have m0 : (p.map fun x => (Value.vec x.1 : Value K)).mapM Value.asVec = some (p.map Prod.fst) := by
      rw [← asVec_map, List.map_map]
      rfl
    have m1 : (p.map fun x => (Value.num x.2.1 : Value K)).mapM Value.asNum = some (p.map fun x => x.2.1) := by
      rw [← asNum_map, List.map_map]
      rfl
    have m2 : (p.map fun x => (Value.num x.2.2 : Value K)).mapM Value.asNum = some (p.map fun x => x.2.2) := by
      rw [← asNum_map, List.map_map]
      rfl
    have hzip : (((p.map Prod.fst).zip (p.map fun x => x.2.1)).zip (p.map fun x => x.2.2)).map
        (fun x => (⟨x.1.1, x.2, x.1.2⟩ : Full K)) = p.map fun x => ⟨x.1, x.2.2, x.2.1⟩ := by
      rw [List.zip_map', List.zip_map', List.map_map]
      rfl
    unfold readRemapFiles
    simp only [e0, e1, e2, Option.bind_eq_bind, Option.bind_some, m0, m1, m2, hhead,
      gb i0 hi0, gh i0 hi0, Value.asNum, hzip, readRemapData, getScaleFactorDifference]
    rw [List.getElem?_map, hp, Option.map_some, List.map_map]
    rfl

end Verif.Remap
