import Verif.Domain.DecompositionModel
import Mathlib.Data.List.Sort
import Mathlib.Data.List.Nodup
import Mathlib.Tactic.Ring
import Mathlib.Tactic.Linarith

/-!
# Domain decomposition: lemmas
-/

namespace Verif.Decomp

/-! ### Counting keys in intervals -/

/-- Number of keys in `[a, b]`. -/
def cnt (ks : List Nat) (a b : Nat) : Nat := ks.countP (fun k => decide (a ≤ k ∧ k ≤ b))
/-- Number of keys in `[a, b)`. -/
def cntO (ks : List Nat) (a b : Nat) : Nat := ks.countP (fun k => decide (a ≤ k ∧ k < b))

theorem cnt_append (xs ys : List Nat) (a b : Nat) : cnt (xs ++ ys) a b = cnt xs a b + cnt ys a b := by
  unfold cnt; rw [List.countP_append]

theorem cnt_perm {xs ys : List Nat} (h : xs.Perm ys) (a b : Nat) : cnt xs a b = cnt ys a b :=
  h.countP_eq _

theorem cntO_perm {xs ys : List Nat} (h : xs.Perm ys) (a b : Nat) : cntO xs a b = cntO ys a b :=
  h.countP_eq _

theorem cnt_add (ks : List Nat) (a b : Nat) (h : a ≤ b + 1) :
    cnt ks a b + ks.countP (fun x => decide (x < a)) = ks.countP (fun x => decide (x ≤ b)) := by
  induction ks with
  | nil => rfl
  | cons k ks ih =>
    unfold cnt at *
    rw [List.countP_cons, List.countP_cons, List.countP_cons]
    simp only [decide_eq_true_eq]
    split <;> split <;> split <;> omega

theorem cntO_split (ks : List Nat) (a b c : Nat) (h1 : a ≤ b) (h2 : b ≤ c) :
    cntO ks a b + cntO ks b c = cntO ks a c := by
  induction ks with
  | nil => rfl
  | cons k ks ih =>
    unfold cntO at *
    rw [List.countP_cons, List.countP_cons, List.countP_cons]
    simp only [decide_eq_true_eq]
    split <;> split <;> split <;> omega

theorem cnt_eq_cntO (ks : List Nat) (a b : Nat) : cnt ks a b = cntO ks a (b + 1) := by
  unfold cnt cntO
  congr 1
  funext k
  simp [Nat.lt_succ_iff]

theorem cntO_mono (ks : List Nat) (a b c : Nat) (h : b ≤ c) : cntO ks a b ≤ cntO ks a c := by
  unfold cntO
  apply List.countP_mono_left
  intro x _
  simp only [decide_eq_true_eq]
  omega

theorem cntO_single (ks : List Nat) (hnd : ks.Nodup) (a : Nat) : cntO ks a (a + 1) ≤ 1 := by
  have h : cntO ks a (a + 1) = ks.count a := by
    unfold cntO List.count
    congr 1
    funext k
    rw [Bool.eq_iff_iff]
    simp only [decide_eq_true_eq, beq_iff_eq]
    omega
  rw [h]
  exact List.nodup_iff_count_le_one.mp hnd a

theorem cntO_succ (ks : List Nat) (hnd : ks.Nodup) (a b : Nat) :
    cntO ks a (b + 1) ≤ cntO ks a b + 1 := by
  by_cases h : a ≤ b
  · have h1 := cntO_split ks a b (b + 1) h (by omega)
    have h2 := cntO_single ks hnd b
    omega
  · have : cntO ks a (b + 1) = 0 := by
      unfold cntO
      rw [List.countP_eq_zero]
      intro k _
      simp only [decide_eq_true_eq]
      omega
    omega

/-! ### `binary_search` on sorted lists without repetition -/

theorem count_lt_of_getElem (ks : List Nat) (hs : ks.Pairwise (· ≤ ·)) (hnd : ks.Nodup) (k i : Nat)
    (h : ks[i]? = some k) :
    ks.countP (fun x => decide (x < k)) = i ∧ ks.countP (fun x => decide (x ≤ k)) = i + 1 := by
  induction ks generalizing i with
  | nil => simp at h
  | cons x xs ih =>
    have hp : (∀ a ∈ xs, x ≤ a) ∧ xs.Pairwise (· ≤ ·) := List.pairwise_cons.mp hs
    have hn : x ∉ xs ∧ xs.Nodup := List.nodup_cons.mp hnd
    cases i with
    | zero =>
      simp only [List.getElem?_cons_zero, Option.some.injEq] at h
      subst h
      have h1 : xs.countP (fun y => decide (y < x)) = 0 := by
        rw [List.countP_eq_zero]
        intro a ha
        have := hp.1 a ha
        simp only [decide_eq_true_eq]; omega
      have h2 : xs.countP (fun y => decide (y ≤ x)) = 0 := by
        rw [List.countP_eq_zero]
        intro a ha
        have := hp.1 a ha
        have hne : a ≠ x := fun hc => hn.1 (hc ▸ ha)
        simp only [decide_eq_true_eq]; omega
      rw [List.countP_cons, List.countP_cons, h1, h2]
      simp
    | succ i =>
      rw [List.getElem?_cons_succ] at h
      obtain ⟨h1, h2⟩ := ih hp.2 hn.2 i h
      have hmem : k ∈ xs := List.mem_of_getElem? h
      have hle := hp.1 k hmem
      have hne : x ≠ k := fun hc => hn.1 (hc ▸ hmem)
      rw [List.countP_cons, List.countP_cons, h1, h2]
      have hlt : x < k := by omega
      simp [hlt, hle]

theorem startIndex_eq {search} (hc : SearchContract search) (ks : List Nat)
    (hs : ks.Pairwise (· ≤ ·)) (hnd : ks.Nodup) (k : Nat) :
    startIndex (search ks k) = ks.countP (fun x => decide (x < k)) := by
  cases h : search ks k with
  | ok i => exact (count_lt_of_getElem ks hs hnd k i (hc.ok ks k i hs h)).1.symm
  | err i => exact (hc.err ks k i hs h).2

theorem countP_le_of_not_mem (ks : List Nat) (k : Nat) (h : k ∉ ks) :
    ks.countP (fun x => decide (x ≤ k)) = ks.countP (fun x => decide (x < k)) := by
  apply List.countP_congr
  intro x hx
  have : x ≠ k := fun hc => h (hc ▸ hx)
  simp only [decide_eq_true_eq]
  omega

theorem stopIndex_eq {search} (hc : SearchContract search) (ks : List Nat)
    (hs : ks.Pairwise (· ≤ ·)) (hnd : ks.Nodup) (k : Nat) :
    stopIndex (search ks k) = ks.countP (fun x => decide (x ≤ k)) := by
  cases h : search ks k with
  | ok i => exact (count_lt_of_getElem ks hs hnd k i (hc.ok ks k i hs h)).2.symm
  | err i =>
    rw [countP_le_of_not_mem ks k (hc.err ks k i hs h).1]
    exact (hc.err ks k i hs h).2

theorem localLoad_eq {search} (hc : SearchContract search) (ks : List Nat)
    (hs : ks.Pairwise (· ≤ ·)) (hnd : ks.Nodup) (a b : Nat) (hab : a ≤ b + 1) :
    localLoad search ks a b = some (cnt ks a b) := by
  unfold localLoad
  rw [startIndex_eq hc ks hs hnd, stopIndex_eq hc ks hs hnd, ← cnt_add ks a b hab]
  simp

theorem keyCounter_perm (ks : List Nat) : (KeyCounter.new ks).Perm ks := List.perm_insertionSort _ _

theorem keyCounter_sorted (ks : List Nat) : (KeyCounter.new ks).Pairwise (· ≤ ·) := by
  exact List.pairwise_insertionSort _ _

theorem sumLoads_eq {search} (hc : SearchContract search) (world : List (List Nat))
    (hnd : ∀ ks ∈ world, ks.Nodup) (a b : Nat) (hab : a ≤ b + 1) :
    sumLoads search (world.map KeyCounter.new) a b = some (cnt world.flatten a b) := by
  induction world with
  | nil => rfl
  | cons ks rest ih =>
    have h1 := localLoad_eq hc (KeyCounter.new ks) (keyCounter_sorted ks)
      ((keyCounter_perm ks).nodup_iff.mpr (hnd ks (by simp))) a b hab
    have h2 := ih (fun k hk => hnd k (by simp [hk]))
    rw [List.map_cons, sumLoads, h1, h2, List.flatten_cons, cnt_append,
      cnt_perm (keyCounter_perm ks)]

/-! ### Running programs -/

theorem run_bind {α β : Type} (load) (p : Prog α) (f : α → Prog β) :
    run load (p.bind f) = (run load p).bind (fun a => run load (f a)) := by
  induction p with
  | ret a => rfl
  | panic => rfl
  | load s e k ih =>
    simp only [Prog.bind, run]
    cases load s e with
    | none => rfl
    | some v => exact ih v

/-- A counter which counts `ks` for all sensible ranges. -/
def Counts (load : Nat → Nat → Option Nat) (ks : List Nat) : Prop :=
  ∀ a b, a ≤ b + 1 → load a b = some (cnt ks a b)

theorem middle_lt (lo hi : Nat) (h : lo < hi) : lo ≤ middle lo hi ∧ middle lo hi < hi := by
  unfold middle; omega

theorem bisect_spec (load) (ks : List Nat) (hl : Counts load ks) (hnd : ks.Nodup)
    (target s : Nat) (ht : 0 < target) (fuel lo hi : Nat) (hs : s ≤ lo) (hlt : lo < hi)
    (hlo : cnt ks s lo ≤ target) :
    ∃ pos, run load (bisect target s fuel lo hi) = some pos ∧ lo ≤ pos ∧ pos < hi ∧
      (hi - lo ≤ 2 ^ fuel + 1 → (cnt ks s lo < target ∨ lo = s) → target < cnt ks s hi →
        target ≤ cntO ks s pos + 2 ∧ cntO ks s pos ≤ target) := by
  induction fuel generalizing lo hi with
  | zero =>
    obtain ⟨hm1, hm2⟩ := middle_lt lo hi hlt
    refine ⟨middle lo hi, ?_, hm1, hm2, ?_⟩
    · simp only [bisect, run]
      rw [hl s (middle lo hi) (by omega)]
    · intro hw hor hhi
      rw [cnt_eq_cntO] at hhi hlo hor
      simp only [Nat.pow_zero] at hw
      by_cases h1 : hi = lo + 1
      · subst h1
        have hm : middle lo (lo + 1) = lo := by omega
        rw [hm]
        have e1 := cntO_succ ks hnd s lo
        have e2 := cntO_succ ks hnd s (lo + 1)
        have e3 := cntO_mono ks s lo (lo + 1) (by omega)
        omega
      · have h2 : hi = lo + 2 := by omega
        subst h2
        rw [show lo + 2 + 1 = lo + 1 + 1 + 1 from rfl] at hhi
        have e1 := cntO_succ ks hnd s lo
        have e2 := cntO_succ ks hnd s (lo + 1)
        have e3 := cntO_succ ks hnd s (lo + 1 + 1)
        have e4 := cntO_mono ks s lo (lo + 1) (by omega)
        have hm : middle lo (lo + 2) = lo ∨ middle lo (lo + 2) = lo + 1 := by omega
        rcases hm with hm | hm <;> rw [hm] <;> omega
  | succ fuel ih =>
    obtain ⟨hm1, hm2⟩ := middle_lt lo hi hlt
    have hload := hl s (middle lo hi) (by omega)
    simp only [bisect, run]
    rw [hload]
    simp only
    have hp : (2 : Nat) ^ (fuel + 1) = 2 ^ fuel * 2 := Nat.pow_succ ..
    by_cases c1 : cnt ks s (middle lo hi) < target
    · rw [if_pos c1]
      obtain ⟨pos, h1, h2, h3, h4⟩ := ih (middle lo hi) hi (by omega) hm2 (by omega)
      refine ⟨pos, h1, by omega, h3, ?_⟩
      intro hw hor hhi
      exact h4 (by unfold middle; omega) (Or.inl c1) hhi
    · rw [if_neg c1]
      by_cases c2 : target < cnt ks s (middle lo hi)
      · rw [if_pos c2]
        have hne : lo ≠ middle lo hi := by
          intro hc; rw [← hc] at c2; omega
        obtain ⟨pos, h1, h2, h3, h4⟩ := ih lo (middle lo hi) hs (by omega) hlo
        refine ⟨pos, h1, h2, by omega, ?_⟩
        intro hw hor hhi
        exact h4 (by unfold middle; omega) hor c2
      · rw [if_neg c2]
        refine ⟨middle lo hi, rfl, hm1, hm2, ?_⟩
        intro _ _ _
        have e0 : cnt ks s (middle lo hi) = target := by omega
        rw [cnt_eq_cntO] at e0
        have e1 := cntO_succ ks hnd s (middle lo hi)
        have e2 := cntO_mono ks s (middle lo hi) (middle lo hi + 1) (by omega)
        omega

/-- Consecutive segments starting at `s`. -/
def Chain : Nat → List (Nat × Nat) → Prop
  | _, [] => True
  | s, (a, b) :: rest => a = s ∧ s ≤ b ∧ Chain b rest

theorem findSegments_spec (load) (ks : List Nat) (hl : Counts load ks) (hnd : ks.Nodup)
    (keyMax maxDepth target maxKey : Nat) (ht : 0 < target) (hmax : maxKey < keyMax)
    (n start : Nat) (hstart : start < maxKey ∨ (n = 0 ∧ start = maxKey)) :
    ∃ segs, run load (findSegments keyMax maxDepth target maxKey n start) = some segs ∧
      segs.length = n + 1 ∧ Chain start segs ∧
      (∀ e ∈ segs, e.1 ≤ maxKey ∧ e.2 ≤ maxKey + 1) ∧
      segs.getLast?.map Prod.snd = some (maxKey + 1) ∧
      (∀ e ∈ segs.dropLast, e.2 < maxKey) ∧
      (maxKey - start ≤ 2 ^ maxDepth + 1 →
        (n + 1) * target ≤ cntO ks start (maxKey + 1) →
        ∀ e ∈ segs.dropLast, target ≤ cntO ks e.1 e.2 + 2 ∧ cntO ks e.1 e.2 ≤ target) := by
  induction n generalizing start with
  | zero =>
    refine ⟨[(start, maxKey + 1)], ?_, rfl, ?_, ?_, rfl, by simp, by simp⟩
    · simp only [findSegments, run, next]
      rw [if_pos (by omega)]
    · exact ⟨rfl, by omega, trivial⟩
    · intro e he
      simp only [List.mem_singleton] at he
      subst he
      exact ⟨by simp only; omega, Nat.le_refl _⟩
  | succ n ih =>
    have hlt : start < maxKey := by omega
    have hc1 : cnt ks start start ≤ target := by
      have := cntO_single ks hnd start
      rw [cnt_eq_cntO]
      omega
    obtain ⟨pos, h1, h2, h3, h4⟩ := bisect_spec load ks hl hnd target start ht maxDepth start maxKey
      (Nat.le_refl _) hlt hc1
    obtain ⟨segs, g1, g2, g3, g4, g5, g6, g7⟩ := ih pos (Or.inl h3)
    refine ⟨(start, pos) :: segs, ?_, by simp [g2], ⟨rfl, h2, g3⟩, ?_, ?_, ?_, ?_⟩
    · simp only [findSegments]
      rw [run_bind, h1, Option.bind_some, run_bind, g1]
      rfl
    · intro e he
      rcases List.mem_cons.mp he with rfl | he
      · exact ⟨by simp only; omega, by simp only; omega⟩
      · exact g4 e he
    · cases segs with
      | nil => simp at g2
      | cons x xs => rw [List.getLast?_cons_cons]; exact g5
    · cases segs with
      | nil => simp at g2
      | cons x xs =>
        rw [List.dropLast_cons_cons]
        intro e he
        rcases List.mem_cons.mp he with rfl | he
        · exact h3
        · exact g6 e he
    · intro hw htot
      cases segs with
      | nil => simp at g2
      | cons x xs =>
        rw [List.dropLast_cons_cons]
        have hgt : target < cnt ks start maxKey := by
          rw [cnt_eq_cntO]
          have : (n + 1 + 1) * target = n * target + 2 * target := by ring
          omega
        have hb := h4 hw (Or.inr rfl) hgt
        intro e he
        rcases List.mem_cons.mp he with rfl | he
        · exact hb
        · refine g7 (by omega) ?_ e he
          have hsplit := cntO_split ks start pos (maxKey + 1) h2 (by omega)
          have : (n + 1 + 1) * target = (n + 1) * target + target := by ring
          omega

theorem getLoads_spec (load) (ks : List Nat) (hl : Counts load ks) (segs : List (Nat × Nat))
    (h : ∀ e ∈ segs, e.1 ≤ e.2 + 1) :
    run load (getLoads segs) = some (segs.map (fun e => cnt ks e.1 e.2)) := by
  induction segs with
  | nil => rfl
  | cons e es ih =>
    simp only [getLoads, run]
    rw [hl e.1 e.2 (h e (by simp))]
    simp only
    rw [run_bind, ih (fun x hx => h x (by simp [hx]))]
    rfl

theorem chain_le (s : Nat) (segs : List (Nat × Nat)) (h : Chain s segs) :
    ∀ e ∈ segs, s ≤ e.1 ∧ e.1 ≤ e.2 := by
  induction segs generalizing s with
  | nil => simp
  | cons x xs ih =>
    obtain ⟨a, b⟩ := x
    obtain ⟨h1, h2, h3⟩ := h
    intro e he
    rcases List.mem_cons.mp he with rfl | he
    · simp only; omega
    · have := ih b h3 e he
      omega

theorem chain_sorted (s : Nat) (segs : List (Nat × Nat)) (h : Chain s segs) :
    (segs.map Prod.snd).Pairwise (· ≤ ·) := by
  induction segs generalizing s with
  | nil => simp
  | cons x xs ih =>
    obtain ⟨a, b⟩ := x
    obtain ⟨h1, h2, h3⟩ := h
    rw [List.map_cons, List.pairwise_cons]
    refine ⟨?_, ih b h3⟩
    intro c hc
    obtain ⟨e, he, rfl⟩ := List.mem_map.mp hc
    have := chain_le b xs h3 e he
    simp only; omega

/-! ### Global minimum and maximum -/

theorem globalMin_spec (world : List (List Nat)) (m : Nat) (h : globalMin world = some m) :
    m ∈ world.flatten ∧ ∀ k ∈ world.flatten, m ≤ k := by
  induction world generalizing m with
  | nil => simp [globalMin] at h
  | cons ks rest ih =>
    unfold globalMin at h
    cases hm : ks.min? with
    | none => rw [hm] at h; simp at h
    | some m0 =>
      rw [hm] at h
      have hm' := List.min?_eq_some_iff.mp hm
      cases rest with
      | nil =>
        simp only [Option.some.injEq] at h
        subst h
        simpa using hm'
      | cons k1 r =>
        simp only at h
        cases hg : globalMin (k1 :: r) with
        | none => rw [hg] at h; simp at h
        | some m1 =>
          rw [hg] at h
          simp only [Option.map_some, Option.some.injEq] at h
          obtain ⟨i1, i2⟩ := ih m1 hg
          subst h
          rw [List.flatten_cons]
          constructor
          · rw [List.mem_append]
            rcases Nat.le_total m0 m1 with hle | hle
            · left; rw [Nat.min_eq_left hle]; exact hm'.1
            · right; rw [Nat.min_eq_right hle]; exact i1
          · intro k hk
            rcases List.mem_append.mp hk with hk | hk
            · have := hm'.2 k hk; omega
            · have := i2 k hk; omega

theorem globalMax_spec (world : List (List Nat)) (m : Nat) (h : globalMax world = some m) :
    m ∈ world.flatten ∧ ∀ k ∈ world.flatten, k ≤ m := by
  induction world generalizing m with
  | nil => simp [globalMax] at h
  | cons ks rest ih =>
    unfold globalMax at h
    cases hm : ks.max? with
    | none => rw [hm] at h; simp at h
    | some m0 =>
      rw [hm] at h
      have hm' := List.max?_eq_some_iff.mp hm
      cases rest with
      | nil =>
        simp only [Option.some.injEq] at h
        subst h
        simpa using hm'
      | cons k1 r =>
        simp only at h
        cases hg : globalMax (k1 :: r) with
        | none => rw [hg] at h; simp at h
        | some m1 =>
          rw [hg] at h
          simp only [Option.map_some, Option.some.injEq] at h
          obtain ⟨i1, i2⟩ := ih m1 hg
          subst h
          rw [List.flatten_cons]
          constructor
          · rw [List.mem_append]
            rcases Nat.le_total m0 m1 with hle | hle
            · right; rw [Nat.max_eq_right hle]; exact i1
            · left; rw [Nat.max_eq_left hle]; exact hm'.1
          · intro k hk
            rcases List.mem_append.mp hk with hk | hk
            · have := hm'.2 k hk; omega
            · have := i2 k hk; omega

theorem global_some (world : List (List Nat)) (hne : world ≠ []) (h : ∀ ks ∈ world, ks ≠ []) :
    (∃ m, globalMin world = some m) ∧ ∃ m, globalMax world = some m := by
  induction world with
  | nil => exact absurd rfl hne
  | cons ks rest ih =>
    have hks := h ks (by simp)
    unfold globalMin globalMax
    cases ks with
    | nil => exact absurd rfl hks
    | cons a as =>
      rw [List.min?_cons, List.max?_cons]
      cases rest with
      | nil => exact ⟨⟨_, rfl⟩, ⟨_, rfl⟩⟩
      | cons k1 r =>
        obtain ⟨⟨m1, h1⟩, ⟨m2, h2⟩⟩ := ih (by simp) (fun x hx => h x (by simp [hx]))
        rw [h1, h2]
        exact ⟨⟨_, rfl⟩, ⟨_, rfl⟩⟩

end Verif.Decomp
