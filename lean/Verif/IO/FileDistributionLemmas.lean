import Verif.IO.FileDistributionSpec
import Mathlib.Data.List.Basic
import Mathlib.Data.List.Nodup
import Mathlib.Algebra.BigOperators.Group.List.Basic

/-! # Helper lemmas for the file distribution -/

namespace Verif.FileDist

/-- rows of the files `k, k+1, ...` of the given sizes -/
def rowsFrom : Nat → List Nat → List (Nat × Nat)
  | _, [] => []
  | k, s :: ss => (List.range s).map (fun i => (k, i)) ++ rowsFrom (k + 1) ss

theorem allRows_eq_aux (sizes : List Nat) (k : Nat) :
    (sizes.zipIdx k).flatMap (fun f => (List.range f.1).map (fun i => (f.2, i)))
      = rowsFrom k sizes := by
  induction sizes generalizing k with
  | nil => simp [rowsFrom]
  | cons s ss ih => simp [rowsFrom, List.zipIdx_cons, ih]

theorem allRows_eq (sizes : List Nat) : allRows sizes = rowsFrom 0 sizes :=
  allRows_eq_aux sizes 0

/-- rows from a position to the end -/
def rest (sizes : List Nat) (p : Pos) : List (Nat × Nat) :=
  match sizes[p.fileIndex]? with
  | none => []
  | some s => (List.range' p.pos (s - p.pos)).map (fun i => (p.fileIndex, i))
      ++ rowsFrom (p.fileIndex + 1) (sizes.drop (p.fileIndex + 1))

/-- a position that can be continued from -/
def PosOk (sizes : List Nat) (p : Pos) : Prop :=
  ∃ s, sizes[p.fileIndex]? = some s ∧ p.pos ≤ s

theorem rest_some {sizes : List Nat} {p : Pos} {s : Nat} (h : sizes[p.fileIndex]? = some s) :
    rest sizes p = (List.range' p.pos (s - p.pos)).map (fun i => (p.fileIndex, i))
      ++ rowsFrom (p.fileIndex + 1) (sizes.drop (p.fileIndex + 1)) := by
  simp [rest, h]

theorem rowsFrom_drop_eq_rest {sizes : List Nat} (fi : Nat) :
    rowsFrom fi (sizes.drop fi) = rest sizes ⟨fi, 0⟩ := by
  by_cases h : fi < sizes.length
  · rw [List.drop_eq_getElem_cons h]
    simp [rest, rowsFrom, List.getElem?_eq_getElem h, List.range_eq_range']
  · have h' : sizes.length ≤ fi := by omega
    simp [rest, rowsFrom, List.getElem?_eq_none h', List.drop_eq_nil_of_le h']

theorem range'_split (a m n : Nat) (h : m ≤ n) :
    List.range' a n = List.range' a m ++ List.range' (a + m) (n - m) := by
  have : n = m + (n - m) := by omega
  conv_lhs => rw [this]
  rw [← List.range'_append_1]

theorem regionsLoop_spec (sizes : List Nat) :
    ∀ (k fi startPos endPos : Nat) (acc : List Region), sizes.length - fi = k →
      (hfi : fi < sizes.length) → startPos ≤ sizes[fi] → startPos ≤ endPos →
      endPos - startPos ≤ (rest sizes ⟨fi, startPos⟩).length →
      ∃ rs e, regionsLoop sizes fi startPos endPos acc = some (acc ++ rs, e) ∧
        rest sizes ⟨fi, startPos⟩ = rs.flatMap Region.rows ++ rest sizes e ∧
        PosOk sizes e ∧
        (rs.flatMap Region.rows).length = endPos - startPos ∧
        (∀ r ∈ rs, r.start ≤ r.stop ∧ ∃ s, sizes[r.fileIndex]? = some s ∧ r.stop ≤ s) := by
  intro k
  induction k with
  | zero => intro fi _ _ _ hk hfi; omega
  | succ k ih =>
    intro fi startPos endPos acc hk hfi hs hse hlen
    have hget : sizes[fi]? = some sizes[fi] := List.getElem?_eq_getElem hfi
    have hrest : rest sizes ⟨fi, startPos⟩
        = (List.range' startPos (sizes[fi] - startPos)).map (fun i => (fi, i))
          ++ rowsFrom (fi + 1) (sizes.drop (fi + 1)) := rest_some (p := ⟨fi, startPos⟩) hget
    rw [regionsLoop]
    rw [dif_pos hfi]
    by_cases hlt : sizes[fi] < endPos
    · rw [if_pos hlt]
      rw [rowsFrom_drop_eq_rest] at hrest
      have hlen' : endPos - sizes[fi] ≤ (rest sizes ⟨fi + 1, 0⟩).length := by
        rw [hrest] at hlen
        simp at hlen
        omega
      have hfi' : fi + 1 < sizes.length := by
        by_contra hcon
        have : (rest sizes ⟨fi + 1, 0⟩).length = 0 := by
          simp [rest, List.getElem?_eq_none (Nat.le_of_not_lt hcon)]
        omega
      obtain ⟨rs, e, he, hrest', hok, hl, hin⟩ :=
        ih (fi + 1) 0 (endPos - sizes[fi]) (acc ++ [⟨fi, startPos, sizes[fi]⟩])
          (by omega) hfi' (Nat.zero_le _) (Nat.zero_le _) (by omega)
      refine ⟨⟨fi, startPos, sizes[fi]⟩ :: rs, e, ?_, ?_, hok, ?_, ?_⟩
      · rw [he]; simp
      · rw [hrest, hrest']
        simp [Region.rows]
      · simp only [List.flatMap_cons, List.length_append, hl, Region.rows, List.length_map,
          List.length_range']
        omega
      · intro r hr
        rcases List.mem_cons.mp hr with rfl | hr
        · exact ⟨hs, sizes[fi], hget, Nat.le_refl _⟩
        · exact hin r hr
    · rw [if_neg hlt]
      refine ⟨[⟨fi, startPos, endPos⟩], ⟨fi, endPos⟩, rfl, ?_, ?_, ?_, ?_⟩
      · rw [hrest, rest_some (p := ⟨fi, endPos⟩) hget]
        rw [range'_split startPos (endPos - startPos) (sizes[fi] - startPos) (by omega)]
        have h1 : startPos + (endPos - startPos) = endPos := by omega
        have h2 : sizes[fi] - startPos - (endPos - startPos) = sizes[fi] - endPos := by omega
        simp [Region.rows, h1, h2]
      · exact ⟨sizes[fi], hget, by simp; omega⟩
      · simp [Region.rows]
      · intro r hr
        simp only [List.mem_singleton] at hr
        subst hr
        exact ⟨hse, sizes[fi], hget, by simp; omega⟩

theorem getRegionsFrom_spec (sizes : List Nat) (start : Pos) (n : Nat)
    (hok : n = 0 ∨ PosOk sizes start) (hlen : n ≤ (rest sizes start).length) :
    ∃ rs e, getRegionsFrom sizes start n = some (rs, e) ∧
      rest sizes start = rs.flatMap Region.rows ++ rest sizes e ∧
      (n = 0 → e = start) ∧ (n ≠ 0 → PosOk sizes e) ∧
      (rs.flatMap Region.rows).length = n ∧
      (∀ r ∈ rs, r.start ≤ r.stop ∧ ∃ s, sizes[r.fileIndex]? = some s ∧ r.stop ≤ s) := by
  unfold getRegionsFrom
  by_cases hn : n = 0
  · rw [if_pos hn]
    exact ⟨[], start, rfl, by simp, fun _ => rfl, fun h => absurd hn h, by simp [hn], by simp⟩
  · rw [if_neg hn]
    rcases hok with h0 | ⟨s, hs, hp⟩
    · exact absurd h0 hn
    · rw [hs]
      have hfi : start.fileIndex < sizes.length := by
        rw [List.getElem?_eq_some_iff] at hs; exact hs.1
      have hget : sizes[start.fileIndex] = s := by
        rw [List.getElem?_eq_some_iff] at hs; exact hs.2
      simp only
      by_cases hps : start.pos = s
      · rw [if_pos hps]
        have hr : rest sizes start = rest sizes ⟨start.fileIndex + 1, 0⟩ := by
          rw [rest_some hs, hps, ← rowsFrom_drop_eq_rest]
          simp
        have hfi' : start.fileIndex + 1 < sizes.length := by
          by_contra hcon
          have : (rest sizes ⟨start.fileIndex + 1, 0⟩).length = 0 := by
            simp [rest, List.getElem?_eq_none (Nat.le_of_not_lt hcon)]
          rw [hr] at hlen
          omega
        obtain ⟨rs, e, he, h1, h2, h3, h4⟩ :=
          regionsLoop_spec sizes _ (start.fileIndex + 1) 0 (0 + n) [] rfl hfi'
            (Nat.zero_le _) (Nat.zero_le _) (by rw [← hr]; omega)
        exact ⟨rs, e, by simpa using he, by rw [hr]; exact h1, fun h => absurd h hn,
          fun _ => h2, by omega, h4⟩
      · rw [if_neg hps]
        obtain ⟨rs, e, he, h1, h2, h3, h4⟩ :=
          regionsLoop_spec sizes _ start.fileIndex start.pos (start.pos + n) [] rfl hfi
            (by omega) (by omega) (by have : start.pos + n - start.pos = n := by omega
                                      rw [this]; exact hlen)
        exact ⟨rs, e, by simpa using he, h1, fun h => absurd h hn, fun _ => h2, by omega, h4⟩

theorem rows_of_size_zero {r : Region} (h : ¬ r.size > 0) : r.rows = [] := by
  have : r.stop - r.start = 0 := by unfold Region.size at h; omega
  simp [Region.rows, this]

theorem flatMap_rows_filter (rs : List Region) :
    (rs.filter (fun r => decide (r.size > 0))).flatMap Region.rows = rs.flatMap Region.rows := by
  induction rs with
  | nil => rfl
  | cons r rs ih =>
    by_cases h : r.size > 0
    · simp [h, ih]
    · simp [h, ih, rows_of_size_zero h]

theorem rankAssignmentLoop_spec (sizes : List Nat) :
    ∀ (ns : List Nat) (start : Pos), (ns.sum = 0 ∨ PosOk sizes start) →
      ns.sum ≤ (rest sizes start).length →
      ∃ asg, rankAssignmentLoop sizes start ns = some asg ∧
        asg.map (fun rs => (rs.flatMap Region.rows).length) = ns ∧
        (∃ tail, rest sizes start = asg.flatten.flatMap Region.rows ++ tail) ∧
        (∀ rs ∈ asg, ∀ r ∈ rs, RegionOk sizes r) := by
  intro ns
  induction ns with
  | nil => intro start _ _; exact ⟨[], rfl, rfl, ⟨_, by simp; rfl⟩, by simp⟩
  | cons n ns ih =>
    intro start hok hlen
    simp only [List.sum_cons] at hok hlen
    obtain ⟨rs, e, he, hrest, hz, hnz, hl, hin⟩ := getRegionsFrom_spec sizes start n
      (by rcases hok with h | h
          · left; omega
          · right; exact h) (by omega)
    have hlen' : ns.sum ≤ (rest sizes e).length := by
      rw [hrest, List.length_append, hl] at hlen
      omega
    obtain ⟨asg, ha, hc, ⟨tail, ht⟩, hreg⟩ := ih e (by
      by_cases hn : n = 0
      · rw [hz hn]
        rcases hok with h | h
        · left; omega
        · right; exact h
      · right; exact hnz hn) hlen'
    refine ⟨rs.filter (fun r => decide (r.size > 0)) :: asg, ?_, ?_, ⟨tail, ?_⟩, ?_⟩
    · simp only [rankAssignmentLoop, he, ha]
    · simp only [List.map_cons, hc, flatMap_rows_filter, hl]
    · rw [hrest, ht]
      simp [flatMap_rows_filter]
    · intro rs' hrs' r hr
      rcases List.mem_cons.mp hrs' with rfl | hmem
      · rw [List.mem_filter] at hr
        obtain ⟨hr1, hr2⟩ := hr
        obtain ⟨h1, s, h2, h3⟩ := hin r hr1
        refine ⟨?_, s, h2, h3⟩
        simp [Region.size] at hr2
        omega
      · exact hreg rs' hmem r hr

theorem length_rowsFrom (sizes : List Nat) (k : Nat) : (rowsFrom k sizes).length = sizes.sum := by
  induction sizes generalizing k with
  | nil => rfl
  | cons s ss ih => simp [rowsFrom, ih]

theorem length_allRows (sizes : List Nat) : (allRows sizes).length = sizes.sum := by
  rw [allRows_eq, length_rowsFrom]

theorem rest_zero (sizes : List Nat) : rest sizes ⟨0, 0⟩ = allRows sizes := by
  rw [allRows_eq, ← rowsFrom_drop_eq_rest]; simp

theorem getRankAssignment_spec (sizes ns : List Nat) (h : ns.sum = sizes.sum) :
    ∃ asg, getRankAssignment sizes ns = some asg ∧
      asg.map (fun rs => (rs.flatMap Region.rows).length) = ns ∧
      asg.flatten.flatMap Region.rows = allRows sizes ∧
      (∀ rs ∈ asg, ∀ r ∈ rs, RegionOk sizes r) := by
  have hok : ns.sum = 0 ∨ PosOk sizes ⟨0, 0⟩ := by
    cases sizes with
    | nil => left; simpa using h
    | cons s ss => right; exact ⟨s, by simp, Nat.zero_le _⟩
  obtain ⟨asg, h1, h2, ⟨tail, h3⟩, h4⟩ := rankAssignmentLoop_spec sizes ns ⟨0, 0⟩ hok
    (by rw [rest_zero, length_allRows]; omega)
  refine ⟨asg, h1, h2, ?_, h4⟩
  have hl : (asg.flatten.flatMap Region.rows).length = ns.sum := by
    rw [← h2]
    clear h1 h2 h3 h4
    induction asg with
    | nil => rfl
    | cons a as ih => simp [ih]
  rw [rest_zero] at h3
  have : tail = [] := by
    have hlen := congrArg List.length h3
    rw [length_allRows, List.length_append, hl] at hlen
    have : tail.length = 0 := by omega
    exact List.length_eq_zero_iff.mp this
  rw [h3, this, List.append_nil]

theorem mem_rowsFrom (sizes : List Nat) (k f i : Nat) :
    (f, i) ∈ rowsFrom k sizes ↔ k ≤ f ∧ ∃ s, sizes[f - k]? = some s ∧ i < s := by
  induction sizes generalizing k with
  | nil => simp [rowsFrom]
  | cons s ss ih =>
    simp only [rowsFrom, List.mem_append, List.mem_map, List.mem_range, ih, Prod.mk.injEq]
    constructor
    · rintro (⟨a, ha, rfl, rfl⟩ | ⟨h1, s', h2, h3⟩)
      · exact ⟨Nat.le_refl _, s, by simp, ha⟩
      · refine ⟨by omega, s', ?_, h3⟩
        have : f - k = (f - (k + 1)) + 1 := by omega
        rw [this]; simpa using h2
    · rintro ⟨h1, s', h2, h3⟩
      by_cases hfk : f = k
      · subst hfk
        left
        simp at h2
        subst h2
        exact ⟨i, h3, rfl, rfl⟩
      · right
        refine ⟨by omega, s', ?_, h3⟩
        have : f - k = (f - (k + 1)) + 1 := by omega
        rw [this] at h2; simpa using h2

theorem mem_allRows (sizes : List Nat) (f i : Nat) :
    (f, i) ∈ allRows sizes ↔ ∃ s, sizes[f]? = some s ∧ i < s := by
  rw [allRows_eq, mem_rowsFrom]; simp

theorem nodup_rowsFrom (sizes : List Nat) (k : Nat) : (rowsFrom k sizes).Nodup := by
  induction sizes generalizing k with
  | nil => simp [rowsFrom]
  | cons s ss ih =>
    rw [rowsFrom, List.nodup_append]
    refine ⟨?_, ih _, ?_⟩
    · apply List.Nodup.map _ List.nodup_range
      intro a b hab
      simpa using hab
    · rintro ⟨f, i⟩ h1 ⟨g, j⟩ h2 heq
      simp only [Prod.mk.injEq] at heq
      obtain ⟨rfl, rfl⟩ := heq
      simp only [List.mem_map, List.mem_range, Prod.mk.injEq] at h1
      obtain ⟨a, _, rfl, rfl⟩ := h1
      rw [mem_rowsFrom] at h2
      omega

theorem nodup_allRows (sizes : List Nat) : (allRows sizes).Nodup := by
  rw [allRows_eq]; exact nodup_rowsFrom _ _

theorem sum_inputEntriesPerRank (sizes : List Nat) (n : Nat) :
    (inputEntriesPerRank sizes n).sum = sizes.sum := by
  unfold inputEntriesPerRank
  rw [List.sum_append, List.sum_replicate_nat]
  have h1 : sizes.sum / n * (n - 1) ≤ sizes.sum :=
    Nat.le_trans (Nat.mul_le_mul_left _ (Nat.sub_le n 1)) (Nat.div_mul_le_self _ _)
  rw [Nat.mul_comm (n - 1)]
  simp
  omega

theorem sum_outputEntriesPerFile (total n : Nat) :
    (outputEntriesPerFile total n).sum = total := by
  unfold outputEntriesPerFile
  simp only [List.sum_append, List.sum_replicate_nat]
  have h1 : (n - 1) * (total / n) ≤ total :=
    Nat.le_trans (Nat.mul_le_mul_right _ (Nat.sub_le n 1)) (Nat.mul_div_le _ _)
  simp
  omega

end Verif.FileDist
