import Verif.IO.OutputDirsLemmas
import Verif.IO.OutputDirsSpec

/-!
# The operations of a run: lemmas
-/

namespace Verif.OutputDirs

variable {α : Type}

/-! ### Lemmas -/

theorem logName_injective (N : ℕ) {i j : ℕ} (h : logName N i = logName N j) : i = j := by
  unfold logName at h
  rw [List.append_left_inj, List.append_right_inj] at h
  exact padded_injective _ h

theorem fileName_injective (n : ℕ) {i j : ℕ} (h : fileName n i = fileName n j) : i = j := by
  unfold fileName at h
  rw [List.append_left_inj] at h
  exact padded_injective _ h

theorem padded_ne_logs (w n : ℕ) : padded w n ≠ "logs".toList := by
  intro h
  have := padded_digits w n 'l' (by rw [h]; decide)
  unfold IsDigit at this
  revert this
  decide

/-- the second name below the output directory is never "logs" -/
theorem snapshots_apart (p : Params) (hp : p.Ok) (w num : ℕ) (rest : List Name) :
    (p.snapshotsDir ++ padded w num :: rest).head? ≠ some "logs".toList := by
  unfold Params.Ok at hp
  cases hs : p.snapshotsDir with
  | nil =>
    simp only [List.nil_append, List.head?_cons, ne_eq, Option.some.injEq]
    exact padded_ne_logs w num
  | cons x l =>
    rw [hs] at hp
    simpa using hp

theorem mem_program (p : Params) (c : Contents α) (N n r : ℕ) (o : Op α) : o ∈ program p c N n r ↔
    o = .mkdirAll (p.outputDir ++ ["logs".toList]) ∨
    o = .create (p.outputDir ++ ["logs".toList, logName N r]) (c.log r) ∨
    (∃ num, num < n ∧ o = .mkdirAll (p.snapshotPath num)) ∨
    r = 0 ∧ ∃ num i, num < n ∧ i ∈ p.indices ∧
      o = .create (p.snapshotPath num ++ [fileName p.numFiles i]) (c.snapshot num i) := by
  unfold program logOps createSnapshot openSnapshot
  simp only [List.mem_append, List.mem_cons, List.not_mem_nil, or_false, List.mem_flatMap, List.mem_range]
  constructor
  · rintro ((h | h) | ⟨num, hn, h | h⟩)
    · exact Or.inl h
    · exact Or.inr (Or.inl h)
    · split at h
      · rename_i hr
        rw [List.mem_cons, List.mem_map] at h
        rcases h with h | ⟨i, hi, h⟩
        · exact Or.inr (Or.inr (Or.inl ⟨num, hn, h⟩))
        · exact Or.inr (Or.inr (Or.inr ⟨hr, num, i, hn, hi, h.symm⟩))
      · simp at h
    · exact Or.inr (Or.inr (Or.inl ⟨num, hn, h⟩))
  · rintro (h | h | ⟨num, hn, h⟩ | ⟨hr, num, i, hn, hi, h⟩)
    · exact Or.inl (Or.inl h)
    · exact Or.inl (Or.inr h)
    · exact Or.inr ⟨num, hn, Or.inr h⟩
    · refine Or.inr ⟨num, hn, Or.inl ?_⟩
      rw [if_pos hr, List.mem_cons, List.mem_map]
      exact Or.inr ⟨i, hi, h.symm⟩

theorem mem_ops (p : Params) (c : Contents α) (N n : ℕ) (ops : List (ℕ × Op α)) (hN : 0 < N)
    (h : Interleaved (program p c N n) N ops) (o : Op α) : o ∈ ops.map Prod.snd ↔
    (∃ q, o = .mkdirAll q ∧ (q = p.outputDir ++ ["logs".toList] ∨ ∃ num, num < n ∧ q = p.snapshotPath num)) ∨
    ∃ q a, o = .create q a ∧ Written p c N n q a := by
  rw [interleaved_mem _ N ops h.owner h.prog]
  simp only [mem_program, Written]
  constructor
  · rintro ⟨r, hr, h | h | ⟨num, hn, h⟩ | ⟨hr0, num, i, hn, hi, h⟩⟩
    · exact Or.inl ⟨_, h, Or.inl rfl⟩
    · exact Or.inr ⟨_, _, h, Or.inl ⟨r, hr, rfl, rfl⟩⟩
    · exact Or.inl ⟨_, h, Or.inr ⟨num, hn, rfl⟩⟩
    · refine Or.inr ⟨_, _, h, Or.inr ⟨num, i, hn, hi, ?_, rfl⟩⟩
      simp [Params.snapshotPath, Params.snapshotDir]
  · rintro (⟨q, rfl, rfl | ⟨num, hn, rfl⟩⟩ | ⟨q, a, rfl, ⟨r, hr, rfl, rfl⟩ | ⟨num, i, hn, hi, rfl, rfl⟩⟩)
    · exact ⟨0, hN, Or.inl rfl⟩
    · exact ⟨0, hN, Or.inr (Or.inr (Or.inl ⟨num, hn, rfl⟩))⟩
    · exact ⟨r, hr, Or.inr (Or.inl rfl)⟩
    · refine ⟨0, hN, Or.inr (Or.inr (Or.inr ⟨rfl, num, i, hn, hi, ?_⟩))⟩
      simp [Params.snapshotPath, Params.snapshotDir]

theorem written_unique (p : Params) (hp : p.Ok) (c : Contents α) (N n : ℕ) (q : Path) (a b : α)
    (ha : Written p c N n q a) (hb : Written p c N n q b) : a = b := by
  rcases ha with ⟨r, _, rfl, rfl⟩ | ⟨num, i, _, _, rfl, rfl⟩ <;>
    rcases hb with ⟨r', _, h, rfl⟩ | ⟨num', i', _, _, h, rfl⟩
  · simp only [List.append_cancel_left_eq, List.cons.injEq, and_true, true_and] at h
    rw [logName_injective N h]
  · exfalso
    rw [List.append_assoc, List.append_cancel_left_eq] at h
    have := snapshots_apart p hp p.snapshotPadding num' [fileName p.numFiles i']
    rw [← h] at this
    simp at this
  · exfalso
    rw [List.append_assoc, List.append_cancel_left_eq] at h
    have := snapshots_apart p hp p.snapshotPadding num [fileName p.numFiles i]
    rw [h] at this
    simp at this
  · simp only [List.append_cancel_left_eq, List.cons.injEq, and_true] at h
    rw [padded_injective _ h.1, fileName_injective _ h.2]

theorem written_apart (p : Params) (hp : p.Ok) (c : Contents α) (N n : ℕ) (q : Path) (a : α)
    (ha : Written p c N n q a) : ¬ q <+: p.outputDir ++ ["logs".toList] ∧ ¬ q <+: p.snapshotDir ∧
      ∀ num, ¬ q <+: p.snapshotPath num := by
  unfold Params.snapshotPath Params.snapshotDir
  rcases ha with ⟨r, _, rfl, rfl⟩ | ⟨num, i, _, _, rfl, rfl⟩
  · refine ⟨?_, ?_, ?_⟩
    · intro h
      have := h.length_le
      simp at this
    · rw [List.prefix_append_right_inj]
      rintro ⟨t, ht⟩
      unfold Params.Ok at hp
      rw [← ht] at hp
      simp at hp
    · intro num
      rw [List.append_assoc, List.prefix_append_right_inj]
      rintro ⟨t, ht⟩
      have := snapshots_apart p hp p.snapshotPadding num []
      rw [← ht] at this
      simp at this
  · refine ⟨?_, ?_, ?_⟩
    · intro h
      have := h.length_le
      simp at this
    · intro h
      have := h.length_le
      simp at this
    · intro num' h
      have := h.length_le
      simp at this

theorem written_below (p : Params) (c : Contents α) (N n : ℕ) (q : Path) (a : α)
    (ha : Written p c N n q a) : p.outputDir <+: q ∧ q ≠ p.outputDir := by
  rcases ha with ⟨r, _, rfl, rfl⟩ | ⟨num, i, _, _, rfl, rfl⟩
  · exact ⟨List.prefix_append _ _, by simp⟩
  · rw [List.append_assoc]
    exact ⟨List.prefix_append _ _, by simp⟩

theorem fine (p : Params) (hp : p.Ok) (c : Contents α) (N n : ℕ) (ops : List (ℕ × Op α)) (hN : 0 < N)
    (h : Interleaved (program p c N n) N ops) (fs : Fs α) (hc : Compatible p c N n fs) :
    Fine fs (ops.map Prod.snd) := by
  have hcr : ∀ q a, Op.create q a ∈ ops.map Prod.snd ↔ Written p c N n q a := by
    intro q a
    rw [mem_ops p c N n ops hN h]
    simp
  have hdir : ∀ q, Dirs (ops.map Prod.snd) q ↔ q <+: p.outputDir ++ ["logs".toList] ∨
      ∃ num, num < n ∧ q <+: p.snapshotPath num := by
    intro q
    unfold Dirs
    simp only [mem_ops p c N n ops hN h]
    constructor
    · rintro ⟨d, ⟨_, hd, rfl | ⟨num, hn, rfl⟩⟩ | ⟨_, _, hd, _⟩, hq⟩
      · cases hd
        exact Or.inl hq
      · cases hd
        exact Or.inr ⟨num, hn, hq⟩
      · cases hd
    · rintro (hq | ⟨num, hn, hq⟩)
      · exact ⟨_, Or.inl ⟨_, rfl, Or.inl rfl⟩, hq⟩
      · exact ⟨_, Or.inl ⟨_, rfl, Or.inr ⟨num, hn, rfl⟩⟩, hq⟩
  refine ⟨?_, ?_, ?_, ?_, ?_, ?_⟩
  · intro q a b h1 h2
    exact written_unique p hp c N n q a b ((hcr q a).1 h1) ((hcr q b).1 h2)
  · intro q a h1 h2
    obtain ⟨g1, _, g3⟩ := written_apart p hp c N n q a ((hcr q a).1 h1)
    rcases (hdir q).1 h2 with h2 | ⟨num, _, h2⟩
    · exact g1 h2
    · exact g3 num h2
  · intro q a h1 h2
    subst h2
    obtain ⟨g1, _, _⟩ := written_apart p hp c N n [] a ((hcr _ a).1 h1)
    exact g1 List.nil_prefix
  · intro q a h1
    refine hc.notFile q a ?_
    rcases (hdir q).1 h1 with h1 | h1
    · exact Or.inl h1
    · exact Or.inr (Or.inr h1)
  · intro q a h1
    exact hc.notDir q a ((hcr q a).1 h1)
  · intro pre q a h1
    obtain ⟨r, pre', hr, h2, h3⟩ := interleaved_prefix _ N ops h.owner h.prog pre _ h1
    refine Dirs.mono h3 ?_
    -- inside the program of one rank
    obtain ⟨suf, hsuf⟩ := h2
    have hmem : Op.create q a ∈ program p c N n r := by rw [← hsuf]; simp
    rcases (mem_program p c N n r _).1 hmem with h | h | ⟨_, _, h⟩ | ⟨hr0, num, i, hn, hi, h⟩
    · cases h
    · cases h
      refine ⟨p.outputDir ++ ["logs".toList], ?_, by simp⟩
      unfold program logOps at hsuf
      cases pre' with
      | nil => simp at hsuf
      | cons x pre' =>
        simp at hsuf
        simp [hsuf.1]
    · cases h
    · cases h
      refine ⟨p.snapshotPath num, ?_, by simp⟩
      -- the part of the program up to the snapshot
      have hprog : ∃ before after, program p c N n r = (before ++ [Op.mkdirAll (p.snapshotPath num)]) ++ after ∧
          ∀ a, Op.create (p.snapshotPath num ++ [fileName p.numFiles i]) a ∉
            before ++ [Op.mkdirAll (p.snapshotPath num)] := by
        refine ⟨logOps p c N r ++ (List.range num).flatMap fun num =>
          (if r = 0 then createSnapshot p c num else []) ++ openSnapshot p num, ?_, ?_, ?_⟩
        · exact (p.indices.map fun i =>
            Op.create (p.snapshotPath num ++ [fileName p.numFiles i]) (c.snapshot num i)) ++ openSnapshot p num ++
            ((List.range' (num + 1) (n - (num + 1))).flatMap fun num =>
              (if r = 0 then createSnapshot p c num else []) ++ openSnapshot p num)
        · have hrange : List.range n = List.range num ++ [num] ++ List.range' (num + 1) (n - (num + 1)) := by
            have := List.range'_append_1 (s := 0) (m := num + 1) (n := n - (num + 1))
            rw [zero_add, ← List.range_eq_range', show num + 1 + (n - (num + 1)) = n from by omega,
              ← List.range_eq_range'] at this
            rw [← List.range_succ, this]
          unfold program
          rw [hrange, List.flatMap_append, List.flatMap_append, List.flatMap_singleton, if_pos hr0]
          simp only [createSnapshot, List.append_assoc, List.cons_append, List.nil_append]
        · intro b hb
          simp only [List.mem_append, List.mem_singleton, List.mem_flatMap, List.mem_range, reduceCtorEq, or_false] at hb
          rcases hb with hb | ⟨num', hn', hb | hb⟩
          · unfold logOps at hb
            simp only [List.mem_cons, List.not_mem_nil, or_false, reduceCtorEq, false_or, Op.create.injEq] at hb
            have hw1 : Written p c N n (p.snapshotPath num ++ [fileName p.numFiles i]) (c.snapshot num i) :=
              Or.inr ⟨num, i, hn, hi, by simp [Params.snapshotPath, Params.snapshotDir], rfl⟩
            have h1 := hb.1
            unfold Params.snapshotPath Params.snapshotDir at h1
            rw [List.append_assoc, List.append_assoc, List.append_cancel_left_eq] at h1
            have := snapshots_apart p hp p.snapshotPadding num [fileName p.numFiles i]
            rw [List.singleton_append] at h1
            rw [h1] at this
            simp at this
          · rw [if_pos hr0] at hb
            unfold createSnapshot at hb
            simp only [List.mem_cons, reduceCtorEq, List.mem_map, false_or, Op.create.injEq] at hb
            obtain ⟨j, _, hj, _⟩ := hb
            have hj' := List.append_inj_left' hj rfl
            unfold Params.snapshotPath at hj'
            have hj'' := List.append_inj_right' hj' rfl
            simp only [List.cons.injEq, and_true] at hj''
            have := padded_injective _ hj''
            omega
          · simp [openSnapshot] at hb
      obtain ⟨before, after, e1, e2⟩ := hprog
      rw [e1, List.append_assoc pre'] at hsuf
      rcases List.append_eq_append_iff.1 hsuf with ⟨x, hx, hx'⟩ | ⟨x, hx, hx'⟩
      · -- the creation would be in the first part
        cases x with
        | nil =>
          simp only [List.append_nil] at hx
          rw [← hx]
          simp
        | cons y x =>
          simp only [List.cons_append, List.nil_append, List.cons.injEq] at hx'
          exfalso
          refine e2 (c.snapshot num i) ?_
          rw [hx, ← hx'.1]
          simp
      · rw [hx]
        simp

end Verif.OutputDirs
