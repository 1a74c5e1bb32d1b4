import Verif.IO.OutputDirsNames

/-!
# Operations on the file system: lemmas
-/

namespace Verif.OutputDirs

variable {α : Type}

/-- the directories made by some operations -/
def Dirs (ops : List (Op α)) (q : Path) : Prop := ∃ p, Op.mkdirAll p ∈ ops ∧ q <+: p

/-- what the file system looks like after some operations -/
structure After (fs0 : Fs α) (ops : List (Op α)) (fs : Fs α) : Prop where
  created : ∀ q a, Op.create q a ∈ ops → fs q = some (.file a)
  made : ∀ q, (∀ a, Op.create q a ∉ ops) → Dirs ops q → fs q = some .dir
  rest : ∀ q, (∀ a, Op.create q a ∉ ops) → ¬ Dirs ops q → fs q = fs0 q

/-- no conflicts between files and directories; directories are made before the files in them -/
structure Fine (fs0 : Fs α) (ops : List (Op α)) : Prop where
  unique : ∀ q a b, Op.create q a ∈ ops → Op.create q b ∈ ops → a = b
  apart : ∀ q a, Op.create q a ∈ ops → ¬ Dirs ops q
  nonempty : ∀ q a, Op.create q a ∈ ops → q ≠ []
  notFile : ∀ q a, Dirs ops q → fs0 q ≠ some (.file a)
  notDir : ∀ q a, Op.create q a ∈ ops → fs0 q ≠ some .dir
  ordered : ∀ pre q a, pre ++ [Op.create q a] <+: ops → Dirs pre q.dropLast

theorem createDirAll_ok (fs : Fs α) (p : Path) (h : ∀ q a, q <+: p → fs q ≠ some (.file a)) :
    ∃ fs', createDirAll fs p = some fs' ∧ (∀ q, q <+: p → fs' q = some .dir) ∧ ∀ q, ¬ q <+: p → fs' q = fs q := by
  unfold createDirAll
  rw [if_neg]
  · refine ⟨_, rfl, ?_, ?_⟩
    · intro q hq
      rw [if_pos (List.mem_inits _ _ |>.2 hq)]
    · intro q hq
      rw [if_neg (fun hc => hq (List.mem_inits _ _ |>.1 hc))]
  · rw [List.any_eq_true]
    rintro ⟨q, hq, hf⟩
    have hq' := List.mem_inits _ _ |>.1 hq
    split at hf
    · rename_i a e
      exact h q a hq' e
    · simp at hf

theorem createFile_ok (fs : Fs α) (p : Path) (a : α) (hp : p ≠ []) (hd : fs p.dropLast = some .dir)
    (hn : fs p ≠ some .dir) :
    ∃ fs', createFile fs p a = some fs' ∧ fs' p = some (.file a) ∧ ∀ q, q ≠ p → fs' q = fs q := by
  refine ⟨fun q => if q = p then some (.file a) else fs q, ?_, ?_, ?_⟩
  · unfold createFile
    split
    · rename_i h1 h2
      exact absurd h2 hn
    · rw [if_neg hp]
    · simp_all
  · exact if_pos rfl
  · intro q hq
    exact if_neg hq

theorem Dirs.mono {ops ops' : List (Op α)} (h : ∀ o ∈ ops, o ∈ ops') {q : Path} (hd : Dirs ops q) : Dirs ops' q := by
  obtain ⟨p, hp, hq⟩ := hd
  exact ⟨p, h _ hp, hq⟩

theorem run_ops (fs0 : Fs α) (ops : List (Op α)) (h : Fine fs0 ops) :
    ∃ fs, ops.foldlM (fun fs op => op.run fs) fs0 = some fs ∧ After fs0 ops fs := by
  have key : ∀ pre, pre <+: ops → ∃ fs, pre.foldlM (fun fs op => op.run fs) fs0 = some fs ∧ After fs0 pre fs := by
    intro pre
    induction pre using List.reverseRecOn with
    | nil =>
      intro _
      exact ⟨fs0, rfl, ⟨fun q a hq => by simp at hq, fun q _ hq => by
        obtain ⟨p, hp, _⟩ := hq
        simp at hp, fun q _ _ => rfl⟩⟩
    | append_singleton pre op ih =>
      intro hpre
      have hpre' : pre <+: ops := List.IsPrefix.trans (List.prefix_append _ _) hpre
      have hsub : ∀ o ∈ pre, o ∈ ops := fun o ho => hpre'.subset ho
      have hop : op ∈ ops := hpre.subset (by simp)
      obtain ⟨fs, e, hA⟩ := ih hpre'
      cases op with
      | mkdirAll p =>
        have hDp : ∀ q, q <+: p → Dirs ops q := fun q hq => ⟨p, hop, hq⟩
        obtain ⟨fs', g1, g2, g3⟩ := createDirAll_ok fs p (by
          intro q a hq hc
          by_cases hcr : ∃ b, Op.create q b ∈ pre
          · obtain ⟨b, hb⟩ := hcr
            exact h.apart q b (hsub _ hb) (hDp q hq)
          · push Not at hcr
            by_cases hd : Dirs pre q
            · rw [hA.made q hcr hd] at hc
              simp at hc
            · rw [hA.rest q hcr hd] at hc
              exact h.notFile q a (hDp q hq) hc)
        refine ⟨fs', ?_, ?_, ?_, ?_⟩
        · rw [List.foldlM_append, e]
          simpa [Op.run] using g1
        · intro q a hq
          have hq' : Op.create q a ∈ pre := by simpa using hq
          rw [g3 q (fun hc => h.apart q a (hsub _ hq') (hDp q hc))]
          exact hA.created q a hq'
        · intro q hq hd
          by_cases hqp : q <+: p
          · exact g2 q hqp
          · rw [g3 q hqp]
            refine hA.made q (fun a ha => hq a (by simp [ha])) ?_
            obtain ⟨p', hp', hq'⟩ := hd
            rw [List.mem_append, List.mem_singleton] at hp'
            rcases hp' with hp' | hp'
            · exact ⟨p', hp', hq'⟩
            · cases hp'
              exact absurd hq' hqp
        · intro q hq hd
          rw [g3 q (fun hc => hd ⟨p, by simp, hc⟩)]
          exact hA.rest q (fun a ha => hq a (by simp [ha])) (fun hc => hd (hc.mono (by simp +contextual)))
      | create p a =>
        have hnd : ¬ Dirs ops p := h.apart p a hop
        have hpar : fs p.dropLast = some .dir := by
          have hdp := h.ordered pre p a hpre
          refine hA.made _ (fun b hb => ?_) hdp
          exact h.apart _ b (hsub _ hb) (hdp.mono hsub)
        obtain ⟨fs', g1, g2, g3⟩ := createFile_ok fs p a (h.nonempty p a hop) hpar (by
          intro hc
          by_cases hcr : ∃ b, Op.create p b ∈ pre
          · obtain ⟨b, hb⟩ := hcr
            rw [hA.created p b hb] at hc
            simp at hc
          · push Not at hcr
            rw [hA.rest p hcr (fun hd => hnd (hd.mono hsub))] at hc
            exact h.notDir p a hop hc)
        refine ⟨fs', ?_, ?_, ?_, ?_⟩
        · rw [List.foldlM_append, e]
          simpa [Op.run] using g1
        · intro q b hq
          by_cases hqp : q = p
          · subst hqp
            have : Op.create q b ∈ ops := hpre.subset hq
            rw [g2, h.unique q a b hop this]
          · rw [g3 q hqp]
            refine hA.created q b ?_
            rw [List.mem_append, List.mem_singleton] at hq
            rcases hq with hq | hq
            · exact hq
            · cases hq
              exact absurd rfl hqp
        · intro q hq hd
          have hqp : q ≠ p := by
            rintro rfl
            exact hq a (by simp)
          rw [g3 q hqp]
          refine hA.made q (fun a ha => hq a (by simp [ha])) ?_
          obtain ⟨p', hp', hq'⟩ := hd
          rw [List.mem_append, List.mem_singleton] at hp'
          rcases hp' with hp' | hp'
          · exact ⟨p', hp', hq'⟩
          · cases hp'
        · intro q hq hd
          have hqp : q ≠ p := by
            rintro rfl
            exact hq a (by simp)
          rw [g3 q hqp]
          exact hA.rest q (fun a ha => hq a (by simp [ha])) (fun hc => hd (hc.mono (by simp +contextual)))
  exact key ops (List.prefix_refl _)

/-- operations of the ranks in a common order -/
theorem interleaved_mem (prog : ℕ → List (Op α)) (N : ℕ) (ops : List (ℕ × Op α)) (howner : ∀ o ∈ ops, o.1 < N)
    (hprog : ∀ r, r < N → (ops.filter (fun o => o.1 = r)).map Prod.snd = prog r) (o : Op α) :
    o ∈ ops.map Prod.snd ↔ ∃ r, r < N ∧ o ∈ prog r := by
  rw [List.mem_map]
  constructor
  · rintro ⟨x, hx, rfl⟩
    refine ⟨x.1, howner x hx, ?_⟩
    rw [← hprog x.1 (howner x hx), List.mem_map]
    exact ⟨x, by simp [hx], rfl⟩
  · rintro ⟨r, hr, ho⟩
    rw [← hprog r hr, List.mem_map] at ho
    obtain ⟨x, hx, rfl⟩ := ho
    exact ⟨x, (List.mem_filter.1 hx).1, rfl⟩

/-- what comes before an operation in a program comes before it in the common order -/
theorem interleaved_prefix (prog : ℕ → List (Op α)) (N : ℕ) (ops : List (ℕ × Op α)) (howner : ∀ o ∈ ops, o.1 < N)
    (hprog : ∀ r, r < N → (ops.filter (fun o => o.1 = r)).map Prod.snd = prog r) (pre : List (Op α)) (o : Op α)
    (h : pre ++ [o] <+: ops.map Prod.snd) :
    ∃ r pre', r < N ∧ pre' ++ [o] <+: prog r ∧ ∀ x ∈ pre', x ∈ pre := by
  obtain ⟨suf, hsuf⟩ := h
  obtain ⟨l1, l2, hl, h1, h2⟩ := List.map_eq_append_iff.1 hsuf.symm
  obtain ⟨l3, l4, hl', h3, h4⟩ := List.map_eq_append_iff.1 h1
  obtain ⟨x, hx, hx'⟩ : ∃ x, l4 = [x] ∧ x.2 = o := by
    cases l4 with
    | nil => simp at h4
    | cons x l =>
      simp at h4
      obtain ⟨h4, rfl⟩ := h4
      exact ⟨x, rfl, h4⟩
  subst hx
  have hxm : x ∈ ops := by rw [hl, hl']; simp
  refine ⟨x.1, (l3.filter fun o => o.1 = x.1).map Prod.snd, howner x hxm, ?_, ?_⟩
  · rw [← hprog x.1 (howner x hxm), hl, hl']
    refine ⟨(l2.filter fun o => o.1 = x.1).map Prod.snd, ?_⟩
    simp [hx', List.filter_append]
  · intro y hy
    rw [List.mem_map] at hy
    obtain ⟨z, hz, rfl⟩ := hy
    rw [← h3, List.mem_map]
    exact ⟨z, (List.mem_filter.1 hz).1, rfl⟩

end Verif.OutputDirs
