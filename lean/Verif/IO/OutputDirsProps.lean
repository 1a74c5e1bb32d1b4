import Verif.IO.OutputDirsRun
import Verif.IO.OutputDirsFiles
import Verif.Startup.Lemmas
import Mathlib.Data.List.Sort
import Mathlib.Tactic.IntervalCases

/-!
# C114: names and directories of the output
-/

namespace Verif.OutputDirs
open Verif.FileDist

variable {α : Type}

/-! ### Names -/

/-- **C114.** The names of the files of a snapshot are in the order of their indices, and different. -/
theorem file_names_ordered (numFiles i j : ℕ) (hij : i < j) (hj : j < numFiles) :
    fileName numFiles i < fileName numFiles j :=
  padded_lt _ i j (by unfold indexPadding; omega) hij (index_lt _ _ hj) _ _

/-- **C114.** Snapshots with different numbers have different names, also if the numbers have more digits than the padding. -/
theorem snapshot_names_distinct (p : Params) (i j : ℕ) (h : p.snapshotPath i = p.snapshotPath j) : i = j := by
  unfold Params.snapshotPath at h
  simp only [List.append_cancel_left_eq, List.cons.injEq, and_true] at h
  exact padded_injective _ h

/-- **C114.** The names of snapshots are in the order of their numbers as long as these fit into the padding. -/
theorem snapshot_names_ordered (padding i j : ℕ) (hij : i < j) (hj : j < 10 ^ padding) :
    padded padding i < padded padding j := by
  have hp : 0 < padding := by
    by_contra h
    have : padding = 0 := by omega
    subst this
    simp at hj
    omega
  have := padded_lt padding i j hp hij hj [] []
  simpa using this

/-- With the default padding the order is lost with snapshot 1000. -/
theorem snapshot_names_not_ordered : padded 3 1000 < padded 3 999 := by
  have h1 : padded 3 1000 = "1000".toList := by decide +kernel
  have h2 : padded 3 999 = "999".toList := by decide +kernel
  rw [h1, h2]
  decide

/-- **C114.** No two ranks write to the same log. -/
theorem log_names_distinct (numRanks i j : ℕ) (h : logName numRanks i = logName numRanks j) : i = j :=
  logName_injective numRanks h

/-! ### Directories -/

theorem ancestors (fs : Fs α) (hfs : WellFormed fs) (p : Path) (hp : fs p = some .dir) (q : Path) (hq : q <+: p) :
    fs q = some .dir := by
  obtain ⟨t, rfl⟩ := hq
  induction t using List.reverseRecOn with
  | nil => simpa using hp
  | append_singleton t x ih =>
    apply ih
    have := hfs.parent (q ++ (t ++ [x])) (by simp) (by rw [hp]; simp)
    rw [← List.append_assoc, List.dropLast_concat] at this
    exact this

theorem descendants (fs : Fs α) (hfs : WellFormed fs) (p : Path) (hp : fs p = none) (q : Path) (hq : p <+: q) :
    fs q = none := by
  obtain ⟨t, rfl⟩ := hq
  induction t using List.reverseRecOn with
  | nil => simpa using hp
  | append_singleton t x ih =>
    by_contra h
    have := hfs.parent (p ++ (t ++ [x])) (by simp) h
    rw [← List.append_assoc, List.dropLast_concat, ih] at this
    simp at this

theorem prefix_total {p q l : Path} (h : q <+: p ++ l) : q <+: p ∨ p <+: q := by
  rcases le_total q.length p.length with hl | hl
  · exact Or.inl (List.prefix_of_prefix_length_le h (List.prefix_append _ _) hl)
  · exact Or.inr (List.prefix_of_prefix_length_le (List.prefix_append _ _) h hl)

/-- making the two directories -/
theorem make_dirs (p : Params) (fs : Fs α) (h : ∀ q a, q <+: p.snapshotDir → fs q ≠ some (.file a)) :
    ∃ fs', ((createDirAll fs p.outputDir).bind fun fs => createDirAll fs p.snapshotDir) = some fs' ∧
      (∀ q, q <+: p.snapshotDir → fs' q = some .dir) ∧ ∀ q, ¬ q <+: p.snapshotDir → fs' q = fs q := by
  have hout : ∀ q, q <+: p.outputDir → q <+: p.snapshotDir :=
    fun q hq => hq.trans (List.prefix_append _ _)
  obtain ⟨fs1, e1, e2, e3⟩ := createDirAll_ok fs p.outputDir fun q a hq => h q a (hout q hq)
  obtain ⟨fs2, g1, g2, g3⟩ := createDirAll_ok fs1 p.snapshotDir (by
    intro q a hq hc
    by_cases hqo : q <+: p.outputDir
    · rw [e2 q hqo] at hc
      simp at hc
    · rw [e3 q hqo] at hc
      exact h q a hq hc)
  refine ⟨fs2, ?_, g2, ?_⟩
  · rw [e1]
    exact g1
  · intro q hq
    rw [g3 q hq, e3 q fun hc => hq (hout q hc)]

/-- **C114.** If there is no output directory, or it is to be deleted, then in any order of the operations of the ranks
the run does not panic, the files below the output directory are afterwards exactly those of this run, and nothing outside
of it has changed, apart from directories which were made on the way to it. The directories next to the snapshots are those
of the snapshots, and that of the logs if the user puts the snapshots next to it. -/
theorem fresh_run (p : Params) (hp : p.Ok) (c : Contents α) (N n : ℕ) (hN : 0 < N) (fs : Fs α) (hfs : WellFormed fs)
    (hfresh : (fs p.outputDir = none ∧ ∀ q a, q <+: p.outputDir → fs q ≠ some (.file a)) ∨
      (fs p.outputDir = some .dir ∧ p.handleExisting = .delete))
    (ops : List (ℕ × Op α)) (hops : Interleaved (program p c N n) N ops) :
    ∃ fs', runProgram p ops fs = some fs' ∧
      (∀ q a, p.outputDir <+: q → (fs' q = some (.file a) ↔ Written p c N n q a)) ∧
      (∀ q, ¬ p.outputDir <+: q → fs' q = fs q ∨ (q <+: p.outputDir ∧ fs q = none ∧ fs' q = some .dir)) ∧
      ∀ name, fs' (p.snapshotDir ++ [name]) = some .dir ↔
        (∃ num, num < n ∧ name = padded p.snapshotPadding num) ∨ (p.snapshotsDir = [] ∧ name = "logs".toList) := by
  -- after the deletion
  obtain ⟨fs0, h0, hbelow, habove, hother⟩ : ∃ fs0,
      handleExistingDir p fs = some fs0 ∧ (∀ q, p.outputDir <+: q → fs0 q = none) ∧
      (∀ q a, q <+: p.outputDir → fs0 q ≠ some (.file a)) ∧ ∀ q, ¬ p.outputDir <+: q → fs0 q = fs q := by
    rcases hfresh with ⟨h1, h2⟩ | ⟨h1, h2⟩
    · exact ⟨fs, by unfold handleExistingDir; rw [h1]; rfl, fun q hq => descendants fs hfs _ h1 q hq, h2, fun _ _ => rfl⟩
    · refine ⟨fun q => if p.outputDir.isPrefixOf q then none else fs q, ?_, ?_, ?_, ?_⟩
      · unfold handleExistingDir
        rw [h1, h2]
        simp [removeDirAll, h1]
      · intro q hq
        dsimp only
        rw [if_pos (List.isPrefixOf_iff_prefix.2 hq)]
      · intro q a hq hc
        dsimp only at hc
        split at hc
        · simp at hc
        · rw [ancestors fs hfs _ h1 q hq] at hc
          simp at hc
      · intro q hq
        dsimp only
        rw [if_neg (fun hc => hq (List.isPrefixOf_iff_prefix.1 hc))]
  have hnofile : ∀ (l : Path) q a, q <+: p.outputDir ++ l → fs0 q ≠ some (.file a) := by
    intro l q a hq
    rcases prefix_total hq with h | h
    · exact habove q a h
    · rw [hbelow q h]
      simp
  obtain ⟨fs1, e1, e2, e3⟩ := make_dirs p fs0 (hnofile _)
  have hmake : makeOutputDirs p fs = some fs1 := by
    unfold makeOutputDirs
    rw [h0]
    exact e1
  have hnofile1 : ∀ (l : Path) q a, q <+: p.outputDir ++ l → fs1 q ≠ some (.file a) := by
    intro l q a hq hc
    by_cases hs : q <+: p.snapshotDir
    · rw [e2 q hs] at hc
      simp at hc
    · rw [e3 q hs] at hc
      exact hnofile l q a hq hc
  have hcomp : Compatible p c N n fs1 := by
    refine ⟨?_, ?_⟩
    · rintro q b (hq | hq | ⟨num, _, hq⟩)
      · exact hnofile1 _ q b hq
      · exact hnofile1 _ q b hq
      · unfold Params.snapshotPath Params.snapshotDir at hq
        rw [List.append_assoc] at hq
        exact hnofile1 _ q b hq
    · intro q a hw
      rw [e3 q (written_apart p hp c N n q a hw).2.1, hbelow q (written_below p c N n q a hw).1]
      simp
  obtain ⟨fs', g1, g2⟩ := run_ops fs1 _ (fine p hp c N n ops hN hops fs1 hcomp)
  have hcr : ∀ q a, Op.create q a ∈ ops.map Prod.snd ↔ Written p c N n q a := by
    intro q a
    rw [mem_ops p c N n ops hN hops]
    simp
  have hdirs : ∀ q, Dirs (ops.map Prod.snd) q → ∃ l, q <+: p.outputDir ++ l := by
    rintro q ⟨d, hd, hq⟩
    rw [mem_ops p c N n ops hN hops] at hd
    rcases hd with ⟨_, hd, rfl | ⟨num, hn, rfl⟩⟩ | ⟨_, _, hd, _⟩
    · cases hd
      exact ⟨_, hq⟩
    · cases hd
      unfold Params.snapshotPath Params.snapshotDir at hq
      rw [List.append_assoc] at hq
      exact ⟨_, hq⟩
    · cases hd
  refine ⟨fs', ?_, ?_, ?_, ?_⟩
  · unfold runProgram
    rw [hmake]
    rw [List.foldlM_map] at g1
    exact g1
  · intro q a hq
    constructor
    · intro hf
      by_contra hw
      by_cases hany : ∃ b, Op.create q b ∈ ops.map Prod.snd
      · obtain ⟨b, hb⟩ := hany
        rw [g2.created q b hb] at hf
        simp only [Option.some.injEq, Entry.file.injEq] at hf
        subst hf
        exact hw ((hcr _ _).1 hb)
      · push Not at hany
        by_cases hd : Dirs (ops.map Prod.snd) q
        · rw [g2.made q hany hd] at hf
          simp at hf
        · rw [g2.rest q hany hd] at hf
          by_cases hs : q <+: p.snapshotDir
          · rw [e2 q hs] at hf
            simp at hf
          · rw [e3 q hs, hbelow q hq] at hf
            simp at hf
    · intro hw
      exact g2.created q a ((hcr q a).2 hw)
  · intro q hq
    have hnc : ∀ a, Op.create q a ∉ ops.map Prod.snd :=
      fun a ha => hq (written_below p c N n q a ((hcr q a).1 ha)).1
    have hcase : ∀ l, q <+: p.outputDir ++ l → fs' q = some .dir →
        fs' q = fs q ∨ (q <+: p.outputDir ∧ fs q = none ∧ fs' q = some .dir) := by
      intro l hl hd
      rcases prefix_total hl with h | h
      · cases hfq : fs q with
        | none => exact Or.inr ⟨h, rfl, hd⟩
        | some e =>
          cases e with
          | dir => exact Or.inl hd
          | file a =>
            have := habove q a h
            rw [hother q hq] at this
            exact absurd hfq this
      · exact absurd h hq
    by_cases hd : Dirs (ops.map Prod.snd) q
    · obtain ⟨l, hl⟩ := hdirs q hd
      exact hcase l hl (g2.made q hnc hd)
    · by_cases hs : q <+: p.snapshotDir
      · exact hcase _ hs (by rw [g2.rest q hnc hd, e2 q hs])
      · left
        rw [g2.rest q hnc hd, e3 q hs, hother q hq]
  · intro name
    have hqs : ¬ (p.snapshotDir ++ [name]) <+: p.snapshotDir := by
      intro h
      have := h.length_le
      simp at this
    have hqo : p.outputDir <+: p.snapshotDir ++ [name] := by
      unfold Params.snapshotDir
      rw [List.append_assoc]
      exact List.prefix_append _ _
    constructor
    · intro hdir
      have hnc : ∀ a, Op.create (p.snapshotDir ++ [name]) a ∉ ops.map Prod.snd := by
        intro a ha
        rw [g2.created _ a ha] at hdir
        simp at hdir
      by_cases hd : Dirs (ops.map Prod.snd) (p.snapshotDir ++ [name])
      · obtain ⟨d, hd, hq⟩ := hd
        rw [mem_ops p c N n ops hN hops] at hd
        rcases hd with ⟨_, hd, rfl | ⟨num, hn, rfl⟩⟩ | ⟨_, _, hd, _⟩
        · cases hd
          right
          unfold Params.snapshotDir at hq
          rw [List.append_assoc, List.prefix_append_right_inj] at hq
          cases hs : p.snapshotsDir with
          | nil =>
            rw [hs] at hq
            refine ⟨rfl, ?_⟩
            simpa using hq
          | cons x l =>
            rw [hs] at hq
            have := hq.length_le
            simp at this
        · cases hd
          left
          refine ⟨num, hn, ?_⟩
          unfold Params.snapshotPath at hq
          rw [List.prefix_append_right_inj] at hq
          simpa using hq
        · cases hd
      · rw [g2.rest _ hnc hd, e3 _ hqs, hbelow _ hqo] at hdir
        simp at hdir
    · intro h
      have hDirs : Dirs (ops.map Prod.snd) (p.snapshotDir ++ [name]) := by
        rcases h with ⟨num, hn, rfl⟩ | ⟨hs, rfl⟩
        · exact ⟨p.snapshotPath num, (mem_ops p c N n ops hN hops _).2 (Or.inl ⟨_, rfl, Or.inr ⟨num, hn, rfl⟩⟩),
            List.prefix_refl _⟩
        · refine ⟨p.outputDir ++ ["logs".toList], (mem_ops p c N n ops hN hops _).2 (Or.inl ⟨_, rfl, Or.inl rfl⟩), ?_⟩
          unfold Params.snapshotDir
          rw [hs, List.append_nil]
      exact g2.made _ (fun a ha => (fine p hp c N n ops hN hops fs1 hcomp).apart _ a ha hDirs) hDirs

/-- **C114.** If the output directory exists and is to be overwritten, the files of this run replace those of the same names,
and all other files and directories stay. -/
theorem overwriting_run (p : Params) (hp : p.Ok) (c : Contents α) (N n : ℕ) (hN : 0 < N) (fs : Fs α)
    (hdir : fs p.outputDir = some .dir) (hmode : p.handleExisting = .overwrite) (hc : Compatible p c N n fs)
    (ops : List (ℕ × Op α)) (hops : Interleaved (program p c N n) N ops) :
    ∃ fs', runProgram p ops fs = some fs' ∧
      (∀ q a, fs' q = some (.file a) ↔
        Written p c N n q a ∨ ((∀ b, ¬ Written p c N n q b) ∧ fs q = some (.file a))) ∧
      (∀ q, fs q = some .dir → fs' q = some .dir) ∧
      ∀ num, num < n → fs' (p.snapshotPath num) = some .dir := by
  obtain ⟨fs1, e1, e2, e3⟩ := make_dirs p fs fun q a hq => hc.notFile q a (Or.inr (Or.inl hq))
  have hmake : makeOutputDirs p fs = some fs1 := by
    unfold makeOutputDirs handleExistingDir
    rw [hdir, hmode]
    exact e1
  have hfile : ∀ q a, fs1 q = some (.file a) ↔ fs q = some (.file a) := by
    intro q a
    by_cases hs : q <+: p.snapshotDir
    · rw [e2 q hs]
      have := hc.notFile q a (Or.inr (Or.inl hs))
      simp [this]
    · rw [e3 q hs]
  have hcomp : Compatible p c N n fs1 := by
    refine ⟨?_, ?_⟩
    · intro q b hq hf
      exact hc.notFile q b hq ((hfile q b).1 hf)
    · intro q a hw
      rw [e3 q (written_apart p hp c N n q a hw).2.1]
      exact hc.notDir q a hw
  obtain ⟨fs', g1, g2⟩ := run_ops fs1 _ (fine p hp c N n ops hN hops fs1 hcomp)
  have hcr : ∀ q a, Op.create q a ∈ ops.map Prod.snd ↔ Written p c N n q a := by
    intro q a
    rw [mem_ops p c N n ops hN hops]
    simp
  refine ⟨fs', ?_, ?_, ?_, ?_⟩
  · unfold runProgram
    rw [hmake]
    rw [List.foldlM_map] at g1
    exact g1
  · intro q a
    by_cases hany : ∃ b, Written p c N n q b
    · obtain ⟨b, hb⟩ := hany
      rw [g2.created q b ((hcr q b).2 hb)]
      constructor
      · intro h
        simp only [Option.some.injEq, Entry.file.injEq] at h
        subst h
        exact Or.inl hb
      · rintro (h | ⟨h, _⟩)
        · rw [written_unique p hp c N n q a b h hb]
        · exact absurd hb (h b)
    · push Not at hany
      have hnc : ∀ b, Op.create q b ∉ ops.map Prod.snd := fun b hb => hany b ((hcr q b).1 hb)
      have hgoal : fs' q = some (.file a) ↔ fs q = some (.file a) := by
        by_cases hd : Dirs (ops.map Prod.snd) q
        · rw [g2.made q hnc hd]
          have : fs q ≠ some (.file a) := by
            obtain ⟨d, hd, hq⟩ := hd
            rw [mem_ops p c N n ops hN hops] at hd
            rcases hd with ⟨_, hd, rfl | ⟨num, hn, rfl⟩⟩ | ⟨_, _, hd, _⟩
            · cases hd
              exact hc.notFile q a (Or.inl hq)
            · cases hd
              exact hc.notFile q a (Or.inr (Or.inr ⟨num, hn, hq⟩))
            · cases hd
          simp [this]
        · rw [g2.rest q hnc hd, hfile]
      rw [hgoal]
      constructor
      · intro h
        exact Or.inr ⟨hany, h⟩
      · rintro (h | ⟨_, h⟩)
        · exact absurd h (hany a)
        · exact h
  · intro q hq
    have hnc : ∀ b, Op.create q b ∉ ops.map Prod.snd := fun b hb => hc.notDir q b ((hcr q b).1 hb) hq
    by_cases hd : Dirs (ops.map Prod.snd) q
    · exact g2.made q hnc hd
    · rw [g2.rest q hnc hd]
      by_cases hs : q <+: p.snapshotDir
      · exact e2 q hs
      · rw [e3 q hs, hq]
  · intro num hn
    have hDirs : Dirs (ops.map Prod.snd) (p.snapshotPath num) :=
      ⟨p.snapshotPath num, (mem_ops p c N n ops hN hops _).2 (Or.inl ⟨_, rfl, Or.inr ⟨num, hn, rfl⟩⟩), List.prefix_refl _⟩
    exact g2.made _ (fun a ha => (fine p hp c N n ops hN hops fs1 hcomp).apart _ a ha hDirs) hDirs

/-- **C114.** An existing output directory is left alone by default: the program stops. It also stops, whatever it is told to
do with an existing directory, if there is a file in its place. -/
theorem existing_output (p : Params) (fs : Fs α) (ops : List (ℕ × Op α)) :
    (p.handleExisting = .panic → fs p.outputDir ≠ none → runProgram p ops fs = none) ∧
    ∀ a, fs p.outputDir = some (.file a) → runProgram p ops fs = none := by
  constructor
  · intro h1 h2
    unfold runProgram makeOutputDirs handleExistingDir
    cases h : fs p.outputDir with
    | none => exact absurd h h2
    | some e => simp [h1]
  · intro a h
    unfold runProgram makeOutputDirs handleExistingDir
    rw [h]
    cases hm : p.handleExisting with
    | panic => simp
    | delete => simp [removeDirAll, h]
    | overwrite =>
      have : createDirAll fs p.outputDir = none := by
        unfold createDirAll
        rw [if_pos]
        rw [List.any_eq_true]
        exact ⟨p.outputDir, (List.mem_inits _ _).2 (List.prefix_refl _), by rw [h]⟩
      simp [this]

/-! ### Reading a snapshot directory -/

theorem files_of_snapshot (p : Params) (hp : p.Ok) (c : Contents α) (N n : ℕ) (fs : Fs α)
    (hfs : ∀ q a, p.outputDir <+: q → (fs q = some (.file a) ↔ Written p c N n q a)) (num : ℕ) (hnum : num < n)
    (name : Name) :
    ((∃ a, fs (p.snapshotPath num ++ [name]) = some (.file a)) ∧ extension name = some "hdf5".toList) ↔
      ∃ i, i ∈ p.indices ∧ fileName p.numFiles i = name := by
  have hbelow : p.outputDir <+: p.snapshotPath num ++ [name] := by
    unfold Params.snapshotPath Params.snapshotDir
    rw [List.append_assoc, List.append_assoc]
    exact List.prefix_append _ _
  constructor
  · rintro ⟨⟨a, ha⟩, _⟩
    rw [hfs _ a hbelow] at ha
    rcases ha with ⟨r, _, h, _⟩ | ⟨num', i, _, hi, h, _⟩
    · exfalso
      unfold Params.snapshotPath Params.snapshotDir at h
      rw [List.append_assoc, List.append_assoc, List.append_cancel_left_eq, List.singleton_append] at h
      have := snapshots_apart p hp p.snapshotPadding num [name]
      rw [h] at this
      simp at this
    · refine ⟨i, hi, ?_⟩
      unfold Params.snapshotPath Params.snapshotDir at h
      simp only [List.append_assoc, List.append_cancel_left_eq, List.cons_append, List.nil_append, List.cons.injEq,
        and_true] at h
      exact h.2.symm
  · rintro ⟨i, hi, rfl⟩
    refine ⟨⟨c.snapshot num i, ?_⟩, extension_fileName _ _⟩
    rw [hfs _ _ hbelow]
    refine Or.inr ⟨num, i, hnum, hi, ?_, rfl⟩
    simp [Params.snapshotPath, Params.snapshotDir]

theorem fileNames_sorted (p : Params) (hf : 0 < p.numFiles) : (p.indices.map (fileName p.numFiles)).Pairwise (· < ·) := by
  rw [List.pairwise_map]
  refine List.Pairwise.imp_of_mem ?_ (indices_sorted p hf)
  intro i j hi hj hij
  exact file_names_ordered _ i j hij (indices_lt p hf j hj)

theorem fileNames_nodup (p : Params) (hf : 0 < p.numFiles) : (p.indices.map (fileName p.numFiles)).Nodup :=
  (fileNames_sorted p hf).imp fun h he => by
    rw [he] at h
    exact List.lt_irrefl _ h

/-- **C114.** A listing of the directory of a snapshot of a fresh run, in whatever order, has the files of this snapshot and
no others; sorted by name they are in the order in which they were filled. -/
theorem listing_complete (p : Params) (hp : p.Ok) (hf : 0 < p.numFiles) (c : Contents α) (N n : ℕ) (fs : Fs α)
    (hfs : ∀ q a, p.outputDir <+: q → (fs q = some (.file a) ↔ Written p c N n q a)) (num : ℕ) (hnum : num < n)
    (names : List Name) (hl : Listing fs (p.snapshotPath num) names) :
    names.Perm (p.indices.map (fileName p.numFiles)) ∧
    (p.indices.map (fileName p.numFiles)).Pairwise (· < ·) := by
  refine ⟨?_, fileNames_sorted p hf⟩
  rw [List.perm_ext_iff_of_nodup hl.nodup (fileNames_nodup p hf)]
  intro name
  rw [hl.complete, List.mem_map]
  exact files_of_snapshot p hp c N n fs hfs num hnum name

/-- **C114.** If all ranks list the files of a directory in the same order, then whatever this order is, every row is read
by exactly one rank. -/
theorem same_listing (rows : Name → List α) (names listing : List Name) (h : listing.Perm names) (N : ℕ) (hN : 0 < N) :
    ∃ parts, (List.range N).mapM (fun r => readDataset (listing.map rows) N r) = some parts ∧
      parts.flatten.Perm (names.map rows).flatten := by
  obtain ⟨parts, h1, h2, _, h4⟩ := Verif.Startup.read_parts (listing.map rows) N hN
  refine ⟨parts, ?_, ?_⟩
  · have hid : ∀ (r : ℕ) (q : List α), parts[r]? = some q → readDataset (listing.map rows) N r = some q := by
      intro r q hq
      have := (h4 α id r q hq).1
      simp only [List.map_id, List.map_id'] at this
      exact this
    have key : ∀ k, k ≤ N → (List.range k).mapM (fun r => readDataset (listing.map rows) N r) = some (parts.take k) := by
      intro k
      induction k with
      | zero => intro _; simp
      | succ k ih =>
        intro hk
        have hk' : k < parts.length := by omega
        rw [List.range_succ, List.mapM_append, ih (by omega)]
        simp only [List.mapM_cons, hid k _ (List.getElem?_eq_getElem hk'), List.mapM_nil]
        rw [List.take_add_one, List.getElem?_eq_getElem hk']
        rfl
    rw [key N le_rfl, ← h1, List.take_length]
  · rw [h2]
    exact (h.map rows).flatten

/-- The order of a listing is up to the file system. If two ranks list the files differently, a row is read twice and another
one is lost, without an error. -/
theorem different_listings : ∃ (rows : Name → List ℕ) (names : List Name) (listing : ℕ → List Name),
    (∀ r, (listing r).Perm names) ∧
    (List.range 2).mapM (fun r => readDataset ((listing r).map rows) 2 r) = some [[1], [1]] ∧
    (names.map rows).flatten = [1, 2] := by
  refine ⟨fun n => if n = fileName 2 0 then [1] else [2], [fileName 2 0, fileName 2 1],
    fun r => if r = 0 then [fileName 2 0, fileName 2 1] else [fileName 2 1, fileName 2 0], ?_, ?_, ?_⟩
  · intro r
    dsimp only
    split
    · exact List.Perm.refl _
    · exact List.Perm.swap _ _ _
  · decide +kernel
  · decide +kernel

/-- A run which overwrites one with more files per snapshot leaves files of the old run in the directory of its snapshot, where
they would be read together with its own. -/
theorem overwriting_mixes (p : Params) (hp : p.Ok) (c c' : Contents α) (N : ℕ) (hN : 0 < N) (fs : Fs α)
    (hdir : fs p.outputDir = some .dir) (hmode : p.handleExisting = .overwrite) (hfiles : p.numFiles = 1) (hpart : 0 < p.numParticles)
    (hc : Compatible p c N 1 fs)
    (hold : fs (p.snapshotPath 0 ++ [fileName 2 1]) = some (.file (c'.snapshot 0 1)))
    (ops : List (ℕ × Op α)) (hops : Interleaved (program p c N 1) N ops) :
    ∃ fs', runProgram p ops fs = some fs' ∧
      fs' (p.snapshotPath 0 ++ [fileName 2 0]) = some (.file (c.snapshot 0 0)) ∧
      fs' (p.snapshotPath 0 ++ [fileName 2 1]) = some (.file (c'.snapshot 0 1)) := by
  obtain ⟨fs', e1, e2, _⟩ := overwriting_run p hp c N 1 hN fs hdir hmode hc ops hops
  have hname : ∀ i, fileName 2 i = fileName 1 i := fun i => rfl
  refine ⟨fs', e1, ?_, ?_⟩
  · rw [e2]
    refine Or.inl (Or.inr ⟨0, 0, by omega, (mem_indices p (by omega) 0).2 ?_, ?_, rfl⟩)
    · rw [hfiles]
      exact ⟨p.numParticles, by simp [outputEntriesPerFile], hpart⟩
    rw [hfiles]
    simp [Params.snapshotPath, Params.snapshotDir, hname]
  · rw [e2]
    refine Or.inr ⟨?_, hold⟩
    rintro b (⟨r, _, h, _⟩ | ⟨num, i, _, hi, h, _⟩)
    · unfold Params.snapshotPath Params.snapshotDir at h
      rw [List.append_assoc, List.append_assoc, List.append_cancel_left_eq, List.singleton_append] at h
      have := snapshots_apart p hp p.snapshotPadding 0 [fileName 2 1]
      rw [h] at this
      simp at this
    · unfold Params.snapshotPath Params.snapshotDir at h
      simp only [List.append_assoc, List.append_cancel_left_eq, List.cons_append, List.nil_append, List.cons.injEq,
        and_true] at h
      have h2 := h.2
      rw [hfiles, hname] at h2
      have := fileName_injective _ h2
      have := indices_lt p (by omega) i hi
      omega

/-! ### The hypotheses can be met -/

/-- parameters like the defaults, with two files per snapshot and five particles -/
def exampleParams : Params := ⟨["output".toList], ["snapshots".toList], .delete, 3, 2, 5⟩

/-- two ranks, one snapshot; the second rank is ahead at first -/
def exampleOps : List (ℕ × Op ℕ) :=
  let c : Contents ℕ := ⟨fun r => r, fun num i => 100 * num + 10 + i⟩
  ((program exampleParams c 2 1 1).take 2).map (fun o => (1, o)) ++
    (program exampleParams c 2 1 0).map (fun o => (0, o)) ++ ((program exampleParams c 2 1 1).drop 2).map (fun o => (1, o))

theorem example_ops : exampleParams.Ok ∧
    Interleaved (program exampleParams ⟨fun r => r, fun num i => 100 * num + 10 + i⟩ 2 1) 2 exampleOps := by
  refine ⟨by unfold Params.Ok; decide, ?_, ?_⟩
  · intro o ho
    unfold exampleOps at ho
    simp only [List.mem_append, List.mem_map] at ho
    rcases ho with (⟨_, _, rfl⟩ | ⟨_, _, rfl⟩) | ⟨_, _, rfl⟩ <;> simp
  · intro r hr
    have hf : ∀ (k : ℕ) (l : List (Op ℕ)),
        ((l.map fun o => (k, o)).filter (fun o => o.1 = r)).map Prod.snd = if k = r then l else [] := by
      intro k l
      by_cases h : k = r <;> simp [List.filter_map, Function.comp_def, h]
    unfold exampleOps
    dsimp only
    rw [List.filter_append, List.filter_append, List.map_append, List.map_append, hf, hf, hf]
    interval_cases r
    · simp
    · simp only [if_true, if_false, zero_ne_one, List.append_nil]
      exact List.take_append_drop _ _

/-- an old output directory with something in it -/
def exampleFs : Fs ℕ := fun q =>
  if q = [] ∨ q = ["output".toList] then some .dir else if q = ["output".toList, "old".toList] then some (.file 7) else none

example : WellFormed exampleFs ∧ exampleFs exampleParams.outputDir = some .dir ∧
    exampleParams.handleExisting = .delete := by
  refine ⟨⟨rfl, ?_⟩, rfl, rfl⟩
  intro q _ h2
  unfold exampleFs at h2
  split at h2
  · rename_i h
    rcases h with rfl | rfl <;> rfl
  · split at h2
    · rename_i h
      subst h
      rfl
    · exact absurd rfl h2

end Verif.OutputDirs
