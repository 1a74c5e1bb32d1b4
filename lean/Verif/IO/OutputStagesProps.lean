import Verif.IO.OutputStagesLemmas
import Verif.IO.TimerProps
import Mathlib.Tactic.IntervalCases

/-!
# C112: the snapshots contain exactly the requested fields, whatever the scheduler does
-/

namespace Verif.OutputStages
open Verif.FileDist

variable {K : Type*} [Field K] [LinearOrder K] {V α : Type}

/-! ### Specification -/

/-- The user asks for the field of this name. -/
def Requested : Fields → String → Prop
  | .all, _ => True
  | .some names, name => name ∈ names

/-- Snapshot `num` is to contain the dataset of plugin `i`: it is requested, and a dataset which does not change is
written to the first snapshot only. -/
def HasDataset (cfg : Config K) (num : ℕ) (i : ℕ) (f : Plugin) : Prop :=
  cfg.plugins[i]? = some f ∧ Requested cfg.fields f.name ∧ ∃ isStatic, f.kind = .dataset isStatic ∧
    (isStatic = true → num = 0)

/-- `c` are the files of snapshot `num`, written in the given frame. -/
structure Written (cfg : Config K) (frame : Frame K V α) (num : ℕ) (c : Content V α) : Prop where
  /-- all attributes are there, with their values -/
  attrOf : ∀ (i : ℕ) (f : Plugin), cfg.plugins[i]? = some f → f.kind = .attr → c.attrs f.name = some (frame.attr i)
  /-- and no others -/
  onlyAttributes : ∀ name, c.attrs name ≠ none → ∃ (i : ℕ) (f : Plugin), cfg.plugins[i]? = some f ∧ f.kind = .attr ∧ f.name = name
  /-- the files are those which get at least one row -/
  files : c.files = (List.range cfg.numFiles).filter (fun i => 0 < rowsInFile cfg.counts.sum cfg.numFiles i)
  /-- the datasets to be written are there, all with the same number of rows per file, and reading them on any number of
  ranks gives the data of all ranks -/
  dataset : ∀ i f, HasDataset cfg num i f → ∃ store files, c.sets f.datasetName = some store ∧
    store.files = some files ∧
    files.map List.length = c.files.map (rowsInFile cfg.counts.sum cfg.numFiles) ∧ ∀ readers, 0 < readers → ∃ parts,
      (List.range readers).mapM (fun r => readDataset files readers r) = some parts ∧
      parts.flatten = (frame.data i).flatten
  /-- and no others -/
  onlyDatasets : ∀ name, c.sets name ≠ none → ∃ i f, HasDataset cfg num i f ∧ f.datasetName = name

/-- What the configuration has to satisfy: there are ranks and files, no two plugins use one name, and at least one
field is written. -/
structure Config.Ok (cfg : Config K) : Prop where
  ranks : 0 < cfg.counts.length
  files : 0 < cfg.numFiles
  names : DistinctNames cfg.plugins
  nonempty : ∃ f ∈ cfg.plugins, f.kind = .attr ∨ Requested cfg.fields f.name

/-- Every rank has one row per particle in every dataset. -/
def Frame.Ok (cfg : Config K) (frame : Frame K V α) : Prop :=
  ∀ i, (frame.data i).map List.length = cfg.counts

/-- The schedulers respect the constraints. -/
structure Orders.Ok (cfg : Config K) (orders : Orders) : Prop where
  create : Allowed (createStage cfg.fields cfg.plugins) orders.create
  output : ∀ rank, rank < cfg.counts.length → Allowed (outputStage cfg.fields cfg.plugins) (orders.output rank)

/-- No rank has files open, and the timers of all ranks agree. -/
def World.Idle (cfg : Config K) (w : World K V α) (t : SnapshotTimer.Timer K) : Prop :=
  ∀ rank, rank < cfg.counts.length → w.ranks rank = ⟨none, t⟩

/-! ### Lemmas -/

theorem isDesired_iff (p : Fields) (f : Plugin) :
    isDesired p f = true ↔ f.kind = .attr ∨ Requested p f.name := by
  unfold isDesired
  rw [Bool.or_eq_true]
  apply or_congr
  · cases f.kind <;> simp [Kind.isAlwaysDesired]
  · cases p with
    | all => simp [Requested]
    | some names => simp [Requested]

omit [Field K] [LinearOrder K] in
theorem desired_ne_nil (cfg : Config K) (h : cfg.Ok) : desired cfg.fields cfg.plugins ≠ [] := by
  obtain ⟨f, hf, hd⟩ := h.nonempty
  obtain ⟨i, hi, he⟩ := List.getElem_of_mem hf
  intro hnil
  have : i ∈ desired cfg.fields cfg.plugins :=
    (mem_desired _ _ _).2 ⟨f, by rw [List.getElem?_eq_getElem hi, he], (isDesired_iff _ _).2 hd⟩
  rw [hnil] at this
  cases this

/-- the regions of the created files -/
theorem created_regions (total numFiles : ℕ) (hf : 0 < numFiles) :
    ∃ regions, getRankOutputAssignmentForRank [total] numFiles 0 = some regions ∧
      regions.all (fun r => r.start == 0) = true ∧
      regions.map (fun r => (r.fileIndex, r.stop - r.start)) = createdFiles (outputEntriesPerFile total numFiles) := by
  have h := createStore_eq (α := Unit) total numFiles hf
  unfold createStore at h
  cases hr : getRankOutputAssignmentForRank [total] numFiles 0 with
  | none => simp [hr] at h
  | some regions =>
    simp only [hr] at h
    split at h
    · next hall =>
      simp only [Option.some.injEq, Store.mk.injEq, and_true] at h
      exact ⟨regions, rfl, hall, h⟩
    · cases h

/-- one rank writes its part of one dataset -/
def writeRank (data : List (List α)) (numFiles : ℕ) (s : Store α) (r : ℕ) : Option (Store α) :=
  match getRankOutputAssignmentForRank (data.map List.length) numFiles r, data[r]? with
  | some regions, some d => writeDataset s regions d
  | _, _ => none

theorem writeSnapshot_eq (data : List (List α)) (numFiles : ℕ) (hf : 0 < numFiles) (order : List ℕ) :
    writeSnapshot data numFiles order = order.foldlM (writeRank data numFiles)
      ⟨createdFiles (outputEntriesPerFile (data.map List.length).sum numFiles), fun _ _ => none⟩ := by
  unfold writeSnapshot
  rw [createStore_eq _ _ hf]
  rfl

/-- the assignment of all ranks -/
theorem assignment (counts : List ℕ) (numFiles : ℕ) (hf : 0 < numFiles) :
    ∃ asg : List (List Region), getOutputRankAssignment counts numFiles = some asg ∧ asg.length = counts.length ∧
      asg.map (fun rs => (rs.flatMap Region.rows).length) = counts ∧ (asg.flatten.flatMap Region.rows).Nodup ∧
      ∀ rs ∈ asg, ∀ r ∈ rs, RegionOk (outputEntriesPerFile counts.sum numFiles) r := by
  obtain ⟨asg, h1, h2, h3, h4⟩ := getRankAssignment_spec (outputEntriesPerFile counts.sum numFiles) counts
    (by rw [sum_outputEntriesPerFile])
  refine ⟨asg, ?_, by simpa using congrArg List.length h2, h2, by rw [h3]; exact nodup_allRows _, h4⟩
  unfold getOutputRankAssignment
  rw [if_neg (by omega)]
  exact h1

theorem writeRanks_some (data : List (List α)) (numFiles : ℕ) (hf : 0 < numFiles) (m : ℕ) (hm : m ≤ data.length) :
    ∃ s, (List.range m).foldlM (writeRank data numFiles)
      ⟨createdFiles (outputEntriesPerFile (data.map List.length).sum numFiles), fun _ _ => none⟩ = some s := by
  obtain ⟨asg, h1, _, h2, h3, h4⟩ := assignment (data.map List.length) numFiles hf
  obtain ⟨s, hs, _⟩ := foldlM_write_spec data numFiles asg _ h1 h2 h3 h4 (List.range m)
    ⟨createdFiles (outputEntriesPerFile (data.map List.length).sum numFiles), fun _ _ => none⟩ rfl List.nodup_range
    (fun r hr => by rw [List.mem_range] at hr; omega)
  exact ⟨s, hs⟩

/-- the dataset after the first `m` ranks have written -/
def storeAfter (data : List (List α)) (numFiles m : ℕ) : Store α :=
  ((List.range m).foldlM (writeRank data numFiles)
    ⟨createdFiles (outputEntriesPerFile (data.map List.length).sum numFiles), fun _ _ => none⟩).getD
    ⟨[], fun _ _ => none⟩

theorem storeAfter_zero (data : List (List α)) (numFiles : ℕ) : storeAfter data numFiles 0
    = ⟨createdFiles (outputEntriesPerFile (data.map List.length).sum numFiles), fun _ _ => none⟩ := rfl

theorem storeAfter_succ (data : List (List α)) (numFiles : ℕ) (hf : 0 < numFiles) (m : ℕ) (hm : m < data.length)
    (regions : List Region) (hr : getRankOutputAssignmentForRank (data.map List.length) numFiles m = some regions) :
    writeDataset (storeAfter data numFiles m) regions data[m] = some (storeAfter data numFiles (m + 1)) := by
  obtain ⟨s, hs⟩ := writeRanks_some data numFiles hf m (by omega)
  obtain ⟨s', hs'⟩ := writeRanks_some data numFiles hf (m + 1) (by omega)
  have e1 : storeAfter data numFiles m = s := by unfold storeAfter; rw [hs]; rfl
  have e2 : storeAfter data numFiles (m + 1) = s' := by unfold storeAfter; rw [hs']; rfl
  rw [e1, e2]
  rw [List.range_succ, List.foldlM_append, hs] at hs'
  simpa [writeRank, hr, List.getElem?_eq_getElem hm] using hs'

theorem storeAfter_all (data : List (List α)) (numFiles : ℕ) (hf : 0 < numFiles) :
    writeSnapshot data numFiles (List.range data.length) = some (storeAfter data numFiles data.length) := by
  obtain ⟨s, hs⟩ := writeRanks_some data numFiles hf data.length le_rfl
  rw [writeSnapshot_eq _ _ hf]
  unfold storeAfter
  rw [hs]
  rfl

theorem storeAfter_created (data : List (List α)) (numFiles : ℕ) (hf : 0 < numFiles) (m : ℕ) (hm : m ≤ data.length) :
    (storeAfter data numFiles m).created = createdFiles (outputEntriesPerFile (data.map List.length).sum numFiles) := by
  obtain ⟨asg, h1, _, h2, h3, h4⟩ := assignment (data.map List.length) numFiles hf
  obtain ⟨s, hs, hc, _⟩ := foldlM_write_spec data numFiles asg _ h1 h2 h3 h4 (List.range m)
    ⟨createdFiles (outputEntriesPerFile (data.map List.length).sum numFiles), fun _ _ => none⟩ rfl List.nodup_range
    (fun r hr => by rw [List.mem_range] at hr; omega)
  have : storeAfter data numFiles m = s := by
    unfold storeAfter
    change ((List.range m).foldlM (writeRank data numFiles) _).getD _ = s
    have hs' : (List.range m).foldlM (writeRank data numFiles)
      ⟨createdFiles (outputEntriesPerFile (data.map List.length).sum numFiles), fun _ _ => none⟩ = some s := hs
    rw [hs']
    rfl
  rw [this, hc]

theorem mapM_length {A B : Type} (f : B → Option A) (bs : List B) (l : List A) (h : bs.mapM f = some l) :
    l.length = bs.length := by
  induction bs generalizing l with
  | nil =>
    simp only [List.mapM_nil, Option.pure_def, Option.some.injEq] at h
    subst h
    rfl
  | cons b bs ih =>
    rw [List.mapM_cons] at h
    cases h1 : f b with
    | none => simp [h1] at h
    | some a =>
      cases h2 : bs.mapM f with
      | none => simp [h1, h2] at h
      | some rest =>
        simp only [h1, h2, Option.pure_def, Option.bind_eq_bind, Option.bind_some, Option.some.injEq] at h
        subst h
        rw [List.length_cons, List.length_cons, ih rest h2]

/-- the files have the rows they were created with -/
theorem files_lengths (store : Store α) (files : List (List α)) (h : store.files = some files) :
    files.map List.length = store.created.map (·.2) := by
  unfold Store.files at h
  generalize store.created = l at h
  induction l generalizing files with
  | nil =>
    simp only [List.mapM_nil, Option.pure_def, Option.some.injEq] at h
    subst h
    rfl
  | cons x l ih =>
    rw [List.mapM_cons] at h
    cases h1 : (List.range x.2).mapM (fun i => store.val x.1 i) with
    | none => simp [h1] at h
    | some rows =>
      cases h2 : l.mapM (fun f => (List.range f.2).mapM (fun i => store.val f.1 i)) with
      | none => simp [h1, h2] at h
      | some rest =>
        simp only [h1, h2, Option.pure_def, Option.bind_eq_bind, Option.bind_some, Option.some.injEq] at h
        subst h
        rw [List.map_cons, List.map_cons, ih rest h2, mapM_length _ _ _ h1, List.length_range]

/-- a dataset is written in this frame -/
def activeDataset (cfg : Config K) (num i : ℕ) : Prop := ∃ f, HasDataset cfg num i f

omit [Field K] in
theorem runs_create (cfg : Config K) (t : SnapshotTimer.Timer K) (inp : SnapshotTimer.Input K)
    (hcrit : t.runCriterion inp = true) (i : ℕ) (f : Plugin) (hf : cfg.plugins[i]? = some f)
    (hd : isDesired cfg.fields f = true) :
    runs cfg t inp (.createField i) = true ↔ f.kind = .attr ∨ HasDataset cfg t.snapshotNum i f := by
  obtain ⟨n, d, k⟩ := f
  cases k with
  | attr => simp [runs, hf, hcrit]
  | dataset st =>
    have hreq := (isDesired_iff _ _).1 hd
    simp only [reduceCtorEq, false_or] at hreq
    simp only [runs, hf, SnapshotTimer.Timer.datasetWriteRunCriterion, hcrit, if_true, reduceCtorEq, false_or,
      HasDataset, hreq, true_and, Bool.or_eq_true, Bool.not_eq_true', beq_iff_eq]
    constructor
    · intro h
      refine ⟨st, rfl, ?_⟩
      rintro rfl
      simpa using h
    · rintro ⟨st', h1, h2⟩
      cases h1
      cases st with
      | false => exact Or.inl rfl
      | true => exact Or.inr (h2 rfl)

omit [Field K] in
theorem runs_write (cfg : Config K) (t : SnapshotTimer.Timer K) (inp : SnapshotTimer.Input K)
    (hcrit : t.runCriterion inp = true) (i : ℕ) (f : Plugin) (hf : cfg.plugins[i]? = some f)
    (hd : isDesired cfg.fields f = true) :
    runs cfg t inp (.writeField i) = true ↔ f.kind = .attr ∨ HasDataset cfg t.snapshotNum i f := by
  rw [← runs_create cfg t inp hcrit i f hf hd]
  obtain ⟨n, d, k⟩ := f
  cases k with
  | attr => simp [runs, hf, hcrit]
  | dataset st => simp [runs, hf]

/-- what is known about the files of a snapshot after `m` ranks have written -/
structure Progress (cfg : Config K) (frame : Frame K V α) (num m : ℕ) (c : Content V α) : Prop where
  files : c.files = (createdFiles (outputEntriesPerFile cfg.counts.sum cfg.numFiles)).map (·.1)
  attrOf : ∀ (i : ℕ) (f : Plugin), cfg.plugins[i]? = some f → f.kind = .attr → c.attrs f.name = some (frame.attr i)
  onlyAttributes : ∀ name, c.attrs name ≠ none → ∃ (i : ℕ) (f : Plugin), cfg.plugins[i]? = some f ∧ f.kind = .attr ∧ f.name = name
  dataset : ∀ i f, HasDataset cfg num i f → c.sets f.datasetName = some (storeAfter (frame.data i) cfg.numFiles m)
  onlyDatasets : ∀ name, c.sets name ≠ none → ∃ i f, HasDataset cfg num i f ∧ f.datasetName = name

theorem create_stage (cfg : Config K) (frame : Frame K V α) (order : List Sys) (h : cfg.Ok) (hfr : frame.Ok cfg)
    (ho : Allowed (createStage cfg.fields cfg.plugins) order) (disk : Disk V α) (t : SnapshotTimer.Timer K)
    (hcrit : t.runCriterion frame.input = true) :
    ∃ c, runStage cfg frame 0 order (disk, ⟨none, t⟩) = some (put disk t.snapshotNum (some c), ⟨none, t⟩) ∧
      Progress cfg frame t.snapshotNum 0 c := by
  rw [create_order _ _ _ (desired_ne_nil cfg h) ho]
  obtain ⟨regions, hr, hstart, hcreated⟩ := created_regions cfg.counts.sum cfg.numFiles h.files
  set act := (desired cfg.fields cfg.plugins).filter (fun i => runs cfg t frame.input (.createField i)) with hact
  have hfilter : (Sys.createFile :: ((desired cfg.fields cfg.plugins).map Sys.createField ++ [Sys.closeFile])).filter
      (runs cfg t frame.input) = Sys.createFile :: (act.map Sys.createField ++ [Sys.closeFile]) := by
    rw [List.filter_cons_of_pos (by simpa [runs] using hcrit), List.filter_append, List.filter_map,
      List.filter_cons_of_pos (by simpa [runs] using hcrit), List.filter_nil]
    rfl
  have hactmem : ∀ i, i ∈ act ↔ ∃ f, cfg.plugins[i]? = some f ∧ (f.kind = .attr ∨ HasDataset cfg t.snapshotNum i f) := by
    intro i
    rw [hact, List.mem_filter, mem_desired]
    constructor
    · rintro ⟨⟨f, hf, hd⟩, hrun⟩
      exact ⟨f, hf, (runs_create cfg t frame.input hcrit i f hf hd).1 hrun⟩
    · rintro ⟨f, hf, hor⟩
      have hd : isDesired cfg.fields f = true := by
        rw [isDesired_iff]
        rcases hor with hk | hk
        · exact Or.inl hk
        · exact Or.inr hk.2.1
      exact ⟨⟨f, hf, hd⟩, (runs_create cfg t frame.input hcrit i f hf hd).2 hor⟩
  have hact' : ∀ i f, HasDataset cfg t.snapshotNum i f → i ∈ act := by
    intro i f hf
    exact (hactmem i).2 ⟨f, hf.1, Or.inr hf⟩
  set c0 : Content V α := ⟨regions.map (·.fileIndex), fun _ => none, fun _ => none⟩ with hc0
  obtain ⟨c, h1, h2, h3, h4, h5, h6⟩ := create_fields cfg frame 0 h.names ⟨some regions, t⟩ regions rfl hstart act
    ((desired_nodup _ _).filter _)
    (fun i hi => by
      obtain ⟨f, hf, _⟩ := (hactmem i).1 hi
      exact ⟨f, hf⟩)
    (put disk t.snapshotNum (some c0)) c0 (put_self _ _ _) (fun i _ f _ => ⟨fun _ => rfl, fun _ => rfl⟩)
  refine ⟨c, ?_, ?_, ?_, ?_, ?_, ?_⟩
  · unfold runStage
    dsimp only
    rw [hfilter, List.foldlM_cons]
    have e : runSys cfg frame 0 (disk, (⟨none, t⟩ : RankState K)) .createFile
        = some (put disk t.snapshotNum (some c0), ⟨some regions, t⟩) := by
      simp [runSys, hr, hc0]
    rw [e, Option.bind_eq_bind, Option.bind_some, List.foldlM_append, h1]
    dsimp only
    rw [put_put]
    rfl
  · rw [h2, hc0, ← hcreated, List.map_map]
    rfl
  · intro i f hf hk
    exact h3 i ((hactmem i).2 ⟨f, hf, Or.inl hk⟩) f hf hk
  · intro name hname
    by_contra hno
    apply hname
    rw [h4]
    intro i hi f hf hk hn
    exact hno ⟨i, f, hf, hk, hn⟩
  · intro i f hf
    obtain ⟨st, hk, _⟩ := hf.2.2
    rw [h5 i (hact' i f hf) f hf.1 (by rw [hk]; simp), storeAfter_zero, hcreated, hfr i]
  · intro name hname
    by_contra hno
    apply hname
    rw [h6]
    intro i hi f hf hk hn
    obtain ⟨g, hg, hor⟩ := (hactmem i).1 hi
    rw [hf] at hg
    cases hg
    rcases hor with hor | hor
    · exact hk hor
    · exact hno ⟨i, f, hor, hn⟩

theorem output_stage (cfg : Config K) (frame : Frame K V α) (rank : ℕ) (order : List Sys) (h : cfg.Ok)
    (hfr : frame.Ok cfg) (hrank : rank < cfg.counts.length)
    (ho : Allowed (outputStage cfg.fields cfg.plugins) order) (disk : Disk V α) (t : SnapshotTimer.Timer K)
    (c : Content V α) (hc : disk t.snapshotNum = some c) (hp : Progress cfg frame t.snapshotNum rank c)
    (hcrit : t.runCriterion frame.input = true) :
    ∃ c', runStage cfg frame rank order (disk, ⟨none, t⟩)
        = some (put disk t.snapshotNum (some c'), ⟨none, t.update cfg.timer⟩) ∧
      Progress cfg frame t.snapshotNum (rank + 1) c' := by
  obtain ⟨is, tail, his, htail, horder⟩ := output_order _ _ _ ho
  set act := is.filter (fun i => runs cfg t frame.input (.writeField i)) with hact
  have hfilter : order.filter (runs cfg t frame.input)
      = .initWait :: .openFile :: (act.map Sys.writeField ++ Sys.closeFile :: tail) := by
    rw [horder, List.filter_cons_of_pos (by simpa [runs] using hcrit),
      List.filter_cons_of_pos (by simpa [runs] using hcrit), List.filter_append, List.filter_map,
      List.filter_cons_of_pos (by simpa [runs] using hcrit)]
    have : tail.filter (runs cfg t frame.input) = tail := by
      rw [List.filter_eq_self]
      intro s hs
      rcases htail with rfl | rfl <;>
        (simp only [List.mem_cons, List.not_mem_nil, or_false] at hs
         rcases hs with rfl | rfl <;> simpa [runs] using hcrit)
    rw [this]
    rfl
  have hactmem : ∀ i, i ∈ act ↔ ∃ f, cfg.plugins[i]? = some f ∧ (f.kind = .attr ∨ HasDataset cfg t.snapshotNum i f) := by
    intro i
    rw [hact, List.mem_filter, his.mem_iff, mem_desired]
    constructor
    · rintro ⟨⟨f, hf, hd⟩, hrun⟩
      exact ⟨f, hf, (runs_write cfg t frame.input hcrit i f hf hd).1 hrun⟩
    · rintro ⟨f, hf, hor⟩
      have hd : isDesired cfg.fields f = true := by
        rw [isDesired_iff]
        rcases hor with hk | hk
        · exact Or.inl hk
        · exact Or.inr hk.2.1
      exact ⟨⟨f, hf, hd⟩, (runs_write cfg t frame.input hcrit i f hf hd).2 hor⟩
  -- the regions of this rank
  obtain ⟨asg, a1, a2, _, _, a5⟩ := assignment cfg.counts cfg.numFiles h.files
  have hrl : rank < asg.length := by rw [a2]; exact hrank
  have hreg : getRankOutputAssignmentForRank cfg.counts cfg.numFiles rank = some asg[rank] := by
    simp [getRankOutputAssignmentForRank, a1, List.getElem?_eq_getElem hrl]
  have hopen : asg[rank].all (fun r => c.files.contains r.fileIndex) = true := by
    rw [List.all_eq_true]
    intro r hr
    obtain ⟨g1, s, g2, g3⟩ := a5 _ (List.getElem_mem hrl) r hr
    rw [hp.files, List.contains_iff_mem, List.mem_map]
    refine ⟨(r.fileIndex, s), ?_, rfl⟩
    unfold createdFiles
    rw [List.mem_map]
    refine ⟨(s, r.fileIndex), ?_, rfl⟩
    rw [List.mem_filter, List.mem_zipIdx_iff_getElem?]
    exact ⟨g2, by simp; omega⟩
  obtain ⟨c', h1, h2, h3, h4, h5⟩ := write_fields cfg frame rank h.names ⟨some asg[rank], t⟩ asg[rank] rfl
    (fun i => storeAfter (frame.data i) cfg.numFiles (rank + 1)) act ((his.nodup_iff.2 (desired_nodup _ _)).filter _)
    (fun i hi => by
      obtain ⟨f, hf, _⟩ := (hactmem i).1 hi
      exact ⟨f, hf⟩)
    disk c hc
    (by
      intro i hi f hf hk
      obtain ⟨g, hg, hor⟩ := (hactmem i).1 hi
      rw [hf] at hg
      cases hg
      have hh : HasDataset cfg t.snapshotNum i f := hor.resolve_left hk
      have hlen : rank < (frame.data i).length := by
        have := congrArg List.length (hfr i)
        rw [List.length_map] at this
        omega
      exact ⟨_, (frame.data i)[rank], hp.dataset i f hh, List.getElem?_eq_getElem hlen,
        storeAfter_succ _ _ h.files rank hlen _ (by rw [hfr i]; exact hreg)⟩)
  refine ⟨c', ?_, ?_, ?_, ?_, ?_, ?_⟩
  · unfold runStage
    dsimp only
    rw [hfilter, List.foldlM_cons]
    have e0 : runSys cfg frame rank (disk, (⟨none, t⟩ : RankState K)) .initWait = some (disk, ⟨none, t⟩) := rfl
    have e : runSys cfg frame rank (disk, (⟨none, t⟩ : RankState K)) .openFile
        = some (disk, ⟨some asg[rank], t⟩) := by
      simp only [runSys, hreg, hc, hopen]
      simp
    rw [e0, Option.bind_eq_bind, Option.bind_some, List.foldlM_cons, e, Option.bind_eq_bind, Option.bind_some, List.foldlM_append, h1]
    rcases htail with rfl | rfl <;> rfl
  · rw [h2, hp.files]
  · rw [h3]
    exact hp.attrOf
  · rw [h3]
    exact hp.onlyAttributes
  · intro i f hf
    obtain ⟨st, hk, _⟩ := hf.2.2
    exact h4 i ((hactmem i).2 ⟨f, hf.1, Or.inr hf⟩) f hf.1 (by rw [hk]; simp)
  · intro name hname
    by_contra hno
    apply hname
    rw [h5]
    · by_contra hne
      exact hno (hp.onlyDatasets name hne)
    · intro i hi f hf hk hn
      obtain ⟨g, hg, hor⟩ := (hactmem i).1 hi
      rw [hf] at hg
      cases hg
      exact hno ⟨i, f, hor.resolve_left hk, hn⟩

theorem quiet_stage (cfg : Config K) (frame : Frame K V α) (rank : ℕ) (order : List Sys)
    (hids : ∀ i, Sys.writeField i ∈ order → ∃ f, cfg.plugins[i]? = some f) (w : Disk V α × RankState K)
    (hcrit : w.2.timer.runCriterion frame.input = false) : runStage cfg frame rank order w = some w := by
  unfold runStage
  have hstep : ∀ s ∈ order.filter (runs cfg w.2.timer frame.input), runSys cfg frame rank w s = some w := by
    intro s hs
    obtain ⟨hmem, hrun⟩ := List.mem_filter.1 hs
    cases s with
    | writeField i =>
      obtain ⟨⟨n, d, k⟩, hf⟩ := hids i hmem
      cases k with
      | attr => simp [runSys, hf]
      | dataset st =>
        exfalso
        simp [runs, hf, SnapshotTimer.Timer.datasetWriteRunCriterion, hcrit] at hrun
    | createField i =>
      exfalso
      simp only [runs, SnapshotTimer.Timer.datasetWriteRunCriterion, hcrit] at hrun
      split at hrun <;> simp at hrun
    | _ => exfalso; simp [runs, hcrit] at hrun
  generalize order.filter (runs cfg w.2.timer frame.input) = l at hstep
  induction l with
  | nil => rfl
  | cons s l ih =>
    rw [List.foldlM_cons, hstep s (by simp)]
    exact ih (fun s' hs' => hstep s' (by simp [hs']))

theorem write_mem_output (cfg : Config K) (order : List Sys)
    (ho : Allowed (outputStage cfg.fields cfg.plugins) order) (i : ℕ) (hi : Sys.writeField i ∈ order) :
    ∃ f, cfg.plugins[i]? = some f := by
  obtain ⟨is, tail, his, htail, rfl⟩ := output_order _ _ _ ho
  have : i ∈ is := by
    rcases htail with rfl | rfl <;> simpa using hi
  obtain ⟨f, hf, _⟩ := (mem_desired _ _ _).1 (his.mem_iff.1 this)
  exact ⟨f, hf⟩

theorem write_mem_create (cfg : Config K) (h : cfg.Ok) (order : List Sys)
    (ho : Allowed (createStage cfg.fields cfg.plugins) order) (i : ℕ) (hi : Sys.writeField i ∈ order) :
    ∃ f, cfg.plugins[i]? = some f := by
  rw [create_order _ _ _ (desired_ne_nil cfg h) ho] at hi
  simp at hi

theorem progress_written (cfg : Config K) (frame : Frame K V α) (num : ℕ) (c : Content V α) (h : cfg.Ok)
    (hfr : frame.Ok cfg) (hp : Progress cfg frame num cfg.counts.length c) : Written cfg frame num c := by
  have hfiles : c.files = (List.range cfg.numFiles).filter (fun i => 0 < rowsInFile cfg.counts.sum cfg.numFiles i) := by
    rw [hp.files, createdFiles_eq _ _ h.files, List.map_map]
    exact List.map_id _
  refine ⟨hp.attrOf, hp.onlyAttributes, hfiles, ?_, hp.onlyDatasets⟩
  intro i f hf
  have hlen : (frame.data i).length = cfg.counts.length := by
    have := congrArg List.length (hfr i)
    rwa [List.length_map] at this
  have hw := storeAfter_all (frame.data i) cfg.numFiles h.files
  obtain ⟨store, files, parts, g1, g2, _, _, _⟩ := snapshot_round_trip (frame.data i) cfg.numFiles h.files
    (List.range (frame.data i).length) (List.Perm.refl _) 1 one_pos 1 one_pos
  rw [hw] at g1
  cases g1
  refine ⟨_, files, ?_, g2, ?_, ?_⟩
  · rw [hp.dataset i f hf, hlen]
  · rw [files_lengths _ _ g2, storeAfter_created _ _ h.files _ le_rfl, hfr i, createdFiles_eq _ _ h.files, hfiles,
      List.map_map]
    rfl
  · intro readers hr
    obtain ⟨store', files', parts', k1, k2, _, k4, k5⟩ := snapshot_round_trip (frame.data i) cfg.numFiles h.files
      (List.range (frame.data i).length) (List.Perm.refl _) readers hr 1 one_pos
    rw [hw] at k1
    cases k1
    rw [g2] at k2
    cases k2
    exact ⟨parts', k4, k5⟩

/-! ### Properties -/

/-- **C112 (one frame).** Whatever orders the schedulers of the ranks choose, the two output stages do not panic; all
files are closed afterwards and all timers agree; if a snapshot is due, its files contain exactly the attributes and the
requested datasets with the data of all ranks; nothing else on disk changes. -/
theorem frame_writes_snapshot (cfg : Config K) (frame : Frame K V α) (orders : Orders) (h : cfg.Ok)
    (hfr : frame.Ok cfg) (ho : orders.Ok cfg) (w : World K V α) (t : SnapshotTimer.Timer K) (hw : w.Idle cfg t) :
    ∃ w', outputFrame cfg frame orders w = some w' ∧ w'.Idle cfg (SnapshotTimer.step cfg.timer t frame.input).1 ∧
      (∀ num, (frame.input.stop = false ∧ frame.input.time < t.nextOutputTime) ∨ num ≠ t.snapshotNum →
        w'.disk num = w.disk num) ∧
      (frame.input.stop = true ∨ t.nextOutputTime ≤ frame.input.time →
        ∃ c, w'.disk t.snapshotNum = some c ∧ Written cfg frame t.snapshotNum c) := by
  have hw0 : w.ranks 0 = ⟨none, t⟩ := hw 0 h.ranks
  cases hcrit : t.runCriterion frame.input with
  | true =>
    obtain ⟨c0, hs0, hp0⟩ := create_stage cfg frame orders.create h hfr ho.create w.disk t hcrit
    have hcreate : w.stage cfg frame orders.create 0 = some ⟨put w.disk t.snapshotNum (some c0), w.ranks⟩ := by
      unfold World.stage
      rw [hw0, hs0, Option.map_some, put_eq _ _ _ hw0]
    have key : ∀ m, m ≤ cfg.counts.length → ∃ w' c, (List.range m).foldlM
        (fun w rank => w.stage cfg frame (orders.output rank) rank)
        (⟨put w.disk t.snapshotNum (some c0), w.ranks⟩ : World K V α) = some w' ∧
        w'.disk = put w.disk t.snapshotNum (some c) ∧ Progress cfg frame t.snapshotNum m c ∧
        ∀ rank, rank < cfg.counts.length → w'.ranks rank
          = if rank < m then ⟨none, t.update cfg.timer⟩ else ⟨none, t⟩ := by
      intro m
      induction m with
      | zero =>
        intro _
        exact ⟨_, c0, rfl, rfl, hp0, fun rank hr => by simpa using hw rank hr⟩
      | succ m ih =>
        intro hm
        obtain ⟨w1, c1, e1, e2, e3, e4⟩ := ih (by omega)
        have hwm : w1.ranks m = ⟨none, t⟩ := by rw [e4 m (by omega)]; simp
        obtain ⟨c2, g1, g2⟩ := output_stage cfg frame m (orders.output m) h hfr (by omega) (ho.output m (by omega))
          w1.disk t c1 (by rw [e2]; exact put_self _ _ _) e3 hcrit
        refine ⟨⟨put w1.disk t.snapshotNum (some c2), put w1.ranks m ⟨none, t.update cfg.timer⟩⟩, c2, ?_, ?_, g2, ?_⟩
        · rw [List.range_succ, List.foldlM_append, e1]
          simp only [List.foldlM_cons, List.foldlM_nil, Option.bind_eq_bind, Option.bind_some]
          unfold World.stage
          rw [hwm, g1]
          rfl
        · dsimp only
          rw [e2, put_put]
        · intro rank hr
          by_cases hrm : rank = m
          · subst hrm
            simp [put_self]
          · dsimp only
            rw [put_ne _ _ hrm, e4 rank hr]
            have : rank < m ↔ rank < m + 1 := by omega
            simp [this]
    obtain ⟨w', c, e1, e2, e3, e4⟩ := key cfg.counts.length le_rfl
    refine ⟨w', ?_, ?_, ?_, ?_⟩
    · unfold outputFrame
      rw [hcreate, Option.bind_some]
      exact e1
    · intro rank hr
      rw [e4 rank hr, if_pos hr]
      simp [SnapshotTimer.step, hcrit]
    · intro num hnum
      rw [e2]
      apply put_ne
      rcases hnum with ⟨h1, h2⟩ | hnum
      · simp only [SnapshotTimer.Timer.runCriterion, h1, Bool.false_or, decide_eq_true_eq] at hcrit
        exact absurd h2 (not_lt.2 hcrit)
      · exact hnum
    · intro _
      exact ⟨c, by rw [e2]; exact put_self _ _ _, progress_written cfg frame _ c h hfr e3⟩
  | false =>
    have hstage : ∀ order, (∀ i, Sys.writeField i ∈ order → ∃ f, cfg.plugins[i]? = some f) →
        ∀ rank, rank < cfg.counts.length → w.stage cfg frame order rank = some w := by
      intro order hids rank hr
      unfold World.stage
      rw [quiet_stage cfg frame rank order hids _ (by rw [hw rank hr]; exact hcrit), Option.map_some,
        put_eq _ _ _ rfl]
    refine ⟨w, ?_, ?_, fun _ _ => rfl, ?_⟩
    · unfold outputFrame
      rw [hstage _ (write_mem_create cfg h _ ho.create) 0 h.ranks, Option.bind_some]
      have hall : ∀ r ∈ List.range cfg.counts.length, w.stage cfg frame (orders.output r) r = some w := by
        intro r hr
        rw [List.mem_range] at hr
        exact hstage _ (write_mem_output cfg _ (ho.output r hr)) r hr
      generalize List.range cfg.counts.length = l at hall
      induction l with
      | nil => rfl
      | cons a l ih =>
        rw [List.foldlM_cons, hall a (by simp)]
        exact ih (fun r hr => hall r (by simp [hr]))
    · intro rank hr
      rw [hw rank hr]
      simp [SnapshotTimer.step, hcrit]
    · intro hor
      exfalso
      simp only [SnapshotTimer.Timer.runCriterion, Bool.or_eq_false_iff, decide_eq_false_iff_not] at hcrit
      rcases hor with h1 | h1
      · rw [hcrit.1] at h1
        cases h1
      · exact hcrit.2 h1

/-- the statement of a run from any timer -/
theorem run_aux (cfg : Config K) (h : cfg.Ok) (frames : List (Frame K V α × Orders))
    (hok : ∀ f ∈ frames, f.1.Ok cfg ∧ f.2.Ok cfg) (w : World K V α) (t : SnapshotTimer.Timer K) (hw : w.Idle cfg t) :
    ∃ w', outputRun cfg frames w = some w' ∧ (∃ t', t.snapshotNum ≤ t'.snapshotNum ∧ w'.Idle cfg t') ∧
      (∀ num, num < t.snapshotNum → w'.disk num = w.disk num) ∧
      (∀ num, (∀ s, some s ∈ SnapshotTimer.run cfg.timer t (frames.map (·.1.input)) → s.num ≠ num) →
        w'.disk num = w.disk num) ∧
      ∀ (k : ℕ) (frame : Frame K V α × Orders) (s : SnapshotTimer.Snapshot), frames[k]? = some frame →
        (SnapshotTimer.run cfg.timer t (frames.map (·.1.input)))[k]? = some (some s) →
        t.snapshotNum ≤ s.num ∧ ∃ c, w'.disk s.num = some c ∧ Written cfg frame.1 s.num c := by
  induction frames generalizing w t with
  | nil =>
    refine ⟨w, rfl, ⟨t, le_rfl, hw⟩, fun _ _ => rfl, fun _ _ => rfl, ?_⟩
    intro k frame s hk
    simp at hk
  | cons f frames ih =>
    obtain ⟨hf1, hf2⟩ := hok f (by simp)
    obtain ⟨w1, e1, e2, e3, e4⟩ := frame_writes_snapshot cfg f.1 f.2 h hf1 hf2 w t hw
    obtain ⟨w2, g1, ⟨t', g2, g2'⟩, g3, g4, g5⟩ := ih (fun f' hf' => hok f' (by simp [hf'])) w1 _ e2
    cases hcrit : t.runCriterion f.1.input with
    | true =>
      have hstep : SnapshotTimer.step cfg.timer t f.1.input = (t.update cfg.timer,
          some ⟨t.snapshotNum, t.datasetWriteRunCriterion f.1.input true,
            t.datasetWriteRunCriterion f.1.input false⟩) := by
        simp [SnapshotTimer.step, hcrit]
      rw [hstep] at g2 g3 g4 g5
      have hn : (t.update cfg.timer).snapshotNum = t.snapshotNum + 1 := rfl
      dsimp only at g2 g3 g4 g5
      rw [hn] at g2 g3 g5
      have hdue : f.1.input.stop = true ∨ t.nextOutputTime ≤ f.1.input.time := by
        simpa [SnapshotTimer.Timer.runCriterion] using hcrit
      refine ⟨w2, ?_, ⟨t', by omega, g2'⟩, ?_, ?_, ?_⟩
      · unfold outputRun at g1 ⊢
        rw [List.foldlM_cons, e1]
        exact g1
      · intro num hnum
        rw [g3 num (by omega), e3 num (Or.inr (by omega))]
      · intro num hnum
        rw [List.map_cons, SnapshotTimer.run, hstep] at hnum
        rw [g4 num (fun s hs => hnum s (by simp [hs])), e3 num (Or.inr _)]
        exact (hnum _ List.mem_cons_self).symm
      · intro k frame s hk hs
        rw [List.map_cons, SnapshotTimer.run, hstep] at hs
        cases k with
        | zero =>
          simp only [List.getElem?_cons_zero, Option.some.injEq] at hk hs
          subst hk hs
          obtain ⟨c, hc, hwr⟩ := e4 hdue
          exact ⟨le_rfl, c, by dsimp only; rw [g3 _ (by omega), hc], hwr⟩
        | succ k =>
          simp only [List.getElem?_cons_succ] at hk hs
          obtain ⟨k1, k2⟩ := g5 k frame s hk hs
          exact ⟨by omega, k2⟩
    | false =>
      have hstep : SnapshotTimer.step cfg.timer t f.1.input = (t, none) := by
        simp [SnapshotTimer.step, hcrit]
      rw [hstep] at g2 g3 g4 g5
      dsimp only at g2 g3 g4 g5
      have hnot : f.1.input.stop = false ∧ f.1.input.time < t.nextOutputTime := by
        simpa [SnapshotTimer.Timer.runCriterion] using hcrit
      refine ⟨w2, ?_, ⟨t', g2, g2'⟩, ?_, ?_, ?_⟩
      · unfold outputRun at g1 ⊢
        rw [List.foldlM_cons, e1]
        exact g1
      · intro num hnum
        rw [g3 num hnum, e3 num (Or.inl hnot)]
      · intro num hnum
        rw [List.map_cons, SnapshotTimer.run, hstep] at hnum
        rw [g4 num (fun s hs => hnum s (by simp [hs])), e3 num (Or.inl hnot)]
      · intro k frame s hk hs
        rw [List.map_cons, SnapshotTimer.run, hstep] at hs
        cases k with
        | zero => simp at hs
        | succ k =>
          simp only [List.getElem?_cons_succ] at hk hs
          exact g5 k frame s hk hs

/-- **C112 (whole run).** Over all frames of a run no output system panics, and at the end every snapshot that the timer
of C05 says was written in some frame still has the attributes and datasets of exactly that frame; all other snapshot
numbers are as they were before the run. -/
theorem run_writes_snapshots (cfg : Config K) (h : cfg.Ok) (frames : List (Frame K V α × Orders))
    (hok : ∀ f ∈ frames, f.1.Ok cfg ∧ f.2.Ok cfg) (w : World K V α)
    (hw : w.Idle cfg (SnapshotTimer.Timer.initialize cfg.timer)) :
    ∃ w', outputRun cfg frames w = some w' ∧
      (∀ (k : ℕ) (frame : Frame K V α × Orders) (s : SnapshotTimer.Snapshot), frames[k]? = some frame →
        (SnapshotTimer.simulate cfg.timer (frames.map (·.1.input)))[k]? = some (some s) →
        ∃ c, w'.disk s.num = some c ∧ Written cfg frame.1 s.num c) ∧
      ∀ num, (∀ s, some s ∈ SnapshotTimer.simulate cfg.timer (frames.map (·.1.input)) → s.num ≠ num) →
        w'.disk num = w.disk num := by
  obtain ⟨w', e1, _, _, e4, e5⟩ := run_aux cfg h frames hok w _ hw
  exact ⟨w', e1, fun k frame s hk hs => (e5 k frame s hk hs).2, e4⟩

/-- **C112 (names).** A requested name is reported as unknown exactly if there is no plugin of that name, so that no
snapshot can contain it. -/
theorem unknown_names (p : Fields) (plugins : List Plugin) (name : String) :
    name ∈ unknownFields p (plugins.map (·.name)) ↔
      (∃ names, p = .some names ∧ name ∈ names) ∧ ∀ f ∈ plugins, f.name ≠ name := by
  cases p with
  | all => simp [unknownFields]
  | some names => simp [unknownFields]

/-! ### Instances -/

/-- one attribute, a static dataset and two datasets which change, of which one is not requested; two ranks -/
def exampleConfig : Config ℚ where
  fields := .some ["Position", "Temperature"]
  numFiles := 2
  timer := ⟨none, 1⟩
  plugins := [⟨"SimulationTime", "SimulationTime", .attr⟩, ⟨"Position", "Coordinates", .dataset true⟩,
    ⟨"Temperature", "Temperature", .dataset false⟩, ⟨"HeatingRate", "HeatingRate", .dataset false⟩]
  counts := [1, 2]

/-- the fields are created in the order of the plugins; the second rank writes them in reverse order -/
def exampleOrders : Orders where
  create := [.createFile, .createField 0, .createField 1, .createField 2, .closeFile]
  output := fun rank =>
    if rank = 0 then [.initWait, .openFile, .writeField 0, .writeField 1, .writeField 2, .closeFile, .update,
      .finishWait]
    else [.initWait, .openFile, .writeField 2, .writeField 1, .writeField 0, .closeFile, .finishWait, .update]

def exampleFrame : Frame ℚ ℕ ℕ where
  input := ⟨0, false⟩
  attr := fun i => i
  data := fun i => [[10 * i], [10 * i + 1, 10 * i + 2]]

theorem example_ok : exampleConfig.Ok ∧ exampleOrders.Ok exampleConfig ∧ exampleFrame.Ok exampleConfig := by
  refine ⟨⟨by decide, by decide, ⟨?_, ?_⟩, ⟨⟨"SimulationTime", "SimulationTime", .attr⟩, by decide, Or.inl rfl⟩⟩,
    ⟨⟨by decide, by decide, by decide⟩, ?_⟩, fun i => rfl⟩
  · intro i j f g hf hg hk hk' hn
    have hi := (List.getElem?_eq_some_iff.1 hf).1
    have hj := (List.getElem?_eq_some_iff.1 hg).1
    have hi' : i < 4 := hi
    have hj' : j < 4 := hj
    interval_cases i <;> interval_cases j <;> simp_all [exampleConfig] <;> (subst hf hg; simp_all)
  · intro i j f g hf hg hk hk' hn
    have hi := (List.getElem?_eq_some_iff.1 hf).1
    have hj := (List.getElem?_eq_some_iff.1 hg).1
    have hi' : i < 4 := hi
    have hj' : j < 4 := hj
    interval_cases i <;> interval_cases j <;> simp_all [exampleConfig] <;> (subst hf hg; simp_all)
  · intro rank hr
    have hr' : rank < 2 := hr
    interval_cases rank
    · exact ⟨by decide, by decide, by decide⟩
    · exact ⟨by decide, by decide, by decide⟩

/-- the first snapshot of the example, whatever was on disk before -/
example (w : World ℚ ℕ ℕ) (hw : w.Idle exampleConfig ⟨0, 0⟩) : ∃ w' c,
    outputFrame exampleConfig exampleFrame exampleOrders w = some w' ∧ w'.disk 0 = some c ∧
      Written exampleConfig exampleFrame 0 c ∧ HasDataset exampleConfig 0 1 ⟨"Position", "Coordinates", .dataset true⟩ ∧
      ¬ HasDataset exampleConfig 1 1 ⟨"Position", "Coordinates", .dataset true⟩ := by
  obtain ⟨w', h1, _, _, h4⟩ := frame_writes_snapshot exampleConfig exampleFrame exampleOrders example_ok.1
    example_ok.2.2 example_ok.2.1 w ⟨0, 0⟩ hw
  obtain ⟨c, hc, hwr⟩ := h4 (Or.inr le_rfl)
  refine ⟨w', c, h1, hc, hwr, ⟨rfl, by simp [Requested, exampleConfig], true, rfl, fun _ => rfl⟩, ?_⟩
  rintro ⟨_, _, st, h1, h2⟩
  cases h1
  exact absurd (h2 rfl) one_ne_zero

/-- nothing is requested and there are no attributes -/
def emptyConfig : Config ℚ where
  fields := .some []
  numFiles := 1
  timer := ⟨none, 1⟩
  plugins := [⟨"Temperature", "Temperature", .dataset false⟩]
  counts := [1]

/-- **C112 (limits).** Creation and closing of the files are ordered only through the systems of the fields: without any
field the scheduler may close the files before they are created, and then opening them panics.  (The program always adds
the attribute `SimulationTime`, so that `Config.Ok` holds.) -/
theorem no_fields_can_panic : ∃ orders : Orders, orders.Ok emptyConfig ∧
    ∀ w : World ℚ ℕ ℕ, w.Idle emptyConfig ⟨0, 0⟩ → outputFrame emptyConfig exampleFrame orders w = none := by
  refine ⟨⟨[.closeFile, .createFile], fun _ => [.initWait, .openFile, .closeFile, .update, .finishWait]⟩,
    ⟨⟨by decide, by decide, by decide⟩, fun _ _ => (⟨by decide, by decide, by decide⟩ : Allowed (outputStage emptyConfig.fields emptyConfig.plugins)
      [.initWait, .openFile, .closeFile, .update, .finishWait])⟩, ?_⟩
  intro w hw
  have h0 : w.ranks 0 = ⟨none, ⟨0, 0⟩⟩ := hw 0 (by decide)
  have hreg : getRankOutputAssignmentForRank [1] 1 0 = some [⟨0, 0, 1⟩] := by decide +kernel
  have hr : ∀ s, s ∈ [Sys.closeFile, .createFile, .initWait, .openFile, .update, .finishWait] →
      runs emptyConfig ⟨0, 0⟩ exampleFrame.input s = true := by
    intro s hs
    simp only [List.mem_cons, List.not_mem_nil, or_false] at hs
    rcases hs with rfl | rfl | rfl | rfl | rfl | rfl <;>
      simp [runs, SnapshotTimer.Timer.runCriterion, exampleFrame]
  have e1 : w.stage emptyConfig exampleFrame [.closeFile, .createFile] 0
      = some ⟨put w.disk 0 (some ⟨[0], fun _ => none, fun _ => none⟩),
          put w.ranks 0 ⟨some [⟨0, 0, 1⟩], ⟨0, 0⟩⟩⟩ := by
    unfold World.stage runStage
    rw [h0]
    dsimp only
    rw [List.filter_cons_of_pos (hr _ (by simp)), List.filter_cons_of_pos (hr _ (by simp)), List.filter_nil]
    simp [runSys, emptyConfig, hreg]
  unfold outputFrame
  dsimp only
  rw [e1, Option.bind_some]
  have hl : List.range emptyConfig.counts.length = [0] := rfl
  rw [hl, List.foldlM_cons]
  have e2 : World.stage emptyConfig exampleFrame [.initWait, .openFile, .closeFile, .update, .finishWait]
      (⟨put w.disk 0 (some ⟨[0], fun _ => none, fun _ => none⟩),
        put w.ranks 0 ⟨some [⟨0, 0, 1⟩], ⟨0, 0⟩⟩⟩ : World ℚ ℕ ℕ) 0 = none := by
    unfold World.stage runStage
    dsimp only
    rw [put_self, List.filter_cons_of_pos (hr _ (by simp)), List.filter_cons_of_pos (hr _ (by simp))]
    simp [runSys]
  rw [e2]
  rfl

end Verif.OutputStages
