import Verif.IO.FileDistributionRoundTrip

/-!
# C01, C02, C03: rows are distributed over files and ranks without loss or duplication
-/

namespace Verif.FileDist

/-- **C01.** Reading files of the given sizes on `numRanks > 0` ranks never panics; there is one
assignment per rank; concatenating the rows of all ranks in rank order gives all rows of all files
in order (so every row is read exactly once, see `nodup_allRows`/`mem_allRows`); every region is a
non-empty range inside an existing file; every rank but the last gets `total / numRanks` rows and
the last one the remainder. -/
theorem input_partition (sizes : List Nat) (numRanks : Nat) (h : 0 < numRanks) :
    ∃ asg, getInputRankAssignment sizes numRanks = some asg ∧
      asg.length = numRanks ∧
      asg.flatten.flatMap Region.rows = allRows sizes ∧
      (∀ rs ∈ asg, ∀ r ∈ rs, RegionOk sizes r) ∧
      (∀ i rs, asg[i]? = some rs → (rs.flatMap Region.rows).length
        = if i + 1 < numRanks then sizes.sum / numRanks
          else sizes.sum - sizes.sum / numRanks * (numRanks - 1)) := by
  obtain ⟨asg, h1, h2, h3, h4⟩ := getRankAssignment_spec sizes
    (inputEntriesPerRank sizes numRanks) (sum_inputEntriesPerRank sizes numRanks)
  have hlen : asg.length = numRanks := by
    have := congrArg List.length h2
    simp [inputEntriesPerRank] at this
    omega
  refine ⟨asg, ?_, hlen, h3, h4, ?_⟩
  · unfold getInputRankAssignment; rw [if_neg (by omega)]; exact h1
  · intro i rs hi
    have hi' : i < asg.length := by
      rw [List.getElem?_eq_some_iff] at hi; exact hi.1
    have hmap : (asg.map (fun rs => (rs.flatMap Region.rows).length))[i]?
        = some (rs.flatMap Region.rows).length := by
      rw [List.getElem?_map, hi]; rfl
    rw [h2, inputEntriesPerRank] at hmap
    by_cases hlt : i + 1 < numRanks
    · rw [if_pos hlt]
      rw [List.getElem?_append_left (by simp; omega), List.getElem?_replicate,
        if_pos (by omega)] at hmap
      exact (Option.some.inj hmap).symm
    · rw [if_neg hlt]
      rw [List.getElem?_append_right (by simp; omega), List.length_replicate] at hmap
      have : i - (numRanks - 1) = 0 := by omega
      rw [this] at hmap
      exact (Option.some.inj hmap).symm

/-- A row index pair belongs to the specification list of all rows iff the file exists and has
that row. -/
theorem mem_allRows_iff (sizes : List Nat) (f i : Nat) :
    (f, i) ∈ allRows sizes ↔ ∃ s, sizes[f]? = some s ∧ i < s := mem_allRows sizes f i

/-- The list of all rows has no duplicates. -/
theorem allRows_nodup (sizes : List Nat) : (allRows sizes).Nodup := nodup_allRows sizes

/-- **C01** restated per rank: on `numRanks` ranks, row `(f, i)` is read by exactly one rank. -/
theorem input_row_read_exactly_once (sizes : List Nat) (numRanks : Nat) (h : 0 < numRanks)
    (f i s : Nat) (hf : sizes[f]? = some s) (hi : i < s) :
    ∃! rank, rank < numRanks ∧
      ∃ regions, getRankInputAssignmentForRank sizes numRanks rank = some regions ∧
        ∃ r ∈ regions, r.fileIndex = f ∧ r.start ≤ i ∧ i < r.stop := by
  obtain ⟨asg, h1, h2, h3, -, -⟩ := input_partition sizes numRanks h
  have hrow : ∀ r : Region, (f, i) ∈ r.rows ↔ r.fileIndex = f ∧ r.start ≤ i ∧ i < r.stop := by
    intro r
    simp only [Region.rows, List.mem_map, List.mem_range'_1, Prod.mk.injEq]
    constructor
    · rintro ⟨a, ⟨h1, h2⟩, rfl, rfl⟩; exact ⟨rfl, h1, by omega⟩
    · rintro ⟨rfl, h1, h2⟩; exact ⟨i, ⟨h1, by omega⟩, rfl, rfl⟩
  have hmem : (f, i) ∈ asg.flatten.flatMap Region.rows := by
    rw [h3, mem_allRows]; exact ⟨s, hf, hi⟩
  have hnd : (asg.flatten.flatMap Region.rows).Nodup := by rw [h3]; exact nodup_allRows sizes
  simp only [List.mem_flatMap, List.mem_flatten] at hmem
  obtain ⟨r, ⟨rs, hrs, hr⟩, hrow'⟩ := hmem
  obtain ⟨rank, hrank, hget⟩ := List.getElem_of_mem hrs
  have hfor : ∀ k, getRankInputAssignmentForRank sizes numRanks k = asg[k]? := by
    intro k; simp [getRankInputAssignmentForRank, h1]
  refine ⟨rank, ⟨by omega, rs, ?_, r, hr, (hrow r).mp hrow'⟩, ?_⟩
  · rw [hfor, List.getElem?_eq_getElem hrank, hget]
  · rintro rank' ⟨hlt, rs', hrs', r', hr', hr'row⟩
    rw [hfor] at hrs'
    by_contra hne
    have hflat : asg.flatten.flatMap Region.rows
        = (asg.map (fun rs => rs.flatMap Region.rows)).flatten := by
      rw [List.flatMap_def, List.map_flatten, List.flatten_flatten, List.map_map]
      congr 1
    rw [hflat, List.nodup_flatten] at hnd
    have hpw := hnd.2
    rw [List.pairwise_iff_getElem] at hpw
    obtain ⟨hl', hg'⟩ := List.getElem?_eq_some_iff.mp hrs'
    have hin : (f, i) ∈ rs.flatMap Region.rows := List.mem_flatMap.mpr ⟨r, hr, hrow'⟩
    have hin' : (f, i) ∈ rs'.flatMap Region.rows :=
      List.mem_flatMap.mpr ⟨r', hr', (hrow r').mpr hr'row⟩
    rcases Nat.lt_or_gt_of_ne hne with hlt' | hlt'
    · have := hpw rank' rank (by simpa using hl') (by simpa using hrank) hlt'
      simp only [List.getElem_map, hget, hg'] at this
      exact this hin' hin
    · have := hpw rank rank' (by simpa using hrank) (by simpa using hl') hlt'
      simp only [List.getElem_map, hget, hg'] at this
      exact this hin hin'

/-- non-vacuity of C01: three files, one of them empty, on two ranks -/
example : getInputRankAssignment [3, 0, 4] 2
    = some [[⟨0, 0, 3⟩], [⟨2, 0, 4⟩]] := by decide +kernel

/-- **C02.** For every list of particle counts per rank and every positive number of files the
output assignment exists; each rank gets exactly as many rows as it has particles; together the
ranks cover each row of the files exactly once, in order; the files' sizes add up to the total and
all but the last one have `total / numFiles` rows; and the datasets which the main rank creates are
exactly the non-empty files, each with its full size, so that every region of every rank lies in a
created dataset. -/
theorem output_tiles_created_datasets (entriesPerRank : List Nat) (numFiles : Nat)
    (h : 0 < numFiles) :
    ∃ asg sizes, getOutputRankAssignment entriesPerRank numFiles = some asg ∧
      sizes = outputEntriesPerFile entriesPerRank.sum numFiles ∧
      asg.map (fun rs => (rs.flatMap Region.rows).length) = entriesPerRank ∧
      asg.flatten.flatMap Region.rows = allRows sizes ∧
      sizes.length = numFiles ∧ sizes.sum = entriesPerRank.sum ∧
      (∀ f, f + 1 < numFiles → sizes[f]? = some (entriesPerRank.sum / numFiles)) ∧
      (∃ store : Store Nat, createStore entriesPerRank.sum numFiles = some store ∧
        (∀ f n, store.created.lookup f = some n ↔ sizes[f]? = some n ∧ 0 < n) ∧
        (∀ rs ∈ asg, ∀ r ∈ rs, r.start < r.stop ∧
          ∃ n, store.created.lookup r.fileIndex = some n ∧ r.stop ≤ n)) := by
  have hsum := sum_outputEntriesPerFile entriesPerRank.sum numFiles
  obtain ⟨asg, h1, h2, h3, h4⟩ := getRankAssignment_spec
    (outputEntriesPerFile entriesPerRank.sum numFiles) entriesPerRank hsum.symm
  refine ⟨asg, _, ?_, rfl, h2, h3, ?_, hsum, ?_, _, createStore_eq _ _ h, ?_, ?_⟩
  · unfold getOutputRankAssignment; rw [if_neg (by omega)]; exact h1
  · simp [outputEntriesPerFile]; omega
  · intro f hf
    unfold outputEntriesPerFile
    rw [List.getElem?_append_left (by simp; omega), List.getElem?_replicate, if_pos (by omega)]
  · intro f n
    simp only [lookup_createdFiles]
    rw [Option.bind_eq_some_iff]
    constructor
    · rintro ⟨s, hs, hn⟩
      split at hn
      · rename_i hpos
        have := Option.some.inj hn
        subst this
        exact ⟨hs, hpos⟩
      · simp at hn
    · rintro ⟨hs, hpos⟩
      exact ⟨n, hs, by rw [if_pos hpos]⟩
  · intro rs hrs r hr
    obtain ⟨hlt, s, hs, hle⟩ := h4 rs hrs r hr
    refine ⟨hlt, s, ?_, hle⟩
    simp only [lookup_createdFiles, hs, Option.bind_some]
    rw [if_pos (by omega)]

/-- non-vacuity of C02: three ranks, two files -/
example : getOutputRankAssignment [2, 0, 3] 2
    = some [[⟨0, 0, 2⟩], [], [⟨1, 0, 3⟩]] := by decide +kernel

theorem foldlM_write_spec {α : Type} (data : List (List α)) (numFiles : Nat)
    (asg : List (List Region)) (sizes : List Nat)
    (hasg : getOutputRankAssignment (data.map List.length) numFiles = some asg)
    (hcount : asg.map (fun rs => (rs.flatMap Region.rows).length) = data.map List.length)
    (hnd : (asg.flatten.flatMap Region.rows).Nodup)
    (hreg : ∀ rs ∈ asg, ∀ r ∈ rs, RegionOk sizes r) :
    ∀ (order : List Nat) (s : Store α), s.created = createdFiles sizes → order.Nodup →
      (∀ r ∈ order, r < data.length) →
      ∃ s', order.foldlM (fun s r =>
        match getRankOutputAssignmentForRank (data.map List.length) numFiles r, data[r]? with
        | some regions, some d => writeDataset s regions d
        | _, _ => none) s = some s' ∧ s'.created = s.created ∧
        (∀ r, r ∈ order → ∀ rs d, asg[r]? = some rs → data[r]? = some d →
          (rs.flatMap Region.rows).map (fun k => s'.val k.1 k.2) = d.map some) ∧
        (∀ f i, (∀ r ∈ order, ∀ rs, asg[r]? = some rs → (f, i) ∉ rs.flatMap Region.rows) →
          s'.val f i = s.val f i) := by
  have hlen : asg.length = data.length := by simpa using congrArg List.length hcount
  have hflat : asg.flatten.flatMap Region.rows
      = (asg.map (fun rs => rs.flatMap Region.rows)).flatten := by
    rw [List.flatMap_def, List.map_flatten, List.flatten_flatten, List.map_map]
    congr 1
  rw [hflat, List.nodup_flatten] at hnd
  obtain ⟨hnd1, hnd2⟩ := hnd
  rw [List.pairwise_iff_getElem] at hnd2
  have hdisj : ∀ (a b : Nat) (rsa rsb : List Region), asg[a]? = some rsa → asg[b]? = some rsb → a ≠ b →
      ∀ k, k ∈ rsa.flatMap Region.rows → k ∉ rsb.flatMap Region.rows := by
    intro a b rsa rsb ha hb hne k hka hkb
    obtain ⟨hla, hga⟩ := List.getElem?_eq_some_iff.mp ha
    obtain ⟨hlb, hgb⟩ := List.getElem?_eq_some_iff.mp hb
    rcases Nat.lt_or_gt_of_ne hne with hlt | hlt
    · have := hnd2 a b (by simpa using hla) (by simpa using hlb) hlt
      simp only [List.getElem_map, hga, hgb] at this
      exact this hka hkb
    · have := hnd2 b a (by simpa using hlb) (by simpa using hla) hlt
      simp only [List.getElem_map, hga, hgb] at this
      exact this hkb hka
  intro order
  induction order with
  | nil => intro s _ _ _; exact ⟨s, rfl, rfl, by simp, by simp⟩
  | cons r order ih =>
    intro s hc hno hlt
    have hr : r < data.length := hlt r (by simp)
    have ha : asg[r]? = some asg[r] := List.getElem?_eq_getElem (by omega)
    have hd : data[r]? = some data[r] := List.getElem?_eq_getElem hr
    have hfor : getRankOutputAssignmentForRank (data.map List.length) numFiles r = some asg[r] := by
      simp [getRankOutputAssignmentForRank, hasg, ha]
    have hcnt : (asg[r].flatMap Region.rows).length = data[r].length := by
      have := congrArg (fun l => l[r]?) hcount
      simp only [List.getElem?_map, ha, hd, Option.map_some] at this
      exact Option.some.inj this
    have hmem : asg[r] ∈ asg := List.getElem_mem _
    obtain ⟨s1, hw, hc1, hv1, hu1⟩ := writeDataset_ok asg[r] s data[r]
      (by
        intro x hx
        obtain ⟨h1, n, h2, h3⟩ := hreg _ hmem x hx
        refine ⟨by omega, n, ?_, h3⟩
        rw [hc, lookup_createdFiles, h2]
        simp only [Option.bind_some]
        rw [if_pos (by omega)])
      hcnt (hnd1 _ (List.mem_map.mpr ⟨_, hmem, rfl⟩))
    obtain ⟨s2, hf, hc2, hv2, hu2⟩ := ih s1 (by rw [hc1, hc]) (List.nodup_cons.mp hno).2
      (fun x hx => hlt x (by simp [hx]))
    refine ⟨s2, ?_, by rw [hc2, hc1], ?_, ?_⟩
    · rw [List.foldlM_cons]
      simp only [hfor, hd, hw]
      exact hf
    · intro x hx rs d hrs hdx
      rcases List.mem_cons.mp hx with rfl | hx
      · rw [ha] at hrs; rw [hd] at hdx
        have e1 := Option.some.inj hrs
        have e2 := Option.some.inj hdx
        subst e1; subst e2
        rw [← hv1]
        apply List.map_congr_left
        rintro ⟨f, i⟩ hk
        apply hu2
        intro y hy rsy hrsy
        exact hdisj x y _ _ ha hrsy (by
          rintro rfl; exact (List.nodup_cons.mp hno).1 hy) _ hk
      · exact hv2 x hx rs d hrs hdx
    · intro f i hk
      rw [hu2 f i (fun y hy => hk y (by simp [hy])), hu1 f i (hk r (by simp) _ ha)]

/-- **C03.** Writing the data of all ranks to any positive number of files, in any order of the
ranks, and reading the created files back on any positive number of ranks, chunked with any
positive chunk size or unchunked, succeeds and returns, concatenated over the readers, exactly the
concatenation over the writers. -/
theorem snapshot_round_trip {α : Type} (data : List (List α)) (numFiles : Nat) (hf : 0 < numFiles)
    (order : List Nat) (horder : order.Perm (List.range data.length))
    (readers : Nat) (hr : 0 < readers) (chunkSize : Nat) (hc : 0 < chunkSize) :
    ∃ store files parts, writeSnapshot data numFiles order = some store ∧
      store.files = some files ∧
      (List.range readers).mapM (fun r => readDatasetChunked files readers r chunkSize) = some parts ∧
      (List.range readers).mapM (fun r => readDataset files readers r) = some parts ∧
      parts.flatten = data.flatten := by
  set sizes := outputEntriesPerFile (data.map List.length).sum numFiles with hsizes
  have hsum := sum_outputEntriesPerFile (data.map List.length).sum numFiles
  obtain ⟨asg, h1, h2, h3, h4⟩ := getRankAssignment_spec sizes (data.map List.length)
    (by rw [hsizes, hsum])
  have hasg : getOutputRankAssignment (data.map List.length) numFiles = some asg := by
    unfold getOutputRankAssignment; rw [if_neg (by omega)]; exact h1
  have hlen : asg.length = data.length := by simpa using congrArg List.length h2
  obtain ⟨s, hs, hcr, hv, -⟩ := foldlM_write_spec data numFiles asg sizes hasg h2
    (by rw [h3]; exact nodup_allRows _) h4 order
    { created := createdFiles sizes, val := fun _ _ => none } rfl
    (horder.nodup_iff.mpr List.nodup_range)
    (fun r hr => by simpa using (horder.mem_iff.mp hr))
  have hws : writeSnapshot data numFiles order = some s := by
    unfold writeSnapshot
    rw [createStore_eq _ _ hf]
    exact hs
  -- all rows hold the concatenated data
  have hall : (allRows sizes).map (fun k => s.val k.1 k.2) = data.flatten.map some := by
    rw [← h3]
    have hgen : ∀ (as : List (List Region)) (ds : List (List α)), as.length = ds.length →
        (∀ (r : Nat) (rs : List Region) (d : List α), as[r]? = some rs → ds[r]? = some d →
          (rs.flatMap Region.rows).map (fun k => s.val k.1 k.2) = d.map some) →
        (as.flatten.flatMap Region.rows).map (fun k => s.val k.1 k.2) = ds.flatten.map some := by
      intro as
      induction as with
      | nil =>
        intro ds hl _
        have : ds = [] := List.length_eq_zero_iff.mp hl.symm
        subst this; rfl
      | cons a as ih =>
        intro ds hl hk
        cases ds with
        | nil => simp at hl
        | cons d ds =>
          have e1 := hk 0 a d rfl rfl
          have e2 := ih ds (by simpa using hl) (fun r rs d hr hd => hk (r + 1) rs d
            (by simpa using hr) (by simpa using hd))
          simp only [List.flatten_cons, List.flatMap_append, List.map_append, e1, e2]
    apply hgen asg data hlen
    intro r rs d hrs hd
    refine hv r ?_ rs d hrs hd
    rw [horder.mem_iff, List.mem_range]
    exact (List.getElem?_eq_some_iff.mp hd).1
  -- the files
  obtain ⟨files, hfiles, hflat⟩ := mapM_concat
    (fun f : Nat × Nat => (List.range f.2).mapM (fun i => s.val f.1 i))
    (fun f : Nat × Nat => (List.range f.2).map (fun i => (f.1, i)))
    (fun k : Nat × Nat => s.val k.1 k.2) (createdFiles sizes)
    (by
      rintro ⟨f, n⟩ hmem
      have hsub : ∀ i, i < n → (s.val f i).isSome := by
        intro i hi
        have hin : (f, i) ∈ allRows sizes := by
          rw [← rows_createdFiles, List.mem_flatMap]
          exact ⟨(f, n), hmem, by simpa using hi⟩
        have : s.val f i ∈ (allRows sizes).map (fun k => s.val k.1 k.2) :=
          List.mem_map.mpr ⟨(f, i), hin, rfl⟩
        rw [hall, List.mem_map] at this
        obtain ⟨a, _, ha⟩ := this
        simp [← ha]
      have hgen : ∀ l : List Nat, (∀ i ∈ l, i < n) →
          ∃ r, l.mapM (fun i => s.val f i) = some r ∧ r.map some = l.map (fun i => s.val f i) := by
        intro l
        induction l with
        | nil => intro _; exact ⟨[], by simp, rfl⟩
        | cons i l ih =>
          intro hl
          obtain ⟨r, e1, e2⟩ := ih (fun j hj => hl j (by simp [hj]))
          obtain ⟨v, hv⟩ := Option.isSome_iff_exists.mp (hsub i (hl i (by simp)))
          exact ⟨v :: r, by simp [e1, hv], by simp [e2, hv]⟩
      obtain ⟨r, e1, e2⟩ := hgen (List.range n) (fun i hi => List.mem_range.mp hi)
      exact ⟨r, e1, by rw [e2, List.map_map]; rfl⟩)
  have hfl : files.flatten = data.flatten := by
    apply map_some_injective
    rw [hflat, rows_createdFiles, hall]
  have hsf : s.files = some files := by
    unfold Store.files
    rw [hcr]
    exact hfiles
  -- reading
  obtain ⟨rasg, r1, r2, r3, r4, -⟩ := input_partition (files.map List.length) readers hr
  have hfor : ∀ k, getRankInputAssignmentForRank (files.map List.length) readers k = rasg[k]? := by
    intro k; simp [getRankInputAssignmentForRank, r1]
  have hread : ∀ cs : Region → Nat, (∀ rs ∈ rasg, ∀ r ∈ rs, 0 < cs r) →
      ∃ parts, (List.range readers).mapM (fun k =>
        match getRankInputAssignmentForRank (files.map List.length) readers k with
        | none => none
        | some regions =>
          (regions.mapM (fun r => readRegionChunked files r (cs r))).map List.flatten) = some parts ∧
        parts.map (List.map some) = rasg.map (fun rs => (rs.flatMap Region.rows).map (look files)) := by
    intro cs hcs
    have hgen : ∀ (as pre : List (List Region)), pre ++ as = rasg →
        ∃ parts, (List.range' pre.length as.length).mapM (fun k =>
          match getRankInputAssignmentForRank (files.map List.length) readers k with
          | none => none
          | some regions =>
            (regions.mapM (fun r => readRegionChunked files r (cs r))).map List.flatten) = some parts ∧
          parts.map (List.map some)
            = as.map (fun rs => (rs.flatMap Region.rows).map (look files)) := by
      intro as
      induction as with
      | nil => intro pre _; exact ⟨[], by simp, rfl⟩
      | cons a as ih =>
        intro pre hpre
        obtain ⟨parts, e1, e2⟩ := ih (pre ++ [a]) (by simpa using hpre)
        have hget : rasg[pre.length]? = some a := by rw [← hpre]; simp
        have hamem : a ∈ rasg := by rw [← hpre]; simp
        obtain ⟨l, l1, l2⟩ := mapM_concat (fun r => readRegionChunked files r (cs r)) Region.rows
          (look files) a (fun r hr => readRegionChunked_ok files r (cs r) (hcs a hamem r hr)
            (r4 a hamem r hr))
        refine ⟨l.flatten :: parts, ?_, ?_⟩
        · rw [List.length_cons, List.range'_succ, List.mapM_cons]
          simp only [hfor, hget, l1, Option.map_some]
          simp only [List.length_append, List.length_cons, List.length_nil, Nat.zero_add, hfor] at e1
          rw [e1]
          rfl
        · simp only [List.map_cons, l2, e2]
    obtain ⟨parts, e1, e2⟩ := hgen rasg [] rfl
    refine ⟨parts, ?_, e2⟩
    simpa [r2, List.range_eq_range'] using e1
  obtain ⟨parts, p1, p2⟩ := hread (fun _ => chunkSize) (fun _ _ _ _ => hc)
  obtain ⟨parts', p1', p2'⟩ := hread (fun r => r.size) (by
    intro rs hrs r hr
    have := (r4 rs hrs r hr).1
    unfold Region.size; omega)
  have hpp : parts' = parts := by
    have hinj : Function.Injective (List.map (List.map (some : α → Option α))) :=
      List.map_injective_iff.mpr (List.map_injective_iff.mpr (fun _ _ h => Option.some.inj h))
    exact hinj (by rw [p2, p2'])
  subst hpp
  refine ⟨s, files, parts', hws, hsf, p1, p1', ?_⟩
  rw [← hfl]
  apply map_some_injective
  rw [← allRows_look files, ← r3, List.map_flatten, p2]
  rw [List.flatMap_def, List.map_flatten, List.map_flatten, List.map_flatten,
    List.flatten_flatten, List.map_map, List.map_map]
  congr 1
  apply List.map_congr_left
  intro rs _
  rw [List.flatMap_def]
  simp [List.map_flatten]

/-- non-vacuity of C03: three writing ranks (one without particles), two files, written in the
order 2, 0, 1, and read by two ranks with chunk size two -/
example : ((writeSnapshot [[10, 11], [], [12, 13, 14]] 2 [2, 0, 1]).bind Store.files).bind
    (fun files => (List.range 2).mapM (fun r => readDatasetChunked files 2 r 2))
      = some [[10, 11], [12, 13, 14]] := by decide +kernel

end Verif.FileDist
