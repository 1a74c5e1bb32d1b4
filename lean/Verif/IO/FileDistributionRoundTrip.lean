import Verif.IO.FileDistributionLemmas

/-! # Helper lemmas: dataset creation, writing and reading of slices -/

namespace Verif.FileDist

theorem le_sum_of_mem' {a : Nat} {l : List Nat} (h : a ∈ l) : a ≤ l.sum := by
  induction l with
  | nil => simp at h
  | cons b l ih =>
    rw [List.sum_cons]
    rcases List.mem_cons.mp h with rfl | h
    · omega
    · have := ih h; omega

/-! ## Created files -/

theorem regionsLoop_full (sizes : List Nat) :
    ∀ (k fi : Nat) (acc : List Region), sizes.length - fi = k → fi < sizes.length →
      ∃ rs e, regionsLoop sizes fi 0 ((sizes.drop fi).sum) acc = some (acc ++ rs, e) ∧
        rs.filter (fun r => decide (r.size > 0))
          = (((sizes.drop fi).zipIdx fi).filter (fun f => decide (f.1 > 0))).map
              (fun f => (⟨f.2, 0, f.1⟩ : Region)) := by
  intro k
  induction k with
  | zero => intro fi acc h1 h2; omega
  | succ k ih =>
    intro fi acc hk hfi
    have hdrop := List.drop_eq_getElem_cons hfi
    rw [hdrop, List.sum_cons, List.zipIdx_cons]
    rw [regionsLoop, dif_pos hfi]
    by_cases hlt : sizes[fi] < sizes[fi] + (sizes.drop (fi + 1)).sum
    · rw [if_pos hlt]
      have hfi' : fi + 1 < sizes.length := by
        by_contra hcon
        rw [List.drop_eq_nil_of_le (by omega)] at hlt
        simp at hlt
      have hsub : sizes[fi] + (sizes.drop (fi + 1)).sum - sizes[fi] = (sizes.drop (fi + 1)).sum := by
        omega
      rw [hsub]
      obtain ⟨rs, e, h1, h2⟩ := ih (fi + 1) (acc ++ [⟨fi, 0, sizes[fi]⟩]) (by omega) hfi'
      refine ⟨⟨fi, 0, sizes[fi]⟩ :: rs, e, ?_, ?_⟩
      · rw [h1]; simp
      · rw [List.filter_cons, List.filter_cons, h2]
        by_cases hp : sizes[fi] > 0
        · simp [Region.size, hp]
        · simp [Region.size, hp]
    · rw [if_neg hlt]
      have hz : (sizes.drop (fi + 1)).sum = 0 := by omega
      have hnil : ((sizes.drop (fi + 1)).zipIdx (fi + 1)).filter (fun f => decide (f.1 > 0)) = [] := by
        rw [List.filter_eq_nil_iff]
        rintro ⟨s, i⟩ hmem
        have hs : s ∈ sizes.drop (fi + 1) := by
          exact List.fst_mem_of_mem_zipIdx hmem
        have := le_sum_of_mem' hs
        simp only [decide_eq_true_eq]
        omega
      refine ⟨[⟨fi, 0, sizes[fi] + (sizes.drop (fi + 1)).sum⟩], _, rfl, ?_⟩
      rw [List.filter_cons (xs := (sizes.drop (fi + 1)).zipIdx (fi + 1)), hnil, hz]
      by_cases hp : sizes[fi] > 0
      · simp [Region.size, hp]
      · simp [Region.size, hp]

theorem getRankAssignment_single (sizes : List Nat) (hne : sizes ≠ []) :
    getRankAssignment sizes [sizes.sum]
      = some [((sizes.zipIdx).filter (fun f => decide (f.1 > 0))).map
              (fun f => (⟨f.2, 0, f.1⟩ : Region))] := by
  unfold getRankAssignment
  simp only [rankAssignmentLoop]
  unfold getRegionsFrom
  have hpos : 0 < sizes.length := List.length_pos_iff.mpr hne
  by_cases h0 : sizes.sum = 0
  · rw [if_pos h0]
    have hnil : (sizes.zipIdx).filter (fun f => decide (f.1 > 0)) = [] := by
      rw [List.filter_eq_nil_iff]
      rintro ⟨s, i⟩ hmem
      have := le_sum_of_mem' (List.fst_mem_of_mem_zipIdx hmem)
      simp only [decide_eq_true_eq]
      omega
    simp [hnil]
  · rw [if_neg h0]
    have hget : sizes[0]? = some sizes[0] := List.getElem?_eq_getElem hpos
    simp only [hget]
    by_cases hz : 0 = sizes[0]
    · rw [if_pos hz]
      cases sizes with
      | nil => simp at hpos
      | cons s ss =>
        simp only [List.getElem_cons_zero] at hz
        subst hz
        have hss : 0 < ss.length := by
          by_contra hcon
          have : ss = [] := List.length_eq_zero_iff.mp (by omega)
          subst this
          simp at h0
        obtain ⟨rs, e, h1, h2⟩ := regionsLoop_full (0 :: ss) _ 1 [] rfl (by simp; omega)
        simp only [List.drop_succ_cons, List.drop_zero] at h1 h2
        simp only [List.sum_cons, Nat.zero_add, h1, List.nil_append, h2]
        simp [List.zipIdx_cons]
    · rw [if_neg hz]
      obtain ⟨rs, e, h1, h2⟩ := regionsLoop_full sizes _ 0 [] rfl hpos
      simp only [List.drop_zero] at h1 h2
      simp only [Nat.zero_add, h1, List.nil_append, h2]

/-- the files created for the given sizes: those with at least one row -/
def createdFiles (sizes : List Nat) : List (Nat × Nat) :=
  (sizes.zipIdx.filter (fun f => decide (f.1 > 0))).map (fun f => (f.2, f.1))

theorem outputEntriesPerFile_ne_nil (t n : Nat) : outputEntriesPerFile t n ≠ [] := by
  simp [outputEntriesPerFile]

theorem getElem?_outputEntriesPerFile (t n i : Nat) (hn : 0 < n) :
    (outputEntriesPerFile t n)[i]? = if i < n then some (rowsInFile t n i) else none := by
  have hs : (List.replicate (n - 1) (t / n)).sum = t / n * (n - 1) := by simp [Nat.mul_comm]
  unfold outputEntriesPerFile rowsInFile
  dsimp only
  rw [List.getElem?_append, List.length_replicate, hs]
  by_cases h : i < n - 1
  · rw [if_pos h, if_pos (by omega), if_pos (by omega)]
    simp [h]
  · rw [if_neg h]
    by_cases h' : i < n
    · rw [if_pos h', if_neg (by omega), show i - (n - 1) = 0 by omega]
      rfl
    · rw [if_neg h']
      simp
      omega

theorem createdFiles_eq (t n : Nat) (hn : 0 < n) : createdFiles (outputEntriesPerFile t n) =
    ((List.range n).filter (fun i => 0 < rowsInFile t n i)).map (fun i => (i, rowsInFile t n i)) := by
  have hl : outputEntriesPerFile t n = (List.range n).map (rowsInFile t n) := by
    apply List.ext_getElem?
    intro i
    rw [getElem?_outputEntriesPerFile t n i hn, List.getElem?_map]
    by_cases h : i < n
    · rw [if_pos h, List.getElem?_range h]
      rfl
    · rw [if_neg h, List.getElem?_eq_none (by simp; omega)]
      rfl
  unfold createdFiles
  have hz : (outputEntriesPerFile t n).zipIdx = (List.range n).map (fun i => (rowsInFile t n i, i)) := by
    rw [hl]
    apply List.ext_getElem?
    intro i
    rw [List.getElem?_zipIdx, List.getElem?_map, List.getElem?_map]
    by_cases h : i < n
    · rw [List.getElem?_range h]
      simp
    · rw [List.getElem?_eq_none (by simp; omega)]
      rfl
  rw [hz, List.filter_map, List.map_map]
  rfl

theorem createStore_eq {α : Type} (total numFiles : Nat) (h : 0 < numFiles) :
    createStore (α := α) total numFiles
      = some { created := createdFiles (outputEntriesPerFile total numFiles)
               val := fun _ _ => none } := by
  unfold createStore getRankOutputAssignmentForRank getOutputRankAssignment
  rw [if_neg (by omega)]
  have hsum := sum_outputEntriesPerFile total numFiles
  have key := getRankAssignment_single (outputEntriesPerFile total numFiles)
    (outputEntriesPerFile_ne_nil _ _)
  rw [hsum] at key
  have hs : ([total] : List Nat).sum = total := by simp
  rw [hs, key]
  simp [createdFiles, Function.comp_def]

theorem lookup_createdFiles_aux (sizes : List Nat) (k f : Nat) :
    (((sizes.zipIdx k).filter (fun f => decide (f.1 > 0))).map (fun f => (f.2, f.1))).lookup f
      = if k ≤ f then (sizes[f - k]?).bind (fun s => if s > 0 then some s else none) else none := by
  induction sizes generalizing k with
  | nil => simp
  | cons s ss ih =>
    have ih' := ih (k + 1)
    by_cases hfk : f = k
    · subst hfk
      have hne : ¬ (f + 1 ≤ f) := by omega
      rw [if_neg hne] at ih'
      by_cases hs : s > 0
      · simp [List.zipIdx_cons, hs]
      · simp only [List.zipIdx_cons, List.filter_cons, hs, decide_false, Bool.false_eq_true,
          if_false, ih']
        simp [hs]
    · have hbeq : (f == k) = false := by simpa using hfk
      have hsub : k ≤ f → f - k = (f - (k + 1)) + 1 := by omega
      have hrhs : (if k ≤ f then (((s :: ss)[f - k]?).bind (fun s => if s > 0 then some s else none))
          else none)
          = (if k + 1 ≤ f then ((ss[f - (k + 1)]?).bind (fun s => if s > 0 then some s else none))
          else none) := by
        by_cases hle : k ≤ f
        · rw [if_pos hle, if_pos (by omega), hsub hle]; simp
        · rw [if_neg hle, if_neg (by omega)]
      rw [hrhs, ← ih']
      by_cases hs : s > 0
      · simp [List.zipIdx_cons, hs, List.lookup_cons, hbeq]
      · simp [List.zipIdx_cons, hs]

theorem lookup_createdFiles (sizes : List Nat) (f : Nat) :
    (createdFiles sizes).lookup f = (sizes[f]?).bind (fun s => if s > 0 then some s else none) := by
  have := lookup_createdFiles_aux sizes 0 f
  simpa [createdFiles] using this

theorem rows_createdFiles_aux (sizes : List Nat) (k : Nat) :
    ((((sizes.zipIdx k).filter (fun f => decide (f.1 > 0))).map (fun f => (f.2, f.1))).flatMap
      (fun f => (List.range f.2).map (fun i => (f.1, i)))) = rowsFrom k sizes := by
  induction sizes generalizing k with
  | nil => rfl
  | cons s ss ih =>
    by_cases hs : s > 0
    · simp [List.zipIdx_cons, hs, rowsFrom, ← ih]
    · have : s = 0 := by omega
      subst this
      simp [List.zipIdx_cons, rowsFrom, ← ih]

theorem rows_createdFiles (sizes : List Nat) :
    (createdFiles sizes).flatMap (fun f => (List.range f.2).map (fun i => (f.1, i)))
      = allRows sizes := by
  rw [allRows_eq]; exact rows_createdFiles_aux sizes 0

/-! ## Writing -/

theorem writeSlice_ok {α : Type} (s : Store α) (r : Region) (d : List α) (size : Nat)
    (hl : s.created.lookup r.fileIndex = some size) (h1 : r.start ≤ r.stop) (h2 : r.stop ≤ size)
    (h3 : d.length = r.stop - r.start) :
    ∃ s', s.writeSlice r d = some s' ∧ s'.created = s.created ∧
      (r.rows.map (fun k => s'.val k.1 k.2) = d.map some) ∧
      (∀ f i, (f, i) ∉ r.rows → s'.val f i = s.val f i) := by
  refine ⟨{ s with val := fun f i =>
        if f = r.fileIndex ∧ r.start ≤ i ∧ i < r.stop then d[i - r.start]? else s.val f i },
    by simp only [Store.writeSlice, hl]; rw [if_pos ⟨h1, h2, h3⟩], rfl, ?_, ?_⟩
  · apply List.ext_getElem
    · simp [Region.rows, h3]
    · intro j hj1 hj2
      simp only [Region.rows, List.length_map, List.length_range'] at hj1
      simp only [Region.rows, List.getElem_map, List.getElem_range', Nat.one_mul]
      rw [if_pos ⟨trivial, by omega, by omega⟩]
      have : r.start + j - r.start = j := by omega
      rw [this, List.getElem?_eq_getElem]
  · intro f i hmem
    simp only
    rw [if_neg]
    rintro ⟨rfl, ha, hb⟩
    apply hmem
    simp only [Region.rows, List.mem_map, List.mem_range'_1]
    exact ⟨i, ⟨ha, by omega⟩, rfl⟩

theorem writeDataset_ok {α : Type} (rs : List Region) :
    ∀ (s : Store α) (d : List α),
      (∀ r ∈ rs, r.start ≤ r.stop ∧ ∃ size, s.created.lookup r.fileIndex = some size ∧
        r.stop ≤ size) →
      (rs.flatMap Region.rows).length = d.length → (rs.flatMap Region.rows).Nodup →
      ∃ s', writeDataset s rs d = some s' ∧ s'.created = s.created ∧
        ((rs.flatMap Region.rows).map (fun k => s'.val k.1 k.2) = d.map some) ∧
        (∀ f i, (f, i) ∉ rs.flatMap Region.rows → s'.val f i = s.val f i) := by
  induction rs with
  | nil =>
    intro s d _ hlen _
    have : d = [] := List.length_eq_zero_iff.mp (by simpa using hlen.symm)
    subst this
    exact ⟨s, by simp [writeDataset], rfl, by simp, by simp⟩
  | cons r rs ih =>
    intro s d hok hlen hnd
    obtain ⟨h1, size, h2, h3⟩ := hok r (by simp)
    have hrl : r.rows.length = r.stop - r.start := by simp [Region.rows]
    simp only [List.flatMap_cons, List.length_append, hrl] at hlen
    obtain ⟨s1, hs1, hc1, hv1, hu1⟩ := writeSlice_ok s r (d.take r.size) size h2 h1 h3
      (by simp [Region.size]; omega)
    rw [List.flatMap_cons, List.nodup_append] at hnd
    obtain ⟨s2, hs2, hc2, hv2, hu2⟩ := ih s1 (d.drop r.size)
      (by intro r' hr'; rw [hc1]; exact hok r' (by simp [hr']))
      (by rw [List.length_drop]; unfold Region.size; omega) hnd.2.1
    refine ⟨s2, ?_, by rw [hc2, hc1], ?_, ?_⟩
    · simp only [writeDataset]
      rw [if_neg (by simp [Region.size]; omega), hs1]
      exact hs2
    · rw [List.flatMap_cons, List.map_append, hv2]
      have : r.rows.map (fun k => s2.val k.1 k.2) = r.rows.map (fun k => s1.val k.1 k.2) := by
        apply List.map_congr_left
        rintro ⟨f, i⟩ hk
        apply hu2
        intro hmem
        exact hnd.2.2 _ hk _ hmem rfl
      rw [this, hv1, ← List.map_append, List.take_append_drop]
    · intro f i hmem
      rw [List.flatMap_cons, List.mem_append, not_or] at hmem
      rw [hu2 f i hmem.2, hu1 f i hmem.1]

/-! ## Reading -/

/-- the row value at (file, row) -/
def look {α : Type} (files : List (List α)) (k : Nat × Nat) : Option α :=
  (files[k.1]?).bind (fun rows => rows[k.2]?)

theorem chunks_rows (start size c : Nat) (n : Nat) :
    ((List.range n).map (fun i => List.range' (start + i * c)
        (min (start + (i + 1) * c) (start + size) - (start + i * c)))).flatten
      = List.range' start (min (n * c) size) := by
  induction n with
  | zero => simp
  | succ n ih =>
    rw [List.range_succ, List.map_append, List.flatten_append, ih]
    simp only [List.map_cons, List.map_nil, List.flatten_cons, List.flatten_nil, List.append_nil]
    have hmul : (n + 1) * c = n * c + c := Nat.succ_mul n c
    rw [hmul]
    by_cases h : n * c ≤ size
    · rw [Nat.min_eq_left h, range'_split start (n * c) (min (n * c + c) size) (by omega)]
      congr 2
      omega
    · have h1 : min (n * c) size = size := by omega
      have h2 : min (n * c + c) size = size := by omega
      have h3 : min (start + (n * c + c)) (start + size) - (start + n * c) = 0 := by omega
      rw [h1, h2, h3]; simp

theorem readSlice_ok {α : Type} (rows : List α) (a b : Nat) (h : a ≤ b) (hb : b ≤ rows.length) :
    ∃ l, readSlice rows a b = some l ∧ l.map some = (List.range' a (b - a)).map (fun i => rows[i]?) := by
  refine ⟨(rows.drop a).take (b - a), by simp [readSlice, h, hb], ?_⟩
  apply List.ext_getElem
  · simp; omega
  · intro i h1 h2
    simp at h1 h2
    simp

theorem mapM_concat {α β γ : Type} (f : β → Option (List α)) (g : β → List γ) (v : γ → Option α) :
    ∀ (l : List β), (∀ b ∈ l, ∃ r, f b = some r ∧ r.map some = (g b).map v) →
      ∃ r, l.mapM f = some r ∧ r.flatten.map some = (l.flatMap g).map v := by
  intro l
  induction l with
  | nil => intro _; exact ⟨[], by simp, by simp⟩
  | cons b bs ih =>
    intro h
    obtain ⟨r1, h1, h2⟩ := h b (by simp)
    obtain ⟨r2, h3, h4⟩ := ih (fun b' hb' => h b' (by simp [hb']))
    refine ⟨r1 :: r2, by simp [h1, h3], ?_⟩
    simp only [List.flatten_cons, List.map_append, List.flatMap_cons, h2, h4]

theorem readRegionChunked_ok {α : Type} (files : List (List α)) (r : Region) (c : Nat)
    (hc : 0 < c) (hr : RegionOk (files.map List.length) r) :
    ∃ l, readRegionChunked files r c = some l ∧ l.map some = r.rows.map (look files) := by
  obtain ⟨hlt, s, hs, hle⟩ := hr
  rw [List.getElem?_map] at hs
  obtain ⟨rows, hrows, hlen⟩ := Option.map_eq_some_iff.mp hs
  subst hlen
  unfold readRegionChunked
  rw [hrows]
  unfold getChunkSizes
  rw [if_neg (by omega)]
  simp only
  set n := r.size / c + (if r.size % c > 0 then 1 else 0) with hn
  have hnc : r.size ≤ n * c := by
    have hdm : c * (r.size / c) + r.size % c = r.size := Nat.div_add_mod r.size c
    have hmod := Nat.mod_lt r.size hc
    rw [hn]
    split
    · have : (r.size / c + 1) * c = c * (r.size / c) + c := by
        rw [Nat.succ_mul, Nat.mul_comm]
      omega
    · have : (r.size / c + 0) * c = c * (r.size / c) := by
        rw [Nat.add_zero, Nat.mul_comm]
      omega
  have hstop : r.start + r.size = r.stop := by unfold Region.size; omega
  have hnc' : ∀ i, i < n → i * c < r.size := by
    intro i hi
    have hdm : c * (r.size / c) + r.size % c = r.size := Nat.div_add_mod r.size c
    rw [hn] at hi
    split at hi
    · have : i * c ≤ (r.size / c) * c := Nat.mul_le_mul_right _ (by omega)
      rw [Nat.mul_comm (r.size / c)] at this
      omega
    · have : (i + 1) * c ≤ (r.size / c) * c := Nat.mul_le_mul_right _ (by omega)
      rw [Nat.mul_comm (r.size / c), Nat.succ_mul] at this
      omega
  obtain ⟨l, hl1, hl2⟩ := mapM_concat (fun c : Nat × Nat => readSlice rows c.1 c.2)
    (fun c : Nat × Nat => List.range' c.1 (c.2 - c.1)) (fun i => rows[i]?)
    ((List.range n).map (fun i => (r.start + i * c, min (r.start + (i + 1) * c) r.stop)))
    (by
      intro b hb
      simp only [List.mem_map, List.mem_range] at hb
      obtain ⟨i, hi, rfl⟩ := hb
      have h1 := hnc' i hi
      have h2 : (i + 1) * c = i * c + c := Nat.succ_mul i c
      exact readSlice_ok rows _ _ (by simp only; omega) (by simp only; omega))
  refine ⟨l.flatten, by rw [hl1]; rfl, ?_⟩
  rw [hl2]
  have hrng := chunks_rows r.start r.size c n
  rw [hstop, Nat.min_eq_right hnc] at hrng
  rw [List.flatMap_map, List.flatMap_def, hrng]
  simp only [Region.rows, List.map_map]
  apply List.map_congr_left
  intro i _
  simp [look, hrows]

theorem allRows_look_aux {α : Type} (files pre : List (List α)) :
    (rowsFrom pre.length (files.map List.length)).map (look (pre ++ files))
      = files.flatten.map some := by
  induction files generalizing pre with
  | nil => rfl
  | cons a as ih =>
    have := ih (pre ++ [a])
    simp only [List.length_append, List.length_cons, List.length_nil, Nat.zero_add,
      List.append_assoc, List.cons_append, List.nil_append] at this
    simp only [List.map_cons, rowsFrom, List.map_append, this, List.flatten_cons, List.map_map]
    congr 1
    apply List.ext_getElem
    · simp
    · intro i h1 h2
      simp at h1
      simp [look, h1]

theorem allRows_look {α : Type} (files : List (List α)) :
    (allRows (files.map List.length)).map (look files) = files.flatten.map some := by
  rw [allRows_eq]
  exact allRows_look_aux files []

theorem map_some_injective {α : Type} {a b : List α} (h : a.map some = b.map some) : a = b :=
  (List.map_injective_iff.mpr (fun _ _ h => Option.some.inj h)) h

end Verif.FileDist
