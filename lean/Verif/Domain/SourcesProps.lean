import Verif.Domain.SourcesModel
import Verif.Domain.DecompositionProps
import Mathlib.Algebra.BigOperators.Group.List.Lemmas
import Mathlib.Algebra.Order.Group.Unbundled.Int

/-!
# C19: sources are deposited once
-/

namespace Verif.Sources

variable {P R D : Type} [AddCommMonoid R] [LE D]

theorem sum_set_add (l : List R) (i : Nat) (t r : R) (h : l[i]? = some t) :
    (l.set i (t + r)).sum = l.sum + r := by
  induction l generalizing i with
  | nil => simp at h
  | cons x xs ih =>
    cases i with
    | zero =>
      simp only [List.getElem?_cons_zero, Option.some.injEq] at h
      subst h
      rw [List.set_cons_zero, List.sum_cons, List.sum_cons, add_right_comm]
    | succ i =>
      rw [List.getElem?_cons_succ] at h
      rw [List.set_cons_succ, List.sum_cons, ih i h, List.sum_cons, add_assoc]

/-- Specification: the rate that arrives in cell `i` of rank `rank`. -/
def arriving (nearest : List P → P → Option Nat) (owner : P → Nat) (sources : List (Source P R))
    (rank : Nat) (positions : List P) (i : Nat) : R :=
  ((sources.filter (fun s => owner s.pos = rank ∧ nearest positions s.pos = some i)).map
    Source.rate).sum

theorem depositRank_spec {dist : P → P → D} {nearest : List P → P → Option Nat}
    (hn : NearestContract dist nearest) (owner : P → Nat) (rank : Nat) (positions : List P)
    (hne : positions ≠ []) (sources : List (Source P R)) (terms : List R)
    (hlen : terms.length = positions.length) :
    ∃ terms', sources.foldlM (depositStep nearest owner rank positions) terms = some terms' ∧
      terms'.length = terms.length ∧
      (∀ i t, terms[i]? = some t →
        terms'[i]? = some (t + arriving nearest owner sources rank positions i)) ∧
      terms'.sum = terms.sum
        + ((sources.filter (fun s => owner s.pos = rank)).map Source.rate).sum := by
  induction sources generalizing terms with
  | nil => exact ⟨terms, rfl, rfl, by simp [arriving], by simp⟩
  | cons s rest ih =>
    rw [List.foldlM_cons]
    unfold depositStep
    by_cases ho : owner s.pos = rank
    · rw [if_pos ho]
      obtain ⟨j, x, hj, hx, _⟩ := hn.total positions s.pos hne
      have hjl : j < terms.length := by
        rw [hlen]; exact (List.getElem?_eq_some_iff.mp hx).1
      have hjt : terms[j]? = some terms[j] := List.getElem?_eq_getElem hjl
      rw [hj]
      simp only
      rw [hjt]
      obtain ⟨t', h1, h2, h3, h4⟩ := ih (terms.set j (terms[j] + s.rate)) (by simpa using hlen)
      refine ⟨t', h1, by simpa using h2, ?_, ?_⟩
      · intro i t ht
        by_cases hij : j = i
        · subst hij
          rw [hjt] at ht
          simp only [Option.some.injEq] at ht
          subst ht
          rw [h3 j (terms[j] + s.rate) (by rw [List.getElem?_set_self hjl])]
          congr 1
          unfold arriving
          rw [List.filter_cons_of_pos (by simp [ho, hj])]
          rw [List.map_cons, List.sum_cons, add_assoc]
        · rw [h3 i t (by rw [List.getElem?_set_ne hij]; exact ht)]
          congr 1
          unfold arriving
          rw [List.filter_cons_of_neg]
          simp only [hj, decide_eq_true_eq]
          rintro ⟨_, h⟩
          exact hij (by simpa using h)
      · rw [h4, sum_set_add terms j _ _ hjt, List.filter_cons_of_pos (by simpa using ho),
          List.map_cons, List.sum_cons, add_assoc]
    · rw [if_neg ho]
      obtain ⟨t', h1, h2, h3, h4⟩ := ih terms hlen
      refine ⟨t', h1, h2, ?_, ?_⟩
      · intro i t ht
        rw [h3 i t ht]
        congr 1
        unfold arriving
        rw [List.filter_cons_of_neg]
        simp [ho]
      · rw [h4, List.filter_cons_of_neg (by simpa using ho)]

theorem sum_by_owner (owner : P → Nat) (n : Nat) (sources : List (Source P R)) :
    ((List.range n).map (fun r =>
      ((sources.filter (fun s => owner s.pos = r)).map Source.rate).sum)).sum
      = ((sources.filter (fun s => owner s.pos < n)).map Source.rate).sum := by
  induction sources with
  | nil => simp
  | cons s rest ih =>
    have hstep : ∀ r, ((List.filter (fun s => decide (owner s.pos = r)) (s :: rest)).map
        Source.rate).sum = (if owner s.pos = r then s.rate else 0)
          + ((rest.filter (fun s => owner s.pos = r)).map Source.rate).sum := by
      intro r
      by_cases h : owner s.pos = r
      · rw [List.filter_cons_of_pos (by simpa using h)]; simp [h]
      · rw [List.filter_cons_of_neg (by simpa using h)]; simp [h]
    have hsum : ∀ (l : List Nat) (f g : Nat → R),
        (l.map (fun r => f r + g r)).sum = (l.map f).sum + (l.map g).sum := by
      intro l f g
      induction l with
      | nil => simp
      | cons x xs ih =>
        rw [List.map_cons, List.sum_cons, ih, List.map_cons, List.sum_cons, List.map_cons,
          List.sum_cons, add_add_add_comm]
    have hone : ((List.range n).map (fun r => if owner s.pos = r then s.rate else 0)).sum
        = if owner s.pos < n then s.rate else 0 := by
      clear hstep ih
      induction n with
      | zero => simp
      | succ n ih =>
        rw [List.range_succ, List.map_append, List.sum_append, ih]
        by_cases h1 : owner s.pos < n
        · simp [h1, Nat.ne_of_lt h1, Nat.lt_succ_of_lt h1]
        · by_cases h2 : owner s.pos = n
          · simp [h2]
          · simp [h1, h2, show ¬ owner s.pos < n + 1 by omega]
    rw [List.map_congr_left (fun r _ => hstep r), hsum, hone, ih]
    by_cases h : owner s.pos < n
    · rw [List.filter_cons_of_pos (by simpa using h)]; simp [h]
    · rw [List.filter_cons_of_neg (by simpa using h)]; simp [h]

/-- **C19.** Suppose every rank has at least one cell and every source is owned by an existing rank.
Then no rank panics; the rate added to cell `i` of rank `r` is the sum of the rates of exactly
those sources owned by `r` whose nearest cell on `r` is `i`; and the total rate added to all cells
of all ranks is the total luminosity announced. -/
theorem sources_deposited_once {dist : P → P → D} {nearest : List P → P → Option Nat}
    (hn : NearestContract dist nearest) (owner : P → Nat) (sources : List (List (Source P R)))
    (world : List (List P × List R)) (hne : ∀ w ∈ world, w.1 ≠ [])
    (hlen : ∀ w ∈ world, w.2.length = w.1.length)
    (hown : ∀ s ∈ sources.flatten, owner s.pos < world.length) :
    ∃ result, deposit nearest owner sources world = some result ∧ result.length = world.length ∧
      (∀ (r i : Nat) (w : List P × List R) (t : R), world[r]? = some w → w.2[i]? = some t →
        ∃ terms, result[r]? = some terms ∧ terms[i]? = some (t +
          ((sources.flatten.filter (fun s => owner s.pos = r ∧ nearest w.1 s.pos = some i)).map
            Source.rate).sum)) ∧
      (result.map List.sum).sum
        = (world.map (fun w => w.2.sum)).sum + totalLuminosity sources := by
  have hex : ∀ r, ∃ terms', ∀ w, world[r]? = some w →
      depositRank nearest owner sources.flatten r w = some terms' ∧
      (∀ (i : Nat) t, w.2[i]? = some t →
        terms'[i]? = some (t + arriving nearest owner sources.flatten r w.1 i)) ∧
      terms'.sum = w.2.sum
        + ((sources.flatten.filter (fun s => owner s.pos = r)).map Source.rate).sum := by
    intro r
    cases hw : world[r]? with
    | none => exact ⟨[], by simp⟩
    | some w =>
      have hm := List.mem_of_getElem? hw
      obtain ⟨t', h1, _, h3, h4⟩ := depositRank_spec hn owner r w.1 (hne w hm) sources.flatten w.2
        (hlen w hm)
      refine ⟨t', ?_⟩
      intro w' hw'
      simp only [Option.some.injEq] at hw'
      subst hw'
      exact ⟨h1, h3, h4⟩
  choose res hres using hex
  have hmap : ∀ (l : List ((List P × List R) × Nat)), (∀ x ∈ l, world[x.2]? = some x.1) →
      l.mapM (fun w => depositRank nearest owner sources.flatten w.2 w.1)
        = some (l.map (fun w => res w.2)) := by
    intro l
    induction l with
    | nil => intro _; rfl
    | cons x xs ih =>
      intro h
      rw [List.mapM_cons, (hres x.2 x.1 (h x (by simp))).1, ih (fun y hy => h y (by simp [hy]))]
      rfl
  have hd : deposit nearest owner sources world = some ((List.range world.length).map res) := by
    unfold deposit
    rw [hmap _ (fun x hx => List.mem_zipIdx_iff_getElem?.mp hx)]
    congr 1
    apply List.ext_getElem (by simp)
    intro i h1 h2
    simp
  refine ⟨_, hd, by simp, ?_, ?_⟩
  · intro r i w t hw ht
    have hr := (List.getElem?_eq_some_iff.mp hw).1
    refine ⟨res r, by rw [List.getElem?_map, List.getElem?_range hr]; rfl, ?_⟩
    exact (hres r w hw).2.1 i t ht
  · rw [List.map_map]
    have h1 : (List.range world.length).map (List.sum ∘ res)
        = (List.range world.length).map (fun r => (((world[r]?).map (fun w => w.2.sum)).getD 0)
          + ((sources.flatten.filter (fun s => owner s.pos = r)).map Source.rate).sum) := by
      apply List.map_congr_left
      intro r hr
      have hr' := List.mem_range.mp hr
      have hw : world[r]? = some world[r] := List.getElem?_eq_getElem (List.mem_range.mp hr)
      rw [Function.comp, (hres r _ hw).2.2, hw]
      rfl
    have hsum : ∀ (l : List Nat) (f g : Nat → R),
        (l.map (fun r => f r + g r)).sum = (l.map f).sum + (l.map g).sum := by
      intro l f g
      induction l with
      | nil => simp
      | cons x xs ih =>
        rw [List.map_cons, List.sum_cons, ih, List.map_cons, List.sum_cons, List.map_cons,
          List.sum_cons, add_add_add_comm]
    rw [h1, hsum, sum_by_owner]
    congr 1
    · congr 1
      apply List.ext_getElem (by simp)
      intro i h1 h2
      have : i < world.length := by simpa using h2
      simp [this]
    · unfold totalLuminosity
      rw [List.filter_eq_self.mpr]
      intro s hs
      simpa using hown s hs

/-- **C19 (which sources have an owner).** With the decomposition computed from the particles, every
source whose key does not exceed the largest particle key has an existing owner; a source whose
key is beyond the largest particle key is owned by nobody. -/
theorem source_owner_exists_iff {search} (hc : Decomp.SearchContract search)
    (keyMax maxDepth : Nat) (world : List (List Nat)) (hne : world ≠ [])
    (hranks : ∀ ks ∈ world, ks ≠ []) (hnd : world.flatten.Nodup)
    (hkeys : ∀ k ∈ world.flatten, k < keyMax) (sourceKey : Nat) :
    ∃ cuts loads, Decomp.decompose search keyMax maxDepth world = some (cuts, loads) ∧
      (Decomp.owningRank search cuts sourceKey < world.length ↔
        ∃ k ∈ world.flatten, sourceKey ≤ k) := by
  obtain ⟨lo, hi, segs, loads, h1, h2, h3, h4, h5, h6, h7, h8, h9⟩ :=
    Decomp.decompose_spec hc keyMax maxDepth world hne hranks hnd hkeys
  have hs := Decomp.chain_sorted lo segs h5
  obtain ⟨hi1, hi2⟩ := Decomp.globalMax_spec world hi h2
  refine ⟨_, loads, h3, ?_⟩
  constructor
  · intro hlt
    by_contra hcon
    push Not at hcon
    have hgt := hcon hi hi1
    have hlen : (segs.map Prod.snd).length = world.length := by simp [h4]
    -- all cuts are at most hi + 1 ≤ sourceKey
    have hall : ∀ c ∈ segs.map Prod.snd, c ≤ hi + 1 := by
      intro c hcm
      obtain ⟨init, hinit⟩ := List.getLast?_eq_some_iff.mp h6
      rw [hinit] at hcm hs
      rw [List.pairwise_append] at hs
      rcases List.mem_append.mp hcm with hcm | hcm
      · exact hs.2.2 c hcm (hi + 1) (by simp)
      · simp only [List.mem_singleton] at hcm; omega
    by_cases hgt2 : hi + 1 < sourceKey
    · have hb := (Decomp.owningRank_bounds hc _ hs sourceKey).1
      have : (segs.map Prod.snd).countP (fun x => decide (x < sourceKey))
          = (segs.map Prod.snd).length := by
        rw [List.countP_eq_length]
        intro c hcm
        have := hall c hcm
        simp only [decide_eq_true_eq]
        omega
      omega
    · have heq : sourceKey = hi + 1 := by omega
      -- the last cut is found (other cuts are smaller)
      unfold Decomp.owningRank at hlt
      cases hsr : search (segs.map Prod.snd) sourceKey with
      | err j =>
        have := (hc.err _ sourceKey j hs hsr).1
        exact this (heq ▸ List.mem_of_getLast? h6)
      | ok j =>
        rw [hsr] at hlt
        simp only [Decomp.stopIndex] at hlt
        have hj := hc.ok _ sourceKey j hs hsr
        rw [List.getElem?_map] at hj
        obtain ⟨e, he1, he2⟩ := Option.map_eq_some_iff.mp hj
        have hdl : e ∈ segs.dropLast := by
          rw [List.mem_iff_getElem?]
          exact ⟨j, by rw [List.getElem?_dropLast, if_pos (by omega)]; exact he1⟩
        have := h8 e hdl
        omega
  · rintro ⟨k, hk, hle⟩
    have := Decomp.owningRank_lt hc _ hs sourceKey (hi + 1) h6 (by have := hi2 k hk; omega)
    simpa [h4] using this

/-- **C19 (limit).** A source beyond the largest particle key is deposited nowhere although it is
counted in the total luminosity: two ranks with one cell each, a source owned by rank 2. -/
theorem ownerless_source_is_lost :
    ∃ (nearest : List Int → Int → Option Nat) (owner : Int → Nat)
      (sources : List (List (Source Int Int))) (world : List (List Int × List Int)),
      deposit nearest owner sources world = some [[0], [0]] ∧ totalLuminosity sources = 5 :=
  ⟨fun ps _ => if ps = [] then none else some 0, fun _ => 2, [[⟨7, 5⟩], []],
    [([1], [0]), ([3], [0])], rfl, rfl⟩

/-- A brute-force search satisfying `NearestContract`, for one-dimensional integer positions. -/
def bruteNearest (ps : List Int) (p : Int) : Option Nat :=
  (List.range ps.length).find? (fun i => ps.all (fun y => decide
    ((((ps[i]?).getD 0) - p).natAbs ≤ (y - p).natAbs)))

theorem bruteNearest_contract :
    NearestContract (fun (p x : Int) => (x - p).natAbs) bruteNearest where
  empty := by intro p; rfl
  total := by
    intro ps p hne
    have hmin : ∃ x ∈ ps, ∀ y ∈ ps, (x - p).natAbs ≤ (y - p).natAbs := by
      induction ps with
      | nil => exact absurd rfl hne
      | cons a as ih =>
        by_cases has : as = []
        · subst has
          exact ⟨a, by simp, by simp⟩
        · obtain ⟨x, hx, hmin⟩ := ih has
          by_cases h : (a - p).natAbs ≤ (x - p).natAbs
          · refine ⟨a, by simp, ?_⟩
            intro y hy
            rcases List.mem_cons.mp hy with rfl | hy
            · exact Nat.le_refl _
            · exact Nat.le_trans h (hmin y hy)
          · refine ⟨x, by simp [hx], ?_⟩
            intro y hy
            rcases List.mem_cons.mp hy with rfl | hy
            · omega
            · exact hmin y hy
    obtain ⟨x, hx, hmin⟩ := hmin
    obtain ⟨j, hj, rfl⟩ := List.getElem_of_mem hx
    cases hf : bruteNearest ps p with
    | none =>
      unfold bruteNearest at hf
      rw [List.find?_eq_none] at hf
      exfalso
      apply hf j (List.mem_range.mpr hj)
      rw [List.all_eq_true]
      intro y hy
      have := hmin y hy
      simpa [List.getElem?_eq_getElem hj] using this
    | some i =>
      unfold bruteNearest at hf
      have h1 := List.find?_some hf
      have h2 := List.mem_range.mp (List.mem_of_find?_eq_some hf)
      refine ⟨i, ps[i], rfl, List.getElem?_eq_getElem h2, ?_⟩
      intro y hy
      have := List.all_eq_true.mp h1 y hy
      simpa [List.getElem?_eq_getElem h2] using this

/-- The hypotheses of `sources_deposited_once` hold for three sources on two ranks. -/
example : deposit bruteNearest (fun p => if p < 5 then 0 else 1)
    [[⟨1, 10⟩, ⟨8, 20⟩], [⟨4, 30⟩]] [([0, 3], [0, 0]), ([6, 9], [0, 0])]
    = some [[10, 30], [0, 20]] := by decide

/-- **C19 (nearest only on the owner).** The cell receiving the source is the nearest one on the
owning rank, which need not be the nearest cell of the whole simulation. -/
theorem nearest_cell_is_local_only :
    deposit bruteNearest (fun p => if p < 5 then 0 else 1) [[⟨4, (30 : Int)⟩], []]
      [([0], [0]), ([5], [0])] = some [[30], [0]] := by decide

end Verif.Sources
