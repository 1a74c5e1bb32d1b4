import Verif.Startup.Spec
import Verif.IO.FileDistributionProps
import Verif.Domain.DecompositionProps
import Verif.Domain.ExchangeDataProps
import Verif.Peano.Props3d
import Mathlib.Tactic.Linarith
import Mathlib.Tactic.Positivity
import Mathlib.Tactic.FieldSimp
import Mathlib.Tactic.NormNum
import Mathlib.Tactic.Ring
import Mathlib.Tactic.FinCases

/-! # Lemmas for the startup -/

namespace Verif.Startup

open Verif.Geometry Verif.ExchangeData Verif.FileDist Verif.DataByRank

variable {V : Type}

/-! ### Reading -/

theorem look_map {α β : Type} (files : List (List α)) (f : α → β) (k : ℕ × ℕ) :
    look (files.map fun l => l.map f) k = (look files k).map f := by
  unfold look
  rw [List.getElem?_map]
  cases files[k.1]? <;> simp

/-- What the ranks read of a dataset; all datasets of the same files are cut in the same way. -/
theorem read_parts {α : Type} (files : List (List α)) (N : ℕ) (hN : 0 < N) :
    ∃ parts : List (List α), parts.length = N ∧ parts.flatten = files.flatten ∧
      (∀ (r : ℕ) (p : List α), parts[r]? = some p → p.length =
        if r + 1 < N then files.flatten.length / N else files.flatten.length - files.flatten.length / N * (N - 1)) ∧
      ∀ (β : Type) (f : α → β) (r : ℕ) (p : List α), parts[r]? = some p →
        readDataset (files.map fun l => l.map f) N r = some (p.map f) ∧
        numEntities (files.map fun l => l.map f) N r = some p.length := by
  obtain ⟨asg, h1, h2, h3, h4, h5⟩ := input_partition (files.map List.length) N hN
  have hread : ∀ rs ∈ asg, ∃ l, rs.mapM (fun r => readRegionChunked files r r.size) = some l ∧
      l.flatten.map some = (rs.flatMap Region.rows).map (look files) := by
    intro rs hrs
    exact mapM_concat _ Region.rows (look files) rs fun r hr =>
      readRegionChunked_ok files r r.size (by have := (h4 rs hrs r hr).1; unfold Region.size; omega) (h4 rs hrs r hr)
  choose! g hg1 hg2 using hread
  have hfl : (asg.map fun rs => (g rs).flatten).flatten = files.flatten := by
    apply map_some_injective
    rw [← allRows_look files, ← h3]
    have hgen : ∀ as : List (List Region), (∀ rs ∈ as, rs ∈ asg) →
        (as.map fun rs => (g rs).flatten).flatten.map some = (as.flatten.flatMap Region.rows).map (look files) := by
      intro as
      induction as with
      | nil => intro _; rfl
      | cons a as ih =>
        intro h
        rw [List.map_cons, List.flatten_cons, List.map_append, hg2 a (h a (by simp)), ih fun rs hrs => h rs (by simp [hrs]),
          List.flatten_cons, List.flatMap_append, List.map_append]
    exact hgen asg fun _ h => h
  refine ⟨asg.map fun rs => (g rs).flatten, by simpa using h2, hfl, ?_, ?_⟩
  · intro r p hp
    rw [List.getElem?_map] at hp
    obtain ⟨rs, hrs, rfl⟩ := Option.map_eq_some_iff.mp hp
    have := hg2 rs (List.mem_of_getElem? hrs)
    have h6 := h5 r rs hrs
    have h7 := congrArg List.length this
    rw [List.length_map, List.length_map, h6] at h7
    rw [h7, List.length_flatten]
  · intro β f r p hp
    rw [List.getElem?_map] at hp
    obtain ⟨rs, hrs, rfl⟩ := Option.map_eq_some_iff.mp hp
    have hmem := List.mem_of_getElem? hrs
    have hlen : (files.map fun l => l.map f).map List.length = files.map List.length := by
      rw [List.map_map]
      exact List.map_congr_left fun l _ => by simp
    have hasg : getRankInputAssignmentForRank (files.map List.length) N r = some rs := by
      unfold getRankInputAssignmentForRank
      rw [h1]
      exact hrs
    constructor
    · obtain ⟨l, e1, e2⟩ := mapM_concat (fun r => readRegionChunked (files.map fun l => l.map f) r r.size) Region.rows
        (look (files.map fun l => l.map f)) rs fun r hr =>
        readRegionChunked_ok _ r r.size (by have := (h4 rs hmem r hr).1; unfold Region.size; omega)
          (by rw [hlen]; exact h4 rs hmem r hr)
      unfold readDataset
      rw [hlen, hasg]
      simp only
      rw [e1, Option.map_some]
      congr 1
      apply map_some_injective
      rw [e2, List.map_congr_left fun k _ => look_map files f k]
      show List.map (Option.map f ∘ look files) _ = _
      rw [← List.map_map, ← hg2 rs hmem, List.map_map, List.map_map]
      rfl
    · unfold numEntities
      rw [hlen, hasg, Option.map_some]
      congr 1
      have := congrArg List.length (hg2 rs hmem)
      rw [List.length_map, List.length_map, List.length_flatMap] at this
      rw [this]
      congr 1
      exact List.map_congr_left fun r _ => by simp [Region.size, Region.rows]

/-- The particles of a rank after reading. -/
def entities (m : ℕ) (p : List (Row V)) : Particles V := p.zipIdx.map fun e => (e.2, comps m e.1)

theorem readRank_eq {m N r : ℕ} {files : List (List (Row V))} {p : List (Row V)} (hm : 0 < m)
    (h : ∀ (β : Type) (f : Row V → β), readDataset (files.map fun l => l.map f) N r = some (p.map f) ∧
      numEntities (files.map fun l => l.map f) N r = some p.length) :
    readRank (columns m files) N r = some (entities m p) := by
  have hs : spawn (columns m files) N r = some p.length := by
    obtain ⟨k, rfl⟩ := Nat.exists_eq_add_of_lt hm
    have hall : ∀ c ∈ columns (0 + k + 1) files, numEntities c N r = some p.length := by
      intro c hc
      obtain ⟨i, -, rfl⟩ := List.mem_map.1 hc
      exact (h V fun row => row i).2
    unfold spawn
    split
    · rename_i he
      have := congrArg List.length he
      simp [columns] at this
    · rename_i c cs he
      have := hall c (by rw [he]; simp)
      rw [this]
      simp only
      rw [if_pos]
      rw [List.all_eq_true]
      intro x hx
      rw [decide_eq_true_eq]
      exact hall x hx
  have hv : (columns m files).mapM (fun f => readDataset f N r) = some ((List.range m).map fun c => p.map fun row => row c) := by
    unfold columns
    rw [List.mapM_map]
    exact mapM_some _ _ _ fun c _ => (h V fun row => row c).1
  unfold readRank
  rw [hs, hv]
  simp only [Option.some.injEq]
  unfold entities
  apply List.ext_getElem
  · simp
  intro e h1 h2
  simp only [List.length_map, List.length_range] at h1
  rw [List.getElem_map, List.getElem_range, List.getElem_map, List.getElem_zipIdx]
  simp only [Nat.zero_add, Prod.mk.injEq, true_and]
  funext c
  unfold comps
  by_cases hc : c < m
  · rw [List.getElem?_map, List.getElem?_range hc, if_pos hc]
    simp [h1]
  · rw [List.getElem?_map, List.getElem?_eq_none (by simpa using hc), if_neg hc]
    rfl

/-- All ranks after reading. -/
theorem read_all {m N : ℕ} {files : List (List (Row V))} (hm : 0 < m) (hN : 0 < N) :
    ∃ parts : List (List (Row V)), parts.length = N ∧ parts.flatten = files.flatten ∧
      (∀ (r : ℕ) (p : List (Row V)), parts[r]? = some p → p.length =
        if r + 1 < N then files.flatten.length / N else files.flatten.length - files.flatten.length / N * (N - 1)) ∧
      (List.range N).mapM (readRank (columns m files) N) = some (parts.map (entities m)) := by
  obtain ⟨parts, h1, h2, h3, h4⟩ := read_parts files N hN
  refine ⟨parts, h1, h2, h3, ?_⟩
  rw [mapM_some (readRank (columns m files) N) (fun r => entities m (parts.getD r [])) (List.range N)]
  · congr 1
    apply List.ext_getElem
    · simp [h1]
    intro i hi hi'
    simp only [List.length_map] at hi'
    rw [List.getElem_map, List.getElem_range, List.getElem_map]
    congr 1
    simp [hi']
  · intro r hr
    rw [List.mem_range, ← h1] at hr
    rw [List.getD_eq_getElem?_getD, List.getElem?_eq_getElem hr, Option.getD_some]
    exact readRank_eq hm fun β f => h4 β f r _ (List.getElem?_eq_getElem hr)

theorem entities_comps (m : ℕ) (p : List (Row V)) : (entities m p).map Prod.snd = p.map (comps m) := by
  unfold entities
  rw [List.map_map]
  show p.zipIdx.map (comps m ∘ Prod.fst) = _
  rw [← List.map_map (g := comps m) (f := Prod.fst), List.zipIdx_map_fst]

theorem entities_ids (m : ℕ) (p : List (Row V)) : (entities m p).map Prod.fst = List.range p.length := by
  unfold entities
  rw [List.map_map]
  show p.zipIdx.map Prod.snd = _
  rw [List.zipIdx_map_snd, List.range_eq_range']

theorem entities_flatten (m : ℕ) (parts : List (List (Row V))) :
    (parts.map (entities m)).flatten.map Prod.snd = parts.flatten.map (comps m) := by
  rw [List.map_flatten, List.map_map, List.map_flatten]
  congr 1
  exact List.map_congr_left fun p _ => entities_comps m p

/-! ### The exchange -/

theorem fromSizeAndRank_length {T : Type} (t : T) (n r : ℕ) : (fromSizeAndRank t n r).length = n := by
  simp [fromSizeAndRank]

theorem setOutgoing_owner {owner : Comps V → ℕ} {rank : ℕ} {ps : Particles V} {d d' : Data (List ℕ)}
    (h : ps.foldlM (setOutgoingStep owner rank) d = some d') : ∀ p ∈ ps, owner p.2 = rank ∨ owner p.2 < d.length := by
  induction ps generalizing d with
  | nil => simp
  | cons p ps ih =>
    rw [List.foldlM_cons] at h
    cases hs : setOutgoingStep owner rank d p with
    | none => rw [hs] at h; simp at h
    | some e =>
      rw [hs] at h
      have hlen : e.length = d.length ∧ (owner p.2 = rank ∨ owner p.2 < d.length) := by
        unfold setOutgoingStep addOutgoing at hs
        split at hs
        · split at hs
          · rename_i l hl
            obtain rfl := Option.some.inj hs
            exact ⟨by simp, Or.inr (List.getElem?_eq_some_iff.1 hl).1⟩
          · simp at hs
        · rename_i hc
          obtain rfl := Option.some.inj hs
          exact ⟨rfl, Or.inl (not_not.1 hc)⟩
      intro q hq
      rcases List.mem_cons.1 hq with rfl | hq
      · exact hlen.2
      · have := ih h q hq
        rwa [hlen.1] at this

/-- If the exchange does not panic, all owners exist. -/
theorem exchange_owner {m : ℕ} {owner : Comps V → ℕ} {next : ℕ → ℕ} {world world' : List (Particles V)}
    (h : exchangeStage m owner next world = some world') : ∀ ps ∈ world, ∀ p ∈ ps, owner p.2 < world.length := by
  intro ps hps p hp
  obtain ⟨r, hr, rfl⟩ := List.getElem_of_mem hps
  unfold exchangeStage at h
  simp only [Option.bind_eq_bind] at h
  obtain ⟨outs, h1, -⟩ := Option.bind_eq_some_iff.1 h
  have hmem : (world[r], r) ∈ world.zipIdx := by
    rw [List.mem_zipIdx_iff_getElem?]
    exact List.getElem?_eq_getElem hr
  have key : ∀ {α β : Type} (f : α → Option β) (l : List α) (l' : List β), l.mapM f = some l' → ∀ a ∈ l, ∃ b, f a = some b := by
    intro α β f l
    induction l with
    | nil => simp
    | cons x xs ih =>
      intro l' hl a ha
      rw [List.mapM_cons] at hl
      obtain ⟨b, hb, hl⟩ := Option.bind_eq_some_iff.1 hl
      obtain ⟨bs, hbs, -⟩ := Option.bind_eq_some_iff.1 hl
      rcases List.mem_cons.1 ha with rfl | ha
      · exact ⟨b, hb⟩
      · exact ih _ hbs a ha
  obtain ⟨d, hd⟩ := key _ _ _ h1 _ hmem
  unfold setOutgoing at hd
  rcases setOutgoing_owner hd p hp with e | e
  · simp only at e
    omega
  · rwa [fromSizeAndRank_length] at e

/-! ### Keys -/

theorem integerPos_eq (lo hi x : ℝ) :
    integerPos lo hi x = ⌊(x - (lo - (hi - lo) * 0.001)) / (1.002 * (hi - lo)) * 2 ^ 42⌋₊ := by
  unfold integerPos
  ring_nf

theorem integerPos_lt {lo hi x : ℝ} (h : lo < hi) (h1 : lo ≤ x) (h2 : x ≤ hi) : integerPos lo hi x < 2 ^ 42 := by
  rw [integerPos_eq]
  have hw : 0 < 1.002 * (hi - lo) := by linarith
  have h0 : 0 ≤ x - (lo - (hi - lo) * 0.001) := by linarith
  rw [Nat.floor_lt (by positivity)]
  have : (x - (lo - (hi - lo) * 0.001)) / (1.002 * (hi - lo)) < 1 := by
    rw [div_lt_one hw]
    linarith
  push_cast
  nlinarith

theorem integerPos_ne {lo hi x y : ℝ} (h : lo < hi) (h1 : lo ≤ x) (h1' : lo ≤ y)
    (hxy : 1.002 * (hi - lo) / 2 ^ 42 ≤ |x - y|) : integerPos lo hi x ≠ integerPos lo hi y := by
  wlog hle : y ≤ x generalizing x y
  · exact (this h1' h1 (by rwa [abs_sub_comm]) (le_of_not_ge hle)).symm
  rw [abs_of_nonneg (sub_nonneg.2 hle)] at hxy
  have hw : 0 < 1.002 * (hi - lo) := by linarith
  have h0 : 0 ≤ y - (lo - (hi - lo) * 0.001) := by linarith
  rw [integerPos_eq, integerPos_eq]
  have hb : 0 ≤ (y - (lo - (hi - lo) * 0.001)) / (1.002 * (hi - lo)) * 2 ^ 42 := by positivity
  have hstep : (y - (lo - (hi - lo) * 0.001)) / (1.002 * (hi - lo)) * 2 ^ 42 + 1 ≤
      (x - (lo - (hi - lo) * 0.001)) / (1.002 * (hi - lo)) * 2 ^ 42 := by
    have e : (x - (lo - (hi - lo) * 0.001)) / (1.002 * (hi - lo)) * 2 ^ 42 =
        (y - (lo - (hi - lo) * 0.001)) / (1.002 * (hi - lo)) * 2 ^ 42 + (x - y) / (1.002 * (hi - lo)) * 2 ^ 42 := by ring
    rw [e]
    have : 1 ≤ (x - y) / (1.002 * (hi - lo)) * 2 ^ 42 := by
      rw [div_mul_eq_mul_div, le_div_iff₀ hw]
      rw [div_le_iff₀ (by positivity)] at hxy
      linarith
    linarith
  have := Nat.floor_le_floor hstep
  rw [Nat.floor_add_one hb] at this
  omega

theorem key_some (lo hi x : Vec 3 ℝ) : ∃ k, key lo hi x = some k ∧ k < 2 ^ 126 := Peano.key3d_in_range _ _ _

theorem key_ne {lo hi x y : Vec 3 ℝ} (h : ∀ i, lo i < hi i) (hx : ∀ i, lo i ≤ x i ∧ x i ≤ hi i) (hy : ∀ i, lo i ≤ y i ∧ y i ≤ hi i)
    (hxy : ∃ i, 1.002 * (hi i - lo i) / 2 ^ 42 ≤ |x i - y i|) : key lo hi x ≠ key lo hi y := by
  intro he
  have hb := fun i => integerPos_lt (h i) (hx i).1 (hx i).2
  have hb' := fun i => integerPos_lt (h i) (hy i).1 (hy i).2
  obtain ⟨e0, e1, e2⟩ := Peano.key3d_injective _ _ _ _ _ _ (hb 0) (hb 1) (hb 2) (hb' 0) (hb' 1) (hb' 2) he
  obtain ⟨i, hi⟩ := hxy
  refine integerPos_ne (h i) (hx i).1 (hy i).1 hi ?_
  fin_cases i
  · exact e0
  · exact e1
  · exact e2

end Verif.Startup
