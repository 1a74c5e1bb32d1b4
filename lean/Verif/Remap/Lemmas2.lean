import Verif.Remap.Lemmas
import Verif.Domain.ExchangeDataLemmas

/-!
# Remapping from a snapshot: rounds and exchange
-/

namespace Verif.Remap

open Verif.Geometry (Vec Extent fromPositions)
open Verif.GridFile (hmInsert hmExtend Keys lookup_hmInsert keys_hmInsert keys_hmExtend
  lookup_hmExtend_nil mem_iff_lookup)

variable {K : Type} [Field K] [LinearOrder K]

theorem mem_allData {W : ℕ} {data : ℕ → List (Full K)} {x : Full K} :
    x ∈ allData W data ↔ ∃ r < W, x ∈ data r := by
  simp [allData]

/-- What a step does to a particle: nothing unless it is in the chunk. -/
structure StepFor (all : List (Full K)) (chunk : List (Request K)) (g : Particle K → Particle K) :
    Prop where
  entity : ∀ p, (g p).entity = p.entity
  other : ∀ p, p.entity ∉ chunk.map Prod.fst → g p = p
  mine : ∀ p, (p.entity, p.pos) ∈ chunk → RemappedFromNearest all p (g p)

variable [IsStrictOrderedRing K]

theorem exchangeRequestChunk_spec (nearest : Nearest K) (hn : NearestContract nearest) (W : ℕ)
    (data : ℕ → List (Full K)) (hd : ∀ s < W, data s ≠ []) (r : ℕ) (hr : r < W)
    (chunk : List (Request K)) (hc : (chunk.map Prod.fst).Nodup) (ps : List (Particle K))
    (hps : ∀ e ∈ chunk.map Prod.fst, e ∈ ps.map fun p => p.entity) :
    ∃ g, exchangeRequestChunk nearest W data r ps chunk = some (ps.map g) ∧
      StepFor (allData W data) chunk g := by
  obtain ⟨m0, h0, hk0, hdom0, hgood0⟩ := initialClosest_spec nearest hn (data r) (hd r hr) chunk hc
  have hM0 : Merged (allData W data) chunk m0 := by
    refine ⟨hk0, hdom0, fun e q h => ?_⟩
    obtain ⟨rep, hl, x, hx, hrep, _⟩ := hgood0 e q h
    exact ⟨x, mem_allData.2 ⟨r, hr, hx⟩, by rw [hl, hrep]⟩
  obtain ⟨inc, hinc, _, hin1, hin2⟩ := mapM_forall (repliesFrom nearest data m0 chunk)
    (fun s l => (∀ e rep, (e, rep) ∈ l → ∃ q, (e, q) ∈ chunk ∧ GoodReply (data s) q rep) ∧
      (∀ e q, (e, q) ∈ chunk → (∃ rep, (e, rep) ∈ l ∧ GoodReply (data s) q rep) ∨
        ∃ rep, List.lookup e m0 = some rep ∧
          ∀ y ∈ data s, rep.squaredDistance ≤ sqDist y.pos q))
    ((List.range W).filter fun s => s ≠ r) (by
      intro s hs
      rw [List.mem_filter, List.mem_range] at hs
      exact repliesFrom_spec nearest hn data s (hd s hs.1) m0 chunk (fun e q h => by
        obtain ⟨rep, hl, _⟩ := hgood0 e q h
        exact ⟨rep, hl⟩))
  obtain ⟨m, hm, hM, hmono, hall⟩ := merge_spec (allData W data) chunk hc inc.flatten (by
    intro e rep h
    obtain ⟨l, hl, h⟩ := List.mem_flatten.1 h
    obtain ⟨s, hs, _, h1, _⟩ := hin2 l hl
    rw [List.mem_filter, List.mem_range] at hs
    obtain ⟨q, hq, x, hx, hrep, _⟩ := h1 e rep h
    exact ⟨q, hq, x, mem_allData.2 ⟨s, hs.1, hx⟩, hrep⟩) m0 hM0
  have hdomm : ∀ e, e ∈ m.map Prod.fst ↔ e ∈ chunk.map Prod.fst := by
    intro e
    rw [← hM.dom e, Option.isSome_iff_exists, List.mem_map]
    constructor
    · rintro ⟨⟨e', rep⟩, h, rfl⟩
      exact ⟨rep, (mem_iff_lookup m hM.keys _ _).1 h⟩
    · rintro ⟨rep, h⟩
      exact ⟨(e, rep), (mem_iff_lookup m hM.keys _ _).2 h, rfl⟩
  refine ⟨remapWith m, ?_, ?_⟩
  · unfold exchangeRequestChunk
    rw [h0]
    show ((((List.range W).filter fun s => s ≠ r).mapM (repliesFrom nearest data m0 chunk)).bind
      fun incoming => _) = _
    rw [hinc]
    show ((inc.flatten.foldlM mergeReply m0).bind fun closest => _) = _
    rw [hm]
    exact applyClosest_spec m hM.keys ps (fun e he => hps e ((hdomm e).1 he))
  · refine ⟨?_, ?_, ?_⟩
    · intro p
      unfold remapWith
      split <;> rfl
    · intro p hp
      unfold remapWith
      cases hl : List.lookup p.entity m with
      | none => rfl
      | some rep => exact absurd ((hM.dom _).1 (by rw [hl]; rfl)) hp
    · intro p hp
      unfold remapWith
      obtain ⟨x, hx, hl⟩ := hM.good _ _ hp
      rw [hl]
      refine ⟨x, hx, ?_, rfl, rfl, rfl, rfl⟩
      have hfin : ∀ rep, List.lookup p.entity m = some rep → rep.squaredDistance = sqDist x.pos p.pos := by
        intro rep h
        rw [hl] at h
        cases h
        rfl
      intro y hy
      obtain ⟨s, hs, hy⟩ := mem_allData.1 hy
      obtain ⟨rep0, hl0, x0, hx0, hrep0, hmin0⟩ := hgood0 _ _ hp
      obtain ⟨rep1, hl1, hle1⟩ := hmono _ _ hl0
      by_cases hsr : s = r
      · subst hsr
        rw [← hfin _ hl1]
        refine le_trans hle1 ?_
        rw [hrep0]
        exact hmin0 y hy
      · obtain ⟨l, hlm, _, _, h2⟩ := hin1 s (by
          rw [List.mem_filter, List.mem_range]
          exact ⟨hs, by simpa using hsr⟩)
        rcases h2 _ _ hp with ⟨rep, hrl, x', hx', hrep', hmin'⟩ | ⟨rep, hl0', hle⟩
        · obtain ⟨rep2, hl2, hle2⟩ := hall _ _ (List.mem_flatten.2 ⟨l, hlm, hrl⟩)
          rw [← hfin _ hl2]
          refine le_trans hle2 ?_
          rw [hrep']
          exact hmin' y hy
        · rw [hl0] at hl0'
          cases hl0'
          rw [← hfin _ hl1]
          exact le_trans hle1 (hle y hy)

theorem chunks_fold (nearest : Nearest K) (hn : NearestContract nearest) (W : ℕ)
    (data : ℕ → List (Full K)) (hd : ∀ s < W, data s ≠ []) (r : ℕ) (hr : r < W)
    (chunks : List (List (Request K))) : ∀ (ps : List (Particle K)),
    (chunks.flatten.map Prod.fst).Nodup →
    (∀ e ∈ chunks.flatten.map Prod.fst, e ∈ ps.map fun p => p.entity) →
    ∃ g, chunks.foldlM (exchangeRequestChunk nearest W data r) ps = some (ps.map g) ∧
      StepFor (allData W data) chunks.flatten g := by
  induction chunks with
  | nil =>
    intro ps _ _
    refine ⟨id, by simp, fun p => rfl, fun p _ => rfl, fun p h => ?_⟩
    simp at h
  | cons c cs ih =>
    intro ps hnd hps
    rw [List.flatten_cons, List.map_append] at hnd hps
    rw [List.nodup_append] at hnd
    obtain ⟨g1, h1, s1⟩ := exchangeRequestChunk_spec nearest hn W data hd r hr c hnd.1 ps
      (fun e he => hps e (List.mem_append.2 (Or.inl he)))
    obtain ⟨g2, h2, s2⟩ := ih (ps.map g1) hnd.2.1 (by
      intro e he
      rw [List.map_map]
      have : ((fun p : Particle K => p.entity) ∘ g1) = fun p => p.entity := by
        funext p
        exact s1.entity p
      rw [this]
      exact hps e (List.mem_append.2 (Or.inr he)))
    refine ⟨g2 ∘ g1, ?_, ?_, ?_, ?_⟩
    · rw [List.foldlM_cons, h1]
      show cs.foldlM _ (ps.map g1) = _
      rw [h2, List.map_map]
    · intro p
      show (g2 (g1 p)).entity = p.entity
      rw [s2.entity, s1.entity]
    · intro p hp
      rw [List.flatten_cons, List.map_append, List.mem_append, not_or] at hp
      show g2 (g1 p) = p
      rw [s1.other p hp.1, s2.other p hp.2]
    · intro p hp
      rw [List.flatten_cons, List.mem_append] at hp
      show RemappedFromNearest _ p (g2 (g1 p))
      have hkey : ∀ l : List (Request K), (p.entity, p.pos) ∈ l → p.entity ∈ l.map Prod.fst :=
        fun l h => List.mem_map.2 ⟨_, h, rfl⟩
      by_cases h : (p.entity, p.pos) ∈ c
      · have hm := s1.mine p h
        rw [s2.other (g1 p) ?_]
        · exact hm
        · rw [s1.entity]
          intro h'
          exact hnd.2.2 _ (hkey _ h) _ h' rfl
      · have h' := hp.resolve_left h
        rw [s1.other p (fun h'' => hnd.2.2 _ h'' _ (hkey _ h') rfl)]
        exact s2.mine p h'

omit [IsStrictOrderedRing K] in
omit [Field K] [LinearOrder K] in
theorem destination_lt (W : ℕ) (owner : Vec 3 K → ℕ) (s : ℕ) (hs : s < W) (d : Full K) :
    destination W owner s d < W := by
  unfold destination
  split_ifs with h
  · exact hs
  · exact not_le.1 h

omit [IsStrictOrderedRing K] [Field K] [LinearOrder K] in
theorem exchange_perm_aux (W : ℕ) (owner : Vec 3 K → ℕ) (data : ℕ → List (Full K)) :
    (allData W (exchangeAccordingToDomainDecomposition W owner data)).Perm (allData W data) := by
  have h1 : ∀ r < W, (exchangeAccordingToDomainDecomposition W owner data r).Perm
      ((List.range W).flatMap fun s => (data s).filter fun d => decide (destination W owner s d = r)) := by
    intro r hr
    unfold exchangeAccordingToDomainDecomposition
    refine List.perm_append_comm.trans ?_
    have h := Verif.ExchangeData.perm_others W r hr
    have := (h.flatMap_right
      (fun s => (data s).filter fun d => decide (destination W owner s d = r))).symm
    exact this
  have h2 : ∀ k, ((List.range k).flatMap fun r => (List.range W).flatMap fun s =>
      (data s).filter fun d => decide (destination W owner s d = r)).Perm
      ((List.range W).flatMap fun s =>
        (data s).filter fun d => decide (destination W owner s d < k)) := by
    intro k
    induction k with
    | zero => simp
    | succ k ih =>
      rw [List.range_succ (n := k), List.flatMap_append, List.flatMap_singleton]
      refine (ih.append_right _).trans ?_
      refine (List.flatMap_append_perm _ _ _).trans ?_
      apply List.Perm.flatMap_left
      intro s _
      have h5 := List.filter_append_perm (fun d => decide (destination W owner s d < k))
        ((data s).filter (fun d => decide (destination W owner s d < k + 1)))
      refine List.Perm.trans (List.Perm.of_eq ?_) h5
      rw [List.filter_filter, List.filter_filter]
      congr 1
      · apply List.filter_congr
        intro a _
        by_cases h : destination W owner s a < k
        · simp [h, Nat.lt_succ_of_lt h]
        · simp [h]
      · apply List.filter_congr
        intro a _
        by_cases h : destination W owner s a = k
        · simp [h]
        · by_cases h' : destination W owner s a < k
          · simp [h, h']
          · simp [h, show ¬ destination W owner s a < k + 1 by omega]
  refine List.Perm.trans ?_ ((h2 W).trans (List.Perm.of_eq ?_))
  · unfold allData
    apply List.Perm.flatMap_left
    intro r hr
    exact h1 r (List.mem_range.1 hr)
  · unfold allData
    rw [List.flatMap_def, List.flatMap_def]
    congr 1
    apply List.map_congr_left
    intro s hs
    rw [List.filter_eq_self.2]
    intro d _
    simpa using destination_lt W owner s (List.mem_range.1 hs) d

end Verif.Remap
