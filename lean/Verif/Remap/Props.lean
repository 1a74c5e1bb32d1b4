import Verif.Remap.Lemmas2
import Mathlib.Algebra.Order.Ring.Rat

/-!
# C39: remapping from a snapshot uses the globally nearest particle
-/

namespace Verif.Remap

open Verif.Geometry (Vec Extent fromPositions)
open Verif.Collective (divideIntoChunks)

variable {K : Type} [Field K] [LinearOrder K] [IsStrictOrderedRing K]

omit [IsStrictOrderedRing K] [Field K] [LinearOrder K] in
/-- **C39 (exchange).** Moving the data to the ranks of the decomposition loses and duplicates nothing,
whatever ranks the decomposition names. -/
theorem exchange_keeps_all_data (W : ℕ) (owner : Vec 3 K → ℕ) (data : ℕ → List (Full K)) :
    (allData W (exchangeAccordingToDomainDecomposition W owner data)).Perm (allData W data) :=
  exchange_perm_aux W owner data

/-- **C39 (nearest).** If every rank holds data after the exchange, remapping succeeds on all ranks, and
every particle of every rank gets the values of a data point which is nearest among the data of all
ranks, unless its own are larger; number, order and positions of the particles stay. -/
theorem remap_uses_nearest (nearest : Nearest K) (hn : NearestContract nearest) (W : ℕ) (hW : 0 < W)
    (owner : Vec 3 K → ℕ) (data : ℕ → List (Full K)) (particles : ℕ → List (Particle K))
    (hd : ∀ r < W, exchangeAccordingToDomainDecomposition W owner data r ≠ [])
    (hids : ∀ r < W, ((particles r).map fun p => p.entity).Nodup) :
    ∃ result, remapSystem nearest W owner data particles = some result ∧ result.length = W ∧
      ∀ r < W, ∃ ps, result[r]? = some ps ∧ ps.length = (particles r).length ∧
        ∀ (i : ℕ) (p : Particle K), (particles r)[i]? = some p →
          ∃ p', ps[i]? = some p' ∧ RemappedFromNearest (allData W data) p p' := by
  unfold remapSystem
  set data' := exchangeAccordingToDomainDecomposition W owner data with hdata'
  have hperm : ∀ x, x ∈ allData W data' ↔ x ∈ allData W data :=
    fun x => (exchange_keeps_all_data W owner data).mem_iff
  obtain ⟨res, n, h1, h2, _, h4, _, _⟩ := Verif.Collective.chunks_same_number
    ((List.range W).map fun r => (particles r).map fun p => (p.entity, p.pos)) (by
      intro h
      rw [List.map_eq_nil_iff, List.range_eq_nil] at h
      omega) 1000000 (by norm_num)
  rw [List.length_map, List.length_range] at h2
  have hchunks : ∀ r < W, ∃ cs, res[r]? = some cs ∧
      cs.flatten = (particles r).map fun p => (p.entity, p.pos) := by
    intro r hr
    have := congrArg (fun l => l[r]?) h4
    rw [List.getElem?_map, List.getElem?_map, List.getElem?_range hr, Option.map_some,
      Option.map_eq_some_iff] at this
    exact this
  have hrank : ∀ r < W, ∃ g, ((res[r]?).bind fun chunks =>
        chunks.foldlM (exchangeRequestChunk nearest W data' r) (particles r))
        = some ((particles r).map g) ∧
      ∀ p ∈ particles r, RemappedFromNearest (allData W data) p (g p) := by
    intro r hr
    obtain ⟨cs, hcs, hflat⟩ := hchunks r hr
    have hkeys : cs.flatten.map Prod.fst = (particles r).map fun p => p.entity := by
      rw [hflat, List.map_map]
      rfl
    obtain ⟨g, hg, hstep⟩ := chunks_fold nearest hn W data' hd r hr cs (particles r)
      (by rw [hkeys]; exact hids r hr) (by rw [hkeys]; exact fun e he => he)
    refine ⟨g, by rw [hcs]; exact hg, fun p hp => ?_⟩
    obtain ⟨x, hx, hmin, hrest⟩ := hstep.mine p (by rw [hflat]; exact List.mem_map.2 ⟨p, hp, rfl⟩)
    exact ⟨x, (hperm x).1 hx, fun y hy => hmin y ((hperm y).2 hy), hrest⟩
  haveI : Nonempty (Particle K → Particle K) := ⟨id⟩
  choose! g hg hgm using hrank
  refine ⟨(List.range W).map fun r => (particles r).map (g r), ?_, by simp, ?_⟩
  · unfold remap
    rw [h1]
    show ((List.range W).mapM fun r => _) = _
    apply Verif.ExchangeData.mapM_some
    intro r hr
    exact hg r (List.mem_range.1 hr)
  · intro r hr
    refine ⟨(particles r).map (g r), ?_, by simp, ?_⟩
    · rw [List.getElem?_map, List.getElem?_range hr]
      rfl
    · intro i p hp
      refine ⟨g r p, by rw [List.getElem?_map, hp]; rfl, hgm r hr p (List.mem_of_getElem? hp)⟩

omit [IsStrictOrderedRing K] in
/-- **C39 (values never decrease).** -/
theorem remapped_values_never_decrease (all : List (Full K)) (p p' : Particle K)
    (h : RemappedFromNearest all p p') :
    p.temperature ≤ p'.temperature ∧ p.ionizedHydrogenFraction ≤ p'.ionizedHydrogenFraction := by
  obtain ⟨x, _, _, _, _, h1, h2⟩ := h
  rw [h1, h2]
  exact ⟨le_max_left _ _, le_max_left _ _⟩

theorem mapM_none_of_mem {α β : Type} (f : α → Option β) (l : List α) (a : α) (h : a ∈ l)
    (hf : f a = none) : l.mapM f = none := by
  induction l with
  | nil => cases h
  | cons x l ih =>
    rw [List.mapM_cons]
    rcases List.mem_cons.1 h with rfl | h
    · rw [hf]
      rfl
    · rw [ih h]
      cases f x <;> rfl

theorem foldlM_none_of_mem {α β : Type} (f : β → α → Option β) (l : List α) (a : α) (h : a ∈ l)
    (hf : ∀ b, f b a = none) : ∀ b, l.foldlM f b = none := by
  induction l with
  | nil => cases h
  | cons x l ih =>
    intro b
    rw [List.foldlM_cons]
    rcases List.mem_cons.1 h with rfl | h
    · rw [hf]
      rfl
    · cases f b x with
      | none => rfl
      | some b' => exact ih h b'

omit [IsStrictOrderedRing K] in
/-- **C39 (a rank without data).** If some rank holds no data after the exchange and some rank has a
particle, remapping panics: the extents of ranks without data are missing from the container which is
indexed for every other rank, and the nearest-particle lookup in an empty tree has no result. -/
theorem rank_without_data_panics (nearest : Nearest K) (W : ℕ) (owner : Vec 3 K → ℕ)
    (data : ℕ → List (Full K)) (particles : ℕ → List (Particle K)) (s : ℕ) (hs : s < W)
    (hsd : exchangeAccordingToDomainDecomposition W owner data s = [])
    (r : ℕ) (hr : r < W) (hp : particles r ≠ []) :
    remapSystem nearest W owner data particles = none := by
  unfold remapSystem remap
  set data' := exchangeAccordingToDomainDecomposition W owner data with hdata'
  obtain ⟨res, n, h1, h2, _, h4, _, _⟩ := Verif.Collective.chunks_same_number
    ((List.range W).map fun r => (particles r).map fun p => (p.entity, p.pos)) (by
      intro h
      rw [List.map_eq_nil_iff, List.range_eq_nil] at h
      omega) 1000000 (by norm_num)
  rw [h1]
  show ((List.range W).mapM fun r => _) = none
  apply mapM_none_of_mem _ _ r (List.mem_range.2 hr)
  have hcs := congrArg (fun l => l[r]?) h4
  rw [List.getElem?_map, List.getElem?_map, List.getElem?_range hr, Option.map_some,
    Option.map_eq_some_iff] at hcs
  obtain ⟨cs, hcs, hflat⟩ := hcs
  rw [hcs]
  show cs.foldlM _ _ = none
  obtain ⟨p, hpm⟩ := List.exists_mem_of_ne_nil _ hp
  have hmem : (p.entity, p.pos) ∈ cs.flatten := by
    rw [hflat]
    exact List.mem_map.2 ⟨p, hpm, rfl⟩
  obtain ⟨c, hc, hpc⟩ := List.mem_flatten.1 hmem
  apply foldlM_none_of_mem _ _ c hc
  intro ps
  unfold exchangeRequestChunk
  by_cases hrd : data' r = []
  · have : initialClosest nearest (data' r) c = none := by
      unfold initialClosest
      rw [mapM_none_of_mem _ c _ hpc]
      · rfl
      · rw [hrd]
        rfl
    rw [this]
    rfl
  · have hsr : s ≠ r := by
      intro h
      rw [h] at hsd
      exact hrd hsd
    cases initialClosest nearest (data' r) c with
    | none => rfl
    | some m =>
      show ((((List.range W).filter fun s => s ≠ r).mapM (repliesFrom nearest data' m c)).bind
        fun incoming => _) = none
      rw [mapM_none_of_mem _ _ s]
      · rfl
      · rw [List.mem_filter, List.mem_range]
        exact ⟨hs, by simpa using hsr⟩
      · have : exchangeExtents data' s = none := by
          unfold exchangeExtents
          rw [hsd]
          rfl
        unfold repliesFrom getOutgoingRequests
        rw [this]
        rfl

omit [LinearOrder K] [IsStrictOrderedRing K] in
/-- **C39 (scale factor).** The data are read with their positions rescaled by the ratio of the present
scale factor and that of the snapshot, other values and order unchanged.  In a run without cosmology the
reading always panics. -/
theorem remap_data_rescaled (cosmology : Cosmology K) (b : K) (rows : List (Full K)) :
    (cosmology = none → readRemapData cosmology b rows = none) ∧
    (∀ a, cosmology = some a → ∃ l, readRemapData cosmology b rows = some l ∧
      l.length = rows.length ∧ ∀ (i : ℕ) (d : Full K), rows[i]? = some d → ∃ d', l[i]? = some d' ∧
        (∀ k, d'.pos k = a / b * d.pos k) ∧ d'.temperature = d.temperature ∧
        d'.ionizedHydrogenFraction = d.ionizedHydrogenFraction) := by
  constructor
  · rintro rfl
    rfl
  · rintro a rfl
    refine ⟨_, rfl, by simp, ?_⟩
    intro i d hd
    refine ⟨{ d with pos := fun i => d.pos i * (a / b) }, by rw [List.getElem?_map, hd]; rfl, ?_, rfl,
      rfl⟩
    intro k
    exact mul_comm _ _

/-! ### The hypotheses are met -/

/-- A linear search. -/
def scan : Nearest K
  | [], _ => (0, 0)
  | [p], q => (sqDist p q, 0)
  | p :: p' :: ps, q =>
    if sqDist p q ≤ (scan (p' :: ps) q).1 then (sqDist p q, 0)
    else ((scan (p' :: ps) q).1, (scan (p' :: ps) q).2 + 1)

omit [IsStrictOrderedRing K] in
/-- The contract of the k-d tree can be met. -/
theorem scan_contract : NearestContract (scan : Nearest K) := by
  intro ps q
  induction ps with
  | nil => exact fun h => absurd rfl h
  | cons p ps ih =>
    intro _
    cases ps with
    | nil => exact ⟨p, rfl, rfl, by simp⟩
    | cons p1 ps =>
      obtain ⟨x, h1, h2, h3⟩ := ih (by simp)
      unfold scan
      by_cases hc : sqDist p q ≤ (scan (p1 :: ps) q).1
      · rw [if_pos hc]
        refine ⟨p, rfl, rfl, fun p' hp' => ?_⟩
        rcases List.mem_cons.1 hp' with rfl | hp'
        · exact le_refl _
        · exact le_trans hc (h2 ▸ h3 p' hp')
      · rw [if_neg hc]
        refine ⟨x, by simpa using h1, h2, fun p' hp' => ?_⟩
        rcases List.mem_cons.1 hp' with rfl | hp'
        · rw [← h2]
          exact le_of_lt (not_le.1 hc)
        · exact h3 p' hp'

/-- Two ranks, the data split at `x = 5`, one data point outside of the decomposition. -/
def exampleOwner : Vec 3 ℚ → ℕ := fun p => if p 0 < 5 then 0 else if p 0 < 10 then 1 else 7

def exampleData : ℕ → List (Full ℚ)
  | 0 => [⟨![1, 0, 0], 10, 1⟩, ⟨![6, 0, 0], 20, 1 / 2⟩]
  | 1 => [⟨![4, 0, 0], 30, 1 / 4⟩, ⟨![11, 0, 0], 40, 0⟩]
  | _ => []

def exampleParticles : ℕ → List (Particle ℚ)
  | 0 => [⟨3, ![49 / 10, 0, 0], 0, 0⟩, ⟨4, ![52 / 10, 0, 0], 25, 0⟩]
  | 1 => [⟨3, ![49 / 10, 0, 0], 100, 0⟩]
  | _ => []

example : (0 < 2) ∧ NearestContract (scan : Nearest ℚ) ∧
    (∀ r < 2, exchangeAccordingToDomainDecomposition 2 exampleOwner exampleData r ≠ []) ∧
    (∀ r < 2, ((exampleParticles r).map fun p => p.entity).Nodup) := by
  refine ⟨by decide, scan_contract, ?_, by decide⟩
  have h : ∀ r < 2, (exchangeAccordingToDomainDecomposition 2 exampleOwner exampleData r).length ≠ 0 := by
    decide +kernel
  intro r hr h'
  exact h r hr (by rw [h']; rfl)

/-- The second particle of rank 0 gets the fraction of the data point on rank 1, which is nearer than
the nearest one of its own rank, but keeps its higher temperature. -/
example : (remapSystem scan 2 exampleOwner exampleData exampleParticles).map
    (fun l => l.map fun ps => ps.map fun p => (p.temperature, p.ionizedHydrogenFraction))
    = some [[(30, 1 / 4), (25, 1 / 2)], [(100, 1 / 4)]] := by
  decide +kernel

/-- All data on rank 0: rank 1 has none. -/
example : 1 < 2 ∧
    (exchangeAccordingToDomainDecomposition 2 (fun _ => 0) exampleData 1).length = 0 ∧
    0 < 2 ∧ (exampleParticles 0).length ≠ 0 := by
  decide +kernel

example : (readRemapData (some (1 / 2 : ℚ)) (1 / 4) [⟨![1, 2, 3], 10, 1⟩]).map
    (fun l => l.map fun d => (d.pos 0, d.pos 1, d.pos 2)) = some [(2, 4, 6)] := by
  decide +kernel

end Verif.Remap
