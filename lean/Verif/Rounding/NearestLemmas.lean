import Verif.Rounding.NearestModel
import Verif.Rounding.RoundLemmas
import Verif.Remap.Lemmas2
import Verif.Geometry.ExtentProps

/-!
# Remapping from a snapshot in `f64`: helper lemmas, as in `Verif/Remap/Lemmas.lean` and `Verif/Remap/Lemmas2.lean`
-/

namespace Verif.Rounding.Nearest

open Verif.Rounding Verif.Remap
open Verif.Geometry (Vec Extent fromPositions)
open Verif.GridFile (hmInsert hmExtend Keys lookup_hmInsert keys_hmInsert keys_hmExtend
  lookup_hmExtend_nil mem_iff_lookup)

/-- `p'` is `p` after remapping from a data point of smallest computed distance among `all`. -/
def RemappedF (all : List (Full ℚ)) (p p' : Particle ℚ) : Prop :=
  ∃ x ∈ all, (∀ y ∈ all, sqDistF x.pos p.pos ≤ sqDistF y.pos p.pos) ∧
    p'.entity = p.entity ∧ p'.pos = p.pos ∧
    p'.temperature = max p.temperature x.temperature ∧
    p'.ionizedHydrogenFraction = max p.ionizedHydrogenFraction x.ionizedHydrogenFraction

private theorem axis_lower {lo hi y q : ℚ} (h1 : lo ≤ y) (h2 : y ≤ hi) :
    0 ≤ max (max 0 (lo ⊟ q)) (q ⊟ hi) ∧
      max (max 0 (lo ⊟ q)) (q ⊟ hi) ⊠ max (max 0 (lo ⊟ q)) (q ⊟ hi) ≤ (y ⊟ q) ⊠ (y ⊟ q) := by
  have h0 : 0 ≤ max (max 0 (lo ⊟ q)) (q ⊟ hi) := le_max_of_le_left (le_max_left _ _)
  refine ⟨h0, fl_mono ?_⟩
  have hle : max (max 0 (lo ⊟ q)) (q ⊟ hi) ≤ |y ⊟ q| := by
    refine max_le (max_le (abs_nonneg _) ?_) ?_
    · exact (fl_mono (by linarith)).trans (le_abs_self _)
    · have e : q ⊟ y = -(y ⊟ q) := by
        unfold fsub
        rw [← fl_neg, neg_sub]
      exact ((fl_mono (by linarith)).trans e.le).trans (neg_le_abs _)
  calc _ ≤ |y ⊟ q| * |y ⊟ q| := mul_le_mul hle hle h0 (abs_nonneg _)
    _ = (y ⊟ q) * (y ⊟ q) := abs_mul_abs_self _

/-- The computed distance from an extent is not larger than the computed distance from a point in it: rounding is
monotone. -/
theorem squared_distance_lower (e : Extent 3 ℚ) (q y : Vec 3 ℚ) (h : e.contains y) :
    squaredDistanceToPosF e q ≤ sqDistF y q := by
  have a0 := axis_lower (q := q 0) (h 0).1 (h 0).2
  have a1 := axis_lower (q := q 1) (h 1).1 (h 1).2
  have a2 := axis_lower (q := q 2) (h 2).1 (h 2).2
  have z : (0 : ℚ) ⊞ (y 0 ⊟ q 0) ⊠ (y 0 ⊟ q 0) = (y 0 ⊟ q 0) ⊠ (y 0 ⊟ q 0) := by
    unfold fadd
    rw [zero_add]
    exact fl_fl _
  unfold squaredDistanceToPosF sqDistF
  rw [z]
  exact fl_mono (add_le_add (fl_mono (add_le_add a0.2 a1.2)) a2.2)

/-- The reply is the data of a nearest data point. -/
def GoodReply (data : List (Full ℚ)) (q : Vec 3 ℚ) (rep : Reply ℚ) : Prop :=
  ∃ x ∈ data, rep = ⟨sqDistF x.pos q, x.temperature, x.ionizedHydrogenFraction⟩ ∧
    ∀ y ∈ data, sqDistF x.pos q ≤ sqDistF y.pos q

private theorem getReply_spec (nearest : Nearest ℚ) (hn : NearestContractF nearest) (data : List (Full ℚ))
    (hd : data ≠ []) (q : Vec 3 ℚ) : ∃ rep, getReply nearest data q = some rep ∧ GoodReply data q rep := by
  obtain ⟨p, h1, h2, h3⟩ := hn (data.map fun d => d.pos) q (by simpa using hd)
  rw [List.getElem?_map, Option.map_eq_some_iff] at h1
  obtain ⟨x, hx, rfl⟩ := h1
  refine ⟨⟨sqDistF x.pos q, x.temperature, x.ionizedHydrogenFraction⟩, ?_, x, List.mem_of_getElem? hx,
    rfl, fun y hy => h3 _ (List.mem_map.2 ⟨y, hy, rfl⟩)⟩
  unfold getReply
  show ((data[(nearest (data.map fun d => d.pos) q).2]?).bind fun d => _) = _
  rw [hx, ← h2]
  rfl

/-- The state of the merging: for every request of the chunk the map holds a true distance. -/
structure Merged (all : List (Full ℚ)) (chunk : List (Request ℚ)) (m : ClosestMap ℚ) : Prop where
  keys : Keys m
  dom : ∀ e, (List.lookup e m).isSome = true ↔ e ∈ chunk.map Prod.fst
  good : ∀ e q, (e, q) ∈ chunk → ∃ x ∈ all,
    List.lookup e m = some ⟨sqDistF x.pos q, x.temperature, x.ionizedHydrogenFraction⟩

private theorem initialClosest_spec (nearest : Nearest ℚ) (hn : NearestContractF nearest) (data : List (Full ℚ))
    (hd : data ≠ []) (chunk : List (Request ℚ)) (hc : (chunk.map Prod.fst).Nodup) :
    ∃ m, initialClosest nearest data chunk = some m ∧ Keys m ∧
      (∀ e, (List.lookup e m).isSome = true ↔ e ∈ chunk.map Prod.fst) ∧
      ∀ e q, (e, q) ∈ chunk → ∃ rep, List.lookup e m = some rep ∧ GoodReply data q rep := by
  have hl : ∃ l, (chunk.mapM fun request =>
        (getReply nearest data request.2).map fun reply => (request.1, reply)) = some l ∧
      l.map Prod.fst = chunk.map Prod.fst ∧
      ∀ e q, (e, q) ∈ chunk → ∃ rep, (e, rep) ∈ l ∧ GoodReply data q rep := by
    clear hc
    induction chunk with
    | nil => exact ⟨[], rfl, rfl, by simp⟩
    | cons c chunk ih =>
      obtain ⟨l, h1, h2, h3⟩ := ih
      obtain ⟨rep, hr, hg⟩ := getReply_spec nearest hn data hd c.2
      refine ⟨(c.1, rep) :: l, by rw [List.mapM_cons, h1, hr]; rfl, by simp [h2], ?_⟩
      intro e q h
      rcases List.mem_cons.1 h with rfl | h
      · exact ⟨rep, List.mem_cons_self, hg⟩
      · obtain ⟨rep', h', hg'⟩ := h3 e q h
        exact ⟨rep', List.mem_cons_of_mem _ h', hg'⟩
  obtain ⟨l, h1, h2, h3⟩ := hl
  have hk : Keys l := by
    unfold Keys
    rw [h2]
    exact hc
  refine ⟨hmExtend [] l, ?_, keys_hmExtend _ _ List.nodup_nil, ?_, ?_⟩
  · unfold initialClosest
    rw [h1]
    rfl
  · intro e
    rw [Option.isSome_iff_exists, ← h2, List.mem_map]
    constructor
    · rintro ⟨rep, h⟩
      exact ⟨(e, rep), (lookup_hmExtend_nil l hk e rep).1 h, rfl⟩
    · rintro ⟨⟨e', rep⟩, h, rfl⟩
      exact ⟨rep, (lookup_hmExtend_nil l hk e' rep).2 h⟩
  · intro e q h
    obtain ⟨rep, h', hg⟩ := h3 e q h
    exact ⟨rep, (lookup_hmExtend_nil l hk e rep).2 h', hg⟩

/-- The replies from rank `s`: each is a nearest data point of `s` for a request of the chunk, and a
request without a reply has a local particle at least as close as everything on `s`. -/
private theorem repliesFrom_spec (nearest : Nearest ℚ) (hn : NearestContractF nearest)
    (data : ℕ → List (Full ℚ)) (s : ℕ) (hd : data s ≠ []) (closest : ClosestMap ℚ)
    (chunk : List (Request ℚ))
    (hdom : ∀ e q, (e, q) ∈ chunk → ∃ rep, List.lookup e closest = some rep) :
    ∃ l, repliesFromF nearest data closest chunk s = some l ∧
      (∀ e rep, (e, rep) ∈ l → ∃ q, (e, q) ∈ chunk ∧ GoodReply (data s) q rep) ∧
      (∀ e q, (e, q) ∈ chunk → (∃ rep, (e, rep) ∈ l ∧ GoodReply (data s) q rep) ∨
        ∃ rep, List.lookup e closest = some rep ∧
          ∀ y ∈ data s, rep.squaredDistance ≤ sqDistF y.pos q) := by
  obtain ⟨ext, hext, hcont, hle⟩ : ∃ ext, exchangeExtents data s = some ext ∧
      (∀ y ∈ data s, ext.contains y.pos) ∧ (∀ i, ext.min i ≤ ext.max i) := by
    rcases Verif.Geometry.bounding_extent_smallest ((data s).map fun d => d.pos) with
      ⟨h, _⟩ | ⟨e, h1, _, h3, _, h5⟩
    · simp at h
      exact absurd h hd
    · exact ⟨e, h1, fun y hy => h3 _ (List.mem_map.2 ⟨y, hy, rfl⟩), h5⟩
  have hw : ∀ c ∈ chunk, ∃ b, wantsRequestF ext closest c = some b ∧ True := by
    intro c hc
    obtain ⟨rep, hr⟩ := hdom c.1 c.2 hc
    exact ⟨closerF ext c.2 rep.squaredDistance,
      by unfold wantsRequestF; rw [hr]; rfl, trivial⟩
  obtain ⟨ws, hws, _⟩ := mapM_forall _ _ chunk hw
  let out := (chunk.zip ws).filterMap (fun x => if x.2 then some x.1 else none)
  have hout : ∀ a, a ∈ out ↔ a ∈ chunk ∧ wantsRequestF ext closest a = some true :=
    filter_zip_aux _ chunk ws hws
  have hgo : getOutgoingRequestsF (exchangeExtents data) closest chunk s = some out := by
    unfold getOutgoingRequestsF
    rw [hext]
    show ((chunk.mapM (wantsRequestF ext closest)).bind fun wants => _) = _
    rw [hws]
    rfl
  obtain ⟨l, hl, _, h3, h4⟩ := mapM_forall (fun request : Request ℚ =>
      (getReply nearest (data s) request.2).map fun reply => (request.1, reply))
    (fun a b => b.1 = a.1 ∧ GoodReply (data s) a.2 b.2) out (by
      intro a _
      obtain ⟨rep, hr, hg⟩ := getReply_spec nearest hn (data s) hd a.2
      exact ⟨(a.1, rep), by rw [hr]; rfl, rfl, hg⟩)
  refine ⟨l, ?_, ?_, ?_⟩
  · unfold repliesFromF
    rw [hgo]
    exact hl
  · intro e rep h
    obtain ⟨⟨e', q⟩, ha, _, he, hg⟩ := h4 (e, rep) h
    dsimp only at he
    subst he
    exact ⟨q, ((hout _).1 ha).1, hg⟩
  · intro e q hcq
    by_cases hwt : wantsRequestF ext closest (e, q) = some true
    · obtain ⟨⟨e', rep⟩, hb, _, he, hg⟩ := h3 (e, q) ((hout _).2 ⟨hcq, hwt⟩)
      dsimp only at he
      subst he
      exact Or.inl ⟨rep, hb, hg⟩
    · right
      obtain ⟨rep, hr⟩ := hdom e q hcq
      refine ⟨rep, hr, fun y hy => ?_⟩
      have h1 : ¬ squaredDistanceToPosF ext q < rep.squaredDistance := by
        intro h
        apply hwt
        unfold wantsRequestF
        rw [hr]
        show some (closerF ext q rep.squaredDistance) = some true
        simp [closerF, h]
      exact le_trans (not_lt.1 h1)
        (squared_distance_lower ext q y.pos (hcont y hy))

private theorem merge_spec (all : List (Full ℚ)) (chunk : List (Request ℚ)) (hc : (chunk.map Prod.fst).Nodup)
    (l : List (ℕ × Reply ℚ))
    (hl : ∀ e rep, (e, rep) ∈ l → ∃ q, (e, q) ∈ chunk ∧ ∃ x ∈ all,
      rep = ⟨sqDistF x.pos q, x.temperature, x.ionizedHydrogenFraction⟩) :
    ∀ m, Merged all chunk m → ∃ m', l.foldlM mergeReply m = some m' ∧ Merged all chunk m' ∧
      (∀ e rep, List.lookup e m = some rep → ∃ rep', List.lookup e m' = some rep' ∧
        rep'.squaredDistance ≤ rep.squaredDistance) ∧
      (∀ e rep, (e, rep) ∈ l → ∃ rep', List.lookup e m' = some rep' ∧
        rep'.squaredDistance ≤ rep.squaredDistance) := by
  induction l with
  | nil =>
    intro m hm
    exact ⟨m, rfl, hm, fun e rep h => ⟨rep, h, le_refl _⟩, by simp⟩
  | cons a l ih =>
    obtain ⟨e, rep⟩ := a
    intro m hm
    obtain ⟨q, hq, x, hx, hrep⟩ := hl e rep List.mem_cons_self
    obtain ⟨x0, hx0, hlook⟩ := hm.good e q hq
    have step : ∃ m1, mergeReply m (e, rep) = some m1 ∧ Merged all chunk m1 ∧
        (∀ e' r', List.lookup e' m = some r' → ∃ r'', List.lookup e' m1 = some r'' ∧
          r''.squaredDistance ≤ r'.squaredDistance) ∧
        (∃ r'', List.lookup e m1 = some r'' ∧ r''.squaredDistance ≤ rep.squaredDistance) := by
      unfold mergeReply
      rw [hlook]
      show ∃ m1, (if _ > rep.squaredDistance then some (hmInsert m e rep) else some m) = some m1 ∧ _
      by_cases hlt : sqDistF x0.pos q > rep.squaredDistance
      · refine ⟨hmInsert m e rep, by rw [if_pos hlt], ⟨keys_hmInsert _ _ _ hm.keys, ?_, ?_⟩, ?_, ?_⟩
        · intro e'
          rw [lookup_hmInsert]
          by_cases he : e' = e
          · rw [if_pos he, he]
            exact ⟨fun _ => List.mem_map.2 ⟨(e, q), hq, rfl⟩, fun _ => rfl⟩
          · rw [if_neg he]
            exact hm.dom e'
        · intro e' q' hq'
          rw [lookup_hmInsert]
          by_cases he : e' = e
          · subst he
            rw [if_pos rfl, ← chunk_inj chunk hc hq hq']
            exact ⟨x, hx, by rw [hrep]⟩
          · rw [if_neg he]
            exact hm.good e' q' hq'
        · intro e' r' h
          rw [lookup_hmInsert]
          by_cases he : e' = e
          · subst he
            rw [if_pos rfl]
            rw [hlook] at h
            cases h
            exact ⟨rep, rfl, le_of_lt hlt⟩
          · rw [if_neg he]
            exact ⟨r', h, le_refl _⟩
        · exact ⟨rep, by rw [lookup_hmInsert, if_pos rfl], le_refl _⟩
      · exact ⟨m, by rw [if_neg hlt], hm, fun e' r' h => ⟨r', h, le_refl _⟩, _, hlook, not_lt.1 hlt⟩
    obtain ⟨m1, h1, hm1, hmono, hthis⟩ := step
    obtain ⟨m', h', hm', hmono', hall⟩ := ih (fun e r h => hl e r (List.mem_cons_of_mem _ h)) m1 hm1
    refine ⟨m', by rw [List.foldlM_cons, h1]; exact h', hm', ?_, ?_⟩
    · intro e' r' h
      obtain ⟨r1, hr1, hle1⟩ := hmono e' r' h
      obtain ⟨r2, hr2, hle2⟩ := hmono' e' r1 hr1
      exact ⟨r2, hr2, le_trans hle2 hle1⟩
    · intro e' r' h
      rcases List.mem_cons.1 h with he | h
      · rw [Prod.mk.injEq] at he
        obtain ⟨rfl, rfl⟩ := he
        obtain ⟨r1, hr1, hle1⟩ := hthis
        obtain ⟨r2, hr2, hle2⟩ := hmono' _ r1 hr1
        exact ⟨r2, hr2, le_trans hle2 hle1⟩
      · exact hall e' r' h

/-- What a step does to a particle: nothing unless it is in the chunk. -/
structure StepFor (all : List (Full ℚ)) (chunk : List (Request ℚ)) (g : Particle ℚ → Particle ℚ) :
    Prop where
  entity : ∀ p, (g p).entity = p.entity
  other : ∀ p, p.entity ∉ chunk.map Prod.fst → g p = p
  mine : ∀ p, (p.entity, p.pos) ∈ chunk → RemappedF all p (g p)

private theorem exchangeRequestChunk_spec (nearest : Nearest ℚ) (hn : NearestContractF nearest) (W : ℕ)
    (data : ℕ → List (Full ℚ)) (hd : ∀ s < W, data s ≠ []) (r : ℕ) (hr : r < W)
    (chunk : List (Request ℚ)) (hc : (chunk.map Prod.fst).Nodup) (ps : List (Particle ℚ))
    (hps : ∀ e ∈ chunk.map Prod.fst, e ∈ ps.map fun p => p.entity) :
    ∃ g, exchangeRequestChunkF nearest W data r ps chunk = some (ps.map g) ∧
      StepFor (allData W data) chunk g := by
  obtain ⟨m0, h0, hk0, hdom0, hgood0⟩ := initialClosest_spec nearest hn (data r) (hd r hr) chunk hc
  have hM0 : Merged (allData W data) chunk m0 := by
    refine ⟨hk0, hdom0, fun e q h => ?_⟩
    obtain ⟨rep, hl, x, hx, hrep, _⟩ := hgood0 e q h
    exact ⟨x, mem_allData.2 ⟨r, hr, hx⟩, by rw [hl, hrep]⟩
  obtain ⟨inc, hinc, _, hin1, hin2⟩ := mapM_forall (repliesFromF nearest data m0 chunk)
    (fun s l => (∀ e rep, (e, rep) ∈ l → ∃ q, (e, q) ∈ chunk ∧ GoodReply (data s) q rep) ∧
      (∀ e q, (e, q) ∈ chunk → (∃ rep, (e, rep) ∈ l ∧ GoodReply (data s) q rep) ∨
        ∃ rep, List.lookup e m0 = some rep ∧
          ∀ y ∈ data s, rep.squaredDistance ≤ sqDistF y.pos q))
    ((List.range W).filter fun s => s ≠ r) (by
      intro s hs
      rw [List.mem_filter, List.mem_range] at hs
      exact repliesFrom_spec nearest hn data s (hd s hs.1) m0 chunk (fun e q h => by
        obtain ⟨rep, hl, _⟩ := hgood0 e q h
        exact ⟨rep, hl⟩))
  obtain ⟨m, hm, hM, hmono, hall⟩ := merge_spec (allData W data) chunk hc inc.flatten (by
    intro e rep h
    obtain ⟨l, hl, h⟩ := List.mem_flatten.1 h
    obtain ⟨s, hs, _, h1, _⟩ := hin2 l hl
    rw [List.mem_filter, List.mem_range] at hs
    obtain ⟨q, hq, x, hx, hrep, _⟩ := h1 e rep h
    exact ⟨q, hq, x, mem_allData.2 ⟨s, hs.1, hx⟩, hrep⟩) m0 hM0
  have hdomm : ∀ e, e ∈ m.map Prod.fst ↔ e ∈ chunk.map Prod.fst := by
    intro e
    rw [← hM.dom e, Option.isSome_iff_exists, List.mem_map]
    constructor
    · rintro ⟨⟨e', rep⟩, h, rfl⟩
      exact ⟨rep, (mem_iff_lookup m hM.keys _ _).1 h⟩
    · rintro ⟨rep, h⟩
      exact ⟨(e, rep), (mem_iff_lookup m hM.keys _ _).2 h, rfl⟩
  refine ⟨remapWith m, ?_, ?_⟩
  · unfold exchangeRequestChunkF
    rw [h0]
    show ((((List.range W).filter fun s => s ≠ r).mapM (repliesFromF nearest data m0 chunk)).bind
      fun incoming => _) = _
    rw [hinc]
    show ((inc.flatten.foldlM mergeReply m0).bind fun closest => _) = _
    rw [hm]
    exact applyClosest_spec m hM.keys ps (fun e he => hps e ((hdomm e).1 he))
  · refine ⟨?_, ?_, ?_⟩
    · intro p
      unfold remapWith
      split <;> rfl
    · intro p hp
      unfold remapWith
      cases hl : List.lookup p.entity m with
      | none => rfl
      | some rep => exact absurd ((hM.dom _).1 (by rw [hl]; rfl)) hp
    · intro p hp
      unfold remapWith
      obtain ⟨x, hx, hl⟩ := hM.good _ _ hp
      rw [hl]
      refine ⟨x, hx, ?_, rfl, rfl, rfl, rfl⟩
      have hfin : ∀ rep, List.lookup p.entity m = some rep → rep.squaredDistance = sqDistF x.pos p.pos := by
        intro rep h
        rw [hl] at h
        cases h
        rfl
      intro y hy
      obtain ⟨s, hs, hy⟩ := mem_allData.1 hy
      obtain ⟨rep0, hl0, x0, hx0, hrep0, hmin0⟩ := hgood0 _ _ hp
      obtain ⟨rep1, hl1, hle1⟩ := hmono _ _ hl0
      by_cases hsr : s = r
      · subst hsr
        rw [← hfin _ hl1]
        refine le_trans hle1 ?_
        rw [hrep0]
        exact hmin0 y hy
      · obtain ⟨l, hlm, _, _, h2⟩ := hin1 s (by
          rw [List.mem_filter, List.mem_range]
          exact ⟨hs, by simpa using hsr⟩)
        rcases h2 _ _ hp with ⟨rep, hrl, x', hx', hrep', hmin'⟩ | ⟨rep, hl0', hle⟩
        · obtain ⟨rep2, hl2, hle2⟩ := hall _ _ (List.mem_flatten.2 ⟨l, hlm, hrl⟩)
          rw [← hfin _ hl2]
          refine le_trans hle2 ?_
          rw [hrep']
          exact hmin' y hy
        · rw [hl0] at hl0'
          cases hl0'
          rw [← hfin _ hl1]
          exact le_trans hle1 (hle y hy)

theorem chunks_fold_f64 (nearest : Nearest ℚ) (hn : NearestContractF nearest) (W : ℕ)
    (data : ℕ → List (Full ℚ)) (hd : ∀ s < W, data s ≠ []) (r : ℕ) (hr : r < W)
    (chunks : List (List (Request ℚ))) : ∀ (ps : List (Particle ℚ)),
    (chunks.flatten.map Prod.fst).Nodup →
    (∀ e ∈ chunks.flatten.map Prod.fst, e ∈ ps.map fun p => p.entity) →
    ∃ g, chunks.foldlM (exchangeRequestChunkF nearest W data r) ps = some (ps.map g) ∧
      StepFor (allData W data) chunks.flatten g := by
  induction chunks with
  | nil =>
    intro ps _ _
    refine ⟨id, by simp, fun p => rfl, fun p _ => rfl, fun p h => ?_⟩
    simp at h
  | cons c cs ih =>
    intro ps hnd hps
    rw [List.flatten_cons, List.map_append] at hnd hps
    rw [List.nodup_append] at hnd
    obtain ⟨g1, h1, s1⟩ := exchangeRequestChunk_spec nearest hn W data hd r hr c hnd.1 ps
      (fun e he => hps e (List.mem_append.2 (Or.inl he)))
    obtain ⟨g2, h2, s2⟩ := ih (ps.map g1) hnd.2.1 (by
      intro e he
      rw [List.map_map]
      have : ((fun p : Particle ℚ => p.entity) ∘ g1) = fun p => p.entity := by
        funext p
        exact s1.entity p
      rw [this]
      exact hps e (List.mem_append.2 (Or.inr he)))
    refine ⟨g2 ∘ g1, ?_, ?_, ?_, ?_⟩
    · rw [List.foldlM_cons, h1]
      show cs.foldlM _ (ps.map g1) = _
      rw [h2, List.map_map]
    · intro p
      show (g2 (g1 p)).entity = p.entity
      rw [s2.entity, s1.entity]
    · intro p hp
      rw [List.flatten_cons, List.map_append, List.mem_append, not_or] at hp
      show g2 (g1 p) = p
      rw [s1.other p hp.1, s2.other p hp.2]
    · intro p hp
      rw [List.flatten_cons, List.mem_append] at hp
      show RemappedF _ p (g2 (g1 p))
      have hkey : ∀ l : List (Request ℚ), (p.entity, p.pos) ∈ l → p.entity ∈ l.map Prod.fst :=
        fun l h => List.mem_map.2 ⟨_, h, rfl⟩
      by_cases h : (p.entity, p.pos) ∈ c
      · have hm := s1.mine p h
        rw [s2.other (g1 p) ?_]
        · exact hm
        · rw [s1.entity]
          intro h'
          exact hnd.2.2 _ (hkey _ h) _ h' rfl
      · have h' := hp.resolve_left h
        rw [s1.other p (fun h'' => hnd.2.2 _ h'' _ (hkey _ h') rfl)]
        exact s2.mine p h'


end Verif.Rounding.Nearest
