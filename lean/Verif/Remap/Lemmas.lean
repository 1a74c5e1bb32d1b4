import Verif.Remap.Spec
import Verif.GridFile.Lemmas
import Verif.Geometry.ExtentProps
import Verif.Comm.CollectiveProps

/-!
# Remapping from a snapshot: helper lemmas
-/

namespace Verif.Remap

open Verif.Geometry (Vec Extent fromPositions)
open Verif.GridFile (hmInsert hmExtend Keys lookup_hmInsert keys_hmInsert keys_hmExtend
  lookup_hmExtend_nil mem_iff_lookup)

variable {K : Type} [Field K] [LinearOrder K]

theorem mapM_forall {α β : Type} (f : α → Option β) (P : α → β → Prop) (l : List α)
    (h : ∀ a ∈ l, ∃ b, f a = some b ∧ P a b) :
    ∃ l', l.mapM f = some l' ∧ l'.length = l.length ∧
      (∀ a ∈ l, ∃ b ∈ l', f a = some b ∧ P a b) ∧ (∀ b ∈ l', ∃ a ∈ l, f a = some b ∧ P a b) := by
  induction l with
  | nil => exact ⟨[], rfl, rfl, by simp, by simp⟩
  | cons a l ih =>
    obtain ⟨l', h1, h2, h3, h4⟩ := ih (fun x hx => h x (List.mem_cons_of_mem _ hx))
    obtain ⟨b, hb, hP⟩ := h a List.mem_cons_self
    refine ⟨b :: l', by rw [List.mapM_cons, hb, h1]; rfl, by simp [h2], ?_, ?_⟩
    · intro x hx
      rcases List.mem_cons.1 hx with rfl | hx
      · exact ⟨b, List.mem_cons_self, hb, hP⟩
      · obtain ⟨y, hy, hy'⟩ := h3 x hx
        exact ⟨y, List.mem_cons_of_mem _ hy, hy'⟩
    · intro y hy
      rcases List.mem_cons.1 hy with rfl | hy
      · exact ⟨a, List.mem_cons_self, hb, hP⟩
      · obtain ⟨x, hx, hx'⟩ := h4 y hy
        exact ⟨x, List.mem_cons_of_mem _ hx, hx'⟩

/-- The reply is the data of a nearest data point. -/
def GoodReply (data : List (Full K)) (q : Vec 3 K) (rep : Reply K) : Prop :=
  ∃ x ∈ data, rep = ⟨sqDist x.pos q, x.temperature, x.ionizedHydrogenFraction⟩ ∧
    ∀ y ∈ data, sqDist x.pos q ≤ sqDist y.pos q

theorem getReply_spec (nearest : Nearest K) (hn : NearestContract nearest) (data : List (Full K))
    (hd : data ≠ []) (q : Vec 3 K) : ∃ rep, getReply nearest data q = some rep ∧ GoodReply data q rep := by
  obtain ⟨p, h1, h2, h3⟩ := hn (data.map fun d => d.pos) q (by simpa using hd)
  rw [List.getElem?_map, Option.map_eq_some_iff] at h1
  obtain ⟨x, hx, rfl⟩ := h1
  refine ⟨⟨sqDist x.pos q, x.temperature, x.ionizedHydrogenFraction⟩, ?_, x, List.mem_of_getElem? hx,
    rfl, fun y hy => h3 _ (List.mem_map.2 ⟨y, hy, rfl⟩)⟩
  unfold getReply
  show ((data[(nearest (data.map fun d => d.pos) q).2]?).bind fun d => _) = _
  rw [hx, ← h2]
  rfl

/-- The state of the merging: for every request of the chunk the map holds a true distance. -/
structure Merged (all : List (Full K)) (chunk : List (Request K)) (m : ClosestMap K) : Prop where
  keys : Keys m
  dom : ∀ e, (List.lookup e m).isSome = true ↔ e ∈ chunk.map Prod.fst
  good : ∀ e q, (e, q) ∈ chunk → ∃ x ∈ all,
    List.lookup e m = some ⟨sqDist x.pos q, x.temperature, x.ionizedHydrogenFraction⟩

theorem chunk_inj (chunk : List (Request K)) (hc : (chunk.map Prod.fst).Nodup) {e : ℕ} {q q' : Vec 3 K}
    (h : (e, q) ∈ chunk) (h' : (e, q') ∈ chunk) : q = q' := by
  have := List.inj_on_of_nodup_map hc h h' rfl
  exact (Prod.mk.injEq _ _ _ _ ▸ this : e = e ∧ q = q').2

theorem mem_chunk_of_key {chunk : List (Request K)} {e : ℕ} (h : e ∈ chunk.map Prod.fst) :
    ∃ q, (e, q) ∈ chunk := by
  obtain ⟨⟨e', q⟩, hm, rfl⟩ := List.mem_map.1 h
  exact ⟨q, hm⟩

theorem initialClosest_spec (nearest : Nearest K) (hn : NearestContract nearest) (data : List (Full K))
    (hd : data ≠ []) (chunk : List (Request K)) (hc : (chunk.map Prod.fst).Nodup) :
    ∃ m, initialClosest nearest data chunk = some m ∧ Keys m ∧
      (∀ e, (List.lookup e m).isSome = true ↔ e ∈ chunk.map Prod.fst) ∧
      ∀ e q, (e, q) ∈ chunk → ∃ rep, List.lookup e m = some rep ∧ GoodReply data q rep := by
  have hl : ∃ l, (chunk.mapM fun request =>
        (getReply nearest data request.2).map fun reply => (request.1, reply)) = some l ∧
      l.map Prod.fst = chunk.map Prod.fst ∧
      ∀ e q, (e, q) ∈ chunk → ∃ rep, (e, rep) ∈ l ∧ GoodReply data q rep := by
    clear hc
    induction chunk with
    | nil => exact ⟨[], rfl, rfl, by simp⟩
    | cons c chunk ih =>
      obtain ⟨l, h1, h2, h3⟩ := ih
      obtain ⟨rep, hr, hg⟩ := getReply_spec nearest hn data hd c.2
      refine ⟨(c.1, rep) :: l, by rw [List.mapM_cons, h1, hr]; rfl, by simp [h2], ?_⟩
      intro e q h
      rcases List.mem_cons.1 h with rfl | h
      · exact ⟨rep, List.mem_cons_self, hg⟩
      · obtain ⟨rep', h', hg'⟩ := h3 e q h
        exact ⟨rep', List.mem_cons_of_mem _ h', hg'⟩
  obtain ⟨l, h1, h2, h3⟩ := hl
  have hk : Keys l := by
    unfold Keys
    rw [h2]
    exact hc
  refine ⟨hmExtend [] l, ?_, keys_hmExtend _ _ List.nodup_nil, ?_, ?_⟩
  · unfold initialClosest
    rw [h1]
    rfl
  · intro e
    rw [Option.isSome_iff_exists, ← h2, List.mem_map]
    constructor
    · rintro ⟨rep, h⟩
      exact ⟨(e, rep), (lookup_hmExtend_nil l hk e rep).1 h, rfl⟩
    · rintro ⟨⟨e', rep⟩, h, rfl⟩
      exact ⟨rep, (lookup_hmExtend_nil l hk e' rep).2 h⟩
  · intro e q h
    obtain ⟨rep, h', hg⟩ := h3 e q h
    exact ⟨rep, (lookup_hmExtend_nil l hk e rep).2 h', hg⟩

theorem filter_zip_aux {α : Type} (f : α → Option Bool) (l : List α) :
    ∀ ws, l.mapM f = some ws → ∀ a, a ∈ (l.zip ws).filterMap (fun x => if x.2 then some x.1 else none) ↔
      a ∈ l ∧ f a = some true := by
  induction l with
  | nil =>
    intro ws h a
    simp
  | cons x l ih =>
    intro ws h a
    rw [List.mapM_cons] at h
    cases hx : f x with
    | none => rw [hx] at h; cases h
    | some b =>
      rw [hx] at h
      cases hl : l.mapM f with
      | none => rw [hl] at h; cases h
      | some ws' =>
        rw [hl] at h
        cases h
        have ih := ih ws' hl a
        rw [List.zip_cons_cons, List.filterMap_cons, List.mem_cons]
        cases b with
        | true =>
          simp only [if_true, List.mem_cons, ih]
          constructor
          · rintro (rfl | h)
            · exact ⟨Or.inl rfl, hx⟩
            · exact ⟨Or.inr h.1, h.2⟩
          · rintro ⟨rfl | h, h'⟩
            · exact Or.inl rfl
            · exact Or.inr ⟨h, h'⟩
        | false =>
          simp only [Bool.false_eq_true, if_false, ih]
          constructor
          · rintro ⟨h, h'⟩
            exact ⟨Or.inr h, h'⟩
          · rintro ⟨rfl | h, h'⟩
            · rw [hx] at h'
              cases h'
            · exact ⟨h, h'⟩

variable [IsStrictOrderedRing K]

/-- The replies from rank `s`: each is a nearest data point of `s` for a request of the chunk, and a
request without a reply has a local particle at least as close as everything on `s`. -/
theorem repliesFrom_spec (nearest : Nearest K) (hn : NearestContract nearest)
    (data : ℕ → List (Full K)) (s : ℕ) (hd : data s ≠ []) (closest : ClosestMap K)
    (chunk : List (Request K))
    (hdom : ∀ e q, (e, q) ∈ chunk → ∃ rep, List.lookup e closest = some rep) :
    ∃ l, repliesFrom nearest data closest chunk s = some l ∧
      (∀ e rep, (e, rep) ∈ l → ∃ q, (e, q) ∈ chunk ∧ GoodReply (data s) q rep) ∧
      (∀ e q, (e, q) ∈ chunk → (∃ rep, (e, rep) ∈ l ∧ GoodReply (data s) q rep) ∨
        ∃ rep, List.lookup e closest = some rep ∧
          ∀ y ∈ data s, rep.squaredDistance ≤ sqDist y.pos q) := by
  obtain ⟨ext, hext, hcont, hle⟩ : ∃ ext, exchangeExtents data s = some ext ∧
      (∀ y ∈ data s, ext.contains y.pos) ∧ (∀ i, ext.min i ≤ ext.max i) := by
    rcases Verif.Geometry.bounding_extent_smallest ((data s).map fun d => d.pos) with
      ⟨h, _⟩ | ⟨e, h1, _, h3, _, h5⟩
    · simp at h
      exact absurd h hd
    · exact ⟨e, h1, fun y hy => h3 _ (List.mem_map.2 ⟨y, hy, rfl⟩), h5⟩
  have hw : ∀ c ∈ chunk, ∃ b, wantsRequest ext closest c = some b ∧ True := by
    intro c hc
    obtain ⟨rep, hr⟩ := hdom c.1 c.2 hc
    exact ⟨closerParticleCouldExistOnOtherRank ext c.2 rep.squaredDistance,
      by unfold wantsRequest; rw [hr]; rfl, trivial⟩
  obtain ⟨ws, hws, _⟩ := mapM_forall _ _ chunk hw
  let out := (chunk.zip ws).filterMap (fun x => if x.2 then some x.1 else none)
  have hout : ∀ a, a ∈ out ↔ a ∈ chunk ∧ wantsRequest ext closest a = some true :=
    filter_zip_aux _ chunk ws hws
  have hgo : getOutgoingRequests (exchangeExtents data) closest chunk s = some out := by
    unfold getOutgoingRequests
    rw [hext]
    show ((chunk.mapM (wantsRequest ext closest)).bind fun wants => _) = _
    rw [hws]
    rfl
  obtain ⟨l, hl, _, h3, h4⟩ := mapM_forall (fun request : Request K =>
      (getReply nearest (data s) request.2).map fun reply => (request.1, reply))
    (fun a b => b.1 = a.1 ∧ GoodReply (data s) a.2 b.2) out (by
      intro a _
      obtain ⟨rep, hr, hg⟩ := getReply_spec nearest hn (data s) hd a.2
      exact ⟨(a.1, rep), by rw [hr]; rfl, rfl, hg⟩)
  refine ⟨l, ?_, ?_, ?_⟩
  · unfold repliesFrom
    rw [hgo]
    exact hl
  · intro e rep h
    obtain ⟨⟨e', q⟩, ha, _, he, hg⟩ := h4 (e, rep) h
    dsimp only at he
    subst he
    exact ⟨q, ((hout _).1 ha).1, hg⟩
  · intro e q hcq
    by_cases hwt : wantsRequest ext closest (e, q) = some true
    · obtain ⟨⟨e', rep⟩, hb, _, he, hg⟩ := h3 (e, q) ((hout _).2 ⟨hcq, hwt⟩)
      dsimp only at he
      subst he
      exact Or.inl ⟨rep, hb, hg⟩
    · right
      obtain ⟨rep, hr⟩ := hdom e q hcq
      refine ⟨rep, hr, fun y hy => ?_⟩
      have h1 : ¬ ext.squaredDistanceToPos q < rep.squaredDistance := by
        intro h
        apply hwt
        unfold wantsRequest
        rw [hr]
        show some (closerParticleCouldExistOnOtherRank ext q rep.squaredDistance) = some true
        simp [closerParticleCouldExistOnOtherRank, h]
      exact le_trans (not_lt.1 h1)
        ((Verif.Geometry.squared_distance_is_minimal ext q hle).1 y.pos (hcont y hy))

omit [IsStrictOrderedRing K] in
theorem merge_spec (all : List (Full K)) (chunk : List (Request K)) (hc : (chunk.map Prod.fst).Nodup)
    (l : List (ℕ × Reply K))
    (hl : ∀ e rep, (e, rep) ∈ l → ∃ q, (e, q) ∈ chunk ∧ ∃ x ∈ all,
      rep = ⟨sqDist x.pos q, x.temperature, x.ionizedHydrogenFraction⟩) :
    ∀ m, Merged all chunk m → ∃ m', l.foldlM mergeReply m = some m' ∧ Merged all chunk m' ∧
      (∀ e rep, List.lookup e m = some rep → ∃ rep', List.lookup e m' = some rep' ∧
        rep'.squaredDistance ≤ rep.squaredDistance) ∧
      (∀ e rep, (e, rep) ∈ l → ∃ rep', List.lookup e m' = some rep' ∧
        rep'.squaredDistance ≤ rep.squaredDistance) := by
  induction l with
  | nil =>
    intro m hm
    exact ⟨m, rfl, hm, fun e rep h => ⟨rep, h, le_refl _⟩, by simp⟩
  | cons a l ih =>
    obtain ⟨e, rep⟩ := a
    intro m hm
    obtain ⟨q, hq, x, hx, hrep⟩ := hl e rep List.mem_cons_self
    obtain ⟨x0, hx0, hlook⟩ := hm.good e q hq
    have step : ∃ m1, mergeReply m (e, rep) = some m1 ∧ Merged all chunk m1 ∧
        (∀ e' r', List.lookup e' m = some r' → ∃ r'', List.lookup e' m1 = some r'' ∧
          r''.squaredDistance ≤ r'.squaredDistance) ∧
        (∃ r'', List.lookup e m1 = some r'' ∧ r''.squaredDistance ≤ rep.squaredDistance) := by
      unfold mergeReply
      rw [hlook]
      show ∃ m1, (if _ > rep.squaredDistance then some (hmInsert m e rep) else some m) = some m1 ∧ _
      by_cases hlt : sqDist x0.pos q > rep.squaredDistance
      · refine ⟨hmInsert m e rep, by rw [if_pos hlt], ⟨keys_hmInsert _ _ _ hm.keys, ?_, ?_⟩, ?_, ?_⟩
        · intro e'
          rw [lookup_hmInsert]
          by_cases he : e' = e
          · rw [if_pos he, he]
            exact ⟨fun _ => List.mem_map.2 ⟨(e, q), hq, rfl⟩, fun _ => rfl⟩
          · rw [if_neg he]
            exact hm.dom e'
        · intro e' q' hq'
          rw [lookup_hmInsert]
          by_cases he : e' = e
          · subst he
            rw [if_pos rfl, ← chunk_inj chunk hc hq hq']
            exact ⟨x, hx, by rw [hrep]⟩
          · rw [if_neg he]
            exact hm.good e' q' hq'
        · intro e' r' h
          rw [lookup_hmInsert]
          by_cases he : e' = e
          · subst he
            rw [if_pos rfl]
            rw [hlook] at h
            cases h
            exact ⟨rep, rfl, le_of_lt hlt⟩
          · rw [if_neg he]
            exact ⟨r', h, le_refl _⟩
        · exact ⟨rep, by rw [lookup_hmInsert, if_pos rfl], le_refl _⟩
      · exact ⟨m, by rw [if_neg hlt], hm, fun e' r' h => ⟨r', h, le_refl _⟩, _, hlook, not_lt.1 hlt⟩
    obtain ⟨m1, h1, hm1, hmono, hthis⟩ := step
    obtain ⟨m', h', hm', hmono', hall⟩ := ih (fun e r h => hl e r (List.mem_cons_of_mem _ h)) m1 hm1
    refine ⟨m', by rw [List.foldlM_cons, h1]; exact h', hm', ?_, ?_⟩
    · intro e' r' h
      obtain ⟨r1, hr1, hle1⟩ := hmono e' r' h
      obtain ⟨r2, hr2, hle2⟩ := hmono' e' r1 hr1
      exact ⟨r2, hr2, le_trans hle2 hle1⟩
    · intro e' r' h
      rcases List.mem_cons.1 h with he | h
      · rw [Prod.mk.injEq] at he
        obtain ⟨rfl, rfl⟩ := he
        obtain ⟨r1, hr1, hle1⟩ := hthis
        obtain ⟨r2, hr2, hle2⟩ := hmono' _ r1 hr1
        exact ⟨r2, hr2, le_trans hle2 hle1⟩
      · exact hall e' r' h

/-- The particle after the last loop of a round. -/
def remapWith (m : ClosestMap K) (p : Particle K) : Particle K :=
  match List.lookup p.entity m with
  | some rep => remapFrom p rep
  | none => p

omit [IsStrictOrderedRing K] in
theorem applyClosest_spec (m : ClosestMap K) (hk : Keys m) : ∀ (ps : List (Particle K)),
    (∀ e ∈ m.map Prod.fst, e ∈ ps.map fun p => p.entity) →
    m.foldlM applyClosest ps = some (ps.map (remapWith m)) := by
  induction m with
  | nil =>
    intro ps _
    have : (remapWith [] : Particle K → Particle K) = id := rfl
    simp [this]
  | cons a m ih =>
    obtain ⟨e, rep⟩ := a
    intro ps hps
    unfold Keys at hk
    rw [List.map_cons, List.nodup_cons] at hk
    have hany : (ps.any fun p => decide (p.entity = e)) = true := by
      rw [List.any_eq_true]
      obtain ⟨p, hp, he⟩ := List.mem_map.1 (hps e (by simp))
      exact ⟨p, hp, by simpa using he⟩
    have hstep : applyClosest ps (e, rep)
        = some (ps.map fun p => if p.entity = e then remapFrom p rep else p) := by
      unfold applyClosest
      rw [if_pos hany]
    have hent : ∀ p : Particle K, (if p.entity = e then remapFrom p rep else p).entity = p.entity := by
      intro p
      split_ifs <;> rfl
    rw [List.foldlM_cons, hstep]
    show m.foldlM applyClosest _ = _
    rw [ih hk.2]
    · rw [List.map_map]
      congr 1
      apply List.map_congr_left
      intro p _
      simp only [Function.comp_apply, remapWith, hent]
      rw [Verif.GridFile.lookup_cons]
      by_cases he : p.entity = e
      · have hn : List.lookup p.entity m = none := by
          cases hl : List.lookup p.entity m with
          | none => rfl
          | some r =>
            have := (mem_iff_lookup m hk.2 p.entity r).2 hl
            exact absurd (List.mem_map.2 ⟨_, this, he⟩) hk.1
        rw [if_pos he, hn, if_pos he]
      · rw [if_neg he, if_neg he]
    · intro e' he'
      rw [List.map_map]
      have : ((fun p : Particle K => p.entity) ∘ fun p => if p.entity = e then remapFrom p rep else p)
          = fun p => p.entity := by
        funext p
        exact hent p
      rw [this]
      exact hps e' (by
        rw [List.map_cons]
        exact List.mem_cons_of_mem _ he')

end Verif.Remap
