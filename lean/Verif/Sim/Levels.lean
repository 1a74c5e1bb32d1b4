import Verif.Sim.LevelLemmas
import Verif.Sim.Spec

/-! # The levels on all ranks -/

namespace Verif.Sim

open Verif.Parallel Verif.ActiveList

/-- The neighbour is `v` of rank `q`, another one than the own rank, directly or through a periodic boundary. -/
def IsRemote (v : Sweep.Id) (q : ℕ) (n : Name Sweep.Id) : Prop :=
  n = .halo (.remote v q) ∨ ∃ w, n = .halo (.remotePeriodic v q w)

theorem remoteRank_iff {n : Name Sweep.Id} {q : ℕ} : remoteRank n = some q ↔ ∃ v, IsRemote v q n := by
  unfold remoteRank IsRemote
  split
  · rename_i v r
    simp
  · rename_i v r w
    simp
  · rename_i h1 h2
    constructor
    · intro h
      simp at h
    · rintro ⟨v, h | ⟨w, h⟩⟩
      · exact absurd h (h1 v q)
      · exact absurd h (h2 v q w)

/-- What the levels need of the grids of all ranks. -/
structure Facts (N : ℕ) (num : ℕ → ℕ) (G : ℕ → List (Name Sweep.Id × Cell)) : Prop where
  pos : ∀ r, r < N → 0 < num r
  keys : ∀ r, r < N → ((localCells (G r)).map Prod.fst).Perm ((List.range (num r)).map (Sweep.Id.mk r))
  own : ∀ r, r < N → ∀ u c, (u, c) ∈ localCells (G r) → ∀ f ∈ c.neighbours, ∀ v,
    (neighbour f.2.2 = .loc v ∨ neighbour f.2.2 = .locPeriodic v) → ∃ c', (v, c') ∈ localCells (G r)
  remote : ∀ r, r < N → ∀ u c, (u, c) ∈ localCells (G r) → ∀ f ∈ c.neighbours, ∀ v q, IsRemote v q f.2.2 →
    q < N ∧ q ≠ r ∧ v.rank = q ∧ (∃ c', (v, c') ∈ localCells (G q) ∧ ∃ f' ∈ c'.neighbours, remoteRank f'.2.2 = some r) ∧
      v ∈ (haloParticles (G r)).map Prod.snd

/-- All ranks have the levels `lev`. -/
structure AllOk (numLevels N : ℕ) (num : ℕ → ℕ) (G : ℕ → List (Name Sweep.Id × Cell)) (lev : Sweep.Id → ℕ) (S : List Rank) : Prop where
  length : S.length = N
  rank : ∀ r s, S[r]? = some s → RankOk numLevels lev (localCells (G r)) r (num r) s
  halo : ∀ r s, S[r]? = some s → ∀ u c, (u, c) ∈ localCells (G r) → ∀ f ∈ c.neighbours, ∀ v q, IsRemote v q f.2.2 →
    s.halo v = some (lev v)

variable {numLevels N : ℕ} {num : ℕ → ℕ} {G : ℕ → List (Name Sweep.Id × Cell)}

theorem mapM_getElem? {α β : Type} {f : α → Option β} {l : List α} {l' : List β} (h : l.mapM f = some l') (i : ℕ) :
    l'.length = l.length ∧ ∀ b, l'[i]? = some b → ∃ a, l[i]? = some a ∧ f a = some b := by
  have h2 := mapM_forall2 f l l' h
  refine ⟨h2.length_eq.symm, fun b hb => ?_⟩
  obtain ⟨hlt, e⟩ := List.getElem?_eq_some_iff.1 hb
  have hlt' : i < l.length := by rw [h2.length_eq]; exact hlt
  refine ⟨l[i], List.getElem?_eq_getElem hlt', ?_⟩
  have := (List.forall₂_iff_get.1 h2).2 i hlt' hlt
  rw [List.get_eq_getElem, List.get_eq_getElem, e] at this
  exact this

theorem startAll_ok (F : Facts N num G) (hn : 0 < numLevels) :
    ∃ S, startAll numLevels N G = some S ∧ AllOk numLevels N num G (fun _ => numLevels - 1) S := by
  obtain ⟨S, hS⟩ := mapM_some_of_forall
    (fun r => start numLevels (localCells (G r)) ((haloParticles (G r)).map Prod.snd)) (List.range N) (by
      intro r hr
      rw [List.mem_range] at hr
      obtain ⟨s, hs, -⟩ := start_ok hn (F.pos r hr) (F.keys r hr) ((haloParticles (G r)).map Prod.snd)
      exact ⟨s, hs⟩)
  have key : ∀ r s, S[r]? = some s → r < N ∧ RankOk numLevels (fun _ => numLevels - 1) (localCells (G r)) r (num r) s ∧
      ∀ v ∈ (haloParticles (G r)).map Prod.snd, s.halo v = some (numLevels - 1) := by
    intro r s hs
    obtain ⟨a, ha, hb⟩ := (mapM_getElem? hS r).2 s hs
    obtain ⟨hlt, e⟩ := List.getElem?_eq_some_iff.1 ha
    rw [List.getElem_range] at e
    subst e
    rw [List.length_range] at hlt
    obtain ⟨s', hs', h1, h2⟩ := start_ok hn (F.pos r hlt) (F.keys r hlt) ((haloParticles (G r)).map Prod.snd)
    rw [hb] at hs'
    obtain rfl := Option.some.inj hs'
    exact ⟨hlt, h1, h2⟩
  refine ⟨S, hS, ?_, ?_, ?_⟩
  · rw [(mapM_getElem? hS 0).1, List.length_range]
  · exact fun r s hs => (key r s hs).2.1
  · intro r s hs u c hu f hf v q hv
    obtain ⟨hr, -, h2⟩ := key r s hs
    exact h2 v (F.remote r hr u c hu f hf v q hv).2.2.2.2

theorem update_ok (F : Facts N num G) {lev desired : Sweep.Id → ℕ} (hd : ∀ u, desired u < numLevels) {S : List Rank}
    (h : AllOk numLevels N num G lev S) : ∃ S', updateTimestepLevels desired S = some S' ∧ AllOk numLevels N num G desired S' := by
  obtain ⟨S1, hS1⟩ := mapM_some_of_forall (updateLocal desired) S (by
    intro s hs
    obtain ⟨r, hr⟩ := List.mem_iff_getElem?.1 hs
    obtain ⟨s', hs', -⟩ := updateLocal_ok hd (h.rank r s hr)
    exact ⟨s', hs'⟩)
  have hlen : S1.length = N := by rw [(mapM_getElem? hS1 0).1, h.length]
  have key : ∀ r s, S1[r]? = some s → r < N ∧ RankOk numLevels desired (localCells (G r)) r (num r) s := by
    intro r s hs
    obtain ⟨hlt, -⟩ := List.getElem?_eq_some_iff.1 hs
    obtain ⟨a, ha, hb⟩ := (mapM_getElem? hS1 r).2 s hs
    obtain ⟨s', hs', h1, -⟩ := updateLocal_ok hd (h.rank r a ha)
    rw [hb] at hs'
    obtain rfl := Option.some.inj hs'
    exact ⟨by omega, h1⟩
  have hall : (S1.zipIdx.all fun e => targetsOk S1.length e.2 e.1) = true := by
    rw [List.all_eq_true]
    rintro ⟨s, r⟩ he
    rw [List.mem_zipIdx_iff_getElem?] at he
    dsimp only at he ⊢
    obtain ⟨hr, hok⟩ := key r s he
    unfold targetsOk
    rw [List.all_eq_true]
    intro c hc
    rw [List.all_eq_true]
    intro f hf
    obtain ⟨i, hi⟩ := List.mem_iff_getElem?.1 hc
    have hcell : ((⟨r, i⟩ : Sweep.Id), c) ∈ localCells (G r) := by
      rw [← hok.get]
      unfold ActiveList.get Sim.key
      dsimp only
      rw [if_pos hok.rank.symm]
      exact hi
    cases hq : remoteRank f.2.2 with
    | none => rfl
    | some q =>
      obtain ⟨v, hv⟩ := remoteRank_iff.1 hq
      obtain ⟨h1, h2, -⟩ := F.remote r hr _ c hcell f hf v q hv
      dsimp only
      rw [decide_eq_true_eq, hlen]
      exact ⟨h1, h2⟩
  refine ⟨S1.mapIdx fun r s => { s with halo := insertAll s.halo (incoming S1 r) }, ?_, ?_, ?_, ?_⟩
  · unfold updateTimestepLevels
    rw [hS1]
    dsimp only
    unfold communicateLevels
    rw [if_pos hall]
  · rw [List.length_mapIdx, hlen]
  · intro r s hs
    rw [List.getElem?_mapIdx] at hs
    obtain ⟨s1, hs1, rfl⟩ := Option.map_eq_some_iff.1 hs
    obtain ⟨-, hok⟩ := key r s1 hs1
    exact ⟨hok.rank, hok.max, hok.items, hok.levels, hok.get⟩
  · intro r s hs u c hu f hf v q hv
    rw [List.getElem?_mapIdx] at hs
    obtain ⟨s1, hs1, rfl⟩ := Option.map_eq_some_iff.1 hs
    obtain ⟨hr, -⟩ := key r s1 hs1
    obtain ⟨hq, hqr, hvr, ⟨c', hc', f', hf', hrr⟩, -⟩ := F.remote r hr u c hu f hf v q hv
    have hin : ∀ e, e ∈ incoming S1 r → e.2 = desired e.1 := by
      intro e he
      unfold incoming at he
      obtain ⟨p, -, he⟩ := List.mem_flatMap.1 he
      cases hp : S1[p]? with
      | none =>
        rw [hp] at he
        simp at he
      | some sp =>
        rw [hp] at he
        exact (((key p sp hp).2.mem_outgoing r e).1 he).1
    refine insertAll_of_mem (fun e he e1 => by rw [← e1]; exact hin e he) _ (Or.inl ⟨(v, desired v), ?_, rfl⟩)
    unfold incoming
    refine List.mem_flatMap.2 ⟨q, ?_, ?_⟩
    · unfold Sweep.others
      rw [List.mem_filter, List.mem_range, hlen]
      exact ⟨hq, by simpa using hqr⟩
    · have hq' : q < S1.length := by rw [hlen]; exact hq
      rw [List.getElem?_eq_getElem hq']
      dsimp only
      exact ((key q _ (List.getElem?_eq_getElem hq')).2.mem_outgoing r _).2 ⟨rfl, c', hc', f', hf', hrr⟩

theorem afterUpdates_ok (F : Facts N num G) (hn : 0 < numLevels) (updates : List (Sweep.Id → ℕ))
    (hu : ∀ f ∈ updates, ∀ u, f u < numLevels) :
    ∃ S, afterUpdates numLevels N G updates = some S ∧ AllOk numLevels N num G (levelsAfter numLevels updates) S := by
  obtain ⟨S, hS, h⟩ := startAll_ok F hn
  unfold afterUpdates levelsAfter
  rw [hS]
  dsimp only
  clear hS
  generalize (fun _ : Sweep.Id => numLevels - 1) = lev at h ⊢
  induction updates generalizing S lev with
  | nil => exact ⟨S, rfl, h⟩
  | cons f l ih =>
    obtain ⟨S', hS', h'⟩ := update_ok F (hu f List.mem_cons_self) h
    obtain ⟨S'', hS'', h''⟩ := ih (fun g hg => hu g (List.mem_cons_of_mem _ hg)) S' f h'
    refine ⟨S'', ?_, ?_⟩
    · rw [List.foldlM_cons, hS']
      exact hS''
    · rw [List.getLastD_cons]
      exact h''

end Verif.Sim
