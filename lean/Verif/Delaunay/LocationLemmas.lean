import Verif.Delaunay.LocationSpec
import Mathlib.Data.List.Perm.Subperm

/-! # Point location: lemmas -/

namespace Verif.Delaunay

theorem pushNeighbours_spec (m : Mesh) (fs : List FaceInfo)
    (hlive : ∀ f ∈ fs, ∀ c, f.opposing = some c → ∃ U, m.tetras.get c.tetra = some U)
    (heap checked : List ℕ) :
    ∃ ns, pushNeighbours m fs heap checked = some (heap ++ ns, ns.reverse ++ checked) ∧ ns.Nodup ∧
      (∀ n ∈ ns, n ∉ checked ∧ ∃ f ∈ fs, ∃ c, f.opposing = some c ∧ c.tetra = n) ∧
      ∀ f ∈ fs, ∀ c, f.opposing = some c → c.tetra ∈ ns ∨ c.tetra ∈ checked := by
  induction fs generalizing heap checked with
  | nil => exact ⟨[], by simp [pushNeighbours], List.nodup_nil, by simp, by simp⟩
  | cons f fs ih =>
    have hl' : ∀ f ∈ fs, ∀ c, f.opposing = some c → ∃ U, m.tetras.get c.tetra = some U :=
      fun g hg => hlive g (List.mem_cons_of_mem _ hg)
    unfold pushNeighbours
    cases ho : f.opposing with
    | none =>
      dsimp only
      obtain ⟨ns, h1, h2, h3, h4⟩ := ih hl' heap checked
      refine ⟨ns, h1, h2, fun n hn => ⟨(h3 n hn).1, ?_⟩, ?_⟩
      · obtain ⟨g, hg, c, hc⟩ := (h3 n hn).2
        exact ⟨g, List.mem_cons_of_mem _ hg, c, hc⟩
      · intro g hg c hc
        rcases List.mem_cons.1 hg with rfl | hg
        · rw [ho] at hc; cases hc
        · exact h4 g hg c hc
    | some c =>
      dsimp only
      by_cases hm : c.tetra ∈ checked
      · rw [if_pos hm]
        obtain ⟨ns, h1, h2, h3, h4⟩ := ih hl' heap checked
        refine ⟨ns, h1, h2, fun n hn => ⟨(h3 n hn).1, ?_⟩, ?_⟩
        · obtain ⟨g, hg, c, hc⟩ := (h3 n hn).2
          exact ⟨g, List.mem_cons_of_mem _ hg, c, hc⟩
        · intro g hg c' hc
          rcases List.mem_cons.1 hg with rfl | hg
          · rw [ho] at hc
            cases hc
            exact Or.inr hm
          · exact h4 g hg c' hc
      · rw [if_neg hm]
        obtain ⟨U, hU⟩ := hlive f List.mem_cons_self c ho
        rw [if_pos (by unfold Arena.contains; rw [hU]; rfl)]
        obtain ⟨ns, h1, h2, h3, h4⟩ := ih hl' (heap ++ [c.tetra]) (c.tetra :: checked)
        refine ⟨c.tetra :: ns, ?_, ?_, ?_, ?_⟩
        · rw [h1]
          simp
        · rw [List.nodup_cons]
          exact ⟨fun hc => (h3 _ hc).1 List.mem_cons_self, h2⟩
        · intro n hn
          rcases List.mem_cons.1 hn with rfl | hn
          · exact ⟨hm, f, List.mem_cons_self, c, ho, rfl⟩
          · obtain ⟨h5, g, hg, c', hc'⟩ := h3 n hn
            exact ⟨fun hc => h5 (List.mem_cons_of_mem _ hc), g, List.mem_cons_of_mem _ hg, c', hc'⟩
        · intro g hg c' hc
          rcases List.mem_cons.1 hg with rfl | hg
          · rw [ho] at hc
            cases hc
            exact Or.inl List.mem_cons_self
          · rcases h4 g hg c' hc with h5 | h5
            · exact Or.inl (List.mem_cons_of_mem _ h5)
            · rcases List.mem_cons.1 h5 with h6 | h6
              · exact Or.inl (h6 ▸ List.mem_cons_self)
              · exact Or.inr h6

/-- What holds before every round of the search. -/
structure SearchInv (contains : Tetra → Option Bool) (m : Mesh) (first : ℕ) (heap checked ts : List ℕ) :
    Prop where
  nodup : (ts ++ heap).Nodup
  mem : ∀ i, i ∈ checked ↔ i ∈ ts ∨ i ∈ heap
  start : first ∈ checked
  live : ∀ i ∈ checked, m.Reach first i ∧ ∃ T, m.tetras.get i = some T
  tested : ∀ i ∈ ts, ∀ T, m.tetras.get i = some T → contains T = some false
  closed : ∀ i ∈ ts, ∀ j, m.Adj i j → j ∈ checked

/-- What is known about the result of the search. -/
def SearchResult (contains : Tetra → Option Bool) (m : Mesh) (first : ℕ) :
    Outcome (Option ℕ × List ℕ) → Prop
  | .running => True
  | .panic => ∃ i T, m.Reach first i ∧ m.tetras.get i = some T ∧ contains T = none
  | .done (none, ts) =>
    (∀ i, m.Reach first i → ∃ T, m.tetras.get i = some T ∧ contains T = some false) ∧
      ts.Nodup ∧ ∀ i, i ∈ ts ↔ m.Reach first i
  | .done (some i, ts) =>
    (∃ T, m.tetras.get i = some T ∧ contains T = some true) ∧ m.Reach first i ∧ ts.Nodup ∧
      ∀ j ∈ ts, m.Reach first j

theorem SearchInv.length {contains : Tetra → Option Bool} {m : Mesh} {first : ℕ} {heap checked ts : List ℕ}
    (h : SearchInv contains m first heap checked ts) : ts.length ≤ m.tetras.len := by
  have hsub : ts ⊆ m.tetras.entries.map Prod.fst := by
    intro i hi
    obtain ⟨T, hT⟩ := (h.live i ((h.mem i).2 (Or.inl hi))).2
    by_contra hc
    rw [Arena.get_eq_none_of_not_mem hc] at hT
    cases hT
  have := (List.subperm_of_subset (List.nodup_append.1 h.nodup).1 hsub).length_le
  simpa [Arena.len] using this

/-- A round of the search in which the simplex does not contain the point. -/
theorem SearchInv.step {contains : Tetra → Option Bool} {m : Mesh} (hm : m.LinksLive) {first : ℕ}
    {heap checked ts : List ℕ} (h : SearchInv contains m first heap checked ts) {x : ℕ} {r : List ℕ}
    (hperm : heap.Perm (x :: r)) {T : Tetra} (hT : m.tetras.get x = some T) (hc : contains T = some false) :
    ∃ ns, pushNeighbours m T.faces r checked = some (r ++ ns, ns.reverse ++ checked) ∧
      SearchInv contains m first (r ++ ns) (ns.reverse ++ checked) (ts ++ [x]) := by
  have hxr := (h.live x ((h.mem x).2 (Or.inr (hperm.mem_iff.2 List.mem_cons_self)))).1
  have hnod : (ts ++ x :: r).Nodup := (List.Perm.append_left ts hperm).nodup_iff.1 h.nodup
  have hfl : ∀ f ∈ T.faces, ∀ c, f.opposing = some c → m.Adj x c.tetra := by
    intro f hf c hc
    obtain ⟨⟨p, s⟩, hs, rfl⟩ := List.mem_map.1 hf
    exact ⟨T, hT, p, s, c.point, hs, hc⟩
  obtain ⟨ns, h1, h2, h3, h4⟩ := pushNeighbours_spec m T.faces
    (fun f hf c hc => hm x _ (hfl f hf c hc)) r checked
  refine ⟨ns, h1, ?_⟩
  have hmem' : ∀ i, i ∈ checked ↔ i ∈ ts ∨ i = x ∨ i ∈ r := fun i => by
    rw [h.mem i, hperm.mem_iff, List.mem_cons]
  constructor
  · have : (ts ++ [x]) ++ (r ++ ns) = (ts ++ x :: r) ++ ns := by simp
    rw [this, List.nodup_append]
    refine ⟨hnod, h2, ?_⟩
    intro a ha b hb hab
    subst hab
    apply (h3 a hb).1
    rw [hmem']
    rcases List.mem_append.1 ha with ha | ha
    · exact Or.inl ha
    · exact Or.inr (List.mem_cons.1 ha)
  · intro i
    simp only [List.mem_append, List.mem_reverse, hmem' i, List.mem_singleton]
    tauto
  · exact List.mem_append.2 (Or.inr h.start)
  · intro i hi
    rcases List.mem_append.1 hi with hi | hi
    · obtain ⟨_, f, hf, c, hc, rfl⟩ := h3 i (List.mem_reverse.1 hi)
      have := hfl f hf c hc
      exact ⟨hxr.tail this, hm _ _ this⟩
    · exact h.live i hi
  · intro i hi T' hT'
    rcases List.mem_append.1 hi with hi | hi
    · exact h.tested i hi T' hT'
    · rw [List.mem_singleton.1 hi, hT] at hT'
      cases hT'
      exact hc
  · intro i hi j hj
    rcases List.mem_append.1 hi with hi | hi
    · exact List.mem_append.2 (Or.inr (h.closed i hi j hj))
    · rw [List.mem_singleton.1 hi] at hj
      obtain ⟨T', hT', p, s, q, hs, ho⟩ := hj
      rw [hT] at hT'
      cases hT'
      rcases h4 s (List.mem_map.2 ⟨(p, s), hs, rfl⟩) _ ho with h5 | h5
      · exact List.mem_append.2 (Or.inl (List.mem_reverse.2 h5))
      · exact List.mem_append.2 (Or.inr h5)

theorem searchLoop_spec (contains : Tetra → Option Bool) {pop : List ℕ → Option (ℕ × List ℕ)} (hp : HeapOk pop)
    {m : Mesh} (hm : m.LinksLive) {first : ℕ} (fuel : ℕ) {heap checked ts : List ℕ}
    (h : SearchInv contains m first heap checked ts) :
    SearchResult contains m first (searchLoop contains pop m fuel heap checked ts) ∧
      (m.tetras.len < fuel + ts.length → searchLoop contains pop m fuel heap checked ts ≠ .running) := by
  induction fuel generalizing heap checked ts with
  | zero =>
    have := h.length
    exact ⟨trivial, fun hf => by omega⟩
  | succ fuel ih =>
    unfold searchLoop
    by_cases hh : heap = []
    · subst hh
      rw [hp.1]
      have hmem : ∀ i, i ∈ ts ↔ i ∈ checked := fun i => by rw [h.mem i]; simp
      have hreach : ∀ i, m.Reach first i → i ∈ ts := by
        intro i hi
        induction hi with
        | refl => exact (hmem _).2 h.start
        | tail _ hadj ih' => exact (hmem _).2 (h.closed _ ih' _ hadj)
      refine ⟨⟨fun i hi => ?_, by simpa using h.nodup, fun i => ⟨fun hi => (h.live i ((hmem i).1 hi)).1, hreach i⟩⟩, fun _ e => by cases e⟩
      obtain ⟨T, hT⟩ := (h.live i ((hmem i).1 (hreach i hi))).2
      exact ⟨T, hT, h.tested i (hreach i hi) T hT⟩
    · obtain ⟨x, r, hx, hperm⟩ := hp.2 heap hh
      rw [hx]
      dsimp only
      have hxc : x ∈ checked := (h.mem x).2 (Or.inr (hperm.mem_iff.2 List.mem_cons_self))
      obtain ⟨hxr, T, hT⟩ := h.live x hxc
      rw [hT]
      dsimp only
      have hnod : (ts ++ x :: r).Nodup := (List.Perm.append_left ts hperm).nodup_iff.1 h.nodup
      cases hc : contains T with
      | none => exact ⟨⟨x, T, hxr, hT, hc⟩, fun _ e => by cases e⟩
      | some b =>
        cases b with
        | true =>
          refine ⟨⟨⟨T, hT, hc⟩, hxr, ?_, ?_⟩, fun _ e => by cases e⟩
          · have : ts ++ x :: r = (ts ++ [x]) ++ r := by simp
            rw [this] at hnod
            exact (List.nodup_append.1 hnod).1
          · intro j hj
            rcases List.mem_append.1 hj with hj | hj
            · exact (h.live j ((h.mem j).2 (Or.inl hj))).1
            · exact List.mem_singleton.1 hj ▸ hxr
        | false =>
          dsimp only
          obtain ⟨ns, h1, h2⟩ := h.step hm hperm hT hc
          rw [h1]
          exact ⟨(ih h2).1, fun hf => (ih h2).2 (by simp; omega)⟩

theorem searchInv_init (contains : Tetra → Option Bool) {m : Mesh} {first : ℕ}
    (hf : ∃ T, m.tetras.get first = some T) : SearchInv contains m first [first] [first] [] where
  nodup := by simp
  mem := by simp
  start := List.mem_singleton.2 rfl
  live := by
    intro i hi
    rw [List.mem_singleton.1 hi]
    exact ⟨Relation.ReflTransGen.refl, hf⟩
  tested := fun i hi => absurd hi List.not_mem_nil
  closed := fun i hi => absurd hi List.not_mem_nil

/-- What is known about the result of the linear search. -/
def ScanResult (contains : Tetra → Option Bool) (l : List (ℕ × Tetra)) : Outcome (Option ℕ) → Prop
  | .running => False
  | .panic => ∃ e ∈ l, contains e.2 = none
  | .done none => ∀ e ∈ l, contains e.2 = some false
  | .done (some i) => ∃ T, (i, T) ∈ l ∧ contains T = some true

theorem scan_spec (contains : Tetra → Option Bool) (l : List (ℕ × Tetra)) :
    ScanResult contains l (scan contains l) := by
  induction l with
  | nil => exact fun e he => absurd he List.not_mem_nil
  | cons e l ih =>
    unfold scan
    cases hc : contains e.2 with
    | none => exact ⟨e, List.mem_cons_self, hc⟩
    | some b =>
      cases b with
      | true => exact ⟨e.2, List.mem_cons_self, hc⟩
      | false =>
        dsimp only
        revert ih
        cases scan contains l with
        | running => exact id
        | panic => exact fun ⟨e', he', h⟩ => ⟨e', List.mem_cons_of_mem _ he', h⟩
        | done r =>
          cases r with
          | none =>
            intro ih e' he'
            rcases List.mem_cons.1 he' with rfl | he'
            · exact hc
            · exact ih e' he'
          | some i => exact fun ⟨T, hT, h⟩ => ⟨T, List.mem_cons_of_mem _ hT, h⟩

end Verif.Delaunay
