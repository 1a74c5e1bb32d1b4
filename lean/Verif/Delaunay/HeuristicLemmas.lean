import Verif.Delaunay.HeuristicSpec
import Verif.Delaunay.LocationLemmas

/-! # Point location with distances: lemmas -/

namespace Verif.Delaunay

variable {R : Type} [LinearOrder R]

/-- The distance of a simplex of a mesh. -/
def keyOf (zero : R) (dist : Tetra → Option R) (m : Mesh) (i : ℕ) : R := ((m.tetras.get i).bind dist).getD zero

/-- The heap without its distances. -/
def forget (zero : R) (dist : Tetra → Option R) (pop : List (ℕ × R) → Option ((ℕ × R) × List (ℕ × R))) (m : Mesh)
    (l : List ℕ) : Option (ℕ × List ℕ) :=
  (pop (l.map fun i => (i, keyOf zero dist m i))).map fun e => (e.1.1, e.2.map Prod.fst)

variable {zero : R} {dist : Tetra → Option R} {pop : List (ℕ × R) → Option ((ℕ × R) × List (ℕ × R))} {m : Mesh}

theorem forget_spec (hp : HeapMin pop) (l : List ℕ) (hl : l ≠ []) :
    ∃ i r, pop (l.map fun i => (i, keyOf zero dist m i)) =
        some ((i, keyOf zero dist m i), r.map fun i => (i, keyOf zero dist m i)) ∧
      forget zero dist pop m l = some (i, r) ∧ l.Perm (i :: r) ∧
      ∀ j ∈ r, keyOf zero dist m i ≤ keyOf zero dist m j := by
  obtain ⟨x, r, h1, h2, h3⟩ := hp.2 (l.map fun i => (i, keyOf zero dist m i)) (by simpa using hl)
  have hall : ∀ y ∈ x :: r, y = (y.1, keyOf zero dist m y.1) := by
    intro y hy
    obtain ⟨i, _, rfl⟩ := List.mem_map.1 (h2.mem_iff.2 hy)
    rfl
  have hr : (r.map Prod.fst).map (fun i => (i, keyOf zero dist m i)) = r := by
    rw [List.map_map]
    conv_rhs => rw [← List.map_id r]
    apply List.map_congr_left
    intro y hy
    exact (hall y (List.mem_cons_of_mem _ hy)).symm
  refine ⟨x.1, r.map Prod.fst, ?_, ?_, ?_, ?_⟩
  · rw [hr, h1, ← hall x List.mem_cons_self]
  · unfold forget
    rw [h1]
    rfl
  · have := h2.map Prod.fst
    simpa [List.map_map, Function.comp_def] using this
  · intro j hj
    obtain ⟨y, hy, rfl⟩ := List.mem_map.1 hj
    have := h3 y hy
    rwa [hall x List.mem_cons_self, hall y (List.mem_cons_of_mem _ hy)] at this

theorem forget_ok (hp : HeapMin pop) : HeapOk (forget zero dist pop m) := by
  refine ⟨by simp [forget, hp.1], fun l hl => ?_⟩
  obtain ⟨i, r, _, h2, h3, _⟩ := forget_spec (zero := zero) (dist := dist) (m := m) hp l hl
  exact ⟨i, r, h2, h3⟩

/-- Pushing with distances is pushing, unless a distance cannot be computed. -/
theorem pushByDistance_eq (fs : List FaceInfo) (heap checked : List ℕ) :
    (pushByDistance dist m fs (heap.map fun i => (i, keyOf zero dist m i)) checked =
      (pushNeighbours m fs heap checked).map fun e => (e.1.map fun i => (i, keyOf zero dist m i), e.2)) ∨
    (pushByDistance dist m fs (heap.map fun i => (i, keyOf zero dist m i)) checked = none ∧
      ∃ f ∈ fs, ∃ c U, f.opposing = some c ∧ m.tetras.get c.tetra = some U ∧ dist U = none) := by
  induction fs generalizing heap checked with
  | nil => left; rfl
  | cons f fs ih =>
    have lift : ∀ {heap checked}, (∀ {a b : Prop}, a ∨ b → a ∨ b) →
        (pushByDistance dist m fs (heap.map fun i => (i, keyOf zero dist m i)) checked =
          (pushNeighbours m fs heap checked).map fun e => (e.1.map fun i => (i, keyOf zero dist m i), e.2)) ∨
        (pushByDistance dist m fs (heap.map fun i => (i, keyOf zero dist m i)) checked = none ∧
          ∃ g ∈ f :: fs, ∃ c U, g.opposing = some c ∧ m.tetras.get c.tetra = some U ∧ dist U = none) := by
      intro heap checked _
      rcases ih heap checked with h | ⟨h, g, hg, hc⟩
      · exact Or.inl h
      · exact Or.inr ⟨h, g, List.mem_cons_of_mem _ hg, hc⟩
    unfold pushByDistance pushNeighbours
    cases ho : f.opposing with
    | none => exact lift id
    | some c =>
      dsimp only
      by_cases hm : c.tetra ∈ checked
      · rw [if_pos hm, if_pos hm]
        exact lift id
      · rw [if_neg hm, if_neg hm]
        cases hU : m.tetras.get c.tetra with
        | none =>
          left
          rw [if_neg (by unfold Arena.contains; rw [hU]; simp)]
          rfl
        | some U =>
          rw [if_pos (by unfold Arena.contains; rw [hU]; rfl)]
          dsimp only
          cases hd : dist U with
          | none => exact Or.inr ⟨rfl, f, List.mem_cons_self, c, U, ho, hU, hd⟩
          | some d =>
            dsimp only
            have hk : keyOf zero dist m c.tetra = d := by unfold keyOf; rw [hU]; simp [hd]
            have : heap.map (fun i => (i, keyOf zero dist m i)) ++ [(c.tetra, d)] =
                (heap ++ [c.tetra]).map fun i => (i, keyOf zero dist m i) := by
              rw [List.map_append, ← hk]; rfl
            rw [this]
            exact lift id

/-- The search with distances is the search with some heap, unless a distance cannot be computed. -/
theorem searchByDistance_eq {contains : Tetra → Option Bool} (hp : HeapMin pop) (fuel : ℕ) (heap checked ts : List ℕ)
    {first : ℕ} (hm : m.LinksLive) (hinv : SearchInv contains m first heap checked ts) :
    searchByDistance contains dist pop m fuel (heap.map fun i => (i, keyOf zero dist m i)) checked ts =
      searchLoop contains (forget zero dist pop m) m fuel heap checked ts ∨
    (searchByDistance contains dist pop m fuel (heap.map fun i => (i, keyOf zero dist m i)) checked ts = .panic ∧
      ∃ i U, m.Reach first i ∧ m.tetras.get i = some U ∧ dist U = none) := by
  induction fuel generalizing heap checked ts with
  | zero => exact Or.inl rfl
  | succ fuel ih =>
    unfold searchByDistance searchLoop
    by_cases hh : heap = []
    · subst hh
      left
      rw [(forget_ok hp).1, List.map_nil, hp.1]
    · obtain ⟨i, r, h1, h2, h3, _⟩ := forget_spec (zero := zero) (dist := dist) (m := m) hp heap hh
      rw [h1, h2]
      dsimp only
      have hir := (hinv.live i ((hinv.mem i).2 (Or.inr (h3.mem_iff.2 List.mem_cons_self)))).1
      cases hT : m.tetras.get i with
      | none => exact Or.inl rfl
      | some T =>
        dsimp only
        cases hc : contains T with
        | none => exact Or.inl rfl
        | some b =>
          cases b with
          | true => exact Or.inl rfl
          | false =>
            dsimp only
            obtain ⟨ns, h4, h5⟩ := hinv.step hm h3 hT hc
            rcases pushByDistance_eq (zero := zero) (dist := dist) (m := m) T.faces r checked with h6 | ⟨h6, f, hf, c, U, ho, hU, hd⟩
            · rw [h6, h4]
              exact ih _ _ _ h5
            · rw [h6]
              refine Or.inr ⟨rfl, c.tetra, U, hir.tail ?_, hU, hd⟩
              obtain ⟨⟨p, s⟩, hs, rfl⟩ := List.mem_map.1 hf
              exact ⟨T, hT, p, s, c.point, hs, ho⟩

omit [LinearOrder R] in
private theorem last_two {α : Type} {ts pre : List α} {x l i : α} (h : ts ++ [x] = pre ++ [l, i]) :
    ts = pre ++ [l] ∧ x = i := by
  have h' : ts ++ [x] = (pre ++ [l]) ++ [i] := by rw [h]; simp
  have := List.append_inj' h' rfl
  exact ⟨this.1, by simpa using this.2⟩

/-- If simplices which contain the point are nearer than all others: when the search succeeds, none of the
simplices tested before the last two has a neighbour which contains the point. -/
theorem searchLoop_next {contains : Tetra → Option Bool} (hp : HeapMin pop) (hm : m.LinksLive) {first : ℕ}
    (hguide : ∀ i j T U, m.Reach first i → m.Reach first j → m.tetras.get i = some T → m.tetras.get j = some U →
      contains T = some true → contains U = some false → keyOf zero dist m i < keyOf zero dist m j)
    (fuel : ℕ) {heap checked ts : List ℕ} (hinv : SearchInv contains m first heap checked ts)
    (hts : ∀ k ∈ ts.dropLast, ∀ j U, m.Adj k j → m.tetras.get j = some U → contains U ≠ some true)
    {i : ℕ} {us : List ℕ}
    (h : searchLoop contains (forget zero dist pop m) m fuel heap checked ts = .done (some i, us)) :
    ∀ pre l, us = pre ++ [l, i] → ∀ k ∈ pre, ∀ j U, m.Adj k j → m.tetras.get j = some U → contains U ≠ some true := by
  induction fuel generalizing heap checked ts with
  | zero => cases h
  | succ fuel ih =>
    unfold searchLoop at h
    by_cases hh : heap = []
    · subst hh
      rw [(forget_ok hp).1] at h
      cases h
    · obtain ⟨x, r, h1, h2, h3, h4⟩ := forget_spec (zero := zero) (dist := dist) (m := m) hp heap hh
      rw [h2] at h
      dsimp only at h
      have hxr := (hinv.live x ((hinv.mem x).2 (Or.inr (h3.mem_iff.2 List.mem_cons_self)))).1
      cases hT : m.tetras.get x with
      | none => rw [hT] at h; cases h
      | some T =>
        rw [hT] at h
        dsimp only at h
        cases hc : contains T with
        | none => rw [hc] at h; cases h
        | some b =>
          rw [hc] at h
          cases b with
          | true =>
            dsimp only at h
            injection h with h
            injection h with h5 h6
            intro pre l e k hk
            rw [← h6] at e
            obtain ⟨e1, _⟩ := last_two e
            apply hts
            rw [e1]
            simpa using hk
          | false =>
            dsimp only at h
            obtain ⟨ns, h5, h6⟩ := hinv.step hm h3 hT hc
            rw [h5] at h
            refine ih h6 ?_ h
            intro k hk j U hkj hU hcU
            rw [List.dropLast_concat] at hk
            have hjc := hinv.closed k hk j hkj
            have hjr := (hinv.live j hjc).1
            have hlt := hguide j x U T hjr hxr hU hT hcU hc
            rcases (hinv.mem j).1 hjc with hj | hj
            · have := hinv.tested j hj U hU
              rw [hcU] at this
              cases this
            · rcases List.mem_cons.1 (h3.mem_iff.1 hj) with rfl | hj
              · rw [hU] at hT
                cases hT
                rw [hcU] at hc
                cases hc
              · exact absurd hlt (not_lt.2 (h4 j hj))

end Verif.Delaunay
