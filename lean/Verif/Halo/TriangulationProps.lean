import Verif.Halo.Triangulation

/-! # C56 for the Delaunay triangulation -/

namespace Verif.Halo

open Verif.Delaunay

variable {Id W C K : Type} [DecidableEq Id] [DecidableEq W]

theorem live_iff {D : ℕ} (s : TriState D C) (t : ℕ) :
    t ∈ s.state.mesh.tetras.entries.map Prod.fst ↔ ∃ T, s.state.mesh.tetras.get t = some T := by
  constructor
  · intro h
    obtain ⟨e, he, rfl⟩ := List.mem_map.1 h
    exact ⟨e.2, (s.ok.cons.tetras_ok.mem_iff e.1 e.2).1 he⟩
  · rintro ⟨T, hT⟩
    exact List.mem_map.2 ⟨(t, T), (s.ok.cons.tetras_ok.mem_iff t T).2 hT, rfl⟩

theorem insert_cases {D B : ℕ} (P : Parts D B C) {s s' : TriState D C} {p : C} {ch : List ℕ}
    (h : TriState.insert P s p = some (s', ch)) :
    insertPoint (P.geo ((s.points ++ [(p, false)]).map Prod.fst)) (P.ops ((s.points ++ [(p, false)]).map Prod.fst)) P.pop
      ((B + 1) * s.state.mesh.tetras.len + 1) s.state = .done (s'.state, ch) ∧
    s'.points = s.points ++ [(p, false)] := by
  unfold TriState.insert at h
  split at h
  · rename_i s1 ch1 heq
    cases h
    exact ⟨heq, rfl⟩
  · cases h
  · cases h

/-- A triangulation meets the requirements of the halo iteration: a tetra which exists after an insertion is
one of those returned by the insertion, with an index never used before, or existed before and is unchanged. -/
theorem triangulation_ok {D B : ℕ} (P : Parts D B C) (radius : List C → K) (centre : List C → C) :
    TriOk (triangulation P radius centre) (fun s => s.state.mesh.tetras.next) where
  lt s t ht := by
    obtain ⟨T, hT⟩ := (live_iff s t).1 ht
    exact s.ok.cons.tetras_ok.get_lt hT
  mono s p s' ch h := by
    obtain ⟨h1, _⟩ := insert_cases P h
    exact (insertPoint_track (P.ops_ok _) (P.geo_ok _) P.pop_ok s.ok h1).2.2.next
  insert s p s' ch h t ht := by
    obtain ⟨h1, h2⟩ := insert_cases P h
    obtain ⟨T, hT⟩ := (live_iff s' t).1 ht
    have htr := (insertPoint_track (P.ops_ok _) (P.geo_ok _) P.pop_ok s.ok h1).2.2
    rcases htr.old t T hT with h3 | ⟨T0, h3, h4⟩
    · exact Or.inl h3
    · right
      have hv : s'.vertices t = s.vertices t := by
        unfold TriState.vertices
        rw [hT, h3]
        dsimp only
        rw [h4, h2]
        have : ∀ q ∈ T.points, (s.points ++ [(p, false)])[q]? = s.points[q]? := by
          intro q hq
          rw [← h4] at hq
          have := s.ok.cons.points_lt t T0 h3 q hq
          rw [← s.num] at this
          exact List.getElem?_append_left this
        exact List.filterMap_congr this
      refine ⟨(live_iff s t).2 ⟨T0, h3⟩, ?_, ?_, ?_⟩
      · show radius _ = radius _
        rw [hv]
      · show centre _ = centre _
        rw [hv]
      · show Option.map _ _ = Option.map _ _
        rw [hv]

/-- An insertion into the triangulation fails only by a panic, never because of the limit on the rounds in
the model. -/
theorem triangulation_insert_none {D B : ℕ} (P : Parts D B C) {s : TriState D C} {p : C}
    (h : TriState.insert P s p = none) :
    insertPoint (P.geo ((s.points ++ [(p, false)]).map Prod.fst)) (P.ops ((s.points ++ [(p, false)]).map Prod.fst)) P.pop
      ((B + 1) * s.state.mesh.tetras.len + 1) s.state = .panic := by
  unfold TriState.insert at h
  split at h
  · cases h
  · assumption
  · rename_i heq
    exact absurd heq (insertPoint_terminates (P.ops_ok _) (P.geo_ok _) P.pop_ok s.ok (Nat.le_refl _))

variable [Field K] [LinearOrder K] [IsStrictOrderedRing K] [Archimedean K]

/-- The halo iteration on the Delaunay triangulation: it ends, and unless an insertion or a search panics, every image
which lies in the circumcircle of an existing tetra with a vertex of this rank, according to the search of the
rank to which it belongs, is then in the triangulation. -/
theorem haloes_complete {D B : ℕ} (P : Parts D B C) (radius : List C → K) (centre : List C → C)
    {E : Env Id W C K} (hE : EnvOk E) {len : K} (hlen : 0 < len) (F : List (PType Id W))
    (hF : ∀ r ∈ E.ranks, ∀ d, ∀ i ∈ E.find r d, ptype E r i ∈ F) (s : TriState D C) :
    (∃ n e, MayPanic E e ∧
      iterateN E (triangulation P radius centre) len n (initial (triangulation P radius centre) s) = .error e) ∨
    ∃ n st, iterateN E (triangulation P radius centre) len n (initial (triangulation P radius centre) s) = .ok st ∧
      st.undecided = [] ∧ ∀ t T, st.tri.state.mesh.tetras.get t = some T →
        (∃ v ∈ st.tri.vertices t, v.2 = true) → ∀ r ∈ E.ranks, ∀ i,
        i ∈ E.find r ⟨centre ((st.tri.vertices t).map Prod.fst),
          radius ((st.tri.vertices t).map Prod.fst) * (1001 / 1000)⟩ →
        Wanted E r i → ptype E r i ∈ st.haloes := by
  have hT := triangulation_ok P radius centre
  obtain ⟨n, ⟨e, he, h1⟩ | ⟨st, h1, h2⟩⟩ := halo_iteration_ends hE hT hlen F hF s
  · exact Or.inl ⟨n, e, he, h1⟩
  · right
    refine ⟨n, st, h1, h2, fun t T hTt hv r hr i hi hw => ?_⟩
    refine circumspheres_searched hE hT h1 h2 (t := t) ((live_iff st.tri t).2 ⟨T, hTt⟩) ?_ hr hi hw
    obtain ⟨v, hv, hk⟩ := hv
    show (Option.map _ _).isSome
    rw [Option.isSome_map, List.find?_isSome]
    exact ⟨v, hv, hk⟩

/-- The two-dimensional triangulation has all the required parts. -/
example : ∃ P : Parts 2 3 (Predicates.P2 ℚ), P.ops = fun _ => ops2 :=
  ⟨⟨fun _ => ops2, fun _ => ops2_ok, fun ps => geo2 fun n => ps.getD n ⟨0, 0⟩, fun _ => geo2_proper _, popHead, popHead_ok⟩, rfl⟩

end Verif.Halo
