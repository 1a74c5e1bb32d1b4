import Verif.Delaunay.HistoryLemmas

/-! # Which simplices exist after an insertion: lemmas -/

namespace Verif.Delaunay

/-- Every simplex of `m` is on the list `ts` and new with respect to `M0`, or it existed already. -/
structure Track (M0 m : Mesh) (ts : List ℕ) : Prop where
  next : M0.tetras.next ≤ m.tetras.next
  old : ∀ i T, m.tetras.get i = some T → (i ∈ ts ∧ M0.tetras.next ≤ i) ∨
    ∃ T0, M0.tetras.get i = some T0 ∧ T0.points = T.points

theorem Track.step {D p : ℕ} {M0 m m' : Mesh} {ts news : List ℕ} (h : Track M0 m ts) (hs : Step D p m m' news) :
    Track M0 m' (ts ++ news) := by
  refine ⟨h.next.trans hs.next, fun i T hT => ?_⟩
  by_cases hi : i ∈ news
  · exact Or.inl ⟨List.mem_append.2 (Or.inr hi), h.next.trans (hs.fresh i hi)⟩
  · obtain ⟨T1, h1, h2⟩ := hs.old i T hT hi
    rcases h.old i T1 h1 with h3 | ⟨T0, h3, h4⟩
    · exact Or.inl ⟨List.mem_append.2 (Or.inl h3.1), h3.2⟩
    · exact Or.inr ⟨T0, h3, h4.trans (shape_points h2)⟩

theorem flipLoop_track {D point B : ℕ} {ops : Ops} (ho : OpsOk D B ops) {circ : Tetra → ℕ → Option Bool}
    (hcirc : ∀ T q, circ T q = some true → q ∉ T.points) {M0 : Mesh} (fuel : ℕ) :
    ∀ {m : Mesh} {last : Option ℕ} {tetras : List ℕ} {idx : ℕ},
      Consistent D m → (∀ t ∈ tetras, ∀ T, m.tetras.get t = some T → point ∈ T.points) → Track M0 m tetras →
      match flipLoop circ ops.flip point fuel m last tetras idx with
      | .done (m', _, tetras') => Track M0 m' tetras'
      | _ => True := by
  induction fuel with
  | zero => exact fun _ _ _ => trivial
  | succ fuel ih =>
    intro m last tetras idx hc hpt htr
    unfold flipLoop
    cases ht : tetras[idx]? with
    | none => exact htr
    | some t =>
      dsimp only
      cases hT : m.tetras.get t with
      | none => exact ih hc hpt htr
      | some T =>
        dsimp only
        obtain ⟨fi, hfi, hmem⟩ := findFaceOpposite_of_mem (hc.points_nodup t T hT)
          (hpt t (List.mem_of_getElem? ht) T hT)
        rw [hfi]
        dsimp only
        cases hrun : flipCheck circ ops.flip m t fi.face with
        | none => trivial
        | some r =>
          obtain ⟨m', news⟩ := r
          dsimp only
          rcases flipCheck_cases ho hcirc hc hT hmem hrun with ⟨rfl, rfl⟩ | ⟨c, _, _, _, _, hst, _, _⟩
          · rw [List.append_nil]
            exact ih hc hpt htr
          · refine ih hst.cons ?_ (htr.step hst)
            intro t' ht' T' hT'
            by_cases hn : t' ∈ news
            · exact hst.point t' hn T' hT'
            · obtain ⟨T0, h0, h1⟩ := hst.old t' T' hT' hn
              rw [← shape_points h1]
              rcases List.mem_append.1 ht' with ht' | ht'
              · exact hpt t' ht' T0 h0
              · exact absurd ht' hn

theorem insertPoint_track {D B : ℕ} {ops : Ops} (ho : OpsOk D B ops) {g : Geo}
    (hcirc : ∀ T q, g.circ T q = some true → q ∉ T.points) {pop : Heaps} (hp : HeapsOk pop)
    {s s' : State} (h : StateOk D s) {fuel : ℕ} {ch : List ℕ} (hr : insertPoint g ops pop fuel s = .done (s', ch)) :
    StateOk D s' ∧ s'.mesh.numPoints = s.mesh.numPoints + 1 ∧ Track s.mesh s'.mesh ch := by
  have hspec := insertPoint_spec ho hcirc hp h (P := fun _ => True) (fun _ _ _ _ _ _ _ => trivial)
    (fun _ _ _ _ _ _ _ _ _ _ _ _ _ _ _ => trivial) fuel
  rw [hr] at hspec
  refine ⟨hspec.1, hspec.2.1, ?_⟩
  unfold insertPoint at hr
  dsimp only at hr
  obtain ⟨h1, _⟩ := findContaining_live (g := g) (hp { s.mesh with numPoints := s.mesh.numPoints + 1 }) h (fuel := fuel) rfl
  revert h1 hr
  cases findContaining (fun T => g.contains T s.mesh.numPoints) (pop _) fuel
    { s.mesh with numPoints := s.mesh.numPoints + 1 } s.last with
  | running => exact fun h => by cases h
  | panic => exact fun h => by cases h
  | done r =>
    cases r with
    | none => exact fun h => by cases h
    | some t =>
      rintro hr ⟨T, hT, hcon⟩
      have hcons : Consistent D { s.mesh with numPoints := s.mesh.numPoints + 1 } := h.cons.mesh (Nat.le_succ _)
      obtain ⟨m', news, hsplit, hst, hl, _⟩ := ho.split _ t T s.mesh.numPoints hcons hT (Nat.lt_succ_self _)
        (fun hc => absurd (h.cons.points_lt t T hT _ hc) (Nat.lt_irrefl _))
      dsimp only at hr
      rw [hsplit] at hr
      dsimp only at hr
      have htr : Track s.mesh m' news := by
        have h0 : Track s.mesh { s.mesh with numPoints := s.mesh.numPoints + 1 } [] :=
          ⟨Nat.le_refl _, fun i T hT => Or.inr ⟨T, hT, rfl⟩⟩
        simpa using h0.step hst
      have hloop := flipLoop_track ho hcirc fuel (last := s.last) (idx := 0) hst.cons hst.point htr
      revert hloop hr
      cases flipLoop g.circ ops.flip s.mesh.numPoints fuel m' s.last news 0 with
      | running => exact fun h => by cases h
      | panic => exact fun h => by cases h
      | done r =>
        obtain ⟨m1, last1, tetras1⟩ := r
        intro hr htr
        cases hr
        exact htr

end Verif.Delaunay
