import Verif.Voronoi.CycleLemmas
import Verif.Delaunay.Lemmas2d

/-! # Voronoi cells: lemmas -/

namespace Verif.Voronoi

open Verif.Delaunay

variable {D : ℕ} {M : Mesh}

theorem mem_tetrasOf (h : M.tetras.Ok) {p t : ℕ} :
    t ∈ tetrasOf M p ↔ ∃ T, M.tetras.get t = some T ∧ p ∈ T.points := by
  unfold tetrasOf
  rw [List.mem_flatMap]
  constructor
  · rintro ⟨⟨i, T⟩, hm, ht⟩
    obtain ⟨q, hq, rfl⟩ := List.mem_map.1 ht
    rw [List.mem_filter, beq_iff_eq] at hq
    exact ⟨T, (h.mem_iff _ T).1 hm, hq.2 ▸ hq.1⟩
  · rintro ⟨T, hT, hp⟩
    exact ⟨(t, T), (h.mem_iff t T).2 hT, List.mem_map.2 ⟨p, List.mem_filter.2 ⟨hp, by simp⟩, rfl⟩⟩

theorem commonFaceWith_eq_some {T U : Delaunay.Tetra} {f : ℕ} (h : commonFaceWith T U = some f) :
    ∃ a s b r, (a, s) ∈ T.slots ∧ (b, r) ∈ U.slots ∧ s.face = f ∧ r.face = f := by
  unfold commonFaceWith at h
  cases hf : T.faces.find? fun f => U.faces.any fun f2 => f.face == f2.face with
  | none => rw [hf] at h; cases h
  | some s =>
    rw [hf] at h
    cases h
    have h1 := List.mem_of_find?_eq_some hf
    have h2 := List.find?_some hf
    rw [List.any_eq_true] at h2
    obtain ⟨r, hr, he⟩ := h2
    rw [beq_iff_eq] at he
    obtain ⟨⟨a, s'⟩, hs, rfl⟩ := List.mem_map.1 h1
    obtain ⟨⟨b, r'⟩, hr', rfl⟩ := List.mem_map.1 hr
    exact ⟨a, s', b, r', hs, hr', rfl, he.symm⟩

theorem commonFaceWith_isSome {T U : Delaunay.Tetra} {a b : ℕ} {s r : FaceInfo} (hs : (a, s) ∈ T.slots)
    (hr : (b, r) ∈ U.slots) (he : s.face = r.face) : ∃ f, commonFaceWith T U = some f := by
  unfold commonFaceWith
  cases hf : T.faces.find? fun f => U.faces.any fun f2 => f.face == f2.face with
  | some s => exact ⟨_, rfl⟩
  | none =>
    exfalso
    have := List.find?_eq_none.1 hf s (List.mem_map.2 ⟨(a, s), hs, rfl⟩)
    rw [List.any_eq_true] at this
    exact this ⟨r, List.mem_map.2 ⟨(b, r), hr, rfl⟩, by simpa using he⟩

/-- Two simplices with the points `K` which have a common face. -/
def Adj (M : Mesh) (K : List ℕ) (t u : ℕ) : Prop :=
  t ≠ u ∧ ∃ T U, M.tetras.get t = some T ∧ M.tetras.get u = some U ∧ (∀ k ∈ K, k ∈ T.points) ∧
    (∀ k ∈ K, k ∈ U.points) ∧ (commonFace M t u).isSome = true

/-- The common face of two different simplices: where it is. -/
theorem commonFace_spec (h : Consistent D M) {t u f : ℕ} {T U : Delaunay.Tetra} (hT : M.tetras.get t = some T)
    (hU : M.tetras.get u = some U) (hf : commonFace M t u = some f) :
    ∃ a s b r pts, (a, s) ∈ T.slots ∧ (b, r) ∈ U.slots ∧ s.face = f ∧ r.face = f ∧ M.faces.get f = some pts ∧
      pts.Nodup ∧ (∀ x, x ∈ pts ↔ x ∈ T.points ∧ x ≠ a) ∧ ∀ x, x ∈ pts ↔ x ∈ U.points ∧ x ≠ b := by
  unfold commonFace at hf
  rw [hT, hU] at hf
  obtain ⟨a, s, b, r, hs, hr, e1, e2⟩ := commonFaceWith_eq_some hf
  obtain ⟨pts, g1, g2, g3⟩ := h.face_points t T hT a s hs
  obtain ⟨pts', g1', _, g3'⟩ := h.face_points u U hU b r hr
  rw [e1] at g1
  rw [e2, g1] at g1'
  cases g1'
  exact ⟨a, s, b, r, pts, hs, hr, e1, e2, g1, g2, g3, g3'⟩

theorem commonFace_symm (h : Consistent D M) (hd : Distinct M) {t u f : ℕ} (htu : t ≠ u)
    (hf : commonFace M t u = some f) : commonFace M u t = some f := by
  cases hT : M.tetras.get t with
  | none => unfold commonFace at hf; rw [hT] at hf; cases hf
  | some T =>
    cases hU : M.tetras.get u with
    | none => unfold commonFace at hf; rw [hT, hU] at hf; cases hf
    | some U =>
      obtain ⟨a, s, b, r, pts, hs, hr, e1, e2, g1, g2, g3, g4⟩ := commonFace_spec h hT hU hf
      obtain ⟨f', hf'⟩ := commonFaceWith_isSome hr hs (e2.trans e1.symm)
      have hf'' : commonFace M u t = some f' := by unfold commonFace; rw [hT, hU]; exact hf'
      obtain ⟨b', r', a', s', pts', hr', hs', e1', e2', g1', g2', g3', g4'⟩ := commonFace_spec h hU hT hf''
      by_cases hff : f' = f
      · rw [hf'', hff]
      · exfalso
        refine htu (hd t u T U hT hU ?_)
        have hab : a ≠ a' := by
          rintro rfl
          have := slot_unique (h.points_nodup t T hT) hs hs'
          rw [this, e2'] at e1
          exact hff e1
        have hbb : b ≠ b' := by
          rintro rfl
          have := slot_unique (h.points_nodup u U hU) hr hr'
          rw [this, e1'] at e2
          exact hff e2
        intro x
        constructor
        · intro hx
          by_cases hxa : x = a
          · exact ((g3' x).1 ((g4' x).2 ⟨hx, by rw [hxa]; exact hab⟩)).1
          · exact ((g4 x).1 ((g3 x).2 ⟨hx, hxa⟩)).1
        · intro hx
          by_cases hxb : x = b
          · exact ((g4' x).1 ((g3' x).2 ⟨hx, by rw [hxb]; exact hbb⟩)).1
          · exact ((g3 x).1 ((g4 x).2 ⟨hx, hxb⟩)).1

theorem Adj.symm (h : Consistent D M) (hd : Distinct M) {K : List ℕ} {t u : ℕ} (ha : Adj M K t u) : Adj M K u t := by
  obtain ⟨htu, T, U, hT, hU, h1, h2, h3⟩ := ha
  obtain ⟨f, hf⟩ := Option.isSome_iff_exists.1 h3
  exact ⟨Ne.symm htu, U, T, hU, hT, h2, h1, by rw [commonFace_symm h hd htu hf]; rfl⟩

/-- The common face contains all points which both simplices have to contain. -/
theorem common_opposite (hd : Distinct M) {t u a b : ℕ} {T U : Delaunay.Tetra} (hT : M.tetras.get t = some T)
    (hU : M.tetras.get u = some U) (htu : t ≠ u) {s r : FaceInfo} (hs : (a, s) ∈ T.slots) (hr : (b, r) ∈ U.slots)
    {pts : List ℕ} (g3 : ∀ x, x ∈ pts ↔ x ∈ T.points ∧ x ≠ a) (g4 : ∀ x, x ∈ pts ↔ x ∈ U.points ∧ x ≠ b) :
    a ∉ U.points := by
  intro hau
  refine htu (hd t u T U hT hU ?_)
  have hab : a = b := by
    by_contra hne
    exact ((g3 a).1 ((g4 a).2 ⟨hau, hne⟩)).2 rfl
  subst hab
  intro x
  by_cases hx : x = a
  · subst hx
    exact ⟨fun _ => hau, fun _ => mem_points hs⟩
  · have := (g3 x).symm.trans (g4 x)
    simpa [hx] using this

/-- A simplex has at most two neighbours which have the points `K` in common with it, if all but two of its
points are in `K`. -/
theorem adj_deg2 (h : Consistent D M) (hd : Distinct M) {K : List ℕ} (hK : K.Nodup) (hlen : K.length + 2 = D + 1) :
    Deg2 (Adj M K) := by
  intro t u v w hu hv hw
  have key : ∀ {u}, Adj M K t u → ∃ T U a s b r, M.tetras.get t = some T ∧ M.tetras.get u = some U ∧
      (∀ k ∈ K, k ∈ T.points) ∧ (a, s) ∈ T.slots ∧ (b, r) ∈ U.slots ∧ r.face = s.face ∧ a ∉ K ∧ u ≠ t := by
    rintro u ⟨htu, T, U, hT, hU, h1, h2, h3⟩
    obtain ⟨f, hf⟩ := Option.isSome_iff_exists.1 h3
    obtain ⟨a, s, b, r, pts, hs, hr, e1, e2, g1, g2, g3, g4⟩ := commonFace_spec h hT hU hf
    refine ⟨T, U, a, s, b, r, hT, hU, h1, hs, hr, e2.trans e1.symm, ?_, Ne.symm htu⟩
    intro haK
    exact common_opposite hd hT hU htu hs hr g3 g4 (h2 a haK)
  obtain ⟨T, U, a, s, b, r, hT, hU, hTK, hs, hr, e1, ha, hut⟩ := key hu
  obtain ⟨T', V, a', s', b', r', hT', hV, _, hs', hr', e1', ha', hvt⟩ := key hv
  obtain ⟨T'', W, a'', s'', b'', r'', hT'', hW, _, hs'', hr'', e1'', ha'', hwt⟩ := key hw
  rw [hT] at hT' hT''
  cases hT'
  cases hT''
  have same : ∀ {x y : ℕ} {X Y : Delaunay.Tetra} {a a' b b' : ℕ} {s s' r r' : FaceInfo}, M.tetras.get x = some X →
      M.tetras.get y = some Y → (a, s) ∈ T.slots → (a', s') ∈ T.slots → (b, r) ∈ X.slots → (b', r') ∈ Y.slots →
      r.face = s.face → r'.face = s'.face → x ≠ t → y ≠ t → a = a' → x = y := by
    intro x y X Y a a' b b' s s' r r' hX hY hs hs' hr hr' e e' hx hy haa
    subst haa
    have := slot_unique (h.points_nodup t T hT) hs hs'
    subst this
    exact h.at_most_two hT hX hY hs hr hr' e e' hx hy
  -- three of the two remaining points
  have hcount : ¬(a ≠ a' ∧ a ≠ a'' ∧ a' ≠ a'') := by
    rintro ⟨n1, n2, n3⟩
    have hn : (a :: a' :: a'' :: K).Nodup := by
      simp only [List.nodup_cons, List.mem_cons, not_or]
      exact ⟨⟨n1, n2, ha⟩, ⟨n3, ha'⟩, ha'', hK⟩
    have hsub : (a :: a' :: a'' :: K) ⊆ T.points := by
      intro x hx
      simp only [List.mem_cons] at hx
      rcases hx with rfl | rfl | rfl | hx
      · exact mem_points hs
      · exact mem_points hs'
      · exact mem_points hs''
      · exact hTK x hx
    have := (List.subperm_of_subset hn hsub).length_le
    have hT3 := h.size t T hT
    simp only [List.length_cons, Delaunay.Tetra.points, List.length_map] at this
    omega
  by_cases h1 : a = a'
  · exact Or.inl (same hU hV hs hs' hr hr' e1 e1' hut hvt h1)
  · by_cases h2 : a = a''
    · exact Or.inr (Or.inl (same hU hW hs hs'' hr hr'' e1 e1'' hut hwt h2))
    · by_cases h3 : a' = a''
      · exact Or.inr (Or.inr (same hV hW hs' hs'' hr' hr'' e1' e1'' hvt hwt h3))
      · exact absurd ⟨h1, h2, h3⟩ hcount

theorem tetrasOf_nodup (h : Consistent D M) (p : ℕ) : (tetrasOf M p).Nodup := by
  unfold tetrasOf
  have h1 : ∀ e ∈ M.tetras.entries, ((e.2.points.filter fun q => q == p).map fun _ => e.1).Nodup := by
    intro e he
    have hn := h.points_nodup e.1 e.2 ((h.tetras_ok.mem_iff e.1 e.2).1 he)
    have hl : (e.2.points.filter fun q => q == p).length ≤ 1 := by
      rw [← List.countP_eq_length_filter]
      exact List.nodup_iff_count_le_one.1 hn p
    match hm : e.2.points.filter fun q => q == p, hl with
    | [], _ => simp
    | [x], _ => simp
  rw [List.nodup_flatMap]
  refine ⟨h1, ?_⟩
  have h2 := h.tetras_ok.nodup
  rw [List.Nodup, List.pairwise_map] at h2
  refine h2.imp ?_
  intro a b hab
  rw [Function.onFun, List.disjoint_left]
  intro x hx hx'
  obtain ⟨_, _, rfl⟩ := List.mem_map.1 hx
  obtain ⟨_, _, he⟩ := List.mem_map.1 hx'
  exact hab he.symm

/-- A check for `Distinct` which can be evaluated. -/
theorem distinct_of_entries (h : M.tetras.Ok) (hd : ∀ e ∈ M.tetras.entries, ∀ e' ∈ M.tetras.entries,
    (∀ y ∈ e.2.points, y ∈ e'.2.points) → e.1 = e'.1) : Distinct M := by
  intro i j T U hT hU hx
  exact hd (i, T) ((h.mem_iff i T).2 hT) (j, U) ((h.mem_iff j U).2 hU) fun y hy => (hx y).1 hy

/-- A check for `FacesDistinct` which can be evaluated. -/
theorem facesDistinct_of_entries (h : M.faces.Ok) (hd : ∀ e ∈ M.faces.entries, ∀ e' ∈ M.faces.entries,
    (∀ y ∈ e.2, y ∈ e'.2) → e.1 = e'.1) : FacesDistinct M := by
  intro i j T U hT hU hx
  exact hd (i, T) ((h.mem_iff i T).2 hT) (j, U) ((h.mem_iff j U).2 hU) fun y hy => (hx y).1 hy

end Verif.Voronoi
