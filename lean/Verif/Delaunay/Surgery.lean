import Verif.Delaunay.TetraLemmas

/-!
# Replacing some tetras by others

All operations of the triangulation have the same form: remove some tetras and the faces between them, add
new faces and new tetras with the same outer faces, and connect the new tetras with each other.  Whether the
mesh stays consistent can be decided locally.
-/

namespace Verif.Delaunay

theorem facesNodup_of {T : Tetra} (hp : T.points.Nodup) {faces : Arena (List ℕ)}
    (hf : ∀ p s, (p, s) ∈ T.slots →
      ∃ pts, faces.get s.face = some pts ∧ pts.Nodup ∧ ∀ x, x ∈ pts ↔ x ∈ T.points ∧ x ≠ p) :
    T.FacesNodup := by
  unfold Tetra.FacesNodup
  have hn : T.slots.Nodup := List.Nodup.of_map _ hp
  refine List.Nodup.map_on ?_ hn
  rintro ⟨p, s⟩ h1 ⟨q, r⟩ h2 he
  dsimp only at he
  obtain ⟨pts, e1, _, h3⟩ := hf p s h1
  obtain ⟨pts', e2, _, h4⟩ := hf q r h2
  rw [he, e2] at e1
  cases e1
  have : p = q := by
    by_contra hne
    have h5 := (h4 p).2 ⟨mem_points h1, hne⟩
    exact ((h3 p).1 h5).2 rfl
  subst this
  rw [slot_unique hp h1 h2]

theorem Consistent.facesNodup {D : ℕ} {M : Mesh} (h : Consistent D M) : M.FacesNodup := fun i T hT =>
  facesNodup_of (h.points_nodup i T hT) (h.face_points i T hT)

theorem Consistent.mesh {D : ℕ} {M : Mesh} {n : ℕ} (h : Consistent D M) (hn : M.numPoints ≤ n) :
    Consistent D { M with numPoints := n } where
  tetras_ok := h.tetras_ok
  faces_ok := h.faces_ok
  size := h.size
  points_nodup := h.points_nodup
  points_lt i T hT p hp := lt_of_lt_of_le (h.points_lt i T hT p hp) hn
  face_points := h.face_points
  neighbour := h.neighbour
  sides := h.sides
  used := h.used

/-- At most two tetras have a given face. -/
theorem Consistent.at_most_two {D : ℕ} {M : Mesh} (h : Consistent D M) {i j k : ℕ} {T U V : Tetra}
    (hi : M.tetras.get i = some T) (hj : M.tetras.get j = some U) (hk : M.tetras.get k = some V)
    {p q r : ℕ} {s t u : FaceInfo} (hs : (p, s) ∈ T.slots) (ht : (q, t) ∈ U.slots) (hu : (r, u) ∈ V.slots)
    (e1 : t.face = s.face) (e2 : u.face = s.face) (hij : j ≠ i) (hik : k ≠ i) : j = k := by
  have h1 := (h.neighbour i T hi p s hs j q).2 ⟨hij, U, t, hj, ht, e1⟩
  have h2 := (h.neighbour i T hi p s hs k r).2 ⟨hik, V, u, hk, hu, e2⟩
  rw [h1] at h2
  cases h2
  rfl

theorem Consistent.face_lt {D : ℕ} {M : Mesh} (h : Consistent D M) {i : ℕ} {T : Tetra}
    (hi : M.tetras.get i = some T) {p : ℕ} {s : FaceInfo} (hs : (p, s) ∈ T.slots) :
    s.face < M.faces.next := by
  obtain ⟨pts, e, _⟩ := h.face_points i T hi p s hs
  exact h.faces_ok.get_lt e

/-- A new face: its index, the two new tetras (by position) which it connects, their points opposite to it
and its orientation as seen from the first one. -/
structure Pair where
  f : ℕ
  k : ℕ
  p : ℕ
  k' : ℕ
  p' : ℕ
  b : Bool

/-- The slots of the new tetras. -/
def NewSlot (news : List Tetra) (k p : ℕ) (s : FaceInfo) : Prop :=
  ∃ T, news[k]? = some T ∧ (p, s) ∈ T.slots

/-- The local conditions under which replacing tetras keeps the mesh consistent.  `M0` is the mesh after the
removal of the tetras `olds` and the faces `rm` and the insertion of new faces. -/
structure Surgery (D : ℕ) (M M0 : Mesh) (olds rm : List ℕ) (news : List Tetra)
    (inh : List (ℕ × ℕ × FaceInfo)) (pairs : List Pair) (links : List (ℕ × ℕ × Conn)) : Prop where
  tet_ok : M0.tetras.Ok
  fac_ok : M0.faces.Ok
  tnext : M0.tetras.next = M.tetras.next
  tget : ∀ i, M0.tetras.get i = if i ∈ olds then none else M.tetras.get i
  olds_live : ∀ o ∈ olds, ∃ T, M.tetras.get o = some T
  fget_old : ∀ f, f < M.faces.next → M0.faces.get f = if f ∈ rm then none else M.faces.get f
  fget_new : ∀ f pts, M.faces.next ≤ f → M0.faces.get f = some pts → ∃ q ∈ pairs, q.f = f
  numPoints : M0.numPoints = M.numPoints
  n_size : ∀ T ∈ news, T.slots.length = D + 1
  n_nodup : ∀ T ∈ news, T.points.Nodup
  n_lt : ∀ T ∈ news, ∀ p ∈ T.points, p < M.numPoints
  n_face : ∀ T ∈ news, ∀ p s, (p, s) ∈ T.slots →
    ∃ pts, M0.faces.get s.face = some pts ∧ pts.Nodup ∧ ∀ x, x ∈ pts ↔ x ∈ T.points ∧ x ≠ p
  slots : ∀ k p s, NewSlot news k p s ↔ (k, p, s) ∈ inh ∨ ∃ q ∈ pairs,
    (k = q.k ∧ p = q.p ∧ s = newFace q.f q.b) ∨ (k = q.k' ∧ p = q.p' ∧ s = newFace q.f !q.b)
  inh_old : ∀ x ∈ inh, x.2.2.face ∉ rm ∧
    ∃ o ∈ olds, ∃ T p0, M.tetras.get o = some T ∧ (p0, x.2.2) ∈ T.slots
  inh_nodup : (inh.map fun x => x.2.2.face).Nodup
  old_slots : ∀ o ∈ olds, ∀ T, M.tetras.get o = some T → ∀ p s, (p, s) ∈ T.slots →
    s.face ∈ rm ∨ s.face ∈ inh.map fun x => x.2.2.face
  rm_shared : ∀ f ∈ rm, ∃ o ∈ olds, ∃ o' ∈ olds, o ≠ o' ∧ ∃ T T' p p' s s', M.tetras.get o = some T ∧
    M.tetras.get o' = some T' ∧ (p, s) ∈ T.slots ∧ (p', s') ∈ T'.slots ∧ s.face = f ∧ s'.face = f
  unshared : ∀ o ∈ olds, ∀ o' ∈ olds, ∀ T T', M.tetras.get o = some T → M.tetras.get o' = some T' →
    ∀ p s p' s', (p, s) ∈ T.slots → (p', s') ∈ T'.slots → s'.face = s.face → s.face ∉ rm → o' = o
  pairs_nodup : (pairs.map Pair.f).Nodup
  pairs_new : ∀ q ∈ pairs, M.faces.next ≤ q.f ∧ q.k ≠ q.k'
  links : ∀ w, w ∈ links ↔ ∃ q ∈ pairs,
    w = (M.tetras.next + q.k, q.f, ⟨M.tetras.next + q.k', q.p'⟩) ∨
    w = (M.tetras.next + q.k', q.f, ⟨M.tetras.next + q.k, q.p⟩)

/-- The outcome of replacing tetras. -/
structure Replaced (M M0 : Mesh) (olds : List ℕ) (news : List Tetra) (M' : Mesh) : Prop where
  next : M'.tetras.next = M.tetras.next + news.length
  faces : M'.faces = M0.faces
  numPoints : M'.numPoints = M.numPoints
  gone : ∀ i ∈ olds, M'.tetras.get i = none
  kept : ∀ i, i < M.tetras.next → i ∉ olds →
    (M'.tetras.get i).map Tetra.shape = (M.tetras.get i).map Tetra.shape
  fresh : ∀ k, (M'.tetras.get (M.tetras.next + k)).map Tetra.shape = (news[k]?).map Tetra.shape
  shapes : M'.tetras.entries.map (fun e => e.2.shape) =
    M0.tetras.entries.map (fun e => e.2.shape) ++ news.map Tetra.shape

variable {D : ℕ} {M M0 : Mesh} {olds rm : List ℕ} {news : List Tetra} {inh : List (ℕ × ℕ × FaceInfo)}
  {pairs : List Pair} {links : List (ℕ × ℕ × Conn)}

theorem Surgery.old_lt (S : Surgery D M M0 olds rm news inh pairs links) (h : Consistent D M) {o : ℕ}
    {T : Tetra} (ho : M.tetras.get o = some T) : o < M.tetras.next := h.tetras_ok.get_lt ho

/-- A removed face belongs to removed tetras only. -/
theorem Surgery.rm_only (S : Surgery D M M0 olds rm news inh pairs links) (h : Consistent D M) {i : ℕ}
    {T : Tetra} (hi : M.tetras.get i = some T) {p : ℕ} {s : FaceInfo} (hs : (p, s) ∈ T.slots)
    (hf : s.face ∈ rm) : i ∈ olds := by
  obtain ⟨o, ho, o', ho', hne, U, U', q, q', r, r', g, g', hr, hr', e, e'⟩ := S.rm_shared _ hf
  by_cases h1 : i = o
  · rw [h1]; exact ho
  · have := h.at_most_two g hi g' hr hs hr' e.symm (e'.trans e.symm) h1 (Ne.symm hne)
    rw [this]; exact ho'

/-- An inherited face determines its slot. -/
theorem Surgery.inh_unique (S : Surgery D M M0 olds rm news inh pairs links) {x y : ℕ × ℕ × FaceInfo}
    (hx : x ∈ inh) (hy : y ∈ inh) (he : x.2.2.face = y.2.2.face) : x = y :=
  List.inj_on_of_nodup_map S.inh_nodup hx hy he

theorem Surgery.pair_unique (S : Surgery D M M0 olds rm news inh pairs links) {x y : Pair}
    (hx : x ∈ pairs) (hy : y ∈ pairs) (he : x.f = y.f) : x = y :=
  List.inj_on_of_nodup_map S.pairs_nodup hx hy he

theorem Surgery.inh_lt (S : Surgery D M M0 olds rm news inh pairs links) (h : Consistent D M)
    {x : ℕ × ℕ × FaceInfo} (hx : x ∈ inh) : x.2.2.face < M.faces.next := by
  obtain ⟨_, o, _, T, p0, hT, hs⟩ := S.inh_old x hx
  exact h.face_lt hT hs

/-- The neighbour recorded for an inherited face is not removed. -/
theorem Surgery.inh_neighbour (S : Surgery D M M0 olds rm news inh pairs links) (h : Consistent D M)
    {x : ℕ × ℕ × FaceInfo} (hx : x ∈ inh) (j q : ℕ) :
    x.2.2.opposing = some ⟨j, q⟩ ↔
      j ∉ olds ∧ ∃ U r, M.tetras.get j = some U ∧ (q, r) ∈ U.slots ∧ r.face = x.2.2.face := by
  obtain ⟨hrm, o, ho, T, p0, hT, hs⟩ := S.inh_old x hx
  rw [h.neighbour o T hT p0 _ hs]
  constructor
  · rintro ⟨hj, U, r, hU, hr, he⟩
    refine ⟨?_, U, r, hU, hr, he⟩
    intro hjo
    exact hj (S.unshared o ho j hjo T U hT hU p0 _ q r hs hr he hrm)
  · rintro ⟨hj, U, r, hU, hr, he⟩
    refine ⟨?_, U, r, hU, hr, he⟩
    rintro rfl
    exact hj ho

theorem Surgery.newslot_cases (S : Surgery D M M0 olds rm news inh pairs links) {k p : ℕ} {s : FaceInfo}
    {T : Tetra} (hT : news[k]? = some T) (hs : (p, s) ∈ T.slots) :
    (k, p, s) ∈ inh ∨ ∃ q ∈ pairs,
    (k = q.k ∧ p = q.p ∧ s = newFace q.f q.b) ∨ (k = q.k' ∧ p = q.p' ∧ s = newFace q.f !q.b) :=
  (S.slots k p s).1 ⟨T, hT, hs⟩

theorem Surgery.news_facesNodup (S : Surgery D M M0 olds rm news inh pairs links) {T : Tetra}
    (hT : T ∈ news) : T.FacesNodup :=
  facesNodup_of (S.n_nodup T hT) (S.n_face T hT)

/-- All writes of the operation. -/
def writes (M : Mesh) (news : List Tetra) (links : List (ℕ × ℕ × Conn)) : List (ℕ × ℕ × Conn) :=
  allBack M.tetras.next news ++ links

theorem Surgery.mem_allBack (S : Surgery D M M0 olds rm news inh pairs links) {w : ℕ × ℕ × Conn} :
    w ∈ allBack M.tetras.next news ↔ ∃ x ∈ inh, ∃ c, x.2.2.opposing = some c ∧
      w = (c.tetra, x.2.2.face, ⟨M.tetras.next + x.1, x.2.1⟩) := by
  rw [Delaunay.mem_allBack]
  constructor
  · rintro ⟨k, T, p, s, c, hT, hs, hc, rfl⟩
    rcases S.newslot_cases hT hs with hi | ⟨q, _, ⟨_, _, rfl⟩ | ⟨_, _, rfl⟩⟩
    · exact ⟨_, hi, c, hc, rfl⟩
    · cases hc
    · cases hc
  · rintro ⟨⟨k, p, s⟩, hx, c, hc, rfl⟩
    obtain ⟨T, hT, hs⟩ := (S.slots k p s).2 (Or.inl hx)
    exact ⟨k, T, p, s, c, hT, hs, hc, rfl⟩

/-- The operation succeeds, and its effect is a rewiring of old and new tetras. -/
theorem Surgery.run (S : Surgery D M M0 olds rm news inh pairs links) (h : Consistent D M) :
    ∃ M', (M0.insertTetras news).bind (Mesh.connect links) = some M' ∧ Replaced M M0 olds news M' ∧
      M'.tetras.Ok ∧
      (∀ i, i < M.tetras.next → i ∉ olds →
        M'.tetras.get i = (M.tetras.get i).map (Tetra.rewire i (writes M news links))) ∧
      (∀ k, M'.tetras.get (M.tetras.next + k) =
        (news[k]?).map (Tetra.rewire (M.tetras.next + k) (writes M news links))) := by
  have hn0 : M0.FacesNodup := by
    intro i T hT
    rw [S.tget] at hT
    split_ifs at hT
    exact h.facesNodup i T hT
  have hback : ∀ T ∈ news, ∀ p s, (p, s) ∈ T.slots → ∀ c, s.opposing = some c →
      M0.HasFace c.tetra s.face := by
    intro T hT p s hs c hc
    obtain ⟨k, hk⟩ := List.mem_iff_getElem?.1 hT
    rcases S.newslot_cases hk hs with hi | ⟨q, _, ⟨_, _, rfl⟩ | ⟨_, _, rfl⟩⟩
    · obtain ⟨hj, U, r, hU, hr, he⟩ := (S.inh_neighbour h hi c.tetra c.point).1 hc
      refine ⟨U, ?_, ?_⟩
      · rw [S.tget, if_neg hj]
        exact hU
      · exact List.mem_map.2 ⟨_, hr, he⟩
    · cases hc
    · cases hc
  obtain ⟨M1, h1, r1⟩ := insertTetras_spec S.tet_ok hn0 (fun T hT => S.news_facesNodup hT) hback
  have hn1 : M1.FacesNodup := by
    intro i T hT
    by_cases hi : i < M0.tetras.next
    · rw [r1.old i hi] at hT
      obtain ⟨U, hU, rfl⟩ := Option.map_eq_some_iff.1 hT
      exact rewire_facesNodup (hn0 i U hU)
    · obtain ⟨k, rfl⟩ := Nat.exists_eq_add_of_le (Nat.le_of_not_lt hi)
      rw [r1.new k] at hT
      exact S.news_facesNodup (List.mem_of_getElem? hT)
  have hl1 : ∀ w ∈ links, M1.HasFace w.1 w.2.1 := by
    intro w hw
    obtain ⟨q, hq, rfl | rfl⟩ := (S.links w).1 hw
    · obtain ⟨T, hT, hs⟩ := (S.slots q.k q.p (newFace q.f q.b)).2 (Or.inr ⟨q, hq, Or.inl ⟨rfl, rfl, rfl⟩⟩)
      refine ⟨T, ?_, List.mem_map.2 ⟨_, hs, rfl⟩⟩
      dsimp only
      rw [← S.tnext, r1.new]
      exact hT
    · obtain ⟨T, hT, hs⟩ := (S.slots q.k' q.p' (newFace q.f !q.b)).2
        (Or.inr ⟨q, hq, Or.inr ⟨rfl, rfl, rfl⟩⟩)
      refine ⟨T, ?_, List.mem_map.2 ⟨_, hs, rfl⟩⟩
      dsimp only
      rw [← S.tnext, r1.new]
      exact hT
  obtain ⟨M2, h2, r2⟩ := connect_spec r1.ok hn1 hl1
  have hold : ∀ i, i < M.tetras.next → i ∉ olds →
      M2.tetras.get i = (M.tetras.get i).map (Tetra.rewire i (writes M news links)) := by
    intro i hi hio
    rw [r2.get, r1.old i (by rw [S.tnext]; exact hi), S.tget, if_neg hio, Option.map_map, S.tnext]
    congr 1
    funext T
    exact rewire_append _ _ _ _
  have hnew : ∀ k, M2.tetras.get (M.tetras.next + k) =
      (news[k]?).map (Tetra.rewire (M.tetras.next + k) (writes M news links)) := by
    intro k
    rw [r2.get, ← S.tnext, r1.new k]
    congr 1
    funext T
    unfold writes
    rw [← rewire_append, rewire_other (ws := allBack M.tetras.next news)]
    intro w hw
    obtain ⟨x, hx, c, hc, rfl⟩ := S.mem_allBack.1 hw
    obtain ⟨_, U, r, hU, _⟩ := (S.inh_neighbour h hx c.tetra c.point).1 hc
    have := h.tetras_ok.get_lt hU
    rw [S.tnext]
    dsimp only
    omega
  have hgone : ∀ i ∈ olds, M2.tetras.get i = none := by
    intro i hi
    rw [r2.get]
    obtain ⟨T, hT⟩ := S.olds_live i hi
    have hlt : i < M0.tetras.next := by
      rw [S.tnext]
      exact h.tetras_ok.get_lt hT
    rw [r1.old i hlt, S.tget, if_pos hi]
    rfl
  refine ⟨M2, ?_, ?_, r2.ok, hold, hnew⟩
  · rw [h1]
    exact h2
  · refine ⟨?_, r2.faces.trans r1.faces, (r2.numPoints.trans r1.numPoints).trans S.numPoints, hgone, ?_, ?_, ?_⟩
    · rw [r2.next, r1.next, S.tnext]
    · intro i hi hio
      rw [hold i hi hio, Option.map_map]
      congr 1
      funext T
      exact rewire_shape _ _ _
    · intro k
      rw [hnew k, Option.map_map]
      congr 1
      funext T
      exact rewire_shape _ _ _
    · rw [r2.shapes, r1.shapes]

/-- The mesh stays consistent. -/
theorem Surgery.consistent (S : Surgery D M M0 olds rm news inh pairs links) (h : Consistent D M) :
    ∃ M', (M0.insertTetras news).bind (Mesh.connect links) = some M' ∧ Replaced M M0 olds news M' ∧
      Consistent D M' := by
  obtain ⟨M', hrun, hrep, hok, hold, hnew⟩ := S.run h
  refine ⟨M', hrun, hrep, ?_⟩
  set n := M.tetras.next with hn
  -- every tetra of the result is an old one or a new one
  have hcases : ∀ i T, M'.tetras.get i = some T →
      (i < n ∧ i ∉ olds ∧ ∃ U, M.tetras.get i = some U ∧ T = U.rewire i (writes M news links)) ∨
      (∃ k U, i = n + k ∧ news[k]? = some U ∧ T = U.rewire (n + k) (writes M news links)) := by
    intro i T hT
    by_cases hi : i < n
    · left
      by_cases hio : i ∈ olds
      · rw [hrep.gone i hio] at hT
        cases hT
      · rw [hold i hi hio] at hT
        obtain ⟨U, hU, rfl⟩ := Option.map_eq_some_iff.1 hT
        exact ⟨hi, hio, U, hU, rfl⟩
    · right
      obtain ⟨k, rfl⟩ := Nat.exists_eq_add_of_le (Nat.le_of_not_lt hi)
      rw [hnew k] at hT
      obtain ⟨U, hU, rfl⟩ := Option.map_eq_some_iff.1 hT
      exact ⟨k, U, rfl, hU, rfl⟩
  have hfold : ∀ f, f < M.faces.next → f ∉ rm → M'.faces.get f = M.faces.get f := by
    intro f hf hrm
    rw [hrep.faces, S.fget_old f hf, if_neg hrm]
  -- which writes concern a face
  have hmw : ∀ w ∈ writes M news links,
      (∃ x ∈ inh, ∃ c, x.2.2.opposing = some c ∧ w = (c.tetra, x.2.2.face, ⟨n + x.1, x.2.1⟩)) ∨
      (∃ q ∈ pairs, w = (n + q.k, q.f, ⟨n + q.k', q.p'⟩) ∨ w = (n + q.k', q.f, ⟨n + q.k, q.p⟩)) := by
    intro w hw
    rcases List.mem_append.1 hw with hw | hw
    · exact Or.inl (S.mem_allBack.1 hw)
    · exact Or.inr ((S.links w).1 hw)
  -- slots of the result and of the original, by face
  have hslot_old : ∀ i U, i ∉ olds → M.tetras.get i = some U → ∀ q r, (q, r) ∈ U.slots →
      ∃ T r', M'.tetras.get i = some T ∧ (q, r') ∈ T.slots ∧ r'.face = r.face := by
    intro i U hio hU q r hr
    refine ⟨U.rewire i (writes M news links), _, ?_, mem_rewire.2 ⟨r, hr, rfl⟩, rfl⟩
    rw [hold i (h.tetras_ok.get_lt hU) hio, hU]
    rfl
  have hslot_new : ∀ k U, news[k]? = some U → ∀ q r, (q, r) ∈ U.slots →
      ∃ T r', M'.tetras.get (n + k) = some T ∧ (q, r') ∈ T.slots ∧ r'.face = r.face := by
    intro k U hU q r hr
    refine ⟨U.rewire (n + k) (writes M news links), _, ?_, mem_rewire.2 ⟨r, hr, rfl⟩, rfl⟩
    rw [hnew k, hU]
    rfl
  constructor
  · exact hok
  · rw [hrep.faces]; exact S.fac_ok
  · intro i T hT
    rcases hcases i T hT with ⟨_, _, U, hU, rfl⟩ | ⟨k, U, _, hU, rfl⟩
    · have := h.size i U hU
      simpa [Tetra.rewire] using this
    · have := S.n_size U (List.mem_of_getElem? hU)
      simpa [Tetra.rewire] using this
  · intro i T hT
    rcases hcases i T hT with ⟨_, _, U, hU, rfl⟩ | ⟨k, U, _, hU, rfl⟩
    · rw [rewire_points]; exact h.points_nodup i U hU
    · rw [rewire_points]; exact S.n_nodup U (List.mem_of_getElem? hU)
  · intro i T hT
    rw [hrep.numPoints]
    rcases hcases i T hT with ⟨_, _, U, hU, rfl⟩ | ⟨k, U, _, hU, rfl⟩
    · rw [rewire_points]; exact h.points_lt i U hU
    · rw [rewire_points]; exact S.n_lt U (List.mem_of_getElem? hU)
  · intro i T hT p s hs
    rcases hcases i T hT with ⟨_, hio, U, hU, rfl⟩ | ⟨k, U, _, hU, rfl⟩
    · obtain ⟨s0, hs0, rfl⟩ := mem_rewire.1 hs
      rw [rewire_points]
      dsimp only
      rw [hfold s0.face (h.face_lt hU hs0) (fun hrm => hio (S.rm_only h hU hs0 hrm))]
      exact h.face_points i U hU p s0 hs0
    · obtain ⟨s0, hs0, rfl⟩ := mem_rewire.1 hs
      rw [rewire_points]
      dsimp only
      rw [hrep.faces]
      exact S.n_face U (List.mem_of_getElem? hU) p s0 hs0
  · -- neighbours
    intro i T hT p s hs j q
    rcases hcases i T hT with ⟨hin, hio, U, hU, rfl⟩ | ⟨k, U, rfl, hU, rfl⟩
    · obtain ⟨s0, hs0, rfl⟩ := mem_rewire.1 hs
      dsimp only
      by_cases hinh : ∃ x ∈ inh, x.2.2.face = s0.face
      · -- the other side is new
        obtain ⟨x, hx, hxe⟩ := hinh
        have hxo : x.2.2.opposing = some ⟨i, p⟩ :=
          (S.inh_neighbour h hx i p).2 ⟨hio, U, s0, hU, hs0, hxe.symm⟩
        have hlw : lastWrite (writes M news links) i s0.face s0.opposing =
            some ⟨n + x.1, x.2.1⟩ := by
          apply lastWrite_some
          · intro w hw h1 h2
            rcases hmw w hw with ⟨y, hy, c, hc, rfl⟩ | ⟨q, hq, rfl | rfl⟩
            · have := S.inh_unique hx hy (hxe.trans h2.symm)
              rw [this]
            · dsimp only at h1; omega
            · dsimp only at h1; omega
          · apply List.mem_append_left
            exact S.mem_allBack.2 ⟨x, hx, _, hxo, by rw [hxe]⟩
        rw [hlw]
        constructor
        · intro he
          cases he
          refine ⟨by omega, ?_⟩
          obtain ⟨V, hV, hr⟩ := (S.slots x.1 x.2.1 x.2.2).2 (Or.inl hx)
          obtain ⟨T, r', h1, h2, h3⟩ := hslot_new x.1 V hV x.2.1 x.2.2 hr
          exact ⟨T, r', h1, h2, h3.trans hxe⟩
        · rintro ⟨hji, V, r, hV, hr, hre⟩
          rcases hcases j V hV with ⟨_, hjo, W, hW, rfl⟩ | ⟨k, W, rfl, hW, rfl⟩
          · exfalso
            obtain ⟨r0, hr0, rfl⟩ := mem_rewire.1 hr
            have := (S.inh_neighbour h hx j q).2 ⟨hjo, W, r0, hW, hr0, Eq.trans hre hxe.symm⟩
            rw [hxo] at this
            cases this
            exact hji rfl
          · obtain ⟨r0, hr0, rfl⟩ := mem_rewire.1 hr
            dsimp only at hre
            rcases S.newslot_cases hW hr0 with hi | ⟨q', hq', ⟨_, _, rfl⟩ | ⟨_, _, rfl⟩⟩
            · have := S.inh_unique hx hi (hxe.trans hre.symm)
              rw [this]
            · exfalso
              have h1 := (S.pairs_new q' hq').1
              have h2 := h.face_lt hU hs0
              rw [← hre] at h2
              exact absurd h2 (Nat.not_lt.2 h1)
            · exfalso
              have h1 := (S.pairs_new q' hq').1
              have h2 := h.face_lt hU hs0
              rw [← hre] at h2
              exact absurd h2 (Nat.not_lt.2 h1)
      · -- nothing changes at this face
        have hlw : lastWrite (writes M news links) i s0.face s0.opposing = s0.opposing := by
          apply lastWrite_none
          rintro w hw ⟨h1, h2⟩
          rcases hmw w hw with ⟨y, hy, c, hc, rfl⟩ | ⟨q, hq, rfl | rfl⟩
          · exact hinh ⟨y, hy, h2⟩
          · dsimp only at h1; omega
          · dsimp only at h1; omega
        rw [hlw, h.neighbour i U hU p s0 hs0]
        constructor
        · rintro ⟨hji, V, r, hV, hr, hre⟩
          refine ⟨hji, ?_⟩
          have hjo : j ∉ olds := by
            intro hjo
            rcases S.old_slots j hjo V hV q r hr with h1 | h1
            · exact hio (S.rm_only h hU hs0 (hre ▸ h1))
            · obtain ⟨x, hx, hxe⟩ := List.mem_map.1 h1
              exact hinh ⟨x, hx, hxe.trans hre⟩
          obtain ⟨T, r', h1, h2, h3⟩ := hslot_old j V hjo hV q r hr
          exact ⟨T, r', h1, h2, h3.trans hre⟩
        · rintro ⟨hji, V, r, hV, hr, hre⟩
          refine ⟨hji, ?_⟩
          rcases hcases j V hV with ⟨_, hjo, W, hW, rfl⟩ | ⟨k, W, rfl, hW, rfl⟩
          · obtain ⟨r0, hr0, rfl⟩ := mem_rewire.1 hr
            exact ⟨W, r0, hW, hr0, hre⟩
          · exfalso
            obtain ⟨r0, hr0, rfl⟩ := mem_rewire.1 hr
            dsimp only at hre
            rcases S.newslot_cases hW hr0 with hi | ⟨q', hq', ⟨_, _, rfl⟩ | ⟨_, _, rfl⟩⟩
            · exact hinh ⟨_, hi, hre⟩
            · have h1 := (S.pairs_new q' hq').1
              have h2 := h.face_lt hU hs0
              rw [← hre] at h2
              exact absurd h2 (Nat.not_lt.2 h1)
            · have h1 := (S.pairs_new q' hq').1
              have h2 := h.face_lt hU hs0
              rw [← hre] at h2
              exact absurd h2 (Nat.not_lt.2 h1)
    · obtain ⟨s0, hs0, rfl⟩ := mem_rewire.1 hs
      dsimp only
      rcases S.newslot_cases hU hs0 with hi | ⟨q', hq', hcase⟩
      · -- inherited
        have hfl := S.inh_lt h hi
        have hlw : lastWrite (writes M news links) (n + k) s0.face s0.opposing = s0.opposing := by
          apply lastWrite_none
          rintro w hw ⟨h1, h2⟩
          rcases hmw w hw with ⟨y, hy, c, hc, rfl⟩ | ⟨q, hq, rfl | rfl⟩
          · obtain ⟨_, V, r, hV, _⟩ := (S.inh_neighbour h hy c.tetra c.point).1 hc
            have := h.tetras_ok.get_lt hV
            dsimp only at h1
            omega
          · have := (S.pairs_new q hq).1
            dsimp only at h2 hfl
            omega
          · have := (S.pairs_new q hq).1
            dsimp only at h2 hfl
            omega
        rw [hlw]
        rw [S.inh_neighbour h hi j q]
        constructor
        · rintro ⟨hjo, V, r, hV, hr, hre⟩
          have := h.tetras_ok.get_lt hV
          refine ⟨by omega, ?_⟩
          obtain ⟨T, r', h1, h2, h3⟩ := hslot_old j V hjo hV q r hr
          exact ⟨T, r', h1, h2, h3.trans hre⟩
        · rintro ⟨hji, V, r, hV, hr, hre⟩
          rcases hcases j V hV with ⟨_, hjo, W, hW, rfl⟩ | ⟨k', W, rfl, hW, rfl⟩
          · obtain ⟨r0, hr0, rfl⟩ := mem_rewire.1 hr
            exact ⟨hjo, W, r0, hW, hr0, hre⟩
          · exfalso
            obtain ⟨r0, hr0, rfl⟩ := mem_rewire.1 hr
            dsimp only at hre
            rcases S.newslot_cases hW hr0 with hi' | ⟨q', hq', ⟨_, _, rfl⟩ | ⟨_, _, rfl⟩⟩
            · have := S.inh_unique hi' hi hre
              cases this
              exact hji rfl
            · have h1 := (S.pairs_new q' hq').1
              dsimp only [newFace] at hre hfl
              omega
            · have h1 := (S.pairs_new q' hq').1
              dsimp only [newFace] at hre hfl
              omega
      · -- a new face
        have hfn := (S.pairs_new q' hq').1
        have hkk := (S.pairs_new q' hq').2
        -- the partner
        obtain ⟨k2, p2, b2, hface, hk2, hlink, hpart, hothers⟩ :
            ∃ k2 p2 b2, s0.face = q'.f ∧ k2 ≠ k ∧ (n + k, q'.f, (⟨n + k2, p2⟩ : Conn)) ∈ links ∧
              (∃ V, news[k2]? = some V ∧ (p2, newFace q'.f b2) ∈ V.slots) ∧
              (∀ k3 p3 s3, NewSlot news k3 p3 s3 → s3.face = q'.f → k3 ≠ k → k3 = k2 ∧ p3 = p2) := by
          have hmem : ∀ k3 p3 s3, NewSlot news k3 p3 s3 → s3.face = q'.f →
              (k3 = q'.k ∧ p3 = q'.p) ∨ (k3 = q'.k' ∧ p3 = q'.p') := by
            intro k3 p3 s3 h3 he
            rcases (S.slots k3 p3 s3).1 h3 with h4 | ⟨q3, hq3, h4⟩
            · have := S.inh_lt h h4
              dsimp only at this
              omega
            · have hf : s3.face = q3.f := by
                rcases h4 with ⟨_, _, rfl⟩ | ⟨_, _, rfl⟩ <;> rfl
              have := S.pair_unique hq3 hq' (hf.symm.trans he)
              subst this
              rcases h4 with ⟨a, b, _⟩ | ⟨a, b, _⟩
              · exact Or.inl ⟨a, b⟩
              · exact Or.inr ⟨a, b⟩
          rcases hcase with ⟨rfl, rfl, rfl⟩ | ⟨rfl, rfl, rfl⟩
          · refine ⟨q'.k', q'.p', !q'.b, rfl, Ne.symm hkk, (S.links _).2 ⟨q', hq', Or.inl rfl⟩, ?_, ?_⟩
            · exact (S.slots q'.k' q'.p' _).2 (Or.inr ⟨q', hq', Or.inr ⟨rfl, rfl, rfl⟩⟩)
            · intro k3 p3 s3 h3 he hne
              rcases hmem k3 p3 s3 h3 he with h4 | h4
              · exact absurd h4.1 hne
              · exact h4
          · refine ⟨q'.k, q'.p, q'.b, rfl, hkk, (S.links _).2 ⟨q', hq', Or.inr rfl⟩, ?_, ?_⟩
            · exact (S.slots q'.k q'.p _).2 (Or.inr ⟨q', hq', Or.inl ⟨rfl, rfl, rfl⟩⟩)
            · intro k3 p3 s3 h3 he hne
              rcases hmem k3 p3 s3 h3 he with h4 | h4
              · exact h4
              · exact absurd h4.1 hne
        have hlw : lastWrite (writes M news links) (n + k) s0.face s0.opposing = some ⟨n + k2, p2⟩ := by
          rw [hface]
          apply lastWrite_some
          · intro w hw h1 h2
            rcases hmw w hw with ⟨y, hy, c, hc, rfl⟩ | ⟨q3, hq3, hw3⟩
            · have := S.inh_lt h hy
              dsimp only at h2
              omega
            · have hf : q3.f = q'.f := by
                rcases hw3 with rfl | rfl <;> exact h2
              have := S.pair_unique hq3 hq' hf
              subst this
              -- both descriptions name the same partner
              have hw' : w ∈ links := (S.links w).2 ⟨q3, hq3, hw3⟩
              rcases hw3 with rfl | rfl
              · have hk : q3.k = k := by dsimp only at h1; omega
                obtain ⟨a, b⟩ := hothers q3.k' q3.p' _
                  ((S.slots _ _ _).2 (Or.inr ⟨q3, hq3, Or.inr ⟨rfl, rfl, rfl⟩⟩)) rfl (by omega)
                rw [a, b]
              · have hk : q3.k' = k := by dsimp only at h1; omega
                obtain ⟨a, b⟩ := hothers q3.k q3.p _
                  ((S.slots _ _ _).2 (Or.inr ⟨q3, hq3, Or.inl ⟨rfl, rfl, rfl⟩⟩)) rfl (by omega)
                rw [a, b]
          · exact List.mem_append_right _ hlink
        rw [hlw]
        constructor
        · intro he
          cases he
          refine ⟨by omega, ?_⟩
          obtain ⟨V, hV, hr⟩ := hpart
          obtain ⟨T, r', h1, h2, h3⟩ := hslot_new k2 V hV _ _ hr
          exact ⟨T, r', h1, h2, h3.trans hface.symm⟩
        · rintro ⟨hji, V, r, hV, hr, hre⟩
          rcases hcases j V hV with ⟨_, hjo, W, hW, rfl⟩ | ⟨k', W, rfl, hW, rfl⟩
          · exfalso
            obtain ⟨r0, hr0, rfl⟩ := mem_rewire.1 hr
            have := h.face_lt hW hr0
            dsimp only at hre
            omega
          · obtain ⟨r0, hr0, rfl⟩ := mem_rewire.1 hr
            dsimp only at hre
            obtain ⟨a, b⟩ := hothers k' q r0 ⟨W, hW, hr0⟩ (hre.trans hface) (by omega)
            rw [a, b]
  · -- orientations
    intro i T hT p s hs j V hV q r hr hre hji
    rcases hcases i T hT with ⟨hin, hio, U, hU, rfl⟩ | ⟨k, U, rfl, hU, rfl⟩ <;>
    rcases hcases j V hV with ⟨hjn, hjo, W, hW, rfl⟩ | ⟨k', W, rfl, hW, rfl⟩ <;>
    obtain ⟨s0, hs0, rfl⟩ := mem_rewire.1 hs <;>
    obtain ⟨r0, hr0, rfl⟩ := mem_rewire.1 hr <;> dsimp only at hre ⊢
    · exact h.sides i U hU p s0 hs0 j W hW q r0 hr0 hre hji
    · have hfl := h.face_lt hU hs0
      rcases S.newslot_cases hW hr0 with hi' | ⟨q', hq', ⟨_, _, rfl⟩ | ⟨_, _, rfl⟩⟩
      · obtain ⟨_, o, ho, To, p0, hTo, hso⟩ := S.inh_old _ hi'
        exact h.sides i U hU p s0 hs0 o To hTo p0 r0 hso hre (fun hc => hio (hc ▸ ho))
      · have h1 := (S.pairs_new q' hq').1
        dsimp only [newFace] at hre
        omega
      · have h1 := (S.pairs_new q' hq').1
        dsimp only [newFace] at hre
        omega
    · have hfl := h.face_lt hW hr0
      rcases S.newslot_cases hU hs0 with hi' | ⟨q', hq', ⟨_, _, rfl⟩ | ⟨_, _, rfl⟩⟩
      · obtain ⟨_, o, ho, To, p0, hTo, hso⟩ := S.inh_old _ hi'
        exact h.sides o To hTo p0 s0 hso j W hW q r0 hr0 hre (fun hc => hjo (hc ▸ ho))
      · have h1 := (S.pairs_new q' hq').1
        dsimp only [newFace] at hre
        omega
      · have h1 := (S.pairs_new q' hq').1
        dsimp only [newFace] at hre
        omega
    · rcases S.newslot_cases hU hs0 with hi | ⟨q1, hq1, hc1⟩
      · rcases S.newslot_cases hW hr0 with hi' | ⟨q2, hq2, hc2⟩
        · have := S.inh_unique hi' hi hre
          cases this
          exact absurd rfl hji
        · have h1 := (S.pairs_new q2 hq2).1
          have h2 := S.inh_lt h hi
          have h3 : r0.face = q2.f := by rcases hc2 with ⟨_, _, rfl⟩ | ⟨_, _, rfl⟩ <;> rfl
          dsimp only at h2
          omega
      · rcases S.newslot_cases hW hr0 with hi' | ⟨q2, hq2, hc2⟩
        · have h1 := (S.pairs_new q1 hq1).1
          have h2 := S.inh_lt h hi'
          have h3 : s0.face = q1.f := by rcases hc1 with ⟨_, _, rfl⟩ | ⟨_, _, rfl⟩ <;> rfl
          dsimp only at h2
          omega
        · have h3 : s0.face = q1.f := by rcases hc1 with ⟨_, _, rfl⟩ | ⟨_, _, rfl⟩ <;> rfl
          have h4 : r0.face = q2.f := by rcases hc2 with ⟨_, _, rfl⟩ | ⟨_, _, rfl⟩ <;> rfl
          have := S.pair_unique hq2 hq1 (h4.symm.trans (hre.trans h3))
          subst this
          rcases hc1 with ⟨rfl, _, rfl⟩ | ⟨rfl, _, rfl⟩ <;> rcases hc2 with ⟨rfl, _, rfl⟩ | ⟨rfl, _, rfl⟩
          · exact absurd rfl hji
          · rfl
          · simp [newFace]
          · exact absurd rfl hji
  · -- every face is used
    intro f pts hf
    rw [hrep.faces] at hf
    by_cases hlt : f < M.faces.next
    · rw [S.fget_old f hlt] at hf
      split_ifs at hf with hrm
      obtain ⟨i, U, p, s, hU, hs, rfl⟩ := h.used f pts hf
      by_cases hio : i ∈ olds
      · rcases S.old_slots i hio U hU p s hs with h1 | h1
        · exact absurd h1 hrm
        · obtain ⟨⟨k, p1, s1⟩, hx, hxe⟩ := List.mem_map.1 h1
          obtain ⟨V, hV, hr⟩ := (S.slots k p1 s1).2 (Or.inl hx)
          obtain ⟨T, r', e1, e2, e3⟩ := hslot_new k V hV p1 s1 hr
          exact ⟨_, T, p1, r', e1, e2, e3.trans hxe⟩
      · obtain ⟨T, r', e1, e2, e3⟩ := hslot_old i U hio hU p s hs
        exact ⟨_, T, p, r', e1, e2, e3⟩
    · obtain ⟨q, hq, rfl⟩ := S.fget_new f pts (Nat.le_of_not_lt hlt) hf
      obtain ⟨V, hV, hr⟩ := (S.slots q.k q.p (newFace q.f q.b)).2
        (Or.inr ⟨q, hq, Or.inl ⟨rfl, rfl, rfl⟩⟩)
      obtain ⟨T, r', e1, e2, e3⟩ := hslot_new q.k V hV q.p _ hr
      exact ⟨_, T, q.p, r', e1, e2, e3⟩

end Verif.Delaunay
