import Verif.Delaunay.Lemmas3d

/-! # The flips in three dimensions keep the mesh consistent: lemmas -/

namespace Verif.Delaunay

/-- The points of a tetra are a face and the opposite point. -/
theorem Consistent.points_perm {D : ℕ} {M : Mesh} (h : Consistent D M) {t p : ℕ} {T : Tetra} {s : FaceInfo}
    (hT : M.tetras.get t = some T) (hs : (p, s) ∈ T.slots) {pts : List ℕ}
    (hpts : M.faces.get s.face = some pts) : T.points.Perm (p :: pts) := by
  obtain ⟨pts', hp', hn, hm⟩ := h.face_points t T hT p s hs
  rw [hpts] at hp'
  cases hp'
  rw [List.perm_ext_iff_of_nodup (h.points_nodup t T hT)]
  · intro x
    rw [List.mem_cons, hm]
    constructor
    · intro hx
      by_cases e : x = p
      · exact Or.inl e
      · exact Or.inr ⟨hx, e⟩
    · rintro (rfl | hx)
      · exact mem_points hs
      · exact hx.1
  · rw [List.nodup_cons]
    exact ⟨fun hc => ((hm p).1 hc).2 rfl, hn⟩

theorem points_of_slots {t : Tetra} {l : List (ℕ × FaceInfo)} (h : t.slots.Perm l) :
    t.points.Perm (l.map Prod.fst) := h.map _

/-- The slots of a tetra, ordered by a list of its points. -/
theorem slots_of_points {t : Tetra} (hn : t.points.Nodup) {l : List ℕ} (h : t.points.Perm l) :
    ∃ l', t.slots.Perm l' ∧ l'.map Prod.fst = l := by
  have hl : l.Nodup := h.nodup_iff.1 hn
  have hex : ∀ l0 : List ℕ, (∀ p ∈ l0, p ∈ t.points) →
      ∃ l' : List (ℕ × FaceInfo), (∀ x ∈ l', x ∈ t.slots) ∧ l'.map Prod.fst = l0 := by
    intro l0
    induction l0 with
    | nil => exact fun _ => ⟨[], fun _ hx => absurd hx List.not_mem_nil, rfl⟩
    | cons p l0 ih =>
      intro hp
      obtain ⟨l', h1, h2⟩ := ih (fun q hq => hp q (List.mem_cons_of_mem _ hq))
      obtain ⟨s, hs⟩ := exists_slot (hp p List.mem_cons_self)
      refine ⟨(p, s) :: l', ?_, ?_⟩
      · intro x hx
        rcases List.mem_cons.1 hx with rfl | hx
        · exact hs
        · exact h1 x hx
      · rw [List.map_cons, h2]
  obtain ⟨l', h1, h2⟩ := hex l (fun p hp => h.mem_iff.2 hp)
  refine ⟨l', ?_, h2⟩
  rw [List.perm_ext_iff_of_nodup (List.Nodup.of_map _ hn)]
  · rintro ⟨p, s⟩
    constructor
    · intro hs
      have : p ∈ l'.map Prod.fst := by
        rw [h2]
        exact h.mem_iff.1 (mem_points hs)
      obtain ⟨⟨q, r⟩, hr, rfl⟩ := List.mem_map.1 this
      rw [slot_unique hn hs (h1 _ hr)]
      exact hr
    · exact h1 _
  · exact List.Nodup.of_map Prod.fst (by rw [h2]; exact hl)

/-- The new tetrahedra of a flip of two tetrahedra to three.  The order of the first two points depends on the
orientation of the face. -/
def flipBase (b : Bool) (p1 p2 : ℕ) (x y : FaceInfo) (l : List (ℕ × FaceInfo)) : Tetra :=
  if b then ⟨(p1, y) :: (p2, x) :: l⟩ else ⟨(p2, x) :: (p1, y) :: l⟩

/-- The new tetrahedra of a flip of two tetrahedra to three. -/
def news23 (b : Bool) (p1 p2 s1 s2 s3 f : ℕ) (x1 x2 x3 y1 y2 y3 : FaceInfo) : List Tetra := [
  flipBase b p1 p2 x1 y1 [(s2, newFace (f + 2) b), (s3, newFace (f + 1) !b)],
  flipBase b p1 p2 x2 y2 [(s3, newFace f b), (s1, newFace (f + 2) !b)],
  flipBase b p1 p2 x3 y3 [(s1, newFace (f + 1) b), (s2, newFace f !b)]]

theorem flipBase_mem (b : Bool) (p1 p2 : ℕ) (x y : FaceInfo) (l : List (ℕ × FaceInfo)) (z : ℕ × FaceInfo) :
    z ∈ (flipBase b p1 p2 x y l).slots ↔ z = (p1, y) ∨ z = (p2, x) ∨ z ∈ l := by
  cases b <;> simp [flipBase] <;> tauto

theorem flipBase_perm (b : Bool) (p1 p2 : ℕ) (x y : FaceInfo) (l : List (ℕ × FaceInfo)) :
    (flipBase b p1 p2 x y l).slots.Perm ((p1, y) :: (p2, x) :: l) := by
  cases b
  · exact List.Perm.swap _ _ _
  · exact List.Perm.refl _

theorem makeTetra23_eq {ta tb : Tetra} (ha : ta.points.Nodup) (hb : tb.points.Nodup) (p1 p2 : ℕ) (b : Bool)
    (pa pb fa fb : ℕ) {o : ℕ} {x y : FaceInfo} (hx : (o, x) ∈ ta.slots) (hy : (o, y) ∈ tb.slots) :
    makeTetra23 ta tb p1 p2 b pa pb fa fb o =
      some (flipBase b p1 p2 x y [(pa, newFace fb b), (pb, newFace fa !b)]) := by
  unfold makeTetra23
  rw [findFaceOpposite_eq ha hx, findFaceOpposite_eq hb hy]
  cases b <;> rfl

set_option maxHeartbeats 3200000 in
theorem twoToThree_lemma {M : Mesh} (h : Consistent 3 M) {t u p q : ℕ} {T : Tetra} {s : FaceInfo}
    (hT : M.tetras.get t = some T) (hs : (p, s) ∈ T.slots) (hso : s.opposing = some ⟨u, q⟩)
    (hqT : q ∉ T.points) :
    ∃ U r s1 s2 s3 x1 x2 x3 y1 y2 y3 M0 M', M.tetras.get u = some U ∧ r.face = s.face ∧
      M.faces.get s.face = some [s1, s2, s3] ∧
      T.slots.Perm [(p, s), (s1, x1), (s2, x2), (s3, x3)] ∧
      U.slots.Perm [(q, r), (s1, y1), (s2, y2), (s3, y3)] ∧
      M.twoToThree t u p q s.face =
        some (M', [M.tetras.next, M.tetras.next + 1, M.tetras.next + 2]) ∧
      M.tetras.entries.Perm ((t, T) :: (u, U) :: M0.tetras.entries) ∧
      Replaced M M0 [t, u] (news23 s.flipped p q s1 s2 s3 M.faces.next x1 x2 x3 y1 y2 y3) M' ∧
      Consistent 3 M' ∧ M'.faces.len = M.faces.len + 2 ∧
      (∃ rm inh pairs links, Surgery 3 M M0 [t, u] rm
        (news23 s.flipped p q s1 s2 s3 M.faces.next x1 x2 x3 y1 y2 y3) inh pairs links) ∧
      ∀ k, M'.faces.get (M.faces.next + k) = [[p, q, s1], [p, q, s2], [p, q, s3]][k]? := by
  obtain ⟨hut, U, r, hU, hr, hre⟩ := (h.neighbour t T hT p s hs u q).1 hso
  have hndT := h.points_nodup t T hT
  have hndU := h.points_nodup u U hU
  obtain ⟨pts, hpts, hptsn, _⟩ := h.face_points t T hT p s hs
  have hTpp := h.points_perm hT hs hpts
  have hUpp := h.points_perm hU hr (by rw [hre]; exact hpts)
  have hlp : pts.length = 3 := by
    have h1 := hTpp.length_eq
    have h2 : T.points.length = 4 := by simpa [Tetra.points] using h.size t T hT
    rw [List.length_cons] at h1
    omega
  match pts, hlp with
  | [s1, s2, s3], _ =>
  obtain ⟨lT, hTperm, hTfst⟩ := slots_of_points hndT hTpp
  obtain ⟨lU, hUperm, hUfst⟩ := slots_of_points hndU hUpp
  obtain ⟨s', x1, x2, x3, rfl⟩ : ∃ s' x1 x2 x3, lT = [(p, s'), (s1, x1), (s2, x2), (s3, x3)] := by
    match lT, hTfst with
    | [(a, s'), (b, x1), (c, x2), (d, x3)], e =>
      simp only [List.map_cons, List.map_nil, List.cons.injEq, and_true] at e
      obtain ⟨rfl, rfl, rfl, rfl⟩ := e
      exact ⟨s', x1, x2, x3, rfl⟩
  obtain ⟨r', y1, y2, y3, rfl⟩ : ∃ r' y1 y2 y3, lU = [(q, r'), (s1, y1), (s2, y2), (s3, y3)] := by
    match lU, hUfst with
    | [(a, s'), (b, x1), (c, x2), (d, x3)], e =>
      simp only [List.map_cons, List.map_nil, List.cons.injEq, and_true] at e
      obtain ⟨rfl, rfl, rfl, rfl⟩ := e
      exact ⟨s', x1, x2, x3, rfl⟩
  have hs' : s' = s := slot_unique hndT (hTperm.mem_iff.2 List.mem_cons_self) hs
  subst hs'
  have hr' : r' = r := slot_unique hndU (hUperm.mem_iff.2 List.mem_cons_self) hr
  subst hr'
  clear hTfst hUfst
  have hTs : ∀ z w, (z, w) ∈ T.slots ↔
      (z = p ∧ w = s') ∨ (z = s1 ∧ w = x1) ∨ (z = s2 ∧ w = x2) ∨ (z = s3 ∧ w = x3) := by
    intro z w
    rw [hTperm.mem_iff]
    simp
  have hUs : ∀ z w, (z, w) ∈ U.slots ↔
      (z = q ∧ w = r') ∨ (z = s1 ∧ w = y1) ∨ (z = s2 ∧ w = y2) ∨ (z = s3 ∧ w = y3) := by
    intro z w
    rw [hUperm.mem_iff]
    simp
  have hTp : ∀ x, x ∈ T.points ↔ x = p ∨ x = s1 ∨ x = s2 ∨ x = s3 := by
    intro x
    rw [hTpp.mem_iff]
    simp
  have hUp : ∀ x, x ∈ U.points ↔ x = q ∨ x = s1 ∨ x = s2 ∨ x = s3 := by
    intro x
    rw [hUpp.mem_iff]
    simp
  have hn1 := hTpp.nodup_iff.1 hndT
  have hn2 := hUpp.nodup_iff.1 hndU
  simp only [List.nodup_cons, List.mem_cons, List.not_mem_nil, or_false, not_or, not_false_eq_true,
    List.nodup_nil, and_true] at hn1 hn2
  obtain ⟨⟨np1, np2, np3⟩, ⟨n12, n13⟩, n23⟩ := hn1
  obtain ⟨⟨nq1, nq2, nq3⟩, _⟩ := hn2
  have npq : q ≠ p := by
    rintro rfl
    exact hqT (mem_points hs)
  have hx1 := (hTs s1 x1).2 (by simp)
  have hx2 := (hTs s2 x2).2 (by simp)
  have hx3 := (hTs s3 x3).2 (by simp)
  have hy1 := (hUs s1 y1).2 (by simp)
  have hy2 := (hUs s2 y2).2 (by simp)
  have hy3 := (hUs s3 y3).2 (by simp)
  have hcross : ∀ z w z' w', (z, w) ∈ T.slots → (z', w') ∈ U.slots → w.face = w'.face → z = p ∧ z' = q := by
    intro z w z' w' hz hz' he
    have hsf := h.same_face_points hT hU hz hz' he
    constructor
    · by_contra hc
      have h1 := ((hsf p).1 ⟨mem_points hs, Ne.symm hc⟩).1
      rw [hUp] at h1
      simp [np1, np2, np3, Ne.symm npq] at h1
    · by_contra hc
      exact hqT ((hsf q).2 ⟨mem_points hr, Ne.symm hc⟩).1
  have hTin : ∀ z w z' w', (z, w) ∈ T.slots → (z', w') ∈ T.slots → z ≠ z' → w.face ≠ w'.face := by
    intro z w z' w' hz hz' hne he
    exact hne (congrArg Prod.fst (slot_of_face (h.facesNodup t T hT) hz hz' he))
  have hUin : ∀ z w z' w', (z, w) ∈ U.slots → (z', w') ∈ U.slots → z ≠ z' → w.face ≠ w'.face := by
    intro z w z' w' hz hz' hne he
    exact hne (congrArg Prod.fst (slot_of_face (h.facesNodup u U hU) hz hz' he))
  have dx1 : x1.face ≠ s'.face := hTin _ _ _ _ hx1 hs (Ne.symm np1)
  have dx2 : x2.face ≠ s'.face := hTin _ _ _ _ hx2 hs (Ne.symm np2)
  have dx3 : x3.face ≠ s'.face := hTin _ _ _ _ hx3 hs (Ne.symm np3)
  have dy1 : y1.face ≠ s'.face := hre ▸ hUin _ _ _ _ hy1 hr (Ne.symm nq1)
  have dy2 : y2.face ≠ s'.face := hre ▸ hUin _ _ _ _ hy2 hr (Ne.symm nq2)
  have dy3 : y3.face ≠ s'.face := hre ▸ hUin _ _ _ _ hy3 hr (Ne.symm nq3)
  have dnod : [x1.face, x2.face, x3.face, y1.face, y2.face, y3.face].Nodup := by
    have a1 := hTin _ _ _ _ hx1 hx2 n12
    have a2 := hTin _ _ _ _ hx1 hx3 n13
    have a3 := hTin _ _ _ _ hx2 hx3 n23
    have b1 := hUin _ _ _ _ hy1 hy2 n12
    have b2 := hUin _ _ _ _ hy1 hy3 n13
    have b3 := hUin _ _ _ _ hy2 hy3 n23
    have c11 : x1.face ≠ y1.face := fun he => np1 (hcross _ _ _ _ hx1 hy1 he).1.symm
    have c12 : x1.face ≠ y2.face := fun he => np1 (hcross _ _ _ _ hx1 hy2 he).1.symm
    have c13 : x1.face ≠ y3.face := fun he => np1 (hcross _ _ _ _ hx1 hy3 he).1.symm
    have c21 : x2.face ≠ y1.face := fun he => np2 (hcross _ _ _ _ hx2 hy1 he).1.symm
    have c22 : x2.face ≠ y2.face := fun he => np2 (hcross _ _ _ _ hx2 hy2 he).1.symm
    have c23 : x2.face ≠ y3.face := fun he => np2 (hcross _ _ _ _ hx2 hy3 he).1.symm
    have c31 : x3.face ≠ y1.face := fun he => np3 (hcross _ _ _ _ hx3 hy1 he).1.symm
    have c32 : x3.face ≠ y2.face := fun he => np3 (hcross _ _ _ _ hx3 hy2 he).1.symm
    have c33 : x3.face ≠ y3.face := fun he => np3 (hcross _ _ _ _ hx3 hy3 he).1.symm
    simp [a1, a2, a3, b1, b2, b3, c11, c12, c13, c21, c22, c23, c31, c32, c33]
  -- the intermediate mesh
  obtain ⟨a1, ha1⟩ := Arena.exists_remove hT
  have hU1 : a1.get u = some U := by rw [Arena.get_remove ha1, if_neg hut]; exact hU
  obtain ⟨a2, ha2⟩ := Arena.exists_remove hU1
  obtain ⟨b1, hb1⟩ := Arena.exists_remove hpts
  have hbn : b1.next = M.faces.next := Arena.remove_next hb1
  have hbo : b1.Ok := Arena.remove_ok h.faces_ok hb1
  have hao1 : a1.Ok := Arena.remove_ok h.tetras_ok ha1
  set m0 : Mesh := { M with tetras := a2, faces := b1 } with hm0
  set fs : List (List ℕ) := [[p, q, s1], [p, q, s2], [p, q, s3]] with hfs
  set m1 : Mesh := m0.insertFaces fs with hm1
  obtain ⟨i1, i2, i3, i4, i5, i6, i7⟩ := insertFaces_spec (m := m0) (fs := fs) hbo
  rw [← hm1] at i1 i2 i3 i4 i5 i6 i7
  have hnx : m0.faces.next = M.faces.next := hbn
  have htn : m1.tetras.next = M.tetras.next := by
    rw [i1]; exact (Arena.remove_next ha2).trans (Arena.remove_next ha1)
  rw [hnx] at i4 i6 i7
  have g0 : m1.faces.get M.faces.next = some [p, q, s1] := i7 0
  have g1 : m1.faces.get (M.faces.next + 1) = some [p, q, s2] := i7 1
  have g2 : m1.faces.get (M.faces.next + 2) = some [p, q, s3] := i7 2
  have hgf : ∀ f, f < M.faces.next → f ≠ s'.face → m1.faces.get f = M.faces.get f := by
    intro f hf hne
    rw [i6 f hf]
    exact (Arena.get_remove hb1 f).trans (if_neg hne)
  set b := s'.flipped with hb
  have S : Surgery 3 M m1 [t, u] [s'.face] (news23 b p q s1 s2 s3 M.faces.next x1 x2 x3 y1 y2 y3)
      [(0, q, x1), (1, q, x2), (2, q, x3), (0, p, y1), (1, p, y2), (2, p, y3)]
      [⟨M.faces.next, 1, s3, 2, s2, b⟩, ⟨M.faces.next + 1, 2, s1, 0, s3, b⟩,
        ⟨M.faces.next + 2, 0, s2, 1, s1, b⟩]
      [(M.tetras.next, M.faces.next + 1, ⟨M.tetras.next + 2, s1⟩),
        (M.tetras.next, M.faces.next + 2, ⟨M.tetras.next + 1, s1⟩),
        (M.tetras.next + 1, M.faces.next + 2, ⟨M.tetras.next, s2⟩),
        (M.tetras.next + 1, M.faces.next, ⟨M.tetras.next + 2, s2⟩),
        (M.tetras.next + 2, M.faces.next, ⟨M.tetras.next + 1, s3⟩),
        (M.tetras.next + 2, M.faces.next + 1, ⟨M.tetras.next, s3⟩)] := by
    have lt := h.points_lt t T hT
    have lu := h.points_lt u U hU
    have l1 := lt s1 ((hTp _).2 (by simp))
    have l2 := lt s2 ((hTp _).2 (by simp))
    have l3 := lt s3 ((hTp _).2 (by simp))
    have l4 := lt p (mem_points hs)
    have l5 := lu q (mem_points hr)
    constructor
    · rw [i1]; exact Arena.remove_ok hao1 ha2
    · exact i3
    · exact htn
    · intro i
      rw [i1]
      refine (Arena.get_remove ha2 i).trans ?_
      rw [Arena.get_remove ha1]
      by_cases e1 : i = u
      · rw [if_pos e1, if_pos (by simp [e1])]
      · rw [if_neg e1]
        by_cases e2 : i = t
        · rw [if_pos e2, if_pos (by simp [e2])]
        · rw [if_neg e2, if_neg (by simp [e1, e2])]
    · intro o ho
      rcases List.mem_cons.1 ho with rfl | ho
      · exact ⟨T, hT⟩
      · rw [List.mem_singleton.1 ho]; exact ⟨U, hU⟩
    · intro f hf
      by_cases e : f = s'.face
      · rw [if_pos (by simp [e]), i6 f hf]
        exact (Arena.get_remove hb1 f).trans (if_pos e)
      · rw [if_neg (by simp [e])]
        exact hgf f hf e
    · intro f pts hf hg
      obtain ⟨j, rfl⟩ := Nat.exists_eq_add_of_le hf
      rw [i7] at hg
      match j, hg with
      | 0, _ => exact ⟨⟨M.faces.next, 1, s3, 2, s2, b⟩, by simp, rfl⟩
      | 1, _ => exact ⟨⟨M.faces.next + 1, 2, s1, 0, s3, b⟩, by simp, rfl⟩
      | 2, _ => exact ⟨⟨M.faces.next + 2, 0, s2, 1, s1, b⟩, by simp, rfl⟩
    · exact i2
    · intro T' hT'
      simp only [news23, List.mem_cons, List.not_mem_nil, or_false] at hT'
      rcases hT' with rfl | rfl | rfl <;> exact (flipBase_perm _ _ _ _ _ _).length_eq
    · intro T' hT'
      simp only [news23, List.mem_cons, List.not_mem_nil, or_false] at hT'
      rcases hT' with rfl | rfl | rfl <;>
        refine (points_of_slots (flipBase_perm _ _ _ _ _ _)).nodup_iff.2 ?_ <;> simp <;>
        (clear * - np1 np2 np3 nq1 nq2 nq3 npq n12 n13 n23; omega)
    · intro T' hT' z hz
      simp only [news23, List.mem_cons, List.not_mem_nil, or_false] at hT'
      rcases hT' with rfl | rfl | rfl <;>
        rw [(points_of_slots (flipBase_perm _ _ _ _ _ _)).mem_iff] at hz <;> simp at hz <;>
        rcases hz with rfl | rfl | rfl | rfl <;> assumption
    · have f1 := h.face_points t T hT s1 x1 hx1
      have f2 := h.face_points t T hT s2 x2 hx2
      have f3 := h.face_points t T hT s3 x3 hx3
      have f4 := h.face_points u U hU s1 y1 hy1
      have f5 := h.face_points u U hU s2 y2 hy2
      have f6 := h.face_points u U hU s3 y3 hy3
      rw [← hgf _ (h.face_lt hT hx1) dx1] at f1
      rw [← hgf _ (h.face_lt hT hx2) dx2] at f2
      rw [← hgf _ (h.face_lt hT hx3) dx3] at f3
      rw [← hgf _ (h.face_lt hU hy1) dy1] at f4
      rw [← hgf _ (h.face_lt hU hy2) dy2] at f5
      rw [← hgf _ (h.face_lt hU hy3) dy3] at f6
      simp only [hTp, hUp] at f1 f2 f3 f4 f5 f6
      intro T' hT' z w hz
      simp only [news23, List.mem_cons, List.not_mem_nil, or_false] at hT'
      clear * - hT' hz f1 f2 f3 f4 f5 f6 g0 g1 g2 np1 np2 np3 nq1 nq2 nq3 npq n12 n13 n23
      rcases hT' with rfl | rfl | rfl <;>
        simp only [flipBase_mem, List.mem_cons, Prod.mk.injEq, List.not_mem_nil, or_false] at hz <;>
        simp only [(points_of_slots (flipBase_perm _ _ _ _ _ _)).mem_iff, List.map_cons, List.map_nil,
          List.mem_cons, List.not_mem_nil, or_false] <;>
        rcases hz with ⟨rfl, rfl⟩ | ⟨rfl, rfl⟩ | ⟨rfl, rfl⟩ | ⟨rfl, rfl⟩
      · obtain ⟨_, e1, w1, k1⟩ := f4
        exact ⟨_, e1, w1, fun x => by rw [k1]; omega⟩
      · obtain ⟨_, e1, w1, k1⟩ := f1
        exact ⟨_, e1, w1, fun x => by rw [k1]; omega⟩
      · exact ⟨_, g2, by simp; omega, by simp; omega⟩
      · exact ⟨_, g1, by simp; omega, by simp; omega⟩
      · obtain ⟨_, e1, w1, k1⟩ := f5
        exact ⟨_, e1, w1, fun x => by rw [k1]; omega⟩
      · obtain ⟨_, e1, w1, k1⟩ := f2
        exact ⟨_, e1, w1, fun x => by rw [k1]; omega⟩
      · exact ⟨_, g0, by simp; omega, by simp; omega⟩
      · exact ⟨_, g2, by simp; omega, by simp; omega⟩
      · obtain ⟨_, e1, w1, k1⟩ := f6
        exact ⟨_, e1, w1, fun x => by rw [k1]; omega⟩
      · obtain ⟨_, e1, w1, k1⟩ := f3
        exact ⟨_, e1, w1, fun x => by rw [k1]; omega⟩
      · exact ⟨_, g1, by simp; omega, by simp; omega⟩
      · exact ⟨_, g0, by simp; omega, by simp; omega⟩
    · intro k z w
      clear * -
      constructor
      · rintro ⟨T', hT', hz⟩
        match k, hT' with
        | 0, hT' =>
          cases hT'
          simp only [flipBase_mem, List.mem_cons, Prod.mk.injEq, List.not_mem_nil, or_false] at hz
          rcases hz with ⟨rfl, rfl⟩ | ⟨rfl, rfl⟩ | ⟨rfl, rfl⟩ | ⟨rfl, rfl⟩ <;> simp
        | 1, hT' =>
          cases hT'
          simp only [flipBase_mem, List.mem_cons, Prod.mk.injEq, List.not_mem_nil, or_false] at hz
          rcases hz with ⟨rfl, rfl⟩ | ⟨rfl, rfl⟩ | ⟨rfl, rfl⟩ | ⟨rfl, rfl⟩ <;> simp
        | 2, hT' =>
          cases hT'
          simp only [flipBase_mem, List.mem_cons, Prod.mk.injEq, List.not_mem_nil, or_false] at hz
          rcases hz with ⟨rfl, rfl⟩ | ⟨rfl, rfl⟩ | ⟨rfl, rfl⟩ | ⟨rfl, rfl⟩ <;> simp
      · rintro (hi | ⟨q', hq', hc⟩)
        · simp only [List.mem_cons, Prod.mk.injEq, List.not_mem_nil, or_false] at hi
          rcases hi with ⟨rfl, rfl, rfl⟩ | ⟨rfl, rfl, rfl⟩ | ⟨rfl, rfl, rfl⟩ | ⟨rfl, rfl, rfl⟩ |
            ⟨rfl, rfl, rfl⟩ | ⟨rfl, rfl, rfl⟩ <;>
            exact ⟨_, rfl, by rw [flipBase_mem]; simp⟩
        · simp only [List.mem_cons, List.not_mem_nil, or_false] at hq'
          rcases hq' with rfl | rfl | rfl <;> rcases hc with ⟨rfl, rfl, rfl⟩ | ⟨rfl, rfl, rfl⟩ <;>
            exact ⟨_, rfl, by rw [flipBase_mem]; simp⟩
    · intro x hx
      simp only [List.mem_cons, List.not_mem_nil, or_false] at hx
      rcases hx with rfl | rfl | rfl | rfl | rfl | rfl
      · exact ⟨by simpa using dx1, t, by simp, T, _, hT, hx1⟩
      · exact ⟨by simpa using dx2, t, by simp, T, _, hT, hx2⟩
      · exact ⟨by simpa using dx3, t, by simp, T, _, hT, hx3⟩
      · exact ⟨by simpa using dy1, u, by simp, U, _, hU, hy1⟩
      · exact ⟨by simpa using dy2, u, by simp, U, _, hU, hy2⟩
      · exact ⟨by simpa using dy3, u, by simp, U, _, hU, hy3⟩
    · exact dnod
    · intro o ho T' hT' z w hz
      rcases List.mem_cons.1 ho with rfl | ho
      · rw [hT] at hT'
        cases hT'
        rcases (hTs z w).1 hz with ⟨_, rfl⟩ | ⟨_, rfl⟩ | ⟨_, rfl⟩ | ⟨_, rfl⟩ <;> simp
      · rw [List.mem_singleton.1 ho, hU] at hT'
        cases hT'
        rcases (hUs z w).1 hz with ⟨_, rfl⟩ | ⟨_, rfl⟩ | ⟨_, rfl⟩ | ⟨_, rfl⟩ <;> simp [hre]
    · intro f hf
      rw [List.mem_singleton.1 hf]
      exact ⟨t, by simp, u, by simp, Ne.symm hut, T, U, p, q, s', r', hT, hU, hs, hr, rfl, hre⟩
    · intro o ho o' ho' T1 T2 g1 g2 z w z' w' hz hz' he hrm
      have hrm' : w.face ≠ s'.face := by simpa using hrm
      rcases List.mem_cons.1 ho with rfl | hx <;> rcases List.mem_cons.1 ho' with rfl | hx'
      · rfl
      · exfalso
        rw [hT] at g1
        cases g1
        rw [List.mem_singleton.1 hx', hU] at g2
        cases g2
        obtain ⟨rfl, _⟩ := hcross z w z' w' hz hz' he.symm
        rw [slot_unique hndT hz hs] at hrm'
        exact hrm' rfl
      · exfalso
        rw [hT] at g2
        cases g2
        rw [List.mem_singleton.1 hx, hU] at g1
        cases g1
        obtain ⟨rfl, _⟩ := hcross z' w' z w hz' hz he
        rw [slot_unique hndT hz' hs] at he
        exact hrm' he.symm
      · exact (List.mem_singleton.1 hx').trans (List.mem_singleton.1 hx).symm
    · simp
    · simp
    · intro w
      clear * -
      simp only [List.mem_cons, List.not_mem_nil, or_false, exists_eq_or_imp, exists_eq_left, Nat.add_zero]
      tauto
  obtain ⟨M', hrun, hrep, hc⟩ := S.consistent h
  refine ⟨U, r', s1, s2, s3, x1, x2, x3, y1, y2, y3, m1, M', hU, hre, hpts, hTperm, hUperm, ?_, ?_, hrep,
    hc, ?_, ⟨_, _, _, _, S⟩, fun k => ?_⟩
  · obtain ⟨Mi, hi1, hi2⟩ := Option.bind_eq_some_iff.1 hrun
    unfold Mesh.twoToThree Mesh.removeTetra Mesh.removeFace
    rw [ha1]
    dsimp only [Option.map_some, Option.bind_some, bind]
    rw [ha2]
    dsimp only [Option.map_some, Option.bind_some, bind]
    rw [findFace_eq (h.facesNodup t T hT) hs]
    dsimp only [Option.map_some, Option.bind_some, bind]
    rw [hb1]
    dsimp only [Option.map_some, Option.bind_some, bind]
    rw [← hm0, ← hfs, ← hm1, htn, hnx, makeTetra23_eq hndT hndU p q _ _ _ _ _ hx1 hy1,
      makeTetra23_eq hndT hndU p q _ _ _ _ _ hx2 hy2, makeTetra23_eq hndT hndU p q _ _ _ _ _ hx3 hy3]
    dsimp only [Option.map_some, Option.bind_some, bind]
    unfold news23 at hi1
    rw [hb] at hi1
    rw [hi1]
    dsimp only [Option.map_some, Option.bind_some, bind]
    rw [hi2]
    rfl
  · rw [i1]
    refine (Arena.remove_perm h.tetras_ok ha1).trans (List.Perm.cons _ ?_)
    exact Arena.remove_perm hao1 ha2
  · rw [hrep.faces, i5]
    have := Arena.len_remove h.faces_ok hb1
    change b1.len + 3 = M.faces.len + 2
    omega
  · rw [hrep.faces]; exact i7 k

end Verif.Delaunay
