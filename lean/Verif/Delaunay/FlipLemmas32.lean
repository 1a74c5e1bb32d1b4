import Verif.Delaunay.FlipLemmas3d

/-! # The flip of three tetrahedra to two keeps the mesh consistent: lemmas -/

namespace Verif.Delaunay

/-- The slots of one of the two new tetrahedra. -/
def base32 (b : Bool) (p1 p2 p3 c n : ℕ) (g1 g2 g3 : FaceInfo) : Tetra :=
  if b then ⟨[(p2, g2), (p1, g1), (p3, g3), (c, newFace n b)]⟩
  else ⟨[(p1, g1), (p2, g2), (p3, g3), (c, newFace n b)]⟩

theorem base32_perm (b : Bool) (p1 p2 p3 c n : ℕ) (g1 g2 g3 : FaceInfo) :
    (base32 b p1 p2 p3 c n g1 g2 g3).slots.Perm [(p1, g1), (p2, g2), (p3, g3), (c, newFace n b)] := by
  cases b
  · exact List.Perm.refl _
  · exact List.Perm.swap _ _ _

/-- The new tetrahedra of a flip of three tetrahedra to two. -/
def news32 (b : Bool) (p1 p2 p3 e1 e2 n : ℕ) (t1 t2 u1 u2 v1 v2 : FaceInfo) : List Tetra := [
  base32 (!b) p1 p2 p3 e1 n t2 u2 v2, base32 b p1 p2 p3 e2 n t1 u1 v1]

theorem makeTetra32_eq {t1 t2 t3 : Tetra} (h1 : t1.points.Nodup) (h2 : t2.points.Nodup)
    (h3 : t3.points.Nodup) (p1 p2 p3 n c : ℕ) {o : ℕ} (b : Bool) {g1 g2 g3 : FaceInfo}
    (m1 : (o, g1) ∈ t1.slots) (m2 : (o, g2) ∈ t2.slots) (m3 : (o, g3) ∈ t3.slots) :
    makeTetra32 t1 t2 t3 p1 p2 p3 n c o b = some (base32 b p1 p2 p3 c n g1 g2 g3) := by
  unfold makeTetra32
  rw [findFaceOpposite_eq h1 m1, findFaceOpposite_eq h2 m2, findFaceOpposite_eq h3 m3]
  cases b <;> rfl

theorem dropFace_eq {m : Mesh} {f : ℕ} {pts : List ℕ} (h : m.faces.get f = some pts) :
    ∃ a, m.faces.remove f = some (pts, a) ∧ m.dropFace f = { m with faces := a } := by
  obtain ⟨a, ha⟩ := Arena.exists_remove h
  refine ⟨a, ha, ?_⟩
  unfold Mesh.dropFace
  rw [ha]

set_option maxHeartbeats 3200000 in
theorem threeToTwo_lemma {M : Mesh} (h : Consistent 3 M) {i1 i2 i3 p1 p2 p3 e1 e2 : ℕ} {T U V : Tetra}
    {t2 t3 te1 te2 u1 u3 ue1 ue2 v1 v2 ve1 ve2 : FaceInfo}
    (hT : M.tetras.get i1 = some T) (hU : M.tetras.get i2 = some U) (hV : M.tetras.get i3 = some V)
    (hTperm : T.slots.Perm [(p2, t2), (p3, t3), (e1, te1), (e2, te2)])
    (hUperm : U.slots.Perm [(p1, u1), (p3, u3), (e1, ue1), (e2, ue2)])
    (hVperm : V.slots.Perm [(p1, v1), (p2, v2), (e1, ve1), (e2, ve2)])
    (hf3 : t2.face = u1.face) (hf2 : t3.face = v1.face) (hf1 : u3.face = v2.face) (h12 : p1 ≠ p2) :
    ∃ M0 M', M.threeToTwo i1 i2 i3 p1 p2 p3 e1 e2 = some (M', [M.tetras.next, M.tetras.next + 1]) ∧
      M.tetras.entries.Perm ((i1, T) :: (i2, U) :: (i3, V) :: M0.tetras.entries) ∧
      Replaced M M0 [i1, i2, i3] (news32 u1.flipped p1 p2 p3 e1 e2 M.faces.next te1 te2 ue1 ue2 ve1 ve2) M' ∧
      Consistent 3 M' ∧ M'.faces.len + 2 = M.faces.len ∧
      (∃ rm inh pairs links, Surgery 3 M M0 [i1, i2, i3] rm
        (news32 u1.flipped p1 p2 p3 e1 e2 M.faces.next te1 te2 ue1 ue2 ve1 ve2) inh pairs links) ∧
      ∀ k, M'.faces.get (M.faces.next + k) = [[p1, p2, p3]][k]? := by
  have hndT := h.points_nodup i1 T hT
  have hndU := h.points_nodup i2 U hU
  have hndV := h.points_nodup i3 V hV
  have hTpp := points_of_slots hTperm
  have hUpp := points_of_slots hUperm
  have hVpp := points_of_slots hVperm
  have hTs : ∀ z w, (z, w) ∈ T.slots ↔
      (z = p2 ∧ w = t2) ∨ (z = p3 ∧ w = t3) ∨ (z = e1 ∧ w = te1) ∨ (z = e2 ∧ w = te2) := by
    intro z w
    rw [hTperm.mem_iff]
    simp
  have hUs : ∀ z w, (z, w) ∈ U.slots ↔
      (z = p1 ∧ w = u1) ∨ (z = p3 ∧ w = u3) ∨ (z = e1 ∧ w = ue1) ∨ (z = e2 ∧ w = ue2) := by
    intro z w
    rw [hUperm.mem_iff]
    simp
  have hVs : ∀ z w, (z, w) ∈ V.slots ↔
      (z = p1 ∧ w = v1) ∨ (z = p2 ∧ w = v2) ∨ (z = e1 ∧ w = ve1) ∨ (z = e2 ∧ w = ve2) := by
    intro z w
    rw [hVperm.mem_iff]
    simp
  have hTp : ∀ x, x ∈ T.points ↔ x = p2 ∨ x = p3 ∨ x = e1 ∨ x = e2 := by
    intro x
    rw [hTpp.mem_iff]
    simp
  have hUp : ∀ x, x ∈ U.points ↔ x = p1 ∨ x = p3 ∨ x = e1 ∨ x = e2 := by
    intro x
    rw [hUpp.mem_iff]
    simp
  have hVp : ∀ x, x ∈ V.points ↔ x = p1 ∨ x = p2 ∨ x = e1 ∨ x = e2 := by
    intro x
    rw [hVpp.mem_iff]
    simp
  have hn1 := hTpp.nodup_iff.1 hndT
  have hn2 := hUpp.nodup_iff.1 hndU
  simp only [List.nodup_cons, List.mem_cons, List.not_mem_nil, or_false, not_or, not_false_eq_true,
    List.nodup_nil, and_true, List.map_cons, List.map_nil] at hn1 hn2
  obtain ⟨⟨n23, n2e1, n2e2⟩, ⟨n3e1, n3e2⟩, nee⟩ := hn1
  obtain ⟨⟨n13, n1e1, n1e2⟩, _⟩ := hn2
  have q1T : p1 ∉ T.points := by rw [hTp]; simp [h12, n13, n1e1, n1e2]
  have q2U : p2 ∉ U.points := by rw [hUp]; simp [h12.symm, n23, n2e1, n2e2]
  have q3V : p3 ∉ V.points := by rw [hVp]; simp [Ne.symm n13, Ne.symm n23, n3e1, n3e2]
  -- the tetras are different
  have hi12 : i1 ≠ i2 := by
    rintro rfl
    rw [hT] at hU
    cases hU
    exact q1T ((hUp p1).2 (by simp))
  have hi13 : i1 ≠ i3 := by
    rintro rfl
    rw [hT] at hV
    cases hV
    exact q1T ((hVp p1).2 (by simp))
  have hi23 : i2 ≠ i3 := by
    rintro rfl
    rw [hU] at hV
    cases hV
    exact q2U ((hVp p2).2 (by simp))
  have st2 := (hTs p2 t2).2 (by simp)
  have st3 := (hTs p3 t3).2 (by simp)
  have ste1 := (hTs e1 te1).2 (by simp)
  have ste2 := (hTs e2 te2).2 (by simp)
  have su1 := (hUs p1 u1).2 (by simp)
  have su3 := (hUs p3 u3).2 (by simp)
  have sue1 := (hUs e1 ue1).2 (by simp)
  have sue2 := (hUs e2 ue2).2 (by simp)
  have sv1 := (hVs p1 v1).2 (by simp)
  have sv2 := (hVs p2 v2).2 (by simp)
  have sve1 := (hVs e1 ve1).2 (by simp)
  have sve2 := (hVs e2 ve2).2 (by simp)
  -- which faces are shared
  have cTU : ∀ z w z' w', (z, w) ∈ T.slots → (z', w') ∈ U.slots → w.face = w'.face →
      z = p2 ∧ z' = p1 := by
    intro z w z' w' hz hz' he
    have hsf := h.same_face_points hT hU hz hz' he
    constructor
    · by_contra hc
      exact q2U ((hsf p2).1 ⟨(hTp p2).2 (by simp), Ne.symm hc⟩).1
    · by_contra hc
      exact q1T ((hsf p1).2 ⟨(hUp p1).2 (by simp), Ne.symm hc⟩).1
  have cTV : ∀ z w z' w', (z, w) ∈ T.slots → (z', w') ∈ V.slots → w.face = w'.face →
      z = p3 ∧ z' = p1 := by
    intro z w z' w' hz hz' he
    have hsf := h.same_face_points hT hV hz hz' he
    constructor
    · by_contra hc
      exact q3V ((hsf p3).1 ⟨(hTp p3).2 (by simp), Ne.symm hc⟩).1
    · by_contra hc
      exact q1T ((hsf p1).2 ⟨(hVp p1).2 (by simp), Ne.symm hc⟩).1
  have cUV : ∀ z w z' w', (z, w) ∈ U.slots → (z', w') ∈ V.slots → w.face = w'.face →
      z = p3 ∧ z' = p2 := by
    intro z w z' w' hz hz' he
    have hsf := h.same_face_points hU hV hz hz' he
    constructor
    · by_contra hc
      exact q3V ((hsf p3).1 ⟨(hUp p3).2 (by simp), Ne.symm hc⟩).1
    · by_contra hc
      exact q2U ((hsf p2).2 ⟨(hVp p2).2 (by simp), Ne.symm hc⟩).1
  have hTin : ∀ z w z' w', (z, w) ∈ T.slots → (z', w') ∈ T.slots → z ≠ z' → w.face ≠ w'.face := by
    intro z w z' w' hz hz' hne he
    exact hne (congrArg Prod.fst (slot_of_face (h.facesNodup i1 T hT) hz hz' he))
  have hUin : ∀ z w z' w', (z, w) ∈ U.slots → (z', w') ∈ U.slots → z ≠ z' → w.face ≠ w'.face := by
    intro z w z' w' hz hz' hne he
    exact hne (congrArg Prod.fst (slot_of_face (h.facesNodup i2 U hU) hz hz' he))
  have hVin : ∀ z w z' w', (z, w) ∈ V.slots → (z', w') ∈ V.slots → z ≠ z' → w.face ≠ w'.face := by
    intro z w z' w' hz hz' hne he
    exact hne (congrArg Prod.fst (slot_of_face (h.facesNodup i3 V hV) hz hz' he))
  -- the removed faces
  have dte1 : te1.face ≠ t2.face ∧ te1.face ≠ t3.face := ⟨hTin _ _ _ _ ste1 st2 (Ne.symm n2e1),
    hTin _ _ _ _ ste1 st3 (Ne.symm n3e1)⟩
  have dte2 : te2.face ≠ t2.face ∧ te2.face ≠ t3.face := ⟨hTin _ _ _ _ ste2 st2 (Ne.symm n2e2),
    hTin _ _ _ _ ste2 st3 (Ne.symm n3e2)⟩
  have due1 : ue1.face ≠ u1.face ∧ ue1.face ≠ u3.face := ⟨hUin _ _ _ _ sue1 su1 (Ne.symm n1e1),
    hUin _ _ _ _ sue1 su3 (Ne.symm n3e1)⟩
  have due2 : ue2.face ≠ u1.face ∧ ue2.face ≠ u3.face := ⟨hUin _ _ _ _ sue2 su1 (Ne.symm n1e2),
    hUin _ _ _ _ sue2 su3 (Ne.symm n3e2)⟩
  have dve1 : ve1.face ≠ v1.face ∧ ve1.face ≠ v2.face := ⟨hVin _ _ _ _ sve1 sv1 (Ne.symm n1e1),
    hVin _ _ _ _ sve1 sv2 (Ne.symm n2e1)⟩
  have dve2 : ve2.face ≠ v1.face ∧ ve2.face ≠ v2.face := ⟨hVin _ _ _ _ sve2 sv1 (Ne.symm n1e2),
    hVin _ _ _ _ sve2 sv2 (Ne.symm n2e2)⟩
  have dte1' : te1.face ≠ v2.face := fun he => n3e1 (cTV _ _ _ _ ste1 sv2 he).1.symm
  have dte2' : te2.face ≠ v2.face := fun he => n3e2 (cTV _ _ _ _ ste2 sv2 he).1.symm
  have due1' : ue1.face ≠ t3.face := fun he => n2e1 ((cTU _ _ _ _ st3 sue1 he.symm).1 ▸ absurd
    (cTU _ _ _ _ st3 sue1 he.symm).1 (Ne.symm n23))
  have due2' : ue2.face ≠ t3.face := fun he => absurd (cTU _ _ _ _ st3 sue2 he.symm).1 (Ne.symm n23)
  have dve1' : ve1.face ≠ t2.face := fun he => absurd (cTV _ _ _ _ st2 sve1 he.symm).1 n23
  have dve2' : ve2.face ≠ t2.face := fun he => absurd (cTV _ _ _ _ st2 sve2 he.symm).1 n23
  have r12 : v2.face ≠ t3.face := fun he => absurd (cTV _ _ _ _ st3 sv2 he.symm).2 (Ne.symm h12)
  have r13 : v2.face ≠ u1.face := fun he => absurd (cUV _ _ _ _ su1 sv2 he.symm).1 n13
  have r23 : t3.face ≠ u1.face := fun he => absurd (cTU _ _ _ _ st3 su1 he).1 (Ne.symm n23)
  have dnod : [te2.face, ue2.face, ve2.face, te1.face, ue1.face, ve1.face].Nodup := by
    have a1 := hTin _ _ _ _ ste2 ste1 (Ne.symm nee)
    have a2 := hUin _ _ _ _ sue2 sue1 (Ne.symm nee)
    have a3 := hVin _ _ _ _ sve2 sve1 (Ne.symm nee)
    have c1 : te2.face ≠ ue2.face := fun he => n2e2 (cTU _ _ _ _ ste2 sue2 he).1.symm
    have c2 : te2.face ≠ ue1.face := fun he => n2e2 (cTU _ _ _ _ ste2 sue1 he).1.symm
    have c3 : te1.face ≠ ue2.face := fun he => n2e1 (cTU _ _ _ _ ste1 sue2 he).1.symm
    have c4 : te1.face ≠ ue1.face := fun he => n2e1 (cTU _ _ _ _ ste1 sue1 he).1.symm
    have c5 : te2.face ≠ ve2.face := fun he => n3e2 (cTV _ _ _ _ ste2 sve2 he).1.symm
    have c6 : te2.face ≠ ve1.face := fun he => n3e2 (cTV _ _ _ _ ste2 sve1 he).1.symm
    have c7 : te1.face ≠ ve2.face := fun he => n3e1 (cTV _ _ _ _ ste1 sve2 he).1.symm
    have c8 : te1.face ≠ ve1.face := fun he => n3e1 (cTV _ _ _ _ ste1 sve1 he).1.symm
    have c9 : ue2.face ≠ ve2.face := fun he => n3e2 (cUV _ _ _ _ sue2 sve2 he).1.symm
    have c10 : ue2.face ≠ ve1.face := fun he => n3e2 (cUV _ _ _ _ sue2 sve1 he).1.symm
    have c11 : ue1.face ≠ ve2.face := fun he => n3e1 (cUV _ _ _ _ sue1 sve2 he).1.symm
    have c12 : ue1.face ≠ ve1.face := fun he => n3e1 (cUV _ _ _ _ sue1 sve1 he).1.symm
    simp [a1, a2, a3, c1, c2, c3.symm, c4, c5, c6, c7.symm, c8, c9, c10, c11.symm, c12]
  -- the intermediate mesh
  obtain ⟨a1, ha1⟩ := Arena.exists_remove hT
  have hU1 : a1.get i2 = some U := by rw [Arena.get_remove ha1, if_neg (Ne.symm hi12)]; exact hU
  obtain ⟨a2, ha2⟩ := Arena.exists_remove hU1
  have hV2 : a2.get i3 = some V := by
    rw [Arena.get_remove ha2, if_neg (Ne.symm hi23), Arena.get_remove ha1, if_neg (Ne.symm hi13)]; exact hV
  obtain ⟨a3, ha3⟩ := Arena.exists_remove hV2
  have hao1 : a1.Ok := Arena.remove_ok h.tetras_ok ha1
  have hao2 : a2.Ok := Arena.remove_ok hao1 ha2
  obtain ⟨ptsA, hpA, _⟩ := h.face_points i3 V hV p2 v2 sv2
  obtain ⟨ptsB, hpB, _⟩ := h.face_points i1 T hT p3 t3 st3
  obtain ⟨ptsC, hpC, _⟩ := h.face_points i2 U hU p1 u1 su1
  set mt : Mesh := { M with tetras := a3 } with hmt
  obtain ⟨b1, hb1, hd1⟩ := dropFace_eq (m := mt) hpA
  have hpB1 : b1.get t3.face = some ptsB := by
    rw [Arena.get_remove hb1, if_neg (Ne.symm r12)]; exact hpB
  obtain ⟨b2, hb2, hd2⟩ := dropFace_eq (m := { mt with faces := b1 }) hpB1
  have hpC2 : b2.get u1.face = some ptsC := by
    rw [Arena.get_remove hb2, if_neg (Ne.symm r23)]
    dsimp only
    rw [Arena.get_remove hb1, if_neg (Ne.symm r13)]; exact hpC
  obtain ⟨b3, hb3, hd3⟩ := dropFace_eq (m := { mt with faces := b2 }) hpC2
  have hbo1 : b1.Ok := Arena.remove_ok h.faces_ok hb1
  have hbo2 : b2.Ok := Arena.remove_ok hbo1 hb2
  have hbo3 : b3.Ok := Arena.remove_ok hbo2 hb3
  have hbn : b3.next = M.faces.next :=
    ((Arena.remove_next hb3).trans (Arena.remove_next hb2)).trans (Arena.remove_next hb1)
  have hbg : ∀ f, b3.get f = if f ∈ [v2.face, t3.face, u1.face] then none else M.faces.get f := by
    intro f
    rw [Arena.get_remove hb3]
    by_cases e3 : f = u1.face
    · rw [if_pos e3, if_pos (by simp [e3])]
    · rw [if_neg e3]
      refine (Arena.get_remove hb2 f).trans ?_
      by_cases e2 : f = t3.face
      · rw [if_pos e2, if_pos (by simp [e2])]
      · rw [if_neg e2]
        refine (Arena.get_remove hb1 f).trans ?_
        by_cases e1 : f = v2.face
        · rw [if_pos e1, if_pos (by simp [e1])]
        · rw [if_neg e1, if_neg (by simp [e1, e2, e3])]
  set m0 : Mesh := { mt with faces := b3 } with hm0
  set m1 : Mesh := m0.insertFaces [[p1, p2, p3]] with hm1
  obtain ⟨j1, j2, j3, j4, j5, j6, j7⟩ := insertFaces_spec (m := m0) (fs := [[p1, p2, p3]]) hbo3
  rw [← hm1] at j1 j2 j3 j4 j5 j6 j7
  have hnx : m0.faces.next = M.faces.next := hbn
  have htn : m1.tetras.next = M.tetras.next := by
    rw [j1]
    exact ((Arena.remove_next ha3).trans (Arena.remove_next ha2)).trans (Arena.remove_next ha1)
  rw [hnx] at j4 j6 j7
  have g0 : m1.faces.get M.faces.next = some [p1, p2, p3] := j7 0
  have hgf : ∀ f, f < M.faces.next → f ∉ [v2.face, t3.face, u1.face] → m1.faces.get f = M.faces.get f := by
    intro f hf hne
    rw [j6 f hf]
    exact (hbg f).trans (if_neg hne)
  have rte1 : te1.face ∉ [v2.face, t3.face, u1.face] := by simp [dte1', dte1.2, hf3 ▸ dte1.1]
  have rte2 : te2.face ∉ [v2.face, t3.face, u1.face] := by simp [dte2', dte2.2, hf3 ▸ dte2.1]
  have rue1 : ue1.face ∉ [v2.face, t3.face, u1.face] := by simp [hf1 ▸ due1.2, due1', due1.1]
  have rue2 : ue2.face ∉ [v2.face, t3.face, u1.face] := by simp [hf1 ▸ due2.2, due2', due2.1]
  have rve1 : ve1.face ∉ [v2.face, t3.face, u1.face] := by simp [dve1.2, hf2 ▸ dve1.1, hf3 ▸ dve1']
  have rve2 : ve2.face ∉ [v2.face, t3.face, u1.face] := by simp [dve2.2, hf2 ▸ dve2.1, hf3 ▸ dve2']
  set b := u1.flipped with hb
  have S : Surgery 3 M m1 [i1, i2, i3] [v2.face, t3.face, u1.face]
      (news32 b p1 p2 p3 e1 e2 M.faces.next te1 te2 ue1 ue2 ve1 ve2)
      [(0, p1, te2), (0, p2, ue2), (0, p3, ve2), (1, p1, te1), (1, p2, ue1), (1, p3, ve1)]
      [⟨M.faces.next, 0, e1, 1, e2, !b⟩]
      [(M.tetras.next, M.faces.next, ⟨M.tetras.next + 1, e2⟩),
        (M.tetras.next + 1, M.faces.next, ⟨M.tetras.next, e1⟩)] := by
    have lt := h.points_lt i1 T hT
    have lu := h.points_lt i2 U hU
    have l1 := lt p2 ((hTp _).2 (by simp))
    have l2 := lt p3 ((hTp _).2 (by simp))
    have l3 := lt e1 ((hTp _).2 (by simp))
    have l4 := lt e2 ((hTp _).2 (by simp))
    have l5 := lu p1 ((hUp _).2 (by simp))
    constructor
    · rw [j1]; exact Arena.remove_ok hao2 ha3
    · exact j3
    · exact htn
    · intro i
      rw [j1]
      refine (Arena.get_remove ha3 i).trans ?_
      rw [Arena.get_remove ha2, Arena.get_remove ha1]
      by_cases k1 : i = i1
      · simp [k1]
      · by_cases k2 : i = i2
        · simp [k2]
        · by_cases k3 : i = i3
          · simp [k3]
          · simp [k1, k2, k3]
    · intro o ho
      simp only [List.mem_cons, List.not_mem_nil, or_false] at ho
      rcases ho with rfl | rfl | rfl
      · exact ⟨T, hT⟩
      · exact ⟨U, hU⟩
      · exact ⟨V, hV⟩
    · intro f hf
      rw [j6 f hf]
      exact hbg f
    · intro f pts hf hg
      obtain ⟨j, rfl⟩ := Nat.exists_eq_add_of_le hf
      rw [j7] at hg
      match j, hg with
      | 0, _ => exact ⟨_, List.mem_cons_self, rfl⟩
    · exact j2
    · intro T' hT'
      simp only [news32, List.mem_cons, List.not_mem_nil, or_false] at hT'
      rcases hT' with rfl | rfl <;> exact (base32_perm _ _ _ _ _ _ _ _ _).length_eq
    · intro T' hT'
      simp only [news32, List.mem_cons, List.not_mem_nil, or_false] at hT'
      rcases hT' with rfl | rfl <;>
        refine (points_of_slots (base32_perm _ _ _ _ _ _ _ _ _)).nodup_iff.2 ?_ <;>
        simp [h12, n13, n23, n1e1, n1e2, n2e1, n2e2, n3e1, n3e2]
    · intro T' hT' z hz
      simp only [news32, List.mem_cons, List.not_mem_nil, or_false] at hT'
      rcases hT' with rfl | rfl <;>
        rw [(points_of_slots (base32_perm _ _ _ _ _ _ _ _ _)).mem_iff] at hz <;> simp at hz <;>
        rcases hz with rfl | rfl | rfl | rfl <;> assumption
    · have f1 := h.face_points i1 T hT e1 te1 ste1
      have f2 := h.face_points i1 T hT e2 te2 ste2
      have f3 := h.face_points i2 U hU e1 ue1 sue1
      have f4 := h.face_points i2 U hU e2 ue2 sue2
      have f5 := h.face_points i3 V hV e1 ve1 sve1
      have f6 := h.face_points i3 V hV e2 ve2 sve2
      rw [← hgf _ (h.face_lt hT ste1) rte1] at f1
      rw [← hgf _ (h.face_lt hT ste2) rte2] at f2
      rw [← hgf _ (h.face_lt hU sue1) rue1] at f3
      rw [← hgf _ (h.face_lt hU sue2) rue2] at f4
      rw [← hgf _ (h.face_lt hV sve1) rve1] at f5
      rw [← hgf _ (h.face_lt hV sve2) rve2] at f6
      simp only [hTp, hUp, hVp] at f1 f2 f3 f4 f5 f6
      intro T' hT' z w hz
      simp only [news32, List.mem_cons, List.not_mem_nil, or_false] at hT'
      clear * - hT' hz f1 f2 f3 f4 f5 f6 g0 h12 n13 n23 n1e1 n1e2 n2e1 n2e2 n3e1 n3e2 nee
      rcases hT' with rfl | rfl <;>
        simp only [(base32_perm _ _ _ _ _ _ _ _ _).mem_iff, List.mem_cons, Prod.mk.injEq,
          List.not_mem_nil, or_false] at hz <;>
        simp only [(points_of_slots (base32_perm _ _ _ _ _ _ _ _ _)).mem_iff, List.map_cons, List.map_nil,
          List.mem_cons, List.not_mem_nil, or_false] <;>
        rcases hz with ⟨rfl, rfl⟩ | ⟨rfl, rfl⟩ | ⟨rfl, rfl⟩ | ⟨rfl, rfl⟩
      · obtain ⟨_, k0, w1, k1⟩ := f2
        exact ⟨_, k0, w1, fun x => by rw [k1]; grind⟩
      · obtain ⟨_, k0, w1, k1⟩ := f4
        exact ⟨_, k0, w1, fun x => by rw [k1]; grind⟩
      · obtain ⟨_, k0, w1, k1⟩ := f6
        exact ⟨_, k0, w1, fun x => by rw [k1]; grind⟩
      · exact ⟨_, g0, by simp; grind, by simp; grind⟩
      · obtain ⟨_, k0, w1, k1⟩ := f1
        exact ⟨_, k0, w1, fun x => by rw [k1]; grind⟩
      · obtain ⟨_, k0, w1, k1⟩ := f3
        exact ⟨_, k0, w1, fun x => by rw [k1]; grind⟩
      · obtain ⟨_, k0, w1, k1⟩ := f5
        exact ⟨_, k0, w1, fun x => by rw [k1]; grind⟩
      · exact ⟨_, g0, by simp; grind, by simp; grind⟩
    · intro k z w
      clear * -
      constructor
      · rintro ⟨T', hT', hz⟩
        match k, hT' with
        | 0, hT' =>
          cases hT'
          simp only [(base32_perm _ _ _ _ _ _ _ _ _).mem_iff, List.mem_cons, Prod.mk.injEq,
            List.not_mem_nil, or_false] at hz
          rcases hz with ⟨rfl, rfl⟩ | ⟨rfl, rfl⟩ | ⟨rfl, rfl⟩ | ⟨rfl, rfl⟩ <;> simp
        | 1, hT' =>
          cases hT'
          simp only [(base32_perm _ _ _ _ _ _ _ _ _).mem_iff, List.mem_cons, Prod.mk.injEq,
            List.not_mem_nil, or_false] at hz
          rcases hz with ⟨rfl, rfl⟩ | ⟨rfl, rfl⟩ | ⟨rfl, rfl⟩ | ⟨rfl, rfl⟩ <;> simp
      · rintro (hi | ⟨q', hq', hc⟩)
        · simp only [List.mem_cons, Prod.mk.injEq, List.not_mem_nil, or_false] at hi
          rcases hi with ⟨rfl, rfl, rfl⟩ | ⟨rfl, rfl, rfl⟩ | ⟨rfl, rfl, rfl⟩ | ⟨rfl, rfl, rfl⟩ |
            ⟨rfl, rfl, rfl⟩ | ⟨rfl, rfl, rfl⟩ <;>
            exact ⟨_, rfl, by rw [(base32_perm _ _ _ _ _ _ _ _ _).mem_iff]; simp⟩
        · rw [List.mem_singleton.1 hq'] at hc
          rcases hc with ⟨rfl, rfl, rfl⟩ | ⟨rfl, rfl, rfl⟩ <;>
            exact ⟨_, rfl, by rw [(base32_perm _ _ _ _ _ _ _ _ _).mem_iff]; simp⟩
    · intro x hx
      simp only [List.mem_cons, List.not_mem_nil, or_false] at hx
      rcases hx with rfl | rfl | rfl | rfl | rfl | rfl
      · exact ⟨rte2, i1, by simp, T, _, hT, ste2⟩
      · exact ⟨rue2, i2, by simp, U, _, hU, sue2⟩
      · exact ⟨rve2, i3, by simp, V, _, hV, sve2⟩
      · exact ⟨rte1, i1, by simp, T, _, hT, ste1⟩
      · exact ⟨rue1, i2, by simp, U, _, hU, sue1⟩
      · exact ⟨rve1, i3, by simp, V, _, hV, sve1⟩
    · exact dnod
    · intro o ho T' hT' z w hz
      simp only [List.mem_cons, List.not_mem_nil, or_false] at ho
      rcases ho with rfl | rfl | rfl
      · rw [hT] at hT'
        cases hT'
        rcases (hTs z w).1 hz with ⟨_, rfl⟩ | ⟨_, rfl⟩ | ⟨_, rfl⟩ | ⟨_, rfl⟩ <;> simp [hf3]
      · rw [hU] at hT'
        cases hT'
        rcases (hUs z w).1 hz with ⟨_, rfl⟩ | ⟨_, rfl⟩ | ⟨_, rfl⟩ | ⟨_, rfl⟩ <;> simp [hf1]
      · rw [hV] at hT'
        cases hT'
        rcases (hVs z w).1 hz with ⟨_, rfl⟩ | ⟨_, rfl⟩ | ⟨_, rfl⟩ | ⟨_, rfl⟩ <;> simp [hf2]
    · intro f hf
      simp only [List.mem_cons, List.not_mem_nil, or_false] at hf
      rcases hf with rfl | rfl | rfl
      · exact ⟨i2, by simp, i3, by simp, hi23, U, V, _, _, _, _, hU, hV, su3, sv2, hf1, rfl⟩
      · exact ⟨i1, by simp, i3, by simp, hi13, T, V, _, _, _, _, hT, hV, st3, sv1, rfl, hf2.symm⟩
      · exact ⟨i1, by simp, i2, by simp, hi12, T, U, _, _, _, _, hT, hU, st2, su1, hf3, rfl⟩
    · have aTU : ∀ z w z' w', (z, w) ∈ T.slots → (z', w') ∈ U.slots → w.face = w'.face →
          w.face ∈ [v2.face, t3.face, u1.face] := by
        intro z w z' w' hz hz' he
        obtain ⟨rfl, rfl⟩ := cTU z w z' w' hz hz' he
        rw [slot_unique hndT hz st2, hf3]
        simp
      have aTV : ∀ z w z' w', (z, w) ∈ T.slots → (z', w') ∈ V.slots → w.face = w'.face →
          w.face ∈ [v2.face, t3.face, u1.face] := by
        intro z w z' w' hz hz' he
        obtain ⟨rfl, rfl⟩ := cTV z w z' w' hz hz' he
        rw [slot_unique hndT hz st3]
        simp
      have aUV : ∀ z w z' w', (z, w) ∈ U.slots → (z', w') ∈ V.slots → w.face = w'.face →
          w.face ∈ [v2.face, t3.face, u1.face] := by
        intro z w z' w' hz hz' he
        obtain ⟨rfl, rfl⟩ := cUV z w z' w' hz hz' he
        rw [slot_unique hndU hz su3, hf1]
        simp
      intro o ho o' ho' T1 T2 k1 k2 z w z' w' hz hz' he hrm
      have hrm' : w'.face ∉ [v2.face, t3.face, u1.face] := by rw [he]; exact hrm
      have hcase : ∀ o T0, o ∈ [i1, i2, i3] → M.tetras.get o = some T0 →
          (o = i1 ∧ T0 = T) ∨ (o = i2 ∧ T0 = U) ∨ (o = i3 ∧ T0 = V) := by
        intro o T0 ho h0
        simp only [List.mem_cons, List.not_mem_nil, or_false] at ho
        rcases ho with rfl | rfl | rfl
        · rw [hT] at h0; cases h0; exact Or.inl ⟨rfl, rfl⟩
        · rw [hU] at h0; cases h0; exact Or.inr (Or.inl ⟨rfl, rfl⟩)
        · rw [hV] at h0; cases h0; exact Or.inr (Or.inr ⟨rfl, rfl⟩)
      rcases hcase o T1 ho k1 with ⟨ho1, hT1⟩ | ⟨ho1, hT1⟩ | ⟨ho1, hT1⟩ <;>
        rcases hcase o' T2 ho' k2 with ⟨ho2, hT2⟩ | ⟨ho2, hT2⟩ | ⟨ho2, hT2⟩ <;>
        rw [hT1] at hz <;> rw [hT2] at hz'
      · rw [ho1, ho2]
      · exact absurd (aTU _ _ _ _ hz hz' he.symm) hrm
      · exact absurd (aTV _ _ _ _ hz hz' he.symm) hrm
      · exact absurd (aTU _ _ _ _ hz' hz he) hrm'
      · rw [ho1, ho2]
      · exact absurd (aUV _ _ _ _ hz hz' he.symm) hrm
      · exact absurd (aTV _ _ _ _ hz' hz he) hrm'
      · exact absurd (aUV _ _ _ _ hz' hz he) hrm'
      · rw [ho1, ho2]
    · simp
    · simp
    · intro w
      simp [-Prod.mk.injEq]
  obtain ⟨M', hrun, hrep, hc⟩ := S.consistent h
  refine ⟨m1, M', ?_, ?_, hrep, hc, ?_, ⟨_, _, _, _, S⟩, fun k => ?_⟩
  · obtain ⟨Mi, hi1, hi2⟩ := Option.bind_eq_some_iff.1 hrun
    unfold Mesh.threeToTwo Mesh.removeTetra
    rw [ha1]
    dsimp only [Option.map_some, Option.bind_some, bind]
    rw [ha2]
    dsimp only [Option.map_some, Option.bind_some, bind]
    rw [ha3]
    dsimp only [Option.map_some, Option.bind_some, bind]
    rw [findFaceOpposite_eq hndV sv2, findFaceOpposite_eq hndT st3, findFaceOpposite_eq hndU su1]
    dsimp only [Option.map_some, Option.bind_some, bind]
    rw [← hmt, hd1]
    rw [show ({ mt with faces := b1 } : Mesh).dropFace t3.face = { mt with faces := b2 } from hd2]
    rw [show ({ mt with faces := b2 } : Mesh).dropFace u1.face = { mt with faces := b3 } from hd3]
    rw [← hm0, ← hm1, htn, hnx, makeTetra32_eq hndT hndU hndV p1 p2 p3 _ _ _ ste2 sue2 sve2,
      makeTetra32_eq hndT hndU hndV p1 p2 p3 _ _ _ ste1 sue1 sve1]
    dsimp only [Option.map_some, Option.bind_some, bind]
    unfold news32 at hi1
    rw [hb] at hi1
    rw [hi1]
    dsimp only [Option.map_some, Option.bind_some, bind]
    rw [hi2]
    rfl
  · rw [j1]
    refine (Arena.remove_perm h.tetras_ok ha1).trans (List.Perm.cons _ ?_)
    refine (Arena.remove_perm hao1 ha2).trans (List.Perm.cons _ ?_)
    exact Arena.remove_perm hao2 ha3
  · rw [hrep.faces, j5]
    have c1 := Arena.len_remove h.faces_ok hb1
    have c2 := Arena.len_remove hbo1 hb2
    have c3 := Arena.len_remove hbo2 hb3
    change b3.len + 1 + 2 = M.faces.len
    change b1.len = b2.len + 1 at c2
    change b2.len = b3.len + 1 at c3
    change M.faces.len = b1.len + 1 at c1
    omega
  · rw [hrep.faces]; exact j7 k

end Verif.Delaunay
