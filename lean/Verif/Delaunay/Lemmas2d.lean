import Verif.Delaunay.Surgery

/-! # The two-dimensional operations keep the mesh consistent: lemmas -/

namespace Verif.Delaunay

/-- The effect of inserting faces. -/
theorem insertFaces_spec {fs : List (List ℕ)} {m : Mesh} (hok : m.faces.Ok) :
    (m.insertFaces fs).tetras = m.tetras ∧ (m.insertFaces fs).numPoints = m.numPoints ∧
    (m.insertFaces fs).faces.Ok ∧ (m.insertFaces fs).faces.next = m.faces.next + fs.length ∧
    (m.insertFaces fs).faces.len = m.faces.len + fs.length ∧
    (∀ f, f < m.faces.next → (m.insertFaces fs).faces.get f = m.faces.get f) ∧
    (∀ j, (m.insertFaces fs).faces.get (m.faces.next + j) = fs[j]?) := by
  induction fs generalizing m with
  | nil =>
    refine ⟨rfl, rfl, hok, rfl, rfl, fun _ _ => rfl, fun j => ?_⟩
    exact hok.get_none (Nat.le_add_right _ _)
  | cons f fs ih =>
    unfold Mesh.insertFaces
    obtain ⟨h1, h2, h3, h4, h5, h6, h7⟩ :=
      ih (m := { m with faces := (m.faces.insert f).1 }) (Arena.insert_ok hok f)
    dsimp only at h1 h2 h3 h4 h5 h6 h7
    have hn : (m.faces.insert f).1.next = m.faces.next + 1 := rfl
    refine ⟨h1, h2, h3, ?_, ?_, ?_, ?_⟩
    · rw [h4, hn, List.length_cons]; omega
    · rw [h5, Arena.len_insert, List.length_cons]; omega
    · intro g hg
      rw [h6 g (by omega), Arena.get_insert hok, if_neg (by omega)]
    · intro j
      cases j with
      | zero =>
        rw [Nat.add_zero, h6 _ (by omega), Arena.get_insert hok, if_pos rfl]
        rfl
      | succ j =>
        have := h7 j
        rw [hn] at this
        rw [List.getElem?_cons_succ, ← this]
        congr 1
        omega

theorem Replaced.len {M M0 M' : Mesh} {olds : List ℕ} {news : List Tetra} (h : Replaced M M0 olds news M') :
    M'.tetras.len = M0.tetras.len + news.length := by
  have := congrArg List.length h.shapes
  simpa [Arena.len] using this

theorem slots_three {l : List (ℕ × FaceInfo)} (h : l.length = 3) :
    ∃ p1 o1 p2 o2 p3 o3, l = [(p1, o1), (p2, o2), (p3, o3)] := by
  match l, h with
  | [(p1, o1), (p2, o2), (p3, o3)], _ => exact ⟨p1, o1, p2, o2, p3, o3, rfl⟩

theorem slots_four {l : List (ℕ × FaceInfo)} (h : l.length = 4) :
    ∃ p1 o1 p2 o2 p3 o3 p4 o4, l = [(p1, o1), (p2, o2), (p3, o3), (p4, o4)] := by
  match l, h with
  | [(p1, o1), (p2, o2), (p3, o3), (p4, o4)], _ => exact ⟨p1, o1, p2, o2, p3, o3, p4, o4, rfl⟩

/-- The new triangles of a split. -/
def splitNews2d (point p1 p2 p3 f : ℕ) (o1 o2 o3 : FaceInfo) : List Tetra := [
  ⟨[(p2, newFace (f + 2) true), (p3, newFace (f + 1) false), (point, o1)]⟩,
  ⟨[(p3, newFace f true), (p1, newFace (f + 2) false), (point, o2)]⟩,
  ⟨[(p1, newFace (f + 1) true), (p2, newFace f false), (point, o3)]⟩]

theorem split2d_lemma {M : Mesh} (h : Consistent 2 M) {t point : ℕ} {T : Tetra}
    (hT : M.tetras.get t = some T) (hp : point < M.numPoints) (hpT : point ∉ T.points) :
    ∃ p1 o1 p2 o2 p3 o3 M0 M', T.slots = [(p1, o1), (p2, o2), (p3, o3)] ∧
      M.split2d t point = some (M', [M.tetras.next, M.tetras.next + 1, M.tetras.next + 2]) ∧
      M.tetras.entries.Perm ((t, T) :: M0.tetras.entries) ∧
      Replaced M M0 [t] (splitNews2d point p1 p2 p3 M.faces.next o1 o2 o3) M' ∧
      Consistent 2 M' ∧ M'.faces.len = M.faces.len + 3 ∧
      (∀ f, f < M.faces.next → M'.faces.get f = M.faces.get f) ∧
      M'.faces.get M.faces.next = some [point, p1] ∧ M'.faces.get (M.faces.next + 1) = some [point, p2] ∧
      M'.faces.get (M.faces.next + 2) = some [point, p3] ∧ M'.faces.next = M.faces.next + 3 := by
  obtain ⟨p1, o1, p2, o2, p3, o3, hsl⟩ := slots_three (h.size t T hT)
  obtain ⟨a, ha⟩ := Arena.exists_remove hT
  set m0 : Mesh := { M with tetras := a } with hm0
  set m1 : Mesh := m0.insertFaces [[point, p1], [point, p2], [point, p3]] with hm1
  obtain ⟨i1, i2, i3, i4, i5, i6, i7⟩ :=
    insertFaces_spec (m := m0) (fs := [[point, p1], [point, p2], [point, p3]]) h.faces_ok
  rw [← hm1] at i1 i2 i3 i4 i5 i6 i7
  have hnx : m0.faces.next = M.faces.next := rfl
  have htn : m1.tetras.next = M.tetras.next := by
    rw [i1]; exact Arena.remove_next ha
  rw [hnx] at i4 i6 i7
  have hnd := h.points_nodup t T hT
  have hmem : ∀ p s, (p, s) ∈ T.slots ↔ (p = p1 ∧ s = o1) ∨ (p = p2 ∧ s = o2) ∨ (p = p3 ∧ s = o3) := by
    intro p s
    rw [hsl]
    simp
  have hpts : ∀ p, p ∈ T.points ↔ p = p1 ∨ p = p2 ∨ p = p3 := by
    intro p
    unfold Tetra.points
    rw [hsl]
    simp
  unfold Tetra.points at hnd
  rw [hsl] at hnd
  simp only [List.map_cons, List.map_nil, List.nodup_cons, List.mem_cons, List.not_mem_nil, or_false,
    not_or, not_false_eq_true, List.nodup_nil, and_true] at hnd
  obtain ⟨⟨h12, h13⟩, h23⟩ := hnd
  rw [hpts] at hpT
  push Not at hpT
  obtain ⟨hq1, hq2, hq3⟩ := hpT
  have hfn := h.facesNodup t T hT
  unfold Tetra.FacesNodup at hfn
  rw [hsl] at hfn
  have hlt := h.points_lt t T hT
  have l1 := hlt p1 ((hpts _).2 (Or.inl rfl))
  have l2 := hlt p2 ((hpts _).2 (Or.inr (Or.inl rfl)))
  have l3 := hlt p3 ((hpts _).2 (Or.inr (Or.inr rfl)))
  have hface : ∀ p s, (p, s) ∈ T.slots →
      ∃ pts, m1.faces.get s.face = some pts ∧ pts.Nodup ∧ ∀ x, x ∈ pts ↔ x ∈ T.points ∧ x ≠ p := by
    intro p s hs
    rw [i6 _ (h.face_lt hT hs)]
    exact h.face_points t T hT p s hs
  have g0 : m1.faces.get M.faces.next = some [point, p1] := i7 0
  have g1 : m1.faces.get (M.faces.next + 1) = some [point, p2] := i7 1
  have g2 : m1.faces.get (M.faces.next + 2) = some [point, p3] := i7 2
  have S : Surgery 2 M m1 [t] [] (splitNews2d point p1 p2 p3 M.faces.next o1 o2 o3)
      [(0, point, o1), (1, point, o2), (2, point, o3)]
      [⟨M.faces.next, 1, p3, 2, p2, true⟩, ⟨M.faces.next + 1, 2, p1, 0, p3, true⟩,
        ⟨M.faces.next + 2, 0, p2, 1, p1, true⟩]
      [(M.tetras.next, M.faces.next + 2, ⟨M.tetras.next + 1, p1⟩),
        (M.tetras.next, M.faces.next + 1, ⟨M.tetras.next + 2, p1⟩),
        (M.tetras.next + 1, M.faces.next + 2, ⟨M.tetras.next, p2⟩),
        (M.tetras.next + 1, M.faces.next, ⟨M.tetras.next + 2, p2⟩),
        (M.tetras.next + 2, M.faces.next, ⟨M.tetras.next + 1, p3⟩),
        (M.tetras.next + 2, M.faces.next + 1, ⟨M.tetras.next, p3⟩)] := by
    constructor
    · rw [i1]; exact Arena.remove_ok h.tetras_ok ha
    · exact i3
    · exact htn
    · intro i
      rw [i1, Arena.get_remove ha]
      simp
    · intro o ho
      rw [List.mem_singleton.1 ho]
      exact ⟨T, hT⟩
    · intro f hf
      rw [i6 f hf, if_neg List.not_mem_nil]
    · intro f pts hf hg
      obtain ⟨j, rfl⟩ := Nat.exists_eq_add_of_le hf
      rw [i7] at hg
      match j, hg with
      | 0, _ => exact ⟨_, List.mem_cons_self, rfl⟩
      | 1, _ => exact ⟨_, List.mem_cons_of_mem _ List.mem_cons_self, rfl⟩
      | 2, _ => exact ⟨_, List.mem_cons_of_mem _ (List.mem_cons_of_mem _ List.mem_cons_self), rfl⟩
    · exact i2
    · simp [splitNews2d]
    · intro T' hT'
      simp only [splitNews2d, List.mem_cons, List.not_mem_nil, or_false] at hT'
      rcases hT' with rfl | rfl | rfl <;> simp [Tetra.points] <;> omega
    · intro T' hT' p hp'
      simp only [splitNews2d, List.mem_cons, List.not_mem_nil, or_false] at hT'
      rcases hT' with rfl | rfl | rfl <;> simp [Tetra.points] at hp' <;>
        rcases hp' with rfl | rfl | rfl <;> assumption
    · have f1 := hface p1 o1 ((hmem _ _).2 (by simp))
      have f2 := hface p2 o2 ((hmem _ _).2 (by simp))
      have f3 := hface p3 o3 ((hmem _ _).2 (by simp))
      simp only [hpts] at f1 f2 f3
      obtain ⟨q1, e1, n1, k1⟩ := f1
      obtain ⟨q2, e2, n2, k2⟩ := f2
      obtain ⟨q3, e3, n3, k3⟩ := f3
      intro T' hT' p s hs
      simp only [splitNews2d, List.mem_cons, List.not_mem_nil, or_false] at hT'
      rcases hT' with rfl | rfl | rfl <;>
      · simp only [List.mem_cons, Prod.mk.injEq, List.not_mem_nil, or_false] at hs
        rcases hs with ⟨rfl, rfl⟩ | ⟨rfl, rfl⟩ | ⟨rfl, rfl⟩ <;> dsimp only [newFace]
        · first
          | exact ⟨_, g2, by simp; omega, by simp [Tetra.points]; omega⟩
          | exact ⟨_, g1, by simp; omega, by simp [Tetra.points]; omega⟩
          | exact ⟨_, g0, by simp; omega, by simp [Tetra.points]; omega⟩
        · first
          | exact ⟨_, g2, by simp; omega, by simp [Tetra.points]; omega⟩
          | exact ⟨_, g1, by simp; omega, by simp [Tetra.points]; omega⟩
          | exact ⟨_, g0, by simp; omega, by simp [Tetra.points]; omega⟩
        · first
          | exact ⟨_, e1, n1, fun x => by rw [k1]; simp [Tetra.points]; omega⟩
          | exact ⟨_, e2, n2, fun x => by rw [k2]; simp [Tetra.points]; omega⟩
          | exact ⟨_, e3, n3, fun x => by rw [k3]; simp [Tetra.points]; omega⟩
    · intro k p s
      constructor
      · rintro ⟨T', hT', hs⟩
        match k, hT' with
        | 0, hT' =>
          cases hT'
          simp only [List.mem_cons, Prod.mk.injEq, List.not_mem_nil, or_false] at hs
          rcases hs with ⟨rfl, rfl⟩ | ⟨rfl, rfl⟩ | ⟨rfl, rfl⟩ <;> simp
        | 1, hT' =>
          cases hT'
          simp only [List.mem_cons, Prod.mk.injEq, List.not_mem_nil, or_false] at hs
          rcases hs with ⟨rfl, rfl⟩ | ⟨rfl, rfl⟩ | ⟨rfl, rfl⟩ <;> simp
        | 2, hT' =>
          cases hT'
          simp only [List.mem_cons, Prod.mk.injEq, List.not_mem_nil, or_false] at hs
          rcases hs with ⟨rfl, rfl⟩ | ⟨rfl, rfl⟩ | ⟨rfl, rfl⟩ <;> simp
      · rintro (hi | ⟨q, hq, hc⟩)
        · simp only [List.mem_cons, Prod.mk.injEq, List.not_mem_nil, or_false] at hi
          rcases hi with ⟨rfl, rfl, rfl⟩ | ⟨rfl, rfl, rfl⟩ | ⟨rfl, rfl, rfl⟩ <;>
            exact ⟨_, rfl, by simp⟩
        · simp only [List.mem_cons, List.not_mem_nil, or_false] at hq
          rcases hq with rfl | rfl | rfl <;> rcases hc with ⟨rfl, rfl, rfl⟩ | ⟨rfl, rfl, rfl⟩ <;>
            exact ⟨_, rfl, by simp⟩
    · intro x hx
      refine ⟨List.not_mem_nil, t, List.mem_singleton.2 rfl, T, ?_⟩
      simp only [hmem]
      simp only [List.mem_cons, List.not_mem_nil, or_false] at hx
      rcases hx with rfl | rfl | rfl
      · exact ⟨p1, hT, by simp⟩
      · exact ⟨p2, hT, by simp⟩
      · exact ⟨p3, hT, by simp⟩
    · exact hfn
    · intro o ho T' hT' p s hs
      rw [List.mem_singleton.1 ho, hT] at hT'
      cases hT'
      rcases (hmem p s).1 hs with ⟨_, rfl⟩ | ⟨_, rfl⟩ | ⟨_, rfl⟩ <;> simp
    · intro f hf
      exact absurd hf List.not_mem_nil
    · intro o ho o' ho' _ _ _ _ _ _ _ _ _ _ _ _
      rw [List.mem_singleton.1 ho, List.mem_singleton.1 ho']
    · simp
    · simp
    · intro w
      simp [-Prod.mk.injEq]
      tauto
  obtain ⟨M', hrun, hrep, hc⟩ := S.consistent h
  refine ⟨p1, o1, p2, o2, p3, o3, m1, M', hsl, ?_, ?_, hrep, hc, ?_, by rw [hrep.faces]; exact i6,
    by rw [hrep.faces]; exact g0, by rw [hrep.faces]; exact g1, by rw [hrep.faces]; exact g2,
    by rw [hrep.faces]; exact i4⟩
  · unfold Mesh.split2d Mesh.removeTetra
    rw [ha]
    dsimp only [Option.map_some]
    rw [hsl]
    dsimp only
    rw [← hm0, ← hm1, htn, hnx]
    unfold splitNews2d at hrun
    rw [hrun]
    rfl
  · rw [i1]; exact Arena.remove_perm h.tetras_ok ha
  · rw [hrep.faces]; exact i5

/-- Tetras with a common face have the same points apart from the opposite ones. -/
theorem Consistent.same_face_points {D : ℕ} {M : Mesh} (h : Consistent D M) {i j : ℕ} {T U : Tetra}
    (hi : M.tetras.get i = some T) (hj : M.tetras.get j = some U) {p q : ℕ} {s r : FaceInfo}
    (hs : (p, s) ∈ T.slots) (hr : (q, r) ∈ U.slots) (he : s.face = r.face) (x : ℕ) :
    (x ∈ T.points ∧ x ≠ p) ↔ (x ∈ U.points ∧ x ≠ q) := by
  obtain ⟨pts, e1, _, h1⟩ := h.face_points i T hi p s hs
  obtain ⟨pts', e2, _, h2⟩ := h.face_points j U hj q r hr
  rw [he, e2] at e1
  cases e1
  rw [← h1, ← h2]

/-- The new triangles of a flip. -/
def flipNews2d (p q p1 p2 n : ℕ) (x1 x2 y1 y2 : FaceInfo) : List Tetra := [
  ⟨[(p, y2), (p1, newFace n true), (q, x2)]⟩,
  ⟨[(p2, newFace n false), (p, y1), (q, x1)]⟩]

set_option maxHeartbeats 1600000 in
theorem flip2d_lemma {M : Mesh} (h : Consistent 2 M) {t u p q : ℕ} {T : Tetra} {s : FaceInfo}
    (hT : M.tetras.get t = some T) (hs : (p, s) ∈ T.slots) (hso : s.opposing = some ⟨u, q⟩)
    (hqT : q ∉ T.points) :
    ∃ U r a b p1 x1 y1 p2 x2 y2 M0 M', M.tetras.get u = some U ∧ r.face = s.face ∧
      M.faces.get s.face = some [a, b] ∧
      p1 = (if s.flipped then b else a) ∧ p2 = (if s.flipped then a else b) ∧
      T.slots.Perm [(p, s), (p1, x1), (p2, x2)] ∧ U.slots.Perm [(q, r), (p1, y1), (p2, y2)] ∧
      M.flip2d t s.face = some (M', [M.tetras.next, M.tetras.next + 1]) ∧
      M.tetras.entries.Perm ((t, T) :: (u, U) :: M0.tetras.entries) ∧
      Replaced M M0 [t, u] (flipNews2d p q p1 p2 M.faces.next x1 x2 y1 y2) M' ∧
      Consistent 2 M' ∧ M'.faces.len = M.faces.len ∧
      (∀ f, f < M.faces.next → f ≠ s.face → M'.faces.get f = M.faces.get f) ∧
      M'.faces.get M.faces.next = some [p, q] ∧ M'.faces.next = M.faces.next + 1 ∧
      M'.faces.get s.face = none := by
  obtain ⟨hut, U, r, hU, hr, hre⟩ := (h.neighbour t T hT p s hs u q).1 hso
  have hndT := h.points_nodup t T hT
  have hndU := h.points_nodup u U hU
  obtain ⟨pts, hpts, hptsn, hptsm⟩ := h.face_points t T hT p s hs
  have hUm : ∀ x, x ∈ pts ↔ x ∈ U.points ∧ x ≠ q := by
    intro x
    rw [hptsm, h.same_face_points hT hU hs hr hre.symm]
  have hlenT : T.points.length = 3 := by simpa [Tetra.points] using h.size t T hT
  have hlenU : U.points.length = 3 := by simpa [Tetra.points] using h.size u U hU
  have hpT : p ∈ T.points := mem_points hs
  have hqU : q ∈ U.points := mem_points hr
  have hpp : T.points.Perm (p :: pts) := by
    rw [List.perm_ext_iff_of_nodup hndT]
    · intro x
      rw [List.mem_cons, hptsm]
      constructor
      · intro hx
        by_cases e : x = p
        · exact Or.inl e
        · exact Or.inr ⟨hx, e⟩
      · rintro (rfl | hx)
        · exact hpT
        · exact hx.1
    · rw [List.nodup_cons]
      exact ⟨fun hc => ((hptsm p).1 hc).2 rfl, hptsn⟩
  have hlp : pts.length = 2 := by
    have := hpp.length_eq
    rw [List.length_cons] at this
    omega
  match pts, hlp with
  | [a, b], _ =>
  have hab : a ≠ b := by simpa using hptsn
  obtain ⟨p1, p2, hp1, hp2, h12, hset⟩ : ∃ p1 p2, p1 = (if s.flipped then b else a) ∧
      p2 = (if s.flipped then a else b) ∧ p1 ≠ p2 ∧ ∀ x, x ∈ [a, b] ↔ x = p1 ∨ x = p2 := by
    cases s.flipped
    · exact ⟨a, b, rfl, rfl, hab, fun x => by simp⟩
    · refine ⟨b, a, rfl, rfl, Ne.symm hab, fun x => ?_⟩
      simp only [List.mem_cons, List.not_mem_nil, or_false]
      exact Or.comm
  simp only [hset] at hptsm hUm
  have hTp : ∀ x, x ∈ T.points ↔ x = p ∨ x = p1 ∨ x = p2 := by
    intro x
    rw [hptsm]
    constructor
    · intro hx
      by_cases e : x = p
      · exact Or.inl e
      · exact Or.inr ⟨hx, e⟩
    · rintro (rfl | hx)
      · exact hpT
      · exact hx.1
  have hUp : ∀ x, x ∈ U.points ↔ x = q ∨ x = p1 ∨ x = p2 := by
    intro x
    rw [hUm]
    constructor
    · intro hx
      by_cases e : x = q
      · exact Or.inl e
      · exact Or.inr ⟨hx, e⟩
    · rintro (rfl | hx)
      · exact hqU
      · exact hx.1
  have n1 : p1 ≠ p := ((hptsm p1).1 (Or.inl rfl)).2
  have n2 : p2 ≠ p := ((hptsm p2).1 (Or.inr rfl)).2
  have n3 : p1 ≠ q := ((hUm p1).1 (Or.inl rfl)).2
  have n4 : p2 ≠ q := ((hUm p2).1 (Or.inr rfl)).2
  have n5 : q ≠ p := by
    rintro rfl
    exact hqT hpT
  obtain ⟨x1, hx1⟩ := exists_slot ((hTp p1).2 (by simp))
  obtain ⟨x2, hx2⟩ := exists_slot ((hTp p2).2 (by simp))
  obtain ⟨y1, hy1⟩ := exists_slot ((hUp p1).2 (by simp))
  obtain ⟨y2, hy2⟩ := exists_slot ((hUp p2).2 (by simp))
  have hTs : ∀ z w, (z, w) ∈ T.slots ↔ (z = p ∧ w = s) ∨ (z = p1 ∧ w = x1) ∨ (z = p2 ∧ w = x2) := by
    intro z w
    constructor
    · intro hz
      rcases (hTp z).1 (mem_points hz) with rfl | rfl | rfl
      · exact Or.inl ⟨rfl, slot_unique hndT hz hs⟩
      · exact Or.inr (Or.inl ⟨rfl, slot_unique hndT hz hx1⟩)
      · exact Or.inr (Or.inr ⟨rfl, slot_unique hndT hz hx2⟩)
    · rintro (⟨rfl, rfl⟩ | ⟨rfl, rfl⟩ | ⟨rfl, rfl⟩) <;> assumption
  have hUs : ∀ z w, (z, w) ∈ U.slots ↔ (z = q ∧ w = r) ∨ (z = p1 ∧ w = y1) ∨ (z = p2 ∧ w = y2) := by
    intro z w
    constructor
    · intro hz
      rcases (hUp z).1 (mem_points hz) with rfl | rfl | rfl
      · exact Or.inl ⟨rfl, slot_unique hndU hz hr⟩
      · exact Or.inr (Or.inl ⟨rfl, slot_unique hndU hz hy1⟩)
      · exact Or.inr (Or.inr ⟨rfl, slot_unique hndU hz hy2⟩)
    · rintro (⟨rfl, rfl⟩ | ⟨rfl, rfl⟩ | ⟨rfl, rfl⟩) <;> assumption
  have hTperm : T.slots.Perm [(p, s), (p1, x1), (p2, x2)] := by
    rw [List.perm_ext_iff_of_nodup (List.Nodup.of_map _ hndT)]
    · rintro ⟨z, w⟩
      rw [hTs]
      simp
    · simp
      clear * - h12 n1 n2
      omega
  have hUperm : U.slots.Perm [(q, r), (p1, y1), (p2, y2)] := by
    rw [List.perm_ext_iff_of_nodup (List.Nodup.of_map _ hndU)]
    · rintro ⟨z, w⟩
      rw [hUs]
      simp
    · simp
      clear * - h12 n3 n4
      omega
  -- distinct faces
  have hcross : ∀ z w z' w', (z, w) ∈ T.slots → (z', w') ∈ U.slots → w.face = w'.face → z = p ∧ z' = q := by
    intro z w z' w' hz hz' he
    have hsf := h.same_face_points hT hU hz hz' he
    have e1 := hsf p
    have e2 := hsf q
    rw [hTp, hUp] at e1 e2
    constructor
    · by_contra hc
      have := e1.1 ⟨Or.inl rfl, Ne.symm hc⟩
      omega
    · by_contra hc
      have := e2.2 ⟨Or.inl rfl, Ne.symm hc⟩
      omega
  have hTin : ∀ z w z' w', (z, w) ∈ T.slots → (z', w') ∈ T.slots → z ≠ z' → w.face ≠ w'.face := by
    intro z w z' w' hz hz' hne he
    exact hne (congrArg Prod.fst (slot_of_face (h.facesNodup t T hT) hz hz' he))
  have hUin : ∀ z w z' w', (z, w) ∈ U.slots → (z', w') ∈ U.slots → z ≠ z' → w.face ≠ w'.face := by
    intro z w z' w' hz hz' hne he
    exact hne (congrArg Prod.fst (slot_of_face (h.facesNodup u U hU) hz hz' he))
  have d1 : x1.face ≠ s.face := hTin _ _ _ _ hx1 hs n1
  have d2 : x2.face ≠ s.face := hTin _ _ _ _ hx2 hs n2
  have d3 : y1.face ≠ s.face := hre ▸ hUin _ _ _ _ hy1 hr n3
  have d4 : y2.face ≠ s.face := hre ▸ hUin _ _ _ _ hy2 hr n4
  have d5 : x1.face ≠ x2.face := hTin _ _ _ _ hx1 hx2 h12
  have d6 : y1.face ≠ y2.face := hUin _ _ _ _ hy1 hy2 h12
  have d7 : x1.face ≠ y1.face := fun he => n1 (hcross _ _ _ _ hx1 hy1 he).1
  have d8 : x1.face ≠ y2.face := fun he => n1 (hcross _ _ _ _ hx1 hy2 he).1
  have d9 : x2.face ≠ y1.face := fun he => n2 (hcross _ _ _ _ hx2 hy1 he).1
  have d10 : x2.face ≠ y2.face := fun he => n2 (hcross _ _ _ _ hx2 hy2 he).1
  -- the intermediate mesh
  obtain ⟨a1, ha1⟩ := Arena.exists_remove hT
  have hU1 : a1.get u = some U := by rw [Arena.get_remove ha1, if_neg hut]; exact hU
  obtain ⟨a2, ha2⟩ := Arena.exists_remove hU1
  obtain ⟨b1, hb1⟩ := Arena.exists_remove hpts
  have hbn : b1.next = M.faces.next := Arena.remove_next hb1
  have hbo : b1.Ok := Arena.remove_ok h.faces_ok hb1
  have hao1 : a1.Ok := Arena.remove_ok h.tetras_ok ha1
  set m0 : Mesh := { M with tetras := a2, faces := b1 } with hm0
  set m1 : Mesh := m0.insertFaces [[p, q]] with hm1
  obtain ⟨i1, i2, i3, i4, i5, i6, i7⟩ := insertFaces_spec (m := m0) (fs := [[p, q]]) hbo
  rw [← hm1] at i1 i2 i3 i4 i5 i6 i7
  have hnx : m0.faces.next = M.faces.next := hbn
  have htn : m1.tetras.next = M.tetras.next := by
    rw [i1]; exact (Arena.remove_next ha2).trans (Arena.remove_next ha1)
  rw [hnx] at i4 i6 i7
  have g0 : m1.faces.get M.faces.next = some [p, q] := i7 0
  have hgf : ∀ f, f < M.faces.next → f ≠ s.face → m1.faces.get f = M.faces.get f := by
    intro f hf hne
    rw [i6 f hf]
    exact (Arena.get_remove hb1 f).trans (if_neg hne)
  have S : Surgery 2 M m1 [t, u] [s.face] (flipNews2d p q p1 p2 M.faces.next x1 x2 y1 y2)
      [(0, p, y2), (0, q, x2), (1, p, y1), (1, q, x1)]
      [⟨M.faces.next, 0, p1, 1, p2, true⟩]
      [(M.tetras.next, M.faces.next, ⟨M.tetras.next + 1, p2⟩),
        (M.tetras.next + 1, M.faces.next, ⟨M.tetras.next, p1⟩)] := by
    have lt := h.points_lt t T hT
    have lu := h.points_lt u U hU
    have l1 := lt p1 ((hTp _).2 (by simp))
    have l2 := lt p2 ((hTp _).2 (by simp))
    have l3 := lt p hpT
    have l4 := lu q hqU
    constructor
    · rw [i1]; exact Arena.remove_ok hao1 ha2
    · exact i3
    · exact htn
    · intro i
      rw [i1]
      refine (Arena.get_remove ha2 i).trans ?_
      rw [Arena.get_remove ha1]
      by_cases e1 : i = u
      · rw [if_pos e1, if_pos (by simp [e1])]
      · rw [if_neg e1]
        by_cases e2 : i = t
        · rw [if_pos e2, if_pos (by simp [e2])]
        · rw [if_neg e2, if_neg (by simp [e1, e2])]
    · intro o ho
      rcases List.mem_cons.1 ho with rfl | ho
      · exact ⟨T, hT⟩
      · rw [List.mem_singleton.1 ho]; exact ⟨U, hU⟩
    · intro f hf
      by_cases e : f = s.face
      · rw [if_pos (by simp [e]), i6 f hf]
        exact (Arena.get_remove hb1 f).trans (if_pos e)
      · rw [if_neg (by simp [e])]
        exact hgf f hf e
    · intro f pts hf hg
      obtain ⟨j, rfl⟩ := Nat.exists_eq_add_of_le hf
      rw [i7] at hg
      match j, hg with
      | 0, _ => exact ⟨_, List.mem_cons_self, rfl⟩
    · exact i2
    · simp [flipNews2d]
    · intro T' hT'
      simp only [flipNews2d, List.mem_cons, List.not_mem_nil, or_false] at hT'
      rcases hT' with rfl | rfl <;> simp [Tetra.points] <;> (clear * - h12 n1 n2 n3 n4 n5; omega)
    · intro T' hT' p hp'
      simp only [flipNews2d, List.mem_cons, List.not_mem_nil, or_false] at hT'
      rcases hT' with rfl | rfl <;> simp [Tetra.points] at hp' <;>
        rcases hp' with rfl | rfl | rfl <;> assumption
    · have f1 := h.face_points t T hT p1 x1 hx1
      have f2 := h.face_points t T hT p2 x2 hx2
      have f3 := h.face_points u U hU p1 y1 hy1
      have f4 := h.face_points u U hU p2 y2 hy2
      rw [← hgf _ (h.face_lt hT hx1) d1] at f1
      rw [← hgf _ (h.face_lt hT hx2) d2] at f2
      rw [← hgf _ (h.face_lt hU hy1) d3] at f3
      rw [← hgf _ (h.face_lt hU hy2) d4] at f4
      simp only [hTp, hUp] at f1 f2 f3 f4
      obtain ⟨q1, e1, w1, k1⟩ := f1
      obtain ⟨q2, e2, w2, k2⟩ := f2
      obtain ⟨q3, e3, w3, k3⟩ := f3
      obtain ⟨q4, e4, w4, k4⟩ := f4
      intro T' hT' z w hz
      simp only [flipNews2d, List.mem_cons, List.not_mem_nil, or_false] at hT'
      rcases hT' with rfl | rfl <;>
        simp only [List.mem_cons, Prod.mk.injEq, List.not_mem_nil, or_false] at hz <;>
        rcases hz with ⟨rfl, rfl⟩ | ⟨rfl, rfl⟩ | ⟨rfl, rfl⟩
      · refine ⟨_, e4, w4, fun x => ?_⟩
        rw [k4]; simp [Tetra.points]; clear * - h12 n1 n2 n3 n4 n5; omega
      · refine ⟨_, g0, ?_, ?_⟩
        · simp; clear * - h12 n1 n2 n3 n4 n5; omega
        · simp [Tetra.points]; clear * - h12 n1 n2 n3 n4 n5; omega
      · refine ⟨_, e2, w2, fun x => ?_⟩
        rw [k2]; simp [Tetra.points]; clear * - h12 n1 n2 n3 n4 n5; omega
      · refine ⟨_, g0, ?_, ?_⟩
        · simp; clear * - h12 n1 n2 n3 n4 n5; omega
        · simp [Tetra.points]; clear * - h12 n1 n2 n3 n4 n5; omega
      · refine ⟨_, e3, w3, fun x => ?_⟩
        rw [k3]; simp [Tetra.points]; clear * - h12 n1 n2 n3 n4 n5; omega
      · refine ⟨_, e1, w1, fun x => ?_⟩
        rw [k1]; simp [Tetra.points]; clear * - h12 n1 n2 n3 n4 n5; omega
    · intro k z w
      constructor
      · rintro ⟨T', hT', hz⟩
        match k, hT' with
        | 0, hT' =>
          cases hT'
          simp only [List.mem_cons, Prod.mk.injEq, List.not_mem_nil, or_false] at hz
          rcases hz with ⟨rfl, rfl⟩ | ⟨rfl, rfl⟩ | ⟨rfl, rfl⟩ <;> simp
        | 1, hT' =>
          cases hT'
          simp only [List.mem_cons, Prod.mk.injEq, List.not_mem_nil, or_false] at hz
          rcases hz with ⟨rfl, rfl⟩ | ⟨rfl, rfl⟩ | ⟨rfl, rfl⟩ <;> simp
      · rintro (hi | ⟨q', hq', hc⟩)
        · simp only [List.mem_cons, Prod.mk.injEq, List.not_mem_nil, or_false] at hi
          rcases hi with ⟨rfl, rfl, rfl⟩ | ⟨rfl, rfl, rfl⟩ | ⟨rfl, rfl, rfl⟩ | ⟨rfl, rfl, rfl⟩ <;>
            exact ⟨_, rfl, by simp⟩
        · rw [List.mem_singleton.1 hq'] at hc
          rcases hc with ⟨rfl, rfl, rfl⟩ | ⟨rfl, rfl, rfl⟩ <;>
            exact ⟨_, rfl, by simp⟩
    · intro x hx
      simp only [List.mem_cons, List.not_mem_nil, or_false] at hx
      rcases hx with rfl | rfl | rfl | rfl
      · exact ⟨by simpa using d4, u, by simp, U, _, hU, hy2⟩
      · exact ⟨by simpa using d2, t, by simp, T, _, hT, hx2⟩
      · exact ⟨by simpa using d3, u, by simp, U, _, hU, hy1⟩
      · exact ⟨by simpa using d1, t, by simp, T, _, hT, hx1⟩
    · simp
      clear * - d5 d6 d7 d8 d9 d10
      omega
    · intro o ho T' hT' z w hz
      rcases List.mem_cons.1 ho with rfl | ho
      · rw [hT] at hT'
        cases hT'
        rcases (hTs z w).1 hz with ⟨_, rfl⟩ | ⟨_, rfl⟩ | ⟨_, rfl⟩ <;> simp
      · rw [List.mem_singleton.1 ho, hU] at hT'
        cases hT'
        rcases (hUs z w).1 hz with ⟨_, rfl⟩ | ⟨_, rfl⟩ | ⟨_, rfl⟩ <;> simp [hre]
    · intro f hf
      rw [List.mem_singleton.1 hf]
      exact ⟨t, by simp, u, by simp, Ne.symm hut, T, U, p, q, s, r, hT, hU, hs, hr, rfl, hre⟩
    · intro o ho o' ho' T1 T2 g1 g2 z w z' w' hz hz' he hrm
      have hrm' : w.face ≠ s.face := by simpa using hrm
      rcases List.mem_cons.1 ho with rfl | hx <;> rcases List.mem_cons.1 ho' with rfl | hx'
      · rfl
      · exfalso
        rw [hT] at g1
        cases g1
        rw [List.mem_singleton.1 hx', hU] at g2
        cases g2
        obtain ⟨rfl, _⟩ := hcross z w z' w' hz hz' he.symm
        rw [slot_unique hndT hz hs] at hrm'
        exact hrm' rfl
      · exfalso
        rw [hT] at g2
        cases g2
        rw [List.mem_singleton.1 hx, hU] at g1
        cases g1
        obtain ⟨rfl, _⟩ := hcross z' w' z w hz' hz he
        rw [slot_unique hndT hz' hs] at he
        exact hrm' he.symm
      · exact (List.mem_singleton.1 hx').trans (List.mem_singleton.1 hx).symm
    · simp
    · simp
    · intro w
      simp [-Prod.mk.injEq]
  obtain ⟨M', hrun, hrep, hc⟩ := S.consistent h
  refine ⟨U, r, a, b, p1, x1, y1, p2, x2, y2, m1, M', hU, hre, hpts, hp1, hp2, hTperm, hUperm, ?_, ?_, hrep,
    hc, ?_, by rw [hrep.faces]; exact hgf, by rw [hrep.faces]; exact g0, by rw [hrep.faces]; exact i4, ?_⟩
  · obtain ⟨Mi, hi1, hi2⟩ := Option.bind_eq_some_iff.1 hrun
    unfold Mesh.flip2d Mesh.removeTetra Mesh.removeFace
    rw [ha1]
    dsimp only [Option.map_some, Option.bind_some, bind]
    rw [hb1]
    dsimp only [Option.map_some, Option.bind_some, bind]
    rw [findFace_eq (h.facesNodup t T hT) hs]
    dsimp only [Option.map_some, Option.bind_some, bind]
    rw [hso]
    dsimp only [Option.map_some, Option.bind_some, bind]
    rw [ha2]
    dsimp only [Option.map_some, Option.bind_some, bind]
    rw [findPointOpposite_eq (h.facesNodup t T hT) hs]
    dsimp only [Option.map_some, Option.bind_some, bind]
    rw [← hp1, ← hp2, ← hm0, ← hm1, htn, hnx, findFaceOpposite_eq hndU hy2, findFaceOpposite_eq hndT hx2,
      findFaceOpposite_eq hndU hy1, findFaceOpposite_eq hndT hx1]
    dsimp only [Option.map_some, Option.bind_some, bind]
    unfold flipNews2d at hi1
    rw [hi1]
    dsimp only [Option.map_some, Option.bind_some, bind]
    rw [hi2]
    rfl
  · rw [i1]
    refine (Arena.remove_perm h.tetras_ok ha1).trans (List.Perm.cons _ ?_)
    exact Arena.remove_perm hao1 ha2
  · rw [hrep.faces, i5]
    have := Arena.len_remove h.faces_ok hb1
    change b1.len + 1 = M.faces.len
    omega
  · rw [hrep.faces, i6 _ (h.face_lt hT hs)]
    exact (Arena.get_remove hb1 _).trans (if_pos rfl)

end Verif.Delaunay
