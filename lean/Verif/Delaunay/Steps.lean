import Verif.Delaunay.FlipLemmas32

/-! # The common effect of splits and flips: lemmas -/

namespace Verif.Delaunay

open Verif.Predicates (IntersectionType Edge)

/-- The number of simplices without the vertex `p`. -/
def Mesh.away (p : ℕ) (M : Mesh) : ℕ := M.tetras.entries.countP (fun e => decide (p ∉ e.2.points))

/-- What is known after a split or a flip around the vertex `p`: the new simplices `news` contain `p`, the
others existed before. -/
structure Step (D : ℕ) (p : ℕ) (M M' : Mesh) (news : List ℕ) : Prop where
  cons : Consistent D M'
  numPoints : M'.numPoints = M.numPoints
  nonempty : news ≠ []
  live : ∀ i ∈ news, ∃ T, M'.tetras.get i = some T
  point : ∀ i ∈ news, ∀ T, M'.tetras.get i = some T → p ∈ T.points
  old : ∀ i T, M'.tetras.get i = some T → i ∉ news → ∃ T0, M.tetras.get i = some T0 ∧ T0.shape = T.shape
  fresh : ∀ i ∈ news, M.tetras.next ≤ i
  next : M.tetras.next ≤ M'.tetras.next

theorem shape_points {T T' : Tetra} (h : T.shape = T'.shape) : T.points = T'.points := by
  have := congrArg (List.map Prod.fst) h
  simpa [Tetra.shape, Tetra.points, Function.comp_def] using this

theorem countP_shape (p : ℕ) (l : List (ℕ × Tetra)) :
    l.countP (fun e => decide (p ∉ e.2.points)) =
      (l.map (fun e => e.2.shape)).countP (fun s => decide (p ∉ s.map Prod.fst)) := by
  rw [List.countP_map]
  congr 1
  funext e
  have : e.2.shape.map Prod.fst = e.2.points := by simp [Tetra.shape, Tetra.points, Function.comp_def]
  simp only [Function.comp, this]

theorem countP_shape' (p : ℕ) (l : List Tetra) :
    (l.map Tetra.shape).countP (fun s => decide (p ∉ s.map Prod.fst)) =
      l.countP (fun T => decide (p ∉ T.points)) := by
  rw [List.countP_map]
  congr 1
  funext e
  have : e.shape.map Prod.fst = e.points := by simp [Tetra.shape, Tetra.points, Function.comp_def]
  simp only [Function.comp, this]

theorem Step.of_replaced {D p : ℕ} {M M0 M' : Mesh} {olds : List (ℕ × Tetra)} {news : List Tetra}
    (hperm : M.tetras.entries.Perm (olds ++ M0.tetras.entries))
    (hrep : Replaced M M0 (olds.map Prod.fst) news M')
    (hc : Consistent D M') (hne : news ≠ []) (hnews : ∀ T ∈ news, p ∈ T.points) :
    Step D p M M' ((List.range news.length).map (fun k => M.tetras.next + k)) ∧
      M'.away p + olds.countP (fun e => decide (p ∉ e.2.points)) = M.away p := by
  have hget : ∀ k, ∀ T, M'.tetras.get (M.tetras.next + k) = some T → ∃ T0 ∈ news, T0.shape = T.shape := by
    intro k T hT
    have := hrep.fresh k
    rw [hT] at this
    cases hk : news[k]? with
    | none => rw [hk] at this; cases this
    | some T0 =>
      rw [hk] at this
      exact ⟨T0, List.mem_of_getElem? hk, (Option.some.inj this).symm⟩
  refine ⟨⟨hc, hrep.numPoints, by simpa using hne, ?_, ?_, ?_, ?_, by rw [hrep.next]; exact Nat.le_add_right _ _⟩, ?_⟩
  · intro i hi
    obtain ⟨k, hk, rfl⟩ := List.mem_map.1 hi
    have hk' : k < news.length := List.mem_range.1 hk
    have := hrep.fresh k
    rw [List.getElem?_eq_getElem hk'] at this
    obtain ⟨T, hT, _⟩ := Option.map_eq_some_iff.1 this
    exact ⟨T, hT⟩
  · intro i hi T hT
    obtain ⟨k, hk, rfl⟩ := List.mem_map.1 hi
    obtain ⟨T0, h0, h1⟩ := hget k T hT
    rw [← shape_points h1]
    exact hnews T0 h0
  · intro i T hT hi
    by_cases hlt : i < M.tetras.next
    · have hno : i ∉ olds.map Prod.fst := by
        intro hc
        rw [hrep.gone i hc] at hT
        cases hT
      have := hrep.kept i hlt hno
      rw [hT] at this
      obtain ⟨T0, h0, h1⟩ := Option.map_eq_some_iff.1 this.symm
      exact ⟨T0, h0, h1⟩
    · exfalso
      obtain ⟨k, rfl⟩ := Nat.exists_eq_add_of_le (Nat.le_of_not_lt hlt)
      have := hrep.fresh k
      rw [hT] at this
      cases hk : news[k]? with
      | none => rw [hk] at this; cases this
      | some T0 =>
        obtain ⟨hk', _⟩ := List.getElem?_eq_some_iff.1 hk
        exact hi (List.mem_map.2 ⟨k, List.mem_range.2 hk', rfl⟩)
  · intro i hi
    obtain ⟨k, _, rfl⟩ := List.mem_map.1 hi
    exact Nat.le_add_right _ _
  · unfold Mesh.away
    rw [countP_shape p M'.tetras.entries, hrep.shapes, List.countP_append, ← countP_shape, countP_shape',
      hperm.countP_eq, List.countP_append]
    have : news.countP (fun T => decide (p ∉ T.points)) = 0 := by
      rw [List.countP_eq_zero]
      intro T hT
      simp [hnews T hT]
    omega

/-! ### Two dimensions -/

theorem split2d_step {M : Mesh} (h : Consistent 2 M) {t point : ℕ} {T : Tetra}
    (hT : M.tetras.get t = some T) (hp : point < M.numPoints) (hpT : point ∉ T.points) :
    ∃ M' news, M.split2d t point = some (M', news) ∧ Step 2 point M M' news ∧ news.length = 3 ∧
      M'.away point + 1 = M.away point ∧
      M'.tetras.len = M.tetras.len + 2 ∧ M'.faces.len = M.faces.len + 3 := by
  obtain ⟨p1, o1, p2, o2, p3, o3, M0, M', _, e, hperm, hrep, hc, hf, _⟩ := split2d_lemma h hT hp hpT
  have hs := Step.of_replaced (p := point) (olds := [(t, T)]) hperm hrep hc (by simp [splitNews2d])
    (by
      intro T' hT'
      simp only [splitNews2d, List.mem_cons, List.not_mem_nil, or_false] at hT'
      rcases hT' with rfl | rfl | rfl <;> simp [Tetra.points])
  refine ⟨M', _, e, hs.1, rfl, ?_, ?_, hf⟩
  · have := hs.2
    simpa [hpT] using this
  · have h1 := hrep.len
    have h2 := hperm.length_eq
    simp only [splitNews2d, List.length_cons, List.length_nil] at h1 h2
    unfold Arena.len at *
    omega

theorem flip2d_step {M : Mesh} (h : Consistent 2 M) {t p : ℕ} {T : Tetra} {s : FaceInfo} {c : Conn}
    (hT : M.tetras.get t = some T) (hs : (p, s) ∈ T.slots) (hso : s.opposing = some c)
    (hqT : c.point ∉ T.points) :
    ∃ M' news, M.flip2d t s.face = some (M', news) ∧ Step 2 p M M' news ∧ news.length = 2 ∧
      M'.away p + 1 = M.away p ∧ M'.tetras.len = M.tetras.len ∧ M'.faces.len = M.faces.len := by
  obtain ⟨u, q⟩ := c
  obtain ⟨U, r, a, b, p1, x1, y1, p2, x2, y2, M0, M', hU, _, _, _, _, hTp, hUp, e, hperm, hrep, hc, hf, _⟩ :=
    flip2d_lemma h hT hs hso hqT
  have hpT : p ∈ T.points := mem_points hs
  have hnT := (points_of_slots hTp).nodup_iff.1 (h.points_nodup t T hT)
  have hpq : p ≠ q := fun e => hqT (e ▸ hpT)
  have hpU : p ∉ U.points := by
    rw [(points_of_slots hUp).mem_iff]
    simp at hnT ⊢
    exact ⟨hpq, hnT.1.1, hnT.1.2⟩
  have hs := Step.of_replaced (p := p) (olds := [(t, T), (u, U)]) hperm hrep hc
    (by simp [flipNews2d])
    (by
      intro T' hT'
      simp only [flipNews2d, List.mem_cons, List.not_mem_nil, or_false] at hT'
      rcases hT' with rfl | rfl <;> simp [Tetra.points])
  refine ⟨M', _, e, hs.1, rfl, ?_, ?_, hf⟩
  · have := hs.2
    simpa [hpT, hpU] using this
  · have h1 := hrep.len
    have h2 := hperm.length_eq
    simp only [flipNews2d, List.length_cons, List.length_nil] at h1 h2
    unfold Arena.len at *
    omega

/-! ### Three dimensions -/

theorem split3d_step {M : Mesh} (h : Consistent 3 M) {t point : ℕ} {T : Tetra}
    (hT : M.tetras.get t = some T) (hp : point < M.numPoints) (hpT : point ∉ T.points) :
    ∃ M' news, M.split3d t point = some (M', news) ∧ Step 3 point M M' news ∧ news.length = 4 ∧
      M'.away point + 1 = M.away point ∧
      M'.tetras.len = M.tetras.len + 3 ∧ M'.faces.len = M.faces.len + 6 := by
  obtain ⟨p1, o1, p2, o2, p3, o3, p4, o4, M0, M', _, e, hperm, hrep, hc, hf, _⟩ := split3d_lemma h hT hp hpT
  have hs := Step.of_replaced (p := point) (olds := [(t, T)]) hperm hrep hc (by simp [splitNews3d])
    (by
      intro T' hT'
      simp only [splitNews3d, List.mem_cons, List.not_mem_nil, or_false] at hT'
      rcases hT' with rfl | rfl | rfl | rfl <;> simp [Tetra.points])
  refine ⟨M', _, e, hs.1, rfl, ?_, ?_, hf⟩
  · have := hs.2
    simpa [hpT] using this
  · have h1 := hrep.len
    have h2 := hperm.length_eq
    simp only [splitNews3d, List.length_cons, List.length_nil] at h1 h2
    unfold Arena.len at *
    omega

theorem twoToThree_step {M : Mesh} (h : Consistent 3 M) {t p : ℕ} {T : Tetra} {s : FaceInfo} {c : Conn}
    (hT : M.tetras.get t = some T) (hs : (p, s) ∈ T.slots) (hso : s.opposing = some c)
    (hqT : c.point ∉ T.points) :
    ∃ M' news, M.twoToThree t c.tetra p c.point s.face = some (M', news) ∧ Step 3 p M M' news ∧
      news.length = 3 ∧ M'.away p + 1 = M.away p ∧
      M'.tetras.len = M.tetras.len + 1 ∧ M'.faces.len = M.faces.len + 2 := by
  obtain ⟨u, q⟩ := c
  obtain ⟨U, r, s1, s2, s3, x1, x2, x3, y1, y2, y3, M0, M', hU, _, _, hTp, hUp, e, hperm, hrep, hc, hf, _⟩ :=
    twoToThree_lemma h hT hs hso hqT
  have hpT : p ∈ T.points := mem_points hs
  have hnT := (points_of_slots hTp).nodup_iff.1 (h.points_nodup t T hT)
  have hpq : p ≠ q := fun e => hqT (e ▸ hpT)
  have hpU : p ∉ U.points := by
    rw [(points_of_slots hUp).mem_iff]
    simp at hnT ⊢
    exact ⟨hpq, hnT.1.1, hnT.1.2⟩
  have hs := Step.of_replaced (p := p) (olds := [(t, T), (u, U)]) hperm hrep hc
    (by simp [news23])
    (by
      intro T' hT'
      simp only [news23, List.mem_cons, List.not_mem_nil, or_false] at hT'
      rcases hT' with rfl | rfl | rfl <;> rw [(points_of_slots (flipBase_perm _ _ _ _ _ _)).mem_iff] <;> simp)
  refine ⟨M', _, e, hs.1, rfl, ?_, ?_, hf⟩
  · have := hs.2
    simpa [hpT, hpU] using this
  · have h1 := hrep.len
    have h2 := hperm.length_eq
    simp only [news23, List.length_cons, List.length_nil] at h1 h2
    unfold Arena.len at *
    omega

theorem edge_perm (s1 s2 s3 : ℕ) (e : Edge) :
    [s1, s2, s3].Perm [pointOppositeEdge s1 s2 s3 e, (pointsOfEdge s1 s2 s3 e).1,
      (pointsOfEdge s1 s2 s3 e).2] := by
  cases e
  · exact List.Perm.refl _
  · exact (List.Perm.swap _ _ _).trans ((List.Perm.swap _ _ _).cons _)
  · exact ((List.Perm.swap _ _ _).cons _).trans (List.Perm.swap _ _ _)

/-- The three tetrahedra around an edge: the third one contains the opposite points of the other two. -/
theorem third_tetra {M : Mesh} (h : Consistent 3 M) {t u v p q o e1 e2 x y : ℕ} {T U : Tetra}
    {s r wo uo te1 te2 ue1 ue2 : FaceInfo} (hT : M.tetras.get t = some T) (hU : M.tetras.get u = some U)
    (hTp : T.slots.Perm [(p, s), (o, wo), (e1, te1), (e2, te2)])
    (hUp : U.slots.Perm [(q, r), (o, uo), (e1, ue1), (e2, ue2)]) (hqT : q ∉ T.points)
    (h1 : wo.opposing = some ⟨v, x⟩) (h2 : uo.opposing = some ⟨v, y⟩) :
    ∃ V v1 v2 ve1 ve2, M.tetras.get v = some V ∧
      V.slots.Perm [(q, v1), (p, v2), (e1, ve1), (e2, ve2)] ∧ wo.face = v1.face ∧ uo.face = v2.face := by
  have sto : (o, wo) ∈ T.slots := hTp.mem_iff.2 (by simp)
  have suo : (o, uo) ∈ U.slots := hUp.mem_iff.2 (by simp)
  obtain ⟨_, V, w, hV, hw, hwf⟩ := (h.neighbour t T hT o wo sto v x).1 h1
  obtain ⟨_, V', w', hV', hw', hwf'⟩ := (h.neighbour u U hU o uo suo v y).1 h2
  rw [hV] at hV'
  cases hV'
  have hTm : ∀ z, z ∈ T.points ↔ z = p ∨ z = o ∨ z = e1 ∨ z = e2 := fun z => by
    rw [(points_of_slots hTp).mem_iff]; simp
  have hUm : ∀ z, z ∈ U.points ↔ z = q ∨ z = o ∨ z = e1 ∨ z = e2 := fun z => by
    rw [(points_of_slots hUp).mem_iff]; simp
  have hnT := (points_of_slots hTp).nodup_iff.1 (h.points_nodup t T hT)
  have hnV := h.points_nodup v V hV
  simp at hnT
  obtain ⟨⟨npo, npe1, npe2⟩, ⟨noe1, noe2⟩, nee⟩ := hnT
  rw [hTm] at hqT
  simp at hqT
  obtain ⟨nqp, nqo, nqe1, nqe2⟩ := hqT
  have a := fun z => h.same_face_points hT hV sto hw hwf.symm z
  have b := fun z => h.same_face_points hU hV suo hw' hwf'.symm z
  have ap := ((a p).1 ⟨(hTm p).2 (Or.inl rfl), npo⟩).1
  have a1 := ((a e1).1 ⟨(hTm e1).2 (by simp), Ne.symm noe1⟩).1
  have a2 := ((a e2).1 ⟨(hTm e2).2 (by simp), Ne.symm noe2⟩).1
  have bq := ((b q).1 ⟨(hUm q).2 (Or.inl rfl), nqo⟩).1
  have hx : x = q := by
    by_contra hc
    have := ((a q).2 ⟨bq, Ne.symm hc⟩).1
    rw [hTm] at this
    simp [nqp, nqo, nqe1, nqe2] at this
  have hy : y = p := by
    by_contra hc
    have := ((b p).2 ⟨ap, Ne.symm hc⟩).1
    rw [hUm] at this
    simp [Ne.symm nqp, npo, npe1, npe2] at this
  subst hx hy
  have hlen : V.points.length = 4 := by simpa [Tetra.points] using h.size v V hV
  have hperm : V.points.Perm [x, y, e1, e2] := by
    have hnd : [x, y, e1, e2].Nodup := by simp [nqp, nqe1, nqe2, npe1, npe2, nee]
    have hsub : [x, y, e1, e2] ⊆ V.points := by
      intro z hz
      simp at hz
      rcases hz with rfl | rfl | rfl | rfl <;> assumption
    exact ((List.subperm_of_subset hnd hsub).perm_of_length_le (by simp [hlen])).symm
  obtain ⟨l, hl, hlp⟩ := slots_of_points hnV hperm
  have hl4 : l.length = 4 := by simpa using congrArg List.length hlp
  obtain ⟨b1, v1, b2, v2, b3, ve1, b4, ve2, rfl⟩ := slots_four hl4
  simp at hlp
  obtain ⟨rfl, rfl, rfl, rfl⟩ := hlp
  refine ⟨V, v1, v2, ve1, ve2, hV, hl, ?_, ?_⟩
  · have hm : (b1, v1) ∈ V.slots := hl.mem_iff.2 (by simp)
    rw [← hwf, slot_unique hnV hw hm]
  · have hm : (b2, v2) ∈ V.slots := hl.mem_iff.2 (by simp)
    rw [← hwf', slot_unique hnV hw' hm]

theorem flip3d_step {intersect : List ℕ → ℕ → ℕ → Option IntersectionType} {M : Mesh} (h : Consistent 3 M)
    {t p : ℕ} {T : Tetra} {s : FaceInfo} {c : Conn}
    (hT : M.tetras.get t = some T) (hs : (p, s) ∈ T.slots) (hso : s.opposing = some c)
    (hqT : c.point ∉ T.points) {M' : Mesh} {news : List ℕ} (hrun : M.flip3d intersect t s.face = some (M', news)) :
    (M' = M ∧ news = []) ∨ (Step 3 p M M' news ∧ news.length ≤ 3 ∧ M'.away p + 1 = M.away p ∧
      ((M'.tetras.len = M.tetras.len + 1 ∧ M'.faces.len = M.faces.len + 2) ∨
        (M'.tetras.len + 1 = M.tetras.len ∧ M'.faces.len + 2 = M.faces.len))) := by
  obtain ⟨u, q⟩ := c
  obtain ⟨hut, U, r, hU, hr, hre⟩ := (h.neighbour t T hT p s hs u q).1 hso
  have hndT := h.points_nodup t T hT
  have hndU := h.points_nodup u U hU
  obtain ⟨pts, hpts, hptsn, _⟩ := h.face_points t T hT p s hs
  have hTpp := h.points_perm hT hs hpts
  have hUpp := h.points_perm hU hr (by rw [hre]; exact hpts)
  have hlp : pts.length = 3 := by
    have h1 := hTpp.length_eq
    have h2 : T.points.length = 4 := by simpa [Tetra.points] using h.size t T hT
    rw [List.length_cons] at h1
    omega
  obtain ⟨s1, s2, s3, rfl⟩ : ∃ s1 s2 s3, pts = [s1, s2, s3] := List.length_eq_three.1 hlp
  unfold Mesh.flip3d at hrun
  rw [hT] at hrun
  dsimp only [Option.bind_some, bind] at hrun
  rw [hpts] at hrun
  dsimp only [Option.bind_some, bind] at hrun
  rw [findFace_eq (h.facesNodup t T hT) hs] at hrun
  dsimp only [Option.bind_some, bind] at hrun
  rw [hso] at hrun
  dsimp only [Option.bind_some, bind] at hrun
  rw [hU] at hrun
  dsimp only [Option.bind_some, bind] at hrun
  rw [findPointOpposite_eq (h.facesNodup t T hT) hs] at hrun
  dsimp only [Option.bind_some, bind] at hrun
  rw [← hre, findPointOpposite_eq (h.facesNodup u U hU) hr] at hrun
  dsimp only [Option.bind_some, bind] at hrun
  cases hi : intersect [s1, s2, s3] p q with
  | none => rw [hi] at hrun; cases hrun
  | some ty =>
    rw [hi] at hrun
    dsimp only [Option.bind_some] at hrun
    cases ty with
    | outsideTwoEdges e f =>
      dsimp only at hrun
      cases hrun
      exact Or.inl ⟨rfl, rfl⟩
    | inside =>
      dsimp only at hrun
      obtain ⟨M1, n1, he, hst, hl, ha, hc1, hc2⟩ := twoToThree_step h hT hs hso hqT
      rw [hre] at hrun
      rw [he] at hrun
      cases hrun
      exact Or.inr ⟨hst, by omega, ha, Or.inl ⟨hc1, hc2⟩⟩
    | outsideOneEdge e =>
      dsimp only at hrun
      have hep := edge_perm s1 s2 s3 e
      generalize pointOppositeEdge s1 s2 s3 e = o at hrun hep
      generalize hes : pointsOfEdge s1 s2 s3 e = es at hrun hep
      obtain ⟨e1, e2⟩ := es
      dsimp only at hrun hep
      obtain ⟨l, hl, hlm⟩ := slots_of_points hndT (hTpp.trans (hep.cons _))
      obtain ⟨b1, w1, b2, wo, b3, te1, b4, te2, rfl⟩ := slots_four (l := l) (by simpa using congrArg List.length hlm)
      simp at hlm
      obtain ⟨rfl, rfl, rfl, rfl⟩ := hlm
      obtain ⟨l', hl', hlm'⟩ := slots_of_points hndU (hUpp.trans (hep.cons _))
      obtain ⟨d1, w1', d2, uo, d3, ue1, d4, ue2, rfl⟩ :=
        slots_four (l := l') (by simpa using congrArg List.length hlm')
      simp at hlm'
      obtain ⟨rfl, rfl, rfl, rfl⟩ := hlm'
      have ms : (b1, w1) ∈ T.slots := hl.mem_iff.2 (by simp)
      have mr : (d1, w1') ∈ U.slots := hl'.mem_iff.2 (by simp)
      have es := slot_unique hndT hs ms
      have er := slot_unique hndU hr mr
      subst es er
      have sto : (d2, wo) ∈ T.slots := hl.mem_iff.2 (by simp)
      have suo : (d2, uo) ∈ U.slots := hl'.mem_iff.2 (by simp)
      rw [findFaceOpposite_eq hndT sto] at hrun
      dsimp only [Option.bind_some] at hrun
      cases h1 : wo.opposing with
      | none => rw [h1] at hrun; cases hrun
      | some c1 =>
        rw [h1] at hrun
        dsimp only [Option.bind_some] at hrun
        rw [findFaceOpposite_eq hndU suo] at hrun
        dsimp only [Option.bind_some] at hrun
        cases h2 : uo.opposing with
        | none => rw [h2] at hrun; cases hrun
        | some c2 =>
          rw [h2] at hrun
          dsimp only [Option.bind_some] at hrun
          by_cases hv : c2.tetra = c1.tetra
          · rw [if_pos hv] at hrun
            obtain ⟨v, x⟩ := c1
            obtain ⟨v', y⟩ := c2
            dsimp only at hv
            subst hv
            obtain ⟨V, v1, v2, ve1, ve2, hV, hVp, g1, g2⟩ := third_tetra h hT hU hl hl' hqT h1 h2
            dsimp only at hqT
            have hpT : b1 ∈ T.points := mem_points hs
            have hqp : d1 ≠ b1 := fun e => hqT (e ▸ hpT)
            obtain ⟨M0, M1, he, hperm, hrep, hc, hf, _⟩ :=
              threeToTwo_lemma h hT hU hV hl hl' hVp hre.symm g1 g2 hqp
            rw [he] at hrun
            cases hrun
            have hnT := (points_of_slots hl).nodup_iff.1 hndT
            have hpU : b1 ∉ U.points := by
              rw [(points_of_slots hl').mem_iff]
              simp at hnT ⊢
              exact ⟨Ne.symm hqp, hnT.1.1, hnT.1.2⟩
            have hpV : b1 ∈ V.points := by rw [(points_of_slots hVp).mem_iff]; simp
            have hs := Step.of_replaced (p := b1) (olds := [(t, T), (u, U), (v', V)]) hperm hrep hc
              (by simp [news32])
              (by
                intro T' hT'
                simp only [news32, List.mem_cons, List.not_mem_nil, or_false] at hT'
                rcases hT' with rfl | rfl <;> rw [(points_of_slots (base32_perm _ _ _ _ _ _ _ _ _)).mem_iff] <;>
                  simp)
            refine Or.inr ⟨hs.1, by simp, ?_, Or.inr ⟨?_, hf⟩⟩
            · have := hs.2
              simpa [hpT, hpU, hpV] using this
            · have h1 := hrep.len
              have h2 := hperm.length_eq
              simp only [news32, List.length_cons, List.length_nil] at h1 h2
              unfold Arena.len at *
              omega
          · rw [if_neg hv] at hrun
            cases hrun
            exact Or.inl ⟨rfl, rfl⟩

theorem flip3d_panics {intersect : List ℕ → ℕ → ℕ → Option IntersectionType} {M : Mesh} (h : Consistent 3 M)
    {t p : ℕ} {T : Tetra} {s : FaceInfo} {c : Conn}
    (hT : M.tetras.get t = some T) (hs : (p, s) ∈ T.slots) (hso : s.opposing = some c)
    (hqT : c.point ∉ T.points) (hrun : M.flip3d intersect t s.face = none) :
    ∃ U s1 s2 s3, M.tetras.get c.tetra = some U ∧ M.faces.get s.face = some [s1, s2, s3] ∧
      (intersect [s1, s2, s3] p c.point = none ∨
        ∃ e g, intersect [s1, s2, s3] p c.point = some (.outsideOneEdge e) ∧ g.opposing = none ∧
          ((pointOppositeEdge s1 s2 s3 e, g) ∈ T.slots ∨ (pointOppositeEdge s1 s2 s3 e, g) ∈ U.slots)) := by
  obtain ⟨u, q⟩ := c
  obtain ⟨hut, U, r, hU, hr, hre⟩ := (h.neighbour t T hT p s hs u q).1 hso
  have hndT := h.points_nodup t T hT
  have hndU := h.points_nodup u U hU
  obtain ⟨pts, hpts, hptsn, _⟩ := h.face_points t T hT p s hs
  have hTpp := h.points_perm hT hs hpts
  have hUpp := h.points_perm hU hr (by rw [hre]; exact hpts)
  have hlp : pts.length = 3 := by
    have h1 := hTpp.length_eq
    have h2 : T.points.length = 4 := by simpa [Tetra.points] using h.size t T hT
    rw [List.length_cons] at h1
    omega
  obtain ⟨s1, s2, s3, rfl⟩ : ∃ s1 s2 s3, pts = [s1, s2, s3] := List.length_eq_three.1 hlp
  refine ⟨U, s1, s2, s3, hU, hpts, ?_⟩
  unfold Mesh.flip3d at hrun
  rw [hT] at hrun
  dsimp only [Option.bind_some, bind] at hrun
  rw [hpts] at hrun
  dsimp only [Option.bind_some, bind] at hrun
  rw [findFace_eq (h.facesNodup t T hT) hs] at hrun
  dsimp only [Option.bind_some, bind] at hrun
  rw [hso] at hrun
  dsimp only [Option.bind_some, bind] at hrun
  rw [hU] at hrun
  dsimp only [Option.bind_some, bind] at hrun
  rw [findPointOpposite_eq (h.facesNodup t T hT) hs] at hrun
  dsimp only [Option.bind_some, bind] at hrun
  rw [← hre, findPointOpposite_eq (h.facesNodup u U hU) hr] at hrun
  dsimp only [Option.bind_some, bind] at hrun
  cases hi : intersect [s1, s2, s3] p q with
  | none => exact Or.inl rfl
  | some ty =>
    rw [hi] at hrun
    dsimp only [Option.bind_some] at hrun
    cases ty with
    | outsideTwoEdges e f =>
      dsimp only at hrun
      cases hrun
    | inside =>
      dsimp only at hrun
      obtain ⟨M1, n1, he, hst, hl, ha, hc1, hc2⟩ := twoToThree_step h hT hs hso hqT
      rw [hre] at hrun
      rw [he] at hrun
      cases hrun
    | outsideOneEdge e =>
      dsimp only at hrun
      have hep := edge_perm s1 s2 s3 e
      refine Or.inr ⟨e, ?_⟩
      generalize pointOppositeEdge s1 s2 s3 e = o at hrun hep ⊢
      generalize hes : pointsOfEdge s1 s2 s3 e = es at hrun hep
      obtain ⟨e1, e2⟩ := es
      dsimp only at hrun hep
      obtain ⟨l, hl, hlm⟩ := slots_of_points hndT (hTpp.trans (hep.cons _))
      obtain ⟨b1, w1, b2, wo, b3, te1, b4, te2, rfl⟩ := slots_four (l := l) (by simpa using congrArg List.length hlm)
      simp at hlm
      obtain ⟨rfl, rfl, rfl, rfl⟩ := hlm
      obtain ⟨l', hl', hlm'⟩ := slots_of_points hndU (hUpp.trans (hep.cons _))
      obtain ⟨d1, w1', d2, uo, d3, ue1, d4, ue2, rfl⟩ :=
        slots_four (l := l') (by simpa using congrArg List.length hlm')
      simp at hlm'
      obtain ⟨rfl, rfl, rfl, rfl⟩ := hlm'
      have ms : (b1, w1) ∈ T.slots := hl.mem_iff.2 (by simp)
      have mr : (d1, w1') ∈ U.slots := hl'.mem_iff.2 (by simp)
      have es := slot_unique hndT hs ms
      have er := slot_unique hndU hr mr
      subst es er
      have sto : (d2, wo) ∈ T.slots := hl.mem_iff.2 (by simp)
      have suo : (d2, uo) ∈ U.slots := hl'.mem_iff.2 (by simp)
      rw [findFaceOpposite_eq hndT sto] at hrun
      dsimp only [Option.bind_some] at hrun
      cases h1 : wo.opposing with
      | none => exact ⟨_, rfl, h1, Or.inl sto⟩
      | some c1 =>
        rw [h1] at hrun
        dsimp only [Option.bind_some] at hrun
        rw [findFaceOpposite_eq hndU suo] at hrun
        dsimp only [Option.bind_some] at hrun
        cases h2 : uo.opposing with
        | none => exact ⟨_, rfl, h2, Or.inr suo⟩
        | some c2 =>
          rw [h2] at hrun
          dsimp only [Option.bind_some] at hrun
          by_cases hv : c2.tetra = c1.tetra
          · rw [if_pos hv] at hrun
            obtain ⟨v, x⟩ := c1
            obtain ⟨v', y⟩ := c2
            dsimp only at hv
            subst hv
            obtain ⟨V, v1, v2, ve1, ve2, hV, hVp, g1, g2⟩ := third_tetra h hT hU hl hl' hqT h1 h2
            dsimp only at hqT
            have hpT : b1 ∈ T.points := mem_points hs
            have hqp : d1 ≠ b1 := fun e => hqT (e ▸ hpT)
            obtain ⟨M0, M1, he, hperm, hrep, hc, hf, _⟩ :=
              threeToTwo_lemma h hT hU hV hl hl' hVp hre.symm g1 g2 hqp
            rw [he] at hrun
            cases hrun
          · rw [if_neg hv] at hrun
            cases hrun

end Verif.Delaunay
