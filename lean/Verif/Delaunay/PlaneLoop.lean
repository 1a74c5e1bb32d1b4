import Verif.Delaunay.PlaneInsert

/-! # The flip loop restores the Delaunay property: lemmas -/

namespace Verif.Delaunay

open Verif.Predicates (P2 Triangle2 orient2 distSq2)

variable {K : Type} [Field K] [LinearOrder K] [IsStrictOrderedRing K] {x : ℕ → P2 K}

/-- A vertex of a triangle, with the other two in order. -/
theorem at_of_slot {M : Mesh} (h : Consistent 2 M) {i v : ℕ} {T : Tetra} (hT : M.tetras.get i = some T)
    (hv : v ∈ T.points) : ∃ a b, At M i v a b := by
  obtain ⟨a, b, c, hp⟩ := h.points_three hT
  rw [hp] at hv
  simp only [List.mem_cons, List.not_mem_nil, or_false] at hv
  rcases hv with rfl | rfl | rfl
  · exact ⟨b, c, T, hT, Or.inl hp⟩
  · exact ⟨c, a, T, hT, Or.inr (Or.inr hp)⟩
  · exact ⟨a, b, T, hT, Or.inr (Or.inl hp)⟩

theorem At.mem {M : Mesh} {i a b c : ℕ} (h : At M i a b c) {T : Tetra} (hT : M.tetras.get i = some T) (z : ℕ) :
    z ∈ T.points ↔ z = a ∨ z = b ∨ z = c := by
  obtain ⟨T', hT', hp⟩ := h
  rw [hT] at hT'
  cases hT'
  rcases hp with hp | hp | hp <;> rw [hp] <;> simp <;> omega

/-- Triangles on both sides of an edge are recorded as neighbours. -/
theorem linked {M : Mesh} {n : ℕ} (h : Consistent 2 M) (hu : FacesUnique M) (V : Valid x (At M) n)
    {i j a b c q : ℕ} (hi : At M i c a b) (hj : At M j q b a) {T : Tetra} (hT : M.tetras.get i = some T)
    {s : FaceInfo} (hs : (c, s) ∈ T.slots) : s.opposing = some ⟨j, q⟩ := by
  obtain ⟨n1, n2, n3⟩ := V.ne' hi
  obtain ⟨m1, _, m3⟩ := V.ne' hj
  have hne : j ≠ i := by
    rintro rfl
    rcases V.uniq hi hj with ⟨e1, e2, e3⟩ | ⟨e1, e2, e3⟩ | ⟨e1, e2, e3⟩ <;> omega
  obtain ⟨U, hU, hp⟩ := hj
  have hj : At M j q b a := ⟨U, hU, hp⟩
  obtain ⟨r, hr⟩ := exists_slot ((hj.mem hU q).2 (Or.inl rfl))
  refine (h.neighbour i T hT c s hs j q).2 ⟨hne, U, r, hU, hr, ?_⟩
  obtain ⟨pts, e, _, hm⟩ := h.face_points i T hT c s hs
  obtain ⟨pts', e', _, hm'⟩ := h.face_points j U hU q r hr
  refine hu _ _ _ _ e' e fun z => ?_
  rw [hm, hm', hi.mem hT, hj.mem hU]
  constructor <;> intro hz <;> omega

/-- A triangulation between insertions. -/
structure PlaneOk (x : ℕ → P2 K) (s : State) : Prop where
  ok : StateOk 2 s
  facing : Facing x s.mesh
  unique : FacesUnique s.mesh
  valid : Valid x (At s.mesh) s.mesh.numPoints
  empty : Empty2 x (At s.mesh) s.mesh.numPoints
  three : 3 ≤ s.mesh.numPoints
  hull : ∀ w, w < s.mesh.numPoints → Within (x 0) (x 1) (x 2) (x w)
  orient : 0 < area (x 0) (x 1) (x 2)
  strict : ∀ w, 3 ≤ w → w < s.mesh.numPoints → Inside (x 0) (x 1) (x 2) (x w)

theorem PlaneOk.local {s : State} (P : PlaneOk x s) {i a b c j q : ℕ} (h : At s.mesh i a b c)
    (h' : At s.mesh j b a q) : 0 < pw (x a) (x b) (x c) (x q) := by
  have V := P.valid
  obtain ⟨n1, n2, n3⟩ := V.ne' h'
  refine P.empty h q (V.lt (V.cyc' h')) n2.symm n3 ?_
  rintro rfl
  have h1 := V.pos h
  have h2 := V.pos h'
  rw [area_swap] at h2
  linarith

/-- The invariant of the flip loop. -/
structure PlaneInv (x : ℕ → P2 K) (p : ℕ) (m : Mesh) (last : Option ℕ) (q : List ℕ) : Prop where
  loop : LoopInv 2 p (fun _ => True) m last q
  facing : Facing x m
  unique : FacesUnique m
  star : Star x (At m) p q

/-- Why the flip loop panics: four points on a circle, one of them is the new one. -/
def Cocircular (x : ℕ → P2 K) (p : ℕ) : Prop :=
  ∃ a b q, a < p ∧ b < p ∧ q < p ∧ a ≠ b ∧ a ≠ q ∧ b ≠ q ∧ 0 < area (x p) (x a) (x b) ∧
    pw (x p) (x a) (x b) (x q) = 0

theorem flipLoop_plane {p : ℕ} (fuel : ℕ) {m : Mesh} {last : Option ℕ} {tetras : List ℕ}
    (h : PlaneInv x p m last tetras) :
    (match flipLoop (geo2 x).circ ops2.flip p fuel m last tetras 0 with
      | .done (m', last', _) => PlaneInv x p m' last' []
      | .panic => Cocircular x p
      | .running => True) := by
  have key := (flipLoop_induct (circ := (geo2 x).circ) (flip := ops2.flip) (point := p) (PlaneInv x p)
    (Mesh.away p) 3 ?_ ?_ fuel (Nat.zero_le _) (tetras := tetras) (m := m) (last := last) (by simpa using h)).1
  · revert key
    cases flipLoop (geo2 x).circ ops2.flip p fuel m last tetras 0 with
    | running => exact fun _ => trivial
    | done r => exact fun h => h.1
    | panic =>
      rintro ⟨m1, last1, t, q, T, fi, hI, hT, hfi, hnone⟩
      have hc := hI.loop.cons
      have V := hI.star.valid
      have hmem := mem_of_findFaceOpposite hfi
      unfold flipCheck faceIsInvalid at hnone
      rw [hT] at hnone
      dsimp only at hnone
      rw [findFace_eq (hc.facesNodup t T hT) hmem] at hnone
      dsimp only at hnone
      cases hop : fi.opposing with
      | none => rw [hop] at hnone; cases hnone
      | some c =>
        obtain ⟨u, q'⟩ := c
        rw [hop] at hnone
        dsimp only at hnone
        obtain ⟨a, b, _, hat, hau⟩ := neighbour_at hc hI.facing V hT hmem hop
        cases hci : (geo2 x).circ T q' with
        | none =>
          have h0 := (geo2_circ_at V hT hat).2.2.1 hci
          obtain ⟨n1, n2, n3⟩ := V.ne' hat
          obtain ⟨m1, m2, m3⟩ := V.ne' hau
          have hpos := V.pos hat
          have hpos' := V.pos hau
          have npq : p ≠ q' := by
            intro e
            rw [← e] at hpos'
            have e2 := area_swap (x p) (x (if fi.flipped then b else a)) (x (if fi.flipped then a else b))
            have e3 := area_cyc (x p) (x (if fi.flipped then a else b)) (x (if fi.flipped then b else a))
            have e4 : area (x p) (x (if fi.flipped then a else b)) (x (if fi.flipped then b else a)) =
              -area (x p) (x (if fi.flipped then b else a)) (x (if fi.flipped then a else b)) := by
                simp only [area_def]; ring
            linarith
          have l1 := V.lt (V.cyc hat)
          have l2 := V.lt (V.cyc' hat)
          have l3 := V.lt hau
          exact ⟨_, _, q', by omega, by omega, by omega, n2, m3, m1.symm, hpos, h0⟩
        | some b =>
          rw [hci] at hnone
          cases b with
          | false => cases hnone
          | true =>
            obtain ⟨M', news, h1, _⟩ := flip2d_step hc hT hmem hop (geo2_proper x T q' hci)
            rw [show ops2.flip m1 t fi.face = m1.flip2d t fi.face from rfl, h1] at hnone
            cases hnone
  · intro m last t q hI ht
    refine ⟨hI.loop.dead ht, hI.facing, hI.unique, hI.star.dead ?_⟩
    rintro a b c ⟨T, hT, _⟩
    rw [ht] at hT
    cases hT
  · intro m last t q T hI hT
    have hc := hI.loop.cons
    have V := hI.star.valid
    obtain ⟨fi, hfi, hmem⟩ := findFaceOpposite_of_mem (hc.points_nodup t T hT)
      (hI.loop.point t List.mem_cons_self T hT)
    refine ⟨fi, hfi, fun m' news hrun => ?_⟩
    have hrun' := hrun
    unfold flipCheck faceIsInvalid at hrun
    rw [hT] at hrun
    dsimp only at hrun
    rw [findFace_eq (hc.facesNodup t T hT) hmem] at hrun
    dsimp only at hrun
    cases hop : fi.opposing with
    | none =>
      rw [hop] at hrun
      cases hrun
      refine ⟨⟨hI.loop.checked hT, hI.facing, hI.unique, ?_⟩, Or.inl ⟨rfl, rfl⟩⟩
      rw [List.append_nil]
      refine hI.star.checked fun a b j q' h1 h2 => ?_
      have := linked hc hI.unique V h1 (V.cyc' h2) hT hmem
      rw [hop] at this
      cases this
    | some c =>
      obtain ⟨u, q'⟩ := c
      rw [hop] at hrun
      dsimp only at hrun
      cases hci : (geo2 x).circ T q' with
      | none => rw [hci] at hrun; cases hrun
      | some b =>
        rw [hci] at hrun
        cases b with
        | false =>
          cases hrun
          refine ⟨⟨hI.loop.checked hT, hI.facing, hI.unique, ?_⟩, Or.inl ⟨rfl, rfl⟩⟩
          rw [List.append_nil]
          refine hI.star.checked fun a b j q'' h1 h2 => ?_
          have := linked hc hI.unique V h1 (V.cyc' h2) hT hmem
          rw [hop] at this
          cases this
          exact (geo2_circ_at V hT h1).2.1.1 hci
        | true =>
          dsimp only at hrun
          have hq := geo2_proper x T q' hci
          obtain ⟨f1, f2, f3⟩ := flip2d_plane hc hI.facing hI.star hT hmem hop hci hI.unique hrun
          rcases flipCheck_cases ops2_ok (geo2_proper x) hc hT hmem hrun' with ⟨e1, e2⟩ | ⟨c, _, _, _, _, hst, hl, ha⟩
          · exfalso
            obtain ⟨M1, n1, g1, g2, _⟩ := flip2d_step hc hT hmem hop hq
            rw [show ops2.flip m t fi.face = m.flip2d t fi.face from rfl, g1] at hrun
            cases hrun
            exact g2.nonempty e2
          · exact ⟨⟨hI.loop.step hst trivial, f1, f2, f3⟩, Or.inr ⟨hl, by omega⟩⟩

/-- The part of the hull of the mesh which is visible: every point of the initial triangle is on the inner side. -/
theorem PlaneOk.inner {s : State} (P : PlaneOk x s) {y : P2 K} (hy : Within (x 0) (x 1) (x 2) y) {a b : ℕ}
    (hh : ∀ w, w < s.mesh.numPoints → 0 ≤ area (x a) (x b) (x w)) : 0 ≤ area (x a) (x b) y := by
  have := P.three
  exact area_nonneg_of_within P.orient hy (hh 0 (by omega)) (hh 1 (by omega)) (hh 2 (by omega))

/-- A set of triangles which contains the neighbours of its elements has a triangle which contains a given point. -/
theorem PlaneOk.find {s : State} (P : PlaneOk x s) {y : P2 K} (hy : Within (x 0) (x 1) (x 2) y) (S : Set ℕ)
    (hS : ∃ i ∈ S, ∃ a b c, At s.mesh i a b c)
    (hcl : ∀ i ∈ S, ∀ a b c j q, At s.mesh i a b c → At s.mesh j b a q → j ∈ S) :
    ∃ i ∈ S, ∃ a b c, At s.mesh i a b c ∧ Within (x a) (x b) (x c) y := by
  obtain ⟨m, ⟨i, hi, a, b, c, h, he⟩, _, hw⟩ := P.valid.walk P.local y S hS
    (fun i hi a b c j q h h' _ => hcl i hi a b c j q h h') (fun i _ a b c _ hh => P.inner hy hh)
  exact ⟨i, hi, a, b, c, h, hw i hi a b c h he⟩

theorem At.of_get {M : Mesh} (h : Consistent 2 M) {i : ℕ} {T : Tetra} (hT : M.tetras.get i = some T) :
    ∃ a b c, T.points = [a, b, c] ∧ At M i a b c := by
  obtain ⟨a, b, c, hp⟩ := h.points_three hT
  exact ⟨a, b, c, hp, T, hT, Or.inl hp⟩

theorem PlaneOk.adj {s : State} (P : PlaneOk x s) {i j a b c q : ℕ} (h : At s.mesh i a b c)
    (h' : At s.mesh j b a q) : s.mesh.Adj i j := by
  obtain ⟨T, hT, _⟩ := id h
  obtain ⟨t, ht⟩ := exists_slot ((h.mem hT c).2 (Or.inr (Or.inr rfl)))
  exact ⟨T, hT, c, t, q, ht, linked P.ok.cons P.unique P.valid (P.valid.cyc' h) (P.valid.cyc' h') hT ht⟩

/-- Every triangle can be reached from every other one. -/
theorem PlaneOk.reach {s : State} (P : PlaneOk x s) {i j : ℕ} {T U : Tetra} (hi : s.mesh.tetras.get i = some T)
    (hj : s.mesh.tetras.get j = some U) : s.mesh.Reach i j := by
  obtain ⟨a, b, c, _, hT⟩ := At.of_get P.ok.cons hi
  obtain ⟨u, v, w, _, hU⟩ := At.of_get P.ok.cons hj
  have V := P.valid
  obtain ⟨y, hy, _⟩ := overlap (V.pos hU) (V.pos hU)
  have hyh : Within (x 0) (x 1) (x 2) y := by
    have h1 := P.hull u (V.lt hU)
    have h2 := P.hull v (V.lt (V.cyc hU))
    have h3 := P.hull w (V.lt (V.cyc' hU))
    exact ⟨area_nonneg_of_within (V.pos hU) hy.within h1.1 h2.1 h3.1,
      area_nonneg_of_within (V.pos hU) hy.within h1.2.1 h2.2.1 h3.2.1,
      area_nonneg_of_within (V.pos hU) hy.within h1.2.2 h2.2.2 h3.2.2⟩
  obtain ⟨k, hk, a', b', c', hat, hw⟩ := P.find hyh {k | s.mesh.Reach i k} ⟨i, Relation.ReflTransGen.refl, _, _, _, hT⟩
    (fun k hk a b c j q h h' => Relation.ReflTransGen.tail hk (P.adj h h'))
  by_cases hkj : j = k
  · rw [hkj]
    exact hk
  · exact absurd hw (V.not_within hU hat hkj hy)

/-- The new point lies on the boundary of a triangle. -/
def OnEdge (x : ℕ → P2 K) (p : ℕ) : Prop := ∃ a b, a < p ∧ b < p ∧ a ≠ b ∧ area (x a) (x b) (x p) = 0

theorem insertPoint_plane {s : State} (P : PlaneOk x s) {pop : Heaps} (hp : HeapsOk pop)
    (fuel : ℕ) :
    (match insertPoint (geo2 x) ops2 pop fuel s with
      | .done (s', _) => PlaneOk x s' ∧ s'.mesh.numPoints = s.mesh.numPoints + 1
      | .panic => OnEdge x s.mesh.numPoints ∨ ¬Within (x 0) (x 1) (x 2) (x s.mesh.numPoints) ∨
          Cocircular x s.mesh.numPoints
      | .running => True) := by
  have V := P.valid
  unfold insertPoint
  dsimp only
  obtain ⟨h1, _⟩ := findContaining_live (g := geo2 x) (hp { s.mesh with numPoints := s.mesh.numPoints + 1 }) P.ok (fuel := fuel) rfl
  revert h1
  cases findContaining (fun T => (geo2 x).contains T s.mesh.numPoints) (pop _) fuel
    { s.mesh with numPoints := s.mesh.numPoints + 1 } s.last with
  | running => exact fun _ => trivial
  | panic =>
    rintro ⟨i, T, hT, hc⟩
    left
    obtain ⟨a, b, c, _, hat⟩ := At.of_get P.ok.cons hT
    obtain ⟨g1, g2⟩ := geo2_contains_at (q := s.mesh.numPoints) V hT hat
    obtain ⟨n1, n2, n3⟩ := V.ne' hat
    have l1 := V.lt hat
    have l2 := V.lt (V.cyc hat)
    have l3 := V.lt (V.cyc' hat)
    have hw : Within (x a) (x b) (x c) (x s.mesh.numPoints) := by
      by_contra hn
      rw [g2.2 hn] at hc
      cases hc
    have hn : ¬Inside (x a) (x b) (x c) (x s.mesh.numPoints) := by
      intro hn
      rw [g1.2 hn] at hc
      cases hc
    by_cases z1 : area (x a) (x b) (x s.mesh.numPoints) = 0
    · exact ⟨a, b, l1, l2, n1, z1⟩
    by_cases z2 : area (x b) (x c) (x s.mesh.numPoints) = 0
    · exact ⟨b, c, l2, l3, n2, z2⟩
    by_cases z3 : area (x c) (x a) (x s.mesh.numPoints) = 0
    · exact ⟨c, a, l3, l1, n3, z3⟩
    exact absurd ⟨lt_of_le_of_ne hw.1 (Ne.symm z1), lt_of_le_of_ne hw.2.1 (Ne.symm z2),
      lt_of_le_of_ne hw.2.2 (Ne.symm z3)⟩ hn
  | done r =>
    cases r with
    | none =>
      rintro ⟨h3, h4⟩
      right; left
      intro hy
      have key : ∀ S : Set ℕ, (∃ i ∈ S, ∃ a b c, At s.mesh i a b c) →
          (∀ i ∈ S, ∀ a b c j q, At s.mesh i a b c → At s.mesh j b a q → j ∈ S) →
          (∀ i ∈ S, ∀ T, s.mesh.tetras.get i = some T → (geo2 x).contains T s.mesh.numPoints = some false) → False := by
        intro S hS hcl hcon
        obtain ⟨i, hi, a, b, c, hat, hw⟩ := P.find hy S hS hcl
        obtain ⟨T, hT, hp⟩ := id hat
        exact (geo2_contains_at V hT hat).2.1 (hcon i hi T hT) hw
      cases hl : s.last with
      | none =>
        obtain ⟨i, a, b, c, hat⟩ := V.nonempty
        exact key Set.univ ⟨i, trivial, a, b, c, hat⟩ (fun _ _ _ _ _ _ _ _ _ => trivial) fun i _ T hT => h4 hl i T hT
      | some l =>
        obtain ⟨T, hT⟩ := P.ok.last l hl
        obtain ⟨a, b, c, _, hat⟩ := At.of_get P.ok.cons hT
        refine key {i | s.mesh.Reach l i} ⟨l, Relation.ReflTransGen.refl, a, b, c, hat⟩
          (fun i hi a b c j q h h' => Relation.ReflTransGen.tail hi (P.adj h h')) fun i hi T hT => ?_
        obtain ⟨T', hT', hc⟩ := h3 l hl i hi
        rw [hT] at hT'
        cases hT'
        exact hc
    | some t =>
      rintro ⟨T, hT, hcon⟩
      have hcons : Consistent 2 { s.mesh with numPoints := s.mesh.numPoints + 1 } := P.ok.cons.mesh (Nat.le_succ _)
      obtain ⟨m', news, hsplit, hst, hl, _⟩ := ops2_ok.split _ t T s.mesh.numPoints hcons hT (Nat.lt_succ_self _)
        (fun hc => absurd (P.ok.cons.points_lt t T hT _ hc) (Nat.lt_irrefl _))
      dsimp only
      rw [hsplit]
      dsimp only
      obtain ⟨f1, f2, f3⟩ := split2d_plane (x := x) hcons P.facing rfl V P.empty hT hcon P.unique hsplit
      have hinv : PlaneInv x s.mesh.numPoints m' s.last news := by
        refine ⟨⟨hst.cons, hst.numPoints, hst.point, ?_, trivial⟩, f1, f2, f3⟩
        obtain ⟨n, hn⟩ := List.exists_mem_of_ne_nil _ hst.nonempty
        exact Or.inl ⟨n, hn, hst.live n hn⟩
      have hloop := flipLoop_plane fuel hinv
      revert hloop
      cases flipLoop (geo2 x).circ ops2.flip s.mesh.numPoints fuel m' s.last news 0 with
      | running => exact fun _ => trivial
      | panic => exact fun h => Or.inr (Or.inr h)
      | done r =>
        obtain ⟨m1, last1, tetras1⟩ := r
        intro hI
        dsimp only at hI ⊢
        have hnum : m1.numPoints = s.mesh.numPoints + 1 := hI.loop.num
        refine ⟨⟨⟨hI.loop.cons, ?_⟩, hI.facing, hI.unique, ?_, ?_, ?_, ?_, P.orient, ?_⟩, hnum⟩
        · intro l hl
          rcases hI.loop.live with ⟨t, ht, _⟩ | ⟨l', T', hl', hT'⟩
          · exact absurd ht List.not_mem_nil
          · rw [show last1 = some l from hl] at hl'
            cases hl'
            exact ⟨T', hT'⟩
        · rw [hnum]; exact hI.star.valid
        · rw [hnum]; exact hI.star.done
        · rw [hnum]; have := P.three; omega
        · rw [hnum]
          intro w hw
          rcases Nat.lt_succ_iff_lt_or_eq.1 hw with h1 | rfl
          · exact P.hull w h1
          · obtain ⟨a, b, c, _, hat⟩ := At.of_get P.ok.cons hT
            have hin := ((geo2_contains_at V hT hat).1.1 hcon).within
            have h1 := P.hull a (V.lt hat)
            have h2 := P.hull b (V.lt (V.cyc hat))
            have h3 := P.hull c (V.lt (V.cyc' hat))
            exact ⟨area_nonneg_of_within (V.pos hat) hin h1.1 h2.1 h3.1,
              area_nonneg_of_within (V.pos hat) hin h1.2.1 h2.2.1 h3.2.1,
              area_nonneg_of_within (V.pos hat) hin h1.2.2 h2.2.2 h3.2.2⟩
        · rw [hnum]
          intro w h3 hw
          rcases Nat.lt_succ_iff_lt_or_eq.1 hw with h1 | rfl
          · exact P.strict w h3 h1
          · obtain ⟨a, b, c, _, hat⟩ := At.of_get P.ok.cons hT
            have hin := (geo2_contains_at V hT hat).1.1 hcon
            have h1 := P.hull a (V.lt hat)
            have h2 := P.hull b (V.lt (V.cyc hat))
            have h3 := P.hull c (V.lt (V.cyc' hat))
            have ho := P.orient
            have n1 : x 0 ≠ x 1 := fun e => by rw [e, (area_self _ _).2.2] at ho; exact lt_irrefl _ ho
            have n2 : x 1 ≠ x 2 := fun e => by rw [e, (area_self _ _).2.1] at ho; exact lt_irrefl _ ho
            have n3 : x 2 ≠ x 0 := fun e => by rw [e, (area_self _ _).1] at ho; exact lt_irrefl _ ho
            exact ⟨area_pos_of_inside (V.pos hat) hin n1 h1.1 h2.1 h3.1,
              area_pos_of_inside (V.pos hat) hin n2 h1.2.1 h2.2.1 h3.2.1,
              area_pos_of_inside (V.pos hat) hin n3 h1.2.2 h2.2.2 h3.2.2⟩

theorem basic2d_shape {M : Mesh} (hM : Mesh.basic2d = some M) :
    (∀ i T, M.tetras.get i = some T ↔ i = 0 ∧
      T = ⟨[(0, newFace 0 false), (1, newFace 1 false), (2, newFace 2 false)]⟩) ∧
    (∀ f pts, M.faces.get f = some pts ↔
      (f = 0 ∧ pts = [1, 2]) ∨ (f = 1 ∧ pts = [2, 0]) ∨ (f = 2 ∧ pts = [0, 1])) := by
  cases hM
  constructor
  · intro i T
    match i with
    | 0 =>
      constructor
      · intro h; cases h; exact ⟨rfl, rfl⟩
      · rintro ⟨_, rfl⟩; rfl
    | i + 1 =>
      constructor
      · intro h; cases h
      · rintro ⟨h, _⟩; cases h
  · intro f pts
    match f with
    | 0 =>
      constructor
      · intro h; cases h; exact Or.inl ⟨rfl, rfl⟩
      · rintro (⟨_, rfl⟩ | ⟨h, _⟩ | ⟨h, _⟩)
        · rfl
        · cases h
        · cases h
    | 1 =>
      constructor
      · intro h; cases h; exact Or.inr (Or.inl ⟨rfl, rfl⟩)
      · rintro (⟨h, _⟩ | ⟨_, rfl⟩ | ⟨h, _⟩)
        · cases h
        · rfl
        · cases h
    | 2 =>
      constructor
      · intro h; cases h; exact Or.inr (Or.inr ⟨rfl, rfl⟩)
      · rintro (⟨h, _⟩ | ⟨h, _⟩ | ⟨_, rfl⟩)
        · cases h
        · cases h
        · rfl
    | f + 3 =>
      constructor
      · intro h; cases h
      · rintro (⟨h, _⟩ | ⟨h, _⟩ | ⟨h, _⟩) <;> omega

theorem start_plane (ho : 0 < area (x 0) (x 1) (x 2)) {s : State} (h : start2 = some s) :
    PlaneOk x s ∧ s.mesh.numPoints = 3 := by
  obtain ⟨M, hM, hc, _, _, hn⟩ := basic2d_ok
  unfold start2 at h
  rw [hM] at h
  cases h
  obtain ⟨hT, hF⟩ := basic2d_shape hM
  have r1 : 0 < area (x 1) (x 2) (x 0) := by rw [area_cyc]; exact ho
  have r2 : 0 < area (x 2) (x 0) (x 1) := by rw [area_cyc']; exact ho
  have hat : ∀ i a b c, At M i a b c ↔ i = 0 ∧ Cyc3 0 1 2 a b c := by
    intro i a b c
    constructor
    · rintro ⟨T, h1, h2⟩
      obtain ⟨rfl, rfl⟩ := (hT i T).1 h1
      refine ⟨rfl, ?_⟩
      simp [Tetra.points] at h2
      unfold Cyc3
      omega
    · rintro ⟨rfl, h2⟩
      refine ⟨_, (hT 0 _).2 ⟨rfl, rfl⟩, ?_⟩
      simp [Tetra.points]
      unfold Cyc3 at h2
      omega
  have side : ∀ a b c, Cyc3 0 1 2 a b c → 0 < area (x a) (x b) (x c) ∧
      ∀ w, w < 3 → 0 ≤ area (x a) (x b) (x w) := by
    intro a b c h
    have e : ∀ a b c, 0 < area (x a) (x b) (x c) → ∀ w, w = a ∨ w = b ∨ w = c → 0 ≤ area (x a) (x b) (x w) := by
      intro a b c hp w hw
      rcases hw with rfl | rfl | rfl
      · rw [(area_self _ _).1]
      · rw [(area_self _ _).2.1]
      · exact hp.le
    rcases h with ⟨rfl, rfl, rfl⟩ | ⟨rfl, rfl, rfl⟩ | ⟨rfl, rfl, rfl⟩
    · exact ⟨ho, fun w hw => e _ _ _ ho w (by omega)⟩
    · exact ⟨r1, fun w hw => e _ _ _ r1 w (by omega)⟩
    · exact ⟨r2, fun w hw => e _ _ _ r2 w (by omega)⟩
  refine ⟨⟨⟨hc, fun _ h => by cases h⟩, ?_, ?_, ?_, ?_, ?_, ?_, ho,
    fun w h1 h2 => absurd h2 (by dsimp only; omega)⟩, hn⟩
  · intro i T h v s hs a b hab
    obtain ⟨rfl, rfl⟩ := (hT i T).1 h
    simp only [List.mem_cons, Prod.mk.injEq, List.not_mem_nil, or_false] at hs
    have hab' := (hF _ _).1 hab
    rcases hs with ⟨rfl, rfl⟩ | ⟨rfl, rfl⟩ | ⟨rfl, rfl⟩ <;> simp [newFace] at hab' <;>
      obtain ⟨rfl, rfl⟩ := hab'
    · exact r1
    · exact r2
    · exact ho
  · intro f g pts pts' h1 h2 hz
    have z0 := hz 0
    have z1 := hz 1
    have z2 := hz 2
    rcases (hF _ _).1 h1 with ⟨rfl, rfl⟩ | ⟨rfl, rfl⟩ | ⟨rfl, rfl⟩ <;>
      rcases (hF _ _).1 h2 with ⟨rfl, rfl⟩ | ⟨rfl, rfl⟩ | ⟨rfl, rfl⟩ <;> simp at z0 z1 z2 ⊢
  · dsimp only
    rw [hn]
    refine ⟨?_, ?_, ?_, ?_, ?_, ?_, ?_, ?_, ?_⟩
    · intro i a b c h
      rw [hat] at h ⊢
      exact ⟨h.1, h.2.rot⟩
    · intro i a b c u v w h h'
      rw [hat] at h h'
      exact h.2.trans h'.2
    · intro i a b c h
      rw [hat] at h
      have := h.2
      unfold Cyc3 at this
      omega
    · intro i a b c h
      rw [hat] at h
      exact (side a b c h.2).1
    · intro i j a b c u v w h h' hne
      rw [hat] at h h'
      exact absurd (h.1.trans h'.1.symm) hne
    · intro i a b c h
      rw [hat] at h
      exact Or.inr (side a b c h.2).2
    · intro i a b c h w hw _
      rw [hat] at h
      have := h.2
      unfold Cyc3 at this
      omega
    · have : {t : ℕ × ℕ × ℕ × ℕ | At M t.1 t.2.1 t.2.2.1 t.2.2.2} ⊆ {(0, 0, 1, 2), (0, 1, 2, 0), (0, 2, 0, 1)} := by
        rintro ⟨i, a, b, c⟩ h
        obtain ⟨rfl, h2⟩ := (hat _ _ _ _).1 h
        rcases h2 with ⟨rfl, rfl, rfl⟩ | ⟨rfl, rfl, rfl⟩ | ⟨rfl, rfl, rfl⟩ <;> simp
      exact (Set.toFinite _).subset this
    · exact ⟨0, 0, 1, 2, (hat _ _ _ _).2 ⟨rfl, Or.inl ⟨rfl, rfl, rfl⟩⟩⟩
  · dsimp only
    rw [hn]
    intro i a b c h w hw n1 n2 n3
    rw [hat] at h
    have := h.2
    unfold Cyc3 at this
    omega
  · dsimp only
    omega
  · dsimp only
    rw [hn]
    intro w hw
    exact ⟨(side 0 1 2 (Or.inl ⟨rfl, rfl, rfl⟩)).2 w hw, (side 1 2 0 (Or.inr (Or.inl ⟨rfl, rfl, rfl⟩))).2 w hw,
      (side 2 0 1 (Or.inr (Or.inr ⟨rfl, rfl, rfl⟩))).2 w hw⟩

theorem insertMany_plane {pop : Heaps} (hp : HeapsOk pop) {fuel : ℕ} :
    ∀ {n : ℕ} {s s' : State}, PlaneOk x s → insertMany (geo2 x) ops2 pop fuel n s = .done s' →
      PlaneOk x s' ∧ s'.mesh.numPoints = s.mesh.numPoints + n
  | 0, s, s', h, hr => by
    cases hr
    exact ⟨h, rfl⟩
  | n + 1, s, s', h, hr => by
    have h1 := insertPoint_plane h hp fuel
    unfold insertMany at hr
    revert h1 hr
    cases insertPoint (geo2 x) ops2 pop fuel s with
    | running => exact fun _ h => by cases h
    | panic => exact fun _ h => by cases h
    | done r =>
      obtain ⟨s1, ts⟩ := r
      rintro ⟨h1, h2⟩ hr
      obtain ⟨h5, h6⟩ := insertMany_plane hp h1 hr
      exact ⟨h5, by omega⟩

theorem run_plane (ho : 0 < area (x 0) (x 1) (x 2)) {pop : Heaps} (hp : HeapsOk pop)
    {fuel n : ℕ} {s0 s : State} (h0 : start2 = some s0) (h : insertMany (geo2 x) ops2 pop fuel n s0 = .done s) :
    PlaneOk x s ∧ s.mesh.numPoints = 3 + n := by
  obtain ⟨h1, h2⟩ := start_plane ho h0
  obtain ⟨h3, h4⟩ := insertMany_plane hp h1 h
  exact ⟨h3, by omega⟩

end Verif.Delaunay
