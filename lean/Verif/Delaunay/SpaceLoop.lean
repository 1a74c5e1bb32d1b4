import Verif.Delaunay.SpaceFlip
import Verif.Delaunay.PlaneLoop

/-! # The flip loop in three dimensions restores the Delaunay property: lemmas -/

namespace Verif.Delaunay

open Verif.Predicates (P3 orient3 IntersectionType Edge opposite)

variable {K : Type} [Field K] [LinearOrder K] [IsStrictOrderedRing K] {x : ℕ → P3 K}

/-- A mesh of tetrahedra between insertions. -/
structure SpaceOk (x : ℕ → P3 K) (s : State) : Prop where
  ok : StateOk 3 s
  space : Space x s.mesh s.mesh.numPoints
  empty : Empty3 x (At3 s.mesh) s.mesh.numPoints
  four : 4 ≤ s.mesh.numPoints
  nonempty : ∃ i σ, At3 s.mesh i σ
  hull : ∀ w, w < s.mesh.numPoints → Within3 (x ∘ ![0, 1, 2, 3]) (x w)
  orient : 0 < vol (x ∘ ![0, 1, 2, 3])
  strict : ∀ w, 4 ≤ w → w < s.mesh.numPoints → Inside3 (x ∘ ![0, 1, 2, 3]) (x w)

/-- The invariant of the flip loop. -/
structure SpaceInv (x : ℕ → P3 K) (p : ℕ) (m : Mesh) (last : Option ℕ) (q : List ℕ) : Prop where
  loop : LoopInv 3 p (fun _ => True) m last q
  space : Space x m (p + 1)
  cavity : Cavity x (At3 m) p
  outside : Outside3 x (At3 m) p
  pending : Pending x (At3 m) p q

theorem at3_vertex_lt {M : Mesh} (h : Consistent 3 M) {i : ℕ} {σ : Fin 4 → ℕ} (ha : At3 M i σ) (k : Fin 4) :
    σ k < M.numPoints := by
  obtain ⟨T, hT, _, hm⟩ := ha
  exact h.points_lt i T hT _ (hm k)

theorem At3.of_get {M : Mesh} (h : Consistent 3 M) {i : ℕ} {T : Tetra} (hT : M.tetras.get i = some T) :
    ∃ a b c d, T.points = [a, b, c, d] ∧ At3 M i ![a, b, c, d] := by
  obtain ⟨a, b, c, d, hp⟩ := h.points_four hT
  exact ⟨a, b, c, d, hp, at3_of_perm h hT (by rw [hp])⟩

theorem flipLoop_space {eps : K} (heps : 0 < eps) {p : ℕ} (fuel : ℕ) {m : Mesh} {last : Option ℕ} {tetras : List ℕ}
    (h : SpaceInv x p m last tetras) :
    (match flipLoop (geo3 eps x).circ (ops3 (intersect3 x)).flip p fuel m last tetras 0 with
      | .done (m', last', _) => SpaceInv x p m' last' []
      | .panic => Cospherical x p ∨ Coplanar x p
      | .running => True) := by
  have key := (flipLoop_induct (circ := (geo3 eps x).circ) (flip := (ops3 (intersect3 x)).flip) (point := p)
    (SpaceInv x p) (Mesh.away p) 4 ?_ ?_ fuel (Nat.zero_le _) (tetras := tetras) (m := m) (last := last)
    (by simpa using h)).1
  · revert key
    cases flipLoop (geo3 eps x).circ (ops3 (intersect3 x)).flip p fuel m last tetras 0 with
    | running => exact fun _ => trivial
    | done r => exact fun h => h.1
    | panic =>
      rintro ⟨m1, last1, t, q, T, fi, hI, hT, hfi, hnone⟩
      have hc := hI.loop.cons
      have hmem := mem_of_findFaceOpposite hfi
      unfold flipCheck faceIsInvalid at hnone
      rw [hT] at hnone
      dsimp only at hnone
      rw [findFace_eq (hc.facesNodup t T hT) hmem] at hnone
      dsimp only at hnone
      cases hop : fi.opposing with
      | none => rw [hop] at hnone; cases hnone
      | some c =>
        obtain ⟨u, q'⟩ := c
        rw [hop] at hnone
        dsimp only at hnone
        obtain ⟨s1, s2, s3, hfc, _⟩ := face_at hc hT hmem
        obtain ⟨hin, hout, hbelow, hltp, _, _, h3⟩ := front_at heps hc hI.space hI.loop.num hT hmem hop hfc
        cases hci : (geo3 eps x).circ T q' with
        | none =>
          exact Or.inl ⟨s1, s2, s3, q', hltp 0, hltp 1, hltp 2, hltp 3, hI.space.solid.nondeg hout, h3.1 hci⟩
        | some b =>
          rw [hci] at hnone
          cases b with
          | false => cases hnone
          | true => exact Or.inr (flip3d_space_panics heps hc hI.space hI.loop.num hT hmem hop hci hnone)
  · intro m last t q hI ht
    refine ⟨hI.loop.dead ht, hI.space, hI.cavity, hI.outside, ?_⟩
    intro i σ h1 h2 h3 h4
    obtain ⟨j, hj, k, hk, hjk⟩ := hI.pending i σ h1 h2 h3 h4
    rcases List.mem_cons.1 hj with rfl | hj
    · obtain ⟨T, hT, _⟩ := hjk
      rw [ht] at hT
      cases hT
    · exact ⟨j, hj, k, hk, hjk⟩
  · intro m last t q T hI hT
    have hc := hI.loop.cons
    have hlt : ∀ i σ, At3 m i σ → ∀ k, σ k < p + 1 := by
      intro i σ ha k
      rw [← hI.loop.num]
      exact at3_vertex_lt hc ha k
    obtain ⟨fi, hfi, hmem⟩ := findFaceOpposite_of_mem (hc.points_nodup t T hT)
      (hI.loop.point t List.mem_cons_self T hT)
    refine ⟨fi, hfi, fun m' news hrun => ?_⟩
    have hrun' := hrun
    unfold flipCheck faceIsInvalid at hrun
    rw [hT] at hrun
    dsimp only at hrun
    rw [findFace_eq (hc.facesNodup t T hT) hmem] at hrun
    dsimp only at hrun
    cases hop : fi.opposing with
    | none =>
      rw [hop] at hrun
      cases hrun
      refine ⟨⟨hI.loop.checked hT, hI.space, hI.cavity, hI.outside, ?_⟩, Or.inl ⟨rfl, rfl⟩⟩
      rw [List.append_nil]
      refine hI.pending.drop hc hI.space hlt hT hmem fun u q' he => ?_
      rw [hop] at he
      cases he
    | some c =>
      obtain ⟨u, q'⟩ := c
      rw [hop] at hrun
      dsimp only at hrun
      obtain ⟨s1, s2, s3, hfc, _⟩ := face_at hc hT hmem
      obtain ⟨hin, hout, hbelow, hltp, _, h2, _⟩ := front_at heps hc hI.space hI.loop.num hT hmem hop hfc
      cases hci : (geo3 eps x).circ T q' with
      | none => rw [hci] at hrun; cases hrun
      | some b =>
        rw [hci] at hrun
        cases b with
        | false =>
          cases hrun
          refine ⟨⟨hI.loop.checked hT, hI.space, hI.cavity, hI.outside, ?_⟩, Or.inl ⟨rfl, rfl⟩⟩
          rw [List.append_nil]
          refine hI.pending.drop hc hI.space hlt hT hmem fun u' q'' he σ hσ hle _ => ?_
          rw [hop] at he
          simp only [Option.some.injEq, Conn.mk.injEq] at he
          obtain ⟨rfl, rfl⟩ := he
          obtain ⟨e, rfl⟩ := hout.same hc hσ
          rw [← Function.comp_assoc, pw3_perm] at hle
          exact absurd (h2.1 hci) (not_lt.2 hle)
        | true =>
          dsimp only at hrun
          obtain ⟨f1, f2, f3, f4⟩ := flip3d_space heps hc hI.space hI.loop.num hI.cavity hI.outside hI.pending hT hmem hop
            hci hrun
          rcases flipCheck_cases (ops3_ok _) (geo3_proper eps x) hc hT hmem hrun' with ⟨e1, e2⟩ | ⟨c, _, _, _, _, hst, hl, ha⟩
          · subst e1 e2
            exact ⟨⟨hI.loop.checked hT, f1, f2, f3, f4⟩, Or.inl ⟨rfl, rfl⟩⟩
          · exact ⟨⟨hI.loop.step hst trivial, f1, f2, f3, f4⟩, Or.inr ⟨hl, by omega⟩⟩

theorem SpaceOk.lt {s : State} (P : SpaceOk x s) {i : ℕ} {σ : Fin 4 → ℕ} (ha : At3 s.mesh i σ) (k : Fin 4) :
    σ k < s.mesh.numPoints := at3_vertex_lt P.ok.cons ha k

theorem SpaceOk.closed {s : State} (P : SpaceOk x s) : Closed3 x (At3 s.mesh) s.mesh.numPoints :=
  closed3 P.ok.cons P.space.facing P.space.hull

/-- A point of a tetrahedron belongs to the initial tetrahedron. -/
theorem SpaceOk.within {s : State} (P : SpaceOk x s) {σ : Fin 4 → ℕ} (hσ : ∀ k, σ k < s.mesh.numPoints)
    (hne : vol (x ∘ σ) ≠ 0) {y : P3 K} (hy : Within3 (x ∘ σ) y) : Within3 (x ∘ ![0, 1, 2, 3]) y :=
  fun k => (co_aff _ k).nonneg hne hy fun i => P.hull _ (hσ i) k

theorem SpaceOk.inside {s : State} (P : SpaceOk x s) {σ : Fin 4 → ℕ} (hσ : ∀ k, σ k < s.mesh.numPoints)
    (hne : vol (x ∘ σ) ≠ 0) {y : P3 K} (hy : Inside3 (x ∘ σ) y) : Inside3 (x ∘ ![0, 1, 2, 3]) y := by
  intro k
  refine (co_aff _ k).pos hne hy (fun i => P.hull _ (hσ i) k) ?_
  by_contra hc
  push Not at hc
  have hz : ∀ i, co (x ∘ ![0, 1, 2, 3]) k ((x ∘ σ) i) = 0 := fun i => le_antisymm (hc i) (P.hull _ (hσ i) k)
  have h1 := (co_aff (x ∘ ![0, 1, 2, 3]) k).bary hne ((x ∘ ![0, 1, 2, 3]) k)
  rw [co_self P.orient.ne'] at h1
  simp only [hz, mul_zero, Finset.sum_const_zero] at h1
  exact one_ne_zero h1

/-- A set of tetrahedra which contains the neighbours of its elements has one which contains a given point. -/
theorem SpaceOk.find {s : State} (P : SpaceOk x s) {y : P3 K} (hy : Within3 (x ∘ ![0, 1, 2, 3]) y) (A : Set ℕ)
    (hA : ∃ i ∈ A, ∃ σ, At3 s.mesh i σ)
    (hcl : ∀ i ∈ A, ∀ σ, At3 s.mesh i σ → ∀ k j q, At3 s.mesh j (Function.update σ k q) → co (x ∘ σ) k (x q) < 0 → j ∈ A) :
    ∃ i ∈ A, ∃ σ, At3 s.mesh i σ ∧ Within3 (x ∘ σ) y := by
  have h4 := P.four
  refine P.space.solid.find (fun i σ ha k => P.lt ha k) (at3_finite P.ok.cons) P.closed P.empty ?_ A hA hcl
  intro i σ ha k hw
  refine (co_aff _ k).nonneg P.orient.ne' hy fun l => hw _ ?_
  fin_cases l
  · exact (by omega : 0 < s.mesh.numPoints)
  · exact (by omega : 1 < s.mesh.numPoints)
  · exact (by omega : 2 < s.mesh.numPoints)
  · exact (by omega : 3 < s.mesh.numPoints)

theorem SpaceOk.adj {s : State} (P : SpaceOk x s) {i j q : ℕ} {σ : Fin 4 → ℕ} {k : Fin 4} (h : At3 s.mesh i σ)
    (h' : At3 s.mesh j (Function.update σ k q)) (hq : co (x ∘ σ) k (x q) < 0) : s.mesh.Adj i j := by
  obtain ⟨T, hT, _, hm⟩ := id h
  obtain ⟨t, ht⟩ := exists_slot (hm k)
  have hqn : q < s.mesh.numPoints := by
    have := P.lt h' k
    rwa [Function.update_self] at this
  have hij : i ≠ j := by
    rintro rfl
    obtain ⟨e, he⟩ := h'.same P.ok.cons h
    exact fresh_vertex (P.space.solid.nondeg h) hq (e k) (congrFun he k)
  exact ⟨T, hT, _, t, q, ht, linked3 P.ok.cons P.space.facing P.space.hull P.space.solid hT h ht hqn h' hij⟩

/-- Every tetrahedron can be reached from every other one. -/
theorem SpaceOk.reach {s : State} (P : SpaceOk x s) {i j : ℕ} {T U : Tetra} (hi : s.mesh.tetras.get i = some T)
    (hj : s.mesh.tetras.get j = some U) : s.mesh.Reach i j := by
  obtain ⟨_, _, _, _, _, hT⟩ := At3.of_get P.ok.cons hi
  obtain ⟨_, _, _, _, _, hU⟩ := At3.of_get P.ok.cons hj
  have S := P.space.solid
  obtain ⟨y, hy⟩ := inside3_nonempty (S.nondeg hU)
  obtain ⟨k, hk, σ, hat, hw⟩ := P.find (P.within (fun k => P.lt hU k) (S.nondeg hU) hy.within)
    {k | s.mesh.Reach i k} ⟨i, Relation.ReflTransGen.refl, _, hT⟩
    (fun k hk σ h l j q h' hq => Relation.ReflTransGen.tail hk (P.adj h h' hq))
  rw [S.same_of_inside hU hat hy hw]
  exact hk

theorem insertPoint_space {eps : K} (heps : 0 < eps) {s : State} (P : SpaceOk x s)
    {pop : Heaps} (hp : HeapsOk pop) (fuel : ℕ) :
    (match insertPoint (geo3 eps x) (ops3 (intersect3 x)) pop fuel s with
      | .done (s', _) => SpaceOk x s' ∧ s'.mesh.numPoints = s.mesh.numPoints + 1
      | .panic => Coplanar x s.mesh.numPoints ∨ ¬Within3 (x ∘ ![0, 1, 2, 3]) (x s.mesh.numPoints) ∨
          Cospherical x s.mesh.numPoints
      | .running => True) := by
  have S := P.space.solid
  unfold insertPoint
  dsimp only
  obtain ⟨h1, _⟩ := findContaining_live (g := geo3 eps x) (hp { s.mesh with numPoints := s.mesh.numPoints + 1 }) P.ok (fuel := fuel) rfl
  revert h1
  cases findContaining (fun T => (geo3 eps x).contains T s.mesh.numPoints) (pop _) fuel
    { s.mesh with numPoints := s.mesh.numPoints + 1 } s.last with
  | running => exact fun _ => trivial
  | panic =>
    rintro ⟨i, T, hT, hc⟩
    left
    obtain ⟨a, b, c, d, hpt, hat⟩ := At3.of_get P.ok.cons hT
    obtain ⟨k, hk⟩ := (geo3_contains (eps := eps) (p := s.mesh.numPoints) hpt (S.nondeg hat)).2.2 hc
    exact coplanar_of_co (S.nondeg hat) (fun k => P.lt hat k) hk
  | done r =>
    cases r with
    | none =>
      rintro ⟨h3, h4⟩
      right; left
      intro hy
      have key : ∀ A : Set ℕ, (∃ i ∈ A, ∃ σ, At3 s.mesh i σ) →
          (∀ i ∈ A, ∀ σ, At3 s.mesh i σ → ∀ k j q, At3 s.mesh j (Function.update σ k q) → co (x ∘ σ) k (x q) < 0 → j ∈ A) →
          (∀ i ∈ A, ∀ T, s.mesh.tetras.get i = some T →
            (geo3 eps x).contains T s.mesh.numPoints = some false) → False := by
        intro A hA hcl hcon
        obtain ⟨i, hi, σ, hσ, hw⟩ := P.find hy A hA hcl
        obtain ⟨T, hT, _⟩ := id hσ
        obtain ⟨a, b, c, d, hpt, hat⟩ := At3.of_get P.ok.cons hT
        refine (geo3_contains (eps := eps) (p := s.mesh.numPoints) hpt (S.nondeg hat)).2.1 (hcon i hi T hT) ?_
        obtain ⟨e, he⟩ := hσ.same P.ok.cons hat
        rw [he, ← Function.comp_assoc, within3_perm]
        exact hw
      cases hl : s.last with
      | none =>
        obtain ⟨i, σ, hat⟩ := P.nonempty
        exact key Set.univ ⟨i, trivial, σ, hat⟩ (fun _ _ _ _ _ _ _ _ _ => trivial) fun i _ T hT => h4 hl i T hT
      | some l =>
        obtain ⟨T, hT⟩ := P.ok.last l hl
        obtain ⟨_, _, _, _, _, hat⟩ := At3.of_get P.ok.cons hT
        refine key {i | s.mesh.Reach l i} ⟨l, Relation.ReflTransGen.refl, _, hat⟩
          (fun i hi σ h k j q h' hq => Relation.ReflTransGen.tail hi (P.adj h h' hq)) fun i hi T hT => ?_
        obtain ⟨T', hT', hc⟩ := h3 l hl i hi
        rw [hT] at hT'
        cases hT'
        exact hc
    | some t =>
      rintro ⟨T, hT, hcon⟩
      have hcons : Consistent 3 { s.mesh with numPoints := s.mesh.numPoints + 1 } := P.ok.cons.mesh (Nat.le_succ _)
      obtain ⟨m', news, hsplit, hst, hl, _⟩ := (ops3_ok (intersect3 x)).split _ t T s.mesh.numPoints hcons hT
        (Nat.lt_succ_self _) (fun hc => absurd (P.ok.cons.points_lt t T hT _ hc) (Nat.lt_irrefl _))
      dsimp only
      rw [hsplit]
      dsimp only
      have G : Space x { s.mesh with numPoints := s.mesh.numPoints + 1 } s.mesh.numPoints :=
        ⟨P.space.facing, P.space.pos, P.space.hull, P.space.solid⟩
      obtain ⟨f1, f2, f3, f4⟩ := split3d_space (eps := eps) hcons G rfl (fun i σ ha k => P.lt ha k) P.empty hT hcon hsplit
      have hinv : SpaceInv x s.mesh.numPoints m' s.last news := by
        refine ⟨⟨hst.cons, hst.numPoints, hst.point, ?_, trivial⟩, f1, f2, f3, f4⟩
        obtain ⟨n, hn⟩ := List.exists_mem_of_ne_nil _ hst.nonempty
        exact Or.inl ⟨n, hn, hst.live n hn⟩
      have hloop := flipLoop_space heps fuel hinv
      revert hloop
      cases flipLoop (geo3 eps x).circ (ops3 (intersect3 x)).flip s.mesh.numPoints fuel m' s.last news 0 with
      | running => exact fun _ => trivial
      | panic =>
        rintro (h | h)
        · exact Or.inr (Or.inr h)
        · exact Or.inl h
      | done r =>
        obtain ⟨m1, last1, tetras1⟩ := r
        intro hI
        dsimp only at hI ⊢
        have hnum : m1.numPoints = s.mesh.numPoints + 1 := hI.loop.num
        obtain ⟨a, b, c, d, hpt, hat⟩ := At3.of_get P.ok.cons hT
        have hin := (geo3_contains (eps := eps) (p := s.mesh.numPoints) hpt (S.nondeg hat)).1.1 hcon
        have hlive : ∃ l T', last1 = some l ∧ m1.tetras.get l = some T' := by
          rcases hI.loop.live with ⟨t, ht, _⟩ | h
          · exact absurd ht List.not_mem_nil
          · exact h
        refine ⟨⟨⟨hI.loop.cons, ?_⟩, ?_, ?_, ?_, ?_, ?_, P.orient, ?_⟩, hnum⟩
        · intro l hl
          obtain ⟨l', T', hl', hT'⟩ := hlive
          rw [show last1 = some l from hl] at hl'
          cases hl'
          exact ⟨T', hT'⟩
        · rw [hnum]; exact hI.space
        · rw [hnum]
          refine hI.cavity.done hI.space.solid (fun i σ ha k => ?_) (at3_finite hI.loop.cons)
            (closed3 hI.loop.cons hI.space.facing hI.space.hull) hI.pending
          have := at3_vertex_lt hI.loop.cons ha k
          rwa [hnum] at this
        · rw [hnum]; have := P.four; omega
        · obtain ⟨l', T', hl', hT'⟩ := hlive
          obtain ⟨_, _, _, _, _, h⟩ := At3.of_get hI.loop.cons hT'
          exact ⟨_, _, h⟩
        · rw [hnum]
          intro w hw
          rcases Nat.lt_succ_iff_lt_or_eq.1 hw with h1 | rfl
          · exact P.hull w h1
          · exact P.within (fun k => P.lt hat k) (S.nondeg hat) hin.within
        · rw [hnum]
          intro w h3 hw
          rcases Nat.lt_succ_iff_lt_or_eq.1 hw with h1 | rfl
          · exact P.strict w h3 h1
          · exact P.inside (fun k => P.lt hat k) (S.nondeg hat) hin

theorem basic3d_shape {M : Mesh} (hM : Mesh.basic3d = some M) :
    (∀ i T, M.tetras.get i = some T ↔ i = 0 ∧
      T = ⟨[(0, newFace 0 false), (1, newFace 1 false), (2, newFace 2 false), (3, newFace 3 false)]⟩) ∧
    (∀ f, M.faces.get f = [[2, 1, 3], [2, 3, 0], [0, 3, 1], [0, 1, 2]][f]?) := by
  cases hM
  constructor
  · intro i T
    match i with
    | 0 =>
      constructor
      · intro h; cases h; exact ⟨rfl, rfl⟩
      · rintro ⟨_, rfl⟩; rfl
    | i + 1 =>
      constructor
      · intro h; cases h
      · rintro ⟨h, _⟩; cases h
  · intro f
    match f with
    | 0 => rfl
    | 1 => rfl
    | 2 => rfl
    | 3 => rfl
    | f + 4 => rfl

theorem start_space (ho : 0 < vol (x ∘ ![0, 1, 2, 3])) {s : State} (h : start3 = some s) :
    SpaceOk x s ∧ s.mesh.numPoints = 4 := by
  obtain ⟨M, hM, hc, _, _, hn⟩ := basic3d_ok
  unfold start3 at h
  rw [hM] at h
  cases h
  obtain ⟨hT, hF⟩ := basic3d_shape hM
  have hat0 : At3 M 0 ![0, 1, 2, 3] := at3_of_perm hc ((hT 0 _).2 ⟨rfl, rfl⟩) (List.Perm.refl _)
  have hat : ∀ i σ, At3 M i σ → i = 0 ∧ ∃ e : Equiv.Perm (Fin 4), σ = ![0, 1, 2, 3] ∘ e := by
    intro i σ ha
    obtain ⟨T, h1, _⟩ := id ha
    obtain ⟨rfl, rfl⟩ := (hT i T).1 h1
    exact ⟨rfl, hat0.same hc ha⟩
  have hfacing : Facing3 x M := by
    intro i T h v s hs a b c hab
    obtain ⟨rfl, rfl⟩ := (hT i T).1 h
    rw [vol_vec, Predicates.orient3_eq] at ho
    simp only [List.mem_cons, Prod.mk.injEq, List.not_mem_nil, or_false] at hs
    rw [hF] at hab
    rcases hs with ⟨rfl, rfl⟩ | ⟨rfl, rfl⟩ | ⟨rfl, rfl⟩ | ⟨rfl, rfl⟩ <;> simp [newFace] at hab <;>
      obtain ⟨rfl, rfl, rfl⟩ := hab <;> refine lt_of_lt_of_eq ho ?_ <;>
      simp only [vol_vec, Predicates.orient3_eq, newFace, sd, Bool.false_eq_true, if_false] <;> ring1
  have hvert : ∀ w, w < 4 → Within3 (x ∘ ![0, 1, 2, 3]) (x w) := by
    intro w hw k
    obtain ⟨l, rfl⟩ : ∃ l : Fin 4, w = (![0, 1, 2, 3] : Fin 4 → ℕ) l := by
      refine ⟨⟨w, hw⟩, ?_⟩
      match w, hw with
      | 0, _ => rfl
      | 1, _ => rfl
      | 2, _ => rfl
      | 3, _ => rfl
    by_cases hkl : l = k
    · subst hkl
      rw [show x ((![0, 1, 2, 3] : Fin 4 → ℕ) l) = (x ∘ ![0, 1, 2, 3]) l from rfl, co_self ho.ne']
      exact zero_le_one
    · rw [show x ((![0, 1, 2, 3] : Fin 4 → ℕ) l) = (x ∘ ![0, 1, 2, 3]) l from rfl, co_other _ hkl]
  have hhull : Hull3 x M 4 := by
    intro i T h v s hs hso a b c hab w hw
    obtain ⟨rfl, rfl⟩ := (hT i T).1 h
    obtain ⟨k, rfl⟩ : ∃ k : Fin 4, (![0, 1, 2, 3] : Fin 4 → ℕ) k = v := by
      have := mem_points hs
      exact (hat0.mem_iff hc h v).1 this
    exact (sd_face_sign hc hfacing h hat0 hs hab w).2.1.2 (hvert w hw k)
  have hsolid : Solid x (At3 M) := by
    refine solid_mk hc hfacing ?_
    intro i j σ τ h1 h2 hne
    exact absurd ((hat i σ h1).1.trans (hat j τ h2).1.symm) hne
  have hmem : ∀ (σ : Fin 4 → ℕ) (e : Equiv.Perm (Fin 4)), σ = ![0, 1, 2, 3] ∘ e → ∀ w, w < 4 → ∃ k, w = σ k := by
    rintro σ e rfl w hw
    match w, hw with
    | 0, _ => exact ⟨e.symm 0, by simp⟩
    | 1, _ => exact ⟨e.symm 1, by simp⟩
    | 2, _ => exact ⟨e.symm 2, by simp⟩
    | 3, _ => exact ⟨e.symm 3, by simp⟩
  refine ⟨⟨⟨hc, fun _ h => by cases h⟩, ⟨hfacing, ?_, ?_, hsolid⟩, ?_, hn.ge, ⟨0, _, hat0⟩, ?_, ho,
    fun w h1 h2 => absurd h2 (by dsimp only; omega)⟩, hn⟩
  · intro i T h a b c d hp
    obtain ⟨rfl, rfl⟩ := (hT i T).1 h
    simp [Tetra.points] at hp
    obtain ⟨rfl, rfl, rfl, rfl⟩ := hp
    exact ho
  · dsimp only
    rw [hn]
    exact hhull
  · dsimp only
    rw [hn]
    intro i σ h w hw hne
    obtain ⟨_, e, he⟩ := hat i σ h
    obtain ⟨k, hk⟩ := hmem σ e he w hw
    exact absurd hk (hne k)
  · dsimp only
    rw [hn]
    exact hvert

theorem insertMany_space {eps : K} (heps : 0 < eps) {pop : Heaps} (hp : HeapsOk pop) {fuel : ℕ} :
    ∀ {n : ℕ} {s s' : State}, SpaceOk x s → insertMany (geo3 eps x) (ops3 (intersect3 x)) pop fuel n s = .done s' →
      SpaceOk x s' ∧ s'.mesh.numPoints = s.mesh.numPoints + n
  | 0, s, s', h, hr => by
    cases hr
    exact ⟨h, rfl⟩
  | n + 1, s, s', h, hr => by
    have h1 := insertPoint_space heps h hp fuel
    unfold insertMany at hr
    revert h1 hr
    cases insertPoint (geo3 eps x) (ops3 (intersect3 x)) pop fuel s with
    | running => exact fun _ h => by cases h
    | panic => exact fun _ h => by cases h
    | done r =>
      obtain ⟨s1, ts⟩ := r
      rintro ⟨h1, h2⟩ hr
      obtain ⟨h5, h6⟩ := insertMany_space heps hp h1 hr
      exact ⟨h5, by omega⟩

theorem run_space {eps : K} (heps : 0 < eps) (ho : 0 < vol (x ∘ ![0, 1, 2, 3]))
    {pop : Heaps} (hp : HeapsOk pop)
    {fuel n : ℕ} {s0 s : State} (h0 : start3 = some s0)
    (h : insertMany (geo3 eps x) (ops3 (intersect3 x)) pop fuel n s0 = .done s) :
    SpaceOk x s ∧ s.mesh.numPoints = 4 + n := by
  obtain ⟨h1, h2⟩ := start_space ho h0
  obtain ⟨h3, h4⟩ := insertMany_space heps hp h1 h
  exact ⟨h3, by omega⟩

end Verif.Delaunay
