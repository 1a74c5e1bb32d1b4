import Verif.Delaunay.SpaceLink

/-! # Insertions keep a mesh of tetrahedra Delaunay: lemmas -/

namespace Verif.Delaunay

open Verif.Predicates (P3 orient3 IntersectionType Edge opposite)

variable {K : Type} [Field K] [LinearOrder K] [IsStrictOrderedRing K] {x : ℕ → P3 K}

omit [LinearOrder K] [IsStrictOrderedRing K] in
theorem vol_vec (x : ℕ → P3 K) (a b c d : ℕ) : vol (x ∘ ![a, b, c, d]) = orient3 ⟨x a, x b, x c, x d⟩ := rfl

omit [LinearOrder K] [IsStrictOrderedRing K] in
/-- The coordinates of the old vertex after a replacement. -/
theorem co_star {v : Fin 4 → P3 K} (h : vol v ≠ 0) {k l : Fin 4} (hkl : k ≠ l) {p : P3 K} (hl : co v l p ≠ 0) :
    co (Function.update v l p) k (v l) = -co v k p / co v l p := by
  have h1 := co_update h hl hkl (v l)
  rw [co_other v hkl.symm, co_update_self h, co_self h] at h1
  have h2 : co (Function.update v l p) k (v l) = -(1 / co v l p * co v k p) := by linear_combination -h1
  rw [h2]
  ring

/-- The mesh is a proper mesh of tetrahedra which contains the first `n` points. -/
structure Space (x : ℕ → P3 K) (M : Mesh) (n : ℕ) : Prop where
  facing : Facing3 x M
  pos : Pos3 x M
  hull : Hull3 x M n
  solid : Solid x (At3 M)

theorem absorbed_of {M M0 M' : Mesh} {olds : List ℕ} {news : List Tetra} (h : Consistent 3 M) (S : Solid x (At3 M))
    (hr : Replaced M M0 olds news M') (hold : ∀ o ∈ olds, o < M.tetras.next) {i0 p : ℕ} {σ : Fin 4 → ℕ}
    (h0 : At3 M i0 σ) (hc : ∀ k, co (x ∘ σ) k (x p) ≠ 0) (ho0 : i0 ∈ olds)
    (hnear : ∀ k, co (x ∘ σ) k (x p) < 0 → ∃ j ∈ olds, At3 M j (Function.update σ k p))
    (hall : ∀ j ∈ olds, j = i0 ∨ ∃ k, co (x ∘ σ) k (x p) < 0 ∧ At3 M j (Function.update σ k p)) (ix : Fin 4 → ℕ)
    (hnew : ∀ k, 0 < co (x ∘ σ) k (x p) → ∃ T, news[ix k]? = some T ∧ ∀ z, z ∈ T.points ↔ ∃ l, Function.update σ k p l = z)
    (hsurj : ∀ m T, news[m]? = some T → ∃ k, 0 < co (x ∘ σ) k (x p) ∧ ix k = m)
    (hinj : ∀ k l, 0 < co (x ∘ σ) k (x p) → 0 < co (x ∘ σ) l (x p) → ix k = ix l → k = l) :
    Absorbed x (At3 M) (At3 M') i0 σ p (fun k => M.tetras.next + ix k) := by
  have hne := S.nondeg h0
  have hu : ∀ k, Function.Injective (Function.update σ k p) := by
    intro k
    have h1 := vol_update_ne hne (hc k)
    rw [← comp_upd] at h1
    exact fun a b hab => vol_injective h1 (congrArg x hab)
  refine ⟨?_, h0, hc, ?_, ?_, ?_⟩
  · intro j τ
    rw [hr.at3 h hold]
    apply or_congr
    · constructor
      · rintro ⟨hj, ha⟩
        refine ⟨ha, fun e => hj (e ▸ ho0), ?_⟩
        rintro ⟨k, hk, hjk⟩
        obtain ⟨j', hj', hjk'⟩ := hnear k hk
        rw [S.unique' hjk hjk'] at hj
        exact hj hj'
      · rintro ⟨ha, hj0, hno⟩
        refine ⟨fun hj => ?_, ha⟩
        rcases hall j hj with e | e
        · exact hj0 e
        · exact hno e
    · constructor
      · rintro ⟨m, T, hm, rfl, hτ, hmem⟩
        obtain ⟨k, hk, rfl⟩ := hsurj m T hm
        obtain ⟨T', hT', hz⟩ := hnew k hk
        rw [hm] at hT'
        cases hT'
        exact ⟨k, hk, rfl, perm_of_range (hu k) hτ fun l => (hz _).1 (hmem l)⟩
      · rintro ⟨k, hk, rfl, e, rfl⟩
        obtain ⟨T', hT', hz⟩ := hnew k hk
        exact ⟨ix k, T', hT', rfl, (hu k).comp e.injective, fun l => (hz _).2 ⟨_, rfl⟩⟩
  · intro k hk
    obtain ⟨j, _, hj⟩ := hnear k hk
    exact ⟨j, hj⟩
  · intro k j τ hj he
    have := at3_lt h hj
    omega
  · intro k l hk hl he
    exact hinj k l hk hl (by omega)

theorem mem_vec (a b c d z : ℕ) : (∃ l, (![a, b, c, d] : Fin 4 → ℕ) l = z) ↔ z = a ∨ z = b ∨ z = c ∨ z = d := by
  constructor
  · rintro ⟨l, rfl⟩
    fin_cases l <;> simp
  · rintro (rfl | rfl | rfl | rfl)
    · exact ⟨0, rfl⟩
    · exact ⟨1, rfl⟩
    · exact ⟨2, rfl⟩
    · exact ⟨3, rfl⟩

theorem update_vec0 (a b c v w : ℕ) : Function.update ![a, b, c, v] 0 w = ![w, b, c, v] := by
  funext i
  fin_cases i <;> rfl

theorem update_vec1 (a b c v w : ℕ) : Function.update ![a, b, c, v] 1 w = ![a, w, c, v] := by
  funext i
  fin_cases i <;> rfl

theorem update_vec2 (a b c v w : ℕ) : Function.update ![a, b, c, v] 2 w = ![a, b, w, v] := by
  funext i
  fin_cases i <;> rfl

set_option linter.unusedSimpArgs false in
set_option maxHeartbeats 1000000 in
theorem split3d_space {eps : K} {M M' : Mesh} {t p : ℕ} {T : Tetra} {news : List ℕ} (h : Consistent 3 M)
    (G : Space x M p) (hn : M.numPoints = p + 1) (hlt : ∀ i σ, At3 M i σ → ∀ k, σ k < p)
    (E : Empty3 x (At3 M) p) (hT : M.tetras.get t = some T) (hc : (geo3 eps x).contains T p = some true)
    (hs : M.split3d t p = some (M', news)) :
    Space x M' (p + 1) ∧ Cavity x (At3 M') p ∧ Outside3 x (At3 M') p ∧ Pending x (At3 M') p news := by
  obtain ⟨a, b, c, d, hp⟩ := h.points_four hT
  have hat : At3 M t ![a, b, c, d] := at3_of_perm h hT (by rw [hp])
  have hpT : p ∉ T.points := by
    rw [hp]
    have l0 := hlt t _ hat 0
    have l1 := hlt t _ hat 1
    have l2 := hlt t _ hat 2
    have l3 := hlt t _ hat 3
    simp at l0 l1 l2 l3 ⊢
    omega
  obtain ⟨p1, o1, p2, o2, p3, o3, p4, o4, M0, M1, hsl, hrun, _, hrep, hc', _, ⟨rm, inh, pairs, links, S⟩, hfc⟩ :=
    split3d_lemma h hT (by omega) hpT
  rw [hrun] at hs
  cases hs
  have hpts : T.points = [p1, p2, p3, p4] := by unfold Tetra.points; rw [hsl]; rfl
  rw [hpts] at hp
  simp only [List.cons.injEq, and_true] at hp
  obtain ⟨rfl, rfl, rfl, rfl⟩ := hp
  have hvol := G.pos t T hT p1 p2 p3 p4 hpts
  have hin : Inside3 (x ∘ ![p1, p2, p3, p4]) (x p) := (geo3_contains hpts hvol.ne').1.1 hc
  have hG' : ∀ k, 0 < vol (x ∘ Function.update ![p1, p2, p3, p4] k p) := by
    intro k
    rw [comp_upd, vol_update hvol.ne']
    exact mul_pos (hin k) hvol
  have A : Absorbed x (At3 M) (At3 M') t ![p1, p2, p3, p4] p (fun k => M.tetras.next + k.val) := by
    refine absorbed_of h G.solid hrep ?_ hat (fun k => (hin k).ne') (by simp) ?_ ?_ (fun k => k.val) ?_ ?_ ?_
    · intro o ho
      rw [List.mem_singleton.1 ho]
      exact h.tetras_ok.get_lt hT
    · intro k hk
      exact absurd hk (not_lt.2 (hin k).le)
    · intro j hj
      exact Or.inl (List.mem_singleton.1 hj)
    · intro k _
      fin_cases k
      · refine ⟨_, rfl, fun z => ?_⟩
        rw [show (⟨0, by omega⟩ : Fin 4) = 0 from rfl, update_vec0, mem_vec]
        simp [Tetra.points] <;> tauto
      · refine ⟨_, rfl, fun z => ?_⟩
        rw [show (⟨1, by omega⟩ : Fin 4) = 1 from rfl, update_vec1, mem_vec]
        simp [Tetra.points] <;> tauto
      · refine ⟨_, rfl, fun z => ?_⟩
        rw [show (⟨2, by omega⟩ : Fin 4) = 2 from rfl, update_vec2, mem_vec]
        simp [Tetra.points] <;> tauto
      · refine ⟨_, rfl, fun z => ?_⟩
        rw [show (⟨3, by omega⟩ : Fin 4) = 3 from rfl, update_vec3, mem_vec]
        simp [Tetra.points] <;> tauto
    · intro m T' hm
      have : m < 4 := by
        by_contra hge
        rw [List.getElem?_eq_none (by simp [splitNews3d]; omega)] at hm
        cases hm
      exact ⟨⟨m, this⟩, hin _, rfl⟩
    · intro k l _ _ hkl
      exact Fin.ext hkl
  have S' := G.solid.absorb A
  have O := Outside3.start G.solid A hin
  have hnp : ∀ i σ, At3 M i σ → ∀ k, σ k ≠ p := fun i σ hi k => (hlt i σ hi k).ne
  have C0 : Cavity x (At3 M) p := ⟨fun i σ hi _ w hw hne => E i σ hi w hw hne, fun i τ hi k hk => absurd hk (hnp i τ hi k)⟩
  have C := C0.absorb G.solid A (hlt t _ hat) (pw3_inside hvol.ne' hin)
  have P : Pending x (At3 M') p [M.tetras.next, M.tetras.next + 1, M.tetras.next + 2, M.tetras.next + 3] := by
    refine Pending.start O ?_
    intro j τ k hj hk
    rcases (A.iff j τ).1 hj with ⟨h1, _, _⟩ | ⟨l, _, rfl, _⟩
    · exact absurd hk (hnp j τ h1 k)
    · fin_cases l <;> simp
  have B0 := hG' 0
  have B1 := hG' 1
  have B2 := hG' 2
  have B3 := hG' 3
  rw [update_vec0] at B0
  rw [update_vec1] at B1
  rw [update_vec2] at B2
  rw [update_vec3] at B3
  simp only [vol_vec, Predicates.orient3_eq] at B0 B1 B2 B3
  refine ⟨⟨?_, ?_, ?_, S'⟩, C, O, P⟩
  · refine S.facing3 h hrep G.facing ?_
    have m1 : ((![p1, p2, p3, p4] : Fin 4 → ℕ) 0, o1) ∈ T.slots := by rw [hsl]; simp
    have m2 : ((![p1, p2, p3, p4] : Fin 4 → ℕ) 1, o2) ∈ T.slots := by rw [hsl]; simp
    have m3 : ((![p1, p2, p3, p4] : Fin 4 → ℕ) 2, o3) ∈ T.slots := by rw [hsl]; simp
    have m4 : ((![p1, p2, p3, p4] : Fin 4 → ℕ) 3, o4) ∈ T.slots := by rw [hsl]; simp
    have hface : ∀ k l, [[p, p1, p2], [p, p1, p3], [p, p1, p4], [p, p2, p3], [p, p2, p4], [p, p3, p4]][k]? = some l →
        ∀ a b c, M'.faces.get (M.faces.next + k) = some [a, b, c] → l = [a, b, c] := by
      intro k l hl a b c he
      rw [hfc, hl] at he
      exact Option.some.inj he
    intro T' hT' v s hs a b c hab
    simp only [splitNews3d, List.mem_cons, List.not_mem_nil, or_false] at hT'
    rcases hT' with rfl | rfl | rfl | rfl <;>
      simp only [List.mem_cons, Prod.mk.injEq, List.not_mem_nil, or_false] at hs <;>
      rcases hs with ⟨rfl, rfl⟩ | ⟨rfl, rfl⟩ | ⟨rfl, rfl⟩ | ⟨rfl, rfl⟩
    · cases hface 4 _ rfl a b c hab
      refine lt_of_lt_of_eq B0 ?_
      simp only [vol_vec, Predicates.orient3_eq, sd, newFace, if_true, Bool.false_eq_true, if_false] <;> ring1
    · cases hface 5 _ rfl a b c hab
      refine lt_of_lt_of_eq B0 ?_
      simp only [vol_vec, Predicates.orient3_eq, sd, newFace, if_true, Bool.false_eq_true, if_false] <;> ring1
    · cases hface 3 _ rfl a b c hab
      refine lt_of_lt_of_eq B0 ?_
      simp only [vol_vec, Predicates.orient3_eq, sd, newFace, if_true, Bool.false_eq_true, if_false] <;> ring1
    · exact S.inherit3 h G.facing hrep hT hat 0 m1 (hin 0) hab
    · cases hface 5 _ rfl a b c hab
      refine lt_of_lt_of_eq B1 ?_
      simp only [vol_vec, Predicates.orient3_eq, sd, newFace, if_true, Bool.false_eq_true, if_false] <;> ring1
    · cases hface 2 _ rfl a b c hab
      refine lt_of_lt_of_eq B1 ?_
      simp only [vol_vec, Predicates.orient3_eq, sd, newFace, if_true, Bool.false_eq_true, if_false] <;> ring1
    · cases hface 1 _ rfl a b c hab
      refine lt_of_lt_of_eq B1 ?_
      simp only [vol_vec, Predicates.orient3_eq, sd, newFace, if_true, Bool.false_eq_true, if_false] <;> ring1
    · exact S.inherit3 h G.facing hrep hT hat 1 m2 (hin 1) hab
    · cases hface 2 _ rfl a b c hab
      refine lt_of_lt_of_eq B2 ?_
      simp only [vol_vec, Predicates.orient3_eq, sd, newFace, if_true, Bool.false_eq_true, if_false] <;> ring1
    · cases hface 4 _ rfl a b c hab
      refine lt_of_lt_of_eq B2 ?_
      simp only [vol_vec, Predicates.orient3_eq, sd, newFace, if_true, Bool.false_eq_true, if_false] <;> ring1
    · cases hface 0 _ rfl a b c hab
      refine lt_of_lt_of_eq B2 ?_
      simp only [vol_vec, Predicates.orient3_eq, sd, newFace, if_true, Bool.false_eq_true, if_false] <;> ring1
    · exact S.inherit3 h G.facing hrep hT hat 2 m3 (hin 2) hab
    · cases hface 3 _ rfl a b c hab
      refine lt_of_lt_of_eq B3 ?_
      simp only [vol_vec, Predicates.orient3_eq, sd, newFace, if_true, Bool.false_eq_true, if_false] <;> ring1
    · cases hface 1 _ rfl a b c hab
      refine lt_of_lt_of_eq B3 ?_
      simp only [vol_vec, Predicates.orient3_eq, sd, newFace, if_true, Bool.false_eq_true, if_false] <;> ring1
    · cases hface 0 _ rfl a b c hab
      refine lt_of_lt_of_eq B3 ?_
      simp only [vol_vec, Predicates.orient3_eq, sd, newFace, if_true, Bool.false_eq_true, if_false] <;> ring1
    · exact S.inherit3 h G.facing hrep hT hat 3 m4 (hin 3) hab
  · refine hrep.pos3 G.pos ?_
    intro T' hT' a b c d hp'
    simp only [splitNews3d, List.mem_cons, List.not_mem_nil, or_false] at hT'
    rcases hT' with rfl | rfl | rfl | rfl <;>
      simp only [Tetra.points, List.map_cons, List.map_nil, List.cons.injEq, and_true] at hp' <;>
      obtain ⟨rfl, rfl, rfl, rfl⟩ := hp' <;>
      simp only [vol_vec, Predicates.orient3_eq] <;> first
      | exact lt_of_lt_of_eq B0 (by ring1)
      | exact lt_of_lt_of_eq B1 (by ring1)
      | exact lt_of_lt_of_eq B2 (by ring1)
      | exact lt_of_lt_of_eq B3 (by ring1)
  · exact S.hull3 h hc' hrep (G.hull.succ h G.facing hat (hlt t _ hat) hin.within)

/-- The outcome of a flip in three dimensions. -/
theorem flip3d_cases {intersect : List ℕ → ℕ → ℕ → Option IntersectionType} {M : Mesh} (h : Consistent 3 M)
    {t p u q : ℕ} {T : Tetra} {s : FaceInfo}
    (hT : M.tetras.get t = some T) (hs : (p, s) ∈ T.slots) (hso : s.opposing = some ⟨u, q⟩)
    {M' : Mesh} {news : List ℕ} (hrun : M.flip3d intersect t s.face = some (M', news)) :
    ∃ U r s1 s2 s3, M.tetras.get u = some U ∧ (q, r) ∈ U.slots ∧ r.face = s.face ∧
      M.faces.get s.face = some [s1, s2, s3] ∧
      ((intersect [s1, s2, s3] p q = some .inside ∧ M.twoToThree t u p q s.face = some (M', news)) ∨
      (∃ e f, intersect [s1, s2, s3] p q = some (.outsideTwoEdges e f)) ∨
      ∃ e o e1 e2 wo te1 te2 uo ue1 ue2, intersect [s1, s2, s3] p q = some (.outsideOneEdge e) ∧
        o = pointOppositeEdge s1 s2 s3 e ∧ (e1, e2) = pointsOfEdge s1 s2 s3 e ∧
        T.slots.Perm [(p, s), (o, wo), (e1, te1), (e2, te2)] ∧ U.slots.Perm [(q, r), (o, uo), (e1, ue1), (e2, ue2)] ∧
        ∃ c1 c2, wo.opposing = some c1 ∧ uo.opposing = some c2 ∧
        ((c2.tetra = c1.tetra ∧ M.threeToTwo t u c1.tetra q p o e1 e2 = some (M', news)) ∨
          (c2.tetra ≠ c1.tetra ∧ M' = M ∧ news = []))) := by
  obtain ⟨hut, U, r, hU, hr, hre⟩ := (h.neighbour t T hT p s hs u q).1 hso
  have hndT := h.points_nodup t T hT
  have hndU := h.points_nodup u U hU
  obtain ⟨pts, hpts, hptsn, _⟩ := h.face_points t T hT p s hs
  have hTpp := h.points_perm hT hs hpts
  have hUpp := h.points_perm hU hr (by rw [hre]; exact hpts)
  have hlp : pts.length = 3 := by
    have h1 := hTpp.length_eq
    have h2 : T.points.length = 4 := by simpa [Tetra.points] using h.size t T hT
    rw [List.length_cons] at h1
    omega
  obtain ⟨s1, s2, s3, rfl⟩ : ∃ s1 s2 s3, pts = [s1, s2, s3] := List.length_eq_three.1 hlp
  refine ⟨U, r, s1, s2, s3, hU, hr, hre, hpts, ?_⟩
  unfold Mesh.flip3d at hrun
  rw [hT] at hrun
  dsimp only [Option.bind_some, bind] at hrun
  rw [hpts] at hrun
  dsimp only [Option.bind_some, bind] at hrun
  rw [findFace_eq (h.facesNodup t T hT) hs] at hrun
  dsimp only [Option.bind_some, bind] at hrun
  rw [hso] at hrun
  dsimp only [Option.bind_some, bind] at hrun
  rw [hU] at hrun
  dsimp only [Option.bind_some, bind] at hrun
  rw [findPointOpposite_eq (h.facesNodup t T hT) hs] at hrun
  dsimp only [Option.bind_some, bind] at hrun
  rw [← hre, findPointOpposite_eq (h.facesNodup u U hU) hr] at hrun
  dsimp only [Option.bind_some, bind] at hrun
  cases hi : intersect [s1, s2, s3] p q with
  | none => rw [hi] at hrun; cases hrun
  | some ty =>
    rw [hi] at hrun
    dsimp only [Option.bind_some] at hrun
    cases ty with
    | outsideTwoEdges e f => exact Or.inr (Or.inl ⟨e, f, rfl⟩)
    | inside =>
      dsimp only at hrun
      rw [hre] at hrun
      exact Or.inl ⟨rfl, hrun⟩
    | outsideOneEdge e =>
      dsimp only at hrun
      refine Or.inr (Or.inr ?_)
      have hep := edge_perm s1 s2 s3 e
      generalize ho : pointOppositeEdge s1 s2 s3 e = o at hrun hep
      generalize hes : pointsOfEdge s1 s2 s3 e = es at hrun hep
      obtain ⟨e1, e2⟩ := es
      dsimp only at hrun hep
      obtain ⟨l, hl, hlm⟩ := slots_of_points hndT (hTpp.trans (hep.cons _))
      obtain ⟨b1, w1, b2, wo, b3, te1, b4, te2, rfl⟩ := slots_four (l := l) (by simpa using congrArg List.length hlm)
      simp at hlm
      obtain ⟨rfl, rfl, rfl, rfl⟩ := hlm
      obtain ⟨l', hl', hlm'⟩ := slots_of_points hndU (hUpp.trans (hep.cons _))
      obtain ⟨d1, w1', d2, uo, d3, ue1, d4, ue2, rfl⟩ :=
        slots_four (l := l') (by simpa using congrArg List.length hlm')
      simp at hlm'
      obtain ⟨rfl, rfl, rfl, rfl⟩ := hlm'
      have ms : (b1, w1) ∈ T.slots := hl.mem_iff.2 (by simp)
      have mr : (d1, w1') ∈ U.slots := hl'.mem_iff.2 (by simp)
      have es := slot_unique hndT hs ms
      have er := slot_unique hndU hr mr
      subst es er
      have sto : (d2, wo) ∈ T.slots := hl.mem_iff.2 (by simp)
      have suo : (d2, uo) ∈ U.slots := hl'.mem_iff.2 (by simp)
      rw [findFaceOpposite_eq hndT sto] at hrun
      dsimp only [Option.bind_some] at hrun
      cases h1 : wo.opposing with
      | none => rw [h1] at hrun; cases hrun
      | some c1 =>
        rw [h1] at hrun
        dsimp only [Option.bind_some] at hrun
        rw [findFaceOpposite_eq hndU suo] at hrun
        dsimp only [Option.bind_some] at hrun
        cases h2 : uo.opposing with
        | none => rw [h2] at hrun; cases hrun
        | some c2 =>
          rw [h2] at hrun
          dsimp only [Option.bind_some] at hrun
          refine ⟨e, _, _, _, wo, te1, te2, uo, ue1, ue2, rfl, ho.symm, hes.symm, hl, hl', c1, c2, h1, h2, ?_⟩
          by_cases hv : c2.tetra = c1.tetra
          · rw [if_pos hv] at hrun
            exact Or.inl ⟨hv, hrun⟩
          · rw [if_neg hv] at hrun
            cases hrun
            exact Or.inr ⟨hv, rfl, rfl⟩

/-- The situation of a flip: the tetrahedron `t` contains the new point `p`, its neighbour `u` opposite to `p` has
`p` in its circumsphere. -/
structure Front (x : ℕ → P3 K) (M : Mesh) (p t u q s1 s2 s3 : ℕ) : Prop where
  inner : At3 M t ![s1, s2, s3, p]
  outer : At3 M u ![s1, s2, s3, q]
  below : co (x ∘ ![s1, s2, s3, q]) 3 (x p) < 0
  conflict : pw3 (x ∘ ![s1, s2, s3, q]) (x p) < 0
  lt : ∀ k, (![s1, s2, s3, q] : Fin 4 → ℕ) k < p

/-- The power of the opposite point. -/
theorem pw3_sides {v : Fin 4 → P3 K} (h : vol v ≠ 0) {k : Fin 4} {q : P3 K} (hq : co v k q < 0) :
    (pw3 v q < 0 ↔ pw3 (Function.update v k q) (v k) < 0) ∧ (0 < pw3 v q ↔ 0 < pw3 (Function.update v k q) (v k)) := by
  rw [pw3_opposite h hq.ne]
  have hp : 0 < -co v k q := neg_pos.2 hq
  exact ⟨⟨fun hh => neg_of_mul_neg_right hh hp.le, fun hh => mul_neg_of_pos_of_neg hp hh⟩,
    ⟨fun hh => (mul_pos_iff_of_pos_left hp).1 hh, fun hh => mul_pos hp hh⟩⟩

set_option linter.unusedSimpArgs false in
set_option maxHeartbeats 2000000 in
theorem flip23_space {M M' : Mesh} {t p u q : ℕ} {T : Tetra} {s : FaceInfo} {news Q : List ℕ} (h : Consistent 3 M)
    (G : Space x M (p + 1)) (C : Cavity x (At3 M) p) (O : Outside3 x (At3 M) p) (P : Pending x (At3 M) p (t :: Q))
    (hT : M.tetras.get t = some T) (hs : (p, s) ∈ T.slots) (hso : s.opposing = some ⟨u, q⟩) (hqT : q ∉ T.points)
    {s1 s2 s3 : ℕ} (hfc : M.faces.get s.face = some [s1, s2, s3]) (F : Front x M p t u q s1 s2 s3)
    (hpos : ∀ k, k ≠ 3 → 0 < co (x ∘ ![s1, s2, s3, q]) k (x p))
    (hrun : M.twoToThree t u p q s.face = some (M', news)) :
    Space x M' (p + 1) ∧ Cavity x (At3 M') p ∧ Outside3 x (At3 M') p ∧ Pending x (At3 M') p (Q ++ news) := by
  obtain ⟨U, r, s1', s2', s3', x1, x2, x3, y1, y2, y3, M0, M1, hU, hre, hfc', hTp, hUp, hrun', _, hrep, hc', _,
    ⟨rm, inh, pairs, links, S⟩, hfn⟩ := twoToThree_lemma h hT hs hso hqT
  rw [hfc] at hfc'
  simp only [Option.some.injEq, List.cons.injEq, and_true] at hfc'
  obtain ⟨rfl, rfl, rfl⟩ := hfc'
  rw [hrun] at hrun'
  simp only [Option.some.injEq, Prod.mk.injEq] at hrun'
  obtain ⟨rfl, rfl⟩ := hrun'
  have hne := G.solid.nondeg F.outer
  have hδ := F.below
  have A : Absorbed x (At3 M) (At3 M') u ![s1, s2, s3, q] p (fun k => M.tetras.next + k.val) := by
    refine absorbed_of h G.solid hrep ?_ F.outer ?_ (by simp) ?_ ?_ (fun k => k.val) ?_ ?_ ?_
    · intro o ho
      simp only [List.mem_cons, List.not_mem_nil, or_false] at ho
      rcases ho with rfl | rfl
      · exact h.tetras_ok.get_lt hT
      · exact h.tetras_ok.get_lt hU
    · intro k
      by_cases hk : k = 3
      · rw [hk]
        exact hδ.ne
      · exact (hpos k hk).ne'
    · intro k hk
      have hk3 : k = 3 := by
        by_contra hc
        exact absurd (hpos k hc) (not_lt.2 hk.le)
      subst hk3
      exact ⟨t, by simp, by rw [update_vec3]; exact F.inner⟩
    · intro j hj
      simp only [List.mem_cons, List.not_mem_nil, or_false] at hj
      rcases hj with rfl | rfl
      · exact Or.inr ⟨3, hδ, by rw [update_vec3]; exact F.inner⟩
      · exact Or.inl rfl
    · intro k hk
      fin_cases k
      · refine ⟨_, rfl, fun z => ?_⟩
        rw [show (⟨0, by omega⟩ : Fin 4) = 0 from rfl, update_vec0, mem_vec,
          (points_of_slots (flipBase_perm _ _ _ _ _ _)).mem_iff]
        simp
        tauto
      · refine ⟨_, rfl, fun z => ?_⟩
        rw [show (⟨1, by omega⟩ : Fin 4) = 1 from rfl, update_vec1, mem_vec,
          (points_of_slots (flipBase_perm _ _ _ _ _ _)).mem_iff]
        simp
        tauto
      · refine ⟨_, rfl, fun z => ?_⟩
        rw [show (⟨2, by omega⟩ : Fin 4) = 2 from rfl, update_vec2, mem_vec,
          (points_of_slots (flipBase_perm _ _ _ _ _ _)).mem_iff]
        simp
        tauto
      · exact absurd hk (not_lt.2 hδ.le)
    · intro m T' hm
      have : m < 3 := by
        by_contra hge
        rw [List.getElem?_eq_none (by simp [news23]; omega)] at hm
        cases hm
      exact ⟨⟨m, by omega⟩, hpos _ (by rw [Ne, Fin.ext_iff]; simp; omega), rfl⟩
    · intro k l _ _ hkl
      exact Fin.ext hkl
  have S' := G.solid.absorb A
  have P' : Pending x (At3 M') p (Q ++ [M.tetras.next, M.tetras.next + 1, M.tetras.next + 2]) := by
    refine Pending.absorb G.solid A hδ (by rw [update_vec3]; exact F.inner) P ?_
    intro k hk
    fin_cases k
    · simp
    · simp
    · simp
    · exact absurd hk (not_lt.2 hδ.le)
  -- orientations
  have N := G.facing t T hT p s hs s1 s2 s3 hfc
  have N' : sd s.flipped (vol (x ∘ ![s1, s2, s3, q])) < 0 := by
    have h1 := vol_update hne 3 (x p)
    rw [← comp_upd, update_vec3] at h1
    rw [h1, sd_mul] at N
    by_contra hge
    exact absurd N (not_lt.2 (mul_nonpos_of_nonpos_of_nonneg hδ.le (not_lt.1 hge)))
  have hB : ∀ k, k ≠ 3 → sd s.flipped (vol (x ∘ Function.update ![s1, s2, s3, q] k p)) < 0 := by
    intro k hk
    rw [comp_upd, vol_update hne, sd_mul]
    exact mul_neg_of_pos_of_neg (hpos k hk) N'
  have B0 := hB 0 (by decide)
  have B1 := hB 1 (by decide)
  have B2 := hB 2 (by decide)
  rw [update_vec0] at B0
  rw [update_vec1] at B1
  rw [update_vec2] at B2
  -- the other vertex seen from the faces of `t`
  have hτ : ∀ k, k ≠ 3 → 0 < co (x ∘ ![s1, s2, s3, p]) k (x q) := by
    intro k hk
    have h1 := co_star hne hk hδ.ne
    rw [← comp_upd, update_vec3] at h1
    have h2 : (x ∘ ![s1, s2, s3, q]) 3 = x q := rfl
    rw [h2] at h1
    rw [h1]
    exact div_pos_of_neg_of_neg (neg_neg_of_pos (hpos k hk)) hδ
  simp only [vol_vec, Predicates.orient3_eq] at B0 B1 B2
  refine ⟨⟨?_, ?_, S.hull3 h hc' hrep G.hull, S'⟩, C.absorb G.solid A F.lt F.conflict, O.absorb A, P'⟩
  · refine S.facing3 h hrep G.facing ?_
    have m1 : ((![s1, s2, s3, p] : Fin 4 → ℕ) 0, x1) ∈ T.slots := hTp.mem_iff.2 (by simp)
    have m2 : ((![s1, s2, s3, p] : Fin 4 → ℕ) 1, x2) ∈ T.slots := hTp.mem_iff.2 (by simp)
    have m3 : ((![s1, s2, s3, p] : Fin 4 → ℕ) 2, x3) ∈ T.slots := hTp.mem_iff.2 (by simp)
    have k1 : ((![s1, s2, s3, q] : Fin 4 → ℕ) 0, y1) ∈ U.slots := hUp.mem_iff.2 (by simp)
    have k2 : ((![s1, s2, s3, q] : Fin 4 → ℕ) 1, y2) ∈ U.slots := hUp.mem_iff.2 (by simp)
    have k3 : ((![s1, s2, s3, q] : Fin 4 → ℕ) 2, y3) ∈ U.slots := hUp.mem_iff.2 (by simp)
    have hface : ∀ k l, [[p, q, s1], [p, q, s2], [p, q, s3]][k]? = some l →
        ∀ a b c, M'.faces.get (M.faces.next + k) = some [a, b, c] → l = [a, b, c] := by
      intro k l hl a b c he
      rw [hfn, hl] at he
      exact Option.some.inj he
    intro T' hT' v s' hs' a b c hab
    simp only [news23, List.mem_cons, List.not_mem_nil, or_false] at hT'
    rcases hT' with rfl | rfl | rfl <;> rw [flipBase_mem] at hs' <;>
      simp only [List.mem_cons, Prod.mk.injEq, List.not_mem_nil, or_false] at hs' <;>
      rcases hs' with ⟨rfl, rfl⟩ | ⟨rfl, rfl⟩ | ⟨rfl, rfl⟩ | ⟨rfl, rfl⟩
    · exact S.inherit3 h G.facing hrep hU F.outer 0 k1 (hpos 0 (by decide)) hab
    · exact S.inherit3 h G.facing hrep hT F.inner 0 m1 (hτ 0 (by decide)) hab
    · cases hface 2 _ rfl a b c hab
      rw [← neg_pos, ← sd_neg] at B0
      refine lt_of_lt_of_eq B0 ?_
      simp only [vol_vec, Predicates.orient3_eq, newFace]
      cases s.flipped <;> simp only [sd, if_true, Bool.false_eq_true, if_false, Bool.not_false, Bool.not_true] <;> ring1
    · cases hface 1 _ rfl a b c hab
      rw [← neg_pos, ← sd_neg] at B0
      refine lt_of_lt_of_eq B0 ?_
      simp only [vol_vec, Predicates.orient3_eq, newFace]
      cases s.flipped <;> simp only [sd, if_true, Bool.false_eq_true, if_false, Bool.not_false, Bool.not_true] <;> ring1
    · exact S.inherit3 h G.facing hrep hU F.outer 1 k2 (hpos 1 (by decide)) hab
    · exact S.inherit3 h G.facing hrep hT F.inner 1 m2 (hτ 1 (by decide)) hab
    · cases hface 0 _ rfl a b c hab
      rw [← neg_pos, ← sd_neg] at B1
      refine lt_of_lt_of_eq B1 ?_
      simp only [vol_vec, Predicates.orient3_eq, newFace]
      cases s.flipped <;> simp only [sd, if_true, Bool.false_eq_true, if_false, Bool.not_false, Bool.not_true] <;> ring1
    · cases hface 2 _ rfl a b c hab
      rw [← neg_pos, ← sd_neg] at B1
      refine lt_of_lt_of_eq B1 ?_
      simp only [vol_vec, Predicates.orient3_eq, newFace]
      cases s.flipped <;> simp only [sd, if_true, Bool.false_eq_true, if_false, Bool.not_false, Bool.not_true] <;> ring1
    · exact S.inherit3 h G.facing hrep hU F.outer 2 k3 (hpos 2 (by decide)) hab
    · exact S.inherit3 h G.facing hrep hT F.inner 2 m3 (hτ 2 (by decide)) hab
    · cases hface 1 _ rfl a b c hab
      rw [← neg_pos, ← sd_neg] at B2
      refine lt_of_lt_of_eq B2 ?_
      simp only [vol_vec, Predicates.orient3_eq, newFace]
      cases s.flipped <;> simp only [sd, if_true, Bool.false_eq_true, if_false, Bool.not_false, Bool.not_true] <;> ring1
    · cases hface 0 _ rfl a b c hab
      rw [← neg_pos, ← sd_neg] at B2
      refine lt_of_lt_of_eq B2 ?_
      simp only [vol_vec, Predicates.orient3_eq, newFace]
      cases s.flipped <;> simp only [sd, if_true, Bool.false_eq_true, if_false, Bool.not_false, Bool.not_true] <;> ring1
  · refine hrep.pos3 G.pos ?_
    intro T' hT' a b c d hp'
    simp only [news23, List.mem_cons, List.not_mem_nil, or_false] at hT'
    rw [← neg_pos, ← sd_neg] at B0 B1 B2
    cases hfl : s.flipped <;> rw [hfl] at hT' B0 B1 B2 <;>
      simp only [sd, if_true, Bool.false_eq_true, if_false] at B0 B1 B2 <;>
      rcases hT' with rfl | rfl | rfl <;>
      simp only [flipBase, if_true, Bool.false_eq_true, if_false, Tetra.points, List.map_cons, List.map_nil,
        List.cons.injEq, and_true] at hp' <;>
      obtain ⟨rfl, rfl, rfl, rfl⟩ := hp' <;>
      simp only [vol_vec, Predicates.orient3_eq] <;> first
      | exact lt_of_lt_of_eq B0 (by ring1)
      | exact lt_of_lt_of_eq B1 (by ring1)
      | exact lt_of_lt_of_eq B2 (by ring1)

set_option linter.unusedSimpArgs false in
set_option maxHeartbeats 2000000 in
theorem flip32_space {M M' : Mesh} {t p u q v o e1 e2 : ℕ} {T U V : Tetra} {s wo te1 te2 r uo ue1 ue2 v1 v2 ve1 ve2 : FaceInfo}
    {news Q : List ℕ} (h : Consistent 3 M)
    (G : Space x M (p + 1)) (C : Cavity x (At3 M) p) (O : Outside3 x (At3 M) p) (P : Pending x (At3 M) p (t :: Q))
    (hT : M.tetras.get t = some T) (hU : M.tetras.get u = some U) (hV : M.tetras.get v = some V)
    (hTp : T.slots.Perm [(p, s), (o, wo), (e1, te1), (e2, te2)])
    (hUp : U.slots.Perm [(q, r), (o, uo), (e1, ue1), (e2, ue2)])
    (hVp : V.slots.Perm [(q, v1), (p, v2), (e1, ve1), (e2, ve2)])
    (hf3 : s.face = r.face) (hf2 : wo.face = v1.face) (hf1 : uo.face = v2.face)
    (N : 0 < sd r.flipped (vol (x ∘ ![e1, e2, o, q])))
    (hδ : co (x ∘ ![e1, e2, o, q]) 3 (x p) < 0) (hγ : co (x ∘ ![e1, e2, o, q]) 2 (x p) < 0)
    (hα : 0 < co (x ∘ ![e1, e2, o, q]) 0 (x p)) (hβ : 0 < co (x ∘ ![e1, e2, o, q]) 1 (x p))
    (hcf : pw3 (x ∘ ![e1, e2, o, q]) (x p) < 0) (hlt : ∀ k, (![e1, e2, o, q] : Fin 4 → ℕ) k < p)
    (hrun : M.threeToTwo t u v q p o e1 e2 = some (M', news)) :
    Space x M' (p + 1) ∧ Cavity x (At3 M') p ∧ Outside3 x (At3 M') p ∧ Pending x (At3 M') p (Q ++ news) := by
  have hqp : q ≠ p := (hlt 3).ne
  obtain ⟨M0, M1, hrun', _, hrep, hc', _, ⟨rm, inh, pairs, links, S⟩, hfn⟩ :=
    threeToTwo_lemma h hT hU hV hTp hUp hVp hf3 hf2 hf1 hqp
  rw [hrun] at hrun'
  simp only [Option.some.injEq, Prod.mk.injEq] at hrun'
  obtain ⟨rfl, rfl⟩ := hrun'
  have aT : At3 M t ![e1, e2, o, p] := at3_of_perm h hT <| by
    refine (points_of_slots hTp).trans ?_
    exact ((List.Perm.swap _ _ _).trans ((List.Perm.swap _ _ _).cons _ |>.trans
      (((List.Perm.swap _ _ _).cons _).cons _))).trans
      ((List.Perm.swap _ _ _).trans ((List.Perm.swap _ _ _).cons _))
  have aU : At3 M u ![e1, e2, o, q] := at3_of_perm h hU <| by
    refine (points_of_slots hUp).trans ?_
    exact ((List.Perm.swap _ _ _).trans ((List.Perm.swap _ _ _).cons _ |>.trans
      (((List.Perm.swap _ _ _).cons _).cons _))).trans
      ((List.Perm.swap _ _ _).trans ((List.Perm.swap _ _ _).cons _))
  have aV : At3 M v ![e1, e2, p, q] := at3_of_perm h hV <| by
    refine (points_of_slots hVp).trans ?_
    exact ((List.Perm.swap _ _ _).trans ((List.Perm.swap _ _ _).cons _ |>.trans
      (((List.Perm.swap _ _ _).cons _).cons _))).trans
      ((List.Perm.swap _ _ _).trans ((List.Perm.swap _ _ _).cons _))
  have hne := G.solid.nondeg aU
  have A : Absorbed x (At3 M) (At3 M') u ![e1, e2, o, q] p (fun k => M.tetras.next + if k = 1 then 0 else 1) := by
    refine absorbed_of h G.solid hrep ?_ aU ?_ (by simp) ?_ ?_ (fun k => if k = 1 then 0 else 1) ?_ ?_ ?_
    · intro o' ho
      simp only [List.mem_cons, List.not_mem_nil, or_false] at ho
      rcases ho with rfl | rfl | rfl
      · exact h.tetras_ok.get_lt hT
      · exact h.tetras_ok.get_lt hU
      · exact h.tetras_ok.get_lt hV
    · rw [forall_fin_four]
      exact ⟨hα.ne', hβ.ne', hγ.ne, hδ.ne⟩
    · intro k hk
      fin_cases k
      · exact absurd hα (not_lt.2 (le_of_lt hk))
      · exact absurd hβ (not_lt.2 (le_of_lt hk))
      · exact ⟨v, by simp, by rw [show (⟨2, by omega⟩ : Fin 4) = 2 from rfl, update_vec2]; exact aV⟩
      · exact ⟨t, by simp, by rw [show (⟨3, by omega⟩ : Fin 4) = 3 from rfl, update_vec3]; exact aT⟩
    · intro j hj
      simp only [List.mem_cons, List.not_mem_nil, or_false] at hj
      rcases hj with rfl | rfl | rfl
      · exact Or.inr ⟨3, hδ, by rw [update_vec3]; exact aT⟩
      · exact Or.inl rfl
      · exact Or.inr ⟨2, hγ, by rw [update_vec2]; exact aV⟩
    · intro k hk
      fin_cases k
      · refine ⟨_, rfl, fun z => ?_⟩
        rw [show (⟨0, by omega⟩ : Fin 4) = 0 from rfl, update_vec0, mem_vec,
          (points_of_slots (base32_perm _ _ _ _ _ _ _ _ _)).mem_iff]
        simp
        tauto
      · refine ⟨_, rfl, fun z => ?_⟩
        rw [show (⟨1, by omega⟩ : Fin 4) = 1 from rfl, update_vec1, mem_vec,
          (points_of_slots (base32_perm _ _ _ _ _ _ _ _ _)).mem_iff]
        simp
        tauto
      · exact absurd hk (not_lt.2 hγ.le)
      · exact absurd hk (not_lt.2 hδ.le)
    · intro m T' hm
      match m, hm with
      | 0, _ => exact ⟨1, hβ, rfl⟩
      | 1, _ => exact ⟨0, hα, rfl⟩
      | m + 2, hm => simp [news32] at hm
    · intro k l hk hl hkl
      fin_cases k <;> fin_cases l <;> first
        | rfl
        | exact absurd hk (not_lt.2 hγ.le)
        | exact absurd hk (not_lt.2 hδ.le)
        | exact absurd hl (not_lt.2 hγ.le)
        | exact absurd hl (not_lt.2 hδ.le)
        | exact absurd hkl (by decide)
  have S' := G.solid.absorb A
  have P' : Pending x (At3 M') p (Q ++ [M.tetras.next, M.tetras.next + 1]) := by
    refine Pending.absorb G.solid A hδ (by rw [update_vec3]; exact aT) P ?_
    intro k hk
    fin_cases k
    · simp
    · simp
    · exact absurd hk (not_lt.2 hγ.le)
    · exact absurd hk (not_lt.2 hδ.le)
  -- orientations
  have B0 : 0 < sd r.flipped (vol (x ∘ Function.update ![e1, e2, o, q] 0 p)) := by
    rw [comp_upd, vol_update hne, sd_mul]
    exact mul_pos hα N
  have B1 : 0 < sd r.flipped (vol (x ∘ Function.update ![e1, e2, o, q] 1 p)) := by
    rw [comp_upd, vol_update hne, sd_mul]
    exact mul_pos hβ N
  rw [update_vec0] at B0
  rw [update_vec1] at B1
  have hpos : ∀ k, k ≠ 2 → k ≠ 3 → 0 < co (x ∘ ![e1, e2, o, q]) k (x p) := by
    rw [forall_fin_four]
    exact ⟨fun _ _ => hα, fun _ _ => hβ, fun h' => absurd rfl h', fun _ h' => absurd rfl h'⟩
  have hτ : ∀ k, k ≠ 2 → k ≠ 3 → 0 < co (x ∘ ![e1, e2, o, p]) k (x q) := by
    intro k hk2 hk
    have h1 := co_star hne hk hδ.ne
    rw [← comp_upd, update_vec3] at h1
    have h2 : (x ∘ ![e1, e2, o, q]) 3 = x q := rfl
    rw [h2] at h1
    rw [h1]
    exact div_pos_of_neg_of_neg (neg_neg_of_pos (hpos k hk2 hk)) hδ
  have hυ : ∀ k, k ≠ 2 → k ≠ 3 → 0 < co (x ∘ ![e1, e2, p, q]) k (x o) := by
    intro k hk hk3
    have h1 := co_star hne hk hγ.ne
    rw [← comp_upd, update_vec2] at h1
    have h2 : (x ∘ ![e1, e2, o, q]) 2 = x o := rfl
    rw [h2] at h1
    rw [h1]
    exact div_pos_of_neg_of_neg (neg_neg_of_pos (hpos k hk hk3)) hγ
  simp only [vol_vec, Predicates.orient3_eq] at B0 B1
  refine ⟨⟨?_, ?_, S.hull3 h hc' hrep G.hull, S'⟩, C.absorb G.solid A hlt hcf, O.absorb A, P'⟩
  · refine S.facing3 h hrep G.facing ?_
    have m1 : ((![e1, e2, o, p] : Fin 4 → ℕ) 0, te1) ∈ T.slots := hTp.mem_iff.2 (by simp)
    have m2 : ((![e1, e2, o, p] : Fin 4 → ℕ) 1, te2) ∈ T.slots := hTp.mem_iff.2 (by simp)
    have k1 : ((![e1, e2, o, q] : Fin 4 → ℕ) 0, ue1) ∈ U.slots := hUp.mem_iff.2 (by simp)
    have k2 : ((![e1, e2, o, q] : Fin 4 → ℕ) 1, ue2) ∈ U.slots := hUp.mem_iff.2 (by simp)
    have l1 : ((![e1, e2, p, q] : Fin 4 → ℕ) 0, ve1) ∈ V.slots := hVp.mem_iff.2 (by simp)
    have l2 : ((![e1, e2, p, q] : Fin 4 → ℕ) 1, ve2) ∈ V.slots := hVp.mem_iff.2 (by simp)
    have hface : ∀ a b c, M'.faces.get (M.faces.next + 0) = some [a, b, c] → [q, p, o] = [a, b, c] := by
      intro a b c he
      rw [hfn] at he
      exact Option.some.inj he
    intro T' hT' z s' hs' a b c hab
    simp only [news32, List.mem_cons, List.not_mem_nil, or_false] at hT'
    rcases hT' with rfl | rfl <;> rw [(base32_perm _ _ _ _ _ _ _ _ _).mem_iff] at hs' <;>
      simp only [List.mem_cons, Prod.mk.injEq, List.not_mem_nil, or_false] at hs' <;>
      rcases hs' with ⟨rfl, rfl⟩ | ⟨rfl, rfl⟩ | ⟨rfl, rfl⟩ | ⟨rfl, rfl⟩
    · exact S.inherit3 h G.facing hrep hT aT 1 m2 (hτ 1 (by decide) (by decide)) hab
    · exact S.inherit3 h G.facing hrep hU aU 1 k2 hβ hab
    · exact S.inherit3 h G.facing hrep hV aV 1 l2 (hυ 1 (by decide) (by decide)) hab
    · cases hface a b c hab
      refine lt_of_lt_of_eq B1 ?_
      simp only [vol_vec, Predicates.orient3_eq, newFace]
      cases r.flipped <;> simp only [sd, if_true, Bool.false_eq_true, if_false, Bool.not_false, Bool.not_true] <;> ring1
    · exact S.inherit3 h G.facing hrep hT aT 0 m1 (hτ 0 (by decide) (by decide)) hab
    · exact S.inherit3 h G.facing hrep hU aU 0 k1 hα hab
    · exact S.inherit3 h G.facing hrep hV aV 0 l1 (hυ 0 (by decide) (by decide)) hab
    · cases hface a b c hab
      refine lt_of_lt_of_eq B0 ?_
      simp only [vol_vec, Predicates.orient3_eq, newFace]
      cases r.flipped <;> simp only [sd, if_true, Bool.false_eq_true, if_false, Bool.not_false, Bool.not_true] <;> ring1
  · refine hrep.pos3 G.pos ?_
    intro T' hT' a b c d hp'
    simp only [news32, List.mem_cons, List.not_mem_nil, or_false] at hT'
    cases hfl : r.flipped <;> rw [hfl] at hT' B0 B1 <;>
      simp only [sd, if_true, Bool.false_eq_true, if_false] at B0 B1 <;>
      rcases hT' with rfl | rfl <;>
      simp only [base32, if_true, Bool.false_eq_true, if_false, Bool.not_false, Bool.not_true, Tetra.points,
        List.map_cons, List.map_nil, List.cons.injEq, and_true] at hp' <;>
      obtain ⟨rfl, rfl, rfl, rfl⟩ := hp' <;>
      simp only [vol_vec, Predicates.orient3_eq] <;> first
      | exact lt_of_lt_of_eq B0 (by ring1)
      | exact lt_of_lt_of_eq B1 (by ring1)

end Verif.Delaunay
