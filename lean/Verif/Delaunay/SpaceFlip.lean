import Verif.Delaunay.SpaceInsert

/-! # Flips in three dimensions keep the invariant of the insertion: lemmas -/

namespace Verif.Delaunay

open Verif.Predicates (P3 orient3 IntersectionType Edge opposite)

variable {K : Type} [Field K] [LinearOrder K] [IsStrictOrderedRing K] {x : ℕ → P3 K}

/-- The neighbour of a tetrahedron with the new point. -/
theorem front_at {eps : K} (heps : 0 < eps) {M : Mesh} {t p u q : ℕ} {T : Tetra} {s : FaceInfo} (h : Consistent 3 M)
    (G : Space x M (p + 1)) (hn : M.numPoints = p + 1) (hT : M.tetras.get t = some T) (hs : (p, s) ∈ T.slots)
    (hso : s.opposing = some ⟨u, q⟩) {s1 s2 s3 : ℕ} (hfc : M.faces.get s.face = some [s1, s2, s3]) :
    At3 M t ![s1, s2, s3, p] ∧ At3 M u ![s1, s2, s3, q] ∧ co (x ∘ ![s1, s2, s3, q]) 3 (x p) < 0 ∧
    (∀ k, (![s1, s2, s3, q] : Fin 4 → ℕ) k < p) ∧
    ((geo3 eps x).circ T q = some true ↔ pw3 (x ∘ ![s1, s2, s3, q]) (x p) < 0) ∧
    ((geo3 eps x).circ T q = some false ↔ 0 < pw3 (x ∘ ![s1, s2, s3, q]) (x p)) ∧
    ((geo3 eps x).circ T q = none ↔ pw3 (x ∘ ![s1, s2, s3, q]) (x p) = 0) := by
  obtain ⟨a', b', c', hfc', hat⟩ := face_at h hT hs
  rw [hfc] at hfc'
  simp only [Option.some.injEq, List.cons.injEq, and_true] at hfc'
  obtain ⟨rfl, rfl, rfl⟩ := hfc'
  obtain ⟨hu, hq, hut⟩ := neighbour3 h G.facing hT hat (k := 3) hs hso
  rw [update_vec3] at hu
  have hne := G.solid.nondeg hat
  have hneu := G.solid.nondeg hu
  have hb := co_back hne (k := 3) (q := x q)
  rw [← comp_upd, update_vec3] at hb
  have e3 : (x ∘ ![s1, s2, s3, p]) 3 = x p := rfl
  rw [e3] at hb
  have hbelow : co (x ∘ ![s1, s2, s3, q]) 3 (x p) < 0 := by
    rw [hb]
    exact one_div_neg.2 hq
  have hqn : ∀ k, x q ≠ (x ∘ ![s1, s2, s3, p]) k := by
    intro k hk
    rw [hk] at hq
    by_cases hk3 : k = 3
    · subst hk3
      rw [co_self hne] at hq
      linarith
    · rw [co_other _ hk3] at hq
      exact lt_irrefl _ hq
  obtain ⟨a, b, c, d, hp⟩ := h.points_four hT
  have hpos := G.pos t T hT a b c d hp
  obtain ⟨e, he⟩ := hat.same h (at3_of_perm h hT (by rw [hp]))
  have hcirc := geo3_circ (q := q) heps hp hpos (by
    intro k
    rw [he]
    exact hqn _)
  rw [he, ← Function.comp_assoc, pw3_perm] at hcirc
  obtain ⟨w1, w2⟩ := pw3_sides hne hq
  rw [← comp_upd, update_vec3, e3] at w1 w2
  have w3 : pw3 (x ∘ ![s1, s2, s3, p]) (x q) = 0 ↔ pw3 (x ∘ ![s1, s2, s3, q]) (x p) = 0 := by
    constructor
    · intro hz
      by_contra hc
      rcases lt_or_gt_of_ne hc with hc | hc
      · exact absurd (w1.2 hc) (by rw [hz]; exact lt_irrefl _)
      · exact absurd (w2.2 hc) (by rw [hz]; exact lt_irrefl _)
    · intro hz
      by_contra hc
      rcases lt_or_gt_of_ne hc with hc | hc
      · exact absurd (w1.1 hc) (by rw [hz]; exact lt_irrefl _)
      · exact absurd (w2.1 hc) (by rw [hz]; exact lt_irrefl _)
  refine ⟨hat, hu, hbelow, ?_, hcirc.1.trans w1, hcirc.2.1.trans w2, hcirc.2.2.trans w3⟩
  intro k
  obtain ⟨U, hU, _, hm⟩ := id hu
  have h1 := h.points_lt u U hU _ (hm k)
  have h2 : (![s1, s2, s3, q] : Fin 4 → ℕ) k ≠ p := by
    intro hc
    by_cases hk : k = 3
    · subst hk
      have hqp : q = p := hc
      rw [hqp] at hq
      exact hqn 3 (by rw [hqp]; rfl)
    · obtain ⟨_, _, hi, _⟩ := id hat
      have : (![s1, s2, s3, p] : Fin 4 → ℕ) k = (![s1, s2, s3, p] : Fin 4 → ℕ) 3 := by
        rw [← update_vec3 s1 s2 s3 q p, Function.update_of_ne hk, Function.update_self]
        exact hc
      exact hk (hi this)
  omega

/-- A tetrahedron of the queue which needs no flip. -/
theorem Pending.drop {M : Mesh} {p t : ℕ} {T : Tetra} {s : FaceInfo} {Q : List ℕ} (h : Consistent 3 M)
    (G : Space x M (p + 1)) (hlt : ∀ i σ, At3 M i σ → ∀ k, σ k < p + 1) (hT : M.tetras.get t = some T)
    (hs : (p, s) ∈ T.slots) (P : Pending x (At3 M) p (t :: Q))
    (hno : ∀ u q, s.opposing = some ⟨u, q⟩ → ∀ σ, At3 M u σ → pw3 (x ∘ σ) (x p) ≤ 0 →
      (∀ k, co (x ∘ σ) k (x p) < 0 → ∃ j, At3 M j (Function.update σ k p)) → False) : Pending x (At3 M) p Q := by
  intro i σ h1 h2 h3 h4
  obtain ⟨j, hj, k, hk, hjk⟩ := P i σ h1 h2 h3 h4
  rcases List.mem_cons.1 hj with rfl | hj
  · exfalso
    have hjs : (Function.update σ k p k, s) ∈ T.slots := by rw [Function.update_self]; exact hs
    have hne : j ≠ i := by
      rintro rfl
      obtain ⟨e, he⟩ := h1.same h hjk
      have := congrFun he k
      rw [Function.update_self] at this
      exact h2 _ this.symm
    refine hno i (σ k) (linked3 h G.facing G.hull G.solid hT hjk hjs (hlt i σ h1 k) ?_ hne) σ h1 h3 h4
    rw [Function.update_idem, Function.update_eq_self]
    exact h1
  · exact ⟨j, hj, k, hk, hjk⟩

/-- The premise of a pending tetrahedron does not depend on the order of its vertices. -/
theorem premise_perm {M : Mesh} {p : ℕ} {σ : Fin 4 → ℕ} (e : Equiv.Perm (Fin 4))
    (hall : ∀ k, co (x ∘ σ ∘ e) k (x p) < 0 → ∃ j, At3 M j (Function.update (σ ∘ e) k p)) :
    ∀ k, co (x ∘ σ) k (x p) < 0 → ∃ j, At3 M j (Function.update σ k p) := by
  intro k hk
  obtain ⟨j, hj⟩ := hall (e.symm k) (by
    rw [← Function.comp_assoc, co_perm, Equiv.apply_symm_apply]
    exact hk)
  refine ⟨j, ?_⟩
  have h1 := update_perm σ k (σ k) e (e.symm k) p (Equiv.apply_symm_apply _ _)
  rw [Function.update_eq_self] at h1
  rw [h1] at hj
  have h2 := hj.perm e.symm
  rw [Function.comp_assoc] at h2
  simpa using h2

/-- The cyclic permutation of the first three vertices. -/
def rot : Equiv.Perm (Fin 4) := ⟨![1, 2, 0, 3], ![2, 0, 1, 3], by decide, by decide⟩

/-- The vertices in the order in which the flip of three tetrahedra uses them. -/
theorem one_edge {s1 s2 s3 o e1 e2 : ℕ} {e : Edge} (ho : o = pointOppositeEdge s1 s2 s3 e)
    (he : (e1, e2) = pointsOfEdge s1 s2 s3 e) (q : ℕ) (y : P3 K) :
    vol (x ∘ ![e1, e2, o, q]) = vol (x ∘ ![s1, s2, s3, q]) ∧
    co (x ∘ ![e1, e2, o, q]) 3 y = co (x ∘ ![s1, s2, s3, q]) 3 y ∧
    co (x ∘ ![e1, e2, o, q]) 2 y = opposite (co (x ∘ ![s1, s2, s3, q]) 0 y) (co (x ∘ ![s1, s2, s3, q]) 1 y)
      (co (x ∘ ![s1, s2, s3, q]) 2 y) e ∧
    (∃ f, f ≠ e ∧ co (x ∘ ![e1, e2, o, q]) 0 y = opposite (co (x ∘ ![s1, s2, s3, q]) 0 y)
      (co (x ∘ ![s1, s2, s3, q]) 1 y) (co (x ∘ ![s1, s2, s3, q]) 2 y) f) ∧
    (∃ f, f ≠ e ∧ co (x ∘ ![e1, e2, o, q]) 1 y = opposite (co (x ∘ ![s1, s2, s3, q]) 0 y)
      (co (x ∘ ![s1, s2, s3, q]) 1 y) (co (x ∘ ![s1, s2, s3, q]) 2 y) f) ∧
    ∃ g : Equiv.Perm (Fin 4), (![e1, e2, o, q] : Fin 4 → ℕ) = ![s1, s2, s3, q] ∘ g := by
  cases e <;> simp only [pointOppositeEdge, pointsOfEdge, Prod.mk.injEq] at ho he <;> obtain ⟨rfl, rfl⟩ := he <;>
    subst ho
  · have e1 : x ∘ ![e1, e2, o, q] = (x ∘ ![o, e1, e2, q]) ∘ rot := by funext i; fin_cases i <;> rfl
    refine ⟨?_, ?_, ?_, ⟨.two, by decide, ?_⟩, ⟨.three, by decide, ?_⟩, rot, by funext i; fin_cases i <;> rfl⟩
    · rw [vol_vec, vol_vec, Predicates.orient3_eq, Predicates.orient3_eq]
      ring
    all_goals rw [e1, co_perm]; rfl
  · have e1 : x ∘ ![e1, e2, o, q] = (x ∘ ![e2, o, e1, q]) ∘ rot.symm := by funext i; fin_cases i <;> rfl
    refine ⟨?_, ?_, ?_, ⟨.three, by decide, ?_⟩, ⟨.one, by decide, ?_⟩, rot.symm, by funext i; fin_cases i <;> rfl⟩
    · rw [vol_vec, vol_vec, Predicates.orient3_eq, Predicates.orient3_eq]
      ring
    all_goals rw [e1, co_perm]; rfl
  · exact ⟨rfl, rfl, rfl, ⟨.one, by decide, rfl⟩, ⟨.two, by decide, rfl⟩, 1, rfl⟩

/-- A flip keeps the invariant. -/
theorem flip3d_space {eps : K} (heps : 0 < eps) {M M' : Mesh} {t p u q : ℕ} {T : Tetra} {s : FaceInfo} {news Q : List ℕ}
    (h : Consistent 3 M) (G : Space x M (p + 1)) (hn : M.numPoints = p + 1) (C : Cavity x (At3 M) p)
    (O : Outside3 x (At3 M) p) (P : Pending x (At3 M) p (t :: Q))
    (hT : M.tetras.get t = some T) (hs : (p, s) ∈ T.slots) (hso : s.opposing = some ⟨u, q⟩)
    (hci : (geo3 eps x).circ T q = some true) (hrun : M.flip3d (intersect3 x) t s.face = some (M', news)) :
    Space x M' (p + 1) ∧ Cavity x (At3 M') p ∧ Outside3 x (At3 M') p ∧ Pending x (At3 M') p (Q ++ news) := by
  have hqT := geo3_proper eps x T q hci
  have hlt : ∀ i σ, At3 M i σ → ∀ k, σ k < p + 1 := by
    rintro i σ ⟨T', hT', _, hm⟩ k
    rw [← hn]
    exact h.points_lt i T' hT' _ (hm k)
  obtain ⟨U, r, s1, s2, s3, hU, hr, hre, hfc, hcase⟩ := flip3d_cases h hT hs hso hrun
  obtain ⟨hin, hout, hbelow, hltp, hct, _, _⟩ := front_at heps h G hn hT hs hso hfc
  have hcf := hct.1 hci
  have hne := G.solid.nondeg hout
  obtain ⟨i1, i2, i3, _⟩ := intersect3_correct hne hbelow
  rcases hcase with ⟨hi, hrun⟩ | ⟨e, f, hi⟩ | ⟨e, o, e1, e2, wo, te1, te2, uo, ue1, ue2, hi, ho, he, hTp, hUp, c1, c2,
    hc1, hc2, hcase⟩
  · exact flip23_space h G C O P hT hs hso hqT hfc ⟨hin, hout, hbelow, hcf, hltp⟩ (i1.1 hi) hrun
  · exact absurd (i3 e f hi) (not_le.2 hcf)
  · obtain ⟨hγ, hpos⟩ := (i2 e).1 hi
    obtain ⟨v0, v3, v2, ⟨f0, hf0, w0⟩, ⟨f1, hf1, w1⟩, g, hg⟩ := one_edge (x := x) ho he q (x p)
    have hN := G.facing u U hU q r hr s1 s2 s3 (by rw [hre]; exact hfc)
    rw [← v0] at hN
    have hδ' := hbelow
    rw [← v3] at hδ'
    rw [← v2] at hγ
    have hα := hpos f0 hf0
    have hβ := hpos f1 hf1
    rw [← w0] at hα
    rw [← w1] at hβ
    have hcf' : pw3 (x ∘ ![e1, e2, o, q]) (x p) < 0 := by
      rw [hg, ← Function.comp_assoc, pw3_perm]
      exact hcf
    have hlt' : ∀ k, (![e1, e2, o, q] : Fin 4 → ℕ) k < p := by
      intro k
      rw [hg]
      exact hltp _
    obtain ⟨v, y1⟩ := c1
    obtain ⟨v', y2⟩ := c2
    dsimp only at hcase
    rcases hcase with ⟨rfl, hrun⟩ | ⟨hvne, rfl, rfl⟩
    · obtain ⟨V, v1, v2, ve1, ve2, hV, hVp, g1, g2⟩ := third_tetra h hT hU hTp hUp hqT hc1 hc2
      exact flip32_space h G C O P hT hU hV hTp hUp hVp hre.symm g1 g2 hN hδ' hγ hα hβ hcf' hlt' hrun
    · refine ⟨G, C, O, ?_⟩
      rw [List.append_nil]
      refine P.drop h G hlt hT hs ?_
      intro u' q' hso' σ hσ _ hall
      rw [hso] at hso'
      simp only [Option.some.injEq, Conn.mk.injEq] at hso'
      obtain ⟨rfl, rfl⟩ := hso'
      have aU : At3 M' u ![e1, e2, o, q] := by rw [hg]; exact hout.perm g
      obtain ⟨e', he'⟩ := aU.same h hσ
      rw [he'] at hall
      obtain ⟨j, hj⟩ := premise_perm e' hall 2 hγ
      rw [update_vec2] at hj
      have aT : At3 M' t ![e1, e2, o, p] := by
        have hin' : At3 M' t (Function.update (![s1, s2, s3, q] ∘ g) 3 p) := by
          have hg3 : g 3 = 3 := by
            have hc := congrFun hg 3
            obtain ⟨_, _, hinj, _⟩ := id hout
            have hc' : (![s1, s2, s3, q] : Fin 4 → ℕ) 3 = ![s1, s2, s3, q] (g 3) := hc
            exact (hinj hc').symm
          have h1 := update_perm ![s1, s2, s3, q] 3 q g 3 p hg3
          rw [update_vec3, update_vec3] at h1
          rw [h1]
          exact hin.perm g
        rwa [← hg, update_vec3] at hin'
      have mo : ((![e1, e2, o, p] : Fin 4 → ℕ) 2, wo) ∈ T.slots := hTp.mem_iff.2 (by simp)
      have mo' : ((![e1, e2, o, q] : Fin 4 → ℕ) 2, uo) ∈ U.slots := hUp.mem_iff.2 (by simp)
      have l1 : wo.opposing = some ⟨j, q⟩ := by
        refine linked3 h G.facing G.hull G.solid hT aT mo (Nat.lt_succ_of_lt (hltp 3)) ?_ ?_
        · rw [update_vec2]
          have := hj.perm (Equiv.swap 2 3)
          convert this using 1
          funext i
          fin_cases i <;> rfl
        · rintro rfl
          exact hqT ((hj.mem_iff h hT q).2 ⟨3, rfl⟩)
      have l2 : uo.opposing = some ⟨j, p⟩ := by
        refine linked3 h G.facing G.hull G.solid hU aU mo' (Nat.lt_succ_self p) ?_ ?_
        · rw [update_vec2]
          exact hj
        · rintro rfl
          obtain ⟨k, hk⟩ := (aU.mem_iff h hU p).1 ((hj.mem_iff h hU p).2 ⟨2, rfl⟩)
          exact absurd hk (hlt' k).ne
      rw [hc1] at l1
      rw [hc2] at l2
      simp only [Option.some.injEq, Conn.mk.injEq] at l1 l2
      exact hvne (l2.1.trans l1.1.symm)

/-- The new point is in the plane of three other ones. -/
def Coplanar (x : ℕ → P3 K) (p : ℕ) : Prop :=
  ∃ a b c, a < p ∧ b < p ∧ c < p ∧ a ≠ b ∧ a ≠ c ∧ b ≠ c ∧ vol (x ∘ ![a, b, c, p]) = 0

/-- The new point is on the sphere through four other ones. -/
def Cospherical (x : ℕ → P3 K) (p : ℕ) : Prop :=
  ∃ a b c d, a < p ∧ b < p ∧ c < p ∧ d < p ∧ vol (x ∘ ![a, b, c, d]) ≠ 0 ∧ pw3 (x ∘ ![a, b, c, d]) (x p) = 0

theorem coplanar_of_co {σ : Fin 4 → ℕ} {p : ℕ} (hne : vol (x ∘ σ) ≠ 0) (hlt : ∀ k, σ k < p) {k : Fin 4}
    (hk : co (x ∘ σ) k (x p) = 0) : Coplanar x p := by
  have hv : vol (x ∘ Function.update σ k p) = 0 := by rw [comp_upd, vol_update hne, hk, zero_mul]
  have hinj : Function.Injective σ := fun a b hab => vol_injective hne (congrArg x hab)
  have key : ∀ a b c : Fin 4, a ≠ b → a ≠ c → b ≠ c → a ≠ k → b ≠ k → c ≠ k → Coplanar x p := by
    intro a b c h1 h2 h3 h4 h5 h6
    refine ⟨σ a, σ b, σ c, hlt _, hlt _, hlt _, fun e => h1 (hinj e), fun e => h2 (hinj e), fun e => h3 (hinj e), ?_⟩
    by_contra hc
    have hi : Function.Injective ![a, b, c, k] := by
      intro i j hij
      fin_cases i <;> fin_cases j <;> first
        | rfl
        | exact absurd hij h1
        | exact absurd hij h2
        | exact absurd hij h3
        | exact absurd hij h4
        | exact absurd hij h5
        | exact absurd hij h6
        | exact absurd hij.symm h1
        | exact absurd hij.symm h2
        | exact absurd hij.symm h3
        | exact absurd hij.symm h4
        | exact absurd hij.symm h5
        | exact absurd hij.symm h6
    let e : Equiv.Perm (Fin 4) := Equiv.ofBijective _ (Finite.injective_iff_bijective.1 hi)
    have he : x ∘ ![σ a, σ b, σ c, p] = (x ∘ Function.update σ k p) ∘ e := by
      funext i
      have h0 : ∀ i, e i = ![a, b, c, k] i := fun i => rfl
      simp only [Function.comp_apply, h0]
      fin_cases i
      · simp [h4]
      · simp [h5]
      · simp [h6]
      · simp
    rw [he] at hc
    have := vol_perm_ne e.symm hc
    rw [Function.comp_assoc] at this
    simp at this
    exact this hv
  fin_cases k
  · exact key 1 2 3 (by decide) (by decide) (by decide) (by decide) (by decide) (by decide)
  · exact key 0 2 3 (by decide) (by decide) (by decide) (by decide) (by decide) (by decide)
  · exact key 0 1 3 (by decide) (by decide) (by decide) (by decide) (by decide) (by decide)
  · exact key 0 1 2 (by decide) (by decide) (by decide) (by decide) (by decide) (by decide)

/-- A flip fails only if the points are not in general position. -/
theorem flip3d_space_panics {eps : K} (heps : 0 < eps) {M : Mesh} {t p u q : ℕ} {T : Tetra} {s : FaceInfo}
    (h : Consistent 3 M) (G : Space x M (p + 1)) (hn : M.numPoints = p + 1)
    (hT : M.tetras.get t = some T) (hs : (p, s) ∈ T.slots) (hso : s.opposing = some ⟨u, q⟩)
    (hci : (geo3 eps x).circ T q = some true) (hrun : M.flip3d (intersect3 x) t s.face = none) : Coplanar x p := by
  have hqT := geo3_proper eps x T q hci
  obtain ⟨U, s1, s2, s3, hU, hfc, hcase⟩ := flip3d_panics h hT hs hso hqT hrun
  obtain ⟨hin, hout, hbelow, hltp, hct, _, _⟩ := front_at heps h G hn hT hs hso hfc
  have hne := G.solid.nondeg hout
  obtain ⟨_, i2, _, i4⟩ := intersect3_correct hne hbelow
  rcases hcase with hi | ⟨e, g, hi, hg, hcase⟩
  · obtain ⟨k, _, hk⟩ := i4.1 hi
    exact coplanar_of_co hne hltp hk
  · exfalso
    obtain ⟨hγ, _⟩ := (i2 e).1 hi
    obtain ⟨k, hk, hk3, hkγ⟩ : ∃ k : Fin 4, pointOppositeEdge s1 s2 s3 e = (![s1, s2, s3, q] : Fin 4 → ℕ) k ∧ k ≠ 3 ∧
        co (x ∘ ![s1, s2, s3, q]) k (x p) < 0 := by
      cases e
      · exact ⟨0, rfl, by decide, hγ⟩
      · exact ⟨1, rfl, by decide, hγ⟩
      · exact ⟨2, rfl, by decide, hγ⟩
    rw [hk] at hcase
    rcases hcase with hm | hm
    · have hk' : (![s1, s2, s3, q] : Fin 4 → ℕ) k = (![s1, s2, s3, p] : Fin 4 → ℕ) k := by
        rw [← update_vec3 s1 s2 s3 q p, Function.update_of_ne hk3]
      rw [hk'] at hm
      have h1 := hull3_co h G.facing G.hull hT hin hm hg (Nat.lt_succ_of_lt (hltp 3))
      have h2 := co_star hne hk3 hbelow.ne
      rw [← comp_upd, update_vec3] at h2
      have e3 : (x ∘ ![s1, s2, s3, q]) 3 = x q := rfl
      rw [e3] at h2
      have e4 : x ((![s1, s2, s3, q] : Fin 4 → ℕ) 3) = x q := rfl
      rw [e4, h2] at h1
      exact absurd h1 (not_le.2 (div_neg_of_pos_of_neg (neg_pos.2 hkγ) hbelow))
    · have h1 := hull3_co h G.facing G.hull hU hout hm hg (Nat.lt_succ_self p)
      exact absurd h1 (not_le.2 hkγ)

end Verif.Delaunay
