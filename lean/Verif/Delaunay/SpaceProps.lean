import Verif.Delaunay.SpaceLoop
import Verif.Delaunay.SpaceSpec
import Mathlib.Data.Fintype.BigOperators
import Mathlib.Data.Fintype.Pi
import Mathlib.Data.List.Sublists

/-! # The mesh of tetrahedra is the Delaunay mesh -/

namespace Verif.Delaunay

open Verif.Predicates (P3 orient3 distSq3 Bary3)

section
variable {K : Type} [Field K] [LinearOrder K] [IsStrictOrderedRing K] {x : ℕ → P3 K}

/-- The weights of a point are its coordinates. -/
private theorem bary_co {v : Fin 4 → P3 K} (h : vol v ≠ 0) {y : P3 K} {w1 w2 w3 w4 : K}
    (hb : Bary3 ⟨v 0, v 1, v 2, v 3⟩ y w1 w2 w3 w4) : co v 0 y = w1 ∧ co v 1 y = w2 ∧ co v 2 y = w3 ∧ co v 3 y = w4 := by
  obtain ⟨e0, e1, e2, e3⟩ := hb
  dsimp only at e1 e2 e3
  have key : ∀ k, co v k y = w1 * co v k (v 0) + w2 * co v k (v 1) + w3 * co v k (v 2) + w4 * co v k (v 3) := by
    intro k
    have hf := co_aff v k
    rw [hf y, hf (v 0), hf (v 1), hf (v 2), hf (v 3), e1, e2, e3]
    have : w1 = 1 - w2 - w3 - w4 := by linarith
    rw [this]
    ring
  refine ⟨?_, ?_, ?_, ?_⟩
  · rw [key, co_self h, co_other v (by decide), co_other v (by decide), co_other v (by decide)]; ring
  · rw [key, co_self h, co_other v (by decide), co_other v (by decide), co_other v (by decide)]; ring
  · rw [key, co_self h, co_other v (by decide), co_other v (by decide), co_other v (by decide)]; ring
  · rw [key, co_self h, co_other v (by decide), co_other v (by decide), co_other v (by decide)]; ring

private theorem inTetra_iff {a b c d : ℕ} {y : P3 K} (h : vol (x ∘ ![a, b, c, d]) ≠ 0) :
    InTetra ⟨x a, x b, x c, x d⟩ y ↔ Within3 (x ∘ ![a, b, c, d]) y := by
  constructor
  · rintro ⟨w1, w2, w3, w4, h1, h2, h3, h4, hb⟩
    obtain ⟨c1, c2, c3, c4⟩ := bary_co (v := x ∘ ![a, b, c, d]) h hb
    unfold Within3
    rw [forall_fin_four, c1, c2, c3, c4]
    exact ⟨h1, h2, h3, h4⟩
  · intro hw
    exact ⟨_, _, _, _, hw 0, hw 1, hw 2, hw 3, bary3_co h y⟩

private theorem interior_inside3 {a b c d : ℕ} {y : P3 K} (h : vol (x ∘ ![a, b, c, d]) ≠ 0)
    (hy : InteriorTetra ⟨x a, x b, x c, x d⟩ y) : Inside3 (x ∘ ![a, b, c, d]) y := by
  obtain ⟨w1, w2, w3, w4, h1, h2, h3, h4, hb⟩ := hy
  obtain ⟨c1, c2, c3, c4⟩ := bary_co (v := x ∘ ![a, b, c, d]) h hb
  unfold Inside3
  rw [forall_fin_four, c1, c2, c3, c4]
  exact ⟨h1, h2, h3, h4⟩

private theorem emptySphere_iff {n a b c d : ℕ} (h : vol (x ∘ ![a, b, c, d]) ≠ 0) : EmptySphere x n a b c d ↔
    ∀ w, w < n → (∀ k, w ≠ (![a, b, c, d] : Fin 4 → ℕ) k) → 0 < pw3 (x ∘ ![a, b, c, d]) (x w) := by
  constructor
  · rintro ⟨o, rho, e1, e2, e3, e4, hw⟩ w h1 hne
    rw [pw3_sphere h (o := o) (rho := rho) (forall_fin_four.2 ⟨e1, e2, e3, e4⟩)]
    exact sub_pos.2 (hw w h1 (hne 0) (hne 1) (hne 2) (hne 3))
  · intro hw
    obtain ⟨o, _, g1, g2, g3⟩ := Predicates.circumcentre_correct 1 one_pos (⟨x a, x b, x c, x d⟩ : Predicates.Tetra K) h
    dsimp only at g1 g2 g3
    refine ⟨o, _, rfl, g1.symm, g2.symm, g3.symm, fun w h1 n1 n2 n3 n4 => ?_⟩
    have := hw w h1 (forall_fin_four.2 ⟨n1, n2, n3, n4⟩)
    rw [pw3_sphere h (o := o) (rho := distSq3 (x a) o) (forall_fin_four.2 ⟨rfl, g1.symm, g2.symm, g3.symm⟩)] at this
    exact sub_pos.1 this

private theorem hasTetra_at {M : Mesh} (h : Consistent 3 M) {a b c d : ℕ} (ht : M.HasTetra a b c d) :
    ∃ i, At3 M i ![a, b, c, d] := by
  obtain ⟨i, T, hT, hp⟩ := ht
  exact ⟨i, at3_of_perm h hT hp⟩

private theorem at_hasTetra {M : Mesh} (h : Consistent 3 M) {a b c d i : ℕ} (ht : At3 M i ![a, b, c, d]) :
    M.HasTetra a b c d := by
  obtain ⟨T, hT, hinj, hm⟩ := id ht
  refine ⟨i, T, hT, (List.perm_ext_iff_of_nodup (h.points_nodup i T hT) ?_).2 fun z => ?_⟩
  · have h1 : (List.ofFn (![a, b, c, d] : Fin 4 → ℕ)).Nodup := List.nodup_ofFn.2 hinj
    simpa using h1
  · rw [ht.mem_iff h hT, mem_vec]
    simp

/-- **The result is a Delaunay mesh.**  After inserting `n` points into a positively oriented initial tetrahedron
(the points 0, 1, 2, 3), in any order of the heap used for the point location: all tetrahedra of the mesh are
positively oriented, and for each of them all other points lie outside of its circumsphere. -/
theorem delaunay3 {eps : K} (heps : 0 < eps) (ho : 0 < orient3 ⟨x 0, x 1, x 2, x 3⟩)
    {pop : Heaps} (hp : HeapsOk pop) {fuel n : ℕ} {s0 s : State} (h0 : start3 = some s0)
    (h : insertMany (geo3 eps x) (ops3 (intersect3 x)) pop fuel n s0 = .done s) :
    ∀ i T, s.mesh.tetras.get i = some T → ∃ a b c d, T.points = [a, b, c, d] ∧
      a < 4 + n ∧ b < 4 + n ∧ c < 4 + n ∧ d < 4 + n ∧
      0 < orient3 ⟨x a, x b, x c, x d⟩ ∧ EmptySphere x (4 + n) a b c d := by
  obtain ⟨P, hn⟩ := run_space heps ho hp h0 h
  intro i T hT
  obtain ⟨a, b, c, d, e, hat⟩ := At3.of_get P.ok.cons hT
  have hlt := P.lt hat
  have hE := P.empty i _ hat
  rw [hn] at hlt hE
  exact ⟨a, b, c, d, e, hlt 0, hlt 1, hlt 2, hlt 3, P.space.pos i T hT a b c d e,
    (emptySphere_iff (P.space.solid.nondeg hat)).2 hE⟩

/-- **The tetrahedra fill the initial tetrahedron.**  Different tetrahedra have disjoint interiors, and a point lies
in one of them exactly if it lies in the initial tetrahedron. -/
theorem delaunay3_tiling {eps : K} (heps : 0 < eps) (ho : 0 < orient3 ⟨x 0, x 1, x 2, x 3⟩)
    {pop : Heaps} (hp : HeapsOk pop) {fuel n : ℕ} {s0 s : State} (h0 : start3 = some s0)
    (h : insertMany (geo3 eps x) (ops3 (intersect3 x)) pop fuel n s0 = .done s) :
    (∀ i j T U a b c d u v w z, s.mesh.tetras.get i = some T → s.mesh.tetras.get j = some U → i ≠ j →
      T.points = [a, b, c, d] → U.points = [u, v, w, z] → ∀ y, InteriorTetra ⟨x a, x b, x c, x d⟩ y →
      ¬InTetra ⟨x u, x v, x w, x z⟩ y) ∧
    ∀ y, InTetra ⟨x 0, x 1, x 2, x 3⟩ y ↔
      ∃ a b c d, s.mesh.HasTetra a b c d ∧ InTetra ⟨x a, x b, x c, x d⟩ y := by
  obtain ⟨P, hn⟩ := run_space heps ho hp h0 h
  have S := P.space.solid
  have hc := P.ok.cons
  constructor
  · intro i j T U a b c d u v w z hT hU hne e1 e2 y hy hy'
    have h1 : At3 s.mesh i ![a, b, c, d] := at3_of_perm hc hT (by rw [e1])
    have h2 : At3 s.mesh j ![u, v, w, z] := at3_of_perm hc hU (by rw [e2])
    exact hne (S.same_of_inside h1 h2 (interior_inside3 (S.nondeg h1) hy) ((inTetra_iff (S.nondeg h2)).1 hy'))
  · intro y
    have ho' : vol (x ∘ ![0, 1, 2, 3]) ≠ 0 := ho.ne'
    rw [inTetra_iff ho']
    constructor
    · intro hy
      obtain ⟨i, _, σ, hat, hw⟩ := P.find hy Set.univ
        (by obtain ⟨i, σ, h⟩ := P.nonempty; exact ⟨i, trivial, σ, h⟩) (fun _ _ _ _ _ _ _ _ _ => trivial)
      have hσ : σ = ![σ 0, σ 1, σ 2, σ 3] := by funext i; fin_cases i <;> rfl
      rw [hσ] at hat hw
      exact ⟨_, _, _, _, at_hasTetra hc hat, (inTetra_iff (S.nondeg hat)).2 hw⟩
    · rintro ⟨a, b, c, d, ht, hw⟩
      obtain ⟨i, hat⟩ := hasTetra_at hc ht
      exact P.within (fun k => P.lt hat k) (S.nondeg hat) ((inTetra_iff (S.nondeg hat)).1 hw)

/-- Two tetrahedra with empty circumspheres which overlap have the same vertices. -/
private theorem same_of_overlap3 {v w : Fin 4 → P3 K} {y : P3 K} (h1 : vol v ≠ 0) (h2 : vol w ≠ 0)
    (hy : Inside3 v y) (hy' : Within3 w y) (hv : ∀ i, 0 ≤ pw3 w (v i)) (hw : ∀ i, 0 ≤ pw3 v (w i)) (i : Fin 4) :
    pw3 w (v i) = 0 := by
  have hf := pw3_diff_aff w v
  have n2 := hf.nonneg h2 hy' fun i => by rw [pw3_vertex h2, sub_zero]; exact hw i
  have h3 := hf.bary h1 y
  have hz : ∀ i, co v i y * (pw3 v (v i) - pw3 w (v i)) ≤ 0 := fun i => by
    rw [pw3_vertex h1, zero_sub]
    exact mul_nonpos_of_nonneg_of_nonpos (hy i).le (neg_nonpos.2 (hv i))
  have hsum : ∑ i, co v i y * (pw3 v (v i) - pw3 w (v i)) = 0 :=
    le_antisymm (Finset.sum_nonpos fun i _ => hz i) (by rw [← h3]; exact n2)
  have := (Finset.sum_eq_zero_iff_of_nonpos fun i _ => hz i).1 hsum i (Finset.mem_univ i)
  have h4 := (mul_eq_zero.1 this).resolve_left (hy i).ne'
  rw [pw3_vertex h1] at h4
  linarith

/-- A tetrahedron of points of the mesh with an empty circumsphere belongs to the mesh. -/
theorem SpaceOk.tetra_of_empty {s : State} (P : SpaceOk x s) {σ : Fin 4 → ℕ} (hlt : ∀ k, σ k < s.mesh.numPoints)
    (hne : vol (x ∘ σ) ≠ 0) (hE : ∀ w, w < s.mesh.numPoints → (∀ k, w ≠ σ k) → 0 < pw3 (x ∘ σ) (x w)) :
    ∃ i, At3 s.mesh i σ := by
  have S := P.space.solid
  obtain ⟨y, hy⟩ := inside3_nonempty hne
  obtain ⟨i, _, τ, hat, hw⟩ := P.find (P.within hlt hne hy.within) Set.univ
    (by obtain ⟨i, σ, h⟩ := P.nonempty; exact ⟨i, trivial, σ, h⟩) (fun _ _ _ _ _ _ _ _ _ => trivial)
  have nonneg : ∀ (τ : Fin 4 → ℕ), vol (x ∘ τ) ≠ 0 →
      (∀ w, w < s.mesh.numPoints → (∀ k, w ≠ τ k) → 0 < pw3 (x ∘ τ) (x w)) →
      ∀ z, z < s.mesh.numPoints → 0 ≤ pw3 (x ∘ τ) (x z) := by
    intro τ hτ hpos z hz
    by_cases hk : ∃ k, z = τ k
    · obtain ⟨k, rfl⟩ := hk
      exact (pw3_vertex hτ k).ge
    · push Not at hk
      exact (hpos z hz hk).le
  have hzero := same_of_overlap3 hne (S.nondeg hat) hy hw
    (fun k => nonneg τ (S.nondeg hat) (P.empty i τ hat) _ (hlt k)) (fun k => nonneg _ hne hE _ (P.lt hat k))
  have hmem : ∀ k, ∃ l, τ l = σ k := by
    intro k
    by_contra hno
    push Not at hno
    exact absurd (P.empty i τ hat _ (hlt k) fun l => (hno l).symm) (by
      rw [show x (σ k) = (x ∘ σ) k from rfl, hzero k]
      exact lt_irrefl _)
  obtain ⟨e, he⟩ := perm_of_range (S.injective hat) (fun i j hij => vol_injective hne (congrArg x hij)) hmem
  have := hat.perm e
  rw [← he] at this
  exact ⟨i, this⟩

/-- **There is exactly one Delaunay mesh, and the result is this one.**  A tetrahedron of the inserted points which is
not flat belongs to the mesh exactly if all other points lie outside of its circumsphere. -/
theorem delaunay3_iff {eps : K} (heps : 0 < eps) (ho : 0 < orient3 ⟨x 0, x 1, x 2, x 3⟩)
    {pop : Heaps} (hp : HeapsOk pop) {fuel n : ℕ} {s0 s : State} (h0 : start3 = some s0)
    (h : insertMany (geo3 eps x) (ops3 (intersect3 x)) pop fuel n s0 = .done s)
    {a b c d : ℕ} (ha : a < 4 + n) (hb : b < 4 + n) (hc : c < 4 + n) (hd : d < 4 + n)
    (hne : orient3 ⟨x a, x b, x c, x d⟩ ≠ 0) :
    s.mesh.HasTetra a b c d ↔ EmptySphere x (4 + n) a b c d := by
  obtain ⟨P, hn⟩ := run_space heps ho hp h0 h
  have S := P.space.solid
  have hcon := P.ok.cons
  have hne' : vol (x ∘ ![a, b, c, d]) ≠ 0 := hne
  rw [emptySphere_iff hne']
  constructor
  · intro ht
    obtain ⟨i, hat⟩ := hasTetra_at hcon ht
    have hE := P.empty i _ hat
    rwa [hn] at hE
  · intro hE
    rw [← hn] at ha hb hc hd hE
    obtain ⟨i, hat⟩ := P.tetra_of_empty (forall_fin_four.2 ⟨ha, hb, hc, hd⟩) hne' hE
    exact at_hasTetra hcon hat

/-- The tetrahedra of the mesh are not flat. -/
theorem hasTetra_nonflat {eps : K} (heps : 0 < eps) (ho : 0 < orient3 ⟨x 0, x 1, x 2, x 3⟩)
    {pop : Heaps} (hp : HeapsOk pop) {fuel n : ℕ} {s0 s : State} (h0 : start3 = some s0)
    (h : insertMany (geo3 eps x) (ops3 (intersect3 x)) pop fuel n s0 = .done s)
    {a b c d : ℕ} (ht : s.mesh.HasTetra a b c d) : orient3 ⟨x a, x b, x c, x d⟩ ≠ 0 := by
  obtain ⟨P, _⟩ := run_space heps ho hp h0 h
  obtain ⟨i, hat⟩ := hasTetra_at P.ok.cons ht
  have hv : vol (x ∘ ![a, b, c, d]) ≠ 0 := P.space.solid.nondeg hat
  exact hv

/-- **The order of the insertions does not matter.**  If the same points are inserted in two different orders
(`σ` is the change of the order) and both runs are completed, the tetrahedra are the same. -/
theorem delaunay3_order {eps : K} (heps : 0 < eps) (ho : 0 < orient3 ⟨x 0, x 1, x 2, x 3⟩) {x' : ℕ → P3 K}
    (ho' : 0 < orient3 ⟨x' 0, x' 1, x' 2, x' 3⟩)
    {pop pop' : Heaps} (hp : HeapsOk pop) (hp' : HeapsOk pop')
    {fuel fuel' n : ℕ} {s0 s s' : State} (h0 : start3 = some s0)
    (h : insertMany (geo3 eps x) (ops3 (intersect3 x)) pop fuel n s0 = .done s)
    (h' : insertMany (geo3 eps x') (ops3 (intersect3 x')) pop' fuel' n s0 = .done s')
    (σ : Equiv.Perm ℕ) (hσ : ∀ i, i < 4 + n ↔ σ i < 4 + n) (hx : ∀ i, i < 4 + n → x' i = x (σ i))
    {a b c d : ℕ} (ha : a < 4 + n) (hb : b < 4 + n) (hc : c < 4 + n) (hd : d < 4 + n) :
    s'.mesh.HasTetra a b c d ↔ s.mesh.HasTetra (σ a) (σ b) (σ c) (σ d) := by
  have hsph : EmptySphere x' (4 + n) a b c d ↔ EmptySphere x (4 + n) (σ a) (σ b) (σ c) (σ d) := by
    unfold EmptySphere
    rw [hx a ha, hx b hb, hx c hc, hx d hd]
    constructor
    · rintro ⟨o, rho, e1, e2, e3, e4, e5⟩
      refine ⟨o, rho, e1, e2, e3, e4, fun w hw n1 n2 n3 n4 => ?_⟩
      have hw' : σ.symm w < 4 + n := by rw [hσ, Equiv.apply_symm_apply]; exact hw
      have := e5 (σ.symm w) hw' (fun e => n1 (by rw [← e, Equiv.apply_symm_apply]))
        (fun e => n2 (by rw [← e, Equiv.apply_symm_apply])) (fun e => n3 (by rw [← e, Equiv.apply_symm_apply]))
        (fun e => n4 (by rw [← e, Equiv.apply_symm_apply]))
      rwa [hx _ hw', Equiv.apply_symm_apply] at this
    · rintro ⟨o, rho, e1, e2, e3, e4, e5⟩
      refine ⟨o, rho, e1, e2, e3, e4, fun w hw n1 n2 n3 n4 => ?_⟩
      rw [hx w hw]
      exact e5 (σ w) ((hσ w).1 hw) (fun e => n1 (σ.injective e)) (fun e => n2 (σ.injective e))
        (fun e => n3 (σ.injective e)) (fun e => n4 (σ.injective e))
  constructor
  · intro ht
    have h1 := hasTetra_nonflat heps ho' hp' h0 h' ht
    have h2 := (delaunay3_iff heps ho' hp' h0 h' ha hb hc hd h1).1 ht
    rw [hx a ha, hx b hb, hx c hc, hx d hd] at h1
    exact (delaunay3_iff heps ho hp h0 h ((hσ a).1 ha) ((hσ b).1 hb) ((hσ c).1 hc) ((hσ d).1 hd) h1).2 (hsph.1 h2)
  · intro ht
    have h1 := hasTetra_nonflat heps ho hp h0 h ht
    have h2 := (delaunay3_iff heps ho hp h0 h ((hσ a).1 ha) ((hσ b).1 hb) ((hσ c).1 hc) ((hσ d).1 hd) h1).1 ht
    rw [← hx a ha, ← hx b hb, ← hx c hc, ← hx d hd] at h1
    exact (delaunay3_iff heps ho' hp' h0 h' ha hb hc hd h1).2 (hsph.2 h2)

/-- **The mesh is connected.**  Every tetrahedron can be reached from every other one through neighbour links, so
that the point location finds a tetrahedron whenever there is one. -/
theorem delaunay3_connected {eps : K} (heps : 0 < eps) (ho : 0 < orient3 ⟨x 0, x 1, x 2, x 3⟩)
    {pop : Heaps} (hp : HeapsOk pop) {fuel n : ℕ} {s0 s : State} (h0 : start3 = some s0)
    (h : insertMany (geo3 eps x) (ops3 (intersect3 x)) pop fuel n s0 = .done s)
    {i j : ℕ} {T U : Tetra} (hi : s.mesh.tetras.get i = some T) (hj : s.mesh.tetras.get j = some U) :
    s.mesh.Reach i j := (run_space heps ho hp h0 h).1.reach hi hj

private theorem insertMany_snoc {g : Geo} {ops : Ops} {pop : Heaps} {fuel : ℕ} :
    ∀ (n : ℕ) (s : State), insertMany g ops pop fuel (n + 1) s =
      match insertMany g ops pop fuel n s with
      | .panic => .panic
      | .running => .running
      | .done s' =>
        match insertPoint g ops pop fuel s' with
        | .panic => .panic
        | .running => .running
        | .done (s'', _) => .done s''
  | 0, s => by
    unfold insertMany
    dsimp only
    cases insertPoint g ops pop fuel s with
    | done r => rfl
    | panic => rfl
    | running => rfl
  | n + 1, s => by
    rw [insertMany]
    conv_rhs => rw [insertMany]
    cases insertPoint g ops pop fuel s with
    | done r => exact insertMany_snoc n r.1
    | panic => rfl
    | running => rfl

/-- Different tetrahedra have different vertices, which bounds their number. -/
private theorem SpaceOk.len_le {s : State} (P : SpaceOk x s) : s.mesh.tetras.len ≤ s.mesh.numPoints ^ 4 := by
  classical
  have hok := P.ok.cons.tetras_ok
  have hex : ∀ i ∈ (s.mesh.tetras.entries.map Prod.fst).toFinset, ∃ σ, At3 s.mesh i σ := by
    intro i hi
    rw [List.mem_toFinset, List.mem_map] at hi
    obtain ⟨⟨i', T⟩, hmem, rfl⟩ := hi
    obtain ⟨_, _, _, _, _, h⟩ := At3.of_get P.ok.cons ((hok.mem_iff i' T).1 hmem)
    exact ⟨_, h⟩
  choose! f hf using hex
  have hcard := Finset.card_le_card_of_injOn (t := Fintype.piFinset fun _ : Fin 4 => Finset.range s.mesh.numPoints) f
    (by
      intro i hi
      rw [Finset.mem_coe, Fintype.mem_piFinset]
      intro k
      exact Finset.mem_range.2 (P.lt (hf i (Finset.mem_coe.1 hi)) k))
    (by
      intro i hi j hj hij
      have h1 := hf i (Finset.mem_coe.1 hi)
      have h2 := hf j (Finset.mem_coe.1 hj)
      rw [hij] at h1
      exact P.space.solid.unique' h1 h2)
  rw [List.toFinset_card_of_nodup hok.nodup, List.length_map, Fintype.card_piFinset] at hcard
  simpa [Arena.len] using hcard

theorem GeneralPosition3.mono {m n : ℕ} (hg : GeneralPosition3 x n) (h : m ≤ n) : GeneralPosition3 x m :=
  ⟨fun i j k l hi hj hk hl => hg.plane i j k l (by omega) (by omega) (by omega) (by omega),
    fun i j k l m hi hj hk hl hm => hg.sphere i j k l m (by omega) (by omega) (by omega) (by omega) (by omega)⟩

/-- The reasons for a panic are excluded in general position. -/
theorem no_panic_general {n : ℕ} (ho : vol (x ∘ ![0, 1, 2, 3]) ≠ 0) (hn : 4 ≤ n) (hg : GeneralPosition3 x (n + 1))
    (hin : InTetra ⟨x 0, x 1, x 2, x 3⟩ (x n)) :
    ¬(Coplanar x n ∨ ¬Within3 (x ∘ ![0, 1, 2, 3]) (x n) ∨ Cospherical x n) := by
  rintro (⟨a, b, c, l1, l2, l3, n1, n2, n3, hz⟩ | hz | ⟨a, b, c, d, l1, l2, l3, l4, hne, hz⟩)
  · refine absurd hz (hg.plane a b c n (by omega) (by omega) (by omega) (by omega) ?_)
    simp
    omega
  · exact absurd ((inTetra_iff ho).1 hin) hz
  · exfalso
    obtain ⟨o, _, g1, g2, g3⟩ :=
      Predicates.circumcentre_correct 1 one_pos (⟨x a, x b, x c, x d⟩ : Predicates.Tetra K) hne
    dsimp only at g1 g2 g3
    rw [pw3_sphere hne (o := o) (rho := distSq3 (x a) o) (forall_fin_four.2 ⟨rfl, g1.symm, g2.symm, g3.symm⟩)] at hz
    have hinj : Function.Injective (![a, b, c, d] : Fin 4 → ℕ) := fun i j hij => vol_injective hne (congrArg x hij)
    have hnd : [a, b, c, d].Nodup := by
      have := List.nodup_ofFn.2 hinj
      simpa using this
    refine hg.sphere a b c d n (by omega) (by omega) (by omega) (by omega) (by omega) ?_ o
      ⟨g1, g2, g3, (sub_eq_zero.1 hz).symm⟩
    simp at hnd ⊢
    omega

/-- **The construction succeeds.**  If the points lie in the initial tetrahedron, no four of them (and of the vertices
of the initial tetrahedron) are in a plane and no five on a sphere, all insertions are completed: no test is
degenerate, every point is found, every flip finds the neighbours it needs, and the loops end. -/
theorem delaunay3_complete {eps : K} (heps : 0 < eps) (ho : 0 < orient3 ⟨x 0, x 1, x 2, x 3⟩)
    {pop : Heaps} (hp : HeapsOk pop) {fuel n : ℕ} (hg : GeneralPosition3 x (4 + n))
    (hin : ∀ i, i < 4 + n → InTetra ⟨x 0, x 1, x 2, x 3⟩ (x i)) (hf : 5 * (4 + n) ^ 4 + 1 ≤ fuel) {s0 : State}
    (h0 : start3 = some s0) :
    ∃ s, insertMany (geo3 eps x) (ops3 (intersect3 x)) pop fuel n s0 = .done s := by
  have ho' : vol (x ∘ ![0, 1, 2, 3]) ≠ 0 := ho.ne'
  have key : ∀ k, k ≤ n → ∃ s, insertMany (geo3 eps x) (ops3 (intersect3 x)) pop fuel k s0 = .done s := by
    intro k
    induction k with
    | zero => exact fun _ => ⟨s0, rfl⟩
    | succ k ih =>
      intro hk
      obtain ⟨s, hs⟩ := ih (by omega)
      obtain ⟨P, hn⟩ := run_space heps ho hp h0 hs
      have h1 := insertPoint_space heps P hp fuel
      have hlen := P.len_le
      have hpow : s.mesh.numPoints ^ 4 ≤ (4 + n) ^ 4 := Nat.pow_le_pow_left (by omega) 4
      have h2 := insert3_terminates (geo3_proper eps x) hp h0 hs (fuel' := fuel) (by omega)
      rw [insertMany_snoc, hs]
      dsimp only
      revert h1 h2
      cases insertPoint (geo3 eps x) (ops3 (intersect3 x)) pop fuel s with
      | done r => exact fun _ _ => ⟨r.1, rfl⟩
      | running => exact fun _ h => absurd rfl h
      | panic =>
        exact fun h _ => absurd h (no_panic_general ho' (by omega) (hg.mono (by omega)) (hin _ (by omega)))
  exact key n le_rfl

end

/-! ### The hypotheses hold for concrete points -/

section
variable {K : Type} [Field K] [LinearOrder K] [IsStrictOrderedRing K] {x : ℕ → P3 K}

omit [IsStrictOrderedRing K] in
/-- General position can be decided. -/
private theorem generalPosition3_of_tests {n : ℕ}
    (h1 : ((List.range n).all fun i => (List.range n).all fun j => (List.range n).all fun k => (List.range n).all fun l =>
      !decide [i, j, k, l].Nodup || decide (orient3 ⟨x i, x j, x k, x l⟩ ≠ 0)) = true)
    (h2 : ((List.range n).sublists.all fun L =>
      match L with
      | [i, j, k, l, m] =>
        decide (Predicates.determinant5x5 (Predicates.inSphereMatrix (x i) (x j) (x k) (x l) (x m)) ≠ 0)
      | _ => true) = true) : GeneralPosition3 x n := by
  simp only [List.all_eq_true, List.mem_range, Bool.or_eq_true, Bool.not_eq_true', decide_eq_false_iff_not,
    decide_eq_true_eq] at h1
  constructor
  · intro i j k l hi hj hk hl hnd
    exact (h1 i hi j hj k hk l hl).resolve_left (not_not.2 hnd)
  · intro i j k l m hi hj hk hl hm hnd o ho
    rw [List.all_eq_true] at h2
    have hp : ((List.range n).filter fun w => decide (w ∈ [i, j, k, l, m])).Perm [i, j, k, l, m] := by
      refine (List.perm_ext_iff_of_nodup (List.nodup_range.filter _) hnd).2 fun w => ?_
      rw [List.mem_filter, List.mem_range, decide_eq_true_eq]
      refine ⟨fun h => h.2, fun h => ⟨?_, h⟩⟩
      simp only [List.mem_cons, List.not_mem_nil, or_false] at h
      omega
    have hs : ((List.range n).filter fun w => decide (w ∈ [i, j, k, l, m])) ∈ (List.range n).sublists :=
      List.mem_sublists.2 List.filter_sublist
    have h3 := h2 _ hs
    have hlen := hp.length_eq
    have hmem : ∀ w ∈ ((List.range n).filter fun w => decide (w ∈ [i, j, k, l, m])), distSq3 (x w) o = distSq3 (x i) o := by
      intro w hw
      have := hp.mem_iff.1 hw
      simp only [List.mem_cons, List.not_mem_nil, or_false] at this
      rcases this with rfl | rfl | rfl | rfl | rfl
      · rfl
      · exact ho.1.symm
      · exact ho.2.1.symm
      · exact ho.2.2.1.symm
      · exact ho.2.2.2.symm
    revert h3 hlen hmem
    generalize (List.range n).filter (fun w => decide (w ∈ [i, j, k, l, m])) = L
    intro h3 hlen hmem
    match L, hlen, h3, hmem with
    | [a, b, c, d, e], _, h3, hmem =>
      dsimp only at h3
      rw [decide_eq_true_eq] at h3
      refine h3 ?_
      rw [Predicates.inSphere_identity _ _ _ _ _ o _ (hmem a (by simp)) (hmem b (by simp)) (hmem c (by simp))
        (hmem d (by simp)), hmem e (by simp), sub_self, mul_zero]

end

/-- Seven example points meet all hypotheses, and the construction of their mesh is completed. -/
example : 0 < orient3 ⟨examplePoints3 0, examplePoints3 1, examplePoints3 2, examplePoints3 3⟩ ∧ HeapsOk popHead ∧
    GeneralPosition3 examplePoints3 (4 + 3) ∧
    (∀ i, i < 4 + 3 → InTetra ⟨examplePoints3 0, examplePoints3 1, examplePoints3 2, examplePoints3 3⟩
      (examplePoints3 i)) ∧
    ∃ s0 s, start3 = some s0 ∧ insertMany (geo3 (1 / 100) examplePoints3) (ops3 (intersect3 examplePoints3)) popHead
      12006 3 s0 = .done s := by
  have ho : 0 < orient3 ⟨examplePoints3 0, examplePoints3 1, examplePoints3 2, examplePoints3 3⟩ := by decide +kernel
  have hg : GeneralPosition3 examplePoints3 (4 + 3) :=
    generalPosition3_of_tests (by decide +kernel) (by decide +kernel)
  have hin : ∀ i, i < 4 + 3 → InTetra ⟨examplePoints3 0, examplePoints3 1, examplePoints3 2, examplePoints3 3⟩
      (examplePoints3 i) := by
    intro i hi
    refine (inTetra_iff (x := examplePoints3) (a := 0) (b := 1) (c := 2) (d := 3) ho.ne').2 ?_
    revert i
    unfold Within3
    decide +kernel
  obtain ⟨s0, h0⟩ : ∃ s, start3 = some s := ⟨_, rfl⟩
  obtain ⟨s, h⟩ := delaunay3_complete (eps := 1 / 100) (by norm_num) ho popHead_ok hg hin (fuel := 12006) (by omega) h0
  exact ⟨ho, popHead_ok, hg, hin, s0, s, h0, h⟩

end Verif.Delaunay
