import Verif.Delaunay.PlaneLoop
import Verif.Delaunay.PlaneSpec

/-! # The triangulation of the plane is the Delaunay triangulation -/

namespace Verif.Delaunay

open Verif.Predicates (P2 Triangle2 orient2 distSq2 Bary2)

section
variable {K : Type} [Field K] [LinearOrder K] [IsStrictOrderedRing K] {x : ℕ → P2 K}

theorem inTriangle_iff {a b c y : P2 K} (h : 0 < area a b c) : InTriangle ⟨a, b, c⟩ y ↔ Within a b c y := by
  constructor
  · rintro ⟨w1, w2, w3, h1, h2, h3, e1, e2, e3⟩
    dsimp only at e2 e3
    have g : ∀ u v, area u v y = w1 * area u v a + w2 * area u v b + w3 * area u v c := by
      intro u v
      have : w1 = 1 - w2 - w3 := by linarith
      simp only [area_def, e2, e3, this]
      ring
    refine ⟨?_, ?_, ?_⟩
    · rw [g, (area_self _ _).1, (area_self _ _).2.1, mul_zero, mul_zero, zero_add, zero_add]
      exact mul_nonneg h3 h.le
    · rw [g, (area_self _ _).1, (area_self _ _).2.1, mul_zero, mul_zero, add_zero, add_zero, area_cyc]
      exact mul_nonneg h1 h.le
    · rw [g, (area_self _ _).1, (area_self _ _).2.1, mul_zero, mul_zero, add_zero, zero_add, area_cyc']
      exact mul_nonneg h2 h.le
  · rintro ⟨h1, h2, h3⟩
    refine ⟨area b c y / area a b c, area c a y / area a b c, area a b y / area a b c, div_nonneg h2 h.le,
      div_nonneg h3 h.le, div_nonneg h1 h.le, ?_, ?_, ?_⟩
    · rw [← add_div, ← add_div, div_eq_one_iff_eq h.ne', ← area_sum a b c y]
      ring
    · dsimp only
      rw [div_mul_eq_mul_div, div_mul_eq_mul_div, div_mul_eq_mul_div, ← add_div, ← add_div, eq_div_iff h.ne']
      simp only [area_def]
      ring
    · dsimp only
      rw [div_mul_eq_mul_div, div_mul_eq_mul_div, div_mul_eq_mul_div, ← add_div, ← add_div, eq_div_iff h.ne']
      simp only [area_def]
      ring

private theorem interior_inside {a b c y : P2 K} (h : 0 < area a b c) (hy : InteriorTriangle ⟨a, b, c⟩ y) :
    Inside a b c y := by
  obtain ⟨w1, w2, w3, h1, h2, h3, e1, e2, e3⟩ := hy
  dsimp only at e2 e3
  have g : ∀ u v, area u v y = w1 * area u v a + w2 * area u v b + w3 * area u v c := by
    intro u v
    have : w1 = 1 - w2 - w3 := by linarith
    simp only [area_def, e2, e3, this]
    ring
  refine ⟨?_, ?_, ?_⟩
  · rw [g, (area_self _ _).1, (area_self _ _).2.1, mul_zero, mul_zero, zero_add, zero_add]
    exact mul_pos h3 h
  · rw [g, (area_self _ _).1, (area_self _ _).2.1, mul_zero, mul_zero, add_zero, add_zero, area_cyc]
    exact mul_pos h1 h
  · rw [g, (area_self _ _).1, (area_self _ _).2.1, mul_zero, mul_zero, add_zero, zero_add, area_cyc']
    exact mul_pos h2 h

private theorem emptyCircle_iff {n a b c : ℕ} (h : 0 < area (x a) (x b) (x c)) : EmptyCircle x n a b c ↔
    ∀ w, w < n → w ≠ a → w ≠ b → w ≠ c → 0 < pw (x a) (x b) (x c) (x w) := by
  constructor
  · rintro ⟨o, rho, e1, e2, e3, hw⟩ w h1 h2 h3 h4
    rw [← pw_unique h.ne' (sub_eq_zero.2 e1) (sub_eq_zero.2 e2) (sub_eq_zero.2 e3)]
    exact sub_pos.2 (hw w h1 h2 h3 h4)
  · intro hw
    obtain ⟨e1, e2, e3⟩ := pw_vertices h.ne'
    refine ⟨_, _, rfl, sub_eq_zero.1 e2, sub_eq_zero.1 e3, fun w h1 h2 h3 h4 => sub_pos.1 (hw w h1 h2 h3 h4)⟩

private theorem hasTriangle_iff {M : Mesh} {a b c : ℕ} : M.HasTriangle a b c ↔ ∃ i, At M i a b c := Iff.rfl

/-- **The result is a Delaunay triangulation.**  After inserting `n` points into a counterclockwise initial
triangle (the points 0, 1, 2), in any order of the heap used for the point location: all triangles of the mesh
are counterclockwise, and for each of them all other points lie outside of its circumcircle. -/
theorem delaunay2 (ho : 0 < orient2 ⟨x 0, x 1, x 2⟩) {pop : Heaps} (hp : HeapsOk pop)
    {fuel n : ℕ} {s0 s : State} (h0 : start2 = some s0) (h : insertMany (geo2 x) ops2 pop fuel n s0 = .done s) :
    ∀ i T, s.mesh.tetras.get i = some T → ∃ a b c, T.points = [a, b, c] ∧ a < 3 + n ∧ b < 3 + n ∧ c < 3 + n ∧
      0 < orient2 ⟨x a, x b, x c⟩ ∧ EmptyCircle x (3 + n) a b c := by
  obtain ⟨P, hn⟩ := run_plane ho hp h0 h
  intro i T hT
  obtain ⟨a, b, c, e, hat⟩ := At.of_get P.ok.cons hT
  have V := P.valid
  have hE := P.empty hat
  rw [hn] at V hE
  exact ⟨a, b, c, e, V.lt hat, V.lt (V.cyc hat), V.lt (V.cyc' hat), V.pos hat, (emptyCircle_iff (V.pos hat)).2 hE⟩

/-- **The triangles tile the initial triangle.**  Different triangles have disjoint interiors, and a point lies
in one of them exactly if it lies in the initial triangle. -/
theorem delaunay2_tiling (ho : 0 < orient2 ⟨x 0, x 1, x 2⟩) {pop : Heaps} (hp : HeapsOk pop)
    {fuel n : ℕ} {s0 s : State} (h0 : start2 = some s0) (h : insertMany (geo2 x) ops2 pop fuel n s0 = .done s) :
    (∀ i j T U a b c u v w, s.mesh.tetras.get i = some T → s.mesh.tetras.get j = some U → i ≠ j →
      T.points = [a, b, c] → U.points = [u, v, w] → ∀ y, InteriorTriangle ⟨x a, x b, x c⟩ y →
      ¬InTriangle ⟨x u, x v, x w⟩ y) ∧
    ∀ y, InTriangle ⟨x 0, x 1, x 2⟩ y ↔
      ∃ a b c, s.mesh.HasTriangle a b c ∧ InTriangle ⟨x a, x b, x c⟩ y := by
  obtain ⟨P, hn⟩ := run_plane ho hp h0 h
  have V := P.valid
  constructor
  · intro i j T U a b c u v w hT hU hne e1 e2 y hy hy'
    have h1 : At s.mesh i a b c := ⟨T, hT, Or.inl e1⟩
    have h2 : At s.mesh j u v w := ⟨U, hU, Or.inl e2⟩
    exact V.not_within h1 h2 hne (interior_inside (V.pos h1) hy) ((inTriangle_iff (V.pos h2)).1 hy')
  · intro y
    rw [inTriangle_iff ho]
    constructor
    · intro hy
      obtain ⟨i, _, a, b, c, hat, hw⟩ := P.find hy Set.univ
        (by obtain ⟨i, a, b, c, h⟩ := V.nonempty; exact ⟨i, trivial, a, b, c, h⟩)
        (fun _ _ _ _ _ _ _ _ _ => trivial)
      exact ⟨a, b, c, ⟨i, hat⟩, (inTriangle_iff (V.pos hat)).2 hw⟩
    · rintro ⟨a, b, c, ⟨i, hat⟩, hw⟩
      have hat : At s.mesh i a b c := hat
      have hy := (inTriangle_iff (V.pos hat)).1 hw
      have h1 := P.hull a (V.lt hat)
      have h2 := P.hull b (V.lt (V.cyc hat))
      have h3 := P.hull c (V.lt (V.cyc' hat))
      exact ⟨area_nonneg_of_within (V.pos hat) hy h1.1 h2.1 h3.1,
        area_nonneg_of_within (V.pos hat) hy h1.2.1 h2.2.1 h3.2.1,
        area_nonneg_of_within (V.pos hat) hy h1.2.2 h2.2.2 h3.2.2⟩

/-- Two triangles with empty circumcircles which overlap have the same vertices. -/
private theorem same_of_overlap {a b c u v w : P2 K} {y : P2 K} (h1 : 0 < area a b c) (h2 : 0 < area u v w)
    (hy : Inside a b c y) (hy' : Within u v w y) (ha : 0 ≤ pw u v w a) (hb : 0 ≤ pw u v w b) (hc : 0 ≤ pw u v w c)
    (hu : 0 ≤ pw a b c u) (hv : 0 ≤ pw a b c v) (hw : 0 ≤ pw a b c w) :
    pw u v w a = 0 ∧ pw u v w b = 0 ∧ pw u v w c = 0 := by
  obtain ⟨z1, z2, z3⟩ := pw_vertices h1.ne'
  obtain ⟨z4, z5, z6⟩ := pw_vertices h2.ne'
  have diff : ∀ p q r y : P2 K, area q r y * (pw a b c p - pw u v w p) - area p r y * (pw a b c q - pw u v w q) +
      area p q y * (pw a b c r - pw u v w r) = area p q r * (pw a b c y - pw u v w y) := fun p q r y =>
    power_diff _ _ _ _ p q r y
  have d1 := diff a b c y
  have d2 := diff u v w y
  rw [z1, z2, z3] at d1
  rw [z4, z5, z6] at d2
  have s1 : area a c y = -area c a y := by simp only [area_def]; ring
  have s2 : area u w y = -area w u y := by simp only [area_def]; ring
  rw [s1] at d1
  rw [s2] at d2
  have p1 := mul_nonneg hy.2.1.le ha
  have p2 := mul_nonneg hy.2.2.le hb
  have p3 := mul_nonneg hy.1.le hc
  have q1 := mul_nonneg hy'.2.1 hu
  have q2 := mul_nonneg hy'.2.2 hv
  have q3 := mul_nonneg hy'.1 hw
  have n1 : area a b c * (pw a b c y - pw u v w y) ≤ 0 := by linarith
  have n2 : 0 ≤ area u v w * (pw a b c y - pw u v w y) := by linarith
  have n3 : pw a b c y - pw u v w y = 0 := by
    apply le_antisymm
    · by_contra hc
      exact absurd (mul_pos h1 (not_le.1 hc)) (not_lt.2 n1)
    · exact nonneg_of_mul_nonneg_right n2 h2
  rw [n3, mul_zero] at d1
  have e1 : area b c y * pw u v w a = 0 := by linarith
  have e2 : area c a y * pw u v w b = 0 := by linarith
  have e3 : area a b y * pw u v w c = 0 := by linarith
  exact ⟨(mul_eq_zero.1 e1).resolve_left hy.2.1.ne', (mul_eq_zero.1 e2).resolve_left hy.2.2.ne',
    (mul_eq_zero.1 e3).resolve_left hy.1.ne'⟩

/-- **There is exactly one Delaunay triangulation, and the result is this one.**  A counterclockwise triangle of
the inserted points belongs to the mesh exactly if all other points lie outside of its circumcircle. -/
theorem delaunay2_iff (ho : 0 < orient2 ⟨x 0, x 1, x 2⟩) {pop : Heaps} (hp : HeapsOk pop)
    {fuel n : ℕ} {s0 s : State} (h0 : start2 = some s0) (h : insertMany (geo2 x) ops2 pop fuel n s0 = .done s)
    {a b c : ℕ} (ha : a < 3 + n) (hb : b < 3 + n) (hc : c < 3 + n) (hpos : 0 < orient2 ⟨x a, x b, x c⟩) :
    s.mesh.HasTriangle a b c ↔ EmptyCircle x (3 + n) a b c := by
  obtain ⟨P, hn⟩ := run_plane ho hp h0 h
  have V := P.valid
  have hpos' : 0 < area (x a) (x b) (x c) := hpos
  rw [emptyCircle_iff hpos']
  constructor
  · rintro ⟨i, hat⟩
    have hE := P.empty (show At s.mesh i a b c from hat)
    rwa [hn] at hE
  · intro hE
    obtain ⟨y, hy, _⟩ := overlap hpos' hpos'
    rw [← hn] at ha hb hc hE
    have hyh : Within (x 0) (x 1) (x 2) y := by
      have h1 := P.hull a ha
      have h2 := P.hull b hb
      have h3 := P.hull c hc
      exact ⟨area_nonneg_of_within hpos' hy.within h1.1 h2.1 h3.1,
        area_nonneg_of_within hpos' hy.within h1.2.1 h2.2.1 h3.2.1,
        area_nonneg_of_within hpos' hy.within h1.2.2 h2.2.2 h3.2.2⟩
    obtain ⟨i, _, u, v, w, hat, hw⟩ := P.find hyh Set.univ
      (by obtain ⟨i, a, b, c, h⟩ := V.nonempty; exact ⟨i, trivial, a, b, c, h⟩)
      (fun _ _ _ _ _ _ _ _ _ => trivial)
    have nonneg : ∀ z, z < s.mesh.numPoints → 0 ≤ pw (x a) (x b) (x c) (x z) := by
      intro z hz
      obtain ⟨e1, e2, e3⟩ := pw_vertices hpos'.ne'
      by_cases f1 : z = a
      · rw [f1, e1]
      by_cases f2 : z = b
      · rw [f2, e2]
      by_cases f3 : z = c
      · rw [f3, e3]
      exact (hE z hz f1 f2 f3).le
    have zero : ∀ z, z < s.mesh.numPoints → pw (x u) (x v) (x w) (x z) = 0 → z = u ∨ z = v ∨ z = w := by
      intro z hz hzero
      by_contra hne
      push Not at hne
      exact absurd (P.empty hat z hz hne.1 hne.2.1 hne.2.2) (by rw [hzero]; exact lt_irrefl _)
    have nonneg' : ∀ z, z < s.mesh.numPoints → 0 ≤ pw (x u) (x v) (x w) (x z) := by
      intro z hz
      obtain ⟨e1, e2, e3⟩ := pw_vertices (V.pos hat).ne'
      by_cases f1 : z = u
      · rw [f1, e1]
      by_cases f2 : z = v
      · rw [f2, e2]
      by_cases f3 : z = w
      · rw [f3, e3]
      exact (P.empty hat z hz f1 f2 f3).le
    obtain ⟨g1, g2, g3⟩ := same_of_overlap hpos' (V.pos hat) hy hw (nonneg' a ha) (nonneg' b hb) (nonneg' c hc)
      (nonneg u (V.lt hat)) (nonneg v (V.lt (V.cyc hat))) (nonneg w (V.lt (V.cyc' hat)))
    have hab : a ≠ b := fun e => by rw [e, (area_self _ _).2.2] at hpos'; exact lt_irrefl _ hpos'
    have hbc : b ≠ c := fun e => by rw [e, (area_self _ _).2.1] at hpos'; exact lt_irrefl _ hpos'
    have hca : c ≠ a := fun e => by rw [e, (area_self _ _).1] at hpos'; exact lt_irrefl _ hpos'
    obtain ⟨T, hT, _⟩ := id hat
    have V1 := @Valid.pos _ _ _ _ _ _ V i
    refine ⟨i, ?_⟩
    have m1 := zero a ha g1
    have m2 := zero b hb g2
    have m3 := zero c hc g3
    refine at_of_pos P.ok.cons hT (@V1) ?_ hab hca.symm hbc (by rw [area_cyc]; exact hpos')
    intro z
    rw [hat.mem hT]
    omega

/-- **The order of the insertions does not matter.**  If the same points are inserted in two different orders
(`σ` is the change of the order) and both runs are completed, the triangles are the same. -/
theorem delaunay2_order (ho : 0 < orient2 ⟨x 0, x 1, x 2⟩) {x' : ℕ → P2 K} (ho' : 0 < orient2 ⟨x' 0, x' 1, x' 2⟩)
    {pop pop' : Heaps} (hp : HeapsOk pop) (hp' : HeapsOk pop')
    {fuel fuel' n : ℕ} {s0 s s' : State} (h0 : start2 = some s0)
    (h : insertMany (geo2 x) ops2 pop fuel n s0 = .done s) (h' : insertMany (geo2 x') ops2 pop' fuel' n s0 = .done s')
    (σ : Equiv.Perm ℕ) (hσ : ∀ i, i < 3 + n ↔ σ i < 3 + n) (hx : ∀ i, i < 3 + n → x' i = x (σ i))
    {a b c : ℕ} (ha : a < 3 + n) (hb : b < 3 + n) (hc : c < 3 + n) :
    s'.mesh.HasTriangle a b c ↔ s.mesh.HasTriangle (σ a) (σ b) (σ c) := by
  have pos : ∀ {x : ℕ → P2 K}, 0 < orient2 ⟨x 0, x 1, x 2⟩ → ∀ {pop}, HeapsOk pop → ∀ {fuel s},
      insertMany (geo2 x) ops2 pop fuel n s0 = .done s → ∀ {a b c}, s.mesh.HasTriangle a b c →
      0 < orient2 ⟨x a, x b, x c⟩ := by
    rintro x ho pop hp fuel s h a b c ⟨i, hat⟩
    exact (run_plane ho hp h0 h).1.valid.pos (show At s.mesh i a b c from hat)
  have hcirc : EmptyCircle x' (3 + n) a b c ↔ EmptyCircle x (3 + n) (σ a) (σ b) (σ c) := by
    unfold EmptyCircle
    rw [hx a ha, hx b hb, hx c hc]
    constructor
    · rintro ⟨o, rho, e1, e2, e3, e4⟩
      refine ⟨o, rho, e1, e2, e3, fun w hw n1 n2 n3 => ?_⟩
      have hw' : σ.symm w < 3 + n := by rw [hσ, Equiv.apply_symm_apply]; exact hw
      have := e4 (σ.symm w) hw' (fun e => n1 (by rw [← e, Equiv.apply_symm_apply]))
        (fun e => n2 (by rw [← e, Equiv.apply_symm_apply])) (fun e => n3 (by rw [← e, Equiv.apply_symm_apply]))
      rwa [hx _ hw', Equiv.apply_symm_apply] at this
    · rintro ⟨o, rho, e1, e2, e3, e4⟩
      refine ⟨o, rho, e1, e2, e3, fun w hw n1 n2 n3 => ?_⟩
      rw [hx w hw]
      exact e4 (σ w) ((hσ w).1 hw) (fun e => n1 (σ.injective e)) (fun e => n2 (σ.injective e))
        (fun e => n3 (σ.injective e))
  constructor
  · intro ht
    have h1 := pos ho' hp' h' ht
    have h2 := (delaunay2_iff ho' hp' h0 h' ha hb hc h1).1 ht
    rw [hx a ha, hx b hb, hx c hc] at h1
    exact (delaunay2_iff ho hp h0 h ((hσ a).1 ha) ((hσ b).1 hb) ((hσ c).1 hc) h1).2 (hcirc.1 h2)
  · intro ht
    have h1 := pos ho hp h ht
    have h2 := (delaunay2_iff ho hp h0 h ((hσ a).1 ha) ((hσ b).1 hb) ((hσ c).1 hc) h1).1 ht
    rw [← hx a ha, ← hx b hb, ← hx c hc] at h1
    exact (delaunay2_iff ho' hp' h0 h' ha hb hc h1).2 (hcirc.2 h2)

/-- **The mesh is connected.**  Every triangle can be reached from every other one through neighbour links, so
that the point location finds a triangle whenever there is one. -/
theorem delaunay2_connected (ho : 0 < orient2 ⟨x 0, x 1, x 2⟩) {pop : Heaps} (hp : HeapsOk pop)
    {fuel n : ℕ} {s0 s : State} (h0 : start2 = some s0) (h : insertMany (geo2 x) ops2 pop fuel n s0 = .done s)
    {i j : ℕ} {T U : Tetra} (hi : s.mesh.tetras.get i = some T) (hj : s.mesh.tetras.get j = some U) :
    s.mesh.Reach i j := (run_plane ho hp h0 h).1.reach hi hj

private theorem insertMany_snoc {g : Geo} {ops : Ops} {pop : Heaps} {fuel : ℕ} :
    ∀ (n : ℕ) (s : State), insertMany g ops pop fuel (n + 1) s =
      match insertMany g ops pop fuel n s with
      | .panic => .panic
      | .running => .running
      | .done s' =>
        match insertPoint g ops pop fuel s' with
        | .panic => .panic
        | .running => .running
        | .done (s'', _) => .done s''
  | 0, s => by
    unfold insertMany
    dsimp only
    cases insertPoint g ops pop fuel s with
    | done r => rfl
    | panic => rfl
    | running => rfl
  | n + 1, s => by
    rw [insertMany]
    conv_rhs => rw [insertMany]
    cases insertPoint g ops pop fuel s with
    | done r => exact insertMany_snoc n r.1
    | panic => rfl
    | running => rfl

/-- **The construction succeeds.**  If the points lie in the initial triangle, no three of them (and of the
vertices of the initial triangle) are on a line and no four on a circle, all insertions are completed: no test is
degenerate, every point is found and the loops end. -/
theorem delaunay2_complete (ho : 0 < orient2 ⟨x 0, x 1, x 2⟩) {pop : Heaps} (hp : HeapsOk pop)
    {fuel n : ℕ} (hg : GeneralPosition x (3 + n)) (hin : ∀ i, i < 3 + n → InTriangle ⟨x 0, x 1, x 2⟩ (x i))
    (hf : 8 * n + 5 ≤ fuel) {s0 : State} (h0 : start2 = some s0) :
    ∃ s, insertMany (geo2 x) ops2 pop fuel n s0 = .done s := by
  have key : ∀ k, k ≤ n → ∃ s, insertMany (geo2 x) ops2 pop fuel k s0 = .done s := by
    intro k
    induction k with
    | zero => exact fun _ => ⟨s0, rfl⟩
    | succ k ih =>
      intro hk
      obtain ⟨s, hs⟩ := ih (by omega)
      obtain ⟨P, hn⟩ := run_plane ho hp h0 hs
      have h1 := insertPoint_plane P hp fuel
      have h2 := insert2_terminates (geo2_proper x) hp h0 hs (fuel' := fuel) (by omega)
      rw [insertMany_snoc, hs]
      dsimp only
      revert h1 h2
      cases insertPoint (geo2 x) ops2 pop fuel s with
      | done r => exact fun _ _ => ⟨r.1, rfl⟩
      | running => exact fun _ h => absurd rfl h
      | panic =>
        rw [hn]
        rintro (⟨a, b, l1, l2, hne, hz⟩ | hz | ⟨a, b, q, l1, l2, l3, n1, n2, n3, hpos, hz⟩) _
        · exact absurd hz (hg.line a b (3 + k) (by omega) (by omega) (by omega) hne (by omega) (by omega))
        · exact absurd ((inTriangle_iff ho).1 (hin (3 + k) (by omega))) hz
        · exfalso
          obtain ⟨z1, z2, z3⟩ := pw_vertices hpos.ne'
          exact hg.circle (3 + k) a b q (by omega) (by omega) (by omega) (by omega) (by omega) (by omega) (by omega)
            n1 n2 n3 _ ⟨(sub_eq_zero.1 z2).symm, (sub_eq_zero.1 z3).symm, (sub_eq_zero.1 hz).symm⟩
  exact key n le_rfl

end

/-! ### The hypotheses hold for concrete points -/

section
variable {K : Type} [Field K] [LinearOrder K] [IsStrictOrderedRing K] {x : ℕ → P2 K}

/-- Four points on a circle make the in-circle determinant vanish. -/
theorem circumcircleContains_of_cocircular {a b c d o : P2 K} (h1 : distSq2 a o = distSq2 b o)
    (h2 : distSq2 a o = distSq2 c o) (h3 : distSq2 a o = distSq2 d o) :
    (⟨a, b, c⟩ : Triangle2 K).circumcircleContains d = none := by
  unfold distSq2 at h1 h2 h3
  have e : ∀ p : P2 K, (a.x - o.x) ^ 2 + (a.y - o.y) ^ 2 = (p.x - o.x) ^ 2 + (p.y - o.y) ^ 2 →
      (p.x - a.x) ^ 2 + (p.y - a.y) ^ 2 = 2 * (o.x - a.x) * (p.x - a.x) + 2 * (o.y - a.y) * (p.y - a.y) := by
    intro p hp
    linear_combination -hp
  unfold Triangle2.circumcircleContains
  dsimp only
  rw [e b h1, e c h2, e d h3]
  have z : ∀ u v p1 p2 q1 q2 r1 r2 : K, Verif.Predicates.determinant3x3 ![![p1, p2, u * p1 + v * p2],
      ![q1, q2, u * q1 + v * q2], ![r1, r2, u * r1 + v * r2]] = 0 := by
    intro u v p1 p2 q1 q2 r1 r2
    simp [Verif.Predicates.determinant3x3]
    ring
  rw [z]
  simp [Verif.Predicates.Sign.of, Verif.Predicates.Sign.checkedNegative]

/-- General position can be decided. -/
theorem generalPosition_of_tests {n : ℕ}
    (h1 : ∀ i < n, ∀ j < n, ∀ k < n, (i ≠ j ∧ i ≠ k ∧ j ≠ k) → orient2 ⟨x i, x j, x k⟩ ≠ 0)
    (h2 : ∀ i < n, ∀ j < n, ∀ k < n, ∀ l < n, (i == j || i == k || i == l || j == k || j == l || k == l ||
      ((⟨x i, x j, x k⟩ : Triangle2 K).circumcircleContains (x l)).isSome) = true) : GeneralPosition x n where
  line i j k hi hj hk a b c := h1 i hi j hj k hk ⟨a, b, c⟩
  circle i j k l hi hj hk hl a b c d e f _ ho := by
    have := h2 i hi j hj k hk l hl
    simp [a, b, c, d, e, f, circumcircleContains_of_cocircular ho.1 ho.2.1 ho.2.2] at this

end

/-- The seven example points meet all hypotheses. -/
example : 0 < orient2 ⟨examplePoints2 0, examplePoints2 1, examplePoints2 2⟩ ∧ HeapsOk popHead ∧
    GeneralPosition examplePoints2 (3 + 4) ∧
    (∀ i, i < 3 + 4 → InTriangle ⟨examplePoints2 0, examplePoints2 1, examplePoints2 2⟩ (examplePoints2 i)) ∧
    (∃ s0 s, start2 = some s0 ∧ insertMany (geo2 examplePoints2) ops2 popHead 40 4 s0 = .done s) ∧
    ∃ s0, start2 = some s0 := by
  have ho : 0 < orient2 ⟨examplePoints2 0, examplePoints2 1, examplePoints2 2⟩ := by decide +kernel
  have hg : GeneralPosition examplePoints2 (3 + 4) :=
    generalPosition_of_tests (by decide +kernel) (by decide +kernel)
  have hin : ∀ i, i < 3 + 4 → InTriangle ⟨examplePoints2 0, examplePoints2 1, examplePoints2 2⟩ (examplePoints2 i) := by
    intro i hi
    rw [inTriangle_iff ho]
    revert i
    unfold Within
    decide +kernel
  obtain ⟨s0, h0⟩ : ∃ s, start2 = some s := ⟨_, rfl⟩
  obtain ⟨s, h⟩ := delaunay2_complete ho popHead_ok hg hin (fuel := 40) (by omega) h0
  exact ⟨ho, popHead_ok, hg, hin, ⟨s0, s, h0, h⟩, s0, h0⟩

end Verif.Delaunay
