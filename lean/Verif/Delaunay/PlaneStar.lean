import Verif.Delaunay.PlaneLoop

/-! # The triangles around a vertex, and the edges of the Delaunay triangulation -/

namespace Verif.Delaunay

open Verif.Predicates (P2 Triangle2 orient2 distSq2)

variable {K : Type} [Field K] [LinearOrder K] [IsStrictOrderedRing K] {x : ℕ → P2 K}

/-- The point on the way from `p` to `m`. -/
def towards (p m : P2 K) (e : K) : P2 K := ⟨(1 - e) * p.x + e * m.x, (1 - e) * p.y + e * m.y⟩

omit [LinearOrder K] [IsStrictOrderedRing K] in
theorem area_towards (u v p m : P2 K) (e : K) : area u v (towards p m e) = (1 - e) * area u v p + e * area u v m := by
  simp only [area_def, towards]
  ring

theorem small_eps {ι : Type} {F : Set ι} (hF : F.Finite) (f g : ι → K) (hf : ∀ t ∈ F, 0 < f t) :
    ∃ e, 0 < e ∧ e ≤ 1 / 2 ∧ ∀ t ∈ F, 0 < (1 - e) * f t + e * g t := by
  have key : ∃ d, 0 < d ∧ d ≤ (1 : K) / 2 ∧ ∀ t ∈ F, ∀ e, 0 < e → e ≤ d → 0 < (1 - e) * f t + e * g t := by
    induction F, hF using Set.Finite.induction_on with
    | empty => exact ⟨1 / 2, by norm_num, le_rfl, fun _ h => absurd h (Set.notMem_empty _)⟩
    | @insert a S _ _ ih =>
      obtain ⟨d, h1, h2, h3⟩ := ih fun t ht => hf t (Set.mem_insert_of_mem _ ht)
      obtain ⟨d', g1, g2, g3⟩ := exists_eps (hf a (Set.mem_insert _ _)) (g a)
      refine ⟨min d d', lt_min h1 g1, (min_le_left _ _).trans h2, ?_⟩
      intro t ht e he hle
      rcases Set.mem_insert_iff.1 ht with rfl | ht
      · exact g3 e he (hle.trans (min_le_right _ _))
      · exact h3 t ht e he (hle.trans (min_le_left _ _))
  obtain ⟨d, h1, h2, h3⟩ := key
  exact ⟨d, h1, h2, fun t ht => h3 t ht d h1 le_rfl⟩

/-- A vertex which is not one of the initial ones is not on the boundary. -/
theorem PlaneOk.next {s : State} (P : PlaneOk x s) {p i b c : ℕ} (hp : 3 ≤ p) (h : At s.mesh i p b c) :
    ∃ j d, At s.mesh j p c d := by
  have V := P.valid
  rcases V.edge (V.cyc' h) with ⟨j, d, hj⟩ | hh
  · exact ⟨j, d, hj⟩
  · exfalso
    have hne := V.ne (V.cyc' h)
    have h3 := P.three
    have := area_pos_of_inside P.orient (P.strict p hp (V.lt h)) hne (hh 0 (by omega)) (hh 1 (by omega))
      (hh 2 (by omega))
    rw [(area_self _ _).2.1] at this
    exact lt_irrefl _ this

theorem PlaneOk.prev {s : State} (P : PlaneOk x s) {p i b c : ℕ} (hp : 3 ≤ p) (h : At s.mesh i p b c) :
    ∃ j d, At s.mesh j p d b := by
  have V := P.valid
  rcases V.edge h with ⟨j, d, hj⟩ | hh
  · exact ⟨j, d, V.cyc hj⟩
  · exfalso
    have hne := V.ne h
    have h3 := P.three
    have := area_pos_of_inside P.orient (P.strict p hp (V.lt h)) hne (hh 0 (by omega)) (hh 1 (by omega))
      (hh 2 (by omega))
    rw [(area_self _ _).1] at this
    exact lt_irrefl _ this

/-- In the direction of any point which lies in the initial triangle there is a triangle at the vertex `p`, and it
belongs to any closed set of triangles at `p`. -/
theorem PlaneOk.fan {s : State} (P : PlaneOk x s) {p : ℕ} (hp : 3 ≤ p) (m : P2 K)
    (S : Set ℕ) (hat : ∀ i ∈ S, ∃ b c, At s.mesh i p b c) (hS : S.Nonempty)
    (hnext : ∀ i ∈ S, ∀ b c j d, At s.mesh i p b c → At s.mesh j p c d → j ∈ S)
    (hprev : ∀ i ∈ S, ∀ b c j d, At s.mesh i p b c → At s.mesh j p d b → j ∈ S) :
    ∃ e, 0 < e ∧ e ≤ 1 / 2 ∧ ∃ i ∈ S, ∃ b c, At s.mesh i p b c ∧ Within (x p) (x b) (x c) (towards (x p) m e) := by
  have V := P.valid
  obtain ⟨i0, hi0⟩ := hS
  obtain ⟨b0, c0, h0⟩ := hat i0 hi0
  have hpn := V.lt h0
  have hins := P.strict p hp hpn
  have hfin : {t : ℕ × ℕ × ℕ × ℕ | At s.mesh t.1 t.2.1 t.2.2.1 t.2.2.2 ∧ t.2.2.2 = p}.Finite :=
    V.fin.subset fun t ht => ht.1
  -- small steps stay in the initial triangle and on the near side of the opposite edges
  obtain ⟨d1, a1, a2, a3⟩ := exists_eps hins.1 (area (x 0) (x 1) m)
  obtain ⟨d2, b1, b2, b3⟩ := exists_eps hins.2.1 (area (x 1) (x 2) m)
  obtain ⟨d3, c1, c2, c3⟩ := exists_eps hins.2.2 (area (x 2) (x 0) m)
  have key : ∃ d, 0 < d ∧ d ≤ (1 : K) / 2 ∧ ∀ i a b, At s.mesh i a b p → ∀ e, 0 < e → e ≤ d →
      0 < (1 - e) * area (x a) (x b) (x p) + e * area (x a) (x b) m := by
    obtain ⟨d, e1, e2, e3⟩ := small_eps hfin (fun t => area (x t.2.1) (x t.2.2.1) (x p))
      (fun t => area (x t.2.1) (x t.2.2.1) m) (by
        rintro ⟨i, a, b, c⟩ ⟨h, rfl⟩
        exact V.pos h)
    refine ⟨d, e1, e2, ?_⟩
    intro i a b h e he hle
    have g1 := e3 (i, a, b, p) ⟨h, rfl⟩
    have g2 : 0 < area (x a) (x b) (x p) := V.pos h
    dsimp only at g1
    -- between the values at 0 and at `d`
    have g3 : d * ((1 - e) * area (x a) (x b) (x p) + e * area (x a) (x b) m) =
        e * ((1 - d) * area (x a) (x b) (x p) + d * area (x a) (x b) m) + (d - e) * area (x a) (x b) (x p) := by ring
    have g4 := mul_pos he g1
    have g5 : 0 ≤ (d - e) * area (x a) (x b) (x p) := mul_nonneg (sub_nonneg.2 hle) g2.le
    exact (mul_pos_iff_of_pos_left e1).1 (by rw [g3]; linarith)
  obtain ⟨d4, f1, f2, f3⟩ := key
  set e := min (min d1 d2) (min d3 d4) with he
  have e0 : 0 < e := lt_min (lt_min a1 b1) (lt_min c1 f1)
  have l1 : e ≤ d1 := (min_le_left _ _).trans (min_le_left _ _)
  have l2 : e ≤ d2 := (min_le_left _ _).trans (min_le_right _ _)
  have l3 : e ≤ d3 := (min_le_right _ _).trans (min_le_left _ _)
  have l4 : e ≤ d4 := (min_le_right _ _).trans (min_le_right _ _)
  refine ⟨e, e0, l1.trans a2, ?_⟩
  have hhull : Within (x 0) (x 1) (x 2) (towards (x p) m e) := by
    refine ⟨?_, ?_, ?_⟩
    · rw [area_towards]; exact (a3 e e0 l1).le
    · rw [area_towards]; exact (b3 e e0 l2).le
    · rw [area_towards]; exact (c3 e e0 l3).le
  have hfar : ∀ i a b, At s.mesh i a b p → 0 < area (x a) (x b) (towards (x p) m e) := by
    intro i a b h
    rw [area_towards]
    exact f3 i a b h e e0 l4
  have hcl : ∀ i ∈ S, ∀ a b c j q, At s.mesh i a b c → At s.mesh j b a q → area (x a) (x b) (towards (x p) m e) < 0 →
      j ∈ S := by
    intro i hi a b c j q h h' hneg
    obtain ⟨b', c', hi'⟩ := hat i hi
    rcases V.uniq h hi' with ⟨h1, h2, h3⟩ | ⟨h1, h2, h3⟩ | ⟨h1, h2, h3⟩
    · subst h1 h2 h3
      exact hprev i hi _ _ j q hi' (V.cyc h')
    · subst h1 h2 h3
      exact hnext i hi _ _ j q hi' h'
    · subst h1 h2 h3
      exact absurd (hfar i _ _ h) (not_lt.2 hneg.le)
  obtain ⟨w, ⟨i, hi, a, b, c, h, hw⟩, _, hwi⟩ := V.walk P.local (towards (x p) m e) S ⟨i0, hi0, p, b0, c0, h0⟩ hcl
    (fun i _ a b c _ hh => P.inner hhull hh)
  have hwt := hwi i hi a b c h hw
  obtain ⟨b', c', h'⟩ := hat i hi
  exact ⟨i, hi, b', c', h', (V.uniq h' h).within hwt⟩

/-- A set of triangles at the vertex `p` which is closed under neighbours around `p` contains all of them. -/
theorem PlaneOk.star_all {s : State} (P : PlaneOk x s) {p : ℕ} (hp : 3 ≤ p)
    (S : Set ℕ) (hat : ∀ i ∈ S, ∃ b c, At s.mesh i p b c) (hS : S.Nonempty)
    (hnext : ∀ i ∈ S, ∀ b c j d, At s.mesh i p b c → At s.mesh j p c d → j ∈ S)
    (hprev : ∀ i ∈ S, ∀ b c j d, At s.mesh i p b c → At s.mesh j p d b → j ∈ S)
    {j u v : ℕ} (hj : At s.mesh j p u v) : j ∈ S := by
  have V := P.valid
  obtain ⟨m, hm, _⟩ := overlap (V.pos hj) (V.pos hj)
  obtain ⟨e, e0, e1, i, hi, b, c, h, hw⟩ := P.fan hp m S hat hS hnext hprev
  have hlt : 0 < 1 - e := by linarith
  have hin : Inside (x p) (x u) (x v) (towards (x p) m e) := by
    refine ⟨?_, ?_, ?_⟩
    · rw [area_towards, (area_self _ _).1]
      have := mul_pos e0 hm.1
      linarith
    · rw [area_towards, area_cyc]
      have h1 := mul_pos e0 hm.2.1
      have h2 := mul_pos hlt (V.pos hj)
      linarith
    · rw [area_towards, (area_self _ _).2.1]
      have := mul_pos e0 hm.2.2
      linarith
  by_contra hne
  exact V.not_within hj h (fun e => hne (e ▸ hi)) hin hw

/-- **Edges.**  If there is a circle through the points `p` and `u` with no other point inside, they are joined by an
edge. -/
theorem PlaneOk.edge_of_circle {s : State} (P : PlaneOk x s) {p u : ℕ} (hp : p < s.mesh.numPoints)
    (hu : u < s.mesh.numPoints) {o : P2 K} {rho : K} (h1 : power o rho (x p) = 0) (h2 : power o rho (x u) = 0)
    (h3 : ∀ w, w < s.mesh.numPoints → 0 ≤ power o rho (x w)) :
    ∃ i a b c, At s.mesh i a b c ∧ (p = a ∨ p = b ∨ p = c) ∧ (u = a ∨ u = b ∨ u = c) := by
  have V := P.valid
  have hhull : Within (x 0) (x 1) (x 2) (towards (x p) (x u) (1 / 2)) := by
    have g1 := P.hull p hp
    have g2 := P.hull u hu
    refine ⟨?_, ?_, ?_⟩
    · rw [area_towards]; linarith [g1.1, g2.1]
    · rw [area_towards]; linarith [g1.2.1, g2.2.1]
    · rw [area_towards]; linarith [g1.2.2, g2.2.2]
  obtain ⟨i, _, a, b, c, hat, hw⟩ := P.find hhull Set.univ
    (by obtain ⟨i, a, b, c, h⟩ := V.nonempty; exact ⟨i, trivial, a, b, c, h⟩)
    (fun _ _ _ _ _ _ _ _ _ => trivial)
  have hpos := V.pos hat
  obtain ⟨z1, z2, z3⟩ := pw_vertices hpos.ne'
  have nonneg : ∀ z, z < s.mesh.numPoints → 0 ≤ pw (x a) (x b) (x c) (x z) := by
    intro z hz
    by_cases f1 : z = a
    · rw [f1, z1]
    by_cases f2 : z = b
    · rw [f2, z2]
    by_cases f3 : z = c
    · rw [f3, z3]
    exact (P.empty hat z hz f1 f2 f3).le
  have zero : ∀ z, z < s.mesh.numPoints → pw (x a) (x b) (x c) (x z) = 0 → z = a ∨ z = b ∨ z = c := by
    intro z hz hzero
    by_contra hne
    push Not at hne
    exact absurd (P.empty hat z hz hne.1 hne.2.1 hne.2.2) (by rw [hzero]; exact lt_irrefl _)
  have d1 := power_diff o (Triangle2.circumcentre ⟨x a, x b, x c⟩) rho
    (distSq2 (x a) (Triangle2.circumcentre ⟨x a, x b, x c⟩)) (x a) (x b) (x c) (towards (x p) (x u) (1 / 2))
  change area (x b) (x c) _ * (power o rho (x a) - pw (x a) (x b) (x c) (x a)) -
    area (x a) (x c) _ * (power o rho (x b) - pw (x a) (x b) (x c) (x b)) +
    area (x a) (x b) _ * (power o rho (x c) - pw (x a) (x b) (x c) (x c)) =
    area (x a) (x b) (x c) * (power o rho (towards (x p) (x u) (1 / 2)) -
      pw (x a) (x b) (x c) (towards (x p) (x u) (1 / 2))) at d1
  rw [z1, z2, z3] at d1
  have s1 : area (x a) (x c) (towards (x p) (x u) (1 / 2)) = -area (x c) (x a) (towards (x p) (x u) (1 / 2)) := by
    simp only [area_def]; ring
  rw [s1] at d1
  have q1 := mul_nonneg hw.2.1 (h3 a (V.lt hat))
  have q2 := mul_nonneg hw.2.2 (h3 b (V.lt (V.cyc hat)))
  have q3 := mul_nonneg hw.1 (h3 c (V.lt (V.cyc' hat)))
  have n1 : 0 ≤ area (x a) (x b) (x c) * (power o rho (towards (x p) (x u) (1 / 2)) -
      pw (x a) (x b) (x c) (towards (x p) (x u) (1 / 2))) := by linarith
  have n2 := nonneg_of_mul_nonneg_right n1 hpos
  -- the difference is affine on the segment
  have seg : ∀ (o' : P2 K) (rho' : K), power o rho (towards (x p) (x u) (1 / 2)) - power o' rho' (towards (x p) (x u) (1 / 2)) =
      1 / 2 * (power o rho (x p) - power o' rho' (x p)) + 1 / 2 * (power o rho (x u) - power o' rho' (x u)) := by
    intro o' rho'
    simp only [power, distSq2, towards]
    ring
  have n3 := seg (Triangle2.circumcentre ⟨x a, x b, x c⟩) (distSq2 (x a) (Triangle2.circumcentre ⟨x a, x b, x c⟩))
  change power o rho (towards (x p) (x u) (1 / 2)) - pw (x a) (x b) (x c) (towards (x p) (x u) (1 / 2)) =
    1 / 2 * (power o rho (x p) - pw (x a) (x b) (x c) (x p)) +
    1 / 2 * (power o rho (x u) - pw (x a) (x b) (x c) (x u)) at n3
  rw [h1, h2] at n3
  have np := nonneg p hp
  have nu := nonneg u hu
  refine ⟨i, a, b, c, hat, zero p hp ?_, zero u hu ?_⟩
  · linarith
  · linarith

/-- **Nearest points.**  A point which is at least as close to the vertex `p` as to all vertices joined with `p` is
at least as close to `p` as to all vertices. -/
theorem PlaneOk.nearest {s : State} (P : PlaneOk x s) {p : ℕ} (hp : p < s.mesh.numPoints) {y : P2 K}
    (hy : ∀ i a b c, At s.mesh i a b c → (p = a ∨ p = b ∨ p = c) → distSq2 (x p) y ≤ distSq2 (x a) y)
    {w : ℕ} (hw : w < s.mesh.numPoints) : distSq2 (x p) y ≤ distSq2 (x w) y := by
  by_contra hlt
  have hlt := not_le.1 hlt
  -- the difference of the squared distances along the segment from `p` to `y`
  have f : ∀ (v : ℕ) (t : K), distSq2 (x v) (towards (x p) y t) - distSq2 (x p) (towards (x p) y t) =
      (1 - t) * distSq2 (x v) (x p) + t * (distSq2 (x v) y - distSq2 (x p) y) := by
    intro v t
    simp only [distSq2, towards]
    ring
  -- where the bisector is crossed
  let root : ℕ → K := fun v => distSq2 (x v) (x p) / (distSq2 (x v) (x p) + (distSq2 (x p) y - distSq2 (x v) y))
  obtain ⟨u, ⟨hu, hul⟩, hmin⟩ := Set.exists_min_image {v | v < s.mesh.numPoints ∧ distSq2 (x v) y < distSq2 (x p) y} root
    ((Set.finite_lt_nat s.mesh.numPoints).subset fun v hv => hv.1) ⟨w, hw, hlt⟩
  have nn : ∀ v, 0 ≤ distSq2 (x v) (x p) := fun v => distSq_nonneg _ _
  have hden : ∀ v, distSq2 (x v) y < distSq2 (x p) y → 0 < distSq2 (x v) (x p) + (distSq2 (x p) y - distSq2 (x v) y) :=
    fun v hv => by linarith [nn v]
  have hr0 : 0 ≤ root u := div_nonneg (nn u) (hden u hul).le
  have hr1 : root u ≤ 1 := by
    rw [div_le_one (hden u hul)]
    linarith
  have fz : distSq2 (x u) (towards (x p) y (root u)) - distSq2 (x p) (towards (x p) y (root u)) = 0 := by
    rw [f]
    have e : root u * (distSq2 (x u) (x p) + (distSq2 (x p) y - distSq2 (x u) y)) = distSq2 (x u) (x p) :=
      div_mul_cancel₀ _ (hden u hul).ne'
    linear_combination -e
  have hall : ∀ v, v < s.mesh.numPoints → 0 ≤ distSq2 (x v) (towards (x p) y (root u)) -
      distSq2 (x p) (towards (x p) y (root u)) := by
    intro v hv
    rw [f]
    by_cases hvl : distSq2 (x v) y < distSq2 (x p) y
    · have h1 := hmin v ⟨hv, hvl⟩
      have h2 : root v * (distSq2 (x v) (x p) + (distSq2 (x p) y - distSq2 (x v) y)) = distSq2 (x v) (x p) :=
        div_mul_cancel₀ _ (hden v hvl).ne'
      have h3 := mul_le_mul_of_nonneg_right h1 (hden v hvl).le
      rw [h2] at h3
      linarith
    · have h1 := not_lt.1 hvl
      have h2 := mul_nonneg (sub_nonneg.2 hr1) (nn v)
      have h3 := mul_nonneg hr0 (sub_nonneg.2 h1)
      linarith
  obtain ⟨i, a, b, c, hat, hpi, hui⟩ := P.edge_of_circle hp hu (o := towards (x p) y (root u))
    (rho := distSq2 (x p) (towards (x p) y (root u))) (sub_self _) fz hall
  have V := P.valid
  have : distSq2 (x p) y ≤ distSq2 (x u) y := by
    rcases hui with rfl | rfl | rfl
    · exact hy i _ _ _ hat hpi
    · refine hy i _ _ _ (V.cyc hat) ?_
      rcases hpi with h | h | h
      · exact Or.inr (Or.inr h)
      · exact Or.inl h
      · exact Or.inr (Or.inl h)
    · refine hy i _ _ _ (V.cyc' hat) ?_
      rcases hpi with h | h | h
      · exact Or.inr (Or.inl h)
      · exact Or.inr (Or.inr h)
      · exact Or.inl h
  exact absurd hul (not_lt.2 this)

/-- Scaling and moving all points does not change anything. -/
theorem PlaneOk.scale {x' : ℕ → P2 K} {s : State} {c1 c2 k : K} (hk : 0 < k)
    (hx : ∀ i, x' i = ⟨c1 + k * (x i).x, c2 + k * (x i).y⟩) (P : PlaneOk x' s) : PlaneOk x s := by
  have k2 : 0 < k ^ 2 := pow_pos hk 2
  let f : P2 K → P2 K := fun p => ⟨c1 + k * p.x, c2 + k * p.y⟩
  have hf : ∀ i, x' i = f (x i) := hx
  have ha : ∀ a b c : P2 K, area (f a) (f b) (f c) = k ^ 2 * area a b c := by
    intro a b c
    simp only [f, area_def]
    ring
  have hpos : ∀ {a b c : P2 K}, 0 < area (f a) (f b) (f c) ↔ 0 < area a b c := by
    intro a b c
    rw [ha, mul_pos_iff_of_pos_left k2]
  have hnn : ∀ {a b c : P2 K}, 0 ≤ area (f a) (f b) (f c) ↔ 0 ≤ area a b c := by
    intro a b c
    rw [ha, mul_nonneg_iff_of_pos_left k2]
  have hin : ∀ {a b c y : P2 K}, Inside (f a) (f b) (f c) (f y) ↔ Inside a b c y := by
    intro a b c y
    unfold Inside
    rw [hpos, hpos, hpos]
  have hwi : ∀ {a b c y : P2 K}, Within (f a) (f b) (f c) (f y) ↔ Within a b c y := by
    intro a b c y
    unfold Within
    rw [hnn, hnn, hnn]
  have hd : ∀ a b : P2 K, distSq2 (f a) (f b) = k ^ 2 * distSq2 a b := by
    intro a b
    simp only [f, distSq2]
    ring
  have hpw : ∀ {a b c y : P2 K}, 0 < area a b c → pw (f a) (f b) (f c) (f y) = k ^ 2 * pw a b c y := by
    intro a b c y h
    obtain ⟨e1, e2, e3⟩ := pw_vertices h.ne'
    have hpow : ∀ z, power (f (Triangle2.circumcentre ⟨a, b, c⟩)) (k ^ 2 * distSq2 a (Triangle2.circumcentre ⟨a, b, c⟩))
        (f z) = k ^ 2 * pw a b c z := by
      intro z
      unfold power pw power
      rw [hd]
      ring
    rw [← pw_unique (hpos.2 h).ne' (by rw [hpow, e1, mul_zero]) (by rw [hpow, e2, mul_zero])
      (by rw [hpow, e3, mul_zero]), hpow]
  have V := P.valid
  have hVpos : ∀ {i a b c : ℕ}, At s.mesh i a b c → 0 < area (x a) (x b) (x c) := by
    intro i a b c h
    have := V.pos h
    rw [hf, hf, hf, hpos] at this
    exact this
  refine ⟨P.ok, ?_, P.unique, ⟨V.cyc, V.uniq, V.lt, hVpos, ?_, ?_, ?_, V.fin, V.nonempty⟩, ?_, P.three, ?_, ?_, ?_⟩
  · intro i T hT v sl hs a b hab
    have := P.facing i T hT v sl hs a b hab
    rw [hf, hf, hf, hpos] at this
    exact this
  · intro i j a b c u v w h h' hne y hy hy'
    refine V.disjoint h h' hne (f y) ?_ ?_
    · rw [hf, hf, hf]
      exact hin.2 hy
    · rw [hf, hf, hf]
      exact hin.2 hy'
  · intro i a b c h
    rcases V.edge h with h1 | h1
    · exact Or.inl h1
    · right
      intro w hw
      have := h1 w hw
      rw [hf, hf, hf, hnn] at this
      exact this
  · intro i a b c h w hw hy
    refine V.clean h w hw ?_
    rw [hf, hf, hf, hf]
    exact hwi.2 hy
  · intro i a b c h w hw n1 n2 n3
    have := P.empty h w hw n1 n2 n3
    rw [hf, hf, hf, hf, hpw (hVpos h), mul_pos_iff_of_pos_left k2] at this
    exact this
  · intro w hw
    have := P.hull w hw
    rw [hf, hf, hf, hf] at this
    exact hwi.1 this
  · have := P.orient
    rw [hf, hf, hf, hpos] at this
    exact this
  · intro w h3 hw
    have := P.strict w h3 hw
    rw [hf, hf, hf, hf] at this
    exact hin.1 this

end Verif.Delaunay
