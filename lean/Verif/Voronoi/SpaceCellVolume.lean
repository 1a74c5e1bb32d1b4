import Verif.Voronoi.SpaceCellGeo

/-! # The volume of the Voronoi cell of an inserted point in space: lemmas -/

namespace Verif.Voronoi

open Verif.Delaunay
open Verif.Predicates (P3 orient3 distSq3 cross)

variable {x : ℕ → P3 ℝ}

theorem distSq3_comm' (a b : P3 ℝ) : distSq3 a b = distSq3 b a := by unfold distSq3; ring

/-- The Voronoi point of a tetrahedron. -/
theorem centre_at3 {eps : ℝ} (heps : 0 < eps) {s : State} (P : SpaceOk x s) {t : ℕ} {T : Delaunay.Tetra}
    (hT : s.mesh.tetras.get t = some T) :
    ∃ o, centre3 eps s.mesh x t = some o ∧ (∀ a ∈ T.points, ∀ b ∈ T.points, distSq3 o (x a) = distSq3 o (x b)) ∧
      ∀ a ∈ T.points, ∀ w, w < s.mesh.numPoints → w ∉ T.points → distSq3 o (x a) < distSq3 o (x w) := by
  obtain ⟨he, hcen⟩ := centres3_equidistant heps P.ok.cons (notFlat_of_space P)
  obtain ⟨o, ho⟩ := hcen t T hT
  refine ⟨o, ho, fun a ha b hb => he t T o hT ho a ha b hb, fun a ha w hw hwT => ?_⟩
  obtain ⟨a0, a1, a2, a3, hp, hat⟩ := At3.of_get P.ok.cons hT
  have hm : ∀ k, (![a0, a1, a2, a3] : Fin 4 → ℕ) k ∈ T.points := by
    obtain ⟨T', hT', _, h⟩ := hat
    rw [hT] at hT'
    cases hT'
    exact h
  have h := P.empty t _ hat w hw fun k e => hwT (e ▸ hm k)
  rw [pw3_sphere (P.space.solid.nondeg hat) (o := o) (rho := distSq3 o (x a)) (fun i => by
    rw [distSq3_comm', Function.comp_apply]
    exact he t T o hT ho _ (hm i) _ ha)] at h
  rw [distSq3_comm' (x w)] at h
  exact sub_pos.1 h

/-- The affine function which is zero in the middle between `x p` and `x w`, and 1 at `x p`. -/
noncomputable def half (x : ℕ → P3 ℝ) (p w : ℕ) (y : P3 ℝ) : ℝ := (distSq3 y (x w) - distSq3 y (x p)) / distSq3 (x w) (x p)

theorem half_aff (p w : ℕ) : IsAff (half x p w) := by
  have h : IsAff fun y => distSq3 y (x w) - distSq3 y (x p) := by
    intro y
    simp only [distSq3]
    ring
  have := h.mul (distSq3 (x w) (x p))⁻¹
  unfold half
  simpa only [div_eq_mul_inv] using this

/-- The middle of three points. -/
noncomputable def middle3 (a b c : P3 ℝ) : P3 ℝ := ⟨(a.x + b.x + c.x) / 3, (a.y + b.y + c.y) / 3, (a.z + b.z + c.z) / 3⟩

theorem middle3_aff {f : P3 ℝ → ℝ} (hf : IsAff f) (a b c : P3 ℝ) : f (middle3 a b c) = (f a + f b + f c) / 3 := by
  rw [hf (middle3 a b c), hf a, hf b, hf c]
  unfold middle3
  ring

/-- The cell of an inserted point as a polyhedron. -/
theorem cell_polyhedron {eps : ℝ} (heps : 0 < eps) {s : State} (P : SpaceOk x s) {p : ℕ} (hp : 4 ≤ p)
    (hpn : p < s.mesh.numPoints) :
    ∃ (c : ℕ → List ℕ) (g m : ℕ → P3 ℝ) (σ : ℕ → ℝ),
      (∀ q ∈ connectedPoints s.mesh p, (arranged (tetrasWithBoth s.mesh p q)
        fun t u => (commonFace s.mesh t u).isSome) = some (sidesOf (c q)) ∧
        (c q).Perm (tetrasWithBoth s.mesh p q) ∧ ((σ q = 1 ∧ ∀ t u, (t, u) ∈ sidesOf (c q) ↔ Follows3 x s.mesh p q t u) ∨
          (σ q = -1 ∧ ∀ t u, (t, u) ∈ sidesOf (c q) ↔ Follows3 x s.mesh p q u t))) ∧
      (∀ t T, s.mesh.tetras.get t = some T → centre3 eps s.mesh x t = some (g t)) ∧
      Polyhedron (connectedPoints s.mesh p).toFinset c g (x p) (half x p) m σ := by
  have hc := P.ok.cons
  have hring : ∀ q, ∃ (c : List ℕ) (σ : ℝ), q ∈ connectedPoints s.mesh p →
      (arranged (tetrasWithBoth s.mesh p q) fun t u => (commonFace s.mesh t u).isSome) = some (sidesOf c) ∧
      c.Perm (tetrasWithBoth s.mesh p q) ∧ 3 ≤ c.length ∧
      ((σ = 1 ∧ ∀ t u, (t, u) ∈ sidesOf c ↔ Follows3 x s.mesh p q t u) ∨
        (σ = -1 ∧ ∀ t u, (t, u) ∈ sidesOf c ↔ Follows3 x s.mesh p q u t)) := by
    intro q
    by_cases hq : q ∈ connectedPoints s.mesh p
    · obtain ⟨c, h1, h2, h3, h4⟩ := edge_ring P hp hq
      rcases h4 with h4 | h4
      · exact ⟨c, 1, fun _ => ⟨h1, h2, h3, Or.inl ⟨rfl, h4⟩⟩⟩
      · exact ⟨c, -1, fun _ => ⟨h1, h2, h3, Or.inr ⟨rfl, h4⟩⟩⟩
    · exact ⟨[], 0, fun h => absurd h hq⟩
  choose c σ hcσ using hring
  have hg : ∀ t, ∃ o, ∀ T, s.mesh.tetras.get t = some T → centre3 eps s.mesh x t = some o ∧
      (∀ a ∈ T.points, ∀ b ∈ T.points, distSq3 o (x a) = distSq3 o (x b)) ∧
      ∀ a ∈ T.points, ∀ w, w < s.mesh.numPoints → w ∉ T.points → distSq3 o (x a) < distSq3 o (x w) := by
    intro t
    cases hT : s.mesh.tetras.get t with
    | none => exact ⟨⟨0, 0, 0⟩, fun T h => by cases h⟩
    | some T =>
      obtain ⟨o, h⟩ := centre_at3 heps P hT
      refine ⟨o, fun T' hT' => ?_⟩
      cases hT'
      exact h
  choose g hg using hg
  have hlt : ∀ q ∈ connectedPoints s.mesh p, q < s.mesh.numPoints := by
    intro q hq
    obtain ⟨_, t, T, hT, _, hqT⟩ := (mem_connectedPoints hc).1 hq
    exact hc.points_lt t T hT q hqT
  have hne : ∀ q ∈ connectedPoints s.mesh p, q ≠ p := fun q hq => ((mem_connectedPoints hc).1 hq).1
  have hD : ∀ q ∈ connectedPoints s.mesh p, 0 < distSq3 (x q) (x p) := fun q hq =>
    distSq3_pos fun e => hne q hq (P.injective (hlt q hq) hpn e)
  have hmem : ∀ q ∈ connectedPoints s.mesh p, ∀ t, t ∈ c q ↔ ∃ T, s.mesh.tetras.get t = some T ∧ p ∈ T.points ∧ q ∈ T.points :=
    fun q hq t => ((hcσ q hq).2.1.mem_iff).trans (mem_tetrasWithBoth hc)
  have hzero : ∀ q ∈ connectedPoints s.mesh p, ∀ t ∈ c q, half x p q (g t) = 0 := by
    intro q hq t ht
    obtain ⟨T, hT, hpT, hqT⟩ := (hmem q hq t).1 ht
    unfold half
    rw [(hg t T hT).2.1 q hqT p hpT, sub_self, zero_div]
  have hpos : ∀ q ∈ connectedPoints s.mesh p, ∀ w ∈ connectedPoints s.mesh p, ∀ t ∈ c q, t ∉ c w → 0 < half x p w (g t) := by
    intro q hq w hw t ht hn
    obtain ⟨T, hT, hpT, hqT⟩ := (hmem q hq t).1 ht
    have hwT : w ∉ T.points := fun h => hn ((hmem w hw t).2 ⟨T, hT, hpT, h⟩)
    exact div_pos (sub_pos.2 ((hg t T hT).2.2 p hpT w (hlt w hw) hwT)) (hD w hw)
  have hnonneg : ∀ q ∈ connectedPoints s.mesh p, ∀ w ∈ connectedPoints s.mesh p, ∀ t ∈ c q, 0 ≤ half x p w (g t) := by
    intro q hq w hw t ht
    by_cases h : t ∈ c w
    · exact (hzero w hw t h).ge
    · exact (hpos q hq w hw t ht h).le
  have hnodup : ∀ q ∈ connectedPoints s.mesh p, (c q).Nodup := fun q hq =>
    (hcσ q hq).2.1.nodup_iff.2 (tetrasWithBoth_nodup hc p q)
  -- the middle
  have hm : ∀ q, ∃ m, q ∈ connectedPoints s.mesh p → half x p q m = 0 ∧
      ∀ w ∈ connectedPoints s.mesh p, w ≠ q → 0 < half x p w m := by
    intro q
    by_cases hq : q ∈ connectedPoints s.mesh p
    · have h3 := (hcσ q hq).2.2.1
      have hn := hnodup q hq
      have hs := (hcσ q hq).2.1
      match hl : c q, h3 with
      | t1 :: t2 :: t3 :: l, _ =>
        rw [hl] at hn hs
        simp only [List.nodup_cons, List.mem_cons, not_or] at hn
        have e1 : t1 ∈ c q := by rw [hl]; simp
        have e2 : t2 ∈ c q := by rw [hl]; simp
        have e3 : t3 ∈ c q := by rw [hl]; simp
        refine ⟨middle3 (g t1) (g t2) (g t3), fun _ => ⟨?_, fun w hw hwq => ?_⟩⟩
        · rw [middle3_aff (half_aff p q), hzero q hq _ e1, hzero q hq _ e2, hzero q hq _ e3]
          norm_num
        · rw [middle3_aff (half_aff p w)]
          have g1 := hnonneg q hq w hw t1 e1
          have g2 := hnonneg q hq w hw t2 e2
          have g3 := hnonneg q hq w hw t3 e3
          by_cases k1 : t1 ∈ c w
          · by_cases k2 : t2 ∈ c w
            · by_cases k3 : t3 ∈ c w
              · exfalso
                refine no_three P (Ne.symm (hne q hq)) (hne w hw) hwq hn.1.1 hn.1.2.1 hn.2.1.1 (fun t ht => ?_) fun t ht => ?_
                · refine hs.mem_iff.1 ?_
                  simp only [List.mem_cons, List.not_mem_nil, or_false] at ht ⊢
                  tauto
                · refine (hcσ w hw).2.1.mem_iff.1 ?_
                  simp only [List.mem_cons, List.not_mem_nil, or_false] at ht
                  rcases ht with rfl | rfl | rfl <;> assumption
              · have := hpos q hq w hw t3 e3 k3
                linarith
            · have := hpos q hq w hw t2 e2 k2
              linarith
          · have := hpos q hq w hw t1 e1 k1
            linarith
    · exact ⟨⟨0, 0, 0⟩, fun h => absurd h hq⟩
  choose m hm using hm
  -- one side
  have hside : ∀ q ∈ connectedPoints s.mesh p, ∀ t u, Follows3 x s.mesh p q t u →
      ∃ n ∈ connectedPoints s.mesh p, n ≠ q ∧ t ∈ c n ∧ u ∈ c n ∧ (∀ w ∈ c q, w ≠ t → w ≠ u → w ∉ c n) ∧
      ∃ k : ℝ, 0 < k ∧ ∀ y, vol ![x p, y, g t, g u] = k * (half x p n y - half x p q y) := by
    rintro q hq t u ⟨b, n, d, h1, h2⟩
    obtain ⟨T, hT, _⟩ := id h1.1
    obtain ⟨U, hU, _⟩ := id h2.1
    have n1 := h1.nodup
    have n2 := h2.nodup
    simp only [List.nodup_cons, List.mem_cons, List.not_mem_nil, or_false, not_or, not_false_eq_true, List.nodup_nil,
      and_true] at n1 n2
    have hpT : p ∈ T.points := (h1.mem hc hT p).2 (by simp)
    have hqT : q ∈ T.points := (h1.mem hc hT q).2 (by simp)
    have hnT : n ∈ T.points := (h1.mem hc hT n).2 (by simp)
    have hpU : p ∈ U.points := (h2.mem hc hU p).2 (by simp)
    have hqU : q ∈ U.points := (h2.mem hc hU q).2 (by simp)
    have hnU : n ∈ U.points := (h2.mem hc hU n).2 (by simp)
    have hdU : d ∈ U.points := (h2.mem hc hU d).2 (by simp)
    have hn : n ∈ connectedPoints s.mesh p := (mem_connectedPoints hc).2 ⟨Ne.symm n1.1.2.2, t, T, hT, hpT, hnT⟩
    refine ⟨n, hn, Ne.symm n1.2.1.2, (hmem n hn t).2 ⟨T, hT, hpT, hnT⟩, (hmem n hn u).2 ⟨U, hU, hpU, hnU⟩, ?_, ?_⟩
    · intro w hw hwt hwu hwn
      obtain ⟨b', c', h3⟩ := (mem_edge P (Ne.symm (hne q hq))).1 ((hcσ q hq).2.1.mem_iff.1 hw)
      obtain ⟨W, hW, _, hnW⟩ := (hmem n hn w).1 hwn
      rcases (h3.mem hc hW n).1 hnW with e | e | e | e
      · exact n1.1.2.2 e.symm
      · exact n1.2.1.2 e.symm
      · subst e
        exact hwu (h3.same_fst P h2)
      · subst e
        exact hwt (h3.same_snd P h1)
    · obtain ⟨-, a1, a2⟩ := hg t T hT
      obtain ⟨-, b1, b2⟩ := hg u U hU
      have hdT : d ∉ T.points := by
        intro h
        rcases (h1.mem hc hT d).1 h with e | e | e | e
        · exact n2.1.2.2 e.symm
        · exact n2.2.1.2 e.symm
        · subst e
          have g1 := h1.2
          have g2 := h2.2
          rw [vol_swap] at g2
          linarith
        · exact n2.2.2 e.symm
      have hv : 0 < vol ![x p, x q, x n, x d] := by
        have := h2.2
        rw [vol_def] at this ⊢
        exact this
      exact side_sign3 (a1 q hqT p hpT) (a1 n hnT p hpT) (b1 q hqU p hpU) (b1 n hnU p hpU) (b1 d hdU p hpU)
        (a2 p hpT d (hc.points_lt u U hU d hdU) hdT) hv
  refine ⟨c, g, m, σ, fun q hq => ⟨(hcσ q hq).1, (hcσ q hq).2.1, (hcσ q hq).2.2.2⟩, fun t T hT => (hg t T hT).1, ?_⟩
  · refine ⟨fun q _ => half_aff p q, ?_, ?_, ?_, ?_, ?_, ?_, ?_, ?_⟩ <;> simp only [List.mem_toFinset]
    · intro q hq
      have h0 : distSq3 (x p) (x p) = 0 := by unfold distSq3; ring
      unfold half
      rw [h0, sub_zero, distSq3_comm', div_self (hD q hq).ne']
    · exact hnodup
    · exact fun q hq => (hcσ q hq).2.2.1
    · exact hzero
    · exact hpos
    · exact fun q hq => (hm q hq).1
    · exact fun q hq => (hm q hq).2
    · rintro q hq ⟨t, u⟩ he
      dsimp only
      rcases (hcσ q hq).2.2.2 with ⟨h, hdir⟩ | ⟨h, hdir⟩
      · obtain ⟨n, hn, hnq, m1, m2, m3, k, hk, hy⟩ := hside q hq t u ((hdir t u).1 he)
        refine ⟨n, hn, hnq, m1, m2, m3, k, hk, fun y => ?_⟩
        rw [h, one_mul]
        exact hy y
      · obtain ⟨n, hn, hnq, m1, m2, m3, k, hk, hy⟩ := hside q hq u t ((hdir t u).1 he)
        refine ⟨n, hn, hnq, m2, m1, fun w hw k1 k2 => m3 w hw k2 k1, k, hk, fun y => ?_⟩
        rw [h, ← hy y]
        simp only [vol_def, Matrix.cons_val]
        ring

/-- The faces of the cell of an inserted point. -/
theorem cell_faces3 {eps : ℝ} (heps : 0 < eps) {s : State} (P : SpaceOk x s) {p : ℕ} (hp : 4 ≤ p)
    (hpn : p < s.mesh.numPoints) {F : List Face3} (hF : getFaces3 s.mesh x (centre3 eps s.mesh x) p = some F) :
    ∃ (c : ℕ → List ℕ) (g m : ℕ → P3 ℝ) (σ : ℕ → ℝ),
      Polyhedron (connectedPoints s.mesh p).toFinset c g (x p) (half x p) m σ ∧
      ∀ f ∈ F, f.connection ∈ connectedPoints s.mesh p ∧ x f.connection ≠ x p ∧
        f.points = (c f.connection).map g ∧ polygonArea f.points = some f.area ∧
        normalize3 ((x f.connection).sub (x p)) = some f.normal ∧
        distSq3 (m f.connection) (x f.connection) = distSq3 (m f.connection) (x p) ∧
        (∀ a ∈ f.points, distSq3 a (x f.connection) = distSq3 a (x p)) ∧
        (∀ y ∈ f.points, ∀ e ∈ sidesOf f.points, 0 ≤ σ f.connection * vol ![x p, y, e.1, e.2]) ∧
        (∀ e ∈ sidesOf f.points, 0 ≤ σ f.connection * vol ![x p, m f.connection, e.1, e.2]) ∧
        ((σ f.connection = 1 ∧ ∀ t u, (t, u) ∈ sidesOf (c f.connection) ↔ Follows3 x s.mesh p f.connection t u) ∨
          (σ f.connection = -1 ∧ ∀ t u, (t, u) ∈ sidesOf (c f.connection) ↔ Follows3 x s.mesh p f.connection u t)) := by
  have hc := P.ok.cons
  obtain ⟨he, hcen⟩ := centres3_equidistant heps hc (notFlat_of_space P)
  obtain ⟨c, g, m, σ, hcσ, hg, hP⟩ := cell_polyhedron heps P hp hpn
  refine ⟨c, g, m, σ, hP, fun f hf => ?_⟩
  have hlt : ∀ q ∈ connectedPoints s.mesh p, q < s.mesh.numPoints := by
    intro q hq
    obtain ⟨_, t, T, hT, _, hqT⟩ := (mem_connectedPoints hc).1 hq
    exact hc.points_lt t T hT q hqT
  have hne : ∀ q ∈ connectedPoints s.mesh p, x q ≠ x p := fun q hq e =>
    ((mem_connectedPoints hc).1 hq).1 (P.injective (hlt q hq) hpn e)
  have hq : f.connection ∈ connectedPoints s.mesh p := by
    rw [← connections_eq hF]
    exact List.mem_map.2 ⟨f, hf, rfl⟩
  obtain ⟨q, hq', hfq⟩ := (mem_of_mapM hF).1 hf
  obtain ⟨l, h1, h2, h3, h4, h5⟩ := facePolygon_spec hfq
  subst h5
  obtain ⟨h6, hperm, hdir⟩ := hcσ _ hq
  rw [h6, Option.some.injEq] at h1
  subst h1
  have hq'' := List.mem_toFinset.2 hq
  have hpts : f.points = (c f.connection).map g := by
    have e1 : (sidesOf (c f.connection)).mapM (fun e => centre3 eps s.mesh x e.1) =
        some ((sidesOf (c f.connection)).map fun e => g e.1) := by
      rw [mapM_iff_map, List.map_map]
      refine List.map_congr_left fun e he => ?_
      obtain ⟨T, hT, _⟩ := (mem_tetrasWithBoth hc).1 (hperm.mem_iff.1 (mem_sidesOf he).1)
      exact hg e.1 T hT
    rw [e1, Option.some.injEq] at h2
    rw [← h2]
    have : (sidesOf (c f.connection)).map Prod.fst = c f.connection := by
      unfold sidesOf
      rw [List.map_fst_zip (by simp)]
    conv_rhs => rw [← this]
    rw [List.map_map]
    rfl
  have hsides : sidesOf f.points = (sidesOf (c f.connection)).map fun e => (g e.1, g e.2) := by
    rw [hpts, sidesOf_map]
  refine ⟨hq, hne _ hq, hpts, h4, h3, ?_, fun a ha => ((face_in_bisector hc he hF hf).2 a ha).symm, ?_, ?_, hdir⟩
  · have := hP.mid _ hq''
    unfold half at this
    rcases div_eq_zero_iff.1 this with h | h
    · exact sub_eq_zero.1 h
    · exact absurd h (distSq3_pos (hne _ hq)).ne'
  · rw [hsides, hpts]
    intro r hr e he
    obtain ⟨w, hw, rfl⟩ := List.mem_map.1 hr
    obtain ⟨e', he', rfl⟩ := List.mem_map.1 he
    obtain ⟨n, hn, hnq, _, _, _, k, hk, hy⟩ := hP.side _ hq'' e' he'
    dsimp only
    rw [hy, hP.zero _ hq'' w hw, sub_zero]
    exact mul_nonneg hk.le (hP.nonneg hq'' hn hw)
  · rw [hsides]
    intro e he
    obtain ⟨e', he', rfl⟩ := List.mem_map.1 he
    exact (hP.piece_pos hq'' he').le

/-- **The volume of a cell is the volume of the region of nearest places.** -/
theorem cell_volume3 {eps : ℝ} (heps : 0 < eps) {s : State} (P : SpaceOk x s) {p : ℕ} (hp : 4 ≤ p)
    (hpn : p < s.mesh.numPoints) :
    ∃ F V, getFaces3 s.mesh x (centre3 eps s.mesh x) p = some F ∧ volume3 F (x p) = some V ∧ 0 < V ∧
      MeasureTheory.volume {v : Fin 3 → ℝ | ∀ w, w < s.mesh.numPoints → w ≠ p →
        distSq3 (at3 v) (x p) < distSq3 (at3 v) (x w)} = ENNReal.ofReal V := by
  have hc := P.ok.cons
  obtain ⟨he, hcen⟩ := centres3_equidistant heps hc (notFlat_of_space P)
  obtain ⟨F, hF, -, hcont⟩ := cell_contains3 heps P hp hpn
  obtain ⟨c, g, m, σ, hP, hface⟩ := cell_faces3 heps P hp hpn hF
  have hcon : F.map Face3.connection = connectedPoints s.mesh p := connections_eq hF
  have hQ : (connectedPoints s.mesh p).toFinset.Nonempty := by
    obtain ⟨i, σ', k, hat, hk⟩ := P.vertex hpn
    obtain ⟨T, hT, hinj, hmem⟩ := hat
    obtain ⟨j, hj⟩ : ∃ j, j ≠ k := exists_ne k
    refine ⟨σ' j, List.mem_toFinset.2 ((mem_connectedPoints hc).2 ⟨fun e => hj (hinj (e.trans hk.symm)), i, T, hT, ?_, hmem j⟩)⟩
    rw [← hk]
    exact hmem k
  have hreg : {v : Fin 3 → ℝ | ∀ w, w < s.mesh.numPoints → w ≠ p → distSq3 (at3 v) (x p) < distSq3 (at3 v) (x w)} =
      {v | ∀ q ∈ (connectedPoints s.mesh p).toFinset, 0 < half x p q (at3 v)} := by
    ext v
    rw [Set.mem_ofPred_eq, Set.mem_ofPred_eq, ← hcont, contains3_iff hc he hF]
    simp only [List.mem_toFinset, ← hcon, List.forall_mem_map]
    refine forall₂_congr fun f hf => ?_
    unfold half
    rw [div_pos_iff_of_pos_right (distSq3_pos (hface f hf).2.1), sub_pos]
  have hsum : (F.map fun f => f.area * (length3 ((x f.connection).sub (x p)) / 2) / 3).sum =
      ∑ q ∈ (connectedPoints s.mesh p).toFinset, ((sidesOf (c q)).map fun e => |vol ![x p, m q, g e.1, g e.2]| / 6).sum := by
    rw [← hcon, List.sum_toFinset _ (connections3 hc hF).1, List.map_map]
    congr 1
    refine List.map_congr_left fun f hf => ?_
    obtain ⟨_, h1, h2, h3, _, h4, h5, h6, h7, h8⟩ := hface f hf
    have hσ : σ f.connection = 1 ∨ σ f.connection = -1 := h8.imp And.left And.left
    rw [pyramid_pieces h1 h4 h5 hσ h7 h6 h3, h2, sidesOf_map, List.map_map]
    rfl
  refine ⟨F, _, hF, volume3_eq hc he hF, ?_, ?_⟩
  · rw [hsum]
    refine Finset.sum_pos (fun q hq => ?_) hQ
    refine List.sum_pos _ ?_ ?_
    · intro z hz
      obtain ⟨e, he, rfl⟩ := List.mem_map.1 hz
      have := abs_pos.2 (hP.piece_ne hq he)
      positivity
    · intro h
      have h := List.map_eq_nil_iff.1 h
      have := hP.sides_nonempty hq
      rw [h] at this
      simp at this
  · rw [hreg, hP.volume_eq hQ, hsum]

/-- **The face between two points is the same in both cells, with the same area.** -/
theorem faces_agree3 {eps : ℝ} (heps : 0 < eps) {s : State} (P : SpaceOk x s) {p q : ℕ} (hp : 4 ≤ p)
    (hpn : p < s.mesh.numPoints) {F G : List Face3} (hF : getFaces3 s.mesh x (centre3 eps s.mesh x) p = some F)
    (hG : getFaces3 s.mesh x (centre3 eps s.mesh x) q = some G) {f : Face3} (hf : f ∈ F) (hq : f.connection = q) :
    ∃ g ∈ G, g.connection = p ∧ SamePolygon f.points g.points ∧
      g.normal = ⟨-f.normal.x, -f.normal.y, -f.normal.z⟩ ∧ g.area = f.area := by
  obtain ⟨k, hk, h1, h2, h3, -⟩ := neighbours_agree3 P.ok.cons (distinct_of_space P) hF hG hf hq
  refine ⟨k, hk, h1, h2, h3, ?_⟩
  obtain ⟨c, g, m, σ, hP, hface⟩ := cell_faces3 heps P hp hpn hF
  obtain ⟨_, k1, k2, k3, _, k4, k5, k6, k7, k8⟩ := hface f hf
  obtain ⟨w, hw, hkw⟩ := (mem_of_mapM hG).1 hk
  obtain ⟨l, _, _, _, k9, _⟩ := facePolygon_spec hkw
  exact area_same k1 k5 (k8.imp And.left And.left) k6 h2 k3 k9

/-! ### The faces close the cell -/

/-- The sum of an antisymmetric function over directed sides, if every side occurs once in each direction. -/
theorem sum_antisymm {Q : Finset ℕ} {S : ℕ → Finset (ℕ × ℕ)} (hnext : ∀ q ∈ Q, ∀ e ∈ S q, ∃ n ∈ Q, (e.2, e.1) ∈ S n)
    (huniq : ∀ q ∈ Q, ∀ n ∈ Q, ∀ e ∈ S q, e ∈ S n → q = n) (hne : ∀ q ∈ Q, ∀ e ∈ S q, e.1 ≠ e.2) {h : ℕ → ℕ → ℝ}
    (hh : ∀ a b, h b a = -h a b) : ∑ q ∈ Q, ∑ e ∈ S q, h e.1 e.2 = 0 := by
  rw [← Finset.sum_sigma Q S (fun j => h j.2.1 j.2.2)]
  have hn : ∀ j ∈ Q.sigma S, ∃ n ∈ Q, (j.2.2, j.2.1) ∈ S n := by
    intro j hj
    obtain ⟨h1, h2⟩ := Finset.mem_sigma.1 hj
    exact hnext _ h1 _ h2
  choose n hnQ hnS using hn
  refine Finset.sum_involution (fun j hj => ⟨n j hj, (j.2.2, j.2.1)⟩) ?_ ?_ ?_ ?_
  · intro j hj
    dsimp only
    rw [hh j.2.1 j.2.2]
    ring
  · intro j hj _ heq
    obtain ⟨h1, h2⟩ := Finset.mem_sigma.1 hj
    have := congrArg (fun j : (_ : ℕ) × ℕ × ℕ => j.2.1) heq
    exact hne _ h1 _ h2 this.symm
  · intro j hj
    exact Finset.mem_sigma.2 ⟨hnQ j hj, hnS j hj⟩
  · intro j hj
    obtain ⟨h1, h2⟩ := Finset.mem_sigma.1 hj
    have hm : (⟨n j hj, (j.2.2, j.2.1)⟩ : (_ : ℕ) × ℕ × ℕ) ∈ Q.sigma S := Finset.mem_sigma.2 ⟨hnQ j hj, hnS j hj⟩
    have := huniq _ (hnQ _ hm) _ h1 _ (hnS _ hm) h2
    exact Sigma.ext this HEq.rfl

/-- The area of a face and its normal from the vertices. -/
theorem face_vector {p q m : P3 ℝ} (hpq : q ≠ p) (hm : distSq3 m q = distSq3 m p) {l : List (P3 ℝ)}
    (hl : ∀ a ∈ l, distSq3 a q = distSq3 a p) {σ : ℝ} (hσ : σ = 1 ∨ σ = -1)
    (h1 : ∀ e ∈ sidesOf l, 0 ≤ σ * vol ![p, m, e.1, e.2])
    (h2 : ∀ r ∈ l, ∀ e ∈ sidesOf l, 0 ≤ σ * vol ![p, r, e.1, e.2]) {A : ℝ} (hA : polygonArea l = some A)
    {n : P3 ℝ} (hn : normalize3 (q.sub p) = some n) (y : P3 ℝ) :
    2 * (A * Predicates.dot n (y.sub p)) = σ * ((sidesOf l).map fun e => vol ![p, y, e.1, e.2]).sum := by
  have hD := distSq3_pos hpq
  have hlen2 : length3 (q.sub p) * length3 (q.sub p) = distSq3 q p := by
    rw [length3_sq]
    unfold distSq3 P3.sub
    ring
  have hlen : 0 < length3 (q.sub p) := by
    refine length3_pos fun h0 => ?_
    rw [h0, mul_zero] at hlen2
    linarith
  -- the sum at the middle
  have hC : σ * ((sidesOf l).map fun e => vol ![p, m, e.1, e.2]).sum = A * length3 (q.sub p) := by
    have e1 := pyramid_pieces hpq hm hl hσ h1 h2 hA
    have e2 : ((sidesOf l).map fun e => |vol ![p, m, e.1, e.2]| / 6).sum =
        ((sidesOf l).map fun e => vol ![p, m, e.1, e.2]).sum * (σ / 6) := by
      rw [← List.sum_map_mul_right]
      congr 1
      refine List.map_congr_left fun e he => ?_
      have := h1 e he
      rcases hσ with rfl | rfl
      · rw [one_mul] at this
        rw [abs_of_nonneg this]
        ring
      · rw [neg_one_mul] at this
        rw [abs_of_nonpos (by linarith)]
        ring
    rw [e2] at e1
    linarith
  -- the sum at any place
  obtain ⟨d, hd⟩ : ∃ d, d = (y.x - p.x) * (q.x - p.x) + (y.y - p.y) * (q.y - p.y) + (y.z - p.z) * (q.z - p.z) := ⟨_, rfl⟩
  obtain ⟨s, hs⟩ : ∃ s, s = 2 * d / distSq3 q p := ⟨_, rfl⟩
  have hs' : s * distSq3 q p = 2 * d := by rw [hs, div_mul_cancel₀ _ hD.ne']
  have hy : ((sidesOf l).map fun e => vol ![p, y, e.1, e.2]).sum =
      s * ((sidesOf l).map fun e => vol ![p, m, e.1, e.2]).sum := by
    obtain ⟨z, hz⟩ : ∃ z : P3 ℝ, z = ⟨y.x + (1 - s) * (m.x - p.x), y.y + (1 - s) * (m.y - p.y),
      y.z + (1 - s) * (m.z - p.z)⟩ := ⟨_, rfl⟩
    have hzd : distSq3 z q = distSq3 z p := by
      have e3 : 2 * ((m.x - p.x) * (q.x - p.x) + (m.y - p.y) * (q.y - p.y) + (m.z - p.z) * (q.z - p.z)) = distSq3 q p := by
        unfold distSq3 at *
        linear_combination (-1) * hm
      have e4 : distSq3 z q - distSq3 z p = distSq3 q p - 2 * d - (1 - s) *
          (2 * ((m.x - p.x) * (q.x - p.x) + (m.y - p.y) * (q.y - p.y) + (m.z - p.z) * (q.z - p.z))) := by
        rw [hz, hd]
        unfold distSq3
        ring
      rw [e3] at e4
      linarith
    have e5 := fan_shift hpq hzd hm hl
    have e6 : ((sidesOf l).map fun e => vol ![p, z, e.1, e.2]).sum = ((sidesOf l).map fun e => vol ![p, y, e.1, e.2]).sum +
        (1 - s) * ((sidesOf l).map fun e => vol ![p, m, e.1, e.2]).sum := by
      rw [← List.sum_map_mul_left, ← List.sum_map_add]
      congr 1
      refine List.map_congr_left fun e _ => ?_
      rw [hz]
      simp only [vol_def, Matrix.cons_val]
      ring
    rw [e6] at e5
    linarith
  have hdot : Predicates.dot n (y.sub p) * length3 (q.sub p) = d := by
    unfold normalize3 at hn
    rw [if_neg hlen.ne'] at hn
    cases hn
    rw [hd]
    unfold Predicates.dot P3.sub at *
    dsimp only
    field_simp
  rw [hy, mul_left_comm σ s, hC]
  have : distSq3 q p * (2 * (A * Predicates.dot n (y.sub p)) - s * (A * length3 (q.sub p))) = 0 := by
    rw [← hlen2] at hs' ⊢
    linear_combination 2 * A * length3 (q.sub p) * hdot - A * length3 (q.sub p) * hs'
  rcases mul_eq_zero.1 this with h | h
  · exact absurd h hD.ne'
  · linarith

/-- A tetrahedron at an edge is one at the next edges. -/
theorem wedge_turn {x : ℕ → P3 ℝ} {M : Mesh} {i p q b c : ℕ} (h : Wedge x M i p q b c) : Wedge x M i p b c q := by
  have e : ![p, b, c, q] = ![p, q, b, c] ∘ (finRotate 3).viaFintypeEmbedding (Fin.succEmb 3) := by
    funext k
    fin_cases k <;> rfl
  refine ⟨?_, ?_⟩
  · rw [e]
    exact h.1.perm _
  · have := h.2
    rw [vol_def] at this ⊢
    simp only [Function.comp_apply, Matrix.cons_val] at this ⊢
    linarith

/-- The successor at an edge, seen from the edge to the point which the two tetrahedra share. -/
theorem follows_back {x : ℕ → P3 ℝ} {M : Mesh} {p q b c d t u : ℕ} (h1 : Wedge x M t p q b c) (h2 : Wedge x M u p q c d) :
    Follows3 x M p c u t := ⟨d, q, b, wedge_turn h2, wedge_turn (wedge_turn h1)⟩

theorem wedge_opposite {x : ℕ → P3 ℝ} {M : Mesh} {p q b c t u : ℕ} (h1 : Wedge x M t p q b c) (h2 : Wedge x M u p q c b) :
    False := by
  have a := h1.2
  have b' := h2.2
  rw [vol_swap] at b'
  linarith

theorem follows_unique {s : State} (P : SpaceOk x s) {p q n t u : ℕ} (h : Follows3 x s.mesh p q t u)
    (h' : Follows3 x s.mesh p n t u) : q = n := by
  have hc := P.ok.cons
  obtain ⟨b, c, d, h1, h2⟩ := h
  obtain ⟨b', c', d', k1, k2⟩ := h'
  obtain ⟨T, hT, _⟩ := id h1.1
  obtain ⟨U, hU, _⟩ := id h2.1
  have n1 := k1.nodup
  simp only [List.nodup_cons, List.mem_cons, List.not_mem_nil, or_false, not_or, not_false_eq_true, List.nodup_nil,
    and_true] at n1
  obtain ⟨⟨hpn, _, _⟩, _⟩ := n1
  have m1 := (h1.mem hc hT n).1 ((k1.mem hc hT n).2 (by simp))
  have m2 := (h2.mem hc hU n).1 ((k2.mem hc hU n).2 (by simp))
  have n2 := h1.nodup
  have n3 := h2.nodup
  simp only [List.nodup_cons, List.mem_cons, List.not_mem_nil, or_false, not_or, not_false_eq_true, List.nodup_nil,
    and_true] at n2 n3
  obtain ⟨⟨f1, f2, f3⟩, ⟨f4, f5⟩, f6⟩ := n2
  rcases m1 with e | e | e | e
  · exact absurd e.symm hpn
  · exact e.symm
  · subst e
    rcases m2 with e | e | e | e
    · exact absurd e.symm hpn
    · exact e.symm
    · exact absurd e f6
    · subst e
      exact absurd h2 fun h => wedge_opposite h1 h
  · subst e
    obtain ⟨rfl, rfl⟩ := k1.pair P (wedge_turn (wedge_turn h1))
    have m3 := (h2.mem hc hU c').1 ((k2.mem hc hU c').2 (by simp))
    rcases m3 with e | e | e | e
    · exact absurd e.symm f2
    · exact absurd e.symm f4
    · exact absurd e f6
    · subst e
      exact absurd h2 fun h => wedge_opposite h1 h

/-- **The faces of a cell are closed**: the sum of the areas of the faces times their normals is zero. -/
theorem cell_closed3 {eps : ℝ} (heps : 0 < eps) {s : State} (P : SpaceOk x s) {p : ℕ} (hp : 4 ≤ p)
    (hpn : p < s.mesh.numPoints) {F : List Face3} (hF : getFaces3 s.mesh x (centre3 eps s.mesh x) p = some F) (d : P3 ℝ) :
    (F.map fun f => f.area * Predicates.dot f.normal d).sum = 0 := by
  classical
  have hc := P.ok.cons
  obtain ⟨c, g, m, σ, hP, hface⟩ := cell_faces3 heps P hp hpn hF
  have hcon : F.map Face3.connection = connectedPoints s.mesh p := connections_eq hF
  obtain ⟨y, hy⟩ : ∃ y : P3 ℝ, y = ⟨(x p).x + d.x, (x p).y + d.y, (x p).z + d.z⟩ := ⟨_, rfl⟩
  have hyd : y.sub (x p) = d := by
    rw [hy]
    unfold P3.sub
    simp
  obtain ⟨S, hS⟩ : ∃ S : ℕ → Finset (ℕ × ℕ), S = fun q =>
      (if σ q = 1 then sidesOf (c q) else (sidesOf (c q)).map Prod.swap).toFinset := ⟨_, rfl⟩
  have hof : ∀ q ∈ (connectedPoints s.mesh p).toFinset, ∃ f ∈ F, f.connection = q := by
    intro q hq
    rw [List.mem_toFinset, ← hcon] at hq
    exact List.mem_map.1 hq
  have hmem : ∀ q ∈ (connectedPoints s.mesh p).toFinset, ∀ e, e ∈ S q ↔ Follows3 x s.mesh p q e.1 e.2 := by
    intro q hq e
    obtain ⟨f, hf, rfl⟩ := hof q hq
    obtain ⟨_, _, _, _, _, _, _, _, _, h8⟩ := hface f hf
    rw [hS]
    dsimp only
    rw [List.mem_toFinset]
    rcases h8 with ⟨e1, h⟩ | ⟨e1, h⟩
    · rw [if_pos e1, ← h]
    · rw [if_neg (by rw [e1]; norm_num), ← h, List.mem_map]
      constructor
      · rintro ⟨a, ha, rfl⟩
        exact ha
      · intro ha
        exact ⟨(e.2, e.1), ha, rfl⟩
  have hanti : ∀ a b : ℕ, vol ![x p, y, g b, g a] = -vol ![x p, y, g a, g b] := by
    intro a b
    rw [vol_def, vol_def]
    simp only [Matrix.cons_val]
    ring
  have hsum : ∑ q ∈ (connectedPoints s.mesh p).toFinset, ∑ e ∈ S q, vol ![x p, y, g e.1, g e.2] = 0 := by
    refine sum_antisymm (h := fun a b => vol ![x p, y, g a, g b]) ?_ ?_ ?_ hanti
    · intro q hq e he
      obtain ⟨b, n, d', h1, h2⟩ := (hmem q hq e).1 he
      have hnq : n ∈ (connectedPoints s.mesh p).toFinset := by
        rw [List.mem_toFinset, mem_connectedPoints hc]
        obtain ⟨T, hT, _⟩ := id h1.1
        have n1 := h1.nodup
        simp only [List.nodup_cons, List.mem_cons, List.not_mem_nil, or_false, not_or] at n1
        exact ⟨Ne.symm n1.1.2.2, e.1, T, hT, (h1.mem hc hT p).2 (by simp), (h1.mem hc hT n).2 (by simp)⟩
      exact ⟨n, hnq, (hmem n hnq _).2 (follows_back h1 h2)⟩
    · intro q hq n hn e he he'
      exact follows_unique P ((hmem q hq e).1 he) ((hmem n hn e).1 he')
    · intro q hq e he heq
      obtain ⟨b, n, d', h1, h2⟩ := (hmem q hq e).1 he
      rw [← heq] at h2
      obtain ⟨rfl, -⟩ := h1.pair P h2
      have n1 := h1.nodup
      simp at n1
  have h2 : (F.map fun f => 2 * (f.area * Predicates.dot f.normal d)).sum =
      ∑ q ∈ (connectedPoints s.mesh p).toFinset, ∑ e ∈ S q, vol ![x p, y, g e.1, g e.2] := by
    rw [← hcon, List.sum_toFinset _ (connections3 hc hF).1, List.map_map]
    congr 1
    refine List.map_congr_left fun f hf => ?_
    obtain ⟨hq, k1, k2, k3, kn, k4, k5, k6, k7, k8⟩ := hface f hf
    have hnd := sidesOf_nodup (hP.nodup _ (List.mem_toFinset.2 hq))
    rw [← hyd, face_vector k1 k4 k5 (k8.imp And.left And.left) k7 k6 k3 kn y, k2, sidesOf_map, List.map_map, hS]
    dsimp only [Function.comp_apply]
    rcases k8 with ⟨e1, -⟩ | ⟨e1, -⟩
    · rw [if_pos e1, e1, one_mul, List.sum_toFinset _ hnd]
      rfl
    · rw [if_neg (by rw [e1]; norm_num), e1, List.sum_toFinset _ (hnd.map Prod.swap_injective), List.map_map,
        ← List.sum_map_mul_left]
      congr 1
      refine List.map_congr_left fun e _ => ?_
      dsimp only [Function.comp_apply, Prod.fst_swap, Prod.snd_swap]
      rw [hanti]
      ring
  rw [hsum, List.sum_map_mul_left] at h2
  linarith

/-- The faces of a cell have positive areas. -/
theorem cell_area_pos3 {eps : ℝ} (heps : 0 < eps) {s : State} (P : SpaceOk x s) {p : ℕ} (hp : 4 ≤ p)
    (hpn : p < s.mesh.numPoints) {F : List Face3} (hF : getFaces3 s.mesh x (centre3 eps s.mesh x) p = some F) :
    ∀ f ∈ F, 0 < f.area := by
  intro f hf
  obtain ⟨c, g, m, σ, hP, hface⟩ := cell_faces3 heps P hp hpn hF
  obtain ⟨hq, k1, k2, k3, kn, k4, k5, k6, k7, k8⟩ := hface f hf
  have hq := List.mem_toFinset.2 hq
  have h := pyramid_pieces k1 k4 k5 (k8.imp And.left And.left) k7 k6 k3
  have hpos : 0 < ((sidesOf f.points).map fun e => |vol ![x p, m f.connection, e.1, e.2]| / 6).sum := by
    rw [k2, sidesOf_map, List.map_map]
    refine List.sum_pos _ ?_ ?_
    · intro z hz
      obtain ⟨e, he, rfl⟩ := List.mem_map.1 hz
      have := abs_pos.2 (hP.piece_ne hq he)
      dsimp only [Function.comp_apply]
      positivity
    · intro h
      have h := List.map_eq_nil_iff.1 h
      have := hP.sides_nonempty hq
      rw [h] at this
      simp at this
  rw [← h] at hpos
  have hl : 0 ≤ length3 ((x f.connection).sub (x p)) := Real.sqrt_nonneg _
  by_contra hneg
  have := mul_nonneg (neg_nonneg.2 (not_lt.1 hneg)) hl
  linarith

/-- In every direction there is a neighbour. -/
theorem cell_downwind3 {eps : ℝ} (heps : 0 < eps) {s : State} (P : SpaceOk x s) {p : ℕ} (hp : 4 ≤ p)
    (hpn : p < s.mesh.numPoints) {F : List Face3} (hF : getFaces3 s.mesh x (centre3 eps s.mesh x) p = some F) {d : P3 ℝ}
    (hd : d ≠ ⟨0, 0, 0⟩) : ∃ f ∈ F, 0 < Predicates.dot f.normal d := by
  have hc := P.ok.cons
  obtain ⟨c, g, m, σ, hP, hface⟩ := cell_faces3 heps P hp hpn hF
  have hcon : F.map Face3.connection = connectedPoints s.mesh p := connections_eq hF
  have hdd : 0 < d.x * d.x + d.y * d.y + d.z * d.z := by
    by_contra hn
    have h1 := mul_self_nonneg d.x
    have h2 := mul_self_nonneg d.y
    have h3 := mul_self_nonneg d.z
    exact hd (P3.ext (mul_self_eq_zero.1 (by linarith)) (mul_self_eq_zero.1 (by linarith)) (mul_self_eq_zero.1 (by linarith)))
  obtain ⟨h, hh⟩ : ∃ h : P3 ℝ → ℝ, h = fun y => (y.x - (x p).x) * d.x + (y.y - (x p).y) * d.y + (y.z - (x p).z) * d.z :=
    ⟨_, rfl⟩
  have haff : IsAff h := by
    intro y
    rw [hh]
    ring
  obtain ⟨i, τ, k, hat, hk, hco⟩ := P.cone hp (P.vertex hpn) ⟨(x p).x + d.x, (x p).y + d.y, (x p).z + d.z⟩
  have hb := haff.bary (P.space.solid.nondeg hat) ⟨(x p).x + d.x, (x p).y + d.y, (x p).z + d.z⟩
  have hval : h ⟨(x p).x + d.x, (x p).y + d.y, (x p).z + d.z⟩ = d.x * d.x + d.y * d.y + d.z * d.z := by
    rw [hh]
    ring
  rw [hval] at hb
  rw [hb] at hdd
  obtain ⟨l, -, hl⟩ := Finset.exists_lt_of_sum_lt (s := Finset.univ) (f := fun _ : Fin 4 => (0 : ℝ)) (by simpa using hdd)
  have hlk : l ≠ k := by
    rintro rfl
    rw [hk, hh] at hl
    simp at hl
  have hl' : 0 < h (x (τ l)) := by
    by_contra hneg
    have := mul_nonneg (hco l hlk) (neg_nonneg.2 (not_lt.1 hneg))
    linarith
  have hq : τ l ∈ F.map Face3.connection := by
    rw [hcon, mem_connectedPoints hc]
    obtain ⟨T, hT, hinj, hmem⟩ := hat
    exact ⟨fun e => hlk (hinj (e.trans hk.symm)), i, T, hT, hk ▸ hmem k, hmem l⟩
  obtain ⟨f, hf, hfq⟩ := List.mem_map.1 hq
  refine ⟨f, hf, ?_⟩
  obtain ⟨_, _, _, _, kn, _⟩ := hface f hf
  rw [hfq] at kn
  unfold normalize3 at kn
  split at kn
  · cases kn
  · rename_i h0
    have hp0 : 0 < length3 ((x (τ l)).sub (x p)) := length3_pos h0
    rw [← Option.some.inj kn]
    rw [hh] at hl'
    have e : Predicates.dot ⟨((x (τ l)).sub (x p)).x / length3 ((x (τ l)).sub (x p)),
        ((x (τ l)).sub (x p)).y / length3 ((x (τ l)).sub (x p)), ((x (τ l)).sub (x p)).z / length3 ((x (τ l)).sub (x p))⟩ d =
        (((x (τ l)).x - (x p).x) * d.x + ((x (τ l)).y - (x p).y) * d.y + ((x (τ l)).z - (x p).z) * d.z) /
          length3 ((x (τ l)).sub (x p)) := by
      unfold Predicates.dot
      generalize length3 ((x (τ l)).sub (x p)) = L
      unfold P3.sub
      dsimp only
      ring
    rw [e]
    exact div_pos hl' hp0

end Verif.Voronoi
