import Verif.Voronoi.NextCycle
import Verif.Voronoi.CellProps3
import Verif.Delaunay.SpaceStar

/-! # Voronoi cells of a Delaunay mesh of space: lemmas -/

namespace Verif.Voronoi

open Verif.Delaunay
open Verif.Predicates (P3 orient3 distSq3)

section
variable {K : Type} [Field K] [LinearOrder K] [IsStrictOrderedRing K] {x : ℕ → P3 K}

/-- The tetrahedron `u` follows the tetrahedron `t` around the edge from `p` to `q`. -/
def Follows3 (x : ℕ → P3 K) (M : Mesh) (p q t u : ℕ) : Prop := ∃ b c d, Wedge x M t p q b c ∧ Wedge x M u p q c d

theorem next_fun3 {s : State} (P : SpaceOk x s) {p q t u v : ℕ} (h : Follows3 x s.mesh p q t u)
    (h' : Follows3 x s.mesh p q t v) : u = v := by
  obtain ⟨b, c, d, h1, h2⟩ := h
  obtain ⟨b', c', d', h1', h2'⟩ := h'
  obtain ⟨_, rfl⟩ := h1.pair P h1'
  exact h2.same_fst P h2'

theorem next_inj3 {s : State} (P : SpaceOk x s) {p q t u v : ℕ} (h : Follows3 x s.mesh p q t v)
    (h' : Follows3 x s.mesh p q u v) : t = u := by
  obtain ⟨b, c, d, h1, h2⟩ := h
  obtain ⟨b', c', d', h1', h2'⟩ := h'
  obtain ⟨rfl, _⟩ := h2.pair P h2'
  exact h1.same_snd P h1'

theorem mem_edge {s : State} (P : SpaceOk x s) {p q t : ℕ} (hpq : p ≠ q) :
    t ∈ tetrasWithBoth s.mesh p q ↔ ∃ b c, Wedge x s.mesh t p q b c := by
  rw [mem_tetrasWithBoth P.ok.cons]
  constructor
  · rintro ⟨T, hT, hp, hq⟩
    exact exists_wedge P hT hp hq hpq
  · rintro ⟨b, c, h⟩
    obtain ⟨T, hT, _⟩ := id h.1
    exact ⟨T, hT, (h.mem P.ok.cons hT p).2 (Or.inl rfl), (h.mem P.ok.cons hT q).2 (Or.inr (Or.inl rfl))⟩

/-- Different tetrahedra have different vertices. -/
theorem distinct_of_space {s : State} (P : SpaceOk x s) : Distinct s.mesh := by
  intro i j T U hT hU hx
  obtain ⟨a, b, c, d, hp, hat⟩ := At3.of_get P.ok.cons hT
  refine P.space.solid.unique' hat ⟨U, hU, ?_, fun k => ?_⟩
  · obtain ⟨_, _, h, _⟩ := hat
    exact h
  · obtain ⟨T', hT', _, h⟩ := hat
    rw [hT] at hT'
    cases hT'
    exact (hx _).1 (h k)

/-- Two tetrahedra at an edge have a common face exactly if one follows the other. -/
theorem related_iff3 {s : State} (P : SpaceOk x s) {p q t u : ℕ} (hpq : p ≠ q) (ht : t ∈ tetrasWithBoth s.mesh p q)
    (hu : u ∈ tetrasWithBoth s.mesh p q) (htu : t ≠ u) :
    (commonFace s.mesh t u).isSome = true ↔ Follows3 x s.mesh p q t u ∨ Follows3 x s.mesh p q u t := by
  have hc := P.ok.cons
  obtain ⟨b, c, h1⟩ := (mem_edge P hpq).1 ht
  obtain ⟨b', c', h2⟩ := (mem_edge P hpq).1 hu
  obtain ⟨T, hT, _⟩ := id h1.1
  obtain ⟨U, hU, _⟩ := id h2.1
  have n1 := h1.nodup
  have n2 := h2.nodup
  simp only [List.nodup_cons, List.mem_cons, List.not_mem_nil, or_false, not_or, not_false_eq_true, List.nodup_nil,
    and_true] at n1 n2
  constructor
  · intro h
    obtain ⟨f, hf⟩ := Option.isSome_iff_exists.1 h
    obtain ⟨a, sl, e, r, pts, hs, hr, f1, f2, g1, g2, g3, g4⟩ := commonFace_spec hc hT hU hf
    have hau := common_opposite (distinct_of_space P) hT hU htu hs hr g3 g4
    have haT := (h1.mem hc hT a).1 (mem_points hs)
    have hp : p ∈ U.points := (h2.mem hc hU p).2 (Or.inl rfl)
    have hq : q ∈ U.points := (h2.mem hc hU q).2 (Or.inr (Or.inl rfl))
    rcases haT with rfl | rfl | rfl | rfl
    · exact absurd hp hau
    · exact absurd hq hau
    · -- the common face has the vertices `p, q, c`
      have hcU := ((g4 c).1 ((g3 c).2 ⟨(h1.mem hc hT c).2 (by simp), Ne.symm n1.2.2⟩)).1
      rcases (h2.mem hc hU c).1 hcU with e | e | e | e
      · exact absurd e.symm n1.1.2.2
      · exact absurd e.symm n1.2.1.2
      · subst e
        exact Or.inl ⟨_, _, _, h1, h2⟩
      · subst e
        exact absurd (h1.same_snd P h2) htu
    · have hbU := ((g4 b).1 ((g3 b).2 ⟨(h1.mem hc hT b).2 (by simp), n1.2.2⟩)).1
      rcases (h2.mem hc hU b).1 hbU with e | e | e | e
      · exact absurd e.symm n1.1.2.1
      · exact absurd e.symm n1.2.1.1
      · subst e
        exact absurd (h1.same_fst P h2) htu
      · subst e
        exact Or.inr ⟨_, _, _, h2, h1⟩
  · -- neighbours have a common face
    have key : ∀ {b c d t u : ℕ} {T U : Delaunay.Tetra}, s.mesh.tetras.get t = some T →
        s.mesh.tetras.get u = some U → Wedge x s.mesh t p q b c → Wedge x s.mesh u p q c d → t ≠ u →
        ∃ sl r, (b, sl) ∈ T.slots ∧ (d, r) ∈ U.slots ∧ sl.face = r.face := by
      intro b c d t u T U hT hU h1 h2 htu
      obtain ⟨sl, hs⟩ := exists_slot ((h1.mem hc hT b).2 (by simp))
      have hat : At3 s.mesh u (Function.update ![p, q, b, c] 2 d) := by
        rw [update_two]
        exact h2.1.swap
      have hd : d < s.mesh.numPoints := P.lt h2.1 3
      have hso := linked3 hc P.space.facing P.space.hull P.space.solid hT h1.1 (k := 2) hs hd hat htu
      obtain ⟨_, U', r, hU', hr, he⟩ := (hc.neighbour t T hT b sl hs u d).1 hso
      rw [hU] at hU'
      cases hU'
      exact ⟨sl, r, hs, hr, he.symm⟩
    rintro (⟨b1, c1, d1, k1, k2⟩ | ⟨b1, c1, d1, k1, k2⟩)
    · obtain ⟨sl, r, hs, hr, he⟩ := key hT hU k1 k2 htu
      obtain ⟨f, hf⟩ := commonFaceWith_isSome hs hr he
      unfold commonFace
      rw [hT, hU]
      dsimp only
      rw [hf]
      rfl
    · obtain ⟨sl, r, hs, hr, he⟩ := key hU hT k1 k2 (Ne.symm htu)
      obtain ⟨f, hf⟩ := commonFaceWith_isSome hr hs he.symm
      unfold commonFace
      rw [hT, hU]
      dsimp only
      rw [hf]
      rfl

/-- The tetrahedra around an edge at an inserted point form one cycle of at least three tetrahedra. -/
theorem edge_cycle {s : State} (P : SpaceOk x s) {p q : ℕ} (hp : 4 ≤ p) (hq : q ∈ connectedPoints s.mesh p) :
    ∃ c : List ℕ, c.Perm (tetrasWithBoth s.mesh p q) ∧ 3 ≤ c.length ∧
      ∀ t u, (t, u) ∈ sidesOf c ↔ Follows3 x s.mesh p q t u := by
  obtain ⟨hqp, t0, T0, hT0, hp0, hq0⟩ := (mem_connectedPoints P.ok.cons).1 hq
  have hpq : p ≠ q := Ne.symm hqp
  have hn := tetrasWithBoth_nodup P.ok.cons p q
  have h0 : t0 ∈ tetrasWithBoth s.mesh p q := (mem_tetrasWithBoth P.ok.cons).2 ⟨T0, hT0, hp0, hq0⟩
  obtain ⟨c, hc, hside⟩ := cycle_of_next (R := Follows3 x s.mesh p q) hn
    (by
      intro t ht
      obtain ⟨b, c, h⟩ := (mem_edge P hpq).1 ht
      obtain ⟨j, d, hj, _⟩ := h.next P hp
      exact ⟨j, (mem_edge P hpq).2 ⟨_, _, hj⟩, _, _, _, h, hj⟩)
    (fun t u v h h' => next_fun3 P h h') (fun t u v h h' => next_inj3 P h h') h0
    (by
      intro S hS hsub h1 h2 t ht
      obtain ⟨u, v, hj⟩ := (mem_edge P hpq).1 ht
      refine P.edge_all hp S (fun i hi => (mem_edge P hpq).1 (hsub i hi)) ⟨t0, hS⟩ ?_ ?_ hj
      · intro i hi b c j d k1 k2
        exact h1 i hi j ((mem_edge P hpq).2 ⟨_, _, k2⟩) ⟨_, _, _, k1, k2⟩
      · intro i hi b c j d k1 k2
        exact h2 i hi j ((mem_edge P hpq).2 ⟨_, _, k2⟩) ⟨_, _, _, k2, k1⟩)
  have hside' : ∀ t u, (t, u) ∈ sidesOf c ↔ Follows3 x s.mesh p q t u := by
    intro t u
    rw [hside]
    refine ⟨fun h => h.2, fun h => ⟨?_, h⟩⟩
    obtain ⟨b, c, d, k1, k2⟩ := h
    exact (mem_edge P hpq).2 ⟨_, _, k1⟩
  refine ⟨c, hc, ?_, hside'⟩
  -- three different tetrahedra
  obtain ⟨b, c1, k1⟩ := (mem_edge P hpq).1 h0
  obtain ⟨t1, d, k2, _⟩ := k1.next P hp
  obtain ⟨t2, e, k3, _⟩ := k2.next P hp
  have ne : ∀ {t u b c d : ℕ}, Wedge x s.mesh t p q b c → Wedge x s.mesh u p q c d → t ≠ u := by
    rintro t u b c d h1 h2 rfl
    obtain ⟨e1, e2⟩ := h1.pair P h2
    have := h1.nodup
    subst e1
    simp at this
  have n1 := ne k1 k2
  have n2 := ne k2 k3
  have n3 : t0 ≠ t2 := by
    rintro rfl
    obtain ⟨e1, e2⟩ := k1.pair P k3
    subst e1
    have g1 := k1.2
    have g2 := k2.2
    rw [vol_swap] at g2
    linarith
  have hsub : [t0, t1, t2] ⊆ tetrasWithBoth s.mesh p q := by
    intro y hy
    simp only [List.mem_cons, List.not_mem_nil, or_false] at hy
    rcases hy with rfl | rfl | rfl
    · exact h0
    · exact (mem_edge P hpq).2 ⟨_, _, k2⟩
    · exact (mem_edge P hpq).2 ⟨_, _, k3⟩
  have hlen := (List.subperm_of_subset (by simp [n1, n2, n3]) hsub).length_le
  rw [hc.length_eq]
  simpa using hlen

/-- The tetrahedra around an edge at an inserted point can be arranged. -/
theorem edge_arranged {s : State} (P : SpaceOk x s) {p q : ℕ} (hp : 4 ≤ p) (hq : q ∈ connectedPoints s.mesh p) :
    3 ≤ (tetrasWithBoth s.mesh p q).length ∧
      (arranged (tetrasWithBoth s.mesh p q) fun t u => (commonFace s.mesh t u).isSome).isSome = true := by
  obtain ⟨c, hc, h3, hside⟩ := edge_cycle P hp hq
  have hpq : p ≠ q := Ne.symm ((mem_connectedPoints P.ok.cons).1 hq).1
  have hn := tetrasWithBoth_nodup P.ok.cons p q
  have hlen : 3 ≤ (tetrasWithBoth s.mesh p q).length := by rw [← hc.length_eq]; exact h3
  refine ⟨hlen, ?_⟩
  obtain ⟨l, hl⟩ := arranged_of_cycle (related := fun t u => (commonFace s.mesh t u).isSome) hn (by omega) hc (by
    intro t ht u hu htu
    rw [hside, hside]
    exact related_iff3 P hpq ht hu htu)
  rw [hl]
  rfl

end

/-! ### The cells, with real coordinates -/

variable {x : ℕ → P3 ℝ}

theorem notFlat_of_space {s : State} (P : SpaceOk x s) : NotFlat3 s.mesh x := by
  intro t T hT a b c d hp
  have h := P.space.pos t T hT a b c d hp
  have hv : vol (x ∘ ![a, b, c, d]) = orient3 ⟨x a, x b, x c, x d⟩ := rfl
  rw [← hv]
  exact h.ne'

/-- The cell of an inserted point: the faces exist, and the cell contains exactly the places which are closer to this
point than to all others. -/
theorem cell_contains3 {eps : ℝ} (heps : 0 < eps) {s : State} (P : SpaceOk x s) {p : ℕ} (hp : 4 ≤ p)
    (hpn : p < s.mesh.numPoints) :
    ∃ F, getFaces3 s.mesh x (centre3 eps s.mesh x) p = some F ∧ (∀ f ∈ F, 3 ≤ f.points.length) ∧
      ∀ y, contains3 F y = some true ↔ ∀ w, w < s.mesh.numPoints → w ≠ p → distSq3 y (x p) < distSq3 y (x w) := by
  have hc := P.ok.cons
  obtain ⟨he, hcen⟩ := centres3_equidistant heps hc (notFlat_of_space P)
  have hlt : ∀ q ∈ connectedPoints s.mesh p, q < s.mesh.numPoints := by
    intro q hq
    obtain ⟨_, t, T, hT, _, hqT⟩ := (mem_connectedPoints hc).1 hq
    exact hc.points_lt t T hT q hqT
  obtain ⟨F, hF⟩ := faces_exist3 hc (p := p)
    (fun q hq e => ((mem_connectedPoints hc).1 hq).1 (P.injective (hlt q hq) hpn e)) hcen fun q hq => by
      obtain ⟨h1, h2⟩ := edge_arranged P hp hq
      exact ⟨by omega, h2⟩
  refine ⟨F, hF, fun f hf => ?_, fun y => ?_⟩
  · obtain ⟨q, hq, hl⟩ := face_length hc hF hf
    rw [hl]
    exact (edge_arranged P hp hq).1
  · rw [contains3_iff hc he hF y]
    have hcon := (connections3 hc hF).2
    constructor
    · intro h w hw hwp
      refine P.nearest hp hpn (fun i σ k l hat hk hl => ?_) hw hwp
      obtain ⟨T, hT, hinj, hm⟩ := id hat
      obtain ⟨f, hf, e⟩ := List.mem_map.1 ((hcon (σ l)).2 ⟨fun e => hl (hinj (e.trans hk.symm)), i, T, hT, hk ▸ hm k, hm l⟩)
      rw [← e]
      exact h f hf
    · intro h f hf
      have hq := (hcon f.connection).1 (List.mem_map.2 ⟨f, hf, rfl⟩)
      obtain ⟨hne, t, T, hT, _, hqT⟩ := hq
      exact h _ (hc.points_lt t T hT _ hqT) hne

end Verif.Voronoi
