import Verif.Voronoi.NextCycle
import Verif.Voronoi.CellProps
import Verif.Delaunay.PlaneStar

/-! # Voronoi cells of a Delaunay triangulation of the plane: lemmas -/

namespace Verif.Voronoi

open Verif.Delaunay
open Verif.Predicates (P2 Triangle2 orient2 distSq2)

section
variable {K : Type} [Field K] [LinearOrder K] [IsStrictOrderedRing K] {x : ℕ → P2 K}

/-- The triangle `u` follows the triangle `t` counterclockwise around the vertex `p`. -/
def Follows (M : Mesh) (p t u : ℕ) : Prop := ∃ b c d, At M t p b c ∧ At M u p c d

theorem at_pair {s : State} (P : PlaneOk x s) {i p b c b' c' : ℕ} (h : At s.mesh i p b c) (h' : At s.mesh i p b' c') :
    b = b' ∧ c = c' := by
  have V := P.valid
  obtain ⟨n1, n2, n3⟩ := V.ne' h
  rcases V.uniq h h' with h | h | h <;> omega

theorem next_fun {s : State} (P : PlaneOk x s) {p t u v : ℕ} (h : Follows s.mesh p t u) (h' : Follows s.mesh p t v) : u = v := by
  obtain ⟨b, c, d, h1, h2⟩ := h
  obtain ⟨b', c', d', h1', h2'⟩ := h'
  obtain ⟨_, rfl⟩ := at_pair P h1 h1'
  exact P.valid.same h2 h2'

theorem next_inj {s : State} (P : PlaneOk x s) {p t u v : ℕ} (h : Follows s.mesh p t v) (h' : Follows s.mesh p u v) : t = u := by
  obtain ⟨b, c, d, h1, h2⟩ := h
  obtain ⟨b', c', d', h1', h2'⟩ := h'
  obtain ⟨rfl, _⟩ := at_pair P h2 h2'
  have V := P.valid
  exact V.same (V.cyc' h1) (V.cyc' h1')

theorem mem_star {s : State} (P : PlaneOk x s) {p t : ℕ} : t ∈ tetrasOf s.mesh p ↔ ∃ b c, At s.mesh t p b c := by
  rw [mem_tetrasOf P.ok.cons.tetras_ok]
  constructor
  · rintro ⟨T, hT, hp⟩
    exact at_of_slot P.ok.cons hT hp
  · rintro ⟨b, c, h⟩
    obtain ⟨T, hT, _⟩ := id h
    exact ⟨T, hT, (h.mem hT p).2 (Or.inl rfl)⟩

theorem star_nonempty {s : State} (P : PlaneOk x s) {p : ℕ} (hp : p < s.mesh.numPoints) :
    ∃ t, t ∈ tetrasOf s.mesh p := by
  have V := P.valid
  obtain ⟨i, _, a, b, c, hat, hw⟩ := P.find (P.hull p hp) Set.univ
    (by obtain ⟨i, a, b, c, h⟩ := V.nonempty; exact ⟨i, trivial, a, b, c, h⟩)
    (fun _ _ _ _ _ _ _ _ _ => trivial)
  refine ⟨i, (mem_star P).2 ?_⟩
  rcases V.clean hat p hp hw with rfl | rfl | rfl
  · exact ⟨_, _, hat⟩
  · exact ⟨_, _, V.cyc hat⟩
  · exact ⟨_, _, V.cyc' hat⟩

/-- Different triangles have different vertices. -/
theorem distinct_of_plane {s : State} (P : PlaneOk x s) : Distinct s.mesh := by
  intro i j T U hT hU hx
  have V := P.valid
  obtain ⟨a, b, c, hp, hat⟩ := At.of_get P.ok.cons hT
  obtain ⟨n1, n2, n3⟩ := V.ne' hat
  have V1 := @Valid.pos _ _ _ _ _ _ V j
  have hj : At s.mesh j a b c := by
    refine at_of_pos P.ok.cons hU (@V1) ?_ n1 n3.symm n2 (by rw [area_cyc]; exact V.pos hat)
    intro z
    rw [← hx z, hat.mem hT]
  exact V.same hat hj

theorem facesDistinct_of_plane {s : State} (P : PlaneOk x s) : FacesDistinct s.mesh := P.unique

/-- Two triangles at a vertex have a common edge exactly if one follows the other. -/
theorem related_iff {s : State} (P : PlaneOk x s) {p t u : ℕ} (ht : t ∈ tetrasOf s.mesh p)
    (hu : u ∈ tetrasOf s.mesh p) (htu : t ≠ u) :
    (commonFace s.mesh t u).isSome = true ↔ Follows s.mesh p t u ∨ Follows s.mesh p u t := by
  have V := P.valid
  have hc := P.ok.cons
  obtain ⟨b, c, h1⟩ := (mem_star P).1 ht
  obtain ⟨b', c', h2⟩ := (mem_star P).1 hu
  obtain ⟨T, hT, _⟩ := id h1
  obtain ⟨U, hU, _⟩ := id h2
  obtain ⟨n1, n2, n3⟩ := V.ne' h1
  obtain ⟨m1, m2, m3⟩ := V.ne' h2
  constructor
  · intro h
    obtain ⟨f, hf⟩ := Option.isSome_iff_exists.1 h
    obtain ⟨a, sl, e, r, pts, hs, hr, f1, f2, g1, g2, g3, g4⟩ := commonFace_spec hc hT hU hf
    have hau := common_opposite (distinct_of_plane P) hT hU htu hs hr g3 g4
    have haT := (h1.mem hT a).1 (mem_points hs)
    have hp : p ∈ U.points := (h2.mem hU p).2 (Or.inl rfl)
    rcases haT with rfl | rfl | rfl
    · exact absurd hp hau
    · -- the common edge is `p c`
      have hcU := ((g4 c).1 ((g3 c).2 ⟨(h1.mem hT c).2 (Or.inr (Or.inr rfl)), n2.symm⟩)).1
      rcases (h2.mem hU c).1 hcU with e | e | e
      · exact absurd e n3
      · subst e
        exact Or.inl ⟨_, _, _, h1, h2⟩
      · subst e
        exact absurd (V.same (V.cyc' h1) (V.cyc' h2)) htu
    · have hbU := ((g4 b).1 ((g3 b).2 ⟨(h1.mem hT b).2 (Or.inr (Or.inl rfl)), n2⟩)).1
      rcases (h2.mem hU b).1 hbU with e | e | e
      · exact absurd e n1.symm
      · subst e
        exact absurd (V.same h1 h2) htu
      · subst e
        exact Or.inr ⟨_, _, _, h2, h1⟩
  · -- a common edge
    have key : ∀ {b c d b' c' : ℕ} {T U : Delaunay.Tetra} {t u : ℕ}, s.mesh.tetras.get t = some T →
        s.mesh.tetras.get u = some U → At s.mesh t p b c → At s.mesh u p c d →
        ∃ sl r, (b, sl) ∈ T.slots ∧ (d, r) ∈ U.slots ∧ sl.face = r.face := by
      intro b c d b' c' T U t u hT hU h1 h2
      obtain ⟨n1, n2, n3⟩ := V.ne' h1
      obtain ⟨m1, m2, m3⟩ := V.ne' h2
      obtain ⟨sl, hs⟩ := exists_slot ((h1.mem hT b).2 (Or.inr (Or.inl rfl)))
      obtain ⟨r, hr⟩ := exists_slot ((h2.mem hU d).2 (Or.inr (Or.inr rfl)))
      obtain ⟨pts, e1, _, k1⟩ := hc.face_points t T hT b sl hs
      obtain ⟨pts', e2, _, k2⟩ := hc.face_points u U hU d r hr
      refine ⟨sl, r, hs, hr, P.unique _ _ _ _ e1 e2 fun z => ?_⟩
      rw [k1, k2, h1.mem hT, h2.mem hU]
      constructor <;> intro hz <;> omega
    rintro (⟨b1, c1, d1, k1, k2⟩ | ⟨b1, c1, d1, k1, k2⟩)
    · obtain ⟨sl, r, hs, hr, he⟩ := key (b' := 0) (c' := 0) hT hU k1 k2
      obtain ⟨f, hf⟩ := commonFaceWith_isSome hs hr he
      unfold commonFace
      rw [hT, hU]
      dsimp only
      rw [hf]
      rfl
    · obtain ⟨sl, r, hs, hr, he⟩ := key (b' := 0) (c' := 0) hU hT k1 k2
      obtain ⟨f, hf⟩ := commonFaceWith_isSome hr hs he.symm
      unfold commonFace
      rw [hT, hU]
      dsimp only
      rw [hf]
      rfl

/-- The triangles around an inserted point form one cycle. -/
theorem star_cycle {s : State} (P : PlaneOk x s) {p : ℕ} (hp : 3 ≤ p) (hpn : p < s.mesh.numPoints) :
    ∃ c : List ℕ, c.Perm (tetrasOf s.mesh p) ∧ 3 ≤ c.length ∧ c.Nodup ∧
      ∀ t u, (t, u) ∈ sidesOf c ↔ Follows s.mesh p t u := by
  have V := P.valid
  have hn := tetrasOf_nodup P.ok.cons p
  obtain ⟨t0, h0⟩ := star_nonempty P hpn
  obtain ⟨c, hc, hside⟩ := cycle_of_next (R := Follows s.mesh p) hn
    (by
      intro t ht
      obtain ⟨b, c, h⟩ := (mem_star P).1 ht
      obtain ⟨j, d, hj⟩ := P.next hp h
      exact ⟨j, (mem_star P).2 ⟨_, _, hj⟩, _, _, _, h, hj⟩)
    (fun t u v h h' => next_fun P h h') (fun t u v h h' => next_inj P h h') h0
    (by
      intro S hS hsub h1 h2 t ht
      obtain ⟨u, v, hj⟩ := (mem_star P).1 ht
      refine P.star_all hp S (fun i hi => (mem_star P).1 (hsub i hi)) ⟨t0, hS⟩ ?_ ?_ hj
      · intro i hi b c j d k1 k2
        exact h1 i hi j ((mem_star P).2 ⟨_, _, k2⟩) ⟨_, _, _, k1, k2⟩
      · intro i hi b c j d k1 k2
        exact h2 i hi j ((mem_star P).2 ⟨_, _, k2⟩) ⟨_, _, _, k2, k1⟩)
  have hside' : ∀ t u, (t, u) ∈ sidesOf c ↔ Follows s.mesh p t u := by
    intro t u
    rw [hside]
    refine ⟨fun h => h.2, fun h => ⟨?_, h⟩⟩
    obtain ⟨b, c, d, k1, k2⟩ := h
    exact (mem_star P).2 ⟨_, _, k1⟩
  have hcn : c.Nodup := hc.nodup_iff.2 hn
  refine ⟨c, hc, ?_, hcn, hside'⟩
  -- three different triangles
  obtain ⟨b, c1, k1⟩ := (mem_star P).1 h0
  obtain ⟨t1, d, k2⟩ := P.next hp k1
  obtain ⟨t2, e, k3⟩ := P.next hp k2
  have ne : ∀ {t u b c d : ℕ}, At s.mesh t p b c → At s.mesh u p c d → t ≠ u := by
    rintro t u b c d h1 h2 rfl
    obtain ⟨e1, e2⟩ := at_pair P h1 h2
    exact (V.ne' h1).2.1 e1
  have n1 := ne k1 k2
  have n2 := ne k2 k3
  have n3 : t0 ≠ t2 := by
    rintro rfl
    obtain ⟨e1, e2⟩ := at_pair P k1 k3
    subst e1
    have g1 := V.pos k1
    have g2 := V.pos k2
    have g3 : area (x p) (x c1) (x b) = -area (x p) (x b) (x c1) := by simp only [area_def]; ring
    rw [g3] at g2
    linarith
  have hsub : [t0, t1, t2] ⊆ tetrasOf s.mesh p := by
    intro y hy
    simp only [List.mem_cons, List.not_mem_nil, or_false] at hy
    rcases hy with rfl | rfl | rfl
    · exact h0
    · exact (mem_star P).2 ⟨_, _, k2⟩
    · exact (mem_star P).2 ⟨_, _, k3⟩
  have hlen := (List.subperm_of_subset (by simp [n1, n2, n3]) hsub).length_le
  rw [hc.length_eq]
  simpa using hlen

/-- The arrangement of the triangles around an inserted point, in one of the two directions. -/
theorem star_arranged {s : State} (P : PlaneOk x s) {p : ℕ} (hp : 3 ≤ p) (hpn : p < s.mesh.numPoints) :
    ∃ c : List ℕ, (arranged (tetrasOf s.mesh p) fun t u => (commonFace s.mesh t u).isSome) = some (sidesOf c) ∧
      c.Perm (tetrasOf s.mesh p) ∧ 3 ≤ c.length ∧
      ((∀ t u, (t, u) ∈ sidesOf c ↔ Follows s.mesh p t u) ∨ ∀ t u, (t, u) ∈ sidesOf c ↔ Follows s.mesh p u t) := by
  obtain ⟨c, hc, h3, hcn, hside⟩ := star_cycle P hp hpn
  have hn := tetrasOf_nodup P.ok.cons p
  have hlen : 3 ≤ (tetrasOf s.mesh p).length := by rw [← hc.length_eq]; exact h3
  obtain ⟨l, hl⟩ := arranged_of_cycle (related := fun t u => (commonFace s.mesh t u).isSome) hn (by omega) hc (by
    intro t ht u hu htu
    rw [hside, hside]
    exact related_iff P ht hu htu)
  obtain ⟨d, rfl, hd, hrel⟩ := (arranged_spec hl).2 (by omega)
  have hdn : d.Nodup := hd.nodup_iff.2 hn
  refine ⟨d, hl, hd, by rw [hd.length_eq]; exact hlen, ?_⟩
  have R : ∀ t u, t ∈ tetrasOf s.mesh p → u ∈ tetrasOf s.mesh p → t ≠ u → (commonFace s.mesh t u).isSome = true →
      Adj s.mesh [p] t u := by
    intro t u ht hu htu hr
    obtain ⟨T, hT, hpT⟩ := (mem_tetrasOf P.ok.cons.tetras_ok).1 ht
    obtain ⟨U, hU, hpU⟩ := (mem_tetrasOf P.ok.cons.tetras_ok).1 hu
    exact ⟨htu, T, U, hT, hU, by simpa using hpT, by simpa using hpU, hr⟩
  have hsame : SamePolygon c d := by
    refine cycles_same (adj_deg2 P.ok.cons (distinct_of_plane P) (K := [p]) (by simp) rfl)
      (fun a b h => h.symm P.ok.cons (distinct_of_plane P)) hcn (hd.trans hc.symm) ?_ ?_
    · intro e he
      obtain ⟨m1, m2⟩ := mem_sidesOf he
      have hne := side_ne hcn (by omega) he
      exact R _ _ (hc.mem_iff.1 m1) (hc.mem_iff.1 m2) hne
        ((related_iff P (hc.mem_iff.1 m1) (hc.mem_iff.1 m2) hne).2 (Or.inl ((hside _ _).1 he)))
    · intro e he
      obtain ⟨m1, m2⟩ := mem_sidesOf he
      have hne := side_ne hdn (by rw [hd.length_eq]; omega) he
      exact R _ _ (hd.mem_iff.1 m1) (hd.mem_iff.1 m2) hne (hrel e he)
  rcases hsame with ⟨k, hk⟩ | ⟨k, hk⟩
  · left
    intro t u
    rw [← hside, ← hk, mem_sidesOf_rotate]
  · right
    intro t u
    rw [← hside, ← mem_sidesOf_reverse (l := c), ← hk, mem_sidesOf_rotate]

end

end Verif.Voronoi
