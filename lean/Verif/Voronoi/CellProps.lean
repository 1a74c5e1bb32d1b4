import Verif.Voronoi.CellLemmas
import Verif.Voronoi.PolygonProps
import Verif.Delaunay.MeshProps

/-!
# C58: Voronoi cells of neighbours agree

The triangulation is any consistent mesh in which different simplices have different vertices; the cells are
those which are computed without a panic.
-/

namespace Verif.Voronoi

open Verif.Delaunay (Mesh Consistent FaceInfo slot_unique)
open Verif.Predicates (P2 P3 orient2 distSq2 distSq3 dot)

variable {M : Mesh}

/-! ### Two dimensions -/

private theorem normalize2_neg {a b n : P2 ℝ} (h : normalize2 (a.sub b) = some n) :
    normalize2 (b.sub a) = some ⟨-n.x, -n.y⟩ := by
  have hl : length2 (b.sub a) = length2 (a.sub b) := by
    unfold length2 P2.sub
    congr 1
    ring
  unfold normalize2 at h ⊢
  rw [hl]
  by_cases h0 : length2 (a.sub b) = 0
  · rw [if_pos h0] at h
    cases h
  · rw [if_neg h0] at h ⊢
    cases h
    congr 2
    · unfold P2.sub
      ring
    · unfold P2.sub
      ring

private theorem length2_comm (a b : P2 ℝ) : length2 (a.sub b) = length2 (b.sub a) := by
  unfold length2 P2.sub
  congr 1
  ring

private theorem otherPoint_eq {line : List ℕ} {p q : ℕ} (h : otherPoint line p = some q) :
    line = [p, q] ∨ line = [q, p] := by
  unfold otherPoint at h
  split at h
  · rename_i a b
    by_cases h1 : p = a
    · rw [if_pos h1] at h
      cases h
      exact Or.inl (by rw [h1])
    · rw [if_neg h1] at h
      by_cases h2 : p = b
      · rw [if_pos h2] at h
        cases h
        exact Or.inr (by rw [h2])
      · rw [if_neg h2] at h
        cases h
  · cases h

private theorem otherPoint_of {line : List ℕ} {p q : ℕ} (hpq : p ≠ q) (h : line = [p, q] ∨ line = [q, p]) :
    otherPoint line p = some q := by
  rcases h with rfl | rfl <;> simp [otherPoint, hpq]

/-- The parts of a face. -/
private theorem makeFace2_spec {x : ℕ → P2 ℝ} {centre : ℕ → Option (P2 ℝ)} {p : ℕ} {t : ℕ × ℕ} {F : Face2}
    (h : makeFace2 M x centre p t = some F) : ∃ f line vp1 vp2, commonFace M t.1 t.2 = some f ∧
      M.faces.get f = some line ∧ otherPoint line p = some F.connection ∧ centre t.1 = some vp1 ∧
      centre t.2 = some vp2 ∧ normalize2 ((x F.connection).sub (x p)) = some F.normal ∧
      F.area = length2 (vp1.sub vp2) := by
  unfold makeFace2 at h
  cases h1 : commonFace M t.1 t.2 with
  | none => rw [h1] at h; cases h
  | some f =>
    rw [h1] at h
    dsimp only [bind, Option.bind_some] at h
    cases h2 : M.faces.get f with
    | none => rw [h2] at h; cases h
    | some line =>
      rw [h2] at h
      dsimp only [Option.bind_some] at h
      cases h3 : otherPoint line p with
      | none => rw [h3] at h; cases h
      | some q =>
        rw [h3] at h
        dsimp only [Option.bind_some] at h
        cases h4 : centre t.1 with
        | none => rw [h4] at h; cases h
        | some vp1 =>
          rw [h4] at h
          dsimp only [Option.bind_some] at h
          cases h5 : centre t.2 with
          | none => rw [h5] at h; cases h
          | some vp2 =>
            rw [h5] at h
            dsimp only [Option.bind_some] at h
            cases h6 : normalize2 ((x q).sub (x p)) with
            | none => rw [h6] at h; cases h
            | some n =>
              rw [h6] at h
              dsimp only [Option.bind_some] at h
              cases h
              exact ⟨f, line, vp1, vp2, rfl, h2, h3, rfl, rfl, h6, rfl⟩

/-- The cycle of the triangles at a point, from a successful construction of the cell. -/
private theorem cycle_of_faces (h : Consistent 2 M) {x : ℕ → P2 ℝ} {centre : ℕ → Option (P2 ℝ)} {p : ℕ}
    {F : List Face2} (hF : getFaces2 M x centre p = some F) :
    ((tetrasOf M p).length < 2 → F = []) ∧ (2 ≤ (tetrasOf M p).length → ∃ c : List ℕ, c.Perm (tetrasOf M p) ∧ c.Nodup ∧
      (∀ e ∈ sidesOf c, Adj M [p] e.1 e.2) ∧ (sidesOf c).mapM (makeFace2 M x centre p) = some F ∧
      (arranged (tetrasOf M p) fun t u => (commonFace M t u).isSome) = some (sidesOf c)) := by
  unfold getFaces2 at hF
  cases ha : arranged (tetrasOf M p) fun t u => (commonFace M t u).isSome with
  | none => rw [ha] at hF; cases hF
  | some l =>
    rw [ha] at hF
    dsimp only [Option.bind_some] at hF
    obtain ⟨h1, h2⟩ := arranged_spec ha
    constructor
    · intro hlt
      rw [h1 hlt] at hF
      cases hF
      rfl
    · intro hle
      obtain ⟨c, hl, hp, hr⟩ := h2 hle
      rw [hl] at hF
      have hn : c.Nodup := hp.nodup_iff.2 (tetrasOf_nodup h p)
      refine ⟨c, hp, hn, ?_, hF, by rw [hl]⟩
      intro e he
      obtain ⟨m1, m2⟩ := mem_sidesOf he
      obtain ⟨T, hT, hpT⟩ := (mem_tetrasOf h.tetras_ok).1 (hp.mem_iff.1 m1)
      obtain ⟨U, hU, hpU⟩ := (mem_tetrasOf h.tetras_ok).1 (hp.mem_iff.1 m2)
      exact ⟨side_ne hn (by rw [hp.length_eq]; exact hle) he, T, U, hT, hU, by simpa using hpT, by simpa using hpU, hr e he⟩

/-- The face between two points is the same in both cells: the cell of the neighbour has a face which leads
back, with the same area and the opposite normal. -/
theorem neighbours_agree2 (h : Consistent 2 M) (hd : Distinct M) {x : ℕ → P2 ℝ} {centre : ℕ → Option (P2 ℝ)}
    {p q : ℕ} {F G : List Face2} (hF : getFaces2 M x centre p = some F) (hG : getFaces2 M x centre q = some G)
    {f : Face2} (hf : f ∈ F) (hq : f.connection = q) :
    ∃ g ∈ G, g.connection = p ∧ g.area = f.area ∧ g.normal = ⟨-f.normal.x, -f.normal.y⟩ := by
  subst hq
  obtain ⟨hs1, hs2⟩ := cycle_of_faces h hF
  by_cases hlt : (tetrasOf M p).length < 2
  · rw [hs1 hlt] at hf
    cases hf
  obtain ⟨c, hp, hn, hadj, hmap, harr⟩ := hs2 (by omega)
  obtain ⟨e, he, hmk⟩ := (mem_of_mapM hmap).1 hf
  obtain ⟨fc, line, vp1, vp2, e1, e2, e3, e4, e5, e6, e7⟩ := makeFace2_spec hmk
  obtain ⟨hne, T, U, hT, hU, hpT, hpU, _⟩ := hadj e he
  obtain ⟨a, s, b, r, pts, hs, hr, f1, f2, g1, g2, g3, g4⟩ := commonFace_spec h hT hU e1
  rw [e2] at g1
  cases g1
  have hline := otherPoint_eq e3
  have hpq : p ≠ f.connection := by
    rintro heq
    rw [← heq] at hline
    rcases hline with hl | hl <;> (rw [hl] at g2; simp at g2)
  have hmem : f.connection ∈ line := by
    rcases hline with hl | hl <;> rw [hl] <;> simp
  have hqT : f.connection ∈ T.points := ((g3 _).1 hmem).1
  have hqU : f.connection ∈ U.points := ((g4 _).1 hmem).1
  have m1 : e.1 ∈ tetrasOf M f.connection := (mem_tetrasOf h.tetras_ok).2 ⟨T, hT, hqT⟩
  have m2 : e.2 ∈ tetrasOf M f.connection := (mem_tetrasOf h.tetras_ok).2 ⟨U, hU, hqU⟩
  have hlen : 2 ≤ (tetrasOf M f.connection).length := by
    have hsub : [e.1, e.2] ⊆ tetrasOf M f.connection := by
      intro y hy
      simp only [List.mem_cons, List.not_mem_nil, or_false] at hy
      rcases hy with rfl | rfl
      · exact m1
      · exact m2
    exact (List.subperm_of_subset (by simp [hne]) hsub).length_le
  obtain ⟨d, hp', hn', hadj', hmap', _⟩ := (cycle_of_faces h hG).2 hlen
  have hback : otherPoint line f.connection = some p := otherPoint_of (Ne.symm hpq) hline.symm
  have hadjq : Adj M [f.connection] e.1 e.2 :=
    ⟨hne, T, U, hT, hU, by simpa using hqT, by simpa using hqU, by rw [e1]; rfl⟩
  have hnorm := normalize2_neg e6
  rcases edge_in_cycle (adj_deg2 h hd (by simp) rfl) hn' hadj' (fun a b hab => hab.symm h hd)
    (hp'.mem_iff.2 m1) (hp'.mem_iff.2 m2) hne hadjq with hin | hin
  · have : makeFace2 M x centre f.connection (e.1, e.2) =
        some ⟨p, ⟨-f.normal.x, -f.normal.y⟩, length2 (vp1.sub vp2)⟩ := by
      unfold makeFace2
      rw [e1]
      dsimp only [bind, Option.bind_some]
      rw [e2]
      dsimp only [Option.bind_some]
      rw [hback]
      dsimp only [Option.bind_some]
      rw [e4, e5]
      dsimp only [Option.bind_some]
      rw [hnorm]
      rfl
    exact ⟨_, (mem_of_mapM hmap').2 ⟨_, hin, this⟩, rfl, e7.symm, rfl⟩
  · have : makeFace2 M x centre f.connection (e.2, e.1) =
        some ⟨p, ⟨-f.normal.x, -f.normal.y⟩, length2 (vp2.sub vp1)⟩ := by
      unfold makeFace2
      rw [commonFace_symm h hd hne e1]
      dsimp only [bind, Option.bind_some]
      rw [e2]
      dsimp only [Option.bind_some]
      rw [hback]
      dsimp only [Option.bind_some]
      rw [e4, e5]
      dsimp only [Option.bind_some]
      rw [hnorm]
      rfl
    exact ⟨_, (mem_of_mapM hmap').2 ⟨_, hin, this⟩, rfl, by rw [e7, length2_comm], rfl⟩

/-- The neighbours of a cell with at least three triangles are the points which share a triangle with its
point; each of them occurs once. -/
theorem connections2 (h : Consistent 2 M) (hd : Distinct M) (hfd : FacesDistinct M) {x : ℕ → P2 ℝ}
    {centre : ℕ → Option (P2 ℝ)} {p : ℕ} {F : List Face2} (hF : getFaces2 M x centre p = some F)
    (h3 : 3 ≤ (tetrasOf M p).length) :
    (F.map Face2.connection).Nodup ∧ ∀ q, q ∈ F.map Face2.connection ↔
      q ≠ p ∧ ∃ t T, M.tetras.get t = some T ∧ p ∈ T.points ∧ q ∈ T.points := by
  obtain ⟨c, hp, hn, hadj, hmap, harr⟩ := (cycle_of_faces h hF).2 (by omega)
  have h3' : 3 ≤ c.length := by rw [hp.length_eq]; exact h3
  -- the triangles at a side of the cycle are those which contain the edge
  have hside : ∀ e ∈ sidesOf c, ∀ f, makeFace2 M x centre p e = some f → f.connection ≠ p ∧ ∃ T U a b s r line,
      M.tetras.get e.1 = some T ∧ M.tetras.get e.2 = some U ∧ (a, s) ∈ T.slots ∧ (b, r) ∈ U.slots ∧
      s.face = r.face ∧ e.1 ≠ e.2 ∧ p ∈ T.points ∧ p ∈ U.points ∧
      M.faces.get s.face = some line ∧ (∀ y, y ∈ line ↔ y = p ∨ y = f.connection) ∧
      (∀ y, y = p ∨ y = f.connection ↔ y ∈ T.points ∧ y ≠ a) ∧ a ∉ U.points := by
    intro e he f hmk
    obtain ⟨fc, line, vp1, vp2, e1, e2, e3, e4, e5, e6, e7⟩ := makeFace2_spec hmk
    obtain ⟨hne, T, U, hT, hU, hpT, hpU, _⟩ := hadj e he
    obtain ⟨a, s, b, r, pts, hs, hr, f1, f2, g1, g2, g3, g4⟩ := commonFace_spec h hT hU e1
    rw [e2] at g1
    cases g1
    have hline := otherPoint_eq e3
    have hmem : ∀ y, y ∈ line ↔ y = p ∨ y = f.connection := by
      intro y
      rcases hline with hl | hl <;> rw [hl] <;> simp [or_comm]
    refine ⟨?_, T, U, a, b, s, r, line, hT, hU, hs, hr, f1.trans f2.symm, hne, by simpa using hpT,
      by simpa using hpU, by rw [f1]; exact e2, hmem, ?_, common_opposite hd hT hU hne hs hr g3 g4⟩
    · rintro heq
      rw [heq] at hline
      rcases hline with hl | hl <;> (rw [hl] at g2; simp at g2)
    · intro y
      rw [← hmem, g3]
  obtain ⟨hl1, hl2⟩ := mapM_eq_some_iff_getElem hmap
  constructor
  · -- no neighbour twice
    rw [List.nodup_iff_getElem?_ne_getElem?]
    intro i j hij hj heq
    rw [List.length_map] at hj
    rw [List.getElem?_map, List.getElem?_map, List.getElem?_eq_getElem (by omega), List.getElem?_eq_getElem hj] at heq
    simp only [Option.map_some, Option.some.injEq] at heq
    have hi' : i < (sidesOf c).length := by omega
    have hj' : j < (sidesOf c).length := by omega
    obtain ⟨f1, hm1, hf1⟩ := hl2 i (sidesOf c)[i] (List.getElem?_eq_getElem hi')
    obtain ⟨f2, hm2, hf2⟩ := hl2 j (sidesOf c)[j] (List.getElem?_eq_getElem hj')
    rw [List.getElem?_eq_getElem (by omega), Option.some.injEq] at hf1
    rw [List.getElem?_eq_getElem hj, Option.some.injEq] at hf2
    subst hf1
    subst hf2
    have hmi := List.getElem_mem hi'
    have hmj := List.getElem_mem hj'
    have hne : (sidesOf c)[i] ≠ (sidesOf c)[j] := by
      intro he
      have := (List.getElem_inj (sidesOf_nodup hn)).1 he
      omega
    generalize (sidesOf c)[i] = e at *
    generalize (sidesOf c)[j] = e' at *
    obtain ⟨_, T, U, a, b, s, r, line, hT, hU, hs, hr, hsr, htu, hpT, hpU, hl, hlm, k1, _⟩ := hside _ hmi _ hm1
    obtain ⟨_, T', U', a', b', s', r', line', hT', hU', hs', hr', hsr', htu', hpT', hpU', hl', hlm', k1', _⟩ :=
      hside _ hmj _ hm2
    have hff : s.face = s'.face := by
      refine hfd _ _ _ _ hl hl' ?_
      intro y
      rw [hlm, hlm', heq]
    -- only two triangles have the face
    have key : ∀ {v : ℕ} {V : Delaunay.Tetra} {b' : ℕ} {r' : FaceInfo}, M.tetras.get v = some V → (b', r') ∈ V.slots →
        r'.face = s.face → v = e.1 ∨ v = e.2 := by
      intro v V b' r' hV hr' he
      by_cases hv : v = e.1
      · exact Or.inl hv
      · exact Or.inr (h.at_most_two hT hV hU hs hr' hr he hsr.symm hv (Ne.symm htu))
    rcases key hT' hs' hff.symm with h1 | h1 <;> rcases key hU' hr' (hsr'.symm.trans hff.symm) with h2 | h2
    · exact htu' (h1.trans h2.symm)
    · exact hne (Prod.ext h1.symm h2.symm)
    · refine no_return hn h3' (a := e.1) (b := e.2) hmi ?_
      have : e' = (e.2, e.1) := Prod.ext h1 h2
      rw [← this]
      exact hmj
    · exact htu' (h1.trans h2.symm)
  · intro q
    rw [List.mem_map]
    constructor
    · rintro ⟨f, hf, rfl⟩
      obtain ⟨e, he, hmk⟩ := (mem_of_mapM hmap).1 hf
      obtain ⟨hfp, T, U, a, b, s, r, line, hT, hU, hs, hr, hsr, htu, hpT, hpU, hl, hlm, k1, _⟩ := hside _ he _ hmk
      exact ⟨hfp, e.1, T, hT, hpT, ((k1 _).1 (Or.inr rfl)).1⟩
    · rintro ⟨hqp, t, T, hT, hpT, hqT⟩
      have ht : t ∈ c := hp.mem_iff.2 ((mem_tetrasOf h.tetras_ok).2 ⟨T, hT, hpT⟩)
      obtain ⟨k, d, hk⟩ := rotate_to_front ht
      have hmem : ∀ e, e ∈ sidesOf (t :: d) ↔ e ∈ sidesOf c := fun e => by rw [← hk, mem_sidesOf_rotate]
      have hn' : (t :: d).Nodup := by rw [← hk, List.nodup_rotate]; exact hn
      have hdl : d.length + 1 = c.length := by
        have := congrArg List.length hk
        rw [List.length_rotate, List.length_cons] at this
        omega
      have hdne : d ≠ [] := by
        rintro rfl
        simp at hdl
        omega
      obtain ⟨s1, r1, m1, m2, m3⟩ := ends hn' hdne
      have hsr1 : s1 ≠ r1 := by
        intro heq
        rw [m3 heq] at hdl
        simp at hdl
        omega
      -- the connections of the two sides at `t`
      have hex : ∀ e ∈ sidesOf c, ∃ f ∈ F, makeFace2 M x centre p e = some f := by
        intro e he
        obtain ⟨i, hi, rfl⟩ := List.getElem_of_mem he
        obtain ⟨f, hm, hf⟩ := hl2 i _ (List.getElem?_eq_getElem hi)
        exact ⟨f, List.mem_of_getElem? hf, hm⟩
      obtain ⟨f1, hf1, hm1⟩ := hex _ ((hmem _).1 m1)
      obtain ⟨f2, hf2, hm2⟩ := hex _ ((hmem _).1 m2)
      obtain ⟨c1, T1, U1, a1, b1, s1', r1', line1, hT1, hU1, hs1, hr1, hsr1', htu1, hpT1, hpU1, hl1', hlm1, k1, _⟩ :=
        hside _ ((hmem _).1 m1) _ hm1
      obtain ⟨c2, T2, U2, a2, b2, s2', r2', line2, hT2, hU2, hs2, hr2, hsr2', htu2, hpT2, hpU2, hl2', hlm2, k2, _⟩ :=
        hside _ ((hmem _).1 m2) _ hm2
      dsimp only at hT1 hU1 hT2 hU2
      rw [hT] at hT1
      cases hT1
      rw [hT] at hU2
      cases hU2
      by_contra hcon
      push Not at hcon
      have hc1 := hcon f1 hf1
      have hc2 := hcon f2 hf2
      -- the third point of the triangle is both connections
      have hb2 : ∀ y, y ∈ line2 ↔ y ∈ T.points ∧ y ≠ b2 := by
        obtain ⟨pts, g1, _, g3⟩ := h.face_points t T hT b2 r2' hr2
        rw [← hsr2', hl2'] at g1
        cases g1
        exact g3
      have e1 : q = a1 := by
        by_contra hne
        rcases (k1 q).2 ⟨hqT, hne⟩ with h1 | h1
        · exact hqp h1
        · exact hc1 h1.symm
      have e2 : q = b2 := by
        by_contra hne
        rcases (hlm2 q).1 ((hb2 q).2 ⟨hqT, hne⟩) with h1 | h1
        · exact hqp h1
        · exact hc2 h1.symm
      have := slot_unique (h.points_nodup t T hT) hs1 (by rw [← e1, e2]; exact hr2)
      subst this
      have := h.at_most_two hT hU1 hT2 hs1 hr1 hs2 hsr1'.symm hsr2' (Ne.symm htu1) htu2
      exact hsr1 this

private theorem makeFace2_of {x : ℕ → P2 ℝ} {centre : ℕ → Option (P2 ℝ)} {p q f : ℕ} {e : ℕ × ℕ} {line : List ℕ}
    {v1 v2 n : P2 ℝ} (h1 : commonFace M e.1 e.2 = some f) (h2 : M.faces.get f = some line)
    (h3 : otherPoint line p = some q) (h4 : centre e.1 = some v1) (h5 : centre e.2 = some v2)
    (h6 : normalize2 ((x q).sub (x p)) = some n) :
    makeFace2 M x centre p e = some ⟨q, n, length2 (v1.sub v2)⟩ := by
  unfold makeFace2
  rw [h1]
  dsimp only [bind, Option.bind_some]
  rw [h2]
  dsimp only [Option.bind_some]
  rw [h3]
  dsimp only [Option.bind_some]
  rw [h4, h5]
  dsimp only [Option.bind_some]
  rw [h6]
  rfl

private theorem length2_ne {a b : P2 ℝ} (h : a ≠ b) : length2 (a.sub b) ≠ 0 := by
  intro h0
  unfold length2 at h0
  have hnn : 0 ≤ (a.sub b).x * (a.sub b).x + (a.sub b).y * (a.sub b).y := by
    nlinarith [mul_self_nonneg (a.sub b).x, mul_self_nonneg (a.sub b).y]
  rw [Real.sqrt_eq_zero hnn] at h0
  have h1 : (a.sub b).x = 0 := by nlinarith [mul_self_nonneg (a.sub b).x, mul_self_nonneg (a.sub b).y]
  have h2 : (a.sub b).y = 0 := by nlinarith [mul_self_nonneg (a.sub b).x, mul_self_nonneg (a.sub b).y]
  unfold P2.sub at h1 h2
  dsimp only at h1 h2
  apply h
  cases a
  cases b
  dsimp only at h1 h2
  rw [sub_eq_zero] at h1 h2
  rw [h1, h2]

private theorem normalize2_some {a b : P2 ℝ} (h : a ≠ b) : ∃ n, normalize2 (a.sub b) = some n := by
  unfold normalize2
  rw [if_neg (length2_ne h)]
  exact ⟨_, rfl⟩

private theorem line_of {line : List ℕ} {p a : ℕ} {T : Delaunay.Tetra} (h3 : T.slots.length = 3) (hn : T.points.Nodup)
    (hln : line.Nodup) (ha : a ∈ T.points) (hp : p ∈ T.points) (hpa : p ≠ a)
    (hl : ∀ y, y ∈ line ↔ y ∈ T.points ∧ y ≠ a) : ∃ q, p ≠ q ∧ (line = [p, q] ∨ line = [q, p]) := by
  have hlen : line.length = 2 := by
    have hperm : line.Perm (T.points.erase a) := by
      rw [List.perm_ext_iff_of_nodup hln (hn.erase a)]
      intro y
      rw [hl, hn.mem_erase_iff]
      exact and_comm
    rw [hperm.length_eq, List.length_erase_of_mem ha]
    have : T.points.length = 3 := by
      unfold Delaunay.Tetra.points
      rw [List.length_map, h3]
    omega
  match line, hlen with
  | [u, v], _ =>
    have hm := (hl p).2 ⟨hp, hpa⟩
    simp only [List.mem_cons, List.not_mem_nil, or_false] at hm
    have huv : u ≠ v := by simpa using hln
    rcases hm with rfl | rfl
    · exact ⟨v, huv, Or.inl rfl⟩
    · exact ⟨u, Ne.symm huv, Or.inr rfl⟩

/-- If the triangles at a point can be arranged in a cycle and every triangle has a Voronoi point, the
construction of the faces does not panic. -/
theorem faces_exist2 (h : Consistent 2 M) (hd : Distinct M) {x : ℕ → P2 ℝ}
    (hx : ∀ t T, M.tetras.get t = some T → ∀ p ∈ T.points, ∀ q ∈ T.points, p ≠ q → x p ≠ x q)
    {centre : ℕ → Option (P2 ℝ)} (hc : ∀ t T, M.tetras.get t = some T → ∃ c, centre t = some c) {p : ℕ}
    (ha : (arranged (tetrasOf M p) fun t u => (commonFace M t u).isSome).isSome = true) :
    ∃ F, getFaces2 M x centre p = some F := by
  obtain ⟨l, hl⟩ := Option.isSome_iff_exists.1 ha
  unfold getFaces2
  rw [hl, Option.bind_some]
  have hmake : ∀ e ∈ l, ∃ f, makeFace2 M x centre p e = some f := by
    obtain ⟨h1, h2⟩ := arranged_spec hl
    by_cases hlt : (tetrasOf M p).length < 2
    · rw [h1 hlt]
      simp
    · obtain ⟨c, rfl, hp, hr⟩ := h2 (by omega)
      intro e he
      have hn : c.Nodup := hp.nodup_iff.2 (tetrasOf_nodup h p)
      have hne := side_ne hn (by rw [hp.length_eq]; omega) he
      obtain ⟨m1, m2⟩ := mem_sidesOf he
      obtain ⟨T, hT, hpT⟩ := (mem_tetrasOf h.tetras_ok).1 (hp.mem_iff.1 m1)
      obtain ⟨U, hU, hpU⟩ := (mem_tetrasOf h.tetras_ok).1 (hp.mem_iff.1 m2)
      obtain ⟨f, hf⟩ := Option.isSome_iff_exists.1 (hr e he)
      obtain ⟨a, s, b, r, pts, hs, hr, e1, e2, g1, g2, g3, g4⟩ := commonFace_spec h hT hU hf
      have haU := common_opposite hd hT hU hne hs hr g3 g4
      obtain ⟨q, hpq, hline⟩ := line_of (h.size _ T hT) (h.points_nodup _ T hT) g2
        (List.mem_map.2 ⟨(a, s), hs, rfl⟩) hpT (fun hpa => haU ((show p = a from hpa) ▸ hpU)) g3
      obtain ⟨v1, hv1⟩ := hc _ T hT
      obtain ⟨v2, hv2⟩ := hc _ U hU
      have hqT : q ∈ T.points := ((g3 q).1 (by rcases hline with rfl | rfl <;> simp)).1
      obtain ⟨n, hn⟩ := normalize2_some (hx _ T hT q hqT p hpT (Ne.symm hpq))
      exact ⟨_, makeFace2_of hf g1 (otherPoint_of hpq hline) hv1 hv2 hn⟩
  clear hl ha
  induction l with
  | nil => exact ⟨[], rfl⟩
  | cons e l ih =>
    obtain ⟨F, hF⟩ := ih fun e he => hmake e (List.mem_cons_of_mem _ he)
    obtain ⟨f, hf⟩ := hmake e List.mem_cons_self
    rw [List.mapM_cons, hf, hF]
    exact ⟨f :: F, rfl⟩

/-- Every Voronoi point has the same distance to all vertices of its simplex. -/
def Equidistant2 (M : Mesh) (x : ℕ → P2 ℝ) (centre : ℕ → Option (P2 ℝ)) : Prop :=
  ∀ t T c, M.tetras.get t = some T → centre t = some c →
    ∀ p ∈ T.points, ∀ q ∈ T.points, distSq2 c (x p) = distSq2 c (x q)

/-- No triangle of the mesh is flat. -/
def NotFlat2 (M : Mesh) (x : ℕ → P2 ℝ) : Prop :=
  ∀ t T, M.tetras.get t = some T → ∀ a b c, T.points = [a, b, c] → orient2 ⟨x a, x b, x c⟩ ≠ 0

private theorem distSq2_comm (a b : P2 ℝ) : distSq2 a b = distSq2 b a := by unfold distSq2; ring

/-- The Voronoi points computed by the code exist and are equidistant from the vertices. -/
theorem centres2_equidistant {x : ℕ → P2 ℝ} (h : Consistent 2 M) (hf : NotFlat2 M x) :
    Equidistant2 M x (centre2 M x) ∧ ∀ t T, M.tetras.get t = some T → ∃ c, centre2 M x t = some c := by
  have key : ∀ t T, M.tetras.get t = some T → ∃ a b c, T.points = [a, b, c] := by
    intro t T hT
    have hl := h.size t T hT
    unfold Delaunay.Tetra.points
    match T.slots, hl with
    | [a, b, c], _ => exact ⟨a.1, b.1, c.1, rfl⟩
  constructor
  · intro t T c hT hc p hp q hq
    obtain ⟨a, b, d, he⟩ := key t T hT
    unfold centre2 at hc
    rw [hT, Option.bind_some, he] at hc
    cases hc
    obtain ⟨h1, h2⟩ := Predicates.circumcentre2_equidistant ⟨x a, x b, x d⟩ (hf t T hT a b d he)
    dsimp only at h1 h2
    have h3 : ∀ y ∈ T.points, distSq2 (x a) (Predicates.Triangle2.circumcentre ⟨x a, x b, x d⟩) =
        distSq2 (x y) (Predicates.Triangle2.circumcentre ⟨x a, x b, x d⟩) := by
      intro y hy
      rw [he] at hy
      simp only [List.mem_cons, List.not_mem_nil, or_false] at hy
      rcases hy with rfl | rfl | rfl
      · rfl
      · exact h1
      · exact h2
    rw [distSq2_comm, distSq2_comm _ (x q), ← h3 p hp, ← h3 q hq]
  · intro t T hT
    obtain ⟨a, b, d, he⟩ := key t T hT
    refine ⟨Predicates.Triangle2.circumcentre ⟨x a, x b, x d⟩, ?_⟩
    unfold centre2
    rw [hT, Option.bind_some, he]

/-- The faces of a cell are the sides of its polygon, in this order: the area is the length of the side, the
side lies on the line in the middle between the point and the neighbour, and the normal is the unit vector
which points to the neighbour. -/
theorem faces_are_sides2 (h : Consistent 2 M) (hd : Distinct M) {x : ℕ → P2 ℝ} {centre : ℕ → Option (P2 ℝ)}
    (he : Equidistant2 M x centre) {p : ℕ} {F : List Face2} {P : List (P2 ℝ)}
    (hF : getFaces2 M x centre p = some F) (hP : getPoints2 M centre p = some P) :
    F.length = P.length ∧ ∀ (i : ℕ) (f : Face2) (s : P2 ℝ × P2 ℝ), F[i]? = some f → (sidesOf P)[i]? = some s →
      f.area = √(distSq2 s.1 s.2) ∧ distSq2 s.1 (x p) = distSq2 s.1 (x f.connection) ∧
      distSq2 s.2 (x p) = distSq2 s.2 (x f.connection) ∧ distSq2 f.normal ⟨0, 0⟩ = 1 ∧
      ∃ r > 0, (x f.connection).sub (x p) = ⟨r * f.normal.x, r * f.normal.y⟩ := by
  obtain ⟨hs1, hs2⟩ := cycle_of_faces h hF
  unfold getPoints2 at hP
  by_cases hlt : (tetrasOf M p).length < 2
  · cases ha : arranged (tetrasOf M p) fun t u => (commonFace M t u).isSome with
    | none => rw [ha] at hP; cases hP
    | some l =>
      rw [ha, Option.bind_some, (arranged_spec ha).1 hlt, List.mapM_nil] at hP
      have hP0 : P = [] := (Option.some.inj hP).symm
      rw [hs1 hlt, hP0]
      exact ⟨rfl, by simp⟩
  obtain ⟨c, hp, hn, hadj, hmap, harr⟩ := hs2 (by omega)
  have hPc : c.mapM centre = some P := by
    rw [harr, Option.bind_some] at hP
    have : (sidesOf c).map Prod.fst = c := by
      unfold sidesOf
      rw [List.map_fst_zip (by simp)]
    rw [← hP, ← this, List.mapM_map, this]
    rfl
  obtain ⟨hl1, hg1⟩ := mapM_eq_some_iff_getElem hmap
  obtain ⟨hl2, hg2⟩ := mapM_eq_some_iff_getElem hPc
  obtain ⟨hl3, hg3⟩ := mapM_eq_some_iff_getElem (mapM_rotate hPc 1)
  have hsl : (sidesOf c).length = c.length := by
    unfold sidesOf
    simp
  refine ⟨by omega, ?_⟩
  intro i f s hf hs
  have hi : i < c.length := by
    have := (List.getElem?_eq_some_iff.1 hf).1
    omega
  have hie : i < (sidesOf c).length := by omega
  obtain ⟨f', hmk, hf'⟩ := hg1 i _ (List.getElem?_eq_getElem hie)
  rw [hf, Option.some.injEq] at hf'
  subst hf'
  have hside : (sidesOf c)[i]? = some (sidesOf c)[i] := List.getElem?_eq_getElem hie
  have hmem : (sidesOf c)[i] ∈ sidesOf c := List.getElem_mem hie
  generalize (sidesOf c)[i] = e at hmk hside hmem
  unfold sidesOf at hside hs
  rw [List.getElem?_zip_eq_some] at hside hs
  obtain ⟨v1, hv1, hv1'⟩ := hg2 i _ hside.1
  obtain ⟨v2, hv2, hv2'⟩ := hg3 i _ hside.2
  rw [hs.1, Option.some.injEq] at hv1'
  rw [hs.2, Option.some.injEq] at hv2'
  subst hv1' hv2'
  obtain ⟨fc, line, vp1, vp2, e1, e2, e3, e4, e5, e6, e7⟩ := makeFace2_spec hmk
  rw [hv1, Option.some.injEq] at e4
  rw [hv2, Option.some.injEq] at e5
  subst e4 e5
  obtain ⟨hne, T, U, hT, hU, hpT, hpU, _⟩ := hadj e hmem
  obtain ⟨a, s', b, r', pts, hs', hr', k1, k2, g1, g2, g3, g4⟩ := commonFace_spec h hT hU e1
  rw [e2, Option.some.injEq] at g1
  subst g1
  have hq : f.connection ∈ line := by rcases otherPoint_eq e3 with rfl | rfl <;> simp
  have hpT' : p ∈ T.points := by simpa using hpT
  have hpU' : p ∈ U.points := by simpa using hpU
  refine ⟨?_, he _ T s.1 hT hv1 p hpT' _ ((g3 _).1 hq).1, he _ U s.2 hU hv2 p hpU' _ ((g4 _).1 hq).1, ?_⟩
  · rw [e7]
    unfold length2 distSq2 P2.sub
    congr 1
    ring
  · unfold normalize2 at e6
    by_cases h0 : length2 ((x f.connection).sub (x p)) = 0
    · rw [if_pos h0] at e6
      cases e6
    · rw [if_neg h0, Option.some.injEq] at e6
      have hpos : 0 < length2 ((x f.connection).sub (x p)) := lt_of_le_of_ne (Real.sqrt_nonneg _) (Ne.symm h0)
      have hsq : length2 ((x f.connection).sub (x p)) ^ 2 =
          ((x f.connection).sub (x p)).x ^ 2 + ((x f.connection).sub (x p)).y ^ 2 := by
        unfold length2
        have hnn := add_nonneg (mul_self_nonneg ((x f.connection).sub (x p)).x)
          (mul_self_nonneg ((x f.connection).sub (x p)).y)
        rw [Real.sq_sqrt hnn]
        ring
      rw [← e6]
      refine ⟨?_, _, hpos, ?_⟩
      · unfold distSq2
        dsimp only
        rw [sub_zero, sub_zero, div_pow, div_pow, ← add_div, ← hsq, div_self]
        exact pow_ne_zero _ h0
      · dsimp only
        rw [mul_div_cancel₀ _ h0, mul_div_cancel₀ _ h0]

/-! ### The hypotheses can be met -/

open Verif.Delaunay (Built2)

/-- The initial triangle with two points inserted, and an edge flipped. -/
private theorem example_mesh : ∃ M, Built2 2 M ∧ M.tetras.len = 5 ∧ Distinct M ∧ FacesDistinct M ∧
    3 ≤ (tetrasOf M 3).length ∧ (∃ t T, M.tetras.get t = some T ∧ 3 ∈ T.points ∧ 4 ∈ T.points) ∧
    ∀ p ∈ [3, 4], (arranged (tetrasOf M p) fun t u => (commonFace M t u).isSome).isSome = true := by
  obtain ⟨M0, h0⟩ : ∃ M, Mesh.basic2d = some M := ⟨_, rfl⟩
  have b0 : Built2 0 M0 := .start h0
  cases h0
  have b1 := Built2.split (t := 0) b0 rfl rfl
  have b2 := Built2.split (t := 1) b1 rfl rfl
  have b3 := Built2.flip (t := 4) (p := 4) (s := ⟨5, some ⟨2, 0⟩, true⟩) (c := ⟨2, 0⟩) b2 rfl
    (by decide +kernel) rfl (by decide +kernel) rfl
  have hc := Delaunay.mesh2_consistent b3
  exact ⟨_, b3, by decide +kernel, distinct_of_entries hc.1.tetras_ok (by decide +kernel),
    facesDistinct_of_entries hc.1.faces_ok (by decide +kernel), by decide +kernel,
    ⟨8, _, rfl, by decide +kernel, by decide +kernel⟩, by decide +kernel⟩

/-- Points on a curve no three of which lie on a line. -/
private def curve2 (n : ℕ) : P2 ℝ := ⟨n, n ^ 2⟩

private theorem curve2_ne {p q : ℕ} (h : p ≠ q) : curve2 p ≠ curve2 q := by
  intro he
  exact h (Nat.cast_injective (R := ℝ) (congrArg P2.x he))

private theorem curve2_notFlat (h : Consistent 2 M) : NotFlat2 M curve2 := by
  intro t T hT a b c he
  have hn := h.points_nodup t T hT
  rw [he] at hn
  simp only [List.nodup_cons, List.mem_cons, List.not_mem_nil, or_false, not_or, not_false_eq_true, List.nodup_nil,
    and_true] at hn
  obtain ⟨⟨h1, h2⟩, h3⟩ := hn
  have key : ∀ {p q : ℕ}, p ≠ q → (q : ℝ) - p ≠ 0 := fun hpq =>
    sub_ne_zero.2 fun he => hpq (Nat.cast_injective he).symm
  have : orient2 ⟨curve2 a, curve2 b, curve2 c⟩ = ((b : ℝ) - a) * (c - a) * (c - b) := by
    unfold orient2 curve2
    ring
  rw [this]
  exact mul_ne_zero (mul_ne_zero (key h1) (key h2)) (key h3)

/-- Two neighbouring cells which are both constructed with the Voronoi points of the code, so that the hypotheses
of the theorems on cells in two dimensions hold. -/
example : ∃ M x F G f P, ∃ centre : ℕ → Option (P2 ℝ), Consistent 2 M ∧ Distinct M ∧ FacesDistinct M ∧
    NotFlat2 M x ∧ centre = centre2 M x ∧ Equidistant2 M x centre ∧ getFaces2 M x centre 3 = some F ∧
    getFaces2 M x centre 4 = some G ∧ getPoints2 M centre 3 = some P ∧ f ∈ F ∧ f.connection = 4 ∧
    3 ≤ (tetrasOf M 3).length := by
  obtain ⟨M, hb, hlen, hd, hf, h3, ⟨t, T, hT, hT3, hT4⟩, ha⟩ := example_mesh
  have hc := (Delaunay.mesh2_consistent hb).1
  obtain ⟨he, hcen⟩ := centres2_equidistant hc (curve2_notFlat hc)
  obtain ⟨F, hF⟩ := faces_exist2 hc hd (fun _ _ _ p _ q _ h => curve2_ne h) hcen (ha 3 (by simp))
  obtain ⟨G, hG⟩ := faces_exist2 hc hd (fun _ _ _ p _ q _ h => curve2_ne h) hcen (ha 4 (by simp))
  obtain ⟨f, hf', hf''⟩ := List.mem_map.1 (((connections2 hc hd hf hF h3).2 4).2 ⟨by simp, t, T, hT, hT3, hT4⟩)
  obtain ⟨P, hP⟩ : ∃ P, getPoints2 M (centre2 M curve2) 3 = some P := by
    obtain ⟨c, hp, hn, hadj, hmap, harr⟩ := (cycle_of_faces hc hF).2 (by omega)
    unfold getPoints2
    rw [harr, Option.bind_some]
    have key : ∀ l : List (ℕ × ℕ), (∀ e ∈ l, ∃ c, centre2 M curve2 e.1 = some c) →
        ∃ P, l.mapM (fun e => centre2 M curve2 e.1) = some P := by
      intro l hl
      induction l with
      | nil => exact ⟨[], rfl⟩
      | cons e l ih =>
        obtain ⟨P, hP⟩ := ih fun e he => hl e (List.mem_cons_of_mem _ he)
        obtain ⟨b, hb⟩ := hl e List.mem_cons_self
        rw [List.mapM_cons, hb, hP]
        exact ⟨b :: P, rfl⟩
    refine key _ ?_
    intro e he
    obtain ⟨_, T, U, hT, _⟩ := hadj e he
    exact hcen _ T hT
  exact ⟨M, curve2, F, G, f, P, _, hc, hd, hf, curve2_notFlat hc, rfl, he, hF, hG, hP, hf', hf'', h3⟩

end Verif.Voronoi
