import Verif.Rounding.CellVolumeProps
import Verif.Rounding.CentreProps
import Verif.Voronoi.CellMeasureProps

/-! # C141: the cells of the triangulation in f64 -/

namespace Verif.Rounding

open Verif.Predicates Verif.Voronoi Verif.Delaunay

/-- `tetra_to_voronoi_point_map`, triangulation_data.rs lines 43-47, in three dimensions; `x` are the original points. -/
def centre3F (M : Delaunay.Mesh) (x : ℕ → P3 ℚ) (t : ℕ) : Option (P3 ℚ) :=
  (M.tetras.get t).bind fun T =>
    match T.points with
    | [a, b, c, d] => circumcentreF ⟨x a, x b, x c, x d⟩
    | _ => none

/-- There is at most one centre. -/
theorem centre_unique {t : Tetra ℝ} (hne : orient3 t ≠ 0) {c c' : P3 ℝ} (h2 : distSq3 t.p2 c = distSq3 t.p1 c)
    (h3 : distSq3 t.p3 c = distSq3 t.p1 c) (h4 : distSq3 t.p4 c = distSq3 t.p1 c) (h2' : distSq3 t.p2 c' = distSq3 t.p1 c')
    (h3' : distSq3 t.p3 c' = distSq3 t.p1 c') (h4' : distSq3 t.p4 c' = distSq3 t.p1 c') : c = c' := by
  obtain ⟨⟨x1, y1, z1⟩, ⟨x2, y2, z2⟩, ⟨x3, y3, z3⟩, ⟨x4, y4, z4⟩⟩ := t
  obtain ⟨a, b, d⟩ := c
  obtain ⟨a', b', d'⟩ := c'
  unfold distSq3 at *
  rw [orient3_eq] at hne
  simp only at *
  have e2 : (x2 - x1) * (a - a') + (y2 - y1) * (b - b') + (z2 - z1) * (d - d') = 0 := by linear_combination (h2' - h2) / 2
  have e3 : (x3 - x1) * (a - a') + (y3 - y1) * (b - b') + (z3 - z1) * (d - d') = 0 := by linear_combination (h3' - h3) / 2
  have e4 : (x4 - x1) * (a - a') + (y4 - y1) * (b - b') + (z4 - z1) * (d - d') = 0 := by linear_combination (h4' - h4) / 2
  clear h2 h3 h4 h2' h3' h4'
  have k1 := mul_left_cancel₀ hne (b := a - a') (c := 0) (by
    linear_combination ((y3 - y1) * (z4 - z1) - (z3 - z1) * (y4 - y1)) * e2 - ((y2 - y1) * (z4 - z1) - (z2 - z1) * (y4 - y1)) * e3
      + ((y2 - y1) * (z3 - z1) - (z2 - z1) * (y3 - y1)) * e4)
  have k2 := mul_left_cancel₀ hne (b := b - b') (c := 0) (by
    linear_combination -((x3 - x1) * (z4 - z1) - (z3 - z1) * (x4 - x1)) * e2 + ((x2 - x1) * (z4 - z1) - (z2 - z1) * (x4 - x1)) * e3
      - ((x2 - x1) * (z3 - z1) - (z2 - z1) * (x3 - x1)) * e4)
  have k3 := mul_left_cancel₀ hne (b := d - d') (c := 0) (by
    linear_combination ((x3 - x1) * (y4 - y1) - (y3 - y1) * (x4 - x1)) * e2 - ((x2 - x1) * (y4 - y1) - (y2 - y1) * (x4 - x1)) * e3
      + ((x2 - x1) * (y3 - y1) - (y2 - y1) * (x3 - x1)) * e4)
  rw [sub_eq_zero.1 k1, sub_eq_zero.1 k2, sub_eq_zero.1 k3]

/-- A tetrahedron at the point `p` whose centre is known up to `δ`: the bound of `circumcentre_accurate_f64` for its shape is at most `δ`,
and the computed centre is not farther from the point than `D / 2 - δ` in any coordinate. -/
def TetraKnown (t : Tetra ℚ) (p : P3 ℚ) (D : ℝ) (δ : ℚ) : Prop :=
  ∃ (L R M : ℚ) (c : P3 ℚ), 1 / 2 ^ 100 ≤ L ∧ Near3 L t.p1 t.p2 ∧ Near3 L t.p1 t.p3 ∧ Near3 L t.p1 t.p4 ∧ 1 / 2 ^ 200 ≤ M ∧
    circumcentreF t = some c ∧ Near3 R t.p1 c ∧ (|c.x| ≤ M ∧ |c.y| ≤ M ∧ |c.z| ≤ M) ∧ centreShift t L R M ≤ δ ∧
    Within (D / 2 - δ) (real3 p) (real3 c)

theorem orient3_real (t : Tetra ℚ) : orient3 (⟨real3 t.p1, real3 t.p2, real3 t.p3, real3 t.p4⟩ : Tetra ℝ) = ((orient3 t : ℚ) : ℝ) := by
  rw [orient3_eq, orient3_eq]
  unfold real3
  push_cast
  ring

theorem distSq3_real (a b : P3 ℚ) : distSq3 (real3 a) (real3 b) = ((distSq3 a b : ℚ) : ℝ) := by
  unfold distSq3 real3
  push_cast
  ring

/-- The centre of such a tetrahedron. -/
theorem known_centre {t : Tetra ℚ} {p : P3 ℚ} {D : ℝ} {δ : ℚ} (h : TetraKnown t p D δ) {o : P3 ℝ}
    (hne : orient3 (⟨real3 t.p1, real3 t.p2, real3 t.p3, real3 t.p4⟩ : Tetra ℝ) ≠ 0)
    (h2 : distSq3 (real3 t.p2) o = distSq3 (real3 t.p1) o) (h3 : distSq3 (real3 t.p3) o = distSq3 (real3 t.p1) o)
    (h4 : distSq3 (real3 t.p4) o = distSq3 (real3 t.p1) o) :
    ∃ c, circumcentreF t = some c ∧ CloseTo δ o c ∧ Within (D / 2) (real3 p) o ∧ Within (D / 2) (real3 p) (real3 c) := by
  obtain ⟨L, R, M, c, hL, n2, n3, n4, hM, hc, hR, hcM, hδ, hw⟩ := h
  have hne' : orient3 t ≠ 0 := by
    rw [orient3_real] at hne
    exact_mod_cast hne
  obtain ⟨c', hc'⟩ := circumcentre_exact_total t hne'
  obtain ⟨q2, q3, q4⟩ := circumcentre_exact_equidistant t c' hc'
  have hn := circumcentre_accurate_f64 hL n2 n3 n4 hM hne' hc hR hcM q2.symm q3.symm q4.symm
  have ho : o = real3 c' := by
    refine centre_unique hne h2 h3 h4 ?_ ?_ ?_
    · simp only [distSq3_real, q2]
    · simp only [distSq3_real, q3]
    · simp only [distSq3_real, q4]
  subst ho
  have hcl : CloseTo δ (real3 c') c := by
    obtain ⟨a1, a2, a3⟩ := hn
    have k : ∀ {a b : ℚ}, |a - b| ≤ centreShift t L R M → |(a : ℝ) - (b : ℝ)| ≤ (δ : ℝ) := by
      intro a b h
      have := (Rat.cast_le (K := ℝ)).2 (h.trans hδ)
      push_cast at this
      exact this
    exact ⟨k a1, k a2, k a3⟩
  have hδ0 : (0 : ℝ) ≤ δ := (abs_nonneg _).trans hcl.1
  refine ⟨c, hc, hcl, ?_, hw.mono (by linarith)⟩
  have k : ∀ {a b e : ℝ}, |a - b| ≤ D / 2 - δ → |b - e| ≤ δ → |a - e| ≤ D / 2 := by
    intro a b e h h'
    rw [abs_le] at *
    constructor <;> linarith
  exact ⟨k hw.1 hcl.1, k hw.2.1 hcl.2.1, k hw.2.2 hcl.2.2⟩

/-- The cell of the point `p` in the mesh: all tetrahedra at the point are known up to `δ`, and its neighbours are neither too near nor
too far. -/
def CellKnown (M : Mesh) (x : ℕ → P3 ℚ) (p : ℕ) (D : ℝ) (δ : ℚ) : Prop :=
  (∀ t ∈ tetrasOf M p, ∀ T, M.tetras.get t = some T → ∀ a b c d, T.points = [a, b, c, d] → TetraKnown ⟨x a, x b, x c, x d⟩ (x p) D δ) ∧
  ∀ q ∈ connectedPoints M p, 1 / 2 ^ 100 ≤ length3 ((real3 (x q)).sub (real3 (x p))) ∧ length3 ((real3 (x q)).sub (real3 (x p))) ≤ 2 ^ 200

theorem known_vertices {eps : ℝ} (heps : 0 < eps) {x : ℕ → P3 ℚ} {s : State} (P : SpaceOk (fun i => real3 (x i)) s) {p : ℕ} {D : ℝ} {δ : ℚ}
    (h : CellKnown s.mesh x p D δ) :
    VerticesNear s.mesh x (centre3 eps s.mesh fun i => real3 (x i)) (centre3F s.mesh x) p D δ := by
  intro t ht
  obtain ⟨T, hT, _⟩ := (mem_tetrasOf P.ok.cons.tetras_ok).1 ht
  obtain ⟨a, b, c, d, hp, hat⟩ := At3.of_get P.ok.cons hT
  obtain ⟨o, ho, heq, _⟩ := centre_at3 heps P hT
  have hne := notFlat_of_space P t T hT a b c d hp
  have eq : ∀ i ∈ T.points, distSq3 (real3 (x i)) o = distSq3 (real3 (x a)) o := by
    intro i hi
    rw [distSq3_comm' _ o, distSq3_comm' _ o]
    exact heq i hi a (by rw [hp]; simp)
  rw [hp] at eq
  obtain ⟨w, hw, k1, k2, k3⟩ := known_centre (h.1 t ht T hT a b c d hp) hne (eq b (by simp)) (eq c (by simp)) (eq d (by simp))
  refine ⟨o, w, ho, ?_, k1, k2, k3⟩
  unfold centre3F
  rw [hT, Option.bind_some, hp]
  exact hw

theorem mapM_length {α β : Type} {f : α → Option β} {l : List α} {bs : List β} (h : l.mapM f = some bs) : bs.length = l.length := by
  obtain ⟨cs, h1, h2⟩ := mapM_rel (g := fun a => (f a).map fun _ => a) (R := fun _ _ => True) (fun a _ b hb => ⟨a, by rw [hb]; rfl, trivial⟩) h
  rw [h2.length_eq]
  clear h h2
  induction l generalizing cs with
  | nil =>
    simp only [List.mapM_nil, Option.pure_def, Option.some.injEq] at h1
    subst h1
    rfl
  | cons a l ih =>
    rw [List.mapM_cons] at h1
    simp only [Option.bind_eq_bind, Option.bind_eq_some_iff, Option.pure_def, Option.some.injEq] at h1
    obtain ⟨b, _, cs', h3, rfl⟩ := h1
    rw [List.length_cons, List.length_cons, ih cs' h3]

theorem mapM_mem {α β : Type} {f : α → Option β} {l : List α} {bs : List β} (h : l.mapM f = some bs) {b : β} (hb : b ∈ bs) :
    ∃ a ∈ l, f a = some b := by
  induction l generalizing bs with
  | nil =>
    simp only [List.mapM_nil, Option.pure_def, Option.some.injEq] at h
    subst h
    cases hb
  | cons a l ih =>
    rw [List.mapM_cons] at h
    simp only [Option.bind_eq_bind, Option.bind_eq_some_iff, Option.pure_def, Option.some.injEq] at h
    obtain ⟨b', h1, cs', h3, rfl⟩ := h
    rcases List.mem_cons.1 hb with rfl | hb
    · exact ⟨a, List.mem_cons_self, h1⟩
    · obtain ⟨a', h4, h5⟩ := ih h3 hb
      exact ⟨a', List.mem_cons_of_mem _ h4, h5⟩

theorem face_points_length {M : Mesh} {x : ℕ → P3 ℝ} {C : ℕ → Option (P3 ℝ)} {p q : ℕ} {f : Face3} (h : facePolygon M x C p q = some f) :
    f.points.length ≤ (tetrasWithBoth M p q).length := by
  unfold facePolygon at h
  simp only [Option.bind_eq_bind, Option.bind_eq_some_iff, Option.some.injEq] at h
  obtain ⟨l, hl, vs, hvs, n', hn', A', hA', rfl⟩ := h
  show vs.length ≤ _
  rw [mapM_length hvs]
  obtain ⟨h1, h2⟩ := arranged_spec hl
  rcases Nat.lt_or_ge (tetrasWithBoth M p q).length 2 with h | h
  · rw [h1 h]
    exact Nat.zero_le _
  · obtain ⟨c, rfl, hc, _⟩ := h2 h
    rw [← hc.length_eq]
    unfold sidesOf
    rw [List.length_zip, List.length_rotate, min_self]

variable {N : Type} {eps eps' : ℝ} {key : P3 ℝ → ℕ} {pop : Heaps} {fuel : ℕ} {lo hi : P3 ℝ}
  {points : List (N × P3 ℝ)} {r : Construction3 ℝ N} {x : ℕ → P3 ℚ}

/-- **C141.**  The volume which the code computes for the cell of a point is accurate: it is near the measure of the set of all places
which are closer to the point than to all other points. -/
theorem construct3_cell_volume_f64 (heps : 0 < eps) (hp : HeapsOk pop) (hx : lo.x < hi.x) (hc : hi.x - lo.x = hi.y - lo.y)
    (hc' : hi.x - lo.x = hi.z - lo.z) (hr : construct3 eps key pop fuel lo hi points = .done r) (hpos : ∀ i, r.position i = real3 (x i))
    {e : N × ℕ} (he : e ∈ r.indices) {D : ℝ} {δ : ℚ} (hD : 1 / 2 ^ 50 ≤ D) (hk : CellKnown r.state.mesh x e.2 D δ) {n : ℕ}
    (hn : ∀ q ∈ connectedPoints r.state.mesh e.2, (tetrasWithBoth r.state.mesh e.2 q).length ≤ n) (hn20 : n ≤ 2 ^ 20)
    (hm : (connectedPoints r.state.mesh e.2).length ≤ 2 ^ 20) :
    ∃ F V, getFacesF r.state.mesh x (centre3F r.state.mesh x) e.2 = some F ∧ F.length = (connectedPoints r.state.mesh e.2).length ∧
      volumeF F (x e.2) = some V ∧ 0 ≤ V ∧
      |(V : ℝ) - (MeasureTheory.volume {v : Fin 3 → ℝ | OpenVoronoiRegion (Site3 lo hi points) (real3 (x e.2)) ⟨v 0, v 1, v 2⟩}).toReal|
        ≤ F.length * n * (12 * D ^ 2 * δ + (70 + 4 * n + 3 * F.length) * (D ^ 3 / 2 ^ 53)) := by
  obtain ⟨P, hnum, -, -, -, hlt⟩ := space_of_construct3 heps hp hx hc hc' hr
  obtain ⟨F, V, hF, hV, hVpos, hvol⟩ := construct3_cell_volume heps one_pos hp hx hc hc' hr e he
  have hfun : r.position = fun i => real3 (x i) := funext hpos
  rw [hfun] at P hF hV hvol
  have hl : F.length = (connectedPoints r.state.mesh e.2).length := mapM_length hF
  obtain ⟨F', V', k1, k2, k3, k4, k5⟩ := cell_volume_accurate_f64 (n := n) hD (known_vertices one_pos P hk) hk.2 hF hV (fun f hf => by
    obtain ⟨q, hq, hfq⟩ := mapM_mem hF hf
    exact (face_points_length hfq).trans (hn q hq)) hn20 (hl ▸ hm)
  have hl' := k3.length_eq
  refine ⟨F', V', k1, hl' ▸ hl, k2, k4, ?_⟩
  rw [hvol, ENNReal.toReal_ofReal hVpos.le, ← hl']
  exact k5

/-! ## Both sides of a face -/

/-- Both points of a face collect the tetrahedra around it in the same order. -/
theorem tetrasWithBoth_symm {M : Mesh} (h : Consistent 3 M) (p q : ℕ) : tetrasWithBoth M p q = tetrasWithBoth M q p := by
  have key : ∀ p q, tetrasWithBoth M p q = (M.tetras.entries.filter fun e => e.2.points.contains p && e.2.points.contains q).map fun e => e.1 := by
    intro p q
    unfold tetrasWithBoth tetrasOf
    have : ∀ l : List (ℕ × Delaunay.Tetra), (∀ e ∈ l, M.tetras.get e.1 = some e.2) →
        (l.flatMap fun e => (e.2.points.filter fun z => z == p).map fun _ => e.1).filter (fun t =>
          match M.tetras.get t with
          | none => false
          | some T => T.points.contains q) = (l.filter fun e => e.2.points.contains p && e.2.points.contains q).map fun e => e.1 := by
      intro l
      induction l with
      | nil => intro _; rfl
      | cons e l ih =>
        intro hl
        have he := hl e List.mem_cons_self
        rw [List.flatMap_cons, List.filter_append, ih fun e' he' => hl e' (List.mem_cons_of_mem _ he'), List.filter_cons]
        have hn := h.points_nodup e.1 e.2 he
        by_cases hp : p ∈ e.2.points
        · have h1 : (e.2.points.filter fun z => z == p) = [p] := by
            rw [List.filter_beq, List.count_eq_one_of_mem hn hp]
            rfl
          rw [h1, List.map_singleton, List.filter_singleton, he]
          by_cases hq : q ∈ e.2.points
          · simp [hp, hq]
          · simp [hp, hq]
        · have h1 : (e.2.points.filter fun z => z == p) = [] := by
            rw [List.filter_beq, List.count_eq_zero_of_not_mem hp]
            rfl
          rw [h1]
          simp [hp]
    exact this _ fun e he => (h.tetras_ok.mem_iff e.1 e.2).1 he
  rw [key, key]
  congr 1
  refine List.filter_congr fun e _ => ?_
  exact Bool.and_comm _ _

/-- The opposite vector. -/
def opposite (v : P3 ℚ) : P3 ℚ := ⟨-v.x, -v.y, -v.z⟩

theorem subF_swap (a b : P3 ℚ) : subF a b = opposite (subF b a) := by
  have k : ∀ x y : ℚ, x ⊟ y = -(y ⊟ x) := by
    intro x y
    show fl (x - y) = -fl (y - x)
    rw [← fl_neg, neg_sub]
  unfold subF opposite
  rw [k a.x, k a.y, k a.z]

theorem normalF_swap (a b : P3 ℚ) : normalF b a = (normalF a b).map opposite := by
  have hl : length3F (subF a b) = length3F (subF b a) := by
    rw [subF_swap a b]
    unfold length3F
    congr 1
    unfold dotF opposite
    have k : ∀ x : ℚ, (-x) ⊠ (-x) = x ⊠ x := by
      intro x
      show fl (-x * -x) = fl (x * x)
      rw [neg_mul_neg]
    simp only [k]
  unfold normalF
  rw [hl]
  split_ifs with h
  · rfl
  · rw [Option.map_some, subF_swap a b]
    unfold normalizeWith scaleF opposite
    have k : ∀ x y : ℚ, (-x) ⊠ y = -(x ⊠ y) := by
      intro x y
      show fl (-x * y) = -fl (x * y)
      rw [← fl_neg, neg_mul]
    simp only [k]

/-- **C141.**  The two cells at a face compute exactly the same polygon and the same area for it, and opposite normals. -/
theorem faces_agree_exactly_f64 {M : Mesh} (h : Consistent 3 M) (x : ℕ → P3 ℚ) (centre : ℕ → Option (P3 ℚ)) {p q : ℕ} {F G : List FaceF}
    (hF : getFacesF M x centre p = some F) (hG : getFacesF M x centre q = some G) :
    ∀ f ∈ F, f.connection = q → ∃ g ∈ G, g.connection = p ∧ g.area = f.area ∧ g.points = f.points ∧
      g.normal.x = -f.normal.x ∧ g.normal.y = -f.normal.y ∧ g.normal.z = -f.normal.z := by
  intro f hf hfq
  obtain ⟨q', hq', hfp⟩ := mapM_mem hF hf
  have hqq : f.connection = q' := by
    unfold facePolygonF at hfp
    simp only [Option.bind_eq_bind, Option.bind_eq_some_iff, Option.some.injEq] at hfp
    obtain ⟨l, -, vs, -, n', -, A', -, rfl⟩ := hfp
    rfl
  rw [hfq] at hqq
  subst hqq
  have hpq : p ∈ connectedPoints M q := by
    obtain ⟨h1, t, T, hT, h2, h3⟩ := (mem_connectedPoints h).1 hq'
    exact (mem_connectedPoints h).2 ⟨h1.symm, t, T, hT, h3, h2⟩
  unfold facePolygonF at hfp
  simp only [Option.bind_eq_bind, Option.bind_eq_some_iff, Option.some.injEq] at hfp
  obtain ⟨l, hl, vs, hvs, n', hn', A', hA', rfl⟩ := hfp
  have hg : facePolygonF M x centre q p = some ⟨p, opposite n', A', vs⟩ := by
    unfold facePolygonF
    simp only [Option.bind_eq_bind, Option.bind_eq_some_iff, Option.some.injEq]
    refine ⟨l, by rw [tetrasWithBoth_symm h q p]; exact hl, vs, hvs, opposite n', ?_, A', hA', rfl⟩
    rw [normalF_swap (x p) (x q), hn']
    rfl
  refine ⟨⟨p, opposite n', A', vs⟩, ?_, rfl, rfl, rfl, rfl, rfl, rfl⟩
  have : ∀ (l : List ℕ) (G : List FaceF), (l.mapM fun p2 => facePolygonF M x centre q p2) = some G → p ∈ l → ⟨p, opposite n', A', vs⟩ ∈ G := by
    intro l
    induction l with
    | nil =>
      intro G _ hp
      cases hp
    | cons a l ih =>
      intro G h hp
      rw [List.mapM_cons] at h
      simp only [Option.bind_eq_bind, Option.bind_eq_some_iff, Option.pure_def, Option.some.injEq] at h
      obtain ⟨b, hb, G2, hG2, rfl⟩ := h
      rcases List.mem_cons.1 hp with rfl | hp
      · rw [hg] at hb
        cases hb
        exact List.mem_cons_self
      · exact List.mem_cons_of_mem _ (ih _ hG2 hp)
  exact this _ G hG hpq

/-! ## Polygons in a plane -/

/-- The length of a vector along the z-axis, if the tests in the hypothesis succeed. -/
theorem length3F_vertical {c : ℚ} (h : fl (|c| * (1 - 1 / 2 ^ 53 * (51 / 100))) = |c| ∧ fl (|c| * (1 + 1 / 2 ^ 53 * (51 / 100))) = |c| ∧
    (|c| * (1 - 1 / 2 ^ 53 * (51 / 100))) ^ 2 ≤ c ⊠ c ∧ c ⊠ c ≤ (|c| * (1 + 1 / 2 ^ 53 * (51 / 100))) ^ 2) : length3F ⟨0, 0, c⟩ = |c| := by
  have h0 : dotF ⟨0, 0, c⟩ ⟨0, 0, c⟩ = c ⊠ c := by
    unfold dotF
    show fl (fl (fl (0 * 0) + fl (0 * 0)) + fl (c * c)) = fl (c * c)
    rw [mul_zero, fl_zero, add_zero, fl_zero, zero_add, fl_fl]
  unfold length3F
  rw [h0]
  have hc : 0 ≤ |c| := abs_nonneg _
  refine sqrtF_eq ⟨_, _, ?_, ?_, h.2.2.1, h.2.2.2, h.1, h.2.1⟩
  · exact mul_nonneg hc (by norm_num)
  · exact mul_nonneg hc (by norm_num)

end Verif.Rounding
