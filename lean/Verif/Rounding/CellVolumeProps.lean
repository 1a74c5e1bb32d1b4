import Verif.Rounding.VolumeProps

/-! # C141: areas and volumes of the cells of a mesh in f64 -/

namespace Verif.Rounding

open Verif.Predicates Verif.Voronoi

theorem mapM_rel {α β γ : Type} {f : α → Option β} {g : α → Option γ} {R : β → γ → Prop} {l : List α} {bs : List β}
    (h : ∀ a ∈ l, ∀ b, f a = some b → ∃ c, g a = some c ∧ R b c) (hl : l.mapM f = some bs) :
    ∃ cs, l.mapM g = some cs ∧ List.Forall₂ R bs cs := by
  induction l generalizing bs with
  | nil =>
    simp only [List.mapM_nil, Option.pure_def, Option.some.injEq] at hl
    subst hl
    exact ⟨[], rfl, .nil⟩
  | cons a l ih =>
    rw [List.mapM_cons] at hl
    simp only [Option.bind_eq_bind, Option.bind_eq_some_iff, Option.pure_def, Option.some.injEq] at hl
    obtain ⟨b, hb, bs', hbs, rfl⟩ := hl
    obtain ⟨c, hc, hr⟩ := h a List.mem_cons_self b hb
    obtain ⟨cs, hcs, hrs⟩ := ih (fun a ha => h a (List.mem_cons_of_mem _ ha)) hbs
    refine ⟨c :: cs, ?_, .cons hr hrs⟩
    rw [List.mapM_cons, hc, hcs]
    rfl

/-- The same for the second of two steps. -/
theorem mapM_rel₂ {α α' β γ : Type} {f : α → Option β} {g : α' → Option γ} {S : α → α' → Prop} {R : β → γ → Prop} {l : List α} {l' : List α'}
    {bs : List β} (hs : List.Forall₂ S l l') (h : ∀ a a', S a a' → ∀ b, f a = some b → ∃ c, g a' = some c ∧ R b c) (hl : l.mapM f = some bs) :
    ∃ cs, l'.mapM g = some cs ∧ List.Forall₂ R bs cs := by
  induction hs generalizing bs with
  | nil =>
    simp only [List.mapM_nil, Option.pure_def, Option.some.injEq] at hl
    subst hl
    exact ⟨[], rfl, .nil⟩
  | @cons a a' l l' ha _ ih =>
    rw [List.mapM_cons] at hl
    simp only [Option.bind_eq_bind, Option.bind_eq_some_iff, Option.pure_def, Option.some.injEq] at hl
    obtain ⟨b, hb, bs', hbs, rfl⟩ := hl
    obtain ⟨c, hc, hr⟩ := h a a' ha b hb
    obtain ⟨cs, hcs, hrs⟩ := ih hbs
    refine ⟨c :: cs, ?_, .cons hr hrs⟩
    rw [List.mapM_cons, hc, hcs]
    rfl

theorem Within.middle {D : ℝ} {p v w : P3 ℝ} (h1 : Within (D / 2) p v) (h2 : Within (D / 2) p w) : Within D v w := by
  have k : ∀ {a b c : ℝ}, |a - b| ≤ D / 2 → |a - c| ≤ D / 2 → |b - c| ≤ D := by
    intro a b c h h'
    rw [abs_le] at *
    constructor <;> linarith
  exact ⟨k h1.1 h2.1, k h1.2.1 h2.2.1, k h1.2.2 h2.2.2⟩

theorem Within.mono {D E : ℝ} {v w : P3 ℝ} (h : Within D v w) (hDE : D ≤ E) : Within E v w :=
  ⟨h.1.trans hDE, h.2.1.trans hDE, h.2.2.trans hDE⟩

/-- The vertices of the cell of a point: `exact` and `found` are the centres of the tetrahedra, every centre of a tetrahedron at the point
is known up to `δ`, and is not farther from the point than `D / 2` in any coordinate. -/
def VerticesNear (M : Delaunay.Mesh) (x : ℕ → P3 ℚ) (exact : ℕ → Option (P3 ℝ)) (found : ℕ → Option (P3 ℚ)) (p : ℕ) (D δ : ℝ) : Prop :=
  ∀ t ∈ tetrasOf M p, ∃ v w, exact t = some v ∧ found t = some w ∧ CloseTo δ v w ∧ Within (D / 2) (real3 (x p)) v ∧
    Within (D / 2) (real3 (x p)) (real3 w)

/-- The face which is computed is near the exact one. -/
def FaceNear (D δ : ℝ) (p : P3 ℚ) (f : Face3) (f' : FaceF) : Prop :=
  f'.connection = f.connection ∧ CloseTo (10 / 2 ^ 53) f.normal f'.normal ∧ (|f.normal.x| ≤ 1 ∧ |f.normal.y| ≤ 1 ∧ |f.normal.z| ≤ 1) ∧
    PolygonNear D δ f.points f'.points ∧ (∀ v ∈ f.points, Within D (real3 p) v) ∧ (∀ w ∈ f'.points, Within D (real3 p) (real3 w)) ∧
    f'.points.length = f.points.length ∧
    0 ≤ f'.area ∧ |(f'.area : ℝ) - f.area| ≤ f.points.length * (9 * D * δ + (20 + 3 * f.points.length) * (D ^ 2 / 2 ^ 53))

theorem arranged_mem {items : List ℕ} {related : ℕ → ℕ → Bool} {l : List (ℕ × ℕ)} (h : arranged items related = some l) :
    ∀ e ∈ l, e.1 ∈ items := by
  unfold arranged at h
  split at h
  · rename_i l' _
    have : ∀ (l' : List (ℕ × ℕ)) (l : List (ℕ × ℕ)), (l'.mapM fun e => (items[e.1]?).bind fun a => (items[e.2]?).map fun b => (a, b)) = some l →
        ∀ e ∈ l, e.1 ∈ items := by
      intro l'
      induction l' with
      | nil =>
        intro l h e he
        simp only [List.mapM_nil, Option.pure_def, Option.some.injEq] at h
        subst h
        cases he
      | cons a l' ih =>
        intro l h e he
        rw [List.mapM_cons] at h
        simp only [Option.bind_eq_bind, Option.bind_eq_some_iff, Option.map_eq_some_iff, Option.pure_def, Option.some.injEq] at h
        obtain ⟨b, ⟨a1, h1, a2, h2, rfl⟩, l2, hl2, rfl⟩ := h
        rcases List.mem_cons.1 he with rfl | he
        · exact List.mem_of_getElem? h1
        · exact ih _ hl2 e he
    exact this l' l h
  · cases h

theorem polygon_near {M : Delaunay.Mesh} {x : ℕ → P3 ℚ} {C : ℕ → Option (P3 ℝ)} {c : ℕ → Option (P3 ℚ)} {p : ℕ} {D δ : ℝ} (hD0 : 0 < D)
    (hnear : VerticesNear M x C c p D δ) {l : List (ℕ × ℕ)} (hl : ∀ e ∈ l, e.1 ∈ tetrasOf M p) {vs : List (P3 ℝ)}
    (hvs : (l.mapM fun e => C e.1) = some vs) (hne : vs ≠ []) :
    ∃ ws, (l.mapM fun e => c e.1) = some ws ∧ PolygonNear D δ vs ws ∧ (∀ v ∈ vs, Within D (real3 (x p)) v) ∧
      (∀ w ∈ ws, Within D (real3 (x p)) (real3 w)) ∧ ws.length = vs.length := by
  obtain ⟨ws, hws, hf⟩ := mapM_rel (g := fun e => c e.1) (R := fun v w => CloseTo δ v w ∧ Within (D / 2) (real3 (x p)) v ∧
    Within (D / 2) (real3 (x p)) (real3 w)) (fun e he v hv => by
      obtain ⟨v', w, h1, h2, h3⟩ := hnear e.1 (hl e he)
      rw [h1] at hv
      cases hv
      exact ⟨w, h2, h3⟩) hvs
  refine ⟨ws, hws, ?_, ?_, ?_, hf.length_eq.symm⟩
  · cases hf with
    | nil => exact absurd rfl hne
    | @cons R r V W hR hW =>
      refine ⟨R, r, V, W, rfl, rfl, List.Forall₂.imp (fun v w h => ⟨h.1, hR.2.1.middle h.2.1, hR.2.2.middle h.2.2⟩) (.cons hR hW)⟩
  · intro v hv
    obtain ⟨i, hi, rfl⟩ := List.getElem_of_mem hv
    exact (hf.get hi (hf.length_eq ▸ hi)).2.1.mono (by linarith)
  · intro w hw
    obtain ⟨i, hi, rfl⟩ := List.getElem_of_mem hw
    exact (hf.get (hf.length_eq.symm ▸ hi) hi).2.2.mono (by linarith)

theorem face_near {M : Delaunay.Mesh} {x : ℕ → P3 ℚ} {C : ℕ → Option (P3 ℝ)} {c : ℕ → Option (P3 ℚ)} {p q : ℕ} {D δ : ℝ}
    (hD : 1 / 2 ^ 50 ≤ D) (hnear : VerticesNear M x C c p D δ)
    (hsep : 1 / 2 ^ 100 ≤ length3 ((real3 (x q)).sub (real3 (x p))) ∧ length3 ((real3 (x q)).sub (real3 (x p))) ≤ 2 ^ 200) {f : Face3}
    (hf : facePolygon M (fun i => real3 (x i)) C p q = some f) (hlen : f.points.length ≤ 2 ^ 20) :
    ∃ f', facePolygonF M x c p q = some f' ∧ FaceNear D δ (x p) f f' := by
  have hD1 : 1 / 2 ^ 100 ≤ D := le_trans (one_div_le_one_div_of_le (by positivity) (pow_le_pow_right₀ one_le_two (by decide))) hD
  have hD0 : 0 < D := lt_of_lt_of_le (by positivity) hD
  unfold facePolygon at hf
  simp only [Option.bind_eq_bind, Option.bind_eq_some_iff, Option.some.injEq] at hf
  obtain ⟨l, hl, vs, hvs, n', hn', A', hA', rfl⟩ := hf
  have hne : vs ≠ [] := by
    rintro rfl
    cases hA'
  obtain ⟨ws, hws, k1, k2, k3, k4⟩ := polygon_near hD0 hnear (fun e he => List.mem_of_mem_filter (arranged_mem hl e he)) hvs hne
  obtain ⟨n, n2, hn1, hn2, hn3, hn4⟩ := face_normal_accurate_f64 (p1 := x p) (p2 := x q) hsep.1 hsep.2
  rw [hn2] at hn'
  cases hn'
  obtain ⟨A, A2, a1, a2, a3, _, a5, _⟩ := area_real hD1 k1 (k4 ▸ hlen)
  rw [a2] at hA'
  cases hA'
  refine ⟨⟨q, n, A, ws⟩, ?_, rfl, hn3, hn4, k1, k2, k3, k4, a3, k4 ▸ a5⟩
  unfold facePolygonF
  simp only [Option.bind_eq_bind, Option.bind_eq_some_iff, Option.some.injEq]
  exact ⟨l, hl, ws, hws, n, hn1, A, a1, rfl⟩

/-- **C141.**  The faces and the volume of a cell.  If the vertices are known up to `δ`, then all faces are found, their areas and normals
are accurate, and so is the volume. -/
theorem cell_volume_accurate_f64 {M : Delaunay.Mesh} {x : ℕ → P3 ℚ} {C : ℕ → Option (P3 ℝ)} {c : ℕ → Option (P3 ℚ)} {p n : ℕ} {D δ : ℝ}
    (hD : 1 / 2 ^ 50 ≤ D) (hnear : VerticesNear M x C c p D δ)
    (hsep : ∀ q ∈ connectedPoints M p, 1 / 2 ^ 100 ≤ length3 ((real3 (x q)).sub (real3 (x p))) ∧
      length3 ((real3 (x q)).sub (real3 (x p))) ≤ 2 ^ 200)
    {F : List Face3} {V : ℝ} (hF : getFaces3 M (fun i => real3 (x i)) C p = some F) (hV : volume3 F (real3 (x p)) = some V)
    (hn : ∀ f ∈ F, f.points.length ≤ n) (hn20 : n ≤ 2 ^ 20) (hm : F.length ≤ 2 ^ 20) :
    ∃ F' V', getFacesF M x c p = some F' ∧ volumeF F' (x p) = some V' ∧
      List.Forall₂ (fun f f' => f'.connection = f.connection ∧ CloseTo (10 / 2 ^ 53) f.normal f'.normal ∧ 0 ≤ f'.area ∧
        |(f'.area : ℝ) - f.area| ≤ n * (9 * D * δ + (20 + 3 * n) * (D ^ 2 / 2 ^ 53))) F F' ∧
      0 ≤ V' ∧ |(V' : ℝ) - V| ≤ F.length * n * (12 * D ^ 2 * δ + (70 + 4 * n + 3 * F.length) * (D ^ 3 / 2 ^ 53)) := by
  have hD0 : 0 < D := lt_of_lt_of_le (by positivity) hD
  -- the faces
  have hmemF : ∀ q ∈ connectedPoints M p, ∀ f, facePolygon M (fun i => real3 (x i)) C p q = some f → f ∈ F := by
    have : ∀ (l : List ℕ) (F : List Face3), (l.mapM fun p2 => facePolygon M (fun i => real3 (x i)) C p p2) = some F →
        ∀ q ∈ l, ∀ f, facePolygon M (fun i => real3 (x i)) C p q = some f → f ∈ F := by
      intro l
      induction l with
      | nil =>
        intro F _ q hq
        cases hq
      | cons a l ih =>
        intro F h q hq f hf
        rw [List.mapM_cons] at h
        simp only [Option.bind_eq_bind, Option.bind_eq_some_iff, Option.pure_def, Option.some.injEq] at h
        obtain ⟨b, hb, F2, hF2, rfl⟩ := h
        rcases List.mem_cons.1 hq with rfl | hq
        · rw [hb] at hf
          cases hf
          exact List.mem_cons_self
        · exact List.mem_cons_of_mem _ (ih _ hF2 q hq f hf)
    exact this _ F hF
  obtain ⟨F', hF', hFF⟩ := mapM_rel (g := fun q => facePolygonF M x c p q) (R := fun f f' => FaceNear D δ (x p) f f' ∧ f.points.length ≤ n)
    (fun q hq f hf => by
      have hfn := hn f (hmemF q hq f hf)
      obtain ⟨f', h1, h2⟩ := face_near hD hnear (hsep q hq) hf (hfn.trans hn20)
      exact ⟨f', h1, h2, hfn⟩) hF
  unfold volume3 at hV
  rw [Option.map_eq_some_iff] at hV
  obtain ⟨ys, hys, rfl⟩ := hV
  obtain ⟨xs, hxs, hxy⟩ := mapM_rel₂ (g := fun f' : FaceF => pyramidVolumeF f'.normal (x p) f'.points)
    (R := fun y (z : ℚ) => IsF64 z ∧ 0 ≤ z ∧ (z : ℝ) ≤ n * (9 / 4 * D ^ 3) ∧
      |(z : ℝ) - y| ≤ n * (12 * D ^ 2 * δ + (70 + 4 * n) * (D ^ 3 / 2 ^ 53))) hFF (by
    rintro f f' ⟨⟨_, h2, h3, h4, h5, h6, h7, _⟩, hfn⟩ y hy
    obtain ⟨P, P', q1, q2, q3, q4, q5, q6⟩ := pyramid_real hD h2 h3 h4 h5 h6 (h7 ▸ hfn.trans hn20)
    rw [q2] at hy
    cases hy
    have hδ : 0 ≤ δ := by
      obtain ⟨R, r, V, W, hR, hW, hf⟩ := h4
      rw [hR, hW] at hf
      cases hf with
      | cons h _ => exact (abs_nonneg _).trans h.1.1
    have hk : ((f'.points.length : ℕ) : ℝ) ≤ n := by
      rw [h7]
      exact_mod_cast hfn
    refine ⟨P, q1, q3, q4, q6.trans ?_, q5.trans ?_⟩
    · exact mul_le_mul_of_nonneg_right hk (by positivity)
    · refine mul_le_mul hk ?_ (by positivity) (by positivity)
      have : 0 ≤ D ^ 3 / 2 ^ 53 := by positivity
      have := mul_le_mul_of_nonneg_right (by linarith : (70 + 4 * ((f'.points.length : ℕ) : ℝ)) ≤ 70 + 4 * n) this
      linarith) hys
  have hl : xs.length = F.length := by
    rw [← hxy.length_eq]
    have : ys.length = F.length := by
      have : ∀ (F : List Face3) (ys : List ℝ), (F.mapM fun f => pyramidVolume f.normal (real3 (x p)) f.points) = some ys → ys.length = F.length := by
        intro F
        induction F with
        | nil =>
          intro ys h
          simp only [List.mapM_nil, Option.pure_def, Option.some.injEq] at h
          subst h
          rfl
        | cons a F ih =>
          intro ys h
          rw [List.mapM_cons] at h
          simp only [Option.bind_eq_bind, Option.bind_eq_some_iff, Option.pure_def, Option.some.injEq] at h
          obtain ⟨b, _, l, hl, rfl⟩ := h
          rw [List.length_cons, List.length_cons, ih l hl]
      exact this F ys hys
    exact this
  obtain ⟨s1, s2, _⟩ := sumF_close (e := n * (12 * D ^ 2 * δ + (70 + 4 * n) * (D ^ 3 / 2 ^ 53))) (X := n * (9 / 4 * D ^ 3)) (by
      exact hxy.flip.imp fun z y h => ⟨h.1, h.2.1, h.2.2.1, h.2.2.2⟩) (hl ▸ hm)
  refine ⟨F', sumF xs, hF', ?_, ?_, ?_, ?_⟩
  · unfold volumeF
    rw [hxs]
    rfl
  · refine hFF.imp ?_
    rintro f f' ⟨⟨h1, h2, _, h4, _, _, _, h8, h9⟩, hfn⟩
    have hδ : 0 ≤ δ := by
      obtain ⟨R, r, V, W, hR, hW, hf⟩ := h4
      rw [hR, hW] at hf
      cases hf with
      | cons h _ => exact (abs_nonneg _).trans h.1.1
    have hk : ((f.points.length : ℕ) : ℝ) ≤ n := by exact_mod_cast hfn
    refine ⟨h1, h2, h8, h9.trans ?_⟩
    refine mul_le_mul hk ?_ (by positivity) (by positivity)
    have : 0 ≤ D ^ 2 / 2 ^ 53 := by positivity
    have := mul_le_mul_of_nonneg_right (by linarith : (20 + 3 * ((f.points.length : ℕ) : ℝ)) ≤ 20 + 3 * n) this
    linarith
  · exact s2
  · rw [hl] at s1
    refine s1.trans ?_
    have z : 0 ≤ (F.length : ℝ) * (n * (F.length * (D ^ 3 / 2 ^ 53))) := by positivity
    have e1 : (F.length : ℝ) * (n * (12 * D ^ 2 * δ + (70 + 4 * n) * (D ^ 3 / 2 ^ 53)) + 1001 / 1000 * (F.length * (n * (9 / 4 * D ^ 3)) / 2 ^ 53))
      = F.length * n * (12 * D ^ 2 * δ + (70 + 4 * n) * (D ^ 3 / 2 ^ 53)) + 9009 / 4000 * ((F.length : ℝ) * (n * (F.length * (D ^ 3 / 2 ^ 53)))) := by ring
    have e2 : F.length * n * (12 * D ^ 2 * δ + (70 + 4 * n + 3 * F.length) * (D ^ 3 / 2 ^ 53))
      = F.length * n * (12 * D ^ 2 * δ + (70 + 4 * n) * (D ^ 3 / 2 ^ 53)) + 3 * ((F.length : ℝ) * (n * (F.length * (D ^ 3 / 2 ^ 53)))) := by ring
    rw [e2]
    refine le_trans (le_of_eq ?_) (by linarith : F.length * n * (12 * D ^ 2 * δ + (70 + 4 * n) * (D ^ 3 / 2 ^ 53)) + 9009 / 4000 * ((F.length : ℝ) * (n * (F.length * (D ^ 3 / 2 ^ 53)))) ≤ _)
    rw [← e1]

end Verif.Rounding
