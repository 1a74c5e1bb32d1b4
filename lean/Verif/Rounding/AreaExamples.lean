import Verif.Rounding.CellConstructProps
import Verif.Voronoi.PolygonLemmas

/-!
# C141: examples
-/

namespace Verif.Rounding

open Verif.Predicates Verif.Voronoi Verif.Delaunay

/-- The points of a triangulation of one point in the unit cube. -/
def exSites (i : ℕ) : P3 ℚ := positionOf3 (allPoints3 ⟨0, 0, 0⟩ ⟨1, 1, 1⟩ [⟨9 / 10, 4 / 5, 7 / 10⟩]) i

/-- A decidable version of `TetraKnown`. -/
def tetraKnownB (t : Tetra ℚ) (p : P3 ℚ) (D δ : ℚ) : Bool :=
  decide (Near3 16 t.p1 t.p2 ∧ Near3 16 t.p1 t.p3 ∧ Near3 16 t.p1 t.p4) &&
  match circumcentreF t with
  | none => false
  | some c => decide (Near3 16 t.p1 c ∧ (|c.x| ≤ 16 ∧ |c.y| ≤ 16 ∧ |c.z| ≤ 16) ∧ centreShift t 16 16 16 ≤ δ ∧
      (|p.x - c.x| ≤ D / 2 - δ ∧ |p.y - c.y| ≤ D / 2 - δ ∧ |p.z - c.z| ≤ D / 2 - δ))

theorem exSites_known : ∀ a ∈ List.range 5, ∀ b ∈ List.range 5, ∀ c ∈ List.range 5, ∀ d ∈ List.range 5, [a, b, c, d].Nodup → 4 ∈ [a, b, c, d] →
    tetraKnownB ⟨exSites a, exSites b, exSites c, exSites d⟩ (exSites 4) 12 (1 / 10 ^ 6) = true := by
  decide +kernel

theorem tetraKnown_of {t : Tetra ℚ} {p : P3 ℚ} {D δ : ℚ} (h : tetraKnownB t p D δ = true) : TetraKnown t p D δ := by
  unfold tetraKnownB at h
  rw [Bool.and_eq_true] at h
  obtain ⟨h1, h2⟩ := h
  obtain ⟨n2, n3, n4⟩ := of_decide_eq_true h1
  split at h2
  · cases h2
  · rename_i c hc
    obtain ⟨k1, k2, k3, k4, k5, k6⟩ := of_decide_eq_true h2
    have k : ∀ {a b : ℚ}, |a - b| ≤ D / 2 - δ → |(a : ℝ) - b| ≤ (D : ℝ) / 2 - δ := by
      intro a b h
      have := (Rat.cast_le (K := ℝ)).2 h
      push_cast at this
      exact this
    exact ⟨16, 16, 16, c, by norm_num, n2, n3, n4, by norm_num, hc, k1, k2, k3, k k4, k k5, k k6⟩

theorem exSites_apart : ∀ q < 4, 1 / 2 ^ 100 ≤ length3 ((real3 (exSites q)).sub (real3 (exSites 4))) ∧
    length3 ((real3 (exSites q)).sub (real3 (exSites 4))) ≤ 2 ^ 200 := by
  intro q hq
  have hB : ∀ q < 4, (1 / 10 ≤ |(exSites q).x - (exSites 4).x|) ∧ (|(exSites q).x - (exSites 4).x| ≤ 4) ∧ (|(exSites q).y - (exSites 4).y| ≤ 4) ∧
      (|(exSites q).z - (exSites 4).z| ≤ 4) := by decide +kernel
  obtain ⟨h0, h1, h2, h3⟩ := hB q hq
  have k : ∀ {a b : ℚ}, |a - b| ≤ 4 → |(a : ℝ) - b| ≤ 4 := by
    intro a b h
    have := (Rat.cast_le (K := ℝ)).2 h
    push_cast at this
    exact this
  have h0' : (1 / 10 : ℝ) ≤ |((exSites q).x : ℝ) - (exSites 4).x| := by
    have := (Rat.cast_le (K := ℝ)).2 h0
    push_cast at this
    exact this
  constructor
  · have := (abs_le_length3 ((real3 (exSites q)).sub (real3 (exSites 4)))).1
    change |((exSites q).x : ℝ) - (exSites 4).x| ≤ _ at this
    refine le_trans ?_ (h0'.trans this)
    norm_num
  · refine (length3_le (e := 4) (by norm_num) (k h1) (k h2) (k h3)).trans ?_
    norm_num

/-- The hypotheses of `construct3_cell_volume_f64` are met by the construction for one point in the unit cube. -/
theorem exSites_cell : ∃ r : Construction3 ℝ ℕ, construct3 (1 / 100) (fun _ => 0) popHead 3126 (⟨0, 0, 0⟩ : P3 ℝ) ⟨1, 1, 1⟩
      [((0 : ℕ), ⟨9 / 10, 4 / 5, 7 / 10⟩)] = .done r ∧ (∀ i, r.position i = real3 (exSites i)) ∧ (0, 4) ∈ r.indices ∧
    CellKnown r.state.mesh exSites 4 12 (1 / 10 ^ 6) ∧
    (∀ q ∈ connectedPoints r.state.mesh 4, (tetrasWithBoth r.state.mesh 4 q).length ≤ 32) ∧ (connectedPoints r.state.mesh 4).length ≤ 4 := by
  obtain ⟨hpop, r, hr⟩ := construct3_one_point
  obtain ⟨P, hnum, -, -, -, -⟩ := space_of_construct3 (by norm_num) hpop (by norm_num) (by norm_num) (by norm_num) hr
  have hri : (∀ i, r.position i = real3 (exSites i)) ∧ (0, 4) ∈ r.indices := by
    unfold construct3 at hr
    simp only at hr
    split at hr
    · cases hr
    · split at hr
      · cases hr
      · cases hr
      · cases hr
        refine ⟨fun i => ?_, by simp⟩
        match i with
        | 0 => simp [positionOf3, allPoints3, real3, exSites, Predicates.Tetra.allEncompassing, P3.sub]
        | 1 => simp [positionOf3, allPoints3, real3, exSites, Predicates.Tetra.allEncompassing, P3.sub]
        | 2 => simp [positionOf3, allPoints3, real3, exSites, Predicates.Tetra.allEncompassing, P3.sub]
        | 3 => simp [positionOf3, allPoints3, real3, exSites, Predicates.Tetra.allEncompassing, P3.sub]
        | 4 => simp [positionOf3, allPoints3, real3, exSites]
        | n + 5 => simp [positionOf3, allPoints3, real3, exSites]
  have hc := P.ok.cons
  have hlt : ∀ t T, r.state.mesh.tetras.get t = some T → ∀ a ∈ T.points, a < 5 := fun t T hT a ha => by
    have := hc.points_lt t T hT a ha
    rw [hnum] at this
    exact this
  refine ⟨r, hr, hri.1, hri.2, ⟨?_, ?_⟩, ?_, ?_⟩
  · intro t ht T hT a b c d hp
    obtain ⟨T', hT', hm⟩ := (mem_tetrasOf hc.tetras_ok).1 ht
    rw [hT] at hT'
    cases hT'
    have hl := hlt t T hT
    have hnd := hc.points_nodup t T hT
    rw [hp] at hl hnd hm
    have := tetraKnown_of (exSites_known a (List.mem_range.2 (hl a (by simp))) b (List.mem_range.2 (hl b (by simp))) c
      (List.mem_range.2 (hl c (by simp))) d (List.mem_range.2 (hl d (by simp))) hnd hm)
    exact_mod_cast this
  · intro q hq
    obtain ⟨hne, t, T, hT, -, hqT⟩ := (mem_connectedPoints hc).1 hq
    have := hlt t T hT q hqT
    exact exSites_apart q (by omega)
  · intro q hq
    have hsub : (tetrasWithBoth r.state.mesh 4 q).length ≤ (tetrasOf r.state.mesh 4).length := List.length_filter_le _ _
    refine hsub.trans ?_
    have hnd := tetrasOf_nodup hc 4
    have hcard : (tetrasOf r.state.mesh 4).toFinset.card ≤ ((Finset.range 5).powerset).card := by
      refine Finset.card_le_card_of_injOn (fun t => ((r.state.mesh.tetras.get t).elim [] fun T => T.points).toFinset) ?_ ?_
      · intro t ht
        obtain ⟨T, hT, -⟩ := (mem_tetrasOf hc.tetras_ok).1 (List.mem_toFinset.1 ht)
        simp only [Finset.coe_powerset, Set.mem_preimage, Set.mem_powerset_iff, Finset.coe_subset]
        intro a ha
        rw [hT] at ha
        exact Finset.mem_range.2 (hlt t T hT a (List.mem_toFinset.1 ha))
      · intro t ht u hu htu
        obtain ⟨T, hT, -⟩ := (mem_tetrasOf hc.tetras_ok).1 (List.mem_toFinset.1 ht)
        obtain ⟨U, hU, -⟩ := (mem_tetrasOf hc.tetras_ok).1 (List.mem_toFinset.1 hu)
        simp only [hT, hU] at htu
        refine distinct_of_space P t u T U hT hU fun z => ?_
        rw [← List.mem_toFinset, ← List.mem_toFinset]
        exact iff_of_eq (congrArg (z ∈ ·) htu)
    rw [List.toFinset_card_of_nodup hnd, Finset.card_powerset, Finset.card_range] at hcard
    exact hcard
  · have hnd : (connectedPoints r.state.mesh 4).Nodup := List.nodup_dedup _
    rw [← List.toFinset_card_of_nodup hnd]
    have : (connectedPoints r.state.mesh 4).toFinset ⊆ Finset.range 4 := by
      intro q hq
      obtain ⟨hne, t, T, hT, -, hqT⟩ := (mem_connectedPoints hc).1 (List.mem_toFinset.1 hq)
      have := hlt t T hT q hqT
      exact Finset.mem_range.2 (by omega)
    simpa using Finset.card_le_card this

example : ∃ (r : Construction3 ℝ ℕ) (F : List FaceF) (V : ℚ), getFacesF r.state.mesh exSites (centre3F r.state.mesh exSites) 4 = some F ∧
    volumeF F (exSites 4) = some V ∧ 0 ≤ V := by
  obtain ⟨r, hr, hpos, he, hk, hn, hm⟩ := exSites_cell
  obtain ⟨F, V, h1, -, h2, h3, -⟩ := construct3_cell_volume_f64 (by norm_num) construct3_one_point.1 (by norm_num) (by norm_num) (by norm_num) hr hpos
    he (by norm_num) hk hn (by norm_num) (hm.trans (by norm_num))
  exact ⟨r, F, V, h1, h2, h3⟩

/-- The hypotheses of `face_area_accurate_f64` and of `face_normal_accurate_f64` are met, by a triangle whose vertices are rounded and by
points which are apart by a vector whose length is not rational. -/
example : PolygonNear 2 (1 / 2 ^ 53) [⟨1 / 10, 0, 0⟩, ⟨6 / 5, 0, 0⟩, ⟨1 / 10, 1, 1⟩]
    [⟨fl (1 / 10), 0, 0⟩, ⟨fl (6 / 5), 0, 0⟩, ⟨fl (1 / 10), 1, 1⟩] := by
  have h1 : |fl (1 / 10) - 1 / 10| ≤ 1 / 2 ^ 53 := by decide +kernel
  have h2 : |fl (6 / 5) - 6 / 5| ≤ 1 / 2 ^ 53 := by decide +kernel
  have h1' := (Rat.cast_le (K := ℝ)).2 h1
  have h2' := (Rat.cast_le (K := ℝ)).2 h2
  push_cast at h1' h2'
  have b1 := abs_le.1 h1'
  have b2 := abs_le.1 h2'
  refine ⟨_, _, _, _, rfl, rfl, .cons ⟨⟨h1', by simp, by simp⟩, ?_, ?_⟩ (.cons ⟨⟨h2', by simp, by simp⟩, ?_, ?_⟩
    (.cons ⟨⟨h1', by simp, by simp⟩, ?_, ?_⟩ .nil))⟩ <;> unfold Within <;> simp only [real3] <;> norm_num [abs_le] at * <;> constructor <;> linarith

example : 1 / 2 ^ 100 ≤ length3 ((real3 (exSites 1)).sub (real3 (exSites 4))) ∧ length3 ((real3 (exSites 1)).sub (real3 (exSites 4))) ≤ 2 ^ 200 :=
  exSites_apart 1 (by norm_num)

/-! ## Two cells at a face -/

open Verif.Delaunay (Built3) in
/-- The initial tetrahedron with two points inserted and two tetrahedra flipped into three. -/
theorem exMesh : ∃ M, Built3 2 M ∧ 4 ∈ connectedPoints M 5 ∧
    ∀ p ∈ [4, 5], ∀ q ∈ connectedPoints M p, (2 ≤ (tetrasWithBoth M p q).length ∧
      (arranged (tetrasWithBoth M p q) fun t u => (commonFace M t u).isSome).isSome = true) ∧ (tetrasWithBoth M p q).length ≤ 8 ∧
      q < 8 ∧ q ≠ p := by
  obtain ⟨M0, h0⟩ : ∃ M, Mesh.basic3d = some M := ⟨_, rfl⟩
  have b0 : Built3 0 M0 := .start h0
  cases h0
  have b1 := Built3.split (t := 0) b0 rfl rfl
  have b2 := Built3.split (t := 1) b1 rfl rfl
  have b3 := Built3.flip (t := 5) (p := 5) (s := ⟨8, some ⟨3, 0⟩, true⟩) (c := ⟨3, 0⟩)
    (fun _ _ _ => some .inside) b2 rfl (by decide +kernel) rfl (by decide +kernel) rfl
  exact ⟨_, b3, by decide +kernel, by decide +kernel⟩

/-- Points on a line, and vertices of cells. -/
def exLine (i : ℕ) : P3 ℚ := ⟨i, 0, 0⟩

def exVertex (t : ℕ) : P3 ℚ := ⟨(t % 4 : ℕ), (t * t % 8 : ℕ), 1⟩

/-- The hypotheses of `faces_agree_exactly_f64` are met, by two cells with a common face. -/
example : ∃ M F G f, Consistent 3 M ∧ getFacesF M exLine (fun t => some (exVertex t)) 5 = some F ∧
    getFacesF M exLine (fun t => some (exVertex t)) 4 = some G ∧ f ∈ F ∧ f.connection = 4 := by
  obtain ⟨M, hb, h45, ha⟩ := exMesh
  have hc := (Delaunay.mesh3_consistent hb).1
  have faces : ∀ p ∈ [4, 5], ∃ F, getFacesF M exLine (fun t => some (exVertex t)) p = some F ∧ ∀ q ∈ connectedPoints M p, ∃ f ∈ F, f.connection = q := by
    intro p hp
    have hp8 : p < 8 := by
      simp only [List.mem_cons, List.not_mem_nil, or_false] at hp
      omega
    obtain ⟨F, hF⟩ := faces_exist3 hc (x := fun i => real3 (exLine i)) (p := p) (centre := fun t => some (real3 (exVertex t)))
      (fun q hq he => by
        have := congrArg P3.x he
        simp only [real3, exLine, Rat.cast_natCast, Nat.cast_inj] at this
        exact (ha p hp q hq).2.2.2 this) (fun t T _ => ⟨_, rfl⟩) fun q hq => (ha p hp q hq).1
    obtain ⟨F', hF', hff⟩ := mapM_rel (g := fun q => facePolygonF M exLine (fun t => some (exVertex t)) p q) (R := fun f f' => f'.connection = f.connection)
      (fun q hq f hf => by
        obtain ⟨f', h1, h2⟩ := face_near (D := 40) (δ := 0) (by norm_num) (M := M) (x := exLine) (C := fun t => some (real3 (exVertex t)))
          (c := fun t => some (exVertex t)) (p := p) (fun t _ => by
            refine ⟨_, _, rfl, rfl, ⟨by simp [real3], by simp [real3], by simp [real3]⟩, ?_, ?_⟩
            all_goals
              have e1 : ((t % 4 : ℕ) : ℝ) < 4 := by exact_mod_cast Nat.mod_lt t (by norm_num)
              have e2 : ((t * t % 8 : ℕ) : ℝ) < 8 := by exact_mod_cast Nat.mod_lt (t * t) (by norm_num)
              have e3 : (p : ℝ) < 8 := by exact_mod_cast hp8
              have z1 : (0 : ℝ) ≤ ((t % 4 : ℕ) : ℝ) := Nat.cast_nonneg _
              have z2 : (0 : ℝ) ≤ ((t * t % 8 : ℕ) : ℝ) := Nat.cast_nonneg _
              have z3 : (0 : ℝ) ≤ (p : ℝ) := Nat.cast_nonneg _
              refine ⟨?_, ?_, ?_⟩ <;> simp only [real3, exLine, exVertex, Rat.cast_natCast, Rat.cast_zero, Rat.cast_one] <;> rw [abs_le] <;> constructor <;> linarith)
          (by
            obtain ⟨-, -, h8, hne⟩ := ha p hp q hq
            have e3 : (p : ℝ) < 8 := by exact_mod_cast hp8
            have e4 : (q : ℝ) < 8 := by exact_mod_cast h8
            have z3 : (0 : ℝ) ≤ (p : ℝ) := Nat.cast_nonneg _
            have z4 : (0 : ℝ) ≤ (q : ℝ) := Nat.cast_nonneg _
            constructor
            · refine le_trans ?_ (abs_le_length3 _).1
              simp only [P3.sub, real3, exLine, Rat.cast_natCast]
              have : (1 : ℝ) ≤ |(q : ℝ) - p| := by
                have : (1 : ℤ) ≤ |(q : ℤ) - p| := Int.one_le_abs (sub_ne_zero.2 (by exact_mod_cast hne))
                exact_mod_cast this
              refine le_trans ?_ this
              norm_num
            · refine (length3_le (e := 8) (by norm_num) ?_ ?_ ?_).trans (by norm_num)
              all_goals simp only [P3.sub, real3, exLine, Rat.cast_natCast, Rat.cast_zero]
              · rw [abs_le]
                constructor <;> linarith
              · norm_num
              · norm_num)
          hf ((face_points_length hf).trans ((ha p hp q hq).2.1.trans (by norm_num)))
        exact ⟨f', h1, h2.1⟩) hF
    refine ⟨F', hF', fun q hq => ?_⟩
    obtain ⟨f, hf, hfq⟩ := List.mem_map.1 (((connections3 hc hF).2 q).2 ((mem_connectedPoints hc).1 hq))
    obtain ⟨i, hi, rfl⟩ := List.getElem_of_mem hf
    have hi' : i < F'.length := hff.length_eq ▸ hi
    exact ⟨F'[i], List.getElem_mem hi', (hff.get hi hi').trans hfq⟩
  obtain ⟨F, hF, hF2⟩ := faces 5 (by simp)
  obtain ⟨G, hG, -⟩ := faces 4 (by simp)
  obtain ⟨f, hf, hf'⟩ := hF2 4 h45
  exact ⟨M, F, G, f, hc, hF, hG, hf, hf'⟩

/-! ## The start of a polygon -/

/-- A quadrilateral in a plane. -/
def exQuad (i : Fin 4) : P3 ℚ :=
  ![⟨fl (3 / 10), fl (1 / 10), 0⟩, ⟨fl (13 / 10), fl (2 / 10), 0⟩, ⟨fl (12 / 10), fl (13 / 10), 0⟩, ⟨fl (1 / 10), fl (13 / 10), 0⟩] i

/-- The test of `length3F_vertical` for a triangle. -/
def exTest (r p1 p2 : P3 ℚ) : Prop :=
  let v := crossF (subF r p1) (subF r p2)
  v.x = 0 ∧ v.y = 0 ∧ fl (|v.z| * (1 - 1 / 2 ^ 53 * (51 / 100))) = |v.z| ∧ fl (|v.z| * (1 + 1 / 2 ^ 53 * (51 / 100))) = |v.z| ∧
    (|v.z| * (1 - 1 / 2 ^ 53 * (51 / 100))) ^ 2 ≤ v.z ⊠ v.z ∧ v.z ⊠ v.z ≤ (|v.z| * (1 + 1 / 2 ^ 53 * (51 / 100))) ^ 2

instance (r p1 p2 : P3 ℚ) : Decidable (exTest r p1 p2) := by unfold exTest; infer_instance

theorem length_of_test {r p1 p2 : P3 ℚ} (h : exTest r p1 p2) :
    length3F (crossF (subF r p1) (subF r p2)) = |(crossF (subF r p1) (subF r p2)).z| := by
  obtain ⟨h1, h2, h3⟩ := h
  have : crossF (subF r p1) (subF r p2) = ⟨0, 0, (crossF (subF r p1) (subF r p2)).z⟩ := by
    conv_rhs => rw [← h1]
    conv_rhs => enter [2]; rw [h1, ← h2]
  rw [this]
  exact length3F_vertical h3

theorem quad_area {a b c d : P3 ℚ} (h1 : exTest a a b) (h2 : exTest a b c) (h3 : exTest a c d) (h4 : exTest a d a) :
    polygonAreaF [a, b, c, d] = some (sumF [(1 / 2) ⊠ |(crossF (subF a a) (subF a b)).z|, (1 / 2) ⊠ |(crossF (subF a b) (subF a c)).z|,
      (1 / 2) ⊠ |(crossF (subF a c) (subF a d)).z|, (1 / 2) ⊠ |(crossF (subF a d) (subF a a)).z|]) := by
  unfold polygonAreaF
  simp only [List.getElem?_cons_zero, mapWindows_eq]
  rw [← length_of_test h1, ← length_of_test h2, ← length_of_test h3, ← length_of_test h4]
  rfl

theorem exQuad_tests : ∀ i : Fin 2, ∀ j : Fin 4, exTest (exQuad (i.castLE (by norm_num))) (exQuad j) (exQuad (j + 1)) := by decide +kernel

/-- **C141.**  The area of a polygon depends on the vertex at which its list begins, in the last digits: two ranks which have collected the
same tetrahedra in a different order can compute different areas for the same face. -/
theorem area_depends_on_start_f64 : ∃ (a b c d : P3 ℚ) (A B : ℚ), polygonAreaF [a, b, c, d] = some A ∧ polygonAreaF [b, c, d, a] = some B ∧ A ≠ B :=
  ⟨exQuad 0, exQuad 1, exQuad 2, exQuad 3, _, _,
    quad_area (exQuad_tests 0 0) (exQuad_tests 0 1) (exQuad_tests 0 2) (exQuad_tests 0 3),
    quad_area (exQuad_tests 1 1) (exQuad_tests 1 2) (exQuad_tests 1 3) (exQuad_tests 1 0), by decide +kernel⟩

end Verif.Rounding
