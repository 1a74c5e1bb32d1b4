import Verif.Delaunay.SpaceGeo
import Mathlib.MeasureTheory.Measure.Lebesgue.EqHaar
import Mathlib.Analysis.SpecialFunctions.Integrals.Basic
import Mathlib.MeasureTheory.Constructions.Pi

/-! # The volumes of triangles, of tetrahedra and of sets which are composed of them: lemmas -/

namespace Verif.Voronoi

open MeasureTheory
open Verif.Predicates (P2 P3 orient2 orient3)
open Verif.Delaunay

/-- The interior of the corner of a cube which is cut off at the distance `t`. -/
def corner (n : ℕ) (t : ℝ) : Set (Fin n → ℝ) := {x | (∀ i, 0 < x i) ∧ ∑ i, x i < t}

theorem measurable_corner (n : ℕ) (t : ℝ) : MeasurableSet (corner n t) := by
  unfold corner
  rw [Set.ofPred_and, Set.ofPred_forall]
  refine MeasurableSet.inter (MeasurableSet.iInter fun i => ?_) ?_
  · exact measurableSet_lt measurable_const (measurable_pi_apply i)
  · exact measurableSet_lt (Finset.measurable_sum _ fun i _ => measurable_pi_apply i) measurable_const

theorem corner_empty (n : ℕ) {t : ℝ} (ht : t ≤ 0) : corner n t = ∅ := by
  ext x
  simp only [corner, Set.mem_ofPred_eq, Set.mem_empty_iff_false, iff_false, not_and, not_lt]
  exact fun h => ht.trans (Finset.sum_nonneg fun i _ => (h i).le)

theorem volume_corner (n : ℕ) : ∀ {t : ℝ}, 0 < t → volume (corner n t) = ENNReal.ofReal (t ^ n / n.factorial) := by
  induction n with
  | zero =>
    intro t ht
    have : corner 0 t = Set.univ := by
      ext x
      simp [corner, ht]
    rw [this, volume_pi, Measure.pi_univ]
    simp
  | succ n ih =>
    intro t ht
    have hp := volume_preserving_piFinSuccAbove (fun _ : Fin (n + 1) => ℝ) 0
    have hpre : corner (n + 1) t = (MeasurableEquiv.piFinSuccAbove (fun _ : Fin (n + 1) => ℝ) 0) ⁻¹'
        {z | 0 < z.1 ∧ z.2 ∈ corner n (t - z.1)} := by
      ext x
      simp only [corner, Set.mem_ofPred_eq, Set.mem_preimage, MeasurableEquiv.piFinSuccAbove_apply,
        Fin.insertNthEquiv_symm_apply, Fin.removeNth_zero, Fin.tail]
      rw [Fin.forall_fin_succ, Fin.sum_univ_succ, and_assoc]
      refine and_congr_right fun _ => and_congr_right fun _ => ?_
      rw [lt_sub_iff_add_lt, add_comm]
    have hm : MeasurableSet {z : ℝ × (Fin n → ℝ) | 0 < z.1 ∧ z.2 ∈ corner n (t - z.1)} := by
      unfold corner
      simp only [Set.mem_ofPred_eq]
      rw [Set.ofPred_and, Set.ofPred_and, Set.ofPred_forall]
      refine MeasurableSet.inter (measurableSet_lt measurable_const measurable_fst)
        (MeasurableSet.inter (MeasurableSet.iInter fun i => ?_) ?_)
      · exact measurableSet_lt measurable_const ((measurable_pi_apply i).comp measurable_snd)
      · exact measurableSet_lt (Finset.measurable_sum _ fun i _ => (measurable_pi_apply i).comp measurable_snd)
          (measurable_const.sub measurable_fst)
    rw [hpre, hp.measure_preimage hm.nullMeasurableSet, Measure.volume_eq_prod, Measure.prod_apply hm]
    have e : ∀ s : ℝ, volume (Prod.mk s ⁻¹' {z : ℝ × (Fin n → ℝ) | 0 < z.1 ∧ z.2 ∈ corner n (t - z.1)}) =
        (Set.Ioo 0 t).indicator (fun s => ENNReal.ofReal ((t - s) ^ n / n.factorial)) s := by
      intro s
      by_cases hs : s ∈ Set.Ioo 0 t
      · rw [Set.indicator_of_mem hs, ← ih (sub_pos.2 hs.2)]
        congr 1
        ext x
        simp [hs.1]
      · rw [Set.indicator_of_notMem hs]
        convert measure_empty (μ := (volume : Measure (Fin n → ℝ)))
        ext x
        simp only [Set.mem_preimage, Set.mem_ofPred_eq, Set.mem_empty_iff_false, iff_false, not_and]
        intro h0
        rw [corner_empty n (sub_nonpos.2 (not_lt.1 fun h => hs ⟨h0, h⟩))]
        exact Set.notMem_empty x
    simp only [e]
    rw [lintegral_indicator measurableSet_Ioo, ← ofReal_integral_eq_lintegral_ofReal]
    · congr 1
      rw [← integral_Ioc_eq_integral_Ioo, ← intervalIntegral.integral_of_le ht.le]
      rw [intervalIntegral.integral_div, intervalIntegral.integral_comp_sub_left (fun u => u ^ n) t, sub_self, sub_zero,
        integral_pow, Nat.factorial_succ]
      push_cast
      field_simp
      ring
    · refine (ContinuousOn.integrableOn_Icc ?_).mono_set Set.Ioo_subset_Icc_self
      fun_prop
    · refine (ae_restrict_iff' measurableSet_Ioo).2 (Filter.Eventually.of_forall fun s hs => ?_)
      have := sub_pos.2 hs.2
      dsimp
      positivity

/-- The places at which an affine function vanishes. -/
theorem volume_affine {n : ℕ} {g : (Fin n → ℝ) → ℝ}
    (hg : ∀ (c : ℝ) (u v w : Fin n → ℝ), g (c • (u - v) + w) = c * (g u - g v) + g w) (h0 : ∃ v, g v ≠ 0) :
    volume {v | g v = 0} = 0 := by
  let A : AffineSubspace ℝ (Fin n → ℝ) :=
    { carrier := {v | g v = 0}
      smul_vsub_vadd_mem' := by
        intro c u v w hu hv hw
        have := hg c u v w
        rw [hu, hv, hw] at this
        simpa using this }
  have hA : A ≠ ⊤ := by
    intro h
    obtain ⟨v, hv⟩ := h0
    have : v ∈ A := by rw [h]; trivial
    exact hv this
  exact Measure.addHaar_affineSubspace volume A hA

theorem volume_exists {n : ℕ} {ι : Type*} (J : Finset ι) (S : ι → Set (Fin n → ℝ)) (h : ∀ j ∈ J, volume (S j) = 0) :
    volume {v | ∃ j ∈ J, v ∈ S j} = 0 := by
  have : {v | ∃ j ∈ J, v ∈ S j} = ⋃ j ∈ (J : Set ι), S j := by
    ext v
    simp
  rw [this, measure_biUnion_null_iff J.countable_toSet]
  exact h

/-- The volume of a set which is composed of pieces, up to a null set. -/
theorem volume_pieces {n : ℕ} {ι : Type*} (J : Finset ι) (S : ι → Set (Fin n → ℝ)) {R N : Set (Fin n → ℝ)}
    (hS : ∀ j ∈ J, MeasurableSet (S j)) (hd : ∀ i ∈ J, ∀ j ∈ J, i ≠ j → Disjoint (S i) (S j))
    (hsub : ∀ j ∈ J, S j ⊆ R) (hN : volume N = 0) (hcov : ∀ v ∈ R, v ∉ N → ∃ j ∈ J, v ∈ S j) :
    volume R = ∑ j ∈ J, volume (S j) := by
  have h1 : volume (⋃ j ∈ J, S j) = ∑ j ∈ J, volume (S j) :=
    measure_biUnion_finset (fun i hi j hj hij => hd i hi j hj hij) hS
  rw [← h1]
  refine le_antisymm ?_ (measure_mono (Set.iUnion₂_subset hsub))
  calc volume R ≤ volume ((⋃ j ∈ J, S j) ∪ N) := measure_mono fun v hv => by
        by_cases h : v ∈ N
        · exact Or.inr h
        · obtain ⟨j, hj, hv⟩ := hcov v hv h
          exact Or.inl (Set.mem_biUnion hj hv)
    _ ≤ volume (⋃ j ∈ J, S j) + volume N := measure_union_le _ _
    _ = volume (⋃ j ∈ J, S j) := by rw [hN, add_zero]

/-- The image of a corner under an affine map. -/
theorem volume_image {n : ℕ} (B : Matrix (Fin n) (Fin n) ℝ) (o : Fin n → ℝ) :
    volume ((fun v => o + v) '' (Matrix.toLin' B '' corner n 1)) = ENNReal.ofReal (|B.det| / n.factorial) := by
  rw [Set.image_add_left, measure_preimage_add, Measure.addHaar_image_linearMap, volume_corner n one_pos,
    LinearMap.det_toLin', ← ENNReal.ofReal_mul (abs_nonneg _)]
  congr 1
  rw [one_pow]
  ring

/-! ### Coordinates -/

/-- The point with these coordinates. -/
def at2 (v : Fin 2 → ℝ) : P2 ℝ := ⟨v 0, v 1⟩

/-- The point with these coordinates. -/
def at3 (v : Fin 3 → ℝ) : P3 ℝ := ⟨v 0, v 1, v 2⟩

/-- The volume of the interior of a tetrahedron. -/
theorem volume_inside3 {w : Fin 4 → P3 ℝ} (hw : vol w ≠ 0) :
    volume {v | Inside3 w (at3 v)} = ENNReal.ofReal (|vol w| / 6) := by
  let B : Matrix (Fin 3) (Fin 3) ℝ := !![(w 1).x - (w 0).x, (w 2).x - (w 0).x, (w 3).x - (w 0).x;
    (w 1).y - (w 0).y, (w 2).y - (w 0).y, (w 3).y - (w 0).y; (w 1).z - (w 0).z, (w 2).z - (w 0).z, (w 3).z - (w 0).z]
  have hdet : B.det = vol w := by
    rw [vol_def, Matrix.det_fin_three]
    simp only [B, Matrix.of_apply, Matrix.cons_val]
    ring
  have hset : {v | Inside3 w (at3 v)} =
      (fun v => ![(w 0).x, (w 0).y, (w 0).z] + v) '' (Matrix.toLin' B '' corner 3 1) := by
    ext v
    rw [Set.mem_ofPred_eq, Set.mem_image]
    constructor
    · intro h
      have hs := co_sum hw (at3 v)
      rw [Fin.sum_univ_four] at hs
      refine ⟨_, ⟨![co w 1 (at3 v), co w 2 (at3 v), co w 3 (at3 v)], ⟨?_, ?_⟩, rfl⟩, ?_⟩
      · intro i
        fin_cases i
        · exact h 1
        · exact h 2
        · exact h 3
      · rw [Fin.sum_univ_three]
        have := h 0
        simp only [Matrix.cons_val]
        linarith
      · have ex := IsAff.bary (f := fun y : P3 ℝ => y.x) (fun y => by dsimp only; ring) hw (at3 v)
        have ey := IsAff.bary (f := fun y : P3 ℝ => y.y) (fun y => by dsimp only; ring) hw (at3 v)
        have ez := IsAff.bary (f := fun y : P3 ℝ => y.z) (fun y => by dsimp only; ring) hw (at3 v)
        rw [Fin.sum_univ_four] at ex ey ez
        have h0 : co w 0 (at3 v) = 1 - co w 1 (at3 v) - co w 2 (at3 v) - co w 3 (at3 v) := by linarith
        rw [h0] at ex ey ez
        generalize co w 1 (at3 v) = c1 at *
        generalize co w 2 (at3 v) = c2 at *
        generalize co w 3 (at3 v) = c3 at *
        funext i
        rw [Matrix.toLin'_apply, Pi.add_apply, Matrix.mulVec, dotProduct, Fin.sum_univ_three]
        match i with
        | 0 =>
          simp only [B, at3, Matrix.of_apply, Matrix.cons_val] at ex ⊢
          linear_combination -ex
        | 1 =>
          simp only [B, at3, Matrix.of_apply, Matrix.cons_val] at ey ⊢
          linear_combination -ey
        | 2 =>
          simp only [B, at3, Matrix.of_apply, Matrix.cons_val] at ez ⊢
          linear_combination -ez
    · rintro ⟨_, ⟨c, ⟨hc, hc1⟩, rfl⟩, rfl⟩
      rw [Fin.sum_univ_three] at hc1
      have hsum : ∑ i, (![1 - c 0 - c 1 - c 2, c 0, c 1, c 2] : Fin 4 → ℝ) i = 1 := by
        rw [Fin.sum_univ_four]
        simp only [Matrix.cons_val]
        ring
      have e : at3 (![(w 0).x, (w 0).y, (w 0).z] + Matrix.toLin' B c) = comb w ![1 - c 0 - c 1 - c 2, c 0, c 1, c 2] := by
        unfold at3 comb
        rw [Matrix.toLin'_apply]
        simp only [Pi.add_apply, Matrix.mulVec, dotProduct, Fin.sum_univ_three, Fin.sum_univ_four, B, Matrix.of_apply,
          Matrix.cons_val]
        congr 1 <;> ring
      intro i
      rw [e, co_comb hw hsum]
      fin_cases i
      · show 0 < 1 - c 0 - c 1 - c 2
        linarith
      · exact hc 0
      · exact hc 1
      · exact hc 2
  rw [hset, volume_image, hdet]
  norm_num [Nat.factorial]

/-- The places at which an affine function in space vanishes. -/
theorem volume_plane {f : P3 ℝ → ℝ} (hf : IsAff f) (h0 : ∃ y, f y ≠ 0) : volume {v | f (at3 v) = 0} = 0 := by
  refine volume_affine (g := fun v => f (at3 v)) (fun c u v w => ?_) ?_
  · rw [hf (at3 _), hf (at3 u), hf (at3 v), hf (at3 w)]
    simp only [at3, Pi.add_apply, Pi.smul_apply, Pi.sub_apply, smul_eq_mul]
    ring
  · obtain ⟨y, hy⟩ := h0
    exact ⟨![y.x, y.y, y.z], hy⟩

/-- The coordinates of `y` at the three vertices of a triangle. -/
def InsideTriangle (a b c y : P2 ℝ) : Prop :=
  0 < orient2 ⟨y, b, c⟩ / orient2 ⟨a, b, c⟩ ∧ 0 < orient2 ⟨y, c, a⟩ / orient2 ⟨a, b, c⟩ ∧
    0 < orient2 ⟨y, a, b⟩ / orient2 ⟨a, b, c⟩

theorem triangle_bary {a b c : P2 ℝ} (h : orient2 ⟨a, b, c⟩ ≠ 0) (y u v : P2 ℝ) :
    orient2 ⟨y, u, v⟩ = orient2 ⟨y, b, c⟩ / orient2 ⟨a, b, c⟩ * orient2 ⟨a, u, v⟩ +
      orient2 ⟨y, c, a⟩ / orient2 ⟨a, b, c⟩ * orient2 ⟨b, u, v⟩ +
      orient2 ⟨y, a, b⟩ / orient2 ⟨a, b, c⟩ * orient2 ⟨c, u, v⟩ := by
  rw [div_mul_eq_mul_div, div_mul_eq_mul_div, div_mul_eq_mul_div, ← add_div, ← add_div, eq_div_iff h]
  unfold orient2
  ring

theorem triangle_sum {a b c : P2 ℝ} (h : orient2 ⟨a, b, c⟩ ≠ 0) (y : P2 ℝ) :
    orient2 ⟨y, b, c⟩ / orient2 ⟨a, b, c⟩ + orient2 ⟨y, c, a⟩ / orient2 ⟨a, b, c⟩ +
      orient2 ⟨y, a, b⟩ / orient2 ⟨a, b, c⟩ = 1 := by
  rw [← add_div, ← add_div, div_eq_one_iff_eq h]
  unfold orient2
  ring

/-- The area of the interior of a triangle. -/
theorem volume_inside2 {a b c : P2 ℝ} (h : orient2 ⟨a, b, c⟩ ≠ 0) :
    volume {v | InsideTriangle a b c (at2 v)} = ENNReal.ofReal (|orient2 ⟨a, b, c⟩| / 2) := by
  let B : Matrix (Fin 2) (Fin 2) ℝ := !![b.x - a.x, c.x - a.x; b.y - a.y, c.y - a.y]
  have hdet : B.det = orient2 ⟨a, b, c⟩ := by
    rw [Matrix.det_fin_two]
    simp only [B, Matrix.of_apply, Matrix.cons_val, orient2]
    ring
  have hset : {v | InsideTriangle a b c (at2 v)} = (fun v => ![a.x, a.y] + v) '' (Matrix.toLin' B '' corner 2 1) := by
    ext v
    rw [Set.mem_ofPred_eq, Set.mem_image]
    constructor
    · intro hv
      have hs := triangle_sum h (at2 v)
      have ex : v 0 * orient2 ⟨a, b, c⟩ = orient2 ⟨at2 v, b, c⟩ * a.x + orient2 ⟨at2 v, c, a⟩ * b.x +
          orient2 ⟨at2 v, a, b⟩ * c.x := by
        unfold orient2 at2
        ring
      have ey : v 1 * orient2 ⟨a, b, c⟩ = orient2 ⟨at2 v, b, c⟩ * a.y + orient2 ⟨at2 v, c, a⟩ * b.y +
          orient2 ⟨at2 v, a, b⟩ * c.y := by
        unfold orient2 at2
        ring
      obtain ⟨h1, h2, h3⟩ := hv
      refine ⟨_, ⟨![orient2 ⟨at2 v, c, a⟩ / orient2 ⟨a, b, c⟩, orient2 ⟨at2 v, a, b⟩ / orient2 ⟨a, b, c⟩],
        ⟨fun i => ?_, ?_⟩, rfl⟩, ?_⟩
      · match i with
        | 0 => exact h2
        | 1 => exact h3
      · rw [Fin.sum_univ_two]
        simp only [Matrix.cons_val]
        linarith
      · have e : orient2 ⟨at2 v, b, c⟩ = orient2 ⟨a, b, c⟩ - orient2 ⟨at2 v, c, a⟩ - orient2 ⟨at2 v, a, b⟩ := by
          unfold orient2
          ring
        rw [e] at ex ey
        funext i
        rw [Matrix.toLin'_apply, Pi.add_apply, Matrix.mulVec, dotProduct, Fin.sum_univ_two]
        match i with
        | 0 =>
          simp only [B, Matrix.of_apply, Matrix.cons_val]
          field_simp
          linear_combination -ex
        | 1 =>
          simp only [B, Matrix.of_apply, Matrix.cons_val]
          field_simp
          linear_combination -ey
    · rintro ⟨_, ⟨k, ⟨hk, hk1⟩, rfl⟩, rfl⟩
      rw [Fin.sum_univ_two] at hk1
      have e : at2 (![a.x, a.y] + Matrix.toLin' B k) =
          ⟨a.x + (k 0 * (b.x - a.x) + k 1 * (c.x - a.x)), a.y + (k 0 * (b.y - a.y) + k 1 * (c.y - a.y))⟩ := by
        unfold at2
        rw [Matrix.toLin'_apply]
        simp only [Pi.add_apply, Matrix.mulVec, dotProduct, Fin.sum_univ_two, B, Matrix.of_apply, Matrix.cons_val]
        congr 1 <;> ring
      rw [e]
      refine ⟨?_, ?_, ?_⟩
      · rw [show orient2 ⟨⟨a.x + (k 0 * (b.x - a.x) + k 1 * (c.x - a.x)), a.y + (k 0 * (b.y - a.y) + k 1 * (c.y - a.y))⟩,
          b, c⟩ = (1 - k 0 - k 1) * orient2 ⟨a, b, c⟩ by unfold orient2; ring, mul_div_cancel_right₀ _ h]
        linarith
      · rw [show orient2 ⟨⟨a.x + (k 0 * (b.x - a.x) + k 1 * (c.x - a.x)), a.y + (k 0 * (b.y - a.y) + k 1 * (c.y - a.y))⟩,
          c, a⟩ = k 0 * orient2 ⟨a, b, c⟩ by unfold orient2; ring, mul_div_cancel_right₀ _ h]
        exact hk 0
      · rw [show orient2 ⟨⟨a.x + (k 0 * (b.x - a.x) + k 1 * (c.x - a.x)), a.y + (k 0 * (b.y - a.y) + k 1 * (c.y - a.y))⟩,
          a, b⟩ = k 1 * orient2 ⟨a, b, c⟩ by unfold orient2; ring, mul_div_cancel_right₀ _ h]
        exact hk 1
  rw [hset, volume_image, hdet]
  norm_num [Nat.factorial]

/-- The places on a line. -/
theorem volume_line {f : P2 ℝ → ℝ} (hf : ∀ (c : ℝ) (u v w : P2 ℝ),
      f ⟨c * (u.x - v.x) + w.x, c * (u.y - v.y) + w.y⟩ = c * (f u - f v) + f w) (h0 : ∃ y, f y ≠ 0) :
    volume {v | f (at2 v) = 0} = 0 := by
  refine volume_affine (g := fun v => f (at2 v)) (fun c u v w => ?_) ?_
  · rw [← hf]
    rfl
  · obtain ⟨y, hy⟩ := h0
    exact ⟨![y.x, y.y], hy⟩

end Verif.Voronoi
