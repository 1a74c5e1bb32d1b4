import Verif.Parallel.RegionLemmas
import Verif.Voronoi.SimplexMeasure
import Mathlib.MeasureTheory.Measure.Lebesgue.Basic
import Mathlib.Algebra.Order.Round

/-! # The regions of nearest points of a periodic set of points fill the box: lemmas -/

namespace Verif.Parallel.Tiling

open Verif.Geometry MeasureTheory

variable {d : ℕ} {A : Type} (L : Fin d → ℝ) (pos : A → Vec d ℝ)

/-- Image `k` of a place. -/
def im (k : Fin d → ℤ) (z : Vec d ℝ) : Vec d ℝ := fun i => z i + k i * L i

/-- The places which are closer to a point than to all other points and images. -/
def cell (a : A) : Set (Vec d ℝ) :=
  {y | ∀ b k, (b, k) ≠ (a, 0) → distance y (pos a) < distance y (im L k (pos b))}

variable {L pos}

theorem im_im (k k' : Fin d → ℤ) (z : Vec d ℝ) : im L k (im L k' z) = im L (k + k') z := by
  funext i
  simp only [im, Pi.add_apply, Int.cast_add]
  ring

theorem im_zero (z : Vec d ℝ) : im L 0 z = z := by
  funext i
  simp [im]

theorem distance_im (k : Fin d → ℤ) (y z : Vec d ℝ) : distance (im L k y) (im L k z) = distance y z := by
  unfold distance im
  congr 1
  funext i
  show y i + _ - (z i + _) = y i - z i
  ring

theorem distance_im' (k k' : Fin d → ℤ) (y z : Vec d ℝ) :
    distance (im L k y) (im L k' z) = distance y (im L (k' - k) z) := by
  have : im L k' z = im L k (im L (k' - k) z) := by
    rw [im_im]
    congr 1
    abel
  rw [this, distance_im]

theorem continuous_distance (z : Vec d ℝ) : Continuous fun y : Vec d ℝ => distance y z := by
  unfold distance length
  fun_prop

theorem measurable_cell [Countable A] (a : A) : MeasurableSet (cell L pos a) := by
  have : cell L pos a = ⋂ b, ⋂ k, ⋂ _ : (b, k) ≠ (a, 0), {y | distance y (pos a) < distance y (im L k (pos b))} := by
    ext y
    simp only [cell, Set.mem_iInter]
    rfl
  rw [this]
  refine MeasurableSet.iInter fun b => MeasurableSet.iInter fun k => MeasurableSet.iInter fun _ => ?_
  exact measurableSet_lt (continuous_distance _).measurable (continuous_distance _).measurable

/-- The images of a cell. -/
def cellAt (L : Fin d → ℝ) (pos : A → Vec d ℝ) (x : A × (Fin d → ℤ)) : Set (Vec d ℝ) :=
  {y | ∀ b k, (b, k) ≠ x → distance y (im L x.2 (pos x.1)) < distance y (im L k (pos b))}

theorem mem_cellAt (a : A) (k : Fin d → ℤ) (y : Vec d ℝ) : im L k y ∈ cellAt L pos (a, k) ↔ y ∈ cell L pos a := by
  constructor
  · intro h b k' hne
    have := h b (k' + k) fun e => hne (by
      obtain ⟨rfl, e'⟩ : b = a ∧ k' + k = k := by simpa only [Prod.mk.injEq] using e
      rw [add_eq_right.1 e'])
    dsimp only at this
    rw [distance_im, distance_im'] at this
    rwa [add_sub_cancel_right] at this
  · intro h b k' hne
    dsimp only
    rw [distance_im, distance_im']
    exact h b (k' - k) fun e => hne (by
      obtain ⟨rfl, e'⟩ : b = a ∧ k' - k = 0 := by simpa only [Prod.mk.injEq] using e
      rw [sub_eq_zero.1 e'])

theorem measurable_cellAt [Countable A] (x : A × (Fin d → ℤ)) : MeasurableSet (cellAt L pos x) := by
  have : cellAt L pos x = ⋂ b, ⋂ k, ⋂ _ : (b, k) ≠ x, {y | distance y (im L x.2 (pos x.1)) < distance y (im L k (pos b))} := by
    ext y
    simp only [cellAt, Set.mem_iInter]
    rfl
  rw [this]
  refine MeasurableSet.iInter fun b => MeasurableSet.iInter fun k => MeasurableSet.iInter fun _ => ?_
  exact measurableSet_lt (continuous_distance _).measurable (continuous_distance _).measurable

theorem disjoint_cellAt {x x' : A × (Fin d → ℤ)} (h : x ≠ x') : Disjoint (cellAt L pos x) (cellAt L pos x') := by
  rw [Set.disjoint_left]
  intro y h1 h2
  exact lt_asymm (h1 x'.1 x'.2 (Ne.symm h)) (h2 x.1 x.2 h)

/-- Image `k` of the box with lower corner `lo`. -/
def boxAt (L lo : Fin d → ℝ) (k : Fin d → ℤ) : Set (Vec d ℝ) :=
  Set.pi Set.univ fun i => Set.Ico (lo i + k i * L i) (lo i + k i * L i + L i)

theorem mem_boxAt {lo : Fin d → ℝ} (hL : ∀ i, 0 < L i) {k : Fin d → ℤ} {y : Vec d ℝ} :
    y ∈ boxAt L lo k ↔ ∀ i, ⌊(y i - lo i) / L i⌋ = k i := by
  simp only [boxAt, Set.mem_pi, Set.mem_univ, true_imp_iff, Set.mem_Ico]
  refine forall_congr' fun i => ?_
  rw [Int.floor_eq_iff, le_div_iff₀ (hL i), div_lt_iff₀ (hL i)]
  constructor <;> rintro ⟨h1, h2⟩ <;> constructor <;> linarith

theorem measurable_boxAt (lo : Fin d → ℝ) (k : Fin d → ℤ) : MeasurableSet (boxAt L lo k) :=
  MeasurableSet.univ_pi fun _ => measurableSet_Ico

/-- A set is composed of its parts in the images of the box. -/
theorem volume_boxes {lo : Fin d → ℝ} (hL : ∀ i, 0 < L i) {S : Set (Vec d ℝ)} (hS : MeasurableSet S) :
    ∑' k, volume (boxAt L lo k ∩ S) = volume S := by
  rw [← measure_iUnion]
  · congr 1
    ext y
    simp only [Set.mem_iUnion, Set.mem_inter_iff]
    constructor
    · rintro ⟨k, -, h⟩
      exact h
    · intro h
      exact ⟨fun i => ⌊(y i - lo i) / L i⌋, (mem_boxAt hL).2 fun i => rfl, h⟩
  · intro k k' hne
    rw [Function.onFun, Set.disjoint_left]
    rintro y ⟨h1, -⟩ ⟨h2, -⟩
    refine hne ?_
    funext i
    rw [← (mem_boxAt hL).1 h1 i, (mem_boxAt hL).1 h2 i]
  · exact fun k => (measurable_boxAt lo k).inter hS

/-- Among all points and images there is a closest one. -/
theorem exists_nearest [Finite A] [Nonempty A] (hL : ∀ i, 0 < L i) (y : Vec d ℝ) :
    ∃ x : A × (Fin d → ℤ), ∀ b k, distance y (im L x.2 (pos x.1)) ≤ distance y (im L k (pos b)) := by
  have h1 : ∀ a : A, ∀ k, distance y (im L (fun i => round ((y i - pos a i) / L i)) (pos a)) ≤ distance y (im L k (pos a)) := by
    intro a k
    refine distance_le_of fun i => ?_
    have h := round_le ((y i - pos a i) / L i) (k i)
    have e : ∀ n : ℤ, |y i - im L (fun _ => n) (pos a) i| = |(y i - pos a i) / L i - n| * L i := by
      intro n
      have h0 := (hL i).ne'
      rw [← abs_of_pos (hL i), ← abs_mul, abs_of_pos (hL i)]
      congr 1
      simp only [im]
      field_simp
      ring
    have e1 := e (round ((y i - pos a i) / L i))
    have e2 := e (k i)
    simp only [im] at e1 e2 ⊢
    rw [e1, e2]
    exact mul_le_mul_of_nonneg_right h (hL i).le
  obtain ⟨a, ha⟩ := Finite.exists_min fun a : A => distance y (im L (fun i => round ((y i - pos a i) / L i)) (pos a))
  exact ⟨(a, fun i => round ((y i - pos a i) / L i)), fun b k => (ha b).trans (h1 b k)⟩

/-- The places at the same distance from two different points. -/
theorem volume_bisector {a b : Vec d ℝ} (hne : a ≠ b) : volume {y : Vec d ℝ | distance y a = distance y b} = 0 := by
  have e : {y : Vec d ℝ | distance y a = distance y b} =
      {y : Vec d ℝ | ∑ i, (y i - a i) ^ 2 - ∑ i, (y i - b i) ^ 2 = 0} := by
    ext y
    simp only [Set.mem_ofPred_eq]
    rw [le_antisymm_iff, distance_le_iff, distance_le_iff, ← le_antisymm_iff, sub_eq_zero]
  rw [e]
  refine Voronoi.volume_affine (fun c u v w => ?_) ⟨a, ?_⟩
  · rw [← Finset.sum_sub_distrib, ← Finset.sum_sub_distrib, ← Finset.sum_sub_distrib, ← Finset.sum_sub_distrib,
      ← Finset.sum_sub_distrib, Finset.mul_sum, ← Finset.sum_add_distrib]
    refine Finset.sum_congr rfl fun i _ => ?_
    simp only [Pi.add_apply, Pi.smul_apply, Pi.sub_apply, smul_eq_mul]
    ring
  · have h0 : ∑ i, (a i - a i) ^ 2 = 0 := Finset.sum_eq_zero fun i _ => by ring
    have h1 : 0 < ∑ i, (a i - b i) ^ 2 := by
      obtain ⟨i, hi⟩ := Function.ne_iff.1 hne
      exact Finset.sum_pos' (fun i _ => sq_nonneg _) ⟨i, Finset.mem_univ i, by have := sub_ne_zero.2 hi; positivity⟩
    rw [h0]
    intro h
    linarith

/-- The cell of a point is composed of the places in the box whose closest point is one of its images. -/
theorem volume_wrapped [Countable A] {lo : Fin d → ℝ} (hL : ∀ i, 0 < L i) (a : A) :
    volume (cell L pos a) = ∑' k, volume (boxAt L lo 0 ∩ cellAt L pos (a, k)) := by
  rw [← volume_boxes (lo := lo) hL (measurable_cell a), ← (Equiv.neg (Fin d → ℤ)).tsum_eq]
  refine tsum_congr fun k => ?_
  have hpre : boxAt L lo (Equiv.neg (Fin d → ℤ) k) ∩ cell L pos a =
      (fun y => y + fun i => k i * L i) ⁻¹' (boxAt L lo 0 ∩ cellAt L pos (a, k)) := by
    ext y
    have e : (y + fun i => k i * L i : Vec d ℝ) = im L k y := rfl
    simp only [Set.mem_preimage, Set.mem_inter_iff]
    rw [e, mem_cellAt, mem_boxAt hL, mem_boxAt hL]
    refine and_congr_left fun _ => forall_congr' fun i => ?_
    have h0 := (hL i).ne'
    have e2 : (im L k y i - lo i) / L i = (y i - lo i) / L i + k i := by
      simp only [im]
      field_simp
      ring
    rw [e2, Int.floor_add_intCast]
    simp only [Equiv.neg_apply, Pi.neg_apply, Pi.zero_apply]
    omega
  rw [hpre, measure_preimage_add_right]

/-- The cells fill the box. -/
theorem volume_cells [Fintype A] [Nonempty A] (lo : Fin d → ℝ) (hL : ∀ i, 0 < L i) (hne : ∀ a : A, (cell L pos a).Nonempty) :
    ∑ a : A, volume (cell L pos a) = ∏ i, ENNReal.ofReal (L i) := by
  have hpos : ∀ x x' : A × (Fin d → ℤ), x ≠ x' → im L x.2 (pos x.1) ≠ im L x'.2 (pos x'.1) := by
    rintro ⟨a, k⟩ ⟨b, k'⟩ hx he
    obtain ⟨y, hy⟩ := hne a
    have := (mem_cellAt a k y).2 hy b k' (Ne.symm hx)
    dsimp only at this he
    rw [he] at this
    exact lt_irrefl _ this
  have hbox : volume (boxAt L lo 0) = ∏ i, ENNReal.ofReal (L i) := by
    unfold boxAt
    rw [Real.volume_pi_Ico]
    refine Finset.prod_congr rfl fun i _ => ?_
    congr 1
    ring
  rw [← hbox]
  have hnull : volume (⋃ x : A × (Fin d → ℤ), ⋃ x' : A × (Fin d → ℤ), ⋃ _ : x ≠ x',
      {y : Vec d ℝ | distance y (im L x.2 (pos x.1)) = distance y (im L x'.2 (pos x'.1))}) = 0 := by
    rw [measure_iUnion_null_iff]
    intro x
    rw [measure_iUnion_null_iff]
    intro x'
    rw [measure_iUnion_null_iff]
    intro h
    exact volume_bisector (hpos x x' h)
  have hcov : volume (boxAt L lo 0) = volume (⋃ x, boxAt L lo 0 ∩ cellAt L pos x) := by
    refine le_antisymm ?_ (measure_mono (Set.iUnion_subset fun x => Set.inter_subset_left))
    refine (measure_mono (t := (⋃ x, boxAt L lo 0 ∩ cellAt L pos x) ∪ _) ?_).trans ((measure_union_le _ _).trans (by rw [hnull, add_zero]))
    intro y hy
    by_cases hb : y ∈ ⋃ x : A × (Fin d → ℤ), ⋃ x' : A × (Fin d → ℤ), ⋃ _ : x ≠ x',
        {y : Vec d ℝ | distance y (im L x.2 (pos x.1)) = distance y (im L x'.2 (pos x'.1))}
    · exact Or.inr hb
    · refine Or.inl ?_
      obtain ⟨x, hx⟩ := exists_nearest (pos := pos) hL y
      refine Set.mem_iUnion.2 ⟨x, hy, fun b k hne => lt_of_le_of_ne (hx b k) fun e => hb ?_⟩
      exact Set.mem_iUnion.2 ⟨x, Set.mem_iUnion.2 ⟨(b, k), Set.mem_iUnion.2 ⟨Ne.symm hne, e⟩⟩⟩
  rw [hcov, measure_iUnion (fun x x' h => ((disjoint_cellAt h).mono Set.inter_subset_right Set.inter_subset_right))
    fun x => (measurable_boxAt lo 0).inter (measurable_cellAt x)]
  refine Eq.trans ?_ (ENNReal.tsum_prod (f := fun a k => volume (boxAt L lo 0 ∩ cellAt L pos (a, k)))).symm
  rw [tsum_fintype]
  exact Finset.sum_congr rfl fun a _ => volume_wrapped hL a

end Verif.Parallel.Tiling
