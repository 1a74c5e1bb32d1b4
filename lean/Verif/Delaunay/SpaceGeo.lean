import Verif.Predicates.CircleProps
import Verif.Predicates.SimplexProps
import Mathlib.LinearAlgebra.Matrix.Determinant.Basic

/-!
# Geometry of tetrahedra: lemmas

A tetrahedron is a map from `Fin 4` to its vertices.  `co v k y` is the barycentric coordinate of `y` at the vertex
`v k`, and `pw v y` is the power of `y` with respect to the circumsphere of `v`: the squared norm of `y` minus the
affine interpolation of the squared norm from the vertices.
-/

namespace Verif.Delaunay

open Verif.Predicates (P3 orient3 distSq3)

variable {K : Type} [Field K]

/-- Six times the signed volume. -/
def vol (v : Fin 4 → P3 K) : K := orient3 ⟨v 0, v 1, v 2, v 3⟩

theorem vol_def (v : Fin 4 → P3 K) : vol v =
    ((v 1).x - (v 0).x) * (((v 2).y - (v 0).y) * ((v 3).z - (v 0).z) - ((v 2).z - (v 0).z) * ((v 3).y - (v 0).y))
    - ((v 1).y - (v 0).y) * (((v 2).x - (v 0).x) * ((v 3).z - (v 0).z) - ((v 2).z - (v 0).z) * ((v 3).x - (v 0).x))
    + ((v 1).z - (v 0).z) * (((v 2).x - (v 0).x) * ((v 3).y - (v 0).y) - ((v 2).y - (v 0).y) * ((v 3).x - (v 0).x)) :=
  Predicates.orient3_eq _

theorem vol_det (v : Fin 4 → P3 K) :
    vol v = Matrix.det (Matrix.of fun i => ![1, (v i).x, (v i).y, (v i).z]) := by
  rw [Matrix.det_succ_row_zero]
  have e0 : (Matrix.of fun i => ![1, (v i).x, (v i).y, (v i).z]).submatrix Fin.succ (Fin.succAbove 0) =
      Matrix.of fun i : Fin 3 => ![(v i.succ).x, (v i.succ).y, (v i.succ).z] := by
    ext i j; fin_cases j <;> rfl
  have e1 : (Matrix.of fun i => ![1, (v i).x, (v i).y, (v i).z]).submatrix Fin.succ (Fin.succAbove 1) =
      Matrix.of fun i : Fin 3 => ![1, (v i.succ).y, (v i.succ).z] := by
    ext i j; fin_cases j <;> rfl
  have e2 : (Matrix.of fun i => ![1, (v i).x, (v i).y, (v i).z]).submatrix Fin.succ (Fin.succAbove 2) =
      Matrix.of fun i : Fin 3 => ![1, (v i.succ).x, (v i.succ).z] := by
    ext i j; fin_cases j <;> rfl
  have e3 : (Matrix.of fun i => ![1, (v i).x, (v i).y, (v i).z]).submatrix Fin.succ (Fin.succAbove 3) =
      Matrix.of fun i : Fin 3 => ![1, (v i.succ).x, (v i.succ).y] := by
    ext i j; fin_cases j <;> rfl
  rw [Fin.sum_univ_four, e0, e1, e2, e3]
  erw [Matrix.det_fin_three, Matrix.det_fin_three, Matrix.det_fin_three, Matrix.det_fin_three]
  simp only [Matrix.of_apply, vol_def]
  simp [show Fin.succ (2 : Fin 3) = 3 from rfl, show Fin.succ (1 : Fin 3) = 2 from rfl, show Fin.succ (0 : Fin 3) = 1 from rfl]
  ring

theorem vol_perm (v : Fin 4 → P3 K) (e : Equiv.Perm (Fin 4)) :
    vol (v ∘ e) = ((Equiv.Perm.sign e : ℤ) : K) * vol v := by
  rw [vol_det, vol_det]
  exact Matrix.det_permute e (Matrix.of fun i => ![1, (v i).x, (v i).y, (v i).z])

theorem sign_ne (e : Equiv.Perm (Fin 4)) : ((Equiv.Perm.sign e : ℤ) : K) ≠ 0 := by
  rcases Int.units_eq_one_or (Equiv.Perm.sign e) with h | h <;> rw [h] <;> simp

theorem vol_perm_ne {v : Fin 4 → P3 K} (e : Equiv.Perm (Fin 4)) (h : vol v ≠ 0) : vol (v ∘ e) ≠ 0 := by
  rw [vol_perm]
  exact mul_ne_zero (sign_ne e) h

/-- A function of points which is affine. -/
def IsAff (f : P3 K → K) : Prop :=
  ∀ y, f y = f ⟨0, 0, 0⟩ + y.x * (f ⟨1, 0, 0⟩ - f ⟨0, 0, 0⟩) + y.y * (f ⟨0, 1, 0⟩ - f ⟨0, 0, 0⟩) +
    y.z * (f ⟨0, 0, 1⟩ - f ⟨0, 0, 0⟩)

theorem IsAff.add {f g : P3 K → K} (hf : IsAff f) (hg : IsAff g) : IsAff fun y => f y + g y := by
  intro y
  dsimp only
  rw [hf y, hg y]
  ring

theorem IsAff.sub {f g : P3 K → K} (hf : IsAff f) (hg : IsAff g) : IsAff fun y => f y - g y := by
  intro y
  dsimp only
  rw [hf y, hg y]
  ring

theorem IsAff.mul {f : P3 K → K} (hf : IsAff f) (c : K) : IsAff fun y => f y * c := by
  intro y
  dsimp only
  rw [hf y]
  ring

theorem IsAff.const (c : K) : IsAff fun _ : P3 K => c := by
  intro y
  ring

theorem vol_aff (v : Fin 4 → P3 K) (k : Fin 4) : IsAff fun y => vol (Function.update v k y) := by
  intro y
  fin_cases k <;> simp [vol_def, Function.update] <;> ring

/-- The barycentric coordinate of `y` at the vertex `v k`. -/
def co (v : Fin 4 → P3 K) (k : Fin 4) (y : P3 K) : K := vol (Function.update v k y) / vol v

theorem co_aff (v : Fin 4 → P3 K) (k : Fin 4) : IsAff (co v k) := by
  have := (vol_aff v k).mul (vol v)⁻¹
  have e : co v k = fun y => vol (Function.update v k y) * (vol v)⁻¹ := by
    funext y
    unfold co
    rw [div_eq_mul_inv]
  rw [e]
  exact this

theorem co_self {v : Fin 4 → P3 K} (h : vol v ≠ 0) (k : Fin 4) : co v k (v k) = 1 := by
  unfold co
  rw [Function.update_eq_self, div_self h]

theorem co_other (v : Fin 4 → P3 K) {k j : Fin 4} (h : j ≠ k) : co v k (v j) = 0 := by
  unfold co
  have : vol (Function.update v k (v j)) = 0 := by
    revert h
    fin_cases k <;> fin_cases j <;> simp [vol_def, Function.update] <;> ring
  rw [this, zero_div]

/-- Affine functions are determined by their values at the vertices. -/
theorem IsAff.bary {f : P3 K → K} (hf : IsAff f) {v : Fin 4 → P3 K} (h : vol v ≠ 0) (y : P3 K) :
    f y = ∑ i, co v i y * f (v i) := by
  unfold co
  simp only [Fin.sum_univ_four, div_mul_eq_mul_div]
  rw [← add_div, ← add_div, ← add_div, eq_div_iff h, hf y, hf (v 0), hf (v 1), hf (v 2), hf (v 3)]
  generalize f ⟨0, 0, 0⟩ = f0
  generalize f ⟨1, 0, 0⟩ = f1
  generalize f ⟨0, 1, 0⟩ = f2
  generalize f ⟨0, 0, 1⟩ = f3
  simp [vol_def, Function.update]
  ring

theorem co_sum {v : Fin 4 → P3 K} (h : vol v ≠ 0) (y : P3 K) : ∑ i, co v i y = 1 := by
  have := (IsAff.const (1 : K)).bary h y
  simpa using this.symm

theorem co_perm (v : Fin 4 → P3 K) (e : Equiv.Perm (Fin 4)) (k : Fin 4) (y : P3 K) :
    co (v ∘ e) k y = co v (e k) y := by
  unfold co
  have : Function.update (v ∘ e) k y = Function.update v (e k) y ∘ e := by
    rw [Function.update_comp_equiv]
    simp
  rw [this, vol_perm, vol_perm, mul_div_mul_left _ _ (sign_ne e)]

/-- The volume after the replacement of a vertex. -/
theorem vol_update {v : Fin 4 → P3 K} (h : vol v ≠ 0) (k : Fin 4) (y : P3 K) :
    vol (Function.update v k y) = co v k y * vol v := by
  unfold co
  rw [div_mul_cancel₀ _ h]

theorem vol_update_ne {v : Fin 4 → P3 K} (h : vol v ≠ 0) {k : Fin 4} {y : P3 K} (hk : co v k y ≠ 0) :
    vol (Function.update v k y) ≠ 0 := by
  rw [vol_update h]
  exact mul_ne_zero hk h

/-- The coordinate at a replaced vertex. -/
theorem co_update_self {v : Fin 4 → P3 K} (h : vol v ≠ 0) {k : Fin 4} {p : P3 K} (y : P3 K) :
    co (Function.update v k p) k y = co v k y / co v k p := by
  unfold co
  rw [Function.update_idem, div_div_div_cancel_right₀ h]

/-- The coordinates after the replacement of a vertex. -/
theorem co_update {v : Fin 4 → P3 K} (h : vol v ≠ 0) {k : Fin 4} {p : P3 K} (hk : co v k p ≠ 0) {i : Fin 4}
    (hi : i ≠ k) (y : P3 K) :
    co v i y = co (Function.update v k p) i y + co (Function.update v k p) k y * co v i p := by
  rw [(co_aff v i).bary (vol_update_ne h hk) y]
  rw [← Finset.add_sum_erase _ _ (Finset.mem_univ k), ← Finset.add_sum_erase _ _ (Finset.mem_erase.2 ⟨hi, Finset.mem_univ i⟩),
    Finset.sum_eq_zero, add_zero, add_comm]
  · rw [Function.update_self, Function.update_of_ne hi, co_self h, mul_one]
  · intro j hj
    rw [Finset.mem_erase, Finset.mem_erase] at hj
    rw [Function.update_of_ne hj.2.1, co_other v hj.1, mul_zero]

theorem co_update_k {v : Fin 4 → P3 K} (h : vol v ≠ 0) {k : Fin 4} {p : P3 K} (hk : co v k p ≠ 0) (y : P3 K) :
    co v k y = co (Function.update v k p) k y * co v k p := by
  rw [co_update_self h, div_mul_cancel₀ _ hk]

/-- The squared norm. -/
def lift (y : P3 K) : K := y.x ^ 2 + y.y ^ 2 + y.z ^ 2

/-- The power of a point with respect to the circumsphere. -/
def pw3 (v : Fin 4 → P3 K) (y : P3 K) : K := lift y - ∑ i, co v i y * lift (v i)

theorem pw3_perm (v : Fin 4 → P3 K) (e : Equiv.Perm (Fin 4)) (y : P3 K) : pw3 (v ∘ e) y = pw3 v y := by
  unfold pw3
  simp only [co_perm, Function.comp]
  rw [Equiv.sum_comp e (fun i => co v i y * lift (v i))]

theorem pw3_vertex {v : Fin 4 → P3 K} (h : vol v ≠ 0) (k : Fin 4) : pw3 v (v k) = 0 := by
  unfold pw3
  rw [← Finset.add_sum_erase _ _ (Finset.mem_univ k), Finset.sum_eq_zero, co_self h]
  · ring
  · intro j hj
    rw [co_other v (Finset.mem_erase.1 hj).1.symm, zero_mul]

theorem pw3_diff_aff (v w : Fin 4 → P3 K) : IsAff fun y => pw3 w y - pw3 v y := by
  have h : ∀ u : Fin 4 → P3 K, IsAff fun y => ∑ i, co u i y * lift (u i) := by
    intro u
    simp only [Fin.sum_univ_four]
    exact ((((co_aff u 0).mul _).add ((co_aff u 1).mul _)).add ((co_aff u 2).mul _)).add ((co_aff u 3).mul _)
  have := (h v).sub (h w)
  unfold pw3
  simpa using this

/-- The power can be computed with any function which differs from the squared norm by an affine one. -/
theorem pw3_eq {v : Fin 4 → P3 K} (h : vol v ≠ 0) {g : P3 K → K} (hg : IsAff fun y => lift y - g y) (y : P3 K) :
    pw3 v y = g y - ∑ i, co v i y * g (v i) := by
  have := hg.bary h y
  simp only [mul_sub, Finset.sum_sub_distrib] at this
  unfold pw3
  linear_combination this

theorem lift_sub_dist (o : P3 K) : IsAff fun y => lift y - distSq3 y o := by
  intro y
  simp only [lift, distSq3]
  ring

/-- The power with the circumcentre. -/
theorem pw3_sphere {v : Fin 4 → P3 K} (h : vol v ≠ 0) {o : P3 K} {rho : K} (ho : ∀ i, distSq3 (v i) o = rho) (y : P3 K) :
    pw3 v y = distSq3 y o - rho := by
  rw [pw3_eq h (lift_sub_dist o)]
  simp only [ho]
  rw [← Finset.sum_mul, co_sum h, one_mul]

/-- The powers with respect to two tetrahedra with a common face. -/
theorem pw3_across {v : Fin 4 → P3 K} (h : vol v ≠ 0) {k : Fin 4} {q : P3 K} (hq : co v k q ≠ 0) (y : P3 K) :
    pw3 (Function.update v k q) y = pw3 v y + co v k y * pw3 (Function.update v k q) (v k) := by
  have hw := vol_update_ne h hq
  have := (pw3_diff_aff v (Function.update v k q)).bary h y
  rw [← Finset.add_sum_erase _ _ (Finset.mem_univ k), Finset.sum_eq_zero, pw3_vertex h] at this
  · linear_combination this
  · intro j hj
    have e : Function.update v k q j = v j := Function.update_of_ne (Finset.mem_erase.1 hj).1 _ _
    have := pw3_vertex hw j
    rw [e] at this
    rw [this, pw3_vertex h]
    ring

/-- The two opposite vertices of a common face have related powers. -/
theorem pw3_opposite {v : Fin 4 → P3 K} (h : vol v ≠ 0) {k : Fin 4} {q : P3 K} (hq : co v k q ≠ 0) :
    pw3 v q = -co v k q * pw3 (Function.update v k q) (v k) := by
  have h1 := pw3_across h hq q
  have h2 := pw3_vertex (vol_update_ne h hq) k
  rw [Function.update_self] at h2
  rw [h2] at h1
  linear_combination -h1

/-! ### Order -/

variable [LinearOrder K] [IsStrictOrderedRing K]

/-- The interior of a tetrahedron. -/
def Inside3 (v : Fin 4 → P3 K) (y : P3 K) : Prop := ∀ i, 0 < co v i y

/-- A tetrahedron with its boundary. -/
def Within3 (v : Fin 4 → P3 K) (y : P3 K) : Prop := ∀ i, 0 ≤ co v i y

omit [IsStrictOrderedRing K] in
theorem Inside3.within {v : Fin 4 → P3 K} {y : P3 K} (h : Inside3 v y) : Within3 v y := fun i => (h i).le

omit [IsStrictOrderedRing K] in
theorem inside3_perm (v : Fin 4 → P3 K) (e : Equiv.Perm (Fin 4)) (y : P3 K) : Inside3 (v ∘ e) y ↔ Inside3 v y := by
  unfold Inside3
  simp only [co_perm]
  exact ⟨fun h i => by simpa using h (e.symm i), fun h i => h _⟩

omit [IsStrictOrderedRing K] in
theorem within3_perm (v : Fin 4 → P3 K) (e : Equiv.Perm (Fin 4)) (y : P3 K) : Within3 (v ∘ e) y ↔ Within3 v y := by
  unfold Within3
  simp only [co_perm]
  exact ⟨fun h i => by simpa using h (e.symm i), fun h i => h _⟩

/-- An affine function which is nonnegative at the vertices is nonnegative in the tetrahedron. -/
theorem IsAff.nonneg {f : P3 K → K} (hf : IsAff f) {v : Fin 4 → P3 K} (h : vol v ≠ 0) {y : P3 K} (hy : Within3 v y)
    (hv : ∀ i, 0 ≤ f (v i)) : 0 ≤ f y := by
  rw [hf.bary h y]
  exact Finset.sum_nonneg fun i _ => mul_nonneg (hy i) (hv i)

theorem IsAff.pos {f : P3 K → K} (hf : IsAff f) {v : Fin 4 → P3 K} (h : vol v ≠ 0) {y : P3 K} (hy : Inside3 v y)
    (hv : ∀ i, 0 ≤ f (v i)) (hs : ∃ i, 0 < f (v i)) : 0 < f y := by
  rw [hf.bary h y]
  obtain ⟨i, hi⟩ := hs
  exact Finset.sum_pos' (fun i _ => mul_nonneg (hy i).le (hv i)) ⟨i, Finset.mem_univ i, mul_pos (hy i) hi⟩

/-- A point with at most one positive coordinate is not inside of the circumsphere. -/
theorem pw3_nonneg {v : Fin 4 → P3 K} (h : vol v ≠ 0) {k : Fin 4} {y : P3 K} (hk : ∀ i, i ≠ k → co v i y ≤ 0) :
    0 ≤ pw3 v y := by
  rw [pw3_eq h (lift_sub_dist (v k))]
  have hd : ∀ a b : P3 K, 0 ≤ distSq3 a b := by
    intro a b
    unfold distSq3
    positivity
  have : ∑ i, co v i y * distSq3 (v i) (v k) ≤ 0 := by
    apply Finset.sum_nonpos
    intro i _
    by_cases e : i = k
    · rw [e]
      unfold distSq3
      simp
    · exact mul_nonpos_of_nonpos_of_nonneg (hk i e) (hd _ _)
  have := hd y (v k)
  linarith

/-- The affine combination of two points. -/
def lerp (t : K) (a b : P3 K) : P3 K := ⟨(1 - t) * a.x + t * b.x, (1 - t) * a.y + t * b.y, (1 - t) * a.z + t * b.z⟩

omit [LinearOrder K] [IsStrictOrderedRing K] in
theorem IsAff.lerp {f : P3 K → K} (hf : IsAff f) (t : K) (a b : P3 K) :
    f (lerp t a b) = (1 - t) * f a + t * f b := by
  rw [hf (Delaunay.lerp t a b), hf a, hf b]
  unfold Delaunay.lerp
  ring

/-- The point with given barycentric coordinates. -/
def comb (v : Fin 4 → P3 K) (c : Fin 4 → K) : P3 K :=
  ⟨∑ i, c i * (v i).x, ∑ i, c i * (v i).y, ∑ i, c i * (v i).z⟩

omit [LinearOrder K] [IsStrictOrderedRing K] in
theorem IsAff.comb {f : P3 K → K} (hf : IsAff f) (v : Fin 4 → P3 K) {c : Fin 4 → K} (hc : ∑ i, c i = 1) :
    f (comb v c) = ∑ i, c i * f (v i) := by
  rw [hf (Delaunay.comb v c)]
  unfold Delaunay.comb
  simp only [Fin.sum_univ_four] at hc ⊢
  rw [hf (v 0), hf (v 1), hf (v 2), hf (v 3)]
  have : c 0 = 1 - c 1 - c 2 - c 3 := by linear_combination hc
  rw [this]
  ring

omit [LinearOrder K] [IsStrictOrderedRing K] in
theorem co_comb {v : Fin 4 → P3 K} (h : vol v ≠ 0) {c : Fin 4 → K} (hc : ∑ i, c i = 1) (k : Fin 4) :
    co v k (comb v c) = c k := by
  rw [(co_aff v k).comb v hc, ← Finset.add_sum_erase _ _ (Finset.mem_univ k), Finset.sum_eq_zero, co_self h]
  · ring
  · intro j hj
    rw [co_other v (Finset.mem_erase.1 hj).1, mul_zero]

/-- A small parameter. -/
theorem exists_small (A B : Fin 4 → K) (hA : ∀ i, 0 < A i) : ∃ t, 0 < t ∧ t < 1 ∧ ∀ i, 0 < (1 - t) * A i + t * B i := by
  have h1 : ∀ i, ∃ t, 0 < t ∧ t < 1 ∧ ∀ s, 0 < s → s ≤ t → 0 < (1 - s) * A i + s * B i := by
    intro i
    have ha := hA i
    have hb := abs_nonneg (B i)
    have hd : 0 < A i + |B i| + 1 := by linarith
    refine ⟨A i / (A i + |B i| + 1), div_pos ha hd, (div_lt_one hd).2 (by linarith), fun s h0 hs => ?_⟩
    rw [le_div_iff₀ hd] at hs
    have := neg_abs_le (B i)
    have h2 : s * (-|B i|) ≤ s * B i := mul_le_mul_of_nonneg_left this h0.le
    nlinarith
  choose t ht0 ht1 ht using h1
  refine ⟨min (min (t 0) (t 1)) (min (t 2) (t 3)), lt_min (lt_min (ht0 0) (ht0 1)) (lt_min (ht0 2) (ht0 3)),
    lt_of_le_of_lt ((min_le_left _ _).trans (min_le_left _ _)) (ht1 0), fun i => ?_⟩
  apply ht i _ (lt_min (lt_min (ht0 0) (ht0 1)) (lt_min (ht0 2) (ht0 3)))
  fin_cases i
  · exact (min_le_left _ _).trans (min_le_left _ _)
  · exact (min_le_left _ _).trans (min_le_right _ _)
  · exact (min_le_right _ _).trans (min_le_left _ _)
  · exact (min_le_right _ _).trans (min_le_right _ _)

/-- An open tetrahedron which meets a closed one meets its interior. -/
theorem inside3_both {v w : Fin 4 → P3 K} (hw : vol w ≠ 0) {y : P3 K} (hy : Inside3 v y) (hy' : Within3 w y) :
    ∃ z, Inside3 v z ∧ Inside3 w z := by
  have hc : ∑ _i : Fin 4, (1 / 4 : K) = 1 := by simp
  obtain ⟨t, h0, h1, ht⟩ := exists_small (fun i => co v i y) (fun i => co v i (comb w fun _ => 1 / 4)) hy
  refine ⟨lerp t y (comb w fun _ => 1 / 4), fun i => ?_, fun i => ?_⟩
  · rw [(co_aff v i).lerp]
    exact ht i
  · rw [(co_aff w i).lerp, co_comb hw hc]
    have := mul_nonneg (sub_nonneg.2 h1.le) (hy' i)
    have : 0 < t * (1 / 4) := by positivity
    linarith

/-- The interior is not empty. -/
theorem inside3_nonempty {v : Fin 4 → P3 K} (h : vol v ≠ 0) : ∃ y, Inside3 v y := by
  have hc : ∑ _i : Fin 4, (1 / 4 : K) = 1 := by simp
  refine ⟨comb v fun _ => 1 / 4, fun i => ?_⟩
  rw [co_comb h hc]
  positivity

/-- Two tetrahedra on the same side of a common face overlap. -/
theorem overlap3 {v : Fin 4 → P3 K} (h : vol v ≠ 0) {k : Fin 4} {q : P3 K} (hq : 0 < co v k q) :
    ∃ y, Inside3 v y ∧ Inside3 (Function.update v k q) y := by
  have hw := vol_update_ne h hq.ne'
  obtain ⟨t, h0, h1, ht⟩ := exists_small (fun _ => 1 / 3) (fun i => co v i q) (fun _ => by positivity)
  set c : Fin 4 → K := fun i => if i = k then t else (1 - t) * (1 / 3) with hc
  have hs : ∑ i, c i = 1 := by
    rw [← Finset.add_sum_erase _ _ (Finset.mem_univ k)]
    have : ∑ i ∈ Finset.univ.erase k, c i = ∑ _i ∈ Finset.univ.erase k, (1 - t) * (1 / 3) := by
      apply Finset.sum_congr rfl
      intro i hi
      rw [hc]
      simp [(Finset.mem_erase.1 hi).1]
    rw [this, Finset.sum_const, Finset.card_erase_of_mem (Finset.mem_univ k)]
    simp [hc]
    ring
  refine ⟨comb (Function.update v k q) c, fun i => ?_, fun i => ?_⟩
  · by_cases hi : i = k
    · subst hi
      rw [co_update_k h hq.ne', co_comb hw hs]
      simp only [hc, if_true]
      positivity
    · rw [co_update h hq.ne' hi, co_comb hw hs, co_comb hw hs]
      simp only [hc, if_neg hi, if_true]
      exact ht i
  · rw [co_comb hw hs]
    simp only [hc]
    split_ifs
    · exact h0
    · have := sub_pos.2 h1
      positivity

/-- Two tetrahedra on different sides of a common face are disjoint. -/
theorem disjoint_opposite {v : Fin 4 → P3 K} (h : vol v ≠ 0) {k : Fin 4} {q : P3 K} (hq : co v k q < 0) (y : P3 K)
    (h1 : Inside3 v y) (h2 : Within3 (Function.update v k q) y) : False := by
  have := h2 k
  rw [co_update_self h] at this
  have h3 := div_neg_of_pos_of_neg (h1 k) hq
  linarith

/-- Two of the tetrahedra which connect a point with the faces on its far side are disjoint. -/
theorem disjoint_star {v : Fin 4 → P3 K} (h : vol v ≠ 0) {i j : Fin 4} (hij : i ≠ j) {p : P3 K} (hi : 0 < co v i p)
    (hj : 0 < co v j p) (y : P3 K) (h1 : Inside3 (Function.update v i p) y) (h2 : Inside3 (Function.update v j p) y) :
    False := by
  have a1 := co_update_k h hi.ne' y
  have a2 := co_update h hi.ne' hij.symm y
  have b1 := co_update_k h hj.ne' y
  have b2 := co_update h hj.ne' hij y
  have c1 := h1 i
  have c2 := h1 j
  have d1 := h2 j
  have d2 := h2 i
  generalize co (Function.update v i p) i y = s1 at *
  generalize co (Function.update v i p) j y = u1 at *
  generalize co (Function.update v j p) j y = s2 at *
  generalize co (Function.update v j p) i y = u2 at *
  have e1 : s2 < s1 := by
    by_contra hc
    have := mul_le_mul_of_nonneg_right (not_lt.1 hc) hi.le
    linarith
  have e2 : s1 < s2 := by
    by_contra hc
    have := mul_le_mul_of_nonneg_right (not_lt.1 hc) hj.le
    linarith
  linarith

/-- The tetrahedra between a point `p` and the faces on its far side are covered by the tetrahedron and those
between `p` and the faces on its near side. -/
theorem cover_star {v : Fin 4 → P3 K} (h : vol v ≠ 0) {p : P3 K} (hp : ∀ i, co v i p ≠ 0) {k : Fin 4}
    (hk : 0 < co v k p) {y : P3 K} (hy : Within3 (Function.update v k p) y) :
    Within3 v y ∨ ∃ j, co v j p < 0 ∧ Within3 (Function.update v j p) y := by
  by_cases hall : ∀ i, co v i p < 0 → 0 ≤ co v i y
  · left
    intro i
    rcases lt_or_gt_of_ne (hp i) with hi | hi
    · exact hall i hi
    · by_cases e : i = k
      · subst e
        rw [co_update_k h hi.ne']
        exact mul_nonneg (hy i) hi.le
      · rw [co_update h hk.ne' e]
        exact add_nonneg (hy i) (mul_nonneg (hy k) hi.le)
  · right
    push Not at hall
    obtain ⟨i0, hi0, hy0⟩ := hall
    obtain ⟨j, hj, hmax⟩ := Finset.exists_max_image (Finset.univ.filter fun i => co v i p < 0)
      (fun i => co v i y / co v i p) ⟨i0, by simp [hi0]⟩
    have hj' : co v j p < 0 := (Finset.mem_filter.1 hj).2
    set m := co v j y / co v j p with hm
    have hm0 : 0 < m := lt_of_lt_of_le (div_pos_of_neg_of_neg hy0 hi0) (hmax i0 (by simp [hi0]))
    have hjk : j ≠ k := by
      rintro rfl
      linarith
    have hjy : co v j y = m * co v j p := by rw [hm, div_mul_cancel₀ _ hj'.ne]
    set s := co (Function.update v k p) k y with hs
    have hms : m ≤ s := by
      have h1 := co_update h hk.ne' hjk y
      rw [← hs, hjy] at h1
      have h2 := hy j
      by_contra hc
      have := mul_lt_mul_of_neg_right (not_le.1 hc) hj'
      linarith
    refine ⟨j, hj', fun i => ?_⟩
    by_cases e : i = j
    · subst e
      rw [co_update_self h]
      exact hm0.le
    · have h1 := co_update h hj'.ne e y
      rw [co_update_self h, ← hm] at h1
      rcases lt_or_gt_of_ne (hp i) with hi | hi
      · have h2 := hmax i (by simp [hi])
        have : m * co v i p ≤ co v i y := by
          have := mul_le_mul_of_nonpos_right h2 hi.le
          rwa [div_mul_cancel₀ _ hi.ne] at this
        linarith
      · have h3 : m * co v i p ≤ s * co v i p := mul_le_mul_of_nonneg_right hms hi.le
        by_cases e' : i = k
        · subst e'
          have := co_update_k h hi.ne' y
          rw [← hs] at this
          linarith
        · have h4 := co_update h hk.ne' e' y
          rw [← hs] at h4
          have := hy i
          linarith

end Verif.Delaunay
