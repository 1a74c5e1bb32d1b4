import Verif.Rounding.RotateLemmas
import Mathlib.LinearAlgebra.Matrix.Notation

/-!
# C146: the directions of the sweep after many rotations, in `f64`

The directions are never normalised again, so that the errors of all rotations add up.
-/

namespace Verif.Rounding.Rotate

open Verif.Direction

/-! ## Specification -/

/-- A rotation: all scalar products are kept, and the determinant is one. -/
def IsRotation (m : M3 ℝ) : Prop :=
  (∀ u v : V3 ℝ, (multiplyByMatrix u m).dot (multiplyByMatrix v m) = u.dot v) ∧ Matrix.det (Matrix.of m) = 1

/-- The distance of two vectors. -/
noncomputable def distance (a b : V3 ℝ) : ℝ := √((a.x - b.x) ^ 2 + (a.y - b.y) ^ 2 + (a.z - b.z) ^ 2)

/-- The exact rotation of one draw `(phi, rand, psi)`: by the angle `psi` about the unit vector with the angles `phi` and `theta`. -/
noncomputable def exactOf (acosF : ℚ → ℚ) (d : ℚ × ℚ × ℚ) : M3 ℝ :=
  let theta : ℝ := acosF (2 ⊠ d.2.1 ⊟ 1)
  getRotationMatrix ⟨Real.cos d.1 * Real.sin theta, Real.sin d.1 * Real.sin theta, Real.cos theta⟩ d.2.2

/-- The vector `v` after the exact rotations of all draws, one after the other. -/
noncomputable def exactRotations (acosF : ℚ → ℚ) (draws : List (ℚ × ℚ × ℚ)) (v : V3 ℝ) : V3 ℝ :=
  draws.foldl (fun v d => multiplyByMatrix v (exactOf acosF d)) v

/-- As `Verif.Direction.Isotropic`, with an additional error: the mean direction, the second moments and the largest gap. -/
def IsotropicUpTo (ε : ℝ) (dirs : List (V3 ℝ)) : Prop := ∀ n : V3 ℝ, n.dot n = 1 →
  |(dirs.map fun d => d.dot n).sum| ≤ (2e-7 + ε) * dirs.length ∧
  |(dirs.map fun d => d.dot n ^ 2).sum - (dirs.length : ℝ) / 3| ≤ (0.011 + 3 * ε) * dirs.length ∧
  ∃ d ∈ dirs, 0.32 - ε ≤ d.dot n

/-! ### Lemmas -/

theorem distance_le {a b : V3 ℝ} {s : ℝ} (hs : 0 ≤ s) : distance a b ≤ s ↔ (diff a b).dot (diff a b) ≤ s ^ 2 := by
  unfold distance
  rw [Real.sqrt_le_left hs]
  unfold diff V3.dot
  dsimp only
  rw [sq (a.x - b.x), sq (a.y - b.y), sq (a.z - b.z)]

/-- Matrices compose. -/
theorem multiply_comp (v : V3 ℝ) (a b : M3 ℝ) :
    multiplyByMatrix (multiplyByMatrix v a) b = multiplyByMatrix v (Matrix.of b * Matrix.of a : Matrix (Fin 3) (Fin 3) ℝ) := by
  unfold multiplyByMatrix
  ext <;> simp only [Matrix.mul_apply, Fin.sum_univ_three, Matrix.of_apply] <;> ring

/-- A rotation which can be undone. -/
def Nice (m : M3 ℝ) : Prop := IsRotation m ∧
  ∀ n : V3 ℝ, ∃ n' : V3 ℝ, n'.dot n' = n.dot n ∧ ∀ d : V3 ℝ, (multiplyByMatrix d m).dot n = d.dot n'

theorem nice_rotation {axis : V3 ℝ} (hu : axis.dot axis = 1) (angle : ℝ) : Nice (getRotationMatrix axis angle) :=
  ⟨⟨rotation_keeps_dot axis hu angle, rotation_det_one axis hu angle⟩,
    fun n => ⟨_, rotation_keeps_dot axis hu (-angle) n n, fun d => dot_rotated axis angle d n⟩⟩

theorem Nice.comp {a b : M3 ℝ} (ha : Nice a) (hb : Nice b) :
    Nice (Matrix.of b * Matrix.of a : Matrix (Fin 3) (Fin 3) ℝ) := by
  refine ⟨⟨?_, ?_⟩, ?_⟩
  · intro u v
    rw [← multiply_comp, ← multiply_comp, hb.1.1, ha.1.1]
  · have : Matrix.of (Matrix.of b * Matrix.of a : Matrix (Fin 3) (Fin 3) ℝ) = Matrix.of b * Matrix.of a := rfl
    rw [this, Matrix.det_mul, ha.1.2, hb.1.2, one_mul]
  · intro n
    obtain ⟨n', h1, h2⟩ := hb.2 n
    obtain ⟨n'', h3, h4⟩ := ha.2 n'
    refine ⟨n'', h3.trans h1, fun d => ?_⟩
    rw [← multiply_comp, h2, h4]

theorem multiply_one (v : V3 ℝ) : multiplyByMatrix v (1 : Matrix (Fin 3) (Fin 3) ℝ) = v := by
  unfold multiplyByMatrix
  ext <;> simp

theorem nice_one : Nice (1 : Matrix (Fin 3) (Fin 3) ℝ) := by
  refine ⟨⟨fun u v => by rw [multiply_one, multiply_one], ?_⟩, fun n => ⟨n, rfl, fun d => by rw [multiply_one]⟩⟩
  have : Matrix.of (1 : Matrix (Fin 3) (Fin 3) ℝ) = 1 := rfl
  rw [this, Matrix.det_one]

theorem one_rotation {cosF sinF : ℚ → ℚ} (acosF : ℚ → ℚ) (ht : TrigContractF cosF sinF) (d : ℚ × ℚ × ℚ) (i j : Fin 3) :
    Close 50 3 (getRandomRotationMatrixF cosF sinF acosF d.1 d.2.1 d.2.2 i j) (exactOf acosF d i j) :=
  rotation_close ht (axis_close ht _ _) _ i j

/-- Reading a rotation list for one vector. -/
def rotateOne (cosF sinF acosF : ℚ → ℚ) (draws : List (ℚ × ℚ × ℚ)) (v : V3 ℚ) : V3 ℚ :=
  draws.foldl (fun v d => multiplyByMatrixF v (getRandomRotationMatrixF cosF sinF acosF d.1 d.2.1 d.2.2)) v

theorem rotationsF_eq (cosF sinF acosF : ℚ → ℚ) (draws : List (ℚ × ℚ × ℚ)) (dirs : List (V3 ℚ)) :
    rotationsF cosF sinF acosF draws dirs = dirs.map (rotateOne cosF sinF acosF draws) := by
  unfold rotationsF
  induction draws generalizing dirs with
  | nil =>
    have : rotateOne cosF sinF acosF [] = id := rfl
    rw [this, List.map_id]
    rfl
  | cons d ds ih =>
    rw [List.foldl_cons, ih, List.map_map]
    rfl

theorem length_le {a b : V3 ℝ} {s t : ℝ} (hs : 0 ≤ s) (ht : 0 ≤ t) (ha : a.dot a ≤ s ^ 2) (h : (diff b a).dot (diff b a) ≤ t ^ 2) :
    b.dot b ≤ (s + t) ^ 2 := by
  have h1 := (abs_le.1 (dot_le hs ht ha h)).2
  have e : b.dot b = a.dot a + 2 * a.dot (diff b a) + (diff b a).dot (diff b a) := by
    unfold diff V3.dot; ring
  rw [e]
  nlinarith

theorem count_small {k : ℕ} (h : k ≤ 2 ^ 40) : (k : ℝ) ≤ 1099511627776 := by
  have : ((k : ℕ) : ℝ) ≤ ((2 ^ 40 : ℕ) : ℝ) := Nat.cast_le.2 h
  norm_num at this
  exact_mod_cast this

/-- The rotation all vectors are close to. -/
theorem rotateOne_close {cosF sinF : ℚ → ℚ} (acosF : ℚ → ℚ) (ht : TrigContractF cosF sinF) (draws : List (ℚ × ℚ × ℚ))
    (hn : draws.length ≤ 2 ^ 40) : ∃ m, Nice m ∧ (∀ v, multiplyByMatrix v m = exactRotations acosF draws v) ∧ ∀ v : V3 ℚ, v.toReal.dot v.toReal ≤ 2 →
      (diff (rotateOne cosF sinF acosF draws v).toReal (multiplyByMatrix v.toReal m)).dot
        (diff (rotateOne cosF sinF acosF draws v).toReal (multiplyByMatrix v.toReal m)) ≤ (draws.length / 2 ^ 43) ^ 2 := by
  induction draws using List.reverseRecOn with
  | nil =>
    refine ⟨_, nice_one, fun v => multiply_one v, fun v _ => ?_⟩
    rw [multiply_one]
    simp [rotateOne, diff, V3.dot]
  | append_singleton ds d ih =>
    rw [List.length_append, List.length_singleton] at hn
    obtain ⟨m, hm, hx, h⟩ := ih (by omega)
    refine ⟨_, hm.comp (nice_rotation (unitVector_unit d.1 (thetaF acosF d.2.1)) d.2.2), fun v => ?_, fun v hv => ?_⟩
    · rw [← multiply_comp, hx]
      unfold exactRotations
      rw [List.foldl_append, List.foldl_cons, List.foldl_nil]
      rfl
    have e : rotateOne cosF sinF acosF (ds ++ [d]) v = multiplyByMatrixF (rotateOne cosF sinF acosF ds v)
        (getRandomRotationMatrixF cosF sinF acosF d.1 d.2.1 d.2.2) := by
      unfold rotateOne
      rw [List.foldl_append, List.foldl_cons, List.foldl_nil]
    rw [e, ← multiply_comp]
    have h1 := h v hv
    have hlen : ((ds.length : ℝ)) / 2 ^ 43 ≤ 1 / 8 := by
      have := count_small (show ds.length ≤ 2 ^ 40 by omega)
      rw [div_le_iff₀ (by positivity)]
      linarith
    have h0 : (0 : ℝ) ≤ (ds.length : ℝ) / 2 ^ 43 := by positivity
    have h2 := length_le (s := 3 / 2) (by norm_num) h0 (by rw [hm.1.1]; exact hv.trans (by norm_num)) h1
    have h3 := multiply_close (h2.trans (pow_le_pow_left₀ (by positivity) (by linarith) 2)) (one_rotation acosF ht d)
    have h4 := h1
    rw [← (nice_rotation (unitVector_unit d.1 (thetaF acosF d.2.1)) d.2.2).1.1, ← diff_mul] at h4
    have h5 := dot_diff_trans (by positivity) h0 h3 h4
    refine h5.trans (le_of_eq ?_)
    rw [List.length_append, List.length_singleton]
    push_cast
    ring

theorem sum_near {α : Type} {l : List α} {ε : ℝ} (f g : α → ℝ)
    (hf : ∀ d ∈ l, |f d - g d| ≤ ε) : |(l.map f).sum - (l.map g).sum| ≤ ε * l.length := by
  induction l with
  | nil => simp
  | cons a l ih =>
    have h1 := ih fun d hd => hf d (List.mem_cons_of_mem _ hd)
    have h2 := hf a List.mem_cons_self
    rw [List.map_cons, List.map_cons, List.sum_cons, List.sum_cons, List.length_cons]
    push_cast
    have e : f a + (l.map f).sum - (g a + (l.map g).sum) = (f a - g a) + ((l.map f).sum - (l.map g).sum) := by ring
    rw [e]
    refine (abs_add_le _ _).trans ?_
    linarith

/-! ## C146 -/

/-- **C146 (matrix).** Every entry of the computed matrix is that of the rotation by `psi` about the unit vector with the angles `phi`
and `theta`, up to 50 units of rounding. -/
theorem rotation_matrix_accurate_f64 (cosF sinF acosF : ℚ → ℚ) (ht : TrigContractF cosF sinF) (phi rand psi : ℚ) :
    IsRotation (exactOf acosF (phi, rand, psi)) ∧
    ∀ i j, |(getRandomRotationMatrixF cosF sinF acosF phi rand psi i j : ℝ) - exactOf acosF (phi, rand, psi) i j| ≤ 50 / 2 ^ 53 :=
  ⟨(nice_rotation (unitVector_unit phi (thetaF acosF rand)) psi).1, fun i j => (one_rotation acosF ht (phi, rand, psi) i j).1⟩

/-- **C146 (drift).** After any number `n` of rotations (up to `2^40`) the directions are those of the start turned by the exact
rotations, each up to a distance of `n 2^-43`; together these are one and the same rotation of all directions. -/
theorem rotated_directions_accurate_f64 (cosF sinF acosF : ℚ → ℚ) (ht : TrigContractF cosF sinF) (draws : List (ℚ × ℚ × ℚ))
    (hn : draws.length ≤ 2 ^ 40) (dirs : List (V3 ℚ)) (hd : ∀ d ∈ dirs, d.toReal.dot d.toReal ≤ 2) :
    (rotationsF cosF sinF acosF draws dirs).length = dirs.length ∧
    (∀ (i : ℕ) (d d' : V3 ℚ), dirs[i]? = some d → (rotationsF cosF sinF acosF draws dirs)[i]? = some d' →
      distance d'.toReal (exactRotations acosF draws d.toReal) ≤ draws.length / 2 ^ 43) ∧
    ∃ m, IsRotation m ∧ ∀ v, exactRotations acosF draws v = multiplyByMatrix v m := by
  obtain ⟨m, hm, hx, h⟩ := rotateOne_close acosF ht draws hn
  rw [rotationsF_eq]
  refine ⟨by simp, ?_, m, hm.1, fun v => (hx v).symm⟩
  intro i d d' h1 h2
  rw [List.getElem?_map, h1] at h2
  cases h2
  rw [← hx]
  exact (distance_le (by positivity)).2 (h d (hd d (List.mem_of_getElem? h1)))

/-- **C146 (lengths and angles).** After any number `n` of rotations the scalar products of the directions, among them their squared
lengths, are those of the start up to `3 n 2^-43`. -/
theorem rotated_directions_dots_f64 (cosF sinF acosF : ℚ → ℚ) (ht : TrigContractF cosF sinF) (draws : List (ℚ × ℚ × ℚ))
    (hn : draws.length ≤ 2 ^ 40) (dirs : List (V3 ℚ)) (hd : ∀ d ∈ dirs, d.toReal.dot d.toReal ≤ 2) (i j : ℕ) (d e d' e' : V3 ℚ)
    (h1 : dirs[i]? = some d) (h2 : dirs[j]? = some e) (h1' : (rotationsF cosF sinF acosF draws dirs)[i]? = some d')
    (h2' : (rotationsF cosF sinF acosF draws dirs)[j]? = some e') :
    |d'.toReal.dot e'.toReal - d.toReal.dot e.toReal| ≤ 3 * (draws.length / 2 ^ 43) := by
  obtain ⟨-, h, m, hm, hx⟩ := rotated_directions_accurate_f64 cosF sinF acosF ht draws hn dirs hd
  simp only [hx] at h
  have a := (distance_le (by positivity)).1 (h i d d' h1 h1')
  have b := (distance_le (by positivity)).1 (h j e e' h2 h2')
  have hlen : ((draws.length : ℝ)) / 2 ^ 43 ≤ 1 / 8 := by
    have := count_small hn
    rw [div_le_iff₀ (by positivity)]
    linarith
  have h0 : (0 : ℝ) ≤ (draws.length : ℝ) / 2 ^ 43 := by positivity
  have hd1 : (multiplyByMatrix d.toReal m).dot (multiplyByMatrix d.toReal m) ≤ (143 / 100) ^ 2 := by
    rw [hm.1]
    exact (hd d (List.mem_of_getElem? h1)).trans (by norm_num)
  have he1 : (multiplyByMatrix e.toReal m).dot (multiplyByMatrix e.toReal m) ≤ (143 / 100) ^ 2 := by
    rw [hm.1]
    exact (hd e (List.mem_of_getElem? h2)).trans (by norm_num)
  rw [← hm.1 d.toReal e.toReal]
  generalize (draws.length : ℝ) / 2 ^ 43 = ε at *
  generalize multiplyByMatrix d.toReal m = D at *
  generalize multiplyByMatrix e.toReal m = E at *
  have c1 := dot_le (by norm_num) h0 hd1 b
  have c2 := dot_le h0 (by norm_num) a he1
  have c3 := dot_le h0 h0 a b
  have eq : d'.toReal.dot e'.toReal - D.dot E =
      D.dot (diff e'.toReal E) + (diff d'.toReal D).dot E + (diff d'.toReal D).dot (diff e'.toReal E) := by
    unfold diff V3.dot; ring
  rw [eq]
  refine (abs_add_le _ _).trans ((add_le_add (abs_add_le _ _) le_rfl).trans ?_)
  nlinarith

/-- **C146 (isotropy).** With the directions of the tables (other than the single one), no side is preferred after any number `n` of
rotations, up to `(n + 1) 2^-43`. -/
theorem directions_stay_isotropic_f64 (cosF sinF acosF : ℚ → ℚ) (ht : TrigContractF cosF sinF) (draws : List (ℚ × ℚ × ℚ))
    (hn : draws.length ≤ 2 ^ 40) (num : ℕ) (hnum : num ≠ 1) (dirs : List (V3 ℚ)) (h : fromNumF num = some dirs) :
    IsotropicUpTo ((draws.length + 1) / 2 ^ 43) ((rotationsF cosF sinF acosF draws dirs).map V3.toReal) := by
  obtain ⟨l, hl, rfl⟩ := Option.map_eq_some_iff.1 h
  obtain ⟨hg, hp⟩ := (bins_cases hl).2 hnum
  have hiso := isotropic_of_good hg hp
  obtain ⟨m, hm, -, hr⟩ := rotateOne_close acosF ht draws hn
  intro n hn1
  obtain ⟨n', e1, e2⟩ := hm.2 n
  obtain ⟨i1, i2, d0, hd0, i3⟩ := hiso n' (e1.trans hn1)
  have hlen : ((draws.length : ℝ) + 1) / 2 ^ 43 ≤ 1 / 7 := by
    have := count_small hn
    rw [div_le_iff₀ (by positivity)]
    linarith
  have h0 : (0 : ℝ) ≤ ((draws.length : ℝ) + 1) / 2 ^ 43 := by positivity
  have hround : ∀ q ∈ l, q.toReal.dot q.toReal ≤ (1001 / 1000) ^ 2 ∧
      (diff (V3.toReal ⟨fl q.x ⊠ 1, fl q.y ⊠ 1, fl q.z ⊠ 1⟩) q.toReal).dot
        (diff (V3.toReal ⟨fl q.x ⊠ 1, fl q.y ⊠ 1, fl q.z ⊠ 1⟩) q.toReal) ≤ (1 / 2 ^ 43) ^ 2 := by
    intro q hq
    have h1 : |((q.x * q.x + q.y * q.y + q.z * q.z - 1 : ℚ) : ℝ)| ≤ ((2 / 1000000 : ℚ) : ℝ) := by exact_mod_cast hg.1 q hq
    push_cast at h1
    have h2 : q.toReal.dot q.toReal ≤ (1001 / 1000) ^ 2 := by
      have := (abs_le.1 h1).2
      unfold V3.dot V3.toReal
      dsimp only
      norm_num at this ⊢
      linarith
    refine ⟨h2, ?_⟩
    obtain ⟨c1, c2, c3⟩ := component_le (h2.trans (by norm_num))
    have one : ∀ {x : ℚ}, |(x : ℝ)| ≤ 2 → |((fl x ⊠ 1 : ℚ) : ℝ) - x| ≤ 3 / 2 ^ 53 := by
      intro x hx
      have e : fl x ⊠ 1 = fl x := by
        show fl (fl x * 1) = fl x
        rw [mul_one, fl_fl]
      rw [e]
      exact (fl_unit hx).trans (by norm_num)
    have sq : ∀ {t : ℝ}, |t| ≤ 3 / 2 ^ 53 → t * t ≤ (3 / 2 ^ 53) * (3 / 2 ^ 53) := by
      intro t ht
      rw [← abs_mul_abs_self]
      exact mul_le_mul ht ht (abs_nonneg _) (by positivity)
    have s0 := sq (one c1)
    have s1 := sq (one c2)
    have s2 := sq (one c3)
    unfold diff V3.dot
    dsimp only [V3.toReal] at s0 s1 s2 ⊢
    refine (add_le_add (add_le_add s0 s1) s2).trans ?_
    norm_num
  rw [rotationsF_eq, List.map_map, List.map_map]
  have near : ∀ q ∈ l, |(rotateOne cosF sinF acosF draws ⟨fl q.x ⊠ 1, fl q.y ⊠ 1, fl q.z ⊠ 1⟩).toReal.dot n - q.toReal.dot n'| ≤
      ((draws.length : ℝ) + 1) / 2 ^ 43 := by
    intro q hq
    obtain ⟨a1, a2⟩ := hround q hq
    have a3 := length_le (by norm_num) (by positivity) a1 a2
    have a4 := hr _ (a3.trans (by norm_num))
    rw [← hm.1.1, ← diff_mul] at a2
    have a5 := dot_diff_trans (by positivity) (by positivity) a4 a2
    have a6 := dot_le (by positivity) zero_le_one a5 (by rw [hn1]; norm_num)
    rw [← e2]
    have e : ∀ A B : V3 ℝ, A.dot n - B.dot n = (diff A B).dot n := by
      intro A B
      unfold diff V3.dot
      ring
    rw [e]
    refine a6.trans (le_of_eq ?_)
    ring
  have small : ∀ q ∈ l, |q.toReal.dot n'| ≤ 1001 / 1000 := by
    intro q hq
    have := dot_le (by norm_num) zero_le_one (hround q hq).1 (by rw [e1, hn1]; norm_num)
    linarith
  generalize ((draws.length : ℝ) + 1) / 2 ^ 43 = ε at *
  simp only [List.map_map, List.length_map, Function.comp_def] at i1 i2 ⊢
  have s1 := sum_near _ _ near
  have s2 : |(l.map fun q => (rotateOne cosF sinF acosF draws ⟨fl q.x ⊠ 1, fl q.y ⊠ 1, fl q.z ⊠ 1⟩).toReal.dot n ^ 2).sum -
      (l.map fun q => q.toReal.dot n' ^ 2).sum| ≤ 3 * ε * l.length := by
    refine sum_near _ _ fun q hq => ?_
    have a := near q hq
    have b := small q hq
    generalize (rotateOne cosF sinF acosF draws ⟨fl q.x ⊠ 1, fl q.y ⊠ 1, fl q.z ⊠ 1⟩).toReal.dot n = A at *
    generalize q.toReal.dot n' = B at *
    have e : A ^ 2 - B ^ 2 = (A - B) * ((A - B) + 2 * B) := by ring
    rw [e, abs_mul]
    have c : |A - B + 2 * B| ≤ 3 := by
      refine (abs_add_le _ _).trans ?_
      rw [abs_mul, abs_two]
      linarith
    have := mul_le_mul a c (abs_nonneg _) h0
    linarith
  have a := abs_le.1 s1
  have b := abs_le.1 s2
  have c := abs_le.1 i1
  have d := abs_le.1 i2
  have f1 : (2e-7 + ε) * (l.length : ℝ) = 2e-7 * l.length + ε * l.length := by ring
  have f2 : (0.011 + 3 * ε) * (l.length : ℝ) = 0.011 * l.length + 3 * ε * l.length := by ring
  rw [f1, f2]
  refine ⟨abs_le.2 ⟨by linarith, by linarith⟩, abs_le.2 ⟨by linarith, by linarith⟩, ?_⟩
  obtain ⟨q, hq, rfl⟩ := List.mem_map.1 hd0
  refine ⟨_, List.mem_map.2 ⟨q, hq, rfl⟩, ?_⟩
  linarith [(abs_le.1 (near q hq)).1]

/-- There are functions as expected, and tables: a million rotations of 84 directions change the mean direction by at most `1.2e-7`. -/
example : ∃ cosF sinF : ℚ → ℚ, TrigContractF cosF sinF ∧
    ∀ (acosF : ℚ → ℚ) (draws : List (ℚ × ℚ × ℚ)), draws.length = 10 ^ 6 →
      ∃ dirs, fromNumF 84 = some dirs ∧
        IsotropicUpTo 1.2e-7 ((rotationsF cosF sinF acosF draws dirs).map V3.toReal) := by
  have near : ∀ r : ℝ, ∃ q : ℚ, |(q : ℝ) - r| ≤ 1 / 2 ^ 52 := by
    intro r
    obtain ⟨q, h1, h2⟩ := exists_rat_btwn (show r < r + 1 / 2 ^ 52 by norm_num)
    exact ⟨q, abs_le.2 ⟨by norm_num at h2 ⊢; linarith, by linarith⟩⟩
  choose f hf using near
  have ht : TrigContractF (fun x => f (Real.cos x)) (fun x => f (Real.sin x)) := fun x => ⟨hf _, hf _⟩
  refine ⟨_, _, ht, fun acosF draws hl => ⟨_, rfl, ?_⟩⟩
  intro n hn
  obtain ⟨h1, h2, d, hd, h3⟩ := directions_stay_isotropic_f64 _ _ acosF ht draws (by rw [hl]; norm_num) 84 (by decide) _ rfl n hn
  have e : ((draws.length : ℝ) + 1) / 2 ^ 43 ≤ 1.2e-7 := by rw [hl]; norm_num
  refine ⟨h1.trans ?_, h2.trans ?_, d, hd, by linarith⟩ <;> gcongr

/-- The directions of a table meet the hypothesis of the theorems on drift. -/
example : ∃ dirs, fromNumF 16 = some dirs ∧ dirs.length = 16 ∧ ∀ d ∈ dirs, d.toReal.dot d.toReal ≤ 2 := by
  have h : ∃ dirs, fromNumF 16 = some dirs ∧ dirs.length = 16 ∧ ∀ d ∈ dirs, d.x * d.x + d.y * d.y + d.z * d.z ≤ 2 := by
    refine ⟨_, rfl, by decide +kernel, by decide +kernel⟩
  obtain ⟨dirs, h1, h2, h3⟩ := h
  refine ⟨dirs, h1, h2, fun d hd => ?_⟩
  have := h3 d hd
  unfold V3.dot V3.toReal
  dsimp only
  exact_mod_cast this

end Verif.Rounding.Rotate
