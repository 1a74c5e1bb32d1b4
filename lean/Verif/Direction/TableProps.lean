import Verif.Direction.TableModel
import Verif.Direction.Props
import Mathlib.Analysis.SpecialFunctions.Trigonometric.Basic
import Mathlib.RingTheory.RootsOfUnity.Complex
import Mathlib.Tactic.FieldSimp
import Mathlib.Tactic.Positivity

/-!
# Theorems about the directions
-/

namespace Verif.Direction

/-! ### Specification -/

/-- Specification: no side is preferred.  For every unit vector `n`, the directions have mean 0 along `n` up to `2e-7`, the mean square
along `n` is that of all directions of space, one third, up to `0.011`, and some direction is close to `n` (within 71.4 degrees). -/
def Isotropic (dirs : List (V3 ℝ)) : Prop := ∀ n : V3 ℝ, n.dot n = 1 →
  |(dirs.map fun d => d.dot n).sum| ≤ 2e-7 * dirs.length ∧
  |(dirs.map fun d => d.dot n ^ 2).sum - (dirs.length : ℝ) / 3| ≤ 0.011 * dirs.length ∧
  ∃ d ∈ dirs, 0.32 ≤ d.dot n

/-! ### Lemmas -/

/-- Sum of a function over a table. -/
def total (l : List (V3 ℚ)) (f : V3 ℚ → ℚ) : ℚ := (l.map f).sum

/-- What is checked for the tables. -/
def Good (l : List (V3 ℚ)) : Prop :=
  (∀ d ∈ l, |d.x * d.x + d.y * d.y + d.z * d.z - 1| ≤ 2 / 1000000) ∧
  |total l (·.x)| ≤ 1 / 10000000 * l.length ∧ |total l (·.y)| ≤ 1 / 10000000 * l.length ∧
  |total l (·.z)| ≤ 1 / 10000000 * l.length ∧
  |total l (fun d => d.x * d.x) - l.length / 3| ≤ 35 / 10000 * l.length ∧
  |total l (fun d => d.y * d.y) - l.length / 3| ≤ 35 / 10000 * l.length ∧
  |total l (fun d => d.z * d.z) - l.length / 3| ≤ 35 / 10000 * l.length ∧
  |total l (fun d => d.x * d.y)| ≤ 35 / 10000 * l.length ∧
  |total l (fun d => d.x * d.z)| ≤ 35 / 10000 * l.length ∧
  |total l (fun d => d.y * d.z)| ≤ 35 / 10000 * l.length

instance (l : List (V3 ℚ)) : Decidable (Good l) := by unfold Good; infer_instance

set_option maxRecDepth 100000 in
theorem good16 : Good directionBins16 := by decide +kernel

set_option maxRecDepth 100000 in
theorem good21 : Good directionBins21 := by decide +kernel

set_option maxRecDepth 100000 in
theorem good32 : Good directionBins32 := by decide +kernel

set_option maxRecDepth 100000 in
theorem good64 : Good directionBins64 := by decide +kernel

set_option maxRecDepth 100000 in
theorem good84 : Good directionBins84 := by decide +kernel

theorem total_cons (d : V3 ℚ) (l : List (V3 ℚ)) (f : V3 ℚ → ℚ) : total (d :: l) f = f d + total l f := by
  simp [total]

theorem cauchy_schwarz (a b c x y z : ℝ) :
    (a * x + b * y + c * z) ^ 2 ≤ (a * a + b * b + c * c) * (x ^ 2 + y ^ 2 + z ^ 2) := by
  nlinarith [sq_nonneg (a * y - b * x), sq_nonneg (a * z - c * x), sq_nonneg (b * z - c * y)]

theorem sum_dot (l : List (V3 ℚ)) (n : V3 ℝ) : ((l.map V3.toReal).map fun d => d.dot n).sum =
    (total l (·.x) : ℚ) * n.x + (total l (·.y) : ℚ) * n.y + (total l (·.z) : ℚ) * n.z := by
  induction l with
  | nil => simp [total]
  | cons d l ih =>
    rw [List.map_cons, List.map_cons, List.sum_cons, ih]
    simp only [total_cons, V3.dot, V3.toReal]
    push_cast
    ring

theorem sum_dot_sq (l : List (V3 ℚ)) (n : V3 ℝ) : ((l.map V3.toReal).map fun d => d.dot n ^ 2).sum =
    (total l (fun d => d.x * d.x) : ℚ) * n.x ^ 2 + (total l (fun d => d.y * d.y) : ℚ) * n.y ^ 2 +
    (total l (fun d => d.z * d.z) : ℚ) * n.z ^ 2 + 2 * (total l (fun d => d.x * d.y) : ℚ) * (n.x * n.y) +
    2 * (total l (fun d => d.x * d.z) : ℚ) * (n.x * n.z) + 2 * (total l (fun d => d.y * d.z) : ℚ) * (n.y * n.z) := by
  induction l with
  | nil => simp [total]
  | cons d l ih =>
    rw [List.map_cons, List.map_cons, List.sum_cons, ih]
    simp only [total_cons, V3.dot, V3.toReal]
    push_cast
    ring

theorem near {a b N : ℝ} {s : List ℝ} (hs : ∀ x ∈ s, -a ≤ x) (hb : ∀ x ∈ s, x < b) (hN : (s.length : ℝ) = N) :
    (s.map fun x => x ^ 2).sum ≤ (b - a) * s.sum + N * (a * b) := by
  subst hN
  induction s with
  | nil => simp
  | cons x s ih =>
    have h1 := ih (fun y hy => hs y (List.mem_cons_of_mem _ hy)) fun y hy => hb y (List.mem_cons_of_mem _ hy)
    have h2 := hs x List.mem_cons_self
    have h3 := hb x List.mem_cons_self
    simp only [List.map_cons, List.sum_cons, List.length_cons]
    push_cast
    nlinarith [mul_nonneg (by linarith : 0 ≤ x + a) (by linarith : 0 ≤ b - x)]

theorem isotropic_of_good {l : List (V3 ℚ)} (h : Good l) (hl : 0 < l.length) : Isotropic (l.map V3.toReal) := by
  obtain ⟨h0, hx, hy, hz, hxx, hyy, hzz, hxy, hxz, hyz⟩ := h
  intro n hn
  have cast : ∀ {q : ℚ} {c : ℚ}, |q| ≤ c → |(q : ℝ)| ≤ (c : ℝ) := by
    intro q c hq
    exact_mod_cast hq
  have hx := cast hx
  have hy := cast hy
  have hz := cast hz
  have hxx := cast hxx
  have hyy := cast hyy
  have hzz := cast hzz
  have hxy := cast hxy
  have hxz := cast hxz
  have hyz := cast hyz
  push_cast at hx hy hz hxx hyy hzz hxy hxz hyz
  have hN : (0 : ℝ) < l.length := by exact_mod_cast hl
  rw [List.length_map]
  generalize hNd : (l.length : ℝ) = N at *
  have hn' : n.x ^ 2 + n.y ^ 2 + n.z ^ 2 = 1 := by
    have := hn
    unfold V3.dot at this
    linarith
  set X := |n.x| with hX
  set Y := |n.y| with hY
  set Z := |n.z| with hZ
  have hX0 : 0 ≤ X := abs_nonneg _
  have hY0 : 0 ≤ Y := abs_nonneg _
  have hZ0 : 0 ≤ Z := abs_nonneg _
  have hX2 : X ^ 2 = n.x ^ 2 := sq_abs _
  have hY2 : Y ^ 2 = n.y ^ 2 := sq_abs _
  have hZ2 : Z ^ 2 = n.z ^ 2 := sq_abs _
  have h3 : (X + Y + Z) ^ 2 ≤ 3 := by nlinarith [sq_nonneg (X - Y), sq_nonneg (X - Z), sq_nonneg (Y - Z)]
  have h2 : X + Y + Z ≤ 2 := by nlinarith
  have b1 : |((l.map V3.toReal).map fun d => d.dot n).sum| ≤ 2e-7 * N := by
    rw [sum_dot]
    calc _ ≤ |((total l (·.x) : ℚ) : ℝ) * n.x| + |((total l (·.y) : ℚ) : ℝ) * n.y| + |((total l (·.z) : ℚ) : ℝ) * n.z| :=
          (abs_add_le _ _).trans (add_le_add_left (abs_add_le _ _) _)
      _ ≤ 1 / 10000000 * N * X + 1 / 10000000 * N * Y + 1 / 10000000 * N * Z := by
          rw [abs_mul, abs_mul, abs_mul]
          gcongr
      _ = 1 / 10000000 * N * (X + Y + Z) := by ring
      _ ≤ 1 / 10000000 * N * 2 := by gcongr
      _ = 2e-7 * N := by norm_num; ring
  have b2 : |((l.map V3.toReal).map fun d => d.dot n ^ 2).sum - N / 3| ≤ 0.011 * N := by
    rw [sum_dot_sq]
    have e : ∀ a b c d e f : ℝ, a * n.x ^ 2 + b * n.y ^ 2 + c * n.z ^ 2 + 2 * d * (n.x * n.y) + 2 * e * (n.x * n.z) +
        2 * f * (n.y * n.z) - N / 3 = (a - N / 3) * n.x ^ 2 + (b - N / 3) * n.y ^ 2 + (c - N / 3) * n.z ^ 2 +
        2 * d * (n.x * n.y) + 2 * e * (n.x * n.z) + 2 * f * (n.y * n.z) := by
      intro a b c d e f
      linear_combination (- N / 3) * (-hn')
    rw [e]
    have tri : ∀ a b c d e f : ℝ, |a + b + c + d + e + f| ≤ |a| + |b| + |c| + |d| + |e| + |f| := by
      intro a b c d e f
      have h1 := abs_add_le (a + b + c + d + e) f
      have h2 := abs_add_le (a + b + c + d) e
      have h3 := abs_add_le (a + b + c) d
      have h4 := abs_add_le (a + b) c
      have h5 := abs_add_le a b
      linarith
    refine (tri _ _ _ _ _ _).trans ?_
    simp only [abs_mul, abs_pow, abs_two]
    calc _ ≤ 35 / 10000 * N * X ^ 2 + 35 / 10000 * N * Y ^ 2 + 35 / 10000 * N * Z ^ 2 + 2 * (35 / 10000 * N) * (X * Y) +
          2 * (35 / 10000 * N) * (X * Z) + 2 * (35 / 10000 * N) * (Y * Z) := by gcongr
      _ = 35 / 10000 * N * (X + Y + Z) ^ 2 := by ring
      _ ≤ 35 / 10000 * N * 3 := by gcongr
      _ ≤ 0.011 * N := by norm_num; nlinarith
  refine ⟨b1, b2, ?_⟩
  by_contra hcon
  push Not at hcon
  have hlow : ∀ x ∈ (l.map V3.toReal).map (fun d => d.dot n), -(1.00001 : ℝ) ≤ x := by
    intro x hx
    simp only [List.mem_map] at hx
    obtain ⟨_, ⟨d, hd, rfl⟩, rfl⟩ := hx
    have hd := cast (h0 d hd)
    push_cast at hd
    have hd2 : (d.x : ℝ) * d.x + d.y * d.y + d.z * d.z ≤ 1.000002 := by
      have := (abs_le.1 hd).2
      norm_num
      linarith
    simp only [V3.dot, V3.toReal]
    have hcs : ((d.x : ℝ) * n.x + d.y * n.y + d.z * n.z) ^ 2 ≤ 1.000002 := by
      have := cauchy_schwarz (d.x : ℝ) d.y d.z n.x n.y n.z
      rw [hn', mul_one] at this
      exact this.trans hd2
    generalize (d.x : ℝ) * n.x + d.y * n.y + d.z * n.z = t at hcs
    clear * - hcs
    nlinarith
  have hup : ∀ x ∈ (l.map V3.toReal).map (fun d => d.dot n), x < 0.32 := by
    intro x hx
    obtain ⟨d, hd, rfl⟩ := List.mem_map.1 hx
    exact hcon d hd
  have key := near hlow hup (N := N) (by rw [List.length_map, List.length_map, hNd])
  rw [List.map_map] at key
  have key' : ((l.map V3.toReal).map fun d => d.dot n ^ 2).sum ≤
      (0.32 - 1.00001) * ((l.map V3.toReal).map fun d => d.dot n).sum + N * (1.00001 * 0.32) := key
  have g1 := (abs_le.1 b1).1
  have g2 := (abs_le.1 b2).1
  norm_num at g1 g2 key'
  clear * - g1 g2 key' hN
  linarith

/-- The transposed matrix is that of the opposite angle. -/
theorem dot_rotated (axis : V3 ℝ) (angle : ℝ) (d n : V3 ℝ) :
    (multiplyByMatrix d (getRotationMatrix axis angle)).dot n = d.dot (multiplyByMatrix n (getRotationMatrix axis (-angle))) := by
  simp only [V3.dot, multiplyByMatrix, getRotationMatrix, Matrix.cons_val, Real.cos_neg, Real.sin_neg]
  ring

theorem Isotropic.rotate {dirs : List (V3 ℝ)} (h : Isotropic dirs) (phi rand psi : ℝ) :
    Isotropic (dirs.map fun v => multiplyByMatrix v (getRandomRotationMatrix phi rand psi)) := by
  intro n hn
  have hn' : (multiplyByMatrix n (getRotationMatrix (randomAxis phi rand) (-psi))).dot
      (multiplyByMatrix n (getRotationMatrix (randomAxis phi rand) (-psi))) = 1 := by
    rw [rotation_keeps_dot _ (random_axis_is_unit phi rand), hn]
  obtain ⟨h1, h2, d, hd, h3⟩ := h _ hn'
  have e : ∀ d, (multiplyByMatrix d (getRandomRotationMatrix phi rand psi)).dot n =
      d.dot (multiplyByMatrix n (getRotationMatrix (randomAxis phi rand) (-psi))) := fun d => dot_rotated _ _ _ _
  simp only [List.map_map, Function.comp_def, List.length_map, e]
  refine ⟨h1, h2, _, List.mem_map.2 ⟨d, hd, rfl⟩, ?_⟩
  rw [e]
  exact h3

theorem Isotropic.rotations {dirs : List (V3 ℝ)} (h : Isotropic dirs) (draws : List (ℝ × ℝ × ℝ)) :
    Isotropic (rotations draws dirs) := by
  unfold Verif.Direction.rotations
  induction draws generalizing dirs with
  | nil => exact h
  | cons d ds ih => exact ih (h.rotate d.1 d.2.1 d.2.2)

theorem V3.toReal_injective : Function.Injective V3.toReal := by
  intro a b h
  cases a
  cases b
  simpa [V3.toReal] using h

/-- The second part of what is checked for the tables. -/
def Sized (l : List (V3 ℚ)) (num : ℕ) : Prop :=
  l.length = num ∧ l.Nodup ∧ ∀ d ∈ l, |d.x * d.x + d.y * d.y + d.z * d.z - 1| ≤ 15 / 10000000

instance (l : List (V3 ℚ)) (num : ℕ) : Decidable (Sized l num) := by unfold Sized; infer_instance

set_option maxRecDepth 100000 in
theorem sized1 : Sized [⟨1, 0, 0⟩] 1 := by decide +kernel

set_option maxRecDepth 100000 in
theorem sized16 : Sized directionBins16 16 := by decide +kernel

set_option maxRecDepth 100000 in
theorem sized21 : Sized directionBins21 21 := by decide +kernel

set_option maxRecDepth 100000 in
theorem sized32 : Sized directionBins32 32 := by decide +kernel

set_option maxRecDepth 100000 in
theorem sized64 : Sized directionBins64 64 := by decide +kernel

set_option maxRecDepth 100000 in
theorem sized84 : Sized directionBins84 84 := by decide +kernel

theorem bins_cases {num : ℕ} {l : List (V3 ℚ)} (h : bins num = some l) :
    Sized l num ∧ (num ≠ 1 → Good l ∧ 0 < l.length) := by
  unfold bins at h
  split at h
  · cases h
    exact ⟨sized1, fun h => absurd rfl h⟩
  · cases h
    exact ⟨sized16, fun _ => ⟨good16, by rw [sized16.1]; decide⟩⟩
  · cases h
    exact ⟨sized21, fun _ => ⟨good21, by rw [sized21.1]; decide⟩⟩
  · cases h
    exact ⟨sized32, fun _ => ⟨good32, by rw [sized32.1]; decide⟩⟩
  · cases h
    exact ⟨sized64, fun _ => ⟨good64, by rw [sized64.1]; decide⟩⟩
  · cases h
    exact ⟨sized84, fun _ => ⟨good84, by rw [sized84.1]; decide⟩⟩
  · cases h

theorem bins_none (num : ℕ) : bins num = none ↔ num ∉ [1, 16, 21, 32, 64, 84] := by
  unfold bins
  split <;> simp_all

/-! ## C109 -/

/-- **C109 (numbers).** There are directions for exactly the numbers 1, 16, 21, 32, 64 and 84; the number of directions is the one
asked for, no direction is there twice, and their lengths are 1 up to `1e-6`. -/
theorem num_directions (num : ℕ) :
    (fromNum num = none ↔ num ∉ [1, 16, 21, 32, 64, 84]) ∧
    ∀ dirs, fromNum num = some dirs → dirs.length = num ∧ dirs.Nodup ∧ ∀ d ∈ dirs, |√(d.dot d) - 1| ≤ 1e-6 := by
  refine ⟨by rw [← bins_none, fromNum, Option.map_eq_none_iff], ?_⟩
  intro dirs h
  obtain ⟨l, hl, rfl⟩ := Option.map_eq_some_iff.1 h
  obtain ⟨h1, h2, h3⟩ := (bins_cases hl).1
  refine ⟨by rw [List.length_map, h1], h2.map V3.toReal_injective, ?_⟩
  intro d hd
  obtain ⟨q, hq, rfl⟩ := List.mem_map.1 hd
  have h : |((q.x * q.x + q.y * q.y + q.z * q.z - 1 : ℚ) : ℝ)| ≤ ((15 / 10000000 : ℚ) : ℝ) := by exact_mod_cast h3 q hq
  push_cast at h
  have e : q.toReal.dot q.toReal = (q.x : ℝ) * q.x + q.y * q.y + q.z * q.z := rfl
  rw [e]
  generalize (q.x : ℝ) * q.x + q.y * q.y + q.z * q.z = t at h
  obtain ⟨ha, hb⟩ := abs_le.1 h
  rw [abs_le]
  constructor
  · have : (1 - 1e-6 : ℝ) ≤ √t := Real.le_sqrt_of_sq_le (by norm_num; linarith)
    linarith
  · have : √t ≤ (1 + 1e-6 : ℝ) := Real.sqrt_le_iff.2 ⟨by norm_num, by norm_num; linarith⟩
    linarith

/-- **C109 (isotropy).** Unless there is only one direction, no side is preferred, neither at the start nor after any number of random
rotations. -/
theorem directions_isotropic (num : ℕ) (hnum : num ≠ 1) (dirs : List (V3 ℝ)) (h : fromNum num = some dirs)
    (draws : List (ℝ × ℝ × ℝ)) : Isotropic (rotations draws dirs) := by
  obtain ⟨l, hl, rfl⟩ := Option.map_eq_some_iff.1 h
  obtain ⟨hg, hp⟩ := (bins_cases hl).2 hnum
  exact (isotropic_of_good hg hp).rotations draws

/-- There are such numbers and directions. -/
example : ∃ dirs, fromNum 84 = some dirs ∧ Isotropic dirs :=
  ⟨_, rfl, directions_isotropic 84 (by decide) _ rfl []⟩

/-- **C109 (one direction).** A single direction prefers its side, so the hypothesis is needed. -/
theorem one_direction_not_isotropic (dirs : List (V3 ℝ)) (h : fromNum 1 = some dirs) : ¬ Isotropic dirs := by
  obtain ⟨l, hl, rfl⟩ := Option.map_eq_some_iff.1 h
  cases hl
  intro hi
  obtain ⟨h1, -⟩ := hi ⟨1, 0, 0⟩ (by simp [V3.dot])
  simp [V3.dot, V3.toReal] at h1
  norm_num at h1

theorem normalize_eq_none (v : V3 ℝ) : v.normalize = none ↔ v = ⟨0, 0, 0⟩ := by
  unfold V3.normalize
  split
  · rename_i h
    simp only [true_iff]
    cases v with
    | mk x y z =>
      simp only [V3.dot] at h
      have hx : x = 0 := by nlinarith [mul_self_nonneg x, mul_self_nonneg y, mul_self_nonneg z]
      have hy : y = 0 := by nlinarith [mul_self_nonneg x, mul_self_nonneg y, mul_self_nonneg z]
      have hz : z = 0 := by nlinarith [mul_self_nonneg x, mul_self_nonneg y, mul_self_nonneg z]
      simp [hx, hy, hz]
  · rename_i h
    simp only [reduceCtorEq, false_iff]
    rintro rfl
    simp [V3.dot] at h

theorem normalize_spec {v w : V3 ℝ} (h : v.normalize = some w) :
    w.dot w = 1 ∧ ∃ c : ℝ, 0 < c ∧ w = ⟨c * v.x, c * v.y, c * v.z⟩ := by
  unfold V3.normalize at h
  split at h
  · cases h
  · rename_i h0
    cases h
    have hp : 0 < v.dot v := lt_of_le_of_ne (by unfold V3.dot; nlinarith [mul_self_nonneg v.x, mul_self_nonneg v.y, mul_self_nonneg v.z]) (Ne.symm h0)
    have hs : 0 < √(v.dot v) := Real.sqrt_pos.2 hp
    refine ⟨?_, (√(v.dot v))⁻¹, by positivity, ?_⟩
    · have : v.x / √(v.dot v) * (v.x / √(v.dot v)) + v.y / √(v.dot v) * (v.y / √(v.dot v)) +
          v.z / √(v.dot v) * (v.z / √(v.dot v)) = v.dot v / (√(v.dot v) * √(v.dot v)) := by
        rw [show v.dot v = v.x * v.x + v.y * v.y + v.z * v.z from rfl]
        ring
      rw [Real.mul_self_sqrt hp.le, div_self h0] at this
      exact this
    · simp [div_eq_inv_mul]

/-- **C109 (explicit directions).** Explicit directions become unit vectors of the same sides in the same order; with a zero vector among
them there is a direction that is not a number, and only then. -/
theorem explicit_directions (vs : List (V3 ℝ)) :
    (fromExplicit vs = none ↔ (⟨0, 0, 0⟩ : V3 ℝ) ∈ vs) ∧
    ∀ dirs, fromExplicit vs = some dirs →
      List.Forall₂ (fun v d => d.dot d = 1 ∧ ∃ c : ℝ, 0 < c ∧ d = ⟨c * v.x, c * v.y, c * v.z⟩) vs dirs := by
  unfold fromExplicit
  induction vs with
  | nil => simp
  | cons v vs ih =>
    obtain ⟨ih1, ih2⟩ := ih
    rw [List.mapM_cons]
    cases hv : v.normalize with
    | none =>
      have := (normalize_eq_none v).1 hv
      simp [this]
    | some w =>
      have hv0 : v ≠ ⟨0, 0, 0⟩ := fun h => by
        rw [(normalize_eq_none v).2 h] at hv
        cases hv
      cases hs : vs.mapM V3.normalize with
      | none => simp [ih1.1 hs]
      | some ws =>
        refine ⟨?_, ?_⟩
        · have : (⟨0, 0, 0⟩ : V3 ℝ) ∉ vs := fun h => by
            rw [ih1.2 h] at hs
            cases hs
          simp [this, hv0.symm]
        · intro dirs h
          simp at h
          subst h
          exact .cons (normalize_spec hv) (ih2 ws hs)

/-! ### Two dimensions -/

open Complex in
theorem sum_cos_sin (num k : ℕ) (a : ℝ) (hk : 0 < k) (hn : k < num) :
    ((List.range num).map fun i : ℕ => Real.cos (k * ((a + (i : ℝ) / num) * 2.0 * Real.pi))).sum = 0 ∧
    ((List.range num).map fun i : ℕ => Real.sin (k * ((a + (i : ℝ) / num) * 2.0 * Real.pi))).sum = 0 := by
  have hp := Complex.isPrimitiveRoot_exp num (by omega)
  have hz : ∑ i ∈ Finset.range num, (Complex.exp (2 * Real.pi * I / num) ^ k) ^ i = 0 := by
    have h1 : Complex.exp (2 * Real.pi * I / num) ^ k ≠ 1 := hp.pow_ne_one_of_pos_of_lt (by omega) hn
    have h2 := mul_geom_sum (Complex.exp (2 * Real.pi * I / num) ^ k) num
    rw [← pow_mul, mul_comm k, pow_mul, hp.pow_eq_one, one_pow, sub_self] at h2
    exact (mul_eq_zero.1 h2).resolve_left (sub_ne_zero.2 h1)
  have hn0 : (num : ℂ) ≠ 0 := by exact_mod_cast (by omega : num ≠ 0)
  have hsum : ∑ i ∈ Finset.range num, Complex.exp ((k * ((a + (i : ℝ) / num) * 2.0 * Real.pi) : ℝ) * I) = 0 := by
    have e : ∀ i : ℕ, Complex.exp ((k * ((a + (i : ℝ) / num) * 2.0 * Real.pi) : ℝ) * I) =
        Complex.exp (k * a * 2 * Real.pi * I) * (Complex.exp (2 * Real.pi * I / num) ^ k) ^ i := by
      intro i
      rw [← Complex.exp_nat_mul, ← Complex.exp_nat_mul, ← Complex.exp_add]
      congr 1
      push_cast
      norm_num
      field_simp
    simp only [e]
    rw [← Finset.mul_sum, hz, mul_zero]
  have l : ∀ f : ℕ → ℝ, ((List.range num).map f).sum = ∑ i ∈ Finset.range num, f i := fun f => by
    rfl
  rw [l, l]
  constructor
  · have := congrArg Complex.re hsum
    rw [Complex.re_sum] at this
    simpa only [Complex.exp_ofReal_mul_I_re, Complex.zero_re] using this
  · have := congrArg Complex.im hsum
    rw [Complex.im_sum] at this
    simpa only [Complex.exp_ofReal_mul_I_im, Complex.zero_im] using this

theorem sum_map_lin (l : List ℕ) (f g : ℕ → ℝ) (a b c : ℝ) :
    (l.map fun i => a * f i + b * g i + c).sum = a * (l.map f).sum + b * (l.map g).sum + c * l.length := by
  induction l with
  | nil => simp
  | cons i l ih =>
    simp only [List.map_cons, List.sum_cons, ih, List.length_cons]
    push_cast
    ring

/-- **C109 (two dimensions).** For every number, there are that many directions and they are unit vectors.  From two directions on the
mean along every unit vector `n` is 0 and from three on the mean square along it is one half, as for all directions of the plane. -/
theorem directions_2d (num : ℕ) :
    (fromNum2d num).length = num ∧ (∀ d ∈ fromNum2d num, d.1 ^ 2 + d.2 ^ 2 = 1) ∧
    ∀ n : ℝ × ℝ, n.1 ^ 2 + n.2 ^ 2 = 1 →
      (2 ≤ num → ((fromNum2d num).map fun d => d.1 * n.1 + d.2 * n.2).sum = 0) ∧
      (3 ≤ num → ((fromNum2d num).map fun d => (d.1 * n.1 + d.2 * n.2) ^ 2).sum = (num : ℝ) / 2) := by
  refine ⟨by simp [fromNum2d], ?_, ?_⟩
  · intro d hd
    obtain ⟨i, -, rfl⟩ := List.mem_map.1 hd
    exact Real.cos_sq_add_sin_sq _
  · intro n hn
    constructor
    · intro h
      obtain ⟨hc, hs⟩ := sum_cos_sin num 1 0.125 (by omega) (by omega)
      simp only [Nat.cast_one, one_mul] at hc hs
      have := sum_map_lin (List.range num) (fun i : ℕ => Real.cos ((0.125 + (i : ℝ) / num) * 2.0 * Real.pi))
        (fun i : ℕ => Real.sin ((0.125 + (i : ℝ) / num) * 2.0 * Real.pi)) n.1 n.2 0
      rw [hc, hs] at this
      simp only [fromNum2d, List.map_map, Function.comp_def]
      rw [mul_zero, mul_zero, zero_mul, add_zero, add_zero] at this
      rw [← this]
      congr 1
      apply List.map_congr_left
      intro i _
      ring
    · intro h
      obtain ⟨hc, hs⟩ := sum_cos_sin num 2 0.125 (by omega) (by omega)
      simp only [Nat.cast_ofNat] at hc hs
      have := sum_map_lin (List.range num) (fun i : ℕ => Real.cos (2 * ((0.125 + (i : ℝ) / num) * 2.0 * Real.pi)))
        (fun i : ℕ => Real.sin (2 * ((0.125 + (i : ℝ) / num) * 2.0 * Real.pi))) ((n.1 ^ 2 - n.2 ^ 2) / 2) (n.1 * n.2) (1 / 2)
      rw [hc, hs, mul_zero, mul_zero, zero_add, zero_add, List.length_range] at this
      simp only [fromNum2d, List.map_map, Function.comp_def]
      rw [show (num : ℝ) / 2 = 1 / 2 * num by ring, ← this]
      congr 1
      apply List.map_congr_left
      intro i _
      simp only [Real.cos_two_mul, Real.sin_two_mul]
      have h1 := Real.cos_sq_add_sin_sq ((0.125 + (i : ℝ) / num) * 2.0 * Real.pi)
      generalize Real.cos ((0.125 + (i : ℝ) / num) * 2.0 * Real.pi) = c at *
      generalize Real.sin ((0.125 + (i : ℝ) / num) * 2.0 * Real.pi) = t at *
      linear_combination (n.2 ^ 2) * h1 + (1 / 2 : ℝ) * hn

end Verif.Direction
