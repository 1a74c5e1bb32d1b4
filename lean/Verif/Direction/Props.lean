import Verif.Direction.Model
import Mathlib.LinearAlgebra.Matrix.Determinant.Basic
import Mathlib.Tactic.Ring
import Mathlib.Tactic.Linarith
import Mathlib.Tactic.LinearCombination
import Mathlib.Tactic.NormNum
import Mathlib.Tactic.FinCases

/-!
# C36: rotation of the directions

The rotation part holds.  The remapping part does not: `remap` overwrites instead of accumulating, so
that only the rate of the last direction survives.
-/

namespace Verif.Direction

/-- The axis drawn at random is a unit vector. -/
theorem random_axis_is_unit (phi rand : ℝ) :
    (randomAxis phi rand).dot (randomAxis phi rand) = 1 := by
  unfold randomAxis V3.dot
  dsimp only
  have h1 := Real.sin_sq_add_cos_sq phi
  have h2 := Real.sin_sq_add_cos_sq (Real.arccos (2 * rand - 1))
  linear_combination (Real.sin (Real.arccos (2 * rand - 1))) ^ 2 * h1 + h2

/-- **C36**: rotating two vectors about a unit axis keeps their scalar product, hence all lengths and
angles. -/
theorem rotation_keeps_dot (axis : V3 ℝ) (hu : axis.dot axis = 1) (angle : ℝ) (u v : V3 ℝ) :
    (multiplyByMatrix u (getRotationMatrix axis angle)).dot
      (multiplyByMatrix v (getRotationMatrix axis angle)) = u.dot v := by
  have h1 := Real.sin_sq_add_cos_sq angle
  simp only [V3.dot] at hu ⊢
  simp only [multiplyByMatrix, getRotationMatrix, Matrix.cons_val]
  generalize Real.sin angle = s at *
  generalize Real.cos angle = c at *
  obtain ⟨x, y, z⟩ := axis
  obtain ⟨a, b, d⟩ := u
  obtain ⟨a', b', d'⟩ := v
  simp only at hu ⊢
  linear_combination
    ((a * a' + b * b' + d * d') - (x * a + y * b + z * d) * (x * a' + y * b' + z * d')) * h1
    + (s ^ 2 * (a * a' + b * b' + d * d')
      + (1 - c) ^ 2 * ((x * a + y * b + z * d) * (x * a' + y * b' + z * d'))) * hu

/-- **C36**: the matrix has determinant one: orientation is kept. -/
theorem rotation_det_one (axis : V3 ℝ) (hu : axis.dot axis = 1) (angle : ℝ) :
    Matrix.det (Matrix.of (getRotationMatrix axis angle)) = 1 := by
  have h1 := Real.sin_sq_add_cos_sq angle
  rw [Matrix.det_fin_three]
  simp only [V3.dot] at hu
  simp only [getRotationMatrix, Matrix.of_apply, Matrix.cons_val]
  generalize Real.sin angle = s at *
  generalize Real.cos angle = c at *
  obtain ⟨x, y, z⟩ := axis
  simp only at hu ⊢
  linear_combination h1 + (s ^ 2 * (1 + (1 - c) * (x * x + y * y + z * z - 1))
    + (1 - c) * (c ^ 2 + s ^ 2)) * hu

/-- A unit axis. -/
example : (⟨0, 0, 1⟩ : V3 ℝ).dot ⟨0, 0, 1⟩ = 1 := by norm_num [V3.dot]

/-- **C36**: the system rotates every direction by the same matrix; all scalar products between
directions stay the same. -/
theorem rotated_directions_keep_dots (phi rand psi : ℝ) (dirs newDirs : List (V3 ℝ))
    (sites sites' : List (SiteRates ℝ))
    (h : rotateDirections phi rand psi dirs sites = some (newDirs, sites')) :
    newDirs.length = dirs.length ∧
    ∀ i j : ℕ, ∀ (di dj ni nj : V3 ℝ), dirs[i]? = some di → dirs[j]? = some dj →
      newDirs[i]? = some ni → newDirs[j]? = some nj → ni.dot nj = di.dot dj := by
  unfold rotateDirections at h
  dsimp only at h
  obtain ⟨ss, _, h2⟩ := Option.bind_eq_some_iff.1 h
  have h3 := congrArg Prod.fst (Option.some.inj h2)
  simp only at h3
  subst h3
  refine ⟨by simp, ?_⟩
  intro i j di dj ni nj e1 e2 e3 e4
  rw [List.getElem?_map, e1] at e3
  rw [List.getElem?_map, e2] at e4
  cases e3
  cases e4
  exact rotation_keeps_dot _ (random_axis_is_unit phi rand) psi di dj

/-! ## Remapping the rates -/

section
variable {K : Type} [Field K] [LinearOrder K] [IsStrictOrderedRing K]

omit [IsStrictOrderedRing K] in
private theorem foldl_argmax (l : List (K × ℕ)) : ∀ (b : K × ℕ),
    ∃ e, l.foldl keepLater (some b) = some e ∧
      (e = b ∨ e ∈ l) ∧ b.1 ≤ e.1 ∧ ∀ x ∈ l, x.1 ≤ e.1 := by
  induction l with
  | nil => intro b; exact ⟨b, rfl, Or.inl rfl, le_rfl, by simp⟩
  | cons y l ih =>
    intro b
    rw [List.foldl_cons]
    by_cases hc : b.1 ≤ y.1
    · obtain ⟨e, h1, h2, h3, h4⟩ := ih y
      refine ⟨e, by simpa [keepLater, hc] using h1, ?_, hc.trans h3, ?_⟩
      · rcases h2 with rfl | h2
        · right; simp
        · right; simp [h2]
      · intro x hx
        rcases List.mem_cons.1 hx with rfl | hx
        · exact h3
        · exact h4 x hx
    · obtain ⟨e, h1, h2, h3, h4⟩ := ih b
      refine ⟨e, by simpa [keepLater, hc] using h1, ?_, h3, ?_⟩
      · rcases h2 with rfl | h2
        · left; rfl
        · right; simp [h2]
      · intro x hx
        rcases List.mem_cons.1 hx with rfl | hx
        · exact (not_le.1 hc).le.trans h3
        · exact h4 x hx

omit [IsStrictOrderedRing K] in
private theorem aligned_append (d1 : V3 K) (init : List (V3 K)) (z : V3 K) :
    ∃ k, maximallyAligned d1 (init ++ [z]) = some k ∧ k < init.length + 1 ∧
      (k = init.length ↔ ∀ d ∈ init, 1 + d1.dot d ≤ 1 + d1.dot z) := by
  unfold maximallyAligned
  dsimp only
  rw [List.map_append, List.zipIdx_append, List.foldl_append]
  simp only [List.map_cons, List.map_nil, List.zipIdx_cons, List.zipIdx_nil, List.foldl_cons,
    List.foldl_nil, List.length_map, zero_add]
  cases hk : (init.map (fun d2 => 1 + d1.dot d2)).zipIdx with
  | nil =>
    have : init = [] := by
      have := congrArg List.length hk
      simpa using this
    subst this
    simp [keepLater]
  | cons b l =>
    rw [List.foldl_cons]
    obtain ⟨e, h1, h2, h3, h4⟩ := foldl_argmax l b
    have h0 : keepLater none b = some b := rfl
    rw [h0, h1]
    have hmem : e ∈ (init.map (fun d2 => 1 + d1.dot d2)).zipIdx := by
      rw [hk]
      rcases h2 with rfl | h2
      · simp
      · simp [h2]
    have hidx : e.2 < init.length := by
      have := List.snd_lt_of_mem_zipIdx hmem
      simpa using this
    have hle : ∀ d ∈ init, 1 + d1.dot d ≤ e.1 := by
      intro d hd
      obtain ⟨i, hi, hd'⟩ := List.getElem_of_mem hd
      have : ((1 + d1.dot d), i) ∈ (init.map (fun d2 => 1 + d1.dot d2)).zipIdx := by
        rw [List.mem_zipIdx_iff_getElem?]
        simp [hi, hd']
      rw [hk] at this
      rcases List.mem_cons.1 this with h | h
      · rw [← h] at h3; exact h3
      · exact h4 _ h
    have he : ∃ d ∈ init, 1 + d1.dot d = e.1 := by
      have := List.fst_mem_of_mem_zipIdx hmem
      obtain ⟨d, hd, h⟩ := List.mem_map.1 this
      exact ⟨d, hd, h⟩
    by_cases hc : e.1 ≤ 1 + d1.dot z
    · refine ⟨init.length, by simp [keepLater, hc], by omega, ?_⟩
      simp only [true_iff]
      intro d hd
      exact (hle d hd).trans hc
    · refine ⟨e.2, by simp [keepLater, hc], by omega, ?_⟩
      constructor
      · intro h; omega
      · intro h
        obtain ⟨d, hd, hde⟩ := he
        exact absurd (hde ▸ h d hd) hc

omit [LinearOrder K] [IsStrictOrderedRing K] in
private theorem inner_loop (old row : List K) (kernel : List (List K)) (i : ℕ)
    (hrow : kernel[i]? = some row) : ∀ (m : ℕ) (vs : List K) (o k : K),
      i < vs.length → old[m]? = some o → row[m]? = some k → 
      (List.range (m + 1)).foldlM (fun vs j => remapWrite old kernel i j vs) vs
        = some (vs.set i (o * k)) := by
  intro m
  induction m with
  | zero =>
    intro vs o k hi ho hk
    simp [remapWrite, ho, hrow, hk, hi]
  | succ m ih =>
    intro vs o k hi ho hk
    have ho' : m < old.length := by
      have := (List.getElem?_eq_some_iff.1 ho).1; omega
    have hk' : m < row.length := by
      have := (List.getElem?_eq_some_iff.1 hk).1; omega
    rw [List.range_succ, List.foldlM_append,
      ih vs old[m] row[m] hi (List.getElem?_eq_getElem ho') (List.getElem?_eq_getElem hk')]
    simp [remapWrite, ho, hrow, hk, hi]

omit [LinearOrder K] [IsStrictOrderedRing K] in
private theorem outer_loop (old : List K) (kernel : List (List K)) (m : ℕ) (o : K)
    (ho : old[m]? = some o) (f : ℕ → K)
    (hf : ∀ i < m + 1, ∃ row, kernel[i]? = some row ∧ row[m]? = some (f i)) :
    ∀ n, n ≤ m + 1 → ∀ vs : List K, m + 1 ≤ vs.length →
      ∃ r, (List.range n).foldlM (fun vs i =>
        (List.range (m + 1)).foldlM (fun vs j => remapWrite old kernel i j vs) vs) vs = some r ∧
        r.length = vs.length ∧ ∀ i, i < n → r[i]? = some (o * f i) := by
  intro n
  induction n with
  | zero => intro _ vs _; exact ⟨vs, rfl, rfl, by omega⟩
  | succ n ih =>
    intro hn vs hv
    obtain ⟨r, h1, h2, h3⟩ := ih (by omega) vs hv
    obtain ⟨row, hr1, hr2⟩ := hf n (by omega)
    refine ⟨r.set n (o * f n), ?_, by simpa using h2, ?_⟩
    · rw [List.range_succ (n := n), List.foldlM_append, h1]
      have := inner_loop old row kernel n hr1 m r o (f n) (by omega) ho hr2
      simp [this]
    · intro i hi
      rw [List.getElem?_set]
      by_cases hin : n = i
      · subst hin
        rw [if_pos rfl, if_pos (by omega)]
      · rw [if_neg hin]
        exact h3 i (by omega)

omit [IsStrictOrderedRing K] in
private theorem mapM_some (f : V3 K → Option (List K)) (g : V3 K → List K)
    (h : ∀ d, f d = some (g d)) : ∀ l : List (V3 K), l.mapM f = some (l.map g) := by
  intro l
  induction l with
  | nil => rfl
  | cons y l ih => simp [List.mapM_cons, h, ih]

/-- **C36, partial**: what `remap` really computes.  Missing for the full claim: the total rate is not
kept (`remap_loses_rates`); only the old rate of the *last* direction survives, in every direction whose
best aligned new direction is the last one, and all other rates are set to zero. -/
theorem remap_keeps_only_last_partial (values : List K) (oldDirs init : List (V3 K)) (z : V3 K)
    (hlen : oldDirs.length = init.length + 1) (hv : values.length = init.length + 1) (v : K)
    (hlast : values.getLast? = some v) :
    ∃ r, remap values oldDirs (init ++ [z]) = some r ∧ r.length = values.length ∧
      ∀ (i : ℕ) (d : V3 K), oldDirs[i]? = some d →
        ((∀ d' ∈ init, d.dot d' ≤ d.dot z) → r[i]? = some v) ∧
        ((∃ d' ∈ init, d.dot z < d.dot d') → r[i]? = some 0) := by
  classical
  have hk : ∀ d : V3 K, kernelF d (init ++ [z]) = some ((List.range (init.length + 1)).map
      fun i => if i = (maximallyAligned d (init ++ [z])).getD 0 then 1 else 0) := by
    intro d
    obtain ⟨k, hk, _, _⟩ := aligned_append d init z
    unfold kernelF
    rw [hk]
    simp
  have ho : values[init.length]? = some v := by
    rw [List.getLast?_eq_getElem?, hv] at hlast
    simpa using hlast
  obtain ⟨r, h1, h2, h3⟩ := outer_loop values
    (oldDirs.map (fun d => (List.range (init.length + 1)).map
      fun i => if i = (maximallyAligned d (init ++ [z])).getD 0 then (1 : K) else 0)) init.length v ho
    (fun i => match oldDirs[i]? with
      | none => 0
      | some d => if init.length = (maximallyAligned d (init ++ [z])).getD 0 then 1 else 0)
    (by
      intro i hi
      have hi' : i < oldDirs.length := by omega
      refine ⟨_, by rw [List.getElem?_map, List.getElem?_eq_getElem hi']; rfl, ?_⟩
      simp [List.getElem?_eq_getElem hi'])
    (init.length + 1) le_rfl values (by omega)
  refine ⟨r, ?_, h2, ?_⟩
  · unfold remap
    dsimp only
    rw [mapM_some _ _ hk, hlen]
    exact h1
  · intro i d hd
    have hi : i < init.length + 1 := by
      have := (List.getElem?_eq_some_iff.1 hd).1; omega
    have h4 := h3 i hi
    rw [hd] at h4
    obtain ⟨k, hk, hk1, hk2⟩ := aligned_append d init z
    dsimp only at h4
    rw [hk] at h4
    simp only [Option.getD_some] at h4
    constructor
    · intro hall
      have : k = init.length := hk2.2 (fun d' hd' => by
        have := hall d' hd'
        exact add_le_add_right this 1)
      subst this
      simpa using h4
    · rintro ⟨d', hd', hlt⟩
      have : k ≠ init.length := by
        intro hke
        have := hk2.1 hke d' hd'
        exact absurd (le_of_add_le_add_left this) (not_le.2 hlt)
      rw [if_neg (Ne.symm this)] at h4
      simpa using h4

/-- **C36, negation of the second part**: even if the directions are not rotated at all, remapping two
rates `5` and `7` gives `0` and `7`: the total drops from `12` to `7`. -/
theorem remap_loses_rates :
    remap (K := ℚ) [5, 7] [⟨1, 0, 0⟩, ⟨-1, 0, 0⟩] [⟨1, 0, 0⟩, ⟨-1, 0, 0⟩] = some [0, 7] := by
  decide +kernel

/-- The hypotheses of the partial theorem for three directions. -/
example : ([⟨1, 0, 0⟩, ⟨0, 1, 0⟩, ⟨0, 0, 1⟩] : List (V3 ℚ)).length
    = ([⟨0, 1, 0⟩, ⟨0, 0, 1⟩] : List (V3 ℚ)).length + 1
    ∧ ([2, 3, 4] : List ℚ).getLast? = some 4
    ∧ remap (K := ℚ) [2, 3, 4] [⟨1, 0, 0⟩, ⟨0, 1, 0⟩, ⟨0, 0, 1⟩]
      ([⟨0, 1, 0⟩, ⟨0, 0, 1⟩] ++ [⟨1, 0, 0⟩]) = some [4, 0, 0] := by decide +kernel

end

end Verif.Direction
