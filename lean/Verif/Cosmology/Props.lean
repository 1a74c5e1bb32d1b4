import Verif.Cosmology.Model
import Mathlib.Analysis.SpecialFunctions.Arsinh
import Mathlib.Analysis.SpecialFunctions.Pow.Deriv
import Mathlib.Tactic.Linarith
import Mathlib.Tactic.FieldSimp
import Mathlib.Tactic.Positivity

/-!
# C44: the scale factor search
-/

namespace Verif.Cosmology

section Search
variable {K : Type} [Field K] [LinearOrder K] [IsStrictOrderedRing K]

theorem search_result_aux (nanNegative : ℕ → Bool) (f : K → Option K) (threshold : K) :
    ∀ (n depth : ℕ) (min max g : K), maxDepth + 1 - depth = n → min < max →
      depthLimitedBinarySearch nanNegative f min max threshold depth = some g →
      min < g ∧ g < max ∧ ∃ v, f g = some v ∧ |v| ≤ threshold := by
  intro n
  induction n with
  | zero =>
    intro depth min max g hn _ h
    rw [depthLimitedBinarySearch, if_pos (by omega)] at h
    cases h
  | succ n ih =>
    intro depth min max g hn hm h
    have hl : min < (min + max) / 2 := by linarith
    have hr : (min + max) / 2 < max := by linarith
    rw [depthLimitedBinarySearch, if_neg (by omega)] at h
    dsimp only at h
    cases hf : f ((min + max) / 2) with
    | none =>
      rw [hf] at h
      dsimp only at h
      split_ifs at h
      · obtain ⟨h1, h2, h3⟩ := ih (depth + 1) _ _ g (by omega) hr h
        exact ⟨hl.trans h1, h2, h3⟩
      · obtain ⟨h1, h2, h3⟩ := ih (depth + 1) _ _ g (by omega) hl h
        exact ⟨h1, h2.trans hr, h3⟩
    | some v =>
      rw [hf] at h
      dsimp only at h
      split_ifs at h with h1 h2
      · cases h
        exact ⟨hl, hr, v, hf, h1⟩
      · obtain ⟨h1, h2, h3⟩ := ih (depth + 1) _ _ g (by omega) hr h
        exact ⟨hl.trans h1, h2, h3⟩
      · obtain ⟨h1, h2, h3⟩ := ih (depth + 1) _ _ g (by omega) hl h
        exact ⟨h1, h2.trans hr, h3⟩

/-- **C44 (whatever is returned is right).** For any function whatsoever, a returned value lies strictly inside
the bracket and the function is within the threshold of zero there. -/
theorem search_result (nanNegative : ℕ → Bool) (f : K → Option K) (min max threshold g : K)
    (hm : min < max) (h : binarySearch nanNegative f min max threshold = some g) :
    min < g ∧ g < max ∧ ∃ v, f g = some v ∧ |v| ≤ threshold :=
  search_result_aux nanNegative f threshold _ 0 min max g rfl hm h

theorem search_succeeds_aux (nanNegative : ℕ → Bool) (f : K → K) (lo hi threshold root : K)
    (hmono : ∀ x y, lo ≤ x → x ≤ y → y ≤ hi → f x ≤ f y) (ht : 0 ≤ threshold) (hroot : f root = 0) :
    ∀ (n depth : ℕ) (min max : K), maxDepth - depth = n → depth ≤ maxDepth →
      lo ≤ min → min ≤ root → root ≤ max → max ≤ hi →
      (∀ x, lo ≤ x → x ≤ hi → |x - root| ≤ (max - min) / 2 ^ (n + 1) → |f x| ≤ threshold) →
      ∃ g, depthLimitedBinarySearch nanNegative (fun x => some (f x)) min max threshold depth
        = some g := by
  intro n
  induction n with
  | zero =>
    intro depth min max hn hd hlo hmin hmax hhi hclose
    have hb : |f ((min + max) / 2)| ≤ threshold := by
      refine hclose _ (by linarith) (by linarith) ?_
      rw [abs_le]
      constructor <;> linarith
    refine ⟨(min + max) / 2, ?_⟩
    rw [depthLimitedBinarySearch, if_neg (by omega)]
    dsimp only
    rw [if_pos hb]
  | succ n ih =>
    intro depth min max hn hd hlo hmin hmax hhi hclose
    rw [depthLimitedBinarySearch, if_neg (by omega)]
    dsimp only
    by_cases hb : |f ((min + max) / 2)| ≤ threshold
    · exact ⟨_, by rw [if_pos hb]⟩
    · rw [if_neg hb]
      have hw : ∀ w : K, w / 2 / 2 ^ (n + 1) = w / 2 ^ (n + 1 + 1) := by
        intro w
        rw [pow_succ (2 : K) (n + 1), div_div, mul_comm (2 : K) (2 ^ (n + 1))]
      by_cases hv : f ((min + max) / 2) < 0
      · rw [if_pos hv]
        refine ih (depth + 1) _ _ (by omega) (by omega) (by linarith) ?_ hmax hhi ?_
        · by_contra hc
          push Not at hc
          have := hmono root ((min + max) / 2) (by linarith) hc.le (by linarith)
          linarith
        · intro x h1 h2 h3
          refine hclose x h1 h2 (h3.trans (le_of_eq ?_))
          rw [← hw]
          congr 1
          ring
      · rw [if_neg hv]
        have hv' : 0 < f ((min + max) / 2) := by
          rcases lt_or_eq_of_le (not_lt.1 hv) with h | h
          · exact h
          · rw [← h, abs_zero] at hb
            exact absurd ht hb
        refine ih (depth + 1) _ _ (by omega) (by omega) hlo hmin ?_ (by linarith) ?_
        · by_contra hc
          push Not at hc
          have := hmono ((min + max) / 2) root (by linarith) hc.le (by linarith)
          linarith
        · intro x h1 h2 h3
          refine hclose x h1 h2 (h3.trans (le_of_eq ?_))
          rw [← hw]
          congr 1
          ring

/-- **C44 (the search succeeds).** If the function increases on the bracket, has a root there, and stays
within the threshold of zero at distance `(max - min) / 2 ^ 101` of that root, then the depth limit is not
reached and a point is returned where the function is within the threshold of zero. -/
theorem search_succeeds (nanNegative : ℕ → Bool) (f : K → K) (min max threshold root : K)
    (hmono : ∀ x y, min ≤ x → x ≤ y → y ≤ max → f x ≤ f y) (ht : 0 ≤ threshold)
    (hroot : f root = 0) (h1 : min ≤ root) (h2 : root ≤ max) (hm : min < max)
    (hclose : ∀ x, min ≤ x → x ≤ max → |x - root| ≤ (max - min) / 2 ^ 101 → |f x| ≤ threshold) :
    ∃ g, binarySearch nanNegative (fun x => some (f x)) min max threshold = some g ∧
      min < g ∧ g < max ∧ |f g| ≤ threshold := by
  obtain ⟨g, hg⟩ := search_succeeds_aux nanNegative f min max threshold root hmono ht hroot 100 0 min max
    rfl (by decide) le_rfl h1 h2 le_rfl hclose
  obtain ⟨h3, h4, v, h5, h6⟩ := search_result nanNegative _ min max threshold g hm hg
  cases h5
  exact ⟨g, hg, h3, h4, h6⟩

/-- **C44 (and fails otherwise).** If no point of the bracket comes within the threshold of zero, the search
panics. -/
theorem search_fails (nanNegative : ℕ → Bool) (f : K → Option K) (min max threshold : K)
    (hm : min < max) (hno : ∀ x v, min ≤ x → x ≤ max → f x = some v → threshold < |v|) :
    binarySearch nanNegative f min max threshold = none := by
  cases h : binarySearch nanNegative f min max threshold with
  | none => rfl
  | some g =>
    obtain ⟨h1, h2, v, h3, h4⟩ := search_result nanNegative f min max threshold g hm h
    exact absurd (hno g v h1.le h2.le h3) (not_lt.2 h4)

/-- Roots really are needed: the identity on `[0, 1]`, threshold one thousandth, root at one third. -/
example : ∃ g : ℚ, binarySearch (fun _ => true) (fun x => some (x - 1 / 3)) 0 1 (1 / 1000) = some g ∧
    0 < g ∧ g < 1 ∧ |g - 1 / 3| ≤ 1 / 1000 := by
  refine search_succeeds (fun _ => true) (fun x : ℚ => x - 1 / 3) 0 1 (1 / 1000) (1 / 3) ?_ (by norm_num)
    (by norm_num) (by norm_num) (by norm_num) (by norm_num) ?_
  · intro x y _ h _
    linarith
  · intro x _ _ h
    refine h.trans ?_
    norm_num

end Search

/-! ## The expansion law -/

/-- The parameters for which the formula applies: flat within a percent, matter and dark energy. -/
structure CosmologyParams.Flat (p : CosmologyParams) : Prop where
  flat : |p.omegaLambda + p.omega0 - 1| ≤ 1e-2
  lambda_pos : 0 < p.omegaLambda
  matter_pos : 0 < p.omega0

theorem time_eq (p : CosmologyParams) (hp : p.Flat) (a : ℝ) (ha : 0 ≤ a) :
    p.time a = 2 / (3 * √p.omegaLambda) * Real.arsinh (√(p.omegaLambda / p.omega0) * a ^ (3 / 2 : ℝ)) := by
  have hq : 0 < p.omegaLambda / p.omega0 := div_pos hp.lambda_pos hp.matter_pos
  have hsq : (√(p.omegaLambda / p.omega0) * a ^ (3 / 2 : ℝ)) ^ 2 = p.omegaLambda / p.omega0 * a ^ 3 := by
    rw [mul_pow, Real.sq_sqrt hq.le, ← Real.rpow_natCast (a ^ (3 / 2 : ℝ)), ← Real.rpow_mul ha,
      ← Real.rpow_natCast a 3]
    norm_num
  unfold CosmologyParams.time Real.arsinh
  dsimp only
  rw [hsq, show (1.5 : ℝ) = 3 / 2 by norm_num, show (1.0 : ℝ) = 1 by norm_num,
    show (2.0 : ℝ) = 2 by norm_num, show (3.0 : ℝ) = 3 by norm_num]

theorem time_strictMono (p : CosmologyParams) (hp : p.Flat) (a b : ℝ) (ha : 0 ≤ a) (hab : a < b) :
    p.time a < p.time b := by
  rw [time_eq p hp a ha, time_eq p hp b (ha.trans hab.le)]
  have hq : 0 < p.omegaLambda / p.omega0 := div_pos hp.lambda_pos hp.matter_pos
  have h1 : 0 < √p.omegaLambda := Real.sqrt_pos.2 hp.lambda_pos
  have h2 : 0 < √(p.omegaLambda / p.omega0) := Real.sqrt_pos.2 hq
  have h3 := Real.rpow_lt_rpow ha hab (show (0 : ℝ) < 3 / 2 by norm_num)
  have h4 : Real.arsinh (√(p.omegaLambda / p.omega0) * a ^ (3 / 2 : ℝ))
      < Real.arsinh (√(p.omegaLambda / p.omega0) * b ^ (3 / 2 : ℝ)) :=
    Real.arsinh_lt_arsinh.2 (mul_lt_mul_of_pos_left h3 h2)
  exact mul_lt_mul_of_pos_left h4 (by positivity)

/-- **C44 (the formula is the expansion law).** The time computed from the scale factor satisfies the
Friedmann equation of a flat universe: `da/dt = a √(Ω₀ / a³ + Ω_Λ)` in units of the Hubble rate. -/
theorem time_satisfies_friedmann (p : CosmologyParams) (hp : p.Flat) (a : ℝ) (ha : 0 < a) :
    HasDerivAt p.time (1 / (a * √(p.omega0 / a ^ 3 + p.omegaLambda))) a := by
  have hq : 0 < p.omegaLambda / p.omega0 := div_pos hp.lambda_pos hp.matter_pos
  have hl := hp.lambda_pos
  have hm := hp.matter_pos
  have h0 : HasDerivAt (fun x : ℝ => x ^ (3 / 2 : ℝ)) (3 / 2 * a ^ (3 / 2 - 1 : ℝ)) a :=
    Real.hasDerivAt_rpow_const (Or.inl ha.ne')
  have h1 := ((h0.const_mul (√(p.omegaLambda / p.omega0))).arsinh).const_mul
    (2 / (3 * √p.omegaLambda))
  have h2 : HasDerivAt p.time _ a := h1.congr_of_eventuallyEq (by
    filter_upwards [lt_mem_nhds ha] with x hx
    exact time_eq p hp x hx.le)
  refine h2.congr_deriv ?_
  have hsq : (√(p.omegaLambda / p.omega0) * a ^ (3 / 2 : ℝ)) ^ 2 = p.omegaLambda / p.omega0 * a ^ 3 := by
    rw [mul_pow, Real.sq_sqrt hq.le, ← Real.rpow_natCast (a ^ (3 / 2 : ℝ)), ← Real.rpow_mul ha.le,
      ← Real.rpow_natCast a 3]
    norm_num
  rw [hsq]
  have e1 : (3 / 2 - 1 : ℝ) = 1 / 2 := by norm_num
  rw [e1, ← Real.sqrt_eq_rpow]
  have e2 : p.omega0 / a ^ 3 + p.omegaLambda
      = (1 + p.omegaLambda / p.omega0 * a ^ 3) * (p.omega0 / a ^ 3) := by
    field_simp
  have e3 : √(p.omega0 / a ^ 3) = √p.omega0 / (a * √a) := by
    rw [Real.sqrt_div hm.le]
    congr 1
    rw [show a ^ 3 = a ^ 2 * a by ring, Real.sqrt_mul (by positivity), Real.sqrt_sq ha.le]
  rw [e2, Real.sqrt_mul (by positivity), e3, Real.sqrt_div hl.le]
  have n1 : √p.omegaLambda ≠ 0 := (Real.sqrt_pos.2 hl).ne'
  have n2 : √p.omega0 ≠ 0 := (Real.sqrt_pos.2 hm).ne'
  have n3 : √a ≠ 0 := (Real.sqrt_pos.2 ha).ne'
  have n4 : √(1 + p.omegaLambda / p.omega0 * a ^ 3) ≠ 0 := (Real.sqrt_pos.2 (by positivity)).ne'
  have n5 : √a * √a = a := Real.mul_self_sqrt ha.le
  generalize √(1 + p.omegaLambda / p.omega0 * a ^ 3) = R at *
  generalize √p.omegaLambda = L at *
  generalize √p.omega0 = M at *
  rw [smul_eq_mul]
  field_simp

/-- The time grows at most `1 / √Ω₀` per scale factor in `[0, 1]`. -/
theorem time_lipschitz (p : CosmologyParams) (hp : p.Flat) (a b : ℝ) (ha : 0 ≤ a) (hab : a ≤ b)
    (hb : b ≤ 1) : p.time b - p.time a ≤ (b - a) / √p.omega0 := by
  have hm := hp.matter_pos
  have hl := hp.lambda_pos
  have hcont : ContinuousOn p.time (Set.Icc 0 1) := by
    have : ContinuousOn (fun x : ℝ => 2 / (3 * √p.omegaLambda)
        * Real.arsinh (√(p.omegaLambda / p.omega0) * x ^ (3 / 2 : ℝ))) (Set.Icc 0 1) := by
      refine ContinuousOn.mul continuousOn_const ?_
      refine Real.continuous_arsinh.comp_continuousOn ?_
      refine ContinuousOn.mul continuousOn_const ?_
      exact (Real.continuous_rpow_const (by norm_num)).continuousOn
    exact this.congr fun x hx => time_eq p hp x hx.1
  have hmono : MonotoneOn (fun x => x / √p.omega0 - p.time x) (Set.Icc 0 1) := by
    refine monotoneOn_of_deriv_nonneg (convex_Icc 0 1) ?_ ?_ ?_
    · exact (continuousOn_id.div_const _).sub hcont
    · intro x hx
      rw [interior_Icc] at hx
      exact (((hasDerivAt_id x).div_const _).sub
        (time_satisfies_friedmann p hp x hx.1)).differentiableAt.differentiableWithinAt
    · intro x hx
      rw [interior_Icc] at hx
      have hd : HasDerivAt (fun y => y / √p.omega0 - p.time y)
          (1 / √p.omega0 - 1 / (x * √(p.omega0 / x ^ 3 + p.omegaLambda))) x :=
        ((hasDerivAt_id x).div_const _).sub (time_satisfies_friedmann p hp x hx.1)
      rw [hd.deriv]
      rw [sub_nonneg]
      refine one_div_le_one_div_of_le (Real.sqrt_pos.2 hm) ?_
      rw [Real.sqrt_le_iff]
      refine ⟨mul_nonneg hx.1.le (Real.sqrt_nonneg _), ?_⟩
      have hx0 := hx.1
      rw [mul_pow, Real.sq_sqrt (by positivity)]
      have : x ^ 2 * (p.omega0 / x ^ 3 + p.omegaLambda) = p.omega0 / x + p.omegaLambda * x ^ 2 := by
        field_simp
      rw [this]
      have h3 : p.omega0 ≤ p.omega0 / x := by
        rw [le_div_iff₀ hx0]
        nlinarith [hx.2]
      nlinarith [mul_pos hl (pow_pos hx0 2)]
  have h := hmono ⟨ha, hab.trans hb⟩ ⟨ha.trans hab, hb⟩ hab
  dsimp only at h
  rw [sub_div]
  linarith

/-- **C44 (time difference).** Time differences add up, are zero exactly for equal scale factors and positive
exactly for later ones. -/
theorem time_difference_additive (p : CosmologyParams) (hp : p.Flat) (a0 a1 a2 h : ℝ) (h0 : 0 ≤ a0)
    (h1 : 0 ≤ a1) (h2 : 0 ≤ a2) (hh : 0 < h) :
    ∃ t01 t12 t02, p.timeDifference a0 a1 h = .value t01 ∧ p.timeDifference a1 a2 h = .value t12 ∧
      p.timeDifference a0 a2 h = .value t02 ∧ t01 + t12 = t02 ∧ (0 < t01 ↔ a0 < a1) ∧
      (t01 = 0 ↔ a0 = a1) := by
  have hf : ¬ |p.omegaLambda + p.omega0 - 1.0| > 1e-2 := by
    rw [show (1.0 : ℝ) = 1 by norm_num]
    exact not_lt.2 hp.flat
  have hH : 0 < hubble * h := mul_pos (by unfold hubble; norm_num) hh
  refine ⟨_, _, _, by rw [CosmologyParams.timeDifference, if_neg hf, if_pos ⟨hp.lambda_pos, hp.matter_pos, h0, h1, hh.ne'⟩],
    by rw [CosmologyParams.timeDifference, if_neg hf, if_pos ⟨hp.lambda_pos, hp.matter_pos, h1, h2, hh.ne'⟩],
    by rw [CosmologyParams.timeDifference, if_neg hf, if_pos ⟨hp.lambda_pos, hp.matter_pos, h0, h2, hh.ne'⟩],
    ?_, ?_, ?_⟩
  · ring
  · rw [div_pos_iff_of_pos_right hH, sub_pos]
    constructor
    · intro hlt
      by_contra hc
      rcases lt_or_eq_of_le (not_lt.1 hc) with h' | h'
      · exact absurd (time_strictMono p hp _ _ h1 h') (not_lt.2 hlt.le)
      · rw [h'] at hlt
        exact absurd hlt (lt_irrefl _)
    · exact time_strictMono p hp _ _ h0
  · rw [div_eq_zero_iff, or_iff_left hH.ne', sub_eq_zero]
    constructor
    · intro he
      rcases lt_trichotomy a0 a1 with h' | h' | h'
      · exact absurd he (time_strictMono p hp _ _ h0 h').ne'
      · exact h'
      · exact absurd he (time_strictMono p hp _ _ h1 h').ne
    · rintro rfl
      rfl

theorem scalefactorAfter_eq (nanNegative : ℕ → Bool) (p : CosmologyParams) (hp : p.Flat) (a h deltaT : ℝ)
    (h0 : 0 ≤ a) (hh : 0 < h) : p.scalefactorAfter nanNegative a h deltaT
      = binarySearch nanNegative (fun a1 => if 0 ≤ a1 then
          some ((p.time a1 - p.time a) / (hubble * h) - deltaT) else none) 0 1 (100 * year) := by
  have hf : ¬ |p.omegaLambda + p.omega0 - 1.0| > 1e-2 := by
    rw [show (1.0 : ℝ) = 1 by norm_num]
    exact not_lt.2 hp.flat
  unfold CosmologyParams.scalefactorAfter
  rw [if_neg hf, show (0.0 : ℝ) = 0 by norm_num, show (1.0 : ℝ) = 1 by norm_num,
    show (100.0 : ℝ) = 100 by norm_num]
  congr 1
  funext a1
  unfold CosmologyParams.timeDifference
  rw [if_neg hf]
  by_cases h1 : 0 ≤ a1
  · rw [if_pos ⟨hp.lambda_pos, hp.matter_pos, h0, h1, hh.ne'⟩, if_pos h1]
  · rw [if_neg (fun hc => h1 hc.2.2.2.1), if_neg h1]

theorem search_congr (nanNegative : ℕ → Bool) (f g : ℝ → Option ℝ) (threshold lo hi : ℝ)
    (hfg : ∀ x, lo ≤ x → x ≤ hi → f x = g x) :
    ∀ (n depth : ℕ) (min max : ℝ), maxDepth + 1 - depth = n → lo ≤ min → min ≤ max → max ≤ hi →
      depthLimitedBinarySearch nanNegative f min max threshold depth
        = depthLimitedBinarySearch nanNegative g min max threshold depth := by
  intro n
  induction n with
  | zero =>
    intro depth min max hn _ _ _
    rw [depthLimitedBinarySearch, if_pos (by omega), depthLimitedBinarySearch, if_pos (by omega)]
  | succ n ih =>
    intro depth min max hn h1 h2 h3
    rw [depthLimitedBinarySearch, if_neg (by omega), depthLimitedBinarySearch, if_neg (by omega)]
    dsimp only
    rw [hfg _ (by linarith) (by linarith), ih (depth + 1) _ max (by omega) (by linarith) (by linarith) h3,
      ih (depth + 1) min _ (by omega) h1 (by linarith) (by linarith)]

/-- **C44 (scale factor after some time).** In every flat universe with matter and dark energy, starting at
any scale factor between zero and one: if the universe reaches scale factor `a1 ≤ 1` after `deltaT`, then the
function returns a scale factor in `[0, 1]` which is reached at most 100 years earlier or later. -/
theorem scalefactor_found (nanNegative : ℕ → Bool) (p : CosmologyParams) (hp : p.Flat)
    (a h deltaT a1 : ℝ) (h0 : 0 ≤ a) (hh : 0 < h) (hm : 1e-20 ≤ √p.omega0 * h) (h1 : 0 ≤ a1)
    (h2 : a1 ≤ 1) (hdt : p.timeDifference a a1 h = .value deltaT) :
    ∃ g t, p.scalefactorAfter nanNegative a h deltaT = some g ∧ 0 < g ∧ g < 1 ∧
      p.timeDifference a1 g h = .value t ∧ |t| ≤ 100 * year := by
  have hf : ¬ |p.omegaLambda + p.omega0 - 1.0| > 1e-2 := by
    rw [show (1.0 : ℝ) = 1 by norm_num]
    exact not_lt.2 hp.flat
  have hH : 0 < hubble * h := mul_pos (by unfold hubble; norm_num) hh
  have hsq : 0 < √p.omega0 := Real.sqrt_pos.2 hp.matter_pos
  rw [CosmologyParams.timeDifference, if_neg hf, if_pos ⟨hp.lambda_pos, hp.matter_pos, h0, h1, hh.ne'⟩] at hdt
  injection hdt with hdt
  rw [scalefactorAfter_eq nanNegative p hp a h deltaT h0 hh]
  set F : ℝ → ℝ := fun x => (p.time x - p.time a) / (hubble * h) - deltaT with hF
  have hFx : ∀ x, F x = (p.time x - p.time a1) / (hubble * h) := by
    intro x
    rw [hF, ← hdt]
    dsimp only
    ring
  have hs := search_succeeds nanNegative F 0 1 (100 * year) a1 ?_ ?_ ?_ h1 h2 zero_lt_one ?_
  · obtain ⟨g, hg, hg0, hg1, hgt⟩ := hs
    refine ⟨g, F g, ?_, hg0, hg1, ?_, hgt⟩
    · rw [← hg]
      refine search_congr nanNegative _ _ _ 0 1 ?_ _ 0 0 1 rfl le_rfl zero_le_one le_rfl
      intro x hx _
      rw [if_pos hx]
    · rw [CosmologyParams.timeDifference, if_neg hf,
        if_pos ⟨hp.lambda_pos, hp.matter_pos, h1, hg0.le, hh.ne'⟩, hFx]
  · intro x y hx hxy _
    rw [hFx, hFx]
    rcases lt_or_eq_of_le hxy with hlt | heq
    · have := time_strictMono p hp x y hx hlt
      exact div_le_div_of_nonneg_right (by linarith) hH.le
    · rw [heq]
  · unfold year
    norm_num
  · rw [hFx, sub_self, zero_div]
  · intro x hx0 hx1 hx
    rw [hFx, abs_div, abs_of_pos hH, div_le_iff₀ hH]
    have hlip : |p.time x - p.time a1| ≤ |x - a1| / √p.omega0 := by
      rcases le_total x a1 with hle | hle
      · have hl := time_lipschitz p hp x a1 hx0 hle h2
        have hmn : p.time x ≤ p.time a1 := by
          rcases lt_or_eq_of_le hle with hlt | heq
          · exact (time_strictMono p hp x a1 hx0 hlt).le
          · rw [heq]
        rw [abs_of_nonpos (by linarith), abs_of_nonpos (by linarith)]
        have e : -(x - a1) = a1 - x := by ring
        rw [e]
        linarith
      · have hl := time_lipschitz p hp a1 x h1 hle hx1
        have hmn : p.time a1 ≤ p.time x := by
          rcases lt_or_eq_of_le hle with hlt | heq
          · exact (time_strictMono p hp a1 x h1 hlt).le
          · rw [heq]
        rw [abs_of_nonneg (by linarith), abs_of_nonneg (by linarith)]
        exact hl
    refine hlip.trans ?_
    rw [div_le_iff₀ hsq]
    have h5 : (1 - 0 : ℝ) / 2 ^ 101 ≤ 100 * year * hubble * 1e-20 := by
      unfold year hubble
      norm_num
    have h6 : 100 * year * hubble * 1e-20 ≤ 100 * year * hubble * (√p.omega0 * h) := by
      refine mul_le_mul_of_nonneg_left hm ?_
      unfold year hubble
      norm_num
    calc |x - a1| ≤ _ := hx
      _ ≤ _ := h5
      _ ≤ _ := h6
      _ = _ := by ring

/-- **C44 (redshift).** Every time specification made for a cosmological run carries the elapsed time it was
made for, and its scale factor and redshift satisfy `(1 + z) a = 1`. -/
theorem time_spec_consistent (nanNegative : ℕ → Bool) (time a h : ℝ) (params : Option CosmologyParams)
    (timeElapsed z g : ℝ)
    (hs : TimeSpec.new nanNegative time (.cosmological a h params) = some (.cosmological timeElapsed z g)) :
    timeElapsed = time ∧ 0 < g ∧ g < 1 ∧ (1 + z) * g = 1 := by
  cases params with
  | none =>
    unfold TimeSpec.new at hs
    dsimp only at hs
    rw [Option.some.injEq] at hs
    cases hs
  | some p =>
    unfold TimeSpec.new at hs
    dsimp only at hs
    cases hp : p.scalefactorAfter nanNegative a h time with
    | none =>
      rw [hp] at hs
      cases hs
    | some g' =>
      rw [hp] at hs
      dsimp only [Option.bind_some, bind, pure] at hs
      rw [Option.some.injEq] at hs
      injection hs with e1 e2 e3
      unfold CosmologyParams.scalefactorAfter at hp
      split_ifs at hp
      obtain ⟨h1, h2, _⟩ := search_result nanNegative _ _ _ _ _ (by norm_num) hp
      rw [e3] at h1 h2
      rw [show (0.0 : ℝ) = 0 by norm_num] at h1
      rw [show (1.0 : ℝ) = 1 by norm_num] at h2
      refine ⟨e1.symm, h1, h2, ?_⟩
      rw [← e2, e3]
      unfold scalefactorToRedshift
      rw [show (1.0 : ℝ) = 1 by norm_num]
      field_simp
      ring

/-- **C44 (no run past scale factor one).** If even at scale factor one the requested time has not elapsed
by more than 100 years, the function panics; with it every `TimeSpec` of such a time. -/
theorem panics_beyond_scale_factor_one (nanNegative : ℕ → Bool) (p : CosmologyParams) (hp : p.Flat)
    (a h deltaT t : ℝ) (h0 : 0 ≤ a) (hh : 0 < h) (ht : p.timeDifference a 1 h = .value t)
    (hlate : t + 100 * year < deltaT) :
    p.scalefactorAfter nanNegative a h deltaT = none ∧
    TimeSpec.new nanNegative deltaT (.cosmological a h (some p)) = none := by
  have hf : ¬ |p.omegaLambda + p.omega0 - 1.0| > 1e-2 := by
    rw [show (1.0 : ℝ) = 1 by norm_num]
    exact not_lt.2 hp.flat
  have hH : 0 < hubble * h := mul_pos (by unfold hubble; norm_num) hh
  rw [CosmologyParams.timeDifference, if_neg hf,
    if_pos ⟨hp.lambda_pos, hp.matter_pos, h0, zero_le_one, hh.ne'⟩] at ht
  injection ht with ht
  have h1 : p.scalefactorAfter nanNegative a h deltaT = none := by
    rw [scalefactorAfter_eq nanNegative p hp a h deltaT h0 hh]
    refine search_fails nanNegative _ 0 1 _ zero_lt_one ?_
    intro x v hx0 hx1 hv
    rw [if_pos hx0] at hv
    cases hv
    have hmn : p.time x ≤ p.time 1 := by
      rcases lt_or_eq_of_le hx1 with hlt | heq
      · exact (time_strictMono p hp x 1 hx0 hlt).le
      · rw [heq]
    have hle : (p.time x - p.time a) / (hubble * h) ≤ t := by
      rw [← ht]
      exact div_le_div_of_nonneg_right (by linarith) hH.le
    rw [lt_abs]
    right
    linarith
  refine ⟨h1, ?_⟩
  unfold TimeSpec.new
  dsimp only
  rw [h1]
  rfl

/-- **C44 (no cosmological constant).** A flat universe without dark energy passes the flatness check, but the
formula is undefined there and the search panics for every time. -/
theorem panics_without_dark_energy (nanNegative : ℕ → Bool) (a h deltaT : ℝ) :
    (⟨1, 0⟩ : CosmologyParams).timeDifference a a h = .nan ∧
    (⟨1, 0⟩ : CosmologyParams).scalefactorAfter nanNegative a h deltaT = none := by
  have hf : ¬ |(0 : ℝ) + 1 - 1.0| > 1e-2 := by norm_num
  have hn : ∀ a', (⟨1, 0⟩ : CosmologyParams).timeDifference a a' h = .nan := by
    intro a'
    unfold CosmologyParams.timeDifference
    rw [if_neg hf, if_neg (fun hc => lt_irrefl _ hc.1)]
  refine ⟨hn a, ?_⟩
  unfold CosmologyParams.scalefactorAfter
  rw [if_neg hf]
  refine search_fails nanNegative _ _ _ _ (by norm_num) ?_
  intro x v _ _ hv
  rw [hn x] at hv
  cases hv

/-! ### The hypotheses are met -/

/-- The cosmology of the tests. -/
noncomputable def planck : CosmologyParams := ⟨0.308983, 0.6911⟩

theorem planck_flat : planck.Flat := by
  constructor
  · unfold planck
    norm_num [abs_le]
  · unfold planck
    norm_num
  · unfold planck
    norm_num

example : ∃ deltaT, planck.timeDifference 0.1 0.5 0.6774 = .value deltaT ∧
    (1e-20 : ℝ) ≤ √planck.omega0 * 0.6774 ∧ 0 < deltaT := by
  obtain ⟨t01, _, _, h1, _, _, _, h2, _⟩ := time_difference_additive planck planck_flat 0.1 0.5 0.5 0.6774
    (by norm_num) (by norm_num) (by norm_num) (by norm_num)
  refine ⟨t01, h1, ?_, h2.2 (by norm_num)⟩
  have : (0.5 : ℝ) ≤ √planck.omega0 := by
    rw [Real.le_sqrt' (by norm_num)]
    unfold planck
    norm_num
  nlinarith

example : ∃ t, planck.timeDifference 0.5 1 0.6774 = .value t ∧ t + 100 * year < t + 101 * year := by
  obtain ⟨t01, _, _, h1, _⟩ := time_difference_additive planck planck_flat 0.5 1 1 0.6774
    (by norm_num) (by norm_num) (by norm_num) (by norm_num)
  refine ⟨t01, h1, ?_⟩
  unfold year
  norm_num

end Verif.Cosmology
