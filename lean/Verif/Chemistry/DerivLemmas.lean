import Verif.Chemistry.RateModel
import Mathlib.Analysis.SpecialFunctions.Pow.Deriv
import Mathlib.Analysis.SpecialFunctions.Sqrt
import Mathlib.Analysis.SpecialFunctions.ExpDeriv

/-!
# Derivatives of the rates: helper lemmas
-/

namespace Verif.Chemistry

theorem hasDerivAt_div_id (c t : ℝ) (ht : t ≠ 0) : HasDerivAt (fun T => c / T) (-c / t ^ 2) t := by
  have h := (hasDerivAt_inv ht).const_mul c
  have e : (fun T : ℝ => c / T) = fun T => c * T⁻¹ := by
    funext T
    rw [div_eq_mul_inv]
  rw [e]
  refine h.congr_deriv ?_
  field_simp

theorem hasDerivAt_exp_div (c t : ℝ) (ht : t ≠ 0) :
    HasDerivAt (fun T => Real.exp (-c / T)) (Real.exp (-c / t) * (c / t ^ 2)) t := by
  have h := (hasDerivAt_div_id (-c) t ht).exp
  rw [neg_neg] at h
  exact h

theorem hasDerivAt_sqrt_mul (k t : ℝ) (hk : 0 < k) (ht : 0 < t) :
    HasDerivAt (fun T => √(k * T)) (k / (2 * √(k * t))) t := by
  have h := (hasDerivAt_id t).const_mul k
  have h' := h.sqrt (by simp only [id]; positivity)
  simpa using h'

/-- The collisional fit with general constants. -/
theorem hasDerivAt_collision (k c t : ℝ) (hk : 0 < k) (ht : 0 < t) :
    HasDerivAt (fun T => √T / (1 + √(k * T)) * Real.exp (-c / T))
      ((Real.exp (-c / t) * (k * c * t + 1 / 2 * √(k * t) * (2 * c + t)))
        / (√(t ^ 3) * √(k * t) * (√(k * t) + 1) ^ 2)) t := by
  have h1 := (Real.hasDerivAt_sqrt ht.ne').div ((hasDerivAt_sqrt_mul k t hk ht).const_add 1)
    (by positivity)
  have h2 := h1.mul (hasDerivAt_exp_div c t ht.ne')
  refine h2.congr_deriv ?_
  have hs : √(k * t) ^ 2 = k * t := Real.sq_sqrt (by positivity)
  have hr : √t ^ 2 = t := Real.sq_sqrt ht.le
  have h3 : √(t ^ 3) = √t ^ 3 := by
    rw [show t ^ 3 = (√t ^ 3) ^ 2 by rw [← pow_mul, show 3 * 2 = 2 * 3 from rfl, pow_mul, hr]]
    exact Real.sqrt_sq (by positivity)
  have hrp : 0 < √t := Real.sqrt_pos.2 ht
  have hsp : 0 < √(k * t) := Real.sqrt_pos.2 (by positivity)
  rw [h3]
  simp only [Pi.div_apply]
  generalize Real.exp (-c / t) = E
  generalize √(k * t) = s at *
  generalize √t = r at *
  have hk' : k = s ^ 2 / t := by
    rw [hs]
    field_simp
  rw [hk', ← hr]
  field_simp
  ring

/-- The excitation fit with general constants. -/
theorem hasDerivAt_excitation (k c a t : ℝ) (hk : 0 < k) (ht : 0 < t) :
    HasDerivAt (fun T => a / (1 + √(k * T)) * Real.exp (-c / T))
      ((a * Real.exp (-c / t) * (c * k * t - 1 / 2 * k * t ^ 2 + c * √(k * t)))
        / (t ^ 2 * √(k * t) * (1 + √(k * t)) ^ 2)) t := by
  have h1 := (hasDerivAt_const t a).div ((hasDerivAt_sqrt_mul k t hk ht).const_add 1)
    (by positivity)
  have h2 := h1.mul (hasDerivAt_exp_div c t ht.ne')
  refine h2.congr_deriv ?_
  have hs : √(k * t) ^ 2 = k * t := Real.sq_sqrt (by positivity)
  have hsp : 0 < √(k * t) := Real.sqrt_pos.2 (by positivity)
  simp only [Pi.div_apply]
  generalize Real.exp (-c / t) = E
  generalize √(k * t) = s at *
  have hk' : k = s ^ 2 / t := by
    rw [hs]
    field_simp
  rw [hk']
  field_simp
  ring

/-- The recombination fit as function of `lambda`. -/
theorem hasDerivAt_recombination (a b p q l : ℝ) (hb : 0 < b) (hl : 0 < l) :
    HasDerivAt (fun x => x ^ a / (1 + (b * x) ^ p) ^ q)
      (-(l ^ (a - 1) * ((b * l) ^ p + 1) ^ (-q - 1) * (p * q * (b * l) ^ p - a * (b * l) ^ p - a))) l := by
  have hbl : 0 < b * l := by positivity
  have hu : 0 < (b * l) ^ p := Real.rpow_pos_of_pos hbl p
  have h1 : HasDerivAt (fun x : ℝ => x ^ a) (a * l ^ (a - 1)) l := Real.hasDerivAt_rpow_const (Or.inl hl.ne')
  have h2 : HasDerivAt (fun x : ℝ => b * x) b l := by simpa using (hasDerivAt_id l).const_mul b
  have h3 := (h2.rpow_const (p := p) (Or.inl hbl.ne')).const_add 1
  have h4 := h3.rpow_const (p := -q) (Or.inl (by positivity))
  have h5 := h1.mul h4
  have e : (fun x : ℝ => x ^ a / (1 + (b * x) ^ p) ^ q) =ᶠ[nhds l]
      ((fun x : ℝ => x ^ a) * fun x => (1 + (b * x) ^ p) ^ (-q)) := by
    filter_upwards [lt_mem_nhds hl] with x hx
    have : 0 < 1 + (b * x) ^ p := by
      have := Real.rpow_pos_of_pos (show 0 < b * x by positivity) p
      linarith
    simp only [Pi.mul_apply]
    rw [Real.rpow_neg this.le, div_eq_mul_inv]
  refine (h5.congr_of_eventuallyEq e).congr_deriv ?_
  have hb1 : b * (b * l) ^ (p - 1) * l = (b * l) ^ p := by
    rw [Real.rpow_sub_one hbl.ne']
    field_simp
  have hl1 : l ^ a = l ^ (a - 1) * l := by
    rw [Real.rpow_sub_one hl.ne']
    field_simp
  have hw : (1 + (b * l) ^ p) ^ (-q) = ((b * l) ^ p + 1) ^ (-q - 1) * ((b * l) ^ p + 1) := by
    rw [Real.rpow_sub_one (by positivity), add_comm]
    field_simp
  rw [hw, hl1, add_comm 1 ((b * l) ^ p), show b * p * (b * l) ^ (p - 1) * -q * ((b * l) ^ p + 1) ^ (-q - 1)
    = p * -q * ((b * l) ^ p + 1) ^ (-q - 1) * (b * (b * l) ^ (p - 1)) by ring]
  generalize ((b * l) ^ p + 1) ^ (-q - 1) = W
  generalize l ^ (a - 1) = L
  rw [show L * l * (p * -q * W * (b * (b * l) ^ (p - 1)))
    = L * p * -q * W * (b * (b * l) ^ (p - 1) * l) by ring, hb1]
  ring

end Verif.Chemistry
