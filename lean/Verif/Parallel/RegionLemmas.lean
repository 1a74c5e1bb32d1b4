import Verif.Parallel.Spec
import Verif.Parallel.EnvLemmas

/-! # Only neighbouring images matter: lemmas -/

namespace Verif.Parallel

open Verif.Geometry

variable {d : ℕ} {Id : Type}

theorem distance_lt_iff {y a b : Vec d ℝ} :
    distance y a < distance y b ↔ ∑ i, (y i - a i) ^ 2 < ∑ i, (y i - b i) ^ 2 := by
  unfold distance length
  exact Real.sqrt_lt_sqrt_iff (Finset.sum_nonneg fun i _ => sq_nonneg _)

theorem distance_le_of {y a b : Vec d ℝ} (h : ∀ i, |y i - a i| ≤ |y i - b i|) : distance y a ≤ distance y b := by
  unfold distance length
  exact Real.sqrt_le_sqrt (Finset.sum_le_sum fun i _ => sq_le_sq.2 (h i))

theorem image_eq (W : World d Id) (w : Fin d → WrapType) (p : Vec d ℝ) :
    W.image w p = image W.box (fun i => shift (w i)) p := by
  funext i
  show p i + (W.box.max i - W.box.min i) * (w i).asSign = p i + ((shift (w i) : ℤ) : ℝ) * (W.box.max i - W.box.min i)
  generalize w i = v
  cases v <;> simp [WrapType.asSign, shift]

theorem shift_eq_zero {w : WrapType} : shift w = 0 ↔ w = .noWrap := by
  cases w <;> simp [shift]

theorem exists_shift {k : ℤ} (h1 : -1 ≤ k) (h2 : k ≤ 1) : ∃ w, shift w = k := by
  obtain rfl | rfl | rfl : k = -1 ∨ k = 0 ∨ k = 1 := by omega
  · exact ⟨.minus, rfl⟩
  · exact ⟨.noWrap, rfl⟩
  · exact ⟨.plus, rfl⟩

theorem shift_bounds (w : WrapType) : -1 ≤ shift w ∧ shift w ≤ 1 := by
  cases w <;> simp [shift]

theorem image_zero (W : World d Id) (p : Vec d ℝ) : image W.box 0 p = p := by
  funext i
  simp [image]

theorem distance_le_iff {y a b : Vec d ℝ} :
    distance y a ≤ distance y b ↔ ∑ i, (y i - a i) ^ 2 ≤ ∑ i, (y i - b i) ^ 2 := by
  unfold distance length
  exact Real.sqrt_le_sqrt_iff (Finset.sum_nonneg fun i _ => sq_nonneg _)

/-- A place which is not further from `p` than from the images of `p` along the axes is at most half a box length away. -/
theorem half_box_le {W : World d Id} (hb : ∀ i, W.lo i < W.hi i) {p y : Vec d ℝ}
    (h : ∀ w : Fin d → WrapType, isPeriodic w → distance y p ≤ distance y (W.image w p)) (i : Fin d) :
    |y i - p i| ≤ (W.hi i - W.lo i) / 2 := by
  classical
  have hL : 0 < W.hi i - W.lo i := sub_pos.2 (hb i)
  have key : ∀ w : WrapType, w ≠ .noWrap → (y i - p i) ^ 2 ≤ (y i - (p i + shift w * (W.hi i - W.lo i))) ^ 2 := by
    intro w hw
    have h1 := distance_le_iff.1 (h (Function.update (fun _ => .noWrap) i w) ⟨i, by simpa using hw⟩)
    rw [← Finset.add_sum_erase _ _ (Finset.mem_univ i), ← Finset.add_sum_erase _ _ (Finset.mem_univ i)] at h1
    have h2 : ∀ j ∈ Finset.univ.erase i, (y j - W.image (Function.update (fun _ => .noWrap) i w) p j) ^ 2 = (y j - p j) ^ 2 := by
      intro j hj
      have : j ≠ i := Finset.ne_of_mem_erase hj
      simp [World.image, asTranslation, this, WrapType.asSign]
    rw [Finset.sum_congr rfl h2] at h1
    have h3 : W.image (Function.update (fun _ => .noWrap) i w) p i = p i + shift w * (W.hi i - W.lo i) := by
      rw [image_eq]
      simp [image, World.box, fromMinMax]
    rw [h3] at h1
    linarith
  have k1 := key .minus (by simp)
  have k2 := key .plus (by simp)
  simp only [shift] at k1 k2
  push_cast at k1 k2
  rw [abs_le]
  constructor <;> nlinarith

/-- A place which is closer to `p` than to the images of `p` along the axes is within half a box length. -/
theorem half_box {W : World d Id} (hb : ∀ i, W.lo i < W.hi i) {p y : Vec d ℝ}
    (h : ∀ w : Fin d → WrapType, isPeriodic w → distance y p < distance y (W.image w p)) (i : Fin d) :
    |y i - p i| < (W.hi i - W.lo i) / 2 := by
  classical
  have hL : 0 < W.hi i - W.lo i := sub_pos.2 (hb i)
  have key : ∀ w : WrapType, w ≠ .noWrap → (y i - p i) ^ 2 < (y i - (p i + shift w * (W.hi i - W.lo i))) ^ 2 := by
    intro w hw
    have h1 := distance_lt_iff.1 (h (Function.update (fun _ => .noWrap) i w) ⟨i, by simpa using hw⟩)
    rw [← Finset.add_sum_erase _ _ (Finset.mem_univ i), ← Finset.add_sum_erase _ _ (Finset.mem_univ i)] at h1
    have h2 : ∀ j ∈ Finset.univ.erase i, (y j - W.image (Function.update (fun _ => .noWrap) i w) p j) ^ 2 = (y j - p j) ^ 2 := by
      intro j hj
      have : j ≠ i := Finset.ne_of_mem_erase hj
      simp [World.image, asTranslation, this, WrapType.asSign]
    rw [Finset.sum_congr rfl h2] at h1
    have h3 : W.image (Function.update (fun _ => .noWrap) i w) p i = p i + shift w * (W.hi i - W.lo i) := by
      rw [image_eq]
      simp [image, World.box, fromMinMax]
    rw [h3] at h1
    linarith
  have k1 := key .minus (by simp)
  have k2 := key .plus (by simp)
  simp only [shift] at k1 k2
  push_cast at k1 k2
  rw [abs_lt]
  constructor <;> nlinarith

/-- Moving an image towards the box does not increase its distance. -/
theorem clamp_le {v L : ℝ} (hL : 0 < L) (hv : |v| ≤ 3 / 2 * L) (k : ℤ) :
    |v - (max (-1) (min 1 k) : ℤ) * L| ≤ |v - k * L| := by
  obtain ⟨v1, v2⟩ := abs_le.1 hv
  rcases le_or_gt k (-2) with h | h
  · have e : max (-1) (min 1 k) = -1 := by omega
    have hk : (k : ℝ) ≤ -2 := by exact_mod_cast h
    have h2 : (k : ℝ) * L ≤ -2 * L := mul_le_mul_of_nonneg_right hk hL.le
    rw [e]
    push_cast
    rw [abs_le, abs_of_nonneg (by linarith : 0 ≤ v - k * L)]
    constructor <;> linarith
  · rcases le_or_gt 2 k with h' | h'
    · have e : max (-1) (min 1 k) = 1 := by omega
      have hk : (2 : ℝ) ≤ k := by exact_mod_cast h'
      have h2 : 2 * L ≤ (k : ℝ) * L := mul_le_mul_of_nonneg_right hk hL.le
      rw [e]
      push_cast
      rw [abs_le, abs_of_nonpos (by linarith : v - k * L ≤ 0)]
      constructor <;> linarith
    · have e : max (-1) (min 1 k) = k := by omega
      rw [e]

/-- Moving an image which is not a neighbouring one towards the box decreases its distance. -/
theorem clamp_lt {v L : ℝ} (hL : 0 < L) (hv : |v| < 3 / 2 * L) {k : ℤ} (hk : max (-1) (min 1 k) ≠ k) :
    |v - (max (-1) (min 1 k) : ℤ) * L| < |v - k * L| := by
  obtain ⟨v1, v2⟩ := abs_lt.1 hv
  rcases le_or_gt k (-2) with h | h
  · have e : max (-1) (min 1 k) = -1 := by omega
    have hk : (k : ℝ) ≤ -2 := by exact_mod_cast h
    have h2 : (k : ℝ) * L ≤ -2 * L := mul_le_mul_of_nonneg_right hk hL.le
    rw [e]
    push_cast
    rw [abs_lt, abs_of_nonneg (by linarith : 0 ≤ v - k * L)]
    constructor <;> linarith
  · rcases le_or_gt 2 k with h' | h'
    · have e : max (-1) (min 1 k) = 1 := by omega
      have hk : (2 : ℝ) ≤ k := by exact_mod_cast h'
      have h2 : 2 * L ≤ (k : ℝ) * L := mul_le_mul_of_nonneg_right hk hL.le
      rw [e]
      push_cast
      rw [abs_lt, abs_of_nonpos (by linarith : v - k * L ≤ 0)]
      constructor <;> linarith
    · omega

/-- The region in terms of the images which the code considers. -/
theorem region_iff {W : World d Id} (V : W.Valid) {r : ℕ} (hr : r < W.particles.length) {p : Id × Vec d ℝ}
    (hp : p ∈ W.ofRank r) {y : Vec d ℝ} :
    W.Region r p y ↔ ∀ s q, s < W.particles.length → q ∈ W.ofRank s → ∀ w : Fin d → WrapType,
      (s ≠ r ∨ q ≠ p ∨ isPeriodic w) → distance y p.2 < distance y (W.image w q.2) := by
  constructor
  · intro h s q hs hq w hw
    rw [image_eq]
    refine h s q hs hq _ ?_
    intro e
    obtain ⟨e1, e2, e3⟩ : s = r ∧ q = p ∧ (fun i => shift (w i)) = 0 := by simpa using e
    subst e1 e2
    rcases hw with hw | hw | ⟨i, hw⟩
    · exact hw rfl
    · exact hw rfl
    · have e' := congrFun e3 i
      exact hw (shift_eq_zero.1 e')
  · intro h s q hs hq k hne
    have hhalf := half_box V.box fun w hw => h r p hr hp w (Or.inr (Or.inr hw))
    choose w hw using fun i => exists_shift (k := max (-1) (min 1 (k i))) (by omega) (by omega)
    have hle : distance y (W.image w q.2) ≤ distance y (image W.box k q.2) := by
      refine distance_le_of fun i => ?_
      rw [image_eq]
      have hL : 0 < W.hi i - W.lo i := sub_pos.2 (V.box i)
      have h1 := abs_lt.1 (hhalf i)
      have h2 := V.inside r p hp i
      have h3 := V.inside s q hq i
      have := clamp_le (v := y i - q.2 i) hL (by rw [abs_le]; constructor <;> linarith) (k i)
      rw [← hw i] at this
      have e : ∀ k : Fin d → ℤ, y i - image W.box k q.2 i = y i - q.2 i - k i * (W.hi i - W.lo i) := by
        intro k
        simp only [image, World.box, fromMinMax]
        ring
      rw [e, e]
      exact this
    refine lt_of_lt_of_le (h s q hs hq w ?_) hle
    by_contra hc
    push Not at hc
    obtain ⟨rfl, rfl, hc⟩ := hc
    apply hne
    have : k = 0 := by
      funext i
      have hi : w i = .noWrap := by
        by_contra hi
        exact hc ⟨i, hi⟩
      have h1 := hw i
      rw [hi] at h1
      have h2 : (0 : ℤ) = max (-1) (min 1 (k i)) := h1
      show k i = 0
      omega
    rw [this]

end Verif.Parallel
