import Verif.Rounding.SearchProps

/-!
# C118: the accuracy of the computed periodic distance and of the results of the radius search
-/

namespace Verif.Rounding

open Verif.Geometry Verif.Quadtree

/-! ### The computed length -/

theorem fl_abs_err_real (x : ℚ) : |(fl x : ℝ) - (x : ℝ)| ≤ |(x : ℝ)| / 2 ^ 53 + 1 / 2 ^ 1074 := by
  have := fl_abs_err x
  have h : ((|fl x - x| : ℚ) : ℝ) ≤ ((|x| / 2 ^ 53 + 1 / 2 ^ 1074 : ℚ) : ℝ) := by exact_mod_cast this
  push_cast at h
  exact h

/-- The error of the square root. -/
theorem sqrtF_err {x : ℚ} (hx : 0 ≤ x) : |(sqrtF x : ℝ) - √(x : ℝ)| ≤ √(x : ℝ) / 2 ^ 53 + 1 / 2 ^ 1074 := by
  obtain ⟨lo, hi, h1, h2, h3, h4, h5, h6⟩ := sqrtF_spec hx
  have r1 : (lo : ℝ) ≤ √(x : ℝ) := Real.le_sqrt_of_sq_le (by exact_mod_cast h3)
  have r2 : √(x : ℝ) ≤ (hi : ℝ) := Real.sqrt_le_iff.2 ⟨by exact_mod_cast h2, by exact_mod_cast h4⟩
  have l0 : (0 : ℝ) ≤ lo := by exact_mod_cast h1
  have g0 : (0 : ℝ) ≤ hi := by exact_mod_cast h2
  have a := abs_le.1 (fl_abs_err_real lo)
  have b := abs_le.1 (fl_abs_err_real hi)
  rw [h5, abs_of_nonneg l0] at a
  rw [h6, abs_of_nonneg g0] at b
  generalize ((1 : ℝ) / 2 ^ 1074) = η at *
  exact abs_le.2 ⟨by linarith, by linarith⟩

theorem sqrt_le_add {A B t : ℝ} (hB : 0 ≤ B) (ht : 0 ≤ t) (h : A ≤ B * (1 + 4 / 2 ^ 53) + t ^ 2) : √A ≤ √B * (1 + 2 / 2 ^ 53) + t := by
  have s := Real.sq_sqrt hB
  have s0 := Real.sqrt_nonneg B
  refine Real.sqrt_le_iff.2 ⟨by positivity, h.trans ?_⟩
  have h1 : 0 ≤ √B * (1 + 2 / 2 ^ 53) * t := by positivity
  have h2 : (√B * (1 + 2 / 2 ^ 53) + t) ^ 2 = √B ^ 2 * (1 + 2 / 2 ^ 53) ^ 2 + 2 * (√B * (1 + 2 / 2 ^ 53) * t) + t ^ 2 := by ring
  rw [h2, s]
  have h3 : B * (1 + 4 / 2 ^ 53) ≤ B * (1 + 2 / 2 ^ 53) ^ 2 := mul_le_mul_of_nonneg_left (by norm_num) hB
  linarith

theorem tiny_square : 8 * ((1 : ℝ) / 2 ^ 1074) ≤ (1 / 2 ^ 500) ^ 2 := by
  rw [div_pow, one_pow, ← pow_mul, mul_one_div, div_le_div_iff₀ (by positivity) (by positivity), one_mul,
    show (8 : ℝ) = 2 ^ 3 by norm_num, ← pow_add]
  exact pow_le_pow_right₀ (by norm_num) (by norm_num)

/-- The error of the computed length. -/
theorem lengthF_err (v : Vec 3 ℚ) {K : ℝ} (hK : Geometry.length (fun i => (v i : ℝ)) ≤ K) :
    |(lengthF v : ℝ) - Geometry.length (fun i => (v i : ℝ))| ≤ K * (4 / 2 ^ 53) + 3 / 2 ^ 500 := by
  have hlen : Geometry.length (fun i => (v i : ℝ)) = √((v 0 : ℝ) ^ 2 + (v 1 : ℝ) ^ 2 + (v 2 : ℝ) ^ 2) := by
    unfold Geometry.length
    rw [Fin.sum_univ_three]
  rw [hlen] at hK ⊢
  have s0 := fl_sq_nonneg (v 0)
  have s1 := fl_sq_nonneg (v 1)
  have s2 := fl_sq_nonneg (v 2)
  have hs := fadd_nonneg s0 s1
  have hS := fadd_nonneg hs s2
  have e0 := abs_le.1 (fl_abs_err_real (v 0 * v 0))
  have e1 := abs_le.1 (fl_abs_err_real (v 1 * v 1))
  have e2 := abs_le.1 (fl_abs_err_real (v 2 * v 2))
  have e3 := abs_le.1 (fl_abs_err_real (v 0 ⊠ v 0 + v 1 ⊠ v 1))
  have e4 := abs_le.1 (fl_abs_err_real (v 0 ⊠ v 0 ⊞ v 1 ⊠ v 1 + v 2 ⊠ v 2))
  have c0 : ((fl (v 0 * v 0) : ℚ) : ℝ) = ((v 0 ⊠ v 0 : ℚ) : ℝ) := rfl
  have c1 : ((fl (v 1 * v 1) : ℚ) : ℝ) = ((v 1 ⊠ v 1 : ℚ) : ℝ) := rfl
  have c2 : ((fl (v 2 * v 2) : ℚ) : ℝ) = ((v 2 ⊠ v 2 : ℚ) : ℝ) := rfl
  have c3 : ((fl (v 0 ⊠ v 0 + v 1 ⊠ v 1) : ℚ) : ℝ) = ((v 0 ⊠ v 0 ⊞ v 1 ⊠ v 1 : ℚ) : ℝ) := rfl
  have c4 : ((fl (v 0 ⊠ v 0 ⊞ v 1 ⊠ v 1 + v 2 ⊠ v 2) : ℚ) : ℝ) = ((v 0 ⊠ v 0 ⊞ v 1 ⊠ v 1 ⊞ v 2 ⊠ v 2 : ℚ) : ℝ) := rfl
  rw [c0] at e0
  rw [c1] at e1
  rw [c2] at e2
  rw [c3] at e3
  rw [c4] at e4
  clear c0 c1 c2 c3 c4
  unfold lengthF
  have hy := abs_le.1 (sqrtF_err hS)
  generalize v 0 ⊠ v 0 ⊞ v 1 ⊠ v 1 ⊞ v 2 ⊠ v 2 = S at *
  generalize v 0 ⊠ v 0 ⊞ v 1 ⊠ v 1 = A at *
  generalize v 0 ⊠ v 0 = X at *
  generalize v 1 ⊠ v 1 = Y at *
  generalize v 2 ⊠ v 2 = Z at *
  have s0 : (0 : ℝ) ≤ X := by exact_mod_cast s0
  have s1 : (0 : ℝ) ≤ Y := by exact_mod_cast s1
  have s2 : (0 : ℝ) ≤ Z := by exact_mod_cast s2
  have hs : (0 : ℝ) ≤ A := by exact_mod_cast hs
  have hS : (0 : ℝ) ≤ S := by exact_mod_cast hS
  push_cast at e0 e1 e2 e3 e4
  rw [abs_of_nonneg (mul_self_nonneg _), ← pow_two] at e0 e1 e2
  rw [abs_of_nonneg (by linarith)] at e3 e4
  have q0 := sq_nonneg (v 0 : ℝ)
  have q1 := sq_nonneg (v 1 : ℝ)
  have q2 := sq_nonneg (v 2 : ℝ)
  generalize (v 0 : ℝ) ^ 2 = x2 at *
  generalize (v 1 : ℝ) ^ 2 = y2 at *
  generalize (v 2 : ℝ) ^ 2 = z2 at *
  have tiny := tiny_square
  have hη : (0 : ℝ) < 1 / 2 ^ 1074 := by positivity
  have ht : (0 : ℝ) < 1 / 2 ^ 500 := by positivity
  have ht1 : (1 : ℝ) / 2 ^ 500 ≤ 1 := by
    rw [div_le_one (by positivity)]
    exact one_le_pow₀ (by norm_num)
  have e3' : (3 : ℝ) / 2 ^ 500 = 3 * (1 / 2 ^ 500) := by ring
  rw [e3']
  generalize ((1 : ℝ) / 2 ^ 1074) = η at *
  generalize ((1 : ℝ) / 2 ^ 500) = t at *
  have hηt : η ≤ t / 8 := by nlinarith
  have up : (S : ℝ) ≤ (x2 + y2 + z2) * (1 + 4 / 2 ^ 53) + t ^ 2 := by linarith
  have dn : x2 + y2 + z2 ≤ (S : ℝ) * (1 + 4 / 2 ^ 53) + t ^ 2 := by linarith
  have u1 := sqrt_le_add (by linarith) ht.le up
  have u2 := sqrt_le_add hS ht.le dn
  have n1 := Real.sqrt_nonneg (x2 + y2 + z2)
  have n2 := Real.sqrt_nonneg (S : ℝ)
  generalize √(x2 + y2 + z2) = a at *
  generalize √(S : ℝ) = b at *
  exact abs_le.2 ⟨by linarith, by linarith⟩

/-- Lengths of vectors with nearly the same components. -/
theorem length_close {a b : Vec 3 ℝ} {e : ℝ} (he : 0 ≤ e) (h : ∀ i, |a i| ≤ |b i| + e) : Geometry.length a ≤ Geometry.length b + 2 * e := by
  unfold Geometry.length
  rw [Fin.sum_univ_three, Fin.sum_univ_three]
  have n := Real.sqrt_nonneg (b 0 ^ 2 + b 1 ^ 2 + b 2 ^ 2)
  have s := Real.sq_sqrt (show 0 ≤ b 0 ^ 2 + b 1 ^ 2 + b 2 ^ 2 by positivity)
  refine Real.sqrt_le_iff.2 ⟨by linarith, ?_⟩
  generalize √(b 0 ^ 2 + b 1 ^ 2 + b 2 ^ 2) = N at *
  have sq : ∀ i, a i ^ 2 ≤ (|b i| + e) ^ 2 := by
    intro i
    rw [← sq_abs (a i)]
    exact pow_le_pow_left₀ (abs_nonneg _) (h i) 2
  have h0 := sq 0
  have h1 := sq 1
  have h2 := sq 2
  have p0 := sq_abs (b 0)
  have p1 := sq_abs (b 1)
  have p2 := sq_abs (b 2)
  have b0 := abs_nonneg (b 0)
  have b1 := abs_nonneg (b 1)
  have b2 := abs_nonneg (b 2)
  have hsum : |b 0| + |b 1| + |b 2| ≤ 2 * N := by
    refine le_of_sq_le_sq' ?_ (by linarith)
    nlinarith [sq_nonneg (|b 0| - |b 1|), sq_nonneg (|b 1| - |b 2|), sq_nonneg (|b 0| - |b 2|)]
  nlinarith
where
  le_of_sq_le_sq' {x y : ℝ} (h : x ^ 2 ≤ y ^ 2) (hy : 0 ≤ y) : x ≤ y := by nlinarith

/-! ### The computed periodic distance -/

theorem cast_minimize (v L : ℚ) : ((minimizeComponent v L : ℚ) : ℝ) = minimizeComponent (v : ℝ) (L : ℝ) := by
  unfold minimizeComponent
  have h1 : (v : ℝ) > (L : ℝ) / 2 ↔ v > L / 2 := by
    rw [gt_iff_lt, gt_iff_lt, ← Rat.cast_lt (K := ℝ)]
    push_cast
    rfl
  have h2 : (v : ℝ) < -(L : ℝ) / 2 ↔ v < -L / 2 := by
    rw [← Rat.cast_lt (K := ℝ)]
    push_cast
    rfl
  simp only [h1, h2]
  split_ifs <;> push_cast <;> rfl

theorem component_err {M : ℚ} (hM : 1 / 2 ^ 200 ≤ M) {lo hi p q : ℚ} (hlo : -M ≤ lo) (hhi : hi ≤ M) (hL : 0 ≤ hi - lo)
    (hL0 : 1 / 2 ^ 1000 ≤ hi ⊟ lo) (hp : |p| ≤ M) (hq : |q| ≤ M) :
    |minimizeF (q ⊟ p) (hi ⊟ lo)| ≤ |minimizeComponent (q - p) (hi - lo)| + 7 * (M / 2 ^ 53) ∧
    |minimizeComponent (q - p) (hi - lo)| ≤ |minimizeF (q ⊟ p) (hi ⊟ lo)| + 7 * (M / 2 ^ 53) := by
  have hM0 : 0 < M := lt_of_lt_of_le (by positivity) hM
  have hLp : 0 ≤ hi ⊟ lo := le_trans (by positivity) hL0
  have hp' := abs_le.1 hp
  have hq' := abs_le.1 hq
  obtain ⟨e, he⟩ : ∃ e, e = M / 2 ^ 53 := ⟨_, rfl⟩
  have e0 : 0 < e := he ▸ by positivity
  have eM : M = 2 ^ 53 * e := by rw [he]; field_simp
  have err : ∀ {x k : ℚ}, |x| ≤ k * M → |fl x - x| ≤ (k + 1 / 64) * e := fun h => he ▸ fl_err_M hM h
  rw [← he]
  rw [minimizeF_eq (v := q ⊟ p) (L := hi ⊟ lo) (isF64_fl _) (isF64_fl _) hL0]
  have h1 := err (x := q - p) (k := 2) (abs_le.2 ⟨by linarith, by linarith⟩)
  have h2 := err (x := hi - lo) (k := 2) (abs_le.2 ⟨by linarith, by linarith⟩)
  have l1 := minimize_lip (q ⊟ p) (q - p) (hi ⊟ lo) (hi - lo) hLp hL
  have l2 := minimize_lip (q - p) (q ⊟ p) (hi - lo) (hi ⊟ lo) hL hLp
  rw [abs_sub_comm (q - p), abs_sub_comm (hi - lo)] at l2
  change |q ⊟ p - _| ≤ _ at h1
  change |hi ⊟ lo - _| ≤ _ at h2
  have h1' := abs_le.1 h1
  have hvM : |q ⊟ p| ≤ 21 / 10 * M := abs_le.2 ⟨by linarith, by linarith⟩
  have h3 := err ((minimize_abs_le (q ⊟ p) (hi ⊟ lo) hLp).trans hvM)
  have t1 := abs_add_le (minimizeComponent (q ⊟ p) (hi ⊟ lo)) (fl (minimizeComponent (q ⊟ p) (hi ⊟ lo)) - minimizeComponent (q ⊟ p) (hi ⊟ lo))
  have t2 := abs_add_le (fl (minimizeComponent (q ⊟ p) (hi ⊟ lo))) (minimizeComponent (q ⊟ p) (hi ⊟ lo) - fl (minimizeComponent (q ⊟ p) (hi ⊟ lo)))
  rw [add_sub_cancel] at t1 t2
  rw [abs_sub_comm (minimizeComponent (q ⊟ p) (hi ⊟ lo))] at t2
  constructor <;> linarith

/-- The exact box. -/
noncomputable def realBox (lo hi : Vec 3 ℚ) : Extent 3 ℝ := fromMinMax (fun i => (lo i : ℝ)) (fun i => (hi i : ℝ))

/-- **C118.** The computed periodic distance of two points differs from the exact one by at most `M / 2 ^ 48`. -/
theorem periodic_distance_error {M : ℚ} {depth : ℕ} {lo hi : Vec 3 ℚ} (hbox : SearchBox M depth lo hi) {p q : Vec 3 ℚ}
    (hp : ∀ i, |p i| ≤ M) (hq : ∀ i, |q i| ≤ M) :
    |(periodicDistanceF (fromMinMaxF lo hi) q p : ℝ) - periodicDistance (realBox lo hi) (fun i => (q i : ℝ)) (fun i => (p i : ℝ))|
      ≤ M / 2 ^ 48 := by
  have hM0 := hbox.pos
  have hL : ∀ i, 0 ≤ hi i - lo i := fun i => le_trans (by positivity) (hbox.sides' i)
  have comp := fun i => component_err hbox.notTiny (hbox.bounds i).1 (hbox.bounds i).2 (hL i) (side_ok hbox i) (hp i) (hq i)
  obtain ⟨d, hd⟩ : ∃ d, d = periodicDistanceVecF (fromMinMaxF lo hi) q p := ⟨_, rfl⟩
  have hexact : ∀ i, periodicDistanceVec (realBox lo hi) (fun i => (q i : ℝ)) (fun i => (p i : ℝ)) i =
      ((minimizeComponent (q i - p i) (hi i - lo i) : ℚ) : ℝ) := by
    intro i
    rw [cast_minimize]
    push_cast
    rfl
  have hdi : ∀ i, d i = minimizeF (q i ⊟ p i) (hi i ⊟ lo i) := fun i => by rw [hd]; rfl
  unfold periodicDistanceF periodicDistance
  rw [← hd]
  generalize periodicDistanceVec (realBox lo hi) (fun i => (q i : ℝ)) (fun i => (p i : ℝ)) = x at *
  have M0 : (0 : ℝ) < M := by exact_mod_cast hM0
  obtain ⟨e, he⟩ : ∃ e : ℝ, e = M / 2 ^ 53 := ⟨_, rfl⟩
  have e0 : 0 < e := he ▸ by positivity
  have eM : (M : ℝ) = 2 ^ 53 * e := by rw [he]; field_simp
  have c1 : ∀ i, |(d i : ℝ)| ≤ |x i| + 7 * e := by
    intro i
    have := (comp i).1
    rw [← hdi] at this
    rw [hexact, he]
    exact_mod_cast this
  have c2 : ∀ i, |x i| ≤ |(d i : ℝ)| + 7 * e := by
    intro i
    have := (comp i).2
    rw [← hdi] at this
    rw [hexact, he]
    exact_mod_cast this
  have l1 := length_close (a := fun i => (d i : ℝ)) (b := x) (by linarith) c1
  have l2 := length_close (a := x) (b := fun i => (d i : ℝ)) (by linarith) c2
  have hxM : ∀ i, |x i| ≤ 2 * M := by
    intro i
    rw [hexact]
    have h1 := minimize_abs_le (q i - p i) (hi i - lo i) (hL i)
    have hp' := abs_le.1 (hp i)
    have hq' := abs_le.1 (hq i)
    have h2 : |q i - p i| ≤ 2 * M := abs_le.2 ⟨by linarith, by linarith⟩
    exact_mod_cast h1.trans h2
  have lx : Geometry.length x ≤ 4 * M := by
    have := length_close (a := x) (b := fun _ => 0) (e := 2 * M) (by linarith) (by intro i; rw [abs_zero, zero_add]; exact hxM i)
    have z : Geometry.length (fun _ : Fin 3 => (0 : ℝ)) = 0 := by unfold Geometry.length; simp
    rw [z] at this
    linarith
  have ld : Geometry.length (fun i => (d i : ℝ)) ≤ 41 / 10 * M := by linarith
  have hl := abs_le.1 (lengthF_err d ld)
  have ht : (3 : ℝ) / 2 ^ 500 ≤ e := by
    have h1 : (1 : ℝ) / 2 ^ 200 ≤ M := by
      have := (Rat.cast_le (K := ℝ)).2 hbox.notTiny
      push_cast at this
      exact this
    rw [he]
    calc (3 : ℝ) / 2 ^ 500 ≤ 2 ^ 2 / 2 ^ 500 := div_le_div_of_nonneg_right (by norm_num) (by positivity)
      _ ≤ 1 / 2 ^ 253 := by
        rw [div_le_div_iff₀ (by positivity) (by positivity), ← pow_add, one_mul]
        exact pow_le_pow_right₀ (by norm_num) (by norm_num)
      _ = 1 / 2 ^ 200 / 2 ^ 53 := by rw [div_div, ← pow_add]
      _ ≤ M / 2 ^ 53 := div_le_div_of_nonneg_right h1 (by positivity)
  have e48 : (M : ℝ) / 2 ^ 48 = 32 * e := by rw [eM]; ring
  rw [e48]
  rw [eM] at hl
  generalize (3 : ℝ) / 2 ^ 500 = t at *
  exact abs_le.2 ⟨by linarith, by linarith⟩

/-- **C118.** What the search finds, in terms of the exact periodic distance: every particle that is closer than the radius by more
than `M / 2 ^ 48` is found, and no particle is found that is farther away than the radius by more than that. -/
theorem radius_search_accuracy {L : Type} (pos : L → Vec 3 ℚ) (cfg : Config) (ps : List L) {M : ℚ} {lo hi : Vec 3 ℚ}
    (hbox : SearchBox M cfg.maxDepth lo hi) (hps : ∀ p ∈ ps, ∀ i, lo i ≤ pos p i ∧ pos p i ≤ hi i)
    (q : Vec 3 ℚ) (hq : ∀ i, |q i| ≤ M) {r : ℚ} (hr : IsF64 r) (out : List L)
    (hout : Yields (radiusSearchF pos (fromMinMaxF lo hi) q r) (TreeIter.new (radiusSearchF pos (fromMinMaxF lo hi) q r)
        (QTree.new geomF3 pos cfg ps (fromMinMaxF lo hi))) out) (p : L) (hp : p ∈ ps) :
    (periodicDistance (realBox lo hi) (fun i => (q i : ℝ)) (fun i => (pos p i : ℝ)) < r - M / 2 ^ 48 → p ∈ out) ∧
    (p ∈ out → periodicDistance (realBox lo hi) (fun i => (q i : ℝ)) (fun i => (pos p i : ℝ)) < r + M / 2 ^ 48) := by
  classical
  obtain ⟨out', h1, h2⟩ := radius_search_rounded pos cfg ps hbox hps q hq hr
  rw [(h1 out).1 hout, h2.mem_iff, List.mem_filter, decide_eq_true_eq]
  have hpM : ∀ i, |pos p i| ≤ M := by
    intro i
    have a := hps p hp i
    have b := hbox.bounds i
    exact abs_le.2 ⟨by linarith, by linarith⟩
  have h := abs_le.1 (periodic_distance_error hbox hpM hq)
  constructor
  · intro hd
    refine ⟨hp, ?_⟩
    have : (periodicDistanceF (fromMinMaxF lo hi) q (pos p) : ℝ) < r := by linarith
    exact_mod_cast this
  · rintro ⟨-, hd⟩
    have : (periodicDistanceF (fromMinMaxF lo hi) q (pos p) : ℝ) < r := by exact_mod_cast hd
    linarith

/-- **C118.** The computed periodic distance is the same from both sides, without any condition on the points. -/
theorem periodic_distance_symmetric (lo hi p q : Vec 3 ℚ) (h : ∀ i, lo i ≤ hi i) :
    periodicDistanceF (fromMinMaxF lo hi) p q = periodicDistanceF (fromMinMaxF lo hi) q p := by
  have hv : ∀ i, periodicDistanceVecF (fromMinMaxF lo hi) p q i = -periodicDistanceVecF (fromMinMaxF lo hi) q p i := by
    intro i
    have hL : 0 ≤ sideLengthsF (fromMinMaxF lo hi) i := fl_nonneg (by have := h i; show 0 ≤ hi i - lo i; linarith)
    unfold periodicDistanceVecF
    generalize sideLengthsF (fromMinMaxF lo hi) i = L at *
    have e : p i ⊟ q i = -(q i ⊟ p i) := by unfold fsub; rw [← fl_neg, neg_sub]
    rw [e]
    generalize q i ⊟ p i = v
    have e2 : (-L) ⊘ 2 = -(L ⊘ 2) := by unfold fdiv; rw [← fl_neg, neg_div]
    have hh : 0 ≤ L ⊘ 2 := fl_nonneg (by linarith)
    unfold minimizeF
    rw [e2]
    generalize L ⊘ 2 = H at *
    split_ifs
    · linarith
    · unfold fadd fsub
      rw [← fl_neg]
      congr 1
      ring
    · linarith
    · unfold fadd fsub
      rw [← fl_neg]
      congr 1
      ring
    · linarith
    · linarith
    · linarith
    · linarith
    · rfl
  unfold periodicDistanceF lengthF
  rw [hv 0, hv 1, hv 2]
  unfold fmul
  simp only [neg_mul_neg]

end Verif.Rounding

namespace Verif.Rounding

open Verif.Geometry Verif.Quadtree

/-! ### A particle inside the sphere that is not found -/

/-- A box with sides of length four. -/
theorem box4 (depth : ℕ) (h : depth ≤ 40) : SearchBox 4 depth (fun _ => 0) (fun _ => 4) where
  notTiny := by norm_num
  notHuge := by
    calc (4 : ℚ) = 2 ^ 2 := by norm_num
      _ ≤ 2 ^ 400 := pow_le_pow_right₀ (by norm_num) (by norm_num)
  exact := fun _ => ⟨fl_zero, by decide +kernel⟩
  bounds := fun _ => by norm_num
  sides := fun _ => by
    have : (2 : ℚ) ^ depth ≤ 2 ^ 40 := pow_le_pow_right₀ (by norm_num) h
    linarith

/-- **C118 (limit).** The margin is needed: with the default configuration of the tree (depth 20, 30 particles per leaf) in a box
with sides of length 4, a particle at the distance `1 - 2 ^ -60` of the centre is not found by the search with radius `1`. -/
theorem boundary_particle_missed :
    ∃ p q : Vec 3 ℚ, (∀ i, IsF64 (p i) ∧ IsF64 (q i)) ∧ (∀ i, (0 : ℚ) ≤ p i ∧ p i ≤ 4) ∧ (∀ i, (0 : ℚ) ≤ q i ∧ q i ≤ 4) ∧
      periodicDistance (realBox (fun _ => 0) (fun _ => 4)) (fun i => (q i : ℝ)) (fun i => (p i : ℝ)) < 1 ∧
      Yields (radiusSearchF id (fromMinMaxF (fun _ => 0) (fun _ => 4)) q 1)
        (TreeIter.new (radiusSearchF id (fromMinMaxF (fun _ => 0) (fun _ => 4)) q 1)
          (QTree.new geomF3 id ⟨20, 30⟩ [p] (fromMinMaxF (fun _ => 0) (fun _ => 4)))) [] := by
  classical
  refine ⟨![1 / 2 ^ 60, 0, 0], ![1, 0, 0], by decide +kernel, by decide +kernel, by decide +kernel, ?_, ?_⟩
  · have hvec : ∀ i, periodicDistanceVec (realBox (fun _ => 0) (fun _ => 4)) (fun i => ((![1, 0, 0] : Vec 3 ℚ) i : ℝ))
        (fun i => ((![1 / 2 ^ 60, 0, 0] : Vec 3 ℚ) i : ℝ)) i = (((![1 - 1 / 2 ^ 60, 0, 0] : Vec 3 ℚ) i : ℚ) : ℝ) := by
      intro i
      have : (![1 - 1 / 2 ^ 60, 0, 0] : Vec 3 ℚ) i =
          minimizeComponent ((![1, 0, 0] : Vec 3 ℚ) i - (![1 / 2 ^ 60, 0, 0] : Vec 3 ℚ) i) (4 - 0) := by
        revert i
        decide +kernel
      rw [this, cast_minimize]
      push_cast
      simp only [periodicDistanceVec, realBox, fromMinMax, Extent.sideLengths]
      norm_num
    unfold periodicDistance Geometry.length
    simp only [hvec]
    rw [Fin.sum_univ_three, Real.sqrt_lt' one_pos]
    show ((1 - 1 / 2 ^ 60 : ℚ) : ℝ) ^ 2 + ((0 : ℚ) : ℝ) ^ 2 + ((0 : ℚ) : ℝ) ^ 2 < 1 ^ 2
    norm_num
  · obtain ⟨out, h1, h2⟩ := radius_search_rounded id ⟨20, 30⟩ [![1 / 2 ^ 60, 0, 0]] (box4 20 (by norm_num))
      (by intro p hp; rw [List.mem_singleton.1 hp]; decide +kernel) ![1, 0, 0] (by decide +kernel) (r := 1) (by decide +kernel)
    have hd : periodicDistanceF (fromMinMaxF (fun _ => 0) (fun _ => 4)) ![1, 0, 0] ![1 / 2 ^ 60, 0, 0] = 1 := by
      have e : ∀ i, periodicDistanceVecF (fromMinMaxF (fun _ => 0) (fun _ => 4)) ![1, 0, 0] ![1 / 2 ^ 60, 0, 0] i = (![1, 0, 0] : Vec 3 ℚ) i := by
        decide +kernel
      unfold periodicDistanceF lengthF
      rw [e 0, e 1, e 2]
      exact sqrtF_eq ⟨1, 1, by norm_num, by norm_num, by decide +kernel, by decide +kernel, by decide +kernel, by decide +kernel⟩
    have : out = [] := by
      rw [← List.perm_nil]
      refine h2.trans (List.Perm.of_eq ?_)
      rw [List.filter_eq_nil_iff]
      intro p hp
      rw [List.mem_singleton.1 hp, decide_eq_true_eq]
      simp only [id]
      rw [hd]
      exact lt_irrefl _
    exact (h1 []).2 this.symm

/-- The hypotheses of the theorems: a box with sides of length four, the default configuration of the tree, two particles, a centre
near the boundary and a radius that needs rounding. -/
example : ∃ (ps : List (Vec 3 ℚ)) (q : Vec 3 ℚ) (r : ℚ), SearchBox 4 20 (fun _ => 0) (fun _ => 4) ∧ ps.length = 2 ∧
    (∀ p ∈ ps, ∀ i, 0 ≤ p i ∧ p i ≤ 4) ∧ (∀ i, |q i| ≤ 4) ∧ IsF64 r ∧ 0 < r ∧ r ≠ 1 / 10 :=
  ⟨[![1 / 2, 4, 3], ![1 / 4, 3, 7 / 2]], ![1 / 8, 31 / 8, 3], fl (1 / 10), box4 20 (by norm_num), rfl, by decide +kernel,
    by decide +kernel, isF64_fl _, by decide +kernel, by decide +kernel⟩

end Verif.Rounding
