import Verif.Rounding.GridEntryLemmas
import Verif.Rounding.FaceProps
import Verif.Rounding.UnitProps
import Verif.Rounding.BinaryProps

/-!
# Lemmas for C147: positions, normals and ranks of the cartesian grid in `f64`
-/

namespace Verif.Rounding.Mesh

open Verif.Cartesian Verif.Predicates Verif.Rounding

theorem low_cast {k : ℕ} {x : ℚ} (h : (1 : ℚ) / 2 ^ k ≤ x) : (1 : ℝ) / 2 ^ k ≤ x := by
  have := (Rat.cast_le (K := ℝ)).2 h
  push_cast at this
  exact this

/-! ### Conversion to integers -/

theorem toI32_mono {x y : ℚ} (h : x ≤ y) : toI32 x ≤ toI32 y :=
  max_le_max le_rfl (min_le_min le_rfl (Int.floor_le_floor h))

theorem toI32_lt (x : ℚ) : toI32 x < 2 ^ 31 := by
  unfold toI32
  omega

theorem toI32_eq {x : ℚ} (h0 : 0 ≤ x) (h : x < 2 ^ 31) : toI32 x = ⌊x⌋ := by
  have h1 : 0 ≤ ⌊x⌋ := Int.floor_nonneg.2 h0
  have h2 : ⌊x⌋ < 2 ^ 31 := by
    rw [Int.floor_lt]
    push_cast
    exact h
  unfold toI32
  omega

theorem fl_int {k : ℤ} (h : |k| < 2 ^ 53) : fl (k : ℚ) = k :=
  (isF64_iff _).2 ⟨k, 0, h, by norm_num, by simp⟩

/-! ### Positions -/

/-- One coordinate of a position. -/
def coord (s : ℚ) (n i : ℤ) : ℚ := s ⊠ i ⊘ n

theorem coord_zero (s : ℚ) (n : ℤ) : coord s n 0 = 0 := by
  unfold coord fmul fdiv
  simp [fl_zero]

theorem coord_neg (s : ℚ) (n i : ℤ) : coord s n (-i) = -coord s n i := by
  unfold coord fmul fdiv
  push_cast
  rw [mul_neg, fl_neg, neg_div, fl_neg]

theorem coord_rounds {s : ℚ} {n i : ℤ} (hs : (1 : ℚ) / 2 ^ 400 ≤ s) (hn : n < 2 ^ 31) (hi : 0 < i) (hin : i ≤ n) :
    Rounds 2 ((s : ℝ) * i / n) (coord s n i : ℝ) := by
  have hs' : LowBy 400 (s : ℝ) := low_cast hs
  have i1 : (1 : ℝ) ≤ i := by exact_mod_cast hi
  have n1 : (1 : ℝ) ≤ n := by exact_mod_cast (show (1 : ℤ) ≤ n by omega)
  have n2 : (n : ℝ) ≤ 2 ^ 31 := by exact_mod_cast hn.le
  have li : LowBy 0 (i : ℝ) := by unfold LowBy; simpa using i1
  have l1 := hs'.mul li
  have r1 : Rounds 1 ((s : ℝ) * i) ((s ⊠ i : ℚ) : ℝ) := by
    have := (Rounds.refl (s : ℝ)).fmul (a := s) (b := (i : ℚ)) (y := i) (m := 0) (by push_cast; exact Rounds.refl _)
      hs'.pos (by linarith) (by norm_num) (l1.weaken (by norm_num))
    exact this
  have := r1.fdiv (b := (n : ℚ)) (y := (n : ℝ)) (m := 0) (by push_cast; exact Rounds.refl _) l1.pos (by linarith) (by norm_num)
    ((l1.div (by linarith) n2).weaken (by norm_num))
  exact this

theorem coord_near {s : ℚ} {n i : ℤ} (hs : (1 : ℚ) / 2 ^ 400 ≤ s) (hn : n < 2 ^ 31) (h0 : -1 ≤ i) (hin : i ≤ n) (hn0 : 0 < n) :
    |(coord s n i : ℝ) - s * i / n| ≤ 3 / 2 ^ 53 * s := by
  have s0 : (0 : ℝ) < s := by exact_mod_cast lt_of_lt_of_le (by positivity) hs
  have n1 : (0 : ℝ) < n := by exact_mod_cast hn0
  have key : ∀ {j : ℤ}, 0 < j → j ≤ n → |(coord s n j : ℝ) - s * j / n| ≤ 3 / 2 ^ 53 * s := by
    intro j j0 jn
    have j1 : (0 : ℝ) < j := by exact_mod_cast j0
    have j2 : (j : ℝ) ≤ n := by exact_mod_cast jn
    have h := (coord_rounds hs hn j0 jn).error (by norm_num) (by positivity)
    refine h.trans ?_
    have : (s : ℝ) * j / n ≤ s := by
      rw [div_le_iff₀ n1]
      exact mul_le_mul_of_nonneg_left j2 s0.le
    have e : (((2 : ℕ) : ℝ) + 1) / 2 ^ 53 = 3 / 2 ^ 53 := by norm_num
    rw [e]
    exact mul_le_mul_of_nonneg_left this (by positivity)
  rcases lt_trichotomy i 0 with h | h | h
  · have e : i = -1 := by omega
    subst e
    have := key (j := 1) (by norm_num) (by omega)
    rw [coord_neg]
    push_cast at this ⊢
    have e : -(coord s n 1 : ℝ) - s * -1 / n = -((coord s n 1 : ℝ) - s * 1 / n) := by ring
    rw [e, abs_neg]
    exact this
  · subst h
    rw [coord_zero]
    have : (0 : ℝ) ≤ 3 / 2 ^ 53 * s := by positivity
    simpa using this
  · exact key h hin

/-- Neighbouring positions are far enough apart. -/
theorem coord_step {s : ℚ} {n i : ℤ} (hs : (1 : ℚ) / 2 ^ 400 ≤ s) (hn : n < 2 ^ 31) (h0 : -1 ≤ i) (hin : i + 1 ≤ n) (hn0 : 0 < n) :
    (1 : ℚ) / 2 ^ 432 ≤ coord s n (i + 1) - coord s n i := by
  have a := abs_le.1 (coord_near hs hn (i := i + 1) (by omega) hin hn0)
  have b := abs_le.1 (coord_near hs hn (i := i) h0 (by omega) hn0)
  have s0 : (0 : ℝ) < s := by exact_mod_cast lt_of_lt_of_le (by positivity) hs
  have n1 : (0 : ℝ) < n := by exact_mod_cast hn0
  have n2 : (n : ℝ) ≤ 2 ^ 31 := by exact_mod_cast hn.le
  have e : (s : ℝ) * ((i + 1 : ℤ) : ℝ) / n = s * i / n + s / n := by
    push_cast
    ring
  have h1 : (s : ℝ) / 2 ^ 31 ≤ s / n := div_le_div_of_nonneg_left s0.le n1 n2
  have hs' : (1 : ℝ) / 2 ^ 400 ≤ s := low_cast hs
  have h2 : (1 : ℝ) / 2 ^ 432 ≤ s / 2 ^ 32 := by
    have : (1 : ℝ) / 2 ^ 432 = 1 / 2 ^ 400 / 2 ^ 32 := by rw [div_div, ← pow_add]
    rw [this]
    gcongr
  rw [e] at a
  have h3 : (1 : ℝ) / 2 ^ 432 ≤ (coord s n (i + 1) : ℝ) - coord s n i := by
    refine h2.trans ?_
    have h4 : (s : ℝ) / 2 ^ 31 - 6 / 2 ^ 53 * s ≥ s / 2 ^ 32 := by
      have : (s : ℝ) / 2 ^ 31 - 6 / 2 ^ 53 * s - s / 2 ^ 32 = s * (1 / 2 ^ 31 - 6 / 2 ^ 53 - 1 / 2 ^ 32) := by ring
      have p : (0 : ℝ) ≤ s * (1 / 2 ^ 31 - 6 / 2 ^ 53 - 1 / 2 ^ 32) := mul_nonneg s0.le (by norm_num)
      linarith
    linarith [a.1, b.2]
  refine (Rat.cast_le (K := ℝ)).1 ?_
  push_cast
  exact h3

/-! ### Normals -/

/-- The component of a normal. -/
noncomputable def unitF (d : ℚ) : ℚ := d ⊠ (1 ⊘ sqrtF (d ⊠ d))

theorem sqrt_rounds {d : ℚ} (hd : (1 : ℚ) / 2 ^ 433 ≤ d) : Rounds 4 (d : ℝ) (sqrtF (d ⊠ d) : ℝ) := by
  have hd' : LowBy 433 (d : ℝ) := low_cast hd
  have d0 : (0 : ℝ) < d := hd'.pos
  have r : Rounds 1 ((d : ℝ) * d) ((d ⊠ d : ℚ) : ℝ) :=
    (Rounds.refl (d : ℝ)).fmul (Rounds.refl (d : ℝ)) d0 d0 (by norm_num) ((hd'.mul hd').weaken (by norm_num))
  have q0 : (0 : ℝ) < ((d ⊠ d : ℚ) : ℝ) := r.pos (by positivity)
  have q0' : (0 : ℚ) ≤ d ⊠ d := by exact_mod_cast q0.le
  have e := sqrtF_err q0'
  generalize ((d ⊠ d : ℚ) : ℝ) = q at *
  obtain ⟨r1, r2⟩ := r
  rw [pow_one] at r1 r2
  have s0 := Real.sqrt_nonneg q
  have sq := Real.sq_sqrt q0.le
  have lo : (d : ℝ) * (1 - 1 / 2 ^ 53) ≤ √q := by
    refine Real.le_sqrt_of_sq_le ?_
    have : ((d : ℝ) * (1 - 1 / 2 ^ 53)) ^ 2 = (d : ℝ) * d * (1 - 1 / 2 ^ 53) * (1 - 1 / 2 ^ 53) := by ring
    rw [this]
    have h1 : (d : ℝ) * d * (1 - 1 / 2 ^ 53) * (1 - 1 / 2 ^ 53) ≤ (d : ℝ) * d * (1 - 1 / 2 ^ 53) * 1 := by
      gcongr
      norm_num
    linarith
  have hi : √q * (1 - 1 / 2 ^ 53) ≤ d := by
    refine abs_le_of_sq_le_sq' ?_ d0.le |>.2
    have : (√q * (1 - 1 / 2 ^ 53)) ^ 2 = √q ^ 2 * (1 - 1 / 2 ^ 53) * (1 - 1 / 2 ^ 53) := by ring
    rw [this, sq]
    have h1 : q * (1 - 1 / 2 ^ 53) * (1 - 1 / 2 ^ 53) ≤ q * (1 - 1 / 2 ^ 53) * 1 := by
      gcongr
      norm_num
    nlinarith
  have k1 : Rounds 1 (d : ℝ) (√q) := ⟨by rw [pow_one]; exact hi, by rw [pow_one]; exact lo⟩
  have q1 : (0 : ℝ) < √q := k1.pos d0
  have low : (1 : ℝ) / 2 ^ 1074 ≤ 1 / 2 ^ 53 * √q := by
    have h1 : (1 : ℝ) / 2 ^ 434 ≤ √q := by
      refine le_trans ?_ lo
      have h2 : (1 : ℝ) / 2 ^ 434 = 1 / 2 ^ 433 * (1 / 2) := by rw [div_mul_div_comm, one_mul, ← pow_succ]
      rw [h2]
      exact mul_le_mul hd' (by norm_num) (by norm_num) d0.le
    have h3 : (1 : ℝ) / 2 ^ 1074 ≤ 1 / 2 ^ 53 * (1 / 2 ^ 434) := by
      rw [div_mul_div_comm, one_mul, ← pow_add]
      exact one_div_le_one_div_of_le (by positivity) (pow_le_pow_right₀ one_le_two (by decide))
    exact h3.trans (mul_le_mul_of_nonneg_left h1 (by positivity))
  have k2 : |(sqrtF (d ⊠ d) : ℝ) - √q| ≤ (2 : ℕ) / 2 ^ 53 * √q := by
    refine e.trans ?_
    have : √q / 2 ^ 53 = 1 / 2 ^ 53 * √q := by ring
    rw [this]
    push_cast
    generalize √q = w at *
    generalize (1 : ℝ) / 2 ^ 1074 = η at *
    have : (2 : ℝ) / 2 ^ 53 * w = 1 / 2 ^ 53 * w + 1 / 2 ^ 53 * w := by ring
    linarith
  exact k1.trans (Rounds.of_error (by norm_num) q1 k2)


theorem unitF_rounds {d : ℚ} (hd : (1 : ℚ) / 2 ^ 433 ≤ d) (hd1 : d ≤ 2 ^ 500) : Rounds 6 1 (unitF d : ℝ) := by
  have hd' : LowBy 433 (d : ℝ) := low_cast hd
  have d0 : (0 : ℝ) < d := hd'.pos
  have d1 : (d : ℝ) ≤ 2 ^ 500 := by exact_mod_cast hd1
  have r := sqrt_rounds hd
  have l1 : LowBy 0 (1 : ℝ) := by unfold LowBy; norm_num
  have r0 : Rounds 0 (1 : ℝ) ((1 : ℚ) : ℝ) := by rw [Rat.cast_one]; exact Rounds.refl 1
  have r1 : Rounds 5 (1 / (d : ℝ)) ((1 ⊘ sqrtF (d ⊠ d) : ℚ) : ℝ) :=
    r0.fdiv r one_pos d0 (by norm_num) ((l1.div d0 d1).weaken (by norm_num))
  have r2 := (Rounds.refl (d : ℝ)).fmul (a := d) r1 d0 (by positivity) (by norm_num) (by
    rw [mul_one_div_cancel d0.ne']
    rw [div_le_one (by positivity)]
    exact one_le_pow₀ one_le_two)
  rw [mul_one_div_cancel d0.ne'] at r2
  exact r2

theorem unitF_near {d : ℚ} (hd : (1 : ℚ) / 2 ^ 433 ≤ d) (hd1 : d ≤ 2 ^ 500) : |unitF d - 1| ≤ 8 / 2 ^ 53 := by
  have h := (unitF_rounds hd hd1).error (by norm_num) one_pos
  rw [mul_one] at h
  refine (Rat.cast_le (K := ℝ)).1 ?_
  push_cast
  exact h.trans (by norm_num)

theorem unitF_neg (d : ℚ) : unitF (-d) = -unitF d := by
  unfold unitF fmul fdiv
  rw [neg_mul_neg, neg_mul, fl_neg]

theorem fl_ne_zero {x : ℚ} (h : fl x ≠ 0) : x ≠ 0 := fun e => h (by rw [e, fl_zero])

/-- The length of a vector along an axis. -/
theorem length_x (d : ℚ) : length3F ⟨d, 0, 0⟩ = sqrtF (d ⊠ d) := by
  unfold length3F dotF fmul fadd
  simp [fl_zero, fl_fl]

theorem length_y (d : ℚ) : length3F ⟨0, d, 0⟩ = sqrtF (d ⊠ d) := by
  unfold length3F dotF fmul fadd
  simp [fl_zero, fl_fl]

theorem length_z (d : ℚ) : length3F ⟨0, 0, d⟩ = sqrtF (d ⊠ d) := by
  unfold length3F dotF fmul fadd
  simp [fl_zero, fl_fl]

theorem sub_self' (a : ℚ) : a ⊟ a = 0 := by
  unfold fsub
  rw [sub_self, fl_zero]

theorem zero_fmul (a : ℚ) : (0 : ℚ) ⊠ a = 0 := by
  unfold fmul
  rw [zero_mul, fl_zero]

theorem sqrtF_ne_zero {d : ℚ} (hd : (1 : ℚ) / 2 ^ 433 ≤ d) : sqrtF (d ⊠ d) ≠ 0 := by
  have := (sqrt_rounds hd).pos (LowBy.pos (low_cast hd))
  intro e
  rw [e] at this
  simp at this

theorem sqrtF_ne_zero' {d : ℚ} (hd : (1 : ℚ) / 2 ^ 433 ≤ |d|) : sqrtF (d ⊠ d) ≠ 0 := by
  have := sqrtF_ne_zero hd
  unfold fmul at this ⊢
  rwa [abs_mul_abs_self] at this

theorem normalF_x {a b y z : ℚ} (h : (1 : ℚ) / 2 ^ 433 ≤ |b ⊟ a|) :
    normalF ⟨a, y, z⟩ ⟨b, y, z⟩ = some ⟨unitF (b ⊟ a), 0, 0⟩ := by
  have e : subF ⟨b, y, z⟩ ⟨a, y, z⟩ = ⟨b ⊟ a, 0, 0⟩ := by
    unfold subF
    rw [sub_self', sub_self']
  unfold normalF
  rw [e, length_x, if_neg (sqrtF_ne_zero' h)]
  unfold normalizeWith scaleF
  rw [zero_fmul]
  rfl

theorem normalF_y {a b x z : ℚ} (h : (1 : ℚ) / 2 ^ 433 ≤ |b ⊟ a|) :
    normalF ⟨x, a, z⟩ ⟨x, b, z⟩ = some ⟨0, unitF (b ⊟ a), 0⟩ := by
  have e : subF ⟨x, b, z⟩ ⟨x, a, z⟩ = ⟨0, b ⊟ a, 0⟩ := by
    unfold subF
    rw [sub_self', sub_self']
  unfold normalF
  rw [e, length_y, if_neg (sqrtF_ne_zero' h)]
  unfold normalizeWith scaleF
  rw [zero_fmul]
  rfl

theorem normalF_z {a b x y : ℚ} (h : (1 : ℚ) / 2 ^ 433 ≤ |b ⊟ a|) :
    normalF ⟨x, y, a⟩ ⟨x, y, b⟩ = some ⟨0, 0, unitF (b ⊟ a)⟩ := by
  have e : subF ⟨x, y, b⟩ ⟨x, y, a⟩ = ⟨0, 0, b ⊟ a⟩ := by
    unfold subF
    rw [sub_self', sub_self']
  unfold normalF
  rw [e, length_z, if_neg (sqrtF_ne_zero' h)]
  unfold normalizeWith scaleF
  rw [zero_fmul]
  rfl

/-- Both sides of a face. -/
theorem normalF_neg (a b : P3 ℚ) : normalF b a = (normalF a b).map negP := by
  have e : subF a b = negP (subF b a) := subF_neg a b
  unfold normalF length3F
  rw [e, dotF_neg_neg]
  split
  · rfl
  · unfold normalizeWith
    rw [scaleF_neg]
    rfl

/-- The difference of two neighbouring positions. -/
theorem coord_diff {s : ℚ} {n i : ℤ} (hs : (1 : ℚ) / 2 ^ 400 ≤ s) (hs1 : s ≤ 2 ^ 400) (hn : n < 2 ^ 31) (h0 : -1 ≤ i) (hin : i + 1 ≤ n)
    (hn0 : 0 < n) : (1 : ℚ) / 2 ^ 433 ≤ coord s n (i + 1) ⊟ coord s n i ∧ coord s n (i + 1) ⊟ coord s n i ≤ 2 ^ 500 := by
  have h := coord_step hs hn h0 hin hn0
  have r := rounds_fl (x := coord s n (i + 1) - coord s n i) (by
    refine le_trans ?_ (low_cast h)
    exact one_div_le_one_div_of_le (by positivity) (pow_le_pow_right₀ one_le_two (by decide)))
  have p : (0 : ℝ) < ((coord s n (i + 1) - coord s n i : ℚ) : ℝ) := LowBy.pos (low_cast h)
  have e := abs_le.1 (r.error (by norm_num) p)
  have up : ((coord s n (i + 1) - coord s n i : ℚ) : ℝ) ≤ 2 ^ 403 := by
    have a := abs_le.1 (coord_near hs hn (i := i + 1) (by omega) hin hn0)
    have b := abs_le.1 (coord_near hs hn (i := i) h0 (by omega) hn0)
    have s0 : (0 : ℝ) < s := by exact_mod_cast lt_of_lt_of_le (by positivity) hs
    have n1 : (1 : ℝ) ≤ n := by exact_mod_cast hn0
    have e : (s : ℝ) * ((i + 1 : ℤ) : ℝ) / n = s * i / n + s / n := by
      push_cast
      ring
    rw [e] at a
    have h1 : (s : ℝ) / n ≤ s := div_le_self s0.le n1
    have h2 : (s : ℝ) ≤ 2 ^ 400 := by
      have := (Rat.cast_le (K := ℝ)).2 hs1
      push_cast at this
      exact this
    have h3 : (2 : ℝ) ^ 403 = 8 * 2 ^ 400 := by rw [pow_add 2 400 3]; ring
    have h4 : 3 / 2 ^ 53 * (s : ℝ) ≤ 1 * s := mul_le_mul_of_nonneg_right (by norm_num) s0.le
    push_cast
    rw [h3]
    generalize (2 : ℝ) ^ 400 = w at *
    clear * - a b h1 h2 h4 s0
    linarith [a.2, b.1]
  constructor
  · refine (Rat.cast_le (K := ℝ)).1 ?_
    push_cast
    have h2 := low_cast h
    have h1 : (1 : ℝ) / 2 ^ 433 = 1 / 2 ^ 432 * (1 / 2) := by rw [div_mul_div_comm, one_mul, ← pow_succ]
    rw [h1]
    show _ ≤ ((fl (coord s n (i + 1) - coord s n i) : ℚ) : ℝ)
    generalize ((coord s n (i + 1) - coord s n i : ℚ) : ℝ) = x at *
    have h3 : (((1 : ℕ) : ℝ) + 1) / 2 ^ 53 * x ≤ 1 / 2 * x := mul_le_mul_of_nonneg_right (by norm_num) p.le
    linarith [e.1]
  · refine (Rat.cast_le (K := ℝ)).1 ?_
    push_cast
    show ((fl (coord s n (i + 1) - coord s n i) : ℚ) : ℝ) ≤ _
    have h5 : (2 : ℝ) ^ 403 * 2 ≤ 2 ^ 500 := by
      rw [← pow_succ]
      exact pow_le_pow_right₀ one_le_two (by decide)
    generalize ((coord s n (i + 1) - coord s n i : ℚ) : ℝ) = x at *
    have h3 : (((1 : ℕ) : ℝ) + 1) / 2 ^ 53 * x ≤ 1 * x := mul_le_mul_of_nonneg_right (by norm_num) p.le
    generalize (2 : ℝ) ^ 403 = v at *
    generalize (2 : ℝ) ^ 500 = v' at *
    clear * - e h3 h5 up
    linarith [e.2]

/-- The components of normals. -/
theorem unit_up {s : ℚ} {n i : ℤ} (hs : (1 : ℚ) / 2 ^ 400 ≤ s) (hs1 : s ≤ 2 ^ 400) (hn : n < 2 ^ 31) (h0 : 0 ≤ i) (hin : i < n) :
    (1 : ℚ) / 2 ^ 433 ≤ |coord s n (i + 1) ⊟ coord s n i| ∧ |unitF (coord s n (i + 1) ⊟ coord s n i) - 1| ≤ 8 / 2 ^ 53 := by
  obtain ⟨h1, h2⟩ := coord_diff hs hs1 hn (i := i) (by omega) (by omega) (by omega)
  exact ⟨h1.trans (le_abs_self _), unitF_near h1 h2⟩

theorem unit_down {s : ℚ} {n i : ℤ} (hs : (1 : ℚ) / 2 ^ 400 ≤ s) (hs1 : s ≤ 2 ^ 400) (hn : n < 2 ^ 31) (h0 : 0 ≤ i) (hin : i < n) :
    (1 : ℚ) / 2 ^ 433 ≤ |coord s n (i - 1) ⊟ coord s n i| ∧ |unitF (coord s n (i - 1) ⊟ coord s n i) + 1| ≤ 8 / 2 ^ 53 := by
  obtain ⟨h1, h2⟩ := coord_diff hs hs1 hn (i := i - 1) (by omega) (by omega) (by omega)
  rw [sub_add_cancel] at h1 h2
  have e : coord s n (i - 1) ⊟ coord s n i = -(coord s n i ⊟ coord s n (i - 1)) := by
    unfold fsub
    rw [← fl_neg, neg_sub]
  rw [e, abs_neg, unitF_neg]
  refine ⟨h1.trans (le_abs_self _), ?_⟩
  have := unitF_near h1 h2
  rwa [← abs_neg, neg_sub, sub_eq_add_neg, add_comm] at this

/-! ### Ranks -/

/-- What the rank is computed from. -/
def rankCoord (s : ℚ) (n : ℤ) (w : ℕ) (i : ℤ) : ℚ := coord s n i ⊘ s ⊠ (w : ℚ)

theorem rankCoord_mono {s : ℚ} {n : ℤ} (hs : 0 < s) (hn : 0 < n) (w : ℕ) {i j : ℤ} (h : i ≤ j) : rankCoord s n w i ≤ rankCoord s n w j := by
  unfold rankCoord coord fmul fdiv
  have hn' : (0 : ℚ) ≤ n := by exact_mod_cast hn.le
  have h' : (i : ℚ) ≤ j := by exact_mod_cast h
  refine fl_mono (mul_le_mul_of_nonneg_right (fl_mono (div_le_div_of_nonneg_right (fl_mono (div_le_div_of_nonneg_right
    (fl_mono (mul_le_mul_of_nonneg_left h' hs.le)) hn')) hs.le)) (Nat.cast_nonneg w))

theorem rankCoord_range {s : ℚ} {n i : ℤ} {w : ℕ} (hs : (1 : ℚ) / 2 ^ 400 ≤ s) (hn : n < 2 ^ 31) (hi : 0 ≤ i) (hin : i < n) (hw : 0 < w) :
    0 ≤ rankCoord s n w i ∧ rankCoord s n w i < w := by
  have s0 : (0 : ℚ) < s := lt_of_lt_of_le (by positivity) hs
  have w1 : (1 : ℝ) ≤ w := by exact_mod_cast hw
  rcases hi.eq_or_lt with h | h
  · subst h
    unfold rankCoord
    rw [coord_zero]
    unfold fdiv
    rw [zero_div, fl_zero, zero_fmul]
    exact ⟨le_rfl, by exact_mod_cast hw⟩
  · have hs' : LowBy 400 (s : ℝ) := low_cast hs
    have sp := hs'.pos
    have i1 : (1 : ℝ) ≤ i := by exact_mod_cast h
    have n1 : (i : ℝ) + 1 ≤ n := by exact_mod_cast hin
    have n0 : (0 : ℝ) < n := by linarith
    have n2 : (n : ℝ) ≤ 2 ^ 31 := by exact_mod_cast hn.le
    have r1 := coord_rounds hs hn h hin.le
    have li : LowBy 0 (i : ℝ) := by unfold LowBy; simpa using i1
    have lw : LowBy 0 (w : ℝ) := by unfold LowBy; simpa using w1
    have e1 : (s : ℝ) * i / n / s = i / n := by field_simp
    have l2 : LowBy 31 ((i : ℝ) / n) := by
      have := li.div n0 n2
      simpa using this
    have r2 : Rounds 3 ((i : ℝ) / n) ((coord s n i ⊘ s : ℚ) : ℝ) := by
      have := r1.fdiv (b := s) (y := (s : ℝ)) (m := 0) (Rounds.refl _) (by positivity) sp (by norm_num)
        (by rw [e1]; exact l2.weaken (by norm_num))
      rw [e1] at this
      exact this
    have r3 : Rounds 4 ((i : ℝ) / n * w) (rankCoord s n w i : ℝ) := by
      have := r2.fmul (b := (w : ℚ)) (y := (w : ℝ)) (m := 0) (by push_cast; exact Rounds.refl _) l2.pos (by linarith) (by norm_num)
        ((l2.mul lw).weaken (by norm_num))
      exact this
    have pos : (0 : ℝ) < (i : ℝ) / n * w := by positivity
    constructor
    · exact_mod_cast (r3.pos pos).le
    · have h1 := r3.1
      have h2 : (i : ℝ) / n * w ≤ (1 - 1 / 2 ^ 31) * w := by
        refine mul_le_mul_of_nonneg_right ?_ (by linarith)
        rw [div_le_iff₀ n0]
        have : (n : ℝ) / 2 ^ 31 ≤ 1 := by rw [div_le_one (by positivity)]; exact n2
        have e : (1 - 1 / 2 ^ 31) * (n : ℝ) = n - n / 2 ^ 31 := by ring
        rw [e]
        linarith
      have h3 : (rankCoord s n w i : ℝ) < w := by
        by_contra hc
        have hc := not_lt.1 hc
        have h4 : (w : ℝ) * (1 - 1 / 2 ^ 53) ^ 4 ≤ rankCoord s n w i * (1 - 1 / 2 ^ 53) ^ 4 :=
          mul_le_mul_of_nonneg_right hc (by positivity)
        have h5 : (w : ℝ) * (1 - 1 / 2 ^ 53) ^ 4 ≤ (1 - 1 / 2 ^ 31) * w := h4.trans (h1.trans h2)
        have h6 : (1 - 1 / 2 ^ 31 : ℝ) < (1 - 1 / 2 ^ 53) ^ 4 := by norm_num
        nlinarith
      exact_mod_cast h3

end Verif.Rounding.Mesh
