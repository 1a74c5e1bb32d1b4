import Verif.Peano.Model
import Mathlib.Data.Nat.Bitwise
import Mathlib.Tactic.Ring

/-!
# Two-dimensional Peano-Hilbert key: recursive description and lemmas
-/

namespace Verif.Peano

/-- `rot` without overflow checks. -/
def rotL (n x y rx ry : Nat) : Nat × Nat :=
  if ry = 0 then (if rx = 1 then (n - 1 - y, n - 1 - x) else (y, x)) else (x, y)

/-- The key of a cell of the `2^k × 2^k` grid, by recursion over the quadrants. -/
def enc : Nat → Nat → Nat → Nat
  | 0, _, _ => 0
  | k + 1, x, y =>
    4 ^ k * ((3 * (x / 2 ^ k % 2)) ^^^ (y / 2 ^ k % 2))
      + enc k (rotL (2 ^ k) (x % 2 ^ k) (y % 2 ^ k) (x / 2 ^ k % 2) (y / 2 ^ k % 2)).1
          (rotL (2 ^ k) (x % 2 ^ k) (y % 2 ^ k) (x / 2 ^ k % 2) (y / 2 ^ k % 2)).2

/-- The first coordinate bit of a digit. -/
def digitX (q : Nat) : Nat := q / 2 % 2
/-- The second coordinate bit of a digit. -/
def digitY (q : Nat) : Nat := (q ^^^ digitX q) % 2

/-- The cell of a key. -/
def dec : Nat → Nat → Nat × Nat
  | 0, _ => (0, 0)
  | k + 1, t =>
    let q := t / 4 ^ k % 4
    let p := rotL (2 ^ k) (dec k t).1 (dec k t).2 (digitX q) (digitY q)
    (p.1 + 2 ^ k * digitX q, p.2 + 2 ^ k * digitY q)

theorem mod_two_cases (a : Nat) : a % 2 = 0 ∨ a % 2 = 1 := Nat.mod_two_eq_zero_or_one a

theorem rotL_lt (n x y rx ry : Nat) (hn : 0 < n) (hx : x < n) (hy : y < n) :
    (rotL n x y rx ry).1 < n ∧ (rotL n x y rx ry).2 < n := by
  unfold rotL
  split
  · split
    · constructor <;> simp only <;> omega
    · exact ⟨hy, hx⟩
  · exact ⟨hx, hy⟩

theorem rotL_rotL (n x y rx ry : Nat) (hx : x < n) (hy : y < n) :
    rotL n (rotL n x y rx ry).1 (rotL n x y rx ry).2 rx ry = (x, y) := by
  unfold rotL
  by_cases h1 : ry = 0
  · by_cases h2 : rx = 1
    · simp only [h1, h2, if_true, Prod.mk.injEq]
      omega
    · simp [h1, h2]
  · simp [h1]

theorem enc_lt (k x y : Nat) : enc k x y < 4 ^ k := by
  induction k generalizing x y with
  | zero => simp [enc]
  | succ k ih =>
    unfold enc
    have h1 := ih (rotL (2 ^ k) (x % 2 ^ k) (y % 2 ^ k) (x / 2 ^ k % 2) (y / 2 ^ k % 2)).1
          (rotL (2 ^ k) (x % 2 ^ k) (y % 2 ^ k) (x / 2 ^ k % 2) (y / 2 ^ k % 2)).2
    have h2 : (3 * (x / 2 ^ k % 2)) ^^^ (y / 2 ^ k % 2) ≤ 3 := by
      rcases mod_two_cases (x / 2 ^ k) with h | h <;>
      rcases mod_two_cases (y / 2 ^ k) with h' | h' <;> rw [h, h'] <;> decide
    have h3 : 4 ^ k * ((3 * (x / 2 ^ k % 2)) ^^^ (y / 2 ^ k % 2)) ≤ 4 ^ k * 3 :=
      Nat.mul_le_mul_left _ h2
    rw [Nat.pow_succ]
    omega

theorem enc_mod (k x y x' y' : Nat) (hx : x % 2 ^ k = x' % 2 ^ k) (hy : y % 2 ^ k = y' % 2 ^ k) :
    enc k x y = enc k x' y' := by
  cases k with
  | zero => simp [enc]
  | succ k =>
    have e1 : ∀ {a b : Nat}, a % 2 ^ (k + 1) = b % 2 ^ (k + 1) →
        a % 2 ^ k = b % 2 ^ k ∧ a / 2 ^ k % 2 = b / 2 ^ k % 2 := by
      intro a b h
      have hd : (2 : Nat) ^ k ∣ 2 ^ (k + 1) := ⟨2, by rw [Nat.pow_succ]⟩
      constructor
      · rw [← Nat.mod_mod_of_dvd a hd, h, Nat.mod_mod_of_dvd b hd]
      · have ha := Nat.mod_mul_right_div_self a (2 ^ k) 2
        have hb := Nat.mod_mul_right_div_self b (2 ^ k) 2
        rw [← Nat.pow_succ] at ha hb
        rw [← ha, ← hb, h]
    obtain ⟨a1, a2⟩ := e1 hx
    obtain ⟨b1, b2⟩ := e1 hy
    unfold enc
    rw [a1, a2, b1, b2]

theorem and_pow_pos (x k : Nat) : (x &&& 2 ^ k > 0) ↔ x / 2 ^ k % 2 = 1 := by
  rw [Nat.and_two_pow, Nat.testBit_eq_decide_div_mod_eq]
  by_cases h : x / 2 ^ k % 2 = 1 <;> simp [h]

theorem and_pow_bit (x k : Nat) : (if x &&& 2 ^ k > 0 then 1 else 0) = x / 2 ^ k % 2 := by
  by_cases h : x &&& 2 ^ k > 0
  · rw [if_pos h, (and_pow_pos x k).mp h]
  · rw [if_neg h]
    have h1 : ¬ x / 2 ^ k % 2 = 1 := fun hc => h ((and_pow_pos x k).mpr hc)
    omega

theorem flip_mod (n k x : Nat) (hk : k ≤ n) (hx : x < 2 ^ n) :
    (2 ^ n - 1 - x) % 2 ^ k = 2 ^ k - 1 - x % 2 ^ k := by
  obtain ⟨m, rfl⟩ := Nat.exists_eq_add_of_le hk
  have hpos : 0 < 2 ^ k := Nat.two_pow_pos k
  have hpm : 2 ^ (k + m) = 2 ^ k * 2 ^ m := Nat.pow_add 2 k m
  have h1 := Nat.div_add_mod x (2 ^ k)
  have h2 := Nat.mod_lt x hpos
  have hq : x / 2 ^ k < 2 ^ m := by
    rw [Nat.div_lt_iff_lt_mul hpos, Nat.mul_comm, ← hpm]; exact hx
  have h3 : 2 ^ (k + m) - 1 - x
      = 2 ^ k * (2 ^ m - 1 - x / 2 ^ k) + (2 ^ k - 1 - x % 2 ^ k) := by
    rw [hpm]
    have h4 : 2 ^ k * (2 ^ m - 1 - x / 2 ^ k) + 2 ^ k * (x / 2 ^ k) + 2 ^ k = 2 ^ k * 2 ^ m := by
      rw [← Nat.mul_add, ← Nat.mul_succ]
      congr 1
      omega
    omega
  rw [h3, Nat.mul_add_mod]
  exact Nat.mod_eq_of_lt (by omega)

theorem rot_some (n x y rx ry : Nat) (hx : x < n) (hy : y < n) :
    rot n x y rx ry = some (rotL n x y rx ry) := by
  unfold rot rotL subU
  by_cases h1 : ry = 0
  · by_cases h2 : rx = 1
    · simp [h1, h2, show x ≤ n - 1 by omega, show y ≤ n - 1 by omega]
    · simp [h1, h2]
  · simp [h1]

theorem loop2d_spec (k : Nat) (hk : k ≤ 32) (x y d : Nat) (hx : x < 2 ^ 32) (hy : y < 2 ^ 32)
    (hd : d + 4 ^ k ≤ 2 ^ 64) : loop2d (2 ^ k / 2) x y d = some (d + enc k x y) := by
  induction k generalizing x y d with
  | zero =>
    rw [loop2d]
    simp [enc]
  | succ k ih =>
    have hs : 2 ^ (k + 1) / 2 = 2 ^ k := by rw [Nat.pow_succ]; simp
    have hpos : 0 < 2 ^ k := Nat.two_pow_pos k
    rw [hs, loop2d, dif_pos hpos]
    simp only
    rw [and_pow_bit, and_pow_bit]
    have h2 : (3 * (x / 2 ^ k % 2)) ^^^ (y / 2 ^ k % 2) ≤ 3 := by
      rcases mod_two_cases (x / 2 ^ k) with h | h <;>
      rcases mod_two_cases (y / 2 ^ k) with h' | h' <;> rw [h, h'] <;> decide
    have h44 : 2 ^ k * 2 ^ k = 4 ^ k := by rw [← Nat.mul_pow]
    have hle : 4 ^ k * ((3 * (x / 2 ^ k % 2)) ^^^ (y / 2 ^ k % 2)) ≤ 4 ^ k * 3 :=
      Nat.mul_le_mul_left _ h2
    have hpos4 : 0 < 4 ^ k := Nat.pow_pos (by omega)
    rw [Nat.pow_succ] at hd
    have hm1 : mulU64 (2 ^ k) (2 ^ k) = some (4 ^ k) := by
      unfold mulU64; rw [h44, if_pos (by omega)]
    have hm2 : mulU64 (4 ^ k) ((3 * (x / 2 ^ k % 2)) ^^^ (y / 2 ^ k % 2))
        = some (4 ^ k * ((3 * (x / 2 ^ k % 2)) ^^^ (y / 2 ^ k % 2))) := by
      unfold mulU64; rw [if_pos (by omega)]
    have hm3 : addU64 d (4 ^ k * ((3 * (x / 2 ^ k % 2)) ^^^ (y / 2 ^ k % 2)))
        = some (d + 4 ^ k * ((3 * (x / 2 ^ k % 2)) ^^^ (y / 2 ^ k % 2))) := by
      unfold addU64; rw [if_pos (by omega)]
    have hrot := rot_some numSubdivisions2d x y (x / 2 ^ k % 2) (y / 2 ^ k % 2) hx hy
    have hlt := rotL_lt numSubdivisions2d x y (x / 2 ^ k % 2) (y / 2 ^ k % 2)
      (Nat.two_pow_pos _) hx hy
    rw [hm1, Option.bind_some, hm2]
    simp only
    rw [hm3]
    simp only
    rw [hrot]
    simp only
    rw [ih (by omega) _ _ _ hlt.1 hlt.2 (by omega)]
    congr 1
    rw [Nat.add_assoc]
    congr 1
    rw [enc]
    congr 1
    have hf := flip_mod 32 k
    unfold rotL numSubdivisions2d
    by_cases c1 : y / 2 ^ k % 2 = 0
    · by_cases c2 : x / 2 ^ k % 2 = 1
      · simp only [c1, c2, if_true]
        have f1 := hf y (by omega) hy
        have f2 := hf x (by omega) hx
        apply enc_mod
        · rw [show bits2d = 32 from rfl, f1]
          exact (Nat.mod_eq_of_lt (by omega)).symm
        · rw [show bits2d = 32 from rfl, f2]
          exact (Nat.mod_eq_of_lt (by omega)).symm
      · simp only [c1, c2, if_true, if_false]
        apply enc_mod <;> simp
    · simp only [c1, if_false]
      apply enc_mod <;> simp

theorem dec_mod (k t t' : Nat) (h : t % 4 ^ k = t' % 4 ^ k) : dec k t = dec k t' := by
  induction k with
  | zero => rfl
  | succ k ih =>
    have hd : (4 : Nat) ^ k ∣ 4 ^ (k + 1) := ⟨4, by rw [Nat.pow_succ]⟩
    have h1 : t % 4 ^ k = t' % 4 ^ k := by
      rw [← Nat.mod_mod_of_dvd t hd, h, Nat.mod_mod_of_dvd t' hd]
    have h2 : t / 4 ^ k % 4 = t' / 4 ^ k % 4 := by
      have ha := Nat.mod_mul_right_div_self t (4 ^ k) 4
      have hb := Nat.mod_mul_right_div_self t' (4 ^ k) 4
      rw [← Nat.pow_succ] at ha hb
      rw [← ha, ← hb, h]
    unfold dec
    rw [ih h1, h2]

theorem digitX_le (q : Nat) : digitX q ≤ 1 := by unfold digitX; omega
theorem digitY_le (q : Nat) : digitY q ≤ 1 := by unfold digitY; omega

theorem dec_lt (k t : Nat) : (dec k t).1 < 2 ^ k ∧ (dec k t).2 < 2 ^ k := by
  induction k with
  | zero => simp [dec]
  | succ k ih =>
    unfold dec
    simp only
    obtain ⟨h1, h2⟩ := rotL_lt (2 ^ k) (dec k t).1 (dec k t).2 (digitX (t / 4 ^ k % 4))
      (digitY (t / 4 ^ k % 4)) (Nat.two_pow_pos k) ih.1 ih.2
    have hX := Nat.mul_le_mul_left (2 ^ k) (digitX_le (t / 4 ^ k % 4))
    have hY := Nat.mul_le_mul_left (2 ^ k) (digitY_le (t / 4 ^ k % 4))
    rw [Nat.pow_succ]
    omega

theorem digit_enc (rx ry : Nat) (hx : rx ≤ 1) (hy : ry ≤ 1) :
    digitX ((3 * rx) ^^^ ry) = rx ∧ digitY ((3 * rx) ^^^ ry) = ry ∧ (3 * rx) ^^^ ry < 4 := by
  have : ∀ rx < 2, ∀ ry < 2, digitX ((3 * rx) ^^^ ry) = rx ∧ digitY ((3 * rx) ^^^ ry) = ry ∧
      (3 * rx) ^^^ ry < 4 := by decide
  exact this rx (by omega) ry (by omega)

theorem digit_dec (q : Nat) (hq : q < 4) : (3 * digitX q) ^^^ digitY q = q := by
  have : ∀ q < 4, (3 * digitX q) ^^^ digitY q = q := by decide
  exact this q hq

theorem dec_enc (k x y : Nat) (hx : x < 2 ^ k) (hy : y < 2 ^ k) : dec k (enc k x y) = (x, y) := by
  induction k generalizing x y with
  | zero =>
    simp only [Nat.pow_zero, Nat.lt_one_iff] at hx hy
    simp [dec, hx, hy]
  | succ k ih =>
    have hpos : 0 < 2 ^ k := Nat.two_pow_pos k
    have hpos4 : 0 < 4 ^ k := Nat.pow_pos (by omega)
    have hxl := Nat.mod_lt x hpos
    have hyl := Nat.mod_lt y hpos
    have hr := rotL_lt (2 ^ k) (x % 2 ^ k) (y % 2 ^ k) (x / 2 ^ k % 2) (y / 2 ^ k % 2) hpos hxl hyl
    have hrr := rotL_rotL (2 ^ k) (x % 2 ^ k) (y % 2 ^ k) (x / 2 ^ k % 2) (y / 2 ^ k % 2) hxl hyl
    have hdig := digit_enc (x / 2 ^ k % 2) (y / 2 ^ k % 2) (by omega) (by omega)
    have hxd := Nat.div_add_mod x (2 ^ k)
    have hyd := Nat.div_add_mod y (2 ^ k)
    have hx2 : x / 2 ^ k % 2 = x / 2 ^ k := by
      apply Nat.mod_eq_of_lt; rw [Nat.div_lt_iff_lt_mul hpos, Nat.mul_comm, ← Nat.pow_succ]; exact hx
    have hy2 : y / 2 ^ k % 2 = y / 2 ^ k := by
      apply Nat.mod_eq_of_lt; rw [Nat.div_lt_iff_lt_mul hpos, Nat.mul_comm, ← Nat.pow_succ]; exact hy
    have hi := ih _ _ hr.1 hr.2
    have hle := enc_lt k (rotL (2 ^ k) (x % 2 ^ k) (y % 2 ^ k) (x / 2 ^ k % 2) (y / 2 ^ k % 2)).1
      (rotL (2 ^ k) (x % 2 ^ k) (y % 2 ^ k) (x / 2 ^ k % 2) (y / 2 ^ k % 2)).2
    unfold enc dec
    generalize hE : enc k (rotL (2 ^ k) (x % 2 ^ k) (y % 2 ^ k) (x / 2 ^ k % 2) (y / 2 ^ k % 2)).1
      (rotL (2 ^ k) (x % 2 ^ k) (y % 2 ^ k) (x / 2 ^ k % 2) (y / 2 ^ k % 2)).2 = E at hi hle ⊢
    have hq : (4 ^ k * ((3 * (x / 2 ^ k % 2)) ^^^ (y / 2 ^ k % 2)) + E) / 4 ^ k % 4
        = (3 * (x / 2 ^ k % 2)) ^^^ (y / 2 ^ k % 2) := by
      rw [Nat.mul_add_div hpos4, Nat.div_eq_of_lt hle, Nat.add_zero]
      exact Nat.mod_eq_of_lt hdig.2.2
    have hdm : dec k (4 ^ k * ((3 * (x / 2 ^ k % 2)) ^^^ (y / 2 ^ k % 2)) + E) = dec k E := by
      apply dec_mod; rw [Nat.mul_add_mod]
    simp only [hq, hdm, hi, hdig.1, hdig.2.1, hrr]
    rw [hx2, hy2]
    simp only [Prod.mk.injEq]
    omega

theorem enc_dec (k t : Nat) (ht : t < 4 ^ k) : enc k (dec k t).1 (dec k t).2 = t := by
  induction k generalizing t with
  | zero => simp at ht; simp [enc, ht]
  | succ k ih =>
    have hpos : 0 < 2 ^ k := Nat.two_pow_pos k
    have hpos4 : 0 < 4 ^ k := Nat.pow_pos (by omega)
    have hq4 : t / 4 ^ k < 4 := by
      rw [Nat.div_lt_iff_lt_mul hpos4, Nat.mul_comm, ← Nat.pow_succ]; exact ht
    have hdl := dec_lt k t
    have hr := rotL_lt (2 ^ k) (dec k t).1 (dec k t).2 (digitX (t / 4 ^ k % 4))
      (digitY (t / 4 ^ k % 4)) hpos hdl.1 hdl.2
    have hrr := rotL_rotL (2 ^ k) (dec k t).1 (dec k t).2 (digitX (t / 4 ^ k % 4))
      (digitY (t / 4 ^ k % 4)) hdl.1 hdl.2
    have hmod : dec k t = dec k (t % 4 ^ k) := dec_mod k _ _ (by simp)
    have hi := ih (t % 4 ^ k) (Nat.mod_lt _ hpos4)
    rw [← hmod] at hi
    have hX := digitX_le (t / 4 ^ k % 4)
    have hY := digitY_le (t / 4 ^ k % 4)
    have key : ∀ a b, a < 2 ^ k → b ≤ 1 →
        (a + 2 ^ k * b) % 2 ^ k = a ∧ (a + 2 ^ k * b) / 2 ^ k % 2 = b := by
      intro a b ha hb
      rw [Nat.add_mul_mod_self_left, Nat.mod_eq_of_lt ha, Nat.add_mul_div_left _ _ hpos,
        Nat.div_eq_of_lt ha, Nat.zero_add]
      exact ⟨rfl, Nat.mod_eq_of_lt (by omega)⟩
    unfold enc dec
    simp only
    obtain ⟨k1, k2⟩ := key _ _ hr.1 hX
    obtain ⟨k3, k4⟩ := key _ _ hr.2 hY
    rw [k1, k2, k3, k4, hrr]
    simp only
    rw [hi, digit_dec _ (Nat.mod_lt _ (by omega)), Nat.mod_eq_of_lt hq4]
    exact Nat.div_add_mod t (4 ^ k)

theorem loopDecode_spec (k t : Nat) (hk : k ≤ 32) (x y : Nat) (h : (x, y) = dec k t) :
    loopDecode2d (2 ^ k) (t / 4 ^ k) x y = some (dec 32 t) := by
  induction hn : 32 - k generalizing k x y with
  | zero =>
    have : k = 32 := by omega
    subst this
    rw [loopDecode2d, dif_neg (by unfold numSubdivisions2d bits2d; omega), h]
  | succ n ih =>
    have hlt : k < 32 := by omega
    have hs : 2 ^ k < numSubdivisions2d := Nat.pow_lt_pow_right (by omega) hlt
    have hd := dec_lt k t
    rw [← h] at hd
    rw [loopDecode2d, dif_pos ⟨hs, Nat.two_pow_pos k⟩]
    have e1 : 1 &&& (t / 4 ^ k / 2) = digitX (t / 4 ^ k % 4) := by
      rw [Nat.and_comm, Nat.and_one_is_mod]; unfold digitX; omega
    have e2 : 1 &&& (t / 4 ^ k ^^^ (1 &&& (t / 4 ^ k / 2))) = digitY (t / 4 ^ k % 4) := by
      rw [e1, Nat.and_comm, Nat.and_one_is_mod]
      unfold digitY
      rw [Nat.xor_mod_two_eq, Nat.xor_mod_two_eq]
      generalize t / 4 ^ k = u
      omega
    simp only
    rw [e2, e1, rot_some _ _ _ _ _ hd.1 hd.2]
    simp only
    rw [← Nat.pow_succ, Nat.div_div_eq_div_mul, ← Nat.pow_succ]
    apply ih (k + 1) (by omega)
    · conv_rhs => unfold dec
      rw [← h]
    · omega

end Verif.Peano
