import Verif.Peano.Lemmas2d
import Verif.Peano.Spec

/-!
# C11, C13 (two dimensions)
-/

namespace Verif.Peano

/-! ### Continuity lemmas -/

theorem dec_zero (k : Nat) : dec k 0 = (0, 0) := by
  induction k with
  | zero => rfl
  | succ k ih =>
    unfold dec
    simp [ih, digitX, digitY, rotL]

theorem dec_last (k : Nat) : dec k (4 ^ k - 1) = (2 ^ k - 1, 0) := by
  induction k with
  | zero => rfl
  | succ k ih =>
    have hpos4 : 0 < 4 ^ k := Nat.pow_pos (by omega)
    have hpos : 0 < 2 ^ k := Nat.two_pow_pos k
    have e : 4 ^ (k + 1) - 1 = 4 ^ k * 3 + (4 ^ k - 1) := by rw [Nat.pow_succ]; omega
    unfold dec
    rw [e, dec_mod k (4 ^ k * 3 + (4 ^ k - 1)) (4 ^ k - 1) (by rw [Nat.mul_add_mod]), ih]
    rw [Nat.mul_add_div hpos4, Nat.div_eq_of_lt (by omega)]
    simp [digitX, digitY, rotL, Nat.pow_succ]
    omega

theorem rotL_adjacent (n rx ry : Nat) (p q : Nat × Nat) (hp : p.1 < n ∧ p.2 < n)
    (hq : q.1 < n ∧ q.2 < n) (h : Adjacent2 p q) :
    Adjacent2 (rotL n p.1 p.2 rx ry) (rotL n q.1 q.2 rx ry) := by
  unfold rotL
  by_cases h1 : ry = 0
  · by_cases h2 : rx = 1
    · simp only [h1, h2, if_true]
      unfold Adjacent2 Off1 at *
      omega
    · simp only [h1, h2, if_true, if_false]
      unfold Adjacent2 Off1 at *
      omega
  · simp only [h1, if_false]
    exact h

theorem dec_adjacent (k t : Nat) (ht : t + 1 < 4 ^ k) : Adjacent2 (dec k t) (dec k (t + 1)) := by
  induction k generalizing t with
  | zero => simp at ht
  | succ k ih =>
    have hpos4 : 0 < 4 ^ k := Nat.pow_pos (by omega)
    have hpos : 0 < 2 ^ k := Nat.two_pow_pos k
    have htd := Nat.div_add_mod t (4 ^ k)
    have htm := Nat.mod_lt t hpos4
    generalize hq : t / 4 ^ k = q at htd
    generalize hr : t % 4 ^ k = r at htd htm
    rw [← htd] at ht ⊢
    by_cases hlast : r + 1 < 4 ^ k
    · have e1 : dec k (4 ^ k * q + r) = dec k r := dec_mod k _ _ (by rw [Nat.mul_add_mod])
      have e2 : dec k (4 ^ k * q + r + 1) = dec k (r + 1) :=
        dec_mod k _ _ (by rw [Nat.add_assoc, Nat.mul_add_mod])
      have d1 : (4 ^ k * q + r) / 4 ^ k = q := by
        rw [Nat.mul_add_div hpos4, Nat.div_eq_of_lt htm]; rfl
      have d2 : (4 ^ k * q + r + 1) / 4 ^ k = q := by
        rw [Nat.add_assoc, Nat.mul_add_div hpos4, Nat.div_eq_of_lt hlast]; rfl
      have hadj := rotL_adjacent (2 ^ k) (digitX (q % 4)) (digitY (q % 4)) _ _ (dec_lt k r)
        (dec_lt k (r + 1)) (ih r hlast)
      unfold dec
      rw [e1, e2, d1, d2]
      unfold Adjacent2 Off1 at *
      simp only
      omega
    · have hr' : r = 4 ^ k - 1 := by omega
      subst hr'
      have hq3 : q < 3 := by
        by_contra hc
        have : 4 ^ k * 3 ≤ 4 ^ k * q := Nat.mul_le_mul_left _ (by omega)
        rw [Nat.pow_succ] at ht
        omega
      have e1 : dec k (4 ^ k * q + (4 ^ k - 1)) = (2 ^ k - 1, 0) := by
        rw [← dec_last k]; exact dec_mod k _ _ (by rw [Nat.mul_add_mod])
      have hsum : 4 ^ k * q + (4 ^ k - 1) + 1 = 4 ^ k * (q + 1) := by
        rw [Nat.mul_succ]; omega
      have e2 : dec k (4 ^ k * q + (4 ^ k - 1) + 1) = (0, 0) := by
        rw [hsum, ← dec_zero k]; exact dec_mod k _ _ (by simp)
      have d1 : (4 ^ k * q + (4 ^ k - 1)) / 4 ^ k = q := by
        rw [Nat.mul_add_div hpos4, Nat.div_eq_of_lt htm]; rfl
      have d2 : (4 ^ k * q + (4 ^ k - 1) + 1) / 4 ^ k = q + 1 := by
        rw [hsum, Nat.mul_div_cancel_left _ hpos4]
      unfold dec
      rw [e1, e2, d1, d2]
      have : q = 0 ∨ q = 1 ∨ q = 2 := by omega
      rcases this with rfl | rfl | rfl <;> simp [digitX, digitY, rotL, Adjacent2, Off1] <;> omega

/-! ### Properties of the code -/

theorem fromIntegerPos2d_eq (x y : Nat) (hx : x < 2 ^ 32) (hy : y < 2 ^ 32) :
    fromIntegerPos2d x y = some (enc 32 x y) := by
  unfold fromIntegerPos2d
  have := loop2d_spec 32 (Nat.le_refl _) x y 0 hx hy (by decide)
  rw [Nat.zero_add] at this
  exact this

theorem toIntegerPos2d_eq (t : Nat) : toIntegerPos2d t = some (dec 32 t) := by
  have := loopDecode_spec 0 t (by omega) 0 0 rfl
  unfold toIntegerPos2d
  simpa using this

/-- **C11 (no overflow, round trip).** For all `2^64` coordinate pairs the key is computed without
overflow, fits into 64 bits, and decodes to the coordinates. -/
theorem key2d_round_trip (x y : Nat) (hx : x < 2 ^ 32) (hy : y < 2 ^ 32) :
    ∃ key, fromIntegerPos2d x y = some key ∧ key < 2 ^ 64 ∧ toIntegerPos2d key = some (x, y) := by
  refine ⟨enc 32 x y, fromIntegerPos2d_eq x y hx hy, ?_, ?_⟩
  · have := enc_lt 32 x y
    rwa [show (4 : Nat) ^ 32 = 2 ^ 64 by decide] at this
  · rw [toIntegerPos2d_eq, dec_enc 32 x y hx hy]

/-- **C11 (injective).** Different cells have different keys. -/
theorem key2d_injective (x y x' y' : Nat) (hx : x < 2 ^ 32) (hy : y < 2 ^ 32) (hx' : x' < 2 ^ 32)
    (hy' : y' < 2 ^ 32) (h : fromIntegerPos2d x y = fromIntegerPos2d x' y') : x = x' ∧ y = y' := by
  rw [fromIntegerPos2d_eq x y hx hy, fromIntegerPos2d_eq x' y' hx' hy'] at h
  have h1 := dec_enc 32 x y hx hy
  rw [Option.some.inj h, dec_enc 32 x' y' hx' hy'] at h1
  simp only [Prod.mk.injEq] at h1
  exact ⟨h1.1.symm, h1.2.symm⟩

/-- **C11 (surjective).** Every 64-bit number is the key of a cell. -/
theorem key2d_surjective (key : Nat) (hk : key < 2 ^ 64) :
    ∃ x y, x < 2 ^ 32 ∧ y < 2 ^ 32 ∧ fromIntegerPos2d x y = some key := by
  have hl := dec_lt 32 key
  refine ⟨(dec 32 key).1, (dec 32 key).2, hl.1, hl.2, ?_⟩
  rw [fromIntegerPos2d_eq _ _ hl.1 hl.2, enc_dec 32 key (by
    rwa [show (4 : Nat) ^ 32 = 2 ^ 64 by decide])]

/-- **C13 (2D continuity).** Cells with consecutive keys share an edge. -/
theorem key2d_continuous (x y x' y' key : Nat) (hx : x < 2 ^ 32) (hy : y < 2 ^ 32)
    (hx' : x' < 2 ^ 32) (hy' : y' < 2 ^ 32) (h : fromIntegerPos2d x y = some key)
    (h' : fromIntegerPos2d x' y' = some (key + 1)) : Adjacent2 (x, y) (x', y') := by
  rw [fromIntegerPos2d_eq x y hx hy] at h
  rw [fromIntegerPos2d_eq x' y' hx' hy'] at h'
  have h1 := dec_enc 32 x y hx hy
  have h2 := dec_enc 32 x' y' hx' hy'
  rw [Option.some.inj h] at h1
  rw [Option.some.inj h'] at h2
  rw [← h1, ← h2]
  apply dec_adjacent
  rw [← Option.some.inj h']
  exact enc_lt 32 x' y'

/-- **C13 (2D connectedness).** The cells of a contiguous range of keys form an edge-connected
region. -/
theorem key2d_range_connected (lo hi : Nat) :
    Connected Adjacent2 (fun p => p.1 < 2 ^ 32 ∧ p.2 < 2 ^ 32 ∧
      ∃ key, fromIntegerPos2d p.1 p.2 = some key ∧ lo ≤ key ∧ key < hi) := by
  have h := connected_of_consecutive Adjacent2
    (fun a b h => by unfold Adjacent2 Off1 at *; omega) (4 ^ 32) (dec 32)
    (fun t ht => dec_adjacent 32 t ht) lo (min hi (4 ^ 32)) (Nat.min_le_right _ _)
  have hset : (fun p : Nat × Nat => p.1 < 2 ^ 32 ∧ p.2 < 2 ^ 32 ∧
      ∃ key, fromIntegerPos2d p.1 p.2 = some key ∧ lo ≤ key ∧ key < hi)
      = (fun c => ∃ t, lo ≤ t ∧ t < min hi (4 ^ 32) ∧ dec 32 t = c) := by
    funext p
    apply propext
    constructor
    · rintro ⟨h1, h2, key, h3, h4, h5⟩
      rw [fromIntegerPos2d_eq _ _ h1 h2] at h3
      have h3 := Option.some.inj h3
      refine ⟨key, h4, ?_, ?_⟩
      · have := enc_lt 32 p.1 p.2
        omega
      · rw [← h3, dec_enc 32 _ _ h1 h2]
    · rintro ⟨t, h1, h2, rfl⟩
      have hl := dec_lt 32 t
      refine ⟨hl.1, hl.2, t, ?_, h1, by omega⟩
      rw [fromIntegerPos2d_eq _ _ hl.1 hl.2, enc_dec 32 t (by omega)]
  rw [hset]
  exact h

/-- non-vacuity: two cells with consecutive keys in different quadrants of the curve -/
example : fromIntegerPos2d 0 (2 ^ 31 - 1) = some (2 ^ 62 - 1) ∧
    fromIntegerPos2d 0 (2 ^ 31) = some (2 ^ 62) := by decide +kernel

end Verif.Peano
