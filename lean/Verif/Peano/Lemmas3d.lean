import Verif.Peano.Lemmas2d
import Verif.Peano.Spec

/-!
# Three-dimensional Peano-Hilbert key: recursive description and lemmas
-/

namespace Verif.Peano

/-- Entry of `SUBPIX_TABLE`. -/
def sub3 (r p : Nat) : Nat := (lookup subpixTable r p).getD 0
/-- Entry of `ROTATION_TABLE`. -/
def rt3 (r p : Nat) : Nat := (lookup rotationTable r p).getD 0
/-- The octant with a given digit. -/
def inv3 (r d : Nat) : Nat := (subpixTable.getD r []).idxOf d

/-! ### Facts about the two tables (each a check of the complete table) -/

theorem table_lookup : ∀ r < 48, ∀ p < 8, lookup subpixTable r p = some (sub3 r p) ∧
    lookup rotationTable r p = some (rt3 r p) ∧ sub3 r p < 8 ∧ rt3 r p < 48 := by
  decide +kernel

theorem table_inv : ∀ r < 48, ∀ d < 8, inv3 r d < 8 ∧ sub3 r (inv3 r d) = d ∧
    inv3 r (sub3 r d) = d := by
  decide +kernel

theorem table_ends : ∀ r < 48, inv3 (rt3 r (inv3 r 0)) 0 = inv3 r 0 ∧
    inv3 (rt3 r (inv3 r 7)) 7 = inv3 r 7 := by
  decide +kernel

/-- The coordinate along one axis moves from the end of one octant to the start of the next. -/
def StepBit (p f q e : Nat) : Prop := (p = 0 ∧ f = 1 ∧ q = 1 ∧ e = 0) ∨ (p = 1 ∧ f = 0 ∧ q = 0 ∧ e = 1)
/-- The coordinate along one axis stays. -/
def SameBit (p f q e : Nat) : Prop := p = q ∧ f = e

instance (p f q e : Nat) : Decidable (StepBit p f q e) := by unfold StepBit; infer_instance
instance (p f q e : Nat) : Decidable (SameBit p f q e) := by unfold SameBit; infer_instance

/-- Octants `p`, `q` with end corner `f` and start corner `e`. -/
def StepOct (p f q e : Nat) : Prop :=
  (StepBit (p / 4) (f / 4) (q / 4) (e / 4) ∧ SameBit (p / 2 % 2) (f / 2 % 2) (q / 2 % 2) (e / 2 % 2) ∧
    SameBit (p % 2) (f % 2) (q % 2) (e % 2)) ∨
  (SameBit (p / 4) (f / 4) (q / 4) (e / 4) ∧ StepBit (p / 2 % 2) (f / 2 % 2) (q / 2 % 2) (e / 2 % 2) ∧
    SameBit (p % 2) (f % 2) (q % 2) (e % 2)) ∨
  (SameBit (p / 4) (f / 4) (q / 4) (e / 4) ∧ SameBit (p / 2 % 2) (f / 2 % 2) (q / 2 % 2) (e / 2 % 2) ∧
    StepBit (p % 2) (f % 2) (q % 2) (e % 2))

instance (p f q e : Nat) : Decidable (StepOct p f q e) := by unfold StepOct; infer_instance

theorem table_step : ∀ r < 48, ∀ d < 7, StepOct (inv3 r d) (inv3 (rt3 r (inv3 r d)) 7)
    (inv3 r (d + 1)) (inv3 (rt3 r (inv3 r (d + 1))) 0) := by
  decide +kernel

/-! ### Recursive description -/

/-- The octant of a cell at level `n`. -/
def oct (n x y z : Nat) : Nat := 4 * (x / 2 ^ n % 2) + 2 * (y / 2 ^ n % 2) + z / 2 ^ n % 2

theorem oct_lt (n x y z : Nat) : oct n x y z < 8 := by unfold oct; omega

/-- The key of a cell, by recursion over the octants. -/
def enc3 : Nat → Nat → Nat → Nat → Nat → Nat
  | 0, _, _, _, _ => 0
  | n + 1, r, x, y, z => 8 ^ n * sub3 r (oct n x y z) + enc3 n (rt3 r (oct n x y z)) x y z

/-- The cell of a key. -/
def dec3 : Nat → Nat → Nat → Nat × Nat × Nat
  | 0, _, _ => (0, 0, 0)
  | n + 1, r, t =>
    let p := inv3 r (t / 8 ^ n % 8)
    let c := dec3 n (rt3 r p) t
    (p / 4 * 2 ^ n + c.1, p / 2 % 2 * 2 ^ n + c.2.1, p % 2 * 2 ^ n + c.2.2)

theorem enc3_lt (n r x y z : Nat) (hr : r < 48) : enc3 n r x y z < 8 ^ n := by
  induction n generalizing r with
  | zero => simp [enc3]
  | succ n ih =>
    unfold enc3
    obtain ⟨_, _, h1, h2⟩ := table_lookup r hr (oct n x y z) (oct_lt n x y z)
    have h3 := ih _ h2
    have h4 : 8 ^ n * sub3 r (oct n x y z) ≤ 8 ^ n * 7 := Nat.mul_le_mul_left _ (by omega)
    rw [Nat.pow_succ]
    omega

theorem div_mod_bit (x m n : Nat) (h : n < m) : x % 2 ^ m / 2 ^ n % 2 = x / 2 ^ n % 2 := by
  obtain ⟨d, rfl⟩ := Nat.exists_eq_add_of_lt h
  rw [show n + d + 1 = n + (d + 1) by omega, Nat.pow_add, Nat.mod_mul_right_div_self]
  exact Nat.mod_mod_of_dvd _ ⟨2 ^ d, by rw [Nat.pow_succ, Nat.mul_comm]⟩

theorem enc3_mod (n m r x y z : Nat) (h : n ≤ m) :
    enc3 n r (x % 2 ^ m) (y % 2 ^ m) (z % 2 ^ m) = enc3 n r x y z := by
  induction n generalizing r with
  | zero => rfl
  | succ n ih =>
    have ho : oct n (x % 2 ^ m) (y % 2 ^ m) (z % 2 ^ m) = oct n x y z := by
      unfold oct
      rw [div_mod_bit x m n h, div_mod_bit y m n h, div_mod_bit z m n h]
    unfold enc3
    rw [ho, ih _ (by omega)]

theorem dec3_mod (n r t t' : Nat) (h : t % 8 ^ n = t' % 8 ^ n) : dec3 n r t = dec3 n r t' := by
  induction n generalizing r with
  | zero => rfl
  | succ n ih =>
    have hd : (8 : Nat) ^ n ∣ 8 ^ (n + 1) := ⟨8, by rw [Nat.pow_succ]⟩
    have h1 : t % 8 ^ n = t' % 8 ^ n := by
      rw [← Nat.mod_mod_of_dvd t hd, h, Nat.mod_mod_of_dvd t' hd]
    have h2 : t / 8 ^ n % 8 = t' / 8 ^ n % 8 := by
      have ha := Nat.mod_mul_right_div_self t (8 ^ n) 8
      have hb := Nat.mod_mul_right_div_self t' (8 ^ n) 8
      rw [← Nat.pow_succ] at ha hb
      rw [← ha, ← hb, h]
    unfold dec3
    rw [h2]
    simp only [ih _ h1]

theorem dec3_lt (n r t : Nat) (hr : r < 48) :
    (dec3 n r t).1 < 2 ^ n ∧ (dec3 n r t).2.1 < 2 ^ n ∧ (dec3 n r t).2.2 < 2 ^ n := by
  induction n generalizing r with
  | zero => simp [dec3]
  | succ n ih =>
    unfold dec3
    simp only
    have hp := (table_inv r hr (t / 8 ^ n % 8) (by omega)).1
    generalize inv3 r (t / 8 ^ n % 8) = p at hp ⊢
    have hi := ih (rt3 r p) (table_lookup r hr p hp).2.2.2
    have b : ∀ a, a ≤ 1 → a * 2 ^ n ≤ 2 ^ n := fun a ha => by
      calc a * 2 ^ n ≤ 1 * 2 ^ n := Nat.mul_le_mul_right _ ha
        _ = 2 ^ n := Nat.one_mul _
    have b1 := b (p / 4) (by omega)
    have b2 := b (p / 2 % 2) (by omega)
    have b3 := b (p % 2) (by omega)
    rw [Nat.pow_succ]
    omega

theorem bit_split (x n : Nat) (hx : x < 2 ^ (n + 1)) :
    x / 2 ^ n % 2 * 2 ^ n + x % 2 ^ n = x := by
  have hpos : 0 < 2 ^ n := Nat.two_pow_pos n
  have h : x / 2 ^ n % 2 = x / 2 ^ n := by
    apply Nat.mod_eq_of_lt
    rw [Nat.div_lt_iff_lt_mul hpos, Nat.mul_comm, ← Nat.pow_succ]; exact hx
  rw [h, Nat.mul_comm]
  exact Nat.div_add_mod x (2 ^ n)

theorem dec3_enc3 (n r x y z : Nat) (hr : r < 48) (hx : x < 2 ^ n) (hy : y < 2 ^ n)
    (hz : z < 2 ^ n) : dec3 n r (enc3 n r x y z) = (x, y, z) := by
  induction n generalizing r x y z with
  | zero =>
    simp only [Nat.pow_zero, Nat.lt_one_iff] at hx hy hz
    simp [dec3, hx, hy, hz]
  | succ n ih =>
    have hpos : 0 < 2 ^ n := Nat.two_pow_pos n
    have hpos8 : 0 < 8 ^ n := Nat.pow_pos (by omega)
    obtain ⟨_, _, h1, h2⟩ := table_lookup r hr (oct n x y z) (oct_lt n x y z)
    have h3 := (table_inv r hr (oct n x y z) (oct_lt n x y z)).2.2
    have hlt := enc3_lt n (rt3 r (oct n x y z)) x y z h2
    have hi := ih (rt3 r (oct n x y z)) (x % 2 ^ n) (y % 2 ^ n) (z % 2 ^ n) h2
      (Nat.mod_lt _ hpos) (Nat.mod_lt _ hpos) (Nat.mod_lt _ hpos)
    rw [enc3_mod n n _ _ _ _ (Nat.le_refl _)] at hi
    unfold enc3 dec3
    have hq : (8 ^ n * sub3 r (oct n x y z) + enc3 n (rt3 r (oct n x y z)) x y z) / 8 ^ n % 8
        = sub3 r (oct n x y z) := by
      rw [Nat.mul_add_div hpos8, Nat.div_eq_of_lt hlt, Nat.add_zero]
      exact Nat.mod_eq_of_lt h1
    have hdm : ∀ r', dec3 n r' (8 ^ n * sub3 r (oct n x y z) + enc3 n (rt3 r (oct n x y z)) x y z)
        = dec3 n r' (enc3 n (rt3 r (oct n x y z)) x y z) := by
      intro r'; apply dec3_mod; rw [Nat.mul_add_mod]
    simp only [hq, h3, hdm, hi]
    have o1 : oct n x y z / 4 = x / 2 ^ n % 2 := by unfold oct; omega
    have o2 : oct n x y z / 2 % 2 = y / 2 ^ n % 2 := by unfold oct; omega
    have o3 : oct n x y z % 2 = z / 2 ^ n % 2 := by unfold oct; omega
    rw [o1, o2, o3, bit_split x n hx, bit_split y n hy, bit_split z n hz]

theorem enc3_dec3 (n r t : Nat) (hr : r < 48) (ht : t < 8 ^ n) :
    enc3 n r (dec3 n r t).1 (dec3 n r t).2.1 (dec3 n r t).2.2 = t := by
  induction n generalizing r t with
  | zero => simp at ht; simp [enc3, ht]
  | succ n ih =>
    have hpos : 0 < 2 ^ n := Nat.two_pow_pos n
    have hpos8 : 0 < 8 ^ n := Nat.pow_pos (by omega)
    have hq8 : t / 8 ^ n < 8 := by
      rw [Nat.div_lt_iff_lt_mul hpos8, Nat.mul_comm, ← Nat.pow_succ]; exact ht
    obtain ⟨hp, hsub, _⟩ := table_inv r hr (t / 8 ^ n % 8) (by omega)
    have hr' := (table_lookup r hr _ hp).2.2.2
    have hi := ih _ (t % 8 ^ n) hr' (Nat.mod_lt _ hpos8)
    rw [dec3_mod n _ (t % 8 ^ n) t (by simp)] at hi
    have hl := dec3_lt n _ t hr'
    have key : ∀ a b, a < 2 ^ n → b ≤ 1 →
        (b * 2 ^ n + a) % 2 ^ n = a ∧ (b * 2 ^ n + a) / 2 ^ n % 2 = b := by
      intro a b ha hb
      rw [Nat.mul_comm, Nat.mul_add_mod, Nat.mod_eq_of_lt ha, Nat.mul_add_div hpos,
        Nat.div_eq_of_lt ha, Nat.add_zero]
      exact ⟨rfl, Nat.mod_eq_of_lt (by omega)⟩
    generalize hpd : inv3 r (t / 8 ^ n % 8) = p at *
    obtain ⟨a1, a2⟩ := key _ (p / 4) hl.1 (by omega)
    obtain ⟨b1, b2⟩ := key _ (p / 2 % 2) hl.2.1 (by omega)
    obtain ⟨c1, c2⟩ := key _ (p % 2) hl.2.2 (by omega)
    unfold enc3 dec3
    simp only [hpd]
    have ho : oct n (p / 4 * 2 ^ n + (dec3 n (rt3 r p) t).1)
        (p / 2 % 2 * 2 ^ n + (dec3 n (rt3 r p) t).2.1)
        (p % 2 * 2 ^ n + (dec3 n (rt3 r p) t).2.2) = p := by
      unfold oct
      rw [a2, b2, c2]
      omega
    rw [ho, ← enc3_mod n n _ _ _ _ (Nat.le_refl _), a1, b1, c1, hi, hsub,
      Nat.mod_eq_of_lt hq8]
    exact Nat.div_add_mod t (8 ^ n)

/-! ### The loop of the code -/

theorem pixOf_eq (n x y z : Nat) : pixOf (2 ^ n) x y z = oct n x y z := by
  have hb : ∀ v, (v &&& 2 ^ n ≠ 0) ↔ v / 2 ^ n % 2 = 1 := by
    intro v
    rw [← and_pow_pos]
    omega
  unfold pixOf oct
  simp only [hb]
  rcases mod_two_cases (x / 2 ^ n) with h1 | h1 <;> rcases mod_two_cases (y / 2 ^ n) with h2 | h2 <;>
    rcases mod_two_cases (z / 2 ^ n) with h3 | h3 <;> rw [h1, h2, h3] <;> rfl

theorem shift_or (key s : Nat) (hs : s < 8) (hk : key * 8 + 8 ≤ 2 ^ 128) :
    ((key <<< 3) % 2 ^ 128) ||| s = key * 8 + s := by
  rw [Nat.mod_eq_of_lt (by rw [Nat.shiftLeft_eq]; omega)]
  rw [← Nat.shiftLeft_add_eq_or_of_lt (by omega : s < 2 ^ 3), Nat.shiftLeft_eq]

theorem loop3d_spec (n : Nat) (x y z r key : Nat) (hr : r < 48)
    (hk : (key + 1) * 8 ^ n ≤ 2 ^ 128) :
    loop3d (2 ^ n / 2) x y z r key
      = some (key * 8 ^ n + enc3 n r x y z) := by
  induction n generalizing r key with
  | zero => rw [loop3d]; simp [enc3]
  | succ n ih =>
    have hs : 2 ^ (n + 1) / 2 = 2 ^ n := by rw [Nat.pow_succ]; simp
    rw [hs, loop3d, dif_pos (Nat.two_pow_pos n), pixOf_eq]
    obtain ⟨h1, h2, h3, h4⟩ := table_lookup r hr (oct n x y z) (oct_lt n x y z)
    rw [h1, h2]
    simp only
    have hpos8 : 0 < 8 ^ n := Nat.pow_pos (by omega)
    rw [Nat.pow_succ] at hk
    have hk8 : key * 8 + 8 ≤ 2 ^ 128 := by
      have : (key + 1) * 8 * 1 ≤ (key + 1) * 8 * 8 ^ n := Nat.mul_le_mul_left _ hpos8
      have e : (key + 1) * (8 ^ n * 8) = (key + 1) * 8 * 8 ^ n := by ring
      omega
    rw [shift_or key _ h3 hk8, Nat.shiftRight_eq_div_pow, Nat.pow_one]
    rw [ih _ _ h4 (by
      have : (key * 8 + sub3 r (oct n x y z) + 1) * 8 ^ n ≤ ((key + 1) * 8) * 8 ^ n :=
        Nat.mul_le_mul_right _ (by omega)
      have e : (key + 1) * (8 ^ n * 8) = (key + 1) * 8 * 8 ^ n := by ring
      omega)]
    congr 1
    rw [enc3, Nat.pow_succ]
    ring

/-! ### Continuity -/

/-- A corner of the cube of `2^n` cells. -/
def corner (n p : Nat) : Nat × Nat × Nat :=
  (p / 4 * (2 ^ n - 1), p / 2 % 2 * (2 ^ n - 1), p % 2 * (2 ^ n - 1))

theorem bit_corner (n b : Nat) (hb : b ≤ 1) :
    b * 2 ^ n + b * (2 ^ n - 1) = b * (2 ^ (n + 1) - 1) := by
  have hpos : 0 < 2 ^ n := Nat.two_pow_pos n
  rcases Nat.le_one_iff_eq_zero_or_eq_one.mp hb with rfl | rfl
  · simp
  · rw [Nat.pow_succ]; omega

theorem dec3_first (n r : Nat) (hr : r < 48) : dec3 n r 0 = corner n (inv3 r 0) := by
  induction n generalizing r with
  | zero => simp [dec3, corner]
  | succ n ih =>
    have hp := (table_inv r hr 0 (by omega)).1
    have he := (table_ends r hr).1
    have hr' := (table_lookup r hr _ hp).2.2.2
    unfold dec3
    simp only [Nat.zero_div, Nat.zero_mod]
    rw [ih _ hr', he]
    unfold corner
    simp only
    rw [bit_corner n _ (by omega), bit_corner n _ (by omega), bit_corner n _ (by omega)]

theorem dec3_last (n r : Nat) (hr : r < 48) : dec3 n r (8 ^ n - 1) = corner n (inv3 r 7) := by
  induction n generalizing r with
  | zero => simp [dec3, corner]
  | succ n ih =>
    have hpos8 : 0 < 8 ^ n := Nat.pow_pos (by omega)
    have hp := (table_inv r hr 7 (by omega)).1
    have he := (table_ends r hr).2
    have hr' := (table_lookup r hr _ hp).2.2.2
    have e : 8 ^ (n + 1) - 1 = 8 ^ n * 7 + (8 ^ n - 1) := by rw [Nat.pow_succ]; omega
    have hd : (8 ^ n * 7 + (8 ^ n - 1)) / 8 ^ n % 8 = 7 := by
      rw [Nat.mul_add_div hpos8, Nat.div_eq_of_lt (by omega)]
    unfold dec3
    simp only [e, hd]
    rw [dec3_mod n _ (8 ^ n * 7 + (8 ^ n - 1)) (8 ^ n - 1) (by rw [Nat.mul_add_mod]), ih _ hr', he]
    unfold corner
    simp only
    rw [bit_corner n _ (by omega), bit_corner n _ (by omega), bit_corner n _ (by omega)]

theorem step_axis (n p f q e : Nat) (h : StepBit p f q e) :
    Off1 (p * 2 ^ n + f * (2 ^ n - 1)) (q * 2 ^ n + e * (2 ^ n - 1)) := by
  have hpos : 0 < 2 ^ n := Nat.two_pow_pos n
  unfold StepBit at h
  unfold Off1
  rcases h with ⟨rfl, rfl, rfl, rfl⟩ | ⟨rfl, rfl, rfl, rfl⟩ <;> omega

theorem same_axis (n p f q e : Nat) (h : SameBit p f q e) :
    p * 2 ^ n + f * (2 ^ n - 1) = q * 2 ^ n + e * (2 ^ n - 1) := by
  unfold SameBit at h
  rw [h.1, h.2]

theorem dec3_adjacent (n r t : Nat) (hr : r < 48) (ht : t + 1 < 8 ^ n) :
    Adjacent3 (dec3 n r t) (dec3 n r (t + 1)) := by
  induction n generalizing r t with
  | zero => simp at ht
  | succ n ih =>
    have hpos8 : 0 < 8 ^ n := Nat.pow_pos (by omega)
    have htd := Nat.div_add_mod t (8 ^ n)
    have htm := Nat.mod_lt t hpos8
    generalize hq : t / 8 ^ n = q at htd
    generalize hs : t % 8 ^ n = s at htd htm
    rw [← htd] at ht ⊢
    have hq8 : q < 8 := by
      by_contra hc
      have : 8 ^ n * 8 ≤ 8 ^ n * q := Nat.mul_le_mul_left _ (by omega)
      rw [Nat.pow_succ] at ht
      omega
    have d1 : (8 ^ n * q + s) / 8 ^ n % 8 = q := by
      rw [Nat.mul_add_div hpos8, Nat.div_eq_of_lt htm]; exact Nat.mod_eq_of_lt hq8
    by_cases hlast : s + 1 < 8 ^ n
    · have d2 : (8 ^ n * q + s + 1) / 8 ^ n % 8 = q := by
        rw [Nat.add_assoc, Nat.mul_add_div hpos8, Nat.div_eq_of_lt hlast]
        exact Nat.mod_eq_of_lt hq8
      have e1 : ∀ r', dec3 n r' (8 ^ n * q + s) = dec3 n r' s := fun r' =>
        dec3_mod n _ _ _ (by rw [Nat.mul_add_mod])
      have e2 : ∀ r', dec3 n r' (8 ^ n * q + s + 1) = dec3 n r' (s + 1) := fun r' =>
        dec3_mod n _ _ _ (by rw [Nat.add_assoc, Nat.mul_add_mod])
      have hp := (table_inv r hr q hq8).1
      have hadj := ih _ s (table_lookup r hr _ hp).2.2.2 hlast
      unfold dec3
      simp only [d1, d2, e1, e2]
      unfold Adjacent3 Off1 at *
      simp only
      omega
    · have hs' : s = 8 ^ n - 1 := by omega
      subst hs'
      have hq7 : q < 7 := by
        by_contra hc
        have : 8 ^ n * 7 ≤ 8 ^ n * q := Nat.mul_le_mul_left _ (by omega)
        rw [Nat.pow_succ] at ht
        omega
      have hsum : 8 ^ n * q + (8 ^ n - 1) + 1 = 8 ^ n * (q + 1) := by
        rw [Nat.mul_succ]; omega
      have d2 : (8 ^ n * (q + 1)) / 8 ^ n % 8 = q + 1 := by
        rw [Nat.mul_div_cancel_left _ hpos8]; exact Nat.mod_eq_of_lt (by omega)
      have e1 : ∀ r', dec3 n r' (8 ^ n * q + (8 ^ n - 1)) = dec3 n r' (8 ^ n - 1) := fun r' =>
        dec3_mod n _ _ _ (by rw [Nat.mul_add_mod])
      have e2 : ∀ r', dec3 n r' (8 ^ n * (q + 1)) = dec3 n r' 0 := fun r' =>
        dec3_mod n _ _ _ (by simp)
      have hp := (table_inv r hr q hq8).1
      have hp' := (table_inv r hr (q + 1) (by omega)).1
      have hstep := table_step r hr q hq7
      rw [hsum]
      unfold dec3
      simp only [d1, d2, e1, e2]
      rw [dec3_last n _ (table_lookup r hr _ hp).2.2.2,
        dec3_first n _ (table_lookup r hr _ hp').2.2.2]
      unfold corner
      simp only
      unfold StepOct at hstep
      unfold Adjacent3
      rcases hstep with ⟨h1, h2, h3⟩ | ⟨h1, h2, h3⟩ | ⟨h1, h2, h3⟩
      · exact Or.inl ⟨step_axis n _ _ _ _ h1, same_axis n _ _ _ _ h2, same_axis n _ _ _ _ h3⟩
      · exact Or.inr (Or.inl
          ⟨same_axis n _ _ _ _ h1, step_axis n _ _ _ _ h2, same_axis n _ _ _ _ h3⟩)
      · exact Or.inr (Or.inr
          ⟨same_axis n _ _ _ _ h1, same_axis n _ _ _ _ h2, step_axis n _ _ _ _ h3⟩)

end Verif.Peano
