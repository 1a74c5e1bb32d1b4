import Verif.Peano.Props3d

/-!
# C13: the keys of a cube are consecutive
-/

namespace Verif.Peano

theorem enc3_div (n j r x y z : Nat) (hr : r < 48) : enc3 (n + j) r x y z / 8 ^ j = enc3 n r (x / 2 ^ j) (y / 2 ^ j) (z / 2 ^ j) := by
  induction n generalizing r with
  | zero =>
    rw [Nat.zero_add, Nat.div_eq_of_lt (enc3_lt j r x y z hr)]
    rfl
  | succ n ih =>
    have hd : ∀ a : Nat, a / 2 ^ (n + j) = a / 2 ^ j / 2 ^ n := fun a => by
      rw [Nat.div_div_eq_div_mul, ← Nat.pow_add, Nat.add_comm j n]
    have ho : oct (n + j) x y z = oct n (x / 2 ^ j) (y / 2 ^ j) (z / 2 ^ j) := by
      unfold oct
      rw [hd, hd, hd]
    obtain ⟨-, -, -, h2⟩ := table_lookup r hr (oct (n + j) x y z) (oct_lt _ x y z)
    rw [show n + 1 + j = n + j + 1 by omega]
    unfold enc3
    rw [Nat.pow_add, Nat.mul_comm (8 ^ n), Nat.mul_assoc, Nat.mul_add_div (Nat.pow_pos (by omega)), ih _ h2, ho]

/-- **C13, cubes.**  Divide the grid of the keys into cubes of side `2 ^ j` and the keys into blocks of `8 ^ j` consecutive keys.
Two positions are in the same cube exactly if their keys are in the same block. -/
theorem key3d_cube_is_block (j : Nat) (hj : j ≤ 42) {x y z x' y' z' k k' : Nat} (hx : x < 2 ^ 42) (hy : y < 2 ^ 42)
    (hz : z < 2 ^ 42) (hx' : x' < 2 ^ 42) (hy' : y' < 2 ^ 42) (hz' : z' < 2 ^ 42) (h : fromIntegerPos3d x y z = some k)
    (h' : fromIntegerPos3d x' y' z' = some k') :
    k / 8 ^ j = k' / 8 ^ j ↔ x / 2 ^ j = x' / 2 ^ j ∧ y / 2 ^ j = y' / 2 ^ j ∧ z / 2 ^ j = z' / 2 ^ j := by
  rw [fromIntegerPos3d_eq] at h h'
  have e1 := enc3_div (42 - j) j 0 x y z (by omega)
  have e2 := enc3_div (42 - j) j 0 x' y' z' (by omega)
  rw [Nat.sub_add_cancel hj] at e1 e2
  rw [← Option.some.inj h, ← Option.some.inj h', e1, e2]
  have hlt : ∀ {a : Nat}, a < 2 ^ 42 → a / 2 ^ j < 2 ^ (42 - j) := by
    intro a ha
    rw [Nat.div_lt_iff_lt_mul (Nat.two_pow_pos j), ← Nat.pow_add, Nat.sub_add_cancel hj]
    exact ha
  constructor
  · intro he
    have d1 := dec3_enc3 (42 - j) 0 _ _ _ (by omega) (hlt hx) (hlt hy) (hlt hz)
    have d2 := dec3_enc3 (42 - j) 0 _ _ _ (by omega) (hlt hx') (hlt hy') (hlt hz')
    rw [he, d2] at d1
    simp only [Prod.mk.injEq] at d1
    exact ⟨d1.1.symm, d1.2.1.symm, d1.2.2.symm⟩
  · rintro ⟨h1, h2, h3⟩
    rw [h1, h2, h3]

/-- Two different positions in the same cube of side `2 ^ 29`, and their keys. -/
example : ∃ k k', fromIntegerPos3d (2 ^ 41 + 5) 7 3 = some k ∧ fromIntegerPos3d (2 ^ 41 + 900) 70000 12 = some k' ∧ k ≠ k' ∧
    k / 8 ^ 29 = k' / 8 ^ 29 := by
  refine ⟨enc3 42 0 (2 ^ 41 + 5) 7 3, enc3 42 0 (2 ^ 41 + 900) 70000 12, fromIntegerPos3d_eq .., fromIntegerPos3d_eq .., ?_, ?_⟩ <;>
    decide +kernel

end Verif.Peano
