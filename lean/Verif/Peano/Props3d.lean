import Verif.Peano.Lemmas3d

/-!
# C12, C13 (three dimensions)
-/

namespace Verif.Peano

theorem fromIntegerPos3d_eq (x y z : Nat) : fromIntegerPos3d x y z = some (enc3 42 0 x y z) := by
  have := loop3d_spec 42 x y z 0 0 (by decide) (by decide)
  unfold fromIntegerPos3d
  rw [show (1 <<< (bits3d - 1) : Nat) = 2 ^ 42 / 2 by decide, this]
  simp

/-- **C12 (range).** For all coordinate triples the lookups stay inside the tables and the key is
below `2^126`. -/
theorem key3d_in_range (x y z : Nat) : ∃ key, fromIntegerPos3d x y z = some key ∧ key < 2 ^ 126 := by
  refine ⟨_, fromIntegerPos3d_eq x y z, ?_⟩
  have := enc3_lt 42 0 x y z (by decide)
  rwa [show (8 : Nat) ^ 42 = 2 ^ 126 by decide] at this

/-- **C12 (injective).** Different cells have different keys. -/
theorem key3d_injective (x y z x' y' z' : Nat) (hx : x < 2 ^ 42) (hy : y < 2 ^ 42) (hz : z < 2 ^ 42)
    (hx' : x' < 2 ^ 42) (hy' : y' < 2 ^ 42) (hz' : z' < 2 ^ 42)
    (h : fromIntegerPos3d x y z = fromIntegerPos3d x' y' z') : x = x' ∧ y = y' ∧ z = z' := by
  rw [fromIntegerPos3d_eq, fromIntegerPos3d_eq] at h
  have h1 := dec3_enc3 42 0 x y z (by decide) hx hy hz
  rw [Option.some.inj h, dec3_enc3 42 0 x' y' z' (by decide) hx' hy' hz'] at h1
  simp only [Prod.mk.injEq] at h1
  exact ⟨h1.1.symm, h1.2.1.symm, h1.2.2.symm⟩

/-- **C12 (surjective).** Every number below `2^126` is the key of a cell. -/
theorem key3d_surjective (key : Nat) (hk : key < 2 ^ 126) :
    ∃ x y z, x < 2 ^ 42 ∧ y < 2 ^ 42 ∧ z < 2 ^ 42 ∧ fromIntegerPos3d x y z = some key := by
  have hl := dec3_lt 42 0 key (by decide)
  refine ⟨_, _, _, hl.1, hl.2.1, hl.2.2, ?_⟩
  rw [fromIntegerPos3d_eq, enc3_dec3 42 0 key (by decide) (by
    rwa [show (8 : Nat) ^ 42 = 2 ^ 126 by decide])]

/-- **C13 (3D continuity).** Cells with consecutive keys share a face. -/
theorem key3d_continuous (x y z x' y' z' key : Nat) (hx : x < 2 ^ 42) (hy : y < 2 ^ 42)
    (hz : z < 2 ^ 42) (hx' : x' < 2 ^ 42) (hy' : y' < 2 ^ 42) (hz' : z' < 2 ^ 42)
    (h : fromIntegerPos3d x y z = some key) (h' : fromIntegerPos3d x' y' z' = some (key + 1)) :
    Adjacent3 (x, y, z) (x', y', z') := by
  rw [fromIntegerPos3d_eq] at h h'
  have h1 := dec3_enc3 42 0 x y z (by decide) hx hy hz
  have h2 := dec3_enc3 42 0 x' y' z' (by decide) hx' hy' hz'
  rw [Option.some.inj h] at h1
  rw [Option.some.inj h'] at h2
  rw [← h1, ← h2]
  apply dec3_adjacent _ _ _ (by decide)
  rw [← Option.some.inj h']
  exact enc3_lt 42 0 x' y' z' (by decide)

/-- **C13 (3D connectedness).** The cells of a contiguous range of keys form a face-connected
region. -/
theorem key3d_range_connected (lo hi : Nat) :
    Connected Adjacent3 (fun p => p.1 < 2 ^ 42 ∧ p.2.1 < 2 ^ 42 ∧ p.2.2 < 2 ^ 42 ∧
      ∃ key, fromIntegerPos3d p.1 p.2.1 p.2.2 = some key ∧ lo ≤ key ∧ key < hi) := by
  have h := connected_of_consecutive Adjacent3
    (fun a b h => by unfold Adjacent3 Off1 at *; omega) (8 ^ 42) (dec3 42 0)
    (fun t ht => dec3_adjacent 42 0 t (by decide) ht) lo (min hi (8 ^ 42)) (Nat.min_le_right _ _)
  have hset : (fun p : Nat × Nat × Nat => p.1 < 2 ^ 42 ∧ p.2.1 < 2 ^ 42 ∧ p.2.2 < 2 ^ 42 ∧
      ∃ key, fromIntegerPos3d p.1 p.2.1 p.2.2 = some key ∧ lo ≤ key ∧ key < hi)
      = (fun c => ∃ t, lo ≤ t ∧ t < min hi (8 ^ 42) ∧ dec3 42 0 t = c) := by
    funext p
    apply propext
    constructor
    · rintro ⟨h1, h2, h3, key, h4, h5, h6⟩
      rw [fromIntegerPos3d_eq] at h4
      have h4 := Option.some.inj h4
      refine ⟨key, h5, ?_, ?_⟩
      · have := enc3_lt 42 0 p.1 p.2.1 p.2.2 (by decide)
        omega
      · rw [← h4, dec3_enc3 42 0 _ _ _ (by decide) h1 h2 h3]
    · rintro ⟨t, h1, h2, rfl⟩
      have hl := dec3_lt 42 0 t (by decide)
      refine ⟨hl.1, hl.2.1, hl.2.2, t, ?_, h1, by omega⟩
      rw [fromIntegerPos3d_eq, enc3_dec3 42 0 t (by decide) (by omega)]
  rw [hset]
  exact h

/-- non-vacuity: two cells with consecutive keys in different octants of the curve -/
example : fromIntegerPos3d 0 (2 ^ 41 - 1) 0 = some (2 ^ 123 - 1) ∧
    fromIntegerPos3d 0 (2 ^ 41) 0 = some (2 ^ 123) := by decide +kernel

end Verif.Peano
