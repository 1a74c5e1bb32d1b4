import Verif.Predicates.Model
import Mathlib.LinearAlgebra.Matrix.Determinant.Basic
import Mathlib.Tactic.Ring
import Mathlib.Tactic.FinCases
import Mathlib.Tactic.NormNum

/-!
# C46: the hand-written determinants are the determinant
-/

namespace Verif.Predicates

variable {K : Type} [CommRing K]

/-- **C46** (3x3). -/
theorem determinant3x3_is_det (a : Mat 3 3 K) : determinant3x3 a = Matrix.det (Matrix.of a) := by
  rw [Matrix.det_fin_three]
  simp only [determinant3x3, Matrix.of_apply]
  ring

/-- **C46** (4x4). -/
theorem determinant4x4_is_det (a : Mat 4 4 K) : determinant4x4 a = Matrix.det (Matrix.of a) := by
  rw [Matrix.det_succ_column_zero, Fin.sum_univ_four]
  simp only [determinant4x4, determinant3x3_is_det]
  have e0 : (Matrix.of a).submatrix (Fin.succAbove 0) Fin.succ = Matrix.of ![![a 1 1, a 1 2, a 1 3], ![a 2 1, a 2 2, a 2 3], ![a 3 1, a 3 2, a 3 3]] := by
    ext i j; fin_cases i <;> fin_cases j <;> rfl
  have e1 : (Matrix.of a).submatrix (Fin.succAbove 1) Fin.succ = Matrix.of ![![a 0 1, a 0 2, a 0 3], ![a 2 1, a 2 2, a 2 3], ![a 3 1, a 3 2, a 3 3]] := by
    ext i j; fin_cases i <;> fin_cases j <;> rfl
  have e2 : (Matrix.of a).submatrix (Fin.succAbove 2) Fin.succ = Matrix.of ![![a 0 1, a 0 2, a 0 3], ![a 1 1, a 1 2, a 1 3], ![a 3 1, a 3 2, a 3 3]] := by
    ext i j; fin_cases i <;> fin_cases j <;> rfl
  have e3 : (Matrix.of a).submatrix (Fin.succAbove 3) Fin.succ = Matrix.of ![![a 0 1, a 0 2, a 0 3], ![a 1 1, a 1 2, a 1 3], ![a 2 1, a 2 2, a 2 3]] := by
    ext i j; fin_cases i <;> fin_cases j <;> rfl
  rw [e0, e1, e2, e3]
  have h2 : ((2 : Fin 4) : ℕ) = 2 := rfl
  have h3 : ((3 : Fin 4) : ℕ) = 3 := rfl
  simp only [Matrix.of_apply, Fin.val_zero, Fin.val_one, h2, h3]
  ring

/-- **C46** (5x5). -/
theorem determinant5x5_is_det (a : Mat 5 5 K) : determinant5x5 a = Matrix.det (Matrix.of a) := by
  rw [Matrix.det_succ_column_zero, Fin.sum_univ_five]
  simp only [determinant5x5, determinant4x4_is_det]
  have e0 : (Matrix.of a).submatrix (Fin.succAbove 0) Fin.succ = Matrix.of ![![a 1 1, a 1 2, a 1 3, a 1 4], ![a 2 1, a 2 2, a 2 3, a 2 4],
      ![a 3 1, a 3 2, a 3 3, a 3 4], ![a 4 1, a 4 2, a 4 3, a 4 4]] := by
    ext i j; fin_cases i <;> fin_cases j <;> rfl
  have e1 : (Matrix.of a).submatrix (Fin.succAbove 1) Fin.succ = Matrix.of ![![a 0 1, a 0 2, a 0 3, a 0 4], ![a 2 1, a 2 2, a 2 3, a 2 4],
      ![a 3 1, a 3 2, a 3 3, a 3 4], ![a 4 1, a 4 2, a 4 3, a 4 4]] := by
    ext i j; fin_cases i <;> fin_cases j <;> rfl
  have e2 : (Matrix.of a).submatrix (Fin.succAbove 2) Fin.succ = Matrix.of ![![a 0 1, a 0 2, a 0 3, a 0 4], ![a 1 1, a 1 2, a 1 3, a 1 4],
      ![a 3 1, a 3 2, a 3 3, a 3 4], ![a 4 1, a 4 2, a 4 3, a 4 4]] := by
    ext i j; fin_cases i <;> fin_cases j <;> rfl
  have e3 : (Matrix.of a).submatrix (Fin.succAbove 3) Fin.succ = Matrix.of ![![a 0 1, a 0 2, a 0 3, a 0 4], ![a 1 1, a 1 2, a 1 3, a 1 4],
      ![a 2 1, a 2 2, a 2 3, a 2 4], ![a 4 1, a 4 2, a 4 3, a 4 4]] := by
    ext i j; fin_cases i <;> fin_cases j <;> rfl
  have e4 : (Matrix.of a).submatrix (Fin.succAbove 4) Fin.succ = Matrix.of ![![a 0 1, a 0 2, a 0 3, a 0 4], ![a 1 1, a 1 2, a 1 3, a 1 4],
      ![a 2 1, a 2 2, a 2 3, a 2 4], ![a 3 1, a 3 2, a 3 3, a 3 4]] := by
    ext i j; fin_cases i <;> fin_cases j <;> rfl
  rw [e0, e1, e2, e3, e4]
  have h2 : ((2 : Fin 5) : ℕ) = 2 := rfl
  have h3 : ((3 : Fin 5) : ℕ) = 3 := rfl
  have h4 : ((4 : Fin 5) : ℕ) = 4 := rfl
  simp only [Matrix.of_apply, Fin.val_zero, Fin.val_one, h2, h3, h4]
  ring

/-- A concrete matrix: a permutation of the identity with a negative determinant. -/
example : determinant5x5 (K := ℤ) ![![0, 1, 0, 0, 0], ![1, 0, 0, 0, 0], ![0, 0, 1, 0, 0],
    ![0, 0, 0, 1, 0], ![7, 0, 0, 0, 1]] = -1 := by decide +kernel

end Verif.Predicates
