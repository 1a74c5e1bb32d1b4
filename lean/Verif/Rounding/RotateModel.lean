import Verif.Direction.TableModel
import Verif.Rounding.Model

/-!
# The directions of the sweep in `f64`: model of `/repo/src/sweep/direction/mod.rs`

As `Verif/Direction/Model.lean` and `TableModel.lean`, with every operation rounded.  Sine, cosine and arc cosine are functions of the
platform; they are parameters.  The random numbers are inputs.
-/

namespace Verif.Rounding.Rotate

open Verif.Direction

/-- What is expected of sine and cosine: an error of at most `2^-52`.  (The result of an arc cosine may be anything.) -/
def TrigContractF (cosF sinF : ℚ → ℚ) : Prop :=
  ∀ x : ℚ, |(cosF x : ℝ) - Real.cos x| ≤ 1 / 2 ^ 52 ∧ |(sinF x : ℝ) - Real.sin x| ≤ 1 / 2 ^ 52

/-- `Directions::from_num` (three dimensions), direction/mod.rs lines 59-76: the numbers of the table are rounded to `f64` by the
compiler, and multiplied by one.  Other numbers panic. -/
def fromNumF (num : ℕ) : Option (List (V3 ℚ)) :=
  (bins num).map fun l => l.map fun v => ⟨fl v.x ⊠ 1, fl v.y ⊠ 1, fl v.z ⊠ 1⟩

/-- `get_rotation_matrix`, direction/mod.rs lines 114-134. -/
def getRotationMatrixF (cosF sinF : ℚ → ℚ) (axis : V3 ℚ) (angle : ℚ) : M3 ℚ :=
  let x := axis.x
  let y := axis.y
  let z := axis.z
  let cos := cosF angle
  let sin := sinF angle
  ![![cos ⊞ x ⊠ x ⊠ (1 ⊟ cos), x ⊠ y ⊠ (1 ⊟ cos) ⊟ z ⊠ sin, x ⊠ z ⊠ (1 ⊟ cos) ⊞ y ⊠ sin],
    ![y ⊠ x ⊠ (1 ⊟ cos) ⊞ z ⊠ sin, cos ⊞ y ⊠ y ⊠ (1 ⊟ cos), y ⊠ z ⊠ (1 ⊟ cos) ⊟ x ⊠ sin],
    ![z ⊠ x ⊠ (1 ⊟ cos) ⊟ y ⊠ sin, z ⊠ y ⊠ (1 ⊟ cos) ⊞ x ⊠ sin, cos ⊞ z ⊠ z ⊠ (1 ⊟ cos)]]

/-- The polar angle of `get_random_rotation_matrix`, direction/mod.rs line 139. -/
def thetaF (acosF : ℚ → ℚ) (rand : ℚ) : ℚ := acosF (2 ⊠ rand ⊟ 1)

/-- `get_random_rotation_matrix`, direction/mod.rs lines 136-148, as a function of the three random numbers. -/
def getRandomRotationMatrixF (cosF sinF acosF : ℚ → ℚ) (phi rand psi : ℚ) : M3 ℚ :=
  let theta := thetaF acosF rand
  let axis : V3 ℚ := ⟨cosF phi ⊠ sinF theta, sinF phi ⊠ sinF theta, cosF theta⟩
  getRotationMatrixF cosF sinF axis psi

/-- `multiply_by_matrix`, direction/mod.rs lines 150-155. -/
def multiplyByMatrixF (v : V3 ℚ) (m : M3 ℚ) : V3 ℚ :=
  { x := v.x ⊠ m 0 0 ⊞ v.y ⊠ m 0 1 ⊞ v.z ⊠ m 0 2
    y := v.x ⊠ m 1 0 ⊞ v.y ⊠ m 1 1 ⊞ v.z ⊠ m 1 2
    z := v.x ⊠ m 2 0 ⊞ v.y ⊠ m 2 1 ⊞ v.z ⊠ m 2 2 }

/-- The directions after the rotations with the given random numbers (`rotate_directions_system`, direction/mod.rs lines 158-167, only
the directions; the remapping of the rates is in `Verif/Direction/Model.lean`). -/
def rotationsF (cosF sinF acosF : ℚ → ℚ) (draws : List (ℚ × ℚ × ℚ)) (dirs : List (V3 ℚ)) : List (V3 ℚ) :=
  draws.foldl (fun dirs d =>
    dirs.map fun v => multiplyByMatrixF v (getRandomRotationMatrixF cosF sinF acosF d.1 d.2.1 d.2.2)) dirs

end Verif.Rounding.Rotate
