import Verif.Sweep.DeadlockProps
import Verif.Sweep.Examples

/-! # Examples for C91 -/

namespace Verif.Sweep

/-- `check_passes` and `check_sound`: the row of cells on two ranks. -/
example : checkDeadlock row rowStart = .passed ∧ ∃ f, (f, Neighbour.remote ⟨1, 0⟩) ∈ row.nbrs ⟨0, 0⟩ ∧
    (⟨1, 0⟩ : Id) ∈ row.act ∧ row.haloLevel 0 ⟨1, 0⟩ = row.level ⟨1, 0⟩ := by
  have h : checkDeadlock row rowStart = .passed :=
    check_passes row_wf row_acyclic (by decide) (by decide +kernel) _ _ _ _
  have he : ∃ e ∈ row.nbrs ⟨0, 0⟩, e.2 = Neighbour.remote ⟨1, 0⟩ := by decide +kernel
  obtain ⟨⟨f, nb⟩, he, rfl⟩ := he
  obtain ⟨h1, -, -, h2, -⟩ := check_sound h (u := ⟨0, 0⟩) (v := ⟨1, 0⟩) (by decide +kernel) (by decide) (by decide) (by decide) he
    (by decide +kernel)
  exact ⟨h, f, he, h1, h2⟩

/-- `check_hangs`: the same row when only the cell of rank 1 is active. -/
example : checkDeadlock { row with level := fun id => id.rank, current := 1 } rowStart = .hangs :=
  check_hangs (r := 0) (q := 1) (by decide) (by decide) (by decide +kernel) (by decide +kernel)

end Verif.Sweep
