import Verif.Parallel.Spec2
import Verif.Parallel.SameSpec

/-! # Specification: the same particles on other ranks, in two dimensions -/

namespace Verif.Parallel.Plane

open Verif.Geometry

variable {Id Id' : Type}

/-- The faces `f` and `f'` of cells on rank `own` of the world `W` and on rank `own'` of the world `W'` are the same: they have
the same area and normal, and behind them is the same image `k` of a particle at the same place. -/
def SameFace (periodic : Bool) (W : World 2 Id) (W' : World 2 Id') (own own' : ℕ) (f : ℝ × Predicates.P2 ℝ × Name Id)
    (f' : ℝ × Predicates.P2 ℝ × Name Id') : Prop :=
  f'.1 = f.1 ∧ f'.2.1 = f.2.1 ∧ ∃ s, ∃ q ∈ W.ofRank s, ∃ s', ∃ q' ∈ W'.ofRank s', ∃ k, q'.2 = q.2 ∧
    Name.Is own periodic s q.1 k f.2.2 ∧ Name.Is own' periodic s' q'.1 k f'.2.2

end Verif.Parallel.Plane
