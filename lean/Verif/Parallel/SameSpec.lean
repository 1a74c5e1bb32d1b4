import Verif.Parallel.Spec3

/-! # Specification: the same particles on other ranks -/

namespace Verif.Parallel

open Verif.Geometry

variable {Id Id' : Type}

/-- Two worlds have the same box and particles at the same places; the number of ranks, the ranks of the particles, their
order and their ids can be different. -/
structure SameParticles {d : ℕ} (W : World d Id) (W' : World d Id') : Prop where
  lo : W'.lo = W.lo
  hi : W'.hi = W.hi
  places : ∀ x : Vec d ℝ, (∃ r, ∃ p ∈ W.ofRank r, p.2 = x) ↔ ∃ r, ∃ p ∈ W'.ofRank r, p.2 = x

/-- The faces `f` and `f'` of cells on rank `own` of the world `W` and on rank `own'` of the world `W'` are the same: they have
the same area and normal, and behind them is the same image `k` of a particle at the same place. -/
def SameFace (periodic : Bool) (W : World 3 Id) (W' : World 3 Id') (own own' : ℕ) (f : ℝ × Predicates.P3 ℝ × Name Id)
    (f' : ℝ × Predicates.P3 ℝ × Name Id') : Prop :=
  f'.1 = f.1 ∧ f'.2.1 = f.2.1 ∧ ∃ s, ∃ q ∈ W.ofRank s, ∃ s', ∃ q' ∈ W'.ofRank s', ∃ k, q'.2 = q.2 ∧
    Name.Is own periodic s q.1 k f.2.2 ∧ Name.Is own' periodic s' q'.1 k f'.2.2

end Verif.Parallel
