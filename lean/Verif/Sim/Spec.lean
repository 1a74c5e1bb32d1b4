import Verif.Sim.Model
import Verif.Parallel.Spec3

/-! # Specification: the world of the sweep -/

namespace Verif.Sim

open Verif.Parallel Verif.Geometry

/-- The ids of the particles of every rank count them. -/
def Numbered (W : World 3 Sweep.Id) : Prop :=
  ∀ r, (W.ofRank r).map Prod.fst = (List.range (W.ofRank r).length).map (Sweep.Id.mk r)

/-- The ranks have built the grids `G` of the world `W` together: the box is a cube, no particle is on its upper faces, the
particles are numbered, and the construction has ended on every rank. -/
structure Ready (eps' : ℝ) (periodic : Bool) (W : World 3 Sweep.Id) (G : ℕ → List (Name Sweep.Id × Cell)) : Prop where
  valid : W.Valid
  cube : ∀ i, W.hi i - W.lo i = W.hi 0 - W.lo 0
  inside : ∀ r, ∀ p ∈ W.ofRank r, ∀ i, p.2 i < W.hi i
  ids : Numbered W
  built : ∀ r, r < W.particles.length → Built eps' periodic W r (G r)

/-- The levels after the updates: those of the last one, at the start the highest level. -/
def levelsAfter (numLevels : ℕ) (updates : List (Sweep.Id → ℕ)) : Sweep.Id → ℕ := updates.getLastD fun _ => numLevels - 1

end Verif.Sim
