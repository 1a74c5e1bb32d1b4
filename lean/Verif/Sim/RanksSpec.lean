import Verif.Sim.WholeModel
import Verif.Sim.Spec
import Verif.Parallel.SameSpec

/-! # Specification: the same simulation on other ranks -/

namespace Verif.Sim

open Verif.Parallel Verif.Geometry

/-- `u` and `u'` are the names of the particles at the same place in the worlds `W` and `W'`. -/
def SamePlace (W W' : World 3 Sweep.Id) (u u' : Sweep.Id) : Prop :=
  ∃ r, ∃ p ∈ W.ofRank r, ∃ r', ∃ p' ∈ W'.ofRank r', p.1 = u ∧ p'.1 = u' ∧ p'.2 = p.2

/-- Directions, chemistry and sources are the same for particles at the same place.  The number of tasks which are solved
before messages are sent can be different. -/
structure SamePhysics {R C : Type} (W W' : World 3 Sweep.Id) (Ph Ph' : Physics R C) : Prop where
  numDirs : Ph'.numDirs = Ph.numDirs
  dir : Ph'.dir = Ph.dir
  rotate : Ph'.rotate = Ph.rotate
  makePositive : Ph'.makePositive = Ph.makePositive
  timescale : Ph'.timescale = Ph.timescale
  safety : Ph'.safety = Ph.safety
  source : ∀ u u', SamePlace W W' u u' → Ph'.source u' = Ph.source u
  absorb : ∀ u u', SamePlace W W' u u' → ∀ c, Ph'.absorb c u' = Ph.absorb c u
  react : ∀ u u', SamePlace W W' u u' → ∀ dt, Ph'.react dt u' = Ph.react dt u

end Verif.Sim
