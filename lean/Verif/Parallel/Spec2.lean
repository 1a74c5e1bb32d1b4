import Verif.Parallel.Spec
import Verif.Parallel.Model2

/-! # Specification of the names of neighbours, in two dimensions -/

namespace Verif.Parallel.Plane

open Verif.Geometry

variable {Id : Type}

/-- How rank `own` calls image `k` of particle `id` of rank `s`: a particle of this rank by its id, a particle of another
rank by its id and this rank, other images with the wrap type in addition, or `Boundary` if the sweep is not
periodic. -/
def Name.Is (own : ℕ) (periodic : Bool) (s : ℕ) (id : Id) (k : Fin 2 → ℤ) : Name Id → Prop
  | .own id' => s = own ∧ k = 0 ∧ id' = id
  | .halo (.remote id' r) => s ≠ own ∧ k = 0 ∧ id' = id ∧ r = s
  | .halo (.localPeriodic id' w) => periodic = true ∧ s = own ∧ k ≠ 0 ∧ id' = id ∧ (fun i => shift (w i)) = k
  | .halo (.remotePeriodic id' r w) =>
    periodic = true ∧ s ≠ own ∧ k ≠ 0 ∧ id' = id ∧ r = s ∧ (fun i => shift (w i)) = k
  | .boundary => periodic = false ∧ k ≠ 0

/-- The places on the face between the regions of `a` and `b`: at the same distance from both, and no particle or image is
closer. -/
def face (W : World 2 Id) (a b : Vec 2 ℝ) : Set (Vec 2 ℝ) :=
  {y | distance y a = distance y b ∧ ∀ z, W.Site z → distance y a ≤ distance y z}

/-- Rank `own` has built the cells `G` of its grid: the construction ended on this rank and `sweep_grid` returned `G`, for any
Peano keys, heap, number of steps, initial search radius, order of the ranks and number of iterations. -/
def Built [DecidableEq Id] (periodic : Bool) (W : World 2 Id) (own : ℕ) (G : List (Name Id × SweepCell Id)) : Prop :=
  ∃ (key : Predicates.P2 ℝ → ℕ) (pop : Delaunay.Heaps) (hp : Delaunay.HeapsOk pop)
    (fuel : ℕ) (len : ℝ) (order : List ℕ) (n : ℕ) (g : Grid Id), order.Perm (List.range W.particles.length) ∧
    constructRank key hp fuel len order W own n = some g ∧ g.sweepGrid periodic = some G

end Verif.Parallel.Plane
