import Verif.Parallel.Spec
import Verif.Parallel.Model3

/-! # Specification of the names of neighbours -/

namespace Verif.Parallel

open Verif.Geometry

variable {Id : Type}

/-- How rank `own` calls image `k` of particle `id` of rank `s`: a particle of this rank by its id, a particle of another
rank by its id and this rank, other images with the wrap type in addition, or `Boundary` if the sweep is not
periodic. -/
def Name.Is (own : ℕ) (periodic : Bool) (s : ℕ) (id : Id) (k : Fin 3 → ℤ) : Name Id → Prop
  | .own id' => s = own ∧ k = 0 ∧ id' = id
  | .halo (.remote id' r) => s ≠ own ∧ k = 0 ∧ id' = id ∧ r = s
  | .halo (.localPeriodic id' w) => periodic = true ∧ s = own ∧ k ≠ 0 ∧ id' = id ∧ (fun i => shift (w i)) = k
  | .halo (.remotePeriodic id' r w) =>
    periodic = true ∧ s ≠ own ∧ k ≠ 0 ∧ id' = id ∧ r = s ∧ (fun i => shift (w i)) = k
  | .boundary => periodic = false ∧ k ≠ 0

/-- Rank `own` has built the cells `G` of its grid: the construction ended on this rank and `sweep_grid` returned `G`, for any
tolerance of the predicates, Peano keys, heap, number of steps, initial search radius, order of the ranks and number of
iterations. -/
def Built [DecidableEq Id] (eps' : ℝ) (periodic : Bool) (W : World 3 Id) (own : ℕ) (G : List (Name Id × SweepCell Id)) : Prop :=
  0 < eps' ∧ ∃ (eps : ℝ) (key : Predicates.P3 ℝ → ℕ) (pop : Delaunay.Heaps) (hp : Delaunay.HeapsOk pop)
    (fuel : ℕ) (len : ℝ) (order : List ℕ) (n : ℕ) (g : Grid3 Id), 0 < eps ∧ order.Perm (List.range W.particles.length) ∧
    constructRank eps eps' key hp fuel len order W own n = some g ∧ g.sweepGrid eps' periodic = some G

end Verif.Parallel
