import Verif.GridFile.Model

/-!
# Grids read from a file: specification
-/

namespace Verif.GridFile

variable {A N V : Type}

/-- All particles of all ranks. -/
def allParticles (W : ℕ) (particles : ℕ → List (Particle V)) : List (Particle V) :=
  (List.range W).flatMap particles

/-- The particles are numbered consistently: the rank in an id is the rank holding the particle, and
no id and no unique id is used twice, on any rank (for the ids this is C17). -/
structure Consistent (W : ℕ) (particles : ℕ → List (Particle V)) : Prop where
  rank_eq : ∀ r < W, ∀ p ∈ particles r, p.id.rank = r
  unique : ((allParticles W particles).map (fun p => p.uid)).Nodup
  idsUnique : ((allParticles W particles).map (fun p => p.id)).Nodup

/-- `pid` is the id of the particle with unique id `u`, on whichever rank it is. -/
def Owns (W : ℕ) (particles : ℕ → List (Particle V)) (u : UId) (pid : PId) : Prop :=
  ∃ p ∈ allParticles W particles, p.uid = u ∧ p.id = pid

/-- The entry which a cell on rank `r` should hold for the neighbour `pid`. -/
def entryType (r : ℕ) (pid : PId) (periodic : Bool) : PType :=
  if periodic then .boundary else if pid.rank = r then .loc pid else .remote pid pid.rank

/-- The entries due to one connection in the cell of the particle with unique id `u` on rank `r`;
`own` gives the ids of particles.  The normal of the connection points out of the second cell. -/
def entriesOf [Neg N] (own : UId → PId) (r : ℕ) (u : UId) (c : Connection A N) :
    List (Face A N × PType) :=
  (if c.id1 = u ∧ c.type.periodic1 = false then
    [(⟨c.area, -c.normal⟩, entryType r (own c.id2) c.type.periodic2)] else []) ++
  (if c.id2 = u ∧ c.type.periodic2 = false then
    [(⟨c.area, c.normal⟩, entryType r (own c.id1) c.type.periodic1)] else [])

/-- A connection mentions a particle of rank `r`. -/
def Touches (W : ℕ) (particles : ℕ → List (Particle V)) (r : ℕ) (c : Connection A N) : Prop :=
  ∃ pid, pid.rank = r ∧ (Owns W particles c.id1 pid ∨ Owns W particles c.id2 pid)

end Verif.GridFile
