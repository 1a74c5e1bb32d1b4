import Verif.Halo.Model

/-! # Specification of the halo iteration -/

namespace Verif.Halo

variable {Id W C K S : Type} [DecidableEq Id] [DecidableEq W]

/-- What the iteration requires of a triangulation: a tetra which exists after an insertion existed before,
unchanged, or is new, on the returned list and has an index which was never used before (`next` bounds the used
indices). -/
structure TriOk (T : Tri S C K) (next : S → ℕ) : Prop where
  lt : ∀ s, ∀ t ∈ T.tetras s, t < next s
  mono : ∀ s p s' ch, T.insert s p = some (s', ch) → next s ≤ next s'
  insert : ∀ s p s' ch, T.insert s p = some (s', ch) → ∀ t ∈ T.tetras s',
    (t ∈ ch ∧ next s ≤ t) ∨
    (t ∈ T.tetras s ∧ T.radius s' t = T.radius s t ∧ T.centre s' t = T.centre s t ∧ T.inner s' t = T.inner s t)

/-- What it requires of the surroundings: the results of every rank are looked at once, and there is only one
wrap type which is not periodic. -/
structure EnvOk (E : Env Id W C K) : Prop where
  ranks : E.ranks.Nodup
  wrap : ∀ w w', E.periodic w = false → E.periodic w' = false → w = w'

/-- Image `i` of rank `r` has to be imported if it is found: images of the own rank only if they are
periodic. -/
def Wanted (E : Env Id W C K) (r : ℕ) (i : Image Id W C) : Prop := r ≠ E.own ∨ E.periodic i.wrap = true

/-- The panics which are not excluded: an insertion into the triangulation, and a search if there are searches
which panic. -/
def MayPanic (E : Env Id W C K) (e : Panic) : Prop :=
  e = .insertion ∨ e = .search ∧ ∃ d, E.fails d = true

end Verif.Halo
