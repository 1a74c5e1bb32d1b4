import Verif.Startup.SourcesModel
import Verif.Startup.RunSpec

/-! # Specification: stars of the input files, and where a source belongs -/

namespace Verif.Startup

open Verif.Geometry Verif.ExchangeData Verif.Sources

variable {V R : Type}

/-- The datasets of the stars; a row has position, metallicity, formation scale factor and mass. -/
def starColumns (stars : List (List (Row V))) : SourceType V R :=
  .fromIcs (stars.map fun f => f.map fun row => row 0) (stars.map fun f => f.map fun row => row 1)
    (stars.map fun f => f.map fun row => row 2) (stars.map fun f => f.map fun row => row 3)

open Classical in
/-- The stars among the rows (the others are wind) as sources. -/
noncomputable def starSources (T : Stars V R) (stars : List (Row V)) : List (Source (Vec 3 ℝ) R) :=
  (stars.filter fun row => decide (0 < T.number (row 2))).map fun row =>
    ⟨T.place (row 0), T.rate (T.number (row 2)) (T.number (row 1)) (T.number (row 3))⟩

/-- The particle `a` is on the rank which has the key of the position `x`, and no other particle of any rank is as close
to `x` as it is. -/
def Settled (S : Setup V) (cuts : List ℕ) (rows : List (List (Comps V))) (x : Vec 3 ℝ) (a : Comps V) : Prop :=
  a ∈ rows.getD (Decomp.owningRank S.search cuts ((key S.lo S.hi x).getD 0)) [] ∧
  ∀ b ∈ rows.flatten, (S.position b).getD 0 ≠ (S.position a).getD 0 →
    squared x ((S.position a).getD 0) < squared x ((S.position b).getD 0)

end Verif.Startup
