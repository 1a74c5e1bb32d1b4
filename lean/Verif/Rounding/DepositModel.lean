import Verif.Rounding.NearestModel
import Verif.Rounding.SeriesModel
import Verif.Domain.SourcesModel

/-!
# Photon sources in `f64`: model of `/repo/src/source_systems.rs`

The functions of `Verif/Domain/SourcesModel.lean` with every operation rounded.  The k-d tree (external crate) is a parameter
`nearest` with the contract `NearestContractF`.  `none` is a panic.
-/

namespace Verif.Rounding.Deposit

open Verif.Rounding Verif.Rounding.Nearest
open Verif.Geometry (Vec)
open Verif.Sources (Source)
open Verif.Remap (Nearest)

/-- The loop body of `set_source_terms_system`, source_systems.rs lines 63-71, on one rank.  The tree returns an index, and
`particles[index]` panics if there is no such particle. -/
def depositStepF (nearest : Nearest ℚ) (owner : Vec 3 ℚ → ℕ) (rank : ℕ) (positions : List (Vec 3 ℚ)) (terms : List ℚ)
    (s : Source (Vec 3 ℚ) ℚ) : Option (List ℚ) :=
  if owner s.pos = rank then
    let index := (nearest positions s.pos).2
    terms[index]?.map fun t => terms.set index (t ⊞ s.rate)
  else some terms

/-- `set_source_terms_system` on one rank, source_systems.rs lines 48-72. -/
def depositRankF (nearest : Nearest ℚ) (owner : Vec 3 ℚ → ℕ) (allSources : List (Source (Vec 3 ℚ) ℚ)) (rank : ℕ)
    (cells : List (Vec 3 ℚ) × List ℚ) : Option (List ℚ) :=
  allSources.foldlM (depositStepF nearest owner rank cells.1) cells.2

/-- `set_source_terms_system` on all ranks: `all_gather_varcount` (line 57) gives every rank the concatenation of the sources of
all ranks.  `world` has positions and source terms of the cells of each rank. -/
def depositF (nearest : Nearest ℚ) (owner : Vec 3 ℚ → ℕ) (sources : List (List (Source (Vec 3 ℚ) ℚ)))
    (world : List (List (Vec 3 ℚ) × List ℚ)) : Option (List (List ℚ)) :=
  world.zipIdx.mapM fun w => depositRankF nearest owner sources.flatten w.2 w.1

/-- The event `TotalLuminosity`, source_systems.rs lines 73-74. -/
def totalLuminosityF (sources : List (List (Source (Vec 3 ℚ) ℚ))) : ℚ :=
  sumF (sources.flatten.map Source.rate)

end Verif.Rounding.Deposit
