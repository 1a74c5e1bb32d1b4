import Verif.Startup.RunModel
import Verif.Domain.SourcesModel

/-!
# Sources in a run of the program

`/repo/src/arepo_postprocess/sources.rs`, `/repo/src/main.rs` lines 56-68 and `/repo/src/source_systems.rs`.  `none` is a panic.
-/

namespace Verif.Startup

open Verif.Geometry Verif.ExchangeData Verif.FileDist Verif.Sources

variable {V R : Type}

/-- How the values of the datasets of the stars are read: as positions or as numbers, and the rate of a star as a function of the
formation scale factor, the metallicity and the mass (`bpass_lookup(age, metallicity, mass) * escape_fraction`,
sources.rs lines 57-77; the lookup itself is C60). -/
structure Stars (V R : Type) where
  place : V → Vec 3 ℝ
  number : V → ℝ
  rate : ℝ → ℝ → ℝ → R

open Classical in
/-- `read_sources`, sources.rs lines 79-128, on rank `r` of `N`; the four datasets of the stars are `positions`, `metallicities`,
`factors` and `masses`.  `zip` ends with the shortest list. -/
noncomputable def Stars.read (T : Stars V R) (positions metallicities factors masses : List (List V)) (N r : ℕ) :
    Option (List (Source (Vec 3 ℝ) R)) :=
  match readDataset positions N r, readDataset metallicities N r, readDataset factors N r, readDataset masses N r with
  | some ps, some zs, some fs, some ms =>
    some (((((ps.zip zs).zip fs).zip ms).filter fun x => decide (0 < T.number x.1.2)).map fun x =>
      ⟨T.place x.1.1.1, T.rate (T.number x.1.2) (T.number x.1.1.2) (T.number x.2)⟩)
  | _, _, _, _ => none

/-- `SourceType`, arepo_postprocess/mod.rs lines 31-35: the stars of the input files, or a list in the parameter file. -/
inductive SourceType (V R : Type) where
  | fromIcs (positions metallicities factors masses : List (List V))
  | explicit (sources : List (Source (Vec 3 ℝ) R))

/-- The resource `Sources` on all ranks: main.rs lines 56-68 and `read_sources_system`, sources.rs lines 45-55.  Explicit sources
are only on the main rank, which is rank 0. -/
noncomputable def Stars.sources (T : Stars V R) (N : ℕ) : SourceType V R → Option (List (List (Source (Vec 3 ℝ) R)))
  | .fromIcs positions metallicities factors masses => (List.range N).mapM (T.read positions metallicities factors masses N)
  | .explicit sources => some ((List.range N).map fun r => if r = 0 then sources else [])

/-- `squared_euclidean` of the kiddo crate. -/
def squared (x y : Vec 3 ℝ) : ℝ := (x 0 - y 0) ^ 2 + (x 1 - y 1) ^ 2 + (x 2 - y 2) ^ 2

/-- `set_source_terms_system`, source_systems.rs lines 48-80, on all ranks, when `rows` are the components of the particles; their
source terms are zero before (main.rs line 164).  `cuts` is the decomposition. -/
noncomputable def Setup.deposit [AddCommGroup R] (S : Setup V) (nearest : List (Vec 3 ℝ) → Vec 3 ℝ → Option ℕ) (cuts : List ℕ)
    (sources : List (List (Source (Vec 3 ℝ) R))) (rows : List (List (Comps V))) : Option (List (List R)) :=
  Sources.deposit nearest (fun x => Decomp.owningRank S.search cuts ((key S.lo S.hi x).getD 0)) sources
    (rows.map fun l => (l.map fun a => (S.position a).getD 0, l.map fun _ => 0))

/-- The source term of the particle with id `u`. -/
def termOf [Zero R] (terms : List (List R)) (u : Sweep.Id) : R := (terms.getD u.rank []).getD u.idx 0

end Verif.Startup
