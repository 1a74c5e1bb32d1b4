import Verif.Startup.RunModel
import Verif.Startup.Spec

/-! # Specification: the runs of the program on the same input -/

namespace Verif.Startup

open Verif.ExchangeData

variable {V : Type}

/-- The startup on `N` ranks does not panic for these files, and the particles of every rank have the components `rows`, in any
order. -/
def Started (S : Setup V) (m N : ℕ) (files : List (List (Row V))) (rows : List (List (Comps V))) : Prop :=
  ∃ world, S.startup N (columns m files) = some world ∧
    List.Forall₂ (fun (ps : Particles V) (l : List (Comps V)) => l.Perm (ps.map Prod.snd)) world rows

end Verif.Startup
