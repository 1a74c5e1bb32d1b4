import Verif.IO.OutputDirsModel

/-!
# Names and directories of the output: specification
-/

namespace Verif.OutputDirs

variable {α : Type}

/-- The directory for snapshots is not that for logs. -/
def Params.Ok (p : Params) : Prop := p.snapshotsDir.head? ≠ some "logs".toList

/-- The working directory exists, and everything else is in a directory. -/
structure WellFormed (fs : Fs α) : Prop where
  root : fs [] = some .dir
  parent : ∀ q, q ≠ [] → fs q ≠ none → fs q.dropLast = some .dir

/-- The ranks do what their programs say, in any common order. -/
structure Interleaved (prog : ℕ → List (Op α)) (N : ℕ) (ops : List (ℕ × Op α)) : Prop where
  owner : ∀ o ∈ ops, o.1 < N
  prog : ∀ r, r < N → (ops.filter (fun o => o.1 = r)).map Prod.snd = prog r

/-- The run is to write content `a` to the path: the log of a rank or a file of a snapshot. -/
def Written (p : Params) (c : Contents α) (N n : ℕ) (path : Path) (a : α) : Prop :=
  (∃ r, r < N ∧ path = p.outputDir ++ ["logs".toList, logName N r] ∧ a = c.log r) ∨
  ∃ num i, num < n ∧ i ∈ p.indices ∧
    path = p.outputDir ++ p.snapshotsDir ++ [padded p.snapshotPadding num, fileName p.numFiles i] ∧ a = c.snapshot num i

/-- Nothing in the old directory is in the way: no file where a directory is needed, no directory where a file is
written. -/
structure Compatible (p : Params) (c : Contents α) (N n : ℕ) (fs : Fs α) : Prop where
  notFile : ∀ q b, (q <+: p.outputDir ++ ["logs".toList] ∨ q <+: p.snapshotDir ∨
    ∃ num, num < n ∧ q <+: p.snapshotPath num) → fs q ≠ some (.file b)
  notDir : ∀ q a, Written p c N n q a → fs q ≠ some .dir

end Verif.OutputDirs
