import Verif.Rounding.Model
import Verif.IO.TimerProps

/-!
# Specification of the snapshot timer in `f64`

Without rounding, snapshot `n` is due from `SnapshotTimer.dueTime p n = time_first_snapshot + n * time_between_snapshots` on.
-/

namespace Verif.Rounding

open SnapshotTimer

/-- The time of the first snapshot with the interval added `n` times, rounded after every addition. -/
def dueF (p : Params ℚ) : ℕ → ℚ
  | 0 => p.timeFirstSnapshot.getD 0
  | n + 1 => dueF p n ⊞ p.timeBetweenSnapshots

/-- The times for which the theorems hold: the interval between snapshots is not tiny and the first snapshot is not more than a million
intervals away. -/
structure Sensible (p : Params ℚ) : Prop where
  first : 0 ≤ p.timeFirstSnapshot.getD 0
  between : (1 : ℚ) / 2 ^ 900 ≤ p.timeBetweenSnapshots
  near : p.timeFirstSnapshot.getD 0 ≤ 2 ^ 20 * p.timeBetweenSnapshots

end Verif.Rounding
