import Mathlib.Data.List.Basic
import Mathlib.Data.Int.Init
import Mathlib.Tactic.Common

/-!
# Tags of messages

Model of the tags of `/repo/src/communication/mpi_world.rs` and of how messages are matched with them.  MPI guarantees that
messages from one process to another with the same tag do not overtake each other, so the messages on their way from one rank to
another are a list here, and a receiving call takes the first one with its tag.
-/

namespace Verif.Tags

/-- `hash as i16`, mpi_world.rs line 80: the lower 16 bits, in two's complement. -/
def asI16 (hash : ℕ) : ℤ :=
  let low : ℕ := hash % 2 ^ 16
  if low < 2 ^ 15 then low else (low : ℤ) - 2 ^ 16

/-- `get_tag_for_type`, mpi_world.rs lines 76-81, for a type with the given hash.  `i16::abs` of the smallest number is an
overflow: a panic (`none`) with overflow checks; without them the result is negative, which is not a valid tag either. -/
def tagForHash (hash : ℕ) : Option ℤ :=
  let x := asI16 hash
  if x = -2 ^ 15 then none else some (x.natAbs : ℤ)

/-- The tags given to `new_custom_tag`: domain/decomposition.rs lines 265 and 269, sweep/mod.rs line 236,
arepo_postprocess/read_grid/mod.rs line 259 and sweep/deadlock_detection.rs line 17. -/
def customTags : List ℤ := [9001, 9000, 91100, 98122, 99123151]

/-- What happens between two ranks: one sends a message of kind `k` with `immediate_send_vec` or `blocking_send_vec` (mpi_world.rs
lines 151-166), or the other one calls `receive_vec` or successfully `try_receive_vec` (lines 134-149) for messages of kind
`k` and gets one which was sent as kind `k'`. -/
inductive Event (K P : Type)
  | send (k : K) (p : P)
  | receive (k k' : K) (p : P)

variable {K P : Type} [DecidableEq K] [DecidableEq P]

/-- `matched_probe_with_tag` and `matched_receive_vec`: the first message with this tag, and the others. -/
def takeTag (tagOf : K → ℤ) (t : ℤ) : List (K × P) → Option ((K × P) × List (K × P))
  | [] => none
  | m :: ms =>
    if tagOf m.1 = t then some (m, ms)
    else (takeTag tagOf t ms).map fun r => (r.1, m :: r.2)

/-- The messages on their way after an event; `none` if the event is impossible. -/
def wireStep (tagOf : K → ℤ) (wire : List (K × P)) : Event K P → Option (List (K × P))
  | .send k p => some (wire ++ [(k, p)])
  | .receive k k' p =>
    match takeTag tagOf (tagOf k) wire with
    | some (m, ms) => if m = (k', p) then some ms else none
    | none => none

/-- A sequence of events is possible. -/
def Possible (tagOf : K → ℤ) (events : List (Event K P)) : Prop :=
  (events.foldlM (wireStep tagOf) []).isSome

end Verif.Tags
