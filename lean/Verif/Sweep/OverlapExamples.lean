import Verif.Sweep.OverlapProps
import Verif.Sweep.Examples

/-! # Several sweeps one after the other: concrete runs -/

namespace Verif.Sweep

section
variable {K R C : Type} [Field K] [LinearOrder K] [AddCommGroup R] [Module K R]

/-- The step of rank `r` with label `a`, if it is possible. -/
def onext (P : Sequence K R C) (O : Overlap R C) (r : Nat) : OAct → Option (Overlap R C)
  | .inner a => (next (P.grid (O.sweep r) O.chem) O.s r a).map (fun s' => { O with s := s' })
  | .next => if r < P.base.numRanks ∧ (O.s.pc r).isDone = true ∧ O.sweep r + 1 < P.num then
      some { s := P.begin (O.sweep r + 1) r (P.evolve (O.sweep r) r O.s O.chem) O.s
             sweep := fun x => if x = r then O.sweep r + 1 else O.sweep x
             chem := P.evolve (O.sweep r) r O.s O.chem }
    else none

theorem onext_sound {P : Sequence K R C} {O O' : Overlap R C} {r : Nat} {a : OAct} (h : onext P O r a = some O') :
    OStep P r a O O' := by
  cases a with
  | inner a =>
    obtain ⟨s', h1, rfl⟩ := Option.map_eq_some_iff.1 h
    exact .inner O s' r a (next_sound h1)
  | next =>
    rw [onext] at h
    split at h
    · rename_i hc
      cases h
      exact .next O r hc.1 (PC.isDone_iff.1 hc.2.1) hc.2.2
    · cases h

/-- Several steps. -/
def oplay (P : Sequence K R C) (O : Overlap R C) : List (Nat × OAct) → Option (Overlap R C)
  | [] => some O
  | x :: xs => (onext P O x.1 x.2).bind (fun O' => oplay P O' xs)

theorem oplay_reach {P : Sequence K R C} {b : Rates R C} {O O' : Overlap R C} (h : OReach P b O)
    {acts : List (Nat × OAct)} (h' : oplay P O acts = some O') : OReach P b O' := by
  induction acts generalizing O with
  | nil => cases h'; exact h
  | cons x xs ih =>
    obtain ⟨O1, h1, h2⟩ := Option.bind_eq_some_iff.1 h'
    exact ih (.step _ _ _ _ h (onext_sound h1)) h2
end

/-- Two cells on two ranks, radiation goes from the first to the second.  Two sweeps: both cells have level 1, the levels are
1 and 0.  A cell lets through its incoming rate, its source and its state, and a sweep adds the incoming rate to the state. -/
def twice : Sequence ℚ ℚ ℚ where
  base := { pair 1 0 with source := fun id => if id = ⟨0, 0⟩ then 3 else 0 }
  num := 2
  level := fun k => 1 - k
  absorb := fun c _ x => x + c
  react := fun _ _ c inc _ => c + inc.sum + 1

theorem twice_wf : WF twice.base := by
  refine WF.of_check ?_ ?_ ?_ <;> decide +kernel

theorem twice_acyclic : ∀ k < twice.num, Acyclic { twice.base with current := twice.level k } := by
  intro k hk
  refine ⟨fun _ u => u.rank, ?_⟩
  have : k = 0 ∨ k = 1 := by have : k < 2 := hk; omega
  rcases this with rfl | rfl <;> (unfold Feeds; decide +kernel)

theorem twice_noPeriodic : NoPeriodic twice.base := by
  intro u hu e he v
  have : ∀ u ∈ twice.base.cells, ∀ e ∈ twice.base.nbrs u, (match e.2 with
      | .locPeriodic _ => false | .remotePeriodic _ => false | _ => true) = true := by decide +kernel
  have := this u hu e he
  constructor <;> intro h <;> rw [h] at this <;> simp at this

def zeroRates : Rates ℚ ℚ := ⟨fun _ _ => 0, fun _ _ => 0, fun _ _ => 0, fun _ _ => 0, fun _ => 0⟩

/-- The first rank makes both sweeps. -/
def ahead : List (Nat × OAct) :=
  let yes : Nat → Bool := fun _ => true
  let one := [OAct.inner .enterWork, .inner (.pop ⟨⟨0, 0⟩, 0⟩), .inner .workDone, .inner (.send yes), .inner .enterRecv,
    .inner .skip, .inner .recvDone, .inner .workDone, .inner (.send yes), .inner .exit]
  (one ++ [OAct.next] ++ one).map (fun a => (0, a))

/-- The second rank follows. -/
def behind : List (Nat × OAct) :=
  let yes : Nat → Bool := fun _ => true
  let one := [OAct.inner .enterRecv, .inner (.take 0), .inner .recvDone, .inner (.pop ⟨⟨1, 0⟩, 0⟩), .inner .workDone,
    .inner (.send yes), .inner .exit]
  (one ++ [OAct.next] ++ one).map (fun a => (1, a))

/-- The interesting part of a state: sweeps of both ranks, messages of the first to the second, rates of both cells. -/
def osummary (O : Overlap ℚ ℚ) : List Nat × List Bool × List Nat × List ℚ :=
  ([O.sweep 0, O.sweep 1], [(O.s.pc 0).isDone, (O.s.pc 1).isDone], (O.s.chan 0 1).map List.length,
    [(⟨0, 0⟩ : Id), ⟨1, 0⟩].flatMap (fun v => [O.s.inc v 0, O.s.out v 0, O.chem v]))

/-- The first rank has finished both sweeps while the second has not begun: messages of both sweeps are on their way. -/
theorem twice_ahead : (oplay twice (twice.start zeroRates) ahead).map osummary =
    some ([1, 0], [true, false], [1, 1], [0, 4, 1, 0, 0, 0]) := by decide +kernel

theorem twice_done : (oplay twice (twice.start zeroRates) (ahead ++ behind)).map osummary =
    some ([1, 1], [true, true], [], [0, 4, 1, 4, 8, 4]) := by decide +kernel

theorem twice_result : ∃ O, OReach twice zeroRates O ∧ twice.Done O ∧ (twice.result O).inc ⟨1, 0⟩ 0 = 4 ∧
    (twice.result O).chem ⟨1, 0⟩ = 9 := by
  have h := twice_done
  rw [Option.map_eq_some_iff] at h
  obtain ⟨O, h1, h2⟩ := h
  simp only [osummary, Prod.mk.injEq, List.flatMap_cons, List.flatMap_nil, List.cons_append, List.nil_append,
    List.append_nil, List.cons.injEq, and_true] at h2
  obtain ⟨⟨a0, a1⟩, ⟨d0, d1⟩, -, -, -, -, i1, -, c1⟩ := h2
  refine ⟨O, oplay_reach .refl h1, ?_, i1, ?_⟩
  · intro r hr
    have hr : r < 2 := hr
    rcases (by omega : r = 0 ∨ r = 1) with rfl | rfl
    · exact ⟨by rw [a0]; rfl, PC.isDone_iff.1 d0⟩
    · exact ⟨by rw [a1]; rfl, PC.isDone_iff.1 d1⟩
  · have hact : (⟨1, 0⟩ : Id) ∈ (twice.grid 1 O.chem).act := by
      rw [mem_act]
      exact ⟨show (⟨1, 0⟩ : Id) ∈ twice.base.cells by decide +kernel, decide_eq_true (Nat.zero_le _)⟩
    show twice.evolve 1 1 O.s O.chem ⟨1, 0⟩ = 9
    rw [Sequence.evolve, if_pos ⟨rfl, hact⟩, c1]
    show 4 + ([O.s.inc ⟨1, 0⟩ 0]).sum + 1 = _
    rw [i1]
    norm_num

/-- C92: the state in which both ranks have finished is a result of waiting ranks, every other one is the same, nothing is
left in the network. -/
example : ∃ O, OReach twice zeroRates O ∧ twice.Waiting zeroRates 2 (twice.result O) ∧
    (∀ r < 2, ∀ q, O.s.chan r q = []) ∧
    ∀ O', OReach twice zeroRates O' → twice.Done O' → (twice.result O').chem ⟨1, 0⟩ = 9 := by
  obtain ⟨O, h, hd, -, hc⟩ := twice_result
  refine ⟨O, h, overlapped_is_waiting twice_wf (by decide) h hd, fun r hr q =>
    (overlapped_leaves_nothing twice_wf h hd r hr q).1, fun O' h' hd' => ?_⟩
  rw [← hc]
  exact (overlapped_result_unique twice_wf twice_noPeriodic (by decide) twice_acyclic h' hd' h hd ⟨1, 0⟩ (by decide +kernel)).2

/-- C92: there are fair executions, they end. -/
example : ∃ E : OExecution twice zeroRates, E.Fair ∧ ∃ n, twice.Done (E.st n) := by
  obtain ⟨E, hE⟩ := exists_fair_overlap twice_wf (by decide) zeroRates
  exact ⟨E, hE, overlapped_terminates twice_wf (by decide) twice_acyclic E hE⟩

/-- C92: the second rank can go on while the first has already finished. -/
example : ∃ O, OReach twice zeroRates O ∧ O.sweep 0 = 1 ∧ O.sweep 1 = 0 ∧ (O.s.chan 0 1).length = 2 ∧
    ∃ a O', OStep twice 1 a O O' := by
  have h := twice_ahead
  rw [Option.map_eq_some_iff] at h
  obtain ⟨O, h1, h2⟩ := h
  simp only [osummary, Prod.mk.injEq, List.cons.injEq, and_true] at h2
  refine ⟨O, oplay_reach .refl h1, h2.1.1, h2.1.2, by simpa using congrArg List.length h2.2.2.1, ?_⟩
  refine (overlapped_never_panics twice_wf (by decide) (oplay_reach .refl h1) (by decide)).1 fun hd => ?_
  rw [h2.1.2] at hd
  exact absurd hd.2 (by decide)

end Verif.Sweep
