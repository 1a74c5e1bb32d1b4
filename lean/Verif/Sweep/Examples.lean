import Verif.Sweep.ConservationProps
import Verif.Sweep.Runner
import Mathlib.Algebra.Field.Rat

/-!
# The distributed sweep: concrete grids and runs
-/

namespace Verif.Sweep

section
variable {K R : Type} [Field K] [LinearOrder K]

/-- What `WF` asks of one entry. -/
def entryOk (G : Grid K R) (u : Id) (e : Face K × Neighbour) : Bool :=
  match e.2 with
  | .loc v => decide (v ∈ G.cells ∧ v.rank = u.rank)
  | .locPeriodic v => decide (v ∈ G.cells ∧ v.rank = u.rank)
  | .remote v => decide (v ∈ G.cells ∧ v.rank ≠ u.rank ∧ G.haloLevel u.rank v = G.level v)
  | .remotePeriodic v => decide (v ∈ G.cells ∧ v.rank ≠ u.rank ∧ G.haloLevel u.rank v = G.level v)
  | .boundary => true

theorem WF.of_check {G : Grid K R} (h1 : ∀ u ∈ G.cells, u.rank < G.numRanks)
    (h2 : ∀ u ∈ G.cells, ∀ e ∈ G.nbrs u, entryOk G u e = true)
    (h3 : ∀ u ∈ G.cells, ∀ v ∈ G.cells, ∀ p,
      (normals G v u p).Perm ((normals G u v p).map V3.neg)) : WF G := by
  refine ⟨h1, ?_, ?_, h3⟩
  · rintro u hu f v (h | h)
    · simpa [entryOk] using h2 u hu _ h
    · simpa [entryOk] using h2 u hu _ h
  · rintro u hu f v (h | h)
    · simpa [entryOk] using h2 u hu _ h
    · simpa [entryOk] using h2 u hu _ h
end

/-- Three cells in a row, the middle one on rank 1, swept in both directions. -/
def row : Grid ℚ ℚ where
  numRanks := 2
  numDirs := 2
  cells := {⟨0, 0⟩, ⟨1, 0⟩, ⟨0, 1⟩}
  nbrs := fun id =>
    if id = ⟨0, 0⟩ then [(⟨1, ⟨-1, 0, 0⟩⟩, .boundary), (⟨1, ⟨1, 0, 0⟩⟩, .remote ⟨1, 0⟩)]
    else if id = ⟨1, 0⟩ then [(⟨1, ⟨-1, 0, 0⟩⟩, .remote ⟨0, 0⟩), (⟨1, ⟨1, 0, 0⟩⟩, .remote ⟨0, 1⟩)]
    else [(⟨1, ⟨-1, 0, 0⟩⟩, .remote ⟨1, 0⟩), (⟨1, ⟨1, 0, 0⟩⟩, .boundary)]
  dir := fun d => if d = 0 then ⟨1, 0, 0⟩ else ⟨-1, 0, 0⟩
  level := fun _ => 0
  haloLevel := fun _ _ => 0
  current := 0
  absorb := fun _ x => x / 2
  source := fun id => if id = ⟨0, 0⟩ then 8 else 0
  makePositive := fun x => max x 0
  batch := 10

theorem row_wf : WF row := by
  refine WF.of_check ?_ ?_ ?_ <;> decide +kernel

theorem row_acyclic : Acyclic row := by
  refine ⟨fun d u => if d = 0 then (if u = ⟨0, 0⟩ then 0 else if u = ⟨1, 0⟩ then 1 else 2)
    else (if u = ⟨0, 0⟩ then 2 else if u = ⟨1, 0⟩ then 1 else 0), ?_⟩
  unfold Feeds
  decide +kernel

theorem row_noPeriodic : NoPeriodic row := by
  intro u hu e he v
  have : ∀ u ∈ row.cells, ∀ e ∈ row.nbrs u, (match e.2 with
      | .locPeriodic _ => false | .remotePeriodic _ => false | _ => true) = true := by decide +kernel
  have := this u hu e he
  constructor <;> intro h <;> rw [h] at this <;> simp at this

/-- Steps of rank 0 and rank 1. -/
def rowActs : List (Nat × Act) :=
  let yes : Nat → Bool := fun _ => true
  [(0, .enterWork), (0, .pop ⟨⟨0, 0⟩, 0⟩), (0, .pop ⟨⟨0, 1⟩, 1⟩), (0, .workDone), (0, .send yes),
   (1, .enterRecv), (1, .take 0), (1, .recvDone), (1, .pop ⟨⟨1, 0⟩, 1⟩), (1, .pop ⟨⟨1, 0⟩, 0⟩),
   (1, .workDone), (1, .send yes),
   (0, .enterRecv), (0, .take 1), (0, .recvDone), (0, .pop ⟨⟨0, 1⟩, 0⟩), (0, .pop ⟨⟨0, 0⟩, 1⟩),
   (0, .workDone), (0, .send yes), (0, .exit),
   (1, .enterRecv), (1, .skip), (1, .recvDone), (1, .workDone), (1, .send yes), (1, .exit)]

def PC.isDone : PC → Bool
  | .done => true
  | _ => false

def rowStart : State ℚ := initState row (fun _ _ => 0) (fun _ _ => 0) (fun _ _ => 0) (fun _ _ => 0)

/-- The interesting part of a final state. -/
def summary (l : List (Id × Nat)) (s : State ℚ) : Bool × Bool × List (ℚ × ℚ) :=
  ((s.pc 0).isDone, (s.pc 1).isDone, l.map (fun x => (s.inc x.1 x.2, s.out x.1 x.2)))

theorem PC.isDone_iff {p : PC} : p.isDone = true ↔ p = .done := by cases p <;> simp [PC.isDone]

theorem row_play : (play row rowStart rowActs).map (summary [(⟨0, 0⟩, 0), (⟨1, 0⟩, 0), (⟨0, 1⟩, 0),
      (⟨0, 0⟩, 1), (⟨1, 0⟩, 1), (⟨0, 1⟩, 1)]) =
    some (true, true, [(0, 4), (4, 2), (2, 1), (0, 4), (0, 0), (0, 0)]) := by
  decide +kernel

theorem row_run : ∃ s, Run row rowStart rowActs s ∧ Finished row s := by
  have h := row_play
  rw [Option.map_eq_some_iff] at h
  obtain ⟨s, h1, h2⟩ := h
  refine ⟨s, play_run h1, ?_⟩
  simp only [summary, Prod.mk.injEq] at h2
  have hd := And.intro (PC.isDone_iff.1 h2.1) (PC.isDone_iff.1 h2.2.1)
  intro r hr
  have hr : r < 2 := hr
  rcases (by omega : r = 0 ∨ r = 1) with rfl | rfl
  exacts [hd.1, hd.2]

/-- The hypotheses of C29 and C32 are met by a finished run of the row. -/
example : ∃ s, (solved rowActs).Nodup ∧ (∀ v ∈ row.cells, ∀ d < 2, (solved rowActs).count ⟨v, d⟩ = 1) ∧
    Run row rowStart rowActs s := by
  obtain ⟨s, h, hf⟩ := row_run
  refine ⟨s, (solved_at_most_once_after_upwind row_wf h).1, ?_, h⟩
  intro v hv d hd
  exact finished_rank_solved_all row_wf h (hf v.rank (row_wf.rank_lt v hv)) v hv rfl (Nat.zero_le _) d hd

/-- Rank 0 expects two data from rank 1 in the row and rank 1 two from rank 0. -/
example : rowStart.recvCount 0 1 = 2 ∧ rowStart.recvCount 1 0 = 2 ∧
    crossings row ⟨1, 0⟩ 0 0 = 1 ∧ crossings row ⟨1, 0⟩ 1 0 = 1 := by decide +kernel

/-- There is a fair execution of the row, so the hypotheses of the termination theorem can be met. -/
example : ∃ E : Execution row rowStart, E.Fair ∧ ∃ n, Finished row (E.st n) := by
  obtain ⟨s, h, hf⟩ := row_run
  obtain ⟨E, hE, _⟩ := h.fair_execution row_wf (Good.init row_wf _ _ _ _) hf
  exact ⟨E, hE, fair_sweep_terminates row_wf row_acyclic E hE⟩

/-- A rank in the middle of the run: not finished, so it can go on. -/
example : ∃ s, Reach row rowStart s ∧ s.pc 0 ≠ .done ∧ ∃ a s', Step row 0 a s s' := by
  refine ⟨rowStart, .refl, by simp [rowStart, initState], ?_⟩
  exact (never_stuck row_wf .refl (by decide)).1 (by simp [rowStart, initState])

/-- The solution of the row in the first direction, starting from zero rates: the source of 8 photons
is halved by every cell. -/
example : ∃ s, Reach row rowStart s ∧ Finished row s ∧
    IsSolution row (fun _ _ => 0) (fun _ _ => 0) (fun _ _ => 0) s.inc s.out := by
  obtain ⟨s, h, hf⟩ := row_run
  exact ⟨s, h.reach, hf, sweep_computes_solution row_wf row_noPeriodic h.reach hf⟩

/-- The weights of the downwind faces of the middle cell. -/
example : (((row.nbrs ⟨1, 0⟩).filter (fun e => decide (0 < e.1.normal.dot (row.dir 0)))).map
      (fun e => fraction row ⟨1, 0⟩ 0 e.1)).sum = 1 := by
  refine (fractions_partition ?_ ?_).2 <;> decide +kernel

/-- Popping the first cell in the first direction conserves photons: its only downwind face leads
to an active cell. -/
example : ∃ s s', Step row 0 (.pop ⟨⟨0, 0⟩, 0⟩) s s' ∧ held row s' = held row s + 4 := by
  have h : ((play row rowStart [(0, .enterWork)]).bind (fun s => (next row s 0 (.pop ⟨⟨0, 0⟩, 0⟩)).map
      (fun s' => (s'.out ⟨0, 0⟩ 0 - s.out ⟨0, 0⟩ 0, s.inc ⟨0, 0⟩ 0)))) = some (4, 0) := by decide +kernel
  rw [Option.bind_eq_some_iff] at h
  obtain ⟨s, h1, h⟩ := h
  rw [Option.map_eq_some_iff] at h
  obtain ⟨s', h2, h⟩ := h
  rw [Prod.mk.injEq] at h
  obtain ⟨h3, h4⟩ := h
  replace h4 : row.makePositive (s.inc ⟨0, 0⟩ 0) = s.inc ⟨0, 0⟩ 0 := by
    rw [h4]; decide +kernel
  refine ⟨s, s', next_sound h2, ?_⟩
  rw [← h3]
  refine solve_conserves_photons row_wf (play_run h1).reach (next_sound h2) ?_ ?_ ?_ h4
  · decide +kernel
  · decide +kernel
  · intro e he hd
    have : ∀ e ∈ row.nbrs ⟨0, 0⟩, 0 < e.1.normal.dot (row.dir 0) → e.2 = .remote ⟨1, 0⟩ := by
      decide +kernel
    exact ⟨⟨1, 0⟩, false, by rw [this e he hd]; rfl, Or.inr (by decide +kernel)⟩

/-- Two cells on one rank, `0 → 1`; the second has level `level1`. -/
def line (level1 : Nat) (bright : ℚ) : Grid ℚ ℚ where
  numRanks := 1
  numDirs := 1
  cells := {⟨0, 0⟩, ⟨0, 1⟩}
  nbrs := fun id =>
    if id = ⟨0, 0⟩ then [(⟨1, ⟨1, 0, 0⟩⟩, .loc ⟨0, 1⟩)]
    else [(⟨1, ⟨-1, 0, 0⟩⟩, .loc ⟨0, 0⟩)]
  dir := fun _ => ⟨1, 0, 0⟩
  level := fun id => if id = ⟨0, 0⟩ then 1 else level1
  haloLevel := fun _ _ => 0
  current := 1
  absorb := fun id x => max (if id = ⟨0, 0⟩ then bright else x) 0
  source := fun _ => 0
  makePositive := fun x => max x 0
  batch := 10

theorem line_wf (level1 : Nat) (bright : ℚ) : WF (line level1 bright) := by
  refine WF.of_check ?_ ?_ ?_
  · intro u hu
    have : ∀ u ∈ (line 0 0).cells, u.rank < (line 0 0).numRanks := by decide +kernel
    exact this u hu
  · intro u hu e he
    have hu' : u = ⟨0, 0⟩ ∨ u = ⟨0, 1⟩ := by simpa [line] using hu
    rcases hu' with rfl | rfl
    · have he : e = (⟨1, ⟨1, 0, 0⟩⟩, .loc ⟨0, 1⟩) := by simpa [line] using he
      rw [he]; simp [entryOk, line]
    · have he : e = (⟨1, ⟨-1, 0, 0⟩⟩, .loc ⟨0, 0⟩) := by simpa [line] using he
      rw [he]; simp [entryOk, line]
  · have : ∀ u ∈ (line 0 0).cells, ∀ v ∈ (line 0 0).cells, ∀ p,
      (normals (line 0 0) v u p).Perm ((normals (line 0 0) u v p).map V3.neg) := by decide +kernel
    exact this

/-- C34 on one rank: a sweep over both cells, then one over the first cell only, which has become
brighter in between; the incoming rate of the second, inactive cell is updated. -/
example : ∃ inc' out', Sweeps [line 1 3, line 0 5] (fun _ _ => 0) (fun _ _ => 0) inc' out' ∧
    inc' ⟨0, 1⟩ 0 = 5 ∧
    ∀ v ∈ (line 1 3).cells, ∀ d < 1, inc' v d = ∑ u ∈ (line 1 3).cells, share (line 1 3) d u v • out' u d := by
  have h1 : (play (line 1 3) (initState (line 1 3) (fun _ _ => 0) (fun _ _ => 0) (fun _ _ => 0)
        (fun _ _ => 0))
      [(0, .enterWork), (0, .pop ⟨⟨0, 0⟩, 0⟩), (0, .pop ⟨⟨0, 1⟩, 0⟩), (0, .workDone),
       (0, .send (fun _ => true)), (0, .exit)]).map (summary [(⟨0, 0⟩, 0), (⟨0, 1⟩, 0)]) =
      some (true, false, [(0, 3), (3, 3)]) := by decide +kernel
  rw [Option.map_eq_some_iff] at h1
  obtain ⟨s, hs, e⟩ := h1
  simp only [summary, List.map_cons, List.map_nil, Prod.mk.injEq, List.cons.injEq, and_true] at e
  obtain ⟨d1, _, ⟨i0, o0⟩, i1, o1⟩ := e
  have h2 : (play (line 0 5) (initState (line 0 5) (fun _ _ => 0)
        (fun id _ => if id = ⟨0, 1⟩ then 3 else 0) (fun _ _ => 3) (fun _ _ => 0))
      [(0, .enterWork), (0, .pop ⟨⟨0, 0⟩, 0⟩), (0, .workDone),
       (0, .send (fun _ => true)), (0, .exit)]).map (summary [(⟨0, 1⟩, 0)]) =
      some (true, false, [(5, 3)]) := by decide +kernel
  rw [Option.map_eq_some_iff] at h2
  obtain ⟨s', hs', e'⟩ := h2
  simp only [summary, List.map_cons, List.map_nil, Prod.mk.injEq, List.cons.injEq, and_true] at e'
  have hsweeps : Sweeps [line 1 3, line 0 5] (fun _ _ => 0) (fun _ _ => 0) s'.inc s'.out := by
    refine Sweeps.snoc [line 1 3] (line 0 5) _ _ (fun id _ => if id = ⟨0, 1⟩ then 3 else 0)
      (fun _ _ => 3) _ _ (Sweeps.snoc [] _ _ _ _ _ _ _ (.nil _ _)
        ⟨fun _ _ => 0, fun _ _ => 0, s, (play_run hs).reach, ?_, ?_⟩)
      ⟨fun _ _ => 0, fun _ _ => 0, s', (play_run hs').reach, ?_, fun _ _ _ _ => ⟨rfl, rfl⟩⟩
    · intro r hr
      have hr : r < 1 := hr
      rw [show r = 0 by omega]; exact PC.isDone_iff.1 d1
    · intro v hv d hd
      have hd : d < 1 := hd
      have hv : v = ⟨0, 0⟩ ∨ v = ⟨0, 1⟩ := by simpa [line] using hv
      rw [show d = 0 by omega]
      rcases hv with rfl | rfl
      · rw [i0, o0]; simp
      · rw [i1, o1]; simp
    · intro r hr
      have hr : r < 1 := hr
      rw [show r = 0 by omega]; exact PC.isDone_iff.1 e'.1
  refine ⟨s'.inc, s'.out, hsweeps, e'.2.2.1, ?_⟩
  refine incremental_equals_full (G := line 1 3) (Gs := [line 1 3, line 0 5]) ?_ ?_ (fun x => 0 ≤ x)
    le_rfl (fun x y => add_nonneg) (fun c x => mul_nonneg) ?_ ?_ ?_ hsweeps
  · intro H hH
    rcases List.mem_cons.1 hH with rfl | hH
    · exact ⟨⟨rfl, rfl, rfl, rfl⟩, line_wf _ _⟩
    · rw [List.mem_singleton.1 hH]; exact ⟨⟨rfl, rfl, rfl, rfl⟩, line_wf _ _⟩
  · decide +kernel
  · intro H hH
    rcases List.mem_cons.1 hH with rfl | hH
    · exact ⟨fun v x => le_max_right _ _, fun x hx => max_eq_left hx⟩
    · rw [List.mem_singleton.1 hH]; exact ⟨fun v x => le_max_right _ _, fun x hx => max_eq_left hx⟩
  · intro H hH u hu v hv _
    right
    have hr : ∀ w ∈ (line 1 3).cells, w.rank = 0 := by decide +kernel
    rcases List.mem_cons.1 hH with rfl | hH
    · rw [hr u (mem_act.1 hu).1, hr v hv]
    · rw [List.mem_singleton.1 hH] at hu hv
      rw [hr u (mem_act.1 hu).1, hr v hv]
  · intro v _ d _
    simp

/-! ### What fails

Periodic connections: with a periodic connection from the last to the first cell of a row and an
inactive cell in between, the result depends on which of the two active cells is solved first. -/

/-- Three cells on one rank, `0 → 1 → 2`, and `2 → 0` through the periodic boundary; cell 1 is
inactive. -/
def loop : Grid ℚ ℚ where
  numRanks := 1
  numDirs := 1
  cells := {⟨0, 0⟩, ⟨0, 1⟩, ⟨0, 2⟩}
  nbrs := fun id =>
    if id = ⟨0, 0⟩ then [(⟨1, ⟨-1, 0, 0⟩⟩, .locPeriodic ⟨0, 2⟩), (⟨1, ⟨1, 0, 0⟩⟩, .loc ⟨0, 1⟩)]
    else if id = ⟨0, 1⟩ then [(⟨1, ⟨-1, 0, 0⟩⟩, .loc ⟨0, 0⟩), (⟨1, ⟨1, 0, 0⟩⟩, .loc ⟨0, 2⟩)]
    else [(⟨1, ⟨-1, 0, 0⟩⟩, .loc ⟨0, 1⟩), (⟨1, ⟨1, 0, 0⟩⟩, .locPeriodic ⟨0, 0⟩)]
  dir := fun _ => ⟨1, 0, 0⟩
  level := fun id => if id = ⟨0, 1⟩ then 0 else 1
  haloLevel := fun _ _ => 0
  current := 1
  absorb := fun _ x => x
  source := fun _ => 1
  makePositive := fun x => max x 0
  batch := 10

theorem loop_wf : WF loop := by
  refine WF.of_check ?_ ?_ ?_ <;> decide +kernel

theorem loop_acyclic : Acyclic loop := by
  refine ⟨fun _ _ => 0, ?_⟩
  unfold Feeds
  decide +kernel

def loopStart : State ℚ := initState loop (fun _ _ => 0) (fun _ _ => 0) (fun _ _ => 0) (fun _ _ => 0)

/-- The two schedules. -/
def loopActs (first second : Nat) : List (Nat × Act) :=
  [(0, .enterWork), (0, .pop ⟨⟨0, first⟩, 0⟩), (0, .pop ⟨⟨0, second⟩, 0⟩), (0, .workDone),
   (0, .send (fun _ => true)), (0, .exit)]

/-- C31 fails with periodic connections: two schedules of the same sweep finish with different
outgoing rates. -/
theorem periodic_result_depends_on_schedule :
    ∃ (G : Grid ℚ ℚ), WF G ∧ Acyclic G ∧ ∃ s0 s s', s0 = initState G (fun _ _ => 0) (fun _ _ => 0)
      (fun _ _ => 0) (fun _ _ => 0) ∧ Reach G s0 s ∧ Finished G s ∧ Reach G s0 s' ∧ Finished G s' ∧
      s.out ⟨0, 0⟩ 0 ≠ s'.out ⟨0, 0⟩ 0 := by
  have h1 : (play loop loopStart (loopActs 0 2)).map
      (fun s => ((s.pc 0).isDone, s.out ⟨0, 0⟩ 0)) = some (true, 1) := by decide +kernel
  have h2 : (play loop loopStart (loopActs 2 0)).map
      (fun s => ((s.pc 0).isDone, s.out ⟨0, 0⟩ 0)) = some (true, 2) := by decide +kernel
  rw [Option.map_eq_some_iff] at h1 h2
  obtain ⟨s, hs, e⟩ := h1
  obtain ⟨s', hs', e'⟩ := h2
  simp only [Prod.mk.injEq] at e e'
  refine ⟨loop, loop_wf, loop_acyclic, loopStart, s, s', rfl, (play_run hs).reach, ?_,
    (play_run hs').reach, ?_, ?_⟩
  · intro r hr
    have hr : r < 1 := hr
    rw [show r = 0 by omega]
    exact PC.isDone_iff.1 e.1
  · intro r hr
    have hr : r < 1 := hr
    rw [show r = 0 by omega]
    exact PC.isDone_iff.1 e'.1
  · rw [e.2, e'.2]; decide

/-! Several ranks: corrections for inactive cells of other ranks are dropped. -/

/-- Two cells on two ranks; `level1` is the level of the second, `bright` the emission of the first. -/
def pair (level1 : Nat) (bright : ℚ) : Grid ℚ ℚ where
  numRanks := 2
  numDirs := 1
  cells := {⟨0, 0⟩, ⟨1, 0⟩}
  nbrs := fun id =>
    if id = ⟨0, 0⟩ then [(⟨1, ⟨1, 0, 0⟩⟩, .remote ⟨1, 0⟩)]
    else [(⟨1, ⟨-1, 0, 0⟩⟩, .remote ⟨0, 0⟩)]
  dir := fun _ => ⟨1, 0, 0⟩
  level := fun id => if id = ⟨0, 0⟩ then 1 else level1
  haloLevel := fun r _ => if r = 0 then level1 else 1
  current := 1
  absorb := fun id _ => if id = ⟨0, 0⟩ then bright else 0
  source := fun _ => 0
  makePositive := fun x => max x 0
  batch := 10

theorem pair_wf (level1 : Nat) (bright : ℚ) : WF (pair level1 bright) := by
  refine WF.of_check ?_ ?_ ?_
  · intro u hu
    have : ∀ u ∈ (pair 0 0).cells, u.rank < (pair 0 0).numRanks := by decide +kernel
    exact this u hu
  · intro u hu e he
    have hu' : u = ⟨0, 0⟩ ∨ u = ⟨1, 0⟩ := by simpa [pair] using hu
    rcases hu' with rfl | rfl
    · have he : e = (⟨1, ⟨1, 0, 0⟩⟩, .remote ⟨1, 0⟩) := by simpa [pair] using he
      rw [he]; simp [entryOk, pair]
    · have he : e = (⟨1, ⟨-1, 0, 0⟩⟩, .remote ⟨0, 0⟩) := by simpa [pair] using he
      rw [he]; simp [entryOk, pair]
  · have : ∀ u ∈ (pair 0 0).cells, ∀ v ∈ (pair 0 0).cells, ∀ p,
      (normals (pair 0 0) v u p).Perm ((normals (pair 0 0) u v p).map V3.neg) := by decide +kernel
    exact this

/-- C34 fails on several ranks: in a second sweep in which only the first cell is active and has
become brighter, the second cell is not told. -/
theorem remote_inactive_cells_go_stale :
    ∃ (G H : Grid ℚ ℚ) (inc out inc' out' : Id → Nat → ℚ), WF G ∧ WF H ∧ SameGeometry G H ∧
      (∀ v ∈ G.cells, ∀ d < G.numDirs, inc v d = ∑ u ∈ G.cells, share G d u v • out u d) ∧
      Sweeps [H] inc out inc' out' ∧
      ∃ v ∈ G.cells, inc' v 0 ≠ ∑ u ∈ G.cells, share G 0 u v • out' u 0 := by
  have h1 : (play (pair 0 5) (initState (pair 0 5) (fun _ _ => 0) (fun _ _ => 0) (fun _ _ => 0)
        (fun _ _ => 0))
      [(0, .enterWork), (0, .pop ⟨⟨0, 0⟩, 0⟩), (0, .workDone), (0, .send (fun _ => true)), (0, .exit),
       (1, .exit)]).map (summary [(⟨0, 0⟩, 0), (⟨1, 0⟩, 0)]) =
      some (true, true, [(0, 5), (0, 0)]) := by decide +kernel
  rw [Option.map_eq_some_iff] at h1
  obtain ⟨s, hs, e⟩ := h1
  simp only [summary, List.map_cons, List.map_nil, Prod.mk.injEq, List.cons.injEq, and_true] at e
  refine ⟨pair 1 0, pair 0 5, fun _ _ => 0, fun _ _ => 0, s.inc, s.out, pair_wf _ _, pair_wf _ _,
    ⟨rfl, rfl, rfl, rfl⟩, ?_, ?_, ⟨1, 0⟩, by decide +kernel, ?_⟩
  · intro v _ d _
    simp
  · refine Sweeps.snoc [] _ _ _ _ _ _ _ (.nil _ _)
      ⟨fun _ _ => 0, fun _ _ => 0, s, (play_run hs).reach, ?_, fun _ _ _ _ => ⟨rfl, rfl⟩⟩
    intro r hr
    have hr : r < 2 := hr
    rcases (by omega : r = 0 ∨ r = 1) with rfl | rfl
    exacts [PC.isDone_iff.1 e.1, PC.isDone_iff.1 e.2.1]
  · rw [e.2.2.2.1]
    have hsum : ∑ u ∈ (pair 1 0).cells, share (pair 1 0) 0 u ⟨1, 0⟩ • s.out u 0 =
        share (pair 1 0) 0 ⟨0, 0⟩ ⟨1, 0⟩ • s.out ⟨0, 0⟩ 0 +
        share (pair 1 0) 0 ⟨1, 0⟩ ⟨1, 0⟩ • s.out ⟨1, 0⟩ 0 := by
      show ∑ u ∈ ({⟨0, 0⟩, ⟨1, 0⟩} : Finset Id), _ = _
      rw [Finset.sum_pair (by decide)]
    rw [hsum, e.2.2.1.2, e.2.2.2.2]
    decide +kernel

end Verif.Sweep
