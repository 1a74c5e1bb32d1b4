import Verif.Sim.WholeLemmas
import Verif.Sim.Props

/-!
# C93: a whole simulation on the grid which the ranks have built
-/

namespace Verif.Sim

open Verif.Parallel Verif.Geometry

variable {eps' : ℝ} {periodic : Bool} {W : World 3 Sweep.Id} {G : ℕ → List (Name Sweep.Id × Cell)} {R C : Type}
  {numLevels : ℕ} {maxTimestep : ℝ} {chem : Sweep.Id → C} {Ph : Physics R C} {w0 w : Whole R C}

/-- What holds between the calls. -/
structure WholeOk (numLevels : ℕ) (maxTimestep : ℝ) (W : World 3 Sweep.Id) (G : ℕ → List (Name Sweep.Id × Cell)) (w : Whole R C) :
    Prop where
  ts : w.ts.Ok
  max : w.ts.maxNumLevels = numLevels
  dt : w.ts.maxTimestep = maxTimestep
  binned : ∀ s ∈ w.ranks, Binned s
  levels : ∃ lev, AllOk numLevels W.particles.length (fun r => (W.ofRank r).length) G lev w.ranks ∧
    ∀ u, w.ts.currentLowestAllowed ≤ lev u ∧ lev u < numLevels

theorem Ready.index (H : Ready eps' periodic W G) {r : ℕ} {p : Sweep.Id × Vec 3 ℝ} (hp : p ∈ W.ofRank r) :
    ∃ i < (W.ofRank r).length, p.1 = ⟨r, i⟩ := by
  have : p.1 ∈ (W.ofRank r).map Prod.fst := List.mem_map.2 ⟨p, hp, rfl⟩
  rw [H.ids r] at this
  obtain ⟨i, hi, e⟩ := List.mem_map.1 this
  exact ⟨i, List.mem_range.1 hi, e.symm⟩

theorem AllOk.mem_levels {N : ℕ} {num : ℕ → ℕ} {lev : Sweep.Id → ℕ} {S : List Rank} (A : AllOk numLevels N num G lev S) {r i : ℕ}
    (hr : r < N) (hi : i < num r) : lev ⟨r, i⟩ ∈ S.flatMap fun s => s.cells.levels := by
  have hr' : r < S.length := by rw [A.length]; exact hr
  refine List.mem_flatMap.2 ⟨S[r], List.getElem_mem hr', ?_⟩
  rw [(A.rank r _ (List.getElem?_eq_getElem hr')).levels]
  exact List.mem_map.2 ⟨i, List.mem_range.2 hi, rfl⟩

theorem AllOk.max {N : ℕ} {num : ℕ → ℕ} {lev : Sweep.Id → ℕ} {S : List Rank} (A : AllOk numLevels N num G lev S) :
    ∀ s ∈ S, s.cells.maxNumLevels = numLevels := by
  intro s hs
  obtain ⟨r, hr⟩ := List.mem_iff_getElem?.1 hs
  exact (A.rank r s hr).max

/-- The sweeps of a call. -/
theorem WholeOk.swept (hw : WholeOk numLevels maxTimestep W G w) (H : Ready eps' periodic W G) (hN : 0 < W.particles.length)
    {lev : Sweep.Id → ℕ} (A : AllOk numLevels W.particles.length (fun r => (W.ofRank r).length) G lev w.ranks)
    (hlev : ∀ u, w.ts.currentLowestAllowed ≤ lev u ∧ lev u < numLevels) :
    ∃ levels, sweptLevels w.ts w.ranks = some levels ∧ levels ≠ [] ∧ ∀ r, ∀ p ∈ W.ofRank r,
      ((levels.filter fun current => decide (current ≤ lev p.1)).length : ℝ) * Timestep.toTimestep (lev p.1) w.ts.maxTimestep =
        w.ts.currentMaxTimestep := by
  have he := sweptLevels_eq hw.ts hw.binned (fun s hs => by rw [A.max s hs, hw.max])
  obtain ⟨ls, h1, h2, h3⟩ := Timestep.iterLevels_spec w.ts hw.ts
  refine ⟨_, by rw [he]; unfold Timestep.executedLevels; rw [h1]; rfl, ?_, ?_⟩
  · have hlen : 0 < ls.length := by rw [h2]; exact Nat.two_pow_pos _
    have hpos : 0 < (W.ofRank 0).length := H.facts.pos 0 hN
    obtain ⟨hl1, hl2⟩ := hlev ⟨0, 0⟩
    have hact := ((h3 0 _ (List.getElem?_eq_getElem hlen)).2.2 (lev ⟨0, 0⟩) hl1 (by rw [hw.max]; exact hl2)).2 (dvd_zero _)
    refine List.ne_nil_of_mem (a := ls[0]) (List.mem_filter.2 ⟨List.getElem_mem hlen, ?_⟩)
    rw [decide_eq_true_eq]
    exact List.length_pos_iff_exists_mem.2 ⟨_, List.mem_filter.2 ⟨A.mem_levels hN hpos, decide_eq_true hact⟩⟩
  · intro r p hp
    obtain ⟨i, hi, e⟩ := H.index hp
    obtain ⟨hl1, hl2⟩ := hlev p.1
    have hmem : lev p.1 ∈ w.ranks.flatMap fun s => s.cells.levels := by
      rw [e]
      exact A.mem_levels (ofRank_lt hp) hi
    obtain ⟨levels, e1, e2⟩ := Timestep.executed_sweeps_time_balance w.ts hw.ts _ _ hmem hl1 (by rw [hw.max]; exact hl2)
    unfold Timestep.executedLevels at e1
    rw [h1] at e1
    obtain rfl := Option.some.inj e1
    exact e2

section
variable [AddCommGroup R] [Module ℝ R]

theorem firstState_ok (H : Ready eps' periodic W G) (hn : 0 < numLevels) (hn' : numLevels < 32) :
    ∃ w0 : Whole R C, firstState maxTimestep numLevels W.particles.length G chem = some w0 ∧
      WholeOk numLevels maxTimestep W G w0 := by
  obtain ⟨S, hS, A⟩ := startAll_ok H.facts hn
  unfold firstState Timestep.State.new
  rw [if_neg (by omega), hS]
  refine ⟨_, rfl, ⟨?_, hn'⟩, rfl, rfl, startAll_binned H.facts hS, _, A, fun u => ?_⟩
  · show numLevels - 1 < numLevels
    omega
  · show numLevels - 1 ≤ numLevels - 1 ∧ _
    omega

theorem WholeOk.call (hw : WholeOk numLevels maxTimestep W G w) (H : Ready eps' periodic W G) {w' : Whole R C} (h : Call Ph w w') :
    WholeOk numLevels maxTimestep W G w' := by
  cases h with
  | mk levels O desired ranks h1 h2 h3 h4 h5 =>
    obtain ⟨lev, A, hlev⟩ := hw.levels
    obtain ⟨hts, hmax, hdt⟩ := advance_ok hw.ts
    have hd : ∀ u, w.ts.advanceAllowedLevels.currentLowestAllowed ≤ desired u ∧ desired u < numLevels := by
      intro u
      obtain ⟨l, e1, e2, e3⟩ := desiredLevel_ok hts ((Ph.timescale (((sequence Ph w levels).result O).chem u)).map (Ph.safety * ·))
      rw [h4 u] at e1
      obtain rfl := Option.some.inj e1
      exact ⟨e2, by rw [← hw.max, ← hmax]; exact e3⟩
    obtain ⟨S', e1, A'⟩ := update_ok H.facts (fun u => (hd u).2) A
    rw [h5] at e1
    obtain rfl := Option.some.inj e1
    refine ⟨hts, by rw [hmax, hw.max], by rw [hdt, hw.dt], ?_, desired, A', hd⟩
    refine updateTimestepLevels_binned h5 fun s hs => ?_
    obtain ⟨r, hr⟩ := List.mem_iff_getElem?.1 hs
    have := A'.rank r s hr
    rw [this.levels, this.items, List.length_map, List.length_range]

theorem Simulated.ok (H : Ready eps' periodic W G) (hw0 : WholeOk numLevels maxTimestep W G w0) (h : Simulated Ph w0 w) :
    WholeOk numLevels maxTimestep W G w := by
  induction h with
  | refl => exact hw0
  | call w w' _ hc ih => exact ih.call H hc

theorem seq_acyclic (H : Ready eps' periodic W G) {lev : Sweep.Id → ℕ}
    (A : AllOk numLevels W.particles.length (fun r => (W.ofRank r).length) G lev w.ranks) (levels : List ℕ) :
    ∀ k < (sequence Ph w levels).num,
      Sweep.Acyclic { (sequence Ph w levels).base with current := (sequence Ph w levels).level k } := fun k _ =>
  acyclic (G0 := { Ph.grid w.calls with current := (sequence Ph w levels).level k }) H A

/-- **The simulation starts.** -/
theorem simulation_starts (H : Ready eps' periodic W G) (hn : 0 < numLevels) (hn' : numLevels < 32) (maxTimestep : ℝ)
    (chem : Sweep.Id → C) : ∃ w0 : Whole R C, firstState maxTimestep numLevels W.particles.length G chem = some w0 := by
  obtain ⟨w0, h, -⟩ := firstState_ok (R := R) (maxTimestep := maxTimestep) (chem := chem) H hn hn'
  exact ⟨w0, h⟩

/-- **The simulation goes on.**  After any number of calls, the next call counts the cells without panic, makes at least one
sweep, every fair execution of the sweeps ends, no rank gets stuck before, and when all ranks have left the sweeps the choice
and the communication of the levels succeed. -/
theorem simulation_goes_on (H : Ready eps' periodic W G) (hN : 0 < W.particles.length) (hn : 0 < numLevels) (hn' : numLevels < 32)
    (h0 : firstState maxTimestep numLevels W.particles.length G chem = some w0) (h : Simulated Ph w0 w) :
    ∃ levels, sweptLevels w.ts w.ranks = some levels ∧ levels ≠ [] ∧
      (∀ E : Sweep.OExecution (sequence Ph w levels) w.cells, E.Fair → ∃ n, (sequence Ph w levels).Done (E.st n)) ∧
      (∀ O, Sweep.OReach (sequence Ph w levels) w.cells O → ∀ r < W.particles.length,
        ¬ (O.s.pc r = .done ∧ O.sweep r + 1 = levels.length) → ∃ a O', Sweep.OStep (sequence Ph w levels) r a O O') ∧
      ∀ O, Sweep.OReach (sequence Ph w levels) w.cells O → (sequence Ph w levels).Done O →
        ∃ w', Call Ph w w' ∧ w'.cells = Ph.turn w.calls ((sequence Ph w levels).result O) := by
  obtain ⟨w1, e1, hw⟩ := firstState_ok (R := R) (maxTimestep := maxTimestep) (chem := chem) H hn hn'
  rw [h0] at e1
  obtain rfl := Option.some.inj e1
  replace hw := h.ok H hw
  obtain ⟨lev, A, hlev⟩ := hw.levels
  obtain ⟨levels, hl, hne, -⟩ := hw.swept H hN A hlev
  have hwf : Sweep.WF (sequence Ph w levels).base := wellFormed H A
  have hpos : 0 < (sequence Ph w levels).num := List.length_pos_of_ne_nil hne
  refine ⟨levels, hl, hne, fun E hE => Sweep.overlapped_terminates hwf hpos (seq_acyclic H A levels) E hE, ?_, ?_⟩
  · intro O hO r hr hnd
    refine (Sweep.overlapped_never_panics hwf hpos hO (r := r) ?_).1 hnd
    show r < w.ranks.length
    rw [A.length]
    exact hr
  · intro O hO hd
    obtain ⟨hts, hmax, -⟩ := advance_ok hw.ts
    choose desired d1 d2 d3 using fun u : Sweep.Id => desiredLevel_ok hts
      ((Ph.timescale (((sequence Ph w levels).result O).chem u)).map (Ph.safety * ·))
    obtain ⟨S', hS', -⟩ := update_ok H.facts (desired := desired) (fun u => by rw [← hw.max, ← hmax]; exact d3 u) A
    exact ⟨_, .mk levels O desired S' hl hO hd d1 hS', rfl⟩

/-- There are simulations with any number of calls. -/
theorem simulation_exists (H : Ready eps' periodic W G) (hN : 0 < W.particles.length) (hn : 0 < numLevels) (hn' : numLevels < 32)
    (h0 : firstState maxTimestep numLevels W.particles.length G chem = some w0) (n : ℕ) :
    ∃ w, Simulated Ph w0 w ∧ w.calls = n := by
  induction n with
  | zero =>
    refine ⟨w0, .refl, ?_⟩
    unfold firstState at h0
    split at h0
    · simp at h0
    · split at h0
      · simp at h0
      · obtain rfl := Option.some.inj h0
        rfl
  | succ n ih =>
    obtain ⟨w, hw, e⟩ := ih
    obtain ⟨levels, -, hne, hterm, -, hnext⟩ := simulation_goes_on H hN hn hn' h0 hw
    obtain ⟨w1, e1, hok⟩ := firstState_ok (R := R) (maxTimestep := maxTimestep) (chem := chem) H hn hn'
    rw [h0] at e1
    obtain rfl := Option.some.inj e1
    obtain ⟨lev, A, -⟩ := (hw.ok H hok).levels
    obtain ⟨E, hE⟩ := Sweep.exists_fair_overlap (P := sequence Ph w levels) (wellFormed H A)
      (List.length_pos_of_ne_nil hne) w.cells
    obtain ⟨m, hm⟩ := hterm E hE
    obtain ⟨w', hc, -⟩ := hnext (E.st m) (E.reach m) hm
    refine ⟨w', .call w w' hw hc, ?_⟩
    cases hc
    rw [← e]

/-! ### Time -/

/-- The state of a cell after the sweeps: it has been updated once in every sweep in which the cell is active. -/
theorem waiting_clock {P : Sweep.Sequence ℝ R C} {b : Sweep.Rates R C} {clock : C → ℝ} {dt : Sweep.Id → ℝ}
    (hclock : ∀ k id c inc per, clock (P.react k id c inc per) = clock c + dt id) {id : Sweep.Id} (hid : id ∈ P.base.cells) {k : ℕ}
    {c : Sweep.Rates R C} (h : P.Waiting b k c) :
    clock (c.chem id) = clock (b.chem id) + (((List.range k).filter fun j => decide (P.level j ≤ P.base.level id)).length : ℝ) * dt id := by
  induction h with
  | start => simp
  | sweep k c acts s _ _ _ ih =>
    rw [List.range_succ, List.filter_append, List.length_append]
    show clock (P.evolve k id.rank s c.chem id) = _
    unfold Sweep.Sequence.evolve
    by_cases hact : P.level k ≤ P.base.level id
    · have hmem : id ∈ (P.grid k c.chem).act := Sweep.mem_act.2 ⟨hid, decide_eq_true hact⟩
      rw [if_pos ⟨rfl, hmem⟩, hclock, ih, List.filter_cons, if_pos (decide_eq_true hact)]
      simp
      ring
    · have hmem : id ∉ (P.grid k c.chem).act := fun h => hact (of_decide_eq_true (Sweep.mem_act.1 h).2)
      rw [if_neg (fun h => hmem h.2), ih, List.filter_cons, if_neg (by simpa using hact)]
      simp

theorem filter_range_getD (l : List ℕ) (q : ℕ → Bool) :
    ((List.range l.length).filter fun j => q (l.getD j 0)).length = (l.filter q).length := by
  have : l = (List.range l.length).map fun j => l.getD j 0 := by
    apply List.ext_getElem
    · simp
    · intro i h1 h2
      simp [List.getD_eq_getElem?_getD, h1]
  conv_rhs => rw [this, List.filter_map, List.length_map]
  rfl

/-- **All particles have the time of the simulation.**  If the update of the chemistry with a time step advances the clock of
a cell by this time step (C41), then after any number of calls the clock of every particle has advanced by the time of the
simulation, whatever the levels of the particle were; and this is the time of the schedule (C25-C27). -/
theorem simulation_time (H : Ready eps' periodic W G) (hN : 0 < W.particles.length) (hn : 0 < numLevels) (hn' : numLevels < 32)
    (h0 : firstState maxTimestep numLevels W.particles.length G chem = some w0) (h : Simulated Ph w0 w) :
    (∃ ts0, Timestep.State.new maxTimestep numLevels = some ts0 ∧ (w.ts, w.time) = Timestep.cycles w.calls (ts0, 0)) ∧
    ∀ clock : C → ℝ, (∀ dt id c inc per, clock (Ph.react dt id c inc per) = clock c + dt) →
      ∀ r, ∀ p ∈ W.ofRank r, clock (w.cells.chem p.1) = clock (chem p.1) + w.time := by
  obtain ⟨w1, e1, hok⟩ := firstState_ok (R := R) (maxTimestep := maxTimestep) (chem := chem) H hn hn'
  rw [h0] at e1
  obtain rfl := Option.some.inj e1
  constructor
  · induction h with
    | refl =>
      unfold firstState at h0
      split at h0
      · simp at h0
      · rename_i ts hts
        split at h0
        · simp at h0
        · obtain rfl := Option.some.inj h0
          exact ⟨ts, hts, rfl⟩
    | call w w' _ hc ih =>
      obtain ⟨ts0, e1, e2⟩ := ih
      refine ⟨ts0, e1, ?_⟩
      cases hc
      dsimp only
      rw [Timestep.cycles_succ, ← e2]
  · intro clock hclock r p hp
    induction h with
    | refl =>
      unfold firstState at h0
      split at h0
      · simp at h0
      · split at h0
        · simp at h0
        · obtain rfl := Option.some.inj h0
          simp
    | call w w' hw hc ih =>
      replace hok := hw.ok H hok
      obtain ⟨lev, A, hlev⟩ := hok.levels
      obtain ⟨levels', hl', hne, hbal⟩ := hok.swept H hN A hlev
      cases hc with
      | mk levels O desired ranks h1 h2 h3 h4 h5 =>
        rw [h1] at hl'
        obtain rfl := Option.some.inj hl'
        obtain ⟨c, hc⟩ := H.cell hp
        have hr := ofRank_lt hp
        obtain rfl := H.id_rank hp
        have hcell : p.1 ∈ (sequence Ph w levels).base.cells := (mem_cells H.facts A).2 ⟨hr, c, hc⟩
        have hlv : levelOn w.ranks p.1.rank p.1 = some (lev p.1) := levelOn_own A hr hc
        have hwait := Sweep.overlapped_is_waiting (P := sequence Ph w levels) (wellFormed H A) (List.length_pos_of_ne_nil hne) h2 h3
        have := waiting_clock (clock := clock)
          (dt := fun id => Timestep.toTimestep ((levelOn w.ranks id.rank id).getD 0) w.ts.maxTimestep)
          (fun _ _ _ _ _ => hclock _ _ _ _ _) hcell hwait
        show clock (((sequence Ph w levels).result O).chem p.1) = _
        rw [this, ih]
        have hfil : ((List.range (sequence Ph w levels).num).filter fun j =>
            decide ((sequence Ph w levels).level j ≤ (sequence Ph w levels).base.level p.1)).length =
            (levels.filter fun current => decide (current ≤ lev p.1)).length := by
          have hbl : (sequence Ph w levels).base.level p.1 = lev p.1 := by
            show (levelOn w.ranks p.1.rank p.1).getD 0 = _
            rw [hlv]
            rfl
          rw [hbl]
          exact filter_range_getD levels fun current => decide (current ≤ lev p.1)
        rw [hfil, hlv]
        have hb := hbal _ p hp
        dsimp only [Option.getD_some]
        rw [hb]
        ring

/-! ### Levels -/

/-- **Levels are allowed and known.**  After any number of calls every particle has an allowed level, and its rank knows the
current levels of all its neighbours. -/
theorem simulation_levels (H : Ready eps' periodic W G) (hn : 0 < numLevels) (hn' : numLevels < 32)
    (h0 : firstState maxTimestep numLevels W.particles.length G chem = some w0) (h : Simulated Ph w0 w) {r : ℕ}
    {p : Sweep.Id × Vec 3 ℝ} (hp : p ∈ W.ofRank r) :
    ∃ c l, cellOf w.ranks p.1 = some c ∧ (p.1, c) ∈ localCells (G r) ∧ levelOn w.ranks r p.1 = some l ∧
      w.ts.currentLowestAllowed ≤ l ∧ l < numLevels ∧
      ∀ f ∈ c.neighbours, ∀ v b, (neighbour f.2.2).target = some (v, b) →
        ∃ l', levelOn w.ranks r v = some l' ∧ levelOn w.ranks v.rank v = some l' := by
  obtain ⟨w1, e1, hok⟩ := firstState_ok (R := R) (maxTimestep := maxTimestep) (chem := chem) H hn hn'
  rw [h0] at e1
  obtain rfl := Option.some.inj e1
  obtain ⟨lev, A, hlev⟩ := (h.ok H hok).levels
  have F := H.facts
  obtain ⟨c, hc⟩ := H.cell hp
  have hr := ofRank_lt hp
  obtain rfl := H.id_rank hp
  refine ⟨c, lev p.1, cellOf_eq A hr hc, hc, levelOn_own A hr hc, (hlev _).1, (hlev _).2, fun f hf v b hv => ⟨lev v, ?_⟩⟩
  have hcase : (neighbour f.2.2 = .loc v ∨ neighbour f.2.2 = .locPeriodic v) ∨
      (neighbour f.2.2 = .remote v ∨ neighbour f.2.2 = .remotePeriodic v) := by
    cases hnb : neighbour f.2.2 <;> rw [hnb] at hv <;> simp [Sweep.Neighbour.target] at hv ⊢ <;> exact hv.1
  rcases hcase with h | h
  · obtain ⟨c', hc'⟩ := F.own _ hr _ c hc f hf v h
    obtain ⟨x, hx⟩ := H.particle hr hc'
    have hvr := H.id_rank hx
    rw [← hvr] at hr hc' hx ⊢
    exact ⟨levelOn_own A hr hc', levelOn_own A hr hc'⟩
  · obtain ⟨q, hq⟩ := neighbour_remote.1 h
    obtain ⟨hqN, -, hvr, ⟨c', hc', -⟩, -⟩ := F.remote _ hr _ c hc f hf v q hq
    subst hvr
    exact ⟨levelOn_remote F A hr hc hf hq, levelOn_own A hqN hc'⟩

/-- **Levels are chosen from the current time scales.**  After every call the level of a particle is the one which belongs to
its time scale (C26). -/
theorem simulation_level_choice (H : Ready eps' periodic W G) (hn : 0 < numLevels) (hn' : numLevels < 32)
    (h0 : firstState maxTimestep numLevels W.particles.length G chem = some w0) (h : Simulated Ph w0 w) {w' : Whole R C}
    (hc : Call Ph w w') {r : ℕ} {p : Sweep.Id × Vec 3 ℝ} (hp : p ∈ W.ofRank r) :
    levelOn w'.ranks r p.1 = desiredLevel w'.ts ((Ph.timescale (w'.cells.chem p.1)).map (Ph.safety * ·)) := by
  obtain ⟨w1, e1, hok⟩ := firstState_ok (R := R) (maxTimestep := maxTimestep) (chem := chem) H hn hn'
  rw [h0] at e1
  obtain rfl := Option.some.inj e1
  have hokw := h.ok H hok
  obtain ⟨lev, A, -⟩ := hokw.levels
  obtain ⟨hts, hmax, -⟩ := advance_ok hokw.ts
  cases hc with
  | mk levels O desired ranks h1 h2 h3 h4 h5 =>
    have hd : ∀ u, desired u < numLevels := by
      intro u
      obtain ⟨l, e1, -, e3⟩ := desiredLevel_ok hts
        ((Ph.timescale (((sequence Ph w levels).result O).chem u)).map (Ph.safety * ·))
      rw [h4 u] at e1
      obtain rfl := Option.some.inj e1
      rw [← hokw.max, ← hmax]
      exact e3
    obtain ⟨S', e1, A'⟩ := update_ok H.facts hd A
    rw [h5] at e1
    obtain rfl := Option.some.inj e1
    obtain ⟨c, hc⟩ := H.cell hp
    have hr := ofRank_lt hp
    obtain rfl := H.id_rank hp
    exact (levelOn_own A' hr hc).trans (h4 p.1).symm

/-! ### Uniqueness -/

/-- **The simulation does not depend on the schedule.**  Without periodic boundaries two simulations with the same number of
calls have the same time, levels, and for every particle the same rates and the same state, whatever the speed of the ranks
and the delays of messages. -/
theorem simulation_unique (H : Ready eps' false W G) (hN : 0 < W.particles.length) (hn : 0 < numLevels) (hn' : numLevels < 32)
    (h0 : firstState maxTimestep numLevels W.particles.length G chem = some w0) {w' : Whole R C} (h : Simulated Ph w0 w)
    (h' : Simulated Ph w0 w') (hcalls : w.calls = w'.calls) :
    w.time = w'.time ∧ w.ts = w'.ts ∧ w.ranks = w'.ranks ∧ ∀ r, ∀ p ∈ W.ofRank r,
      (∀ d < Ph.numDirs, w.cells.inc p.1 d = w'.cells.inc p.1 d ∧ w.cells.out p.1 d = w'.cells.out p.1 d) ∧
      w.cells.chem p.1 = w'.cells.chem p.1 := by
  obtain ⟨w1, e1, hok⟩ := firstState_ok (R := R) (maxTimestep := maxTimestep) (chem := chem) H hn hn'
  rw [h0] at e1
  obtain rfl := Option.some.inj e1
  have hz : ∀ {v}, Simulated Ph w0 v → w0.calls ≤ v.calls := by
    intro v hv
    induction hv with
    | refl => exact le_rfl
    | call w w' _ hc ih =>
      cases hc
      exact Nat.le_succ_of_le ih
  have key : w.time = w'.time ∧ w.ts = w'.ts ∧ w.ranks = w'.ranks ∧
      Sweep.Agree (sequence Ph w []) w.cells w'.cells := by
    induction h generalizing w' with
    | refl =>
      cases h' with
      | refl => exact ⟨rfl, rfl, rfl, .refl _⟩
      | call w w' hw hc =>
        have := hz hw
        cases hc
        dsimp only at hcalls
        omega
    | call w v hw hc ih =>
      cases h' with
      | refl =>
        have := hz hw
        cases hc
        dsimp only at hcalls
        omega
      | call w' v' hw' hc' =>
        have hce : w.calls = w'.calls := by
          cases hc
          cases hc'
          dsimp only at hcalls
          omega
        obtain ⟨i1, i2, i3, i4⟩ := ih hw' hce
        have hokw := hw.ok H hok
        obtain ⟨lev, A, hlev⟩ := hokw.levels
        cases hc with
        | mk levels O desired ranks h1 h2 h3 h4 h5 =>
          cases hc' with
          | mk levels' O' desired' ranks' h1' h2' h3' h4' h5' =>
            have hle : levels = levels' := by
              rw [← i2, ← i3, h1] at h1'
              exact Option.some.inj h1'
            subst hle
            have hseq : sequence Ph w' levels = sequence Ph w levels := by
              unfold sequence
              rw [← hce, ← i2, ← i3]
            rw [hseq] at h2' h3' h4'
            obtain ⟨levels', hl', hne, -⟩ := hokw.swept H hN A hlev
            rw [h1] at hl'
            obtain rfl := Option.some.inj hl'
            have hpos : 0 < (sequence Ph w levels).num := List.length_pos_of_ne_nil hne
            have hwf : Sweep.WF (sequence Ph w levels).base := wellFormed H A
            have hA := Sweep.waiting_unique (P := sequence Ph w levels) hwf (noPeriodic H A) (seq_acyclic H A levels)
              (b := w.cells) (b' := w'.cells) i4 _ le_rfl _ _ (Sweep.overlapped_is_waiting hwf hpos h2 h3)
              (Sweep.overlapped_is_waiting hwf hpos h2' h3')
            have hdes : ∀ v ∈ (sequence Ph w levels).base.cells, desired v = desired' v := by
              intro v hv
              have e1 := h4 v
              have e2 := h4' v
              rw [(hA v hv).2, i2, e2] at e1
              exact (Option.some.inj e1).symm
            have hranks : ranks = ranks' := by
              have : updateTimestepLevels desired w.ranks = updateTimestepLevels desired' w.ranks := by
                refine updateTimestepLevels_congr fun s hs i hi => hdes _ ?_
                obtain ⟨r, hr⟩ := List.mem_iff_getElem?.1 hs
                obtain ⟨hlt, -⟩ := List.getElem?_eq_some_iff.1 hr
                have hrank := (A.rank r s hr).rank
                rw [hrank]
                show _ ∈ (sweepGrid _ w.ranks).cells
                unfold sweepGrid
                dsimp only
                refine List.mem_toFinset.2 (List.mem_flatMap.2 ⟨r, List.mem_range.2 hlt, ?_⟩)
                rw [hr]
                exact List.mem_map.2 ⟨i, List.mem_range.2 hi, rfl⟩
              rw [← i3, ← this, h5] at h5'
              exact Option.some.inj h5'
            have hcells : ∀ v, v ∈ (sweepGrid (Ph.grid (w.calls + 1)) ranks).cells → v ∈ (sequence Ph w levels).base.cells := by
              obtain ⟨hts, hmax, -⟩ := advance_ok hokw.ts
              have hd : ∀ u, desired u < numLevels := by
                intro u
                obtain ⟨l, e1, -, e3⟩ := desiredLevel_ok hts
                  ((Ph.timescale (((sequence Ph w levels).result O).chem u)).map (Ph.safety * ·))
                rw [h4 u] at e1
                obtain rfl := Option.some.inj e1
                rw [← hokw.max, ← hmax]
                exact e3
              obtain ⟨S', e1, A'⟩ := update_ok H.facts hd A
              rw [h5] at e1
              obtain rfl := Option.some.inj e1
              intro v hv
              exact (mem_cells H.facts A).2 ((mem_cells H.facts A').1 hv)
            refine ⟨by dsimp only; rw [i1, i2], by dsimp only; rw [i2], hranks, fun v hv => ?_⟩
            obtain ⟨q1, q2⟩ := hA v (hcells v hv)
            have hmap : ∀ {x y : ℕ → R}, (∀ d < Ph.numDirs, x d = y d) →
                (List.range Ph.numDirs).map x = (List.range Ph.numDirs).map y := fun h =>
              List.map_congr_left fun d hd => h d (List.mem_range.1 hd)
            rw [hseq]
            refine ⟨fun d hd => ?_, q2⟩
            unfold Physics.turn
            dsimp only
            rw [← hce, hmap fun d hd => (q1 d hd).1, hmap fun d hd => (q1 d hd).2.1, hmap fun d hd => (q1 d hd).2.2]
            exact ⟨rfl, rfl, rfl⟩
  obtain ⟨k1, k2, k3, k4⟩ := key
  refine ⟨k1, k2, k3, fun r p hp => ?_⟩
  obtain ⟨lev, A, -⟩ := (h.ok H hok).levels
  obtain ⟨c, hc⟩ := H.cell hp
  have hr := ofRank_lt hp
  obtain rfl := H.id_rank hp
  obtain ⟨q1, q2⟩ := k4 p.1 ((mem_cells H.facts A).2 ⟨hr, c, hc⟩)
  exact ⟨fun d hd => ⟨(q1 d hd).1, (q1 d hd).2.1⟩, q2⟩

end

end Verif.Sim
