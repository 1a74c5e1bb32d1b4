import Verif.Sim.RanksLemmas

/-!
# C98: with one time step for all particles the simulation does not depend on the ranks
-/

namespace Verif.Sim

open Verif.Parallel Verif.Geometry

variable {eps' : ℝ} {W W' : World 3 Sweep.Id} {G G' : ℕ → List (Name Sweep.Id × Cell)} {R C : Type} [AddCommGroup R] [Module ℝ R]
  {numLevels : ℕ} {maxTimestep : ℝ} {chem chem' : Sweep.Id → C} {Ph Ph' : Physics R C} {w0 w w0' w' : Whole R C}

theorem firstState_parts {N : ℕ} (h : firstState maxTimestep numLevels N G chem = some w0) :
    w0.calls = 0 ∧ w0.time = 0 ∧ Timestep.State.new maxTimestep numLevels = some w0.ts ∧
      w0.cells = ⟨fun _ _ => 0, fun _ _ => 0, fun _ _ => 0, fun _ _ => 0, chem⟩ ∧ startAll numLevels N G = some w0.ranks := by
  unfold firstState at h
  split at h
  · simp at h
  · rename_i ts hts
    split at h
    · simp at h
    · rename_i S hS
      obtain rfl := Option.some.inj h
      exact ⟨rfl, rfl, hts, rfl, hS⟩

theorem Simulated.calls_le (h : Simulated Ph w0 w) : w0.calls ≤ w.calls := by
  induction h with
  | refl => exact le_rfl
  | call w w' _ hc ih =>
    cases hc
    exact Nat.le_succ_of_le ih

/-- The states after the same number of calls. -/
structure SameState (W W' : World 3 Sweep.Id) (Ph : Physics R C) (w w' : Whole R C) : Prop where
  calls : w'.calls = w.calls
  time : w'.time = w.time
  ts : w'.ts = w.ts
  levels : ∀ u u', SamePlace W W' u u' → levelOn w'.ranks u'.rank u' = levelOn w.ranks u.rank u
  cells : ∀ u u', SamePlace W W' u u' → (∀ d < Ph.numDirs, w'.cells.inc u' d = w.cells.inc u d ∧
    w'.cells.out u' d = w.cells.out u d ∧ w'.cells.per u' d = w.cells.per u d) ∧ w'.cells.chem u' = w.cells.chem u

/-- One call. -/
theorem SameState.call (H : Ready eps' false W G) (H' : Ready eps' false W' G') (hN : 0 < W.particles.length)
    (E : SameParticles W W') (hPh : SamePhysics W W' Ph Ph') (hw : WholeOk numLevels maxTimestep W G w)
    (hw' : WholeOk numLevels maxTimestep W' G' w') (S : SameState W W' Ph w w')
    (hlevel : ∃ l, ∀ r, ∀ p ∈ W.ofRank r, levelOn w.ranks r p.1 = some l) {v v' : Whole R C} (h : Call Ph w v) (h' : Call Ph' w' v') :
    SameState W W' Ph v v' := by
  obtain ⟨lev, A, hlev⟩ := hw.levels
  obtain ⟨lev', A', hlev'⟩ := hw'.levels
  obtain ⟨σ, hσ0⟩ := exists_names E
  have hσ : ∀ r, ∀ p ∈ W.ofRank r, SamePlace W W' p.1 (σ p.1) := by
    intro r p hp
    obtain ⟨r', p', hp', e1, e2⟩ := hσ0 r p hp
    exact ⟨r, p, hp, r', p', hp', rfl, e2 H.ids, e1⟩
  have hσu : ∀ {u u'}, SamePlace W W' u u' → u' = σ u := by
    intro u u' hu
    have hu' := hu
    obtain ⟨r, p, hp, -, -, -, rfl, -, -⟩ := hu'
    exact SamePlace.unique H H' hu (hσ r p hp)
  obtain ⟨l0, hl0⟩ := hlevel
  have hown : ∀ {r p}, p ∈ W.ofRank r → levelOn w.ranks p.1.rank p.1 = some (lev p.1) := by
    intro r p hp
    obtain ⟨c, hc⟩ := H.cell hp
    have hr := ofRank_lt hp
    obtain rfl := H.id_rank hp
    exact levelOn_own A hr hc
  have hown' : ∀ {r p}, p ∈ W'.ofRank r → levelOn w'.ranks p.1.rank p.1 = some (lev' p.1) := by
    intro r p hp
    obtain ⟨c, hc⟩ := H'.cell hp
    have hr := ofRank_lt hp
    obtain rfl := H'.id_rank hp
    exact levelOn_own A' hr hc
  have hlv : ∀ {r p}, p ∈ W.ofRank r → lev p.1 = l0 := by
    intro r p hp
    have e := hl0 r p hp
    have := hown hp
    rw [H.id_rank hp, e] at this
    exact (Option.some.inj this).symm
  have hlv' : ∀ {u u'}, SamePlace W W' u u' → lev' u' = lev u := by
    intro u u' hu
    have e := S.levels u u' hu
    obtain ⟨r, p, hp, r', p', hp', rfl, rfl, -⟩ := hu
    rw [hown hp, hown' hp'] at e
    exact Option.some.inj e
  have hset : ∀ x, (x ∈ w'.ranks.flatMap fun s => s.cells.levels) ↔ (x ∈ w.ranks.flatMap fun s => s.cells.levels) := by
    intro x
    rw [mem_all_levels H A, mem_all_levels H' A']
    constructor
    · rintro ⟨r', p', hp', rfl⟩
      obtain ⟨r, p, hp, e⟩ := (E.places p'.2).2 ⟨r', p', hp', rfl⟩
      exact ⟨r, p, hp, (hlv' ⟨r, p, hp, r', p', hp', rfl, rfl, e.symm⟩).symm⟩
    · rintro ⟨r, p, hp, rfl⟩
      obtain ⟨r', p', hp', e⟩ := (E.places p.2).1 ⟨r, p, hp, rfl⟩
      exact ⟨r', p', hp', hlv' ⟨r, p, hp, r', p', hp', rfl, rfl, e⟩⟩
  cases h with
  | mk levels O desired ranks h1 h2 h3 h4 h5 =>
    cases h' with
    | mk levels' O' desired' ranks' h1' h2' h3' h4' h5' =>
      have he := sweptLevels_eq hw.ts hw.binned (fun s hs => by rw [A.max s hs, hw.max])
      have he' := sweptLevels_eq hw'.ts hw'.binned (fun s hs => by rw [A'.max s hs, hw'.max])
      have hle : levels = levels' := by
        rw [he', S.ts, executed_congr hset, ← he, h1] at h1'
        exact Option.some.inj h1'
      subst hle
      have hmax : ∀ x ∈ levels, x ≤ l0 := by
        rw [he] at h1
        refine executed_le h1 fun x hx => ?_
        obtain ⟨r, p, hp, rfl⟩ := (mem_all_levels H A).1 hx
        exact (hlv hp).le
      have hne : levels ≠ [] := by
        obtain ⟨levels', hl', hne, -⟩ := hw.swept H hN A hlev
        rw [h1] at hl'
        obtain rfl := Option.some.inj hl'
        exact hne
      have hpos : 0 < (sequence Ph w levels).num := List.length_pos_of_ne_nil hne
      have hpos' : 0 < (sequence Ph' w' levels).num := List.length_pos_of_ne_nil hne
      have hwf : Sweep.WF (sequence Ph w levels).base := wellFormed H A
      have hwf' : Sweep.WF (sequence Ph' w' levels).base := wellFormed H' A'
      have hmem : ∀ {u}, u ∈ (sequence Ph w levels).base.cells ↔ ∃ r, ∃ p ∈ W.ofRank r, p.1 = u := mem_cells_iff H A
      have hmem' : ∀ {u}, u ∈ (sequence Ph' w' levels).base.cells ↔ ∃ r, ∃ p ∈ W'.ofRank r, p.1 = u := mem_cells_iff H' A'
      have hσc : ∀ {u}, u ∈ (sequence Ph w levels).base.cells → SamePlace W W' u (σ u) := by
        intro u hu
        obtain ⟨r, p, hp, rfl⟩ := hmem.1 hu
        exact hσ r p hp
      have hlk : ∀ k < levels.length, levels.getD k 0 ≤ l0 := by
        intro k hk
        rw [List.getD_eq_getElem?_getD, List.getElem?_eq_getElem hk]
        exact hmax _ (List.getElem_mem hk)
      have hSame : Sweep.SameSweeps (sequence Ph w levels) (sequence Ph' w' levels) σ := by
        refine ⟨hPh.numDirs, rfl, ?_, ?_, ?_, ?_, ?_, hPh.makePositive, ?_, ?_, ?_⟩
        · ext u'
          rw [Finset.mem_image, hmem']
          constructor
          · rintro ⟨r', p', hp', rfl⟩
            obtain ⟨r, p, hp, e⟩ := (E.places p'.2).2 ⟨r', p', hp', rfl⟩
            exact ⟨p.1, hmem.2 ⟨r, p, hp, rfl⟩, (hσu ⟨r, p, hp, r', p', hp', rfl, rfl, e.symm⟩).symm⟩
          · rintro ⟨u, hu, rfl⟩
            obtain ⟨-, -, -, r', p', hp', -, e, -⟩ := hσc hu
            exact ⟨r', p', hp', e⟩
        · intro u hu v hv e
          have h1 := hσc hu
          rw [e] at h1
          exact SamePlace.unique H' H h1.symm (hσc hv).symm
        · intro k hk u hu
          obtain ⟨r, p, hp, rfl⟩ := hmem.1 hu
          show levels.getD k 0 ≤ (levelOn w.ranks p.1.rank p.1).getD 0
          rw [hown hp, Option.getD_some, hlv hp]
          exact hlk k hk
        · intro k hk u hu
          obtain ⟨r, p, hp, rfl⟩ := hmem.1 hu
          show levels.getD k 0 ≤ (levelOn w'.ranks (σ p.1).rank (σ p.1)).getD 0
          rw [S.levels _ _ (hσ r p hp), hown hp, Option.getD_some, hlv hp]
          exact hlk k hk
        · intro d _ u hu v hv
          refine share_same H H' E A A' (d := d) ?_ (hσc hu) (hσc hv)
          show Ph'.dir w'.calls d = Ph.dir w.calls d
          rw [hPh.dir, S.calls]
        · exact fun u hu => hPh.source _ _ (hσc hu)
        · exact fun c u hu => hPh.absorb _ _ (hσc hu) c
        · intro k _ u hu
          show Ph'.react (Timestep.toTimestep ((levelOn w'.ranks (σ u).rank (σ u)).getD 0) w'.ts.maxTimestep) (σ u) =
            Ph.react (Timestep.toTimestep ((levelOn w.ranks u.rank u).getD 0) w.ts.maxTimestep) u
          rw [hPh.react _ _ (hσc hu), S.levels _ _ (hσc hu), S.ts]
      have hcells : Sweep.SameCells (sequence Ph w levels) σ w.cells w'.cells := fun v hv => S.cells _ _ (hσc hv)
      have hA := hSame.waiting hwf hwf' (noPeriodic H A) (noPeriodic H' A') (seq_acyclic H A levels) hcells _ le_rfl _ _
        (Sweep.overlapped_is_waiting hwf hpos h2 h3) (Sweep.overlapped_is_waiting hwf' hpos' h2' h3')
      have hres : ∀ u u', SamePlace W W' u u' → (∀ d < Ph.numDirs,
          ((sequence Ph' w' levels).result O').inc u' d = ((sequence Ph w levels).result O).inc u d ∧
          ((sequence Ph' w' levels).result O').out u' d = ((sequence Ph w levels).result O).out u d ∧
          ((sequence Ph' w' levels).result O').per u' d = ((sequence Ph w levels).result O).per u d) ∧
          ((sequence Ph' w' levels).result O').chem u' = ((sequence Ph w levels).result O).chem u := by
        intro u u' hu
        obtain rfl := hσu hu
        obtain ⟨r, p, hp, -, -, -, e, -, -⟩ := hu
        exact hA u (hmem.2 ⟨r, p, hp, e⟩)
      refine ⟨?_, ?_, ?_, ?_, ?_⟩
      · dsimp only
        rw [S.calls]
      · dsimp only
        rw [S.time, S.ts]
      · dsimp only
        rw [S.ts]
      · intro u u' hu
        have hdes : desired' u' = desired u := by
          have e1 := h4 u
          have e2 := h4' u'
          rw [(hres u u' hu).2, S.ts, hPh.timescale, hPh.safety, e1] at e2
          exact (Option.some.inj e2).symm
        obtain ⟨r, p, hp, r', p', hp', rfl, rfl, -⟩ := hu
        obtain ⟨hts, hmx, -⟩ := advance_ok hw.ts
        obtain ⟨hts', hmx', -⟩ := advance_ok hw'.ts
        obtain ⟨T, e1, B⟩ := update_ok H.facts (desired := desired) (fun u => by
          obtain ⟨l, e1, -, e3⟩ := desiredLevel_ok hts ((Ph.timescale (((sequence Ph w levels).result O).chem u)).map (Ph.safety * ·))
          rw [h4 u] at e1
          obtain rfl := Option.some.inj e1
          rw [← hw.max, ← hmx]
          exact e3) A
        rw [h5] at e1
        obtain rfl := Option.some.inj e1
        obtain ⟨T', e1, B'⟩ := update_ok H'.facts (desired := desired') (fun u => by
          obtain ⟨l, e1, -, e3⟩ := desiredLevel_ok hts'
            ((Ph'.timescale (((sequence Ph' w' levels).result O').chem u)).map (Ph'.safety * ·))
          rw [h4' u] at e1
          obtain rfl := Option.some.inj e1
          rw [← hw'.max, ← hmx']
          exact e3) A'
        rw [h5'] at e1
        obtain rfl := Option.some.inj e1
        obtain ⟨c, hc⟩ := H.cell hp
        have hr := ofRank_lt hp
        obtain rfl := H.id_rank hp
        obtain ⟨c', hc'⟩ := H'.cell hp'
        have hr' := ofRank_lt hp'
        obtain rfl := H'.id_rank hp'
        dsimp only
        rw [levelOn_own B hr hc, levelOn_own B' hr' hc', hdes]
      · intro u u' hu
        obtain ⟨q1, q2⟩ := hres u u' hu
        have hmap : ∀ {x y : ℕ → R}, (∀ d < Ph.numDirs, x d = y d) →
            (List.range Ph.numDirs).map x = (List.range Ph.numDirs).map y := fun h =>
          List.map_congr_left fun d hd => h d (List.mem_range.1 hd)
        refine ⟨fun d hd => ?_, q2⟩
        unfold Physics.turn
        dsimp only
        rw [hPh.rotate, hPh.numDirs, S.calls, hmap fun d hd => (q1 d hd).1, hmap fun d hd => (q1 d hd).2.1,
          hmap fun d hd => (q1 d hd).2.2]
        exact ⟨rfl, rfl, rfl⟩

/-- **The simulation does not depend on the ranks.**  `W` and `W'` are the same particles in the same box without periodic
boundaries, distributed to the ranks in different ways, perhaps with another number of ranks.  If before each call all
particles of the one simulation have the same level, then after the same number of calls both simulations have the same time
and for every particle the same level, the same rates and the same state, whatever the schedules of both are. -/
theorem simulation_distribution (H : Ready eps' false W G) (H' : Ready eps' false W' G') (hN : 0 < W.particles.length)
    (E : SameParticles W W') (hPh : SamePhysics W W' Ph Ph') (hchem : ∀ u u', SamePlace W W' u u' → chem' u' = chem u)
    (hn : 0 < numLevels) (hn' : numLevels < 32)
    (h0 : firstState maxTimestep numLevels W.particles.length G chem = some w0)
    (h0' : firstState maxTimestep numLevels W'.particles.length G' chem' = some w0')
    (h : Simulated Ph w0 w) (h' : Simulated Ph' w0' w') (hcalls : w'.calls = w.calls)
    (hlevel : ∀ v, Simulated Ph w0 v → v.calls < w.calls → ∃ l, ∀ r, ∀ p ∈ W.ofRank r, levelOn v.ranks r p.1 = some l) :
    w'.time = w.time ∧ ∀ u u', SamePlace W W' u u' → levelOn w'.ranks u'.rank u' = levelOn w.ranks u.rank u ∧
      (∀ d < Ph.numDirs, w'.cells.inc u' d = w.cells.inc u d ∧ w'.cells.out u' d = w.cells.out u d) ∧
      w'.cells.chem u' = w.cells.chem u := by
  obtain ⟨w1, e1, hok⟩ := firstState_ok (R := R) (maxTimestep := maxTimestep) (chem := chem) H hn hn'
  rw [h0] at e1
  obtain rfl := Option.some.inj e1
  obtain ⟨w1, e1, hok'⟩ := firstState_ok (R := R) (maxTimestep := maxTimestep) (chem := chem') H' hn hn'
  rw [h0'] at e1
  obtain rfl := Option.some.inj e1
  have hz := firstState_parts h0
  have hz' := firstState_parts h0'
  have key : SameState W W' Ph w w' := by
    induction h generalizing w' with
    | refl =>
      cases h' with
      | refl =>
        obtain ⟨a1, a2, a3, a4, a5⟩ := hz
        obtain ⟨b1, b2, b3, b4, b5⟩ := hz'
        obtain ⟨T, e1, B⟩ := startAll_ok H.facts hn
        rw [a5] at e1
        obtain rfl := Option.some.inj e1
        obtain ⟨T, e1, B'⟩ := startAll_ok H'.facts hn
        rw [b5] at e1
        obtain rfl := Option.some.inj e1
        refine ⟨by rw [a1, b1], by rw [a2, b2], ?_, ?_, ?_⟩
        · rw [a3] at b3
          exact (Option.some.inj b3).symm
        · rintro u u' ⟨r, p, hp, r', p', hp', rfl, rfl, -⟩
          obtain ⟨c, hc⟩ := H.cell hp
          have hr := ofRank_lt hp
          obtain rfl := H.id_rank hp
          obtain ⟨c', hc'⟩ := H'.cell hp'
          have hr' := ofRank_lt hp'
          obtain rfl := H'.id_rank hp'
          rw [levelOn_own B hr hc, levelOn_own B' hr' hc']
        · intro u u' hu
          rw [a4, b4]
          exact ⟨fun _ _ => ⟨rfl, rfl, rfl⟩, hchem u u' hu⟩
      | call v v' hv hc =>
        have := hv.calls_le
        cases hc
        dsimp only at hcalls
        omega
    | call w v hw hc ih =>
      cases h' with
      | refl =>
        have := hw.calls_le
        cases hc
        dsimp only at hcalls
        omega
      | call y _ hw' hc' =>
        have hlt : w.calls + 1 = v.calls := by cases hc; rfl
        have hlt' : y.calls + 1 = w'.calls := by cases hc'; rfl
        have hce : y.calls = w.calls := by omega
        have S := ih hw' hce fun x hx hxc => hlevel x hx (by omega)
        exact S.call H H' hN E hPh (hw.ok H hok) (hw'.ok H' hok') (hlevel w hw (by omega)) hc hc'
  exact ⟨key.time, fun u u' hu => ⟨key.levels u u' hu, fun d hd => ⟨((key.cells u u' hu).1 d hd).1, ((key.cells u u' hu).1 d hd).2.1⟩,
    (key.cells u u' hu).2⟩⟩

/-- **With one level this is always so.** -/
theorem simulation_distribution_single (H : Ready eps' false W G) (H' : Ready eps' false W' G') (hN : 0 < W.particles.length)
    (E : SameParticles W W') (hPh : SamePhysics W W' Ph Ph') (hchem : ∀ u u', SamePlace W W' u u' → chem' u' = chem u)
    (h0 : firstState maxTimestep 1 W.particles.length G chem = some w0)
    (h0' : firstState maxTimestep 1 W'.particles.length G' chem' = some w0')
    (h : Simulated Ph w0 w) (h' : Simulated Ph' w0' w') (hcalls : w'.calls = w.calls) :
    w'.time = w.time ∧ ∀ u u', SamePlace W W' u u' → levelOn w'.ranks u'.rank u' = levelOn w.ranks u.rank u ∧
      (∀ d < Ph.numDirs, w'.cells.inc u' d = w.cells.inc u d ∧ w'.cells.out u' d = w.cells.out u d) ∧
      w'.cells.chem u' = w.cells.chem u := by
  refine simulation_distribution H H' hN E hPh hchem one_pos (by norm_num) h0 h0' h h' hcalls fun v hv _ => ⟨0, fun r p hp => ?_⟩
  obtain ⟨c, l, -, -, h3, -, h5, -⟩ := simulation_levels H one_pos (by norm_num) h0 hv hp
  rw [h3]
  congr 1
  omega

end Verif.Sim
