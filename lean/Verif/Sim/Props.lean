import Verif.Sim.WellFormed
import Verif.Sweep.ConservationProps
import Verif.Sweep.DeadlockProps

/-!
# C89, C90, C91: the sweep on the grid which the ranks have built

`Examples` shows a world with 1728 ranks which is `Ready`.
-/

namespace Verif.Sim

open Verif.Parallel Verif.Geometry Verif.Halo

variable {eps' : ℝ} {periodic : Bool} {W : World 3 Sweep.Id} {G : ℕ → List (Name Sweep.Id × Cell)}
  {R : Type} {G0 : Sweep.Grid ℝ R} {numLevels : ℕ} {updates : List (Sweep.Id → ℕ)} {S : List Rank}

theorem Ready.allOk (H : Ready eps' periodic W G) (hn : 0 < numLevels) (hu : ∀ f ∈ updates, ∀ u, f u < numLevels)
    (hS : afterUpdates numLevels W.particles.length G updates = some S) :
    AllOk numLevels W.particles.length (fun r => (W.ofRank r).length) G (levelsAfter numLevels updates) S := by
  obtain ⟨S', h1, h2⟩ := afterUpdates_ok H.facts hn updates hu
  rw [hS] at h1
  obtain rfl := Option.some.inj h1
  exact h2

/-! ### C89 -/

/-- **The ids** given by `determine_particle_ids_system` consist of the rank and the position in the list of its particles; the
particles and their order are left as they are, no id occurs twice, and `Numbered` holds. -/
theorem ids_count_particles (lo hi : Vec 3 ℝ) (cfg : Quadtree.Config) (positions : List (List (Vec 3 ℝ))) :
    (∀ r i : ℕ, ((numbered lo hi cfg positions).ofRank r)[i]? =
      (positions.getD r [])[i]?.map fun x => ((⟨r, i⟩, x) : Sweep.Id × Vec 3 ℝ)) ∧
    (∀ (r r' i i' : ℕ) (p p' : Sweep.Id × Vec 3 ℝ), ((numbered lo hi cfg positions).ofRank r)[i]? = some p →
      ((numbered lo hi cfg positions).ofRank r')[i']? = some p' → p.1 = p'.1 → r = r' ∧ i = i') ∧
    Numbered (numbered lo hi cfg positions) := by
  have key : ∀ r i : ℕ, ((numbered lo hi cfg positions).ofRank r)[i]? =
      (positions.getD r [])[i]?.map fun x => ((⟨r, i⟩, x) : Sweep.Id × Vec 3 ℝ) := by
    intro r i
    have : (numbered lo hi cfg positions).ofRank r = assignIds r (positions.getD r []) := by
      unfold World.ofRank numbered
      dsimp only
      rw [List.getD_eq_getElem?_getD, List.getD_eq_getElem?_getD, List.getElem?_map, List.getElem?_zipIdx]
      rcases positions[r]? with _ | xs
      · rfl
      · simp
    rw [this]
    unfold assignIds
    rw [List.getElem?_map, List.getElem?_zipIdx]
    rcases (positions.getD r [])[i]? with _ | x
    · rfl
    · simp
  refine ⟨key, fun r r' i i' p p' h h' e => ?_, fun r => ?_⟩
  · rw [key, Option.map_eq_some_iff] at h h'
    obtain ⟨x, -, rfl⟩ := h
    obtain ⟨y, -, rfl⟩ := h'
    exact Sweep.Id.mk.inj e
  · refine List.ext_getElem (by simp) fun i h1 h2 => ?_
    rw [List.length_map] at h1
    have h := key r i
    rw [List.getElem?_eq_getElem h1] at h
    obtain ⟨x, -, hx⟩ := Option.map_eq_some_iff.1 h.symm
    rw [List.getElem_map, List.getElem_map, List.getElem_range, ← hx]

/-- **The levels of neighbours are known.**  Starting the sweep on the grids of all ranks and updating the levels any
number of times does not panic.  Afterwards every particle has its cell and its new level, and for every neighbour of the
cell, on the same or on another rank, directly or through a periodic boundary, the rank knows the new level. -/
theorem levels_agree (H : Ready eps' periodic W G) (hn : 0 < numLevels) (hu : ∀ f ∈ updates, ∀ u, f u < numLevels) :
    ∃ S, afterUpdates numLevels W.particles.length G updates = some S ∧ S.length = W.particles.length ∧
      ∀ r, ∀ p ∈ W.ofRank r, ∃ c, cellOf S p.1 = some c ∧ (p.1, c) ∈ localCells (G r) ∧
        levelOn S r p.1 = some (levelsAfter numLevels updates p.1) ∧
        ∀ f ∈ c.neighbours, ∀ v b, (neighbour f.2.2).target = some (v, b) →
          levelOn S r v = some (levelsAfter numLevels updates v) ∧ ∃ x, (v, x) ∈ W.ofRank v.rank := by
  have F := H.facts
  obtain ⟨S, hS, A⟩ := afterUpdates_ok F hn updates hu
  refine ⟨S, hS, A.length, fun r p hp => ?_⟩
  obtain ⟨c, hc⟩ := H.cell hp
  have hr := ofRank_lt hp
  obtain rfl := H.id_rank hp
  refine ⟨c, cellOf_eq A hr hc, hc, levelOn_own A hr hc, fun f hf v b hv => ?_⟩
  have hcase : (neighbour f.2.2 = .loc v ∨ neighbour f.2.2 = .locPeriodic v) ∨
      (neighbour f.2.2 = .remote v ∨ neighbour f.2.2 = .remotePeriodic v) := by
    cases hnb : neighbour f.2.2 <;> rw [hnb] at hv <;> simp [Sweep.Neighbour.target] at hv ⊢ <;> exact hv.1
  rcases hcase with h | h
  · obtain ⟨c', hc'⟩ := F.own _ hr _ c hc f hf v h
    obtain ⟨x, hx⟩ := H.particle hr hc'
    have hvr := H.id_rank hx
    rw [← hvr] at hr hc' hx ⊢
    exact ⟨levelOn_own A hr hc', x, hx⟩
  · obtain ⟨q, hq⟩ := neighbour_remote.1 h
    obtain ⟨hqN, -, hvr, ⟨c', hc', -⟩, -⟩ := F.remote _ hr _ c hc f hf v q hq
    subst hvr
    exact ⟨levelOn_remote F A hr hc hf hq, H.particle hqN hc'⟩

/-! ### C90 -/

/-- The cells of the sweep are the particles of the world. -/
theorem cells_are_particles (H : Ready eps' periodic W G) (hn : 0 < numLevels) (hu : ∀ f ∈ updates, ∀ u, f u < numLevels)
    (hS : afterUpdates numLevels W.particles.length G updates = some S) {r : ℕ} {p : Sweep.Id × Vec 3 ℝ} (hp : p ∈ W.ofRank r) :
    p.1 ∈ (sweepGrid G0 S).cells ∧ (sweepGrid G0 S).level p.1 = levelsAfter numLevels updates p.1 := by
  have A := H.allOk hn hu hS
  obtain ⟨c, hc⟩ := H.cell hp
  have hr := ofRank_lt hp
  obtain rfl := H.id_rank hp
  refine ⟨(mem_cells H.facts A).2 ⟨hr, c, hc⟩, ?_⟩
  show (levelOn S p.1.rank p.1).getD 0 = _
  rw [levelOn_own A hr hc]
  rfl

variable [AddCommGroup R] [Module ℝ R] {miss : Sweep.Id → ℕ → ℕ} {inc out per : Sweep.Id → ℕ → R}

/-- **The sweep ends.**  On the grid which the ranks have built, periodic or not, in whatever directions and at whatever
level, all ranks leave the loop of `solve` in every fair execution. -/
theorem sweep_ends (H : Ready eps' periodic W G) (hn : 0 < numLevels) (hu : ∀ f ∈ updates, ∀ u, f u < numLevels)
    (hS : afterUpdates numLevels W.particles.length G updates = some S)
    (E : Sweep.Execution (sweepGrid G0 S) (Sweep.initState (sweepGrid G0 S) miss inc out per)) (hE : E.Fair) :
    ∃ n, Sweep.Finished (sweepGrid G0 S) (E.st n) :=
  Sweep.fair_sweep_terminates (wellFormed H (H.allOk hn hu hS)) (acyclic H (H.allOk hn hu hS)) E hE

/-- **The sweep never panics.**  In every state which the ranks can reach, every rank which has not finished can make a
step. -/
theorem sweep_never_panics (H : Ready eps' periodic W G) (hn : 0 < numLevels) (hu : ∀ f ∈ updates, ∀ u, f u < numLevels)
    (hS : afterUpdates numLevels W.particles.length G updates = some S) {s : Sweep.State R}
    (h : Sweep.Reach (sweepGrid G0 S) (Sweep.initState (sweepGrid G0 S) miss inc out per) s) {r : ℕ}
    (hr : r < W.particles.length) (hd : s.pc r ≠ .done) : ∃ a s', Sweep.Step (sweepGrid G0 S) r a s s' := by
  have A := H.allOk hn hu hS
  refine (Sweep.never_stuck (wellFormed H A) h (r := r) ?_).1 hd
  show r < S.length
  rw [A.length]
  exact hr

/-- **Every active particle is solved once in every direction, after the particles upwind of it.** -/
theorem sweep_solves_all (H : Ready eps' periodic W G) (hn : 0 < numLevels) (hu : ∀ f ∈ updates, ∀ u, f u < numLevels)
    (hS : afterUpdates numLevels W.particles.length G updates = some S) {acts : List (ℕ × Sweep.Act)} {s : Sweep.State R}
    (h : Sweep.Run (sweepGrid G0 S) (Sweep.initState (sweepGrid G0 S) miss inc out per) acts s)
    (hf : Sweep.Finished (sweepGrid G0 S) s) {r : ℕ} {p : Sweep.Id × Vec 3 ℝ} (hp : p ∈ W.ofRank r)
    (hact : G0.current ≤ levelsAfter numLevels updates p.1) {d : ℕ} (hd : d < G0.numDirs) :
    (Sweep.solved acts).count ⟨p.1, d⟩ = 1 ∧
      ∀ before after, Sweep.solved acts = before ++ ⟨p.1, d⟩ :: after → ∀ s q, q ∈ W.ofRank s →
        G0.current ≤ levelsAfter numLevels updates q.1 → W.Adjacent r p s q 0 →
        p.2 0 * (G0.dir d).x + p.2 1 * (G0.dir d).y + p.2 2 * (G0.dir d).z >
          q.2 0 * (G0.dir d).x + q.2 1 * (G0.dir d).y + q.2 2 * (G0.dir d).z → ⟨q.1, d⟩ ∈ before := by
  have A := H.allOk hn hu hS
  have F := H.facts
  obtain ⟨hc1, hl1⟩ := cells_are_particles (G0 := G0) H hn hu hS hp
  have hr := ofRank_lt hp
  obtain rfl := H.id_rank hp
  constructor
  · refine Sweep.finished_rank_solved_all (wellFormed H A) h (r := p.1.rank) (hf _ ?_) p.1 hc1 rfl (by rw [hl1]; exact hact) d hd
    show p.1.rank < S.length
    rw [A.length]
    exact hr
  · intro before after hb s' q hq hqact hadj hlt
    obtain ⟨hc2, hl2⟩ := cells_are_particles (G0 := G0) H hn hu hS hq
    obtain rfl := H.id_rank hq
    refine (Sweep.solved_at_most_once_after_upwind (wellFormed H A) h).2.2 before _ after hb q.1 hc2 (by rw [hl2]; exact hqact) ?_
    obtain ⟨c, hc⟩ := H.cell hq
    have hqr := ofRank_lt hq
    obtain ⟨adj, -, m1, f1⟩ := H.neighbours (u := q.1) (x := q.2) hq hc
    have hsym := adjacent_symm hp hadj
    rw [neg_zero] at hsym
    obtain ⟨f, hf, hname, -, hpos, hv⟩ := forall₂_right f1 ((m1 _ _ _).2 hsym)
    dsimp only at hname hpos hv
    rw [image_zero] at hpos hv
    refine ⟨face f, by rw [nbrs_eq A hqr hc]; exact List.mem_map.2 ⟨f, hf, rfl⟩, ?_, ?_⟩
    · show 0 < f.2.1.x * (G0.dir d).x + f.2.1.y * (G0.dir d).y + f.2.1.z * (G0.dir d).z
      have h0 : f.2.1.x * distance q.2 p.2 = p.2 0 - q.2 0 := hv 0
      have h1 : f.2.1.y * distance q.2 p.2 = p.2 1 - q.2 1 := hv 1
      have h2 : f.2.1.z * distance q.2 p.2 = p.2 2 - q.2 2 := hv 2
      have e : (f.2.1.x * (G0.dir d).x + f.2.1.y * (G0.dir d).y + f.2.1.z * (G0.dir d).z) * distance q.2 p.2 =
          (p.2 0 - q.2 0) * (G0.dir d).x + (p.2 1 - q.2 1) * (G0.dir d).y + (p.2 2 - q.2 2) * (G0.dir d).z := by
        rw [← h0, ← h1, ← h2]
        ring
      refine pos_of_mul_pos_left ?_ hpos.le
      rw [e]
      linarith
    · show neighbour f.2.2 = .loc p.1 ∨ neighbour f.2.2 = .remote p.1
      have ht := (target_iff (x := p.2) hname p.1 false).2 ⟨rfl, rfl⟩
      cases hnb : neighbour f.2.2 <;> rw [hnb] at ht <;> simp [Sweep.Neighbour.target] at ht ⊢ <;> exact ht

/-- **Without periodic boundaries the result does not depend on the schedule**: two finished sweeps from the same rates
agree, whatever the ranks did. -/
theorem sweep_result_unique (H : Ready eps' false W G) (hn : 0 < numLevels) (hu : ∀ f ∈ updates, ∀ u, f u < numLevels)
    (hS : afterUpdates numLevels W.particles.length G updates = some S) {miss' : Sweep.Id → ℕ → ℕ} {s s' : Sweep.State R}
    (h : Sweep.Reach (sweepGrid G0 S) (Sweep.initState (sweepGrid G0 S) miss inc out per) s)
    (hf : Sweep.Finished (sweepGrid G0 S) s)
    (h' : Sweep.Reach (sweepGrid G0 S) (Sweep.initState (sweepGrid G0 S) miss' inc out per) s')
    (hf' : Sweep.Finished (sweepGrid G0 S) s') {r : ℕ} {p : Sweep.Id × Vec 3 ℝ} (hp : p ∈ W.ofRank r) {d : ℕ} (hd : d < G0.numDirs) :
    s.inc p.1 d = s'.inc p.1 d ∧ s.out p.1 d = s'.out p.1 d := by
  have A := H.allOk hn hu hS
  exact Sweep.sweep_result_independent_of_schedule (wellFormed H A) (noPeriodic H A) (acyclic H A) h hf h' hf' p.1
    (cells_are_particles (G0 := G0) H hn hu hS hp).1 d hd

/-- **No photons are lost at faces.**  In a periodic sweep in which all particles are active, solving a task changes the
photon rate which is stored in the cells or under way by what the particle emits more or less than before. -/
theorem sweep_conserves (H : Ready eps' true W G) (hn : 0 < numLevels) (hu : ∀ f ∈ updates, ∀ u, f u < numLevels)
    (hS : afterUpdates numLevels W.particles.length G updates = some S)
    (hall : ∀ r, ∀ p ∈ W.ofRank r, G0.current ≤ levelsAfter numLevels updates p.1) {s s' : Sweep.State R}
    (h : Sweep.Reach (sweepGrid G0 S) (Sweep.initState (sweepGrid G0 S) miss inc out per) s) {r : ℕ} {t : Sweep.Task}
    (hs : Sweep.Step (sweepGrid G0 S) r (.pop t) s s') (hdir : G0.dir t.dir ≠ ⟨0, 0, 0⟩)
    (hpos : G0.makePositive (s.inc t.id t.dir) = s.inc t.id t.dir) :
    Sweep.held (sweepGrid G0 S) s' = Sweep.held (sweepGrid G0 S) s + (s'.out t.id t.dir - s.out t.id t.dir) := by
  have A := H.allOk hn hu hS
  have F := H.facts
  have hg := (Sweep.Good.init (wellFormed H A) miss inc out per).reach (wellFormed H A) h
  have hcell : t.id ∈ (sweepGrid G0 S).cells := by
    cases hs with
    | pop _ s1 _ k _ hr hpc ht hsolve =>
      exact (Sweep.mem_act.1 ((hg.inv.todoIff r t).1 ht).1).1
  obtain ⟨ha, hd⟩ := faces_ok (G0 := G0) H A hcell
  refine Sweep.solve_conserves_photons (wellFormed H A) h hs ha (hd t.dir hdir) ?_ hpos
  intro e he _
  obtain ⟨hr, c, hc⟩ := (mem_cells F A).1 hcell
  obtain ⟨x, hx⟩ := H.particle hr hc
  obtain ⟨adj, -, m1, f1⟩ := H.neighbours hx hc
  rw [nbrs_eq A hr hc] at he
  obtain ⟨f, hf, rfl⟩ := List.mem_map.1 he
  obtain ⟨⟨q, ⟨w, z⟩, k⟩, hmem, hname, -⟩ := forall₂_left f1 hf
  dsimp only at hname
  have hw := ((m1 _ _ _).1 hmem).1
  obtain ⟨hc2, hl2⟩ := cells_are_particles (G0 := G0) H hn hu hS hw
  refine ⟨w, decide (k ≠ 0), (target_iff (x := z) hname w _).2 ⟨rfl, ?_⟩, Or.inr ?_⟩
  · by_cases hk : k = 0
    · simp [hk]
    · simp [hk]
  · rw [Sweep.mem_act]
    refine ⟨hc2, decide_eq_true ?_⟩
    show _ ≤ (sweepGrid G0 S).level w
    rw [hl2]
    exact hall q (w, z) hw

/-! ### C91 -/

/-- **The check for deadlocks on the grid of the ranks**: it passes if every rank has an active particle, and hangs if some
ranks have one and others have none. -/
theorem check_on_grid (H : Ready eps' periodic W G) (hn : 0 < numLevels) (hu : ∀ f ∈ updates, ∀ u, f u < numLevels)
    (hS : afterUpdates numLevels W.particles.length G updates = some S) (hd : 0 < G0.numDirs) :
    ((∀ r, r < W.particles.length → ∃ p ∈ W.ofRank r, G0.current ≤ levelsAfter numLevels updates p.1) →
      Sweep.checkDeadlock (sweepGrid G0 S) (Sweep.initState (sweepGrid G0 S) miss inc out per) = .passed) ∧
    ∀ r q, r < W.particles.length → (∀ p ∈ W.ofRank r, levelsAfter numLevels updates p.1 < G0.current) →
      (∃ p ∈ W.ofRank q, G0.current ≤ levelsAfter numLevels updates p.1) →
      Sweep.checkDeadlock (sweepGrid G0 S) (Sweep.initState (sweepGrid G0 S) miss inc out per) = .hangs := by
  have A := H.allOk hn hu hS
  have hact : ∀ {r p}, p ∈ W.ofRank r → G0.current ≤ levelsAfter numLevels updates p.1 →
      p.1 ∈ (sweepGrid G0 S).act ∧ p.1.rank = r := by
    intro r p hp h
    obtain ⟨h1, h2⟩ := cells_are_particles (G0 := G0) H hn hu hS hp
    refine ⟨Sweep.mem_act.2 ⟨h1, decide_eq_true ?_⟩, H.id_rank hp⟩
    show _ ≤ (sweepGrid G0 S).level p.1
    rw [h2]
    exact h
  constructor
  · intro h
    refine Sweep.check_passes (wellFormed H A) (acyclic H A) hd (fun r hr => ?_) miss inc out per
    have hr : r < S.length := hr
    rw [A.length] at hr
    obtain ⟨p, hp, hl⟩ := h r hr
    exact ⟨p.1, hact hp hl⟩
  · rintro r q hr hidle ⟨p, hp, hl⟩
    refine Sweep.check_hangs (r := r) (q := q) ?_ ?_ (fun u hu' hur => ?_) ⟨p.1, hact hp hl⟩
    · show r < S.length
      rw [A.length]
      exact hr
    · show q < S.length
      rw [A.length]
      exact ofRank_lt hp
    · obtain ⟨hc, ha⟩ := Sweep.mem_act.1 hu'
      obtain ⟨hr', c, hc'⟩ := (mem_cells H.facts A).1 hc
      obtain ⟨x, hx⟩ := H.particle hr' hc'
      have hlev := (cells_are_particles (G0 := G0) H hn hu hS hx).2
      have ha : (sweepGrid G0 S).current ≤ (sweepGrid G0 S).level u := of_decide_eq_true ha
      dsimp only at hlev
      rw [hlev] at ha
      rw [hur] at hx
      exact absurd (hidle _ hx) (not_lt.2 ha)

end Verif.Sim
