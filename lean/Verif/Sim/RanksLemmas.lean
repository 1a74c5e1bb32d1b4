import Verif.Sim.WholeProps
import Verif.Sim.RanksSpec
import Verif.Sweep.SameSweeps
import Verif.Parallel.DistributionProps

/-! # The same simulation on other ranks: lemmas -/

namespace Verif.Sim

open Verif.Parallel Verif.Geometry
open Verif.Predicates (P3)

variable {eps' : ℝ} {periodic : Bool} {W W' : World 3 Sweep.Id} {G G' : ℕ → List (Name Sweep.Id × Cell)} {R C : Type}
  {numLevels : ℕ} {maxTimestep : ℝ}

/-- There is one particle at a place. -/
theorem Ready.place (H : Ready eps' periodic W G) {r s : ℕ} {p q : Sweep.Id × Vec 3 ℝ} (hp : p ∈ W.ofRank r) (hq : q ∈ W.ofRank s)
    (e : p.2 = q.2) : r = s ∧ p = q := by
  obtain ⟨c, hc⟩ := H.cell hp
  obtain ⟨h0, h1, -⟩ := grid_volume H.valid H.cube (H.built r (ofRank_lt hp)) hp hc
  obtain ⟨y, hy⟩ : ∃ y, W.Region r p y := by
    by_contra hn
    push Not at hn
    have : {y : Vec 3 ℝ | W.Region r p y} = ∅ := Set.eq_empty_of_forall_notMem hn
    rw [this, MeasureTheory.measure_empty] at h1
    exact absurd h1.symm (ENNReal.ofReal_pos.2 h0).ne'
  by_contra hn
  have := hy s q (ofRank_lt hq) hq 0 fun e' => hn (by
    obtain ⟨rfl, rfl, -⟩ : s = r ∧ q = p ∧ (0 : Fin 3 → ℤ) = 0 := by simpa only [Prod.mk.injEq] using e'
    exact ⟨rfl, rfl⟩)
  rw [image_zero, e] at this
  exact lt_irrefl _ this

/-- The names of the particles at the same places. -/
theorem exists_names (E : SameParticles W W') : ∃ σ : Sweep.Id → Sweep.Id, ∀ r, ∀ p ∈ W.ofRank r, ∃ r', ∃ p' ∈ W'.ofRank r',
    p'.2 = p.2 ∧ (Numbered W → p'.1 = σ p.1) := by
  classical
  have h : ∀ u : Sweep.Id, ∃ v : Sweep.Id, ∀ r, ∀ p ∈ W.ofRank r, Numbered W → p.1 = u → ∃ r', ∃ p' ∈ W'.ofRank r', p'.2 = p.2 ∧ p'.1 = v := by
    intro u
    by_cases hu : ∃ r, ∃ p ∈ W.ofRank r, p.1 = u
    · obtain ⟨r, p, hp, rfl⟩ := hu
      obtain ⟨r', p', hp', e⟩ := (E.places p.2).1 ⟨r, p, hp, rfl⟩
      refine ⟨p'.1, fun s q hq hN eq => ⟨r', p', hp', ?_, rfl⟩⟩
      have hid : ∀ {r : ℕ} {p : Sweep.Id × Vec 3 ℝ}, p ∈ W.ofRank r → p.1.rank = r := by
        intro r p hp
        have : p.1 ∈ (W.ofRank r).map Prod.fst := List.mem_map.2 ⟨p, hp, rfl⟩
        rw [hN r] at this
        obtain ⟨i, -, hi⟩ := List.mem_map.1 this
        rw [← hi]
      have h1 := hid hp
      have h2 := hid hq
      obtain rfl : r = s := by rw [← h1, ← h2, eq]
      have hnd : ((W.ofRank r).map Prod.fst).Nodup := by
        rw [hN r]
        refine List.Nodup.map (fun a b e => ?_) List.nodup_range
        cases e
        rfl
      rw [e, List.inj_on_of_nodup_map hnd hp hq eq.symm]
    · exact ⟨u, fun r p hp _ e => absurd ⟨r, p, hp, e⟩ hu⟩
  choose σ hσ using h
  refine ⟨σ, fun r p hp => ?_⟩
  by_cases hN : Numbered W
  · obtain ⟨r', p', hp', e1, e2⟩ := hσ p.1 r p hp hN rfl
    exact ⟨r', p', hp', e1, fun _ => e2⟩
  · obtain ⟨r', p', hp', e⟩ := (E.places p.2).1 ⟨r, p, hp, rfl⟩
    exact ⟨r', p', hp', e, fun h => absurd h hN⟩

theorem mem_cells_iff (H : Ready eps' periodic W G) {G0 : Sweep.Grid ℝ R} {lev : Sweep.Id → ℕ} {S : List Rank}
    (A : AllOk numLevels W.particles.length (fun r => (W.ofRank r).length) G lev S) {u : Sweep.Id} :
    u ∈ (sweepGrid G0 S).cells ↔ ∃ r, ∃ p ∈ W.ofRank r, p.1 = u := by
  rw [mem_cells H.facts A]
  constructor
  · rintro ⟨hr, c, hc⟩
    obtain ⟨x, hx⟩ := H.particle hr hc
    exact ⟨_, _, hx, rfl⟩
  · rintro ⟨r, p, hp, rfl⟩
    obtain ⟨c, hc⟩ := H.cell hp
    have hr := ofRank_lt hp
    obtain rfl := H.id_rank hp
    exact ⟨hr, c, hc⟩

theorem SamePlace.symm {u u' : Sweep.Id} (h : SamePlace W W' u u') : SamePlace W' W u' u := by
  obtain ⟨r, p, hp, r', p', hp', e1, e2, e3⟩ := h
  exact ⟨r', p', hp', r, p, hp, e2, e1, e3.symm⟩

/-- The name at a place is unique. -/
theorem SamePlace.unique (H : Ready eps' periodic W G) (H' : Ready eps' periodic W' G') {u v v' : Sweep.Id} (h : SamePlace W W' u v)
    (h' : SamePlace W W' u v') : v = v' := by
  obtain ⟨r, p, hp, s, q, hq, rfl, rfl, e⟩ := h
  obtain ⟨r1, p1, hp1, s1, q1, hq1, e1, rfl, e2⟩ := h'
  obtain ⟨rfl, rfl⟩ := H.same hp hp1 e1.symm
  rw [(H'.place hq hq1 (e.trans e2.symm)).2]

/-- Sums over corresponding elements of lists. -/
theorem sum_forall₂ {α β : Type} {l : List α} {L : List β} {a : α → Bool} {b : β → Bool} {x : α → ℝ} {y : β → ℝ}
    (h : List.Forall₂ (fun f g => b g = a f ∧ y g = x f) l L) : ((L.filter b).map y).sum = ((l.filter a).map x).sum := by
  induction h with
  | nil => rfl
  | @cons f g l L h1 _ ih =>
    rw [List.filter_cons, List.filter_cons, h1.1]
    by_cases ha : a f = true
    · rw [if_pos ha, if_pos ha, List.map_cons, List.map_cons, List.sum_cons, List.sum_cons, ih, h1.2]
    · rw [if_neg ha, if_neg ha, ih]

/-- What is behind a face without periodic boundaries. -/
theorem behind {own s : ℕ} {id v : Sweep.Id} {k : Fin 3 → ℤ} {n : Name Sweep.Id} (h : Name.Is own false s id k n) :
    (neighbour n = .loc v ∨ neighbour n = .remote v) ↔ k = 0 ∧ id = v := by
  rcases n with id' | (⟨id', r⟩ | ⟨id', w⟩ | ⟨id', r, w⟩) | _
  · obtain ⟨-, rfl, rfl⟩ := h
    simp [neighbour]
  · obtain ⟨-, rfl, rfl, -⟩ := h
    simp [neighbour]
  · exact absurd h.1 (by decide)
  · exact absurd h.1 (by decide)
  · have := h.2
    simp [neighbour, this]

/-- The shares of the photons do not depend on the ranks of the particles. -/
theorem share_same (H : Ready eps' false W G) (H' : Ready eps' false W' G') (E : SameParticles W W') {G0 G0' : Sweep.Grid ℝ R}
    {lev lev' : Sweep.Id → ℕ} {S S' : List Rank} (A : AllOk numLevels W.particles.length (fun r => (W.ofRank r).length) G lev S)
    (A' : AllOk numLevels W'.particles.length (fun r => (W'.ofRank r).length) G' lev' S') {d : ℕ} (hdir : G0'.dir d = G0.dir d)
    {u u' v v' : Sweep.Id} (hu : SamePlace W W' u u') (hv : SamePlace W W' v v') :
    Sweep.share (sweepGrid G0' S') d u' v' = Sweep.share (sweepGrid G0 S) d u v := by
  obtain ⟨r, p, hp, r', p', hp', rfl, rfl, hpp⟩ := hu
  obtain ⟨c, hc⟩ := H.cell hp
  obtain ⟨c', hc'⟩ := H'.cell hp'
  have hr := ofRank_lt hp
  have hr' := ofRank_lt hp'
  obtain ⟨L, hperm, h2⟩ := distribution_faces H.valid H'.valid H.cube H.inside E (H.built r hr) (H'.built r' hr') hp hc hp' hc' hpp
  obtain rfl := H.id_rank hp
  obtain rfl := H'.id_rank hp'
  have hb : ∀ f f', SameFace false W W' p.1.rank p'.1.rank f f' → (face f').1 = (face f).1 ∧
      ((neighbour f'.2.2 = .loc v' ∨ neighbour f'.2.2 = .remote v') ↔ (neighbour f.2.2 = .loc v ∨ neighbour f.2.2 = .remote v)) := by
    rintro f f' ⟨a1, a2, s, q, hq, s', q', hq', k, e, n1, n2⟩
    refine ⟨by unfold face; rw [a1, a2], ?_⟩
    rw [behind n1, behind n2]
    refine and_congr_right fun _ => ⟨fun h => ?_, fun h => ?_⟩
    · exact SamePlace.unique H' H ⟨s', q', hq', s, q, hq, h, rfl, e.symm⟩ hv.symm
    · exact SamePlace.unique H H' ⟨s, q, hq, s', q', hq', h, rfl, e⟩ hv
  have hd : (sweepGrid G0' S').dir d = (sweepGrid G0 S).dir d := hdir
  unfold Sweep.share
  rw [nbrs_eq A hr hc, nbrs_eq A' hr' hc', ((((hperm.map face).symm.filter _).map _).sum_eq),
    ((((hperm.map face).symm.filter _).map _).sum_eq), hd]
  have h3 : ∀ {q q' : Sweep.Face ℝ × Sweep.Neighbour → Bool}, (∀ f f', SameFace false W W' p.1.rank p'.1.rank f f' →
      q' (face f') = q (face f)) →
      (((L.map face).filter q').map (Sweep.effArea (sweepGrid G0' S') d)).sum =
        (((c.neighbours.map face).filter q).map (Sweep.effArea (sweepGrid G0 S) d)).sum := by
    intro q q' hq
    refine sum_forall₂ ?_
    rw [List.forall₂_map_left_iff, List.forall₂_map_right_iff]
    refine h2.imp fun f f' hf => ⟨hq f f' hf, ?_⟩
    unfold Sweep.effArea
    rw [(hb f f' hf).1, hd]
  rw [h3 fun f f' hf => ?_, h3 fun f f' hf => ?_]
  · refine decide_eq_decide.2 ?_
    rw [(hb f f' hf).1]
  · refine decide_eq_decide.2 ?_
    rw [(hb f f' hf).1]
    exact and_congr_right fun _ => (hb f f' hf).2

/-- The levels of all cells are those of the particles. -/
theorem mem_all_levels (H : Ready eps' periodic W G) {lev : Sweep.Id → ℕ} {S : List Rank}
    (A : AllOk numLevels W.particles.length (fun r => (W.ofRank r).length) G lev S) {x : ℕ} :
    (x ∈ S.flatMap fun s => s.cells.levels) ↔ ∃ r, ∃ p ∈ W.ofRank r, lev p.1 = x := by
  constructor
  · intro h
    obtain ⟨s, hs, hx⟩ := List.mem_flatMap.1 h
    obtain ⟨r, hr⟩ := List.mem_iff_getElem?.1 hs
    rw [(A.rank r s hr).levels] at hx
    obtain ⟨i, hi, rfl⟩ := List.mem_map.1 hx
    have : Sweep.Id.mk r i ∈ (W.ofRank r).map Prod.fst := by
      rw [H.ids r]
      exact List.mem_map.2 ⟨i, hi, rfl⟩
    obtain ⟨p, hp, e⟩ := List.mem_map.1 this
    exact ⟨r, p, hp, by rw [e]⟩
  · rintro ⟨r, p, hp, rfl⟩
    obtain ⟨i, hi, e⟩ := H.index hp
    rw [e]
    exact A.mem_levels (ofRank_lt hp) hi

theorem executed_congr {ts : Timestep.State} {l l' : List ℕ} (h : ∀ x, x ∈ l ↔ x ∈ l') :
    Timestep.executedLevels ts l = Timestep.executedLevels ts l' := by
  unfold Timestep.executedLevels
  congr 1
  funext levels
  refine List.filter_congr fun current _ => ?_
  refine decide_eq_decide.2 ?_
  rw [List.length_pos_iff_exists_mem, List.length_pos_iff_exists_mem]
  refine exists_congr fun x => ?_
  rw [List.mem_filter, List.mem_filter, h]

theorem executed_le {ts : Timestep.State} {l levels : List ℕ} (h : Timestep.executedLevels ts l = some levels) {m : ℕ}
    (hl : ∀ x ∈ l, x ≤ m) : ∀ x ∈ levels, x ≤ m := by
  unfold Timestep.executedLevels at h
  obtain ⟨ls, -, rfl⟩ := Option.map_eq_some_iff.1 h
  intro x hx
  have := of_decide_eq_true (List.mem_filter.1 hx).2
  obtain ⟨y, hy⟩ := List.length_pos_iff_exists_mem.1 this
  obtain ⟨h1, h2⟩ := List.mem_filter.1 hy
  exact (of_decide_eq_true h2).trans (hl y h1)

end Verif.Sim
