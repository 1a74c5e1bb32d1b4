import Verif.Sim.GridLemmas
import Verif.Parallel.TotalLemmas

/-! # The grid of all ranks meets the assumptions of the sweep -/

namespace Verif.Sim

open Verif.Parallel Verif.Geometry Verif.Halo
open Verif.Predicates (P3)

variable {eps' : ℝ} {periodic : Bool} {W : World 3 Sweep.Id} {G : ℕ → List (Name Sweep.Id × Cell)}
  {R : Type} {G0 : Sweep.Grid ℝ R} {numLevels : ℕ} {lev : Sweep.Id → ℕ} {S : List Rank}

/-- The unit vector from `x` towards the image. -/
noncomputable def towards (W : World 3 Sweep.Id) (x : Vec 3 ℝ) (a : ℕ × (Sweep.Id × Vec 3 ℝ) × (Fin 3 → ℤ)) : Sweep.V3 ℝ :=
  ⟨(image W.box a.2.2 a.2.1.2 0 - x 0) / distance x (image W.box a.2.2 a.2.1.2),
    (image W.box a.2.2 a.2.1.2 1 - x 1) / distance x (image W.box a.2.2 a.2.1.2),
    (image W.box a.2.2 a.2.1.2 2 - x 2) / distance x (image W.box a.2.2 a.2.1.2)⟩

theorem towards_neg (W : World 3 Sweep.Id) (u v : Sweep.Id) (x y : Vec 3 ℝ) (r s : ℕ) (k : Fin 3 → ℤ) :
    towards W y (r, (u, x), -k) = (towards W x (s, (v, y), k)).neg := by
  have hd : distance y (image W.box (-k) x) = distance x (image W.box k y) := by
    have := distance_shift W 0 k x y
    rw [image_zero, sub_zero] at this
    have h2 := distance_shift W (-k) 0 x y
    rw [image_zero, zero_sub, neg_neg] at h2
    rw [← h2, distance_comm']
  have hi : ∀ i, image W.box (-k) x i - y i = -(image W.box k y i - x i) := by
    intro i
    unfold image
    rw [Pi.neg_apply]
    push_cast
    ring
  unfold towards Sweep.V3.neg
  dsimp only
  rw [hd, hi, hi, hi, neg_div, neg_div, neg_div]

/-- The image `a` is seen as `v`, directly or through a periodic boundary. -/
def Seen (periodic : Bool) (v : Sweep.Id) (pb : Bool) (a : ℕ × (Sweep.Id × Vec 3 ℝ) × (Fin 3 → ℤ)) : Prop :=
  a.2.1.1 = v ∧ if pb then periodic = true ∧ a.2.2 ≠ 0 else a.2.2 = 0

theorem target_iff {r s : ℕ} {id : Sweep.Id} {k : Fin 3 → ℤ} {x : Vec 3 ℝ} {n : Name Sweep.Id} (h : Name.Is r periodic s id k n)
    (v : Sweep.Id) (pb : Bool) : (neighbour n).target = some (v, pb) ↔ Seen periodic v pb (s, (id, x), k) := by
  unfold Seen
  rcases n with id' | (⟨id', r'⟩ | ⟨id', w⟩ | ⟨id', r', w⟩) | _
  · obtain ⟨h1, h2, h3⟩ := h
    cases pb <;> simp [neighbour, Sweep.Neighbour.target, h2, h3]
  · obtain ⟨h1, h2, h3, h4⟩ := h
    cases pb <;> simp [neighbour, Sweep.Neighbour.target, h2, h3]
  · obtain ⟨h1, h2, h3, h4, h5⟩ := h
    cases pb <;> simp [neighbour, Sweep.Neighbour.target, h1, h3, h4]
  · obtain ⟨h1, h2, h3, h4, h5, h6⟩ := h
    cases pb <;> simp [neighbour, Sweep.Neighbour.target, h1, h3, h4]
  · obtain ⟨h1, h2⟩ := h
    cases pb <;> simp [neighbour, Sweep.Neighbour.target, h1, h2]

open Classical in
theorem normals_eq {r : ℕ} {x : Vec 3 ℝ} {l : List (ℝ × P3 ℝ × Name Sweep.Id)}
    {adj : List (ℕ × (Sweep.Id × Vec 3 ℝ) × (Fin 3 → ℤ))}
    (h : List.Forall₂ (fun f a => Name.Is r periodic a.1 a.2.1.1 a.2.2 f.2.2 ∧ 0 < f.1 ∧
        0 < distance x (image W.box a.2.2 a.2.1.2) ∧
        ∀ i, dim3.toVec f.2.1 i * distance x (image W.box a.2.2 a.2.1.2) = image W.box a.2.2 a.2.1.2 i - x i) l adj)
    (v : Sweep.Id) (pb : Bool) :
    (l.map face).filterMap (fun e => if e.2.target = some (v, pb) then some e.1.normal else none) =
      (adj.filter fun a => decide (Seen periodic v pb a)).map (towards W x) := by
  induction h with
  | nil => rfl
  | @cons f a l adj h1 _ ih =>
    obtain ⟨hn, -, hd, hv⟩ := h1
    obtain ⟨s, ⟨id, y⟩, k⟩ := a
    have ht := target_iff (x := y) hn v pb
    have hnormal : (face f).1.normal = towards W x (s, (id, y), k) := by
      have e0 := hv 0
      have e1 := hv 1
      have e2 := hv 2
      unfold face towards
      dsimp only at *
      rw [← e0, ← e1, ← e2, mul_div_cancel_right₀ _ hd.ne', mul_div_cancel_right₀ _ hd.ne', mul_div_cancel_right₀ _ hd.ne']
      rfl
    rw [List.map_cons]
    by_cases hs : Seen periodic v pb (s, (id, y), k)
    · rw [List.filterMap_cons_some (b := towards W x (s, (id, y), k)), ih, List.filter_cons_of_pos (by simpa using hs),
        List.map_cons]
      have ht' : (face f).2.target = some (v, pb) := ht.2 hs
      rw [if_pos ht', hnormal]
    · rw [List.filterMap_cons_none, ih, List.filter_cons_of_neg (by simpa using hs)]
      have ht' : ¬ (face f).2.target = some (v, pb) := fun e => hs (ht.1 e)
      rw [if_neg ht']

theorem wellFormed (H : Ready eps' periodic W G)
    (A : AllOk numLevels W.particles.length (fun r => (W.ofRank r).length) G lev S) : Sweep.WF (sweepGrid G0 S) := by
  have F := H.facts
  refine ⟨?_, ?_, ?_, ?_⟩
  · intro u hu
    show u.rank < S.length
    rw [A.length]
    exact ((mem_cells F A).1 hu).1
  · intro u hu f v hv
    obtain ⟨hr, c, hc⟩ := (mem_cells F A).1 hu
    rw [nbrs_eq A hr hc] at hv
    have : ∃ g ∈ c.neighbours, neighbour g.2.2 = .loc v ∨ neighbour g.2.2 = .locPeriodic v := by
      rcases hv with hv | hv
      · obtain ⟨g, hg, e⟩ := List.mem_map.1 hv
        exact ⟨g, hg, Or.inl (Prod.mk.inj e).2⟩
      · obtain ⟨g, hg, e⟩ := List.mem_map.1 hv
        exact ⟨g, hg, Or.inr (Prod.mk.inj e).2⟩
    obtain ⟨g, hg, e⟩ := this
    obtain ⟨c', hc'⟩ := F.own _ hr u c hc g hg v e
    obtain ⟨y, hy⟩ := H.particle hr hc'
    have hvr : v.rank = u.rank := H.id_rank hy
    refine ⟨(mem_cells F A).2 ⟨by rw [hvr]; exact hr, c', by rw [hvr]; exact hc'⟩, hvr⟩
  · intro u hu f v hv
    obtain ⟨hr, c, hc⟩ := (mem_cells F A).1 hu
    rw [nbrs_eq A hr hc] at hv
    have : ∃ g ∈ c.neighbours, neighbour g.2.2 = .remote v ∨ neighbour g.2.2 = .remotePeriodic v := by
      rcases hv with hv | hv
      · obtain ⟨g, hg, e⟩ := List.mem_map.1 hv
        exact ⟨g, hg, Or.inl (Prod.mk.inj e).2⟩
      · obtain ⟨g, hg, e⟩ := List.mem_map.1 hv
        exact ⟨g, hg, Or.inr (Prod.mk.inj e).2⟩
    obtain ⟨g, hg, e⟩ := this
    obtain ⟨q, hq⟩ := neighbour_remote.1 e
    obtain ⟨hqN, hqr, hvr, ⟨c', hc', -⟩, -⟩ := F.remote _ hr u c hc g hg v q hq
    subst hvr
    refine ⟨(mem_cells F A).2 ⟨hqN, c', hc'⟩, hqr, ?_⟩
    show (levelOn S u.rank v).getD 0 = (levelOn S v.rank v).getD 0
    rw [levelOn_remote F A hr hc hg hq, levelOn_own A hqN hc']
  · intro u hu v hv pb
    classical
    obtain ⟨hr, c, hc⟩ := (mem_cells F A).1 hu
    obtain ⟨hr', c', hc'⟩ := (mem_cells F A).1 hv
    obtain ⟨x, hx⟩ := H.particle hr hc
    obtain ⟨y, hy⟩ := H.particle hr' hc'
    obtain ⟨adj, n1, m1, f1⟩ := H.neighbours hx hc
    obtain ⟨adj', n2, m2, f2⟩ := H.neighbours hy hc'
    unfold Sweep.normals
    rw [nbrs_eq A hr hc, nbrs_eq A hr' hc', normals_eq f1, normals_eq f2, List.map_map]
    have hperm : (adj'.filter fun a => decide (Seen periodic u pb a)).Perm
        ((adj.filter fun a => decide (Seen periodic v pb a)).map fun a => (u.rank, (u, x), -a.2.2)) := by
      rw [List.perm_ext_iff_of_nodup (n2.filter _)]
      · rintro ⟨s, ⟨w, z⟩, k⟩
        rw [List.mem_filter, List.mem_map, decide_eq_true_eq]
        constructor
        · rintro ⟨ha, hs⟩
          have hadj := (m2 _ _ _).1 ha
          obtain ⟨e1, e2⟩ := hs
          dsimp only at e1 e2
          subst e1
          obtain ⟨rfl, e3⟩ := H.same hadj.1 hx rfl
          obtain rfl := (Prod.mk.inj e3).2
          refine ⟨(v.rank, (v, y), -k), ?_, by dsimp only; rw [neg_neg]⟩
          rw [List.mem_filter, decide_eq_true_eq]
          refine ⟨(m1 _ _ _).2 (adjacent_symm hy hadj), rfl, ?_⟩
          cases pb
          · simpa using e2
          · simpa using e2
        · rintro ⟨⟨s', ⟨w', z'⟩, k'⟩, ha, e⟩
          rw [List.mem_filter, decide_eq_true_eq] at ha
          obtain ⟨ha, e1, e2⟩ := ha
          dsimp only at e1 e2 e
          subst e1
          have hadj := (m1 _ _ _).1 ha
          obtain ⟨rfl, e3⟩ := H.same hadj.1 hy rfl
          obtain rfl := (Prod.mk.inj e3).2
          obtain ⟨rfl, e4⟩ := Prod.mk.inj e
          obtain ⟨e5, rfl⟩ := Prod.mk.inj e4
          obtain ⟨rfl, rfl⟩ := Prod.mk.inj e5
          refine ⟨(m2 _ _ _).2 (adjacent_symm hx hadj), rfl, ?_⟩
          cases pb
          · simpa using e2
          · simpa using e2
      · refine List.Nodup.map_on ?_ (n1.filter _)
        rintro ⟨s, ⟨w, z⟩, k⟩ ha ⟨s', ⟨w', z'⟩, k'⟩ ha' e
        rw [List.mem_filter, decide_eq_true_eq] at ha ha'
        obtain ⟨ha, e1, -⟩ := ha
        obtain ⟨ha', e1', -⟩ := ha'
        dsimp only at e1 e1' e
        subst e1
        subst e1'
        obtain ⟨rfl, e3⟩ := H.same ((m1 _ _ _).1 ha).1 ((m1 _ _ _).1 ha').1 rfl
        obtain rfl := (Prod.mk.inj e3).2
        have := neg_inj.1 (Prod.mk.inj (Prod.mk.inj e).2).2
        rw [this]
    refine (hperm.map (towards W y)).trans ?_
    rw [List.map_map]
    refine List.Perm.of_eq ?_
    refine List.map_congr_left ?_
    rintro ⟨s, ⟨w, z⟩, k⟩ ha
    rw [List.mem_filter, decide_eq_true_eq] at ha
    obtain ⟨ha, e1, -⟩ := ha
    dsimp only at e1
    subst e1
    obtain ⟨rfl, e3⟩ := H.same ((m1 _ _ _).1 ha).1 hy rfl
    obtain rfl := (Prod.mk.inj e3).2
    exact towards_neg W u w x z _ _ k

/-- A face towards another cell which is not behind a periodic boundary leads forward. -/
theorem feeds_forward (H : Ready eps' periodic W G)
    (A : AllOk numLevels W.particles.length (fun r => (W.ofRank r).length) G lev S) {d : ℕ} {u v : Sweep.Id}
    (hu : u ∈ (sweepGrid G0 S).cells) (h : Sweep.Feeds (sweepGrid G0 S) d u v) {x y : Vec 3 ℝ} (hx : (u, x) ∈ W.ofRank u.rank)
    (hy : (v, y) ∈ W.ofRank v.rank) :
    x 0 * (G0.dir d).x + x 1 * (G0.dir d).y + x 2 * (G0.dir d).z < y 0 * (G0.dir d).x + y 1 * (G0.dir d).y + y 2 * (G0.dir d).z := by
  have F := H.facts
  obtain ⟨hr, c, hc⟩ := (mem_cells F A).1 hu
  obtain ⟨adj, -, m1, f1⟩ := H.neighbours hx hc
  obtain ⟨e, he, hd, ht⟩ := h
  rw [nbrs_eq A hr hc] at he
  obtain ⟨f, hf, rfl⟩ := List.mem_map.1 he
  obtain ⟨⟨s, ⟨w, z⟩, k⟩, ha, hn, -, hpos, hv⟩ := forall₂_left f1 hf
  dsimp only at hn hpos hv
  have hadj := (m1 _ _ _).1 ha
  have hs : Seen periodic v false (s, (w, z), k) := by
    rw [← target_iff (x := z) hn]
    rcases ht with ht | ht
    · rw [show neighbour f.2.2 = _ from ht]
      rfl
    · rw [show neighbour f.2.2 = _ from ht]
      rfl
  obtain ⟨e1, e2⟩ := hs
  rw [if_neg (by decide)] at e2
  dsimp only at e1 e2
  subst e1
  subst e2
  obtain ⟨rfl, e3⟩ := H.same hadj.1 hy rfl
  obtain rfl := (Prod.mk.inj e3).2
  rw [image_zero] at hpos hv
  have hdot : 0 < f.2.1.x * (G0.dir d).x + f.2.1.y * (G0.dir d).y + f.2.1.z * (G0.dir d).z := hd
  have h0 : f.2.1.x * distance x z = z 0 - x 0 := hv 0
  have h1 : f.2.1.y * distance x z = z 1 - x 1 := hv 1
  have h2 : f.2.1.z * distance x z = z 2 - x 2 := hv 2
  have := mul_pos hdot hpos
  have e : (f.2.1.x * (G0.dir d).x + f.2.1.y * (G0.dir d).y + f.2.1.z * (G0.dir d).z) * distance x z =
      (z 0 - x 0) * (G0.dir d).x + (z 1 - x 1) * (G0.dir d).y + (z 2 - x 2) * (G0.dir d).z := by
    rw [← h0, ← h1, ← h2]
    ring
  rw [e] at this
  linarith

theorem acyclic (H : Ready eps' periodic W G)
    (A : AllOk numLevels W.particles.length (fun r => (W.ofRank r).length) G lev S) : Sweep.Acyclic (sweepGrid G0 S) := by
  classical
  have F := H.facts
  have hpos : ∀ u : Sweep.Id, ∃ x : Vec 3 ℝ, u ∈ (sweepGrid G0 S).cells → (u, x) ∈ W.ofRank u.rank := by
    intro u
    by_cases hu : u ∈ (sweepGrid G0 S).cells
    · obtain ⟨hr, c, hc⟩ := (mem_cells F A).1 hu
      obtain ⟨x, hx⟩ := H.particle hr hc
      exact ⟨x, fun _ => hx⟩
    · exact ⟨0, fun h => absurd h hu⟩
  choose x hx using hpos
  obtain ⟨val, hval⟩ : ∃ val : ℕ → Sweep.Id → ℝ,
      val = fun d u => x u 0 * (G0.dir d).x + x u 1 * (G0.dir d).y + x u 2 * (G0.dir d).z := ⟨_, rfl⟩
  refine ⟨fun d u => ((sweepGrid G0 S).cells.filter fun w => val d w < val d u).card, ?_⟩
  intro d _ u hu v hv hf
  have hu' := (Finset.mem_filter.1 hu).1
  have hv' := (Finset.mem_filter.1 hv).1
  have hlt : val d u < val d v := by
    rw [hval]
    exact feeds_forward H A hu' hf (hx u hu') (hx v hv')
  refine Finset.card_lt_card ?_
  rw [Finset.ssubset_iff_of_subset]
  · exact ⟨u, Finset.mem_filter.2 ⟨hu', hlt⟩, fun h => absurd (Finset.mem_filter.1 h).2 (lt_irrefl _)⟩
  · intro w hw
    rw [Finset.mem_filter] at hw ⊢
    exact ⟨hw.1, hw.2.trans hlt⟩

/-- All faces have a positive area, and in every direction there is a downwind face. -/
theorem faces_ok (H : Ready eps' periodic W G)
    (A : AllOk numLevels W.particles.length (fun r => (W.ofRank r).length) G lev S) {u : Sweep.Id}
    (hu : u ∈ (sweepGrid G0 S).cells) : (∀ e ∈ (sweepGrid G0 S).nbrs u, 0 < e.1.area) ∧
      ∀ d, G0.dir d ≠ ⟨0, 0, 0⟩ → ∃ e ∈ (sweepGrid G0 S).nbrs u, Sweep.downwind e.1 (G0.dir d) := by
  have F := H.facts
  obtain ⟨hr, c, hc⟩ := (mem_cells F A).1 hu
  obtain ⟨x, hx⟩ := H.particle hr hc
  obtain ⟨adj, -, m1, f1⟩ := H.neighbours hx hc
  rw [nbrs_eq A hr hc]
  refine ⟨?_, ?_⟩
  · intro e he
    obtain ⟨f, hf, rfl⟩ := List.mem_map.1 he
    obtain ⟨a, -, -, h, -⟩ := forall₂_left f1 hf
    exact h
  · intro d hd
    obtain ⟨f, hf, h⟩ := (grid_cell_closed H.valid H.cube (H.built _ hr) hx hc
      (⟨(G0.dir d).x, (G0.dir d).y, (G0.dir d).z⟩ : P3 ℝ)).2 (by
        intro e
        obtain ⟨e1, e2, e3⟩ := P3.mk.inj e
        refine hd ?_
        cases hh : G0.dir d
        rw [hh] at e1 e2 e3
        dsimp only at e1 e2 e3
        rw [e1, e2, e3])
    exact ⟨face f, List.mem_map.2 ⟨f, hf, rfl⟩, h⟩

theorem noPeriodic (H : Ready eps' false W G)
    (A : AllOk numLevels W.particles.length (fun r => (W.ofRank r).length) G lev S) : Sweep.NoPeriodic (sweepGrid G0 S) := by
  have F := H.facts
  intro u hu e he v
  obtain ⟨hr, c, hc⟩ := (mem_cells F A).1 hu
  obtain ⟨x, hx⟩ := H.particle hr hc
  obtain ⟨adj, -, m1, f1⟩ := H.neighbours hx hc
  rw [nbrs_eq A hr hc] at he
  obtain ⟨f, hf, rfl⟩ := List.mem_map.1 he
  obtain ⟨⟨s, ⟨w, z⟩, k⟩, ha, hn, -⟩ := forall₂_left f1 hf
  have : ∀ w', (neighbour f.2.2).target ≠ some (w', true) := by
    intro w' h
    have := ((target_iff (x := z) hn w' true).1 h).2
    rw [if_pos rfl] at this
    exact absurd this.1 (by decide)
  constructor
  · intro h
    exact this v (by rw [show neighbour f.2.2 = _ from h]; rfl)
  · intro h
    exact this v (by rw [show neighbour f.2.2 = _ from h]; rfl)

end Verif.Sim
