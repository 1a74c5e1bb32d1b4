import Verif.Parallel.PlaneCross
import Verif.Parallel.Tiling

/-! # The cells of a rank in two dimensions: lemmas -/

namespace Verif.Parallel.Plane

open Verif.Geometry Verif.Halo Verif.Delaunay
open Verif.Predicates (P2 distSq2)

variable {Id : Type} [DecidableEq Id] {order : List ℕ} {W : World 2 Id} {own : ℕ} {g : Grid Id} {idx : List (Id × ℕ)}
  {l : List (ℕ × Image Id (Fin 2 → WrapType) (P2 ℝ))}

theorem normal_spec {a b n : P2 ℝ} (hn : distSq2 n ⟨0, 0⟩ = 1) {r : ℝ} (hr : 0 < r) (h : b.sub a = ⟨r * n.x, r * n.y⟩) :
    0 < distance (dim2.toVec a) (dim2.toVec b) ∧ ∀ i : Fin 2,
      dim2.toVec n i * distance (dim2.toVec a) (dim2.toVec b) = dim2.toVec b i - dim2.toVec a i := by
  have h1 : b.x - a.x = r * n.x := congrArg P2.x h
  have h2 : b.y - a.y = r * n.y := congrArg P2.y h
  have e : distance (dim2.toVec a) (dim2.toVec b) = r := by
    rw [distance2]
    have : distSq2 a b = r ^ 2 := by
      unfold distSq2 at hn ⊢
      linear_combination r ^ 2 * hn + (b.x - a.x + r * n.x) * h1 + (b.y - a.y + r * n.y) * h2
    rw [this, Real.sqrt_sq hr.le]
  rw [e]
  refine ⟨hr, fun i => ?_⟩
  match i with
  | 0 => exact (mul_comm _ _).trans h1.symm
  | 1 => exact (mul_comm _ _).trans h2.symm

namespace RankData

/-- The cell of a local particle. -/
theorem cell_of (R : RankData order W own g idx l) (V : W.Valid) {periodic : Bool}
    {G : List (Name Id × SweepCell Id)} (hG : g.sweepGrid periodic = some G) {p : Id × Vec 2 ℝ} (hp : p ∈ W.ofRank own)
    {c : SweepCell Id} (hcell : (p.1, c) ∈ localCells G) :
    ∃ i L F, (p.1, i) ∈ idx ∧ g.position i = dim2.ofVec p.2 ∧ g.outline i = some L ∧ g.faces i = some F ∧
      Voronoi.volume2 L = some c.volume ∧
      c.neighbours = F.map (fun f => (f.area, f.normal, mapPtype periodic (g.typeOf f.connection))) ∧
      c.size = √(c.volume / Real.pi) := by
  rw [R.localCells_eq hG] at hcell
  obtain ⟨e, he, ee⟩ := List.mem_map.1 hcell
  obtain ⟨e1, e2⟩ := Prod.mk.inj ee
  obtain ⟨q, hq, q1, q2⟩ := R.particle he
  obtain rfl : q = p := eq_of_id (V.ids own) hq hp (q1.trans e1)
  obtain ⟨h4, hlt⟩ := R.idx_three he
  obtain ⟨L, F, v, hL, hF, hv, hs⟩ := R.sweepCell_some periodic h4 hlt
  unfold Grid.entry at e2
  rw [hs] at e2
  refine ⟨e.2, L, F, q1 ▸ he, q2, hL, hF, ?_, ?_, ?_⟩
  · rw [hv, ← e2]
    rfl
  · rw [← e2]
    rfl
  · rw [← e2]
    rfl

/-- The volume of the cell of a local particle. -/
theorem cell_measure (R : RankData order W own g idx l) (V : W.Valid) (hc : ∀ i, W.hi i - W.lo i = W.hi 0 - W.lo 0)
    {periodic : Bool}
    {G : List (Name Id × SweepCell Id)} (hG : g.sweepGrid periodic = some G) {p : Id × Vec 2 ℝ} (hp : p ∈ W.ofRank own)
    {c : SweepCell Id} (hcell : (p.1, c) ∈ localCells G) :
    0 < c.volume ∧ MeasureTheory.volume {y : Vec 2 ℝ | W.Region own p y} = ENNReal.ofReal c.volume := by
  obtain ⟨i, L, F, hi, hpos, hL, -, hv, -⟩ := R.cell_of V hG hp hcell
  obtain ⟨h4, hlt⟩ := R.idx_three hi
  obtain ⟨L', V', hL', hV', hV0, hm⟩ := Voronoi.cell_area2 R.plane h4 hlt
  have hLL : g.outline i = some L' := hL'
  obtain rfl : L = L' := Option.some.inj (hL.symm.trans hLL)
  obtain rfl : c.volume = V' := Option.some.inj (hv.symm.trans hV')
  refine ⟨hV0, ?_⟩
  rw [← hm]
  -- the closed region has the same area as the open one
  refine le_antisymm (MeasureTheory.measure_mono fun y hy w hw => ?_) ?_
  · by_cases e : w = i
    · rw [e]
    · exact ((R.region V hc hp hi hpos y).2 hy w hw e).le
  · have hnull : MeasureTheory.volume (⋃ w : ℕ, ⋃ _ : w < g.tri.state.mesh.numPoints ∧ w ≠ i,
        {y : Vec 2 ℝ | distance y (dim2.toVec (g.position i)) = distance y (dim2.toVec (g.position w))}) = 0 := by
      rw [MeasureTheory.measure_iUnion_null_iff]
      intro w
      rw [MeasureTheory.measure_iUnion_null_iff]
      rintro ⟨hw, hne⟩
      refine Tiling.volume_bisector fun e => hne ?_
      refine R.plane.injective hw hlt ?_
      rw [← ofVec_toVec (g.position i), e, ofVec_toVec]
    refine (MeasureTheory.measure_mono (t := {y : Vec 2 ℝ | W.Region own p y} ∪ _) ?_).trans
      ((MeasureTheory.measure_union_le _ _).trans (by rw [hnull, add_zero]))
    intro y hy
    by_cases hb : y ∈ ⋃ w : ℕ, ⋃ _ : w < g.tri.state.mesh.numPoints ∧ w ≠ i,
        {y : Vec 2 ℝ | distance y (dim2.toVec (g.position i)) = distance y (dim2.toVec (g.position w))}
    · exact Or.inr hb
    · refine Or.inl ((R.region V hc hp hi hpos y).1 fun w hw hne => lt_of_le_of_ne (hy w hw) fun e => hb ?_)
      refine Set.mem_iUnion.2 ⟨w, Set.mem_iUnion.2 ⟨⟨hw, hne⟩, ?_⟩⟩
      rw [Set.mem_ofPred_eq, eq_iff2, ofVec_toVec, ofVec_toVec]
      exact e

theorem isLocal_iff (R : RankData order W own g idx l) (periodic : Bool) {j : ℕ} (hj : j < g.tri.state.mesh.numPoints) :
    (mapPtype periodic (g.typeOf j)).isLocal = true ↔ ∃ id, (id, j) ∈ idx := by
  constructor
  · intro h
    rcases lt_or_ge j 3 with h4 | h4
    · have : g.typeOf j = .boundary := by
        unfold Grid.typeOf Grid.particleType
        rw [if_pos h4]
        rfl
      rw [this] at h
      cases h
    · rcases lt_or_ge j (3 + (W.ofRank own).length) with h5 | h5
      · exact R.idx_of h4 h5
      · obtain ⟨m, rfl⟩ := Nat.exists_eq_add_of_le h5
        have hm : m < l.length := by rw [R.num] at hj; omega
        have : g.typeOf (3 + (W.ofRank own).length + m) = .halo (ptype (env dim2 W order own) l[m].1 l[m].2) := by
          unfold Grid.typeOf Grid.particleType
          rw [if_neg (by omega), R.lookup_halo (List.getElem?_eq_getElem hm)]
          rfl
        rw [this] at h
        exfalso
        revert h
        cases ptype (env dim2 W order own) l[m].1 l[m].2 <;> cases periodic <;> simp [mapPtype, Name.isLocal]
  · rintro ⟨id, h⟩
    rw [R.typeOf_own h]
    rfl

/-- A cell has a local neighbour exactly if its point is connected to a local point. -/
theorem any_local (R : RankData order W own g idx l) (periodic : Bool) {j : ℕ} (h4 : 3 ≤ j)
    (hj : j < g.tri.state.mesh.numPoints) :
    ((g.entry periodic j).2.neighbours.any fun f => f.2.2.isLocal) = true ↔
      ∃ id i, (id, i) ∈ idx ∧ ∃ c, g.tri.state.mesh.HasTriangle i j c := by
  obtain ⟨L, F, V, -, hF, -, hs⟩ := R.sweepCell_some periodic h4 hj
  have e : (g.entry periodic j).2.neighbours =
      F.map fun f => (f.area, f.normal, mapPtype periodic (g.typeOf f.connection)) := by
    unfold Grid.entry
    rw [hs]
    rfl
  have hcon := (R.connections h4 hj hF).2
  have hlt : ∀ a, (∃ c, g.tri.state.mesh.HasTriangle j a c) → a < g.tri.state.mesh.numPoints := by
    rintro a ⟨c, t, h⟩
    have h : At g.tri.state.mesh t j a c := h
    exact R.plane.valid.lt (R.plane.valid.cyc h)
  rw [e, List.any_map, List.any_eq_true]
  constructor
  · rintro ⟨f, hf, h⟩
    have hfc := (hcon f.connection).1 (List.mem_map.2 ⟨f, hf, rfl⟩)
    obtain ⟨id, hid⟩ := (R.isLocal_iff periodic (hlt _ hfc)).1 h
    exact ⟨id, f.connection, hid, R.joined_symm (R.idx_three hid).1 hfc⟩
  · rintro ⟨id, i, hid, h⟩
    have hi := (hcon i).2 (R.joined_symm h4 h)
    obtain ⟨f, hf, rfl⟩ := List.mem_map.1 hi
    exact ⟨f, hf, (R.isLocal_iff periodic (R.idx_three hid).2).2 ⟨id, hid⟩⟩

/-- The halo particle of a point. -/
theorem haloParticle_iff (R : RankData order W own g idx l) {periodic : Bool} {j : ℕ} (h4 : 3 ≤ j)
    (hj : j < g.tri.state.mesh.numPoints) {s' : ℕ} {q : Id × Vec 2 ℝ} {k : Fin 2 → ℤ} (hN : Named W own idx l j s' q k)
    (s : ℕ) (id : Id) :
    haloParticle (g.entry periodic j) = some (s, id) ↔ s' ≠ own ∧ (periodic = true ∨ k = 0) ∧ s' = s ∧ q.1 = id ∧
      ∃ id' i, (id', i) ∈ idx ∧ ∃ c, g.tri.state.mesh.HasTriangle i j c := by
  have hI := R.typeOf_named hN periodic
  have hA := R.any_local periodic h4 hj
  have hE := R.entry_fst periodic h4 hj
  unfold haloParticle
  rw [hE]
  generalize mapPtype periodic (g.typeOf j) = n at hI ⊢
  match n, hI with
  | .own id', h =>
    obtain ⟨h1, -⟩ := h
    simp [h1]
  | .halo (.remote id' r), h =>
    obtain ⟨h1, h2, rfl, rfl⟩ := h
    dsimp only
    rw [← hA]
    by_cases ha : ((g.entry periodic j).2.neighbours.any fun f => f.2.2.isLocal) = true
    · rw [if_pos ha]
      simp only [Option.some.injEq, Prod.mk.injEq]
      exact ⟨fun h => ⟨h1, Or.inr h2, h.1, h.2, ha⟩, fun h => ⟨h.2.2.1, h.2.2.2.1⟩⟩
    · rw [if_neg ha]
      simp [ha]
  | .halo (.localPeriodic id' w), h =>
    obtain ⟨-, h1, -⟩ := h
    simp [h1]
  | .halo (.remotePeriodic id' r w), h =>
    obtain ⟨h0, h1, h2, rfl, rfl, h3⟩ := h
    dsimp only
    rw [← hA]
    by_cases ha : ((g.entry periodic j).2.neighbours.any fun f => f.2.2.isLocal) = true
    · rw [if_pos ha]
      simp only [Option.some.injEq, Prod.mk.injEq]
      exact ⟨fun h => ⟨h1, Or.inl h0, h.1, h.2, ha⟩, fun h => ⟨h.2.2.1, h.2.2.2.1⟩⟩
    · rw [if_neg ha]
      simp [ha]
  | .boundary, h =>
    obtain ⟨h0, h1⟩ := h
    simp [h0, h1]

/-- The halo particles of a rank. -/
theorem haloParticles_iff (R : RankData order W own g idx l) (V : W.Valid) (hc : ∀ i, W.hi i - W.lo i = W.hi 0 - W.lo 0)
    (hh : ∀ r, ∀ p ∈ W.ofRank r, ∀ i, p.2 i < W.hi i) {periodic : Bool}
    {G : List (Name Id × SweepCell Id)} (hG : g.sweepGrid periodic = some G) (s : ℕ) (id : Id) :
    (s, id) ∈ haloParticles G ↔ s ≠ own ∧ ∃ p ∈ W.ofRank own, ∃ q k, q.1 = id ∧ (periodic = true ∨ k = 0) ∧
      W.Adjacent own p s q k := by
  rw [R.sweepGrid_some, ← R.points_eq] at hG
  obtain rfl := Option.some.inj hG
  unfold haloParticles
  rw [List.mem_filterMap]
  have key := fun j h4 hj s' q k hN => R.haloParticle_iff (periodic := periodic) (j := j) h4 hj (s' := s') (q := q) (k := k) hN s id
  constructor
  · rintro ⟨e, he, h⟩
    obtain ⟨j, hj, rfl⟩ := List.mem_map.1 he
    rw [List.mem_filter, List.mem_range, decide_eq_true_iff] at hj
    obtain ⟨s', q, k, hN⟩ := R.named_exists hj.2 hj.1
    obtain ⟨h1, h2, rfl, rfl, id', i, hi, hci⟩ := (key j hj.2 hj.1 s' q k hN).1 h
    obtain ⟨p, hp, p1, p2⟩ := R.particle hi
    dsimp only at p1 p2
    subst p1
    exact ⟨h1, p, hp, q, k, rfl, h2, (R.adjacent_iff V hc hh hp hi p2).2 ⟨j, hci, hN⟩⟩
  · rintro ⟨h1, p, hp, q, k, rfl, h2, h3⟩
    obtain ⟨i, hi, hpos⟩ := R.point hp
    obtain ⟨j, hj, hN⟩ := (R.adjacent_iff V hc hh hp hi hpos).1 h3
    obtain ⟨j4, jn⟩ := R.named_lt hN
    refine ⟨_, List.mem_map.2 ⟨j, ?_, rfl⟩, (key j j4 jn s q k hN).2 ⟨h1, h2, rfl, rfl, p.1, i, hi, hj⟩⟩
    rw [List.mem_filter, List.mem_range, decide_eq_true_iff]
    exact ⟨jn, j4⟩

/-- Without periodic boundaries every halo particle is spawned once. -/
theorem haloParticles_nodup (R : RankData order W own g idx l) (V : W.Valid) (hc : ∀ i, W.hi i - W.lo i = W.hi 0 - W.lo 0)
    (hh : ∀ r, ∀ p ∈ W.ofRank r, ∀ i, p.2 i < W.hi i)
    {G : List (Name Id × SweepCell Id)} (hG : g.sweepGrid false = some G) : (haloParticles G).Nodup := by
  rw [R.sweepGrid_some, ← R.points_eq] at hG
  obtain rfl := Option.some.inj hG
  unfold haloParticles
  rw [List.filterMap_map]
  have hnd : ((List.range g.tri.state.mesh.numPoints).filter fun p => decide (3 ≤ p)).Nodup := List.nodup_range.filter _
  rw [List.nodup_iff_pairwise_ne, List.pairwise_filterMap]
  refine (List.nodup_iff_pairwise_ne.1 hnd).imp_of_mem ?_
  rintro j j' hj hj' hne ⟨s, id⟩ hb ⟨s', id'⟩ hb' e
  rw [List.mem_filter, List.mem_range, decide_eq_true_iff] at hj hj'
  obtain ⟨s1, q1, k1, hN1⟩ := R.named_exists hj.2 hj.1
  obtain ⟨s2, q2, k2, hN2⟩ := R.named_exists hj'.2 hj'.1
  obtain ⟨-, h1, rfl, rfl, -⟩ := (R.haloParticle_iff hj.2 hj.1 hN1 s id).1 hb
  obtain ⟨-, h2, rfl, rfl, -⟩ := (R.haloParticle_iff hj'.2 hj'.1 hN2 s' id').1 hb'
  obtain ⟨rfl, e2⟩ := Prod.mk.inj e
  obtain rfl : q1 = q2 := eq_of_id (V.ids _) hN1.1 hN2.1 e2
  obtain rfl := h1.resolve_left (by simp)
  obtain rfl := h2.resolve_left (by simp)
  exact hne (R.named_inj V hN1 hN2)

/-- The sum of the volumes of the cells of a rank. -/
theorem volumes_eq (R : RankData order W own g idx l) (V : W.Valid) (hc : ∀ i, W.hi i - W.lo i = W.hi 0 - W.lo 0)
    {periodic : Bool}
    {G : List (Name Id × SweepCell Id)} (hG : g.sweepGrid periodic = some G) :
    ((localCells G).map fun e => e.2.volume).sum =
      ((W.ofRank own).map fun p => (MeasureTheory.volume {y : Vec 2 ℝ | W.Region own p y}).toReal).sum := by
  have hv : ∀ e ∈ idx, (g.entry periodic e.2).2.volume =
      (MeasureTheory.volume {y : Vec 2 ℝ | W.Region own (e.1, dim2.toVec (g.position e.2)) y}).toReal := by
    intro e he
    obtain ⟨p, hp, p1, p2⟩ := R.particle he
    have hcell : (p.1, (g.entry periodic e.2).2) ∈ localCells G := by
      rw [R.localCells_eq hG, p1]
      exact List.mem_map.2 ⟨e, he, rfl⟩
    obtain ⟨h0, h1⟩ := R.cell_measure V hc hG hp hcell
    rw [p2, toVec_ofVec, ← p1, h1, ENNReal.toReal_ofReal h0.le]
  have hperm := (R.local_.map fun e : Id × P2 ℝ =>
    (MeasureTheory.volume {y : Vec 2 ℝ | W.Region own (e.1, dim2.toVec e.2) y}).toReal).sum_eq
  rw [List.map_map, List.map_map] at hperm
  rw [R.localCells_eq hG, List.map_map]
  refine (congrArg List.sum (List.map_congr_left hv)).trans (hperm.trans (congrArg List.sum (List.map_congr_left fun p hp => ?_)))
  simp only [Function.comp_apply, toVec_ofVec]

end RankData

omit [DecidableEq Id] in
/-- The name of a neighbour determines particle and image. -/
theorem is_unique {own s s' : ℕ} {periodic : Bool} {id id' : Id} {k k' : Fin 2 → ℤ} {n : Name Id} (hb : n ≠ .boundary)
    (h : Name.Is own periodic s id k n) (h' : Name.Is own periodic s' id' k' n) : s = s' ∧ id = id' ∧ k = k' := by
  match n, h, h' with
  | .own _, h, h' => exact ⟨h.1.trans h'.1.symm, h.2.2.symm.trans h'.2.2, h.2.1.trans h'.2.1.symm⟩
  | .halo (.remote _ _), h, h' => exact ⟨h.2.2.2.symm.trans h'.2.2.2, h.2.2.1.symm.trans h'.2.2.1, h.2.1.trans h'.2.1.symm⟩
  | .halo (.localPeriodic _ _), h, h' =>
    exact ⟨h.2.1.trans h'.2.1.symm, h.2.2.2.1.symm.trans h'.2.2.2.1, h.2.2.2.2.symm.trans h'.2.2.2.2⟩
  | .halo (.remotePeriodic _ _ _), h, h' =>
    exact ⟨h.2.2.2.2.1.symm.trans h'.2.2.2.2.1, h.2.2.2.1.symm.trans h'.2.2.2.1, h.2.2.2.2.2.symm.trans h'.2.2.2.2.2⟩
  | .boundary, _, _ => exact absurd rfl hb

omit [DecidableEq Id] in
theorem is_remote {own s : ℕ} {periodic : Bool} {id : Id} {k : Fin 2 → ℤ} {n : Name Id} (hs : s ≠ own)
    (hk : periodic = true ∨ k = 0) (h : Name.Is own periodic s id k n) :
    n = .halo (.remote id s) ∨ ∃ w, n = .halo (.remotePeriodic id s w) := by
  match n, h with
  | .own _, h => exact absurd h.1 hs
  | .halo (.remote _ _), h => exact Or.inl (by rw [h.2.2.1, h.2.2.2])
  | .halo (.localPeriodic _ _), h => exact absurd h.2.1 hs
  | .halo (.remotePeriodic _ _ w), h => exact Or.inr ⟨w, by rw [h.2.2.2.1, h.2.2.2.2.1]⟩
  | .boundary, h => exact absurd hk (by simp [h.1, h.2])

end Verif.Parallel.Plane
