import Verif.Parallel.SpaceCross
import Verif.Parallel.Tiling

/-! # The cells of a rank: lemmas -/

namespace Verif.Parallel

open Verif.Geometry Verif.Halo Verif.Delaunay
open Verif.Predicates (P3 orient3 distSq3)

variable {Id : Type} [DecidableEq Id] {order : List ℕ} {W : World 3 Id} {own : ℕ} {g : Grid3 Id} {idx : List (Id × ℕ)}
  {l : List (ℕ × Image Id (Fin 3 → WrapType) (P3 ℝ))}

theorem normalize_spec {a b n : P3 ℝ} (h : Voronoi.normalize3 (b.sub a) = some n) (i : Fin 3) :
    dim3.toVec n i * distance (dim3.toVec a) (dim3.toVec b) = dim3.toVec b i - dim3.toVec a i := by
  unfold Voronoi.normalize3 at h
  split at h
  · cases h
  · rename_i h0
    obtain rfl := Option.some.inj h
    have e : distance (dim3.toVec a) (dim3.toVec b) = Voronoi.length3 (b.sub a) := by
      unfold distance length Voronoi.length3
      rw [Fin.sum_univ_three]
      congr 1
      simp only [dim3, P3.sub, Matrix.cons_val]
      ring
    rw [e]
    match i with
    | 0 => exact div_mul_cancel₀ _ h0
    | 1 => exact div_mul_cancel₀ _ h0
    | 2 => exact div_mul_cancel₀ _ h0

namespace RankData

/-- The cell of a local particle. -/
theorem cell_of (R : RankData order W own g idx l) (V : W.Valid) {eps' : ℝ} (heps : 0 < eps') {periodic : Bool}
    {G : List (Name Id × SweepCell Id)} (hG : g.sweepGrid eps' periodic = some G) {p : Id × Vec 3 ℝ} (hp : p ∈ W.ofRank own)
    {c : SweepCell Id} (hcell : (p.1, c) ∈ localCells G) :
    ∃ i F, (p.1, i) ∈ idx ∧ g.position i = dim3.ofVec p.2 ∧ g.faces eps' i = some F ∧
      Voronoi.volume3 F (g.position i) = some c.volume ∧
      c.neighbours = F.map (fun f => (f.area, f.normal, mapPtype periodic (g.typeOf f.connection))) ∧
      c.size = (3.0 * c.volume / (4.0 * Real.pi)) ^ (1 / 3 : ℝ) := by
  rw [R.localCells_eq heps hG] at hcell
  obtain ⟨e, he, ee⟩ := List.mem_map.1 hcell
  obtain ⟨e1, e2⟩ := Prod.mk.inj ee
  obtain ⟨q, hq, q1, q2⟩ := R.particle he
  obtain rfl : q = p := eq_of_id (V.ids own) hq hp (q1.trans e1)
  obtain ⟨h4, hlt⟩ := R.idx_four he
  obtain ⟨F, v, hF, hv, hs⟩ := R.sweepCell_some heps periodic h4 hlt
  unfold Grid3.entry at e2
  rw [hs] at e2
  refine ⟨e.2, F, q1 ▸ he, q2, hF, ?_, ?_, ?_⟩
  · rw [hv, ← e2]
    rfl
  · rw [← e2]
    rfl
  · rw [← e2]
    rfl

/-- The volume of the cell of a local particle. -/
theorem cell_measure (R : RankData order W own g idx l) (V : W.Valid) (hc : ∀ i, W.hi i - W.lo i = W.hi 0 - W.lo 0)
    {eps' : ℝ} (heps : 0 < eps') {periodic : Bool}
    {G : List (Name Id × SweepCell Id)} (hG : g.sweepGrid eps' periodic = some G) {p : Id × Vec 3 ℝ} (hp : p ∈ W.ofRank own)
    {c : SweepCell Id} (hcell : (p.1, c) ∈ localCells G) :
    0 < c.volume ∧ MeasureTheory.volume {y : Vec 3 ℝ | W.Region own p y} = ENNReal.ofReal c.volume := by
  obtain ⟨i, F, hi, hpos, hF, hv, -⟩ := R.cell_of V heps hG hp hcell
  obtain ⟨h4, hlt⟩ := R.idx_four hi
  obtain ⟨F', V', hF', hV', hV0, hm⟩ := Voronoi.cell_volume3 heps R.space h4 hlt
  have hFF : g.faces eps' i = some F' := hF'
  obtain rfl : F = F' := Option.some.inj (hF.symm.trans hFF)
  obtain rfl : c.volume = V' := Option.some.inj (hv.symm.trans hV')
  refine ⟨hV0, ?_⟩
  rw [← hm]
  congr 1
  ext y
  exact (R.region V hc hp hi hpos y).symm

theorem isLocal_iff (R : RankData order W own g idx l) (periodic : Bool) {j : ℕ} (hj : j < g.tri.state.mesh.numPoints) :
    (mapPtype periodic (g.typeOf j)).isLocal = true ↔ ∃ id, (id, j) ∈ idx := by
  constructor
  · intro h
    rcases lt_or_ge j 4 with h4 | h4
    · have : g.typeOf j = .boundary := by
        unfold Grid3.typeOf Grid3.particleType
        rw [if_pos h4]
        rfl
      rw [this] at h
      cases h
    · rcases lt_or_ge j (4 + (W.ofRank own).length) with h5 | h5
      · exact R.idx_of h4 h5
      · obtain ⟨m, rfl⟩ := Nat.exists_eq_add_of_le h5
        have hm : m < l.length := by rw [R.num] at hj; omega
        have : g.typeOf (4 + (W.ofRank own).length + m) = .halo (ptype (env dim3 W order own) l[m].1 l[m].2) := by
          unfold Grid3.typeOf Grid3.particleType
          rw [if_neg (by omega), R.lookup_halo (List.getElem?_eq_getElem hm)]
          rfl
        rw [this] at h
        exfalso
        revert h
        cases ptype (env dim3 W order own) l[m].1 l[m].2 <;> cases periodic <;> simp [mapPtype, Name.isLocal]
  · rintro ⟨id, h⟩
    rw [R.typeOf_own h]
    rfl

/-- A cell has a local neighbour exactly if its point is connected to a local point. -/
theorem any_local (R : RankData order W own g idx l) {eps' : ℝ} (heps : 0 < eps') (periodic : Bool) {j : ℕ} (h4 : 4 ≤ j)
    (hj : j < g.tri.state.mesh.numPoints) :
    ((g.entry eps' periodic j).2.neighbours.any fun f => f.2.2.isLocal) = true ↔
      ∃ id i, (id, i) ∈ idx ∧ j ∈ Voronoi.connectedPoints g.tri.state.mesh i := by
  have hc := R.space.ok.cons
  obtain ⟨F, V, hF, -, hs⟩ := R.sweepCell_some heps periodic h4 hj
  have e : (g.entry eps' periodic j).2.neighbours =
      F.map fun f => (f.area, f.normal, mapPtype periodic (g.typeOf f.connection)) := by
    unfold Grid3.entry
    rw [hs]
    rfl
  have hsym : ∀ a b, a ∈ Voronoi.connectedPoints g.tri.state.mesh b ↔ b ∈ Voronoi.connectedPoints g.tri.state.mesh a := by
    intro a b
    rw [Voronoi.mem_connectedPoints hc, Voronoi.mem_connectedPoints hc]
    constructor <;> rintro ⟨h1, t, T, h2, h3, h4⟩ <;> exact ⟨h1.symm, t, T, h2, h4, h3⟩
  have hcon : F.map Voronoi.Face3.connection = Voronoi.connectedPoints g.tri.state.mesh j := Voronoi.connections_eq hF
  have hlt : ∀ a ∈ Voronoi.connectedPoints g.tri.state.mesh j, a < g.tri.state.mesh.numPoints := by
    intro a ha
    obtain ⟨_, t, T, hT, _, haT⟩ := (Voronoi.mem_connectedPoints hc).1 ha
    exact hc.points_lt t T hT a haT
  rw [e, List.any_map, List.any_eq_true]
  constructor
  · rintro ⟨f, hf, h⟩
    have hfc : f.connection ∈ Voronoi.connectedPoints g.tri.state.mesh j := hcon ▸ List.mem_map.2 ⟨f, hf, rfl⟩
    obtain ⟨id, hid⟩ := (R.isLocal_iff periodic (hlt _ hfc)).1 h
    exact ⟨id, f.connection, hid, (hsym _ _).1 hfc⟩
  · rintro ⟨id, i, hid, h⟩
    have hi := (hsym _ _).1 h
    rw [← hcon] at hi
    obtain ⟨f, hf, rfl⟩ := List.mem_map.1 hi
    exact ⟨f, hf, (R.isLocal_iff periodic (R.idx_four hid).2).2 ⟨id, hid⟩⟩

/-- The halo particle of a point. -/
theorem haloParticle_iff (R : RankData order W own g idx l) {eps' : ℝ} (heps : 0 < eps') {periodic : Bool} {j : ℕ} (h4 : 4 ≤ j)
    (hj : j < g.tri.state.mesh.numPoints) {s' : ℕ} {q : Id × Vec 3 ℝ} {k : Fin 3 → ℤ} (hN : Named W own idx l j s' q k)
    (s : ℕ) (id : Id) :
    haloParticle (g.entry eps' periodic j) = some (s, id) ↔ s' ≠ own ∧ (periodic = true ∨ k = 0) ∧ s' = s ∧ q.1 = id ∧
      ∃ id' i, (id', i) ∈ idx ∧ j ∈ Voronoi.connectedPoints g.tri.state.mesh i := by
  have hI := R.typeOf_named hN periodic
  have hA := R.any_local heps periodic h4 hj
  have hE := R.entry_fst heps periodic h4 hj
  unfold haloParticle
  rw [hE]
  generalize mapPtype periodic (g.typeOf j) = n at hI ⊢
  match n, hI with
  | .own id', h =>
    obtain ⟨h1, -⟩ := h
    simp [h1]
  | .halo (.remote id' r), h =>
    obtain ⟨h1, h2, rfl, rfl⟩ := h
    dsimp only
    rw [← hA]
    by_cases ha : ((g.entry eps' periodic j).2.neighbours.any fun f => f.2.2.isLocal) = true
    · rw [if_pos ha]
      simp only [Option.some.injEq, Prod.mk.injEq]
      exact ⟨fun h => ⟨h1, Or.inr h2, h.1, h.2, ha⟩, fun h => ⟨h.2.2.1, h.2.2.2.1⟩⟩
    · rw [if_neg ha]
      simp [ha]
  | .halo (.localPeriodic id' w), h =>
    obtain ⟨-, h1, -⟩ := h
    simp [h1]
  | .halo (.remotePeriodic id' r w), h =>
    obtain ⟨h0, h1, h2, rfl, rfl, h3⟩ := h
    dsimp only
    rw [← hA]
    by_cases ha : ((g.entry eps' periodic j).2.neighbours.any fun f => f.2.2.isLocal) = true
    · rw [if_pos ha]
      simp only [Option.some.injEq, Prod.mk.injEq]
      exact ⟨fun h => ⟨h1, Or.inl h0, h.1, h.2, ha⟩, fun h => ⟨h.2.2.1, h.2.2.2.1⟩⟩
    · rw [if_neg ha]
      simp [ha]
  | .boundary, h =>
    obtain ⟨h0, h1⟩ := h
    simp [h0, h1]

/-- The halo particles of a rank. -/
theorem haloParticles_iff (R : RankData order W own g idx l) (V : W.Valid) (hc : ∀ i, W.hi i - W.lo i = W.hi 0 - W.lo 0)
    (hh : ∀ r, ∀ p ∈ W.ofRank r, ∀ i, p.2 i < W.hi i) {eps' : ℝ} (heps : 0 < eps') {periodic : Bool}
    {G : List (Name Id × SweepCell Id)} (hG : g.sweepGrid eps' periodic = some G) (s : ℕ) (id : Id) :
    (s, id) ∈ haloParticles G ↔ s ≠ own ∧ ∃ p ∈ W.ofRank own, ∃ q k, q.1 = id ∧ (periodic = true ∨ k = 0) ∧
      W.Adjacent own p s q k := by
  rw [R.sweepGrid_some heps, ← R.points_eq] at hG
  obtain rfl := Option.some.inj hG
  unfold haloParticles
  rw [List.mem_filterMap]
  have key := fun j h4 hj s' q k hN => R.haloParticle_iff heps (periodic := periodic) (j := j) h4 hj (s' := s') (q := q) (k := k) hN s id
  constructor
  · rintro ⟨e, he, h⟩
    obtain ⟨j, hj, rfl⟩ := List.mem_map.1 he
    rw [List.mem_filter, List.mem_range, decide_eq_true_iff] at hj
    obtain ⟨s', q, k, hN⟩ := R.named_exists hj.2 hj.1
    obtain ⟨h1, h2, rfl, rfl, id', i, hi, hci⟩ := (key j hj.2 hj.1 s' q k hN).1 h
    obtain ⟨p, hp, p1, p2⟩ := R.particle hi
    dsimp only at p1 p2
    subst p1
    exact ⟨h1, p, hp, q, k, rfl, h2, (R.adjacent_iff V hc hh hp hi p2).2 ⟨j, hci, hN⟩⟩
  · rintro ⟨h1, p, hp, q, k, rfl, h2, h3⟩
    obtain ⟨i, hi, hpos⟩ := R.point hp
    obtain ⟨j, hj, hN⟩ := (R.adjacent_iff V hc hh hp hi hpos).1 h3
    obtain ⟨j4, jn⟩ := R.named_lt hN
    refine ⟨_, List.mem_map.2 ⟨j, ?_, rfl⟩, (key j j4 jn s q k hN).2 ⟨h1, h2, rfl, rfl, p.1, i, hi, hj⟩⟩
    rw [List.mem_filter, List.mem_range, decide_eq_true_iff]
    exact ⟨jn, j4⟩

/-- Without periodic boundaries every halo particle is spawned once. -/
theorem haloParticles_nodup (R : RankData order W own g idx l) (V : W.Valid) (hc : ∀ i, W.hi i - W.lo i = W.hi 0 - W.lo 0)
    (hh : ∀ r, ∀ p ∈ W.ofRank r, ∀ i, p.2 i < W.hi i) {eps' : ℝ} (heps : 0 < eps')
    {G : List (Name Id × SweepCell Id)} (hG : g.sweepGrid eps' false = some G) : (haloParticles G).Nodup := by
  rw [R.sweepGrid_some heps, ← R.points_eq] at hG
  obtain rfl := Option.some.inj hG
  unfold haloParticles
  rw [List.filterMap_map]
  have hnd : ((List.range g.tri.state.mesh.numPoints).filter fun p => decide (4 ≤ p)).Nodup := List.nodup_range.filter _
  rw [List.nodup_iff_pairwise_ne, List.pairwise_filterMap]
  refine (List.nodup_iff_pairwise_ne.1 hnd).imp_of_mem ?_
  rintro j j' hj hj' hne ⟨s, id⟩ hb ⟨s', id'⟩ hb' e
  rw [List.mem_filter, List.mem_range, decide_eq_true_iff] at hj hj'
  obtain ⟨s1, q1, k1, hN1⟩ := R.named_exists hj.2 hj.1
  obtain ⟨s2, q2, k2, hN2⟩ := R.named_exists hj'.2 hj'.1
  obtain ⟨-, h1, rfl, rfl, -⟩ := (R.haloParticle_iff heps hj.2 hj.1 hN1 s id).1 hb
  obtain ⟨-, h2, rfl, rfl, -⟩ := (R.haloParticle_iff heps hj'.2 hj'.1 hN2 s' id').1 hb'
  obtain ⟨rfl, e2⟩ := Prod.mk.inj e
  obtain rfl : q1 = q2 := eq_of_id (V.ids _) hN1.1 hN2.1 e2
  obtain rfl := h1.resolve_left (by simp)
  obtain rfl := h2.resolve_left (by simp)
  exact hne (R.named_inj V hN1 hN2)

/-- The sum of the volumes of the cells of a rank. -/
theorem volumes_eq (R : RankData order W own g idx l) (V : W.Valid) (hc : ∀ i, W.hi i - W.lo i = W.hi 0 - W.lo 0)
    {eps' : ℝ} (heps : 0 < eps') {periodic : Bool}
    {G : List (Name Id × SweepCell Id)} (hG : g.sweepGrid eps' periodic = some G) :
    ((localCells G).map fun e => e.2.volume).sum =
      ((W.ofRank own).map fun p => (MeasureTheory.volume {y : Vec 3 ℝ | W.Region own p y}).toReal).sum := by
  have hv : ∀ e ∈ idx, (g.entry eps' periodic e.2).2.volume =
      (MeasureTheory.volume {y : Vec 3 ℝ | W.Region own (e.1, dim3.toVec (g.position e.2)) y}).toReal := by
    intro e he
    obtain ⟨p, hp, p1, p2⟩ := R.particle he
    have hcell : (p.1, (g.entry eps' periodic e.2).2) ∈ localCells G := by
      rw [R.localCells_eq heps hG, p1]
      exact List.mem_map.2 ⟨e, he, rfl⟩
    obtain ⟨h0, h1⟩ := R.cell_measure V hc heps hG hp hcell
    rw [p2, toVec_ofVec, ← p1, h1, ENNReal.toReal_ofReal h0.le]
  have hperm := (R.local_.map fun e : Id × P3 ℝ =>
    (MeasureTheory.volume {y : Vec 3 ℝ | W.Region own (e.1, dim3.toVec e.2) y}).toReal).sum_eq
  rw [List.map_map, List.map_map] at hperm
  rw [R.localCells_eq heps hG, List.map_map]
  refine (congrArg List.sum (List.map_congr_left hv)).trans (hperm.trans (congrArg List.sum (List.map_congr_left fun p hp => ?_)))
  simp only [Function.comp_apply, toVec_ofVec]

end RankData

omit [DecidableEq Id] in
/-- The name of a neighbour determines particle and image. -/
theorem is_unique {own s s' : ℕ} {periodic : Bool} {id id' : Id} {k k' : Fin 3 → ℤ} {n : Name Id} (hb : n ≠ .boundary)
    (h : Name.Is own periodic s id k n) (h' : Name.Is own periodic s' id' k' n) : s = s' ∧ id = id' ∧ k = k' := by
  match n, h, h' with
  | .own _, h, h' => exact ⟨h.1.trans h'.1.symm, h.2.2.symm.trans h'.2.2, h.2.1.trans h'.2.1.symm⟩
  | .halo (.remote _ _), h, h' => exact ⟨h.2.2.2.symm.trans h'.2.2.2, h.2.2.1.symm.trans h'.2.2.1, h.2.1.trans h'.2.1.symm⟩
  | .halo (.localPeriodic _ _), h, h' =>
    exact ⟨h.2.1.trans h'.2.1.symm, h.2.2.2.1.symm.trans h'.2.2.2.1, h.2.2.2.2.symm.trans h'.2.2.2.2⟩
  | .halo (.remotePeriodic _ _ _), h, h' =>
    exact ⟨h.2.2.2.2.1.symm.trans h'.2.2.2.2.1, h.2.2.2.1.symm.trans h'.2.2.2.1, h.2.2.2.2.2.symm.trans h'.2.2.2.2.2⟩
  | .boundary, _, _ => exact absurd rfl hb

omit [DecidableEq Id] in
theorem is_remote {own s : ℕ} {periodic : Bool} {id : Id} {k : Fin 3 → ℤ} {n : Name Id} (hs : s ≠ own)
    (hk : periodic = true ∨ k = 0) (h : Name.Is own periodic s id k n) :
    n = .halo (.remote id s) ∨ ∃ w, n = .halo (.remotePeriodic id s w) := by
  match n, h with
  | .own _, h => exact absurd h.1 hs
  | .halo (.remote _ _), h => exact Or.inl (by rw [h.2.2.1, h.2.2.2])
  | .halo (.localPeriodic _ _), h => exact absurd h.2.1 hs
  | .halo (.remotePeriodic _ _ w), h => exact Or.inr ⟨w, by rw [h.2.2.2.1, h.2.2.2.2.1]⟩
  | .boundary, h => exact absurd hk (by simp [h.1, h.2])

theorem exists_of_forall₂ {α β : Type} {P : α → β → Prop} : ∀ {l : List α} {l' : List β}, List.Forall₂ P l l' → ∀ {b}, b ∈ l' →
    ∃ a ∈ l, P a b
  | _, _, .cons h t, b, hb => by
    rcases List.mem_cons.1 hb with rfl | hb
    · exact ⟨_, List.mem_cons_self, h⟩
    · obtain ⟨a, ha, h⟩ := exists_of_forall₂ t hb
      exact ⟨a, List.mem_cons_of_mem _ ha, h⟩

theorem exists_of_forall₂' {α β : Type} {P : α → β → Prop} : ∀ {l : List α} {l' : List β}, List.Forall₂ P l l' → ∀ {a}, a ∈ l →
    ∃ b ∈ l', P a b
  | _, _, .cons h t, b, hb => by
    rcases List.mem_cons.1 hb with rfl | hb
    · exact ⟨_, List.mem_cons_self, h⟩
    · obtain ⟨a, ha, h⟩ := exists_of_forall₂' t hb
      exact ⟨a, List.mem_cons_of_mem _ ha, h⟩

section Regions
variable {d : ℕ} {Id : Type} {W : World d Id}

/-- The positions of all particles. -/
def allPositions (W : World d Id) (a : Σ r : Fin W.particles.length, Fin (W.ofRank r).length) : Vec d ℝ := ((W.ofRank a.1)[a.2]).2

theorem cellAt_eq (V : W.Valid) (a : Σ r : Fin W.particles.length, Fin (W.ofRank r).length) (k : Fin d → ℤ) :
    Tiling.cellAt (fun i => W.hi i - W.lo i) (allPositions W) (a, k) = {y | ∀ s q k', s < W.particles.length → q ∈ W.ofRank s →
      (s, q, k') ≠ (a.1.1, (W.ofRank a.1)[a.2], k) →
        distance y (image W.box k ((W.ofRank a.1)[a.2]).2) < distance y (image W.box k' q.2)} := by
  obtain ⟨r, i⟩ := a
  ext y
  constructor
  · intro h s q k' hs hq hk
    obtain ⟨j, hj, rfl⟩ := List.mem_iff_getElem.1 hq
    refine h ⟨⟨s, hs⟩, ⟨j, hj⟩⟩ k' fun e => hk ?_
    obtain ⟨e1, rfl⟩ := Prod.mk.inj e
    obtain ⟨rfl, e2⟩ := Sigma.mk.inj e1
    obtain rfl := eq_of_heq e2
    rfl
  · rintro h ⟨s, j⟩ k' hk
    refine h s _ k' s.2 (List.getElem_mem j.2) fun e => hk ?_
    obtain ⟨e1, e2⟩ := Prod.mk.inj e
    obtain ⟨e3, rfl⟩ := Prod.mk.inj e2
    obtain rfl := Fin.ext e1
    have hnd : (W.ofRank s).Nodup := List.Nodup.of_map _ (V.ids s)
    have hij := (hnd.getElem_inj_iff).1 e3
    obtain rfl := Fin.ext hij
    rfl

theorem cell_eq (V : W.Valid) (a : Σ r : Fin W.particles.length, Fin (W.ofRank r).length) :
    Tiling.cell (fun i => W.hi i - W.lo i) (allPositions W) a = {y | W.Region a.1 ((W.ofRank a.1)[a.2]) y} := by
  have h := cellAt_eq V a 0
  have e : Tiling.cell (fun i => W.hi i - W.lo i) (allPositions W) a = Tiling.cellAt (fun i => W.hi i - W.lo i) (allPositions W) (a, 0) := by
    ext y
    unfold Tiling.cell Tiling.cellAt
    dsimp only
    rw [Tiling.im_zero]
  rw [e, h]
  ext y
  unfold World.Region
  simp only [Set.mem_ofPred_eq]
  rw [image_zero]
  exact ⟨fun h s q hs hq k hk => h s q k hs hq hk, fun h s q k hs hq hk => h s q hs hq k hk⟩

/-- The region of a particle is composed of the places in the box whose closest particle is one of its images. -/
theorem region_in_box (V : W.Valid) {own : ℕ} {p : Id × Vec d ℝ} (hp : p ∈ W.ofRank own) :
    MeasureTheory.volume {y : Vec d ℝ | (∀ i, W.lo i ≤ y i ∧ y i < W.hi i) ∧ ∃ k : Fin d → ℤ,
      ∀ s q k', s < W.particles.length → q ∈ W.ofRank s → (s, q, k') ≠ (own, p, k) →
        distance y (image W.box k p.2) < distance y (image W.box k' q.2)} =
      MeasureTheory.volume {y : Vec d ℝ | W.Region own p y} := by
  obtain ⟨j, hj, rfl⟩ := List.mem_iff_getElem.1 hp
  let a : Σ r : Fin W.particles.length, Fin (W.ofRank r).length := ⟨⟨own, ofRank_lt hp⟩, ⟨j, hj⟩⟩
  have hL : ∀ i, 0 < W.hi i - W.lo i := fun i => sub_pos.2 (V.box i)
  have h1 : Tiling.cell (fun i => W.hi i - W.lo i) (allPositions W) a = {y | W.Region own (W.ofRank own)[j] y} := cell_eq V a
  rw [← h1, Tiling.volume_wrapped (lo := W.lo) hL a, ← MeasureTheory.measure_iUnion
    (fun k k' h => ((Tiling.disjoint_cellAt fun e => h (Prod.mk.inj e).2).mono Set.inter_subset_right Set.inter_subset_right))
    fun k => (Tiling.measurable_boxAt W.lo 0).inter (Tiling.measurable_cellAt (a, k))]
  congr 1
  ext y
  simp only [Set.mem_iUnion, Set.mem_inter_iff, cellAt_eq V a]
  have e : y ∈ Tiling.boxAt (fun i => W.hi i - W.lo i) W.lo 0 ↔ ∀ i, W.lo i ≤ y i ∧ y i < W.hi i := by
    simp [Tiling.boxAt]
  rw [e]
  exact exists_and_left.symm

/-- The regions fill the box. -/
theorem regions_fill (V : W.Valid) (hN : W.particles ≠ [])
    (hne : ∀ r, ∀ p ∈ W.ofRank r, ∃ y, W.Region r p y) (hfin : ∀ r, ∀ p ∈ W.ofRank r, MeasureTheory.volume {y | W.Region r p y} ≠ ⊤) :
    ((List.range W.particles.length).map fun r =>
      ((W.ofRank r).map fun p => (MeasureTheory.volume {y | W.Region r p y}).toReal).sum).sum = ∏ i, (W.hi i - W.lo i) := by
  classical
  let A := Σ r : Fin W.particles.length, Fin (W.ofRank r).length
  have hL : ∀ i, 0 < W.hi i - W.lo i := fun i => sub_pos.2 (V.box i)
  have hA : Nonempty A := by
    obtain ⟨x, L', hx⟩ := List.exists_cons_of_ne_nil hN
    have h0 : 0 < W.particles.length := by rw [hx]; simp
    have hx' : W.ofRank 0 = x := by unfold World.ofRank; rw [hx]; rfl
    have : x ≠ [] := V.nonempty x (by rw [hx]; exact List.mem_cons_self)
    exact ⟨⟨⟨0, h0⟩, ⟨0, by rw [hx']; exact List.length_pos_of_ne_nil this⟩⟩⟩
  have key := Tiling.volume_cells (pos := allPositions W) W.lo hL fun a => by
    rw [cell_eq V]
    exact hne _ _ (List.getElem_mem a.2.2)
  have e1 : ∀ a : A, MeasureTheory.volume (Tiling.cell (fun i => W.hi i - W.lo i) (allPositions W) a) ≠ ⊤ := fun a => by
    rw [cell_eq V]
    exact hfin _ _ (List.getElem_mem a.2.2)
  have key' := congrArg ENNReal.toReal key
  rw [ENNReal.toReal_sum fun a _ => e1 a, ENNReal.toReal_prod] at key'
  have e2 : ∀ i, (ENNReal.ofReal (W.hi i - W.lo i)).toReal = W.hi i - W.lo i := fun i => ENNReal.toReal_ofReal (hL i).le
  rw [Finset.prod_congr rfl fun i _ => e2 i] at key'
  rw [← key', Fintype.sum_sigma, ← List.sum_ofFn]
  congr 1
  refine List.ext_getElem (by simp) fun r h1 h2 => ?_
  rw [List.getElem_map, List.getElem_range, List.getElem_ofFn, ← List.sum_ofFn]
  congr 1
  refine List.ext_getElem (by simp) fun i h3 h4 => ?_
  rw [List.getElem_map, List.getElem_ofFn, cell_eq V]
  rfl

end Regions

end Verif.Parallel
