import Verif.Parallel.Spec3
import Verif.Parallel.SpaceTies
import Verif.Voronoi.Touch
import Verif.Voronoi.CycleLemmas

/-! # Names and cells of the grid of a rank: lemmas -/

namespace Verif.Parallel

open Verif.Geometry Verif.Halo Verif.Delaunay
open Verif.Predicates (P3 orient3 distSq3)

variable {Id : Type} [DecidableEq Id] {order : List ℕ} {W : World 3 Id} {own : ℕ} {g : Grid3 Id} {idx : List (Id × ℕ)}
  {l : List (ℕ × Image Id (Fin 3 → WrapType) (P3 ℝ))}

/-- The type of the particle of a point. -/
def Grid3.typeOf {Id : Type} (g : Grid3 Id) (p : ℕ) : Name Id := (g.particleType p).getD .boundary

theorem find_of_mem {α : Type} : ∀ {L : List (α × ℕ)}, (L.map Prod.snd).Nodup → ∀ {n : α} {j : ℕ}, (n, j) ∈ L →
    (L.find? fun e => e.2 == j) = some (n, j)
  | e :: L, hn, n, j, h => by
    rw [List.map_cons, List.nodup_cons] at hn
    rcases List.mem_cons.1 h with rfl | h
    · simp
    · rw [List.find?_cons_of_neg, find_of_mem hn.2 h]
      intro he
      have he : e.2 = j := by simpa using he
      exact hn.1 (he ▸ List.mem_map.2 ⟨_, h, rfl⟩)

namespace RankData

theorem names_nodup (R : RankData order W own g idx l) : (g.names.map Prod.snd).Nodup := by
  rw [R.names, List.map_append, List.map_map, List.map_map]
  have e1 : idx.map (Prod.snd ∘ fun e => ((Name.own e.1 : Name Id), e.2)) = (List.range (W.ofRank own).length).map (4 + ·) := by
    rw [← R.range]
    rfl
  have e2 : ((l.map fun x => ptype (env dim3 W order own) x.1 x.2).zipIdx.map
      (Prod.snd ∘ fun e => ((Name.halo e.1 : Name Id), 4 + (W.ofRank own).length + e.2))) =
      (List.range l.length).map (4 + (W.ofRank own).length + ·) := by
    have : (Prod.snd ∘ fun e : PType Id (Fin 3 → WrapType) × ℕ => ((Name.halo e.1 : Name Id), 4 + (W.ofRank own).length + e.2)) =
        (4 + (W.ofRank own).length + ·) ∘ Prod.snd := rfl
    rw [this, ← List.map_map, List.zipIdx_map_snd, List.length_map, List.range_eq_range']
  rw [e1, e2, List.nodup_append]
  refine ⟨List.nodup_range.map fun a b h => by simpa using h, List.nodup_range.map fun a b h => by simpa using h, ?_⟩
  intro a ha b hb hab
  obtain ⟨i, hi, rfl⟩ := List.mem_map.1 ha
  obtain ⟨j, hj, rfl⟩ := List.mem_map.1 hb
  rw [List.mem_range] at hi
  omega

theorem lookup (R : RankData order W own g idx l) {n : Name Id} {j : ℕ} (h : (n, j) ∈ g.names) : g.lookup j = some n := by
  unfold Grid3.lookup
  rw [find_of_mem R.names_nodup h]
  rfl

theorem lookup_own (R : RankData order W own g idx l) {id : Id} {j : ℕ} (h : (id, j) ∈ idx) : g.lookup j = some (.own id) := by
  refine R.lookup ?_
  rw [R.names]
  exact List.mem_append_left _ (List.mem_map.2 ⟨_, h, rfl⟩)

theorem lookup_halo (R : RankData order W own g idx l) {m : ℕ} {x : ℕ × Image Id (Fin 3 → WrapType) (P3 ℝ)}
    (h : l[m]? = some x) : g.lookup (4 + (W.ofRank own).length + m) = some (.halo (ptype (env dim3 W order own) x.1 x.2)) := by
  refine R.lookup ?_
  rw [R.names]
  refine List.mem_append_right _ (List.mem_map.2 ⟨(ptype (env dim3 W order own) x.1 x.2, m), ?_, rfl⟩)
  rw [List.mem_zipIdx_iff_getElem?, List.getElem?_map, h]
  rfl

theorem mapPtype_own (periodic : Bool) (id : Id) : mapPtype periodic (.own id) = .own id := rfl

/-- The name of a point. -/
theorem lookup_named (R : RankData order W own g idx l) {j s : ℕ} {q : Id × Vec 3 ℝ} {k : Fin 3 → ℤ}
    (h : Named W own idx l j s q k) :
    ∃ n, g.lookup j = some n ∧ ∀ periodic, Name.Is own periodic s q.1 k (mapPtype periodic n) := by
  obtain ⟨hq, ⟨rfl, rfl, h⟩ | ⟨m, w, rfl, h, rfl, hw⟩⟩ := h
  · exact ⟨_, R.lookup_own h, fun _ => ⟨rfl, rfl, rfl⟩⟩
  · refine ⟨_, R.lookup_halo h, fun periodic => ?_⟩
    have hk : ∀ {w : Fin 3 → WrapType}, isPeriodic w → (fun i => shift (w i)) ≠ 0 := by
      rintro w ⟨i, hi⟩ e
      exact hi (shift_eq_zero.1 (congrFun e i))
    by_cases hs : s = own
    · have hp : isPeriodic w := hw.resolve_left fun h => h hs
      have e : ptype (env dim3 W order own) s ⟨q.1, w, dim3.ofVec (W.image w q.2)⟩ = .localPeriodic q.1 w := if_pos hs
      rw [e]
      cases periodic
      · exact ⟨rfl, hk hp⟩
      · exact ⟨rfl, hs, hk hp, rfl, rfl⟩
    · by_cases hp : isPeriodic w
      · have e : ptype (env dim3 W order own) s ⟨q.1, w, dim3.ofVec (W.image w q.2)⟩ = .remotePeriodic q.1 s w :=
          (if_neg hs).trans (if_pos (by classical exact decide_eq_true hp))
        rw [e]
        cases periodic
        · exact ⟨rfl, hk hp⟩
        · exact ⟨rfl, hs, hk hp, rfl, rfl, rfl⟩
      · have e : ptype (env dim3 W order own) s ⟨q.1, w, dim3.ofVec (W.image w q.2)⟩ = .remote q.1 s :=
          (if_neg hs).trans (if_neg fun h => hp (by classical exact of_decide_eq_true h))
        rw [e]
        refine ⟨hs, ?_, rfl, rfl⟩
        funext i
        exact shift_eq_zero.2 (by_contra fun hi => hp ⟨i, hi⟩)

theorem typeOf_named (R : RankData order W own g idx l) {j s : ℕ} {q : Id × Vec 3 ℝ} {k : Fin 3 → ℤ}
    (h : Named W own idx l j s q k) (periodic : Bool) : Name.Is own periodic s q.1 k (mapPtype periodic (g.typeOf j)) := by
  obtain ⟨n, h1, h2⟩ := R.lookup_named h
  unfold Grid3.typeOf Grid3.particleType
  rw [if_neg (by have := (R.named_lt h).1; omega), h1]
  exact h2 periodic

theorem particleType_some (R : RankData order W own g idx l) {j : ℕ} (hj : j < g.tri.state.mesh.numPoints) :
    g.particleType j = some (g.typeOf j) := by
  unfold Grid3.typeOf Grid3.particleType
  by_cases h4 : j < 4
  · rw [if_pos h4]
    rfl
  · obtain ⟨s, q, k, h⟩ := R.named_exists (by omega) hj
    obtain ⟨n, h1, -⟩ := R.lookup_named h
    rw [if_neg h4, h1]
    rfl

/-- The cell of a point. -/
theorem sweepCell_some (R : RankData order W own g idx l) {eps' : ℝ} (heps : 0 < eps') (periodic : Bool) {j : ℕ} (h4 : 4 ≤ j)
    (hj : j < g.tri.state.mesh.numPoints) :
    ∃ F V, g.faces eps' j = some F ∧ Voronoi.volume3 F (g.position j) = some V ∧
      g.sweepCell eps' periodic j = some (mapPtype periodic (g.typeOf j),
        ⟨F.map fun f => (f.area, f.normal, mapPtype periodic (g.typeOf f.connection)),
          (3.0 * V / (4.0 * Real.pi)) ^ (1 / 3 : ℝ), V⟩) := by
  obtain ⟨F, V, hF, hV, -⟩ := Voronoi.cell_volume3 heps R.space h4 hj
  refine ⟨F, V, hF, hV, ?_⟩
  have hc := R.space.ok.cons
  have hcon : ∀ f ∈ F, f.connection < g.tri.state.mesh.numPoints := by
    intro f hf
    obtain ⟨_, t, T, hT, _, hqT⟩ := ((Voronoi.connections3 hc hF).2 f.connection).1 (List.mem_map.2 ⟨f, hf, rfl⟩)
    exact hc.points_lt t T hT _ hqT
  have hn : (F.mapM fun f => (g.particleType f.connection).map fun t => (f.area, f.normal, mapPtype periodic t)) =
      some (F.map fun f => (f.area, f.normal, mapPtype periodic (g.typeOf f.connection))) := by
    rw [Voronoi.mapM_iff_map, List.map_map]
    refine List.map_congr_left fun f hf => ?_
    rw [R.particleType_some (hcon f hf)]
    rfl
  have hlook : g.lookup j = some (g.typeOf j) := by
    have := R.particleType_some hj
    unfold Grid3.particleType at this
    rw [if_neg (by omega)] at this
    exact this
  unfold Grid3.sweepCell
  have hF' : g.faces eps' j = some F := hF
  rw [hF', hlook]
  dsimp only [bind, Option.bind_some]
  rw [hn]
  dsimp only [Option.bind_some]
  rw [R.particleType_some hj]
  dsimp only [Option.bind_some]
  unfold Voronoi.size3
  rw [hV]
  rfl

/-- The entry of a point in the grid of the sweep. -/
noncomputable def _root_.Verif.Parallel.Grid3.entry {Id : Type} (eps' : ℝ) (g : Grid3 Id) (periodic : Bool) (j : ℕ) :
    Name Id × SweepCell Id :=
  (g.sweepCell eps' periodic j).getD (.boundary, ⟨[], 0, 0⟩)

theorem points_eq (R : RankData order W own g idx l) :
    ((List.range g.tri.state.mesh.numPoints).filter fun p => 4 ≤ p) =
      idx.map Prod.snd ++ (List.range l.length).map (4 + (W.ofRank own).length + ·) := by
  rw [R.range, R.num, Nat.add_assoc, List.range_add, List.filter_append, List.range_add (n := (W.ofRank own).length), List.map_append,
    List.map_map]
  have e : (List.range 4).filter (fun p => decide (4 ≤ p)) = [] := by decide
  rw [e, List.nil_append, List.filter_eq_self.2]
  · congr 1
    refine List.map_congr_left fun a _ => ?_
    simp only [Function.comp_apply]
    omega
  · intro a ha
    rw [List.mem_append, List.mem_map, List.mem_map] at ha
    obtain ⟨b, -, rfl⟩ | ⟨b, -, rfl⟩ := ha <;> · rw [decide_eq_true_iff]; (try dsimp only [Function.comp_apply]); omega

theorem sweepGrid_some (R : RankData order W own g idx l) {eps' : ℝ} (heps : 0 < eps') (periodic : Bool) :
    g.sweepGrid eps' periodic = some ((idx.map Prod.snd ++ (List.range l.length).map (4 + (W.ofRank own).length + ·)).map
      (g.entry eps' periodic)) := by
  unfold Grid3.sweepGrid
  rw [Voronoi.mapM_iff_map, R.points_eq, List.map_map]
  refine List.map_congr_left fun j hj => ?_
  have hj' : 4 ≤ j ∧ j < g.tri.state.mesh.numPoints := by
    rw [← R.points_eq, List.mem_filter, List.mem_range, decide_eq_true_iff] at hj
    exact ⟨hj.2, hj.1⟩
  obtain ⟨F, V, -, -, h⟩ := R.sweepCell_some heps periodic hj'.1 hj'.2
  unfold Grid3.entry
  rw [Function.comp_apply, h]
  rfl

theorem entry_fst (R : RankData order W own g idx l) {eps' : ℝ} (heps : 0 < eps') (periodic : Bool) {j : ℕ} (h4 : 4 ≤ j)
    (hj : j < g.tri.state.mesh.numPoints) : (g.entry eps' periodic j).1 = mapPtype periodic (g.typeOf j) := by
  obtain ⟨F, V, -, -, h⟩ := R.sweepCell_some heps periodic h4 hj
  unfold Grid3.entry
  rw [h]
  rfl

theorem typeOf_own (R : RankData order W own g idx l) {id : Id} {j : ℕ} (h : (id, j) ∈ idx) : g.typeOf j = .own id := by
  unfold Grid3.typeOf Grid3.particleType
  rw [if_neg (by have := (R.idx_lt h).1; dsimp only at this; omega), R.lookup_own h]
  rfl

/-- The cells of the local particles. -/
theorem localCells_eq (R : RankData order W own g idx l) {eps' : ℝ} (heps : 0 < eps') {periodic : Bool}
    {G : List (Name Id × SweepCell Id)} (hG : g.sweepGrid eps' periodic = some G) :
    localCells G = idx.map fun e => (e.1, (g.entry eps' periodic e.2).2) := by
  rw [R.sweepGrid_some heps] at hG
  obtain rfl := Option.some.inj hG
  unfold localCells
  rw [List.map_append, List.filterMap_append]
  have e1 : ∀ L : List (Id × ℕ), (∀ e ∈ L, e ∈ idx) →
      ((L.map Prod.snd).map (g.entry eps' periodic)).filterMap localCell = L.map fun e => (e.1, (g.entry eps' periodic e.2).2) := by
    intro L hL
    induction L with
    | nil => rfl
    | cons e L ih =>
      have he := hL e List.mem_cons_self
      have hlt := R.idx_lt he
      rw [List.map_cons, List.map_cons, List.filterMap_cons_some (b := (e.1, (g.entry eps' periodic e.2).2)), List.map_cons,
        ih fun e' h => hL e' (List.mem_cons_of_mem _ h)]
      unfold localCell
      rw [R.entry_fst heps periodic hlt.1 (by rw [R.num]; omega), R.typeOf_own he, mapPtype_own]
  rw [e1 idx fun _ h => h, List.filterMap_eq_nil_iff.2, List.append_nil]
  intro e he
  obtain ⟨j, hj, rfl⟩ := List.mem_map.1 he
  obtain ⟨m, hm, rfl⟩ := List.mem_map.1 hj
  rw [List.mem_range] at hm
  unfold localCell
  rw [R.entry_fst heps periodic (by omega) (by rw [R.num]; omega)]
  have : g.typeOf (4 + (W.ofRank own).length + m) = .halo (ptype (env dim3 W order own) l[m].1 l[m].2) := by
    unfold Grid3.typeOf Grid3.particleType
    rw [if_neg (by omega), R.lookup_halo (List.getElem?_eq_getElem hm)]
    rfl
  rw [this]
  cases ptype (env dim3 W order own) l[m].1 l[m].2 <;> cases periodic <;> rfl

end RankData

end Verif.Parallel
