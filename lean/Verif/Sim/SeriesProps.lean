import Verif.Sim.SeriesModel
import Verif.Sim.WholeProps

/-!
# C96: the time series
-/

namespace Verif.Sim

open Verif.Parallel Verif.Geometry

/-! ### Averages -/

theorem globalSum_eq (ranks : List (List Averaged)) (f : Averaged → Option ℝ) :
    globalSum ranks f = (ranks.flatten.filterMap f).sum := by
  unfold globalSum
  induction ranks with
  | nil => rfl
  | cons l ls ih => rw [List.map_cons, List.sum_cons, ih, List.flatten_cons, List.filterMap_append, List.sum_append]

theorem globalSum_perm {ranks ranks' : List (List Averaged)} (h : ranks.flatten.Perm ranks'.flatten) (f : Averaged → Option ℝ) :
    globalSum ranks f = globalSum ranks' f := by
  rw [globalSum_eq, globalSum_eq]
  exact (h.filterMap f).sum_eq

/-- **The averages do not depend on the distribution** of the particles over the ranks. -/
theorem series_distribution {ranks ranks' : List (List Averaged)} (h : ranks.flatten.Perm ranks'.flatten) :
    computeTimeSeries ranks = computeTimeSeries ranks' := by
  unfold computeTimeSeries
  simp only [globalSum_perm h]

/-- Specification: `m` is the mean of `x` over some particles with weights `w`. -/
def IsMean (ps : List Averaged) (w x : Averaged → ℝ) (m : ℝ) : Prop := m * (ps.map w).sum = (ps.map fun p => w p * x p).sum

theorem quotient_mean {ranks : List (List Averaged)} {w x : Averaged → ℝ} {f : Averaged → Option ℝ}
    (hf : ∀ p ∈ ranks.flatten, f p = some (w p * x p)) (hw : (ranks.flatten.map w).sum ≠ 0) :
    ∃ m, quotient (globalSum ranks f) (globalSum ranks fun p => some (w p)) = some m ∧ IsMean ranks.flatten w x m := by
  have h1 : globalSum ranks f = (ranks.flatten.map fun p => w p * x p).sum := by
    rw [globalSum_eq, List.filterMap_congr hf, List.filterMap_eq_map']
  have h2 : globalSum ranks (fun p => some (w p)) = (ranks.flatten.map w).sum := by
    rw [globalSum_eq, List.filterMap_eq_map']
  rw [h1, h2, quotient, if_neg hw]
  exact ⟨_, rfl, div_mul_cancel₀ _ hw⟩

/-- **The averages are means** over the particles of all ranks, weighted by mass and volume. -/
theorem series_means {ranks : List (List Averaged)} (hm : (ranks.flatten.map Averaged.mass).sum ≠ 0)
    (hv : (ranks.flatten.map Averaged.volume).sum ≠ 0) :
    (∃ m, (computeTimeSeries ranks).massFraction = some m ∧ IsMean ranks.flatten Averaged.mass Averaged.fraction m) ∧
    (∃ m, (computeTimeSeries ranks).volumeFraction = some m ∧ IsMean ranks.flatten Averaged.volume Averaged.fraction m) ∧
    (∃ m, (computeTimeSeries ranks).massTemperature = some m ∧ IsMean ranks.flatten Averaged.mass Averaged.temperature m) ∧
    (∃ m, (computeTimeSeries ranks).volumeTemperature = some m ∧ IsMean ranks.flatten Averaged.volume Averaged.temperature m) ∧
    ∀ rate : Averaged → ℝ, (∀ p ∈ ranks.flatten, p.rate = some (rate p)) →
      (∃ m, (computeTimeSeries ranks).rate = some m ∧ IsMean ranks.flatten Averaged.volume rate m) ∧
      ∃ m, (computeTimeSeries ranks).weightedRate = some m ∧ IsMean ranks.flatten Averaged.volume (fun p => rate p * p.fraction) m := by
  refine ⟨quotient_mean (fun p _ => rfl) hm, quotient_mean (fun p _ => rfl) hv, quotient_mean (fun p _ => ?_) hm,
    quotient_mean (fun p _ => ?_) hv, fun rate hr => ⟨quotient_mean (fun p hp => ?_) hv, quotient_mean (fun p hp => ?_) hv⟩⟩
  · rw [mul_comm]
  · rw [mul_comm]
  · rw [hr p hp, Option.map_some, mul_comm]
  · rw [hr p hp, Option.map_some, mul_comm]

/-- A mean lies between the bounds of the values. -/
theorem IsMean.bounds {ps : List Averaged} {w x : Averaged → ℝ} {m lo hi : ℝ} (h : IsMean ps w x m)
    (hw : ∀ p ∈ ps, 0 ≤ w p) (hpos : ∃ p ∈ ps, 0 < w p) (hx : ∀ p ∈ ps, lo ≤ x p ∧ x p ≤ hi) : lo ≤ m ∧ m ≤ hi := by
  have hsum : 0 < (ps.map w).sum := by
    obtain ⟨p, hp, hpos⟩ := hpos
    refine lt_of_lt_of_le hpos (List.single_le_sum ?_ _ (List.mem_map.2 ⟨p, hp, rfl⟩))
    intro y hy
    obtain ⟨q, hq, rfl⟩ := List.mem_map.1 hy
    exact hw q hq
  have h1 : (ps.map fun p => w p * lo).sum ≤ (ps.map fun p => w p * x p).sum :=
    List.sum_le_sum fun p hp => mul_le_mul_of_nonneg_left (hx p hp).1 (hw p hp)
  have h2 : (ps.map fun p => w p * x p).sum ≤ (ps.map fun p => w p * hi).sum :=
    List.sum_le_sum fun p hp => mul_le_mul_of_nonneg_left (hx p hp).2 (hw p hp)
  rw [List.sum_map_mul_right] at h1 h2
  unfold IsMean at h
  constructor
  · exact le_of_mul_le_mul_right (by linarith) hsum
  · exact le_of_mul_le_mul_right (by linarith) hsum

/-- **Averages are between the smallest and the largest value.** -/
theorem series_bounds {ranks : List (List Averaged)} (hm : ∀ p ∈ ranks.flatten, 0 < p.mass ∧ 0 < p.volume) (hne : ranks.flatten ≠ [])
    {lo hi tlo thi : ℝ} (hf : ∀ p ∈ ranks.flatten, lo ≤ p.fraction ∧ p.fraction ≤ hi)
    (ht : ∀ p ∈ ranks.flatten, tlo ≤ p.temperature ∧ p.temperature ≤ thi) :
    (∃ m, (computeTimeSeries ranks).massFraction = some m ∧ lo ≤ m ∧ m ≤ hi) ∧
    (∃ m, (computeTimeSeries ranks).volumeFraction = some m ∧ lo ≤ m ∧ m ≤ hi) ∧
    (∃ m, (computeTimeSeries ranks).massTemperature = some m ∧ tlo ≤ m ∧ m ≤ thi) ∧
    ∃ m, (computeTimeSeries ranks).volumeTemperature = some m ∧ tlo ≤ m ∧ m ≤ thi := by
  obtain ⟨p, hp⟩ := List.exists_mem_of_ne_nil _ hne
  have hpos : ∀ w : Averaged → ℝ, (∀ p ∈ ranks.flatten, 0 < w p) → (ranks.flatten.map w).sum ≠ 0 := by
    intro w hw
    refine (List.sum_pos _ (fun y hy => ?_) (by simpa using hne)).ne'
    obtain ⟨q, hq, rfl⟩ := List.mem_map.1 hy
    exact hw q hq
  obtain ⟨⟨a, a1, a2⟩, ⟨b, b1, b2⟩, ⟨c, c1, c2⟩, ⟨d, d1, d2⟩, -⟩ :=
    series_means (hpos _ fun p hp => (hm p hp).1) (hpos _ fun p hp => (hm p hp).2)
  have m0 : ∀ p ∈ ranks.flatten, 0 ≤ p.mass := fun p hp => (hm p hp).1.le
  have v0 : ∀ p ∈ ranks.flatten, 0 ≤ p.volume := fun p hp => (hm p hp).2.le
  exact ⟨⟨a, a1, a2.bounds m0 ⟨p, hp, (hm p hp).1⟩ hf⟩, ⟨b, b1, b2.bounds v0 ⟨p, hp, (hm p hp).2⟩ hf⟩,
    ⟨c, c1, c2.bounds m0 ⟨p, hp, (hm p hp).1⟩ ht⟩, ⟨d, d1, d2.bounds v0 ⟨p, hp, (hm p hp).2⟩ ht⟩⟩

/-- **On a constructed grid** the averages over the volume are averages over the box: the denominator is its volume. -/
theorem series_volume {eps' : ℝ} {periodic : Bool} {W : World 3 Sweep.Id} {G : ℕ → List (Name Sweep.Id × Cell)}
    (H : Ready eps' periodic W G) (hN : 0 < W.particles.length) {ranks : List (List Averaged)}
    (hr : ranks.length = W.particles.length)
    (hv : ∀ r l, ranks[r]? = some l → l.map Averaged.volume = (localCells (G r)).map fun e => e.2.volume) :
    (computeTimeSeries ranks).volumeFraction =
      some ((ranks.flatten.map fun p => p.volume * p.fraction).sum / ∏ i, (W.hi i - W.lo i)) := by
  have htot := grid_volumes_total H.valid H.cube (List.ne_nil_of_length_pos hN) H.built
  have hpos : 0 < ∏ i, (W.hi i - W.lo i) := Finset.prod_pos fun i _ => sub_pos.2 (H.valid.box i)
  have hsum : globalSum ranks (fun p => some p.volume) = ∏ i, (W.hi i - W.lo i) := by
    rw [← htot]
    unfold globalSum
    congr 1
    refine List.ext_getElem (by simp [hr]) fun i h1 h2 => ?_
    rw [List.getElem_map, List.getElem_map, List.getElem_range]
    rw [List.length_map] at h1
    rw [← hv i _ (List.getElem?_eq_getElem h1)]
    exact congrArg List.sum (congrFun List.filterMap_eq_map' _)
  show quotient (globalSum ranks fun p => some (p.volume * p.fraction)) (globalSum ranks fun p => some p.volume) = _
  rw [hsum, quotient, if_neg hpos.ne', globalSum_eq, List.filterMap_eq_map']

/-- **Without the optional component the averages of the rate are zero**, whatever the radiation is. -/
theorem series_rate_missing {ranks : List (List Averaged)} (hv : (ranks.flatten.map Averaged.volume).sum ≠ 0)
    (h : ∀ p ∈ ranks.flatten, p.rate = none) :
    (computeTimeSeries ranks).rate = some 0 ∧ (computeTimeSeries ranks).weightedRate = some 0 := by
  have h1 : ∀ f : Averaged → ℝ → ℝ, globalSum ranks (fun p => p.rate.map (f p)) = 0 := by
    intro f
    rw [globalSum_eq, List.filterMap_congr (g := fun _ => none) fun p hp => by rw [h p hp]; rfl]
    rw [List.filterMap_none, List.sum_nil]
  have h2 : globalSum ranks (fun p => some p.volume) ≠ 0 := by
    rw [globalSum_eq, List.filterMap_eq_map']
    exact hv
  have e1 : (computeTimeSeries ranks).rate =
    quotient (globalSum ranks fun p => p.rate.map (· * p.volume)) (globalSum ranks fun p => some p.volume) := rfl
  have e2 : (computeTimeSeries ranks).weightedRate =
    quotient (globalSum ranks fun p => p.rate.map (· * p.fraction * p.volume)) (globalSum ranks fun p => some p.volume) := rfl
  rw [e1, e2, h1 fun p x => x * p.volume, h1 fun p x => x * p.fraction * p.volume, quotient, if_neg h2, zero_div]
  exact ⟨rfl, rfl⟩

/-! ### Numbers of particles -/

theorem count_eq {s : Rank} (h : Binned s) {l : ℕ} (hl : l ≤ s.cells.maxNumLevels) :
    (ActiveList.enumerateActive s.cells l).map List.length = some (s.cells.levels.countP fun x => decide (l ≤ x)) := by
  obtain ⟨hi, hv⟩ := h
  have hbl := hi.binsLen hv
  have hmem := ActiveList.mem_active_indices s.cells hi hv l
  have hnd := ActiveList.nodup_active_indices s.cells hi hv l
  obtain ⟨ys, hys⟩ := ActiveList.mapM_some_of_forall (ActiveList.entry s.cells)
    (((s.cells.bins.take s.cells.maxNumLevels).drop l).flatten) (by
      intro j hj
      obtain ⟨x, -, hx⟩ := (hmem j).1 hj
      obtain ⟨hlt, -⟩ := List.getElem?_eq_some_iff.1 hx
      rw [hi.len] at hlt
      unfold ActiveList.entry
      rw [List.getElem?_eq_getElem hlt]
      exact ⟨_, rfl⟩)
  have hlen := (ActiveList.mapM_forall2 _ _ _ hys).length_eq
  unfold ActiveList.enumerateActive
  rw [if_pos hv, if_pos ⟨hl, hbl.ge⟩, hys, Option.map_some, ← hlen]
  congr 1
  have hperm : (((s.cells.bins.take s.cells.maxNumLevels).drop l).flatten).Perm
      ((List.range s.cells.levels.length).filter fun j => decide (l ≤ s.cells.levels.getD j 0)) := by
    refine (List.perm_ext_iff_of_nodup hnd (List.nodup_range.filter _)).2 fun j => ?_
    rw [hmem, List.mem_filter, List.mem_range, decide_eq_true_eq]
    constructor
    · rintro ⟨x, hx, hj⟩
      obtain ⟨hlt, e⟩ := List.getElem?_eq_some_iff.1 hj
      exact ⟨hlt, by rw [List.getD_eq_getElem?_getD, hj]; exact hx⟩
    · rintro ⟨hlt, hx⟩
      rw [List.getD_eq_getElem?_getD, List.getElem?_eq_getElem hlt] at hx
      exact ⟨_, hx, List.getElem?_eq_getElem hlt⟩
  rw [hperm.length_eq, ← List.countP_eq_length_filter]
  have hmap : s.cells.levels = (List.range s.cells.levels.length).map fun j => s.cells.levels.getD j 0 := by
    refine List.ext_getElem (by simp) fun j h1 h2 => ?_
    rw [List.getElem_map, List.getElem_range, List.getD_eq_getElem?_getD, List.getElem?_eq_getElem h1]
    rfl
  conv_rhs => rw [hmap, List.countP_map]
  rfl

theorem countCells_eq {S : List Rank} (h : ∀ s ∈ S, Binned s) {l : ℕ} (hl : ∀ s ∈ S, l ≤ s.cells.maxNumLevels) :
    countCells S l = some ((S.map fun s => s.cells.levels.countP fun x => decide (l ≤ x)).sum) := by
  unfold countCells
  have : S.mapM (fun s : Rank => (ActiveList.enumerateActive s.cells l).map List.length) =
      some (S.map fun s => s.cells.levels.countP fun x => decide (l ≤ x)) := by
    induction S with
    | nil => rfl
    | cons s S ih =>
      rw [List.mapM_cons, count_eq (h s List.mem_cons_self) (hl s List.mem_cons_self),
        ih (fun x hx => h x (List.mem_cons_of_mem _ hx)) fun x hx => hl x (List.mem_cons_of_mem _ hx)]
      rfl
  rw [this]
  rfl

section
variable {eps' : ℝ} {periodic : Bool} {W : World 3 Sweep.Id} {G : ℕ → List (Name Sweep.Id × Cell)} {R C : Type}
  {numLevels : ℕ} {maxTimestep : ℝ} {chem : Sweep.Id → C} {Ph : Physics R C} {w0 w : Whole R C} [AddCommGroup R] [Module ℝ R]

open Classical in
/-- Specification: the number of particles of all ranks with some property. -/
noncomputable def numberOf (W : World 3 Sweep.Id) (P : ℕ → Sweep.Id → Prop) : ℕ :=
  ((List.range W.particles.length).map fun r => (W.ofRank r).countP fun p => decide (P r p.1)).sum

theorem numberOf_congr {P Q : ℕ → Sweep.Id → Prop} (h : ∀ r, ∀ p ∈ W.ofRank r, (P r p.1 ↔ Q r p.1)) : numberOf W P = numberOf W Q := by
  unfold numberOf
  congr 1
  refine List.map_congr_left fun r _ => List.countP_congr fun p hp => ?_
  rw [@decide_eq_true_eq _ (_), @decide_eq_true_eq _ (_)]
  exact h r p hp

omit [AddCommGroup R] [Module ℝ R] in
theorem numberOf_ge {lev : Sweep.Id → ℕ} {S : List Rank} (H : Ready eps' periodic W G)
    (A : AllOk numLevels W.particles.length (fun r => (W.ofRank r).length) G lev S) (l : ℕ) :
    (S.map fun s => s.cells.levels.countP fun x => decide (l ≤ x)).sum =
      numberOf W (fun r u => ∃ x, levelOn S r u = some x ∧ l ≤ x) := by
  unfold numberOf
  congr 1
  refine List.ext_getElem (by simp [A.length]) fun r h1 h2 => ?_
  rw [List.length_map] at h1
  rw [List.getElem_map, List.getElem_map, List.getElem_range, (A.rank r _ (List.getElem?_eq_getElem h1)).levels]
  have hids := H.ids r
  have : (List.range (W.ofRank r).length).map (fun i => lev ⟨r, i⟩) = (W.ofRank r).map fun p => lev p.1 := by
    rw [show (fun p : Sweep.Id × Vec 3 ℝ => lev p.1) = lev ∘ Prod.fst from rfl, ← List.map_map, hids, List.map_map]
    rfl
  rw [this, List.countP_map]
  refine List.countP_congr fun p hp => ?_
  obtain ⟨c, hc⟩ := H.cell hp
  have hr := ofRank_lt hp
  obtain rfl := H.id_rank hp
  rw [Function.comp_apply, decide_eq_true_eq, @decide_eq_true_eq _ (_)]
  dsimp only
  rw [levelOn_own A hr hc]
  constructor
  · exact fun h => ⟨_, rfl, h⟩
  · rintro ⟨x, h1, h2⟩
    rw [Option.some.inj h1]
    exact h2

omit [AddCommGroup R] [Module ℝ R] in
theorem WholeOk.counts (H : Ready eps' periodic W G) (K : WholeOk numLevels maxTimestep W G w) :
    numParticlesAtLevels w.ts maxTimestep w.ranks = some ((List.range numLevels).map fun l =>
      (l, numberOf W (fun r u => ∃ x, levelOn w.ranks r u = some x ∧ l ≤ x), maxTimestep / 2 ^ l)) := by
  obtain ⟨lev, A, hlev⟩ := K.levels
  unfold numParticlesAtLevels
  rw [K.max]
  have key : ∀ l ∈ List.range numLevels, (countCells w.ranks l).map (fun n => (l, n, Timestep.toTimestep l maxTimestep)) =
      some (l, numberOf W (fun r u => ∃ x, levelOn w.ranks r u = some x ∧ l ≤ x), maxTimestep / 2 ^ l) := by
    intro l hl
    rw [countCells_eq K.binned fun s hs => by rw [A.max s hs]; exact (List.mem_range.1 hl).le, Option.map_some]
    have e1 : Timestep.toTimestep l maxTimestep = maxTimestep / 2 ^ l := by
      unfold Timestep.toTimestep Timestep.asFactor
      rw [one_div, inv_pow, ← div_eq_mul_inv]
    rw [e1, numberOf_ge H A]
  clear K A hlev
  generalize List.range numLevels = ls at key
  induction ls with
  | nil => rfl
  | cons l ls ih =>
    rw [List.mapM_cons, key l List.mem_cons_self, ih fun x hx => key x (List.mem_cons_of_mem _ hx)]
    rfl

/-- **The numbers of the time series** are those of the particles on this level *or a deeper one*. -/
theorem series_counts (H : Ready eps' periodic W G) (hn : 0 < numLevels) (hn' : numLevels < 32)
    (h0 : firstState maxTimestep numLevels W.particles.length G chem = some w0) (h : Simulated Ph w0 w) :
    numParticlesAtLevels w.ts maxTimestep w.ranks = some ((List.range numLevels).map fun l =>
      (l, numberOf W (fun r u => ∃ x, levelOn w.ranks r u = some x ∧ l ≤ x), maxTimestep / 2 ^ l)) := by
  obtain ⟨w1, e1, hok⟩ := firstState_ok (R := R) (maxTimestep := maxTimestep) (chem := chem) H hn hn'
  rw [h0] at e1
  obtain rfl := Option.some.inj e1
  exact (h.ok H hok).counts H

/-- They are not the numbers of the particles on each level: at the start all particles are on the deepest level, but every level
is reported to have all of them. -/
theorem series_counts_at_start (H : Ready eps' periodic W G) (hn : 0 < numLevels) (hn' : numLevels < 32)
    (h0 : firstState maxTimestep numLevels W.particles.length G chem = (some w0 : Option (Whole R C))) :
    numParticlesAtLevels w0.ts maxTimestep w0.ranks = some ((List.range numLevels).map fun l =>
      (l, numberOf W (fun _ _ => True), maxTimestep / 2 ^ l)) ∧
    ∀ l, numberOf W (fun r u => levelOn w0.ranks r u = some l) = if l = numLevels - 1 then numberOf W (fun _ _ => True) else 0 := by
  have hlev : ∀ r, ∀ p ∈ W.ofRank r, levelOn w0.ranks r p.1 = some (numLevels - 1) := by
    obtain ⟨S, hS, A⟩ := startAll_ok H.facts hn
    unfold firstState Timestep.State.new at h0
    rw [if_neg (by omega), hS] at h0
    obtain rfl := Option.some.inj h0
    intro r p hp
    obtain ⟨c, hc⟩ := H.cell hp
    have hr := ofRank_lt hp
    obtain rfl := H.id_rank hp
    exact levelOn_own A hr hc
  constructor
  · obtain ⟨w1, e1, hok⟩ := firstState_ok (R := R) (maxTimestep := maxTimestep) (chem := chem) H hn hn'
    rw [h0] at e1
    obtain rfl := Option.some.inj e1
    rw [hok.counts H]
    congr 1
    refine List.map_congr_left fun l hl => ?_
    rw [numberOf_congr (Q := fun _ _ => True) fun r p hp => ?_]
    rw [hlev r p hp]
    exact iff_of_true ⟨_, rfl, by have := List.mem_range.1 hl; omega⟩ trivial
  · intro l
    split_ifs with h
    · refine numberOf_congr fun r p hp => ?_
      rw [hlev r p hp, h]
      exact iff_of_true rfl trivial
    · rw [numberOf_congr (Q := fun _ _ => False) fun r p hp => ?_]
      · unfold numberOf
        simp
      · rw [hlev r p hp]
        exact iff_of_false (fun e => h (Option.some.inj e).symm) id

end

end Verif.Sim
