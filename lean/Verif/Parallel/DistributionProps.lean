import Verif.Parallel.SameGrid

/-!
# C97: the grid does not depend on the distribution of the particles

`Sim/RanksExamples` shows worlds with different numbers of ranks which meet the hypotheses.
-/

namespace Verif.Parallel

open Verif.Geometry Verif.Halo Verif.Delaunay
open Verif.Predicates (P3)

variable {Id Id' : Type} [DecidableEq Id] [DecidableEq Id'] {eps' : ℝ} {W : World 3 Id} {W' : World 3 Id'} {own own' : ℕ}
  {periodic : Bool} {G : List (Name Id × SweepCell Id)} {G' : List (Name Id' × SweepCell Id')}

/-- **The volume and the size of a cell do not depend on the ranks of the particles.** -/
theorem distribution_volume (V : W.Valid) (V' : W'.Valid) (hc : ∀ i, W.hi i - W.lo i = W.hi 0 - W.lo 0)
    (E : SameParticles W W') (B : Built eps' periodic W own G) (B' : Built eps' periodic W' own' G')
    {p : Id × Vec 3 ℝ} (hp : p ∈ W.ofRank own) {c : SweepCell Id} (hcell : (p.1, c) ∈ localCells G)
    {p' : Id' × Vec 3 ℝ} (hp' : p' ∈ W'.ofRank own') {c' : SweepCell Id'} (hcell' : (p'.1, c') ∈ localCells G')
    (hpp : p'.2 = p.2) : c'.volume = c.volume ∧ c'.size = c.size := by
  have hc' : ∀ i, W'.hi i - W'.lo i = W'.hi 0 - W'.lo 0 := by rw [E.lo, E.hi]; exact hc
  obtain ⟨a1, a2, a3, a4⟩ := grid_volume V hc B hp hcell
  obtain ⟨b1, b2, b3, b4⟩ := grid_volume V' hc' B' hp' hcell'
  have hne : ∀ {I : Type} {W : World 3 I} {own : ℕ} {p : I × Vec 3 ℝ} {v : ℝ}, 0 < v →
      MeasureTheory.volume {y : Vec 3 ℝ | W.Region own p y} = ENNReal.ofReal v → ∃ y, W.Region own p y := by
    intro I W own p v h0 h1
    by_contra hn
    push Not at hn
    have : {y : Vec 3 ℝ | W.Region own p y} = ∅ := Set.eq_empty_of_forall_notMem hn
    rw [this, MeasureTheory.measure_empty] at h1
    exact absurd h1.symm (ENNReal.ofReal_pos.2 h0).ne'
  have hset : {y : Vec 3 ℝ | W'.Region own' p' y} = {y : Vec 3 ℝ | W.Region own p y} := by
    ext y
    show W'.Region own' p' y ↔ W.Region own p y
    rw [region_sites (hne b1 b2), region_sites (hne a1 a2), hpp]
    exact forall_congr' fun z => by rw [E.site]
  rw [hset, a2] at b2
  have hv : c'.volume = c.volume := ((ENNReal.ofReal_eq_ofReal_iff a1.le b1.le).1 b2).symm
  refine ⟨hv, ?_⟩
  rw [← a4, ← b4] at hv
  have hpi : 4 / 3 * Real.pi ≠ 0 := by have := Real.pi_pos; positivity
  exact (pow_left_inj₀ b3.le a3.le three_ne_zero).1 (mul_left_cancel₀ hpi hv)

/-- **The faces of a cell do not depend on the ranks of the particles**: the cell has the same faces with the same particles
and images behind them, each as often. -/
theorem distribution_faces (V : W.Valid) (V' : W'.Valid) (hc : ∀ i, W.hi i - W.lo i = W.hi 0 - W.lo 0)
    (hh : ∀ r, ∀ p ∈ W.ofRank r, ∀ i, p.2 i < W.hi i)
    (E : SameParticles W W') (B : Built eps' periodic W own G) (B' : Built eps' periodic W' own' G')
    {p : Id × Vec 3 ℝ} (hp : p ∈ W.ofRank own) {c : SweepCell Id} (hcell : (p.1, c) ∈ localCells G)
    {p' : Id' × Vec 3 ℝ} (hp' : p' ∈ W'.ofRank own') {c' : SweepCell Id'} (hcell' : (p'.1, c') ∈ localCells G')
    (hpp : p'.2 = p.2) :
    ∃ L, L.Perm c'.neighbours ∧ List.Forall₂ (SameFace periodic W W' own own') c.neighbours L := by
  have hc' : ∀ i, W'.hi i - W'.lo i = W'.hi 0 - W'.lo 0 := by rw [E.lo, E.hi]; exact hc
  have hh' : ∀ r, ∀ p ∈ W'.ofRank r, ∀ i, p.2 i < W'.hi i := by
    intro r p hp i
    obtain ⟨s, q, hq, e⟩ := (E.places p.2).2 ⟨r, p, hp, rfl⟩
    rw [← e, E.hi]
    exact hh s q hq i
  obtain ⟨heps', eps, key, pop, hpop, fuel, len, order, n, g, heps, ho, h, hG⟩ := B
  obtain ⟨-, epsB, keyB, popB, hpB, fuelB, lenB, orderB, nB, g', hepsB, hoB, hB, hG'⟩ := B'
  obtain ⟨idx, l, R⟩ := rank_data heps heps' V hc ho h
  obtain ⟨idx', l', R'⟩ := rank_data hepsB heps' V' hc' hoB hB
  obtain ⟨i, F, hi, hpos, hF, -, hnb, -⟩ := R.cell_of V heps' hG hp hcell
  obtain ⟨i', F', hi', hpos', hF', -, hnb', -⟩ := R'.cell_of V' heps' hG' hp' hcell'
  have hcon : F.map Voronoi.Face3.connection = Voronoi.connectedPoints g.tri.state.mesh i := Voronoi.connections_eq hF
  have hcon' : F'.map Voronoi.Face3.connection = Voronoi.connectedPoints g'.tri.state.mesh i' := Voronoi.connections_eq hF'
  have hfour : ∀ f ∈ F, 4 ≤ f.connection ∧ f.connection < g.tri.state.mesh.numPoints := fun f hf =>
    R.connected_four V hc hh hp hi hpos (hcon ▸ List.mem_map.2 ⟨f, hf, rfl⟩)
  have hfour' : ∀ f ∈ F', 4 ≤ f.connection ∧ f.connection < g'.tri.state.mesh.numPoints := fun f hf =>
    R'.connected_four V' hc' hh' hp' hi' hpos' (hcon' ▸ List.mem_map.2 ⟨f, hf, rfl⟩)
  have hnd : (F.map Voronoi.Face3.connection).Nodup := by rw [hcon]; exact List.nodup_dedup _
  have hnd' : (F'.map Voronoi.Face3.connection).Nodup := by rw [hcon']; exact List.nodup_dedup _
  have hex : ∀ f, ∃ f', f ∈ F → f' ∈ F' ∧ g'.position f'.connection = g.position f.connection ∧ f'.area = f.area ∧
      f'.normal = f.normal := by
    intro f
    by_cases hf : f ∈ F
    · obtain ⟨f', h1⟩ := R.face_same R' V V' hc hc' hh hh' E.site hp hi hpos hp' hi' hpos' hpp heps' hF hF' hf
      exact ⟨f', fun _ => h1⟩
    · exact ⟨f, fun h => absurd h hf⟩
  choose φ hφ using hex
  have hperm : (F.map φ).Perm F' := by
    refine (List.perm_ext_iff_of_nodup ?_ hnd'.of_map).2 fun f' => ⟨fun hm => ?_, fun hm => ?_⟩
    · refine List.Nodup.map_on (fun a ha b hb e => ?_) hnd.of_map
      have h1 := (hφ a ha).2.1
      rw [e, (hφ b hb).2.1] at h1
      exact List.inj_on_of_nodup_map hnd ha hb (R.space.injective (hfour a ha).2 (hfour b hb).2 h1.symm)
    · obtain ⟨f, hf, rfl⟩ := List.mem_map.1 hm
      exact (hφ f hf).1
    · obtain ⟨f, hf, e, -⟩ := R'.face_same R V' V hc' hc hh' hh (fun z => (E.site z).symm) hp' hi' hpos' hp hi hpos hpp.symm
        heps' hF' hF hm
      refine List.mem_map.2 ⟨f, hf, ?_⟩
      refine List.inj_on_of_nodup_map hnd' (hφ f hf).1 hm ?_
      exact R'.space.injective (hfour' _ (hφ f hf).1).2 (hfour' _ hm).2 ((hφ f hf).2.1.trans e)
  rw [hnb, hnb']
  refine ⟨(F.map φ).map fun f => (f.area, f.normal, mapPtype periodic (g'.typeOf f.connection)), hperm.map _, ?_⟩
  rw [List.map_map, List.forall₂_map_left_iff, List.forall₂_map_right_iff, List.forall₂_same]
  intro f hf
  obtain ⟨h1, h2, h3, h4⟩ := hφ f hf
  obtain ⟨s, q, k, hN⟩ := R.named_exists (hfour f hf).1 (hfour f hf).2
  obtain ⟨s', q', k', hN'⟩ := R'.named_exists (hfour' _ h1).1 (hfour' _ h1).2
  have e1 := R.named_pos V hN
  have e2 := R'.named_pos V' hN'
  rw [h2, e1, E.box] at e2
  have e3 : image W.box k q.2 = image W.box k' q'.2 := by
    have := congrArg dim3.toVec e2
    rwa [toVec_ofVec, toVec_ofVec] at this
  obtain ⟨rfl, e4⟩ := image_inj V.box (fun i => ⟨(V.inside s q hN.1 i).1, hh s q hN.1 i⟩)
    (fun i => by rw [← E.lo, ← E.hi]; exact ⟨(V'.inside s' q' hN'.1 i).1, hh' s' q' hN'.1 i⟩) e3
  exact ⟨h3, h4, s, q, hN.1, s', q', hN'.1, k, e4.symm, R.typeOf_named hN periodic, R'.typeOf_named hN' periodic⟩

end Verif.Parallel
