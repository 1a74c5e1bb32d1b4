import Verif.Parallel.PlaneSame

/-!
# C134: the grid in two dimensions does not depend on the distribution of the particles

`PlaneExamples` shows worlds which meet the hypotheses.
-/

namespace Verif.Parallel.Plane

open Verif.Geometry Verif.Halo Verif.Delaunay
open Verif.Predicates (P2)

variable {Id Id' : Type} [DecidableEq Id] [DecidableEq Id'] {W : World 2 Id} {W' : World 2 Id'} {own own' : ℕ}
  {periodic : Bool} {G : List (Name Id × SweepCell Id)} {G' : List (Name Id' × SweepCell Id')}

/-- **The volume and the size of a cell do not depend on the ranks of the particles.** -/
theorem distribution_volume (V : W.Valid) (V' : W'.Valid) (hc : ∀ i, W.hi i - W.lo i = W.hi 0 - W.lo 0)
    (E : SameParticles W W') (B : Built periodic W own G) (B' : Built periodic W' own' G')
    {p : Id × Vec 2 ℝ} (hp : p ∈ W.ofRank own) {c : SweepCell Id} (hcell : (p.1, c) ∈ localCells G)
    {p' : Id' × Vec 2 ℝ} (hp' : p' ∈ W'.ofRank own') {c' : SweepCell Id'} (hcell' : (p'.1, c') ∈ localCells G')
    (hpp : p'.2 = p.2) : c'.volume = c.volume ∧ c'.size = c.size := by
  have hc' : ∀ i, W'.hi i - W'.lo i = W'.hi 0 - W'.lo 0 := by rw [E.lo, E.hi]; exact hc
  obtain ⟨a1, a2, a3, a4⟩ := grid_volume V hc B hp hcell
  obtain ⟨b1, b2, b3, b4⟩ := grid_volume V' hc' B' hp' hcell'
  have hne : ∀ {I : Type} {W : World 2 I} {own : ℕ} {p : I × Vec 2 ℝ} {v : ℝ}, 0 < v →
      MeasureTheory.volume {y : Vec 2 ℝ | W.Region own p y} = ENNReal.ofReal v → ∃ y, W.Region own p y := by
    intro I W own p v h0 h1
    by_contra hn
    push Not at hn
    have : {y : Vec 2 ℝ | W.Region own p y} = ∅ := Set.eq_empty_of_forall_notMem hn
    rw [this, MeasureTheory.measure_empty] at h1
    exact absurd h1.symm (ENNReal.ofReal_pos.2 h0).ne'
  have hset : {y : Vec 2 ℝ | W'.Region own' p' y} = {y : Vec 2 ℝ | W.Region own p y} := by
    ext y
    show W'.Region own' p' y ↔ W.Region own p y
    rw [region_sites (hne b1 b2), region_sites (hne a1 a2), hpp]
    exact forall_congr' fun z => by rw [E.site]
  rw [hset, a2] at b2
  have hv : c'.volume = c.volume := ((ENNReal.ofReal_eq_ofReal_iff a1.le b1.le).1 b2).symm
  refine ⟨hv, ?_⟩
  rw [← a4, ← b4] at hv
  exact (pow_left_inj₀ b3.le a3.le two_ne_zero).1 (mul_left_cancel₀ Real.pi_pos.ne' hv)

/-- **The faces of a cell do not depend on the ranks of the particles**: the cell has the same faces with the same particles
and images behind them, each as often. -/
theorem distribution_faces (V : W.Valid) (V' : W'.Valid) (hc : ∀ i, W.hi i - W.lo i = W.hi 0 - W.lo 0)
    (hh : ∀ r, ∀ p ∈ W.ofRank r, ∀ i, p.2 i < W.hi i)
    (E : SameParticles W W') (B : Built periodic W own G) (B' : Built periodic W' own' G')
    {p : Id × Vec 2 ℝ} (hp : p ∈ W.ofRank own) {c : SweepCell Id} (hcell : (p.1, c) ∈ localCells G)
    {p' : Id' × Vec 2 ℝ} (hp' : p' ∈ W'.ofRank own') {c' : SweepCell Id'} (hcell' : (p'.1, c') ∈ localCells G')
    (hpp : p'.2 = p.2) :
    ∃ L, L.Perm c'.neighbours ∧ List.Forall₂ (SameFace periodic W W' own own') c.neighbours L := by
  have hc' : ∀ i, W'.hi i - W'.lo i = W'.hi 0 - W'.lo 0 := by rw [E.lo, E.hi]; exact hc
  have hh' : ∀ r, ∀ p ∈ W'.ofRank r, ∀ i, p.2 i < W'.hi i := by
    intro r p hp i
    obtain ⟨s, q, hq, e⟩ := (E.places p.2).2 ⟨r, p, hp, rfl⟩
    rw [← e, E.hi]
    exact hh s q hq i
  obtain ⟨adj, d1, d2, d3⟩ := grid_neighbours V hc hh B hp hcell
  obtain ⟨adj', e1, e2, e3⟩ := grid_neighbours V' hc' hh' B' hp' hcell'
  obtain ⟨key, pop, hpop, fuel, len, order, n, g, ho, h, hG⟩ := B
  obtain ⟨keyB, popB, hpB, fuelB, lenB, orderB, nB, g', hoB, hB, hG'⟩ := B'
  obtain ⟨idx, l, R⟩ := rank_data V hc ho h
  obtain ⟨idx', l', R'⟩ := rank_data V' hc' hoB hB
  obtain ⟨i, hi, hpos⟩ := R.point hp
  obtain ⟨i', hi', hpos'⟩ := R'.point hp'
  have hex : ∀ a : ℕ × (Id × Vec 2 ℝ) × (Fin 2 → ℤ), ∃ b : ℕ × (Id' × Vec 2 ℝ), a ∈ adj → b.2 ∈ W'.ofRank b.1 ∧ b.2.2 = a.2.1.2 := by
    rintro ⟨s, q, k⟩
    by_cases ha : (s, q, k) ∈ adj
    · obtain ⟨s', q', hq', e⟩ := (E.places q.2).1 ⟨s, q, ((d2 s q k).1 ha).1, rfl⟩
      exact ⟨(s', q'), fun _ => ⟨hq', e⟩⟩
    · exact ⟨(0, p'), fun h => absurd h ha⟩
  choose φ hφ using hex
  have hmem : ∀ a ∈ adj, ((φ a).1, (φ a).2, a.2.2) ∈ adj' := by
    rintro ⟨s, q, k⟩ ha
    obtain ⟨m1, m2⟩ := hφ _ ha
    exact (e2 _ _ _).2 (adjacent_same R R' V V' hc hc' hh hh' E hp hi hpos hp' hi' hpos' hpp m1 m2 ((d2 s q k).1 ha))
  have hperm : (adj.map fun a => ((φ a).1, (φ a).2, a.2.2)).Perm adj' := by
    have hsame : ∀ {s s' : ℕ} {q q' : Id × Vec 2 ℝ} {k : Fin 2 → ℤ}, (s, q, k) ∈ adj → (s', q', k) ∈ adj → q.2 = q'.2 →
        (s, q, k) = (s', q', k) := by
      intro s s' q q' k ha hb e
      by_contra hn
      obtain ⟨-, n1, y, g1, g2⟩ := (d2 s q k).1 ha
      obtain ⟨hq', n2, -⟩ := (d2 s' q' k).1 hb
      have := g2 s' q' k hq' n2 (Ne.symm hn)
      rw [← e, g1] at this
      exact lt_irrefl _ this
    refine (List.perm_ext_iff_of_nodup ?_ e1).2 fun b => ⟨fun hm => ?_, fun hm => ?_⟩
    · refine List.Nodup.map_on ?_ d1
      rintro ⟨s, q, k⟩ ha ⟨s', q', k'⟩ hb e
      obtain ⟨-, m2⟩ := hφ _ ha
      obtain ⟨-, m2'⟩ := hφ _ hb
      obtain ⟨g1, g2, g3⟩ := by simpa only [Prod.mk.injEq] using e
      subst g3
      exact hsame ha hb (by rw [← m2, ← m2', g2])
    · obtain ⟨a, ha, rfl⟩ := List.mem_map.1 hm
      exact hmem a ha
    · obtain ⟨s', q', k⟩ := b
      have hadj := (e2 s' q' k).1 hm
      obtain ⟨s, q, hq, e⟩ := (E.places q'.2).2 ⟨s', q', hadj.1, rfl⟩
      have ha : (s, q, k) ∈ adj := (d2 s q k).2
        (adjacent_same R' R V' V hc' hc hh' hh E.symm hp' hi' hpos' hp hi hpos hpp.symm hq e hadj)
      refine List.mem_map.2 ⟨_, ha, ?_⟩
      have hb := hmem _ ha
      obtain ⟨-, m2⟩ := hφ _ ha
      dsimp only at hb m2 ⊢
      by_contra hn
      obtain ⟨-, n1, y, g1, g2⟩ := (e2 _ _ _).1 hb
      have := g2 s' q' k hadj.1 hadj.2.1 (Ne.symm hn)
      rw [g1, m2, e] at this
      exact lt_irrefl _ this
  obtain ⟨L, hL, hLp⟩ := List.perm_comp_forall₂ hperm e3.flip
  refine ⟨L, hLp, ?_⟩
  rw [List.forall₂_map_left_iff] at hL
  refine forall₂_join d3 hL ?_
  rintro ⟨A, N, nm⟩ ⟨s, q, k⟩ ⟨A', N', nm'⟩ ha ⟨g1, -, g2, g3, g4⟩ ⟨g1', -, g2', g3', g4'⟩
  obtain ⟨m1, m2⟩ := hφ _ ha
  dsimp only at g1 g2 g3 g4 g1' g2' g3' g4' m1 m2 ⊢
  rw [m2, hpp, E.box] at g2' g3' g4'
  rw [face_same E] at g2'
  refine ⟨g2'.unique g2, ?_, s, q, ((d2 s q k).1 ha).1, _, _, m1, k, m2, g1, g1'⟩
  have hN : ∀ j, dim2.toVec N' j = dim2.toVec N j := fun j => mul_right_cancel₀ g3.ne' ((g4' j).trans (g4 j).symm)
  exact Predicates.P2.ext (hN 0) (hN 1)

end Verif.Parallel.Plane
