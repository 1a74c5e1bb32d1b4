import Verif.Parallel.PlaneCells

/-!
# C129, C130, C131, C132: the grid which the ranks build together in two dimensions

The theorems hold for every rank on which the construction ends.  The box is a square.
-/

namespace Verif.Parallel.Plane

open Verif.Geometry Verif.Halo Verif.Delaunay
open Verif.Predicates (P2)

variable {Id : Type} [DecidableEq Id] {key : P2 ℝ → ℕ} {pop : Heaps}
  {hp : HeapsOk pop} {fuel : ℕ} {len : ℝ} {order : List ℕ} {W : World 2 Id} {own n : ℕ} {g : Grid Id} {periodic : Bool}
  {G : List (Name Id × SweepCell Id)}

/-! ### C129: the cells of the own particles -/

/-- **The grid has one cell for every particle of the rank.** -/
theorem grid_complete (V : W.Valid) (hc : ∀ i, W.hi i - W.lo i = W.hi 0 - W.lo 0)
    (ho : order.Perm (List.range W.particles.length))
    (h : constructRank key hp fuel len order W own n = some g) (periodic : Bool) :
    ∃ G, g.sweepGrid periodic = some G ∧ ((localCells G).map Prod.fst).Perm ((W.ofRank own).map Prod.fst) := by
  obtain ⟨idx, l, R⟩ := rank_data V hc ho h
  refine ⟨_, R.sweepGrid_some periodic, ?_⟩
  rw [R.localCells_eq (R.sweepGrid_some periodic), List.map_map]
  have := R.local_.map (Prod.fst : Id × P2 ℝ → Id)
  rwa [List.map_map, List.map_map] at this

/-- **The cell of a particle is the region of the places to which it is not further away than all particles of all ranks and
all their periodic images.** -/
theorem rank_cell_contains (V : W.Valid)
    (hc : ∀ i, W.hi i - W.lo i = W.hi 0 - W.lo 0) (ho : order.Perm (List.range W.particles.length))
    (h : constructRank key hp fuel len order W own n = some g) :
    ∀ p ∈ W.ofRank own, ∃ i L, g.lookup i = some (.own p.1) ∧ g.outline i = some L ∧
      ∀ y, Voronoi.contains2 L (dim2.ofVec y) = some true ↔ ∀ z, W.Site z → distance y p.2 ≤ distance y z := by
  obtain ⟨idx, l, R⟩ := rank_data V hc ho h
  intro p hpm
  obtain ⟨i, hi, hpos⟩ := R.point hpm
  obtain ⟨h4, hlt⟩ := R.idx_three hi
  obtain ⟨L, hL, hy⟩ := Voronoi.cell_contains R.plane h4 hlt
  refine ⟨i, L, R.lookup_own hi, hL, fun y => ?_⟩
  rw [hy, R.closest V hc hpm hi hpos y]

/-- **The neighbours of a cell are the particles and images whose regions have a common face with it**: every one occurs
once, with its name on this rank, the length of the face as area, which is
positive, and the unit vector towards it as normal. -/
theorem grid_neighbours (V : W.Valid) (hc : ∀ i, W.hi i - W.lo i = W.hi 0 - W.lo 0)
    (hh : ∀ r, ∀ p ∈ W.ofRank r, ∀ i, p.2 i < W.hi i) (B : Built periodic W own G)
    {p : Id × Vec 2 ℝ} (hpm : p ∈ W.ofRank own) {c : SweepCell Id} (hcell : (p.1, c) ∈ localCells G) :
    ∃ adj : List (ℕ × (Id × Vec 2 ℝ) × (Fin 2 → ℤ)), adj.Nodup ∧ (∀ s q k, (s, q, k) ∈ adj ↔ W.Adjacent own p s q k) ∧
      List.Forall₂ (fun f a => Name.Is own periodic a.1 a.2.1.1 a.2.2 f.2.2 ∧ 0 < f.1 ∧
        IsGreatest {r | ∃ y ∈ face W p.2 (image W.box a.2.2 a.2.1.2), ∃ z ∈ face W p.2 (image W.box a.2.2 a.2.1.2),
          r = distance y z} f.1 ∧
        0 < distance p.2 (image W.box a.2.2 a.2.1.2) ∧
        ∀ i, dim2.toVec f.2.1 i * distance p.2 (image W.box a.2.2 a.2.1.2) = image W.box a.2.2 a.2.1.2 i - p.2 i)
        c.neighbours adj := by
  obtain ⟨key, pop, hp, fuel, len, order, n, g, ho, h, hG⟩ := B
  obtain ⟨idx, l, R⟩ := rank_data V hc ho h
  obtain ⟨i, L, F, hi, hpos, hL, hF, -, hnb, -⟩ := R.cell_of V hG hpm hcell
  obtain ⟨h4, hlt⟩ := R.idx_three hi
  obtain ⟨hnd, hcon⟩ := R.connections h4 hlt hF
  have hfour : ∀ f ∈ F, 3 ≤ f.connection ∧ f.connection < g.tri.state.mesh.numPoints := by
    intro f hf
    exact R.connected_three V hc hpm hi hpos ((hcon _).1 (List.mem_map.2 ⟨f, hf, rfl⟩))
  have hne : Nonempty (ℕ × (Id × Vec 2 ℝ) × (Fin 2 → ℤ)) := ⟨(0, p, 0)⟩
  have hex : ∀ j, ∃ a : ℕ × (Id × Vec 2 ℝ) × (Fin 2 → ℤ), 3 ≤ j → j < g.tri.state.mesh.numPoints →
      Named W own idx l j a.1 a.2.1 a.2.2 := by
    intro j
    by_cases hj : 3 ≤ j ∧ j < g.tri.state.mesh.numPoints
    · obtain ⟨s, q, k, hN⟩ := R.named_exists hj.1 hj.2
      exact ⟨(s, q, k), fun _ _ => hN⟩
    · exact ⟨Classical.choice hne, fun h1 h2 => absurd ⟨h1, h2⟩ hj⟩
  choose t ht using hex
  have htF : ∀ f ∈ F, Named W own idx l f.connection (t f.connection).1 (t f.connection).2.1 (t f.connection).2.2 :=
    fun f hf => ht _ (hfour f hf).1 (hfour f hf).2
  refine ⟨F.map fun f => t f.connection, ?_, ?_, ?_⟩
  · have e : (F.map fun f => t f.connection) = (F.map Voronoi.Face2.connection).map t := by rw [List.map_map]; rfl
    rw [e]
    refine List.Nodup.map_on ?_ hnd
    intro a ha b hb hab
    obtain ⟨f, hf, rfl⟩ := List.mem_map.1 ha
    obtain ⟨f', hf', rfl⟩ := List.mem_map.1 hb
    have := htF f' hf'
    rw [← hab] at this
    exact R.named_inj V (htF f hf) this
  · intro s q k
    rw [R.adjacent_iff V hc hh hpm hi hpos]
    simp only [← hcon, List.mem_map]
    constructor
    · rintro ⟨f, hf, e⟩
      have := htF f hf
      rw [e] at this
      exact ⟨_, ⟨f, hf, rfl⟩, this⟩
    · rintro ⟨_, ⟨f, hf, rfl⟩, hN⟩
      obtain ⟨h1, h2, h3⟩ := R.named_fun V (htF f hf) hN
      exact ⟨f, hf, Prod.ext h1 (Prod.ext h2 h3)⟩
  · rw [hnb, List.forall₂_map_left_iff, List.forall₂_map_right_iff, List.forall₂_same]
    intro f hf
    have hN := htF f hf
    obtain ⟨-, hn, r, hr, hx⟩ := Voronoi.face_ends R.plane h4 hlt hF hf
    have hpos' := R.named_pos V hN
    obtain ⟨h1, h2⟩ := R.face_length V hc hpm hi hpos hF hf hpos'
    have e1 : dim2.toVec (g.position i) = p.2 := by rw [hpos, toVec_ofVec]
    have e2 : dim2.toVec (g.position f.connection) = image W.box (t f.connection).2.2 (t f.connection).2.1.2 := by
      rw [hpos', toVec_ofVec]
    obtain ⟨d1, d2⟩ := normal_spec hn hr hx
    rw [e1, e2] at d1 d2
    exact ⟨R.typeOf_named hN periodic, h1, h2, d1, d2⟩

/-! ### C130: volumes -/

/-- **The volume of a cell is the area of the region of its particle**, and the size is the radius of a disk of this
area. -/
theorem grid_volume (V : W.Valid) (hc : ∀ i, W.hi i - W.lo i = W.hi 0 - W.lo 0) (B : Built periodic W own G)
    {p : Id × Vec 2 ℝ} (hpm : p ∈ W.ofRank own) {c : SweepCell Id} (hcell : (p.1, c) ∈ localCells G) :
    0 < c.volume ∧ MeasureTheory.volume {y : Vec 2 ℝ | W.Region own p y} = ENNReal.ofReal c.volume ∧
      0 < c.size ∧ Real.pi * c.size ^ 2 = c.volume := by
  obtain ⟨key, pop, hp, fuel, len, order, n, g, ho, h, hG⟩ := B
  obtain ⟨idx, l, R⟩ := rank_data V hc ho h
  obtain ⟨h0, h1⟩ := R.cell_measure V hc hG hpm hcell
  obtain ⟨i, L, F, -, -, -, -, -, -, hs⟩ := R.cell_of V hG hpm hcell
  have hpi := Real.pi_pos
  have hq : 0 < c.volume / Real.pi := div_pos h0 hpi
  refine ⟨h0, h1, hs ▸ Real.sqrt_pos.2 hq, ?_⟩
  rw [hs, Real.sq_sqrt hq.le, mul_div_cancel₀ _ hpi.ne']

/-- **The volume of a cell is the part of the box in which an image of its particle is the closest one.** -/
theorem grid_volume_in_box (V : W.Valid) (hc : ∀ i, W.hi i - W.lo i = W.hi 0 - W.lo 0) (B : Built periodic W own G)
    {p : Id × Vec 2 ℝ} (hpm : p ∈ W.ofRank own) {c : SweepCell Id} (hcell : (p.1, c) ∈ localCells G) :
    MeasureTheory.volume {y : Vec 2 ℝ | (∀ i, W.lo i ≤ y i ∧ y i < W.hi i) ∧ ∃ k : Fin 2 → ℤ,
      ∀ s q k', s < W.particles.length → q ∈ W.ofRank s → (s, q, k') ≠ (own, p, k) →
        distance y (image W.box k p.2) < distance y (image W.box k' q.2)} = ENNReal.ofReal c.volume := by
  obtain ⟨-, h1, -⟩ := grid_volume V hc B hpm hcell
  rw [← h1]
  exact region_in_box V hpm

/-- **The volumes of the cells of all ranks add up to the area of the box.** -/
theorem grid_volumes_total (V : W.Valid) (hc : ∀ i, W.hi i - W.lo i = W.hi 0 - W.lo 0) (hN : W.particles ≠ [])
    {G : ℕ → List (Name Id × SweepCell Id)} (B : ∀ r, r < W.particles.length → Built periodic W r (G r)) :
    ((List.range W.particles.length).map fun r => ((localCells (G r)).map fun e => e.2.volume).sum).sum =
      ∏ i, (W.hi i - W.lo i) := by
  have key : ∀ r, r < W.particles.length → ∃ order g idx l, RankData order W r g idx l ∧ 
      g.sweepGrid periodic = some (G r) := by
    intro r hr
    obtain ⟨key, pop, hp, fuel, len, order, n, g, ho, h, hG⟩ := B r hr
    obtain ⟨idx, l, R⟩ := rank_data V hc ho h
    exact ⟨order, g, idx, l, R, hG⟩
  have hm : ∀ r, ∀ p ∈ W.ofRank r, ∃ v : ℝ, 0 < v ∧ MeasureTheory.volume {y : Vec 2 ℝ | W.Region r p y} = ENNReal.ofReal v := by
    intro r p hpm
    obtain ⟨order, g, idx, l, R, hG⟩ := key r (ofRank_lt hpm)
    obtain ⟨i, hi, hpos⟩ := R.point hpm
    have hcell : (p.1, (g.entry periodic i).2) ∈ localCells (G r) := by
      rw [R.localCells_eq hG]
      exact List.mem_map.2 ⟨_, hi, rfl⟩
    exact ⟨_, R.cell_measure V hc hG hpm hcell⟩
  rw [← regions_fill V hN (fun r p hpm => ?_) fun r p hpm => ?_]
  · refine congrArg List.sum (List.map_congr_left fun r hr => ?_)
    obtain ⟨order, g, idx, l, R, hG⟩ := key r (List.mem_range.1 hr)
    exact R.volumes_eq V hc hG
  · obtain ⟨v, h0, h1⟩ := hm r p hpm
    by_contra hn
    push Not at hn
    have : {y : Vec 2 ℝ | W.Region r p y} = ∅ := Set.eq_empty_of_forall_notMem hn
    rw [this, MeasureTheory.measure_empty] at h1
    exact absurd h1.symm (ENNReal.ofReal_pos.2 h0).ne'
  · obtain ⟨v, h0, h1⟩ := hm r p hpm
    rw [h1]
    exact ENNReal.ofReal_ne_top

/-- **The faces of a cell close it**: for every direction the flux through its faces cancels, and there is a face through which
it leaves. -/
theorem grid_cell_closed (V : W.Valid) (hc : ∀ i, W.hi i - W.lo i = W.hi 0 - W.lo 0) (B : Built periodic W own G)
    {p : Id × Vec 2 ℝ} (hpm : p ∈ W.ofRank own) {c : SweepCell Id} (hcell : (p.1, c) ∈ localCells G) (d : P2 ℝ) :
    (c.neighbours.map fun f => f.1 * (f.2.1.x * d.x + f.2.1.y * d.y)).sum = 0 ∧
      (d ≠ ⟨0, 0⟩ → ∃ f ∈ c.neighbours, 0 < (f.2.1.x * d.x + f.2.1.y * d.y)) := by
  obtain ⟨key, pop, hp, fuel, len, order, n, g, ho, h, hG⟩ := B
  obtain ⟨idx, l, R⟩ := rank_data V hc ho h
  obtain ⟨i, L, F, hi, hpos, hL, hF, -, hnb, -⟩ := R.cell_of V hG hpm hcell
  obtain ⟨h4, hlt⟩ := R.idx_three hi
  rw [hnb]
  constructor
  · rw [List.map_map]
    exact (Voronoi.cell_closed2 R.plane h4 hlt hF).2 d
  · intro hd
    obtain ⟨f, hf, h⟩ := Voronoi.cell_downwind2 R.plane h4 hlt hF hd
    exact ⟨_, List.mem_map.2 ⟨f, hf, rfl⟩, h⟩

/-! ### C131: both ranks see the same face -/

/-- **A face has the same area and the opposite normal in the cells on both sides**, also if they are on different ranks or if
one of them is reached through the periodic boundary. -/
theorem grid_faces_agree (V : W.Valid) (hc : ∀ i, W.hi i - W.lo i = W.hi 0 - W.lo 0)
    (hh : ∀ r, ∀ p ∈ W.ofRank r, ∀ i, p.2 i < W.hi i) {own' : ℕ} {G' : List (Name Id × SweepCell Id)}
    (B : Built periodic W own G) (B' : Built periodic W own' G')
    {p : Id × Vec 2 ℝ} (hpm : p ∈ W.ofRank own) {c : SweepCell Id} (hcell : (p.1, c) ∈ localCells G)
    {q : Id × Vec 2 ℝ} (hqm : q ∈ W.ofRank own') {c' : SweepCell Id} (hcell' : (q.1, c') ∈ localCells G')
    {area : ℝ} {normal : P2 ℝ} {name : Name Id} (hf : (area, normal, name) ∈ c.neighbours) (hb : name ≠ .boundary)
    {k : Fin 2 → ℤ} (hname : Name.Is own periodic own' q.1 k name) :
    ∃ name', (area, (⟨-normal.x, -normal.y⟩ : P2 ℝ), name') ∈ c'.neighbours ∧
      Name.Is own' periodic own p.1 (-k) name' := by
  obtain ⟨key, pop, hp, fuel, len, order, n, g, ho, h, hG⟩ := B
  obtain ⟨keyB, popB, hpB, fuelB, lenB, orderB, nB, gB, hoB, hB, hGB⟩ := B'
  obtain ⟨idx, l, R⟩ := rank_data V hc ho h
  obtain ⟨idx', l', R'⟩ := rank_data V hc hoB hB
  obtain ⟨i, L, F, hi, hpos, hL, hF, -, hnb, -⟩ := R.cell_of V hG hpm hcell
  obtain ⟨i', L', F', hi', hpos', hL', hF', -, hnb', -⟩ := R'.cell_of V hGB hqm hcell'
  rw [hnb] at hf
  obtain ⟨f, hfF, e⟩ := List.mem_map.1 hf
  obtain ⟨rfl, e'⟩ := Prod.mk.inj e
  obtain ⟨rfl, rfl⟩ := Prod.mk.inj e'
  obtain ⟨h4, hlt⟩ := R.idx_three hi
  have hcon := ((R.connections h4 hlt hF).2 _).1 (List.mem_map.2 ⟨f, hfF, rfl⟩)
  obtain ⟨j4, jn⟩ := R.connected_three V hc hpm hi hpos hcon
  obtain ⟨s, q0, k0, hN⟩ := R.named_exists j4 jn
  obtain ⟨rfl, e1, rfl⟩ := is_unique hb (R.typeOf_named hN periodic) hname
  obtain rfl : q0 = q := eq_of_id (V.ids s) hN.1 hqm e1
  obtain ⟨f', hf', hN', ha, hn⟩ := R.cross R' V hc hh hpm hi hpos hqm hi' hpos' hF hF' hfF hN
  refine ⟨_, ?_, R'.typeOf_named hN' periodic⟩
  rw [hnb', ← ha, ← hn]
  exact List.mem_map.2 ⟨f', hf', rfl⟩

/-! ### C132: halo particles -/

/-- **Halo particles are spawned for the particles of other ranks which are neighbours of own particles.** -/
theorem grid_halo_particles (V : W.Valid) (hc : ∀ i, W.hi i - W.lo i = W.hi 0 - W.lo 0)
    (hh : ∀ r, ∀ p ∈ W.ofRank r, ∀ i, p.2 i < W.hi i) (B : Built periodic W own G) (s : ℕ) (id : Id) :
    (s, id) ∈ haloParticles G ↔ s ≠ own ∧ ∃ p ∈ W.ofRank own, ∃ q k, q.1 = id ∧ (periodic = true ∨ k = 0) ∧
      W.Adjacent own p s q k := by
  obtain ⟨key, pop, hp, fuel, len, order, n, g, ho, h, hG⟩ := B
  obtain ⟨idx, l, R⟩ := rank_data V hc ho h
  exact R.haloParticles_iff V hc hh hG s id

/-- **The halo particles are the remote neighbours of the cells of the rank.** -/
theorem grid_halo_neighbours (V : W.Valid) (hc : ∀ i, W.hi i - W.lo i = W.hi 0 - W.lo 0)
    (hh : ∀ r, ∀ p ∈ W.ofRank r, ∀ i, p.2 i < W.hi i) (B : Built periodic W own G) (s : ℕ) (id : Id) :
    (s, id) ∈ haloParticles G ↔ ∃ e ∈ localCells G, ∃ f ∈ e.2.neighbours,
      f.2.2 = .halo (.remote id s) ∨ ∃ w, f.2.2 = .halo (.remotePeriodic id s w) := by
  rw [grid_halo_particles V hc hh B]
  have hcells : ∀ p ∈ W.ofRank own, ∃ c, (p.1, c) ∈ localCells G := by
    obtain ⟨key, pop, hp, fuel, len, order, n, g, ho, h, hG⟩ := B
    obtain ⟨idx, l, R⟩ := rank_data V hc ho h
    intro p hpm
    obtain ⟨i, hi, -⟩ := R.point hpm
    exact ⟨_, by rw [R.localCells_eq hG]; exact List.mem_map.2 ⟨_, hi, rfl⟩⟩
  have hparts : ∀ e ∈ localCells G, ∃ p ∈ W.ofRank own, p.1 = e.1 := by
    obtain ⟨key, pop, hp, fuel, len, order, n, g, ho, h, hG⟩ := B
    obtain ⟨idx, l, R⟩ := rank_data V hc ho h
    intro e he
    rw [R.localCells_eq hG] at he
    obtain ⟨x, hx, rfl⟩ := List.mem_map.1 he
    obtain ⟨p, hpm, p1, -⟩ := R.particle hx
    exact ⟨p, hpm, p1⟩
  constructor
  · rintro ⟨hs, p, hpm, q, k, rfl, hk, ha⟩
    obtain ⟨c, hcell⟩ := hcells p hpm
    obtain ⟨adj, -, h1, h2⟩ := grid_neighbours V hc hh B hpm hcell
    obtain ⟨f, hf, hI, -⟩ := exists_of_forall₂ h2 ((h1 s q k).2 ha)
    exact ⟨_, hcell, f, hf, is_remote hs hk hI⟩
  · rintro ⟨e, he, f, hf, hn⟩
    obtain ⟨p, hpm, p1⟩ := hparts e he
    have hcell : (p.1, e.2) ∈ localCells G := p1 ▸ he
    obtain ⟨adj, -, h1, h2⟩ := grid_neighbours V hc hh B hpm hcell
    obtain ⟨⟨s', q, k⟩, ha, hI, -⟩ := exists_of_forall₂' h2 hf
    have ha := (h1 s' q k).1 ha
    rcases hn with hn | ⟨w, hn⟩ <;> rw [hn] at hI
    · obtain ⟨k1, k2, k3, k4⟩ := hI
      dsimp only at k1 k2 k3 k4
      subst k4
      exact ⟨k1, p, hpm, q, k, k3.symm, Or.inr k2, ha⟩
    · obtain ⟨k0, k1, k2, k3, k4, k5⟩ := hI
      dsimp only at k1 k2 k3 k4
      subst k4
      exact ⟨k1, p, hpm, q, k, k3.symm, Or.inl k0, ha⟩

/-- **Without periodic boundaries every halo particle is spawned once.** -/
theorem grid_halo_once (V : W.Valid) (hc : ∀ i, W.hi i - W.lo i = W.hi 0 - W.lo 0)
    (hh : ∀ r, ∀ p ∈ W.ofRank r, ∀ i, p.2 i < W.hi i) (B : Built false W own G) : (haloParticles G).Nodup := by
  obtain ⟨key, pop, hp, fuel, len, order, n, g, ho, h, hG⟩ := B
  obtain ⟨idx, l, R⟩ := rank_data V hc ho h
  exact R.haloParticles_nodup V hc hh hG

end Verif.Parallel.Plane
