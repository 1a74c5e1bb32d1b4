import Verif.Parallel.PlaneTotalLemmas

/-! # The construction of the grid of a rank ends, in two dimensions: the iteration -/

namespace Verif.Parallel.Plane

open Verif.Geometry Verif.Halo Verif.Delaunay
open Verif.Predicates (P2 Triangle2 orient2 distSq2)

variable {Id : Type} [DecidableEq Id] {W : World 2 Id} {own : ℕ} {R : ℝ} {order : List ℕ} {s0 s : TriState 2 (P2 ℝ)}
  {l : List (ℕ × Image Id (Fin 2 → WrapType) (P2 ℝ))}

/-- All images close to `p` have been imported. -/
def Known (W : World 2 Id) (own : ℕ) (E : Env Id (Fin 2 → WrapType) (P2 ℝ) ℝ) (haloes : List (PType Id (Fin 2 → WrapType)))
    (p : P2 ℝ) (r : ℝ) : Prop :=
  ∀ s q w, q ∈ W.ofRank s → (s ≠ own ∨ isPeriodic w) → distance (dim2.toVec p) (image W.box (fun i => shift (w i)) q.2) < r →
    ∀ pos, ptype E s ⟨q.1, w, pos⟩ ∈ haloes

/-- The points of the triangulation. -/
theorem Loaded.point (H : Loaded W own R (env dim2 W order own) s0 s l) {z : P2 ℝ}
    (hz : (∃ i, i < s0.points.length ∧ positionOf (s0.points.map Prod.fst) i = z) ∨ ∃ x ∈ l, x.2.pos = z) :
    ∃ i, i < s.state.mesh.numPoints ∧ positionOf (s.points.map Prod.fst) i = z := by
  rw [← s.num, H.points]
  rcases hz with ⟨i, hi, rfl⟩ | ⟨x, hx, rfl⟩
  · refine ⟨i, by rw [List.length_append]; omega, ?_⟩
    rw [List.map_append, positionOf_append (by rw [List.length_map]; exact hi)]
  · obtain ⟨j, hj, rfl⟩ := List.getElem_of_mem hx
    refine ⟨s0.points.length + j, by rw [List.length_append, List.length_map]; omega, ?_⟩
    unfold positionOf
    rw [List.map_append, List.getElem?_append_right (by rw [List.length_map]; omega), List.length_map,
      Nat.add_sub_cancel_left]
    simp [hj]

/-- The sphere of an existing tetra with a vertex of this rank. -/
theorem Loaded.sphere {pop : Heaps} (hp : HeapsOk pop)
    (V : W.Valid) (hc : ∀ i, W.hi i - W.lo i = W.hi 0 - W.lo 0)
    (D : LocalData W own s0) (H : Loaded W own R (env dim2 W order own) s0 s l) {t : ℕ} {p : P2 ℝ}
    (ht : t ∈ (tri W.enlarged2 hp).tetras s) (hin : (tri W.enlarged2 hp).inner s t = some p) :
    ∃ q ∈ W.ofRank own, p = dim2.ofVec q.2 ∧ ∃ c rho, 0 < rho ∧ (tri W.enlarged2 hp).centre s t = c ∧
      (tri W.enlarged2 hp).radius s t = Real.sqrt rho ∧ distSq2 p c = rho ∧
      ∀ i, i < s.state.mesh.numPoints → rho ≤ distSq2 (positionOf (s.points.map Prod.fst) i) c := by
  obtain ⟨hlx, hly⟩ := enlarged_lt V
  have hcy := enlarged_square hc
  obtain ⟨c1, c2, k, hk, e⟩ := remap_square hlx hcy
  have P : PlaneOk (positionOf (s.points.map Prod.fst)) s.state :=
    H.plane.scale hk fun i => by unfold remapped; rw [e]
  obtain ⟨T, hT⟩ := (live_iff s t).1 ht
  obtain ⟨a, b, c, hpts, hat⟩ := At.of_get P.ok.cons hT
  obtain ⟨o, rho, hpos, ha, hb, hcc, ec, er⟩ := circle_spec P hat
  obtain ⟨v, hv, rfl⟩ := Option.map_eq_some_iff.1 hin
  have hv2 : v.2 = true := List.find?_some hv
  have hvm := List.mem_of_find?_eq_some hv
  unfold TriState.vertices at hvm
  rw [hT] at hvm
  obtain ⟨i, hi, hiv⟩ := List.mem_filterMap.1 hvm
  have hv0 : v ∈ s0.points := by
    have := List.mem_of_getElem? hiv
    rw [H.points] at this
    rcases List.mem_append.1 this with h | h
    · exact h
    · obtain ⟨x, -, rfl⟩ := List.mem_map.1 h
      cases hv2
  obtain ⟨q, hq, eq⟩ := D.kind v hv0 hv2
  have hposv : positionOf (s.points.map Prod.fst) i = v.1 := by
    unfold positionOf
    rw [List.getElem?_map, hiv]
    rfl
  refine ⟨q, hq, eq, o, rho, hpos, ec, er, ?_, ?_⟩
  · rw [hpts] at hi
    simp only [List.mem_cons, List.not_mem_nil, or_false] at hi
    rw [← hposv]
    rcases hi with rfl | rfl | rfl
    · exact ha
    · exact hb
    · exact hcc
  · intro j hj
    by_cases hja : j = a
    · rw [hja, ha]
    by_cases hjb : j = b
    · rw [hjb, hb]
    by_cases hjc : j = c
    · rw [hjc, hcc]
    have := P.empty hat j hj hja hjb hjc
    rw [← pw_unique (P.valid.pos hat).ne' (o := o) (rho := rho) (sub_eq_zero.2 ha) (sub_eq_zero.2 hb) (sub_eq_zero.2 hcc)] at this
    unfold power at this
    linarith

/-- If the surroundings of a vertex are known the sphere of a tetra is not larger than the cell. -/
theorem Loaded.small {h : ℝ} (hh : 0 < h) (V : W.Valid) (hc : ∀ i, W.hi i - W.lo i = W.hi 0 - W.lo 0)
    (hL : 2 * h ≤ W.hi 0 - W.lo 0) (hord : order.Nodup)
    (D : LocalData W own s0) (H : Loaded W own R (env dim2 W order own) s0 s l) {q : Id × Vec 2 ℝ} (hq : q ∈ W.ofRank own)
    (hcell : CellWithin W q h) {c : P2 ℝ} {rho : ℝ} (hrho : distSq2 (dim2.ofVec q.2) c = rho)
    (hmin : ∀ i, i < s.state.mesh.numPoints → rho ≤ distSq2 (positionOf (s.points.map Prod.fst) i) c)
    {haloes : List (PType Id (Fin 2 → WrapType))}
    (hal : haloes = (l.map fun x => ptype (env dim2 W order own) x.1 x.2).reverse) {r : ℝ} (hr : 2 * h ≤ r)
    (hk : Known W own (env dim2 W order own) haloes (dim2.ofVec q.2) r) : Real.sqrt rho < h := by
  by_contra hle
  rw [not_lt] at hle
  have hE := env_ok dim2 W hord own
  have hd : distance (dim2.toVec c) q.2 = Real.sqrt rho := by
    rw [distance_comm', ← toVec_ofVec q.2, distance2, hrho]
  obtain ⟨s', q', k, hq', h1, h2⟩ := caged hh hcell (o := dim2.toVec c) (by rw [hd]; exact hle)
  obtain ⟨w, rfl⟩ := near_shift V hc hq hq' (h1.trans_le hL)
  have hin : ∃ i, i < s.state.mesh.numPoints ∧
      positionOf (s.points.map Prod.fst) i = dim2.ofVec (image W.box (fun i => shift (w i)) q'.2) := by
    by_cases hw : s' ≠ own ∨ isPeriodic w
    · have hm := hk s' q' w hq' hw (by rw [toVec_ofVec]; exact h1.trans_le hr) c
      rw [hal, List.mem_reverse] at hm
      obtain ⟨x, hx, ex⟩ := List.mem_map.1 hm
      obtain ⟨b1, q'', hn, e1, e2⟩ := H.close x hx
      obtain ⟨a1, a2, a3⟩ := ptype_inj hE (wanted_iff.2 b1) (wanted_iff.2 hw) ex
      refine H.point (Or.inr ⟨x, hx, ?_⟩)
      dsimp only at a2 a3
      have : q'' = q' := eq_of_id (V.ids x.1) hn.1 (by rw [a1]; exact hq') (by rw [← e1, a2])
      rw [e2, this, a3]
    · push Not at hw
      obtain ⟨rfl, hw⟩ := hw
      have : (fun i => shift (w i)) = 0 := by
        by_contra hn
        exact hw (periodic_iff.2 hn)
      rw [this, image_zero]
      exact H.point (Or.inl (D.all q' hq'))
  obtain ⟨i, hi, e⟩ := hin
  have h3 := hmin i hi
  rw [e] at h3
  rw [hd, distance_comm', ← toVec_ofVec (image W.box (fun i => shift (w i)) q'.2), distance2] at h2
  exact absurd (Real.sqrt_le_sqrt h3) (not_le.2 h2)

/-- The invariant of the iteration. -/
def Quiet (W : World 2 Id) (own : ℕ) (R : ℝ) (E : Env Id (Fin 2 → WrapType) (P2 ℝ) ℝ) (T : Tri (TriState 2 (P2 ℝ)) (P2 ℝ) ℝ)
    (s0 : TriState 2 (P2 ℝ)) (st : St (TriState 2 (P2 ℝ)) Id (Fin 2 → WrapType) ℝ) : Prop :=
  ∃ l, Loaded W own R E s0 st.tri l ∧ st.haloes = (l.map fun x => ptype E x.1 x.2).reverse ∧
    ∀ u ∈ st.undecided, ∀ r, u.searchRadius = some r → u.tetra ∈ T.tetras st.tri →
      ∃ p, T.inner st.tri u.tetra = some p ∧ Known W own E st.haloes p r

/-- The bounds which the radii obey. -/
structure Bounds (W : World 2 Id) (own : ℕ) (len h M : ℝ) : Prop where
  pos : 0 < h
  first : len ≤ M
  grow : 32 / 10 * h ≤ M
  half : 2 * M ≤ W.hi 0 - W.lo 0
  cell : ∀ p ∈ W.ofRank own, CellWithin W p h

theorem search_bound {pop : Heaps} (hp : HeapsOk pop)
    (V : W.Valid) (hc : ∀ i, W.hi i - W.lo i = W.hi 0 - W.lo 0) (hord : order.Nodup) (D : LocalData W own s0)
    {len h M : ℝ} (B : Bounds W own len h M) {st : St (TriState 2 (P2 ℝ)) Id (Fin 2 → WrapType) ℝ}
    (hq : Quiet W own (2 * M) (env dim2 W order own) (tri W.enlarged2 hp) s0 st)
    {next : TriState 2 (P2 ℝ) → ℕ} (I : Inv (env dim2 W order own) (tri W.enlarged2 hp) next len st)
    {u : Undecided ℝ} (hu : u ∈ st.undecided) (hl : u.tetra ∈ (tri W.enlarged2 hp).tetras st.tri)
    {d : SearchData (P2 ℝ) ℝ} {o : Option (Undecided ℝ)}
    (hs : searchOne (tri W.enlarged2 hp) st.tri len u = .ok (d, o)) :
    d.radius ≤ M ∧ (∃ q ∈ W.ofRank own, distance q.2 (dim2.toVec d.point) ≤ M) ∧
      ∀ u', o = some u' → ∃ p, (tri W.enlarged2 hp).inner st.tri u.tetra = some p ∧
        d.point = p ∧ u'.searchRadius = some d.radius := by
  obtain ⟨l, H, hal, hrad⟩ := hq
  obtain ⟨p, hin⟩ := Option.isSome_iff_exists.1 (I.inner u hu hl)
  obtain ⟨q, hqm, hpq, c, rho, hrho, ec, er, hd, hmin⟩ := H.sphere hp V hc D hl hin
  obtain ⟨r, hr, hcase⟩ := searchOne_cases (tri W.enlarged2 hp) st.tri len u hin
  rw [er] at hr hcase
  have hsq : 0 < Real.sqrt rho := Real.sqrt_pos.2 hrho
  have hhalf := B.half
  have hgrow := B.grow
  have hpos := B.pos
  have hrM : r ≤ M := by
    cases hsr : u.searchRadius with
    | none =>
      rw [hr, hsr]
      exact (min_le_right _ _).trans B.first
    | some r0 =>
      rw [hr, hsr]
      by_cases h2 : r0 ≤ 2 * h
      · refine (min_le_left _ _).trans (le_trans ?_ hgrow)
        unfold increaseFactor
        linarith
      · obtain ⟨p', hp', hk⟩ := hrad u hu r0 hsr hl
        rw [hin] at hp'
        obtain rfl := Option.some.inj hp'
        rw [hpq] at hk hd
        have := H.small hpos V hc (by linarith) hord D hqm (B.cell q hqm) hd hmin hal (lt_of_not_ge h2).le hk
        refine (min_le_right _ _).trans ?_
        unfold safetyFactor
        linarith
  rcases hcase with ⟨e1, e2⟩ | ⟨e1, e2⟩
  · rw [hs] at e2
    cases e2
    refine ⟨hrM, ⟨q, hqm, ?_⟩, fun u' h => by cases h⟩
    rw [ec, ← toVec_ofVec q.2, distance2, ← hpq, hd]
    unfold safetyFactor at e1
    linarith
  · rw [hs] at e2
    cases e2
    refine ⟨hrM, ⟨q, hqm, ?_⟩, fun u' h => ⟨p, hin, rfl, ?_⟩⟩
    · rw [hpq, toVec_ofVec, distance_self']
      linarith
    · cases h
      rfl

theorem quiet_step {pop : Heaps} (hp : HeapsOk pop)
    (V : W.Valid) (hc : ∀ i, W.hi i - W.lo i = W.hi 0 - W.lo 0) (ho : order.Perm (List.range W.particles.length))
    (D : LocalData W own s0) {len h M : ℝ} (B : Bounds W own len h M) (hG : General W own (2 * M))
    {st : St (TriState 2 (P2 ℝ)) Id (Fin 2 → WrapType) ℝ}
    (hq : Quiet W own (2 * M) (env dim2 W order own) (tri W.enlarged2 hp) s0 st)
    (I : Inv (env dim2 W order own) (tri W.enlarged2 hp) (fun s => s.state.mesh.tetras.next) len st) :
    ∃ st', iterate (env dim2 W order own) (tri W.enlarged2 hp) len st = .ok st' ∧
      Quiet W own (2 * M) (env dim2 W order own) (tri W.enlarged2 hp) s0 st' := by
  have hord : order.Nodup := ho.nodup_iff.2 List.nodup_range
  have hE := env_ok dim2 W hord own
  have hT := triangulation_ok (parts W.enlarged2 hp) circleRadius circleCentre
  have hR : 0 < 2 * M := by
    have := B.pos
    have := B.grow
    linarith
  have hfail : ∀ u ∈ st.undecided, u.tetra ∈ (tri W.enlarged2 hp).tetras st.tri → ∀ x,
      searchOne (tri W.enlarged2 hp) st.tri len u = .ok x → (env dim2 W order own).fails x.1 = false := by
    intro u hu hl x hx
    obtain ⟨h1, -⟩ := search_bound hp V hc hord D B hq I hu hl hx
    refine search_ok (ready2 V) fun i => ?_
    have := B.half
    rw [hc i]
    linarith
  have hclose : ∀ data : List (SearchData (P2 ℝ) ℝ), (∀ d ∈ data, ∃ u ∈ st.undecided,
      u.tetra ∈ (tri W.enlarged2 hp).tetras st.tri ∧
        ∃ o, searchOne (tri W.enlarged2 hp) st.tri len u = .ok (d, o)) →
      ∀ x ∈ allResults (env dim2 W order own) data st.caches, Close W own (2 * M) x := by
    intro data hdata x hx
    obtain ⟨h1, h2⟩ := mem_allResults.1 hx
    obtain ⟨h3, -, d, hd, h4⟩ := mem_searchRank h2
    obtain ⟨u, hu, hl, o, hs⟩ := hdata d hd
    obtain ⟨b1, ⟨q0, hq0, b2⟩, -⟩ := search_bound hp V hc hord D B hq I hu hl hs
    have hlt : x.1 < W.particles.length := by
      have : x.1 ∈ order := h1
      rw [ho.mem_iff, List.mem_range] at this
      exact this
    obtain ⟨q, hqm, e1, e2, e3⟩ := (mem_find (ready2 V) hlt (hfail u hu hl _ hs) _).1 h4
    rw [image_eq] at e2 e3
    refine ⟨wanted_iff.1 h3, q, ⟨hqm, q0, hq0, ?_⟩, e1, e2⟩
    have := distance_triangle q0.2 (dim2.toVec d.point) (image W.box (fun i => shift (x.2.wrap i)) q.2)
    linarith
  obtain ⟨l, H, hal, hrad⟩ := id hq
  have hins : ∀ data : List (SearchData (P2 ℝ) ℝ), (∀ d ∈ data, ∃ u ∈ st.undecided,
      u.tetra ∈ (tri W.enlarged2 hp).tetras st.tri ∧
        ∃ o, searchOne (tri W.enlarged2 hp) st.tri len u = .ok (d, o)) →
      ∃ s', Halo.insertSeq (tri W.enlarged2 hp) st.tri
        ((allResults (env dim2 W order own) data st.caches).map fun x => x.2.pos) = some s' ∧
        Loaded W own (2 * M) (env dim2 W order own) s0 s' (l ++ allResults (env dim2 W order own) data st.caches) := by
    intro data hdata
    refine H.insertSeq hp V hc hG hord D hR _ (hclose data hdata) ?_
    have := (I.halo.step hE data rfl).nodup
    rw [hal, ← List.reverse_append, ← List.map_append, List.nodup_reverse] at this
    exact this
  obtain ⟨st', data, h1, h2, h3, h4, h5, h6⟩ := iterate_ok hE hT I hfail (fun data hdata => by
    obtain ⟨s', h, -⟩ := hins data hdata
    show (Halo.insertSeq (tri W.enlarged2 hp) st.tri _).isSome = true
    rw [h]
    rfl)
  refine ⟨st', h1, l ++ allResults (env dim2 W order own) data st.caches, ?_, ?_, ?_⟩
  · obtain ⟨s', e1, e2⟩ := hins data h2
    have h3' : Halo.insertSeq (tri W.enlarged2 hp) st.tri
        ((allResults (env dim2 W order own) data st.caches).map fun x => x.2.pos) = some st'.tri := h3
    rw [e1] at h3'
    cases h3'
    exact e2
  · rw [h4, hal, ← List.reverse_append, ← List.map_append]
  · intro u hu r hr hl
    rcases h6 u hu with h7 | h7
    · rw [hr] at h7
      cases h7
    · obtain ⟨g1, g2, g3⟩ := h7 hl
      rcases g3 with g3 | ⟨u0, hu0, e0, d, hd, hs⟩
      · obtain ⟨p, hp1, hk⟩ := hrad u g3 r hr g1
        refine ⟨p, g2.trans hp1, fun s q w hq hw hdist pos => ?_⟩
        rw [h4]
        exact List.mem_append.2 (Or.inr (hk s q w hq hw hdist pos))
      · have hl0 : u0.tetra ∈ (tri W.enlarged2 hp).tetras st.tri := by
          rw [e0]
          exact g1
        obtain ⟨-, -, b3⟩ := search_bound hp V hc hord D B hq I hu0 hl0 hs
        obtain ⟨p, b4, b5, b6⟩ := b3 u rfl
        rw [hr] at b6
        obtain rfl := Option.some.inj b6
        rw [e0] at b4
        refine ⟨p, g2.trans b4, fun s q w hq hw hdist pos => ?_⟩
        have hst := I.halo.step hE data h4
        have hs' : s ∈ order := by
          rw [ho.mem_iff, List.mem_range]
          exact ofRank_lt hq
        have hf := (mem_find (ready2 V) (ofRank_lt hq) (hfail u0 hu0 hl0 _ hs)
          ⟨q.1, w, dim2.ofVec (W.image w q.2)⟩).2 ⟨q, hq, rfl, rfl, by
            dsimp only
            rw [b5, image_eq]
            exact hdist⟩
        have := hst.complete s hs' ⟨q.1, w, dim2.ofVec (W.image w q.2)⟩ (wanted_iff.2 hw)
          ((searchRank_cache _ _ _ _ _).2 (Or.inr ⟨d, hd, _, hf, rfl⟩))
        exact this

theorem candidate_of_site {R : ℝ} (hR : 0 < R) {z : P2 ℝ}
    (h : Site W.enlarged2.1 W.enlarged2.2 ((W.ofRank own).map fun p => (p.1, dim2.ofVec p.2)) z) : Candidate W own R z := by
  rcases h with h | h | h | ⟨e, he, h⟩
  · exact Or.inl h
  · exact Or.inr (Or.inl h)
  · exact Or.inr (Or.inr (Or.inl h))
  · obtain ⟨p, hp, rfl⟩ := List.mem_map.1 he
    refine Or.inr (Or.inr (Or.inr ⟨own, p, 0, ⟨hp, p, hp, ?_⟩, ?_⟩))
    · rw [image_zero, distance_self']
      exact hR
    · rw [image_zero]
      exact h.symm

/-- The triangulation of the local points. -/
theorem local_data {key : P2 ℝ → ℕ} {pop : Heaps} (hp : HeapsOk pop)
    {fuel : ℕ} (V : W.Valid) (hc : ∀ i, W.hi i - W.lo i = W.hi 0 - W.lo 0) {r : Construction ℝ Id}
    (hr : construct2 key pop fuel W.enlarged2.1 W.enlarged2.2 ((W.ofRank own).map fun p => (p.1, dim2.ofVec p.2)) = .done r)
    (hok : StateOk 2 r.state) : LocalData W own (localState r hok) := by
  obtain ⟨hlx, hly⟩ := enlarged_lt V
  have hcy := enlarged_square hc
  obtain ⟨P, hn⟩ := Voronoi.plane_of_construct2 hp hlx hcy hr
  obtain ⟨-, -, -, -, -, hsite', hidx, -⟩ := construct2_run hlx hly hr
  obtain ⟨hrange, z0, z1, z2⟩ := construct2_indices hr
  rw [List.length_map] at hn hrange hsite'
  have hlen : (localState r hok).points.length = 3 + (W.ofRank own).length := by
    rw [(localState r hok).num]
    exact hn
  have hloc : ∀ i, i < r.state.mesh.numPoints → positionOf ((localState r hok).points.map Prod.fst) i = r.position i := by
    intro i hi
    unfold positionOf localState
    dsimp only
    rw [List.map_map, List.getElem?_map, List.getElem?_range hi]
    rfl
  have hpos : ∀ i, 3 ≤ i → i < 3 + (W.ofRank own).length → ∃ p ∈ W.ofRank own, r.position i = dim2.ofVec p.2 := by
    intro i h4 hi
    have : i ∈ r.indices.map Prod.snd := by
      rw [hrange]
      exact List.mem_map.2 ⟨i - 3, List.mem_range.2 (by omega), by omega⟩
    obtain ⟨e, he, rfl⟩ := List.mem_map.1 this
    have h2 := hidx.mem_iff.1 (List.mem_map.2 ⟨e, he, rfl⟩)
    obtain ⟨p, hpm, ep⟩ := List.mem_map.1 h2
    exact ⟨p, hpm, (Prod.mk.inj ep).2.symm⟩
  obtain ⟨c1, c2, k, hk, e⟩ := remap_square hlx hcy
  refine ⟨?_, hlen, ?_, ?_, ?_, ?_⟩
  · have P1 : PlaneOk (positionOf ((localState r hok).points.map Prod.fst)) r.state := P.congr hloc
    refine P1.scale (c1 := -c1 / k) (c2 := -c2 / k) (k := 1 / k) (by positivity) fun i => ?_
    unfold remapped
    rw [e]
    refine P2.ext ?_ ?_ <;> · dsimp only; field_simp; ring
  · rw [hloc 0 (by omega), hloc 1 (by omega), hloc 2 (by omega)]
    exact ⟨z0, z1, z2⟩
  · intro v hv hv2
    unfold localState at hv
    dsimp only at hv
    obtain ⟨i, hi, rfl⟩ := List.mem_map.1 hv
    rw [List.mem_range, hn] at hi
    exact hpos i (by simpa using hv2) hi
  · intro i h4 hi
    rw [hlen] at hi
    rw [hloc i (by omega)]
    exact hpos i h4 hi
  · intro p hpm
    obtain ⟨i, hi, e⟩ := hsite' (dim2.ofVec p.2)
      (Or.inr (Or.inr (Or.inr ⟨_, List.mem_map.2 ⟨p, hpm, rfl⟩, rfl⟩)))
    exact ⟨i, by rw [hlen]; exact hi, by rw [hloc i (by omega)]; exact e⟩

end Verif.Parallel.Plane
