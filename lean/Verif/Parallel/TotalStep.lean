import Verif.Parallel.TotalLemmas

/-! # The construction of the grid of a rank ends: the iteration -/

namespace Verif.Parallel

open Verif.Geometry Verif.Halo Verif.Delaunay
open Verif.Predicates (P3 orient3 distSq3)

variable {Id : Type} [DecidableEq Id] {W : World 3 Id} {own : ℕ} {R : ℝ} {order : List ℕ} {s0 s : TriState 3 (P3 ℝ)}
  {l : List (ℕ × Image Id (Fin 3 → WrapType) (P3 ℝ))}

/-- All images close to `p` have been imported. -/
def Known (W : World 3 Id) (own : ℕ) (E : Env Id (Fin 3 → WrapType) (P3 ℝ) ℝ) (haloes : List (PType Id (Fin 3 → WrapType)))
    (p : P3 ℝ) (r : ℝ) : Prop :=
  ∀ s q w, q ∈ W.ofRank s → (s ≠ own ∨ isPeriodic w) → distance (dim3.toVec p) (image W.box (fun i => shift (w i)) q.2) < r →
    ∀ pos, ptype E s ⟨q.1, w, pos⟩ ∈ haloes

/-- The points of the triangulation. -/
theorem Loaded.point (H : Loaded W own R (env dim3 W order own) s0 s l) {z : P3 ℝ}
    (hz : (∃ i, i < s0.points.length ∧ positionOf3 (s0.points.map Prod.fst) i = z) ∨ ∃ x ∈ l, x.2.pos = z) :
    ∃ i, i < s.state.mesh.numPoints ∧ positionOf3 (s.points.map Prod.fst) i = z := by
  rw [← s.num, H.points]
  rcases hz with ⟨i, hi, rfl⟩ | ⟨x, hx, rfl⟩
  · refine ⟨i, by rw [List.length_append]; omega, ?_⟩
    rw [List.map_append, positionOf_append (by rw [List.length_map]; exact hi)]
  · obtain ⟨j, hj, rfl⟩ := List.getElem_of_mem hx
    refine ⟨s0.points.length + j, by rw [List.length_append, List.length_map]; omega, ?_⟩
    unfold positionOf3
    rw [List.map_append, List.getElem?_append_right (by rw [List.length_map]; omega), List.length_map,
      Nat.add_sub_cancel_left]
    simp [hj]

/-- The sphere of an existing tetra with a vertex of this rank. -/
theorem Loaded.sphere {eps eps' : ℝ} (heps' : 0 < eps') {pop : Heaps} (hp : HeapsOk pop)
    (V : W.Valid) (hc : ∀ i, W.hi i - W.lo i = W.hi 0 - W.lo 0)
    (D : LocalData W own s0) (H : Loaded W own R (env dim3 W order own) s0 s l) {t : ℕ} {p : P3 ℝ}
    (ht : t ∈ (tri3 eps eps' W.enlarged hp).tetras s) (hin : (tri3 eps eps' W.enlarged hp).inner s t = some p) :
    ∃ q ∈ W.ofRank own, p = dim3.ofVec q.2 ∧ ∃ c rho, 0 < rho ∧ (tri3 eps eps' W.enlarged hp).centre s t = c ∧
      (tri3 eps eps' W.enlarged hp).radius s t = Real.sqrt rho ∧ distSq3 p c = rho ∧
      ∀ i, i < s.state.mesh.numPoints → rho ≤ distSq3 (positionOf3 (s.points.map Prod.fst) i) c := by
  obtain ⟨hlx, hly, hlz⟩ := enlarged_lt V
  obtain ⟨hcy, hcz⟩ := enlarged_cube hc
  obtain ⟨c1, c2, c3, k, hk, e⟩ := remap_cube hlx hcy hcz
  have P : SpaceOk (positionOf3 (s.points.map Prod.fst)) s.state :=
    H.space.scale hk fun i => by unfold remapped3; rw [e]
  obtain ⟨T, hT⟩ := (live_iff s t).1 ht
  obtain ⟨a, b, c, d, hpts⟩ := P.ok.cons.points_four hT
  have hat : At3 s.state.mesh t ![a, b, c, d] := at3_of_perm P.ok.cons hT (by rw [hpts])
  obtain ⟨o, rho, hpos, hall, ec, er⟩ := sphere_spec heps' P hat
  obtain ⟨v, hv, rfl⟩ := Option.map_eq_some_iff.1 hin
  have hv2 : v.2 = true := List.find?_some hv
  have hvm := List.mem_of_find?_eq_some hv
  unfold TriState.vertices at hvm
  rw [hT] at hvm
  obtain ⟨i, hi, hiv⟩ := List.mem_filterMap.1 hvm
  have hv0 : v ∈ s0.points := by
    have := List.mem_of_getElem? hiv
    rw [H.points] at this
    rcases List.mem_append.1 this with h | h
    · exact h
    · obtain ⟨x, -, rfl⟩ := List.mem_map.1 h
      cases hv2
  obtain ⟨q, hq, eq⟩ := D.kind v hv0 hv2
  have hposv : positionOf3 (s.points.map Prod.fst) i = v.1 := by
    unfold positionOf3
    rw [List.getElem?_map, hiv]
    rfl
  refine ⟨q, hq, eq, o, rho, hpos, ec, er, ?_, ?_⟩
  · rw [hpts] at hi
    simp only [List.mem_cons, List.not_mem_nil, or_false] at hi
    rw [← hposv]
    rcases hi with rfl | rfl | rfl | rfl
    · exact hall 0
    · exact hall 1
    · exact hall 2
    · exact hall 3
  · intro j hj
    by_cases hjk : ∃ k, j = ![a, b, c, d] k
    · obtain ⟨k, rfl⟩ := hjk
      exact (hall k).ge
    · push Not at hjk
      have := P.empty t _ hat j hj hjk
      rw [pw3_sphere (P.space.solid.nondeg hat) (o := o) (rho := rho) hall] at this
      linarith

/-- If the surroundings of a vertex are known the sphere of a tetra is not larger than the cell. -/
theorem Loaded.small {h : ℝ} (hh : 0 < h) (V : W.Valid) (hc : ∀ i, W.hi i - W.lo i = W.hi 0 - W.lo 0)
    (hL : 2 * h ≤ W.hi 0 - W.lo 0) (hord : order.Nodup)
    (D : LocalData W own s0) (H : Loaded W own R (env dim3 W order own) s0 s l) {q : Id × Vec 3 ℝ} (hq : q ∈ W.ofRank own)
    (hcell : W.CellWithin q h) {c : P3 ℝ} {rho : ℝ} (hrho : distSq3 (dim3.ofVec q.2) c = rho)
    (hmin : ∀ i, i < s.state.mesh.numPoints → rho ≤ distSq3 (positionOf3 (s.points.map Prod.fst) i) c)
    {haloes : List (PType Id (Fin 3 → WrapType))}
    (hal : haloes = (l.map fun x => ptype (env dim3 W order own) x.1 x.2).reverse) {r : ℝ} (hr : 2 * h ≤ r)
    (hk : Known W own (env dim3 W order own) haloes (dim3.ofVec q.2) r) : Real.sqrt rho < h := by
  by_contra hle
  rw [not_lt] at hle
  have hE := env_ok dim3 W hord own
  have hd : distance (dim3.toVec c) q.2 = Real.sqrt rho := by
    rw [distance_comm', ← toVec_ofVec q.2, distance3, hrho]
  obtain ⟨s', q', k, hq', h1, h2⟩ := caged hh hcell (o := dim3.toVec c) (by rw [hd]; exact hle)
  obtain ⟨w, rfl⟩ := near_shift V hc hq hq' (h1.trans_le hL)
  have hin : ∃ i, i < s.state.mesh.numPoints ∧
      positionOf3 (s.points.map Prod.fst) i = dim3.ofVec (image W.box (fun i => shift (w i)) q'.2) := by
    by_cases hw : s' ≠ own ∨ isPeriodic w
    · have hm := hk s' q' w hq' hw (by rw [toVec_ofVec]; exact h1.trans_le hr) c
      rw [hal, List.mem_reverse] at hm
      obtain ⟨x, hx, ex⟩ := List.mem_map.1 hm
      obtain ⟨b1, q'', hn, e1, e2⟩ := H.close x hx
      obtain ⟨a1, a2, a3⟩ := ptype_inj hE (wanted_iff.2 b1) (wanted_iff.2 hw) ex
      refine H.point (Or.inr ⟨x, hx, ?_⟩)
      dsimp only at a2 a3
      have : q'' = q' := eq_of_id (V.ids x.1) hn.1 (by rw [a1]; exact hq') (by rw [← e1, a2])
      rw [e2, this, a3]
    · push Not at hw
      obtain ⟨rfl, hw⟩ := hw
      have : (fun i => shift (w i)) = 0 := by
        by_contra hn
        exact hw (periodic_iff.2 hn)
      rw [this, image_zero]
      exact H.point (Or.inl (D.all q' hq'))
  obtain ⟨i, hi, e⟩ := hin
  have h3 := hmin i hi
  rw [e] at h3
  rw [hd, distance_comm', ← toVec_ofVec (image W.box (fun i => shift (w i)) q'.2), distance3] at h2
  exact absurd (Real.sqrt_le_sqrt h3) (not_le.2 h2)

/-- The invariant of the iteration. -/
def Quiet (W : World 3 Id) (own : ℕ) (R : ℝ) (E : Env Id (Fin 3 → WrapType) (P3 ℝ) ℝ) (T : Tri (TriState 3 (P3 ℝ)) (P3 ℝ) ℝ)
    (s0 : TriState 3 (P3 ℝ)) (st : St (TriState 3 (P3 ℝ)) Id (Fin 3 → WrapType) ℝ) : Prop :=
  ∃ l, Loaded W own R E s0 st.tri l ∧ st.haloes = (l.map fun x => ptype E x.1 x.2).reverse ∧
    ∀ u ∈ st.undecided, ∀ r, u.searchRadius = some r → u.tetra ∈ T.tetras st.tri →
      ∃ p, T.inner st.tri u.tetra = some p ∧ Known W own E st.haloes p r

/-- The bounds which the radii obey. -/
structure Bounds (W : World 3 Id) (own : ℕ) (len h M : ℝ) : Prop where
  pos : 0 < h
  first : len ≤ M
  grow : 32 / 10 * h ≤ M
  half : 2 * M ≤ W.hi 0 - W.lo 0
  cell : ∀ p ∈ W.ofRank own, W.CellWithin p h

theorem search_bound {eps eps' : ℝ} (heps' : 0 < eps') {pop : Heaps} (hp : HeapsOk pop)
    (V : W.Valid) (hc : ∀ i, W.hi i - W.lo i = W.hi 0 - W.lo 0) (hord : order.Nodup) (D : LocalData W own s0)
    {len h M : ℝ} (B : Bounds W own len h M) {st : St (TriState 3 (P3 ℝ)) Id (Fin 3 → WrapType) ℝ}
    (hq : Quiet W own (2 * M) (env dim3 W order own) (tri3 eps eps' W.enlarged hp) s0 st)
    {next : TriState 3 (P3 ℝ) → ℕ} (I : Inv (env dim3 W order own) (tri3 eps eps' W.enlarged hp) next len st)
    {u : Undecided ℝ} (hu : u ∈ st.undecided) (hl : u.tetra ∈ (tri3 eps eps' W.enlarged hp).tetras st.tri)
    {d : SearchData (P3 ℝ) ℝ} {o : Option (Undecided ℝ)}
    (hs : searchOne (tri3 eps eps' W.enlarged hp) st.tri len u = .ok (d, o)) :
    d.radius ≤ M ∧ (∃ q ∈ W.ofRank own, distance q.2 (dim3.toVec d.point) ≤ M) ∧
      ∀ u', o = some u' → ∃ p, (tri3 eps eps' W.enlarged hp).inner st.tri u.tetra = some p ∧
        d.point = p ∧ u'.searchRadius = some d.radius := by
  obtain ⟨l, H, hal, hrad⟩ := hq
  obtain ⟨p, hin⟩ := Option.isSome_iff_exists.1 (I.inner u hu hl)
  obtain ⟨q, hqm, hpq, c, rho, hrho, ec, er, hd, hmin⟩ := H.sphere heps' hp V hc D hl hin
  obtain ⟨r, hr, hcase⟩ := searchOne_cases (tri3 eps eps' W.enlarged hp) st.tri len u hin
  rw [er] at hr hcase
  have hsq : 0 < Real.sqrt rho := Real.sqrt_pos.2 hrho
  have hhalf := B.half
  have hgrow := B.grow
  have hpos := B.pos
  have hrM : r ≤ M := by
    cases hsr : u.searchRadius with
    | none =>
      rw [hr, hsr]
      exact (min_le_right _ _).trans B.first
    | some r0 =>
      rw [hr, hsr]
      by_cases h2 : r0 ≤ 2 * h
      · refine (min_le_left _ _).trans (le_trans ?_ hgrow)
        unfold increaseFactor
        linarith
      · obtain ⟨p', hp', hk⟩ := hrad u hu r0 hsr hl
        rw [hin] at hp'
        obtain rfl := Option.some.inj hp'
        rw [hpq] at hk hd
        have := H.small hpos V hc (by linarith) hord D hqm (B.cell q hqm) hd hmin hal (lt_of_not_ge h2).le hk
        refine (min_le_right _ _).trans ?_
        unfold safetyFactor
        linarith
  rcases hcase with ⟨e1, e2⟩ | ⟨e1, e2⟩
  · rw [hs] at e2
    cases e2
    refine ⟨hrM, ⟨q, hqm, ?_⟩, fun u' h => by cases h⟩
    rw [ec, ← toVec_ofVec q.2, distance3, ← hpq, hd]
    unfold safetyFactor at e1
    linarith
  · rw [hs] at e2
    cases e2
    refine ⟨hrM, ⟨q, hqm, ?_⟩, fun u' h => ⟨p, hin, rfl, ?_⟩⟩
    · rw [hpq, toVec_ofVec, distance_self']
      linarith
    · cases h
      rfl

theorem quiet_step {eps eps' : ℝ} (heps : 0 < eps) (heps' : 0 < eps') {pop : Heaps} (hp : HeapsOk pop)
    (V : W.Valid) (hc : ∀ i, W.hi i - W.lo i = W.hi 0 - W.lo 0) (ho : order.Perm (List.range W.particles.length))
    (D : LocalData W own s0) {len h M : ℝ} (B : Bounds W own len h M) (hG : W.General own (2 * M))
    {st : St (TriState 3 (P3 ℝ)) Id (Fin 3 → WrapType) ℝ}
    (hq : Quiet W own (2 * M) (env dim3 W order own) (tri3 eps eps' W.enlarged hp) s0 st)
    (I : Inv (env dim3 W order own) (tri3 eps eps' W.enlarged hp) (fun s => s.state.mesh.tetras.next) len st) :
    ∃ st', iterate (env dim3 W order own) (tri3 eps eps' W.enlarged hp) len st = .ok st' ∧
      Quiet W own (2 * M) (env dim3 W order own) (tri3 eps eps' W.enlarged hp) s0 st' := by
  have hord : order.Nodup := ho.nodup_iff.2 List.nodup_range
  have hE := env_ok dim3 W hord own
  have hT := triangulation_ok (parts3 eps W.enlarged hp) (sphereRadius eps') (sphereCentre eps')
  have hR : 0 < 2 * M := by
    have := B.pos
    have := B.grow
    linarith
  have hfail : ∀ u ∈ st.undecided, u.tetra ∈ (tri3 eps eps' W.enlarged hp).tetras st.tri → ∀ x,
      searchOne (tri3 eps eps' W.enlarged hp) st.tri len u = .ok x → (env dim3 W order own).fails x.1 = false := by
    intro u hu hl x hx
    obtain ⟨h1, -⟩ := search_bound heps' hp V hc hord D B hq I hu hl hx
    refine search_ok (ready3 V) fun i => ?_
    have := B.half
    rw [hc i]
    linarith
  have hclose : ∀ data : List (SearchData (P3 ℝ) ℝ), (∀ d ∈ data, ∃ u ∈ st.undecided,
      u.tetra ∈ (tri3 eps eps' W.enlarged hp).tetras st.tri ∧
        ∃ o, searchOne (tri3 eps eps' W.enlarged hp) st.tri len u = .ok (d, o)) →
      ∀ x ∈ allResults (env dim3 W order own) data st.caches, Close W own (2 * M) x := by
    intro data hdata x hx
    obtain ⟨h1, h2⟩ := mem_allResults.1 hx
    obtain ⟨h3, -, d, hd, h4⟩ := mem_searchRank h2
    obtain ⟨u, hu, hl, o, hs⟩ := hdata d hd
    obtain ⟨b1, ⟨q0, hq0, b2⟩, -⟩ := search_bound heps' hp V hc hord D B hq I hu hl hs
    have hlt : x.1 < W.particles.length := by
      have : x.1 ∈ order := h1
      rw [ho.mem_iff, List.mem_range] at this
      exact this
    obtain ⟨q, hqm, e1, e2, e3⟩ := (mem_find (ready3 V) hlt (hfail u hu hl _ hs) _).1 h4
    rw [image_eq] at e2 e3
    refine ⟨wanted_iff.1 h3, q, ⟨hqm, q0, hq0, ?_⟩, e1, e2⟩
    have := distance_triangle q0.2 (dim3.toVec d.point) (image W.box (fun i => shift (x.2.wrap i)) q.2)
    linarith
  obtain ⟨l, H, hal, hrad⟩ := id hq
  have hins : ∀ data : List (SearchData (P3 ℝ) ℝ), (∀ d ∈ data, ∃ u ∈ st.undecided,
      u.tetra ∈ (tri3 eps eps' W.enlarged hp).tetras st.tri ∧
        ∃ o, searchOne (tri3 eps eps' W.enlarged hp) st.tri len u = .ok (d, o)) →
      ∃ s', Halo.insertSeq (tri3 eps eps' W.enlarged hp) st.tri
        ((allResults (env dim3 W order own) data st.caches).map fun x => x.2.pos) = some s' ∧
        Loaded W own (2 * M) (env dim3 W order own) s0 s' (l ++ allResults (env dim3 W order own) data st.caches) := by
    intro data hdata
    refine H.insertSeq heps hp V hc hG hord D hR _ (hclose data hdata) ?_
    have := (I.halo.step hE data rfl).nodup
    rw [hal, ← List.reverse_append, ← List.map_append, List.nodup_reverse] at this
    exact this
  obtain ⟨st', data, h1, h2, h3, h4, h5, h6⟩ := iterate_ok hE hT I hfail (fun data hdata => by
    obtain ⟨s', h, -⟩ := hins data hdata
    show (Halo.insertSeq (tri3 eps eps' W.enlarged hp) st.tri _).isSome = true
    rw [h]
    rfl)
  refine ⟨st', h1, l ++ allResults (env dim3 W order own) data st.caches, ?_, ?_, ?_⟩
  · obtain ⟨s', e1, e2⟩ := hins data h2
    have h3' : Halo.insertSeq (tri3 eps eps' W.enlarged hp) st.tri
        ((allResults (env dim3 W order own) data st.caches).map fun x => x.2.pos) = some st'.tri := h3
    rw [e1] at h3'
    cases h3'
    exact e2
  · rw [h4, hal, ← List.reverse_append, ← List.map_append]
  · intro u hu r hr hl
    rcases h6 u hu with h7 | h7
    · rw [hr] at h7
      cases h7
    · obtain ⟨g1, g2, g3⟩ := h7 hl
      rcases g3 with g3 | ⟨u0, hu0, e0, d, hd, hs⟩
      · obtain ⟨p, hp1, hk⟩ := hrad u g3 r hr g1
        refine ⟨p, g2.trans hp1, fun s q w hq hw hdist pos => ?_⟩
        rw [h4]
        exact List.mem_append.2 (Or.inr (hk s q w hq hw hdist pos))
      · have hl0 : u0.tetra ∈ (tri3 eps eps' W.enlarged hp).tetras st.tri := by
          rw [e0]
          exact g1
        obtain ⟨-, -, b3⟩ := search_bound heps' hp V hc hord D B hq I hu0 hl0 hs
        obtain ⟨p, b4, b5, b6⟩ := b3 u rfl
        rw [hr] at b6
        obtain rfl := Option.some.inj b6
        rw [e0] at b4
        refine ⟨p, g2.trans b4, fun s q w hq hw hdist pos => ?_⟩
        have hst := I.halo.step hE data h4
        have hs' : s ∈ order := by
          rw [ho.mem_iff, List.mem_range]
          exact ofRank_lt hq
        have hf := (mem_find (ready3 V) (ofRank_lt hq) (hfail u0 hu0 hl0 _ hs)
          ⟨q.1, w, dim3.ofVec (W.image w q.2)⟩).2 ⟨q, hq, rfl, rfl, by
            dsimp only
            rw [b5, image_eq]
            exact hdist⟩
        have := hst.complete s hs' ⟨q.1, w, dim3.ofVec (W.image w q.2)⟩ (wanted_iff.2 hw)
          ((searchRank_cache _ _ _ _ _).2 (Or.inr ⟨d, hd, _, hf, rfl⟩))
        exact this

theorem candidate_of_site {R : ℝ} (hR : 0 < R) {z : P3 ℝ}
    (h : Site3 W.enlarged.1 W.enlarged.2 ((W.ofRank own).map fun p => (p.1, dim3.ofVec p.2)) z) : W.Candidate own R z := by
  rcases h with h | h | h | h | ⟨e, he, h⟩
  · exact Or.inl h
  · exact Or.inr (Or.inl h)
  · exact Or.inr (Or.inr (Or.inl h))
  · exact Or.inr (Or.inr (Or.inr (Or.inl h)))
  · obtain ⟨p, hp, rfl⟩ := List.mem_map.1 he
    refine Or.inr (Or.inr (Or.inr (Or.inr ⟨own, p, 0, ⟨hp, p, hp, ?_⟩, ?_⟩)))
    · rw [image_zero, distance_self']
      exact hR
    · rw [image_zero]
      exact h.symm

/-- The triangulation of the local points. -/
theorem local_data {eps : ℝ} (heps : 0 < eps) {key : P3 ℝ → ℕ} {pop : Heaps} (hp : HeapsOk pop)
    {fuel : ℕ} (V : W.Valid) (hc : ∀ i, W.hi i - W.lo i = W.hi 0 - W.lo 0) {r : Construction3 ℝ Id}
    (hr : construct3 eps key pop fuel W.enlarged.1 W.enlarged.2 ((W.ofRank own).map fun p => (p.1, dim3.ofVec p.2)) = .done r)
    (hok : StateOk 3 r.state) : LocalData W own (localState r hok) := by
  obtain ⟨hlx, hly, hlz⟩ := enlarged_lt V
  obtain ⟨hcy, hcz⟩ := enlarged_cube hc
  obtain ⟨P, hn, -, hsite', hidx, -⟩ := Voronoi.space_of_construct3 heps hp hlx hcy hcz hr
  obtain ⟨hrange, z0, z1, z2, z3⟩ := construct3_indices hr
  rw [List.length_map] at hn hrange hsite'
  have hlen : (localState r hok).points.length = 4 + (W.ofRank own).length := by
    rw [(localState r hok).num]
    exact hn
  have hloc : ∀ i, i < r.state.mesh.numPoints → positionOf3 ((localState r hok).points.map Prod.fst) i = r.position i := by
    intro i hi
    unfold positionOf3 localState
    dsimp only
    rw [List.map_map, List.getElem?_map, List.getElem?_range hi]
    rfl
  have hpos : ∀ i, 4 ≤ i → i < 4 + (W.ofRank own).length → ∃ p ∈ W.ofRank own, r.position i = dim3.ofVec p.2 := by
    intro i h4 hi
    have : i ∈ r.indices.map Prod.snd := by
      rw [hrange]
      exact List.mem_map.2 ⟨i - 4, List.mem_range.2 (by omega), by omega⟩
    obtain ⟨e, he, rfl⟩ := List.mem_map.1 this
    have h2 := hidx.mem_iff.1 (List.mem_map.2 ⟨e, he, rfl⟩)
    obtain ⟨p, hpm, ep⟩ := List.mem_map.1 h2
    exact ⟨p, hpm, (Prod.mk.inj ep).2.symm⟩
  obtain ⟨c1, c2, c3, k, hk, e⟩ := remap_cube hlx hcy hcz
  refine ⟨?_, hlen, ?_, ?_, ?_, ?_⟩
  · have P1 : SpaceOk (positionOf3 ((localState r hok).points.map Prod.fst)) r.state := P.congr hloc
    refine P1.scale (c1 := -c1 / k) (c2 := -c2 / k) (c3 := -c3 / k) (k := 1 / k) (by positivity) fun i => ?_
    unfold remapped3
    rw [e]
    refine P3.ext ?_ ?_ ?_ <;> · dsimp only; field_simp; ring
  · rw [hloc 0 (by omega), hloc 1 (by omega), hloc 2 (by omega), hloc 3 (by omega)]
    exact ⟨z0, z1, z2, z3⟩
  · intro v hv hv2
    unfold localState at hv
    dsimp only at hv
    obtain ⟨i, hi, rfl⟩ := List.mem_map.1 hv
    rw [List.mem_range, hn] at hi
    exact hpos i (by simpa using hv2) hi
  · intro i h4 hi
    rw [hlen] at hi
    rw [hloc i (by omega)]
    exact hpos i h4 hi
  · intro p hpm
    obtain ⟨i, hi, e⟩ := hsite' (dim3.ofVec p.2)
      (Or.inr (Or.inr (Or.inr (Or.inr ⟨_, List.mem_map.2 ⟨p, hpm, rfl⟩, rfl⟩))))
    exact ⟨i, by rw [hlen]; exact hi, by rw [hloc i (by omega)]; exact e⟩

end Verif.Parallel
