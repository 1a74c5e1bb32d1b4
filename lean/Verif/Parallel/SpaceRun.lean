import Verif.Parallel.Model3
import Verif.Parallel.RunLemmas
import Verif.Parallel.SpaceCore
import Verif.Parallel.Spec
import Verif.Halo.TriangulationProps

/-! # The triangulation of a rank when all haloes are imported: lemmas -/

namespace Verif.Parallel

open Verif.Geometry Verif.Halo Verif.Delaunay Verif.Quadtree
open Verif.Predicates (P3 orient3 distSq3)

variable {Id : Type}

theorem distance3 (a b : P3 ℝ) : distance (dim3.toVec a) (dim3.toVec b) = Real.sqrt (distSq3 a b) := by
  unfold distance length distSq3 dim3
  rw [Fin.sum_univ_three]
  rfl

theorem ready3 {W : World 3 Id} (V : W.Valid) : Ready dim3 W where
  wraps := allWraps3_complete
  exact r s p := by
    classical
    obtain ⟨out, h1, h2⟩ := radius_search_exact_3d Prod.snd W.cfg (W.ofRank r) W.lo W.hi (fun i => (V.box i).le)
      (fun p hp i => V.inside r p hp i) W.box V.box (dim3.toVec s.point) s.radius
    have e : found dim3 W r s = out := (h1 _).1 (new_yields (by norm_num) _ _)
    rw [e, h2.mem_iff, List.mem_filter]
    simp
  box := V.box
  inverse v := by
    funext i
    match i with
    | 0 => rfl
    | 1 => rfl
    | 2 => rfl
  nonempty := V.nonempty

theorem positionOf_append {l l' : List (P3 ℝ)} {i : ℕ} (h : i < l.length) : positionOf3 (l ++ l') i = positionOf3 l i := by
  unfold positionOf3
  rw [List.getElem?_append_left h]

/-- An insertion of a halo. -/
theorem insert_space {eps : ℝ} (heps : 0 < eps) {b : P3 ℝ × P3 ℝ} {pop : Heaps} (hp : HeapsOk pop)
    {s s' : TriState 3 (P3 ℝ)} {p : P3 ℝ} {ch : List ℕ} (h : TriState.insert (parts3 eps b hp) s p = some (s', ch))
    (P : SpaceOk (remapped3 b (s.points.map Prod.fst)) s.state) :
    SpaceOk (remapped3 b (s'.points.map Prod.fst)) s'.state ∧ s'.points = s.points ++ [(p, false)] := by
  obtain ⟨h1, h2⟩ := insert_cases _ h
  refine ⟨?_, h2⟩
  rw [h2]
  have P' : SpaceOk (remapped3 b ((s.points ++ [(p, false)]).map Prod.fst)) s.state := by
    refine P.congr fun i hi => ?_
    unfold remapped3
    rw [List.map_append, positionOf_append (by rw [List.length_map, s.num]; exact hi)]
  have h3 := insertPoint_space heps P' hp ((4 + 1) * s.state.mesh.tetras.len + 1)
  have h4 : insertPoint (geo3 eps (remapped3 b ((s.points ++ [(p, false)]).map Prod.fst)))
      (ops3 (intersect3 (remapped3 b ((s.points ++ [(p, false)]).map Prod.fst)))) pop
      ((4 + 1) * s.state.mesh.tetras.len + 1) s.state = .done (s'.state, ch) := h1
  rw [h4] at h3
  exact h3.1

/-- Insertions of haloes one after the other. -/
theorem insertSeq_space {eps eps' : ℝ} (heps : 0 < eps) {b : P3 ℝ × P3 ℝ} {pop : Heaps}
    (hp : HeapsOk pop) : ∀ {l : List (P3 ℝ)} {s s' : TriState 3 (P3 ℝ)},
    insertSeq (tri3 eps eps' b hp) s l = some s' → SpaceOk (remapped3 b (s.points.map Prod.fst)) s.state →
    SpaceOk (remapped3 b (s'.points.map Prod.fst)) s'.state ∧ s'.points = s.points ++ l.map fun p => (p, false)
  | [], s, s', h, P => by
    cases h
    exact ⟨P, by simp⟩
  | p :: l, s, s', h, P => by
    unfold insertSeq at h
    cases hi : (tri3 eps eps' b hp).insert s p with
    | none =>
      rw [hi] at h
      cases h
    | some r =>
      rw [hi] at h
      obtain ⟨s1, ch⟩ := r
      obtain ⟨P1, e1⟩ := insert_space heps hp hi P
      obtain ⟨P2, e2⟩ := insertSeq_space heps hp (l := l) h P1
      exact ⟨P2, by rw [e2, e1]; simp⟩

/-- What is known of the triangulation of a rank when all haloes are imported: `idx` are the local points and `l` the
haloes in the order of their indices. -/
structure RankData [DecidableEq Id] (order : List ℕ) (W : World 3 Id) (own : ℕ) (g : Grid3 Id) (idx : List (Id × ℕ))
    (l : List (ℕ × Image Id (Fin 3 → WrapType) (P3 ℝ))) : Prop where
  space : SpaceOk g.position g.tri.state
  num : g.tri.state.mesh.numPoints = 4 + (W.ofRank own).length + l.length
  corner : g.position 0 = (Predicates.Tetra.allEncompassing W.enlarged.1 W.enlarged.2).p1 ∧
    g.position 1 = (Predicates.Tetra.allEncompassing W.enlarged.1 W.enlarged.2).p2 ∧
    g.position 2 = (Predicates.Tetra.allEncompassing W.enlarged.1 W.enlarged.2).p3 ∧
    g.position 3 = (Predicates.Tetra.allEncompassing W.enlarged.1 W.enlarged.2).p4
  names : g.names = idx.map (fun e => (Name.own e.1, e.2)) ++
    (l.map fun x => ptype (env dim3 W order own) x.1 x.2).zipIdx.map fun e => (Name.halo e.1, 4 + (W.ofRank own).length + e.2)
  nodup : (l.map fun x => ptype (env dim3 W order own) x.1 x.2).Nodup
  range : idx.map Prod.snd = (List.range (W.ofRank own).length).map (4 + ·)
  local_ : (idx.map fun e => (e.1, g.position e.2)).Perm ((W.ofRank own).map fun p => (p.1, dim3.ofVec p.2))
  halo : ∀ j (hj : j < l.length), g.position (4 + (W.ofRank own).length + j) = l[j].2.pos
  image : ∀ x ∈ l, x.1 < W.particles.length ∧ (x.1 ≠ own ∨ isPeriodic x.2.wrap) ∧
    ∃ p ∈ W.ofRank x.1, x.2.id = p.1 ∧ x.2.pos = dim3.ofVec (W.image x.2.wrap p.2)
  outside : ∀ i σ k, At3 g.tri.state.mesh i σ → 4 ≤ σ k → σ k < 4 + (W.ofRank own).length →
    ∀ r, r < W.particles.length → ∀ p ∈ W.ofRank r, ∀ w, (r ≠ own ∨ isPeriodic w) →
      (r, ⟨p.1, w, dim3.ofVec (W.image w p.2)⟩) ∈ l ∨ 0 < pw3 (g.position ∘ σ) (dim3.ofVec (W.image w p.2))

theorem vertices_eq {s : TriState 3 (P3 ℝ)} {t : ℕ} {T : Tetra} (hT : s.state.mesh.tetras.get t = some T) :
    (s.vertices t).map Prod.fst = T.points.map (positionOf3 (s.points.map Prod.fst)) ∧
    ∀ i ∈ T.points, ∀ v, s.points[i]? = some v → v ∈ s.vertices t := by
  unfold TriState.vertices
  rw [hT]
  dsimp only
  constructor
  · have h : ∀ p ∈ T.points, p < s.points.length := fun p hp => by
      rw [s.num]
      exact s.ok.cons.points_lt t T hT p hp
    clear hT
    generalize T.points = L at h
    induction L with
    | nil => rfl
    | cons a l ih =>
      have ha := h a (List.mem_cons_self)
      rw [List.filterMap_cons, List.getElem?_eq_getElem ha]
      dsimp only
      rw [List.map_cons, List.map_cons, ih fun p hp => h p (List.mem_cons_of_mem _ hp)]
      congr 1
      unfold positionOf3
      rw [List.getElem?_map, List.getElem?_eq_getElem ha]
      rfl
  · intro i hi v hv
    exact List.mem_filterMap.2 ⟨i, hi, hv⟩

/-- The circumsphere which the search of a tetra uses is the one of its vertices. -/
theorem sphere_spec {eps' : ℝ} (heps' : 0 < eps') {s : TriState 3 (P3 ℝ)}
    (P : SpaceOk (positionOf3 (s.points.map Prod.fst)) s.state) {t : ℕ} {σ : Fin 4 → ℕ} (h : At3 s.state.mesh t σ) :
    ∃ c rho, 0 < rho ∧ (∀ k, distSq3 (positionOf3 (s.points.map Prod.fst) (σ k)) c = rho) ∧
      sphereCentre eps' ((s.vertices t).map Prod.fst) = c ∧ sphereRadius eps' ((s.vertices t).map Prod.fst) = Real.sqrt rho := by
  obtain ⟨T, hT, hinj, hm⟩ := id h
  obtain ⟨a, b, c, d, hp⟩ := P.ok.cons.points_four hT
  rw [(vertices_eq hT).1, hp]
  generalize hx : positionOf3 (s.points.map Prod.fst) = x at *
  have hflat := Voronoi.notFlat_of_space P t T hT a b c d hp
  obtain ⟨o, h0, h1, h2, h3⟩ := Predicates.circumcentre_correct eps' heps' ⟨x a, x b, x c, x d⟩ hflat
  dsimp only at h1 h2 h3
  have hc : sphereCentre eps' ([a, b, c, d].map x) = o := by
    show (Predicates.Tetra.circumcentre eps' ⟨x a, x b, x c, x d⟩).getD (x a) = o
    rw [h0]
    rfl
  have hall : ∀ k, distSq3 (x (σ k)) o = distSq3 (x a) o := by
    intro k
    have := hm k
    rw [hp] at this
    simp only [List.mem_cons, List.not_mem_nil, or_false] at this
    rcases this with e | e | e | e
    · rw [e]
    · rw [e, h1]
    · rw [e, h2]
    · rw [e, h3]
  have hnn : 0 ≤ distSq3 (x a) o := by unfold distSq3; positivity
  refine ⟨o, distSq3 (x a) o, lt_of_le_of_ne hnn fun e => ?_, hall, hc, ?_⟩
  · have hz : ∀ k, x (σ k) = o := by
      intro k
      have h4 := hall k
      rw [← e] at h4
      unfold distSq3 at h4
      have a1 := sq_nonneg ((x (σ k)).x - o.x)
      have a2 := sq_nonneg ((x (σ k)).y - o.y)
      have a3 := sq_nonneg ((x (σ k)).z - o.z)
      have b1 : (x (σ k)).x - o.x = 0 := pow_eq_zero_iff (two_ne_zero) |>.1 (by linarith)
      have b2 : (x (σ k)).y - o.y = 0 := pow_eq_zero_iff (two_ne_zero) |>.1 (by linarith)
      have b3 : (x (σ k)).z - o.z = 0 := pow_eq_zero_iff (two_ne_zero) |>.1 (by linarith)
      exact P3.ext (by linarith) (by linarith) (by linarith)
    have := P.injective (P.lt h 0) (P.lt h 1) ((hz 0).trans (hz 1).symm)
    exact absurd (hinj this) (by decide)
  · unfold sphereRadius
    rw [hc, distance3]
    show Real.sqrt (distSq3 o (x a)) = _
    congr 1
    unfold distSq3
    ring

variable [DecidableEq Id]

theorem rank_data {eps eps' : ℝ} (heps : 0 < eps) (heps' : 0 < eps') {key : P3 ℝ → ℕ} {pop : Heaps}
    {hp : HeapsOk pop} {fuel : ℕ} {len : ℝ} {order : List ℕ} {W : World 3 Id} {own n : ℕ} {g : Grid3 Id}
    (V : W.Valid) (hc : ∀ i, W.hi i - W.lo i = W.hi 0 - W.lo 0) (ho : order.Perm (List.range W.particles.length))
    (h : constructRank eps eps' key hp fuel len order W own n = some g) :
    ∃ idx l, RankData order W own g idx l := by
  have hx : W.enlarged.1.x < W.enlarged.2.x := by
    have := V.box 0
    simp only [World.enlarged, withPeriodicImages, World.corners, dim3]
    linarith
  have hcy : W.enlarged.2.x - W.enlarged.1.x = W.enlarged.2.y - W.enlarged.1.y := by
    have := hc 1
    simp only [World.enlarged, withPeriodicImages, World.corners, dim3]
    linarith
  have hcz : W.enlarged.2.x - W.enlarged.1.x = W.enlarged.2.z - W.enlarged.1.z := by
    have := hc 2
    simp only [World.enlarged, withPeriodicImages, World.corners, dim3]
    linarith
  unfold constructRank at h
  split at h
  · rename_i r hr
    obtain ⟨P, hn, -, -, hidx, -⟩ := Voronoi.space_of_construct3 heps hp hx hcy hcz hr
    obtain ⟨hrange, z0, z1, z2, z3⟩ := construct3_indices hr
    rw [List.length_map] at hn hrange
    generalize construct3_stateOk hp hr = hok at h
    split at h
    · rename_i st hst
      split_ifs at h with hu
      obtain rfl := Option.some.inj h
      obtain ⟨l, h1, h2, h3, h4, h5⟩ := run_images (ready3 V) V.ids (ho.nodup_iff.2 List.nodup_range)
        (fun r => by rw [ho.mem_iff, List.mem_range]) (triangulation_ok _ _ _) hst (List.isEmpty_iff.1 hu)
      have hloc : ∀ i, i < r.state.mesh.numPoints → positionOf3 ((localState r hok).points.map Prod.fst) i = r.position i := by
        intro i hi
        unfold positionOf3 localState
        dsimp only
        rw [List.map_map, List.getElem?_map, List.getElem?_range hi]
        rfl
      obtain ⟨c1, c2, c3, k, hk, e⟩ := remap_cube hx hcy hcz
      have P0 : SpaceOk (remapped3 W.enlarged ((localState r hok).points.map Prod.fst)) (localState r hok).state := by
        have P1 : SpaceOk (positionOf3 ((localState r hok).points.map Prod.fst)) r.state := P.congr hloc
        refine P1.scale (c1 := -c1 / k) (c2 := -c2 / k) (c3 := -c3 / k) (k := 1 / k) (by positivity) fun i => ?_
        unfold remapped3
        rw [e]
        refine P3.ext ?_ ?_ ?_ <;> · dsimp only; field_simp; ring
      obtain ⟨P2, hpts⟩ := insertSeq_space heps hp h1 P0
      have P3' : SpaceOk (positionOf3 (st.tri.points.map Prod.fst)) st.tri.state :=
        P2.scale hk fun i => by unfold remapped3; rw [e]
      have hlen : (localState r hok).points.length = 4 + (W.ofRank own).length := by
        rw [(localState r hok).num]
        exact hn
      have hold : ∀ i, i < 4 + (W.ofRank own).length → positionOf3 (st.tri.points.map Prod.fst) i = r.position i := by
        intro i hi
        rw [hpts, List.map_append, positionOf_append (by rw [List.length_map, hlen]; exact hi)]
        exact hloc i (by rw [hn]; exact hi)
      refine ⟨r.indices, l, P3', ?_, ?_, ?_, ?_, hrange, ?_, ?_, h4, ?_⟩
      · show st.tri.state.mesh.numPoints = _
        rw [← st.tri.num, hpts, List.length_append, hlen, List.length_map, List.length_map]
      · show positionOf3 (st.tri.points.map Prod.fst) 0 = _ ∧ positionOf3 (st.tri.points.map Prod.fst) 1 = _ ∧
          positionOf3 (st.tri.points.map Prod.fst) 2 = _ ∧ positionOf3 (st.tri.points.map Prod.fst) 3 = _
        rw [hold 0 (by omega), hold 1 (by omega), hold 2 (by omega), hold 3 (by omega)]
        exact ⟨z0, z1, z2, z3⟩
      · dsimp only
        rw [h2, List.reverse_reverse, hn]
      · rw [h2, List.nodup_reverse] at h3
        exact h3
      · have : (r.indices.map fun e => (e.1, positionOf3 (st.tri.points.map Prod.fst) e.2)) =
            r.indices.map fun e => (e.1, r.position e.2) := by
          refine List.map_congr_left fun e he => ?_
          have : e.2 ∈ r.indices.map Prod.snd := List.mem_map.2 ⟨e, he, rfl⟩
          rw [hrange] at this
          obtain ⟨j, hj, e'⟩ := List.mem_map.1 this
          rw [List.mem_range] at hj
          rw [hold e.2 (by omega)]
        show (r.indices.map fun e => (e.1, positionOf3 (st.tri.points.map Prod.fst) e.2)).Perm _
        rw [this]
        exact hidx
      · intro j hj
        show positionOf3 (st.tri.points.map Prod.fst) _ = _
        unfold positionOf3
        rw [hpts, List.map_append, List.getElem?_append_right (by rw [List.length_map, hlen]; omega), List.length_map, hlen,
          Nat.add_sub_cancel_left]
        simp [hj]
      · intro i σ k hat hk4 hkn s hs p hps w hw
        by_cases hl : ((s, ⟨p.1, w, dim3.ofVec (W.image w p.2)⟩) : ℕ × Image Id (Fin 3 → WrapType) (P3 ℝ)) ∈ l
        · exact Or.inl hl
        · right
          obtain ⟨c, rho, hpos, hall, ec, er⟩ := sphere_spec heps' P3' hat
          obtain ⟨T, hT, hinj, hm⟩ := id hat
          have h6 := mt (h5 i ((live_iff st.tri i).2 ⟨T, hT⟩) ?_ s hs p hps w hw) hl
          · have er' : (triangulation (parts3 eps W.enlarged hp) (sphereRadius eps') (sphereCentre eps')).radius st.tri i =
                Real.sqrt rho := er
            have ec' : (triangulation (parts3 eps W.enlarged hp) (sphereRadius eps') (sphereCentre eps')).centre st.tri i = c := ec
            rw [er', ec', not_lt, ← (ready3 V).inverse (W.image w p.2), distance3] at h6
            show 0 < pw3 (positionOf3 (st.tri.points.map Prod.fst) ∘ σ) _
            rw [pw3_sphere (P3'.space.solid.nondeg hat) (o := c) (rho := rho) hall]
            generalize dim3.ofVec (W.image w p.2) = q at *
            have h7 : distSq3 c q = distSq3 q c := by unfold distSq3; ring
            rw [h7] at h6
            have h8 : 0 ≤ distSq3 q c := by unfold distSq3; positivity
            have h9 := Real.sqrt_pos.2 hpos
            have h10 : Real.sqrt rho < Real.sqrt (distSq3 q c) := by linarith
            linarith [(Real.sqrt_lt_sqrt_iff hpos.le).1 h10]
          · show (Option.map _ _).isSome
            rw [Option.isSome_map, List.find?_isSome]
            refine ⟨(positionOf3 (st.tri.points.map Prod.fst) (σ k), true), (vertices_eq hT).2 (σ k) (hm k) _ ?_, rfl⟩
            rw [hold _ hkn, hpts, List.getElem?_append_left (by rw [hlen]; exact hkn)]
            unfold localState
            dsimp only
            rw [List.getElem?_map, List.getElem?_range (by rw [hn]; exact hkn)]
            simp [hk4]
    · cases h
  · cases h
  · cases h

end Verif.Parallel
