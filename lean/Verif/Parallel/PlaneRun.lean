import Verif.Parallel.Spec2
import Verif.Parallel.RunLemmas
import Verif.Parallel.PlaneCore
import Verif.Voronoi.PlaneCellProps
import Verif.Halo.TriangulationProps

/-! # The triangulation of a rank when all haloes are imported, in two dimensions: lemmas -/

namespace Verif.Parallel.Plane

open Verif.Geometry Verif.Halo Verif.Delaunay Verif.Quadtree
open Verif.Predicates (P2 Triangle2 distSq2)

variable {Id : Type}

theorem distance2 (a b : P2 ℝ) : distance (dim2.toVec a) (dim2.toVec b) = Real.sqrt (distSq2 a b) := by
  unfold distance length distSq2 dim2
  rw [Fin.sum_univ_two]
  rfl

theorem ready2 {W : World 2 Id} (V : W.Valid) : Ready dim2 W where
  wraps := allWraps2_complete
  exact r s p := by
    classical
    obtain ⟨out, h1, h2⟩ := radius_search_exact_2d Prod.snd W.cfg (W.ofRank r) W.lo W.hi (fun i => (V.box i).le)
      (fun p hp i => V.inside r p hp i) W.box V.box (dim2.toVec s.point) s.radius
    have e : found dim2 W r s = out := (h1 _).1 (new_yields (by norm_num) _ _)
    rw [e, h2.mem_iff, List.mem_filter]
    simp
  box := V.box
  inverse v := by
    funext i
    match i with
    | 0 => rfl
    | 1 => rfl
  nonempty := V.nonempty

theorem positionOf_append {l l' : List (P2 ℝ)} {i : ℕ} (h : i < l.length) : positionOf (l ++ l') i = positionOf l i := by
  unfold positionOf
  rw [List.getElem?_append_left h]

/-- An insertion of a halo. -/
theorem insert_plane {b : P2 ℝ × P2 ℝ} {pop : Heaps} (hp : HeapsOk pop)
    {s s' : TriState 2 (P2 ℝ)} {p : P2 ℝ} {ch : List ℕ} (h : TriState.insert (parts b hp) s p = some (s', ch))
    (P : PlaneOk (remapped b (s.points.map Prod.fst)) s.state) :
    PlaneOk (remapped b (s'.points.map Prod.fst)) s'.state ∧ s'.points = s.points ++ [(p, false)] := by
  obtain ⟨h1, h2⟩ := insert_cases _ h
  refine ⟨?_, h2⟩
  rw [h2]
  have P' : PlaneOk (remapped b ((s.points ++ [(p, false)]).map Prod.fst)) s.state := by
    refine P.congr fun i hi => ?_
    unfold remapped
    rw [List.map_append, positionOf_append (by rw [List.length_map, s.num]; exact hi)]
  have h3 := insertPoint_plane P' hp ((3 + 1) * s.state.mesh.tetras.len + 1)
  have h4 : insertPoint (geo2 (remapped b ((s.points ++ [(p, false)]).map Prod.fst)))
      ops2 pop
      ((3 + 1) * s.state.mesh.tetras.len + 1) s.state = .done (s'.state, ch) := h1
  rw [h4] at h3
  exact h3.1

/-- Insertions of haloes one after the other. -/
theorem insertSeq_plane {b : P2 ℝ × P2 ℝ} {pop : Heaps}
    (hp : HeapsOk pop) : ∀ {l : List (P2 ℝ)} {s s' : TriState 2 (P2 ℝ)},
    insertSeq (tri b hp) s l = some s' → PlaneOk (remapped b (s.points.map Prod.fst)) s.state →
    PlaneOk (remapped b (s'.points.map Prod.fst)) s'.state ∧ s'.points = s.points ++ l.map fun p => (p, false)
  | [], s, s', h, P => by
    cases h
    exact ⟨P, by simp⟩
  | p :: l, s, s', h, P => by
    unfold insertSeq at h
    cases hi : (tri b hp).insert s p with
    | none =>
      rw [hi] at h
      cases h
    | some r =>
      rw [hi] at h
      obtain ⟨s1, ch⟩ := r
      obtain ⟨P1, e1⟩ := insert_plane hp hi P
      obtain ⟨P2, e2⟩ := insertSeq_plane hp (l := l) h P1
      exact ⟨P2, by rw [e2, e1]; simp⟩

/-- What is known of the triangulation of a rank when all haloes are imported: `idx` are the local points and `l` the
haloes in the order of their indices. -/
structure RankData [DecidableEq Id] (order : List ℕ) (W : World 2 Id) (own : ℕ) (g : Grid Id) (idx : List (Id × ℕ))
    (l : List (ℕ × Image Id (Fin 2 → WrapType) (P2 ℝ))) : Prop where
  plane : PlaneOk g.position g.tri.state
  num : g.tri.state.mesh.numPoints = 3 + (W.ofRank own).length + l.length
  corner : g.position 0 = (Triangle2.allEncompassing W.enlarged2.1 W.enlarged2.2).p1 ∧
    g.position 1 = (Triangle2.allEncompassing W.enlarged2.1 W.enlarged2.2).p2 ∧
    g.position 2 = (Triangle2.allEncompassing W.enlarged2.1 W.enlarged2.2).p3
  names : g.names = idx.map (fun e => (Name.own e.1, e.2)) ++
    (l.map fun x => ptype (env dim2 W order own) x.1 x.2).zipIdx.map fun e => (Name.halo e.1, 3 + (W.ofRank own).length + e.2)
  nodup : (l.map fun x => ptype (env dim2 W order own) x.1 x.2).Nodup
  range : idx.map Prod.snd = (List.range (W.ofRank own).length).map (3 + ·)
  local_ : (idx.map fun e => (e.1, g.position e.2)).Perm ((W.ofRank own).map fun p => (p.1, dim2.ofVec p.2))
  halo : ∀ j (hj : j < l.length), g.position (3 + (W.ofRank own).length + j) = l[j].2.pos
  image : ∀ x ∈ l, x.1 < W.particles.length ∧ (x.1 ≠ own ∨ isPeriodic x.2.wrap) ∧
    ∃ p ∈ W.ofRank x.1, x.2.id = p.1 ∧ x.2.pos = dim2.ofVec (W.image x.2.wrap p.2)
  outside : ∀ i a b c, At g.tri.state.mesh i a b c → 3 ≤ a → a < 3 + (W.ofRank own).length →
    ∀ r, r < W.particles.length → ∀ p ∈ W.ofRank r, ∀ w, (r ≠ own ∨ isPeriodic w) →
      (r, ⟨p.1, w, dim2.ofVec (W.image w p.2)⟩) ∈ l ∨
        0 < pw (g.position a) (g.position b) (g.position c) (dim2.ofVec (W.image w p.2))

theorem vertices_eq {s : TriState 2 (P2 ℝ)} {t : ℕ} {T : Tetra} (hT : s.state.mesh.tetras.get t = some T) :
    (s.vertices t).map Prod.fst = T.points.map (positionOf (s.points.map Prod.fst)) ∧
    ∀ i ∈ T.points, ∀ v, s.points[i]? = some v → v ∈ s.vertices t := by
  unfold TriState.vertices
  rw [hT]
  dsimp only
  constructor
  · have h : ∀ p ∈ T.points, p < s.points.length := fun p hp => by
      rw [s.num]
      exact s.ok.cons.points_lt t T hT p hp
    clear hT
    generalize T.points = L at h
    induction L with
    | nil => rfl
    | cons a l ih =>
      have ha := h a (List.mem_cons_self)
      rw [List.filterMap_cons, List.getElem?_eq_getElem ha]
      dsimp only
      rw [List.map_cons, List.map_cons, ih fun p hp => h p (List.mem_cons_of_mem _ hp)]
      congr 1
      unfold positionOf
      rw [List.getElem?_map, List.getElem?_eq_getElem ha]
      rfl
  · intro i hi v hv
    exact List.mem_filterMap.2 ⟨i, hi, hv⟩

/-- The circumcircle which the search of a triangle uses is the one of its vertices. -/
theorem circle_spec {s : TriState 2 (P2 ℝ)} (P : PlaneOk (positionOf (s.points.map Prod.fst)) s.state) {t a b c : ℕ}
    (h : At s.state.mesh t a b c) :
    ∃ o rho, 0 < rho ∧ distSq2 (positionOf (s.points.map Prod.fst) a) o = rho ∧
      distSq2 (positionOf (s.points.map Prod.fst) b) o = rho ∧ distSq2 (positionOf (s.points.map Prod.fst) c) o = rho ∧
      circleCentre ((s.vertices t).map Prod.fst) = o ∧ circleRadius ((s.vertices t).map Prod.fst) = Real.sqrt rho := by
  have V := P.valid
  obtain ⟨T, hT, -⟩ := id h
  obtain ⟨a', b', c', hp, h'⟩ := At.of_get P.ok.cons hT
  rw [(vertices_eq hT).1, hp]
  generalize hx : positionOf (s.points.map Prod.fst) = x at *
  have hflat := Voronoi.notFlat_of_plane P t T hT a' b' c' hp
  obtain ⟨h1, h2⟩ := Predicates.circumcentre2_equidistant ⟨x a', x b', x c'⟩ hflat
  dsimp only at h1 h2
  generalize ho : Triangle2.circumcentre ⟨x a', x b', x c'⟩ = o at *
  have hc : circleCentre ([a', b', c'].map x) = o := ho
  have hall : ∀ z ∈ T.points, distSq2 (x z) o = distSq2 (x a') o := by
    intro z hz
    rcases (h'.mem hT z).1 hz with e | e | e
    · rw [e]
    · rw [e, h1]
    · rw [e, h2]
  have hz : ∀ z, distSq2 (x z) o = 0 → x z = o := by
    intro z h4
    unfold distSq2 at h4
    have a1 := sq_nonneg ((x z).x - o.x)
    have a2 := sq_nonneg ((x z).y - o.y)
    have b1 : (x z).x - o.x = 0 := pow_eq_zero_iff (two_ne_zero) |>.1 (by linarith)
    have b2 : (x z).y - o.y = 0 := pow_eq_zero_iff (two_ne_zero) |>.1 (by linarith)
    exact P2.ext (by linarith) (by linarith)
  have hnn : 0 ≤ distSq2 (x a') o := by unfold distSq2; positivity
  refine ⟨o, distSq2 (x a') o, lt_of_le_of_ne hnn fun e => ?_, hall a ((h.mem hT a).2 (by simp)),
    hall b ((h.mem hT b).2 (by simp)), hall c ((h.mem hT c).2 (by simp)), hc, ?_⟩
  · exact V.ne h' ((hz a' e.symm).trans (hz b' (h1.symm.trans e.symm)).symm)
  · unfold circleRadius
    rw [hc, distance2]
    show Real.sqrt (distSq2 o (x a')) = _
    congr 1
    unfold distSq2
    ring

variable [DecidableEq Id]

theorem rank_data {key : P2 ℝ → ℕ} {pop : Heaps}
    {hp : HeapsOk pop} {fuel : ℕ} {len : ℝ} {order : List ℕ} {W : World 2 Id} {own n : ℕ} {g : Grid Id}
    (V : W.Valid) (hc : ∀ i, W.hi i - W.lo i = W.hi 0 - W.lo 0) (ho : order.Perm (List.range W.particles.length))
    (h : constructRank key hp fuel len order W own n = some g) :
    ∃ idx l, RankData order W own g idx l := by
  have hx : W.enlarged2.1.x < W.enlarged2.2.x := by
    have := V.box 0
    simp only [World.enlarged2, World.corners2, dim2]
    linarith
  have hcy : W.enlarged2.2.x - W.enlarged2.1.x = W.enlarged2.2.y - W.enlarged2.1.y := by
    have := hc 1
    simp only [World.enlarged2, World.corners2, dim2]
    linarith
  have hy : W.enlarged2.1.y < W.enlarged2.2.y := by
    have := V.box 1
    simp only [World.enlarged2, World.corners2, dim2]
    linarith
  unfold constructRank at h
  split at h
  · rename_i r hr
    obtain ⟨P, hn⟩ := Voronoi.plane_of_construct2 hp hx hcy hr
    obtain ⟨-, -, -, -, -, -, hidx, -⟩ := construct2_run hx hy hr
    obtain ⟨hrange, z0, z1, z2⟩ := construct2_indices hr
    rw [List.length_map] at hn hrange
    generalize construct2_stateOk hp hr = hok at h
    split at h
    · rename_i st hst
      split_ifs at h with hu
      obtain rfl := Option.some.inj h
      obtain ⟨l, h1, h2, h3, h4, h5⟩ := run_images (ready2 V) V.ids (ho.nodup_iff.2 List.nodup_range)
        (fun r => by rw [ho.mem_iff, List.mem_range]) (triangulation_ok _ _ _) hst (List.isEmpty_iff.1 hu)
      have hloc : ∀ i, i < r.state.mesh.numPoints → positionOf ((localState r hok).points.map Prod.fst) i = r.position i := by
        intro i hi
        unfold positionOf localState
        dsimp only
        rw [List.map_map, List.getElem?_map, List.getElem?_range hi]
        rfl
      obtain ⟨c1, c2, k, hk, e⟩ := remap_square hx hcy
      have P0 : PlaneOk (remapped W.enlarged2 ((localState r hok).points.map Prod.fst)) (localState r hok).state := by
        have P1 : PlaneOk (positionOf ((localState r hok).points.map Prod.fst)) r.state := P.congr hloc
        refine PlaneOk.scale (c1 := -c1 / k) (c2 := -c2 / k) (k := 1 / k) (by positivity) (fun i => ?_) P1
        unfold remapped
        rw [e]
        refine P2.ext ?_ ?_ <;> · dsimp only; field_simp; ring
      obtain ⟨PP, hpts⟩ := insertSeq_plane hp h1 P0
      have PF : PlaneOk (positionOf (st.tri.points.map Prod.fst)) st.tri.state :=
        PlaneOk.scale hk (fun i => by unfold remapped; rw [e]) PP
      have hlen : (localState r hok).points.length = 3 + (W.ofRank own).length := by
        rw [(localState r hok).num]
        exact hn
      have hold : ∀ i, i < 3 + (W.ofRank own).length → positionOf (st.tri.points.map Prod.fst) i = r.position i := by
        intro i hi
        rw [hpts, List.map_append, positionOf_append (by rw [List.length_map, hlen]; exact hi)]
        exact hloc i (by rw [hn]; exact hi)
      refine ⟨r.indices, l, PF, ?_, ?_, ?_, ?_, hrange, ?_, ?_, h4, ?_⟩
      · show st.tri.state.mesh.numPoints = _
        rw [← st.tri.num, hpts, List.length_append, hlen, List.length_map, List.length_map]
      · show positionOf (st.tri.points.map Prod.fst) 0 = _ ∧ positionOf (st.tri.points.map Prod.fst) 1 = _ ∧
          positionOf (st.tri.points.map Prod.fst) 2 = _
        rw [hold 0 (by omega), hold 1 (by omega), hold 2 (by omega)]
        exact ⟨z0, z1, z2⟩
      · dsimp only
        rw [h2, List.reverse_reverse, hn]
      · rw [h2, List.nodup_reverse] at h3
        exact h3
      · have : (r.indices.map fun e => (e.1, positionOf (st.tri.points.map Prod.fst) e.2)) =
            r.indices.map fun e => (e.1, r.position e.2) := by
          refine List.map_congr_left fun e he => ?_
          have : e.2 ∈ r.indices.map Prod.snd := List.mem_map.2 ⟨e, he, rfl⟩
          rw [hrange] at this
          obtain ⟨j, hj, e'⟩ := List.mem_map.1 this
          rw [List.mem_range] at hj
          rw [hold e.2 (by omega)]
        show (r.indices.map fun e => (e.1, positionOf (st.tri.points.map Prod.fst) e.2)).Perm _
        rw [this]
        exact hidx
      · intro j hj
        show positionOf (st.tri.points.map Prod.fst) _ = _
        unfold positionOf
        rw [hpts, List.map_append, List.getElem?_append_right (by rw [List.length_map, hlen]; omega), List.length_map, hlen,
          Nat.add_sub_cancel_left]
        simp [hj]
      · intro i a b c' hat hk4 hkn s hs p hps w hw
        by_cases hl : ((s, ⟨p.1, w, dim2.ofVec (W.image w p.2)⟩) : ℕ × Image Id (Fin 2 → WrapType) (P2 ℝ)) ∈ l
        · exact Or.inl hl
        · right
          obtain ⟨c, rho, hpos, ha, hb, hc3, ec, er⟩ := circle_spec PF hat
          obtain ⟨T, hT, -⟩ := id hat
          have h6 := mt (h5 i ((live_iff st.tri i).2 ⟨T, hT⟩) ?_ s hs p hps w hw) hl
          · have er' : (triangulation (parts W.enlarged2 hp) circleRadius circleCentre).radius st.tri i =
                Real.sqrt rho := er
            have ec' : (triangulation (parts W.enlarged2 hp) circleRadius circleCentre).centre st.tri i = c := ec
            rw [er', ec', not_lt, ← (ready2 V).inverse (W.image w p.2), distance2] at h6
            show 0 < pw (positionOf (st.tri.points.map Prod.fst) a) (positionOf (st.tri.points.map Prod.fst) b) (positionOf (st.tri.points.map Prod.fst) c') _
            rw [← pw_unique (PF.valid.pos hat).ne' (o := c) (rho := rho) (sub_eq_zero.2 ha) (sub_eq_zero.2 hb) (sub_eq_zero.2 hc3)]
            unfold power
            generalize dim2.ofVec (W.image w p.2) = q at *
            have h7 : distSq2 c q = distSq2 q c := by unfold distSq2; ring
            rw [h7] at h6
            have h8 : 0 ≤ distSq2 q c := by unfold distSq2; positivity
            have h9 := Real.sqrt_pos.2 hpos
            have h10 : Real.sqrt rho < Real.sqrt (distSq2 q c) := by linarith
            linarith [(Real.sqrt_lt_sqrt_iff hpos.le).1 h10]
          · show (Option.map _ _).isSome
            rw [Option.isSome_map, List.find?_isSome]
            refine ⟨(positionOf (st.tri.points.map Prod.fst) a, true), (vertices_eq hT).2 a ((hat.mem hT a).2 (by simp)) _ ?_, rfl⟩
            rw [hold _ hkn, hpts, List.getElem?_append_left (by rw [hlen]; exact hkn)]
            unfold localState
            dsimp only
            rw [List.getElem?_map, List.getElem?_range (by rw [hn]; exact hkn)]
            simp [hk4]
    · cases h
  · cases h
  · cases h

end Verif.Parallel.Plane
