import Verif.Rounding.RescaleProps
import Verif.Delaunay.SpaceStar
import Verif.Delaunay.Construct3Props

/-! # C142: what the construction with rescaled coordinates in `f64` returns -/

namespace Verif.Rounding

open Verif.Predicates Verif.Delaunay Verif.Voronoi

variable {N : Type}

/-- The points to be triangulated: the given ones and the vertices of the initial tetrahedron in `f64`. -/
def SiteF (lo hi : P3 ℚ) (points : List (N × P3 ℚ)) (p : P3 ℚ) : Prop :=
  p = (allEncompassingF lo hi).p1 ∨ p = (allEncompassingF lo hi).p2 ∨ p = (allEncompassingF lo hi).p3 ∨
    p = (allEncompassingF lo hi).p4 ∨ ∃ e ∈ points, e.2 = p

private theorem positionOf_eq {l : List (P3 ℚ)} {i : ℕ} (h : i < l.length) : positionOf3 l i = l[i] := by
  unfold positionOf3
  rw [List.getElem?_eq_getElem h]
  rfl

private theorem axis_strict {l h : ℚ} (hb : BoxAxis l h) : cornerF l h < l ∧ l < h ∧ h < projectedF l h := by
  obtain ⟨-, -, c3, c4, -, c6, -⟩ := corners_real hb
  have k1 : (cornerF l h : ℝ) < l := by linarith
  have k2 : (l : ℝ) < h := by linarith
  have k3 : (h : ℝ) < projectedF l h := by linarith
  exact ⟨by exact_mod_cast k1, by exact_mod_cast k2, by exact_mod_cast k3⟩

private theorem allPointsF_nodup {lo hi : P3 ℚ} (hb : BoxF64 lo hi) {pts : List (P3 ℚ)} (hin : ∀ p ∈ pts, InBox3 lo hi p)
    (hn : pts.Nodup) : (allPointsF lo hi pts).Nodup := by
  obtain ⟨x1, x2, x3⟩ := axis_strict hb.x
  obtain ⟨y1, y2, y3⟩ := axis_strict hb.y
  obtain ⟨z1, z2, z3⟩ := axis_strict hb.z
  unfold allPointsF allEncompassingF
  dsimp only
  simp only [List.nodup_cons, List.mem_cons, not_or, P3.mk.injEq, not_and]
  refine ⟨⟨fun e => ?_, fun e => ?_, fun e => ?_, fun m => ?_⟩, ⟨fun e => ?_, fun e => ?_, fun m => ?_⟩,
    ⟨fun _ e => ?_, fun m => ?_⟩, fun m => ?_, hn⟩
  · exact absurd e (by linarith)
  · exact absurd e (by linarith)
  · exact absurd e (by linarith)
  · exact absurd (hin _ m).1 (by dsimp only; linarith)
  · exact absurd e (by linarith)
  · exact absurd e (by linarith)
  · exact absurd (hin _ m).2.1 (by dsimp only; linarith)
  · exact absurd e (by linarith)
  · exact absurd (hin _ m).2.2.2.1 (by dsimp only; linarith)
  · exact absurd (hin _ m).2.2.2.2.2 (by dsimp only; linarith)

/-- The run behind `constructF`. -/
private theorem constructF_run (eps : ℚ) (key : P3 ℚ → ℕ) (pop : Heaps) (fuel : ℕ) (lo hi : P3 ℚ)
    (points : List (N × P3 ℚ)) :
    ∃ (s0 : State) (position : ℕ → P3 ℚ) (indices : List (N × ℕ)), start3 = some s0 ∧
      constructF eps key pop fuel lo hi points =
        (match insertMany (geo3 eps fun i => rescaleF lo hi (position i))
          (ops3 (intersect3 fun i => rescaleF lo hi (position i))) pop fuel points.length s0 with
        | .panic => .panic
        | .running => .running
        | .done s => .done ⟨s, position, indices⟩) ∧
      (∀ i, i < 4 + points.length → SiteF lo hi points (position i)) ∧
      position 0 = (allEncompassingF lo hi).p1 ∧ position 1 = (allEncompassingF lo hi).p2 ∧
      position 2 = (allEncompassingF lo hi).p3 ∧ position 3 = (allEncompassingF lo hi).p4 ∧
      (BoxF64 lo hi → (∀ e ∈ points, InBox3 lo hi e.2) → (points.map Prod.snd).Nodup →
        ∀ i j, i < 4 + points.length → j < 4 + points.length → i ≠ j → position i ≠ position j) ∧
      (indices.map fun e => (e.1, position e.2)).Perm points ∧
      (indices.map Prod.snd) = (List.range points.length).map (4 + ·) := by
  unfold constructF
  dsimp only
  set sorted := points.insertionSort fun a b => key a.2 ≤ key b.2 with hsorted
  have hperm : sorted.Perm points := List.perm_insertionSort _ _
  set all := allPointsF lo hi (sorted.map Prod.snd) with hall
  have hlen : all.length = 4 + points.length := by
    rw [hall]
    unfold allPointsF
    simp only [List.length_cons, List.length_map, hperm.length_eq]
    omega
  have hsite : ∀ p, SiteF lo hi points p ↔ p ∈ all := by
    intro p
    rw [hall]
    unfold allPointsF SiteF
    simp only [List.mem_cons, List.mem_map, hperm.mem_iff]
  have hpos : ∀ i, i < 4 + points.length → SiteF lo hi points (positionOf3 all i) := by
    intro i hi
    rw [← hlen] at hi
    rw [hsite, positionOf_eq hi]
    exact List.getElem_mem hi
  obtain ⟨s0, h0⟩ : ∃ s, start3 = some s := ⟨_, rfl⟩
  refine ⟨s0, positionOf3 all, sorted.zipIdx.map fun e => (e.1.1, 4 + e.2), h0, ?_, hpos, rfl, rfl, rfl, rfl, ?_, ?_, ?_⟩
  · rw [h0, hperm.length_eq]
    dsimp only
    generalize insertMany _ _ _ _ _ _ = o
    cases o <;> rfl
  · intro hb hin hn i j hi hj hne
    have hnodup : all.Nodup := by
      apply allPointsF_nodup hb
      · intro p hp
        obtain ⟨e, he, rfl⟩ := List.mem_map.1 hp
        exact hin e (hperm.mem_iff.1 he)
      · exact (hperm.map Prod.snd).nodup_iff.2 hn
    rw [← hlen] at hi hj
    rw [positionOf_eq hi, positionOf_eq hj]
    exact fun e => hne (hnodup.getElem_inj_iff.1 e)
  · have : (List.map (fun e => (e.1, positionOf3 all e.2)) (sorted.zipIdx.map fun e => (e.1.1, 4 + e.2))) = sorted := by
      apply List.ext_getElem
      · simp
      · intro i h1 h2
        simp only [List.getElem_map, List.getElem_zipIdx, zero_add]
        have h3 : 4 + i < all.length := by rw [hlen, ← hperm.length_eq]; omega
        rw [positionOf_eq h3]
        have h4 : all[4 + i] = (sorted.map Prod.snd)[i]'(by simpa using h2) := by
          have : 4 + i = i + 1 + 1 + 1 + 1 := by omega
          simp only [hall, allPointsF, this, List.getElem_cons_succ]
        rw [h4, List.getElem_map]
    rw [this]
    exact hperm
  · apply List.ext_getElem
    · simp [hperm.length_eq]
    · intro i h1 h2
      simp only [List.getElem_map, List.getElem_zipIdx, zero_add, List.getElem_range]

/-- What a completed construction knows. -/
private theorem constructF_done {eps : ℚ} (heps : 0 < eps) {key : P3 ℚ → ℕ} {pop : Heaps} (hp : HeapsOk pop) {fuel : ℕ}
    {lo hi : P3 ℚ} (h : BoxF64 lo hi) {points : List (N × P3 ℚ)} {r : Construction3 ℚ N}
    (hr : constructF eps key pop fuel lo hi points = .done r) :
    SpaceOk (fun i => rescaleF lo hi (r.position i)) r.state ∧ r.state.mesh.numPoints = 4 + points.length ∧
    (∀ i, i < 4 + points.length → SiteF lo hi points (r.position i)) ∧
    (r.indices.map fun e => (e.1, r.position e.2)).Perm points ∧
    (r.indices.map Prod.snd) = (List.range points.length).map (4 + ·) ∧
    ∀ i T, r.state.mesh.tetras.get i = some T → ∃ a b c d, T.points = [a, b, c, d] ∧
      a < 4 + points.length ∧ b < 4 + points.length ∧ c < 4 + points.length ∧ d < 4 + points.length ∧
      EmptySphere (fun i => rescaleF lo hi (r.position i)) (4 + points.length) a b c d := by
  obtain ⟨s0, position, indices, h0, hcon, hpos, z0, z1, z2, z3, -, hidx, hsnd⟩ :=
    constructF_run eps key pop fuel lo hi points
  rw [hcon] at hr
  clear hcon
  obtain ⟨ho, -⟩ := initial_tetra_contains_f64 h
  rw [← z0, ← z1, ← z2, ← z3] at ho
  obtain ⟨x, hx⟩ : ∃ x : ℕ → P3 ℚ, x = fun i => rescaleF lo hi (position i) := ⟨_, rfl⟩
  have hxi : ∀ i, rescaleF lo hi (position i) = x i := fun i => by rw [hx]
  rw [← hx] at hr
  simp only [hxi] at ho
  obtain ⟨s, hs⟩ : ∃ s, insertMany (geo3 eps x) (ops3 (intersect3 x)) pop fuel points.length s0 = .done s := by
    revert hr
    cases insertMany (geo3 eps x) (ops3 (intersect3 x)) pop fuel points.length s0 with
    | done s => exact fun _ => ⟨s, rfl⟩
    | panic => exact fun h => by cases h
    | running => exact fun h => by cases h
  rw [hs] at hr
  dsimp only at hr
  rw [Outcome.done.injEq] at hr
  subst hr
  dsimp only
  obtain ⟨P, hn⟩ := run_space heps ho hp h0 hs
  have D := delaunay3 heps ho hp h0 hs
  rw [← hx]
  refine ⟨P, hn, hpos, hidx, hsnd, fun i T hT => ?_⟩
  obtain ⟨a, b, c, d, e, h1, h2, h3, h4, -, hE⟩ := D i T hT
  exact ⟨a, b, c, d, e, h1, h2, h3, h4, hE⟩

private theorem inTetra_vertices {K : Type} [Field K] [LinearOrder K] [IsStrictOrderedRing K] (p q r t : P3 K) :
    InTetra ⟨p, q, r, t⟩ p ∧ InTetra ⟨p, q, r, t⟩ q ∧ InTetra ⟨p, q, r, t⟩ r ∧ InTetra ⟨p, q, r, t⟩ t := by
  refine ⟨⟨1, 0, 0, 0, ?_⟩, ⟨0, 1, 0, 0, ?_⟩, ⟨0, 0, 1, 0, ?_⟩, ⟨0, 0, 0, 1, ?_⟩⟩ <;>
    simp [Bary3]

/-- **C142** (completion): if the rescaled points are in general position, the construction is completed, for every
order of the points and of the heap. -/
theorem construct_completes_f64 {eps : ℚ} (heps : 0 < eps) {key : P3 ℚ → ℕ} {pop : Heaps} (hp : HeapsOk pop) {fuel : ℕ}
    {lo hi : P3 ℚ} (h : BoxF64 lo hi) {points : List (N × P3 ℚ)} (hin : ∀ e ∈ points, InBox3 lo hi e.2)
    (hn : (points.map Prod.snd).Nodup)
    (hg : GeneralUnder3 (rescaleF lo hi) (SiteF lo hi points)) (hf : 5 * (4 + points.length) ^ 4 + 1 ≤ fuel) :
    ∃ r, constructF eps key pop fuel lo hi points = .done r := by
  obtain ⟨s0, position, indices, h0, hcon, hpos, z0, z1, z2, z3, hinj', -, -⟩ :=
    constructF_run eps key pop fuel lo hi points
  have hinj := hinj' h hin hn
  rw [hcon]
  clear hcon hinj'
  obtain ⟨ho, hint⟩ := initial_tetra_contains_f64 h
  rw [← z0, ← z1, ← z2, ← z3] at ho
  rw [← z0, ← z1, ← z2, ← z3] at hint
  generalize rescaleF lo hi = f at *
  have hgen : GeneralPosition3 (fun i => f (position i)) (4 + points.length) := by
    constructor
    · intro i j k l hi hj hk hl hnd
      refine hg.1 _ _ _ _ (hpos i hi) (hpos j hj) (hpos k hk) (hpos l hl) ?_
      simp only [List.nodup_cons, List.mem_cons, List.not_mem_nil, or_false, not_or, not_false_eq_true,
        List.nodup_nil, and_true] at hnd ⊢
      obtain ⟨⟨n1, n2, n3⟩, ⟨n4, n5⟩, n6⟩ := hnd
      exact ⟨⟨hinj i j hi hj n1, hinj i k hi hk n2, hinj i l hi hl n3⟩, ⟨hinj j k hj hk n4, hinj j l hj hl n5⟩,
        hinj k l hk hl n6⟩
    · intro i j k l m hi hj hk hl hm hnd
      refine hg.2 _ _ _ _ _ (hpos i hi) (hpos j hj) (hpos k hk) (hpos l hl) (hpos m hm) ?_
      simp only [List.nodup_cons, List.mem_cons, List.not_mem_nil, or_false, not_or, not_false_eq_true,
        List.nodup_nil, and_true] at hnd ⊢
      obtain ⟨⟨n1, n2, n3, n7⟩, ⟨n4, n5, n8⟩, ⟨n6, n9⟩, n10⟩ := hnd
      exact ⟨⟨hinj i j hi hj n1, hinj i k hi hk n2, hinj i l hi hl n3, hinj i m hi hm n7⟩,
        ⟨hinj j k hj hk n4, hinj j l hj hl n5, hinj j m hj hm n8⟩, ⟨hinj k l hk hl n6, hinj k m hk hm n9⟩,
        hinj l m hl hm n10⟩
  have hinside : ∀ i, i < 4 + points.length →
      InTetra ⟨f (position 0), f (position 1), f (position 2),
        f (position 3)⟩ (f (position i)) := by
    intro i hi
    have v := inTetra_vertices (f (position 0)) (f (position 1)) (f (position 2)) (f (position 3))
    rcases hpos i hi with s | s | s | s | ⟨e, he, s⟩
    · rw [s, ← z0]; exact v.1
    · rw [s, ← z1]; exact v.2.1
    · rw [s, ← z2]; exact v.2.2.1
    · rw [s, ← z3]; exact v.2.2.2
    · rw [← s]
      obtain ⟨w1, w2, w3, w4, g1, g2, g3, g4, hb⟩ := hint e.2 (hin e he)
      exact ⟨w1, w2, w3, w4, g1.le, g2.le, g3.le, g4.le, hb⟩
  obtain ⟨x, hx⟩ : ∃ x : ℕ → P3 ℚ, x = fun i => f (position i) := ⟨_, rfl⟩
  have hxi : ∀ i, f (position i) = x i := fun i => by rw [hx]
  rw [← hx] at hgen ⊢
  simp only [hxi] at ho hinside
  obtain ⟨s, hs⟩ := delaunay3_complete heps ho hp hgen hinside hf h0
  rw [hs]
  exact ⟨_, rfl⟩

/-- **C142** (points too close to each other): a completed construction means that all given points are different
from each other after they have been rescaled. -/
theorem rescaled_distinct_f64 {eps : ℚ} (heps : 0 < eps) {key : P3 ℚ → ℕ} {pop : Heaps} (hp : HeapsOk pop) {fuel : ℕ}
    {lo hi : P3 ℚ} (h : BoxF64 lo hi) {points : List (N × P3 ℚ)} {r : Construction3 ℚ N}
    (hr : constructF eps key pop fuel lo hi points = .done r) : (points.map fun e => rescaleF lo hi e.2).Nodup := by
  obtain ⟨P, hn, -, hidx, hsnd, -⟩ := constructF_done heps hp h hr
  have e : (r.indices.map fun e => rescaleF lo hi (r.position e.2)).Perm (points.map fun e => rescaleF lo hi e.2) := by
    have := hidx.map fun e : N × P3 ℚ => rescaleF lo hi e.2
    rwa [List.map_map] at this
  refine e.nodup_iff.1 ?_
  have e2 : (r.indices.map fun e => rescaleF lo hi (r.position e.2)) =
      (List.range points.length).map fun i => rescaleF lo hi (r.position (4 + i)) := by
    have := congrArg (List.map fun i => rescaleF lo hi (r.position i)) hsnd
    rwa [List.map_map, List.map_map] at this
  rw [e2]
  refine List.Nodup.map_on (fun i hi j hj hij => ?_) List.nodup_range
  rw [List.mem_range] at hi hj
  have := P.injective (i := 4 + i) (j := 4 + j) (by omega) (by omega) hij
  omega

/-- **C142** (points far enough from each other): points of the box which differ in one coordinate by more than
`2 ^ -47` of the side length are different after they have been rescaled. -/
theorem rescaled_ne_f64 {lo hi p q : P3 ℚ} (h : BoxF64 lo hi) (hp : InBox3 lo hi p) (hq : InBox3 lo hi q)
    (hd : (hi.x - lo.x) / 2 ^ 47 < |p.x - q.x| ∨ (hi.y - lo.y) / 2 ^ 47 < |p.y - q.y| ∨
      (hi.z - lo.z) / 2 ^ 47 < |p.z - q.z|) : rescaleF lo hi p ≠ rescaleF lo hi q := by
  have key : ∀ {l h a b : ℚ}, BoxAxis l h → |((a : ℚ) : ℝ) - exactF l h b| ≤ 7 / 2 ^ 53 →
      ∀ c, |((a : ℚ) : ℝ) - exactF l h c| ≤ 7 / 2 ^ 53 → |b - c| ≤ (h - l) / 2 ^ 47 := by
    intro l h a b hb h1 c h2
    obtain ⟨w0, s1, s2⟩ := side_real hb
    have k := abs_sub_le (exactF l h b) a (exactF l h c)
    rw [abs_sub_comm (exactF l h b) (a : ℝ)] at k
    obtain ⟨S, hS⟩ : ∃ S : ℝ, S = (projectedF l h : ℝ) - cornerF l h := ⟨_, rfl⟩
    have S0 : 0 < S := by rw [hS]; linarith
    have e : exactF l h b - exactF l h c = ((b : ℝ) - c) / S := by
      unfold exactF
      rw [← hS]
      ring
    rw [e, abs_div, abs_of_pos S0] at k
    have k2 : |(b : ℝ) - c| / S ≤ 14 / 2 ^ 53 := by
      norm_num at h1 h2 k ⊢
      linarith
    rw [div_le_iff₀ S0] at k2
    rw [← hS] at s2
    have : |(b : ℝ) - c| ≤ ((h : ℝ) - l) / 2 ^ 47 := by
      norm_num at k2 ⊢
      linarith
    exact_mod_cast this
  intro he
  have n1 := rescaled_near_f64 h (inCorners_of_box h hp)
  have n2 := rescaled_near_f64 h (inCorners_of_box h hq)
  rw [he] at n1
  rcases hd with hd | hd | hd
  · exact absurd (key h.x n1.1 _ n2.1) (not_le.2 hd)
  · exact absurd (key h.y n1.2.1 _ n2.2.1) (not_le.2 hd)
  · exact absurd (key h.z n1.2.2 _ n2.2.2) (not_le.2 hd)

/-- Scaling of distances. -/
private theorem dist_scale {p : P3 ℚ} {o o' q : P3 ℝ} {L S e : ℝ} (S0 : 0 < S) (he : 0 ≤ e)
    (hq : CoordsNear e q ⟨1 + ((p.x : ℝ) - L) / S, 1 + ((p.y : ℝ) - L) / S, 1 + ((p.z : ℝ) - L) / S⟩)
    (ho : o' = ⟨L + S * (o.x - 1), L + S * (o.y - 1), L + S * (o.z - 1)⟩) :
    |distance3 p o' - S * Real.sqrt (distSq3 q o)| ≤ 2 * (S * e) := by
  have e1 : distance3 p o' = length3 ⟨(p.x : ℝ) - o'.x, (p.y : ℝ) - o'.y, (p.z : ℝ) - o'.z⟩ := by
    unfold distance3 length3 distSq3 real3
    congr 1
    ring
  have e2 : S * Real.sqrt (distSq3 q o) = length3 ⟨S * (q.x - o.x), S * (q.y - o.y), S * (q.z - o.z)⟩ := by
    unfold length3 distSq3
    have : S * (q.x - o.x) * (S * (q.x - o.x)) + S * (q.y - o.y) * (S * (q.y - o.y)) + S * (q.z - o.z) * (S * (q.z - o.z))
        = S ^ 2 * ((q.x - o.x) ^ 2 + (q.y - o.y) ^ 2 + (q.z - o.z) ^ 2) := by ring
    dsimp only
    rw [this, Real.sqrt_mul (by positivity), Real.sqrt_sq S0.le]
  have one : ∀ {a b c : ℝ}, |b - (1 + (a - L) / S)| ≤ e → |(a - (L + S * (c - 1))) - S * (b - c)| ≤ S * e := by
    intro a b c h
    have t : (a - (L + S * (c - 1))) - S * (b - c) = -(S * (b - (1 + (a - L) / S))) := by
      field_simp
      ring
    rw [t, abs_neg, abs_mul, abs_of_pos S0]
    exact mul_le_mul_of_nonneg_left h S0.le
  rw [e1, e2]
  subst ho
  exact length3_close (by positivity) (one hq.1) (one hq.2.1) (one hq.2.2)

/-- **C142** (nearly Delaunay): for a cubic box, the triangulation which is decided from rescaled coordinates in `f64`
is nearly the Delaunay triangulation of the given points: for every tetrahedron there is a sphere which goes through
its vertices up to `2 ^ -47` side lengths of the box, and no other point is deeper inside of the sphere than that. -/
theorem nearly_delaunay_f64 {eps : ℚ} (heps : 0 < eps) {key : P3 ℚ → ℕ} {pop : Heaps} (hp : HeapsOk pop) {fuel : ℕ}
    {l h : ℚ} (hb : BoxAxis l h) {points : List (N × P3 ℚ)} (hin : ∀ e ∈ points, InBox3 ⟨l, l, l⟩ ⟨h, h, h⟩ e.2)
    {r : Construction3 ℚ N} (hr : constructF eps key pop fuel ⟨l, l, l⟩ ⟨h, h, h⟩ points = .done r) :
    (∀ i T, r.state.mesh.tetras.get i = some T → ∃ a b c d, T.points = [a, b, c, d] ∧
      NearlyEmptySphere (((h : ℝ) - l) / 2 ^ 47) r.position (4 + points.length) a b c d) ∧
    (r.indices.map fun e => (e.1, r.position e.2)).Perm points := by
  have hbox : BoxF64 ⟨l, l, l⟩ ⟨h, h, h⟩ := ⟨hb, hb, hb⟩
  obtain ⟨P, hn, hsite, hidx, -, D⟩ := constructF_done heps hp hbox hr
  refine ⟨fun i T hT => ?_, hidx⟩
  obtain ⟨a, b, c, d, e, ha, hb', hc, hd, o, rho, g1, g2, g3, g4, hout⟩ := D i T hT
  have hcorners : ∀ i, i < 4 + points.length → InCorners ⟨l, l, l⟩ ⟨h, h, h⟩ (r.position i) := by
    intro i hi
    obtain ⟨i1, i2, i3, i4⟩ := inCorners_vertices hbox
    rcases hsite i hi with s | s | s | s | ⟨e, he, s⟩
    · rw [s]; exact i1
    · rw [s]; exact i2
    · rw [s]; exact i3
    · rw [s]; exact i4
    · rw [← s]; exact inCorners_of_box hbox (hin e he)
  obtain ⟨w0, s1, s2⟩ := side_real hb
  obtain ⟨S, hS⟩ : ∃ S : ℝ, S = (projectedF l h : ℝ) - cornerF l h := ⟨_, rfl⟩
  have S0 : 0 < S := by rw [hS]; linarith
  obtain ⟨o', ho'⟩ : ∃ o' : P3 ℝ, o' = ⟨(cornerF l h : ℝ) + S * ((real3 o).x - 1), (cornerF l h : ℝ) + S * ((real3 o).y - 1),
    (cornerF l h : ℝ) + S * ((real3 o).z - 1)⟩ := ⟨_, rfl⟩
  have near : ∀ i, i < 4 + points.length →
      |distance3 (r.position i) o' - S * Real.sqrt ((distSq3 (rescaleF ⟨l, l, l⟩ ⟨h, h, h⟩ (r.position i)) o : ℚ) : ℝ)| ≤
        ((h : ℝ) - l) / 2 ^ 47 := by
    intro i hi
    have n := rescaled_near_f64 hbox (hcorners i hi)
    unfold exact3 exactF at n
    dsimp only at n
    rw [← hS] at n
    have := dist_scale S0 (by positivity) n ho'
    rw [distSq3_real] at this
    refine this.trans ?_
    rw [← hS] at s2
    norm_num
    linarith
  refine ⟨a, b, c, d, e, o', S * Real.sqrt ((rho : ℚ) : ℝ), ?_, fun w hw hne => ?_⟩
  · intro v hv
    simp only [List.mem_cons, List.not_mem_nil, or_false] at hv
    rcases hv with rfl | rfl | rfl | rfl
    · rw [← g1]; exact near _ ha
    · rw [← g2]; exact near _ hb'
    · rw [← g3]; exact near _ hc
    · rw [← g4]; exact near _ hd
  · simp only [List.mem_cons, List.not_mem_nil, or_false, not_or] at hne
    have k := hout w hw hne.1 hne.2.1 hne.2.2.1 hne.2.2.2
    have k1 : Real.sqrt ((rho : ℚ) : ℝ) < Real.sqrt ((distSq3 (rescaleF ⟨l, l, l⟩ ⟨h, h, h⟩ (r.position w)) o : ℚ) : ℝ) := by
      refine Real.sqrt_lt_sqrt ?_ (by exact_mod_cast k)
      rw [← g1, ← distSq3_real]
      unfold distSq3
      positivity
    have k2 := mul_lt_mul_of_pos_left k1 S0
    have k3 := (abs_le.1 (near w hw)).1
    linarith

end Verif.Rounding
