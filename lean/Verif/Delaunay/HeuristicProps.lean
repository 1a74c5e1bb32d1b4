import Verif.Delaunay.HeuristicLemmas
import Verif.Delaunay.LocationProps
import Verif.Delaunay.PlaneProps
import Verif.Delaunay.SpaceProps
import Verif.Predicates.DistanceProps
import Mathlib.Data.List.MinMax
import Mathlib.Tactic.IntervalCases

/-!
# C123: the point location is guided by the distances
-/

namespace Verif.Delaunay

open Verif.Predicates (P2 P3 Triangle2 orient2 orient3 Bary2)

section
variable {R : Type} [LinearOrder R]

private theorem find_eq {zero : R} {contains : Tetra → Option Bool} {dist : Tetra → Option R}
    {pop : List (ℕ × R) → Option ((ℕ × R) × List (ℕ × R))} (hp : HeapMin pop) {m : Mesh} (hm : m.LinksLive) {first : ℕ}
    (hf : ∃ T, m.tetras.get first = some T) (fuel : ℕ) :
    findByDistance zero contains dist pop m fuel first =
      findBreadthFirst contains (forget zero dist pop m) m fuel first ∨
    (findByDistance zero contains dist pop m fuel first = .panic ∧
      ∃ i U, m.Reach first i ∧ m.tetras.get i = some U ∧ dist U = none) := by
  obtain ⟨T, hT⟩ := hf
  cases fuel with
  | zero => exact Or.inl rfl
  | succ fuel =>
    have one : ∀ e : ℕ × R, pop [e] = some (e, []) := by
      intro e
      obtain ⟨x, r, h1, h2, _⟩ := hp.2 [e] (by simp)
      have hr : r = [] := by
        have := h2.length_eq
        rw [List.length_singleton, List.length_cons] at this
        exact List.length_eq_zero_iff.1 (by omega)
      subst hr
      rw [h1, List.singleton_perm_singleton.1 h2]
    unfold findByDistance findBreadthFirst searchByDistance searchLoop
    have h1 : forget zero dist pop m [first] = some (first, []) := by simp [forget, one]
    rw [one, h1]
    dsimp only
    rw [hT]
    dsimp only
    cases hc : contains T with
    | none => exact Or.inl rfl
    | some b =>
      cases b with
      | true => exact Or.inl rfl
      | false =>
        dsimp only
        obtain ⟨ns, h4, h5⟩ := (searchInv_init contains ⟨T, hT⟩).step hm (List.Perm.refl _) hT hc
        rcases pushByDistance_eq (zero := zero) (dist := dist) (m := m) T.faces [] [first] with h6 | ⟨h6, f, hf, c, U, ho, hU, hd⟩
        · rw [List.map_nil] at h6
          rw [h6, h4]
          exact searchByDistance_eq hp fuel _ _ _ hm h5
        · rw [List.map_nil] at h6
          rw [h6]
          refine Or.inr ⟨rfl, c.tetra, U, Relation.ReflTransGen.single ?_, hU, hd⟩
          obtain ⟨⟨p, s⟩, hs, rfl⟩ := List.mem_map.1 hf
          exact ⟨T, hT, p, s, c.point, hs, ho⟩

/-- **C123** (point location): the search with a heap ordered by any distance is sound and complete, and it
panics only if the containment test or the distance of a simplex which can be reached does. -/
theorem guided_location (zero : R) (contains : Tetra → Option Bool) (dist : Tetra → Option R)
    {pop : List (ℕ × R) → Option ((ℕ × R) × List (ℕ × R))} (hp : HeapMin pop) {m : Mesh} (hm : m.LinksLive) {first : ℕ}
    (hf : ∃ T, m.tetras.get first = some T) (fuel : ℕ) :
    (∀ i ts, findByDistance zero contains dist pop m fuel first = .done (some i, ts) →
      m.Reach first i ∧ ∃ T, m.tetras.get i = some T ∧ contains T = some true) ∧
    (∀ ts, findByDistance zero contains dist pop m fuel first = .done (none, ts) →
      ∀ i, m.Reach first i → i ∈ ts ∧ ∃ T, m.tetras.get i = some T ∧ contains T = some false) ∧
    (findByDistance zero contains dist pop m fuel first = .panic →
      ∃ i T, m.Reach first i ∧ m.tetras.get i = some T ∧ (contains T = none ∨ dist T = none)) ∧
    (∀ r ts, findByDistance zero contains dist pop m fuel first = .done (r, ts) →
      ts.Nodup ∧ ∀ i ∈ ts, m.Reach first i) ∧
    (m.tetras.len < fuel → findByDistance zero contains dist pop m fuel first ≠ .running) := by
  obtain ⟨h1, h2, h3, h4, h5⟩ := location_sound_complete contains
    (forget_ok (zero := zero) (dist := dist) (m := m) hp) hm hf fuel
  rcases find_eq (zero := zero) (contains := contains) (dist := dist) hp hm hf fuel with h | ⟨h, i, U, hi, hU, hd⟩
  · rw [h]
    refine ⟨h1, h2, fun hp => ?_, h4, h5⟩
    obtain ⟨i, T, g1, g2, g3⟩ := h3 hp
    exact ⟨i, T, g1, g2, Or.inl g3⟩
  · rw [h]
    exact ⟨fun _ _ e => by (cases e), fun _ e => by (cases e), fun _ => ⟨i, U, hi, hU, Or.inr hd⟩,
      fun _ _ e => by (cases e), fun _ e => by (cases e)⟩

/-- **C123** (point location): if the simplices which contain the point have smaller distances than all others,
the search tests a simplex which contains the point as soon as it has seen one: none of the simplices which were
tested before the last two has a neighbour which contains the point. -/
theorem guided_location_next (zero : R) (contains : Tetra → Option Bool) (dist : Tetra → Option R)
    {pop : List (ℕ × R) → Option ((ℕ × R) × List (ℕ × R))} (hp : HeapMin pop) {m : Mesh} (hm : m.LinksLive) {first : ℕ}
    (hf : ∃ T, m.tetras.get first = some T)
    (hguide : ∀ i j T U, m.tetras.get i = some T → m.tetras.get j = some U →
      contains T = some true → contains U = some false → ∃ d e, dist T = some d ∧ dist U = some e ∧ d < e)
    (fuel : ℕ) {i : ℕ} {ts : List ℕ} (h : findByDistance zero contains dist pop m fuel first = .done (some i, ts)) :
    ∀ pre l, ts = pre ++ [l, i] → ∀ k ∈ pre, ∀ j U, m.Adj k j → m.tetras.get j = some U → contains U ≠ some true := by
  rcases find_eq (zero := zero) (contains := contains) (dist := dist) hp hm hf fuel with h' | ⟨h', _⟩
  · rw [h'] at h
    refine searchLoop_next (zero := zero) (dist := dist) hp hm ?_ fuel (searchInv_init contains hf) (by simp) h
    intro i j T U _ _ hT hU hcT hcU
    obtain ⟨d, e, h1, h2, h3⟩ := hguide i j T U hT hU hcT hcU
    simpa [keyOf, hT, hU, h1, h2] using h3
  · rw [h'] at h
    cases h

private theorem guided_step {zero : R} {g : Geo} {dist : Tetra → ℕ → Option R} {ops : Ops}
    {pop : List (ℕ × R) → Option ((ℕ × R) × List (ℕ × R))} (hp : HeapMin pop) {D : ℕ} {s : State} (hs : StateOk D s)
    (fuel : ℕ) :
    insertGuided zero g dist ops pop fuel s =
      insertPoint g ops (fun m => forget zero (fun T => dist T (m.numPoints - 1)) pop m) fuel s ∨
    (insertGuided zero g dist ops pop fuel s = .panic ∧
      ∃ i U, s.mesh.tetras.get i = some U ∧ dist U s.mesh.numPoints = none) := by
  have hcons : Consistent D { s.mesh with numPoints := s.mesh.numPoints + 1 } := hs.cons.mesh (Nat.le_succ _)
  unfold insertGuided insertPoint
  dsimp only
  have key : findGuided zero (fun T => g.contains T s.mesh.numPoints) (fun T => dist T s.mesh.numPoints) pop fuel
        { s.mesh with numPoints := s.mesh.numPoints + 1 } s.last =
      findContaining (fun T => g.contains T s.mesh.numPoints)
        (forget zero (fun T => dist T (s.mesh.numPoints + 1 - 1)) pop { s.mesh with numPoints := s.mesh.numPoints + 1 })
        fuel { s.mesh with numPoints := s.mesh.numPoints + 1 } s.last ∨
      (findGuided zero (fun T => g.contains T s.mesh.numPoints) (fun T => dist T s.mesh.numPoints) pop fuel
        { s.mesh with numPoints := s.mesh.numPoints + 1 } s.last = .panic ∧
        ∃ i U, s.mesh.tetras.get i = some U ∧ dist U s.mesh.numPoints = none) := by
    unfold findGuided findContaining
    rw [Nat.add_sub_cancel]
    cases hl : s.last with
    | none => exact Or.inl rfl
    | some first =>
      dsimp only
      rcases find_eq (zero := zero) (contains := fun T => g.contains T s.mesh.numPoints)
        (dist := fun T => dist T s.mesh.numPoints) hp hcons.linksLive (hs.last first hl) fuel with h | ⟨h, i, U, _, hU, hd⟩
      · rw [h]
        exact Or.inl rfl
      · rw [h]
        exact Or.inr ⟨rfl, i, U, hU, hd⟩
  rcases key with h | ⟨h, hd⟩
  · rw [h]
    exact Or.inl rfl
  · rw [h]
    exact Or.inr ⟨rfl, hd⟩

/-- **C123** (insertions): a run with heaps ordered by distances is a run with heaps in some order, unless the
distance of a simplex cannot be computed; all theorems about `insertMany` (C52 to C54, C67 to C76) hence hold
for it. -/
theorem guided_insertions (zero : R) {D B : ℕ} {g : Geo} (hg : g.Proper) {dist : Tetra → ℕ → Option R} {ops : Ops}
    (ho : OpsOk D B ops) {pop : List (ℕ × R) → Option ((ℕ × R) × List (ℕ × R))} (hp : HeapMin pop) :
    ∃ pop' : Heaps, HeapsOk pop' ∧ ∀ (fuel n : ℕ) (s0 : State), StateOk D s0 →
      insertManyGuided zero g dist ops pop fuel n s0 = insertMany g ops pop' fuel n s0 ∨
      (insertManyGuided zero g dist ops pop fuel n s0 = .panic ∧ ∃ k s, k < n ∧ insertMany g ops pop' fuel k s0 = .done s ∧
        ∃ i U, s.mesh.tetras.get i = some U ∧ dist U s.mesh.numPoints = none) := by
  refine ⟨fun m => forget zero (fun T => dist T (m.numPoints - 1)) pop m, fun m => forget_ok hp, ?_⟩
  intro fuel n
  induction n with
  | zero => exact fun s0 _ => Or.inl rfl
  | succ n ih =>
    intro s0 h0
    unfold insertManyGuided
    have hsp := insertPoint_spec (P := fun _ => True) ho hg
      (pop := fun m => forget zero (fun T => dist T (m.numPoints - 1)) pop m) (fun m => forget_ok hp) h0
      (fun _ _ _ _ _ _ _ => trivial) (fun _ _ _ _ _ _ _ _ _ _ _ _ _ _ _ => trivial) fuel
    rcases guided_step (zero := zero) (g := g) (dist := dist) (ops := ops) hp h0 fuel with h | ⟨h, hd⟩
    · rw [h]
      cases hr : insertPoint g ops (fun m => forget zero (fun T => dist T (m.numPoints - 1)) pop m) fuel s0 with
      | panic => left; simp [insertMany, hr]
      | running => left; simp [insertMany, hr]
      | done r =>
        obtain ⟨s1, ts⟩ := r
        rw [hr] at hsp
        rcases ih s1 hsp.1 with h' | ⟨h', k, s, hk, hs, hd⟩
        · left
          simp only [insertMany, hr]
          exact h'
        · right
          refine ⟨h', k + 1, s, by omega, ?_, hd⟩
          simp only [insertMany, hr]
          exact hs
    · rw [h]
      exact Or.inr ⟨rfl, 0, s0, by omega, rfl, hd⟩

end

/-! ### The meshes of the plane and of space -/

private theorem guide2 {x : ℕ → P2 ℝ} {p : ℕ} {T U : Tetra}
    (hT : ∃ a b c, T.points = [a, b, c] ∧ 0 < orient2 ⟨x a, x b, x c⟩)
    (hU : ∃ a b c, U.points = [a, b, c] ∧ 0 < orient2 ⟨x a, x b, x c⟩)
    (h1 : (geo2 x).contains T p = some true) (h2 : (geo2 x).contains U p = some false) :
    ∃ d e, dist2 x T p = some d ∧ dist2 x U p = some e ∧ d < e := by
  obtain ⟨a, b, c, eT, oT⟩ := hT
  obtain ⟨a', b', c', eU, oU⟩ := hU
  obtain ⟨w1, w2, w3, hw⟩ := Predicates.bary2_exists _ oT.ne' (x p)
  obtain ⟨v1, v2, v3, hv⟩ := Predicates.bary2_exists _ oU.ne' (x p)
  simp only [geo2, eT] at h1
  simp only [geo2, eU] at h2
  have g1 := (Predicates.triangle_distance _ oT (x p) w1 w2 w3 hw).1.2
    ((Predicates.triangle_contains_correct _ oT.ne' (x p) w1 w2 w3 hw).1.1 h1)
  have g2 : 0 < Triangle2.distanceToPoint ⟨x a', x b', x c'⟩ (x p) := by
    by_contra hc
    obtain ⟨k1, k2, k3⟩ := (Predicates.triangle_distance _ oU (x p) v1 v2 v3 hv).2.1.1 (not_lt.1 hc)
    rcases (Predicates.triangle_contains_correct _ oU.ne' (x p) v1 v2 v3 hv).2.1.1 h2 with h | h | h <;> linarith
  refine ⟨(Triangle2.distanceToPoint ⟨x a, x b, x c⟩ (x p) : ℝ), (Triangle2.distanceToPoint ⟨x a', x b', x c'⟩ (x p) : ℝ),
    by simp only [dist2, eT], by simp only [dist2, eU], ?_⟩
  exact WithTop.coe_lt_coe.2 (g1.trans g2)

private theorem guide3 {eps : ℝ} {x : ℕ → P3 ℝ} {p : ℕ} {T U : Tetra}
    (hT : ∃ a b c d, T.points = [a, b, c, d] ∧ orient3 ⟨x a, x b, x c, x d⟩ ≠ 0)
    (hU : ∃ a b c d, U.points = [a, b, c, d] ∧ orient3 ⟨x a, x b, x c, x d⟩ ≠ 0)
    (h1 : (geo3 eps x).contains T p = some true) (h2 : (geo3 eps x).contains U p = some false) :
    ∃ d e, dist3 x T p = some d ∧ dist3 x U p = some e ∧ d < e := by
  obtain ⟨a, b, c, d, eT, oT⟩ := hT
  obtain ⟨a', b', c', d', eU, oU⟩ := hU
  simp only [geo3, eT] at h1
  simp only [geo3, eU] at h2
  obtain ⟨r, k1, _, _, k2, k3⟩ := (Predicates.tetra_distance _ oT (x p)).2 _ h1
  obtain ⟨r', l1, _, _, l2, l3⟩ := (Predicates.tetra_distance _ oU (x p)).2 _ h2
  refine ⟨(r : ℝ), (r' : ℝ), by simp [dist3, eT, k1], by simp [dist3, eU, l1], ?_⟩
  apply WithTop.coe_lt_coe.2
  have : r' ≠ 0 := fun h => by simpa using l3.1 h
  rw [k3.2 rfl]
  exact lt_of_le_of_ne l2 (Ne.symm this)

/-- **C123** (plane): a completed run of the insertions with heaps ordered by the distances of triangles is a
completed run of the insertions of C67 to C73; in its mesh the distances guide the search for any point `p`: a triangle
which contains it is tested as soon as it is seen. -/
theorem guided_plane {x : ℕ → P2 ℝ} (ho : 0 < orient2 ⟨x 0, x 1, x 2⟩)
    {pop : List (ℕ × OrderedFloat) → Option ((ℕ × OrderedFloat) × List (ℕ × OrderedFloat))} (hp : HeapMin pop)
    {fuel n : ℕ} {s0 s : State} (h0 : start2 = some s0)
    (h : insertManyGuided 0 (geo2 x) (dist2 x) ops2 pop fuel n s0 = .done s) :
    (∃ pop' : Heaps, HeapsOk pop' ∧ insertMany (geo2 x) ops2 pop' fuel n s0 = .done s) ∧
    ∀ p first fuel' i ts, (∃ T, s.mesh.tetras.get first = some T) →
      findByDistance 0 (fun T => (geo2 x).contains T p) (fun T => dist2 x T p) pop s.mesh fuel' first = .done (some i, ts) →
      ∀ pre l, ts = pre ++ [l, i] → ∀ k ∈ pre, ∀ j U, s.mesh.Adj k j → s.mesh.tetras.get j = some U →
        (geo2 x).contains U p ≠ some true := by
  obtain ⟨pop', hp', hrun⟩ := guided_insertions (0 : OrderedFloat) (geo2_proper x) (dist := dist2 x) ops2_ok hp
  have hs0 : StateOk 2 s0 := by
    obtain ⟨h1, _, _, _, _, h3, _⟩ := insert2_consistent (geo2_proper x) popHead_ok (fuel := 0) (n := 0) h0 rfl
    exact ⟨h1, h3⟩
  have hdone : insertMany (geo2 x) ops2 pop' fuel n s0 = .done s := by
    rcases hrun fuel n s0 hs0 with h' | ⟨h', _⟩
    · rw [← h', h]
    · rw [h] at h'
      cases h'
  refine ⟨⟨pop', hp', hdone⟩, ?_⟩
  intro p first fuel' i ts hf hfind
  have hcons := (insert2_consistent (geo2_proper x) hp' h0 hdone).1
  have hmesh := delaunay2 ho hp' h0 hdone
  refine guided_location_next 0 _ _ hp hcons.linksLive hf ?_ fuel' hfind
  intro i j T U hT hU
  obtain ⟨a, b, c, e, _, _, _, o, _⟩ := hmesh i T hT
  obtain ⟨a', b', c', e', _, _, _, o', _⟩ := hmesh j U hU
  exact guide2 ⟨a, b, c, e, o⟩ ⟨a', b', c', e', o'⟩

/-- **C123** (space): the same for tetrahedra. -/
theorem guided_space {eps : ℝ} (heps : 0 < eps) {x : ℕ → P3 ℝ} (ho : 0 < orient3 ⟨x 0, x 1, x 2, x 3⟩)
    {pop : List (ℕ × OrderedFloat) → Option ((ℕ × OrderedFloat) × List (ℕ × OrderedFloat))} (hp : HeapMin pop)
    {fuel n : ℕ} {s0 s : State} (h0 : start3 = some s0)
    (h : insertManyGuided 0 (geo3 eps x) (dist3 x) (ops3 (intersect3 x)) pop fuel n s0 = .done s) :
    (∃ pop' : Heaps, HeapsOk pop' ∧ insertMany (geo3 eps x) (ops3 (intersect3 x)) pop' fuel n s0 = .done s) ∧
    ∀ p first fuel' i ts, (∃ T, s.mesh.tetras.get first = some T) →
      findByDistance 0 (fun T => (geo3 eps x).contains T p) (fun T => dist3 x T p) pop s.mesh fuel' first = .done (some i, ts) →
      ∀ pre l, ts = pre ++ [l, i] → ∀ k ∈ pre, ∀ j U, s.mesh.Adj k j → s.mesh.tetras.get j = some U →
        (geo3 eps x).contains U p ≠ some true := by
  obtain ⟨pop', hp', hrun⟩ := guided_insertions (0 : OrderedFloat) (geo3_proper eps x) (dist := dist3 x) (ops3_ok _) hp
  have hs0 : StateOk 3 s0 := by
    obtain ⟨h1, _⟩ := insert3_consistent (geo3_proper eps x) (intersect := intersect3 x) popHead_ok (fuel := 0) (n := 0) h0 rfl
    refine ⟨h1, fun l hl => ?_⟩
    unfold start3 at h0
    cases hb : Mesh.basic3d with
    | none => rw [hb] at h0; cases h0
    | some M => rw [hb] at h0; cases h0; cases hl
  have hdone : insertMany (geo3 eps x) (ops3 (intersect3 x)) pop' fuel n s0 = .done s := by
    rcases hrun fuel n s0 hs0 with h' | ⟨h', _⟩
    · rw [← h', h]
    · rw [h] at h'
      cases h'
  refine ⟨⟨pop', hp', hdone⟩, ?_⟩
  intro p first fuel' i ts hf hfind
  have hcons := (insert3_consistent (geo3_proper eps x) hp' h0 hdone).1
  refine guided_location_next 0 _ _ hp hcons.linksLive hf ?_ fuel' hfind
  have four : ∀ i T, s.mesh.tetras.get i = some T → ∃ a b c d, T.points = [a, b, c, d] ∧ orient3 ⟨x a, x b, x c, x d⟩ ≠ 0 := by
    intro i T hT
    obtain ⟨a, b, c, d, e, _⟩ := delaunay3 heps ho hp' h0 hdone i T hT
    exact ⟨a, b, c, d, e, hasTetra_nonflat heps ho hp' h0 hdone ⟨i, T, hT, by rw [e]⟩⟩
  exact fun i j T U hT hU => guide3 (four i T hT) (four j U hU)

/-- The distance of a tetrahedron panics exactly if its containment test does: the distances are no additional
reason for a panic, except that they are computed for simplices which are not tested. -/
theorem dist3_panics {eps : ℝ} {x : ℕ → P3 ℝ} {T : Tetra} {a b c d : ℕ} (h : T.points = [a, b, c, d])
    (ho : orient3 ⟨x a, x b, x c, x d⟩ ≠ 0) (p : ℕ) :
    dist3 x T p = none ↔ (geo3 eps x).contains T p = none := by
  simp only [dist3, geo3, h, Option.map_eq_none_iff]
  exact (Predicates.tetra_distance _ ho (x p)).1

/-- A heap: the first element with the smallest distance is removed. -/
noncomputable def popMin (l : List (ℕ × OrderedFloat)) : Option ((ℕ × OrderedFloat) × List (ℕ × OrderedFloat)) :=
  (l.argmin Prod.snd).map fun x => (x, l.erase x)

theorem popMin_ok : HeapMin popMin := by
  refine ⟨rfl, fun l hl => ?_⟩
  cases h : l.argmin Prod.snd with
  | none => exact absurd (List.argmin_eq_none.1 h) hl
  | some x =>
    refine ⟨x, l.erase x, by simp [popMin, h], List.perm_cons_erase (List.argmin_mem h), fun y hy => ?_⟩
    exact List.le_of_mem_argmin (List.mem_of_mem_erase hy) h

/-- **C123** (plane): in general position the run with distances is completed. -/
theorem guided_plane_complete {x : ℕ → P2 ℝ} (ho : 0 < orient2 ⟨x 0, x 1, x 2⟩)
    {pop : List (ℕ × OrderedFloat) → Option ((ℕ × OrderedFloat) × List (ℕ × OrderedFloat))} (hp : HeapMin pop)
    {fuel n : ℕ} (hg : GeneralPosition x (3 + n)) (hin : ∀ i, i < 3 + n → InTriangle ⟨x 0, x 1, x 2⟩ (x i))
    (hf : 8 * n + 5 ≤ fuel) {s0 : State} (h0 : start2 = some s0) :
    ∃ s, insertManyGuided 0 (geo2 x) (dist2 x) ops2 pop fuel n s0 = .done s := by
  obtain ⟨pop', hp', hrun⟩ := guided_insertions (0 : OrderedFloat) (geo2_proper x) (dist := dist2 x) ops2_ok hp
  have hs0 : StateOk 2 s0 := by
    obtain ⟨h1, _, _, _, _, h3, _⟩ := insert2_consistent (geo2_proper x) popHead_ok (fuel := 0) (n := 0) h0 rfl
    exact ⟨h1, h3⟩
  rcases hrun fuel n s0 hs0 with h | ⟨_, k, s, _, hs, i, U, hU, hd⟩
  · rw [h]
    exact delaunay2_complete ho hp' hg hin hf h0
  · obtain ⟨a, b, c, e, _⟩ := delaunay2 ho hp' h0 hs i U hU
    simp [dist2, e] at hd

/-- A point whose weight for a vertex of a tetrahedron is zero is in the plane of the others. -/
private theorem flat_of_zero {t : Predicates.Tetra ℝ} {p : P3 ℝ} {w1 w2 w3 w4 : ℝ} (hw : Predicates.Bary3 t p w1 w2 w3 w4) :
    (w1 = 0 → orient3 ⟨t.p2, t.p3, t.p4, p⟩ = 0) ∧ (w2 = 0 → orient3 ⟨t.p1, t.p3, t.p4, p⟩ = 0) ∧
    (w3 = 0 → orient3 ⟨t.p1, t.p2, t.p4, p⟩ = 0) ∧ (w4 = 0 → orient3 ⟨t.p1, t.p2, t.p3, p⟩ = 0) := by
  obtain ⟨e, ex, ey, ez⟩ := hw
  simp only [Predicates.orient3_eq]
  refine ⟨fun h => ?_, fun h => ?_, fun h => ?_, fun h => ?_⟩
  · have : w2 = 1 - w3 - w4 := by linarith
    rw [ex, ey, ez, h, this]; ring
  · have : w1 = 1 - w3 - w4 := by linarith
    rw [ex, ey, ez, h, this]; ring
  · have : w1 = 1 - w2 - w4 := by linarith
    rw [ex, ey, ez, h, this]; ring
  · have : w1 = 1 - w2 - w3 := by linarith
    rw [ex, ey, ez, h, this]; ring

/-- **C123** (space): in general position the run with distances is completed. -/
theorem guided_space_complete {eps : ℝ} (heps : 0 < eps) {x : ℕ → P3 ℝ} (ho : 0 < orient3 ⟨x 0, x 1, x 2, x 3⟩)
    {pop : List (ℕ × OrderedFloat) → Option ((ℕ × OrderedFloat) × List (ℕ × OrderedFloat))} (hp : HeapMin pop)
    {fuel n : ℕ} (hg : GeneralPosition3 x (4 + n)) (hin : ∀ i, i < 4 + n → InTetra ⟨x 0, x 1, x 2, x 3⟩ (x i))
    (hf : 5 * (4 + n) ^ 4 + 1 ≤ fuel) {s0 : State} (h0 : start3 = some s0) :
    ∃ s, insertManyGuided 0 (geo3 eps x) (dist3 x) (ops3 (intersect3 x)) pop fuel n s0 = .done s := by
  obtain ⟨pop', hp', hrun⟩ := guided_insertions (0 : OrderedFloat) (geo3_proper eps x) (dist := dist3 x) (ops3_ok _) hp
  have hs0 : StateOk 3 s0 := by
    obtain ⟨h1, _⟩ := insert3_consistent (geo3_proper eps x) (intersect := intersect3 x) popHead_ok (fuel := 0) (n := 0) h0 rfl
    refine ⟨h1, fun l hl => ?_⟩
    unfold start3 at h0
    cases hb : Mesh.basic3d with
    | none => rw [hb] at h0; cases h0
    | some M => rw [hb] at h0; cases h0; cases hl
  rcases hrun fuel n s0 hs0 with h | ⟨_, k, s, hk, hs, i, U, hU, hd⟩
  · rw [h]
    exact delaunay3_complete heps ho hp' hg hin hf h0
  · exfalso
    obtain ⟨a, b, c, d, e, la, lb, lc, ld, _⟩ := delaunay3 heps ho hp' h0 hs i U hU
    have hne := hasTetra_nonflat heps ho hp' h0 hs ⟨i, U, hU, by rw [e]⟩
    obtain ⟨_, hn⟩ := run_space heps ho hp' h0 hs
    rw [hn, dist3_panics (eps := eps) e hne] at hd
    simp only [geo3, e] at hd
    obtain ⟨w1, w2, w3, w4, hw⟩ := Predicates.bary3_exists _ hne (x (4 + k))
    obtain ⟨f1, f2, f3, f4⟩ := flat_of_zero hw
    have nab : a ≠ b := fun h => hne (by rw [Predicates.orient3_eq, h]; ring)
    have nac : a ≠ c := fun h => hne (by rw [Predicates.orient3_eq, h]; ring)
    have nad : a ≠ d := fun h => hne (by rw [Predicates.orient3_eq, h]; ring)
    have nbc : b ≠ c := fun h => hne (by rw [Predicates.orient3_eq, h]; ring)
    have nbd : b ≠ d := fun h => hne (by rw [Predicates.orient3_eq, h]; ring)
    have ncd : c ≠ d := fun h => hne (by rw [Predicates.orient3_eq, h]; ring)
    have hp4 : ∀ u v w, u < 4 + k → v < 4 + k → w < 4 + k → u ≠ v → u ≠ w → v ≠ w →
        orient3 ⟨x u, x v, x w, x (4 + k)⟩ ≠ 0 := by
      intro u v w hu hv hw h1 h2 h3
      refine hg.plane u v w (4 + k) (by omega) (by omega) (by omega) (by omega) ?_
      simp
      omega
    rcases (Predicates.tetra_contains_correct _ hne _ w1 w2 w3 w4 hw).2.2 hd with h | h | h | h
    · exact hp4 b c d lb lc ld nbc nbd ncd (f1 h)
    · exact hp4 a c d la lc ld nac nad ncd (f2 h)
    · exact hp4 a b d la lb ld nab nad nbd (f3 h)
    · exact hp4 a b c la lb lc nab nac nbc (f4 h)

/-- Four points which meet the hypotheses: a triangle and a point in it. -/
def fourPoints : ℕ → P2 ℝ
  | 0 => ⟨0, 0⟩
  | 1 => ⟨4, 0⟩
  | 2 => ⟨0, 4⟩
  | _ => ⟨1, 1⟩

example : ∃ s0 s, start2 = some s0 ∧ 0 < orient2 ⟨fourPoints 0, fourPoints 1, fourPoints 2⟩ ∧ HeapMin popMin ∧
    insertManyGuided 0 (geo2 fourPoints) (dist2 fourPoints) ops2 popMin 20 1 s0 = .done s := by
  obtain ⟨s0, h0⟩ : ∃ s, start2 = some s := ⟨_, rfl⟩
  have ho : 0 < orient2 ⟨fourPoints 0, fourPoints 1, fourPoints 2⟩ := by norm_num [orient2, fourPoints]
  have hg : GeneralPosition fourPoints (3 + 1) := by
    constructor
    · intro i j k hi hj hk h1 h2 h3
      interval_cases i <;> interval_cases j <;> first | (exact absurd rfl h1) | skip
      all_goals interval_cases k <;> first | (exact absurd rfl h2) | (exact absurd rfl h3) | norm_num [orient2, fourPoints]
    · intro i j k l hi hj hk hl h1 h2 h3 h4 h5 h6
      interval_cases i <;> interval_cases j <;> first | (exact absurd rfl h1) | skip
      all_goals interval_cases k <;> first | (exact absurd rfl h2) | (exact absurd rfl h4) | skip
      all_goals interval_cases l <;> first | (exact absurd rfl h3) | (exact absurd rfl h5) | (exact absurd rfl h6) | skip
      all_goals
        rintro o ⟨g1, g2, g3⟩
        simp only [Predicates.distSq2, fourPoints] at g1 g2 g3
        linarith
  have hin : ∀ i, i < 3 + 1 → InTriangle ⟨fourPoints 0, fourPoints 1, fourPoints 2⟩ (fourPoints i) := by
    intro i hi
    interval_cases i
    · exact ⟨1, 0, 0, by norm_num, by norm_num, by norm_num, by norm_num [Bary2, fourPoints]⟩
    · exact ⟨0, 1, 0, by norm_num, by norm_num, by norm_num, by norm_num [Bary2, fourPoints]⟩
    · exact ⟨0, 0, 1, by norm_num, by norm_num, by norm_num, by norm_num [Bary2, fourPoints]⟩
    · exact ⟨1 / 2, 1 / 4, 1 / 4, by norm_num, by norm_num, by norm_num, by norm_num [Bary2, fourPoints]⟩
  obtain ⟨s, h⟩ := guided_plane_complete ho popMin_ok hg hin (fuel := 20) (by norm_num) h0
  exact ⟨s0, s, h0, ho, popMin_ok, h⟩

end Verif.Delaunay
