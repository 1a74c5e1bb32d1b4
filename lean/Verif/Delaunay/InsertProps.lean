import Verif.Delaunay.MeshProps
import Verif.Predicates.CircleProps
import Mathlib.Data.Rat.Defs
import Mathlib.Tactic.Ring

/-! # Insertion of points into a triangulation -/

namespace Verif.Delaunay

open Verif.Predicates (IntersectionType P2 P3 Triangle2)

/-! ### Two dimensions -/

private theorem insertPoint2 {g : Geo} (hg : g.Proper) {pop : Heaps} (hp : HeapsOk pop)
    {fuel n : ℕ} {s : State} (h : Built2 n s.mesh)
    (hl : ∀ l, s.last = some l → ∃ T, s.mesh.tetras.get l = some T) :
    (match insertPoint g ops2 pop fuel s with
      | .done (s', _) => StateOk 2 s' ∧ s'.mesh.numPoints = s.mesh.numPoints + 1 ∧ Built2 (n + 1) s'.mesh ∧
          ∃ l T, s'.last = some l ∧ s'.mesh.tetras.get l = some T
      | .panic => PanicReason g ops2 (Built2 (n + 1)) s
      | .running => True) :=
  insertPoint_spec ops2_ok hg hp ⟨(mesh2_consistent h).1, hl⟩
    (fun _ _ _ _ hT _ hs => .split h hT hs)
    (fun _ _ _ _ _ _ _ _ hm hT hs hc hq _ hf => .flip hm hT hs hc hq hf) fuel

private theorem insertMany2 {g : Geo} (hg : g.Proper) {pop : Heaps} (hp : HeapsOk pop)
    {fuel : ℕ} : ∀ {n k : ℕ} {s s' : State}, Built2 k s.mesh →
      (∀ l, s.last = some l → ∃ T, s.mesh.tetras.get l = some T) →
      insertMany g ops2 pop fuel n s = .done s' → Built2 (k + n) s'.mesh ∧
      (∀ l, s'.last = some l → ∃ T, s'.mesh.tetras.get l = some T) ∧ (0 < n → ∃ l, s'.last = some l)
  | 0, k, s, s', h, hl, hr => by
    cases hr
    exact ⟨h, hl, fun h => absurd h (Nat.lt_irrefl 0)⟩
  | n + 1, k, s, s', h, hl, hr => by
    have h1 := insertPoint2 hg hp (fuel := fuel) h hl
    unfold insertMany at hr
    revert h1 hr
    cases insertPoint g ops2 pop fuel s with
    | running => exact fun _ h => by cases h
    | panic => exact fun _ h => by cases h
    | done r =>
      obtain ⟨s1, ts⟩ := r
      rintro ⟨h1, _, h2, l, T, h3, h4⟩ hr
      obtain ⟨h5, h6, h7⟩ := insertMany2 hg hp h2 h1.last hr
      refine ⟨by rw [show k + (n + 1) = k + 1 + n by omega]; exact h5, h6, fun _ => ?_⟩
      rcases Nat.eq_zero_or_pos n with rfl | hn
      · cases hr
        exact ⟨l, h3⟩
      · exact h7 hn

/-- After inserting `n` points into the initial triangle, whatever the geometry (as long as a circumcircle test
never claims that a vertex of the triangle itself is inside) and whatever the order in which the heap of the
point location returns its elements: the mesh is consistent, has `1 + 2n` triangles, `3 + 3n` edges and `3 + n`
points, arose by splits and flips only, and the simplex remembered for the next point location exists. -/
theorem insert2_consistent {g : Geo} (hg : g.Proper) {pop : Heaps} (hp : HeapsOk pop)
    {fuel n : ℕ} {s0 s : State} (h0 : start2 = some s0) (h : insertMany g ops2 pop fuel n s0 = .done s) :
    Consistent 2 s.mesh ∧ s.mesh.tetras.len = 1 + 2 * n ∧ s.mesh.faces.len = 3 + 3 * n ∧
      s.mesh.numPoints = 3 + n ∧ Built2 n s.mesh ∧
      (∀ l, s.last = some l → ∃ T, s.mesh.tetras.get l = some T) ∧ (0 < n → ∃ l, s.last = some l) := by
  obtain ⟨M, hM⟩ : ∃ M, Mesh.basic2d = some M := ⟨_, rfl⟩
  have : s0 = ⟨M, none⟩ := by
    unfold start2 at h0
    rw [hM] at h0
    cases h0
    rfl
  subst this
  obtain ⟨h1, h2, h3⟩ := insertMany2 hg hp (.start hM) (fun _ h => by cases h) h
  rw [Nat.zero_add] at h1
  obtain ⟨h4, h5, h6, h7⟩ := mesh2_consistent h1
  exact ⟨h4, h5, h6, h7, h1, h2, h3⟩

/-- In two dimensions the next insertion can panic only because a containment test of an existing triangle is
degenerate, because no triangle contains the point, or because a circumcircle test is degenerate.  It never
follows a dangling index, and no flip panics. -/
theorem insert2_panics {g : Geo} (hg : g.Proper) {pop : Heaps} (hp : HeapsOk pop)
    {fuel fuel' n : ℕ} {s0 s : State} (h0 : start2 = some s0) (h : insertMany g ops2 pop fuel n s0 = .done s)
    (hr : insertPoint g ops2 pop fuel' s = .panic) :
    (∃ i T, s.mesh.tetras.get i = some T ∧ g.contains T s.mesh.numPoints = none) ∨
    ((∀ l, s.last = some l → ∀ i, s.mesh.Reach l i → ∃ T, s.mesh.tetras.get i = some T ∧
        g.contains T s.mesh.numPoints = some false) ∧
      (s.last = none → ∀ i T, s.mesh.tetras.get i = some T → g.contains T s.mesh.numPoints = some false)) ∨
    (∃ m t T fi c, Built2 (n + 1) m ∧ m.tetras.get t = some T ∧ (s.mesh.numPoints, fi) ∈ T.slots ∧
      fi.opposing = some c ∧ g.circ T c.point = none) := by
  obtain ⟨_, _, _, _, h1, h2, _⟩ := insert2_consistent hg hp h0 h
  have h3 := insertPoint2 hg hp (fuel := fuel') h1 h2
  rw [hr] at h3
  cases h3 with
  | contains i T h hc => exact Or.inl ⟨i, T, h, hc⟩
  | notFound h h' => exact Or.inr (Or.inl ⟨h, h'⟩)
  | circ m t T fi c hm ht hfi hc h => exact Or.inr (Or.inr ⟨m, t, T, fi, c, hm, ht, hfi, hc, h⟩)
  | flip m t T fi c hm ht hfi hc hq hci hf =>
    obtain ⟨r, hr⟩ := (mesh2_no_panic.2 _ _ hm t T ht).2 _ _ _ hfi hc hq
    rw [show ops2.flip m t fi.face = m.flip2d t fi.face from rfl, hr] at hf
    cases hf

/-- In two dimensions the next insertion ends after at most `8 n + 5` rounds of each of its loops. -/
theorem insert2_terminates {g : Geo} (hg : g.Proper) {pop : Heaps} (hp : HeapsOk pop)
    {fuel fuel' n : ℕ} {s0 s : State} (h0 : start2 = some s0) (h : insertMany g ops2 pop fuel n s0 = .done s)
    (hf : 8 * n + 5 ≤ fuel') : insertPoint g ops2 pop fuel' s ≠ .running := by
  obtain ⟨h1, h2, _, _, _, h3, _⟩ := insert2_consistent hg hp h0 h
  exact insertPoint_terminates ops2_ok hg hp ⟨h1, h3⟩ (by omega)

/-! ### Three dimensions -/

private theorem insertPoint3 {g : Geo} (hg : g.Proper)
    {intersect : List ℕ → ℕ → ℕ → Option IntersectionType} {pop : Heaps} (hp : HeapsOk pop)
    {fuel n : ℕ} {s : State} (h : Built3 n s.mesh)
    (hl : ∀ l, s.last = some l → ∃ T, s.mesh.tetras.get l = some T) :
    (match insertPoint g (ops3 intersect) pop fuel s with
      | .done (s', _) => StateOk 3 s' ∧ s'.mesh.numPoints = s.mesh.numPoints + 1 ∧ Built3 (n + 1) s'.mesh ∧
          ∃ l T, s'.last = some l ∧ s'.mesh.tetras.get l = some T
      | .panic => PanicReason g (ops3 intersect) (Built3 (n + 1)) s
      | .running => True) :=
  insertPoint_spec (ops3_ok intersect) hg hp ⟨(mesh3_consistent h).1, hl⟩
    (fun _ _ _ _ hT _ hs => .split h hT hs)
    (fun _ _ _ _ _ _ _ _ hm hT hs hc hq _ hf => .flip intersect hm hT hs hc hq hf) fuel

private theorem insertMany3 {g : Geo} (hg : g.Proper)
    {intersect : List ℕ → ℕ → ℕ → Option IntersectionType} {pop : Heaps} (hp : HeapsOk pop)
    {fuel : ℕ} : ∀ {n k : ℕ} {s s' : State}, Built3 k s.mesh →
      (∀ l, s.last = some l → ∃ T, s.mesh.tetras.get l = some T) →
      insertMany g (ops3 intersect) pop fuel n s = .done s' → Built3 (k + n) s'.mesh ∧
      (∀ l, s'.last = some l → ∃ T, s'.mesh.tetras.get l = some T) ∧ (0 < n → ∃ l, s'.last = some l)
  | 0, k, s, s', h, hl, hr => by
    cases hr
    exact ⟨h, hl, fun h => absurd h (Nat.lt_irrefl 0)⟩
  | n + 1, k, s, s', h, hl, hr => by
    have h1 := insertPoint3 hg (intersect := intersect) hp (fuel := fuel) h hl
    unfold insertMany at hr
    revert h1 hr
    cases insertPoint g (ops3 intersect) pop fuel s with
    | running => exact fun _ h => by cases h
    | panic => exact fun _ h => by cases h
    | done r =>
      obtain ⟨s1, ts⟩ := r
      rintro ⟨h1, _, h2, l, T, h3, h4⟩ hr
      obtain ⟨h5, h6, h7⟩ := insertMany3 hg hp h2 h1.last hr
      refine ⟨by rw [show k + (n + 1) = k + 1 + n by omega]; exact h5, h6, fun _ => ?_⟩
      rcases Nat.eq_zero_or_pos n with rfl | hn
      · cases hr
        exact ⟨l, h3⟩
      · exact h7 hn

/-- After inserting `n` points into the initial tetrahedron, whatever the geometry (as long as a circumsphere
test never claims that a vertex of the tetrahedron itself is inside) and whatever the order in which the heap of
the point location returns its elements: the mesh is consistent, arose by splits and flips only, has `4 + n`
points and two more than twice as many faces as tetrahedra, and the simplex remembered for the next point
location exists. -/
theorem insert3_consistent {g : Geo} (hg : g.Proper) {intersect : List ℕ → ℕ → ℕ → Option IntersectionType}
    {pop : Heaps} (hp : HeapsOk pop)
    {fuel n : ℕ} {s0 s : State} (h0 : start3 = some s0)
    (h : insertMany g (ops3 intersect) pop fuel n s0 = .done s) :
    Consistent 3 s.mesh ∧ s.mesh.faces.len = 2 * s.mesh.tetras.len + 2 ∧
      s.mesh.numPoints = 4 + n ∧ Built3 n s.mesh ∧
      (∀ l, s.last = some l → ∃ T, s.mesh.tetras.get l = some T) ∧ (0 < n → ∃ l, s.last = some l) := by
  obtain ⟨M, hM⟩ : ∃ M, Mesh.basic3d = some M := ⟨_, rfl⟩
  have : s0 = ⟨M, none⟩ := by
    unfold start3 at h0
    rw [hM] at h0
    cases h0
    rfl
  subst this
  obtain ⟨h1, h2, h3⟩ := insertMany3 hg hp (.start hM) (fun _ h => by cases h) h
  rw [Nat.zero_add] at h1
  obtain ⟨h4, h5, h6⟩ := mesh3_consistent h1
  exact ⟨h4, h5, h6, h1, h2, h3⟩

/-- In three dimensions the next insertion can panic only for one of the listed reasons.  It never follows a
dangling index. -/
theorem insert3_panics {g : Geo} (hg : g.Proper) {intersect : List ℕ → ℕ → ℕ → Option IntersectionType}
    {pop : Heaps} (hp : HeapsOk pop)
    {fuel fuel' n : ℕ} {s0 s : State} (h0 : start3 = some s0)
    (h : insertMany g (ops3 intersect) pop fuel n s0 = .done s)
    (hr : insertPoint g (ops3 intersect) pop fuel' s = .panic) :
    PanicReason g (ops3 intersect) (Built3 (n + 1)) s := by
  obtain ⟨_, _, _, h1, h2, _⟩ := insert3_consistent hg hp h0 h
  have h3 := insertPoint3 hg (intersect := intersect) hp (fuel := fuel') h1 h2
  rw [hr] at h3
  exact h3

/-- In three dimensions the next insertion ends after at most `5 m + 1` rounds of each of its loops, where `m`
is the current number of tetrahedra. -/
theorem insert3_terminates {g : Geo} (hg : g.Proper) {intersect : List ℕ → ℕ → ℕ → Option IntersectionType}
    {pop : Heaps} (hp : HeapsOk pop)
    {fuel fuel' n : ℕ} {s0 s : State} (h0 : start3 = some s0)
    (h : insertMany g (ops3 intersect) pop fuel n s0 = .done s)
    (hf : 5 * s.mesh.tetras.len + 1 ≤ fuel') : insertPoint g (ops3 intersect) pop fuel' s ≠ .running := by
  obtain ⟨h1, _, _, _, h3, _⟩ := insert3_consistent hg hp h0 h
  exact insertPoint_terminates (ops3_ok intersect) hg hp ⟨h1, h3⟩ (by omega)

/-! ### The geometric predicates of the code meet the hypothesis -/

section
variable {K : Type} [Field K] [LinearOrder K] [IsStrictOrderedRing K]

/-- The in-circle determinant vanishes for a vertex, so that the test panics instead of succeeding. -/
theorem geo2_proper (x : ℕ → P2 K) : (geo2 x).Proper := by
  intro T q h hq
  unfold geo2 at h
  dsimp only at h
  split at h
  · rename_i a b c hpts
    rw [hpts] at hq
    unfold Triangle2.circumcircleContains at h
    dsimp only at h
    have hz : ∀ d : K, d = 0 → (Predicates.Sign.of d).checkedNegative ≠ some true := by
      intro d hd
      subst hd
      simp [Predicates.Sign.of, Predicates.Sign.checkedNegative]
    refine absurd h (hz _ ?_)
    simp only [List.mem_cons, List.not_mem_nil, or_false] at hq
    rcases hq with rfl | rfl | rfl <;> simp [Predicates.determinant3x3] <;> ring
  · cases h

/-- The in-sphere determinant vanishes for a vertex, both in the floating point and in the exact path. -/
theorem geo3_proper (eps : K) (x : ℕ → P3 K) : (geo3 eps x).Proper := by
  intro T q h hq
  unfold geo3 at h
  dsimp only at h
  split at h
  · rename_i a b c d hpts
    rw [hpts] at hq
    unfold Predicates.Tetra.circumsphereContains at h
    dsimp only at h
    have hz : ∀ d : K, d = 0 → (Predicates.Sign.of d).checkedNegative ≠ some true := by
      intro d hd
      subst hd
      simp [Predicates.Sign.of, Predicates.Sign.checkedNegative]
    have hx := Predicates.float_formula_is_minus_determinant eps ⟨x a, x b, x c, x d⟩ (x q)
    have hdet : Predicates.determinant5x5 (Predicates.inSphereMatrix (x a) (x b) (x c) (x d) (x q)) = 0 := by
      simp only [List.mem_cons, List.not_mem_nil, or_false] at hq
      rcases hq with rfl | rfl | rfl | rfl <;>
        simp [Predicates.determinant5x5, Predicates.determinant4x4, Predicates.determinant3x3,
          Predicates.inSphereMatrix] <;> ring
    split at h
    · unfold Predicates.Tetra.circumsphereContainsExact at h
      exact absurd h (hz _ hdet)
    · rw [hx, hdet, neg_zero] at h
      simp [Predicates.Sign.of] at h
  · cases h

end

/-! ### Examples -/

/-- A heap which returns its elements in the order in which they were added. -/
def popHead : Heaps
  | _, [] => none
  | _, x :: l => some (x, l)

theorem popHead_ok : HeapsOk popHead :=
  fun _ => ⟨rfl, fun l hl => by
    cases l with
    | nil => exact absurd rfl hl
    | cons x l => exact ⟨x, l, rfl, List.Perm.refl _⟩⟩

/-- Whether a computation ended normally. -/
def Outcome.isDone {α : Type} : Outcome α → Bool
  | .done _ => true
  | _ => false

/-- Seven points in general position, the first three surround the others. -/
def examplePoints2 : ℕ → P2 ℚ
  | 0 => ⟨0, 3⟩
  | 1 => ⟨-1, -1⟩
  | 2 => ⟨3, 0⟩
  | 3 => ⟨1 / 3, 1 / 2⟩
  | 4 => ⟨2 / 3, 1 / 5⟩
  | 5 => ⟨1 / 7, 4 / 5⟩
  | _ => ⟨1 / 2, 4 / 5⟩

/-- The insertion of four points into the plane is completed, so that the hypotheses of the theorems in two
dimensions hold. -/
example : ∃ s0 s, start2 = some s0 ∧ insertMany (geo2 examplePoints2) ops2 popHead 40 4 s0 = .done s ∧
    (geo2 examplePoints2).Proper ∧ HeapsOk popHead := by
  obtain ⟨s0, h0⟩ : ∃ s, start2 = some s := ⟨_, rfl⟩
  have h1 : (start2.map fun s => (insertMany (geo2 examplePoints2) ops2 popHead 40 4 s).isDone) = some true := by
    decide +kernel
  rw [h0] at h1
  simp only [Option.map_some, Option.some.injEq] at h1
  revert h1
  cases hr : insertMany (geo2 examplePoints2) ops2 popHead 40 4 s0 with
  | done s => exact fun _ => ⟨s0, s, h0, hr, geo2_proper _, popHead_ok⟩
  | panic => exact fun h => by cases h
  | running => exact fun h => by cases h

/-- Whether a computation panicked. -/
def Outcome.isPanic {α : Type} : Outcome α → Bool
  | .panic => true
  | _ => false

/-- A point on the edge of the only triangle: the insertion panics because the containment test does. -/
example : (start2.map fun s => (insertPoint (geo2 fun n => if n = 3 then (⟨1, -1 / 2⟩ : P2 ℚ) else
    examplePoints2 n) ops2 popHead 40 s).isPanic) = some true := by decide +kernel

/-- Points in space, the first four surround the others. -/
def examplePoints3 : ℕ → P3 ℚ
  | 0 => ⟨-10, -10, -10⟩
  | 1 => ⟨30, -9, -11⟩
  | 2 => ⟨-8, 31, -12⟩
  | 3 => ⟨-9, -7, 32⟩
  | 4 => ⟨1 / 3, 1 / 2, 1 / 7⟩
  | 5 => ⟨2 / 3, 1 / 5, 2⟩
  | 6 => ⟨3, -1 / 3, 1 / 5⟩
  | _ => ⟨1 / 2, 4 / 5, 3⟩

/-- The insertion of three points in space is completed, so that the hypotheses of the theorems in three
dimensions hold. -/
example : ∃ s0 s, start3 = some s0 ∧ insertMany (geo3 (1 / 100) examplePoints3)
      (ops3 (intersect3 examplePoints3)) popHead 80 3 s0 = .done s ∧
    (geo3 (1 / 100) examplePoints3).Proper ∧ HeapsOk popHead := by
  obtain ⟨s0, h0⟩ : ∃ s, start3 = some s := ⟨_, rfl⟩
  have h1 : (start3.map fun s => (insertMany (geo3 (1 / 100) examplePoints3)
      (ops3 (intersect3 examplePoints3)) popHead 80 3 s).isDone) = some true := by
    decide +kernel
  rw [h0] at h1
  simp only [Option.map_some, Option.some.injEq] at h1
  revert h1
  cases hr : insertMany (geo3 (1 / 100) examplePoints3) (ops3 (intersect3 examplePoints3)) popHead 80 3 s0 with
  | done s => exact fun _ => ⟨s0, s, h0, hr, geo3_proper _ _, popHead_ok⟩
  | panic => exact fun h => by cases h
  | running => exact fun h => by cases h

end Verif.Delaunay
