import Verif.Voronoi.PolygonLemmas
import Verif.Voronoi.CellSpec
import Verif.Predicates.CircleProps
import Mathlib.Tactic.FieldSimp
import Mathlib.Tactic.IntervalCases
import Mathlib.Tactic.LinearCombination

/-! # C58: area and containment formulas of polygons -/

namespace Verif.Voronoi

open Verif.Predicates (P2 P3 Triangle2 orient2 cross)

/-- The area of a triangle. -/
noncomputable def triangleArea (a b c : P2 ℝ) : ℝ := |orient2 ⟨a, b, c⟩| / 2

theorem cyclicSum_sides {α β : Type} [AddCommMonoid β] (f : α → α → β) (l : List α) :
    cyclicSum f l = ((sidesOf l).map fun e => f e.1 e.2).sum := by
  unfold cyclicSum sidesOf
  rw [List.map_zip_eq_zipWith]
  rfl

private theorem sum_nonpos : ∀ {l : List ℝ}, (∀ x ∈ l, x ≤ 0) → l.sum ≤ 0
  | [], _ => le_refl _
  | a :: l, h => by
    have h1 := sum_nonpos (l := l) fun x hx => h x (List.mem_cons_of_mem _ hx)
    have h2 := h a List.mem_cons_self
    rw [List.sum_cons]
    linarith

private theorem shoelace (c : P2 ℝ) (l : List (P2 ℝ)) :
    cyclicSum (fun p1 p2 : P2 ℝ => p1.x * p2.y - p2.x * p1.y) l = cyclicSum (fun a b => orient2 ⟨c, a, b⟩) l := by
  have h := cyclicSum_telescope (fun a : P2 ℝ => c.x * a.y - c.y * a.x) l
  have h2 := cyclicSum_add (fun a b => orient2 ⟨c, a, b⟩)
    (fun a b : P2 ℝ => (c.x * b.y - c.y * b.x) - (c.x * a.y - c.y * a.x)) l
  rw [h, add_zero] at h2
  rw [← h2]
  congr 1
  funext a b
  unfold orient2
  ring

private theorem volume2_eq (l : List (P2 ℝ)) :
    volume2 l = some (0.5 * |cyclicSum (fun p1 p2 : P2 ℝ => p1.x * p2.y - p2.x * p1.y) l|) := by
  have h := mapWindows_sum (f := fun p1 p2 : P2 ℝ => p1.x * p2.y - p2.x * p1.y) (fun a => by ring) l
  unfold volume2
  cases hm : mapWindows l (fun p1 p2 : P2 ℝ => p1.x * p2.y - p2.x * p1.y) with
  | none => rw [hm] at h; cases h
  | some r =>
    rw [hm] at h
    simp only [Option.map_some, Option.some.injEq] at h ⊢
    rw [h]

/-- The volume of a cell in two dimensions does not depend on the vertex and the direction with which the
arrangement of its vertices starts. -/
theorem volume2_same_polygon {l l' : List (P2 ℝ)} (h : SamePolygon l l') : volume2 l' = volume2 l := by
  have hrot : ∀ {a b : List (P2 ℝ)}, a ~r b → volume2 a = volume2 b := by
    rintro a b ⟨n, rfl⟩
    rw [volume2_eq, volume2_eq, cyclicSum_rotate]
  rcases h with h | h
  · exact hrot h
  · rw [hrot h, volume2_eq, volume2_eq, cyclicSum_reverse]
    have h2 := cyclicSum_add (fun a b : P2 ℝ => b.x * a.y - a.x * b.y) (fun a b : P2 ℝ => a.x * b.y - b.x * a.y) l
    have h3 : cyclicSum (fun a b : P2 ℝ => b.x * a.y - a.x * b.y + (a.x * b.y - b.x * a.y)) l = 0 := by
      rw [← cyclicSum_telescope (fun _ : P2 ℝ => (0 : ℝ)) l]
      congr 1
      funext a b
      ring
    rw [h3] at h2
    rw [eq_neg_of_add_eq_zero_left h2.symm, abs_neg]

/-- If all sides of the polygon have `c` on the same side, the volume is the sum of the areas of the triangles
which the sides form with `c`. -/
theorem volume2_is_area (l : List (P2 ℝ)) (c : P2 ℝ)
    (h : (∀ e ∈ sidesOf l, 0 ≤ orient2 ⟨c, e.1, e.2⟩) ∨ ∀ e ∈ sidesOf l, orient2 ⟨c, e.1, e.2⟩ ≤ 0) :
    volume2 l = some ((sidesOf l).map fun e => triangleArea c e.1 e.2).sum := by
  rw [volume2_eq, shoelace c, cyclicSum_sides]
  unfold triangleArea
  generalize sidesOf l = s at h
  congr 1
  rcases h with h | h
  · have hn : 0 ≤ (s.map fun e => orient2 ⟨c, e.1, e.2⟩).sum := by
      refine List.sum_nonneg ?_
      intro x hx
      obtain ⟨e, he, rfl⟩ := List.mem_map.1 hx
      exact h e he
    rw [abs_of_nonneg hn]
    clear hn
    induction s with
    | nil => norm_num
    | cons e s ih =>
      simp only [List.map_cons, List.sum_cons]
      rw [← ih fun e he => h e (List.mem_cons_of_mem _ he), abs_of_nonneg (h e List.mem_cons_self)]
      ring
  · have hn : (s.map fun e => orient2 ⟨c, e.1, e.2⟩).sum ≤ 0 := by
      refine sum_nonpos ?_
      intro x hx
      obtain ⟨e, he, rfl⟩ := List.mem_map.1 hx
      exact h e he
    rw [abs_of_nonpos hn]
    clear hn
    induction s with
    | nil => norm_num
    | cons e s ih =>
      simp only [List.map_cons, List.sum_cons]
      rw [← ih fun e he => h e (List.mem_cons_of_mem _ he), abs_of_nonpos (h e List.mem_cons_self)]
      ring

/-- A point is in the cell if it is not strictly on different sides of two sides of the polygon; for a polygon
whose vertices are in counterclockwise order around some area (seen from any point `c` the signed areas of the
triangles add up to a positive number) exactly if it is on the left of all sides or on them. -/
theorem contains2_iff (l : List (P2 ℝ)) (c p : P2 ℝ)
    (h : 0 < ((sidesOf l).map fun e => orient2 ⟨c, e.1, e.2⟩).sum) :
    contains2 l p = some true ↔ ∀ e ∈ sidesOf l, 0 ≤ orient2 ⟨p, e.1, e.2⟩ := by
  have hsum : 0 < ((sidesOf l).map fun e => orient2 ⟨p, e.1, e.2⟩).sum := by
    rw [← cyclicSum_sides (fun a b => orient2 ⟨p, a, b⟩), ← shoelace p, shoelace c,
      cyclicSum_sides (fun a b => orient2 ⟨c, a, b⟩)]
    exact h
  have hlen : ¬l.length < 2 := by
    intro hl
    have := cyclicSum_small (f := fun a b => orient2 ⟨p, a, b⟩) (fun a => by unfold orient2; ring) hl
    rw [cyclicSum_sides] at this
    rw [this] at hsum
    exact lt_irrefl _ hsum
  have hw : mapWindows l (fun p1 p2 => sign p p1 p2) = some ((sidesOf l).map fun e => orient2 ⟨p, e.1, e.2⟩) := by
    rw [mapWindows_eq, if_neg hlen]
    unfold sidesOf
    rw [List.map_zip_eq_zipWith]
    congr 2
    funext a b
    dsimp only [Function.curry]
    unfold sign orient2
    ring
  unfold contains2
  rw [hw]
  simp only [Option.map_some, Option.some.injEq]
  generalize sidesOf l = s at hsum
  have hpos : ∃ e ∈ s, 0 < orient2 ⟨p, e.1, e.2⟩ := by
    by_contra hcon
    push Not at hcon
    have : (s.map fun e => orient2 ⟨p, e.1, e.2⟩).sum ≤ 0 := by
      refine sum_nonpos ?_
      intro x hx
      obtain ⟨e, he, rfl⟩ := List.mem_map.1 hx
      exact hcon e he
    exact absurd hsum (not_lt.2 this)
  have hp : ((s.map fun e => orient2 ⟨p, e.1, e.2⟩).any fun x => decide (x > 0)) = true := by
    obtain ⟨e, he, hx⟩ := hpos
    rw [List.any_eq_true]
    exact ⟨_, List.mem_map_of_mem (f := fun e : P2 ℝ × P2 ℝ => orient2 ⟨p, e.1, e.2⟩) he, by simpa using hx⟩
  rw [hp]
  simp [not_lt]

/-- The same for a polygon whose vertices are in clockwise order. -/
theorem contains2_iff_clockwise (l : List (P2 ℝ)) (c p : P2 ℝ)
    (h : ((sidesOf l).map fun e => orient2 ⟨c, e.1, e.2⟩).sum < 0) :
    contains2 l p = some true ↔ ∀ e ∈ sidesOf l, orient2 ⟨p, e.1, e.2⟩ ≤ 0 := by
  have hsum : ((sidesOf l).map fun e => orient2 ⟨p, e.1, e.2⟩).sum < 0 := by
    rw [← cyclicSum_sides (fun a b => orient2 ⟨p, a, b⟩), ← shoelace p, shoelace c,
      cyclicSum_sides (fun a b => orient2 ⟨c, a, b⟩)]
    exact h
  have hlen : ¬l.length < 2 := by
    intro hl
    have := cyclicSum_small (f := fun a b => orient2 ⟨p, a, b⟩) (fun a => by unfold orient2; ring) hl
    rw [cyclicSum_sides] at this
    rw [this] at hsum
    exact lt_irrefl _ hsum
  have hw : mapWindows l (fun p1 p2 => sign p p1 p2) = some ((sidesOf l).map fun e => orient2 ⟨p, e.1, e.2⟩) := by
    rw [mapWindows_eq, if_neg hlen]
    unfold sidesOf
    rw [List.map_zip_eq_zipWith]
    congr 2
    funext a b
    dsimp only [Function.curry]
    unfold sign orient2
    ring
  unfold contains2
  rw [hw]
  simp only [Option.map_some, Option.some.injEq]
  generalize sidesOf l = s at hsum
  have hneg : ∃ e ∈ s, orient2 ⟨p, e.1, e.2⟩ < 0 := by
    by_contra hcon
    push Not at hcon
    have : 0 ≤ (s.map fun e => orient2 ⟨p, e.1, e.2⟩).sum := by
      refine List.sum_nonneg ?_
      intro x hx
      obtain ⟨e, he, rfl⟩ := List.mem_map.1 hx
      exact hcon e he
    exact absurd hsum (not_lt.2 this)
  have hp : ((s.map fun e => orient2 ⟨p, e.1, e.2⟩).any fun x => decide (x < 0)) = true := by
    obtain ⟨e, he, hx⟩ := hneg
    rw [List.any_eq_true]
    exact ⟨_, List.mem_map_of_mem (f := fun e : P2 ℝ × P2 ℝ => orient2 ⟨p, e.1, e.2⟩) he, by simpa using hx⟩
  rw [hp]
  simp [not_lt]

/-- A square: its volume and some points inside and outside. -/
example : volume2 [⟨0, 0⟩, ⟨2, 0⟩, ⟨2, 2⟩, ⟨0, 2⟩] = some 4 := by
  rw [volume2_eq]
  simp [cyclicSum]
  norm_num

example : 0 < ((sidesOf [(⟨0, 0⟩ : P2 ℝ), ⟨2, 0⟩, ⟨2, 2⟩, ⟨0, 2⟩]).map
    fun e => orient2 ⟨⟨1, 1⟩, e.1, e.2⟩).sum := by
  simp [sidesOf, orient2]
  norm_num

/-! ### Polygons in space -/

/-- The point with coordinates `q` in the plane through `o` spanned by `u` and `v`. -/
def inPlane (o u v : P3 ℝ) (q : P2 ℝ) : P3 ℝ :=
  ⟨o.x + q.x * u.x + q.y * v.x, o.y + q.x * u.y + q.y * v.y, o.z + q.x * u.z + q.y * v.z⟩

/-- `u` and `v` are orthogonal unit vectors. -/
structure Orthonormal (u v : P3 ℝ) : Prop where
  u1 : u.x * u.x + u.y * u.y + u.z * u.z = 1
  v1 : v.x * v.x + v.y * v.y + v.z * v.z = 1
  uv : u.x * v.x + u.y * v.y + u.z * v.z = 0

/-- The vertices of a convex polygon in the plane, in counterclockwise or in clockwise order. -/
def ConvexPolygon (q : List (P2 ℝ)) : Prop :=
  (∀ (i j k : ℕ) (a b c : P2 ℝ), i < j → j < k → q[i]? = some a → q[j]? = some b → q[k]? = some c →
    0 ≤ orient2 ⟨a, b, c⟩) ∨
  (∀ (i j k : ℕ) (a b c : P2 ℝ), i < j → j < k → q[i]? = some a → q[j]? = some b → q[k]? = some c →
    orient2 ⟨a, b, c⟩ ≤ 0)

private theorem cross_length {o u v : P3 ℝ} (h : Orthonormal u v) (r a b : P2 ℝ) :
    length3 (cross ((inPlane o u v r).sub (inPlane o u v a)) ((inPlane o u v r).sub (inPlane o u v b))) =
      |orient2 ⟨r, a, b⟩| := by
  have hu := h.u1
  have hv := h.v1
  have huv := h.uv
  have hw : (u.y * v.z - u.z * v.y) ^ 2 + (u.z * v.x - u.x * v.z) ^ 2 + (u.x * v.y - u.y * v.x) ^ 2 = 1 := by
    have : (u.y * v.z - u.z * v.y) ^ 2 + (u.z * v.x - u.x * v.z) ^ 2 + (u.x * v.y - u.y * v.x) ^ 2 =
        (u.x * u.x + u.y * u.y + u.z * u.z) * (v.x * v.x + v.y * v.y + v.z * v.z) -
          (u.x * v.x + u.y * v.y + u.z * v.z) ^ 2 := by ring
    rw [this, hu, hv, huv]
    norm_num
  unfold length3
  rw [← Real.sqrt_sq_eq_abs]
  congr 1
  have key : ∀ w : ℝ, w = 1 → orient2 ⟨r, a, b⟩ ^ 2 = orient2 ⟨r, a, b⟩ ^ 2 * w := fun w hw => by rw [hw, mul_one]
  rw [key _ hw]
  unfold orient2 cross inPlane P3.sub
  ring

private theorem sides_orient {q : List (P2 ℝ)} {r : P2 ℝ} (hr : q[0]? = some r) {P : ℝ → Prop} (h0 : P 0)
    (h : ∀ (i j k : ℕ) (a b c : P2 ℝ), i < j → j < k → q[i]? = some a → q[j]? = some b → q[k]? = some c →
      P (orient2 ⟨a, b, c⟩)) : ∀ e ∈ sidesOf q, P (orient2 ⟨r, e.1, e.2⟩) := by
  intro e he
  obtain ⟨i, hi⟩ := List.mem_iff_getElem?.1 he
  unfold sidesOf at hi
  rw [List.getElem?_zip_eq_some] at hi
  have hil := (List.getElem?_eq_some_iff.1 hi.1).1
  rw [List.getElem?_rotate hil] at hi
  by_cases hi0 : i = 0
  · subst hi0
    have : r = e.1 := Option.some.inj (hr.symm.trans hi.1)
    rw [← this]
    have : orient2 ⟨r, r, e.2⟩ = 0 := by unfold orient2; ring
    rw [this]
    exact h0
  · by_cases hin : i + 1 < q.length
    · rw [Nat.mod_eq_of_lt hin] at hi
      exact h 0 i (i + 1) _ _ _ (by omega) (by omega) hr hi.1 hi.2
    · rw [show i + 1 = q.length by omega, Nat.mod_self, hr] at hi
      have : r = e.2 := Option.some.inj hi.2
      rw [← this]
      have : orient2 ⟨r, e.1, r⟩ = 0 := by unfold orient2; ring
      rw [this]
      exact h0

/-- The area of a plane convex polygon in space is the area which the formula for two dimensions gives in any
orthonormal coordinates of the plane. -/
theorem polygon_area_plane {o u v : P3 ℝ} (huv : Orthonormal u v) {q : List (P2 ℝ)} (hne : q ≠ [])
    (hq : ConvexPolygon q) : polygonArea (q.map (inPlane o u v)) = volume2 q := by
  obtain ⟨r, hr⟩ : ∃ r, q[0]? = some r := by
    cases q with
    | nil => exact absurd rfl hne
    | cons r q => exact ⟨r, rfl⟩
  have harea : polygonArea (q.map (inPlane o u v)) =
      some ((sidesOf q).map fun e => triangleArea r e.1 e.2).sum := by
    unfold polygonArea
    rw [List.getElem?_map, hr]
    dsimp only [Option.map_some]
    rw [mapWindows_sum (by intro a; simp [length3, cross])]
    congr 1
    unfold cyclicSum
    rw [← List.map_rotate, List.zipWith_map, ← cyclicSum_sides (fun a b => triangleArea r a b)]
    unfold cyclicSum
    congr 2
    funext a b
    rw [cross_length huv]
    unfold triangleArea
    ring
  rw [harea, volume2_is_area q r]
  rcases hq with h | h
  · exact Or.inl (sides_orient hr (P := fun x => 0 ≤ x) (le_refl _) h)
  · exact Or.inr (sides_orient hr (P := fun x => x ≤ 0) (le_refl _) h)

private theorem convex_rotate_one {q : List (P2 ℝ)} (h : ConvexPolygon q) : ConvexPolygon (q.rotate 1) := by
  cases q with
  | nil => exact h
  | cons a q =>
    rw [List.rotate_cons_succ, List.rotate_zero]
    have key : ∀ (i j k : ℕ) (x y z : P2 ℝ), i < j → j < k → (q ++ [a])[i]? = some x → (q ++ [a])[j]? = some y →
        (q ++ [a])[k]? = some z → ∃ (i' j' k' : ℕ) (x' y' z' : P2 ℝ), i' < j' ∧ j' < k' ∧ (a :: q)[i']? = some x' ∧
          (a :: q)[j']? = some y' ∧ (a :: q)[k']? = some z' ∧ orient2 ⟨x, y, z⟩ = orient2 ⟨x', y', z'⟩ := by
      intro i j k x y z hij hjk hx hy hz
      have hk := (List.getElem?_eq_some_iff.1 hz).1
      rw [List.length_append, List.length_singleton] at hk
      rw [List.getElem?_append_left (by omega)] at hx hy
      by_cases hkl : k < q.length
      · rw [List.getElem?_append_left hkl] at hz
        exact ⟨i + 1, j + 1, k + 1, x, y, z, by omega, by omega, by simpa using hx, by simpa using hy,
          by simpa using hz, rfl⟩
      · rw [List.getElem?_append_right (by omega), show k - q.length = 0 by omega] at hz
        have : a = z := by simpa using hz
        subst this
        refine ⟨0, i + 1, j + 1, a, x, y, by omega, by omega, rfl, by simpa using hx, by simpa using hy, ?_⟩
        unfold orient2
        ring
    rcases h with h | h
    · left
      intro i j k x y z hij hjk hx hy hz
      obtain ⟨i', j', k', x', y', z', h1, h2, h3, h4, h5, h6⟩ := key i j k x y z hij hjk hx hy hz
      rw [h6]
      exact h i' j' k' x' y' z' h1 h2 h3 h4 h5
    · right
      intro i j k x y z hij hjk hx hy hz
      obtain ⟨i', j', k', x', y', z', h1, h2, h3, h4, h5, h6⟩ := key i j k x y z hij hjk hx hy hz
      rw [h6]
      exact h i' j' k' x' y' z' h1 h2 h3 h4 h5

private theorem convex_rotate {q : List (P2 ℝ)} (h : ConvexPolygon q) (n : ℕ) : ConvexPolygon (q.rotate n) := by
  induction n with
  | zero => rw [List.rotate_zero]; exact h
  | succ n ih =>
    rw [← List.rotate_rotate]
    exact convex_rotate_one ih

private theorem convex_reverse {q : List (P2 ℝ)} (h : ConvexPolygon q) : ConvexPolygon q.reverse := by
  have key : ∀ (i j k : ℕ) (x y z : P2 ℝ), i < j → j < k → q.reverse[i]? = some x → q.reverse[j]? = some y →
      q.reverse[k]? = some z → ∃ (i' j' k' : ℕ) (x' y' z' : P2 ℝ), i' < j' ∧ j' < k' ∧ q[i']? = some x' ∧
        q[j']? = some y' ∧ q[k']? = some z' ∧ orient2 ⟨x, y, z⟩ = -orient2 ⟨x', y', z'⟩ := by
    intro i j k x y z hij hjk hx hy hz
    have hk := (List.getElem?_eq_some_iff.1 hz).1
    rw [List.length_reverse] at hk
    rw [List.getElem?_reverse (by omega)] at hx hy hz
    refine ⟨_, _, _, z, y, x, ?_, ?_, hz, hy, hx, ?_⟩
    · omega
    · omega
    · unfold orient2
      ring
  rcases h with h | h
  · right
    intro i j k x y z hij hjk hx hy hz
    obtain ⟨i', j', k', x', y', z', h1, h2, h3, h4, h5, h6⟩ := key i j k x y z hij hjk hx hy hz
    have := h i' j' k' x' y' z' h1 h2 h3 h4 h5
    linarith
  · left
    intro i j k x y z hij hjk hx hy hz
    obtain ⟨i', j', k', x', y', z', h1, h2, h3, h4, h5, h6⟩ := key i j k x y z hij hjk hx hy hz
    have := h i' j' k' x' y' z' h1 h2 h3 h4 h5
    linarith

/-- The area of a plane convex polygon in space does not depend on the vertex and the direction with which the
arrangement of its vertices starts. -/
theorem polygon_area_same_polygon {o u v : P3 ℝ} (huv : Orthonormal u v) {q : List (P2 ℝ)} (hq : ConvexPolygon q)
    {l' : List (P3 ℝ)} (h : SamePolygon (q.map (inPlane o u v)) l') :
    polygonArea l' = polygonArea (q.map (inPlane o u v)) := by
  by_cases hne : q = []
  · subst hne
    rcases h with ⟨n, h⟩ | ⟨n, h⟩
    · have : l' = [] := by
        have := congrArg List.length h
        simpa using this
      rw [this]
      rfl
    · have : l' = [] := by
        have := congrArg List.length h
        simpa using this
      rw [this]
      rfl
  · obtain ⟨q', hq', hc', rfl, hs⟩ : ∃ q', q' ≠ [] ∧ ConvexPolygon q' ∧ l' = q'.map (inPlane o u v) ∧
        SamePolygon q q' := by
      rcases h with h | h
      · obtain ⟨n, rfl⟩ := h.symm
        refine ⟨q.rotate n, by simpa using hne, convex_rotate hq n, (List.map_rotate ..).symm, Or.inl ?_⟩
        exact (List.IsRotated.forall q n)
      · obtain ⟨n, rfl⟩ := h.symm
        refine ⟨q.reverse.rotate n, by simpa using hne, convex_rotate (convex_reverse hq) n, ?_, Or.inr ?_⟩
        · rw [List.map_rotate, List.map_reverse]
        · exact (List.IsRotated.forall q.reverse n)
    rw [polygon_area_plane huv hq' hc', polygon_area_plane huv hne hq, volume2_same_polygon hs]

/-- A square in a tilted plane. -/
example : Orthonormal ⟨0, 1, 0⟩ ⟨3 / 5, 0, 4 / 5⟩ ∧ ConvexPolygon [⟨0, 0⟩, ⟨2, 0⟩, ⟨2, 2⟩, ⟨0, 2⟩] := by
  refine ⟨⟨by norm_num, by norm_num, by norm_num⟩, Or.inl ?_⟩
  intro i j k a b c hij hjk ha hb hc
  have hk := (List.getElem?_eq_some_iff.1 hc).1
  simp at hk
  interval_cases k <;> interval_cases j <;> interval_cases i <;> simp_all <;> subst ha <;> subst hb <;> subst hc <;>
    norm_num [orient2]

/-- Without convexity the area depends on the vertex at which the list of vertices starts. -/
theorem polygon_area_depends_on_start : ∃ l l' : List (P3 ℝ), SamePolygon l l' ∧ polygonArea l ≠ polygonArea l' := by
  refine ⟨[⟨0, 0, 0⟩, ⟨4, 0, 0⟩, ⟨1, 1, 0⟩, ⟨0, 4, 0⟩], [⟨4, 0, 0⟩, ⟨1, 1, 0⟩, ⟨0, 4, 0⟩, ⟨0, 0, 0⟩],
    Or.inl ⟨3, rfl⟩, ?_⟩
  unfold polygonArea
  dsimp only [List.getElem?_cons_zero]
  rw [mapWindows_eq, mapWindows_eq]
  simp [length3, cross, P3.sub]
  norm_num [Real.sqrt_mul_self_eq_abs]
  rw [show (64 : ℝ) = 8 ^ 2 by norm_num, Real.sqrt_sq (by norm_num)]
  norm_num

end Verif.Voronoi
