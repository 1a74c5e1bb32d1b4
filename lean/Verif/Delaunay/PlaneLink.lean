import Verif.Delaunay.PlaneSteps
import Verif.Delaunay.InsertProps
import Verif.Predicates.SimplexProps

/-! # The triangulation of the code as a triangulation of the plane: lemmas -/

namespace Verif.Delaunay

open Verif.Predicates (P2 Triangle2 orient2 distSq2)

variable {K : Type} [Field K] [LinearOrder K] [IsStrictOrderedRing K]

/-- The triangle `i` has the vertices `a, b, c`, in this cyclic order. -/
def At (M : Mesh) (i a b c : ℕ) : Prop :=
  ∃ T, M.tetras.get i = some T ∧ (T.points = [a, b, c] ∨ T.points = [b, c, a] ∨ T.points = [c, a, b])

/-- Every triangle lies to the left of its edges, if the direction of an edge is changed by the flag
`flipped`. -/
def Facing (x : ℕ → P2 K) (M : Mesh) : Prop :=
  ∀ i T, M.tetras.get i = some T → ∀ v s, (v, s) ∈ T.slots → ∀ a b, M.faces.get s.face = some [a, b] →
    0 < area (x (if s.flipped then b else a)) (x (if s.flipped then a else b)) (x v)

/-- Edges with the same end points are the same. -/
def FacesUnique (M : Mesh) : Prop :=
  ∀ f g pts pts', M.faces.get f = some pts → M.faces.get g = some pts' → (∀ z, z ∈ pts ↔ z ∈ pts') → f = g

theorem at_iff {M : Mesh} {i : ℕ} {T : Tetra} (h : M.tetras.get i = some T) {p q r : ℕ} (hp : T.points = [p, q, r])
    (a b c : ℕ) : At M i a b c ↔ Cyc3 p q r a b c := by
  unfold At Cyc3
  constructor
  · rintro ⟨T', hT', h'⟩
    rw [h] at hT'
    cases hT'
    rw [hp] at h'
    simp only [List.cons.injEq, and_true] at h'
    omega
  · intro h'
    refine ⟨T, h, ?_⟩
    rw [hp]
    simp only [List.cons.injEq, and_true]
    omega

theorem Consistent.points_three {M : Mesh} (h : Consistent 2 M) {i : ℕ} {T : Tetra}
    (hT : M.tetras.get i = some T) : ∃ a b c, T.points = [a, b, c] := by
  have h1 := h.size i T hT
  have h2 : T.points.length = 3 := by simpa [Tetra.points] using h1
  match hp : T.points, h2 with
  | [a, b, c], _ => exact ⟨a, b, c, rfl⟩

/-- The triangles after an operation. -/
theorem Replaced.at {M M0 M' : Mesh} {olds : List ℕ} {news : List Tetra} (h : Consistent 2 M)
    (hold : ∀ o ∈ olds, o < M.tetras.next)
    (hr : Replaced M M0 olds news M') (i a b c : ℕ) :
    At M' i a b c ↔ (i ∉ olds ∧ At M i a b c) ∨
      ∃ k T, news[k]? = some T ∧ i = M.tetras.next + k ∧
        (T.points = [a, b, c] ∨ T.points = [b, c, a] ∨ T.points = [c, a, b]) := by
  by_cases hi : i < M.tetras.next
  · by_cases ho : i ∈ olds
    · constructor
      · rintro ⟨T, hT, _⟩
        rw [hr.gone i ho] at hT
        cases hT
      · rintro (⟨h1, _⟩ | ⟨k, T, _, rfl, _⟩)
        · exact absurd ho h1
        · omega
    · have hk := hr.kept i hi ho
      constructor
      · rintro ⟨T, hT, h1⟩
        rw [hT] at hk
        obtain ⟨T0, h0, h2⟩ := Option.map_eq_some_iff.1 hk.symm
        rw [← shape_points h2] at h1
        exact Or.inl ⟨ho, T0, h0, h1⟩
      · rintro (⟨_, T, hT, h1⟩ | ⟨k, T, _, rfl, _⟩)
        · rw [hT] at hk
          obtain ⟨T0, h0, h2⟩ := Option.map_eq_some_iff.1 hk
          rw [← shape_points h2] at h1
          exact ⟨T0, h0, h1⟩
        · omega
  · obtain ⟨k, rfl⟩ := Nat.exists_eq_add_of_le (Nat.le_of_not_lt hi)
    have hk := hr.fresh k
    constructor
    · rintro ⟨T, hT, h1⟩
      rw [hT] at hk
      obtain ⟨T0, h0, h2⟩ := Option.map_eq_some_iff.1 hk.symm
      rw [← shape_points h2] at h1
      exact Or.inr ⟨k, T0, h0, rfl, h1⟩
    · rintro (⟨_, T, hT, h1⟩ | ⟨k', T, hT, e, h1⟩)
      · exact absurd (h.tetras_ok.get_lt hT) hi
      · have : k' = k := by omega
        subst this
        rw [hT] at hk
        obtain ⟨T0, h0, h2⟩ := Option.map_eq_some_iff.1 hk
        rw [← shape_points h2] at h1
        exact ⟨T0, h0, h1⟩

/-- A directed edge with the triangle on its left. -/
theorem dir_eq {x : ℕ → P2 K} {a b c a' b' : ℕ} (h : 0 < area (x a) (x b) (x c)) (h' : 0 < area (x a') (x b') (x a))
    (hne : a' ≠ b') (ha : a' = b ∨ a' = c) (hb : b' = b ∨ b' = c) : a' = b ∧ b' = c := by
  rcases ha with rfl | rfl <;> rcases hb with rfl | rfl
  · exact absurd rfl hne
  · exact ⟨rfl, rfl⟩
  · exfalso
    have : area (x a') (x b') (x a) = -area (x a) (x b') (x a') := by simp only [area_def]; ring
    linarith
  · exact absurd rfl hne

/-- The two end points of the edge opposite to a vertex, in counterclockwise order. -/
theorem facing_edge {x : ℕ → P2 K} {M : Mesh} (h : Consistent 2 M) (hf : Facing x M) {i : ℕ} {T : Tetra}
    (hT : M.tetras.get i = some T) {v : ℕ} {s : FaceInfo} (hs : (v, s) ∈ T.slots) :
    ∃ a b, M.faces.get s.face = some [a, b] ∧ a ≠ b ∧ (∀ z, z ∈ T.points ↔ z = v ∨ z = a ∨ z = b) ∧ v ≠ a ∧ v ≠ b ∧
      0 < area (x (if s.flipped then b else a)) (x (if s.flipped then a else b)) (x v) := by
  obtain ⟨pts, e, hn, hm⟩ := h.face_points i T hT v s hs
  obtain ⟨p, q, r, hp⟩ := h.points_three hT
  have hnd := h.points_nodup i T hT
  have hlen : pts.length = 2 := by
    have hpp : T.points.Perm (v :: pts) := by
      rw [List.perm_ext_iff_of_nodup hnd]
      · intro x
        rw [List.mem_cons, hm]
        constructor
        · intro hx
          by_cases e : x = v
          · exact Or.inl e
          · exact Or.inr ⟨hx, e⟩
        · rintro (rfl | hx)
          · exact mem_points hs
          · exact hx.1
      · rw [List.nodup_cons]
        exact ⟨fun hc => ((hm v).1 hc).2 rfl, hn⟩
    have := hpp.length_eq
    rw [hp] at this
    simp at this
    omega
  match pts, hlen with
  | [a, b], _ =>
    have hab : a ≠ b := by simpa using hn
    have hva : v ≠ a := fun hc => ((hm a).1 (by simp)).2 hc.symm
    have hvb : v ≠ b := fun hc => ((hm b).1 (by simp)).2 hc.symm
    refine ⟨a, b, e, hab, fun z => ?_, hva, hvb, hf i T hT v s hs a b e⟩
    have := hm z
    simp only [List.mem_cons, List.not_mem_nil, or_false] at this
    constructor
    · intro hz
      by_cases hzv : z = v
      · exact Or.inl hzv
      · exact Or.inr (this.2 ⟨hz, hzv⟩)
    · rintro (rfl | hz)
      · exact mem_points hs
      · exact (this.1 hz).1

/-- The vertices of a counterclockwise triangle, started at any of them. -/
theorem at_of_pos {x : ℕ → P2 K} {M : Mesh} (h : Consistent 2 M) {i : ℕ} {T : Tetra}
    (hT : M.tetras.get i = some T) (hpos : ∀ {a b c}, At M i a b c → 0 < area (x a) (x b) (x c)) {v a b : ℕ}
    (hset : ∀ z, z ∈ T.points ↔ z = v ∨ z = a ∨ z = b) (hva : v ≠ a) (hvb : v ≠ b) (hab : a ≠ b)
    (ho : 0 < area (x a) (x b) (x v)) : At M i v a b := by
  obtain ⟨p, q, r, hp⟩ := h.points_three hT
  have hpos' := hpos ((at_iff hT hp p q r).2 (Or.inl ⟨rfl, rfl, rfl⟩))
  rw [at_iff hT hp]
  rw [hp] at hset
  simp only [List.mem_cons, List.not_mem_nil, or_false] at hset
  have h1 := (hset v).2 (Or.inl rfl)
  have h2 := (hset a).2 (Or.inr (Or.inl rfl))
  have h3 := (hset b).2 (Or.inr (Or.inr rfl))
  have neg : ∀ u v w : P2 K, area u w v = -area u v w := by
    intro u v w; simp only [area_def]; ring
  unfold Cyc3
  rcases h1 with rfl | rfl | rfl <;> rcases h2 with rfl | rfl | rfl <;> rcases h3 with rfl | rfl | rfl <;> first
    | exact absurd rfl hva
    | exact absurd rfl hvb
    | exact absurd rfl hab
    | (simp; done)
    | (exfalso
       simp only [area_def] at hpos' ho
       linarith)

end Verif.Delaunay
