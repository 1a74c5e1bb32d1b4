import Mathlib.Logic.Relation

/-!
# Specification vocabulary for space filling curves
-/

namespace Verif.Peano

/-- Two numbers differ by one. -/
def Off1 (a b : Nat) : Prop := a + 1 = b ∨ b + 1 = a

/-- Two cells of a square grid share an edge. -/
def Adjacent2 (p q : Nat × Nat) : Prop :=
  (p.1 = q.1 ∧ Off1 p.2 q.2) ∨ (p.2 = q.2 ∧ Off1 p.1 q.1)

/-- Two cells of a cubic grid share a face. -/
def Adjacent3 (p q : Nat × Nat × Nat) : Prop :=
  (Off1 p.1 q.1 ∧ p.2.1 = q.2.1 ∧ p.2.2 = q.2.2) ∨
  (p.1 = q.1 ∧ Off1 p.2.1 q.2.1 ∧ p.2.2 = q.2.2) ∨
  (p.1 = q.1 ∧ p.2.1 = q.2.1 ∧ Off1 p.2.2 q.2.2)

/-- A set of cells is connected: any two of its cells are joined by a path of neighbouring cells that
does not leave the set. -/
def Connected {C : Type} (adj : C → C → Prop) (S : C → Prop) : Prop :=
  ∀ p q, S p → S q → Relation.ReflTransGen (fun a b => S a ∧ S b ∧ adj a b) p q

/-- If a curve visits neighbouring cells one after the other, each of its contiguous ranges is
connected. -/
theorem connected_of_consecutive {C : Type} (adj : C → C → Prop) (hsymm : ∀ a b, adj a b → adj b a)
    (N : Nat) (f : Nat → C) (h : ∀ t, t + 1 < N → adj (f t) (f (t + 1))) (lo hi : Nat) (hhi : hi ≤ N) :
    Connected adj (fun c => ∃ t, lo ≤ t ∧ t < hi ∧ f t = c) := by
  have up : ∀ d t, lo ≤ t → t + d < hi →
      Relation.ReflTransGen (fun a b => (∃ t, lo ≤ t ∧ t < hi ∧ f t = a) ∧
        (∃ t, lo ≤ t ∧ t < hi ∧ f t = b) ∧ adj a b) (f t) (f (t + d)) ∧
      Relation.ReflTransGen (fun a b => (∃ t, lo ≤ t ∧ t < hi ∧ f t = a) ∧
        (∃ t, lo ≤ t ∧ t < hi ∧ f t = b) ∧ adj a b) (f (t + d)) (f t) := by
    intro d
    induction d with
    | zero => intro t _ _; exact ⟨.refl, .refl⟩
    | succ d ih =>
      intro t h1 h2
      obtain ⟨i1, i2⟩ := ih t h1 (by omega)
      have hadj := h (t + d) (by omega)
      have m1 : ∃ u, lo ≤ u ∧ u < hi ∧ f u = f (t + d) := ⟨t + d, by omega, by omega, rfl⟩
      have m2 : ∃ u, lo ≤ u ∧ u < hi ∧ f u = f (t + d + 1) := ⟨t + d + 1, by omega, by omega, rfl⟩
      exact ⟨i1.tail ⟨m1, m2, hadj⟩, Relation.ReflTransGen.head ⟨m2, m1, hsymm _ _ hadj⟩ i2⟩
  rintro p q ⟨t, t1, t2, rfl⟩ ⟨u, u1, u2, rfl⟩
  rcases Nat.le_total t u with hle | hle
  · have := (up (u - t) t t1 (by omega)).1
    rwa [show t + (u - t) = u by omega] at this
  · have := (up (t - u) u u1 (by omega)).2
    rwa [show u + (t - u) = t by omega] at this

end Verif.Peano
