import Verif.Parallel.PlaneTotalProps
import Verif.Parallel.Generic

/-! # Points in the plane in general position close to given places, for the examples -/

namespace Verif.Parallel.Plane

open Verif.Delaunay
open Verif.Predicates (P2 Triangle2 orient2 distSq2)

/-- Sites with different labels are in general position. -/
structure Gen (S : Set (ℕ × P2 ℝ)) : Prop where
  line : ∀ a ∈ S, ∀ b ∈ S, ∀ c ∈ S, [a.1, b.1, c.1].Nodup → orient2 ⟨a.2, b.2, c.2⟩ ≠ 0
  circle : ∀ a ∈ S, ∀ b ∈ S, ∀ c ∈ S, ∀ d ∈ S, [a.1, b.1, c.1, d.1].Nodup → ∀ o rho,
    ¬(distSq2 a.2 o = rho ∧ distSq2 b.2 o = rho ∧ distSq2 c.2 o = rho ∧ distSq2 d.2 o = rho)

/-- A point on a curve which no line and no circle meets often. -/
def curve (o : P2 ℝ) (u t : ℝ) : P2 ℝ := ⟨o.x + u * t, o.y + u * t ^ 3⟩

def move (p v : P2 ℝ) : P2 ℝ := ⟨p.x + v.x, p.y + v.y⟩

theorem line_finite {a b e : P2 ℝ} (h : orient2 ⟨a, b, e⟩ ≠ 0) (o v : P2 ℝ) {u : ℝ} (hu : u ≠ 0) :
    {t : ℝ | orient2 ⟨a, b, move (curve o u t) v⟩ = 0}.Finite := by
  obtain ⟨n1, e1⟩ : ∃ n1, n1 = -(b.y - a.y) := ⟨_, rfl⟩
  obtain ⟨n2, e2⟩ : ∃ n2, n2 = b.x - a.x := ⟨_, rfl⟩
  have key : ∀ y : P2 ℝ, orient2 ⟨a, b, y⟩ = n1 * (y.x - a.x) + n2 * (y.y - a.y) := by
    intro y
    rw [e1, e2]
    unfold orient2
    ring
  have hn : n1 ≠ 0 ∨ n2 ≠ 0 := by
    by_contra hn
    push Not at hn
    obtain ⟨h1, h2⟩ := hn
    rw [key, h1, h2] at h
    exact h (by ring)
  refine (roots_finite (n1 * (o.x + v.x - a.x) + n2 * (o.y + v.y - a.y)) (n1 * u) 0 (n2 * u) 0 0 ?_).subset fun t ht => ?_
  · rcases hn with hn | hn
    · exact Or.inl (mul_ne_zero hn hu)
    · exact Or.inr (Or.inr (Or.inl (mul_ne_zero hn hu)))
  · have ht : orient2 ⟨a, b, move (curve o u t) v⟩ = 0 := ht
    rw [key] at ht
    unfold move curve at ht
    dsimp only at ht
    show _ + _ = (0 : ℝ)
    linear_combination ht

theorem circle_finite (c : P2 ℝ) (rho : ℝ) (o v : P2 ℝ) {u : ℝ} (hu : u ≠ 0) :
    {t : ℝ | distSq2 (move (curve o u t) v) c = rho}.Finite := by
  obtain ⟨A, hA⟩ : ∃ A, A = o.x + v.x - c.x := ⟨_, rfl⟩
  obtain ⟨B, hB⟩ : ∃ B, B = o.y + v.y - c.y := ⟨_, rfl⟩
  refine (roots_finite (A ^ 2 + B ^ 2 - rho) (2 * A * u) (u ^ 2) (2 * B * u) 0 (u ^ 2)
    (Or.inr (Or.inr (Or.inr (pow_ne_zero 2 hu))))).subset fun t ht => ?_
  have ht : distSq2 (move (curve o u t) v) c = rho := ht
  unfold distSq2 move curve at ht
  dsimp only at ht
  show _ + _ = (0 : ℝ)
  rw [hA, hB]
  linear_combination ht

theorem orient_cycle (a b c : P2 ℝ) : orient2 ⟨b, c, a⟩ = orient2 ⟨a, b, c⟩ := by
  unfold orient2
  ring

/-- The circle through three points which are not on a line is the only one. -/
theorem circle_unique {a b c : P2 ℝ} (h : orient2 ⟨a, b, c⟩ ≠ 0) : ∃ o rho, ∀ o' rho' y,
    distSq2 a o' = rho' → distSq2 b o' = rho' → distSq2 c o' = rho' → distSq2 y o' = rho' → distSq2 y o = rho := by
  refine ⟨Triangle2.circumcentre ⟨a, b, c⟩, distSq2 a (Triangle2.circumcentre ⟨a, b, c⟩), fun o' rho' y a1 a2 a3 a4 => ?_⟩
  have e := pw_unique (a := a) (b := b) (c := c) h (o := o') (rho := rho') (sub_eq_zero.2 a1) (sub_eq_zero.2 a2)
    (sub_eq_zero.2 a3) y
  unfold pw power at e
  linarith

/-- One more label: its sites can be chosen close to a given place. -/
theorem Gen.step {S : Set (ℕ × P2 ℝ)} (G : Gen S) (hS : S.Finite) {m : ℕ} (hm : ∀ a ∈ S, a.1 < m)
    (h3 : ∀ i, i < 3 → ∃ a ∈ S, a.1 = i) (K : List (P2 ℝ)) (o : P2 ℝ) {u : ℝ} (hu : u ≠ 0) :
    ∃ t : ℝ, 0 < t ∧ t < 1 ∧ Gen (S ∪ {a | ∃ v ∈ K, a = (m, move (curve o u t) v)}) := by
  have hK : {v | v ∈ K}.Finite := K.finite_toSet
  have hbad1 : (⋃ a ∈ S, ⋃ b ∈ S, ⋃ v ∈ {v | v ∈ K}, {t : ℝ | [a.1, b.1].Nodup ∧
      orient2 ⟨a.2, b.2, move (curve o u t) v⟩ = 0}).Finite := by
    refine hS.biUnion fun a ha => hS.biUnion fun b hb => hK.biUnion fun v hv => ?_
    by_cases hn : [a.1, b.1].Nodup
    · obtain ⟨i, hi, hia⟩ : ∃ i, i < 3 ∧ i ∉ [a.1, b.1] := by
        by_contra hcon
        push Not at hcon
        have l0 := hcon 0 (by norm_num)
        have l1 := hcon 1 (by norm_num)
        have l2 := hcon 2 (by norm_num)
        simp only [List.mem_cons, List.not_mem_nil, or_false] at l0 l1 l2
        omega
      obtain ⟨e, he, rfl⟩ := h3 i hi
      have hnd : [a.1, b.1, e.1].Nodup := by
        simp only [List.nodup_cons, List.mem_cons, List.not_mem_nil, or_false, not_or, not_false_eq_true,
          List.nodup_nil, and_true] at hn hia ⊢
        obtain ⟨i1, i2⟩ := hia
        exact ⟨⟨hn, Ne.symm i1⟩, Ne.symm i2⟩
      exact (line_finite (G.line a ha b hb e he hnd) o v hu).subset fun t ht => ht.2
    · exact Set.finite_empty.subset fun t ht => hn ht.1
  have hbad2 : (⋃ a ∈ S, ⋃ b ∈ S, ⋃ c ∈ S, ⋃ v ∈ {v | v ∈ K}, {t : ℝ | [a.1, b.1, c.1].Nodup ∧
      ∃ o' rho', distSq2 a.2 o' = rho' ∧ distSq2 b.2 o' = rho' ∧ distSq2 c.2 o' = rho' ∧
        distSq2 (move (curve o u t) v) o' = rho'}).Finite := by
    refine hS.biUnion fun a ha => hS.biUnion fun b hb => hS.biUnion fun c hc => hK.biUnion fun v hv => ?_
    by_cases hn : [a.1, b.1, c.1].Nodup
    · obtain ⟨o1, rho1, h1⟩ := circle_unique (G.line a ha b hb c hc hn)
      refine (circle_finite o1 rho1 o v hu).subset fun t ht => ?_
      obtain ⟨-, o', rho', a1, a2, a3, a4⟩ := ht
      exact h1 o' rho' _ a1 a2 a3 a4
    · exact Set.finite_empty.subset fun t ht => hn ht.1
  obtain ⟨t, ht, htb⟩ := (Set.Ioo_infinite (show (0 : ℝ) < 1 by norm_num)).exists_notMem_finset (hbad1.union hbad2).toFinset
  rw [Set.Finite.mem_toFinset, Set.mem_union, not_or] at htb
  obtain ⟨hb1, hb2⟩ := htb
  have P : ∀ a ∈ S, ∀ b ∈ S, ∀ v ∈ K, [a.1, b.1].Nodup → orient2 ⟨a.2, b.2, move (curve o u t) v⟩ ≠ 0 := by
    intro a ha b hb v hv hn h0
    exact hb1 (Set.mem_biUnion ha (Set.mem_biUnion hb (Set.mem_biUnion hv ⟨hn, h0⟩)))
  have Q : ∀ a ∈ S, ∀ b ∈ S, ∀ c ∈ S, ∀ v ∈ K, [a.1, b.1, c.1].Nodup → ∀ o' rho',
      ¬(distSq2 a.2 o' = rho' ∧ distSq2 b.2 o' = rho' ∧ distSq2 c.2 o' = rho' ∧
        distSq2 (move (curve o u t) v) o' = rho') := by
    intro a ha b hb c hc v hv hn o' rho' h0
    exact hb2 (Set.mem_biUnion ha (Set.mem_biUnion hb (Set.mem_biUnion hc (Set.mem_biUnion hv ⟨hn, o', rho', h0⟩))))
  refine ⟨t, ht.1, ht.2, ?_, ?_⟩
  · intro a ha b hb c hc hn
    simp only [List.nodup_cons, List.mem_cons, List.not_mem_nil, or_false, not_or, not_false_eq_true,
      List.nodup_nil, and_true] at hn
    obtain ⟨⟨n1, n2⟩, n3⟩ := hn
    rcases ha with ha | ⟨v, hv, rfl⟩
    · rcases hb with hb | ⟨v, hv, rfl⟩
      · rcases hc with hc | ⟨v, hv, rfl⟩
        · exact G.line a ha b hb c hc (by simp [n1, n2, n3])
        · exact P a ha b hb v hv (by simp [n1])
      · have hc : c ∈ S := hc.resolve_right (by rintro ⟨v, -, rfl⟩; exact n3 rfl)
        have := P c hc a ha v hv (by simp [Ne.symm n2])
        rw [← orient_cycle] at this
        exact this
    · have hb : b ∈ S := hb.resolve_right (by rintro ⟨v, -, rfl⟩; exact n1 rfl)
      have hc : c ∈ S := hc.resolve_right (by rintro ⟨v, -, rfl⟩; exact n2 rfl)
      have := P b hb c hc v hv (by simp [n3])
      rw [orient_cycle] at this
      exact this
  · intro a ha b hb c hc d hd hn o' rho' h0
    obtain ⟨k1, k2, k3, k4⟩ := h0
    simp only [List.nodup_cons, List.mem_cons, List.not_mem_nil, or_false, not_or, not_false_eq_true,
      List.nodup_nil, and_true] at hn
    obtain ⟨⟨n1, n2, n3⟩, ⟨n4, n5⟩, n6⟩ := hn
    rcases ha with ha | ⟨v, hv, rfl⟩
    · rcases hb with hb | ⟨v, hv, rfl⟩
      · rcases hc with hc | ⟨v, hv, rfl⟩
        · rcases hd with hd | ⟨v, hv, rfl⟩
          · exact G.circle a ha b hb c hc d hd (by simp [n1, n2, n3, n4, n5, n6]) o' rho' ⟨k1, k2, k3, k4⟩
          · exact Q a ha b hb c hc v hv (by simp [n1, n2, n4]) o' rho' ⟨k1, k2, k3, k4⟩
        · have hd : d ∈ S := hd.resolve_right (by rintro ⟨v, -, rfl⟩; exact n6 rfl)
          exact Q a ha b hb d hd v hv (by simp [n1, n3, n5]) o' rho' ⟨k1, k2, k4, k3⟩
      · have hc : c ∈ S := hc.resolve_right (by rintro ⟨v, -, rfl⟩; exact n4 rfl)
        have hd : d ∈ S := hd.resolve_right (by rintro ⟨v, -, rfl⟩; exact n5 rfl)
        exact Q a ha c hc d hd v hv (by simp [n2, n3, n6]) o' rho' ⟨k1, k3, k4, k2⟩
    · have hb : b ∈ S := hb.resolve_right (by rintro ⟨v, -, rfl⟩; exact n1 rfl)
      have hc : c ∈ S := hc.resolve_right (by rintro ⟨v, -, rfl⟩; exact n2 rfl)
      have hd : d ∈ S := hd.resolve_right (by rintro ⟨v, -, rfl⟩; exact n3 rfl)
      exact Q b hb c hc d hd v hv (by simp [n4, n5, n6]) o' rho' ⟨k2, k3, k4, k1⟩

/-- The three corners and the images of the first `n` points. -/
def sites (c : ℕ → P2 ℝ) (K : List (P2 ℝ)) (f : ℕ → P2 ℝ) (n : ℕ) : Set (ℕ × P2 ℝ) :=
  {a | (a.1 < 3 ∧ a.2 = c a.1) ∨ ∃ j, j < n ∧ ∃ v ∈ K, a = (3 + j, move (f j) v)}

theorem sites_finite (c : ℕ → P2 ℝ) (K : List (P2 ℝ)) (f : ℕ → P2 ℝ) (n : ℕ) : (sites c K f n).Finite := by
  have : sites c K f n ⊆ ((fun i => (i, c i)) '' (Set.Iio 3)) ∪
      ⋃ j ∈ Set.Iio n, (fun v => (3 + j, move (f j) v)) '' {v | v ∈ K} := by
    rintro a (⟨h1, h2⟩ | ⟨j, hj, v, hv, rfl⟩)
    · exact Or.inl ⟨a.1, h1, Prod.ext rfl h2.symm⟩
    · exact Or.inr (Set.mem_biUnion (show j ∈ Set.Iio n from hj) ⟨v, hv, rfl⟩)
  refine Set.Finite.subset (Set.Finite.union ((Set.finite_Iio 3).image _) ((Set.finite_Iio n).biUnion fun j _ => ?_)) this
  exact K.finite_toSet.image _

/-- Points in general position, together with their images, close to given places. -/
theorem exists_generic (c : ℕ → P2 ℝ) (hc : orient2 ⟨c 0, c 1, c 2⟩ ≠ 0) (K : List (P2 ℝ)) (o : ℕ → P2 ℝ) {u : ℝ}
    (hu : u ≠ 0) (n : ℕ) : ∃ f : ℕ → P2 ℝ, (∀ j, j < n → ∃ t : ℝ, 0 < t ∧ t < 1 ∧ f j = curve (o j) u t) ∧
      Gen (sites c K f n) := by
  induction n with
  | zero =>
    refine ⟨o, fun j hj => absurd hj (Nat.not_lt_zero j), ?_, ?_⟩
    · rintro ⟨i, a⟩ ha ⟨j, b⟩ hb ⟨k, d⟩ hd hn
      obtain ⟨hi, ehi⟩ := ha.resolve_right (by rintro ⟨j, hj, -⟩; exact absurd hj (Nat.not_lt_zero j))
      obtain ⟨hj, ehj⟩ := hb.resolve_right (by rintro ⟨j, hj, -⟩; exact absurd hj (Nat.not_lt_zero j))
      obtain ⟨hk, ehk⟩ := hd.resolve_right (by rintro ⟨j, hj, -⟩; exact absurd hj (Nat.not_lt_zero j))
      simp only [List.nodup_cons, List.mem_cons, List.not_mem_nil, or_false, not_or, not_false_eq_true,
        List.nodup_nil, and_true] at hn
      dsimp only at *
      rw [ehi, ehj, ehk]
      unfold orient2 at hc ⊢
      dsimp only at hc ⊢
      have l1 : i = 0 ∨ i = 1 ∨ i = 2 := by omega
      have l2 : j = 0 ∨ j = 1 ∨ j = 2 := by omega
      have l3 : k = 0 ∨ k = 1 ∨ k = 2 := by omega
      rcases l1 with rfl | rfl | rfl <;> rcases l2 with rfl | rfl | rfl <;> rcases l3 with rfl | rfl | rfl <;>
        first
        | omega
        | exact fun h => hc (by linear_combination h)
        | exact fun h => hc (by linear_combination -h)
    · rintro ⟨i, a⟩ ha ⟨j, b⟩ hb ⟨k, d⟩ hd ⟨l, e⟩ he hn
      obtain ⟨hi, -⟩ := ha.resolve_right (by rintro ⟨j, hj, -⟩; exact absurd hj (Nat.not_lt_zero j))
      obtain ⟨hj, -⟩ := hb.resolve_right (by rintro ⟨j, hj, -⟩; exact absurd hj (Nat.not_lt_zero j))
      obtain ⟨hk, -⟩ := hd.resolve_right (by rintro ⟨j, hj, -⟩; exact absurd hj (Nat.not_lt_zero j))
      obtain ⟨hl, -⟩ := he.resolve_right (by rintro ⟨j, hj, -⟩; exact absurd hj (Nat.not_lt_zero j))
      simp only [List.nodup_cons, List.mem_cons, List.not_mem_nil, or_false, not_or, not_false_eq_true,
        List.nodup_nil, and_true] at hn
      dsimp only at *
      omega
  | succ n ih =>
    obtain ⟨f, hf, G⟩ := ih
    obtain ⟨t, h0, h1, G'⟩ := G.step (sites_finite c K f n) (m := 3 + n) (by
      rintro a (⟨h, -⟩ | ⟨j, hj, v, -, rfl⟩)
      · omega
      · dsimp only
        omega) (fun i hi => ⟨(i, c i), Or.inl ⟨hi, rfl⟩, rfl⟩) K (o n) hu
    refine ⟨Function.update f n (curve (o n) u t), ?_, ?_⟩
    · intro j hj
      rcases Nat.lt_succ_iff_lt_or_eq.1 hj with hj | rfl
      · rw [Function.update_of_ne (by omega)]
        exact hf j hj
      · rw [Function.update_self]
        exact ⟨t, h0, h1, rfl⟩
    · have : sites c K (Function.update f n (curve (o n) u t)) (n + 1) ⊆
          sites c K f n ∪ {a | ∃ v ∈ K, a = (3 + n, move (curve (o n) u t) v)} := by
        rintro a (h | ⟨j, hj, v, hv, rfl⟩)
        · exact Or.inl (Or.inl h)
        · rcases Nat.lt_succ_iff_lt_or_eq.1 hj with hj | rfl
          · rw [Function.update_of_ne (by omega)]
            exact Or.inl (Or.inr ⟨j, hj, v, hv, rfl⟩)
          · rw [Function.update_self]
            exact Or.inr ⟨v, hv, rfl⟩
      exact ⟨fun a ha b hb d hd => G'.line a (this ha) b (this hb) d (this hd),
        fun a ha b hb d hd e he => G'.circle a (this ha) b (this hb) d (this hd) e (this he)⟩

end Verif.Parallel.Plane
