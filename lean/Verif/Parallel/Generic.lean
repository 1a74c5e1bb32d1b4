import Verif.Parallel.TotalProps
import Mathlib.Algebra.Polynomial.Roots
import Mathlib.Order.Interval.Set.Infinite

/-! # Points in general position close to given places, for the examples -/

namespace Verif.Parallel

open Verif.Delaunay
open Verif.Predicates (P3 orient3 distSq3)

/-- Sites with different labels are in general position. -/
structure Gen (S : Set (ℕ × P3 ℝ)) : Prop where
  plane : ∀ a ∈ S, ∀ b ∈ S, ∀ c ∈ S, ∀ d ∈ S, [a.1, b.1, c.1, d.1].Nodup → orient3 ⟨a.2, b.2, c.2, d.2⟩ ≠ 0
  sphere : ∀ a ∈ S, ∀ b ∈ S, ∀ c ∈ S, ∀ d ∈ S, ∀ e ∈ S, [a.1, b.1, c.1, d.1, e.1].Nodup → ∀ o rho,
    ¬(distSq3 a.2 o = rho ∧ distSq3 b.2 o = rho ∧ distSq3 c.2 o = rho ∧ distSq3 d.2 o = rho ∧ distSq3 e.2 o = rho)

/-- A point on a curve which no plane and no sphere meets often. -/
def curve (o : P3 ℝ) (u t : ℝ) : P3 ℝ := ⟨o.x + u * t, o.y + u * t ^ 2, o.z + u * t ^ 3⟩

def move (p v : P3 ℝ) : P3 ℝ := ⟨p.x + v.x, p.y + v.y, p.z + v.z⟩

theorem roots_finite (c0 c1 c2 c3 c4 c6 : ℝ) (h : c1 ≠ 0 ∨ c2 ≠ 0 ∨ c3 ≠ 0 ∨ c6 ≠ 0) :
    {t : ℝ | c0 + c1 * t + c2 * t ^ 2 + c3 * t ^ 3 + c4 * t ^ 4 + c6 * t ^ 6 = 0}.Finite := by
  obtain ⟨p, hp⟩ : ∃ p : Polynomial ℝ, p = Polynomial.C c0 + Polynomial.C c1 * Polynomial.X + Polynomial.C c2 * Polynomial.X ^ 2 +
    Polynomial.C c3 * Polynomial.X ^ 3 + Polynomial.C c4 * Polynomial.X ^ 4 + Polynomial.C c6 * Polynomial.X ^ 6 := ⟨_, rfl⟩
  have hne : p ≠ 0 := by
    intro h0
    have k1 : p.coeff 1 = c1 := by rw [hp]; simp [Polynomial.coeff_X, Polynomial.coeff_C, Polynomial.coeff_X_pow]
    have k2 : p.coeff 2 = c2 := by rw [hp]; simp [Polynomial.coeff_X, Polynomial.coeff_C, Polynomial.coeff_X_pow]
    have k3 : p.coeff 3 = c3 := by rw [hp]; simp [Polynomial.coeff_X, Polynomial.coeff_C, Polynomial.coeff_X_pow]
    have k6 : p.coeff 6 = c6 := by rw [hp]; simp [Polynomial.coeff_X, Polynomial.coeff_C, Polynomial.coeff_X_pow]
    rw [h0, Polynomial.coeff_zero] at k1 k2 k3 k6
    rcases h with h | h | h | h
    · exact h k1.symm
    · exact h k2.symm
    · exact h k3.symm
    · exact h k6.symm
  refine (Polynomial.finite_setOfPred_isRoot hne).subset fun t ht => ?_
  show p.IsRoot t
  unfold Polynomial.IsRoot
  rw [hp]
  simp only [Polynomial.eval_add, Polynomial.eval_mul, Polynomial.eval_C, Polynomial.eval_X, Polynomial.eval_pow]
  exact ht

theorem plane_finite {a b c e : P3 ℝ} (h : orient3 ⟨a, b, c, e⟩ ≠ 0) (o v : P3 ℝ) {u : ℝ} (hu : u ≠ 0) :
    {t : ℝ | orient3 ⟨a, b, c, move (curve o u t) v⟩ = 0}.Finite := by
  obtain ⟨n1, e1⟩ : ∃ n1, n1 = (b.y - a.y) * (c.z - a.z) - (b.z - a.z) * (c.y - a.y) := ⟨_, rfl⟩
  obtain ⟨n2, e2⟩ : ∃ n2, n2 = (b.z - a.z) * (c.x - a.x) - (b.x - a.x) * (c.z - a.z) := ⟨_, rfl⟩
  obtain ⟨n3, e3⟩ : ∃ n3, n3 = (b.x - a.x) * (c.y - a.y) - (b.y - a.y) * (c.x - a.x) := ⟨_, rfl⟩
  have key : ∀ y : P3 ℝ, orient3 ⟨a, b, c, y⟩ = n1 * (y.x - a.x) + n2 * (y.y - a.y) + n3 * (y.z - a.z) := by
    intro y
    rw [Predicates.orient3_eq, e1, e2, e3]
    ring
  have hn : n1 ≠ 0 ∨ n2 ≠ 0 ∨ n3 ≠ 0 := by
    by_contra hn
    push Not at hn
    obtain ⟨h1, h2, h3⟩ := hn
    rw [key, h1, h2, h3] at h
    exact h (by ring)
  refine (roots_finite (n1 * (o.x + v.x - a.x) + n2 * (o.y + v.y - a.y) + n3 * (o.z + v.z - a.z)) (n1 * u) (n2 * u) (n3 * u)
    0 0 ?_).subset fun t ht => ?_
  · rcases hn with hn | hn | hn
    · exact Or.inl (mul_ne_zero hn hu)
    · exact Or.inr (Or.inl (mul_ne_zero hn hu))
    · exact Or.inr (Or.inr (Or.inl (mul_ne_zero hn hu)))
  · have ht : orient3 ⟨a, b, c, move (curve o u t) v⟩ = 0 := ht
    rw [key] at ht
    unfold move curve at ht
    dsimp only at ht
    show _ + _ = (0 : ℝ)
    linear_combination ht

theorem sphere_finite (c : P3 ℝ) (rho : ℝ) (o v : P3 ℝ) {u : ℝ} (hu : u ≠ 0) :
    {t : ℝ | distSq3 (move (curve o u t) v) c = rho}.Finite := by
  obtain ⟨A, hA⟩ : ∃ A, A = o.x + v.x - c.x := ⟨_, rfl⟩
  obtain ⟨B, hB⟩ : ∃ B, B = o.y + v.y - c.y := ⟨_, rfl⟩
  obtain ⟨C, hC⟩ : ∃ C, C = o.z + v.z - c.z := ⟨_, rfl⟩
  refine (roots_finite (A ^ 2 + B ^ 2 + C ^ 2 - rho) (2 * A * u) (2 * B * u + u ^ 2) (2 * C * u) (u ^ 2) (u ^ 2)
    (Or.inr (Or.inr (Or.inr (pow_ne_zero 2 hu))))).subset fun t ht => ?_
  have ht : distSq3 (move (curve o u t) v) c = rho := ht
  unfold distSq3 move curve at ht
  dsimp only at ht
  show _ + _ = (0 : ℝ)
  rw [hA, hB, hC]
  linear_combination ht

theorem orient_cycle (a b c d : P3 ℝ) : orient3 ⟨b, c, d, a⟩ = -orient3 ⟨a, b, c, d⟩ := by
  rw [Predicates.orient3_eq, Predicates.orient3_eq]
  ring

/-- The sphere through four points which are not in a plane is the only one. -/
theorem sphere_unique {a b c d : P3 ℝ} (h : orient3 ⟨a, b, c, d⟩ ≠ 0) : ∃ o rho, ∀ o' rho' y,
    distSq3 a o' = rho' → distSq3 b o' = rho' → distSq3 c o' = rho' → distSq3 d o' = rho' → distSq3 y o' = rho' →
    distSq3 y o = rho := by
  obtain ⟨o, -, h1, h2, h3⟩ := Predicates.circumcentre_correct 1 one_pos ⟨a, b, c, d⟩ h
  dsimp only at h1 h2 h3
  refine ⟨o, distSq3 a o, fun o' rho' y a1 a2 a3 a4 a5 => ?_⟩
  have hv : vol ![a, b, c, d] ≠ 0 := h
  have e1 := pw3_sphere hv (o := o) (rho := distSq3 a o) (fun i => by
    match i with
    | 0 => rfl
    | 1 => exact h1.symm
    | 2 => exact h2.symm
    | 3 => exact h3.symm) y
  have e2 := pw3_sphere hv (o := o') (rho := rho') (fun i => by
    match i with
    | 0 => exact a1
    | 1 => exact a2
    | 2 => exact a3
    | 3 => exact a4) y
  linarith

/-- One more label: its sites can be chosen close to a given place. -/
theorem Gen.step {S : Set (ℕ × P3 ℝ)} (G : Gen S) (hS : S.Finite) {m : ℕ} (hm : ∀ a ∈ S, a.1 < m)
    (h4 : ∀ i, i < 4 → ∃ a ∈ S, a.1 = i) (K : List (P3 ℝ)) (o : P3 ℝ) {u : ℝ} (hu : u ≠ 0) :
    ∃ t : ℝ, 0 < t ∧ t < 1 ∧ Gen (S ∪ {a | ∃ v ∈ K, a = (m, move (curve o u t) v)}) := by
  have hK : {v | v ∈ K}.Finite := K.finite_toSet
  have hbad1 : (⋃ a ∈ S, ⋃ b ∈ S, ⋃ c ∈ S, ⋃ v ∈ {v | v ∈ K}, {t : ℝ | [a.1, b.1, c.1].Nodup ∧
      orient3 ⟨a.2, b.2, c.2, move (curve o u t) v⟩ = 0}).Finite := by
    refine hS.biUnion fun a ha => hS.biUnion fun b hb => hS.biUnion fun c hc => hK.biUnion fun v hv => ?_
    by_cases hn : [a.1, b.1, c.1].Nodup
    · obtain ⟨i, hi, hia⟩ : ∃ i, i < 4 ∧ i ∉ [a.1, b.1, c.1] := by
        by_contra hcon
        push Not at hcon
        have l0 := hcon 0 (by norm_num)
        have l1 := hcon 1 (by norm_num)
        have l2 := hcon 2 (by norm_num)
        have l3 := hcon 3 (by norm_num)
        simp only [List.mem_cons, List.not_mem_nil, or_false] at l0 l1 l2 l3
        omega
      obtain ⟨e, he, rfl⟩ := h4 i hi
      have hnd : [a.1, b.1, c.1, e.1].Nodup := by
        simp only [List.nodup_cons, List.mem_cons, List.not_mem_nil, or_false, not_or, not_false_eq_true,
          List.nodup_nil, and_true] at hn hia ⊢
        obtain ⟨⟨n1, n2⟩, n3⟩ := hn
        obtain ⟨i1, i2, i3⟩ := hia
        exact ⟨⟨n1, n2, Ne.symm i1⟩, ⟨n3, Ne.symm i2⟩, Ne.symm i3⟩
      exact (plane_finite (G.plane a ha b hb c hc e he hnd) o v hu).subset fun t ht => ht.2
    · exact Set.finite_empty.subset fun t ht => hn ht.1
  have hbad2 : (⋃ a ∈ S, ⋃ b ∈ S, ⋃ c ∈ S, ⋃ d ∈ S, ⋃ v ∈ {v | v ∈ K}, {t : ℝ | [a.1, b.1, c.1, d.1].Nodup ∧
      ∃ o' rho', distSq3 a.2 o' = rho' ∧ distSq3 b.2 o' = rho' ∧ distSq3 c.2 o' = rho' ∧ distSq3 d.2 o' = rho' ∧
        distSq3 (move (curve o u t) v) o' = rho'}).Finite := by
    refine hS.biUnion fun a ha => hS.biUnion fun b hb => hS.biUnion fun c hc => hS.biUnion fun d hd =>
      hK.biUnion fun v hv => ?_
    by_cases hn : [a.1, b.1, c.1, d.1].Nodup
    · obtain ⟨o1, rho1, h1⟩ := sphere_unique (G.plane a ha b hb c hc d hd hn)
      refine (sphere_finite o1 rho1 o v hu).subset fun t ht => ?_
      obtain ⟨-, o', rho', a1, a2, a3, a4, a5⟩ := ht
      exact h1 o' rho' _ a1 a2 a3 a4 a5
    · exact Set.finite_empty.subset fun t ht => hn ht.1
  obtain ⟨t, ht, htb⟩ := (Set.Ioo_infinite (show (0 : ℝ) < 1 by norm_num)).exists_notMem_finset (hbad1.union hbad2).toFinset
  rw [Set.Finite.mem_toFinset, Set.mem_union, not_or] at htb
  obtain ⟨hb1, hb2⟩ := htb
  have P : ∀ a ∈ S, ∀ b ∈ S, ∀ c ∈ S, ∀ v ∈ K, [a.1, b.1, c.1].Nodup →
      orient3 ⟨a.2, b.2, c.2, move (curve o u t) v⟩ ≠ 0 := by
    intro a ha b hb c hc v hv hn h0
    refine hb1 (Set.mem_biUnion ha (Set.mem_biUnion hb (Set.mem_biUnion hc (Set.mem_biUnion hv ⟨hn, h0⟩))))
  have Q : ∀ a ∈ S, ∀ b ∈ S, ∀ c ∈ S, ∀ d ∈ S, ∀ v ∈ K, [a.1, b.1, c.1, d.1].Nodup → ∀ o' rho',
      ¬(distSq3 a.2 o' = rho' ∧ distSq3 b.2 o' = rho' ∧ distSq3 c.2 o' = rho' ∧ distSq3 d.2 o' = rho' ∧
        distSq3 (move (curve o u t) v) o' = rho') := by
    intro a ha b hb c hc d hd v hv hn o' rho' h0
    exact hb2 (Set.mem_biUnion ha (Set.mem_biUnion hb (Set.mem_biUnion hc (Set.mem_biUnion hd (Set.mem_biUnion hv
      ⟨hn, o', rho', h0⟩)))))
  refine ⟨t, ht.1, ht.2, ?_, ?_⟩
  · intro a ha b hb c hc d hd hn
    simp only [List.nodup_cons, List.mem_cons, List.not_mem_nil, or_false, not_or, not_false_eq_true,
      List.nodup_nil, and_true] at hn
    obtain ⟨⟨n1, n2, n3⟩, ⟨n4, n5⟩, n6⟩ := hn
    rcases ha with ha | ⟨v, hv, rfl⟩
    · rcases hb with hb | ⟨v, hv, rfl⟩
      · rcases hc with hc | ⟨v, hv, rfl⟩
        · rcases hd with hd | ⟨v, hv, rfl⟩
          · exact G.plane a ha b hb c hc d hd (by simp [n1, n2, n3, n4, n5, n6])
          · exact P a ha b hb c hc v hv (by simp [n1, n2, n4])
        · have hd : d ∈ S := hd.resolve_right (by rintro ⟨v, -, rfl⟩; exact n6 rfl)
          have := P d hd a ha b hb v hv (by simp [n1, Ne.symm n3, Ne.symm n5])
          rw [← neg_ne_zero, ← orient_cycle] at this
          exact this
      · have hc : c ∈ S := hc.resolve_right (by rintro ⟨v, -, rfl⟩; exact n4 rfl)
        have hd : d ∈ S := hd.resolve_right (by rintro ⟨v, -, rfl⟩; exact n5 rfl)
        have := P c hc d hd a ha v hv (by simp [n6, Ne.symm n2, Ne.symm n3])
        rw [← neg_ne_zero, ← orient_cycle, ← neg_ne_zero, ← orient_cycle] at this
        exact this
    · have hb : b ∈ S := hb.resolve_right (by rintro ⟨v, -, rfl⟩; exact n1 rfl)
      have hc : c ∈ S := hc.resolve_right (by rintro ⟨v, -, rfl⟩; exact n2 rfl)
      have hd : d ∈ S := hd.resolve_right (by rintro ⟨v, -, rfl⟩; exact n3 rfl)
      have := P b hb c hc d hd v hv (by simp [n4, n5, n6])
      rw [orient_cycle, neg_ne_zero] at this
      exact this
  · intro a ha b hb c hc d hd e he hn o' rho' h0
    obtain ⟨k1, k2, k3, k4, k5⟩ := h0
    simp only [List.nodup_cons, List.mem_cons, List.not_mem_nil, or_false, not_or, not_false_eq_true,
      List.nodup_nil, and_true] at hn
    obtain ⟨⟨n1, n2, n3, n7⟩, ⟨n4, n5, n8⟩, ⟨n6, n9⟩, n10⟩ := hn
    rcases ha with ha | ⟨v, hv, rfl⟩
    · rcases hb with hb | ⟨v, hv, rfl⟩
      · rcases hc with hc | ⟨v, hv, rfl⟩
        · rcases hd with hd | ⟨v, hv, rfl⟩
          · rcases he with he | ⟨v, hv, rfl⟩
            · exact G.sphere a ha b hb c hc d hd e he (by simp [n1, n2, n3, n4, n5, n6, n7, n8, n9, n10]) o' rho'
                ⟨k1, k2, k3, k4, k5⟩
            · exact Q a ha b hb c hc d hd v hv (by simp [n1, n2, n3, n4, n5, n6]) o' rho' ⟨k1, k2, k3, k4, k5⟩
          · have he : e ∈ S := he.resolve_right (by rintro ⟨v, -, rfl⟩; exact n10 rfl)
            exact Q a ha b hb c hc e he v hv (by simp [n1, n2, n4, n7, n8, n9]) o' rho' ⟨k1, k2, k3, k5, k4⟩
        · have hd : d ∈ S := hd.resolve_right (by rintro ⟨v, -, rfl⟩; exact n6 rfl)
          have he : e ∈ S := he.resolve_right (by rintro ⟨v, -, rfl⟩; exact n9 rfl)
          exact Q a ha b hb d hd e he v hv (by simp [n1, n3, n5, n7, n8, n10]) o' rho' ⟨k1, k2, k4, k5, k3⟩
      · have hc : c ∈ S := hc.resolve_right (by rintro ⟨v, -, rfl⟩; exact n4 rfl)
        have hd : d ∈ S := hd.resolve_right (by rintro ⟨v, -, rfl⟩; exact n5 rfl)
        have he : e ∈ S := he.resolve_right (by rintro ⟨v, -, rfl⟩; exact n8 rfl)
        exact Q a ha c hc d hd e he v hv (by simp [n2, n3, n6, n7, n9, n10]) o' rho' ⟨k1, k3, k4, k5, k2⟩
    · have hb : b ∈ S := hb.resolve_right (by rintro ⟨v, -, rfl⟩; exact n1 rfl)
      have hc : c ∈ S := hc.resolve_right (by rintro ⟨v, -, rfl⟩; exact n2 rfl)
      have hd : d ∈ S := hd.resolve_right (by rintro ⟨v, -, rfl⟩; exact n3 rfl)
      have he : e ∈ S := he.resolve_right (by rintro ⟨v, -, rfl⟩; exact n7 rfl)
      exact Q b hb c hc d hd e he v hv (by simp [n4, n5, n6, n8, n9, n10]) o' rho' ⟨k2, k3, k4, k5, k1⟩

/-- The four corners and the images of the first `n` points. -/
def sites (c : ℕ → P3 ℝ) (K : List (P3 ℝ)) (f : ℕ → P3 ℝ) (n : ℕ) : Set (ℕ × P3 ℝ) :=
  {a | (a.1 < 4 ∧ a.2 = c a.1) ∨ ∃ j, j < n ∧ ∃ v ∈ K, a = (4 + j, move (f j) v)}

theorem sites_finite (c : ℕ → P3 ℝ) (K : List (P3 ℝ)) (f : ℕ → P3 ℝ) (n : ℕ) : (sites c K f n).Finite := by
  have : sites c K f n ⊆ ((fun i => (i, c i)) '' (Set.Iio 4)) ∪
      ⋃ j ∈ Set.Iio n, (fun v => (4 + j, move (f j) v)) '' {v | v ∈ K} := by
    rintro a (⟨h1, h2⟩ | ⟨j, hj, v, hv, rfl⟩)
    · exact Or.inl ⟨a.1, h1, Prod.ext rfl h2.symm⟩
    · exact Or.inr (Set.mem_biUnion (show j ∈ Set.Iio n from hj) ⟨v, hv, rfl⟩)
  refine Set.Finite.subset (Set.Finite.union ((Set.finite_Iio 4).image _) ((Set.finite_Iio n).biUnion fun j _ => ?_)) this
  exact K.finite_toSet.image _

/-- Points in general position, together with their images, close to given places. -/
theorem exists_generic (c : ℕ → P3 ℝ) (hc : orient3 ⟨c 0, c 1, c 2, c 3⟩ ≠ 0) (K : List (P3 ℝ)) (o : ℕ → P3 ℝ) {u : ℝ}
    (hu : u ≠ 0) (n : ℕ) : ∃ f : ℕ → P3 ℝ, (∀ j, j < n → ∃ t : ℝ, 0 < t ∧ t < 1 ∧ f j = curve (o j) u t) ∧
      Gen (sites c K f n) := by
  induction n with
  | zero =>
    refine ⟨o, fun j hj => absurd hj (Nat.not_lt_zero j), ?_, ?_⟩
    · have hc0 : vol ![c 0, c 1, c 2, c 3] ≠ 0 := hc
      rintro ⟨i, a⟩ ha ⟨j, b⟩ hb ⟨k, d⟩ hd ⟨l, e⟩ he hn
      obtain ⟨hi, ehi⟩ := ha.resolve_right (by rintro ⟨j, hj, -⟩; exact absurd hj (Nat.not_lt_zero j))
      obtain ⟨hj, ehj⟩ := hb.resolve_right (by rintro ⟨j, hj, -⟩; exact absurd hj (Nat.not_lt_zero j))
      obtain ⟨hk, ehk⟩ := hd.resolve_right (by rintro ⟨j, hj, -⟩; exact absurd hj (Nat.not_lt_zero j))
      obtain ⟨hl, ehl⟩ := he.resolve_right (by rintro ⟨j, hj, -⟩; exact absurd hj (Nat.not_lt_zero j))
      dsimp only at *
      rw [ehi, ehj, ehk, ehl]
      have key : ∀ a b d e : Fin 4, [(a : ℕ), b, d, e].Nodup → orient3 ⟨c a, c b, c d, c e⟩ ≠ 0 := by
        intro a b d e hn
        have hinj : Function.Injective ![a, b, d, e] := by
          revert hn
          revert a b d e
          decide
        have := vol_perm_ne (Equiv.ofBijective ![a, b, d, e] (Finite.injective_iff_bijective.1 hinj)) hc0
        have hg : ∀ i : Fin 4, ![c 0, c 1, c 2, c 3] i = c i := fun i => by
          match i with
          | 0 | 1 | 2 | 3 => rfl
        have h2 : vol (![c 0, c 1, c 2, c 3] ∘ ![a, b, d, e]) = orient3 ⟨c a, c b, c d, c e⟩ := by
          unfold vol
          simp only [Function.comp_apply, Matrix.cons_val, hg]
        rw [← h2]
        exact this
      exact key ⟨i, hi⟩ ⟨j, hj⟩ ⟨k, hk⟩ ⟨l, hl⟩ hn
    · rintro ⟨i, a⟩ ha ⟨j, b⟩ hb ⟨k, d⟩ hd ⟨l, e⟩ he ⟨m, g⟩ hg hn
      obtain ⟨hi, -⟩ := ha.resolve_right (by rintro ⟨j, hj, -⟩; exact absurd hj (Nat.not_lt_zero j))
      obtain ⟨hj, -⟩ := hb.resolve_right (by rintro ⟨j, hj, -⟩; exact absurd hj (Nat.not_lt_zero j))
      obtain ⟨hk, -⟩ := hd.resolve_right (by rintro ⟨j, hj, -⟩; exact absurd hj (Nat.not_lt_zero j))
      obtain ⟨hl, -⟩ := he.resolve_right (by rintro ⟨j, hj, -⟩; exact absurd hj (Nat.not_lt_zero j))
      obtain ⟨hm, -⟩ := hg.resolve_right (by rintro ⟨j, hj, -⟩; exact absurd hj (Nat.not_lt_zero j))
      simp only [List.nodup_cons, List.mem_cons, List.not_mem_nil, or_false, not_or, not_false_eq_true,
        List.nodup_nil, and_true] at hn
      dsimp only at *
      omega
  | succ n ih =>
    obtain ⟨f, hf, G⟩ := ih
    obtain ⟨t, h0, h1, G'⟩ := G.step (sites_finite c K f n) (m := 4 + n) (by
      rintro a (⟨h, -⟩ | ⟨j, hj, v, -, rfl⟩)
      · omega
      · dsimp only
        omega) (fun i hi => ⟨(i, c i), Or.inl ⟨hi, rfl⟩, rfl⟩) K (o n) hu
    refine ⟨Function.update f n (curve (o n) u t), ?_, ?_⟩
    · intro j hj
      rcases Nat.lt_succ_iff_lt_or_eq.1 hj with hj | rfl
      · rw [Function.update_of_ne (by omega)]
        exact hf j hj
      · rw [Function.update_self]
        exact ⟨t, h0, h1, rfl⟩
    · have : sites c K (Function.update f n (curve (o n) u t)) (n + 1) ⊆
          sites c K f n ∪ {a | ∃ v ∈ K, a = (4 + n, move (curve (o n) u t) v)} := by
        rintro a (h | ⟨j, hj, v, hv, rfl⟩)
        · exact Or.inl (Or.inl h)
        · rcases Nat.lt_succ_iff_lt_or_eq.1 hj with hj | rfl
          · rw [Function.update_of_ne (by omega)]
            exact Or.inl (Or.inr ⟨j, hj, v, hv, rfl⟩)
          · rw [Function.update_self]
            exact Or.inr ⟨v, hv, rfl⟩
      exact ⟨fun a ha b hb d hd e he => G'.plane a (this ha) b (this hb) d (this hd) e (this he),
        fun a ha b hb d hd e he g hg => G'.sphere a (this ha) b (this hb) d (this hd) e (this he) g (this hg)⟩

end Verif.Parallel
