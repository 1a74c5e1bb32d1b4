import Verif.Voronoi.SimplexMeasure
import Verif.Voronoi.PolygonProps
import Verif.Voronoi.CycleLemmas

/-! # The area of a convex polygon: lemmas -/

namespace Verif.Voronoi

open MeasureTheory
open Verif.Predicates (P2 P3 orient2 orient3)

/-- The side after and the side before a side of a closed list. -/
theorem next_side {α : Type} {c : List α} (hn : c.Nodup) (h3 : 3 ≤ c.length) {a b : α} (h : (a, b) ∈ sidesOf c) :
    ∃ d, (b, d) ∈ sidesOf c ∧ d ≠ a ∧ d ≠ b := by
  obtain ⟨k, r, hk⟩ := rotate_to_front (mem_sidesOf h).2
  dsimp only at hk
  have hn' : (b :: r).Nodup := by rw [← hk, List.nodup_rotate]; exact hn
  have hr : r ≠ [] := by
    rintro rfl
    have := congrArg List.length hk
    rw [List.length_rotate] at this
    simp at this
    omega
  obtain ⟨d, _, h1, _⟩ := ends hn' hr
  rw [← hk, mem_sidesOf_rotate] at h1
  exact ⟨d, h1, fun e => no_return hn h3 h (e ▸ h1), (side_ne hn (by omega) h1).symm⟩

theorem prev_side {α : Type} {c : List α} (hn : c.Nodup) (h3 : 3 ≤ c.length) {a b : α} (h : (a, b) ∈ sidesOf c) :
    ∃ d, (d, a) ∈ sidesOf c ∧ d ≠ a ∧ d ≠ b := by
  obtain ⟨k, r, hk⟩ := rotate_to_front (mem_sidesOf h).1
  dsimp only at hk
  have hn' : (a :: r).Nodup := by rw [← hk, List.nodup_rotate]; exact hn
  have hr : r ≠ [] := by
    rintro rfl
    have := congrArg List.length hk
    rw [List.length_rotate] at this
    simp at this
    omega
  obtain ⟨_, d, _, h1, _⟩ := ends hn' hr
  rw [← hk, mem_sidesOf_rotate] at h1
  exact ⟨d, h1, side_ne hn (by omega) h1, fun e => no_return hn h3 h (e ▸ h1)⟩

/-- Two different sides do not have the same ends. -/
theorem side_end {α : Type} {c : List α} (hn : c.Nodup) (h3 : 3 ≤ c.length) {e f : α × α} (he : e ∈ sidesOf c)
    (hf : f ∈ sidesOf c) (hef : e ≠ f) : (e.1 ≠ f.1 ∧ e.1 ≠ f.2) ∨ (e.2 ≠ f.1 ∧ e.2 ≠ f.2) := by
  obtain ⟨a, b⟩ := e
  obtain ⟨a', b'⟩ := f
  have n1 := side_ne hn (by omega) he
  dsimp only at n1 ⊢
  by_contra hcon
  push Not at hcon
  obtain ⟨h1, h2⟩ := hcon
  by_cases e1 : a = a'
  · subst e1
    have := h2 (Ne.symm n1)
    exact hef (by rw [this])
  · have e2 := h1 e1
    subst e2
    by_cases e3 : b = a'
    · subst e3
      exact no_return hn h3 he hf
    · exact n1 (h2 e3).symm

/-- The area of a convex polygon around `p`. -/
theorem volume_polygon {c : List ℕ} {g : ℕ → P2 ℝ} {p : P2 ℝ} {σ : ℝ} (hn : c.Nodup) (h3 : 3 ≤ c.length)
    (hp : ∀ e ∈ sidesOf c, 0 < σ * orient2 ⟨p, g e.1, g e.2⟩)
    (hv : ∀ e ∈ sidesOf c, ∀ w ∈ c, w ≠ e.1 → w ≠ e.2 → 0 < σ * orient2 ⟨g w, g e.1, g e.2⟩) :
    volume {v | ∀ e ∈ sidesOf c, 0 ≤ σ * orient2 ⟨at2 v, g e.1, g e.2⟩} =
      ENNReal.ofReal ((sidesOf c).map fun e => triangleArea p (g e.1) (g e.2)).sum := by
  classical
  obtain ⟨f, hf⟩ : ∃ f : ℕ × ℕ → P2 ℝ → ℝ, f = fun e y => orient2 ⟨y, g e.1, g e.2⟩ / orient2 ⟨p, g e.1, g e.2⟩ := ⟨_, rfl⟩
  have hfe : ∀ e y, f e y = orient2 ⟨y, g e.1, g e.2⟩ / orient2 ⟨p, g e.1, g e.2⟩ := fun e y => by rw [hf]
  have hD : ∀ e ∈ sidesOf c, orient2 ⟨p, g e.1, g e.2⟩ ≠ 0 := by
    intro e he h
    have := hp e he
    rw [h, mul_zero] at this
    exact lt_irrefl _ this
  -- signs
  have hsg : ∀ e ∈ sidesOf c, ∀ y, (0 ≤ f e y ↔ 0 ≤ σ * orient2 ⟨y, g e.1, g e.2⟩) ∧
      (0 < f e y ↔ 0 < σ * orient2 ⟨y, g e.1, g e.2⟩) := by
    intro e he y
    have hσ : σ ≠ 0 := fun h => by
      have := hp e he
      rw [h, zero_mul] at this
      exact lt_irrefl _ this
    have e1 : f e y = σ * orient2 ⟨y, g e.1, g e.2⟩ / (σ * orient2 ⟨p, g e.1, g e.2⟩) := by
      rw [hfe, mul_div_mul_left _ _ hσ]
    rw [e1]
    exact ⟨⟨fun h => by have := mul_nonneg h (hp e he).le; rwa [div_mul_cancel₀ _ (hp e he).ne'] at this,
      fun h => div_nonneg h (hp e he).le⟩, div_pos_iff_of_pos_right (hp e he)⟩
  have hpos : ∀ e ∈ sidesOf c, ∀ w ∈ c, w ≠ e.1 → w ≠ e.2 → 0 < f e (g w) := fun e he w hw h1 h2 =>
    (hsg e he _).2.2 (hv e he w hw h1 h2)
  have hfst : ∀ e, f e (g e.1) = 0 := fun e => by rw [hfe]; unfold orient2; simp
  have hsnd : ∀ e, f e (g e.2) = 0 := fun e => by
    rw [hfe, show orient2 ⟨g e.2, g e.1, g e.2⟩ = 0 by unfold orient2; ring, zero_div]
  have hnn : ∀ e ∈ sidesOf c, ∀ w ∈ c, 0 ≤ f e (g w) := by
    intro e he w hw
    by_cases h1 : w = e.1
    · rw [h1, hfst]
    · by_cases h2 : w = e.2
      · rw [h2, hsnd]
      · exact (hpos e he w hw h1 h2).le
  have hfp : ∀ e ∈ sidesOf c, f e p = 1 := fun e he => by rw [hfe, div_self (hD e he)]
  -- coordinates
  have hco : ∀ e ∈ sidesOf c, ∀ e' y, f e' y = f e y * f e' p +
      orient2 ⟨y, g e.2, p⟩ / orient2 ⟨p, g e.1, g e.2⟩ * f e' (g e.1) +
      orient2 ⟨y, p, g e.1⟩ / orient2 ⟨p, g e.1, g e.2⟩ * f e' (g e.2) := by
    intro e he e' y
    have := triangle_bary (hD e he) y (g e'.1) (g e'.2)
    rw [hfe e' y, hfe e y, hfe e' p, hfe e' (g e.1), hfe e' (g e.2), this]
    ring
  have hstrict : ∀ e ∈ sidesOf c, ∀ e' ∈ sidesOf c, e ≠ e' → ∀ y, InsideTriangle p (g e.1) (g e.2) y → f e y < f e' y := by
    intro e he e' he' hne y ⟨_, h2, h3'⟩
    have h := hco e he e' y
    rw [hfp e' he', mul_one] at h
    obtain ⟨m1, m2⟩ := mem_sidesOf he
    have a1 := mul_nonneg h2.le (hnn e' he' _ m1)
    have a2 := mul_nonneg h3'.le (hnn e' he' _ m2)
    rcases side_end hn h3 he he' hne with ⟨k1, k2⟩ | ⟨k1, k2⟩
    · have := mul_pos h2 (hpos e' he' _ m1 k1 k2)
      linarith
    · have := mul_pos h3' (hpos e' he' _ m2 k1 k2)
      linarith
  have hlin : ∀ (e : ℕ × ℕ) (k : ℝ) (u v w : P2 ℝ), f e ⟨k * (u.x - v.x) + w.x, k * (u.y - v.y) + w.y⟩ =
      k * (f e u - f e v) + f e w := by
    intro e k u v w
    rw [hfe, hfe, hfe, hfe, div_sub_div_same, mul_div_assoc', ← add_div]
    unfold orient2
    ring
  have hmeas' : ∀ (b d : P2 ℝ) (k : ℝ), Measurable fun v : Fin 2 → ℝ => orient2 ⟨at2 v, b, d⟩ / k := by
    intro b d k
    unfold orient2 at2
    dsimp only
    fun_prop
  rw [volume_pieces (sidesOf c).toFinset (fun e => {v | InsideTriangle p (g e.1) (g e.2) (at2 v)})
    (N := {v | ∃ j ∈ (sidesOf c).toFinset ×ˢ (sidesOf c).toFinset, v ∈ {v | j.1 ≠ j.2 ∧ f j.1 (at2 v) - f j.2 (at2 v) = 0}} ∪
      {v | ∃ e ∈ (sidesOf c).toFinset, v ∈ {v | f e (at2 v) = 0}})]
  · rw [← List.sum_toFinset _ (sidesOf_nodup hn), ENNReal.ofReal_sum_of_nonneg]
    · refine Finset.sum_congr rfl fun e he => ?_
      rw [volume_inside2 (hD e (List.mem_toFinset.1 he))]
      rfl
    · intro e _
      unfold triangleArea
      positivity
  · intro e _
    unfold InsideTriangle
    rw [Set.ofPred_and, Set.ofPred_and]
    exact (measurableSet_lt measurable_const (hmeas' _ _ _)).inter
      ((measurableSet_lt measurable_const (hmeas' _ _ _)).inter (measurableSet_lt measurable_const (hmeas' _ _ _)))
  · intro e he e' he' hne
    rw [Set.disjoint_left]
    intro v h1 h2
    have k1 := hstrict e (List.mem_toFinset.1 he) e' (List.mem_toFinset.1 he') hne _ h1
    have k2 := hstrict e' (List.mem_toFinset.1 he') e (List.mem_toFinset.1 he) hne.symm _ h2
    exact lt_asymm k1 k2
  · intro e he v h e' he'
    have he := List.mem_toFinset.1 he
    rw [← (hsg e' he' _).1]
    obtain ⟨h1, h2, h3'⟩ := h
    obtain ⟨m1, m2⟩ := mem_sidesOf he
    have h0 : 0 < f e (at2 v) := by rw [hfe]; exact h1
    have h := hco e he e' (at2 v)
    rw [hfp e' he', mul_one] at h
    have a1 := mul_nonneg h2.le (hnn e' he' _ m1)
    have a2 := mul_nonneg h3'.le (hnn e' he' _ m2)
    linarith
  · refine measure_union_null (volume_exists _ _ ?_) (volume_exists _ _ ?_)
    · rintro ⟨e, e'⟩ hj
      obtain ⟨he, he'⟩ := Finset.mem_product.1 hj
      have he := List.mem_toFinset.1 he
      have he' := List.mem_toFinset.1 he'
      dsimp only at he he' ⊢
      by_cases hne : e = e'
      · have : {v : Fin 2 → ℝ | e ≠ e' ∧ f e (at2 v) - f e' (at2 v) = 0} = ∅ := by
          ext v
          simp [hne]
        rw [this, measure_empty]
      · refine measure_mono_null (t := {v | f e (at2 v) - f e' (at2 v) = 0}) (fun v hv => hv.2) ?_
        refine volume_line (f := fun y => f e y - f e' y) ?_ ?_
        · intro k u v w
          rw [hlin, hlin]
          ring
        · obtain ⟨m1, m2⟩ := mem_sidesOf he
          rcases side_end hn h3 he he' hne with ⟨k1, k2⟩ | ⟨k1, k2⟩
          · refine ⟨g e.1, ?_⟩
            rw [hfst, zero_sub, neg_ne_zero]
            exact (hpos e' he' _ m1 k1 k2).ne'
          · refine ⟨g e.2, ?_⟩
            rw [hsnd, zero_sub, neg_ne_zero]
            exact (hpos e' he' _ m2 k1 k2).ne'
    · intro e he
      have he := List.mem_toFinset.1 he
      exact volume_line (f := f e) (hlin e) ⟨p, by rw [hfp e he]; exact one_ne_zero⟩
  · intro v hv hN
    have hv : ∀ e ∈ sidesOf c, 0 ≤ f e (at2 v) := fun e he => (hsg e he _).1.2 (hv e he)
    have hne : (sidesOf c).toFinset.Nonempty := by
      rw [List.toFinset_nonempty_iff]
      intro h
      have := congrArg List.length h
      unfold sidesOf at this
      rw [List.length_zip, List.length_rotate, Nat.min_self, List.length_nil] at this
      omega
    obtain ⟨e, he, hmin⟩ := Finset.exists_min_image _ (fun e => f e (at2 v)) hne
    refine ⟨e, he, ?_⟩
    have he' := List.mem_toFinset.1 he
    have hlt : ∀ e' ∈ sidesOf c, e ≠ e' → f e (at2 v) < f e' (at2 v) := by
      intro e' h hee
      refine lt_of_le_of_ne (hmin e' (List.mem_toFinset.2 h)) fun heq => hN (Or.inl ⟨(e, e'), ?_, hee, ?_⟩)
      · exact Finset.mem_product.2 ⟨he, List.mem_toFinset.2 h⟩
      · exact sub_eq_zero.2 heq
    have h0 : 0 < f e (at2 v) := lt_of_le_of_ne (hv e he') fun h => hN (Or.inr ⟨e, he, h.symm⟩)
    obtain ⟨a, b⟩ := e
    have hne := side_ne hn (by omega) he'
    obtain ⟨m1, m2⟩ := mem_sidesOf he'
    dsimp only at hne m1 m2
    refine ⟨by rw [hfe] at h0; exact h0, ?_, ?_⟩
    · -- the next side
      obtain ⟨d, hd, n1, n2⟩ := next_side hn h3 he'
      have h := hco _ he' (b, d) (at2 v)
      have hl := hlt _ hd fun e => hne (Prod.mk.inj e).1
      have h1 := hfst (b, d)
      dsimp only at h h1
      rw [hfp _ hd, h1, mul_one, mul_zero, add_zero] at h
      have h2 := hpos _ hd a m1 hne (Ne.symm n1)
      rw [h] at hl
      exact pos_of_mul_pos_left (lt_add_iff_pos_right _ |>.1 hl) h2.le
    · obtain ⟨d, hd, n1, n2⟩ := prev_side hn h3 he'
      have h := hco _ he' (d, a) (at2 v)
      have hl := hlt _ hd fun e => n1 (Prod.mk.inj e).1.symm
      have h1 := hsnd (d, a)
      dsimp only at h h1
      rw [hfp _ hd, h1, mul_one, mul_zero, add_zero] at h
      have h2 := hpos _ hd b m2 (Ne.symm n2) (Ne.symm hne)
      rw [h] at hl
      exact pos_of_mul_pos_left (lt_add_iff_pos_right _ |>.1 hl) h2.le

end Verif.Voronoi
