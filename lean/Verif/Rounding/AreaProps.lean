import Verif.Rounding.AreaLemmas

/-! # C141: areas of faces in f64 -/

namespace Verif.Rounding

open Verif.Predicates Verif.Voronoi

/-- The rounded sum of numbers which are not negative. -/
theorem sumF_close {xs : List ℚ} {ys : List ℝ} {e X : ℝ}
    (h : List.Forall₂ (fun (x : ℚ) (y : ℝ) => IsF64 x ∧ 0 ≤ x ∧ (x : ℝ) ≤ X ∧ |(x : ℝ) - y| ≤ e) xs ys) (hm : xs.length ≤ 2 ^ 20) :
    |(sumF xs : ℝ) - ys.sum| ≤ xs.length * (e + 1001 / 1000 * (xs.length * X / 2 ^ 53)) ∧ 0 ≤ sumF xs ∧
    (sumF xs : ℝ) ≤ 1001 / 1000 * (xs.length * X) := by
  have hx : ∀ a ∈ xs, IsF64 a ∧ 0 ≤ a := by
    clear hm
    induction h with
    | nil => simp
    | cons h _ ih =>
      intro a ha
      rcases List.mem_cons.1 ha with rfl | ha
      · exact ⟨h.1, h.2.1⟩
      · exact ih a ha
  have hs : |((xs.sum : ℚ) : ℝ) - ys.sum| ≤ xs.length * e ∧ ((xs.sum : ℚ) : ℝ) ≤ xs.length * X := by
    clear hm hx
    induction h with
    | nil => simp
    | @cons a b l m hab _ ih =>
      rw [List.sum_cons, List.sum_cons, List.length_cons]
      simp only [Rat.cast_add, Nat.cast_add, Nat.cast_one]
      constructor
      · have k := abs_add_le ((a : ℝ) - b) (((l.sum : ℚ) : ℝ) - m.sum)
        rw [show (a : ℝ) + ((l.sum : ℚ) : ℝ) - (b + m.sum) = ((a : ℝ) - b) + (((l.sum : ℚ) : ℝ) - m.sum) by ring]
        linarith [hab.2.2.2, ih.1]
      · linarith [hab.2.2.1, ih.2]
  obtain ⟨b1, b2⟩ := sumF_bounds xs hx
  have hn : 0 ≤ xs.sum := List.sum_nonneg fun a ha => (hx a ha).2
  have hlen : (xs.length : ℚ) / 2 ^ 53 ≤ 1 / 2 ^ 33 := by
    have : (xs.length : ℚ) ≤ 2 ^ 20 := by exact_mod_cast hm
    calc (xs.length : ℚ) / 2 ^ 53 ≤ 2 ^ 20 / 2 ^ 53 := div_le_div_of_nonneg_right this (by positivity)
      _ = 1 / 2 ^ 33 := by norm_num
  have hlo := pow_low xs.length
  have hhi := pow_high (N := xs.length) (hm.trans (by norm_num))
  have hl0 : (0 : ℚ) ≤ (xs.length : ℚ) / 2 ^ 53 := by positivity
  have hq : |sumF xs - xs.sum| ≤ xs.sum * (1001 / 1000 * ((xs.length : ℚ) / 2 ^ 53)) := by
    set t : ℚ := (xs.length : ℚ) / 2 ^ 53 with ht
    have hp : (1 + 1 / 2 ^ 53 : ℚ) ^ xs.length ≤ 1 + 1001 / 1000 * t := by
      have h1t : 0 < 1 - t := by norm_num at hlen; linarith
      refine le_of_mul_le_mul_right (hhi.trans ?_) h1t
      norm_num at hlen
      nlinarith
    have hlo' := mul_le_mul_of_nonneg_left hlo hn
    have hhi' := mul_le_mul_of_nonneg_left hp hn
    have ht0 : 0 ≤ xs.sum * t := mul_nonneg hn hl0
    rw [abs_le]
    constructor <;> nlinarith
  have hq' : |(sumF xs : ℝ) - ((xs.sum : ℚ) : ℝ)| ≤ ((xs.sum : ℚ) : ℝ) * (1001 / 1000 * ((xs.length : ℝ) / 2 ^ 53)) := by
    have := (Rat.cast_le (K := ℝ)).2 hq
    push_cast at this ⊢
    exact this
  have hn' : (0 : ℝ) ≤ ((xs.sum : ℚ) : ℝ) := by exact_mod_cast hn
  have hlen' : (xs.length : ℝ) / 2 ^ 53 ≤ 1 / 2 ^ 33 := by
    have := (Rat.cast_le (K := ℝ)).2 hlen
    push_cast at this
    exact this
  have hm0 : (0 : ℝ) ≤ (xs.length : ℝ) / 2 ^ 53 := by positivity
  generalize ((xs.sum : ℚ) : ℝ) = S at *
  have hS : S * (1001 / 1000 * ((xs.length : ℝ) / 2 ^ 53)) ≤ xs.length * X * (1001 / 1000 * ((xs.length : ℝ) / 2 ^ 53)) :=
    mul_le_mul_of_nonneg_right hs.2 (by positivity)
  refine ⟨?_, sumF_nonneg xs fun a ha => (hx a ha).2, ?_⟩
  · have k := abs_add_le ((sumF xs : ℝ) - S) (S - ys.sum)
    rw [sub_add_sub_cancel] at k
    have e1 : (xs.length : ℝ) * (e + 1001 / 1000 * (xs.length * X / 2 ^ 53))
        = xs.length * e + xs.length * X * (1001 / 1000 * ((xs.length : ℝ) / 2 ^ 53)) := by ring
    rw [e1]
    linarith [hs.1]
  · have k := (abs_le.1 hq').2
    have : S * (1001 / 1000 * ((xs.length : ℝ) / 2 ^ 53)) ≤ S * (1 / 1000) := mul_le_mul_of_nonneg_left (by norm_num at hlen' ⊢; linarith) hn'
    linarith [hs.2]

theorem forall₂_zipWith {α β γ α' β' γ' : Type} {R : α → α' → Prop} {R' : β → β' → Prop} {S : γ → γ' → Prop} {f : α → β → γ} {g : α' → β' → γ'}
    (hf : ∀ a a' b b', R a a' → R' b b' → S (f a b) (g a' b')) :
    ∀ {l : List α} {l' : List α'} {m : List β} {m' : List β'}, List.Forall₂ R l l' → List.Forall₂ R' m m' →
      List.Forall₂ S (l.zipWith f m) (l'.zipWith g m')
  | _, _, _, _, .nil, _ => by simp
  | _, _, _, _, .cons _ _, .nil => by simp
  | _, _, _, _, .cons h t, .cons h' t' => .cons (hf _ _ _ _ h h') (forall₂_zipWith hf t t')

theorem forall₂_rotate_one {α β : Type} {R : α → β → Prop} {l : List α} {l' : List β} (h : List.Forall₂ R l l') :
    List.Forall₂ R (l.rotate 1) (l'.rotate 1) := by
  cases h with
  | nil => simp
  | cons h t =>
    rw [List.rotate_cons_succ, List.rotate_cons_succ, List.rotate_zero, List.rotate_zero]
    exact List.rel_append t (.cons h .nil)

/-- A polygon and its computed vertices: each vertex is known up to `δ`, and no vertex is farther from the first one than `D` in any
coordinate. -/
def PolygonNear (D δ : ℝ) (vs : List (P3 ℝ)) (ws : List (P3 ℚ)) : Prop :=
  ∃ R r V W, vs = R :: V ∧ ws = r :: W ∧
    List.Forall₂ (fun v w => CloseTo δ v w ∧ Within D R v ∧ Within D (real3 r) (real3 w)) vs ws

/-- The area and its size. -/
theorem area_real {vs : List (P3 ℝ)} {ws : List (P3 ℚ)} {D δ : ℝ} (hD : 1 / 2 ^ 100 ≤ D) (h : PolygonNear D δ vs ws)
    (hn : ws.length ≤ 2 ^ 20) :
    ∃ A A', polygonAreaF ws = some A ∧ polygonArea vs = some A' ∧ 0 ≤ A ∧ 0 ≤ A' ∧
      |(A : ℝ) - A'| ≤ ws.length * (9 * D * δ + (20 + 3 * ws.length) * (D ^ 2 / 2 ^ 53)) ∧
      A' ≤ ws.length * (2 * D ^ 2) ∧ (A : ℝ) ≤ ws.length * (21 / 10 * D ^ 2) := by
  obtain ⟨R, r, V, W, hvs, hws, hf⟩ := h
  have hD0 : 0 < D := lt_of_lt_of_le (by positivity) hD
  have hr : CloseTo δ R r := by
    rw [hvs, hws] at hf
    cases hf with
    | cons h _ => exact h.1
  have hδ : 0 ≤ δ := (abs_nonneg _).trans hr.1
  have h0 : 0 ≤ D ^ 2 / 2 ^ 53 := by positivity
  have hlen : vs.length = ws.length := hf.length_eq
  have e1 : polygonAreaF ws = some (sumF (if ws.length < 2 then [] else
      ws.zipWith (fun p1 p2 => (1 / 2) ⊠ length3F (crossF (subF r p1) (subF r p2))) (ws.rotate 1))) := by
    unfold polygonAreaF
    rw [hws, List.getElem?_cons_zero]
    dsimp only
    rw [mapWindows_eq]
    rfl
  have e2 : polygonArea vs = some (List.sum (if vs.length < 2 then [] else
      vs.zipWith (fun p1 p2 => 0.5 * length3 (cross (R.sub p1) (R.sub p2))) (vs.rotate 1))) := by
    unfold polygonArea
    rw [hvs, List.getElem?_cons_zero]
    dsimp only
    rw [mapWindows_eq]
    rfl
  rw [e1, e2]
  by_cases h2 : ws.length < 2
  · rw [if_pos h2, if_pos (hlen ▸ h2)]
    refine ⟨_, _, rfl, rfl, le_rfl, le_rfl, ?_, by simp; positivity, ?_⟩
    · simp [sumF]
      positivity
    · simp [sumF]
      positivity
  · rw [if_neg h2, if_neg (hlen ▸ h2)]
    refine ⟨_, _, rfl, rfl, ?_⟩
    have hz : List.Forall₂ (fun (y : ℝ) (x : ℚ) => (IsF64 x ∧ 0 ≤ x ∧ (x : ℝ) ≤ 203 / 100 * D ^ 2 ∧
          |(x : ℝ) - y| ≤ 9 * D * δ + 20 * (D ^ 2 / 2 ^ 53)) ∧ 0 ≤ y ∧ y ≤ 2 * D ^ 2)
        (vs.zipWith (fun p1 p2 => 0.5 * length3 (cross (R.sub p1) (R.sub p2))) (vs.rotate 1))
        (ws.zipWith (fun p1 p2 => (1 / 2) ⊠ length3F (crossF (subF r p1) (subF r p2))) (ws.rotate 1)) := by
      refine forall₂_zipWith ?_ hf (forall₂_rotate_one hf)
      intro a a' b b' ha hb
      obtain ⟨k1, k2, k3⟩ := triangle_real hD hr ha.1 hb.1 ha.2.1 hb.2.1 ha.2.2 hb.2.2
      refine ⟨⟨isF64_fl _, fl_nonneg (mul_nonneg (by norm_num) (length3F_nonneg _)), k3, k1⟩, ?_, k2⟩
      exact mul_nonneg (by norm_num) (Real.sqrt_nonneg _)
    have hlz : (ws.zipWith (fun p1 p2 => (1 / 2) ⊠ length3F (crossF (subF r p1) (subF r p2))) (ws.rotate 1)).length = ws.length := by
      simp
    have hsum : ∀ {ys : List ℝ} {xs : List ℚ}, List.Forall₂ (fun (y : ℝ) (x : ℚ) => (IsF64 x ∧ 0 ≤ x ∧ (x : ℝ) ≤ 203 / 100 * D ^ 2 ∧
          |(x : ℝ) - y| ≤ 9 * D * δ + 20 * (D ^ 2 / 2 ^ 53)) ∧ 0 ≤ y ∧ y ≤ 2 * D ^ 2) ys xs → 0 ≤ ys.sum ∧ ys.sum ≤ xs.length * (2 * D ^ 2) := by
      intro ys xs h
      induction h with
      | nil => simp
      | cons h _ ih =>
        rw [List.sum_cons, List.length_cons]
        push_cast
        exact ⟨by linarith [h.2.1, ih.1], by linarith [h.2.2, ih.2]⟩
    obtain ⟨s1, s2⟩ := hsum hz
    rw [hlz] at s2
    obtain ⟨c1, c2, c3⟩ := sumF_close (List.Forall₂.flip (hz.imp fun _ _ h => h.1)) (by rw [hlz]; exact hn)
    rw [hlz] at c1 c3
    refine ⟨c2, s1, c1.trans (mul_le_mul_of_nonneg_left ?_ (Nat.cast_nonneg _)), s2, c3.trans ?_⟩
    · have hw : (0 : ℝ) ≤ (ws.length : ℝ) * (D ^ 2 / 2 ^ 53) := by positivity
      have e : (ws.length : ℝ) * (203 / 100 * D ^ 2) / 2 ^ 53 = 203 / 100 * ((ws.length : ℝ) * (D ^ 2 / 2 ^ 53)) := by ring
      have e' : (20 + 3 * (ws.length : ℝ)) * (D ^ 2 / 2 ^ 53) = 20 * (D ^ 2 / 2 ^ 53) + 3 * ((ws.length : ℝ) * (D ^ 2 / 2 ^ 53)) := by ring
      rw [e, e']
      linarith
    · have hw : (0 : ℝ) ≤ (ws.length : ℝ) * D ^ 2 := by positivity
      linarith

/-- **C141.**  The area of a face in `f64`: it is not negative, and differs from the area of the exact polygon by the errors of its
vertices and by rounding errors. -/
theorem face_area_accurate_f64 {vs : List (P3 ℝ)} {ws : List (P3 ℚ)} {D δ : ℝ} (hD : 1 / 2 ^ 100 ≤ D) (h : PolygonNear D δ vs ws)
    (hn : ws.length ≤ 2 ^ 20) :
    ∃ A A', polygonAreaF ws = some A ∧ polygonArea vs = some A' ∧ 0 ≤ A ∧
      |(A : ℝ) - A'| ≤ ws.length * (9 * D * δ + (20 + 3 * ws.length) * (D ^ 2 / 2 ^ 53)) := by
  obtain ⟨A, A', h1, h2, h3, _, h5, _⟩ := area_real hD h hn
  exact ⟨A, A', h1, h2, h3, h5⟩

/-- **C141.**  The two cells at a face agree on its area up to these errors, wherever their lists of vertices start. -/
theorem face_areas_agree_f64 {vs vs' : List (P3 ℝ)} {ws ws' : List (P3 ℚ)} {D δ : ℝ} (hD : 1 / 2 ^ 100 ≤ D) (h : PolygonNear D δ vs ws)
    (h' : PolygonNear D δ vs' ws') (hlen : ws'.length = ws.length) (hn : ws.length ≤ 2 ^ 20) (hsame : polygonArea vs = polygonArea vs')
    {A A' : ℚ} (hA : polygonAreaF ws = some A) (hA' : polygonAreaF ws' = some A') :
    |(A : ℝ) - A'| ≤ 2 * (ws.length * (9 * D * δ + (20 + 3 * ws.length) * (D ^ 2 / 2 ^ 53))) := by
  obtain ⟨B, C, h1, h2, _, h5⟩ := face_area_accurate_f64 hD h hn
  obtain ⟨B', C', h1', h2', _, h5'⟩ := face_area_accurate_f64 hD h' (hlen ▸ hn)
  rw [hA] at h1
  rw [hA'] at h1'
  obtain rfl := Option.some.inj h1
  obtain rfl := Option.some.inj h1'
  rw [hsame, h2'] at h2
  obtain rfl := Option.some.inj h2
  rw [hlen] at h5'
  have k := abs_sub ((A : ℝ) - C') ((A' : ℝ) - C')
  rw [sub_sub_sub_cancel_right] at k
  linarith

end Verif.Rounding
