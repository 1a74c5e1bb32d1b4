import Verif.Voronoi.PolygonMeasure

/-! # The volume of a convex polyhedron: lemmas -/

namespace Verif.Voronoi

open MeasureTheory
open Verif.Predicates (P3)
open Verif.Delaunay

/-- A convex polyhedron around `p`: the affine functions `f q`, one for each face `q`, are positive inside, and have
the value 1 at `p`.  The vertices of the face `q` are the points `g t` with `t` in the closed list `c q`, `m q` is a
point in its interior.  At the side from `t` to `u` there is another face. -/
structure Polyhedron (Q : Finset ℕ) (c : ℕ → List ℕ) (g : ℕ → P3 ℝ) (p : P3 ℝ) (f : ℕ → P3 ℝ → ℝ) (m : ℕ → P3 ℝ)
    (σ : ℕ → ℝ) : Prop where
  aff : ∀ q ∈ Q, IsAff (f q)
  one : ∀ q ∈ Q, f q p = 1
  nodup : ∀ q ∈ Q, (c q).Nodup
  three : ∀ q ∈ Q, 3 ≤ (c q).length
  zero : ∀ q ∈ Q, ∀ t ∈ c q, f q (g t) = 0
  pos : ∀ q ∈ Q, ∀ w ∈ Q, ∀ t ∈ c q, t ∉ c w → 0 < f w (g t)
  mid : ∀ q ∈ Q, f q (m q) = 0
  midpos : ∀ q ∈ Q, ∀ w ∈ Q, w ≠ q → 0 < f w (m q)
  side : ∀ q ∈ Q, ∀ e ∈ sidesOf (c q), ∃ n ∈ Q, n ≠ q ∧ e.1 ∈ c n ∧ e.2 ∈ c n ∧
    (∀ w ∈ c q, w ≠ e.1 → w ≠ e.2 → w ∉ c n) ∧
    ∃ k : ℝ, 0 < k ∧ ∀ y, σ q * vol ![p, y, g e.1, g e.2] = k * (f n y - f q y)

variable {Q : Finset ℕ} {c : ℕ → List ℕ} {g : ℕ → P3 ℝ} {p : P3 ℝ} {f : ℕ → P3 ℝ → ℝ} {m : ℕ → P3 ℝ} {σ : ℕ → ℝ}

theorem Polyhedron.nonneg (h : Polyhedron Q c g p f m σ) {q : ℕ} (hq : q ∈ Q) {w : ℕ} (hw : w ∈ Q) {t : ℕ}
    (ht : t ∈ c q) : 0 ≤ f w (g t) := by
  by_cases hc : t ∈ c w
  · exact (h.zero w hw t hc).ge
  · exact (h.pos q hq w hw t ht hc).le

theorem Polyhedron.piece_pos (h : Polyhedron Q c g p f m σ) {q : ℕ} (hq : q ∈ Q) {e : ℕ × ℕ} (he : e ∈ sidesOf (c q)) :
    0 < σ q * vol ![p, m q, g e.1, g e.2] := by
  obtain ⟨n, hn, hne, _, _, _, k, hk, hy⟩ := h.side q hq e he
  rw [hy, h.mid q hq, sub_zero]
  exact mul_pos hk (h.midpos q hq n hn hne)

theorem Polyhedron.piece_ne (h : Polyhedron Q c g p f m σ) {q : ℕ} (hq : q ∈ Q) {e : ℕ × ℕ} (he : e ∈ sidesOf (c q)) :
    vol ![p, m q, g e.1, g e.2] ≠ 0 := right_ne_zero_of_mul (h.piece_pos hq he).ne'

theorem update_one (a b c d y : P3 ℝ) : Function.update ![a, b, c, d] 1 y = ![a, y, c, d] := by
  funext i
  fin_cases i <;> rfl

/-- The coordinate at the middle of the face. -/
theorem Polyhedron.ratio (h : Polyhedron Q c g p f m σ) {q : ℕ} (hq : q ∈ Q) {e : ℕ × ℕ} (he : e ∈ sidesOf (c q)) :
    ∃ n ∈ Q, n ≠ q ∧ e.1 ∈ c n ∧ e.2 ∈ c n ∧ (∀ w ∈ c q, w ≠ e.1 → w ≠ e.2 → w ∉ c n) ∧
      ∃ k : ℝ, 0 < k ∧ ∀ y, co ![p, m q, g e.1, g e.2] 1 y = k * (f n y - f q y) := by
  have hpos := h.piece_pos hq he
  obtain ⟨n, hn, hne, h1, h2, h3, k, hk, hy⟩ := h.side q hq e he
  have hσ : σ q ≠ 0 := left_ne_zero_of_mul hpos.ne'
  refine ⟨n, hn, hne, h1, h2, h3, k / (σ q * vol ![p, m q, g e.1, g e.2]), div_pos hk hpos, fun y => ?_⟩
  rw [div_mul_eq_mul_div, ← hy, mul_div_mul_left _ _ hσ]
  unfold co
  rw [update_one]

/-- The values of an affine function in terms of the coordinates in one of the pieces. -/
theorem Polyhedron.bary (h : Polyhedron Q c g p f m σ) {q : ℕ} (hq : q ∈ Q) {e : ℕ × ℕ} (he : e ∈ sidesOf (c q))
    {F : P3 ℝ → ℝ} (hF : IsAff F) (y : P3 ℝ) : F y = co ![p, m q, g e.1, g e.2] 0 y * F p +
      co ![p, m q, g e.1, g e.2] 1 y * F (m q) + co ![p, m q, g e.1, g e.2] 2 y * F (g e.1) +
      co ![p, m q, g e.1, g e.2] 3 y * F (g e.2) := by
  rw [hF.bary (h.piece_ne hq he) y, Fin.sum_univ_four]
  rfl

/-- The coordinate at `p`. -/
theorem Polyhedron.co_zero (h : Polyhedron Q c g p f m σ) {q : ℕ} (hq : q ∈ Q) {e : ℕ × ℕ} (he : e ∈ sidesOf (c q))
    (y : P3 ℝ) : co ![p, m q, g e.1, g e.2] 0 y = f q y := by
  obtain ⟨m1, m2⟩ := mem_sidesOf he
  rw [h.bary hq he (h.aff q hq) y, h.one q hq, h.mid q hq, h.zero q hq _ m1, h.zero q hq _ m2]
  ring

/-- In a piece of the face `q` the function of this face has the smallest value. -/
theorem Polyhedron.face_lt (h : Polyhedron Q c g p f m σ) {q : ℕ} (hq : q ∈ Q) {e : ℕ × ℕ} (he : e ∈ sidesOf (c q))
    {y : P3 ℝ} (hy : Inside3 ![p, m q, g e.1, g e.2] y) {w : ℕ} (hw : w ∈ Q) (hwq : w ≠ q) : f q y < f w y := by
  obtain ⟨m1, m2⟩ := mem_sidesOf he
  rw [← h.co_zero hq he, h.bary hq he (h.aff w hw) y, h.one w hw, mul_one]
  have h1 := mul_pos (hy 1) (h.midpos q hq w hw hwq)
  have h2 := mul_nonneg (hy 2).le (h.nonneg hq hw m1)
  have h3 := mul_nonneg (hy 3).le (h.nonneg hq hw m2)
  linarith

/-- The coordinate at the middle, at a vertex of the face. -/
theorem Polyhedron.ratio_pos (h : Polyhedron Q c g p f m σ) {q : ℕ} (hq : q ∈ Q) {e : ℕ × ℕ} (he : e ∈ sidesOf (c q))
    {w : ℕ} (hw : w ∈ c q) (h1 : w ≠ e.1) (h2 : w ≠ e.2) : 0 < co ![p, m q, g e.1, g e.2] 1 (g w) := by
  obtain ⟨n, hn, _, _, _, h3, k, hk, hy⟩ := h.ratio hq he
  rw [hy, h.zero q hq w hw, sub_zero]
  exact mul_pos hk (h.pos q hq n hn w hw (h3 w hw h1 h2))

theorem Polyhedron.ratio_fst (h : Polyhedron Q c g p f m σ) {q : ℕ} (hq : q ∈ Q) {e : ℕ × ℕ} (he : e ∈ sidesOf (c q)) :
    co ![p, m q, g e.1, g e.2] 1 (g e.1) = 0 := by
  obtain ⟨n, hn, _, k1, _, h3, k, hk, hy⟩ := h.ratio hq he
  rw [hy, h.zero q hq _ (mem_sidesOf he).1, h.zero n hn _ k1]
  ring

theorem Polyhedron.ratio_snd (h : Polyhedron Q c g p f m σ) {q : ℕ} (hq : q ∈ Q) {e : ℕ × ℕ} (he : e ∈ sidesOf (c q)) :
    co ![p, m q, g e.1, g e.2] 1 (g e.2) = 0 := by
  obtain ⟨n, hn, _, _, k1, h3, k, hk, hy⟩ := h.ratio hq he
  rw [hy, h.zero q hq _ (mem_sidesOf he).2, h.zero n hn _ k1]
  ring

theorem Polyhedron.ratio_nonneg (h : Polyhedron Q c g p f m σ) {q : ℕ} (hq : q ∈ Q) {e : ℕ × ℕ} (he : e ∈ sidesOf (c q))
    {w : ℕ} (hw : w ∈ c q) : 0 ≤ co ![p, m q, g e.1, g e.2] 1 (g w) := by
  by_cases h1 : w = e.1
  · rw [h1, h.ratio_fst hq he]
  · by_cases h2 : w = e.2
    · rw [h2, h.ratio_snd hq he]
    · exact (h.ratio_pos hq he hw h1 h2).le

theorem Polyhedron.ratio_p (h : Polyhedron Q c g p f m σ) {q : ℕ} (hq : q ∈ Q) {e : ℕ × ℕ} (he : e ∈ sidesOf (c q)) :
    co ![p, m q, g e.1, g e.2] 1 p = 0 := by
  obtain ⟨n, hn, _, _, k1, h3, k, hk, hy⟩ := h.ratio hq he
  rw [hy, h.one q hq, h.one n hn]
  ring

theorem Polyhedron.ratio_mid (h : Polyhedron Q c g p f m σ) {q : ℕ} (hq : q ∈ Q) {e : ℕ × ℕ} (he : e ∈ sidesOf (c q)) :
    co ![p, m q, g e.1, g e.2] 1 (m q) = 1 := co_self (h.piece_ne hq he) 1

/-- The coordinate at the middle is smallest in the own piece. -/
theorem Polyhedron.side_lt (h : Polyhedron Q c g p f m σ) {q : ℕ} (hq : q ∈ Q) {e e' : ℕ × ℕ} (he : e ∈ sidesOf (c q))
    (he' : e' ∈ sidesOf (c q)) (hne : e ≠ e') {y : P3 ℝ} (hy : Inside3 ![p, m q, g e.1, g e.2] y) :
    co ![p, m q, g e.1, g e.2] 1 y < co ![p, m q, g e'.1, g e'.2] 1 y := by
  obtain ⟨m1, m2⟩ := mem_sidesOf he
  rw [h.bary hq he (co_aff ![p, m q, g e'.1, g e'.2] 1) y, h.ratio_p hq he', h.ratio_mid hq he', mul_one, mul_zero, zero_add]
  have h2 := mul_nonneg (hy 2).le (h.ratio_nonneg hq he' m1)
  have h3 := mul_nonneg (hy 3).le (h.ratio_nonneg hq he' m2)
  rcases side_end (h.nodup q hq) (h.three q hq) he he' hne with ⟨k1, k2⟩ | ⟨k1, k2⟩
  · have := mul_pos (hy 2) (h.ratio_pos hq he' m1 k1 k2)
    linarith
  · have := mul_pos (hy 3) (h.ratio_pos hq he' m2 k1 k2)
    linarith

theorem Polyhedron.sides_nonempty (h : Polyhedron Q c g p f m σ) {q : ℕ} (hq : q ∈ Q) :
    (sidesOf (c q)).toFinset.Nonempty := by
  rw [List.toFinset_nonempty_iff]
  intro h'
  have := congrArg List.length h'
  have h3 := h.three q hq
  unfold sidesOf at this
  rw [List.length_zip, List.length_rotate, Nat.min_self, List.length_nil] at this
  omega

/-- Every place inside which has different distances from the faces and sides is in one of the pieces. -/
theorem Polyhedron.cover (h : Polyhedron Q c g p f m σ) (hne : Q.Nonempty) {y : P3 ℝ} (hin : ∀ q ∈ Q, 0 < f q y)
    (h1 : ∀ q ∈ Q, ∀ w ∈ Q, q ≠ w → f q y ≠ f w y)
    (h2 : ∀ q ∈ Q, ∀ e ∈ sidesOf (c q), ∀ e' ∈ sidesOf (c q), e ≠ e' →
      co ![p, m q, g e.1, g e.2] 1 y ≠ co ![p, m q, g e'.1, g e'.2] 1 y) :
    ∃ q ∈ Q, ∃ e ∈ sidesOf (c q), Inside3 ![p, m q, g e.1, g e.2] y := by
  obtain ⟨q, hq, hmin⟩ := Finset.exists_min_image Q (fun q => f q y) hne
  have hlt : ∀ w ∈ Q, w ≠ q → f q y < f w y := fun w hw hwq =>
    lt_of_le_of_ne (hmin w hw) (h1 q hq w hw (Ne.symm hwq))
  obtain ⟨e, he, hmin'⟩ := Finset.exists_min_image _ (fun e : ℕ × ℕ => co ![p, m q, g e.1, g e.2] 1 y) (h.sides_nonempty hq)
  have he := List.mem_toFinset.1 he
  have hlt' : ∀ e' ∈ sidesOf (c q), e ≠ e' → co ![p, m q, g e.1, g e.2] 1 y < co ![p, m q, g e'.1, g e'.2] 1 y :=
    fun e' he' hee => lt_of_le_of_ne (hmin' e' (List.mem_toFinset.2 he')) (h2 q hq e he e' he' hee)
  refine ⟨q, hq, e, he, ?_⟩
  have hn := h.nodup q hq
  have h3 := h.three q hq
  have c0 : 0 < co ![p, m q, g e.1, g e.2] 0 y := by
    rw [h.co_zero hq he]
    exact hin q hq
  have c1 : 0 < co ![p, m q, g e.1, g e.2] 1 y := by
    obtain ⟨n, hn, hne, _, _, _, k, hk, hy⟩ := h.ratio hq he
    rw [hy]
    exact mul_pos hk (sub_pos.2 (hlt n hn hne))
  obtain ⟨a, b⟩ := e
  have hab := side_ne hn (by omega) he
  obtain ⟨m1, m2⟩ := mem_sidesOf he
  dsimp only at *
  have c2 : 0 < co ![p, m q, g a, g b] 2 y := by
    obtain ⟨d, hd, n1, n2⟩ := next_side hn h3 he
    have hl := hlt' _ hd fun e => hab (Prod.mk.inj e).1
    have h4 := h.bary hq he (co_aff ![p, m q, g b, g d] 1) y
    have r0 := h.ratio_p hq hd
    have r1 := h.ratio_mid hq hd
    have r2 := h.ratio_fst hq hd
    have r3 := h.ratio_pos hq hd m1 hab (Ne.symm n1)
    dsimp only at *
    rw [r0, r1, r2, mul_zero, mul_zero, mul_one, zero_add, add_zero] at h4
    rw [h4] at hl
    exact pos_of_mul_pos_left (lt_add_iff_pos_right _ |>.1 hl) r3.le
  have c3 : 0 < co ![p, m q, g a, g b] 3 y := by
    obtain ⟨d, hd, n1, n2⟩ := prev_side hn h3 he
    have hl := hlt' _ hd fun e => n1 (Prod.mk.inj e).1.symm
    have h4 := h.bary hq he (co_aff ![p, m q, g d, g a] 1) y
    have r0 := h.ratio_p hq hd
    have r1 := h.ratio_mid hq hd
    have r2 := h.ratio_snd hq hd
    have r3 := h.ratio_pos hq hd m2 (Ne.symm n2) (Ne.symm hab)
    dsimp only at *
    rw [r0, r1, r2, mul_zero, mul_zero, mul_one, zero_add, add_zero] at h4
    rw [h4] at hl
    exact pos_of_mul_pos_left (lt_add_iff_pos_right _ |>.1 hl) r3.le
  intro i
  match i with
  | 0 => exact c0
  | 1 => exact c1
  | 2 => exact c2
  | 3 => exact c3

theorem measurable_inside3 (w : Fin 4 → P3 ℝ) : MeasurableSet {v : Fin 3 → ℝ | Inside3 w (at3 v)} := by
  unfold Inside3
  rw [Set.ofPred_forall]
  refine MeasurableSet.iInter fun i => measurableSet_lt measurable_const ?_
  have : (fun v => co w i (at3 v)) = fun v : Fin 3 → ℝ => co w i ⟨0, 0, 0⟩ + v 0 * (co w i ⟨1, 0, 0⟩ - co w i ⟨0, 0, 0⟩) +
      v 1 * (co w i ⟨0, 1, 0⟩ - co w i ⟨0, 0, 0⟩) + v 2 * (co w i ⟨0, 0, 1⟩ - co w i ⟨0, 0, 0⟩) := by
    funext v
    exact co_aff w i (at3 v)
  rw [this]
  fun_prop

/-- The volume of a convex polyhedron is the sum of the volumes of the tetrahedra between `p`, the middle of a face and
a side of this face. -/
theorem Polyhedron.volume_eq (h : Polyhedron Q c g p f m σ) (hne : Q.Nonempty) :
    volume {v | ∀ q ∈ Q, 0 < f q (at3 v)} = ENNReal.ofReal
      (∑ q ∈ Q, ((sidesOf (c q)).map fun e => |vol ![p, m q, g e.1, g e.2]| / 6).sum) := by
  classical
  rw [volume_pieces (Q.sigma fun q => (sidesOf (c q)).toFinset)
    (fun j => {v | Inside3 ![p, m j.1, g j.2.1, g j.2.2] (at3 v)})
    (N := {v | ∃ j ∈ Q ×ˢ Q, v ∈ {v | j.1 ≠ j.2 ∧ f j.1 (at3 v) - f j.2 (at3 v) = 0}} ∪
      {v | ∃ j ∈ Q.sigma fun q => (sidesOf (c q)).toFinset ×ˢ (sidesOf (c q)).toFinset, v ∈ {v | j.2.1 ≠ j.2.2 ∧
        co ![p, m j.1, g j.2.1.1, g j.2.1.2] 1 (at3 v) - co ![p, m j.1, g j.2.2.1, g j.2.2.2] 1 (at3 v) = 0}})]
  · rw [Finset.sum_sigma, ENNReal.ofReal_sum_of_nonneg]
    · refine Finset.sum_congr rfl fun q hq => ?_
      rw [← List.sum_toFinset _ (sidesOf_nodup (h.nodup q hq)), ENNReal.ofReal_sum_of_nonneg]
      · exact Finset.sum_congr rfl fun e he => volume_inside3 (h.piece_ne hq (List.mem_toFinset.1 he))
      · intro e _
        positivity
    · intro q _
      refine List.sum_nonneg fun z hz => ?_
      obtain ⟨e, _, rfl⟩ := List.mem_map.1 hz
      positivity
  · intro j _
    exact measurable_inside3 _
  · rintro ⟨q, e⟩ hj ⟨q', e'⟩ hj' hne
    obtain ⟨hq, he⟩ := Finset.mem_sigma.1 hj
    obtain ⟨hq', he'⟩ := Finset.mem_sigma.1 hj'
    have he := List.mem_toFinset.1 he
    have he' := List.mem_toFinset.1 he'
    dsimp only at hq hq' he he'
    rw [Set.disjoint_left]
    intro v h1 h2
    by_cases hqq : q = q'
    · subst hqq
      have hee : e ≠ e' := fun e => hne (by rw [e])
      exact lt_asymm (h.side_lt hq he he' hee h1) (h.side_lt hq he' he (Ne.symm hee) h2)
    · exact lt_asymm (h.face_lt hq he h1 hq' (Ne.symm hqq)) (h.face_lt hq' he' h2 hq hqq)
  · rintro ⟨q, e⟩ hj v hv w hw
    obtain ⟨hq, he⟩ := Finset.mem_sigma.1 hj
    have he := List.mem_toFinset.1 he
    dsimp only at hq he
    have h0 : 0 < f q (at3 v) := by
      rw [← h.co_zero hq he]
      exact hv 0
    by_cases hwq : w = q
    · rw [hwq]
      exact h0
    · exact h0.trans (h.face_lt hq he hv hw hwq)
  · refine measure_union_null (volume_exists _ _ ?_) (volume_exists _ _ ?_)
    · rintro ⟨q, w⟩ hj
      obtain ⟨hq, hw⟩ := Finset.mem_product.1 hj
      dsimp only at hq hw ⊢
      by_cases hne : q = w
      · have : {v : Fin 3 → ℝ | q ≠ w ∧ f q (at3 v) - f w (at3 v) = 0} = ∅ := by
          ext v
          simp [hne]
        rw [this, measure_empty]
      · refine measure_mono_null (t := {v | f q (at3 v) - f w (at3 v) = 0}) (fun v hv => hv.2) ?_
        refine volume_plane (f := fun y => f q y - f w y) ((h.aff q hq).sub (h.aff w hw)) ⟨m q, ?_⟩
        rw [h.mid q hq, zero_sub, neg_ne_zero]
        exact (h.midpos q hq w hw (Ne.symm hne)).ne'
    · rintro ⟨q, e, e'⟩ hj
      obtain ⟨hq, hj⟩ := Finset.mem_sigma.1 hj
      obtain ⟨he, he'⟩ := Finset.mem_product.1 hj
      have he := List.mem_toFinset.1 he
      have he' := List.mem_toFinset.1 he'
      dsimp only at hq he he' ⊢
      by_cases hne : e = e'
      · have : {v : Fin 3 → ℝ | e ≠ e' ∧ co ![p, m q, g e.1, g e.2] 1 (at3 v) -
            co ![p, m q, g e'.1, g e'.2] 1 (at3 v) = 0} = ∅ := by
          ext v
          simp [hne]
        rw [this, measure_empty]
      · refine measure_mono_null (t := {v | co ![p, m q, g e.1, g e.2] 1 (at3 v) -
          co ![p, m q, g e'.1, g e'.2] 1 (at3 v) = 0}) (fun v hv => hv.2) ?_
        refine volume_plane (f := fun y => co ![p, m q, g e.1, g e.2] 1 y - co ![p, m q, g e'.1, g e'.2] 1 y)
          ((co_aff _ 1).sub (co_aff _ 1)) ?_
        obtain ⟨m1, m2⟩ := mem_sidesOf he
        rcases side_end (h.nodup q hq) (h.three q hq) he he' hne with ⟨k1, k2⟩ | ⟨k1, k2⟩
        · refine ⟨g e.1, ?_⟩
          rw [h.ratio_fst hq he, zero_sub, neg_ne_zero]
          exact (h.ratio_pos hq he' m1 k1 k2).ne'
        · refine ⟨g e.2, ?_⟩
          rw [h.ratio_snd hq he, zero_sub, neg_ne_zero]
          exact (h.ratio_pos hq he' m2 k1 k2).ne'
  · intro v hv hN
    obtain ⟨q, hq, e, he, hin⟩ := h.cover hne hv
      (fun q hq w hw hqw heq => hN (Or.inl ⟨(q, w), Finset.mem_product.2 ⟨hq, hw⟩, hqw, sub_eq_zero.2 heq⟩))
      (fun q hq e he e' he' hee heq => hN (Or.inr ⟨⟨q, (e, e')⟩, Finset.mem_sigma.2 ⟨hq, Finset.mem_product.2
        ⟨List.mem_toFinset.2 he, List.mem_toFinset.2 he'⟩⟩, hee, sub_eq_zero.2 heq⟩))
    exact ⟨⟨q, e⟩, Finset.mem_sigma.2 ⟨hq, List.mem_toFinset.2 he⟩, hin⟩

end Verif.Voronoi
