import Verif.Delaunay.SpaceLoop

/-! # The tetrahedra at a point and at an edge of a Delaunay mesh: lemmas -/

namespace Verif.Delaunay

open Verif.Predicates (P3 orient3 distSq3)

variable {K : Type} [Field K] [LinearOrder K] [IsStrictOrderedRing K] {x : ℕ → P3 K}

/-- The tetrahedron `i` has the vertices `p, q, b, c`, in positive orientation. -/
def Wedge (x : ℕ → P3 K) (M : Mesh) (i p q b c : ℕ) : Prop := At3 M i ![p, q, b, c] ∧ 0 < vol (x ∘ ![p, q, b, c])

theorem update_two (p q b c d : ℕ) : Function.update ![p, q, b, c] 2 d = ![p, q, d, c] := by
  funext i
  fin_cases i <;> rfl

theorem swap_vec (p q b c : ℕ) : ![p, q, b, c] ∘ Equiv.swap (2 : Fin 4) 3 = ![p, q, c, b] := by
  funext i
  fin_cases i <;> rfl

theorem At3.swap {M : Mesh} {i p q b c : ℕ} (h : At3 M i ![p, q, b, c]) : At3 M i ![p, q, c, b] := by
  rw [← swap_vec]
  exact h.perm _

omit [LinearOrder K] [IsStrictOrderedRing K] in
theorem vol_swap (p q b c : ℕ) : vol (x ∘ ![p, q, c, b]) = -vol (x ∘ ![p, q, b, c]) := by
  rw [vol_def, vol_def]
  simp only [Function.comp_apply, Matrix.cons_val]
  ring

/-- The coordinates of a place between the middle of the first edge and `y`. -/
theorem co_edge {v : Fin 4 → P3 K} (hv : vol v ≠ 0) (t : K) (y : P3 K) (k : Fin 4) :
    co v k (lerp t (lerp (1 / 2) (v 0) (v 1)) y) = (1 - t) * (if k = 0 ∨ k = 1 then 1 / 2 else 0) + t * co v k y := by
  rw [(co_aff _ k).lerp, (co_aff _ k).lerp]
  congr 2
  by_cases k0 : k = 0
  · subst k0
    rw [co_self hv 0, co_other v (by decide)]
    norm_num
  · by_cases k1 : k = 1
    · subst k1
      rw [co_self hv 1, co_other v (by decide)]
      norm_num
    · rw [co_other v (Ne.symm k0), co_other v (Ne.symm k1), if_neg (by tauto)]
      ring

theorem pw3_within {v : Fin 4 → P3 K} (h : vol v ≠ 0) {y : P3 K} (hy : Within3 v y) : pw3 v y ≤ 0 := by
  rw [pw3_eq h (lift_sub_dist y) y]
  have hd : distSq3 y y = 0 := by simp [distSq3]
  rw [hd, zero_sub, neg_nonpos]
  exact Finset.sum_nonneg fun i _ => mul_nonneg (hy i) (by
    simp only [distSq3]
    positivity)

omit [LinearOrder K] [IsStrictOrderedRing K] in
theorem lift_sub_pw3 (v : Fin 4 → P3 K) : IsAff fun y => lift y - pw3 v y := by
  unfold pw3
  simp only [Fin.sum_univ_four, sub_sub_cancel]
  exact ((((co_aff v 0).mul _).add ((co_aff v 1).mul _)).add ((co_aff v 2).mul _)).add ((co_aff v 3).mul _)

/-- A tetrahedron with two given vertices. -/
theorem exists_wedge {s : State} (P : SpaceOk x s) {i p q : ℕ} {T : Tetra} (hT : s.mesh.tetras.get i = some T)
    (hp : p ∈ T.points) (hq : q ∈ T.points) (hpq : p ≠ q) : ∃ b c, Wedge x s.mesh i p q b c := by
  have h1 := List.perm_cons_erase hp
  have hq' : q ∈ T.points.erase p := (List.mem_erase_of_ne (Ne.symm hpq)).2 hq
  have h2 := List.perm_cons_erase hq'
  have h3 : T.points.Perm (p :: q :: (T.points.erase p).erase q) := h1.trans (h2.cons p)
  have hl : T.points.length = 4 := by simpa [Tetra.points] using P.ok.cons.size i T hT
  have hl' := h3.length_eq
  simp only [List.length_cons] at hl'
  obtain ⟨b, c, hbc⟩ : ∃ b c, (T.points.erase p).erase q = [b, c] := List.length_eq_two.1 (by omega)
  rw [hbc] at h3
  have hat := at3_of_perm P.ok.cons hT h3
  have hne := P.space.solid.nondeg hat
  rcases lt_or_gt_of_ne hne with h | h
  · refine ⟨c, b, hat.swap, ?_⟩
    rw [vol_swap]
    linarith
  · exact ⟨b, c, hat, h⟩

/-- A face with an inserted point has a neighbour. -/
theorem SpaceOk.inner {s : State} (P : SpaceOk x s) {i : ℕ} {σ : Fin 4 → ℕ} (h : At3 s.mesh i σ) {k l : Fin 4}
    (hkl : l ≠ k) (hp : 4 ≤ σ l) : ∃ j d, At3 s.mesh j (Function.update σ k d) ∧ co (x ∘ σ) k (x d) < 0 := by
  rcases P.closed i σ h k with hh | h
  · exfalso
    have h0 : co (x ∘ σ) k (x (σ l)) = 0 := co_other (x ∘ σ) hkl
    have h4 := P.four
    have hw : ∀ m : Fin 4, 0 ≤ co (x ∘ σ) k ((x ∘ ![0, 1, 2, 3]) m) := by
      intro m
      refine hh _ ?_
      fin_cases m
      · exact (by omega : 0 < s.mesh.numPoints)
      · exact (by omega : 1 < s.mesh.numPoints)
      · exact (by omega : 2 < s.mesh.numPoints)
      · exact (by omega : 3 < s.mesh.numPoints)
    refine absurd ((co_aff (x ∘ σ) k).pos P.orient.ne' (P.strict _ hp (P.lt h l)) hw ?_) (by rw [h0]; exact lt_irrefl _)
    by_contra hc
    push Not at hc
    have hz : ∀ m, co (x ∘ σ) k ((x ∘ ![0, 1, 2, 3]) m) = 0 := fun m => le_antisymm (hc m) (hw m)
    have h1 := (co_aff (x ∘ σ) k).bary P.orient.ne' ((x ∘ σ) k)
    rw [co_self (P.space.solid.nondeg h)] at h1
    simp only [hz, mul_zero, Finset.sum_const_zero] at h1
    exact one_ne_zero h1
  · exact h

/-- The next tetrahedron around the edge. -/
theorem Wedge.next {s : State} (P : SpaceOk x s) {i p q b c : ℕ} (hp : 4 ≤ p) (h : Wedge x s.mesh i p q b c) :
    ∃ j d, Wedge x s.mesh j p q c d ∧ co (x ∘ ![p, q, b, c]) 2 (x d) < 0 := by
  obtain ⟨j, d, h1, h2⟩ := P.inner h.1 (k := 2) (l := 0) (by decide) hp
  refine ⟨j, d, ⟨?_, ?_⟩, h2⟩
  · rw [update_two] at h1
    exact h1.swap
  · rw [vol_swap, ← update_two p q b c d, comp_upd, vol_update h.2.ne']
    have := mul_neg_of_neg_of_pos h2 h.2
    linarith

/-- The previous tetrahedron around the edge. -/
theorem Wedge.prev {s : State} (P : SpaceOk x s) {i p q b c : ℕ} (hp : 4 ≤ p) (h : Wedge x s.mesh i p q b c) :
    ∃ j d, Wedge x s.mesh j p q d b ∧ co (x ∘ ![p, q, b, c]) 3 (x d) < 0 := by
  obtain ⟨j, d, h1, h2⟩ := P.inner h.1 (k := 3) (l := 0) (by decide) hp
  refine ⟨j, d, ⟨?_, ?_⟩, h2⟩
  · rw [update_vec3] at h1
    exact h1.swap
  · rw [vol_swap, ← update_vec3 p q b c d, comp_upd, vol_update h.2.ne']
    have := mul_neg_of_neg_of_pos h2 h.2
    linarith

theorem Wedge.same_fst {s : State} (P : SpaceOk x s) {i j p q b c d : ℕ} (h : Wedge x s.mesh i p q b c)
    (h' : Wedge x s.mesh j p q b d) : i = j := by
  refine P.space.solid.unique h.1 (k := 3) (q := d) (by rw [update_vec3]; exact h'.1) ?_
  have := h'.2
  rw [← update_vec3 p q b c d, comp_upd, vol_update h.2.ne'] at this
  exact (mul_pos_iff_of_pos_right h.2).1 this

theorem Wedge.same_snd {s : State} (P : SpaceOk x s) {i j p q b c d : ℕ} (h : Wedge x s.mesh i p q b c)
    (h' : Wedge x s.mesh j p q d c) : i = j := by
  refine P.space.solid.unique h.1 (k := 2) (q := d) (by rw [update_two]; exact h'.1) ?_
  have := h'.2
  rw [← update_two p q b c d, comp_upd, vol_update h.2.ne'] at this
  exact (mul_pos_iff_of_pos_right h.2).1 this

theorem Wedge.nodup {M : Mesh} {i p q b c : ℕ} (h : Wedge x M i p q b c) : [p, q, b, c].Nodup := by
  obtain ⟨_, _, hi, _⟩ := h.1
  have := List.nodup_ofFn.2 hi
  simpa [List.ofFn_succ] using this

theorem Wedge.mem {M : Mesh} (hc : Consistent 3 M) {i p q b c : ℕ} (h : Wedge x M i p q b c) {T : Tetra}
    (hT : M.tetras.get i = some T) (z : ℕ) : z ∈ T.points ↔ z = p ∨ z = q ∨ z = b ∨ z = c := by
  rw [h.1.mem_iff hc hT]
  constructor
  · rintro ⟨k, rfl⟩
    fin_cases k <;> simp
  · rintro (rfl | rfl | rfl | rfl)
    · exact ⟨0, rfl⟩
    · exact ⟨1, rfl⟩
    · exact ⟨2, rfl⟩
    · exact ⟨3, rfl⟩

theorem Wedge.pair {s : State} (P : SpaceOk x s) {i p q b c b' c' : ℕ} (h : Wedge x s.mesh i p q b c)
    (h' : Wedge x s.mesh i p q b' c') : b = b' ∧ c = c' := by
  obtain ⟨T, hT, _⟩ := id h.1
  have hb := (h.mem P.ok.cons hT b').1 ((h'.mem P.ok.cons hT b').2 (by simp))
  have hc := (h.mem P.ok.cons hT c').1 ((h'.mem P.ok.cons hT c').2 (by simp))
  have n1 := h.nodup
  have n2 := h'.nodup
  simp only [List.nodup_cons, List.mem_cons, List.not_mem_nil, or_false, not_or, not_false_eq_true, List.nodup_nil,
    and_true] at n1 n2
  by_cases hbb : b = b'
  · exact ⟨hbb, by omega⟩
  · exfalso
    have e1 : b' = c := by omega
    have e2 : c' = b := by omega
    have h1 := h.2
    have h2 := h'.2
    rw [e1, e2, vol_swap] at h2
    linarith

/-- The power of a point of the initial tetrahedron becomes smaller if one passes a face towards it. -/
theorem SpaceOk.step {s : State} (P : SpaceOk x s) {i j d : ℕ} {σ : Fin 4 → ℕ} (h : At3 s.mesh i σ) {k : Fin 4}
    (h' : At3 s.mesh j (Function.update σ k d)) (hd : co (x ∘ σ) k (x d) < 0) {y : P3 K} (hy : co (x ∘ σ) k y < 0) :
    pw3 (x ∘ Function.update σ k d) y < pw3 (x ∘ σ) y := by
  have hne := P.space.solid.nondeg h
  exact pw3_decreases hne hd (P.empty j _ h' (σ k) (P.lt h k) (fresh_vertex hne hd)) hy

/-- A set of tetrahedra at an edge which contains the next and the previous ones contains all of them. -/
theorem SpaceOk.edge_all {s : State} (P : SpaceOk x s) {p q : ℕ} (hp : 4 ≤ p) (A : Set ℕ)
    (hsub : ∀ i ∈ A, ∃ b c, Wedge x s.mesh i p q b c) (hne : A.Nonempty)
    (hnext : ∀ i ∈ A, ∀ b c j d, Wedge x s.mesh i p q b c → Wedge x s.mesh j p q c d → j ∈ A)
    (hprev : ∀ i ∈ A, ∀ b c j d, Wedge x s.mesh i p q b c → Wedge x s.mesh j p q d b → j ∈ A)
    {j u v : ℕ} (hj : Wedge x s.mesh j p q u v) : j ∈ A := by
  have S := P.space.solid
  obtain ⟨y, hy⟩ := inside3_nonempty hj.2.ne'
  obtain ⟨f, hf⟩ := S.value y
  obtain ⟨i, hi, hmin⟩ := Set.exists_min_image A f
    ((at3_finite P.ok.cons).subset fun i hi => by obtain ⟨b, c, h⟩ := hsub i hi; exact ⟨_, h.1⟩) hne
  obtain ⟨b, c, h⟩ := hsub i hi
  have h2 : 0 ≤ co (x ∘ ![p, q, b, c]) 2 y := by
    by_contra hc
    rw [not_le] at hc
    obtain ⟨j', d, h1, h2⟩ := h.next P hp
    have hat : At3 s.mesh j' (Function.update ![p, q, b, c] 2 d) := by
      rw [update_two]
      exact h1.1.swap
    have hdec := P.step h.1 hat h2 hc
    have := hmin j' (hnext i hi b c j' d h h1)
    rw [hf i _ h.1, hf j' _ hat] at this
    linarith
  have h3 : 0 ≤ co (x ∘ ![p, q, b, c]) 3 y := by
    by_contra hc
    rw [not_le] at hc
    obtain ⟨j', d, h1, h2⟩ := h.prev P hp
    have hat : At3 s.mesh j' (Function.update ![p, q, b, c] 3 d) := by
      rw [update_vec3]
      exact h1.1.swap
    have hdec := P.step h.1 hat h2 hc
    have := hmin j' (hprev i hi b c j' d h h1)
    rw [hf i _ h.1, hf j' _ hat] at this
    linarith
  -- close to the middle of the edge
  obtain ⟨t, t0, t1, ht⟩ := exists_small (fun _ => (1 / 2 : K)) (fun k => co (x ∘ ![p, q, b, c]) k y) (fun _ => by norm_num)
  have hco : ∀ {b c : ℕ}, vol (x ∘ ![p, q, b, c]) ≠ 0 → ∀ k,
      co (x ∘ ![p, q, b, c]) k (lerp t (lerp (1 / 2) (x p) (x q)) y) =
        (1 - t) * (if k = 0 ∨ k = 1 then 1 / 2 else 0) + t * co (x ∘ ![p, q, b, c]) k y :=
    fun hv k => co_edge hv t y k
  have hin : Inside3 (x ∘ ![p, q, u, v]) (lerp t (lerp (1 / 2) (x p) (x q)) y) := by
    intro k
    rw [hco hj.2.ne']
    have h1 := mul_pos t0 (hy k)
    have h2 : 0 ≤ (1 - t) * (if k = 0 ∨ k = 1 then 1 / 2 else 0 : K) :=
      mul_nonneg (by linarith) (by split_ifs <;> norm_num)
    linarith
  have hwi : Within3 (x ∘ ![p, q, b, c]) (lerp t (lerp (1 / 2) (x p) (x q)) y) := by
    intro k
    rw [hco h.2.ne']
    by_cases hk : k = 0 ∨ k = 1
    · rw [if_pos hk]
      exact (ht k).le
    · rw [if_neg hk, mul_zero, zero_add]
      refine mul_nonneg t0.le ?_
      fin_cases k
      · exact absurd (Or.inl rfl) hk
      · exact absurd (Or.inr rfl) hk
      · exact h2
      · exact h3
  rw [S.same_of_inside hj.1 h.1 hin hwi]
  exact hi

/-- Every direction at an inserted point leads into one of its tetrahedra. -/
theorem SpaceOk.cone {s : State} (P : SpaceOk x s) {p : ℕ} (hp : 4 ≤ p) (hpm : ∃ i σ k, At3 s.mesh i σ ∧ σ k = p)
    (y : P3 K) : ∃ i σ k, At3 s.mesh i σ ∧ σ k = p ∧ ∀ l, l ≠ k → 0 ≤ co (x ∘ σ) l y := by
  have S := P.space.solid
  obtain ⟨f, hf⟩ := S.value y
  obtain ⟨i0, σ0, k0, h0, e0⟩ := hpm
  obtain ⟨i, ⟨σ, k, h, hk⟩, hmin⟩ := Set.exists_min_image {i | ∃ σ k, At3 s.mesh i σ ∧ σ k = p} f
    ((at3_finite P.ok.cons).subset fun i hi => by obtain ⟨σ, _, h, _⟩ := hi; exact ⟨σ, h⟩) ⟨i0, σ0, k0, h0, e0⟩
  refine ⟨i, σ, k, h, hk, fun l hl => ?_⟩
  by_contra hc
  rw [not_le] at hc
  obtain ⟨j, d, h1, h2⟩ := P.inner h (k := l) (l := k) (Ne.symm hl) (by rw [hk]; exact hp)
  have hdec := P.step h h1 h2 hc
  have := hmin j ⟨_, k, h1, by rw [Function.update_of_ne (Ne.symm hl)]; exact hk⟩
  rw [hf i _ h, hf j _ h1] at this
  linarith

/-- Every point is a vertex. -/
theorem SpaceOk.vertex {s : State} (P : SpaceOk x s) {p : ℕ} (hp : p < s.mesh.numPoints) :
    ∃ i σ k, At3 s.mesh i σ ∧ σ k = p := by
  obtain ⟨i0, σ0, h0⟩ := P.nonempty
  obtain ⟨i, _, σ, h, hw⟩ := P.find (P.hull p hp) Set.univ ⟨i0, trivial, σ0, h0⟩ (fun _ _ _ _ _ _ _ _ _ => trivial)
  by_contra hc
  push Not at hc
  have hne := P.space.solid.nondeg h
  have h1 := P.empty i σ h p hp fun k => Ne.symm (hc i σ k h)
  have h2 := pw3_within hne hw
  linarith

/-- Different points have different positions. -/
theorem SpaceOk.injective {s : State} (P : SpaceOk x s) {i j : ℕ} (hi : i < s.mesh.numPoints)
    (hj : j < s.mesh.numPoints) (h : x i = x j) : i = j := by
  obtain ⟨t, σ, k, hat, rfl⟩ := P.vertex hi
  have hne := P.space.solid.nondeg hat
  by_contra hc
  by_cases hv : ∃ l, j = σ l
  · obtain ⟨l, rfl⟩ := hv
    exact hc (congrArg σ (vol_injective hne h))
  · push Not at hv
    have h1 := P.empty t σ hat j hj hv
    rw [← h] at h1
    have h2 : pw3 (x ∘ σ) (x (σ k)) = 0 := pw3_vertex hne k
    linarith

/-- A place which is closer to an inserted point than to the points which share a tetrahedron with it is closer to
it than to all other points. -/
theorem SpaceOk.nearest {s : State} (P : SpaceOk x s) {p : ℕ} (hp : 4 ≤ p) (hpn : p < s.mesh.numPoints) {y : P3 K}
    (hy : ∀ i σ k l, At3 s.mesh i σ → σ k = p → l ≠ k → distSq3 y (x p) < distSq3 y (x (σ l))) {w : ℕ}
    (hw : w < s.mesh.numPoints) (hwp : w ≠ p) : distSq3 y (x p) < distSq3 y (x w) := by
  obtain ⟨i, σ, k, h, rfl, hc⟩ := P.cone hp (P.vertex hpn) (x w)
  have hne := P.space.solid.nondeg h
  by_cases hv : ∃ l, w = σ l
  · obtain ⟨l, rfl⟩ := hv
    exact hy i σ k l h rfl fun e => hwp (congrArg σ e)
  · push Not at hv
    have hpos := P.empty i σ h w hw hv
    have hg : IsAff fun z : P3 K => distSq3 y z - distSq3 y (x (σ k)) - pw3 (x ∘ σ) z := by
      have h1 := lift_sub_dist y
      have h2 := lift_sub_pw3 (x ∘ σ)
      have h3 := (h2.sub h1).sub (IsAff.const (distSq3 y (x (σ k))))
      have e : (fun z : P3 K => distSq3 y z - distSq3 y (x (σ k)) - pw3 (x ∘ σ) z) =
          fun z => lift z - pw3 (x ∘ σ) z - (lift z - distSq3 z y) - distSq3 y (x (σ k)) := by
        funext z
        have : distSq3 y z = distSq3 z y := by unfold distSq3; ring
        rw [this]
        ring
      rw [e]
      exact h3
    have hb := hg.bary hne (x w)
    have hnn : 0 ≤ ∑ l, co (x ∘ σ) l (x w) * (distSq3 y ((x ∘ σ) l) - distSq3 y (x (σ k)) - pw3 (x ∘ σ) ((x ∘ σ) l)) := by
      refine Finset.sum_nonneg fun l _ => ?_
      rw [pw3_vertex hne]
      by_cases hl : l = k
      · subst hl
        rw [Function.comp_apply, sub_self, sub_zero, mul_zero]
      · refine mul_nonneg (hc l hl) ?_
        have := hy i σ k l h rfl hl
        rw [Function.comp_apply]
        linarith
    rw [← hb] at hnn
    linarith

/-! ### Scaling -/

section
variable {c1 c2 c3 k : K} {f : P3 K → P3 K}

omit [LinearOrder K] [IsStrictOrderedRing K] in
theorem vol_scale (hf : ∀ y, f y = ⟨c1 + k * y.x, c2 + k * y.y, c3 + k * y.z⟩) (v : Fin 4 → P3 K) :
    vol (f ∘ v) = k ^ 3 * vol v := by
  simp only [vol_def, Function.comp_apply, hf]
  ring

omit [LinearOrder K] [IsStrictOrderedRing K] in
theorem co_scale (hk : k ≠ 0) (hf : ∀ y, f y = ⟨c1 + k * y.x, c2 + k * y.y, c3 + k * y.z⟩) (v : Fin 4 → P3 K) (l : Fin 4)
    (y : P3 K) : co (f ∘ v) l (f y) = co v l y := by
  unfold co
  rw [← Function.comp_update, vol_scale hf, vol_scale hf, mul_div_mul_left _ _ (pow_ne_zero 3 hk)]

omit [LinearOrder K] [IsStrictOrderedRing K] in
theorem pw3_scale (hk : k ≠ 0) (hf : ∀ y, f y = ⟨c1 + k * y.x, c2 + k * y.y, c3 + k * y.z⟩) {v : Fin 4 → P3 K}
    (h : vol v ≠ 0) (y : P3 K) : pw3 (f ∘ v) (f y) = k ^ 2 * pw3 v y := by
  have hs := co_sum h y
  have e1 := isAff_x.bary h y
  have e2 := isAff_y.bary h y
  have e3 := isAff_z.bary h y
  unfold pw3
  simp only [co_scale hk hf]
  simp only [Fin.sum_univ_four] at hs e1 e2 e3
  simp only [Fin.sum_univ_four, Function.comp_apply, hf, lift]
  generalize co v 0 y = a at *
  generalize co v 1 y = b at *
  generalize co v 2 y = c at *
  generalize co v 3 y = d at *
  linear_combination (-c1 ^ 2 - c2 ^ 2 - c3 ^ 2) * hs + 2 * c1 * k * e1 + 2 * c2 * k * e2 + 2 * c3 * k * e3

end

/-- A mesh of scaled points is one of the points themselves. -/
theorem SpaceOk.scale {x' : ℕ → P3 K} {s : State} {c1 c2 c3 k : K} (hk : 0 < k)
    (hx : ∀ i, x' i = ⟨c1 + k * (x i).x, c2 + k * (x i).y, c3 + k * (x i).z⟩) (P : SpaceOk x' s) : SpaceOk x s := by
  obtain ⟨f, hf⟩ : ∃ f : P3 K → P3 K, ∀ y, f y = ⟨c1 + k * y.x, c2 + k * y.y, c3 + k * y.z⟩ := ⟨fun _ => _, fun _ => rfl⟩
  obtain rfl : x' = f ∘ x := by
    funext i
    rw [hx, Function.comp_apply, hf]
  have k3 : 0 < k ^ 3 := pow_pos hk 3
  have hvol : ∀ σ : Fin 4 → ℕ, vol ((f ∘ x) ∘ σ) = k ^ 3 * vol (x ∘ σ) := fun σ => vol_scale hf (x ∘ σ)
  have hco : ∀ (σ : Fin 4 → ℕ) (l : Fin 4) (y : P3 K), co ((f ∘ x) ∘ σ) l (f y) = co (x ∘ σ) l y :=
    fun σ l y => co_scale hk.ne' hf (x ∘ σ) l y
  have hnd : ∀ {i σ}, At3 s.mesh i σ → vol (x ∘ σ) ≠ 0 := by
    intro i σ h
    have := P.space.solid.nondeg h
    rw [hvol] at this
    exact right_ne_zero_of_mul this
  have hin : ∀ (σ : Fin 4 → ℕ) (y : P3 K), Inside3 ((f ∘ x) ∘ σ) (f y) ↔ Inside3 (x ∘ σ) y := by
    intro σ y
    unfold Inside3
    simp only [hco]
  have hwi : ∀ (σ : Fin 4 → ℕ) (y : P3 K), Within3 ((f ∘ x) ∘ σ) (f y) ↔ Within3 (x ∘ σ) y := by
    intro σ y
    unfold Within3
    simp only [hco]
  refine ⟨P.ok, ⟨?_, ?_, ?_, ?_⟩, ?_, P.four, P.nonempty, ?_, ?_, ?_⟩
  · intro i T hT v sl hs a b c hfc
    have := P.space.facing i T hT v sl hs a b c hfc
    rw [hvol, sd_mul] at this
    exact (mul_pos_iff_of_pos_left k3).1 this
  · intro i T hT a b c d hp
    have := P.space.pos i T hT a b c d hp
    rw [hvol] at this
    exact (mul_pos_iff_of_pos_left k3).1 this
  · intro i T hT v sl hs hso a b c hfc w hw
    have := P.space.hull i T hT v sl hs hso a b c hfc w hw
    rw [hvol, sd_mul] at this
    exact (mul_nonneg_iff_of_pos_left k3).1 this
  · refine ⟨fun h => P.space.solid.perm h, fun h => P.space.solid.same h, fun h => hnd h, fun h h' hne y hy => ?_⟩
    rw [← hin] at hy ⊢
    exact P.space.solid.disjoint h h' hne _ hy
  · intro i σ h w hw hne
    have := P.empty i σ h w hw hne
    have e : pw3 ((f ∘ x) ∘ σ) ((f ∘ x) w) = k ^ 2 * pw3 (x ∘ σ) (x w) := pw3_scale hk.ne' hf (hnd h) (x w)
    rw [e] at this
    exact (mul_pos_iff_of_pos_left (pow_pos hk 2)).1 this
  · intro w hw
    exact (hwi _ _).1 (P.hull w hw)
  · have := P.orient
    rw [hvol] at this
    exact (mul_pos_iff_of_pos_left k3).1 this
  · intro w h4 hw
    exact (hin _ _).1 (P.strict w h4 hw)

end Verif.Delaunay
