import Verif.Predicates.SolverLemmas
import Mathlib.Tactic.NormNum
import Mathlib.Tactic.FinCases

/-!
# C47: the linear system solvers

The system with augmented matrix `a` is: for every row `i`,
`∑ j, a i j * x j = a i M` where `a i M` is the last column.
-/

namespace Verif.Predicates

variable {K : Type} [Field K] [LinearOrder K] [IsStrictOrderedRing K]

/-- **C47**: a solution returned without a division by zero solves the system. -/
theorem solve_system_sound {m : ℕ} (a : Mat m (m + 1) K) (x : Fin m → K)
    (h : solveSystem a = some x) :
    ∀ i, ∑ j : Fin m, a i j.castSucc * x j = a i (Fin.last m) := by
  obtain ⟨h1, h2⟩ := elimination_spec (m + 1) 0 0 a le_rfl (by omega)
    (fun i j _ hj => absurd hj (by omega)) (fun i j hi _ => absurd hi (by omega))
  have h3 := backward_spec h2 _ _ _ (finRange_reverse_pairwise m) h
  have h4 : Sol (elimination (m + 1) 0 0 a) x 1 := by
    intro i
    rw [one_mul]
    exact h3.2.2 i (by simp)
  have h5 := (h1 x 1).1 h4
  intro i
  have := h5 i
  rwa [one_mul] at this

/-- **C47**: for a nonsingular matrix of coefficients the solver never divides by zero. -/
theorem solve_system_total {m : ℕ} (a : Mat m (m + 1) K)
    (hdet : Matrix.det (Matrix.of fun i j : Fin m => a i j.castSucc) ≠ 0) :
    ∃ x, solveSystem a = some x := by
  obtain ⟨h1, h2⟩ := elimination_spec (m + 1) 0 0 a le_rfl (by omega)
    (fun i j _ hj => absurd hj (by omega)) (fun i j hi _ => absurd hi (by omega))
  apply backward_isSome
  intro i _ h0
  apply hdet
  set b := elimination (m + 1) 0 0 a
  have hb : Matrix.det (Matrix.of fun i j : Fin m => b i j.castSucc) = 0 := by
    rw [Matrix.det_of_upperTriangular]
    · exact Finset.prod_eq_zero (Finset.mem_univ i) h0
    · intro i j hij
      exact h2 i j.castSucc i.isLt (by simpa using hij)
  obtain ⟨v, hv, hv0⟩ := Matrix.exists_mulVec_eq_zero_iff.2 hb
  refine Matrix.exists_mulVec_eq_zero_iff.1 ⟨v, hv, ?_⟩
  have hs : Sol b v 0 := by
    intro i
    have := congrFun hv0 i
    simp only [Matrix.mulVec, dotProduct, Matrix.of_apply, Pi.zero_apply] at this
    rw [this, zero_mul]
  have hs' := (h1 v 0).1 hs
  funext i
  have := hs' i
  simp only [Matrix.mulVec, dotProduct, Matrix.of_apply, Pi.zero_apply]
  rw [this, zero_mul]

/-- **C47**: for a singular matrix the solver does divide by zero (a panic with rationals). -/
theorem solve_system_singular {m : ℕ} (a : Mat m (m + 1) K)
    (hdet : Matrix.det (Matrix.of fun i j : Fin m => a i j.castSucc) = 0) :
    solveSystem a = none := by
  by_contra hne
  obtain ⟨x, hx⟩ := Option.ne_none_iff_exists'.1 hne
  obtain ⟨h1, h2⟩ := elimination_spec (m + 1) 0 0 a le_rfl (by omega)
    (fun i j _ hj => absurd hj (by omega)) (fun i j hi _ => absurd hi (by omega))
  have h3 := backward_spec h2 _ _ _ (finRange_reverse_pairwise m) hx
  set b := elimination (m + 1) 0 0 a
  have hb : Matrix.det (Matrix.of fun i j : Fin m => b i j.castSucc) ≠ 0 := by
    rw [Matrix.det_of_upperTriangular]
    · exact Finset.prod_ne_zero_iff.2 fun i _ => h3.1 i (by simp)
    · intro i j hij
      exact h2 i j.castSucc i.isLt (by simpa using hij)
  apply hb
  obtain ⟨v, hv, hv0⟩ := Matrix.exists_mulVec_eq_zero_iff.2 hdet
  refine Matrix.exists_mulVec_eq_zero_iff.1 ⟨v, hv, ?_⟩
  have hs : Sol a v 0 := by
    intro i
    have := congrFun hv0 i
    simp only [Matrix.mulVec, dotProduct, Matrix.of_apply, Pi.zero_apply] at this
    rw [this, zero_mul]
  have hs' := (h1 v 0).2 hs
  funext i
  have := hs' i
  simp only [Matrix.mulVec, dotProduct, Matrix.of_apply, Pi.zero_apply]
  rw [this, zero_mul]

/-- A system that needs a row exchange. -/
example : (solveSystem (K := ℚ) ![![0, 2, 1, 7], ![1, 1, 1, 6], ![2, -1, 3, 9]]).map
    (fun x => (x 0, x 1, x 2)) = some (1, 2, 3) := by decide +kernel
/-- A singular system. -/
example : (solveSystem (K := ℚ) ![![1, 2, 3], ![2, 4, 6]]).isNone = true := by decide +kernel
/-- A nonsingular matrix of coefficients. -/
example : Matrix.det (Matrix.of fun i j : Fin 2 =>
    (![![0, 2, 1], ![3, 1, 1]] : Mat 2 3 ℚ) i j.castSucc) ≠ 0 := by
  rw [Matrix.det_fin_two]
  decide +kernel

/-! ## The 3x4 solver -/

/-- `x` solves row `r` of a 3x4 system. -/
private def row4 (r : Fin 4 → K) (x : K × K × K) : K :=
  r 0 * x.1 + r 1 * x.2.1 + r 2 * x.2.2 - r 3

private theorem rows_add {m : Mat 3 4 K} {r1 r2 : Fin 3} (hne : r1 ≠ r2) {f : K} {x : K × K × K}
    (h : ∀ i, row4 (addRowToAnother m r1 r2 f i) x = 0) : ∀ i, row4 (m i) x = 0 := by
  have h2 : row4 (m r2) x = 0 := by
    have := h r2
    have e : addRowToAnother m r1 r2 f r2 = m r2 := by
      funext k
      simp only [addRowToAnother]
      rw [if_neg hne.symm]
    rwa [e] at this
  intro i
  by_cases hi : i = r1
  · subst hi
    have := h i
    simp only [row4, addRowToAnother, if_true] at this h2 ⊢
    linear_combination this - f * h2
  · have := h i
    have e : addRowToAnother m r1 r2 f i = m i := by
      funext k
      simp only [addRowToAnother]
      rw [if_neg hi]
    rwa [e] at this

private theorem solve_perm (eps : K) (heps : 0 < eps) (m : Mat 3 4 K) (ix iy iz : Fin 3)
    (hperm : ix ≠ iy ∧ ix ≠ iz ∧ iy ≠ iz) (x : K × K × K)
    (h : (let m := addRowToAnother m iy ix (-m iy 0 / m ix 0)
      let m := addRowToAnother m iz ix (-m iz 0 / m ix 0)
      let (iy, iz) : Fin 3 × Fin 3 := if |m iz 1| > |m iy 1| then (iz, iy) else (iy, iz)
      if !checked (m iy 1) eps then none else
      let m := addRowToAnother m iz iy (-m iz 1 / m iy 1)
      if !checked (m iz 2) eps then none else
      if !checked (m iy 1) eps then none else
      if !checked (m ix 0) eps then none else
      let x3 := m iz 3 / m iz 2
      let x2 := (m iy 3 - x3 * m iy 2) / m iy 1
      let x1 := (m ix 3 - x3 * m ix 2 - x2 * m ix 1) / m ix 0
      some (x1, x2, x3)) = some x) :
    ∀ i, row4 (m i) x = 0 := by
  have hck : ∀ v : K, checked v eps = true → v ≠ 0 := by
    intro v hv h0
    simp only [checked, h0, abs_zero, heps, decide_true, Bool.not_true] at hv
    cases hv
  have key : ∀ (m1 : Mat 3 4 K) (jx jy jz : Fin 3), jx ≠ jy ∧ jx ≠ jz ∧ jy ≠ jz →
      m1 jy 0 = 0 → m1 jz 0 = 0 → m1 jx 0 = m ix 0 →
      (if !checked (m1 jy 1) eps then none else
      let m := addRowToAnother m1 jz jy (-m1 jz 1 / m1 jy 1)
      if !checked (m jz 2) eps then none else
      if !checked (m jy 1) eps then none else
      if !checked (m jx 0) eps then none else
      let x3 := m jz 3 / m jz 2
      let x2 := (m jy 3 - x3 * m jy 2) / m jy 1
      let x1 := (m jx 3 - x3 * m jx 2 - x2 * m jx 1) / m jx 0
      some (x1, x2, x3)) = some x → ∀ i, row4 (m1 i) x = 0 := by
    intro m1 jx jy jz hp hy hz hx0 he
    split_ifs at he with c1
    dsimp only at he
    split_ifs at he with c2 c3 c4
    have n1 := hck _ (by simpa using c1)
    have n2 := hck _ (by simpa using c2)
    have n4 := hck _ (by simpa using c4)
    set m2 := addRowToAnother m1 jz jy (-m1 jz 1 / m1 jy 1) with hm2
    have ey : m2 jy = m1 jy := by
      funext k; rw [hm2]; simp only [addRowToAnother]; rw [if_neg hp.2.2]
    have ex : m2 jx = m1 jx := by
      funext k; rw [hm2]; simp only [addRowToAnother]; rw [if_neg hp.2.1]
    have ez0 : m2 jz 0 = 0 := by
      rw [hm2]; simp only [addRowToAnother, if_true]; rw [hy, hz]; ring
    have ez1 : m2 jz 1 = 0 := by
      rw [hm2]; simp only [addRowToAnother, if_true]; field_simp; ring
    have n1' : m2 jy 1 ≠ 0 := by rw [ey]; exact n1
    have e0 := Option.some.inj he
    apply rows_add hp.2.2.symm (f := -m1 jz 1 / m1 jy 1)
    rw [← hm2]
    have hall : ∀ i : Fin 3, i = jx ∨ i = jy ∨ i = jz := by
      obtain ⟨p1, p2, p3⟩ := hp
      intro i
      omega
    intro i
    subst e0
    rcases hall i with rfl | rfl | rfl
    · simp only [row4]
      field_simp
      ring
    · simp only [row4]
      have : m2 i 0 = 0 := by rw [ey]; exact hy
      rw [this]
      field_simp
      ring
    · simp only [row4]
      rw [ez0, ez1]
      field_simp
      ring
  obtain ⟨p1, p2, p3⟩ := hperm
  dsimp only at h
  set m1 := addRowToAnother m iy ix (-m iy 0 / m ix 0) with hm1
  set m2 := addRowToAnother m1 iz ix (-m1 iz 0 / m1 ix 0) with hm2
  have ex1 : m1 ix = m ix := by
    funext k; rw [hm1]; simp only [addRowToAnother]; rw [if_neg p1]
  have ex2 : m2 ix = m ix := by
    rw [← ex1]
    funext k; rw [hm2]; simp only [addRowToAnother]; rw [if_neg p2]
  have nz : m ix 0 ≠ 0 := by
    intro h0
    have bad : ∀ (jy jz : Fin 3), jy ≠ ix → jz ≠ ix →
      (if !checked (m2 jy 1) eps then none else
      let m := addRowToAnother m2 jz jy (-m2 jz 1 / m2 jy 1)
      if !checked (m jz 2) eps then none else
      if !checked (m jy 1) eps then none else
      if !checked (m ix 0) eps then none else
      let x3 := m jz 3 / m jz 2
      let x2 := (m jy 3 - x3 * m jy 2) / m jy 1
      let x1 := (m ix 3 - x3 * m ix 2 - x2 * m ix 1) / m ix 0
      some (x1, x2, x3)) = some x → False := by
      intro jy jz _ hjz he
      split_ifs at he with c1
      dsimp only at he
      split_ifs at he with c2 c3 c4
      apply hck _ (show checked _ eps = true by simpa using c4)
      simp only [addRowToAnother]
      rw [if_neg hjz.symm, ex2]
      exact h0
    by_cases c : |m2 iz 1| > |m2 iy 1|
    · rw [if_pos c] at h
      exact bad iz iy p2.symm p1.symm h
    · rw [if_neg c] at h
      exact bad iy iz p1.symm p2.symm h
  have ey0 : m2 iy 0 = 0 := by
    rw [hm2]
    simp only [addRowToAnother]
    rw [if_neg p3, hm1]
    simp only [addRowToAnother, if_true]
    field_simp
    ring
  have ez0 : m2 iz 0 = 0 := by
    rw [hm2]
    simp only [addRowToAnother, if_true]
    rw [ex1]
    field_simp
    ring
  have hm : ∀ i, row4 (m2 i) x = 0 := by
    by_cases c : |m2 iz 1| > |m2 iy 1|
    · rw [if_pos c] at h
      exact key m2 ix iz iy ⟨p2, p1, p3.symm⟩ ez0 ey0 (by rw [ex2]) h
    · rw [if_neg c] at h
      exact key m2 ix iy iz ⟨p1, p2, p3⟩ ey0 ez0 (by rw [ex2]) h
  exact rows_add p1.symm (rows_add p2.symm hm)

/-- **C47**: a solution accepted by the 3x4 solver solves the system. -/
theorem solve_3x4_sound (eps : K) (heps : 0 < eps) (m : Mat 3 4 K) (x1 x2 x3 : K)
    (h : solve3x4 eps m = some (x1, x2, x3)) :
    ∀ i, m i 0 * x1 + m i 1 * x2 + m i 2 * x3 = m i 3 := by
  have hr : ∀ i, row4 (m i) (x1, x2, x3) = 0 := by
    unfold solve3x4 at h
    by_cases c1 : |m 1 0| > |m 0 0|
    · rw [if_pos c1] at h
      by_cases c2 : |m 2 0| > |m 1 0|
      · dsimp only at h
        rw [if_pos c2] at h
        exact solve_perm eps heps m 2 0 1 (by decide) _ h
      · dsimp only at h
        rw [if_neg c2] at h
        exact solve_perm eps heps m 1 0 2 (by decide) _ h
    · rw [if_neg c1] at h
      by_cases c2 : |m 2 0| > |m 0 0|
      · dsimp only at h
        rw [if_pos c2] at h
        exact solve_perm eps heps m 2 0 1 (by decide) _ h
      · dsimp only at h
        rw [if_neg c2] at h
        exact solve_perm eps heps m 0 1 2 (by decide) _ h
  intro i
  have := hr i
  simp only [row4] at this
  linear_combination this

/-- A system whose first column needs a pivot. -/
example : solve3x4 (K := ℚ) (1 / 100000000) ![![0, 2, 1, 7], ![1, 1, 1, 6], ![2, -1, 3, 9]]
    = some (1, 2, 3) := by decide +kernel

end Verif.Predicates
