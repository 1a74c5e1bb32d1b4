import Verif.Rounding.ArepoModel
import Verif.Rounding.UnitProps

/-! # C144: reading Arepo datasets in `f64` -/

namespace Verif.Rounding

open Verif.Units Verif.Cosmology

/-- The attributes as real numbers. -/
noncomputable def ArepoAttributesF.exact (s : ArepoAttributesF) : ArepoAttributes :=
  ⟨s.toCgs, s.lengthScaling, s.velocityScaling, s.massScaling, s.aScaling, s.hScaling⟩

/-- The cosmology with real numbers. -/
noncomputable def exactCosmology (c : CosmologyF) (params : Option CosmologyParams) : Cosmology :=
  match c with
  | none => .nonCosmological
  | some (a, h) => .cosmological a h params

private theorem raw_exact (s : ArepoAttributesF) : readRawDimension s.exact = rawDimensionF s := rfl

private theorem Rounds.pow' {n : ℕ} {x y : ℝ} (h : Rounds n x y) (hx : 0 < x) (k : ℕ) : Rounds (n * k) (x ^ k) (y ^ k) := by
  induction k with
  | zero => simpa using Rounds.refl (1 : ℝ)
  | succ k ih =>
    rw [pow_succ, pow_succ, Nat.mul_succ]
    exact ih.mul h (pow_pos hx k) hx

private theorem Rounds.zpow' {n : ℕ} {x y : ℝ} (h : Rounds n x y) (hx : 0 < x) (k : ℤ) :
    Rounds (n * k.natAbs) (x ^ k) (y ^ k) := by
  rcases Int.natAbs_eq k with e | e
  · rw [e, zpow_natCast, zpow_natCast, Int.natAbs_natCast]
    exact h.pow' hx _
  · rw [e, zpow_neg, zpow_neg, zpow_natCast, zpow_natCast, Int.natAbs_neg, Int.natAbs_natCast, ← one_div, ← one_div]
    exact (h.pow' hx _).inv (pow_pos hx _)

/-- **C144** (decisions): in `f64` exactly those datasets are rejected which are rejected in exact arithmetic: those of
another dimension, those with a unit of zero which have a dimension, and cosmological ones in a run without cosmology. -/
theorem arepo_rejected_iff_f64 (powi : ℚ → ℤ → ℚ) (u : BaseUnitsF) (u' : BaseUnits) (c : CosmologyF)
    (params : Option CosmologyParams) (d : Units.Dimension) (s : ArepoAttributesF) (values : List ℚ) (values' : List ℝ) :
    readArepoF powi u c d s values = none ↔
      readDataset u' (arepoUnitReader (exactCosmology c params)) d s.exact values' = none := by
  have z : (s.exact.toCgs = 0.0) ↔ s.toCgs = 0 := by
    unfold ArepoAttributesF.exact
    dsimp only
    norm_num
  have hn : ¬ isCosmological Dimension.none := by decide
  have hn' : Dimension.none.nonCosmological = Dimension.none := rfl
  unfold readArepoF readDataset arepoScaleFactorF arepoDimensionF arepoUnitReader cgsFactor cosmologyScaleFactor getFactor
    checkCosmologyAvailable exactCosmology cosmologyFactorF cgsFactorF getFactorF
  dsimp only
  rw [raw_exact]
  simp only [z]
  by_cases h3 : rawDimensionF s = Dimension.none
  · rw [h3]
    rcases c with _ | ⟨a, h⟩ <;> by_cases h2 : s.toCgs = 0 <;> simp [hn, hn', h2]
  · rcases c with _ | ⟨a, h⟩ <;> by_cases h1 : isCosmological (rawDimensionF s) <;> by_cases h2 : s.toCgs = 0 <;>
      simp [h1, h2, h3]

/-- The four powers which the reader computes. -/
def arepoPowers (a h : ℚ) (s : ArepoAttributesF) : List (ℚ × ℤ) :=
  [(fl (1 / 100), s.lengthScaling + s.velocityScaling), (fl (1 / 1000), s.massScaling), (a, -s.aScaling), (h, -s.hScaling)]

/-- The physical value in SI units of a number in an Arepo dataset. -/
noncomputable def physicalSi (s : ArepoAttributesF) (a h x : ℝ) : ℝ :=
  cgsToSi (s.lengthScaling + s.velocityScaling) s.massScaling (physicalCgs s.exact a h x)

private theorem scale_factor_rounds (powi : ℚ → ℤ → ℚ) (a h : ℚ) (s : ArepoAttributesF) {k : ℕ} (hk : k ≤ 5) (ha0 : 0 < a)
    (hh0 : 0 < h)
    (hp : ∀ e ∈ arepoPowers a h s, |powi e.1 e.2 - e.1 ^ e.2| ≤ k / 2 ^ 53 * |e.1 ^ e.2|)
    (hr : ∀ e ∈ arepoPowers a h s, 1 / 2 ^ 100 ≤ e.1 ^ e.2 ∧ e.1 ^ e.2 ≤ 2 ^ 100)
    (hl : (s.lengthScaling + s.velocityScaling).natAbs + s.massScaling.natAbs ≤ 20)
    (hc : 1 / 2 ^ 200 ≤ s.toCgs) :
    ∃ f, arepoScaleFactorF powi (some (a, h)) s = some f ∧
      LowBy 700 (physicalSi s a h 1) ∧
      Rounds ((s.lengthScaling + s.velocityScaling).natAbs + s.massScaling.natAbs + 4 * k + 9) (physicalSi s a h 1) (f : ℝ) := by
  have cast : ∀ {q : ℚ} {j : ℕ}, 1 / 2 ^ j ≤ q → LowBy j (q : ℝ) := by
    intro q j h
    have h1 := (Rat.cast_le (K := ℝ)).2 h
    push_cast at h1
    exact h1
  have one : ∀ e ∈ arepoPowers a h s, LowBy 100 ((e.1 : ℝ) ^ e.2) ∧ (e.1 : ℝ) ^ e.2 ≤ 2 ^ 100 ∧
      Rounds (k + 1) ((e.1 : ℝ) ^ e.2) ((powi e.1 e.2 : ℚ) : ℝ) := by
    intro e he
    obtain ⟨r1, r2⟩ := hr e he
    have h0 : 0 < e.1 ^ e.2 := lt_of_lt_of_le (by positivity) r1
    have h1 := cast r1
    have h2 := (Rat.cast_le (K := ℝ)).2 (hp e he)
    have h3 := (Rat.cast_le (K := ℝ)).2 r2
    rw [abs_of_pos h0] at h2
    push_cast at h1 h2 h3
    exact ⟨h1, h3, Rounds.of_error (by omega) h1.pos h2⟩
  obtain ⟨L, hL⟩ : ∃ L, L = s.lengthScaling + s.velocityScaling := ⟨_, rfl⟩
  obtain ⟨M, hM⟩ : ∃ M, M = s.massScaling := ⟨_, rfl⟩
  obtain ⟨l1, -, r1⟩ := one (fl (1 / 100), L) (by rw [hL]; simp [arepoPowers])
  obtain ⟨l2, -, r2⟩ := one (fl (1 / 1000), M) (by rw [hM]; simp [arepoPowers])
  obtain ⟨l3, u3, r3⟩ := one (a, -s.aScaling) (by simp [arepoPowers])
  obtain ⟨l4, u4, r4⟩ := one (h, -s.hScaling) (by simp [arepoPowers])
  dsimp only at l1 l2 l3 l4 r1 r2 r3 r4 u3 u4
  have a0 : (0 : ℝ) < a := by exact_mod_cast ha0
  have h0 : (0 : ℝ) < h := by exact_mod_cast hh0
  -- the decimal constants
  have low : ∀ q : ℚ, 1 / 2 ^ 20 ≤ q → Rounds 1 (q : ℝ) ((fl q : ℚ) : ℝ) := by
    intro q hq
    exact rounds_fl ((one_div_le_one_div_of_le (by positivity) (pow_le_pow_right₀ one_le_two (by decide))).trans (cast hq))
  have q1 := (low (1 / 100) (by norm_num)).zpow' (by norm_num) L
  have q2 := (low (1 / 1000) (by norm_num)).zpow' (by norm_num) M
  rw [one_mul] at q1 q2
  have p1 : (0 : ℝ) < ((1 / 100 : ℚ) : ℝ) ^ L := by positivity
  have p2 : (0 : ℝ) < ((1 / 1000 : ℚ) : ℝ) ^ M := by positivity
  have s1 := q1.trans r1
  have s2 := q2.trans r2
  rw [← hL, ← hM] at hl
  -- lower bounds of the exact powers
  have half : ∀ {n : ℕ} {x y : ℝ} {j : ℕ}, n ≤ 20 → Rounds n x y → LowBy j y → LowBy (j + 1) x := by
    intro n x y j hn hxy hy
    have e := hxy.symm.error (by omega) hy.pos
    have hn' : (n : ℝ) ≤ 20 := by exact_mod_cast hn
    have t : ((n : ℝ) + 1) / 2 ^ 53 ≤ 1 / 2 := by
      rw [div_le_iff₀ (by positivity)]
      norm_num
      linarith
    have t2 := mul_le_mul_of_nonneg_right t hy.pos.le
    rw [abs_le] at e
    unfold LowBy at hy ⊢
    rw [pow_succ, ← div_div]
    linarith [e.1]
  have L1 := half (by omega) q1 l1
  have L2 := half (by omega) q2 l2
  have L12 := L1.mul L2
  have R12 := s1.fmul s2 p1 p2 (by omega) (L12.weaken (by norm_num))
  have C := cast hc
  have c0 : s.toCgs ≠ 0 := by
    have : 0 < s.toCgs := lt_of_lt_of_le (by positivity) hc
    exact this.ne'
  -- the cosmological factor
  have cosm : ∃ g, cosmologyFactorF powi (some (a, h)) (rawDimensionF s) = some g ∧
      LowBy 200 ((a : ℝ) ^ s.aScaling * (h : ℝ) ^ s.hScaling) ∧
      Rounds (2 * k + 4) ((a : ℝ) ^ s.aScaling * (h : ℝ) ^ s.hScaling) (g : ℝ) := by
    have l34 := l3.mul l4
    have e : (1 : ℝ) / ((a : ℝ) ^ (-s.aScaling) * (h : ℝ) ^ (-s.hScaling)) = (a : ℝ) ^ s.aScaling * (h : ℝ) ^ s.hScaling := by
      rw [zpow_neg, zpow_neg, ← mul_inv, one_div, inv_inv]
    have o : LowBy 0 (1 : ℝ) := by unfold LowBy; norm_num
    have l5 := o.div l34.pos (show (a : ℝ) ^ (-s.aScaling) * (h : ℝ) ^ (-s.hScaling) ≤ 2 ^ 200 by
      calc (a : ℝ) ^ (-s.aScaling) * (h : ℝ) ^ (-s.hScaling) ≤ 2 ^ 100 * 2 ^ 100 := mul_le_mul u3 u4 l4.pos.le (by positivity)
        _ = 2 ^ 200 := by rw [← pow_add])
    have l6 : LowBy 200 ((a : ℝ) ^ s.aScaling * (h : ℝ) ^ s.hScaling) := by
      rw [← e]
      exact l5
    unfold cosmologyFactorF
    by_cases hcos : isCosmological (rawDimensionF s)
    · rw [if_pos hcos]
      refine ⟨1 ⊘ (powi a (-s.aScaling) ⊠ powi h (-s.hScaling)), rfl, l6, ?_⟩
      have r34 := r3.fmul r4 l3.pos l4.pos (by omega) (l34.weaken (by norm_num))
      have r5 := (show Rounds 0 1 ((1 : ℚ) : ℝ) by rw [Rat.cast_one]; exact Rounds.refl 1).fdiv r34 one_pos l34.pos (by omega)
        (l5.weaken (by norm_num))
      rw [e] at r5
      exact r5.mono l6.pos (by omega)
    · rw [if_neg hcos]
      refine ⟨1, rfl, l6, ?_⟩
      unfold isCosmological rawDimensionF at hcos
      push Not at hcos
      dsimp only at hcos
      rw [hcos.1, hcos.2, zpow_zero, zpow_zero, mul_one, Rat.cast_one]
      exact (Rounds.refl 1).mono one_pos (Nat.zero_le _)
  obtain ⟨g, hg, lg, rg⟩ := cosm
  have Lg := lg.mul L12
  have Rg := rg.fmul R12 lg.pos L12.pos (by omega) (Lg.weaken (by norm_num))
  have Lf := Lg.mul C
  have Rf := Rg.fmul (Rounds.refl (s.toCgs : ℝ)) Lg.pos C.pos (by omega) (Lf.weaken (by norm_num))
  have e : (a : ℝ) ^ s.aScaling * (h : ℝ) ^ s.hScaling * (((1 / 100 : ℚ) : ℝ) ^ L * ((1 / 1000 : ℚ) : ℝ) ^ M) * s.toCgs =
      physicalSi s a h 1 := by
    unfold physicalSi cgsToSi physicalCgs ArepoAttributesF.exact
    dsimp only
    rw [← hL, ← hM]
    push_cast
    ring
  rw [e] at Lf Rf
  refine ⟨(g ⊠ (powi (fl (1 / 100)) L ⊠ powi (fl (1 / 1000)) M)) ⊠ s.toCgs, ?_, ?_, ?_⟩
  · unfold arepoScaleFactorF cgsFactorF
    dsimp only
    rw [hg, if_neg c0, hL, hM]
    rfl
  · exact le_trans (one_div_le_one_div_of_le (by positivity) (pow_le_pow_right₀ one_le_two (by decide))) Lf
  · rw [← hL, ← hM]
    exact Rf.mono Lf.pos (by omega)

/-- **C144** (physical values): the values of an Arepo dataset which are read in `f64` are the physical values in SI
units up to a few rounding errors: one for each power of ten to which a centimetre or a gram is raised, four times those
of `powi`, and twelve. -/
theorem arepo_values_accurate_f64 (powi : ℚ → ℤ → ℚ) (a h : ℚ) (s : ArepoAttributesF) {k : ℕ} (hk : k ≤ 5) (ha0 : 0 < a)
    (hh0 : 0 < h) (hp : ∀ e ∈ arepoPowers a h s, |powi e.1 e.2 - e.1 ^ e.2| ≤ k / 2 ^ 53 * |e.1 ^ e.2|)
    (h1 : ∀ n, powi 1 n = 1)
    (hr : ∀ e ∈ arepoPowers a h s, 1 / 2 ^ 100 ≤ e.1 ^ e.2 ∧ e.1 ^ e.2 ≤ 2 ^ 100)
    (hl : (s.lengthScaling + s.velocityScaling).natAbs + s.massScaling.natAbs ≤ 20) (hc : 1 / 2 ^ 200 ≤ s.toCgs)
    (values : List ℚ) (hx : ∀ x ∈ values, x = 0 ∨ 1 / 2 ^ 200 ≤ |x|) :
    ∃ l, readArepoF powi BaseUnitsF.si (some (a, h))
        ⟨s.lengthScaling + s.velocityScaling, -s.velocityScaling, s.massScaling, 0, 0, 0⟩ s values = some l ∧
      List.Forall₂ (fun x y : ℚ => |(y : ℝ) - physicalSi s a h x| ≤
        ((s.lengthScaling + s.velocityScaling).natAbs + s.massScaling.natAbs + 4 * k + 12) / 2 ^ 53 * |physicalSi s a h x|)
        values l := by
  obtain ⟨f, hf, lf, rf⟩ := scale_factor_rounds powi a h s hk ha0 hh0 hp hr hl hc
  obtain ⟨N, hN⟩ : ∃ N, N = (s.lengthScaling + s.velocityScaling).natAbs + s.massScaling.natAbs := ⟨_, rfl⟩
  have one := si_factor_one_f64 powi h1 ⟨s.lengthScaling + s.velocityScaling, -s.velocityScaling, s.massScaling, 0, 0, 0⟩
  refine ⟨values.map fun x => x ⊠ (f ⊘ 1), ?_, ?_⟩
  · have hd : arepoDimensionF (some (a, h)) s =
        some ⟨s.lengthScaling + s.velocityScaling, -s.velocityScaling, s.massScaling, 0, 0, 0⟩ := by
      unfold arepoDimensionF
      by_cases hcos : isCosmological (rawDimensionF s)
      · rw [if_neg (not_not.2 hcos)]
        rfl
      · rw [if_pos hcos]
        unfold isCosmological rawDimensionF at hcos
        push Not at hcos
        unfold rawDimensionF
        dsimp only at hcos
        rw [hcos.1, hcos.2]
    unfold readArepoF
    rw [hf, hd]
    dsimp only [Option.bind_some]
    rw [if_pos rfl, one]
  have lin : ∀ x : ℝ, physicalSi s a h x = x * physicalSi s a h 1 := by
    intro x
    unfold physicalSi cgsToSi physicalCgs
    ring
  rw [← Nat.cast_add, ← hN]
  rw [← hN] at rf hl
  have o : LowBy 0 (1 : ℝ) := by unfold LowBy; norm_num
  have e1 : physicalSi s a h 1 / 1 = physicalSi s a h 1 := div_one _
  have r1 := rf.fdiv (show Rounds 0 1 ((1 : ℚ) : ℝ) by rw [Rat.cast_one]; exact Rounds.refl 1) lf.pos one_pos (by omega)
    (by rw [e1]; exact lf.weaken (by norm_num))
  rw [e1] at r1
  have pos : ∀ x : ℚ, 1 / 2 ^ 200 ≤ x → |((x ⊠ (f ⊘ 1) : ℚ) : ℝ) - x * physicalSi s a h 1| ≤
      ((N : ℝ) + 4 * k + 12) / 2 ^ 53 * (x * physicalSi s a h 1) := by
    intro x hx
    have lx : LowBy 200 (x : ℝ) := by
      have h1 := (Rat.cast_le (K := ℝ)).2 hx
      push_cast at h1
      exact h1
    have l2 := lx.mul lf
    have r2 := (Rounds.refl (x : ℝ)).fmul r1 lx.pos lf.pos (by omega) (l2.weaken (by norm_num))
    have e := r2.error (by omega) l2.pos
    have c : (((0 + (N + 4 * k + 9 + 0 + 1) + 1 : ℕ) : ℝ) + 1) = N + 4 * k + 12 := by
      push_cast
      ring
    rw [c] at e
    exact e
  rw [List.forall₂_map_right_iff, List.forall₂_same]
  intro x hm
  rw [lin]
  rcases hx x hm with rfl | hxx
  · have z : (0 : ℚ) ⊠ (f ⊘ 1) = 0 := by
      unfold fmul
      rw [zero_mul]
      decide +kernel
    rw [z]
    simp
  · rw [abs_mul (x : ℝ), abs_of_pos lf.pos]
    rcases abs_choice x with e | e
    · have e' : |(x : ℝ)| = x := by exact_mod_cast e
      rw [e] at hxx
      rw [e']
      exact pos x hxx
    · have e' : |(x : ℝ)| = -x := by exact_mod_cast e
      rw [e] at hxx
      rw [e']
      have := pos (-x) hxx
      have n : (-x) ⊠ (f ⊘ 1) = -(x ⊠ (f ⊘ 1)) := by
        unfold fmul
        rw [neg_mul, fl_neg]
      rw [n] at this
      push_cast at this
      rw [← abs_neg]
      convert this using 2
      ring

/-- **C144** (dimensionless): values without dimension and cosmological factors whose unit is zero or one are bitwise
those of the file. -/
theorem arepo_dimensionless_unchanged_f64 (powi : ℚ → ℤ → ℚ) (c : CosmologyF) (hz : ∀ x, powi x 0 = 1) (toCgs : ℚ)
    (hc : toCgs = 0 ∨ toCgs = 1) (u : BaseUnitsF) (values : List ℚ) (hv : ∀ v ∈ values, IsF64 v) :
    readArepoF powi u c Dimension.none ⟨toCgs, 0, 0, 0, 0, 0⟩ values = some values := by
  have hd : rawDimensionF ⟨toCgs, 0, 0, 0, 0, 0⟩ = Dimension.none := rfl
  have hn : ¬ isCosmological Dimension.none := by decide
  have hf : arepoScaleFactorF powi c ⟨toCgs, 0, 0, 0, 0, 0⟩ = some 1 := by
    unfold arepoScaleFactorF cosmologyFactorF cgsFactorF
    dsimp only
    rw [hd, if_neg hn, if_pos rfl]
    have e : (if toCgs = 0 then some (1 : ℚ) else some toCgs) = some 1 := by
      rcases hc with rfl | rfl
      · rw [if_pos rfl]
      · rw [if_neg one_ne_zero]
    rw [e]
    dsimp only [Option.bind_some, Option.map_some, Dimension.none]
    rw [hz, hz]
    congr 1
    decide +kernel
  have hb : baseFactorF powi u Dimension.none = 1 := by
    unfold baseFactorF Dimension.none
    dsimp only
    rw [hz, hz, hz, hz]
    decide +kernel
  have ho : (1 : ℚ) ⊘ 1 = 1 := by decide +kernel
  unfold readArepoF
  rw [hf]
  unfold arepoDimensionF
  rw [hd, if_pos hn]
  dsimp only [Option.bind_some]
  rw [if_pos rfl, hb, ho]
  congr 1
  refine (List.map_congr_left fun v hm => ?_).trans (List.map_id values)
  unfold fmul
  rw [mul_one]
  exact hv v hm

/-- The coordinates of an Arepo snapshot: kiloparsecs times scale factor divided by h. -/
example : ∃ (powi : ℚ → ℤ → ℚ) (a h : ℚ) (s : ArepoAttributesF) (values : List ℚ), 0 < a ∧ 0 < h ∧ s.aScaling = 1 ∧ s.hScaling = -1 ∧
    (∀ e ∈ arepoPowers a h s, |powi e.1 e.2 - e.1 ^ e.2| ≤ (1 : ℕ) / 2 ^ 53 * |e.1 ^ e.2|) ∧
    (∀ x, powi x 0 = 1) ∧ (∀ n, powi 1 n = 1) ∧
    (∀ e ∈ arepoPowers a h s, 1 / 2 ^ 100 ≤ e.1 ^ e.2 ∧ e.1 ^ e.2 ≤ 2 ^ 100) ∧
    (s.lengthScaling + s.velocityScaling).natAbs + s.massScaling.natAbs ≤ 20 ∧ 1 / 2 ^ 200 ≤ s.toCgs ∧
    (∀ x ∈ values, x = 0 ∨ 1 / 2 ^ 200 ≤ |x|) ∧ values.length = 3 :=
  ⟨fun a n => fl (a ^ n), fl (1 / 7), fl (7 / 10), ⟨fl (3085678 * 10 ^ 15), 1, 0, 0, 1, -1⟩, [0, 12345, 1 / 4],
    by decide +kernel, by decide +kernel, rfl, rfl, by decide +kernel,
    fun x => by
      dsimp only
      rw [zpow_zero]
      decide +kernel,
    fun n => by
      dsimp only
      rw [one_zpow]
      decide +kernel,
    by decide +kernel, by decide +kernel, by decide +kernel, by decide +kernel, rfl⟩

end Verif.Rounding
