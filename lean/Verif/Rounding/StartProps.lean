import Verif.Rounding.StartModel
import Verif.Rounding.UnitProps

/-!
# C150: the physical state of the particles at the start of a run in `f64`
-/

namespace Verif.Rounding.Start

open Verif.Rounding Verif.Units

/-- Specification: the ionized fraction which belongs to an electron abundance, in real numbers. -/
noncomputable def exactFraction (electronAbundance : ℝ) : ℝ :=
  max (1 / 10 ^ 10) (min (1 - 1 / 10 ^ 10) (76 / 100 * electronAbundance))

private theorem base0 (n : ℕ) : (0 : ℝ) ≤ (1 - 1 / 2 ^ 53) ^ n := pow_nonneg (by norm_num) n

private theorem rounds_max {n : ℕ} {a b a' b' : ℝ} (h : Rounds n a a') (h' : Rounds n b b') : Rounds n (max a b) (max a' b') := by
  constructor
  · rw [max_mul_of_nonneg _ _ (base0 n)]
    exact max_le_max h.1 h'.1
  · rw [max_mul_of_nonneg _ _ (base0 n)]
    exact max_le_max h.2 h'.2

private theorem rounds_min {n : ℕ} {a b a' b' : ℝ} (h : Rounds n a a') (h' : Rounds n b b') : Rounds n (min a b) (min a' b') := by
  constructor
  · rw [min_mul_of_nonneg _ _ (base0 n)]
    exact min_le_min h.1 h'.1
  · rw [min_mul_of_nonneg _ _ (base0 n)]
    exact min_le_min h.2 h'.2

private theorem clamp_eq {lo hi : ℚ} (x : ℚ) (h : lo ≤ hi) : clampF lo hi x = max lo (min hi x) := by
  unfold clampF
  split_ifs with h1 h2
  · rw [max_eq_left ((min_le_right _ _).trans h1.le)]
  · rw [min_eq_left h2.le, max_eq_right h]
  · push Not at h1 h2
    rw [min_eq_right h2, max_eq_right h1]

private theorem floor_le_ceiling : floorF ≤ ceilingF := by decide +kernel

private theorem rounds_rat {n : ℕ} {x y : ℚ} (h1 : y * (1 - 1 / 2 ^ 53) ^ n ≤ x) (h2 : x * (1 - 1 / 2 ^ 53) ^ n ≤ y) :
    Rounds n (x : ℝ) (y : ℝ) := by
  have k1 := (Rat.cast_le (K := ℝ)).2 h1
  have k2 := (Rat.cast_le (K := ℝ)).2 h2
  push_cast at k1 k2
  exact ⟨k1, k2⟩

private theorem rounds_floor : Rounds 2 (1 / 10 ^ 10 : ℝ) (floorF : ℝ) := by
  have : Rounds 2 ((1 / 10 ^ 10 : ℚ) : ℝ) (floorF : ℝ) := rounds_rat (by decide +kernel) (by decide +kernel)
  push_cast at this
  exact this

private theorem rounds_ceiling : Rounds 2 (1 - 1 / 10 ^ 10 : ℝ) (ceilingF : ℝ) := by
  have : Rounds 2 ((1 - 1 / 10 ^ 10 : ℚ) : ℝ) (ceilingF : ℝ) := rounds_rat (by decide +kernel) (by decide +kernel)
  push_cast at this
  exact this

private theorem fraction_rounds (xe : ℚ) : Rounds 2 (exactFraction xe) (initialFractionF none xe : ℝ) := by
  have e : initialFractionF none xe = max floorF (min ceilingF (fl (76 / 100) ⊠ xe)) := clamp_eq _ floor_le_ceiling
  rw [e]
  unfold exactFraction
  by_cases hx : 1 / 2 ^ 100 ≤ xe
  · have hx' : LowBy 100 (xe : ℝ) := by
      have := (Rat.cast_le (K := ℝ)).2 hx
      push_cast at this
      exact this
    have l : LowBy 1 (76 / 100 : ℝ) := by
      unfold LowBy
      norm_num
    have r1 : Rounds 1 (76 / 100 : ℝ) (fl (76 / 100) : ℝ) := by
      have := rounds_fl (x := 76 / 100) (by
        push_cast
        exact LowBy.weaken (k := 1) (x := (76 / 100 : ℝ)) l (by norm_num) |>.trans' (one_div_le_one_div_of_le (by positivity)
          (pow_le_pow_right₀ one_le_two (by decide))))
      push_cast at this
      exact this
    have r := r1.fmul (Rounds.refl (xe : ℝ)) l.pos hx'.pos (by norm_num) ((l.mul hx').weaken (by norm_num))
    have := rounds_max rounds_floor (rounds_min rounds_ceiling r)
    push_cast at this ⊢
    exact this
  · push Not at hx
    have f76 : (0 : ℚ) ≤ fl (76 / 100) := fl_nonneg (by norm_num)
    have s : fl (76 / 100) ⊠ xe ≤ floorF :=
      (fl_mono (mul_le_mul_of_nonneg_left hx.le f76)).trans (by decide +kernel)
    have hx' : (xe : ℝ) < 1 / 2 ^ 100 := by
      have := (Rat.cast_lt (K := ℝ)).2 hx
      push_cast at this
      exact this
    rw [max_eq_left ((min_le_right _ _).trans s), max_eq_left]
    · exact rounds_floor
    · refine (min_le_right _ _).trans ?_
      have : (76 / 100 : ℝ) * xe ≤ 76 / 100 * (1 / 2 ^ 100) := by linarith
      refine this.trans ?_
      norm_num

/-- **C150** (ionized fraction): whatever electron abundance the input has, the ionized fraction is between the `f64` next to `1e-10`
and that next to `1 - 1e-10`, so that one minus the fraction is positive, and differs from 0.76 times the abundance, limited to
this range, by at most three units of roundoff.  More electrons never give a lower fraction. -/
theorem initial_fraction_f64 (xe : ℚ) :
    fl (1 / 10 ^ 10) ≤ initialFractionF none xe ∧ initialFractionF none xe ≤ fl (1 - 1 / 10 ^ 10) ∧
    0 < 1 ⊟ initialFractionF none xe ∧
    |(initialFractionF none xe : ℝ) - exactFraction xe| ≤ 3 / 2 ^ 53 * exactFraction xe ∧
    ∀ xe', xe ≤ xe' → initialFractionF none xe ≤ initialFractionF none xe' := by
  have e : ∀ x, initialFractionF none x = max floorF (min ceilingF (fl (76 / 100) ⊠ x)) := fun x => clamp_eq _ floor_le_ceiling
  have top : ceilingF = fl (1 - 1 / 10 ^ 10) := by decide +kernel
  have hi : initialFractionF none xe ≤ ceilingF := by
    rw [e]
    exact max_le floor_le_ceiling (min_le_left _ _)
  refine ⟨by rw [e]; exact le_max_left _ _, top ▸ hi, ?_, ?_, fun xe' h => ?_⟩
  · have a : 1 ⊟ ceilingF ≤ 1 ⊟ initialFractionF none xe := fl_mono (sub_le_sub_left hi 1)
    exact lt_of_lt_of_le (by decide +kernel) a
  · have p : 0 < exactFraction xe := lt_of_lt_of_le (by norm_num) (le_max_left _ _)
    have := (fraction_rounds xe).error (by norm_num) p
    norm_num at this ⊢
    exact this
  · rw [e, e]
    have f76 : (0 : ℚ) ≤ fl (76 / 100) := fl_nonneg (by norm_num)
    exact max_le_max le_rfl (min_le_min le_rfl (fl_mono (mul_le_mul_of_nonneg_left h f76)))

private theorem fraction_range {p : Option ℚ} (hp : ∀ f ∈ p, 0 ≤ f ∧ f ≤ 1) (xe : ℚ) :
    0 ≤ initialFractionF p xe ∧ initialFractionF p xe ≤ 1 := by
  cases p with
  | some f => exact hp f rfl
  | none =>
    obtain ⟨h1, h2, _⟩ := initial_fraction_f64 xe
    exact ⟨le_trans (by decide +kernel) h1, h2.trans (by decide +kernel)⟩

/-- **C150** (temperature): without remapping the temperature is positive and differs from the one which belongs to the internal energy
and the electron abundance of the input by at most 17 units of roundoff, whatever the density is. -/
theorem start_temperature_f64 {rho u xe v : ℚ} (hu : 1 / 2 ^ 300 ≤ u) (hrho : 1 / 2 ^ 300 ≤ rho) :
    0 < (startF none rho u xe none v).temperature ∧
    |((startF none rho u xe none v).temperature : ℝ) - toTemperature u (1 / (exactFraction xe + 1))| ≤
      17 / 2 ^ 53 * toTemperature u (1 / (exactFraction xe + 1)) := by
  obtain ⟨f0, f1⟩ := fraction_range (p := none) (by simp) xe
  obtain ⟨t0, t1⟩ := initial_temperature_accurate_f64 hu f0 f1 hrho
  refine ⟨t0, ?_⟩
  change |((initialTemperatureF u (initialFractionF none xe) rho : ℚ) : ℝ) - _| ≤ _
  have r := fraction_rounds xe
  have c0 : 0 < exactFraction xe := lt_of_lt_of_le (by norm_num) (le_max_left _ _)
  generalize exactFraction xe = c at r c0 ⊢
  generalize initialFractionF none xe = f at r t0 t1 f0 f1 ⊢
  have u0 : (0 : ℝ) < u := by
    have : (0 : ℚ) < u := lt_of_lt_of_le (by positivity) hu
    exact_mod_cast this
  have f0' : (0 : ℝ) ≤ f := by exact_mod_cast f0
  have p1 : ((1 : ℝ) - 1 / 2 ^ 53) ^ 2 ≤ 1 := pow_le_one₀ (by norm_num) (by norm_num)
  have s : Rounds 2 (c + 1) ((f : ℝ) + 1) := by
    constructor
    · rw [add_mul, one_mul]
      exact add_le_add r.1 p1
    · rw [add_mul, one_mul]
      exact add_le_add r.2 p1
  have k : (0 : ℝ) < u * ((gamma - 1.0) * protonMass / boltzmannConstant) := by
    refine mul_pos u0 (div_pos (mul_pos ?_ ?_) ?_)
    · unfold gamma; norm_num
    · unfold protonMass; norm_num
    · unfold boltzmannConstant; norm_num
  have tt : ∀ μ : ℝ, toTemperature u μ = (u * ((gamma - 1.0) * protonMass / boltzmannConstant)) * μ := by
    intro μ
    unfold toTemperature
    generalize gamma - 1.0 = g
    ring
  have w := s.inv (by linarith)
  have T : Rounds 2 (toTemperature u (1 / (c + 1))) (toTemperature u (1 / ((f : ℝ) + 1))) := by
    rw [tt, tt]
    have := (Rounds.refl (u * ((gamma - 1.0) * protonMass / boltzmannConstant))).mul w k (one_div_pos.2 (by linarith))
    rw [zero_add] at this
    exact this
  have T0 : 0 < toTemperature u (1 / (c + 1)) := by
    rw [tt]
    exact mul_pos k (one_div_pos.2 (by linarith))
  have t1' : |((initialTemperatureF u f rho : ℚ) : ℝ) - toTemperature u (1 / ((f : ℝ) + 1))| ≤
      ((13 : ℕ) : ℝ) / 2 ^ 53 * toTemperature u (1 / ((f : ℝ) + 1)) := by
    rw [Nat.cast_ofNat]
    exact t1
  have r14 := Rounds.of_error (k := 13) (by decide) (T.pos T0) t1'
  have := (T.trans r14).error (by decide) T0
  have c : (((2 + (13 + 1) : ℕ) : ℝ) + 1) = 17 := by norm_num
  rw [c] at this
  exact this

/-- **C150** (remapping): remapping never lowers the temperature or the ionized fraction of a particle; both are bitwise those of the
input or those of the snapshot, and remapping again from the same data changes nothing. -/
theorem remapped_state_f64 (p : Option ℚ) (rho u xe v t f : ℚ) :
    let s := startF p rho u xe none v
    let s' := startF p rho u xe (some (t, f)) v
    s.temperature ≤ s'.temperature ∧ s.fraction ≤ s'.fraction ∧ t ≤ s'.temperature ∧ f ≤ s'.fraction ∧
    (s'.temperature = s.temperature ∨ s'.temperature = t) ∧ (s'.fraction = s.fraction ∨ s'.fraction = f) ∧
    s'.mass = s.mass ∧ s'.density = rho ∧
    remapFromF s'.temperature s'.fraction (some (t, f)) = (s'.temperature, s'.fraction) := by
  refine ⟨le_max_left _ _, le_max_left _ _, le_max_right _ _, le_max_right _ _, max_choice _ _, max_choice _ _, rfl, rfl, ?_⟩
  exact Prod.ext (max_eq_left (le_max_right _ _)) (max_eq_left (le_max_right _ _))

/-- **C150** (solver): with remapping or without, from electron abundances or a parameter in the allowed range, and from snapshots
which were written by the program, every particle starts with a positive temperature and an ionized fraction for which one minus the
fraction is positive. -/
theorem start_state_valid_f64 {p : Option ℚ} (hp : ∀ f ∈ p, fl (1 / 10 ^ 10) ≤ f ∧ f ≤ fl (1 - 1 / 10 ^ 10)) {rho u : ℚ} (xe v : ℚ)
    (hu : 1 / 2 ^ 300 ≤ u) (hrho : 1 / 2 ^ 300 ≤ rho) {remap : Option (ℚ × ℚ)} (hr : ∀ d ∈ remap, d.2 ≤ fl (1 - 1 / 10 ^ 10)) :
    0 < (startF p rho u xe remap v).temperature ∧ fl (1 / 10 ^ 10) ≤ (startF p rho u xe remap v).fraction ∧
    (startF p rho u xe remap v).fraction ≤ fl (1 - 1 / 10 ^ 10) ∧ 0 < 1 ⊟ (startF p rho u xe remap v).fraction := by
  have range : fl (1 / 10 ^ 10) ≤ initialFractionF p xe ∧ initialFractionF p xe ≤ fl (1 - 1 / 10 ^ 10) := by
    cases p with
    | some f => exact hp f rfl
    | none =>
      obtain ⟨h1, h2, _⟩ := initial_fraction_f64 xe
      exact ⟨h1, h2⟩
  have t0 := (initial_temperature_accurate_f64 hu (le_trans (by decide +kernel) range.1) (range.2.trans (by decide +kernel)) hrho).1
  have main : 0 < (startF p rho u xe remap v).temperature ∧ fl (1 / 10 ^ 10) ≤ (startF p rho u xe remap v).fraction ∧
      (startF p rho u xe remap v).fraction ≤ fl (1 - 1 / 10 ^ 10) := by
    cases remap with
    | none => exact ⟨t0, range.1, range.2⟩
    | some d => exact ⟨lt_of_lt_of_le t0 (le_max_left _ _), range.1.trans (le_max_left _ _), max_le range.2 (hr d rfl)⟩
  refine ⟨main.1, main.2.1, main.2.2, ?_⟩
  have a : 1 ⊟ fl (1 - 1 / 10 ^ 10) ≤ 1 ⊟ (startF p rho u xe remap v).fraction := fl_mono (sub_le_sub_left main.2.2 1)
  exact lt_of_lt_of_le (by decide +kernel) a

/-- **C150** (mass): the mass of all particles differs from the sum of the products of their densities and volumes by at most two units
of roundoff, however many particles there are. -/
theorem start_mass_f64 {α : Type} (particles : List α) (p : Option ℚ) (rho u xe v : α → ℚ) (remap : α → Option (ℚ × ℚ))
    (h : ∀ a ∈ particles, 1 / 2 ^ 300 ≤ rho a ∧ 1 / 2 ^ 300 ≤ v a) :
    |(particles.map fun a => (startF p (rho a) (u a) (xe a) (remap a) (v a)).mass).sum - (particles.map fun a => rho a * v a).sum| ≤
      1 / 2 ^ 52 * (particles.map fun a => rho a * v a).sum := by
  induction particles with
  | nil => simp
  | cons a l ih =>
    have ih := ih fun b hb => h b (List.mem_cons_of_mem _ hb)
    obtain ⟨h1, h2⟩ := h a List.mem_cons_self
    have r0 : (0 : ℚ) < rho a := lt_of_lt_of_le (by positivity) h1
    have v0 : (0 : ℚ) < v a := lt_of_lt_of_le (by positivity) h2
    have m : 1 / 2 ^ 600 ≤ rho a * v a := by
      calc (1 : ℚ) / 2 ^ 600 = 1 / 2 ^ 300 * (1 / 2 ^ 300) := by rw [div_mul_div_comm, one_mul, ← pow_add]
        _ ≤ rho a * v a := mul_le_mul h1 h2 (by positivity) r0.le
    have m0 := mul_pos r0 v0
    have e : |rho a ⊠ v a - rho a * v a| ≤ 1 / 2 ^ 52 * (rho a * v a) := by
      have := rounds_fl (x := rho a * v a) (by
        have k := (Rat.cast_le (K := ℝ)).2 m
        push_cast at k ⊢
        exact le_trans (one_div_le_one_div_of_le (by positivity) (pow_le_pow_right₀ one_le_two (by decide))) k)
      have x0 : (0 : ℝ) < ((rho a * v a : ℚ) : ℝ) := by exact_mod_cast m0
      have k := this.error (by norm_num) x0
      have c : (((1 : ℕ) : ℝ) + 1) / 2 ^ 53 = 1 / 2 ^ 52 := by norm_num
      rw [c] at k
      refine (Rat.cast_le (K := ℝ)).1 ?_
      unfold fmul
      push_cast at k ⊢
      exact k
    rw [List.map_cons, List.map_cons, List.sum_cons, List.sum_cons]
    change |rho a ⊠ v a + _ - (rho a * v a + _)| ≤ _
    rw [add_sub_add_comm, mul_add]
    exact (abs_add_le _ _).trans (add_le_add e ih)

/-! ### Examples -/

example : startF none 3 5 (1 / 2) none 2 = ⟨3, fl (38 / 100), initialTemperatureF 5 (fl (38 / 100)) 3, 6⟩ := by
  have h1 : initialFractionF none (1 / 2) = fl (38 / 100) := by decide +kernel
  have h2 : (3 : ℚ) ⊠ 2 = 6 := by decide +kernel
  unfold startF remapFromF
  simp only [h1, h2]

example : (1 : ℚ) / 2 ^ 300 ≤ 3 ∧ (1 : ℚ) / 2 ^ 300 ≤ 5 := by decide +kernel

example : fl (1 / 10 ^ 10) ≤ (1 / 2 : ℚ) ∧ (1 / 2 : ℚ) ≤ fl (1 - 1 / 10 ^ 10) := by decide +kernel

/-- A parameter outside of the range is not limited: with a fraction of one no neutral hydrogen is left. -/
theorem parameter_not_limited_f64 : ∃ f : ℚ, IsF64 f ∧ f ≤ 1 ∧ ∀ rho u xe v,
    (startF (some f) rho u xe none v).fraction = 1 ∧ 1 ⊟ (startF (some f) rho u xe none v).fraction = 0 :=
  ⟨1, by unfold IsF64; decide +kernel, le_rfl, fun _ _ _ _ => ⟨rfl, by
    change (1 : ℚ) ⊟ 1 = 0
    decide +kernel⟩⟩

end Verif.Rounding.Start
