import Verif.Rounding.UnitModel
import Verif.Rounding.RoundLemmas
import Verif.Rounding.SearchAccuracyProps
import Verif.Units.Props

/-! # C143: units and temperatures in `f64` -/

namespace Verif.Rounding

open Verif.Units

/-! ## Relative errors -/

/-- The positive numbers `x` and `y` differ by `n` rounding errors. -/
def Rounds (n : ℕ) (x y : ℝ) : Prop := y * (1 - 1 / 2 ^ 53) ^ n ≤ x ∧ x * (1 - 1 / 2 ^ 53) ^ n ≤ y

private theorem base_pos' : (0 : ℝ) < 1 - 1 / 2 ^ 53 := by norm_num

private theorem pow_pos' (n : ℕ) : (0 : ℝ) < (1 - 1 / 2 ^ 53) ^ n := pow_pos base_pos' n

theorem Rounds.refl (x : ℝ) : Rounds 0 x x := ⟨by rw [pow_zero, mul_one], by rw [pow_zero, mul_one]⟩

theorem Rounds.symm {n : ℕ} {x y : ℝ} (h : Rounds n x y) : Rounds n y x := ⟨h.2, h.1⟩

theorem Rounds.trans {n m : ℕ} {x y z : ℝ} (h : Rounds n x y) (h' : Rounds m y z) : Rounds (n + m) x z := by
  constructor
  · rw [add_comm n m, pow_add, ← mul_assoc]
    exact (mul_le_mul_of_nonneg_right h'.1 (pow_pos' n).le).trans h.1
  · rw [pow_add, ← mul_assoc]
    exact (mul_le_mul_of_nonneg_right h.2 (pow_pos' m).le).trans h'.2

theorem Rounds.pos {n : ℕ} {x y : ℝ} (h : Rounds n x y) (hx : 0 < x) : 0 < y :=
  lt_of_lt_of_le (mul_pos hx (pow_pos' n)) h.2

theorem Rounds.mul {n m : ℕ} {x y a b : ℝ} (h : Rounds n x a) (h' : Rounds m y b) (hx : 0 < x) (hy : 0 < y) :
    Rounds (n + m) (x * y) (a * b) := by
  have ha := h.pos hx
  have hb := h'.pos hy
  constructor
  · rw [pow_add, mul_mul_mul_comm]
    exact mul_le_mul h.1 h'.1 (mul_nonneg hb.le (pow_pos' m).le) hx.le
  · rw [pow_add, mul_mul_mul_comm]
    exact mul_le_mul h.2 h'.2 (mul_nonneg hy.le (pow_pos' m).le) ha.le

theorem Rounds.inv {n : ℕ} {x y : ℝ} (h : Rounds n x y) (hx : 0 < x) : Rounds n (1 / x) (1 / y) := by
  have hy := h.pos hx
  constructor
  · rw [one_div_mul_eq_div, div_le_div_iff₀ hy hx]
    linarith [h.2]
  · rw [one_div_mul_eq_div, div_le_div_iff₀ hx hy]
    linarith [h.1]

theorem Rounds.div {n m : ℕ} {x y a b : ℝ} (h : Rounds n x a) (h' : Rounds m y b) (hx : 0 < x) (hy : 0 < y) :
    Rounds (n + m) (x / y) (a / b) := by
  rw [div_eq_mul_one_div, div_eq_mul_one_div a]
  exact h.mul (h'.inv hy) hx (one_div_pos.2 hy)

/-- A few rounding errors make a small relative error. -/
theorem Rounds.error {n : ℕ} {x y : ℝ} (hn : n ≤ 100) (hx : 0 < x) (h : Rounds n x y) :
    |y - x| ≤ (n + 1) / 2 ^ 53 * x := by
  have b : 1 + (n : ℝ) * -(1 / 2 ^ 53) ≤ (1 + -(1 / 2 ^ 53)) ^ n :=
    one_add_mul_le_pow (by norm_num) n
  rw [← sub_eq_add_neg] at b
  have hn' : (n : ℝ) ≤ 100 := by exact_mod_cast hn
  have hn0 : (0 : ℝ) ≤ n := Nat.cast_nonneg n
  have hy := h.pos hx
  have k1 : y * (1 + (n : ℝ) * -(1 / 2 ^ 53)) ≤ x := (mul_le_mul_of_nonneg_left b hy.le).trans h.1
  have k2 : x * (1 + (n : ℝ) * -(1 / 2 ^ 53)) ≤ y := (mul_le_mul_of_nonneg_left b hx.le).trans h.2
  obtain ⟨u, hu⟩ : ∃ u : ℝ, u = 1 / 2 ^ 53 := ⟨_, rfl⟩
  have u0 : 0 < u := by rw [hu]; norm_num
  have u1 : u ≤ 1 / 100000 := by rw [hu]; norm_num
  rw [div_eq_mul_one_div _ ((2 : ℝ) ^ 53), ← hu]
  rw [← hu] at k1 k2
  clear b h hu
  have nu : (n : ℝ) * u ≤ 1 / 1000 := by nlinarith
  rw [abs_le]
  constructor
  · nlinarith
  · have m1 : (1 : ℝ) ≤ (1 + (n + 1) * u) * (1 + n * -u) := by
      have : ((n : ℝ) + 1) * (n * u) ≤ 1 := by nlinarith
      nlinarith
    have m2 : 0 < 1 + (n : ℝ) * -u := by linarith
    have m3 : y * (1 + n * -u) ≤ x * (1 + (n + 1) * u) * (1 + n * -u) := by nlinarith
    have := le_of_mul_le_mul_right m3 m2
    linarith

theorem Rounds.mono {n m : ℕ} {x y : ℝ} (h : Rounds n x y) (hx : 0 < x) (hnm : n ≤ m) : Rounds m x y := by
  have hp : ((1 : ℝ) - 1 / 2 ^ 53) ^ m ≤ (1 - 1 / 2 ^ 53) ^ n :=
    pow_le_pow_of_le_one base_pos'.le (by norm_num) hnm
  exact ⟨(mul_le_mul_of_nonneg_left hp (h.pos hx).le).trans h.1, (mul_le_mul_of_nonneg_left hp hx.le).trans h.2⟩

/-- One rounding. -/
theorem rounds_fl {x : ℚ} (h : (1 : ℝ) / 2 ^ 1001 ≤ x) : Rounds 1 (x : ℝ) ((fl x : ℚ) : ℝ) := by
  have h' : (1 : ℚ) / 2 ^ 1001 ≤ x := by
    have : (((1 : ℚ) / 2 ^ 1001 : ℚ) : ℝ) ≤ x := by push_cast; exact h
    exact_mod_cast this
  have x0 : 0 < x := lt_of_lt_of_le (by positivity) h'
  have e := fl_rel (x := x) (by
    rw [abs_of_pos x0]
    refine le_trans ?_ h'
    rw [one_div, ← zpow_natCast, ← zpow_neg]
    exact two_zpow_le (by norm_num))
  rw [abs_of_pos x0, abs_le] at e
  have e1 := (Rat.cast_le (K := ℝ)).2 e.1
  have e2 := (Rat.cast_le (K := ℝ)).2 e.2
  have z : ((2 : ℚ) ^ (-53 : ℤ)) = 1 / 2 ^ 53 := by norm_num
  rw [z] at e1 e2
  have x0' : (0 : ℝ) < x := by exact_mod_cast x0
  push_cast at e1 e2
  unfold Rounds
  rw [pow_one]
  clear h h' z e
  norm_num at e1 e2 ⊢
  constructor <;> linarith

private theorem rounds_low {n : ℕ} {x y : ℝ} (hn : n ≤ 100) (h : Rounds n x y) (hx : (1 : ℝ) / 2 ^ 1000 ≤ x) :
    (1 : ℝ) / 2 ^ 1001 ≤ y := by
  have x0 : 0 < x := lt_of_lt_of_le (by positivity) hx
  have e := h.error hn x0
  have hn' : (n : ℝ) ≤ 100 := by exact_mod_cast hn
  have k : ((n : ℝ) + 1) / 2 ^ 53 ≤ 1 / 2 := by
    rw [div_le_iff₀ (by positivity)]
    norm_num
    linarith
  have k2 := mul_le_mul_of_nonneg_right k x0.le
  have s : (1 : ℝ) / 2 ^ 1001 = 1 / 2 ^ 1000 / 2 := by rw [div_div, ← pow_succ]
  rw [s]
  rw [abs_le] at e
  linarith [e.1]

theorem Rounds.fmul {n m : ℕ} {x y : ℝ} {a b : ℚ} (h : Rounds n x a) (h' : Rounds m y b) (hx : 0 < x) (hy : 0 < y)
    (hn : n + m ≤ 100) (low : (1 : ℝ) / 2 ^ 1000 ≤ x * y) : Rounds (n + m + 1) (x * y) ((a ⊠ b : ℚ) : ℝ) := by
  have k := h.mul h' hx hy
  have e : ((a * b : ℚ) : ℝ) = a * b := by push_cast; rfl
  rw [← e] at k
  exact k.trans (rounds_fl (rounds_low hn k low))

theorem Rounds.fdiv {n m : ℕ} {x y : ℝ} {a b : ℚ} (h : Rounds n x a) (h' : Rounds m y b) (hx : 0 < x) (hy : 0 < y)
    (hn : n + m ≤ 100) (low : (1 : ℝ) / 2 ^ 1000 ≤ x / y) : Rounds (n + m + 1) (x / y) ((a ⊘ b : ℚ) : ℝ) := by
  have k := h.div h' hx hy
  have e : ((a / b : ℚ) : ℝ) = a / b := by push_cast; rfl
  rw [← e] at k
  exact k.trans (rounds_fl (rounds_low hn k low))

/-- Lower bounds by powers of two. -/
def LowBy (k : ℕ) (x : ℝ) : Prop := (1 : ℝ) / 2 ^ k ≤ x

theorem LowBy.pos {k : ℕ} {x : ℝ} (h : LowBy k x) : 0 < x := lt_of_lt_of_le (by positivity) h

theorem LowBy.mul {k l : ℕ} {x y : ℝ} (h : LowBy k x) (h' : LowBy l y) : LowBy (k + l) (x * y) := by
  unfold LowBy
  rw [pow_add, ← one_div_mul_one_div]
  exact mul_le_mul h h' (by positivity) h.pos.le

theorem LowBy.div {k l : ℕ} {x y : ℝ} (h : LowBy k x) (hy : 0 < y) (h' : y ≤ 2 ^ l) : LowBy (k + l) (x / y) := by
  rw [div_eq_mul_one_div]
  exact h.mul (one_div_le_one_div_of_le hy h')

theorem LowBy.weaken {k : ℕ} {x : ℝ} (h : LowBy k x) (hk : k ≤ 1000) : (1 : ℝ) / 2 ^ 1000 ≤ x :=
  (one_div_le_one_div_of_le (by positivity) (pow_le_pow_right₀ one_le_two hk)).trans h

/-! ## The constants -/

private theorem low_boltzmann : LowBy 80 boltzmannConstant := by
  unfold LowBy boltzmannConstant
  norm_num

private theorem low_proton : LowBy 90 protonMass := by
  unfold LowBy protonMass
  norm_num

private theorem rounds_boltzmann : Rounds 1 boltzmannConstant boltzmannF := by
  have e : boltzmannConstant = ((1380649 / 10 ^ 29 : ℚ) : ℝ) := by
    unfold boltzmannConstant
    norm_num
  have l := low_boltzmann
  rw [e] at l ⊢
  exact rounds_fl ((one_div_le_one_div_of_le (by positivity) (pow_le_pow_right₀ one_le_two (by decide))).trans l)

private theorem rounds_proton : Rounds 1 protonMass protonMassF := by
  have e : protonMass = ((167262192369 / 10 ^ 38 : ℚ) : ℝ) := by
    unfold protonMass
    norm_num
  have l := low_proton
  rw [e] at l ⊢
  exact rounds_fl ((one_div_le_one_div_of_le (by positivity) (pow_le_pow_right₀ one_le_two (by decide))).trans l)

private theorem gamma_value : gamma - 1.0 = 2 / 3 := by
  unfold gamma
  norm_num

private theorem rounds_gamma : Rounds 2 (gamma - 1.0) ((gammaF ⊟ 1 : ℚ) : ℝ) := by
  have e : gammaF ⊟ 1 = 6004799503160662 / 2 ^ 53 := by decide +kernel
  rw [e, gamma_value]
  unfold Rounds
  push_cast
  norm_num

private theorem weight_low {x : ℝ} (h0 : 0 ≤ x) (h1 : x ≤ 1) : LowBy 1 (1.0 / (x + 1.0)) := by
  unfold LowBy
  rw [div_le_div_iff₀ (by positivity) (by norm_num; linarith)]
  norm_num
  linarith

private theorem rounds_weight {x : ℚ} (h0 : 0 ≤ x) (h1 : x ≤ 1) :
    Rounds 2 (1.0 / ((x : ℝ) + 1.0)) ((1 ⊘ (x ⊞ 1) : ℚ) : ℝ) := by
  have h0' : (0 : ℝ) ≤ x := by exact_mod_cast h0
  have h1' : (x : ℝ) ≤ 1 := by exact_mod_cast h1
  have one : (1.0 : ℝ) = 1 := by norm_num
  have e : (x : ℝ) + 1.0 = ((x + 1 : ℚ) : ℝ) := by push_cast; rw [one]
  have k : Rounds 1 ((x : ℝ) + 1.0) ((x ⊞ 1 : ℚ) : ℝ) := by
    rw [e]
    refine rounds_fl ?_
    rw [← e, one]
    have : (1 : ℝ) / 2 ^ 1001 ≤ 1 := by
      rw [div_le_one (by positivity)]
      exact one_le_pow₀ one_le_two
    linarith
  have k1 : Rounds 0 1.0 ((1 : ℚ) : ℝ) := by
    rw [one, Rat.cast_one]
    exact Rounds.refl 1
  exact k1.fdiv k (by norm_num) (by rw [one]; linarith) (by norm_num) ((weight_low h0' h1').weaken (by norm_num))

/-! ## Temperatures -/

private theorem toTemperature_rounds {n m : ℕ} {e μ : ℝ} {e' μ' : ℚ} (he : Rounds n e e') (hμ : Rounds m μ μ') (le : LowBy 400 e)
    (lμ : LowBy 10 μ) (hn : n + m ≤ 50) : Rounds (n + m + 8) (toTemperature e μ) (toTemperatureF e' μ') := by
  have lg : LowBy 1 (gamma - 1.0) := by rw [gamma_value]; unfold LowBy; norm_num
  have kp : boltzmannConstant ≤ 2 ^ 0 := by unfold boltzmannConstant; norm_num
  have l1 := le.mul lμ
  have l2 := l1.mul lg
  have l3 := l2.mul low_proton
  have l4 := l3.div boltzmann_pos kp
  have r1 := he.fmul hμ le.pos lμ.pos (by omega) (l1.weaken (by norm_num))
  have r2 := r1.fmul rounds_gamma l1.pos lg.pos (by omega) (l2.weaken (by norm_num))
  have r3 := r2.fmul rounds_proton l2.pos low_proton.pos (by omega) (l3.weaken (by norm_num))
  have r4 := r3.fdiv rounds_boltzmann l3.pos boltzmann_pos (by omega) (l4.weaken (by norm_num))
  exact r4

private theorem toTemperature_pos {e μ : ℝ} (he : 0 < e) (hμ : 0 < μ) : 0 < toTemperature e μ :=
  div_pos (mul_pos (mul_pos (mul_pos he hμ) gamma_pos) proton_pos) boltzmann_pos

/-- **C143** (temperature at the start): the temperature which a particle gets at the start of a run has the precision
of `f64`; it is positive, and the density by which the internal energy is multiplied and divided does not matter. -/
theorem initial_temperature_accurate_f64 {e x ρ : ℚ} (he : 1 / 2 ^ 300 ≤ e) (hx0 : 0 ≤ x) (hx1 : x ≤ 1)
    (hρ : 1 / 2 ^ 300 ≤ ρ) :
    0 < initialTemperatureF e x ρ ∧
    |((initialTemperatureF e x ρ : ℚ) : ℝ) - toTemperature e (1 / (x + 1))| ≤
      13 / 2 ^ 53 * toTemperature e (1 / (x + 1)) := by
  have one : (1.0 : ℝ) = 1 := by norm_num
  have hx0' : (0 : ℝ) ≤ x := by exact_mod_cast hx0
  have hx1' : (x : ℝ) ≤ 1 := by exact_mod_cast hx1
  have le : LowBy 300 (e : ℝ) := by
    have := (Rat.cast_le (K := ℝ)).2 he
    push_cast at this
    exact this
  have lρ : LowBy 300 (ρ : ℝ) := by
    have := (Rat.cast_le (K := ℝ)).2 hρ
    push_cast at this
    exact this
  have l1 := le.mul lρ
  have r1 := (Rounds.refl (e : ℝ)).fmul (Rounds.refl (ρ : ℝ)) le.pos lρ.pos (by norm_num) (l1.weaken (by norm_num))
  have eq : (e : ℝ) * ρ / ρ = e := by field_simp [lρ.pos.ne']
  have r2 := r1.fdiv (Rounds.refl (ρ : ℝ)) l1.pos lρ.pos (by norm_num) (by rw [eq]; exact le.weaken (by norm_num))
  rw [eq] at r2
  have w := rounds_weight hx0 hx1
  have lw := weight_low hx0' hx1'
  have r := toTemperature_rounds r2 w (le.trans' (one_div_le_one_div_of_le (by positivity) (pow_le_pow_right₀ one_le_two (by decide))))
    (lw.trans' (one_div_le_one_div_of_le (by positivity) (pow_le_pow_right₀ one_le_two (by decide)))) (by norm_num)
  rw [one] at r lw
  have T0 := toTemperature_pos le.pos lw.pos
  have p := r.pos T0
  refine ⟨by exact_mod_cast p, ?_⟩
  have := r.error (by norm_num) T0
  norm_num at this ⊢
  exact this

/-- **C143** (order): a particle with more internal energy does not get a lower temperature. -/
theorem initial_temperature_mono_f64 {e e' x ρ : ℚ} (hx : 0 ≤ x) (hρ : 0 ≤ ρ) (h : e ≤ e') :
    initialTemperatureF e x ρ ≤ initialTemperatureF e' x ρ := by
  have g0 : (0 : ℚ) ≤ gammaF ⊟ 1 := by decide +kernel
  have p0 : (0 : ℚ) ≤ protonMassF := fl_nonneg (by norm_num)
  have b0 : (0 : ℚ) ≤ boltzmannF := fl_nonneg (by norm_num)
  have w0 : (0 : ℚ) ≤ 1 ⊘ (x ⊞ 1) := fl_nonneg (div_nonneg zero_le_one (fl_nonneg (by linarith)))
  unfold initialTemperatureF temperatureFromEnergyDensityF toTemperatureF
  refine fl_mono (div_le_div_of_nonneg_right (fl_mono (mul_le_mul_of_nonneg_right (fl_mono (mul_le_mul_of_nonneg_right (fl_mono
    (mul_le_mul_of_nonneg_right (fl_mono (div_le_div_of_nonneg_right (fl_mono (mul_le_mul_of_nonneg_right h hρ)) hρ)) w0)) g0)) p0)) b0)

/-- There is an energy from which the results of both conversions are a few rounding errors away. -/
private theorem round_trip_aux {T μ : ℚ} (hT : 1 / 2 ^ 200 ≤ T) (hμ : 1 / 2 ^ 10 ≤ μ) (hμ' : μ ≤ 2 ^ 10) :
    ∃ E : ℝ, LowBy 290 E ∧ Rounds 5 E (toInternalEnergyF T μ) ∧
      ∀ (n : ℕ) (e : ℚ), n ≤ 20 → Rounds n E e → Rounds (n + 4) (T : ℝ) (toTemperatureF e μ) := by
  have lT : LowBy 200 (T : ℝ) := by
    have := (Rat.cast_le (K := ℝ)).2 hT
    push_cast at this
    exact this
  have lμ : LowBy 10 (μ : ℝ) := by
    have := (Rat.cast_le (K := ℝ)).2 hμ
    push_cast at this
    exact this
  have uμ : (μ : ℝ) ≤ 2 ^ 10 := by
    have := (Rat.cast_le (K := ℝ)).2 hμ'
    push_cast at this
    exact this
  -- the constants as they are in `f64`
  obtain ⟨b, hb⟩ : ∃ b, b = boltzmannF := ⟨_, rfl⟩
  obtain ⟨p, hp⟩ : ∃ p, p = protonMassF := ⟨_, rfl⟩
  obtain ⟨g, hg⟩ : ∃ g, g = gammaF ⊟ 1 := ⟨_, rfl⟩
  have cb : (1 / 2 ^ 80 ≤ b ∧ b ≤ 1) := by rw [hb]; decide +kernel
  have cp : (1 / 2 ^ 90 ≤ p ∧ p ≤ 1) := by rw [hp]; decide +kernel
  have cg : (1 / 2 ^ 1 ≤ g ∧ g ≤ 1) := by rw [hg]; decide +kernel
  have cast : ∀ {k : ℕ} {q : ℚ}, 1 / 2 ^ k ≤ q ∧ q ≤ 1 → LowBy k (q : ℝ) ∧ (q : ℝ) ≤ 2 ^ 0 := by
    intro k q h
    have h1 := (Rat.cast_le (K := ℝ)).2 h.1
    have h2 := (Rat.cast_le (K := ℝ)).2 h.2
    push_cast at h1 h2
    exact ⟨h1, by rw [pow_zero]; exact h2⟩
  obtain ⟨lb, ub⟩ := cast cb
  obtain ⟨lp, up⟩ := cast cp
  obtain ⟨lg, ug⟩ := cast cg
  clear cast cb cp cg
  unfold toTemperatureF toInternalEnergyF
  rw [← hb, ← hp, ← hg]
  clear hb hp hg
  have l1 := lb.div lp.pos up
  have r1 := (Rounds.refl (b : ℝ)).fdiv (Rounds.refl (p : ℝ)) lb.pos lp.pos (by norm_num) (l1.weaken (by norm_num))
  have l2 := lT.mul l1
  have r2 := (Rounds.refl (T : ℝ)).fmul r1 lT.pos l1.pos (by norm_num) (l2.weaken (by norm_num))
  have one : LowBy 0 (1 : ℝ) := by unfold LowBy; norm_num
  have l3 := one.div lg.pos ug
  have r3 := (show Rounds 0 1 ((1 : ℚ) : ℝ) by rw [Rat.cast_one]; exact Rounds.refl 1).fdiv (Rounds.refl (g : ℝ)) one.pos lg.pos (by norm_num)
    (l3.weaken (by norm_num))
  have l4 := l2.mul l3
  have r4 := r2.fmul r3 l2.pos l3.pos (by norm_num) (l4.weaken (by norm_num))
  have l5 := l4.div lμ.pos uμ
  have r5 := r4.fdiv (Rounds.refl (μ : ℝ)) l4.pos lμ.pos (by norm_num) (l5.weaken (by norm_num))
  refine ⟨_, l5, r5, ?_⟩
  intro n e' hn re
  have l6 := l5.mul lμ
  have r6 := re.fmul (Rounds.refl (μ : ℝ)) l5.pos lμ.pos (by omega) (l6.weaken (by norm_num))
  have l7 := l6.mul lg
  have r7 := r6.fmul (Rounds.refl (g : ℝ)) l6.pos lg.pos (by omega) (l7.weaken (by norm_num))
  have l8 := l7.mul lp
  have r8 := r7.fmul (Rounds.refl (p : ℝ)) l7.pos lp.pos (by omega) (l8.weaken (by norm_num))
  have l9 := l8.div lb.pos ub
  have r9 := r8.fdiv (Rounds.refl (b : ℝ)) l8.pos lb.pos (by omega) (l9.weaken (by norm_num))
  have e : (T : ℝ) * (b / p) * (1 / g) / μ * μ * g * p / b = T := by
    have := lb.pos.ne'
    have := lp.pos.ne'
    have := lg.pos.ne'
    have := lμ.pos.ne'
    field_simp
  rw [e] at r9
  exact r9

/-- **C143** (back and forth): converting a temperature to an internal energy and back changes it by at most ten
rounding errors, for every molecular weight. -/
theorem temperature_round_trip_f64 {T μ : ℚ} (hT : 1 / 2 ^ 200 ≤ T) (hμ : 1 / 2 ^ 10 ≤ μ) (hμ' : μ ≤ 2 ^ 10) :
    |((toTemperatureF (toInternalEnergyF T μ) μ : ℚ) : ℝ) - T| ≤ 10 / 2 ^ 53 * T := by
  obtain ⟨E, -, r, h⟩ := round_trip_aux hT hμ hμ'
  have T0 : (0 : ℝ) < T := by
    have : 0 < T := lt_of_lt_of_le (by positivity) hT
    exact_mod_cast this
  have := (h 5 _ (by norm_num) r).error (by norm_num) T0
  norm_num at this ⊢
  exact this

/-- **C143** (back and forth): the same for the energy density of ionised hydrogen. -/
theorem energy_density_round_trip_f64 {T x ρ : ℚ} (hT : 1 / 2 ^ 200 ≤ T) (hx0 : 0 ≤ x) (hx1 : x ≤ 1) (hρ : 1 / 2 ^ 300 ≤ ρ) :
    |((temperatureFromEnergyDensityF (energyDensityFromTemperatureF T x ρ) x ρ : ℚ) : ℝ) - T| ≤ 12 / 2 ^ 53 * T := by
  have m1 : fl (1 / 2) = 1 / 2 := by decide +kernel
  have m2 : fl 1 = 1 := by decide +kernel
  have m3 : fl 2 = 2 := by decide +kernel
  have w1 : 1 ≤ x ⊞ 1 := m2.symm.le.trans (fl_mono (by linarith))
  have w2 : x ⊞ 1 ≤ 2 := (fl_mono (by linarith)).trans m3.le
  have w0 : (0 : ℚ) < x ⊞ 1 := by linarith
  have μ1 : 1 / 2 ≤ 1 ⊘ (x ⊞ 1) := m1.symm.le.trans (fl_mono (one_div_le_one_div_of_le w0 w2))
  have μ2 : 1 ⊘ (x ⊞ 1) ≤ 1 := (fl_mono ((div_le_one w0).2 w1)).trans m2.le
  obtain ⟨E, l, r, h⟩ := round_trip_aux hT (μ := 1 ⊘ (x ⊞ 1)) (by norm_num at μ1 ⊢; linarith) (by norm_num; linarith)
  have lρ : LowBy 300 (ρ : ℝ) := by
    have := (Rat.cast_le (K := ℝ)).2 hρ
    push_cast at this
    exact this
  have l1 := l.mul lρ
  have r1 := r.fmul (Rounds.refl (ρ : ℝ)) l.pos lρ.pos (by norm_num) (l1.weaken (by norm_num))
  have eq : E * ρ / ρ = E := by field_simp [lρ.pos.ne']
  have r2 := r1.fdiv (Rounds.refl (ρ : ℝ)) l1.pos lρ.pos (by norm_num) (by rw [eq]; exact l.weaken (by norm_num))
  rw [eq] at r2
  have T0 : (0 : ℝ) < T := by
    have : 0 < T := lt_of_lt_of_le (by positivity) hT
    exact_mod_cast this
  have := (h _ _ (by norm_num) r2).error (by norm_num) T0
  norm_num at this ⊢
  exact this

/-- The round trip is not exact: ten thousand Kelvin, the temperature of ionised gas, comes back as a different number. -/
theorem temperature_round_trip_inexact_f64 : ∃ T : ℚ, IsF64 T ∧ toTemperatureF (toInternalEnergyF T 1) 1 ≠ T :=
  ⟨10000, by decide +kernel, by decide +kernel⟩

/-! ## Datasets -/

/-- **C143** (snapshots): whatever the base units are, values which are written to a dataset and read back by the same
program do not change at all. -/
theorem snapshot_values_unchanged_f64 (powi : ℚ → ℤ → ℚ) (u : BaseUnitsF) (d : Units.Dimension) (hh : d.h = 0) (ha : d.a = 0)
    (h0 : baseFactorF powi u d ≠ 0) (values : List ℚ) (hv : ∀ v ∈ values, IsF64 v) :
    readDatasetF powi u d (writeDatasetF powi u d values) = some values := by
  have e : (baseFactorF powi u d) ⊘ (baseFactorF powi u d) = 1 := by
    unfold fdiv
    rw [div_self h0]
    decide +kernel
  unfold readDatasetF writeDatasetF
  dsimp only
  rw [e, if_pos (by cases d; simp_all)]
  congr 1
  refine (List.map_congr_left fun v hm => ?_).trans (List.map_id values)
  unfold fmul
  rw [mul_one]
  exact hv v hm

/-- With the base units of the code the scale factor of every dimension is one. -/
theorem si_factor_one_f64 (powi : ℚ → ℤ → ℚ) (h : ∀ n, powi 1 n = 1) (d : Units.Dimension) :
    baseFactorF powi BaseUnitsF.si d = 1 := by
  unfold baseFactorF BaseUnitsF.si
  dsimp only
  rw [h, h, h, h]
  decide +kernel

/-- A small relative error as a number of rounding errors. -/
theorem Rounds.of_error {k : ℕ} {x y : ℝ} (hk : k ≤ 100) (hx : 0 < x) (h : |y - x| ≤ k / 2 ^ 53 * x) :
    Rounds (k + 1) x y := by
  have b : 1 + ((k + 1 : ℕ) : ℝ) * (1 / 2 ^ 53) ≤ (1 + 1 / 2 ^ 53) ^ (k + 1) := one_add_mul_le_pow (by norm_num) (k + 1)
  have c : ((1 : ℝ) - 1 / 2 ^ 53) ^ (k + 1) * (1 + 1 / 2 ^ 53) ^ (k + 1) ≤ 1 := by
    rw [← mul_pow]
    exact pow_le_one₀ (by norm_num) (by norm_num)
  have q0 := pow_pos' (k + 1)
  have d : ((1 : ℝ) - 1 / 2 ^ 53) ^ (k + 1) * (1 + ((k + 1 : ℕ) : ℝ) * (1 / 2 ^ 53)) ≤ 1 :=
    (mul_le_mul_of_nonneg_left b q0.le).trans c
  unfold Rounds
  have hk' : (k : ℝ) ≤ 100 := by exact_mod_cast hk
  have hk0 : (0 : ℝ) ≤ k := Nat.cast_nonneg k
  obtain ⟨q, hq⟩ : ∃ q : ℝ, q = (1 - 1 / 2 ^ 53) ^ (k + 1) := ⟨_, rfl⟩
  rw [← hq] at q0 d ⊢
  obtain ⟨u, hu⟩ : ∃ u : ℝ, u = 1 / 2 ^ 53 := ⟨_, rfl⟩
  have u0 : 0 < u := by rw [hu]; norm_num
  have u1 : u ≤ 1 / 100000 := by rw [hu]; norm_num
  rw [div_eq_mul_one_div _ ((2 : ℝ) ^ 53), ← hu] at h
  rw [← hu] at d
  push_cast at d
  clear b c hq hu
  rw [abs_le] at h
  have ku : (k : ℝ) * u ≤ 1 / 1000 := by nlinarith
  constructor
  · have : y ≤ x * (1 + (k + 1) * u) := by nlinarith
    calc y * q ≤ x * (1 + (k + 1) * u) * q := mul_le_mul_of_nonneg_right this q0.le
      _ = x * (q * (1 + (k + 1) * u)) := by ring
      _ ≤ x * 1 := mul_le_mul_of_nonneg_left d hx.le
      _ = x := mul_one x
  · have e : (1 : ℝ) ≤ (1 - k * u) * (1 + (k + 1) * u) := by
      have : ((k : ℝ) + 1) * (k * u) ≤ 1 := by nlinarith
      nlinarith
    have p : 0 < 1 + ((k : ℝ) + 1) * u := by positivity
    have g : q * (1 + (k + 1) * u) ≤ (1 - k * u) * (1 + (k + 1) * u) := d.trans e
    have := le_of_mul_le_mul_right g p
    nlinarith

/-- **C143** (scale factors): if `powi` has a precision of `k` units of the last digit, then the scale factor of every
dimension has one of `4 k + 8`. -/
theorem base_factor_accurate_f64 (powi : ℚ → ℤ → ℚ) (u : BaseUnitsF) (d : Units.Dimension) {k : ℕ} (hk : k ≤ 20)
    (hp : ∀ e ∈ [(u.lengthToSi, d.length), (u.timeToSi, d.time), (u.massToSi, d.mass), (u.temperatureToSi, d.temperature)],
      |powi e.1 e.2 - e.1 ^ e.2| ≤ k / 2 ^ 53 * |e.1 ^ e.2|)
    (hl : 1 / 2 ^ 200 ≤ u.lengthToSi ^ d.length) (ht : 1 / 2 ^ 200 ≤ u.timeToSi ^ d.time)
    (hm : 1 / 2 ^ 200 ≤ u.massToSi ^ d.mass) (hT : 1 / 2 ^ 200 ≤ u.temperatureToSi ^ d.temperature) :
    |((baseFactorF powi u d : ℚ) : ℝ) -
        (u.lengthToSi : ℝ) ^ d.length * (u.timeToSi : ℝ) ^ d.time * (u.massToSi : ℝ) ^ d.mass *
          (u.temperatureToSi : ℝ) ^ d.temperature| ≤
      (4 * k + 8) / 2 ^ 53 * ((u.lengthToSi : ℝ) ^ d.length * (u.timeToSi : ℝ) ^ d.time * (u.massToSi : ℝ) ^ d.mass *
          (u.temperatureToSi : ℝ) ^ d.temperature) := by
  have one : ∀ (a : ℚ) (n : ℤ), |powi a n - a ^ n| ≤ k / 2 ^ 53 * |a ^ n| → 1 / 2 ^ 200 ≤ a ^ n →
      LowBy 200 ((a : ℝ) ^ n) ∧ Rounds (k + 1) ((a : ℝ) ^ n) ((powi a n : ℚ) : ℝ) := by
    intro a n hp h
    have h0 : 0 < a ^ n := lt_of_lt_of_le (by positivity) h
    have h1 := (Rat.cast_le (K := ℝ)).2 h
    have h2 := (Rat.cast_le (K := ℝ)).2 hp
    rw [abs_of_pos h0] at h2
    push_cast at h1 h2
    have l : LowBy 200 ((a : ℝ) ^ n) := h1
    exact ⟨l, Rounds.of_error (by omega) l.pos h2⟩
  obtain ⟨l1, r1⟩ := one _ _ (hp (u.lengthToSi, d.length) (by simp)) hl
  obtain ⟨l2, r2⟩ := one _ _ (hp (u.timeToSi, d.time) (by simp)) ht
  obtain ⟨l3, r3⟩ := one _ _ (hp (u.massToSi, d.mass) (by simp)) hm
  obtain ⟨l4, r4⟩ := one _ _ (hp (u.temperatureToSi, d.temperature) (by simp)) hT
  have l12 := l1.mul l2
  have l123 := l12.mul l3
  have l := l123.mul l4
  have r12 := r1.fmul r2 l1.pos l2.pos (by omega) (l12.weaken (by norm_num))
  have r123 := r12.fmul r3 l12.pos l3.pos (by omega) (l123.weaken (by norm_num))
  have r := r123.fmul r4 l123.pos l4.pos (by omega) (l.weaken (by norm_num))
  have e := r.error (by omega) l.pos
  have c : (((k + 1 + (k + 1) + 1 + (k + 1) + 1 + (k + 1) + 1 : ℕ) : ℝ) + 1) = 4 * k + 8 := by
    push_cast
    ring
  rw [c] at e
  exact e

/-- **C143** (other base units): values which were written by a program with other base units keep their physical
values up to three rounding errors. -/
theorem converted_values_accurate_f64 (powi : ℚ → ℤ → ℚ) (u v : BaseUnitsF) (d : Units.Dimension) (hh : d.h = 0) (ha : d.a = 0)
    (hu : 1 / 2 ^ 300 ≤ baseFactorF powi u d) (hu' : baseFactorF powi u d ≤ 2 ^ 300)
    (hv : 1 / 2 ^ 300 ≤ baseFactorF powi v d) (hv' : baseFactorF powi v d ≤ 2 ^ 300) (values : List ℚ)
    (hx : ∀ x ∈ values, x = 0 ∨ 1 / 2 ^ 300 ≤ |x|) :
    ∃ l, readDatasetF powi v d (writeDatasetF powi u d values) = some l ∧
      List.Forall₂ (fun x y : ℚ => |y * baseFactorF powi v d - x * baseFactorF powi u d| ≤
        3 / 2 ^ 53 * |x * baseFactorF powi u d|) values l := by
  obtain ⟨a, hae⟩ : ∃ a, a = baseFactorF powi u d := ⟨_, rfl⟩
  obtain ⟨b, hbe⟩ : ∃ b, b = baseFactorF powi v d := ⟨_, rfl⟩
  refine ⟨values.map fun x => x ⊠ (a ⊘ b), ?_, ?_⟩
  · unfold readDatasetF writeDatasetF
    dsimp only
    rw [if_pos (by cases d; simp_all), hae, hbe]
  rw [← hae] at hu hu' ⊢
  rw [← hbe] at hv hv' ⊢
  clear hae hbe
  have cast : ∀ {q : ℚ}, 1 / 2 ^ 300 ≤ q → LowBy 300 (q : ℝ) := by
    intro q h
    have h1 := (Rat.cast_le (K := ℝ)).2 h
    push_cast at h1
    exact h1
  have la := cast hu
  have lb := cast hv
  have ub : (b : ℝ) ≤ 2 ^ 300 := by
    have := (Rat.cast_le (K := ℝ)).2 hv'
    push_cast at this
    exact this
  have l1 := la.div lb.pos ub
  have r1 := (Rounds.refl (a : ℝ)).fdiv (Rounds.refl (b : ℝ)) la.pos lb.pos (by norm_num) (l1.weaken (by norm_num))
  have pos : ∀ x : ℚ, 1 / 2 ^ 300 ≤ x → |(x ⊠ (a ⊘ b)) * b - x * a| ≤ 3 / 2 ^ 53 * (x * a) := by
    intro x h
    have lx := cast h
    have l2 := lx.mul l1
    have r2 := (Rounds.refl (x : ℝ)).fmul r1 lx.pos l1.pos (by norm_num) (l2.weaken (by norm_num))
    have e := r2.error (by norm_num) l2.pos
    have e2 := mul_le_mul_of_nonneg_right e lb.pos.le
    rw [← abs_of_pos lb.pos, ← abs_mul, abs_of_pos lb.pos] at e2
    have k1 : (((x ⊠ (a ⊘ b) : ℚ) : ℝ) - x * (a / b)) * b = ((x ⊠ (a ⊘ b) : ℚ) : ℝ) * b - x * a := by
      have := lb.pos.ne'
      field_simp
    have k2 : ((((0 + (0 + 0 + 1) + 1 : ℕ) : ℝ) + 1) / 2 ^ 53 * (x * (a / b))) * b = 3 / 2 ^ 53 * (x * a) := by
      have := lb.pos.ne'
      push_cast
      field_simp
      ring
    rw [k1, k2] at e2
    refine (Rat.cast_le (K := ℝ)).1 ?_
    push_cast
    exact e2
  rw [List.forall₂_map_right_iff, List.forall₂_same]
  intro x hm
  rcases hx x hm with rfl | h
  · have z : (0 : ℚ) ⊠ (a ⊘ b) = 0 := by
      unfold fmul
      rw [zero_mul]
      decide +kernel
    rw [z]
    simp
  · have a0 : 0 < a := by exact_mod_cast la.pos
    rw [abs_mul x a, abs_of_pos a0]
    rcases abs_choice x with e | e
    · rw [e] at h ⊢
      exact pos x h
    · rw [e] at h ⊢
      have := pos (-x) h
      have n : (-x) ⊠ (a ⊘ b) = -(x ⊠ (a ⊘ b)) := by
        unfold fmul
        rw [neg_mul, fl_neg]
      rw [n] at this
      rw [← abs_neg]
      convert this using 2
      ring

/-! ## The hypotheses are satisfiable -/

/-- Gas at about ten thousand Kelvin with the density of the intergalactic medium. -/
example : (1 : ℚ) / 2 ^ 300 ≤ 125000000 ∧ (0 : ℚ) ≤ 1 / 2 ∧ (1 / 2 : ℚ) ≤ 1 ∧ (1 : ℚ) / 2 ^ 300 ≤ 1 / 10 ^ 26 := by decide +kernel

/-- A temperature and a molecular weight. -/
example : (1 : ℚ) / 2 ^ 200 ≤ 10000 ∧ (1 : ℚ) / 2 ^ 10 ≤ 1 / 2 ∧ (1 / 2 : ℚ) ≤ 2 ^ 10 := by decide +kernel

/-- A dimension, base units in which lengths are kiloparsecs, and values of either sign. -/
example : ∃ (powi : ℚ → ℤ → ℚ) (u : BaseUnitsF) (d : Units.Dimension) (values : List ℚ), d.h = 0 ∧ d.a = 0 ∧
    baseFactorF powi u d ≠ 1 ∧
    (∀ e ∈ [(u.lengthToSi, d.length), (u.timeToSi, d.time), (u.massToSi, d.mass), (u.temperatureToSi, d.temperature)],
      |powi e.1 e.2 - e.1 ^ e.2| ≤ (1 : ℕ) / 2 ^ 53 * |e.1 ^ e.2|) ∧ 1 / 2 ^ 300 ≤ baseFactorF powi u d ∧ baseFactorF powi u d ≤ 2 ^ 300 ∧
    (∀ x ∈ values, IsF64 x ∧ (x = 0 ∨ 1 / 2 ^ 300 ≤ |x|)) ∧ values.length = 3 ∧ (∀ n, powi 1 n = 1) :=
  ⟨fun a n => fl (a ^ n), ⟨fl (30856775814913670000 : ℚ), 1, 1, 1⟩, ⟨-2, 0, 0, 0, 0, 0⟩, [0, -3, 1 / 4],
    by decide +kernel, by decide +kernel, by decide +kernel, by decide +kernel, by decide +kernel, by decide +kernel, by decide +kernel, rfl,
    fun n => by
      dsimp only
      rw [one_zpow]
      decide +kernel⟩

end Verif.Rounding
