import Verif.Chemistry.DerivLemmas
import Verif.Chemistry.RateProps

/-!
# C64, C65: the derivatives used by the implicit update, and its fixed points
-/

namespace Verif.Chemistry

/-- The state with another temperature. -/
def Solver.withTemperature (s : Solver ℝ) (T : ℝ) : Solver ℝ := { s with temperature := T }

theorem collision_fit_derivative (s : Solver ℝ) (ht : 0 < s.temperature) :
    HasDerivAt (fun T => (s.withTemperature T).collisionFitFunction) s.collisionFitFunctionDerivative
      s.temperature := by
  have h := hasDerivAt_collision (1 / 1e5) 157809.1 s.temperature (by norm_num) ht
  have e : (fun T => (s.withTemperature T).collisionFitFunction)
      = fun T => √T / (1 + √(1 / 1e5 * T)) * Real.exp (-157809.1 / T) := by
    funext T
    unfold Solver.collisionFitFunction Solver.withTemperature
    dsimp only
    rw [show T / 1e5 = 1 / 1e5 * T by rw [div_mul_eq_mul_div, one_mul], show (1.0 : ℝ) = 1 by norm_num]
  rw [e]
  refine h.congr_deriv ?_
  unfold Solver.collisionFitFunctionDerivative
  dsimp only
  rw [show (1.0 : ℝ) = 1 by norm_num, show (0.5 : ℝ) = 1 / 2 by norm_num, show (2.0 : ℝ) = 2 by norm_num]

theorem recombination_rate_derivative (s : Solver ℝ) (ht : 0 < s.temperature) :
    HasDerivAt (fun T => (s.withTemperature T).caseBRecombinationRate)
      s.caseBRecombinationRateDerivative s.temperature := by
  have hl : 0 < 315614.0 / s.temperature := by positivity
  have h := hasDerivAt_recombination 1.5 (1 / 2.74) 0.407 2.242 (315614.0 / s.temperature)
    (by norm_num) hl
  have h2 := h.comp s.temperature (hasDerivAt_div_id 315614.0 s.temperature ht.ne')
  have h3 := (h2.const_mul 2.753e-14).mul_const cm3PerS
  have e : (fun T => (s.withTemperature T).caseBRecombinationRate) = fun T =>
      2.753e-14 * ((fun x : ℝ => x ^ (1.5 : ℝ) / (1 + (1 / 2.74 * x) ^ (0.407 : ℝ)) ^ (2.242 : ℝ)) ∘
        fun T => 315614.0 / T) T * cm3PerS := by
    funext T
    unfold Solver.caseBRecombinationRate Solver.withTemperature
    dsimp only [Function.comp]
    rw [show (1.0 : ℝ) = 1 by norm_num, show 315614.0 / T / 2.74 = 1 / 2.74 * (315614.0 / T) by
      rw [div_mul_eq_mul_div, one_mul], mul_div_assoc]
  rw [e]
  refine h3.congr_deriv ?_
  unfold Solver.caseBRecombinationRateDerivative
  dsimp only
  rw [show (1.5 : ℝ) - 1 = 1 / 2 by norm_num, ← Real.sqrt_eq_rpow, show (1.0 : ℝ) = 1 by norm_num]
  generalize √(315614.0 / s.temperature) = r
  generalize (1 / 2.74 * (315614.0 / s.temperature)) ^ (0.407 : ℝ) = u
  generalize (u + 1) ^ (-2.242 - 1 : ℝ) = w
  generalize -315614.0 / s.temperature ^ 2 = d
  norm_num
  ring

theorem recombination_cooling_derivative (s : Solver ℝ) (ht : 0 < s.temperature) :
    HasDerivAt (fun T => (s.withTemperature T).caseBRecombinationCoolingRate)
      s.caseBRecombinationCoolingRateDerivative s.temperature := by
  have hl : 0 < 315614.0 / s.temperature := by positivity
  have h := hasDerivAt_recombination 1.97 (1 / 2.25) 0.376 3.72 (315614.0 / s.temperature)
    (by norm_num) hl
  have h2 := h.comp s.temperature (hasDerivAt_div_id 315614.0 s.temperature ht.ne')
  have h3 := (((hasDerivAt_id s.temperature).mul h2).const_mul 3.435e-30).mul_const ergCm3PerS
  have e : (fun T => (s.withTemperature T).caseBRecombinationCoolingRate) = fun T =>
      3.435e-30 * ((id : ℝ → ℝ) * ((fun x : ℝ => x ^ (1.97 : ℝ) / (1 + (1 / 2.25 * x) ^ (0.376 : ℝ)) ^ (3.72 : ℝ)) ∘
        fun T => 315614.0 / T)) T * ergCm3PerS := by
    funext T
    unfold Solver.caseBRecombinationCoolingRate Solver.withTemperature
    dsimp only [Function.comp, Pi.mul_apply, id]
    rw [show (1.0 : ℝ) = 1 by norm_num, show 315614.0 / T / 2.25 = 1 / 2.25 * (315614.0 / T) by
      rw [div_mul_eq_mul_div, one_mul], mul_div_assoc, mul_assoc (3.435e-30)]
  rw [e]
  refine h3.congr_deriv ?_
  have harg : 315614.0 / (2.25 * s.temperature) = 1 / 2.25 * (315614.0 / s.temperature) := by
    rw [div_mul_div_comm, one_mul]
  have hu : 0 < (1 / 2.25 * (315614.0 / s.temperature)) ^ (0.376 : ℝ) :=
    Real.rpow_pos_of_pos (by positivity) _
  have hl1 : (315614.0 / s.temperature) ^ (1.97 : ℝ)
      = (315614.0 / s.temperature) ^ (1.97 - 1 : ℝ) * (315614.0 / s.temperature) := by
    rw [Real.rpow_sub_one hl.ne']
    field_simp
  have hdiv : ∀ u : ℝ, 0 < u → ∀ y : ℝ, y / (1 + u) ^ (3.72 : ℝ)
      = y * ((u + 1) * (u + 1) ^ (-3.72 - 1 : ℝ)) := by
    intro u hu y
    rw [Real.rpow_sub_one (by positivity), Real.rpow_neg (by positivity), add_comm 1 u]
    field_simp
  unfold Solver.caseBRecombinationCoolingRateDerivative
  dsimp only [Function.comp, Pi.mul_apply, id]
  rw [harg, hdiv _ hu, show (1.0 : ℝ) = 1 by norm_num]
  generalize (1 / 2.25 * (315614.0 / s.temperature)) ^ (0.376 : ℝ) = u at *
  rw [show (-1 - 3.72 : ℝ) = -3.72 - 1 by norm_num, add_comm 1 u]
  generalize (u + 1) ^ (-3.72 - 1 : ℝ) = w
  rw [hl1]
  generalize (315614.0 / s.temperature) ^ (1.97 - 1 : ℝ) = L
  have ht' := ht.ne'
  congr 1
  norm_num
  field_simp
  ring

theorem excitation_cooling_derivative (s : Solver ℝ) (ht : 0 < s.temperature) :
    HasDerivAt (fun T => (s.withTemperature T).collisionalExcitationCoolingRate)
      s.collisionalExcitationCoolingRateDerivative s.temperature := by
  have h := (hasDerivAt_excitation (1 / 1e5) 118348.0 7.5e-19 s.temperature (by norm_num) ht).mul_const
    ergCm3PerS
  have e : (fun T => (s.withTemperature T).collisionalExcitationCoolingRate)
      = fun T => 7.5e-19 / (1 + √(1 / 1e5 * T)) * Real.exp (-118348.0 / T) * ergCm3PerS := by
    funext T
    unfold Solver.collisionalExcitationCoolingRate Solver.withTemperature
    dsimp only
    rw [show T / 1e5 = 1 / 1e5 * T by rw [div_mul_eq_mul_div, one_mul], show (1.0 : ℝ) = 1 by norm_num]
  rw [e]
  refine h.congr_deriv ?_
  unfold Solver.collisionalExcitationCoolingRateDerivative
  dsimp only
  rw [show (1.0 : ℝ) = 1 by norm_num, show (0.5 : ℝ) = 1 / 2 by norm_num]

theorem bremsstrahlung_cooling_derivative (s : Solver ℝ) (ht : 0 < s.temperature) :
    HasDerivAt (fun T => (s.withTemperature T).bremsstrahlungCoolingRate)
      s.bremsstrahlungCoolingRateDerivative s.temperature := by
  have h := ((Real.hasDerivAt_sqrt ht.ne').const_mul 1.42e-27).mul_const ergCm3PerS
  refine h.congr_deriv ?_
  unfold Solver.bremsstrahlungCoolingRateDerivative
  rw [show (2.0 : ℝ) = 2 by norm_num, mul_one_div]

theorem compton_cooling_derivative (s : Solver ℝ) :
    HasDerivAt (fun T => (s.withTemperature T).comptonCoolingRate)
      s.comptonCoolingRateDerivative s.temperature := by
  have h := (((hasDerivAt_id s.temperature).sub_const (2.727 / s.scaleFactor)).const_mul
    (1.017e-37 * (2.727 / s.scaleFactor) ^ 4)).mul_const ergPerS
  refine h.congr_deriv ?_
  unfold Solver.comptonCoolingRateDerivative
  dsimp only
  rw [mul_one]

/-- **C64 (derivatives of the fits).** Each hand-written derivative is the derivative of its fit at every
positive temperature. -/
theorem rate_derivatives_correct (s : Solver ℝ) (ht : 0 < s.temperature) :
    HasDerivAt (fun T => (s.withTemperature T).caseBRecombinationRate)
      s.caseBRecombinationRateDerivative s.temperature ∧
    HasDerivAt (fun T => (s.withTemperature T).caseBRecombinationCoolingRate)
      s.caseBRecombinationCoolingRateDerivative s.temperature ∧
    HasDerivAt (fun T => (s.withTemperature T).collisionalIonizationRate)
      s.collisionalIonizationRateDerivative s.temperature ∧
    HasDerivAt (fun T => (s.withTemperature T).collisionalIonizationCoolingRate)
      s.collisionalIonizationCoolingRateDerivative s.temperature ∧
    HasDerivAt (fun T => (s.withTemperature T).collisionalExcitationCoolingRate)
      s.collisionalExcitationCoolingRateDerivative s.temperature ∧
    HasDerivAt (fun T => (s.withTemperature T).bremsstrahlungCoolingRate)
      s.bremsstrahlungCoolingRateDerivative s.temperature ∧
    HasDerivAt (fun T => (s.withTemperature T).comptonCoolingRate)
      s.comptonCoolingRateDerivative s.temperature :=
  ⟨recombination_rate_derivative s ht, recombination_cooling_derivative s ht,
    ((collision_fit_derivative s ht).const_mul 5.85e-11).mul_const cm3PerS,
    ((collision_fit_derivative s ht).const_mul 1.27e-21).mul_const ergCm3PerS,
    excitation_cooling_derivative s ht, bremsstrahlung_cooling_derivative s ht,
    compton_cooling_derivative s⟩

/-- **C64 (derivative of the cooling rate).** `cooling_rate_derivative` is the derivative of
`cooling_rate` with respect to the temperature, at fixed densities. -/
theorem cooling_rate_derivative_correct (s : Solver ℝ) (ht : 0 < s.temperature) :
    HasDerivAt (fun T => (s.withTemperature T).coolingRate) s.coolingRateDerivative s.temperature := by
  obtain ⟨_, h2, _, h4, h5, h6, h7⟩ := rate_derivatives_correct s ht
  exact (((((h5.add h4).mul_const s.electronNumberDensity).mul_const s.neutralHydrogenNumberDensity).add
    ((h2.mul_const s.electronNumberDensity).mul_const s.ionizedHydrogenNumberDensity)).add
    ((h6.mul_const s.electronNumberDensity).mul_const s.ionizedHydrogenNumberDensity)).add
    (h7.mul_const s.electronNumberDensity)

/-! ## C65 -/

/-- The net ionisation rate as a function of the ionised fraction, at fixed internal energy (temperature
proportional to the mean molecular weight `1 / (1 + x)`) and fixed photoionisation rate `G`. -/
noncomputable def netIonisation (s : Solver ℝ) (G x : ℝ) : ℝ :=
  let T := s.temperature * (1 + s.ionizedHydrogenFraction) / (1 + x)
  let n := s.density / protonMass
  ((s.withTemperature T).collisionalIonizationRate * (n * x) + G) * (1 - x)
    - (s.withTemperature T).caseBRecombinationRate * (n * x) * x

/-- **C65 (Jacobian).** The number `j` in the implicit update is the derivative of the net ionisation rate
with respect to the ionised fraction, at fixed internal energy and photoionisation rate. -/
theorem jacobian_is_derivative (s : Solver ℝ) (timestep : ℝ) (ht : 0 < s.temperature)
    (hx : 0 ≤ s.ionizedHydrogenFraction) :
    HasDerivAt (netIonisation s (s.photoionizationRate timestep)) (s.jacobian timestep)
      s.ionizedHydrogenFraction := by
  obtain ⟨h1, _, h3, _⟩ := rate_derivatives_correct s ht
  set x := s.ionizedHydrogenFraction with hxdef
  have hx1 : (1 + x) ≠ 0 := by positivity
  have hT0 : s.temperature * (1 + x) / (1 + x) = s.temperature := by field_simp
  have hT : HasDerivAt (fun y => s.temperature * (1 + x) / (1 + y)) (-(s.temperature * s.mu)) x := by
    have := (hasDerivAt_const x (s.temperature * (1 + x))).div ((hasDerivAt_id x).const_add 1) hx1
    refine this.congr_deriv ?_
    unfold Solver.mu
    rw [show (1.0 : ℝ) = 1 by norm_num, ← hxdef]
    simp only [id]
    rw [add_comm x 1]
    field_simp
    ring
  rw [← hT0] at h1 h3
  have hb := h3.comp x hT
  have ha := h1.comp x hT
  have hn : HasDerivAt (fun y => s.density / protonMass * y) (s.density / protonMass) x := by
    simpa using (hasDerivAt_id x).const_mul (s.density / protonMass)
  have hone : HasDerivAt (fun y : ℝ => 1 - y) (-1) x := by
    simpa using (hasDerivAt_id x).const_sub 1
  have h := (((hb.mul hn).add_const (s.photoionizationRate timestep)).mul hone).sub
    ((ha.mul hn).mul (hasDerivAt_id x))
  refine h.congr_deriv ?_
  have hsame : s.withTemperature s.temperature = s := rfl
  dsimp only [Function.comp, Pi.mul_apply, id]
  rw [hT0, hsame]
  unfold Solver.jacobian Solver.ionizationCoefficient Solver.recombinationCoefficient
    Solver.electronNumberDensity Solver.ionizedHydrogenNumberDensity Solver.hydrogenNumberDensity
    hydrogenMassFraction
  dsimp only
  rw [← hxdef, show (1.0 : ℝ) = 1 by norm_num]
  ring

/-- **C65 (fixed points and direction).** Where the change of the ionised fraction is finite and
`1 - j dt > 0`, its sign is that of ionisations minus recombinations; in particular exactly the equilibrium
states do not change. -/
theorem fraction_change_direction (s : Solver ℝ) (timestep : ℝ) (ht : 0 < timestep) (dx : ℝ)
    (h : s.ionizedFractionChange timestep = some dx) (hj : s.jacobian timestep * timestep < 1) :
    (dx = 0 ↔ s.ionizationCoefficient timestep * (1 - s.ionizedHydrogenFraction)
      = s.recombinationCoefficient * s.ionizedHydrogenFraction) ∧
    (0 < dx ↔ s.recombinationCoefficient * s.ionizedHydrogenFraction
      < s.ionizationCoefficient timestep * (1 - s.ionizedHydrogenFraction)) := by
  unfold Solver.ionizedFractionChange at h
  split_ifs at h with hc
  dsimp only at h
  rw [Option.some.injEq] at h
  rw [show (1.0 : ℝ) = 1 by norm_num] at h
  have hden : 0 < 1 - s.jacobian timestep * timestep := by linarith
  set c := s.ionizationCoefficient timestep
  set d := s.recombinationCoefficient
  set x := s.ionizedHydrogenFraction
  have hfac : dx = timestep / (1 - s.jacobian timestep * timestep) * (c * (1 - x) - d * x) := by
    rw [← h]
    field_simp
    ring
  have hk : 0 < timestep / (1 - s.jacobian timestep * timestep) := div_pos ht hden
  rw [hfac]
  constructor
  · rw [mul_eq_zero]
    constructor
    · rintro (h' | h')
      · exact absurd h' hk.ne'
      · linarith
    · intro h'
      right
      linarith
  · rw [mul_pos_iff_of_pos_left hk]
    constructor <;> intro h' <;> linarith

/-- **C65 (temperature).** Where the change of the temperature is finite and its denominator is positive, its
sign is that of heating minus cooling (for positive density). -/
theorem temperature_change_direction (s : Solver ℝ) (timestep : ℝ) (ht : 0 < timestep) (dT : ℝ)
    (hd : 0 < s.density) (hx : -1 < s.ionizedHydrogenFraction)
    (h : s.temperatureChange timestep = some dT) (hj : 0 < s.temperatureDenominator timestep) :
    (dT = 0 ↔ s.photoheatingRate timestep = s.coolingRate) ∧
    (0 < dT ↔ s.coolingRate < s.photoheatingRate timestep) := by
  unfold Solver.temperatureChange at h
  split_ifs at h with hc
  dsimp only at h
  rw [Option.some.injEq] at h
  have hk : 0 < s.heatCapacityFactor := by
    unfold Solver.heatCapacityFactor gamma
    have h1 := protonMass_pos
    have h2 := boltzmann_pos
    have h3 : (0 : ℝ) < 5.0 / 3.0 - 1.0 := by norm_num
    positivity
  have hmu : 0 < s.mu := by
    unfold Solver.mu
    have : (0 : ℝ) < s.ionizedHydrogenFraction + 1.0 := by norm_num; linarith
    positivity
  have hfac : dT = s.heatCapacityFactor * s.mu * timestep / s.temperatureDenominator timestep
      * (s.photoheatingRate timestep - s.coolingRate) := by
    rw [← h]
    field_simp
  have hpos : 0 < s.heatCapacityFactor * s.mu * timestep / s.temperatureDenominator timestep := by
    positivity
  rw [hfac]
  constructor
  · rw [mul_eq_zero]
    constructor
    · rintro (h' | h')
      · exact absurd h' hpos.ne'
      · linarith
    · intro h'
      right
      linarith
  · rw [mul_pos_iff_of_pos_left hpos]
    constructor <;> intro h' <;> linarith

/-- **C65 (implicit steps).** A finite temperature change `dT` solves the linearised implicit equation: it is the
energy gain over the time step with the cooling at the new temperature, extrapolated with the derivative of the
cooling rate.  `k` is the temperature per internal energy density. -/
theorem temperature_change_implicit (s : Solver ℝ) (timestep dT : ℝ)
    (h : s.temperatureChange timestep = some dT) :
    HasDerivAt (fun T => (s.withTemperature T).coolingRate) (deriv (fun T =>
      (s.withTemperature T).coolingRate) s.temperature) s.temperature ∧
    dT = s.mu * protonMass * (gamma - 1) / (s.density * boltzmannConstant) * timestep *
      (s.photoheatingRate timestep - (s.coolingRate + deriv (fun T =>
        (s.withTemperature T).coolingRate) s.temperature * dT)) := by
  unfold Solver.temperatureChange at h
  split_ifs at h with hc
  push Not at hc
  dsimp only at h
  rw [Option.some.injEq] at h
  have hd := cooling_rate_derivative_correct s hc.2.2.2.1
  rw [hd.deriv]
  refine ⟨hd, ?_⟩
  have hden := hc.2.2.2.2.2.2
  rw [div_eq_iff hden] at h
  unfold Solver.temperatureDenominator at h
  have hk : s.mu * protonMass * (gamma - 1) / (s.density * boltzmannConstant)
      = s.heatCapacityFactor * s.mu := by
    unfold Solver.heatCapacityFactor
    rw [show (1.0 : ℝ) = 1 by norm_num]
    ring
  rw [hk]
  rw [show (1.0 : ℝ) = 1 by norm_num] at h
  linear_combination -h

/-- **C65 (implicit steps).** A finite change of the ionised fraction solves the linearised implicit equation
with the derivative of the net ionisation rate. -/
theorem fraction_change_implicit (s : Solver ℝ) (timestep dx : ℝ)
    (hx : 0 ≤ s.ionizedHydrogenFraction)
    (h : s.ionizedFractionChange timestep = some dx) :
    dx = timestep * (netIonisation s (s.photoionizationRate timestep) s.ionizedHydrogenFraction
      + deriv (netIonisation s (s.photoionizationRate timestep)) s.ionizedHydrogenFraction * dx) := by
  unfold Solver.ionizedFractionChange at h
  split_ifs at h with hc
  push Not at hc
  dsimp only at h
  rw [Option.some.injEq] at h
  have hd := jacobian_is_derivative s timestep hc.2.2.2.1 hx
  rw [hd.deriv]
  have hden := hc.2.2.2.2.2.2
  rw [div_eq_iff hden] at h
  have hx1 : (1 + s.ionizedHydrogenFraction) ≠ 0 := by positivity
  have hT0 : s.temperature * (1 + s.ionizedHydrogenFraction) / (1 + s.ionizedHydrogenFraction)
    = s.temperature := by field_simp
  have hN : netIonisation s (s.photoionizationRate timestep) s.ionizedHydrogenFraction
      = s.ionizationCoefficient timestep * (1 - s.ionizedHydrogenFraction)
        - s.recombinationCoefficient * s.ionizedHydrogenFraction := by
    unfold netIonisation
    dsimp only
    rw [hT0]
    rfl
  rw [hN]
  rw [show (1.0 : ℝ) = 1 by norm_num] at h
  linear_combination -h

/-! ### The hypotheses are met -/

example : 0 < exampleGas.temperature ∧ 0 ≤ exampleGas.ionizedHydrogenFraction ∧ 0 < exampleGas.density ∧
    -1 < exampleGas.ionizedHydrogenFraction := by
  norm_num [exampleGas]

theorem exists_small (J : ℝ) : ∃ t : ℝ, 0 < t ∧ J * t < 1 ∧ -1 < J * t := by
  have hpos : 0 < |J| + 1 := by positivity
  have h2 : |J| * (1 / (|J| + 1)) < 1 := by
    rw [mul_one_div, div_lt_one hpos]
    linarith
  have ha : |J * (1 / (|J| + 1))| < 1 := by
    rw [abs_mul, abs_of_pos (show 0 < 1 / (|J| + 1) by positivity)]
    exact h2
  exact ⟨1 / (|J| + 1), by positivity, (abs_lt.1 ha).2, (abs_lt.1 ha).1⟩

/-- The hypotheses of `fraction_change_direction` hold for short time steps. -/
example : ∃ timestep dx, 0 < timestep ∧ exampleGas.ionizedFractionChange timestep = some dx ∧
    exampleGas.jacobian timestep * timestep < 1 := by
  obtain ⟨t, ht, hlt, _⟩ := exists_small (exampleGas.jacobian 1)
  have hn : exampleGas.neutralHydrogenNumberDensity ≠ 0 := by
    norm_num [exampleGas, Solver.neutralHydrogenNumberDensity, Solver.hydrogenNumberDensity, protonMass]
  have hV : exampleGas.volume ≠ 0 := by norm_num [exampleGas]
  have hJ : exampleGas.jacobian t = exampleGas.jacobian 1 := by
    unfold Solver.jacobian Solver.ionizationCoefficient
    rw [((photo_rates_consistent exampleGas 1 one_ne_zero hV hn).2.2.2 t ht.ne').1]
  rw [← hJ] at hlt
  suffices h : ∃ dx, exampleGas.ionizedFractionChange t = some dx by
    obtain ⟨dx, h⟩ := h
    exact ⟨t, dx, ht, h, hlt⟩
  unfold Solver.ionizedFractionChange
  rw [if_neg]
  · exact ⟨_, rfl⟩
  rintro (h | h | h | h | h | h | h)
  · norm_num [exampleGas] at h
  · exact hV h
  · exact ht.ne' h
  · norm_num [exampleGas] at h
  · norm_num [exampleGas] at h
  · norm_num [exampleGas] at h
  · rw [show (1.0 : ℝ) = 1 by norm_num] at h
    linarith

/-- The hypotheses of `temperature_change_direction` hold for short time steps. -/
example : ∃ timestep dT, 0 < timestep ∧ exampleGas.temperatureChange timestep = some dT ∧
    0 < exampleGas.temperatureDenominator timestep := by
  obtain ⟨t, ht, hlt, _⟩ := exists_small
    (exampleGas.heatCapacityFactor * exampleGas.mu * -exampleGas.coolingRateDerivative)
  have hpos : 0 < exampleGas.temperatureDenominator t := by
    unfold Solver.temperatureDenominator
    rw [show (1.0 : ℝ) = 1 by norm_num]
    linarith
  suffices h : ∃ dT, exampleGas.temperatureChange t = some dT by
    obtain ⟨dT, h⟩ := h
    exact ⟨t, dT, ht, h, hpos⟩
  unfold Solver.temperatureChange
  rw [if_neg]
  · exact ⟨_, rfl⟩
  rintro (h | h | h | h | h | h | h)
  · norm_num [exampleGas] at h
  · norm_num [exampleGas] at h
  · exact ht.ne' h
  · norm_num [exampleGas] at h
  · norm_num [exampleGas] at h
  · norm_num [exampleGas] at h
  · exact hpos.ne' h

end Verif.Chemistry
