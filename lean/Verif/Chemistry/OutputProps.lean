import Verif.Chemistry.OutputModel
import Verif.Chemistry.RateProps
import Verif.Chemistry.DerivProps
import Verif.Units.Props
import Mathlib.Topology.Algebra.Order.Field

/-!
# Theorems about the optional output of the chemistry
-/

namespace Verif.Chemistry

open Filter Topology

/-- A state for which all rates are finite. -/
structure Finite (s : Solver ℝ) : Prop where
  density : 0 < s.density
  volume : 0 < s.volume
  temperature : 0 < s.temperature
  fraction : 0 ≤ s.ionizedHydrogenFraction
  fraction' : s.ionizedHydrogenFraction < 1
  scaleFactor : s.scaleFactor ≠ 0

theorem Finite.neutral {s : Solver ℝ} (h : Finite s) : 0 < s.neutralHydrogenNumberDensity := by
  unfold Solver.neutralHydrogenNumberDensity Solver.hydrogenNumberDensity
  have h1 : 0 < s.density / protonMass := div_pos h.density protonMass_pos
  have h2 : (0 : ℝ) < 1.0 - s.ionizedHydrogenFraction := by have := h.fraction'; norm_num; linarith
  positivity

theorem outputTimestep_pos : 0 < outputTimestep := by unfold outputTimestep; norm_num

theorem same_rates {s : Solver ℝ} (h : Finite s) (dt : ℝ) (hdt : dt ≠ 0) :
    s.photoionizationRate dt = outputPhotoionizationRate s ∧
    s.photoheatingRate dt - s.coolingRate = outputHeatingRate s := by
  obtain ⟨_, _, _, h4⟩ := photo_rates_consistent s outputTimestep outputTimestep_pos.ne' h.volume.ne' h.neutral.ne'
  obtain ⟨h5, h6⟩ := h4 dt hdt
  exact ⟨h5, by rw [h6]; rfl⟩

theorem tendsto_implicit (a J : ℝ) : Tendsto (fun dt : ℝ => dt * a / (1 - J * dt) / dt) (𝓝[>] 0) (𝓝 a) := by
  have h1 : Tendsto (fun dt : ℝ => a / (1 - J * dt)) (𝓝[>] 0) (𝓝 a) := by
    have h : ContinuousAt (fun dt : ℝ => a / (1 - J * dt)) 0 := by
      apply ContinuousAt.div continuousAt_const (by fun_prop)
      simp
    have := h.tendsto.mono_left (nhdsWithin_le_nhds (s := Set.Ioi (0 : ℝ)))
    simpa using this
  refine h1.congr' ?_
  filter_upwards [self_mem_nhdsWithin] with dt hdt
  have hdt : dt ≠ 0 := (Set.mem_Ioi.1 hdt).ne'
  field_simp

theorem eventually_denominator (J : ℝ) : ∀ᶠ dt : ℝ in 𝓝[>] 0, 1 - J * dt ≠ 0 := by
  have h : ContinuousAt (fun dt : ℝ => 1 - J * dt) 0 := by fun_prop
  have h0 : (1 - J * (0 : ℝ)) ≠ 0 := by simp
  exact (h.eventually_ne h0).filter_mono nhdsWithin_le_nhds

/-! ## C107 -/

/-- **C107 (photons).** The solver which is used for the output, like that of the update, sees all photons: what came in from
all directions, the photons of the periodic boundaries and the whole source of the cell. -/
theorem output_photons (s : SiteState) (numDirections : ℕ) (scaleFactor : ℝ) (hn : 0 < numDirections)
    (hi : s.incoming.length = numDirections) (hp : s.periodicSource.length = numDirections) :
    (getSolver s numDirections scaleFactor).rate = s.incoming.sum + s.periodicSource.sum + s.source := by
  have key : ∀ l : List ℝ, ((List.range l.length).map fun d => l.getD d 0).sum = l.sum := by
    intro l
    congr 1
    apply List.ext_getElem
    · simp
    · intro i h1 h2
      simp [List.getD_eq_getElem?_getD, List.getElem?_eq_getElem h2]
  have hsrc : ((List.range numDirections).map fun _ => s.sourcePerDirectionBin numDirections).sum = s.source := by
    have : (numDirections : ℝ) ≠ 0 := by exact_mod_cast hn.ne'
    simp only [List.map_const', List.length_range, List.sum_replicate, nsmul_eq_mul, SiteState.sourcePerDirectionBin]
    field_simp
  show s.totalRate numDirections = _
  have split : s.totalRate numDirections = ((List.range numDirections).map fun d => s.incoming.getD d 0).sum +
      ((List.range numDirections).map fun _ => s.sourcePerDirectionBin numDirections).sum +
      ((List.range numDirections).map fun d => s.periodicSource.getD d 0).sum := by
    rw [← List.sum_map_add, ← List.sum_map_add]
    rfl
  have k1 := key s.incoming
  have k2 := key s.periodicSource
  rw [hi] at k1
  rw [hp] at k2
  rw [split, hsrc, k1, k2]
  ring

/-- **C107 (solver).** The solver which is used for the output is the one with which the next update of the chemistry of the cell
starts, if the photons stay the same (and cooling is not prevented). -/
theorem output_solver (temperatureChange ionizedFractionChange : Change ℝ) (h : HydrogenOnly ℝ) (hc : h.preventCooling = false)
    (s : SiteState) (numDirections : ℕ) (hn : 0 < numDirections)
    (hi : s.incoming.length = numDirections) (hp : s.periodicSource.length = numDirections) (timestep : ℝ) :
    updateAbundances temperatureChange ionizedFractionChange h s.species s.density
        (s.incoming.sum + s.periodicSource.sum + s.source) timestep s.volume s.size =
      (performTimestep temperatureChange ionizedFractionChange (getSolver s numDirections h.scaleFactor) timestep
        h.timestepSafetyFactor).map fun r => (⟨r.1.ionizedHydrogenFraction, r.1.temperature, r.2.time⟩, r.2) := by
  rw [← output_photons s numDirections h.scaleFactor hn hi hp]
  unfold updateAbundances
  simp only [hc, Bool.false_eq_true, if_false]
  show (performTimestep temperatureChange ionizedFractionChange (getSolver s numDirections h.scaleFactor) timestep
    h.timestepSafetyFactor >>= _) = _
  cases performTimestep temperatureChange ionizedFractionChange (getSolver s numDirections h.scaleFactor) timestep
    h.timestepSafetyFactor <;> rfl

/-- **C107 (photoionization).** The photoionization rate times the number of neutral atoms of the cell is the number of photons
which are absorbed per second; it does not depend on the year for which it is computed. -/
theorem output_photoionization (s : Solver ℝ) (h : Finite s) :
    outputPhotoionizationRate s * (s.density / protonMass * (1 - s.ionizedHydrogenFraction) * s.volume) =
      s.rate * (1 - Real.exp (-(s.density / protonMass * (1 - s.ionizedHydrogenFraction)) * sigma * s.length)) ∧
    ∀ dt, dt ≠ 0 → s.photoionizationRate dt = outputPhotoionizationRate s := by
  refine ⟨?_, fun dt hdt => (same_rates h dt hdt).1⟩
  obtain ⟨h1, _⟩ := photo_rates_consistent s outputTimestep outputTimestep_pos.ne' h.volume.ne' h.neutral.ne'
  have hn : s.density / protonMass * (1 - s.ionizedHydrogenFraction) = s.neutralHydrogenNumberDensity := by
    unfold Solver.neutralHydrogenNumberDensity Solver.hydrogenNumberDensity
    norm_num
  have ht := outputTimestep_pos.ne'
  rw [hn]
  unfold Solver.numNewlyIonizedHydrogenAtoms at h1
  dsimp only at h1
  rw [show (1.0 : ℝ) = 1 by norm_num] at h1
  unfold outputPhotoionizationRate
  apply mul_left_cancel₀ ht
  linear_combination h1

/-- **C107 (ionized fraction).** The written rates are the terms of the equation which the solver integrates: for small time steps
the change of the ionized fraction is finite, and divided by the time step it tends to photoionization rate (per neutral atom)
times neutral fraction, plus collisional ionization rate, minus recombination rate (both per hydrogen atom). -/
theorem output_fraction_rates (s : Solver ℝ) (h : Finite s) :
    ∃ change : ℝ → ℝ, (∀ᶠ dt in 𝓝[>] 0, s.ionizedFractionChange dt = some (change dt)) ∧
      Tendsto (fun dt => change dt / dt) (𝓝[>] 0)
        (𝓝 (outputPhotoionizationRate s * (1 - s.ionizedHydrogenFraction) + outputCollisionalIonizationRate s -
          outputRecombinationRate s)) := by
  set G := outputPhotoionizationRate s * (1 - s.ionizedHydrogenFraction) + outputCollisionalIonizationRate s -
    outputRecombinationRate s with hG
  set J := s.jacobian outputTimestep with hJ
  have hsame : ∀ dt, dt ≠ 0 → s.ionizationCoefficient dt = s.ionizationCoefficient outputTimestep := by
    intro dt hdt
    unfold Solver.ionizationCoefficient
    rw [(same_rates h dt hdt).1]
    rfl
  have hjac : ∀ dt, dt ≠ 0 → s.jacobian dt = J := by
    intro dt hdt
    rw [hJ]
    unfold Solver.jacobian
    dsimp only
    rw [hsame dt hdt]
  refine ⟨fun dt => dt * G / (1 - J * dt), ?_, tendsto_implicit G J⟩
  filter_upwards [self_mem_nhdsWithin, eventually_denominator J] with dt hdt hden
  have hdt : dt ≠ 0 := (Set.mem_Ioi.1 hdt).ne'
  have hx := h.fraction
  have hx' := h.fraction'
  unfold Solver.ionizedFractionChange
  rw [hjac dt hdt, hsame dt hdt]
  dsimp only
  rw [show (1.0 : ℝ) = 1 by norm_num, if_neg]
  · congr 3
    rw [hG]
    unfold outputPhotoionizationRate outputCollisionalIonizationRate outputRecombinationRate Solver.ionizationCoefficient
      Solver.recombinationCoefficient
    rw [show (1.0 : ℝ) = 1 by norm_num]
    ring
  · have h1 := h.density.ne'
    have h2 := h.volume.ne'
    have h3 := h.temperature
    rintro (h' | h' | h' | h' | h' | h' | h')
    · exact h1 h'
    · exact h2 h'
    · exact hdt h'
    · linarith
    · linarith
    · linarith
    · exact hden h'

/-- **C107 (heating).** The written heating rate is the rate at which the thermal energy density of the cell changes by the update
of the temperature, in the limit of small time steps. -/
theorem output_heating (s : Solver ℝ) (h : Finite s) :
    ∃ change : ℝ → ℝ, (∀ᶠ dt in 𝓝[>] 0, s.temperatureChange dt = some (change dt)) ∧
      Tendsto (fun dt => (Units.energyDensityFromTemperature (s.temperature + change dt) s.ionizedHydrogenFraction s.density -
        Units.energyDensityFromTemperature s.temperature s.ionizedHydrogenFraction s.density) / dt) (𝓝[>] 0)
        (𝓝 (outputHeatingRate s)) := by
  set k := s.heatCapacityFactor * s.mu with hk
  set J := k * -s.coolingRateDerivative with hJ
  have hx := h.fraction
  have hk0 : k ≠ 0 := by
    rw [hk]
    unfold Solver.heatCapacityFactor Solver.mu gamma
    have := protonMass_pos
    have := boltzmann_pos
    have := h.density
    have h1 : (0 : ℝ) < 5.0 / 3.0 - 1.0 := by norm_num
    have h2 : (0 : ℝ) < s.ionizedHydrogenFraction + 1.0 := by norm_num; linarith
    have h3 : (0 : ℝ) < 1.0 := by norm_num
    positivity
  have henergy : ∀ T, Units.energyDensityFromTemperature T s.ionizedHydrogenFraction s.density = T / k := by
    intro T
    have hb : Units.boltzmannConstant = boltzmannConstant := rfl
    have hp : Units.protonMass = protonMass := rfl
    have hg : Units.gamma = gamma := rfl
    have hg' : gamma - 1.0 ≠ 0 := by unfold gamma; norm_num
    have := protonMass_pos.ne'
    have := boltzmann_pos.ne'
    have := h.density.ne'
    have h2 : s.ionizedHydrogenFraction + 1.0 ≠ 0 := by norm_num; linarith
    rw [hk]
    unfold Units.energyDensityFromTemperature Units.toInternalEnergy Solver.heatCapacityFactor Solver.mu
    rw [hb, hp, hg]
    generalize gamma - 1.0 = g at hg' ⊢
    dsimp only
    generalize s.ionizedHydrogenFraction + 1.0 = x at h2 ⊢
    rw [show (1.0 : ℝ) = 1 by norm_num]
    field_simp
  refine ⟨fun dt => dt * (k * outputHeatingRate s) / (1 - J * dt), ?_, ?_⟩
  · filter_upwards [self_mem_nhdsWithin, eventually_denominator J] with dt hdt hden
    have hdt : dt ≠ 0 := (Set.mem_Ioi.1 hdt).ne'
    unfold Solver.temperatureChange
    have hd : s.temperatureDenominator dt = 1 - J * dt := by
      unfold Solver.temperatureDenominator
      rw [hJ, hk, show (1.0 : ℝ) = 1 by norm_num]
    rw [hd, if_neg]
    · dsimp only
      rw [(same_rates h dt hdt).2, ← hk]
      congr 2
      ring
    · have h1 := h.density.ne'
      have h2 := h.volume.ne'
      have h3 := h.temperature
      rw [show (1.0 : ℝ) = 1 by norm_num]
      rintro (h' | h' | h' | h' | h' | h' | h')
      · exact h1 h'
      · exact h2 h'
      · exact hdt h'
      · linarith
      · exact h.scaleFactor h'
      · linarith
      · exact hden h'
  · have := (tendsto_implicit (k * outputHeatingRate s) J).div_const k
    rw [mul_div_cancel_left₀ _ hk0] at this
    refine this.congr fun dt => ?_
    rw [henergy, henergy]
    ring

/-- **C107 (signs).** Photoionization, recombination and collisional ionization rate are not negative. -/
theorem output_rates_nonneg (s : Solver ℝ) (h : Finite s) (hr : 0 ≤ s.rate) (hl : 0 ≤ s.length) :
    0 ≤ outputPhotoionizationRate s ∧ 0 ≤ outputRecombinationRate s ∧ 0 ≤ outputCollisionalIonizationRate s := by
  have hx := h.fraction
  have hx' : (0 : ℝ) ≤ 1.0 - s.ionizedHydrogenFraction := by have := h.fraction'; norm_num; linarith
  have hT := h.temperature
  have hV := h.volume
  have hn := h.neutral
  have hσ := sigma_pos
  have hdt := outputTimestep_pos
  have hne : 0 ≤ s.electronNumberDensity := by
    unfold Solver.electronNumberDensity Solver.ionizedHydrogenNumberDensity Solver.hydrogenNumberDensity
    have := div_pos h.density protonMass_pos
    positivity
  refine ⟨?_, ?_, ?_⟩
  · unfold outputPhotoionizationRate Solver.photoionizationRate Solver.numNewlyIonizedHydrogenAtoms
    dsimp only
    have he : Real.exp (-s.neutralHydrogenNumberDensity * sigma * s.length) ≤ 1 := by
      apply Real.exp_le_one_iff.2
      have : 0 ≤ s.neutralHydrogenNumberDensity * sigma * s.length := by positivity
      linarith
    have he' : (0 : ℝ) ≤ 1.0 - Real.exp (-s.neutralHydrogenNumberDensity * sigma * s.length) := by
      rw [show (1.0 : ℝ) = 1 by norm_num]; linarith
    positivity
  · unfold outputRecombinationRate Solver.caseBRecombinationRate cm3PerS
    dsimp only
    norm_num
    positivity
  · unfold outputCollisionalIonizationRate Solver.collisionalIonizationRate Solver.collisionFitFunction cm3PerS
    positivity

/-! ### The hypotheses are met -/

/-- A cell with two directions. -/
noncomputable def exampleSite : SiteState :=
  ⟨⟨1 / 10, 10000, (0 : ℝ)⟩, 1.7e-24, 1e48, [1e48, 2e48], [0, 1e47], 1e49, 3e16⟩

example : Finite (getSolver exampleSite 2 1) ∧ 0 ≤ (getSolver exampleSite 2 1).rate ∧ 0 ≤ (getSolver exampleSite 2 1).length ∧
    exampleSite.incoming.length = 2 ∧ exampleSite.periodicSource.length = 2 := by
  refine ⟨⟨?_, ?_, ?_, ?_, ?_, ?_⟩, ?_, ?_, rfl, rfl⟩
  case refine_7 =>
    rw [output_photons exampleSite 2 1 (by norm_num) rfl rfl]
    norm_num [exampleSite]
  all_goals norm_num [getSolver, exampleSite]

end Verif.Chemistry
