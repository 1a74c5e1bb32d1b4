import Verif.Chemistry.RateModel
import Mathlib.Algebra.BigOperators.Ring.List
import Mathlib.Algebra.Order.BigOperators.Group.List

/-!
# C40, C63: absorption and photon counting
-/

namespace Verif.Chemistry

theorem protonMass_pos : 0 < protonMass := by unfold protonMass; norm_num

theorem sigma_pos : 0 < sigma := by unfold sigma; norm_num

theorem boltzmann_pos : 0 < boltzmannConstant := by unfold boltzmannConstant; norm_num

/-! ## C40 -/

/-- **C40 (range).** The rate leaving a cell is zero below the threshold, and always between zero and the
incoming rate; at or above the threshold some of a positive rate always passes. -/
theorem outgoing_rate_range (h : HydrogenOnly ℝ) (size density x rate : ℝ) (hs : 0 ≤ size)
    (hd : 0 ≤ density) (hx : x ≤ 1) (hr : 0 ≤ rate) :
    0 ≤ getOutgoingRate h size density x rate ∧ getOutgoingRate h size density x rate ≤ rate ∧
    (rate < h.rateThreshold → getOutgoingRate h size density x rate = 0) ∧
    (h.rateThreshold ≤ rate → 0 < rate → 0 < getOutgoingRate h size density x rate) ∧
    (h.rateThreshold ≤ rate → 0 < rate → 0 < size → 0 < density → x < 1 →
      getOutgoingRate h size density x rate < rate) := by
  have hexp : ∀ y : ℝ, 0 ≤ y → Real.exp (-y) ≤ 1 := fun y hy => Real.exp_le_one_iff.2 (by linarith)
  have harg : 0 ≤ density / protonMass * (1.0 - x) * sigma * size := by
    have h1 : 0 ≤ density / protonMass := div_nonneg hd protonMass_pos.le
    have h2 : (0 : ℝ) ≤ 1.0 - x := by norm_num; linarith
    have h3 := sigma_pos.le
    positivity
  have hneg : -(density / protonMass * (1.0 - x)) * sigma * size
      = -(density / protonMass * (1.0 - x) * sigma * size) := by rw [neg_mul, neg_mul]
  unfold getOutgoingRate
  dsimp only
  rw [hneg]
  by_cases hc : rate < h.rateThreshold
  · rw [if_pos hc]
    exact ⟨le_refl _, hr, fun _ => rfl, fun h' => absurd hc (not_lt.2 h'),
      fun h' => absurd hc (not_lt.2 h')⟩
  · rw [if_neg hc]
    refine ⟨mul_nonneg hr (Real.exp_pos _).le, ?_, fun h' => absurd h' hc,
      fun _ hp => mul_pos hp (Real.exp_pos _), fun _ hp hs' hd' hx' => ?_⟩
    · exact mul_le_of_le_one_right hr (hexp _ harg)
    · have hpos : 0 < density / protonMass * (1.0 - x) * sigma * size := by
        have h1 : 0 < density / protonMass := div_pos hd' protonMass_pos
        have h2 : (0 : ℝ) < 1.0 - x := by norm_num; linarith
        have h3 := sigma_pos
        positivity
      exact mul_lt_of_lt_one_right hp (Real.exp_lt_one_iff.2 (by linarith))

/-- **C40 (monotonicity).** More density, a larger cell or a smaller ionised fraction never let more
photons through, and strictly fewer if the amount of neutral gas on the way is strictly larger. -/
theorem outgoing_rate_decreases (h : HydrogenOnly ℝ) (size size' density density' x x' rate : ℝ)
    (hs : 0 ≤ size) (hs' : size ≤ size') (hd : 0 ≤ density) (hd' : density ≤ density')
    (hx : x' ≤ x) (hx1 : x ≤ 1) (hr : 0 ≤ rate) :
    getOutgoingRate h size' density' x' rate ≤ getOutgoingRate h size density x rate ∧
    (h.rateThreshold ≤ rate → 0 < rate →
      density * (1 - x) * size < density' * (1 - x') * size' →
      getOutgoingRate h size' density' x' rate < getOutgoingRate h size density x rate) := by
  have hform : ∀ a b c : ℝ, -(a / protonMass * (1.0 - b)) * sigma * c
      = -(sigma / protonMass * (a * (1 - b) * c)) := by
    intro a b c
    norm_num
    ring
  have hk : 0 < sigma / protonMass := div_pos sigma_pos protonMass_pos
  have hle : density * (1 - x) * size ≤ density' * (1 - x') * size' := by
    have h1 : 0 ≤ 1 - x := by linarith
    have h2 : density * (1 - x) ≤ density' * (1 - x') :=
      mul_le_mul hd' (by linarith) h1 (by linarith)
    exact mul_le_mul h2 hs' hs (le_trans (mul_nonneg hd h1) h2)
  unfold getOutgoingRate
  dsimp only
  rw [hform, hform]
  by_cases hc : rate < h.rateThreshold
  · rw [if_pos hc, if_pos hc]
    exact ⟨le_refl _, fun h' => absurd hc (not_lt.2 h')⟩
  · rw [if_neg hc, if_neg hc]
    constructor
    · apply mul_le_mul_of_nonneg_left _ hr
      apply Real.exp_le_exp.2
      have := mul_le_mul_of_nonneg_left hle hk.le
      linarith
    · intro _ hp hlt
      apply mul_lt_mul_of_pos_left _ hp
      apply Real.exp_lt_exp.2
      have := mul_lt_mul_of_pos_left hlt hk
      linarith

/-- **C40 (composition).** Without a threshold, two consecutive cells of the same gas absorb like one cell
of their total size. -/
theorem outgoing_rate_composes (h : HydrogenOnly ℝ) (ht : h.rateThreshold ≤ 0)
    (size size' density x rate : ℝ) (hr : 0 ≤ rate) :
    getOutgoingRate h size' density x (getOutgoingRate h size density x rate)
      = getOutgoingRate h (size + size') density x rate := by
  have h1 : ¬ rate < h.rateThreshold := not_lt.2 (le_trans ht hr)
  unfold getOutgoingRate
  dsimp only
  rw [if_neg h1, if_neg h1, if_neg, mul_assoc, ← Real.exp_add]
  · congr 2
    generalize density / protonMass * (1.0 - x) = n
    ring
  · exact not_lt.2 (le_trans ht (mul_nonneg hr (Real.exp_pos _).le))

/-! ## C63 -/

/-- The photons absorbed during `timestep` in a cell with rates `rates` coming in from the directions. -/
noncomputable def absorbedPhotons (h : HydrogenOnly ℝ) (s : Solver ℝ) (rates : List ℝ) (timestep : ℝ) : ℝ :=
  timestep * (rates.map fun r =>
    r - getOutgoingRate h s.length s.density s.ionizedHydrogenFraction r).sum

/-- **C63 (every absorbed photon ionises once).** If the rates of all directions reach the threshold, the
chemistry counts exactly as many ionisations as photons which came in and did not leave. -/
theorem ionisations_equal_absorbed_photons (h : HydrogenOnly ℝ) (s : Solver ℝ) (rates : List ℝ)
    (hrate : s.rate = rates.sum) (hth : ∀ r ∈ rates, h.rateThreshold ≤ r) (timestep : ℝ) :
    s.numNewlyIonizedHydrogenAtoms timestep = absorbedPhotons h s rates timestep := by
  have hsum : (rates.map fun r =>
      r - getOutgoingRate h s.length s.density s.ionizedHydrogenFraction r).sum
      = rates.sum * (1 - Real.exp (-s.neutralHydrogenNumberDensity * sigma * s.length)) := by
    clear hrate
    induction rates with
    | nil => simp
    | cons r rates ih =>
      rw [List.map_cons, List.sum_cons, ih (fun r' hr' => hth r' (List.mem_cons_of_mem _ hr')),
        List.sum_cons]
      have : ¬ r < h.rateThreshold := not_lt.2 (hth r List.mem_cons_self)
      unfold getOutgoingRate Solver.neutralHydrogenNumberDensity Solver.hydrogenNumberDensity
      dsimp only
      rw [if_neg this]
      ring
  unfold absorbedPhotons Solver.numNewlyIonizedHydrogenAtoms
  dsimp only
  rw [hsum, hrate]
  norm_num
  ring

/-- **C63 (never more ionisations than photons).** In general the number of ionisations is between zero
and the number of photons which came in and did not leave. -/
theorem ionisations_at_most_absorbed_photons (h : HydrogenOnly ℝ) (s : Solver ℝ) (rates : List ℝ)
    (hrate : s.rate = rates.sum) (hr : ∀ r ∈ rates, 0 ≤ r) (timestep : ℝ) (ht : 0 ≤ timestep)
    (hd : 0 ≤ s.density) (hl : 0 ≤ s.length) (hx : s.ionizedHydrogenFraction ≤ 1) :
    0 ≤ s.numNewlyIonizedHydrogenAtoms timestep ∧
    s.numNewlyIonizedHydrogenAtoms timestep ≤ absorbedPhotons h s rates timestep ∧
    absorbedPhotons h s rates timestep ≤ timestep * s.rate := by
  have harg : 0 ≤ s.neutralHydrogenNumberDensity * sigma * s.length := by
    unfold Solver.neutralHydrogenNumberDensity Solver.hydrogenNumberDensity
    have h1 : 0 ≤ s.density / protonMass := div_nonneg hd protonMass_pos.le
    have h2 : (0 : ℝ) ≤ 1.0 - s.ionizedHydrogenFraction := by norm_num; linarith
    have h3 := sigma_pos.le
    positivity
  have he1 : Real.exp (-s.neutralHydrogenNumberDensity * sigma * s.length) ≤ 1 :=
    Real.exp_le_one_iff.2 (by linarith)
  have he0 := Real.exp_pos (-s.neutralHydrogenNumberDensity * sigma * s.length)
  have hsum : rates.sum * (1 - Real.exp (-s.neutralHydrogenNumberDensity * sigma * s.length))
      ≤ (rates.map fun r =>
        r - getOutgoingRate h s.length s.density s.ionizedHydrogenFraction r).sum ∧
      (rates.map fun r =>
        r - getOutgoingRate h s.length s.density s.ionizedHydrogenFraction r).sum ≤ rates.sum ∧
      0 ≤ rates.sum := by
    clear hrate
    induction rates with
    | nil => simp
    | cons r rates ih =>
      obtain ⟨h1, h2, h3⟩ := ih (fun r' hr' => hr r' (List.mem_cons_of_mem _ hr'))
      rw [List.map_cons, List.sum_cons, List.sum_cons]
      have hr0 := hr r List.mem_cons_self
      obtain ⟨g0, g1, _⟩ := outgoing_rate_range h s.length s.density s.ionizedHydrogenFraction r hl hd hx
        hr0
      have g2 : getOutgoingRate h s.length s.density s.ionizedHydrogenFraction r
          ≤ r * Real.exp (-s.neutralHydrogenNumberDensity * sigma * s.length) := by
        unfold getOutgoingRate Solver.neutralHydrogenNumberDensity Solver.hydrogenNumberDensity
        dsimp only
        split_ifs
        · exact mul_nonneg hr0 (Real.exp_pos _).le
        · exact le_refl _
      refine ⟨?_, by linarith, by linarith⟩
      rw [add_mul]
      nlinarith
  obtain ⟨h1, h2, h3⟩ := hsum
  unfold absorbedPhotons Solver.numNewlyIonizedHydrogenAtoms
  dsimp only
  rw [hrate]
  have hone : (1.0 : ℝ) = 1 := by norm_num
  rw [hone]
  refine ⟨?_, ?_, mul_le_mul_of_nonneg_left h2 ht⟩
  · exact mul_nonneg (mul_nonneg ht h3) (by linarith)
  · rw [mul_assoc]
    exact mul_le_mul_of_nonneg_left h1 ht

/-- **C63 (rates per atom and heating).** The ionisation rate per neutral atom, times atoms and time, gives
back the ionisations, and the heating, times volume and time, gives the ionisations times the excess
energy; neither rate depends on the time step. -/
theorem photo_rates_consistent (s : Solver ℝ) (timestep : ℝ) (ht : timestep ≠ 0) (hV : s.volume ≠ 0)
    (hn : s.neutralHydrogenNumberDensity ≠ 0) :
    s.photoionizationRate timestep * timestep * (s.neutralHydrogenNumberDensity * s.volume)
      = s.numNewlyIonizedHydrogenAtoms timestep ∧
    s.photoheatingRate timestep * timestep * s.volume
      = s.numNewlyIonizedHydrogenAtoms timestep * (photonAverageEnergy - rydbergConstant) ∧
    0 < photonAverageEnergy - rydbergConstant ∧
    ∀ timestep', timestep' ≠ 0 → s.photoionizationRate timestep' = s.photoionizationRate timestep ∧
      s.photoheatingRate timestep' = s.photoheatingRate timestep := by
  refine ⟨?_, ?_, ?_, ?_⟩
  · unfold Solver.photoionizationRate
    dsimp only
    field_simp
  · unfold Solver.photoheatingRate
    dsimp only
    field_simp
  · unfold photonAverageEnergy rydbergConstant electronVolt
    norm_num
  · intro t' ht'
    unfold Solver.photoionizationRate Solver.photoheatingRate Solver.numNewlyIonizedHydrogenAtoms
    dsimp only
    constructor
    · field_simp
    · field_simp

/-! ### The hypotheses are met -/

/-- A parsec of gas with 1000 atoms per cubic metre, ten percent ionised. -/
noncomputable def exampleGas : Solver ℝ :=
  ⟨1 / 10, 10000, 1.7e-24, 1e49, 3e16, 3e48, 1, none⟩

example : (0 : ℝ) ≤ 3e16 ∧ (3e16 : ℝ) ≤ 4e16 ∧ (0 : ℝ) ≤ 1.7e-24 ∧ (1.7e-24 : ℝ) ≤ 2e-24 ∧
    (1 / 10 : ℝ) ≤ 2 / 10 ∧ (2 / 10 : ℝ) ≤ 1 ∧ (0 : ℝ) ≤ 1e48 ∧
    (1.7e-24 * (1 - 2 / 10) * 3e16 : ℝ) < 2e-24 * (1 - 1 / 10) * 4e16 := by
  norm_num

example : exampleGas.rate = ([1e48, 2e48] : List ℝ).sum ∧ (∀ r ∈ ([1e48, 2e48] : List ℝ),
    (⟨1e40, 1, 1 / 10, false⟩ : HydrogenOnly ℝ).rateThreshold ≤ r) ∧
    (∀ r ∈ ([1e48, 2e48] : List ℝ), 0 ≤ r) ∧ 0 ≤ exampleGas.density ∧ 0 ≤ exampleGas.length ∧
    exampleGas.ionizedHydrogenFraction ≤ 1 ∧ exampleGas.volume ≠ 0 ∧
    exampleGas.neutralHydrogenNumberDensity ≠ 0 := by
  refine ⟨?_, ?_, ?_, ?_, ?_, ?_, ?_, ?_⟩ <;>
    norm_num [exampleGas, Solver.neutralHydrogenNumberDensity, Solver.hydrogenNumberDensity, protonMass]

end Verif.Chemistry
