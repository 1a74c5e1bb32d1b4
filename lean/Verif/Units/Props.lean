import Verif.Units.Model
import Mathlib.Tactic.FieldSimp
import Mathlib.Tactic.Linarith
import Mathlib.Tactic.Positivity
import Mathlib.Tactic.NormNum

/-!
# C45: temperature and energy; C66: units of datasets
-/

namespace Verif.Units

open Verif.Cosmology

theorem boltzmann_pos : 0 < boltzmannConstant := by unfold boltzmannConstant; norm_num

theorem proton_pos : 0 < protonMass := by unfold protonMass; norm_num

theorem gamma_pos : 0 < gamma - 1.0 := by unfold gamma; norm_num

/-- **C45.** Temperature and energy per mass are mutually inverse for every non-zero molecular weight; the
energy is `3/2 k T` per particle of mass `μ m_p`. -/
theorem temperature_energy_inverse (mu : ℝ) (hmu : mu ≠ 0) (T u : ℝ) :
    toTemperature (toInternalEnergy T mu) mu = T ∧ toInternalEnergy (toTemperature u mu) mu = u ∧
    toInternalEnergy T mu * (mu * protonMass) = 3 / 2 * boltzmannConstant * T := by
  have h1 := boltzmann_pos.ne'
  have h2 := proton_pos.ne'
  refine ⟨?_, ?_, ?_⟩
  · have h3 := gamma_pos.ne'
    unfold toTemperature toInternalEnergy
    rw [show (1.0 : ℝ) = 1 by norm_num] at h3 ⊢
    field_simp
  · have h3 := gamma_pos.ne'
    unfold toTemperature toInternalEnergy
    rw [show (1.0 : ℝ) = 1 by norm_num] at h3 ⊢
    field_simp
  · have h4 : (1.0 / (gamma - 1.0) : ℝ) = 3 / 2 := by unfold gamma; norm_num
    unfold toInternalEnergy
    rw [h4]
    field_simp

/-- **C45 (energy density).** For hydrogen of every ionised fraction above `-1` and non-zero density, the two
density conversions are mutually inverse, and at fixed energy density a more ionised gas is cooler by the
ratio of the particle numbers. -/
theorem temperature_energy_density_inverse (x rho : ℝ) (hx : -1 < x) (hr : rho ≠ 0) (T e : ℝ) :
    temperatureFromEnergyDensity (energyDensityFromTemperature T x rho) x rho = T ∧
    energyDensityFromTemperature (temperatureFromEnergyDensity e x rho) x rho = e ∧
    ∀ y, -1 < y → temperatureFromEnergyDensity e y rho * (1 + y)
      = temperatureFromEnergyDensity e x rho * (1 + x) := by
  have hx1 : x + 1.0 ≠ 0 := by
    rw [show (1.0 : ℝ) = 1 by norm_num]
    linarith
  have hmu : (1.0 : ℝ) / (x + 1.0) ≠ 0 := div_ne_zero (by norm_num) hx1
  refine ⟨?_, ?_, ?_⟩
  · unfold temperatureFromEnergyDensity energyDensityFromTemperature
    dsimp only
    rw [mul_div_cancel_right₀ _ hr]
    exact (temperature_energy_inverse _ hmu T 0).1
  · unfold temperatureFromEnergyDensity energyDensityFromTemperature
    dsimp only
    rw [(temperature_energy_inverse _ hmu 0 (e / rho)).2.1, div_mul_cancel₀ _ hr]
  · intro y hy
    have hy1 : y + 1 ≠ 0 := by linarith
    unfold temperatureFromEnergyDensity toTemperature
    rw [show (1.0 : ℝ) = 1 by norm_num] at hx1 ⊢
    dsimp only
    rw [add_comm 1 x, add_comm 1 y]
    have h1 := boltzmann_pos.ne'
    field_simp

/-! ## C66 -/

/-- Base units which are not zero. -/
structure BaseUnits.Valid (u : BaseUnits) : Prop where
  length : u.lengthToSi ≠ 0
  time : u.timeToSi ≠ 0
  mass : u.massToSi ≠ 0
  temperature : u.temperatureToSi ≠ 0

/-- What a number `x` of dimension `length^l time^t mass^m temperature^θ` in base units `u` means in SI
units: every base unit in it is worth so many SI units. -/
noncomputable def toSi (u : BaseUnits) (l t m θ : ℤ) (x : ℝ) : ℝ :=
  x * (u.lengthToSi ^ l * u.timeToSi ^ t * u.massToSi ^ m * u.temperatureToSi ^ θ)

theorem factor_ne_zero (u : BaseUnits) (hu : u.Valid) (d : Dimension) : baseConversionFactor u d ≠ 0 := by
  unfold baseConversionFactor
  exact mul_ne_zero (mul_ne_zero (mul_ne_zero (zpow_ne_zero _ hu.length) (zpow_ne_zero _ hu.time))
    (zpow_ne_zero _ hu.mass)) (zpow_ne_zero _ hu.temperature)

/-- **C66 (round trip).** Data written by a program with base units `u` and read by a program with base units
`v` as a quantity without cosmological scaling are accepted exactly if all four exponents agree, and then all
values keep their meaning in SI units; with equal base units the numbers are the same. -/
theorem written_dataset_reads_back (u v : BaseUnits) (hu : u.Valid) (hv : v.Valid) (d d' : Dimension)
    (hd : d'.h = 0 ∧ d'.a = 0) (data : List ℝ) :
    (readDataset v defaultUnitReader d' (addDimensionAttrs u d) data = none ↔
      ¬ (d.length = d'.length ∧ d.time = d'.time ∧ d.mass = d'.mass ∧ d.temperature = d'.temperature)) ∧
    ∀ read, readDataset v defaultUnitReader d' (addDimensionAttrs u d) data = some read →
      read.map (toSi v d.length d.time d.mass d.temperature)
        = data.map (toSi u d.length d.time d.mass d.temperature) ∧ (u = v → read = data) := by
  have hstep : readDataset v defaultUnitReader d' (addDimensionAttrs u d) data
      = if { d with h := 0, a := 0 } = d' then some (data.map fun item =>
          item * (baseConversionFactor u d / baseConversionFactor v d')) else none := rfl
  have hiff : ({ d with h := 0, a := 0 } = d') ↔
      (d.length = d'.length ∧ d.time = d'.time ∧ d.mass = d'.mass ∧ d.temperature = d'.temperature) := by
    obtain ⟨l, t, m, θ, h, a⟩ := d
    obtain ⟨l', t', m', θ', h', a'⟩ := d'
    obtain ⟨rfl, rfl⟩ := hd
    simp
  rw [hstep]
  by_cases hc : { d with h := 0, a := 0 } = d'
  · have hc' := hiff.1 hc
    rw [if_pos hc]
    constructor
    · constructor
      · intro h
        cases h
      · intro h
        exact absurd hc' h
    · intro read hread
      cases hread
      have hb : baseConversionFactor v d' = baseConversionFactor v d := by
        unfold baseConversionFactor
        rw [hc'.1, hc'.2.1, hc'.2.2.1, hc'.2.2.2]
      rw [hb]
      have hne := factor_ne_zero v hv d
      constructor
      · rw [List.map_map]
        refine List.map_congr_left fun x _ => ?_
        dsimp only [Function.comp]
        unfold toSi
        change x * (baseConversionFactor u d / baseConversionFactor v d) * baseConversionFactor v d
          = x * baseConversionFactor u d
        field_simp
      · rintro rfl
        rw [div_self hne]
        simp
  · rw [if_neg hc]
    refine ⟨⟨fun _ h => hc (hiff.2 h), fun _ => rfl⟩, ?_⟩
    intro read hread
    cases hread

/-- **C66 (cosmological quantities cannot be read back).** Data of a type with cosmological scaling can be
written, but never read again as that type. -/
theorem cosmological_dataset_rejected (u v : BaseUnits) (d : Dimension) (hd : d.h ≠ 0 ∨ d.a ≠ 0)
    (data : List ℝ) :
    readDataset v defaultUnitReader d (addDimensionAttrs u d) data = none := by
  have hstep : readDataset v defaultUnitReader d (addDimensionAttrs u d) data
      = if { d with h := 0, a := 0 } = d then some (data.map fun item =>
          item * (baseConversionFactor u d / baseConversionFactor v d)) else none := rfl
  rw [hstep, if_neg]
  intro hc
  rcases hd with h | h
  · exact h (by rw [← hc])
  · exact h (by rw [← hc])

/-- The physical value in cgs units of a number in an Arepo dataset: times `to_cgs`, with the factors of
scale factor and little h multiplied in. -/
noncomputable def physicalCgs (s : ArepoAttributes) (a h x : ℝ) : ℝ :=
  x * s.toCgs * (a ^ s.aScaling * h ^ s.hScaling)

/-- The value in SI units of a number of a cgs unit with the given powers of centimetres and grams. -/
noncomputable def cgsToSi (centimetres grams : ℤ) (x : ℝ) : ℝ :=
  x * ((1 / 100) ^ centimetres * (1 / 1000) ^ grams)

/-- **C66 (Arepo datasets).** In a run with cosmology, a dataset with a non-zero unit is accepted exactly for
quantities with the dimension given by the exponents of length, velocity and mass, and yields the physical
value in the base units. -/
theorem arepo_dataset_physical (u : BaseUnits) (hu : u.Valid) (a h : ℝ) (ha : a ≠ 0) (hh : h ≠ 0)
    (params : Option CosmologyParams) (s : ArepoAttributes) (hs : s.toCgs ≠ 0) (d : Dimension)
    (data : List ℝ) :
    (readDataset u (arepoUnitReader (.cosmological a h params)) d s data = none ↔
      d ≠ ⟨s.lengthScaling + s.velocityScaling, -s.velocityScaling, s.massScaling, 0, 0, 0⟩) ∧
    ∀ read, readDataset u (arepoUnitReader (.cosmological a h params)) d s data = some read →
      read.map (toSi u d.length d.time d.mass d.temperature)
        = data.map fun x =>
          cgsToSi (s.lengthScaling + s.velocityScaling) s.massScaling (physicalCgs s a h x) := by
  have hs' : ¬ s.toCgs = 0.0 := by
    rw [show (0.0 : ℝ) = 0 by norm_num]
    exact hs
  have hdim : (arepoUnitReader (.cosmological a h params)).readDimension s
      = some ⟨s.lengthScaling + s.velocityScaling, -s.velocityScaling, s.massScaling, 0, 0, 0⟩ := by
    unfold arepoUnitReader
    dsimp only
    by_cases hc : isCosmological (readRawDimension s)
    · rw [if_neg (not_not.2 hc)]
      rfl
    · rw [if_pos hc]
      unfold isCosmological readRawDimension at hc
      unfold readRawDimension
      push Not at hc
      dsimp only at hc
      rw [hc.1, hc.2]
  have hfac : (arepoUnitReader (.cosmological a h params)).readScaleFactor s
      = some (a ^ s.aScaling * h ^ s.hScaling * ((1 / 100) ^ (s.lengthScaling + s.velocityScaling)
        * (1 / 1000) ^ s.massScaling) * s.toCgs) := by
    unfold arepoUnitReader cgsFactor cosmologyScaleFactor
    dsimp only
    rw [if_neg hs']
    have hcgs : ((0.01 : ℝ) ^ (readRawDimension s).length * (0.001 : ℝ) ^ (readRawDimension s).mass)
        = ((1 / 100) ^ (s.lengthScaling + s.velocityScaling) * (1 / 1000) ^ s.massScaling) := by
      unfold readRawDimension
      rw [show (0.01 : ℝ) = 1 / 100 by norm_num, show (0.001 : ℝ) = 1 / 1000 by norm_num]
    by_cases hc : isCosmological (readRawDimension s)
    · rw [if_pos hc]
      dsimp only [getFactor, Option.map_some, bind, Option.bind_some, pure]
      rw [hcgs]
      congr 3
      unfold readRawDimension
      rw [show (1.0 : ℝ) = 1 by norm_num, zpow_neg, zpow_neg, ← mul_inv, one_div, inv_inv]
    · rw [if_neg hc]
      dsimp only [bind, Option.bind_some, pure]
      rw [hcgs]
      unfold isCosmological readRawDimension at hc
      push Not at hc
      dsimp only at hc
      rw [hc.1, hc.2, zpow_zero, zpow_zero, show (1.0 : ℝ) = 1 by norm_num, one_mul, one_mul, one_mul]
  have hstep : readDataset u (arepoUnitReader (.cosmological a h params)) d s data
      = if (⟨s.lengthScaling + s.velocityScaling, -s.velocityScaling, s.massScaling, 0, 0, 0⟩ : Dimension) = d
        then some (data.map fun item => item * (a ^ s.aScaling * h ^ s.hScaling
          * ((1 / 100) ^ (s.lengthScaling + s.velocityScaling) * (1 / 1000) ^ s.massScaling) * s.toCgs
            / baseConversionFactor u d)) else none := by
    unfold readDataset
    rw [hfac, hdim]
    rfl
  rw [hstep]
  by_cases hc : (⟨s.lengthScaling + s.velocityScaling, -s.velocityScaling, s.massScaling, 0, 0, 0⟩ :
      Dimension) = d
  · rw [if_pos hc]
    refine ⟨⟨fun h => (by cases h), fun h => absurd hc.symm h⟩, ?_⟩
    intro read hread
    cases hread
    rw [List.map_map]
    refine List.map_congr_left fun x _ => ?_
    dsimp only [Function.comp]
    unfold toSi cgsToSi physicalCgs
    have hne := factor_ne_zero u hu d
    change x * (_ / baseConversionFactor u d) * baseConversionFactor u d = _
    rw [mul_assoc x, div_mul_cancel₀ _ hne]
    ring
  · rw [if_neg hc]
    refine ⟨⟨fun _ h => hc h.symm, fun _ => rfl⟩, ?_⟩
    intro read hread
    cases hread

/-- **C66 (scaling needs a cosmology).** Without cosmology, a dataset with cosmological scaling is never
read; and a dataset without unit is read as it stands if it is dimensionless and rejected otherwise. -/
theorem arepo_dataset_rejected (u : BaseUnits) (s : ArepoAttributes) (d : Dimension) (data : List ℝ) :
    ((s.aScaling ≠ 0 ∨ s.hScaling ≠ 0) →
      readDataset u (arepoUnitReader .nonCosmological) d s data = none) ∧
    ∀ c, s.toCgs = 0 → readDataset u (arepoUnitReader c) d s data =
      if s.lengthScaling = 0 ∧ s.velocityScaling = 0 ∧ s.massScaling = 0 ∧ s.aScaling = 0 ∧ s.hScaling = 0
        ∧ d = Dimension.none then some data else none := by
  constructor
  · intro hsc
    have hc : isCosmological (readRawDimension s) := hsc
    unfold readDataset arepoUnitReader cosmologyScaleFactor
    dsimp only
    rw [if_pos hc]
    rfl
  · intro c hz
    have hz' : s.toCgs = 0.0 := by rw [hz]; norm_num
    have hnone : readRawDimension s = Dimension.none ↔ (s.lengthScaling = 0 ∧ s.velocityScaling = 0 ∧
        s.massScaling = 0 ∧ s.aScaling = 0 ∧ s.hScaling = 0) := by
      unfold readRawDimension Dimension.none
      rw [Dimension.mk.injEq]
      constructor
      · rintro ⟨h1, h2, h3, _, h5, h6⟩
        refine ⟨?_, ?_, h3, h6, h5⟩ <;> omega
      · rintro ⟨h1, h2, h3, h5, h6⟩
        refine ⟨?_, ?_, h3, rfl, h6, h5⟩ <;> omega
    by_cases hn : readRawDimension s = Dimension.none
    · have hc : ¬ isCosmological (readRawDimension s) := by
        rw [hn]
        unfold isCosmological Dimension.none
        simp
      have hd : (arepoUnitReader c).readDimension s = some Dimension.none := by
        unfold arepoUnitReader
        dsimp only
        rw [if_pos hc, hn]
      have hf : (arepoUnitReader c).readScaleFactor s = some 1 := by
        unfold arepoUnitReader cgsFactor cosmologyScaleFactor
        dsimp only
        rw [if_neg hc, if_pos hz', if_pos hn, hn]
        dsimp only [bind, Option.bind_some, pure, Dimension.none]
        norm_num
      have hstep : readDataset u (arepoUnitReader c) d s data
          = if Dimension.none = d then some (data.map fun item =>
              item * (1 / baseConversionFactor u d)) else none := by
        unfold readDataset
        rw [hf, hd]
        rfl
      rw [hstep]
      by_cases hd' : Dimension.none = d
      · obtain ⟨h1, h2, h3, h4, h5⟩ := hnone.1 hn
        rw [if_pos hd', if_pos ⟨h1, h2, h3, h4, h5, hd'.symm⟩, ← hd']
        unfold baseConversionFactor Dimension.none
        simp
      · rw [if_neg hd', if_neg (fun h => hd' h.2.2.2.2.2.symm)]
    · have hf : (arepoUnitReader c).readScaleFactor s = none := by
        unfold arepoUnitReader cgsFactor
        dsimp only
        rw [if_pos hz', if_neg hn]
        cases cosmologyScaleFactor c (readRawDimension s) <;> rfl
      unfold readDataset
      rw [hf, if_neg]
      · rfl
      · intro h
        exact hn (hnone.2 ⟨h.1, h.2.1, h.2.2.1, h.2.2.2.1, h.2.2.2.2.1⟩)

/-- **C66 (comoving to physical).** Removing the cosmological scaling is compatible with products and inverses
of quantities, leaves ordinary quantities alone, and turns a comoving length (`{length: 1, a: -1}`) into the
scale factor times it and a length in `cpc/h` (`{length: 1, a: -1, h: 1}`) into the scale factor over little h
times it. -/
theorem make_non_cosmological_laws (a h : ℝ) (ha : a ≠ 0) (hh : h ≠ 0) (params : Option CosmologyParams)
    (l1 t1 m1 θ1 h1 a1 l2 t2 m2 θ2 h2 a2 : ℤ) (x y : ℝ) :
    ∃ x' y', makeNonCosmological (.cosmological a h params) ⟨l1, t1, m1, θ1, h1, a1⟩ x = some x' ∧
      makeNonCosmological (.cosmological a h params) ⟨l2, t2, m2, θ2, h2, a2⟩ y = some y' ∧
      makeNonCosmological (.cosmological a h params)
        ⟨l1 + l2, t1 + t2, m1 + m2, θ1 + θ2, h1 + h2, a1 + a2⟩ (x * y) = some (x' * y') ∧
      makeNonCosmological (.cosmological a h params) ⟨-l1, -t1, -m1, -θ1, -h1, -a1⟩ (x⁻¹) = some x'⁻¹ ∧
      (h1 = 0 → a1 = 0 → x' = x) ∧ (h1 = 0 → a1 = -1 → x' = a * x) ∧
      (h1 = 1 → a1 = -1 → x' = a / h * x) := by
  refine ⟨x * (a ^ (-a1) * h ^ (-h1)), y * (a ^ (-a2) * h ^ (-h2)), rfl, rfl, ?_, ?_, ?_, ?_, ?_⟩
  · change some (x * y * (a ^ (-(a1 + a2)) * h ^ (-(h1 + h2)))) = _
    rw [neg_add, neg_add, zpow_add₀ ha, zpow_add₀ hh]
    congr 1
    ring
  · change some (x⁻¹ * (a ^ (-(-a1)) * h ^ (-(-h1)))) = _
    rw [mul_inv, mul_inv, zpow_neg a (-a1), zpow_neg h (-h1)]
  · rintro rfl rfl
    simp
  · rintro rfl rfl
    simp [mul_comm]
  · rintro rfl rfl
    simp
    field_simp

/-! ### The hypotheses are met -/

example : BaseUnits.si.Valid := by
  constructor <;> simp [BaseUnits.si]

example : (⟨3.0857e16, 3.15576e7, 2e30, 1⟩ : BaseUnits).Valid := by
  constructor <;> norm_num

example : (⟨1.5e24, 1, 0, 0, 1, -1⟩ : ArepoAttributes).toCgs ≠ 0 ∧ (1 / 2 : ℝ) ≠ 0 ∧ (0.7 : ℝ) ≠ 0 := by
  norm_num

end Verif.Units
