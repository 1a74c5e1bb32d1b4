import Verif.Rounding.ChemLemmas

/-!
# C128: the sub-steps of the chemistry in `f64`
-/

namespace Verif.Rounding.Chem

open Chemistry

/-! ## Witnesses -/

/-- A cell of temperature 100 with half of its hydrogen ionised. -/
def exCell : Solver ℚ := ⟨1 / 2, 100, 1, 1, 1, 0, 1, none⟩

/-- Cooling by a constant rate: the change is `-T_rate · timestep`, rounded. -/
def exCooling (rate : ℚ) : Change ℚ := fun _ dt => some (fl (-(rate * dt)))

/-- No change. -/
def exNone : Change ℚ := fun _ _ => some 0

theorem exCooling_f64 (rate : ℚ) : IsF64Change (exCooling rate) := by
  intro s t x h
  cases h
  exact isF64_fl _

theorem exNone_f64 : IsF64Change exNone := by
  intro s t x h
  cases h
  exact fl_zero

theorem exCell_start : Start exCell :=
  ⟨by decide +kernel, by decide +kernel, by decide +kernel, fun f (h : none = some f) => (nomatch h), by decide +kernel⟩

/-- The safety factor of the examples: 0.1. -/
def exSafety : ℚ := fl (1 / 10)

theorem exSafety_ok : 0 < exSafety ∧ exSafety < 1 ∧ IsF64 exSafety := ⟨by decide +kernel, by decide +kernel, isF64_fl _⟩

/-! ## C128 -/

/-- **C128 (sub-steps).** With rounding, `perform_timestep` always returns if the safety factor is below one: the changes which were
accepted follow each other without gap, each lasts exactly the time step halved some number of times, and together they last exactly the
time step; or the depth limit was reached, then they last less and a tenth of the time step is recommended.  If all went well, the
recommended time is not below the last sub-step. -/
theorem substeps_f64 {δT δx : Change ℚ} (hδT : IsF64Change δT) {safety : ℚ} (hs : 0 < safety ∧ safety < 1 ∧ IsF64 safety)
    {s : Solver ℚ} (h : Start s) {timestep : ℚ} (htF : IsF64 timestep) (ht : 1 / 2 ^ 800 ≤ timestep) :
    ∃ s' t durations, performTimestepF δT δx s timestep safety = some (s', t) ∧ SameCell s s' ∧
      StepsF δT δx safety durations (limited s) s' ∧ (∀ d ∈ durations, ∃ k ≤ 100, d = timestep / 2 ^ k) ∧
      ((durations.sum = timestep ∧ ∃ d ∈ durations, (d : WithTop ℚ) ≤ t.time) ∨
        (durations.sum < timestep ∧ t = ⟨((fl (timestep / 10) : ℚ) : WithTop ℚ), .temperature⟩)) := by
  obtain ⟨s', r, ds, e, hc, _, hst, hk, hok, hno⟩ := internalF_spec (δx := δx) hδT hs.1 hs.2.1 hs.2.2 101 s h timestep
    (lt_of_lt_of_le (by positivity) ht) (halves_of htF ht)
  have hk' : ∀ d ∈ ds, ∃ k ≤ 100, d = timestep / 2 ^ k := fun d hd => by
    obtain ⟨k, hk, e⟩ := hk d hd
    exact ⟨k, by omega, e⟩
  cases r with
  | none =>
    refine ⟨s', _, ds, ?_, hc, hst, hk', Or.inr ⟨hno rfl, rfl⟩⟩
    unfold performTimestepF
    rw [show performTimestepInternalF δT δx safety (maxDepth + 1) s timestep = _ from e]
    rfl
  | some t =>
    refine ⟨s', t, ds, ?_, hc, hst, hk', Or.inl (hok t rfl)⟩
    unfold performTimestepF
    rw [show performTimestepInternalF δT δx safety (maxDepth + 1) s timestep = _ from e]
    rfl

/-- The hypotheses are satisfied by a cell which cools by 90 of its 100 degrees, in sub-steps. -/
example : IsF64Change (exCooling 90) ∧ Start exCell ∧ IsF64 1 ∧ (1 : ℚ) / 2 ^ 800 ≤ 1 :=
  ⟨exCooling_f64 _, exCell_start, by decide +kernel, by decide +kernel⟩

/-- **C128 (range).** The temperature stays positive and the ionised fraction within its limits, which are numbers of type `f64`, whether
the chemistry succeeds or not.  Nothing is assumed on the changes but that they are numbers of type `f64` or not finite. -/
theorem chemistry_sound {δT δx : Change ℚ} (hδT : IsF64Change δT) {safety : ℚ} (hs : 0 < safety ∧ safety < 1 ∧ IsF64 safety)
    {s : Solver ℚ} (h : Start s) {timestep : ℚ} (htF : IsF64 timestep) (ht : 1 / 2 ^ 800 ≤ timestep) :
    ∀ s' t, performTimestepF δT δx s timestep safety = some (s', t) → Sound s' := by
  intro s' t hp
  obtain ⟨s1, r, ds, e, _, hso, _⟩ := internalF_spec (δx := δx) hδT hs.1 hs.2.1 hs.2.2 101 s h timestep
    (lt_of_lt_of_le (by positivity) ht) (halves_of htF ht)
  unfold performTimestepF at hp
  rw [show performTimestepInternalF δT δx safety (maxDepth + 1) s timestep = _ from e] at hp
  cases r with
  | none =>
    cases hp
    exact hso
  | some t =>
    cases hp
    exact hso

example : (performTimestepF (exCooling 90) exNone exCell 1 exSafety).isSome = true := by decide +kernel

/-- The limits of the ionised fraction: `fl (10⁻¹⁰)` is slightly more than 10⁻¹⁰ and `highF` less than one. -/
theorem limits_f64 : (1 : ℚ) / 10 ^ 10 ≤ fl (1 / 10 ^ 10) ∧ fl (1 / 10 ^ 10) < 1 / 10 ^ 10 + 1 / 2 ^ 86 ∧
    |highF - (1 - 1 / 10 ^ 10)| < 1 / 2 ^ 53 ∧ highF < 1 := by
  decide +kernel

/-- **C128 (neutral fraction).** One minus the ionised fraction, rounded, is positive wherever the chemistry ends. -/
theorem neutral_fraction_pos {s : Solver ℚ} (h : Sound s) : 99 / 10 ^ 12 < 1 ⊟ s.ionizedHydrogenFraction := by
  refine lt_of_lt_of_le (by decide +kernel : (99 : ℚ) / 10 ^ 12 < fl (1 - highF)) ?_
  exact fl_mono (by linarith [h.upper])

example : Sound exCell :=
  ⟨by decide +kernel, by decide +kernel, fun f (h : none = some f) => (nomatch h), by decide +kernel, by decide +kernel, by decide +kernel⟩

/-- **C128 (temperature in a sub-step).** A sub-step changes the temperature at most by the fraction `safety`, up to rounding, unless
the floor of the temperature raises it. -/
theorem substep_temperature {δT δx : Change ℚ} {safety d : ℚ} (hs : 0 ≤ safety ∧ safety < 1) {s s' : Solver ℚ} {dT dx : ℚ}
    (h : AcceptedF δT δx safety d s s' dT dx) (hs' : Sound s) (hdT : IsF64 dT) :
    ∃ T, |T - s.temperature| ≤ (safety + 1 / 2 ^ 50) * s.temperature ∧ (s'.temperature = T ∨
      ∃ f, s.floor = some f ∧ T < f.1 ∧ s'.temperature = f.1) := by
  refine ⟨s.temperature ⊞ dT, ?_, ?_⟩
  · have hpos := hs'.positive
    obtain ⟨hlt, _⟩ := small_change hs'.temperature hdT hpos hs.2 h.temperature_small
    have hb := neg_abs_le dT
    have hb' := le_abs_self dT
    have hq : |dT / s.temperature| ≤ safety + 1 / 2 ^ 52 := by
      have h1 : |dT / s.temperature| ≤ (2 : ℚ) ^ (0 : ℤ) := by
        rw [abs_div, abs_of_pos hpos, zpow_zero, div_le_one hpos]
        exact hlt.le
      have h2 := fl_err h1 (by norm_num)
      have h3 := h.temperature_small
      unfold fdiv at h3
      have h4 : |dT / s.temperature| ≤ |fl (dT / s.temperature)| + |fl (dT / s.temperature) - dT / s.temperature| := by
        have := abs_sub_abs_le_abs_sub (dT / s.temperature) (fl (dT / s.temperature))
        rw [abs_sub_comm] at this
        linarith
      have h5 : (2 : ℚ) ^ ((0 : ℤ) - 54) ≤ 1 / 2 ^ 52 := by norm_num
      linarith
    have hc : |dT| ≤ (safety + 1 / 2 ^ 52) * s.temperature := by
      rw [abs_div, abs_of_pos hpos, div_le_iff₀ hpos] at hq
      exact hq
    have hr : |fl (s.temperature + dT) - (s.temperature + dT)| ≤ 1 / 2 ^ 51 * s.temperature := by
      have hg : |fl (s.temperature + dT) - (s.temperature + dT)| ≤ (2 : ℚ) ^ (-53 : ℤ) * |s.temperature + dT| + 0 := by
        by_cases hbig : (2 : ℚ) ^ (-1022 : ℤ) ≤ |s.temperature + dT|
        · simpa using fl_rel hbig
        · have hgr : Grid 1074 (s.temperature + dT) := (grid_of_f64 hs'.temperature).add (grid_of_f64 hdT)
          have : fl (s.temperature + dT) = s.temperature + dT := by
            refine hgr.fl_self le_rfl ?_
            push Not at hbig
            refine lt_of_lt_of_le hbig (two_zpow_le (by norm_num))
          rw [this, sub_self, abs_zero, add_zero]
          positivity
      have h2 : |s.temperature + dT| ≤ 2 * s.temperature := by
        rw [abs_le]
        constructor <;> linarith
      have e : (2 : ℚ) ^ (-53 : ℤ) = 1 / 2 ^ 53 := by norm_num
      rw [e] at hg
      have h3 : (1 : ℚ) / 2 ^ 53 * |s.temperature + dT| ≤ 1 / 2 ^ 53 * (2 * s.temperature) :=
        mul_le_mul_of_nonneg_left h2 (by norm_num)
      have h4 : (1 : ℚ) / 2 ^ 53 * (2 * s.temperature) ≤ 1 / 2 ^ 51 * s.temperature := by
        have : (1 : ℚ) / 2 ^ 53 * (2 * s.temperature) = 1 / 2 ^ 52 * s.temperature := by ring
        rw [this]
        exact mul_le_mul_of_nonneg_right (by norm_num) hpos.le
      linarith
    have ht : |(s.temperature ⊞ dT) - s.temperature| ≤ |fl (s.temperature + dT) - (s.temperature + dT)| + |dT| := by
      have := abs_add_le (fl (s.temperature + dT) - (s.temperature + dT)) dT
      have e : fl (s.temperature + dT) - (s.temperature + dT) + dT = (s.temperature ⊞ dT) - s.temperature := by
        unfold fadd
        ring
      rwa [e] at this
    have h52 : (1 : ℚ) / 2 ^ 52 * s.temperature + 1 / 2 ^ 51 * s.temperature ≤ 1 / 2 ^ 50 * s.temperature := by
      rw [← add_mul]
      exact mul_le_mul_of_nonneg_right (by norm_num) hpos.le
    linarith
  · rw [h.finish]
    simp only [limited]
    cases hf : s.floor with
    | none => exact Or.inl rfl
    | some f =>
      simp only
      rcases lt_or_ge (s.temperature ⊞ dT) f.1 with h1 | h1
      · exact Or.inr ⟨f, rfl, h1, max_eq_left h1.le⟩
      · exact Or.inl (max_eq_right h1)

/-- **C128 (cell).** What `update_abundances` leaves in a cell: a positive temperature, and an ionised fraction within the limits.  With
`prevent_cooling` neither decreases.  They result from the accepted sub-steps.  It panics exactly if `prevent_cooling` is set and the ionised fraction is above the upper limit. -/
theorem update_abundances_f64 {δT δx : Change ℚ} (hδT : IsF64Change δT) {h : HydrogenOnly ℚ}
    (hs : 0 < h.timestepSafetyFactor ∧ h.timestepSafetyFactor < 1 ∧ IsF64 h.timestepSafetyFactor) {species : Species ℚ}
    (hT : IsF64 species.temperature) (hT0 : 0 < species.temperature) (hx : IsF64 species.ionizedHydrogenFraction)
    (density rate volume length : ℚ) {timestep : ℚ} (htF : IsF64 timestep) (ht : 1 / 2 ^ 800 ≤ timestep) :
    (updateAbundancesF δT δx h species density rate timestep volume length = none ↔
      h.preventCooling = true ∧ highF < species.ionizedHydrogenFraction) ∧
    ∀ species' t, updateAbundancesF δT δx h species density rate timestep volume length = some (species', t) →
      IsF64 species'.temperature ∧ 0 < species'.temperature ∧ species'.ionizedHydrogenFraction ≤ highF ∧
      (h.preventCooling = false → fl (1 / 10 ^ 10) ≤ species'.ionizedHydrogenFraction) ∧
      (h.preventCooling = true → species.temperature ≤ species'.temperature ∧
        species.ionizedHydrogenFraction ≤ species'.ionizedHydrogenFraction) ∧
      species'.timestep = t.time ∧ 0 < t.time ∧
      ∃ s' durations, StepsF δT δx h.timestepSafetyFactor durations
          (limited ⟨species.ionizedHydrogenFraction, species.temperature, density, volume, length, rate, h.scaleFactor,
            if h.preventCooling then some (species.temperature, species.ionizedHydrogenFraction) else none⟩) s' ∧
        durations.sum ≤ timestep ∧ species'.temperature = s'.temperature ∧
        species'.ionizedHydrogenFraction = s'.ionizedHydrogenFraction := by
  set floor : Option (ℚ × ℚ) := if h.preventCooling then some (species.temperature, species.ionizedHydrogenFraction) else none
    with hfl
  set s : Solver ℚ := ⟨species.ionizedHydrogenFraction, species.temperature, density, volume, length, rate, h.scaleFactor, floor⟩
    with hsd
  have hup : updateAbundancesF δT δx h species density rate timestep volume length =
      (performTimestepF δT δx s timestep h.timestepSafetyFactor).bind
        fun r => some (⟨r.1.ionizedHydrogenFraction, r.1.temperature, r.2.time⟩, r.2) := rfl
  rw [hup]
  have hpos : 0 < timestep := lt_of_lt_of_le (by positivity) ht
  by_cases hbad : h.preventCooling = true ∧ highF < species.ionizedHydrogenFraction
  · have hn : performTimestepF δT δx s timestep h.timestepSafetyFactor = none := by
      unfold performTimestepF performTimestepInternalF
      rw [clampF_none s (by
        rw [hsd, hfl, if_pos hbad.1]
        exact hbad.2)]
      rfl
    rw [hn]
    exact ⟨⟨fun _ => hbad, fun _ => rfl⟩, by simp⟩
  · have hstart : Start s := by
      refine ⟨hT, hT0, hx, ?_, ?_⟩
      · intro f hf
        rw [hsd] at hf
        simp only [hfl] at hf
        split_ifs at hf
        cases hf
        exact ⟨hT, hx⟩
      · rw [hsd]
        simp only [hfl]
        split_ifs with hp
        · have : ¬ highF < species.ionizedHydrogenFraction := fun hh => hbad ⟨hp, hh⟩
          exact not_lt.1 this
        · decide +kernel
    obtain ⟨s', t, ds, e, hc, hst, hk, hout⟩ := substeps_f64 (δx := δx) hδT hs hstart htF ht
    have hso := chemistry_sound hδT hs hstart htF ht s' t e
    rw [e]
    simp only [Option.bind_some]
    refine ⟨⟨by simp, fun hh => absurd hh hbad⟩, ?_⟩
    intro species' t' he
    cases he
    have hfloor : s'.floor = floor := hc.floor
    refine ⟨hso.temperature, hso.positive, hso.upper, ?_, ?_, rfl, ?_, s', ds, hst, ?_, rfl, rfl⟩
    · intro hp
      have := hso.lower
      rw [hfloor, hfl, hp] at this
      exact this
    · intro hp
      have h1 := hso.lower
      have h2 := hso.floor (species.temperature, species.ionizedHydrogenFraction) (by rw [hfloor, hfl, hp]; rfl)
      rw [hfloor, hfl, hp] at h1
      exact ⟨h2.2.2, h1⟩
    · rcases hout with ⟨_, d, hd, hle⟩ | ⟨_, ht'⟩
      · obtain ⟨k, _, hk⟩ := hk d hd
        refine lt_of_lt_of_le ?_ hle
        have : 0 < d := by
          rw [hk]
          positivity
        exact_mod_cast this
      · rw [ht']
        have h1 : (2 : ℚ) ^ (-900 : ℤ) ≤ timestep / 10 := by
          have h2 : (2 : ℚ) ^ (-900 : ℤ) ≤ 1 / 2 ^ 800 / 10 := by
            rw [zpow_neg]
            rw [show (1 : ℚ) / 2 ^ 800 / 10 = (2 ^ 800 * 10)⁻¹ by rw [div_div, one_div]]
            refine inv_anti₀ (by positivity) ?_
            rw [show ((2 : ℚ) ^ (900 : ℤ)) = 2 ^ 800 * 2 ^ 100 by rw [← pow_add]; exact zpow_natCast 2 900]
            exact mul_le_mul_of_nonneg_left (by norm_num) (by positivity)
          exact h2.trans (div_le_div_of_nonneg_right ht (by norm_num))
        have h3 : (2 : ℚ) ^ (-900 : ℤ) ≤ fl (timestep / 10) := le_fl (fl_two_zpow (by norm_num)) h1
        have h4 : 0 < fl (timestep / 10) := lt_of_lt_of_le (two_zpow_pos _) h3
        exact WithTop.coe_lt_coe.2 h4
    · rcases hout with h1 | h1
      · exact h1.1.le
      · exact h1.1.le

example : updateAbundancesF (exCooling 90) exNone ⟨1, 1, exSafety, false⟩ ⟨1 / 2, 100, ⊤⟩ 1 0 1 1 1 ≠ none := by decide +kernel

/-- **C128 (negative).** A safety factor of one lets a cell lose all its temperature in a single accepted step.  At temperature zero
no change is small any more: all later time steps are rejected down to the depth limit so nothing, not even the ionised fraction, changes. -/
theorem cold_cell : (performTimestepF (exCooling 100) exNone exCell 1 1).map (fun r => r.1.temperature) = some 0 ∧
    (∀ δT δx : Change ℚ, ∀ s : Solver ℚ, s.temperature = 0 → s.floor = none → ∀ timestep,
      performTimestepF δT δx s timestep 1 = some (limited s, ⟨((fl (timestep / 10) : ℚ) : WithTop ℚ), .temperature⟩)) := by
  refine ⟨by decide +kernel, ?_⟩
  intro δT δx s hT hf timestep
  have hlim : ∀ s : Solver ℚ, s.floor = none → lowerF s.floor ≤ highF := fun s h => by
    rw [h]
    decide +kernel
  have key : ∀ n (s : Solver ℚ), s.temperature = 0 → s.floor = none → ∀ dt,
      performTimestepInternalF δT δx 1 n s dt = some (limited s, none) := by
    intro n
    induction n with
    | zero =>
      intro s hT hf dt
      unfold performTimestepInternalF
      rw [clampF_eq s (hlim s hf)]
      rfl
    | succ n ih =>
      intro s hT hf dt
      unfold performTimestepInternalF
      rw [clampF_eq s (hlim s hf)]
      simp only [Option.bind_eq_bind, Option.bind_some]
      have hf' : (limited s).floor = none := hf
      have hT' : (limited s).temperature = 0 := by
        simp only [limited, hf, hT]
      have htry : tryTimestepUpdateF δT δx (limited s) dt 1 = some (limited s, none) := by
        have hu : updateF (limited s).temperature (δT (limited s) dt) 1 dt = some ((limited s).temperature, none) := by
          unfold updateF
          rw [if_pos]
          rw [hT']
          cases δT (limited s) dt <;> simp only [relativeChangeF, if_true] <;> norm_num
        unfold tryTimestepUpdateF
        rw [hu]
        rfl
      rw [htry]
      simp only [Option.bind_some]
      rw [ih (limited s) hT' hf']
      have : limited (limited s) = limited s := by
        obtain ⟨x, T, d, v, l, r, a, floor⟩ := s
        subst hf
        simp only [limited, between]
        congr 1
        rw [min_eq_left (max_le (by decide +kernel) (min_le_right _ _)), max_eq_right (le_max_left _ _)]
      simp only [Option.bind_some, this]
  unfold performTimestepF
  rw [key _ s hT hf]
  rfl

end Verif.Rounding.Chem
