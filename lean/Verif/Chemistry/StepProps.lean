import Verif.Chemistry.StepLemmas
import Mathlib.Algebra.Order.Ring.Rat

/-!
# C41, C42, C43: sub-stepping, range of the ionised fraction, time scales
-/

namespace Verif.Chemistry

variable {K : Type} [Field K] [LinearOrder K] [IsStrictOrderedRing K]

/-! ## C41 -/

/-- **C41 (sub-steps).** Whatever the single-step changes are and whatever the depth limit `n` is, a call
either succeeds, and then the new state results from accepted updates whose durations add up to exactly
the requested time step (each duration being the time step halved some number of times, at most to the
depth limit), or reports failure, and then the state results from accepted updates which cover strictly
less than the time step.  In both cases rejected updates leave no trace: the accepted updates start where
the previous ones ended.  Nothing but temperature and ionised fraction changes. -/
theorem substeps_cover_timestep (temperatureChange ionizedFractionChange : Change K) (safety : K)
    (hs : safety < 2 ^ 52) (n : ℕ) (s : Solver K) (timestep : K) (ht : 0 < timestep)
    (hf : lowerLimit s.floor ≤ 1 - 1 / 10 ^ 10) :
    ∃ s' r, performTimestepInternal temperatureChange ionizedFractionChange safety n s timestep
        = some (s', r) ∧ SameCell s s' ∧
      ∃ durations,
        (∀ d ∈ durations, ∃ k, k < n ∧ d = timestep / 2 ^ k) ∧
        (r.isSome → durations.sum = timestep ∧
          Steps temperatureChange ionizedFractionChange safety durations s s') ∧
        (r = none → durations.sum < timestep ∧
          ∃ s1, Steps temperatureChange ionizedFractionChange safety durations s s1 ∧
            Clamped s1 s') := by
  rcases internal_spec temperatureChange ionizedFractionChange safety hs n s timestep ht hf with
    ⟨s', t, ds, h, hsame, _, _, hsum, hst, hk⟩ | ⟨s', s1, ds, h, hsame, _, hsum, hst, hcl, hk⟩
  · exact ⟨s', some t, h, hsame, ds, hk, fun _ => ⟨hsum, hst⟩, fun h => by cases h⟩
  · exact ⟨s', none, h, hsame, ds, hk, (fun h => by cases h), fun _ => ⟨hsum, s1, hst, hcl⟩⟩

/-- **C41 (whole time step).** `perform_timestep` always returns: either the accepted updates cover
exactly the time step, or the depth limit was reached; then they cover less, the state stays where it
was at that moment, and the returned time scale is a tenth of the time step. -/
theorem perform_timestep_outcome (temperatureChange ionizedFractionChange : Change K) (safety : K)
    (hs : safety < 2 ^ 52) (s : Solver K) (timestep : K) (ht : 0 < timestep)
    (hf : lowerLimit s.floor ≤ 1 - 1 / 10 ^ 10) :
    ∃ s' t durations,
      performTimestep temperatureChange ionizedFractionChange s timestep safety = some (s', t) ∧
      SameCell s s' ∧ InRange s' ∧ (∀ d ∈ durations, ∃ k ≤ 100, d = timestep / 2 ^ k) ∧
      ((durations.sum = timestep ∧
          Steps temperatureChange ionizedFractionChange safety durations s s') ∨
        (durations.sum < timestep ∧ t = ⟨((timestep / 10 : K) : WithTop K), .temperature⟩ ∧
          ∃ s1, Steps temperatureChange ionizedFractionChange safety durations s s1 ∧
            Clamped s1 s')) := by
  have hk' : ∀ ds : List K, (∀ d ∈ ds, ∃ k, k < maxDepth + 1 ∧ d = timestep / 2 ^ k) →
      ∀ d ∈ ds, ∃ k ≤ 100, d = timestep / 2 ^ k := by
    intro ds h d hd
    obtain ⟨k, hk, e⟩ := h d hd
    exact ⟨k, Nat.lt_succ_iff.1 hk, e⟩
  rcases internal_spec temperatureChange ionizedFractionChange safety hs (maxDepth + 1) s timestep ht hf
    with ⟨s', t, ds, h, hsame, hr, _, hsum, hst, hk⟩ | ⟨s', s1, ds, h, hsame, hr, hsum, hst, hcl, hk⟩
  · refine ⟨s', t, ds, ?_, hsame, hr, hk' ds hk, Or.inl ⟨hsum, hst⟩⟩
    unfold performTimestep
    rw [h]
    rfl
  · refine ⟨s', _, ds, ?_, hsame, hr, hk' ds hk, Or.inr ⟨hsum, rfl, s1, hst, hcl⟩⟩
    unfold performTimestep
    rw [h]
    rfl

/-! ## C42 -/

/-- **C42.** After `update_abundances` the ionised fraction lies between `10⁻¹⁰` and `1 - 10⁻¹⁰`; with
`prevent_cooling` between its old value and `1 - 10⁻¹⁰`, and the temperature does not decrease.  The call
panics exactly if `prevent_cooling` is set and the old fraction is above `1 - 10⁻¹⁰`. -/
theorem fraction_stays_in_range (temperatureChange ionizedFractionChange : Change K)
    (h : HydrogenOnly K) (hs : h.timestepSafetyFactor < 2 ^ 52) (species : Species K)
    (density rate timestep volume length : K) (ht : 0 < timestep) :
    ((h.preventCooling = true ∧ 1 - 1 / 10 ^ 10 < species.ionizedHydrogenFraction) ∧
      updateAbundances temperatureChange ionizedFractionChange h species density rate timestep volume
        length = none) ∨
    (¬ (h.preventCooling = true ∧ 1 - 1 / 10 ^ 10 < species.ionizedHydrogenFraction) ∧
      ∃ species' t, updateAbundances temperatureChange ionizedFractionChange h species density rate
          timestep volume length = some (species', t) ∧
        species'.ionizedHydrogenFraction ≤ 1 - 1 / 10 ^ 10 ∧ species'.timestep = t.time ∧
        (h.preventCooling = false → 1 / 10 ^ 10 ≤ species'.ionizedHydrogenFraction) ∧
        (h.preventCooling = true → species.ionizedHydrogenFraction ≤ species'.ionizedHydrogenFraction ∧
          species.temperature ≤ species'.temperature)) := by
  have hsmall : (1 : K) / 10 ^ 10 ≤ 1 - 1 / 10 ^ 10 := by
    norm_num
  unfold updateAbundances
  cases hpc : h.preventCooling with
  | false =>
    right
    refine ⟨by simp, ?_⟩
    obtain ⟨s', t, ds, e, hsame, hr, _⟩ := perform_timestep_outcome temperatureChange
      ionizedFractionChange h.timestepSafetyFactor hs
      ⟨species.ionizedHydrogenFraction, species.temperature, density, volume, length, rate,
        h.scaleFactor, none⟩ timestep ht hsmall
    simp only [Bool.false_eq_true, if_false]
    rw [e]
    refine ⟨_, t, rfl, hr.2.1, rfl, fun _ => ?_, fun h => by cases h⟩
    have := hr.1
    rw [hsame.floor] at this
    exact this
  | true =>
    simp only [true_and, if_true]
    by_cases hx : 1 - 1 / 10 ^ 10 < species.ionizedHydrogenFraction
    · left
      refine ⟨hx, ?_⟩
      have hc : clamp (⟨species.ionizedHydrogenFraction, species.temperature, density, volume, length,
          rate, h.scaleFactor, some (species.temperature, species.ionizedHydrogenFraction)⟩ : Solver K)
          = none := clamp_none _ (by simpa [lowerLimit] using hx)
      unfold performTimestep performTimestepInternal
      rw [hc]
      rfl
    · right
      refine ⟨hx, ?_⟩
      obtain ⟨s', t, ds, e, hsame, hr, _⟩ := perform_timestep_outcome temperatureChange
        ionizedFractionChange h.timestepSafetyFactor hs
        ⟨species.ionizedHydrogenFraction, species.temperature, density, volume, length, rate,
          h.scaleFactor, some (species.temperature, species.ionizedHydrogenFraction)⟩ timestep ht
        (not_lt.1 hx)
      rw [e]
      refine ⟨_, t, rfl, hr.2.1, rfl, (fun h => by cases h), fun _ => ⟨?_, ?_⟩⟩
      · have := hr.1
        rw [hsame.floor] at this
        exact this
      · exact hr.2.2 _ hsame.floor

/-- **C42 (stuck state).** With `prevent_cooling`, a completely neutral cell never evolves: the relative
change of a zero fraction is always the maximum, every step is rejected, and the state stays as it is,
whatever the rate. -/
theorem neutral_cell_never_evolves (temperatureChange ionizedFractionChange : Change K)
    (h : HydrogenOnly K) (hs : h.timestepSafetyFactor < 2 ^ 52) (hp : h.preventCooling = true)
    (species : Species K) (hx : species.ionizedHydrogenFraction = 0)
    (density rate timestep volume length : K) :
    updateAbundances temperatureChange ionizedFractionChange h species density rate timestep volume
      length = some (⟨0, species.temperature, ((timestep / 10 : K) : WithTop K)⟩,
        ⟨((timestep / 10 : K) : WithTop K), .temperature⟩) := by
  set s : Solver K := ⟨0, species.temperature, density, volume, length, rate, h.scaleFactor,
    some (species.temperature, 0)⟩ with hsdef
  have hsmall : (0 : K) ≤ 1 - 1 / 10 ^ 10 := by norm_num
  have hr : InRange s := ⟨le_refl _, hsmall, fun f hf => by cases hf; exact le_refl _⟩
  have hclamp : clamp s = some s := by
    obtain ⟨s', h1, h2⟩ := clamp_spec s hsmall
    rw [h1, h2.eq_of_range hr]
  have hrej : ∀ dt, ∃ T', tryTimestepUpdate temperatureChange ionizedFractionChange s dt
      h.timestepSafetyFactor = some ({ s with temperature := T' }, none) := by
    intro dt
    unfold tryTimestepUpdate
    rcases update_spec s.temperature (temperatureChange s dt) h.timestepSafetyFactor dt hs with
      ⟨h1, _⟩ | ⟨dT, t1, hT, hsm, h1, _⟩
    · rw [h1]
      exact ⟨_, rfl⟩
    · rw [h1]
      dsimp only [Option.bind_some, bind]
      rcases update_spec s.ionizedHydrogenFraction
        (ionizedFractionChange { s with temperature := s.temperature + dT } dt)
        h.timestepSafetyFactor dt hs with ⟨h2, _⟩ | ⟨dx, t2, _, hsm2, _⟩
      · rw [h2]
        exact ⟨_, rfl⟩
      · exact absurd rfl hsm2.1
  have hint : ∀ n dt, performTimestepInternal temperatureChange ionizedFractionChange
      h.timestepSafetyFactor n s dt = some (s, none) := by
    intro n
    induction n with
    | zero =>
      intro dt
      unfold performTimestepInternal
      rw [hclamp]
      rfl
    | succ n ih =>
      intro dt
      obtain ⟨T', hT'⟩ := hrej dt
      unfold performTimestepInternal
      rw [hclamp]
      dsimp only [Option.bind_some, bind]
      rw [hT']
      dsimp only [Option.bind_some]
      have := ih (dt / 2)
      rw [hsdef] at this ⊢
      rw [this]
      rfl
  unfold updateAbundances
  rw [hp, hx]
  simp only [if_true]
  unfold performTimestep
  rw [hint]
  rfl

/-! ## C43 -/

omit [Field K] [IsStrictOrderedRing K] in
/-- **C43 (minimum).** Combining time scales with `min` gives one of them, and none is smaller. -/
theorem timescale_min_is_minimum (t : Timescale K) (ts : List (Timescale K)) :
    ts.foldl Timescale.min t ∈ t :: ts ∧
      ∀ t' ∈ t :: ts, (ts.foldl Timescale.min t).time ≤ t'.time := by
  induction ts generalizing t with
  | nil => simp
  | cons a ts ih =>
    obtain ⟨h1, h2⟩ := ih (t.min a)
    have hm : (t.min a = t ∨ t.min a = a) ∧ (t.min a).time ≤ t.time ∧ (t.min a).time ≤ a.time := by
      unfold Timescale.min
      by_cases h : t.time < a.time
      · rw [if_pos h]
        exact ⟨Or.inl rfl, le_refl _, h.le⟩
      · rw [if_neg h]
        exact ⟨Or.inr rfl, not_lt.1 h, le_refl _⟩
    rw [List.foldl_cons]
    constructor
    · rcases List.mem_cons.1 h1 with h | h
      · rw [h]
        rcases hm.1 with h' | h' <;> rw [h'] <;> simp
      · exact List.mem_cons_of_mem _ (List.mem_cons_of_mem _ h)
    · intro t' ht'
      have h3 := h2 _ List.mem_cons_self
      rcases List.mem_cons.1 ht' with rfl | ht'
      · exact le_trans h3 hm.2.1
      · rcases List.mem_cons.1 ht' with rfl | ht'
        · exact le_trans h3 hm.2.2
        · exact h2 _ (List.mem_cons_of_mem _ ht')

omit [Field K] [IsStrictOrderedRing K] in
theorem count_fold (ts : List (Timescale K)) (c : TimescaleCounter K) :
    (ts.foldl TimescaleCounter.count c).maxTimestep = c.maxTimestep ∧
    ∀ p, (ts.foldl TimescaleCounter.count c).limitingProcesses p = c.limitingProcesses p +
      ts.countP (fun t => decide (t.process = p) && decide (t.time < c.maxTimestep)) := by
  induction ts generalizing c with
  | nil => simp
  | cons t ts ih =>
    obtain ⟨h1, h2⟩ := ih (c.count t)
    have hc : (c.count t).maxTimestep = c.maxTimestep := by
      unfold TimescaleCounter.count
      split_ifs <;> rfl
    rw [List.foldl_cons]
    refine ⟨h1.trans hc, fun p => ?_⟩
    rw [h2, hc, List.countP_cons]
    unfold TimescaleCounter.count
    by_cases ht : t.time < c.maxTimestep
    · rw [if_pos ht]
      by_cases hp : p = t.process
      · simp [hp, ht]
        omega
      · simp [hp, ht, Ne.symm hp]
    · rw [if_neg ht]
      simp [ht]

omit [Field K] [IsStrictOrderedRing K] in
/-- **C43 (counting).** After counting any cells, each process has been counted once for each cell whose
limiting process it is and whose time scale is below the maximum; the counts add up to the number of
cells with a time scale below the maximum. -/
theorem counts_partition_cells (maxTimestep : WithTop K) (ts : List (Timescale K)) :
    (∀ p, (ts.foldl TimescaleCounter.count (.new maxTimestep)).limitingProcesses p =
      (ts.filter fun t => decide (t.process = p) && decide (t.time < maxTimestep)).length) ∧
    (ts.foldl TimescaleCounter.count (.new maxTimestep)).limitingProcesses .temperature
      + (ts.foldl TimescaleCounter.count (.new maxTimestep)).limitingProcesses .ionizationFraction
      + (ts.foldl TimescaleCounter.count (.new maxTimestep)).limitingProcesses .photonRate
      = (ts.filter fun t => decide (t.time < maxTimestep)).length := by
  have h := (count_fold ts (.new maxTimestep)).2
  have h' : ∀ p, (ts.foldl TimescaleCounter.count (.new maxTimestep)).limitingProcesses p =
      ts.countP (fun t => decide (t.process = p) && decide (t.time < maxTimestep)) := by
    intro p
    exact (h p).trans (Nat.zero_add _)
  refine ⟨fun p => by rw [h' p, List.countP_eq_length_filter], ?_⟩
  rw [h', h', h', ← List.countP_eq_length_filter]
  clear h h'
  induction ts with
  | nil => rfl
  | cons t ts ih =>
    simp only [List.countP_cons]
    rw [← ih]
    by_cases ht : t.time < maxTimestep
    · cases hp : t.process <;> simp [ht] <;> omega
    · simp [ht]

/-- The recommendation of an accepted step is not shorter than the step. -/
theorem update_recommendation {value : K} {change : Option K} {safety timestep : K} {v : K}
    {t : WithTop K} (ht : 0 < timestep)
    (h : update value change safety timestep = some (v, some t)) : (timestep : WithTop K) ≤ t := by
  unfold update at h
  by_cases hc : relativeChange change value > safety
  · rw [if_pos hc] at h
    cases h
  · rw [if_neg hc] at h
    cases hch : change with
    | none =>
      rw [hch] at h
      cases h
    | some c =>
      rw [hch] at h hc
      dsimp only [Option.bind_some, bind] at h
      simp only [Option.some.injEq, Prod.mk.injEq] at h
      rw [← h.2]
      by_cases h0 : relativeChange (some c) value = 0
      · rw [if_pos h0]
        exact le_top
      · rw [if_neg h0, WithTop.coe_le_coe]
        have hnn : 0 ≤ relativeChange (some c) value := by
          unfold relativeChange maxRelativeChange
          dsimp only
          split_ifs
          · positivity
          · exact le_min (abs_nonneg _) (by positivity)
        have hpos : 0 < relativeChange (some c) value := lt_of_le_of_ne hnn (Ne.symm h0)
        have : 1 ≤ safety / relativeChange (some c) value := by
          rw [le_div_iff₀ hpos, one_mul]
          exact not_lt.1 hc
        nlinarith

/-- **C43 (recommendation).** A successful call recommends a time scale which is not shorter than its
last accepted sub-step. -/
theorem recommendation_at_least_substep (temperatureChange ionizedFractionChange : Change K)
    (safety : K) (n : ℕ) (s s' : Solver K) (timestep : K) (ht : 0 < timestep) (t : Timescale K)
    (h : performTimestepInternal temperatureChange ionizedFractionChange safety n s timestep
      = some (s', some t)) :
    ∃ k < n, ((timestep / 2 ^ k : K) : WithTop K) ≤ t.time := by
  induction n generalizing s timestep with
  | zero =>
    unfold performTimestepInternal at h
    cases hc : clamp s with
    | none => rw [hc] at h; cases h
    | some c => rw [hc] at h; cases h
  | succ n ih =>
    unfold performTimestepInternal at h
    cases hc : clamp s with
    | none => rw [hc] at h; cases h
    | some c =>
      rw [hc] at h
      dsimp only [Option.bind_some, bind] at h
      cases htr : tryTimestepUpdate temperatureChange ionizedFractionChange c timestep safety with
      | none => rw [htr] at h; cases h
      | some r =>
        obtain ⟨s1, rec⟩ := r
        rw [htr] at h
        dsimp only [Option.bind_some] at h
        cases rec with
        | some t' =>
          dsimp only at h
          simp only [Option.some.injEq, Prod.mk.injEq] at h
          obtain ⟨_, rfl⟩ := h
          refine ⟨0, by omega, ?_⟩
          rw [pow_zero, div_one]
          unfold tryTimestepUpdate at htr
          cases hu : update c.temperature (temperatureChange c timestep) safety timestep with
          | none => rw [hu] at htr; cases htr
          | some r1 =>
            obtain ⟨T1, o1⟩ := r1
            rw [hu] at htr
            dsimp only [Option.bind_some, bind] at htr
            cases o1 with
            | none => cases htr
            | some t1 =>
              dsimp only at htr
              cases hu2 : update c.ionizedHydrogenFraction
                  (ionizedFractionChange { c with temperature := T1 } timestep) safety timestep with
              | none => rw [hu2] at htr; cases htr
              | some r2 =>
                obtain ⟨x2, o2⟩ := r2
                rw [hu2] at htr
                dsimp only [Option.bind_some] at htr
                cases o2 with
                | none => cases htr
                | some t2 =>
                  dsimp only at htr
                  cases hc2 : clamp ({ c with
                      temperature := T1
                      ionizedHydrogenFraction := x2 } : Solver K) with
                  | none => rw [hc2] at htr; cases htr
                  | some c2 =>
                    rw [hc2] at htr
                    dsimp only [Option.bind_some] at htr
                    simp only [Option.some.injEq, Prod.mk.injEq] at htr
                    rw [← htr.2]
                    unfold Timescale.min
                    split_ifs
                    · exact update_recommendation ht hu
                    · exact update_recommendation ht hu2
        | none =>
          dsimp only at h
          cases hi : performTimestepInternal temperatureChange ionizedFractionChange safety n
              ({ s1 with
                temperature := c.temperature
                ionizedHydrogenFraction := c.ionizedHydrogenFraction } : Solver K) (timestep / 2) with
          | none => rw [hi] at h; cases h
          | some first =>
            obtain ⟨s2, o⟩ := first
            rw [hi] at h
            dsimp only [Option.bind_some] at h
            cases o with
            | none => cases h
            | some t2 =>
              dsimp only at h
              obtain ⟨k, hk, hle⟩ := ih s2 (timestep / 2) (by linarith) h
              refine ⟨k + 1, by omega, ?_⟩
              rw [div_div, ← pow_succ'] at hle
              exact hle

/-- **C43 (photon rate).** The time scale of the photon rate is infinite below the threshold and without
change; otherwise the time in which the rate would change by its own size. -/
theorem rate_timescale (threshold rate previous timestep : K) :
    (|rate| < |threshold| → (rateTimescale threshold rate previous timestep).time = ⊤) ∧
    (¬ |rate| < |threshold| → rate ≠ 0 → rate = previous →
      (rateTimescale threshold rate previous timestep).time = ⊤) ∧
    (¬ |rate| < |threshold| → rate ≠ 0 → rate ≠ previous → |rate - previous| ≤ 2 ^ 52 * |rate| →
      (rateTimescale threshold rate previous timestep).time
        = ((timestep * |rate| / |rate - previous| : K) : WithTop K)) := by
  refine ⟨fun h => ?_, fun h h0 he => ?_, fun h h0 hne hle => ?_⟩
  · simp [rateTimescale, belowThreshold, h]
  · subst he
    simp [rateTimescale, belowThreshold, h, relativeChangeTo, h0, maxRelativeChange]
  · have hne' : rate - previous ≠ 0 := sub_ne_zero.2 hne
    have hr : relativeChangeTo rate previous = |rate - previous| / |rate| := by
      unfold relativeChangeTo maxRelativeChange
      rw [if_neg h0, abs_div, abs_abs, min_eq_left]
      rw [div_le_iff₀ (abs_pos.2 h0)]
      exact hle
    have hpos : 0 < |rate - previous| / |rate| := div_pos (abs_pos.2 hne') (abs_pos.2 h0)
    have h' : belowThreshold rate threshold = false := by simpa [belowThreshold] using h
    unfold rateTimescale
    dsimp only
    rw [h', hr]
    simp only [Bool.false_eq_true, if_false]
    rw [abs_of_pos hpos, if_neg (ne_of_gt hpos)]
    congr 1
    rw [div_div_eq_mul_div]

/-- **C43 (zero rate).** A zero rate at a zero threshold is treated as the largest possible change: the
time scale is the time step divided by `2^52`. -/
theorem zero_rate_gives_shortest_timescale (previous timestep : K) :
    (rateTimescale 0 0 previous timestep).time = ((timestep / 2 ^ 52 : K) : WithTop K) := by
  simp [rateTimescale, belowThreshold, relativeChangeTo, maxRelativeChange]

/-- **C43 (stored values).** After `update_chemistry` a cell holds the new species, the rate it was updated
with (for the next comparison) and the shorter of the time scales of the photon rate and of the chemistry;
its density is unchanged, and exactly this time scale is counted. -/
theorem update_cell_stores (temperatureChange ionizedFractionChange : Change K) (h : HydrogenOnly K)
    (threshold : K) (site site' : Site K) (rate timestep volume size : K)
    (counter counter' : TimescaleCounter K)
    (hu : updateCell temperatureChange ionizedFractionChange h threshold site rate timestep volume size
      counter = some (site', counter')) :
    ∃ chemistry change : Timescale K,
      updateAbundances temperatureChange ionizedFractionChange h site.species site.density rate timestep
        volume size = some (site'.species, chemistry) ∧
      (change = chemistry ∨
        change = rateTimescale threshold rate site.previousIncomingTotalRate timestep) ∧
      change.time ≤ chemistry.time ∧
      change.time ≤ (rateTimescale threshold rate site.previousIncomingTotalRate timestep).time ∧
      site'.changeTimescale = change.time ∧ counter' = counter.count change ∧
      site'.previousIncomingTotalRate = rate ∧ site'.density = site.density := by
  unfold updateCell at hu
  cases hc : updateAbundances temperatureChange ionizedFractionChange h site.species site.density rate
      timestep volume size with
  | none => rw [hc] at hu; cases hu
  | some r =>
    rw [hc] at hu
    dsimp only [Option.bind_some, bind] at hu
    cases hu
    obtain ⟨h1, h2⟩ := timescale_min_is_minimum
      (rateTimescale threshold rate site.previousIncomingTotalRate timestep) [r.2]
    refine ⟨r.2, _, rfl, ?_, h2 _ (by simp), h2 _ (by simp), rfl, rfl, rfl, rfl⟩
    rcases List.mem_cons.1 h1 with h1 | h1
    · exact Or.inr h1
    · exact Or.inl (List.mem_singleton.1 h1)

/-! ### The hypotheses are met -/

/-- Steps longer than `1/2` change the temperature too much. -/
def exampleTemperatureChange : Change ℚ := fun s dt => some (if dt > 1 / 2 then s.temperature else dt)

def exampleFractionChange : Change ℚ := fun s dt => some (dt * s.ionizedHydrogenFraction / 100)

def exampleSolver : Solver ℚ := ⟨1 / 2, 1000, 1, 1, 1, 1, 1, none⟩

example : (1 / 10 : ℚ) < 2 ^ 52 ∧ (0 : ℚ) < 2 ∧ lowerLimit exampleSolver.floor ≤ 1 - 1 / 10 ^ 10 := by
  refine ⟨by norm_num, by norm_num, ?_⟩
  norm_num [exampleSolver, lowerLimit]

/-- Two units of time are covered by four steps. -/
example : (performTimestep exampleTemperatureChange exampleFractionChange exampleSolver 2 (1 / 10)).map
    (fun r => (r.1.temperature, r.1.ionizedHydrogenFraction)) = some (1002, 1 / 2 * (201 / 200) ^ 4) := by
  decide +kernel

/-- Steps are accepted at temperature 1 if they are short, and never otherwise. -/
def failingTemperatureChange : Change ℚ := fun s dt =>
  if s.temperature = 1 ∧ dt < 1 then some (1 / 100) else none

/-- **C41 (partial progress on failure).** When the depth limit is reached, accepted updates stay: here
the first half of the time step was applied, and the caller only sees a time scale. -/
theorem failure_keeps_partial_progress :
    (performTimestep failingTemperatureChange (fun _ _ => some 0)
      ⟨1 / 2, 1, 1, 1, 1, 1, 1, none⟩ 1 (1 / 10)).map (fun r => r.1.temperature) = some (101 / 100) := by
  decide +kernel

/-- C42: both cases occur. -/
example : (updateAbundances exampleTemperatureChange exampleFractionChange ⟨0, 1, 1 / 10, true⟩
    ⟨1, 1000, 0⟩ 1 1 1 1 1).isNone = true ∧
    ((updateAbundances exampleTemperatureChange exampleFractionChange ⟨0, 1, 1 / 10, true⟩
    ⟨1 / 2, 1000, 0⟩ 1 1 (1 / 2) 1 1).map fun r => r.1.ionizedHydrogenFraction) = some (201 / 400) := by
  decide +kernel

example : (⟨0, 1, 1 / 10, true⟩ : HydrogenOnly ℚ).timestepSafetyFactor < 2 ^ 52 := by norm_num

/-- The rate doubled, so the rate is the limiting process. -/
example : ((updateCell exampleTemperatureChange exampleFractionChange ⟨0, 1, 1 / 10, true⟩ 0
    ⟨⟨1 / 2, 1000, 0⟩, 1, 1, 0⟩ 2 (1 / 2) 1 1 (.new 5)).map fun r =>
      (r.1.changeTimescale, r.1.previousIncomingTotalRate, r.2.limitingProcesses .photonRate))
    = some (1, 2, 1) := by
  decide +kernel

example : ((([⟨3, .photonRate⟩, ⟨2, .ionizationFraction⟩] : List (Timescale ℚ)).foldl Timescale.min
    ⟨((5 : ℚ) : WithTop ℚ), .temperature⟩)).process = .ionizationFraction := by
  decide +kernel

end Verif.Chemistry
