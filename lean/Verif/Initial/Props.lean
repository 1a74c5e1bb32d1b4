import Mathlib.Data.List.Permutation
import Verif.Initial.Model
import Verif.Units.Props
import Verif.Parallel.Props

/-!
# Theorems about the physical state at the start
-/

namespace Verif.Initial

/-! ### Specification -/

/-- Specification: the ionized fraction before remapping. -/
noncomputable def inputFraction (e : Env) : ℝ :=
  match e.initialFraction with
  | some f => f
  | none => max (1e-10) (min (1 - 1e-10) (0.76 * e.row .electronAbundance))

/-- Specification: the temperature of a gas of hydrogen with specific energy `u`, of which the fraction `f` is ionized. -/
noncomputable def gasTemperature (u f : ℝ) : ℝ :=
  u * (2 / 3) * Units.protonMass / ((1 + f) * Units.boltzmannConstant)

/-- Specification: the ionized fraction and the temperature at the start. -/
noncomputable def startState (e : Env) : ℝ × ℝ :=
  match e.remap with
  | some (t, f) => (f, t)
  | none => (inputFraction e, gasTemperature (e.row .internalEnergy) (inputFraction e))

/-! ### Lemmas -/

theorem clamp_eq (lo hi x : ℝ) (h : lo ≤ hi) : clamp lo hi x = max lo (min hi x) := by
  unfold clamp
  split_ifs with h1 h2
  · rw [max_eq_left]; exact (min_le_right _ _).trans h1.le
  · rw [min_eq_left h2.le, max_eq_right h]
  · push Not at h1 h2
    rw [min_eq_right h2, max_eq_right h1]

theorem allowed_mem (systems order : List Sys) (h : Allowed systems order) :
    order ∈ systems.permutations'.filter fun l => decide (l.Pairwise fun a b => before b a = false) := by
  rw [List.mem_filter]
  exact ⟨List.mem_permutations'.2 h.1, by simpa using h.2⟩

theorem initial_orders : (([.spawn, .read .density, .read .internalEnergy] : List Sys).permutations'.filter
      fun l => decide (l.Pairwise fun a b => before b a = false)) =
    [[.spawn, .read .density, .read .internalEnergy], [.spawn, .read .internalEnergy, .read .density]] := by
  decide +kernel

theorem initial_orders' : (([.spawn, .read .density, .read .internalEnergy, .read .electronAbundance] :
      List Sys).permutations'.filter fun l => decide (l.Pairwise fun a b => before b a = false)) =
    [[.spawn, .read .density, .read .internalEnergy, .read .electronAbundance],
      [.spawn, .read .internalEnergy, .read .density, .read .electronAbundance],
      [.spawn, .read .internalEnergy, .read .electronAbundance, .read .density],
      [.spawn, .read .density, .read .electronAbundance, .read .internalEnergy],
      [.spawn, .read .electronAbundance, .read .density, .read .internalEnergy],
      [.spawn, .read .electronAbundance, .read .internalEnergy, .read .density]] := by
  decide +kernel

theorem derived_orders : (([.setFraction, .insertMissing] : List Sys).permutations'.filter
      fun l => decide (l.Pairwise fun a b => before b a = false)) = [[.setFraction, .insertMissing]] := by
  decide +kernel

theorem grid_orders (order : List Sys) (h : order.Perm [.constructGrid, .removeEnergy, .removeElectrons]) :
    order = [.constructGrid, .removeEnergy, .removeElectrons] ∨ order = [.removeEnergy, .constructGrid, .removeElectrons] ∨
    order = [.removeEnergy, .removeElectrons, .constructGrid] ∨ order = [.constructGrid, .removeElectrons, .removeEnergy] ∨
    order = [.removeElectrons, .constructGrid, .removeEnergy] ∨ order = [.removeElectrons, .removeEnergy, .constructGrid] := by
  simpa using List.mem_permutations'.2 h

theorem after_orders (order : List Sys) (h : order.Perm [.cellMass, .setSources]) :
    order = [.cellMass, .setSources] ∨ order = [.setSources, .cellMass] := by
  simpa using List.mem_permutations'.2 h

/-- The components of a particle. -/
def comps (loc rho u xe f s r t m v : Option ℝ) : Comps
  | .localParticle => loc
  | .density => rho
  | .internalEnergy => u
  | .electronAbundance => xe
  | .fraction => f
  | .source => s
  | .photonRate => r
  | .temperature => t
  | .mass => m
  | .cell => v

set_option maxHeartbeats 1600000 in
theorem stage_initial_none (e : Env) (h : e.initialFraction = none) (order : List Sys)
    (ho : Allowed [.spawn, .read .density, .read .internalEnergy, .read .electronAbundance] order) :
    runStage e order (fun _ => none) = comps (some 0) (some (e.row .density)) (some (e.row .internalEnergy))
      (some (e.row .electronAbundance)) none none none none none none := by
  have := allowed_mem _ _ ho
  rw [initial_orders'] at this
  simp only [List.mem_cons, List.not_mem_nil, or_false] at this
  funext c
  rcases this with rfl | rfl | rfl | rfl | rfl | rfl <;> cases c <;> simp [runStage, now, later, insert, comps]

theorem stage_initial_some (e : Env) (order : List Sys)
    (ho : Allowed [.spawn, .read .density, .read .internalEnergy] order) :
    runStage e order (fun _ => none) = comps (some 0) (some (e.row .density)) (some (e.row .internalEnergy))
      none none none none none none none := by
  have := allowed_mem _ _ ho
  rw [initial_orders] at this
  simp only [List.mem_cons, List.not_mem_nil, or_false] at this
  funext c
  rcases this with rfl | rfl <;> cases c <;> simp [runStage, now, later, insert, comps]

theorem stage_single (e : Env) (s : Sys) (order : List Sys) (ho : Allowed [s] order) (x : Comps) :
    runStage e order x = later e s x (now e s x) := by
  have := List.perm_singleton.1 ho.1
  subst this
  simp [runStage]

theorem stage_derived (e : Env) (order : List Sys) (ho : Allowed [.setFraction, .insertMissing] order) (x : Comps) :
    runStage e order x = later e .insertMissing (now e .setFraction x) (now e .setFraction x) := by
  have := allowed_mem _ _ ho
  rw [derived_orders] at this
  simp only [List.mem_cons, List.not_mem_nil, or_false] at this
  subst this
  simp [runStage, later, now]

set_option maxHeartbeats 1600000 in
theorem stage_grid (e : Env) (order : List Sys) (ho : Allowed [.constructGrid, .removeEnergy, .removeElectrons] order)
    (rho u xe f s r t m : Option ℝ) :
    runStage e order (comps (some 0) rho u xe f s r t m none) = comps (some 0) rho none none f s r t m (some e.volume) := by
  have h6 := grid_orders _ ho.1
  funext c
  rcases h6 with rfl | rfl | rfl | rfl | rfl | rfl <;> cases c <;> cases u <;> cases xe <;>
    simp [runStage, now, later, insert, remove, comps]

theorem stage_after (e : Env) (order : List Sys) (ho : Allowed [.cellMass, .setSources] order)
    (rho f s r t v : ℝ) (m : Option ℝ) :
    runStage e order (comps (some 0) (some rho) none none (some f) (some s) (some r) (some t) m (some v)) =
      comps (some 0) (some rho) none none (some f) (some (s + e.sources.sum)) (some r) (some t) (some (rho * v)) (some v) := by
  have h2 := after_orders _ ho.1
  have hs : e.sources.foldl (· + ·) s = s + e.sources.sum := by
    rw [List.sum_eq_foldl, ← List.foldl_assoc (op := ((· + ·) : ℝ → ℝ → ℝ)), add_zero]
  funext c
  rcases h2 with rfl | rfl <;> cases c <;> simp [runStage, now, later, insert, comps, hs]

theorem input_temperature (rho u f : ℝ) (hr : rho ≠ 0) (hf : 1 + f ≠ 0) :
    Units.temperatureFromEnergyDensity (u * rho) f rho = gasTemperature u f := by
  have hb := Units.boltzmann_pos.ne'
  have hg : Units.gamma - 1.0 = 2 / 3 := by unfold Units.gamma; norm_num
  have hf' : f + 1 ≠ 0 := by rwa [add_comm]
  have h1 : ((1.0 : ℝ) / (f + 1.0)) = 1 / (f + 1) := by norm_num
  unfold Units.temperatureFromEnergyDensity Units.toTemperature gasTemperature
  simp only [hg, h1]
  rw [mul_div_assoc u rho rho, div_self hr, add_comm 1 f]
  field_simp

/-! ### Theorems -/

/-- **C105 (the state of a particle at the start).** However the scheduler orders the systems of the stages within the declared
constraints, and whether or not the particle moves to another rank: at the end of the startup the particle has density, ionized
fraction, temperature, source, photon rate, mass and cell, no internal energy and no electron abundance, and the values are
those of the specification. -/
theorem initial_state (e : Env) (hrho : e.row .density ≠ 0) (hf : -1 < inputFraction e) (schedule : List (List Sys))
    (hs : List.Forall₂ Allowed (stages e) schedule) :
    run e schedule .density = some (e.row .density) ∧
    run e schedule .fraction = some (startState e).1 ∧
    run e schedule .temperature = some (startState e).2 ∧
    run e schedule .source = some e.sources.sum ∧
    run e schedule .photonRate = some 0 ∧
    run e schedule .mass = some (e.row .density * e.volume) ∧
    run e schedule .cell = some e.volume ∧
    (run e schedule .localParticle).isSome ∧
    run e schedule .internalEnergy = none ∧ run e schedule .electronAbundance = none := by
  obtain ⟨f0, row, moves, remap, volume, sources⟩ := e
  have key : run ⟨f0, row, moves, remap, volume, sources⟩ schedule =
      comps (some 0) (some (row .density)) none none (some (startState ⟨f0, row, moves, remap, volume, sources⟩).1)
        (some (0 + sources.sum)) (some 0) (some (startState ⟨f0, row, moves, remap, volume, sources⟩).2)
        (some (row .density * volume)) (some volume) := by
    generalize he : (⟨f0, row, moves, remap, volume, sources⟩ : Env) = e at *
    unfold stages at hs
    simp only [List.forall₂_cons_left_iff, List.forall₂_nil_left_iff] at hs
    obtain ⟨o1, _, h1, ⟨o2, _, h2, ⟨o3, _, h3, ⟨o4, _, h4, ⟨o5, _, h5, ⟨o6, _, h6, ⟨o7, _, h7, rfl, rfl⟩, rfl⟩, rfl⟩, rfl⟩,
      rfl⟩, rfl⟩, rfl⟩ := hs
    have hx : ∃ xe : Option ℝ, later e .insertMissing (now e .setFraction (runStage e o2 (runStage e o1 fun _ => none)))
        (now e .setFraction (runStage e o2 (runStage e o1 fun _ => none))) =
        comps (some 0) (some (e.row .density)) (some (e.row .internalEnergy)) xe (some (inputFraction e)) (some 0) (some 0)
          (some (gasTemperature (e.row .internalEnergy) (inputFraction e))) (some 0) none := by
      rw [stage_single e _ o2 h2]
      cases hf0 : e.initialFraction with
      | none =>
        rw [hf0] at h1
        rw [stage_initial_none e hf0 o1 h1]
        refine ⟨some (e.row .electronAbundance), ?_⟩
        have hi : inputFraction e = clamp (1e-10) (1 - 1e-10) (0.76 * e.row .electronAbundance) := by
          rw [clamp_eq _ _ _ (by norm_num)]
          simp [inputFraction, hf0]
        rw [← input_temperature (e.row .density) _ _ hrho (by linarith)]
        rw [hi]
        funext c
        cases c <;> simp [now, later, insert, comps, hf0]
      | some v =>
        rw [hf0] at h1
        rw [stage_initial_some e o1 (by simpa using h1)]
        refine ⟨none, ?_⟩
        have hi : inputFraction e = v := by simp [inputFraction, hf0]
        rw [← input_temperature (e.row .density) _ _ hrho (by linarith)]
        rw [hi]
        funext c
        cases c <;> simp [now, later, insert, comps, hf0]
    obtain ⟨xe, hx⟩ := hx
    unfold run
    simp only [List.foldl_cons, List.foldl_nil]
    rw [stage_derived e o3 h3, hx, stage_single e _ o4 h4]
    have hex : ∃ u' xe' : Option ℝ, later e .exchange (comps (some 0) (some (e.row .density)) (some (e.row .internalEnergy)) xe
          (some (inputFraction e)) (some 0) (some 0)
          (some (gasTemperature (e.row .internalEnergy) (inputFraction e))) (some 0) none)
          (now e .exchange (comps (some 0) (some (e.row .density)) (some (e.row .internalEnergy)) xe
          (some (inputFraction e)) (some 0) (some 0)
          (some (gasTemperature (e.row .internalEnergy) (inputFraction e))) (some 0) none)) =
        comps (some 0) (some (e.row .density)) u' xe' (some (inputFraction e)) (some 0) (some 0)
          (some (gasTemperature (e.row .internalEnergy) (inputFraction e))) (some 0) none := by
      cases hm : e.moves with
      | false =>
        refine ⟨some (e.row .internalEnergy), xe, ?_⟩
        funext c
        cases c <;> simp [later, now, hm, comps]
      | true =>
        refine ⟨none, none, ?_⟩
        funext c
        cases c <;> simp [later, hm, exchanged, comps]
    obtain ⟨u', xe', hex⟩ := hex
    rw [hex, stage_single e _ o5 h5]
    have hre : later e .remap (comps (some 0) (some (e.row .density)) u' xe' (some (inputFraction e)) (some 0) (some 0)
          (some (gasTemperature (e.row .internalEnergy) (inputFraction e))) (some 0) none)
          (now e .remap (comps (some 0) (some (e.row .density)) u' xe' (some (inputFraction e)) (some 0) (some 0)
          (some (gasTemperature (e.row .internalEnergy) (inputFraction e))) (some 0) none)) =
        comps (some 0) (some (e.row .density)) u' xe' (some (startState e).1) (some 0) (some 0)
          (some (startState e).2) (some 0) none := by
      cases hm : e.remap with
      | none =>
        funext c
        cases c <;> simp [later, now, hm, startState, comps]
      | some p =>
        obtain ⟨t, f⟩ := p
        funext c
        cases c <;> simp [later, now, hm, startState, comps, insert]
    rw [hre, stage_grid e o6 h6, stage_after e o7 h7]
    subst he
    rfl
  rw [key]
  simp [comps]

/-- **C105 (no particle is lost).** The sweep has a site for every particle, with density, fraction, temperature and source of the
specification. -/
theorem initial_site (e : Env) (hrho : e.row .density ≠ 0) (hf : -1 < inputFraction e) (schedule : List (List Sys))
    (hs : List.Forall₂ Allowed (stages e) schedule) :
    site (run e schedule) = some (e.row .density, (startState e).1, (startState e).2, e.sources.sum) := by
  obtain ⟨h1, h2, h3, h4, -, -, -, h5, -⟩ := initial_state e hrho hf schedule hs
  obtain ⟨v, hv⟩ := Option.isSome_iff_exists.1 h5
  simp [site, h1, h2, h3, h4, hv]

/-- **C105 (range).** Without remapping the fraction computed from the electron abundance lies in `[1e-10, 1 - 1e-10]`, whatever the
file contains; the temperature is positive for gas with positive internal energy. -/
theorem initial_range (e : Env) (hrho : e.row .density ≠ 0) (h0 : e.initialFraction = none) (hr : e.remap = none)
    (schedule : List (List Sys)) (hs : List.Forall₂ Allowed (stages e) schedule) :
    ∃ f t, run e schedule .fraction = some f ∧ run e schedule .temperature = some t ∧
      1e-10 ≤ f ∧ f ≤ 1 - 1e-10 ∧ (0 < e.row .internalEnergy → 0 < t) := by
  have hi : inputFraction e = max (1e-10) (min (1 - 1e-10) (0.76 * e.row .electronAbundance)) := by
    simp [inputFraction, h0]
  have hlo : 1e-10 ≤ inputFraction e := by rw [hi]; exact le_max_left _ _
  have hhi : inputFraction e ≤ 1 - 1e-10 := by
    rw [hi]; exact max_le (by norm_num) (min_le_left _ _)
  have hpos : (0 : ℝ) < 1e-10 := by norm_num
  obtain ⟨-, h2, h3, -⟩ := initial_state e hrho (by linarith) schedule hs
  refine ⟨_, _, h2, h3, ?_⟩
  simp only [startState, hr]
  refine ⟨hlo, hhi, fun hu => ?_⟩
  unfold gasTemperature
  have h4 := Units.proton_pos
  have h5 := Units.boltzmann_pos
  have h6 : 0 < 1 + inputFraction e := by linarith
  positivity

/-- **C105 (thermal energy).** Without remapping the energy density which belongs to density, fraction and temperature at the start is
the specific energy of the file times the density of the file. -/
theorem initial_energy (e : Env) (hrho : e.row .density ≠ 0) (hf : -1 < inputFraction e) (hr : e.remap = none)
    (schedule : List (List Sys)) (hs : List.Forall₂ Allowed (stages e) schedule) :
    ∃ rho f t, run e schedule .density = some rho ∧ run e schedule .fraction = some f ∧
      run e schedule .temperature = some t ∧
      Units.energyDensityFromTemperature t f rho = e.row .internalEnergy * e.row .density := by
  obtain ⟨h1, h2, h3, -⟩ := initial_state e hrho hf schedule hs
  refine ⟨_, _, _, h1, h2, h3, ?_⟩
  simp only [startState, hr]
  rw [← input_temperature (e.row .density) _ _ hrho (by linarith)]
  exact (Units.temperature_energy_density_inverse _ _ hf hrho 0 _).2.1

open Verif.Parallel Verif.Geometry in
/-- **C105 (total mass).** In a gas of the same density everywhere, the masses of the particles of all ranks add up to the density
times the volume of the box.  `env r i` is the particle of rank `r` with the id `i`, `G r` the grid which rank `r` has
constructed. -/
theorem initial_mass_total {Id : Type} [DecidableEq Id] {W : World 3 Id} {eps' : ℝ} {periodic : Bool} (V : W.Valid)
    (hc : ∀ i, W.hi i - W.lo i = W.hi 0 - W.lo 0) (hN : W.particles ≠ [])
    {G : ℕ → List (Name Id × SweepCell Id)} (B : ∀ r, r < W.particles.length → Built eps' periodic W r (G r))
    (rho : ℝ) (hrho : rho ≠ 0) (env : ℕ → Id → Env) (schedule : ℕ → List (List Sys))
    (hd : ∀ r i, (env r i).row .density = rho) (hf : ∀ r i, -1 < inputFraction (env r i))
    (hv : ∀ r, ∀ p ∈ localCells (G r), (env r p.1).volume = p.2.volume)
    (hs : ∀ r i, List.Forall₂ Allowed (stages (env r i)) (schedule r)) :
    ((List.range W.particles.length).map fun r =>
      ((localCells (G r)).map fun p => (run (env r p.1) (schedule r) .mass).getD 0).sum).sum =
      rho * ∏ i, (W.hi i - W.lo i) := by
  rw [← grid_volumes_total V hc hN B, ← List.sum_map_mul_left]
  refine congrArg List.sum (List.map_congr_left fun r _ => ?_)
  rw [← List.sum_map_mul_left]
  refine congrArg List.sum (List.map_congr_left fun p hp => ?_)
  obtain ⟨-, -, -, -, -, h6, -⟩ := initial_state (env r p.1) (by rw [hd]; exact hrho) (hf r p.1) (schedule r) (hs r p.1)
  rw [h6, hd, hv r p hp, Option.getD_some]

/-! ### Examples -/

/-- A particle with electron abundance 1. -/
noncomputable def exampleEnv (moves : Bool) : Env where
  initialFraction := none
  row := fun _ => 1
  moves := moves
  remap := none
  volume := 2
  sources := [3, 4]

/-- An order which the scheduler may choose. -/
def exampleSchedule : List (List Sys) :=
  [ [.spawn, .read .electronAbundance, .read .internalEnergy, .read .density], [.insertFraction],
    [.setFraction, .insertMissing], [.exchange], [.remap], [.removeElectrons, .constructGrid, .removeEnergy],
    [.setSources, .cellMass] ]

theorem exampleSchedule_allowed (moves : Bool) : List.Forall₂ Allowed (stages (exampleEnv moves)) exampleSchedule := by
  simp only [stages, exampleEnv, exampleSchedule, Option.isNone_none, if_true, List.cons_append, List.nil_append]
  refine .cons ⟨?_, ?_⟩ (.cons ⟨?_, ?_⟩ (.cons ⟨?_, ?_⟩ (.cons ⟨?_, ?_⟩ (.cons ⟨?_, ?_⟩ (.cons ⟨?_, ?_⟩
    (.cons ⟨?_, ?_⟩ .nil)))))) <;> decide

example : inputFraction (exampleEnv true) = 0.76 := by
  simp only [inputFraction, exampleEnv]; norm_num

example : run (exampleEnv true) exampleSchedule .mass = some 2 ∧ run (exampleEnv true) exampleSchedule .source = some 7 := by
  have hf : -1 < inputFraction (exampleEnv true) := by simp only [inputFraction, exampleEnv]; norm_num
  obtain ⟨-, -, -, h4, -, h6, -⟩ := initial_state (exampleEnv true) (by simp [exampleEnv]) hf _ (exampleSchedule_allowed true)
  rw [h4, h6]
  simp only [exampleEnv]
  norm_num

/-- The declared constraint is needed: in the other order the temperature would be computed with the fraction zero. -/
example (e : Env) (h0 : e.initialFraction = none) (rho u xe : ℝ) :
    runStage e [.insertMissing, .setFraction] (comps (some 0) (some rho) (some u) (some xe) (some 0) none none none none none)
      .temperature = some (Units.temperatureFromEnergyDensity (u * rho) 0 rho) := by
  simp [runStage, now, later, insert, comps, h0]

end Verif.Initial
