import Verif.Sim.LoopModel
import Verif.Cosmology.Model

/-!
# Scale factor and redshift in the main loop

Models the systems which keep the scale factor, the redshift and h of a cosmological run: `set_initial_cosmology_attributes_system`
(`/repo/src/cosmology.rs`) in the startup and `set_cosmological_time_variables_system` (`/repo/src/simulation_plugin/mod.rs`) in
the stage `Initial` of every frame, that is before the time is advanced in the stage `Sweep`.  The attributes of a snapshot are
written in the stage `CreateOutputFiles` (`/repo/src/io/output/plugin.rs`), after both.
-/

namespace Verif.Sim

open Verif.Cosmology (Cosmology TimeSpec scalefactorToRedshift)

/-- The resources `ScaleFactor`, `Redshift` and `LittleH`, which are written as attributes. -/
structure Epoch where
  scaleFactor : ℝ
  redshift : ℝ
  littleH : ℝ

/-- `set_initial_cosmology_attributes_system`, cosmology.rs lines 161-165, with `Cosmology::redshift` (lines 37-39). -/
noncomputable def Epoch.initial (c : Cosmology) : Option Epoch := do
  let h ← c.littleH
  some ⟨c.scaleFactor, scalefactorToRedshift c.scaleFactor, h⟩

/-- `set_cosmological_time_variables_system`, simulation_plugin/mod.rs lines 184-199; `none` is a panic of the search for the scale
factor. -/
noncomputable def Epoch.advance (nanNegative : ℕ → Bool) (c : Cosmology) (time : ℝ) (e : Epoch) : Option Epoch := do
  let spec ← TimeSpec.new nanNegative time c
  match spec with
  | .time _ => some e
  | .cosmological _ z a => some { e with scaleFactor := a, redshift := z }

section
variable {R C : Type} [AddCommGroup R] [Module ℝ R]

/-- The loop of a cosmological run is running after these frames; each is seen with the attributes at the time of the output. -/
inductive EpochFrames (L : Loop R C) (c : Cosmology) (a0 : App R C) : App R C → Epoch → List (Report R C × Epoch) → Prop
  | nil (e : Epoch) : Epoch.initial c = some e → EpochFrames L c a0 a0 e []
  | snoc (nanNegative : ℕ → Bool) (a a' : App R C) (e e' : Epoch) (rs : List (Report R C × Epoch)) (r : Report R C) :
      EpochFrames L c a0 a e rs → e.advance nanNegative c a.sim.time = some e' → Frame L a (some (a', r)) → r.exit = false →
      EpochFrames L c a0 a' e' (rs ++ [(r, e')])

/-- The loop of a cosmological run has ended after these frames. -/
def EpochEnded (L : Loop R C) (c : Cosmology) (a0 : App R C) (rs : List (Report R C × Epoch)) : Prop :=
  ∃ nanNegative a e rs' a' e' r, EpochFrames L c a0 a e rs' ∧ e.advance nanNegative c a.sim.time = some e' ∧
    Frame L a (some (a', r)) ∧ r.exit = true ∧ rs = rs' ++ [(r, e')]

/-- The frames of a cosmological run, ended or not. -/
def EpochObserved (L : Loop R C) (c : Cosmology) (a0 : App R C) (rs : List (Report R C × Epoch)) : Prop :=
  (∃ a e, EpochFrames L c a0 a e rs) ∨ EpochEnded L c a0 rs

end

end Verif.Sim
