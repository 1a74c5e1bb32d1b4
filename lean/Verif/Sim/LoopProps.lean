import Verif.Sim.LoopModel
import Verif.Sim.WholeProps
import Verif.IO.TimerProps

/-!
# C94, C95: the main loop
-/

namespace Verif.Sim

open Verif.Parallel Verif.Geometry

variable {eps' : ℝ} {periodic : Bool} {W : World 3 Sweep.Id} {G : ℕ → List (Name Sweep.Id × Cell)} {R C : Type}
  {numLevels : ℕ} {maxTimestep : ℝ} {chem : Sweep.Id → C} {L : Loop R C} {w0 : Whole R C}

/-! ### The timer of the snapshots -/

/-- The timer after some steps. -/
noncomputable def timerAfter (p : SnapshotTimer.Params ℝ) : SnapshotTimer.Timer ℝ → List (SnapshotTimer.Input ℝ) → SnapshotTimer.Timer ℝ
  | t, [] => t
  | t, i :: is => timerAfter p (SnapshotTimer.step p t i).1 is

theorem timer_snoc (p : SnapshotTimer.Params ℝ) (is : List (SnapshotTimer.Input ℝ)) (i : SnapshotTimer.Input ℝ) :
    ∀ t, SnapshotTimer.run p t (is ++ [i]) = SnapshotTimer.run p t is ++ [(SnapshotTimer.step p (timerAfter p t is) i).2] ∧
      timerAfter p t (is ++ [i]) = (SnapshotTimer.step p (timerAfter p t is) i).1 := by
  induction is with
  | nil => exact fun t => ⟨rfl, rfl⟩
  | cons j is ih =>
    intro t
    obtain ⟨h1, h2⟩ := ih (SnapshotTimer.step p t j).1
    refine ⟨?_, h2⟩
    show _ :: SnapshotTimer.run p _ (is ++ [i]) = _
    rw [h1]
    rfl

section
variable [AddCommGroup R] [Module ℝ R]

/-- What the timer sees of a report. -/
def Report.input (r : Report R C) : SnapshotTimer.Input ℝ := ⟨r.sim.time, r.exit⟩

/-- What holds for the reports. -/
structure History (L : Loop R C) (w0 : Whole R C) (rs : List (Report R C)) : Prop where
  sim : ∀ (k : ℕ) (r : Report R C), rs[k]? = some r → Simulated L.physics w0 r.sim ∧ r.sim.calls = k
  zero : ∀ r : Report R C, rs[0]? = some r → r.sim = w0 ∧ (r.ionized = fun _ => ⊤) ∧ r.exit = L.stops w0
  next : ∀ (k : ℕ) (r r' : Report R C), rs[k]? = some r → rs[k + 1]? = some r' → Call L.physics r.sim r'.sim ∧
    r'.ionized = L.recordIonization r'.sim r.ionized ∧ r'.exit = L.stops r.sim
  snapshots : rs.map Report.snapshot = SnapshotTimer.simulate L.output (rs.map Report.input)

/-- What holds while the loop is running. -/
structure Going (L : Loop R C) (w0 : Whole R C) (a : App R C) (rs : List (Report R C)) : Prop where
  total : a.total = true
  first : a.isFirst = rs.isEmpty
  sim : Simulated L.physics w0 a.sim
  calls : a.sim.calls = rs.length - 1
  begin : rs = [] → a.sim = w0 ∧ a.ionized = fun _ => ⊤
  last : ∀ r : Report R C, rs[rs.length - 1]? = some r → r.sim = a.sim ∧ r.ionized = a.ionized
  timer : a.timer = timerAfter L.output (.initialize L.output) (rs.map Report.input)
  noExit : ∀ r ∈ rs, r.exit = false
  history : History L w0 rs

omit [AddCommGroup R] [Module ℝ R] in
theorem Loop.finish_spec {b : App R C} {stop : Bool} (hb : b.total = true) {o : Option (App R C × Report R C)}
    (h : L.finish stop b = o) :
    ∃ a' r, o = some (a', r) ∧ r.sim = b.sim ∧ r.ionized = b.ionized ∧ r.exit = stop ∧ a'.sim = b.sim ∧ a'.ionized = b.ionized ∧
      a'.isFirst = b.isFirst ∧ a'.total = !stop ∧ a'.timer = (SnapshotTimer.step L.output b.timer ⟨b.sim.time, stop⟩).1 ∧
      r.snapshot = (SnapshotTimer.step L.output b.timer ⟨b.sim.time, stop⟩).2 := by
  unfold Loop.finish at h
  rw [hb, if_neg (by simp)] at h
  exact ⟨_, _, h.symm, rfl, rfl, rfl, rfl, rfl, rfl, by simp, rfl, rfl⟩

/-- The two kinds of frames. -/
theorem Going.before {a : App R C} {rs : List (Report R C)} (I : Going L w0 a rs) (hc0 : w0.calls = 0)
    {o : Option (App R C × Report R C)} (h : Frame L a o) :
    ∃ b, L.finish (L.stops a.sim) b = o ∧ b.total = true ∧ b.isFirst = false ∧ b.timer = a.timer ∧ Simulated L.physics w0 b.sim ∧
      b.sim.calls = rs.length ∧ (rs = [] → b.sim = w0 ∧ b.ionized = fun _ => ⊤) ∧
      (rs ≠ [] → Call L.physics a.sim b.sim ∧ b.ionized = L.recordIonization b.sim a.ionized) := by
  cases h with
  | first hf =>
    rw [I.first, List.isEmpty_iff] at hf
    refine ⟨_, rfl, I.total, rfl, rfl, I.sim, ?_, I.begin, fun hne => absurd hf hne⟩
    show a.sim.calls = _
    rw [(I.begin hf).1, hc0, hf]
    rfl
  | sweep w hf hc =>
    rw [I.first] at hf
    have hne : rs ≠ [] := by
      rintro rfl
      simp at hf
    refine ⟨_, rfl, I.total, by rw [← hf, ← I.first], rfl, .call _ _ I.sim hc, ?_, fun e => absurd e hne, fun _ => ⟨hc, rfl⟩⟩
    have hl := List.length_pos_of_ne_nil hne
    have e : w.calls = a.sim.calls + 1 := by
      cases hc
      rfl
    show w.calls = _
    rw [e, I.calls]
    omega

theorem Going.frame {a : App R C} {rs : List (Report R C)} (I : Going L w0 a rs) (hc0 : w0.calls = 0)
    {o : Option (App R C × Report R C)} (h : Frame L a o) :
    ∃ a' r, o = some (a', r) ∧ r.exit = L.stops a.sim ∧ History L w0 (rs ++ [r]) ∧ (r.exit = false → Going L w0 a' (rs ++ [r])) := by
  obtain ⟨b, hb, b1, b2, b3, b4, b5, b6, b7⟩ := I.before hc0 h
  obtain ⟨a', r, ho, r1, r2, r3, a1, a2, a3, a4, a5, r4⟩ := Loop.finish_spec b1 hb
  have hin : (⟨b.sim.time, L.stops a.sim⟩ : SnapshotTimer.Input ℝ) = r.input := by rw [Report.input, r1, r3]
  rw [hin, b3, I.timer] at a5 r4
  obtain ⟨t1, t2⟩ := timer_snoc L.output (rs.map Report.input) r.input (.initialize L.output)
  have H : History L w0 (rs ++ [r]) := by
    refine ⟨fun k x hx => ?_, fun x hx => ?_, fun k x x' hx hx' => ?_, ?_⟩
    · rcases lt_trichotomy k rs.length with hk | rfl | hk
      · rw [List.getElem?_append_left hk] at hx
        exact I.history.sim k x hx
      · rw [List.getElem?_concat_length] at hx
        obtain rfl := Option.some.inj hx
        rw [r1]
        exact ⟨b4, b5⟩
      · rw [List.getElem?_eq_none (by simp; omega)] at hx
        cases hx
    · by_cases hrs : rs = []
      · subst hrs
        obtain rfl := Option.some.inj hx
        rw [r1, r2, r3, (I.begin rfl).1]
        exact ⟨(b6 rfl).1, (b6 rfl).2, rfl⟩
      · rw [List.getElem?_append_left (List.length_pos_of_ne_nil hrs)] at hx
        exact I.history.zero x hx
    · rcases lt_trichotomy (k + 1) rs.length with hk | hk | hk
      · rw [List.getElem?_append_left (by omega)] at hx hx'
        exact I.history.next k x x' hx hx'
      · rw [hk, List.getElem?_concat_length] at hx'
        obtain rfl := Option.some.inj hx'
        rw [List.getElem?_append_left (by omega), show k = rs.length - 1 by omega] at hx
        obtain ⟨e1, e2⟩ := I.last x hx
        rw [r1, r2, r3, e1, e2]
        have hne : rs ≠ [] := List.ne_nil_of_length_pos (by omega)
        exact ⟨(b7 hne).1, (b7 hne).2, rfl⟩
      · rw [List.getElem?_eq_none (by simp; omega)] at hx'
        cases hx'
    · rw [List.map_append, List.map_append, I.history.snapshots, List.map_singleton, List.map_singleton, r4]
      exact t1.symm
  refine ⟨a', r, ho, r3, H, fun hex => ?_⟩
  rw [r3] at hex
  refine ⟨by rw [a4, hex]; rfl, ?_, by rw [a1]; exact b4, ?_, fun e => absurd e (by simp), fun x hx => ?_, ?_, ?_, H⟩
  · rw [a3, b2]
    simp
  · rw [a1, b5]
    simp
  · rw [List.length_append, List.length_singleton, Nat.add_sub_cancel, List.getElem?_concat_length] at hx
    obtain rfl := Option.some.inj hx
    rw [r1, r2, a1, a2]
    exact ⟨rfl, rfl⟩
  · rw [a5, List.map_append, List.map_singleton]
    exact t2.symm
  · intro x hx
    rcases List.mem_append.1 hx with hx | hx
    · exact I.noExit x hx
    · rw [List.mem_singleton.1 hx, r3, hex]

theorem going (hc0 : w0.calls = 0) {a : App R C} {rs : List (Report R C)} (h : Frames L (L.start w0) a rs) : Going L w0 a rs := by
  induction h with
  | nil =>
    refine ⟨rfl, rfl, .refl, hc0, fun _ => ⟨rfl, rfl⟩, fun r hr => by simp at hr, rfl, by simp, ⟨?_, ?_, ?_, rfl⟩⟩ <;> simp
  | snoc a a' rs r _ hf hex ih =>
    obtain ⟨a1, r1, e, -, -, hg⟩ := ih.frame hc0 hf
    obtain ⟨rfl, rfl⟩ := Prod.mk.inj (Option.some.inj e)
    exact hg hex

theorem observed (hc0 : w0.calls = 0) {rs : List (Report R C)} (h : Observed L (L.start w0) rs) : History L w0 rs := by
  rcases h with ⟨a, h⟩ | ⟨a, rs', a', r, h, hf, -, rfl⟩
  · exact (going hc0 h).history
  · obtain ⟨a1, r1, e, -, hh, -⟩ := (going hc0 h).frame hc0 hf
    obtain ⟨rfl, rfl⟩ := Prod.mk.inj (Option.some.inj e)
    exact hh

omit [Module ℝ R] in
theorem firstState_calls (h0 : firstState maxTimestep numLevels W.particles.length G chem = some w0) : w0.calls = 0 ∧ w0.time = 0 := by
  unfold firstState at h0
  split at h0
  · simp at h0
  · split at h0
    · simp at h0
    · obtain rfl := Option.some.inj h0
      exact ⟨rfl, rfl⟩

/-! ### The theorems -/

/-- Specification: the time after `n` time steps.  With `N` levels the time steps are, in units of the largest one,
`2⁻ᴺ⁺¹, 2⁻ᴺ⁺¹, 2⁻ᴺ⁺², ..., 1/2, 1, 1, ...`. -/
noncomputable def clockAfter (maxTimestep : ℝ) (N n : ℕ) : ℝ :=
  if n = 0 then 0 else if n ≤ N then maxTimestep / 2 ^ (N - n) else maxTimestep * (n - N + 1)

theorem clockAfter_step {N : ℕ} (hN : 0 < N) (hm : 0 < maxTimestep) (n : ℕ) :
    clockAfter maxTimestep N n < clockAfter maxTimestep N (n + 1) ∧
      clockAfter maxTimestep N (n + 1) ≤ clockAfter maxTimestep N n + maxTimestep := by
  unfold clockAfter
  rw [if_neg (Nat.succ_ne_zero n)]
  rcases Nat.eq_zero_or_pos n with rfl | hp
  · rw [if_pos rfl, if_pos (by omega), zero_add, zero_add]
    have h1 : (1 : ℝ) ≤ 2 ^ (N - 1) := one_le_pow₀ (by norm_num)
    exact ⟨by positivity, div_le_self hm.le h1⟩
  · rw [if_neg (by omega)]
    by_cases h1 : n + 1 ≤ N
    · rw [if_pos (by omega), if_pos h1]
      obtain ⟨d, rfl⟩ : ∃ d, N = n + 1 + d := ⟨N - (n + 1), by omega⟩
      rw [show n + 1 + d - n = d + 1 by omega, show n + 1 + d - (n + 1) = d by omega, pow_succ]
      have h2 : (1 : ℝ) ≤ 2 ^ d := one_le_pow₀ (by norm_num)
      have h3 : maxTimestep / (2 ^ d * 2) = maxTimestep / 2 ^ d / 2 := by rw [div_div]
      have h4 : 0 < maxTimestep / 2 ^ d := by positivity
      have h5 : maxTimestep / 2 ^ d ≤ maxTimestep := div_le_self hm.le h2
      rw [h3]
      constructor <;> linarith
    · rw [if_neg h1]
      push_cast
      by_cases h2 : n ≤ N
      · obtain rfl : n = N := by omega
        rw [if_pos le_rfl, Nat.sub_self]
        constructor <;> nlinarith
      · rw [if_neg h2]
        constructor <;> nlinarith

theorem Simulated.clock (H : Ready eps' periodic W G) (hN : 0 < W.particles.length) (hn : 0 < numLevels) (hn' : numLevels < 32)
    (h0 : firstState maxTimestep numLevels W.particles.length G chem = some w0) {w : Whole R C}
    (h : Simulated L.physics w0 w) : w.time = clockAfter maxTimestep numLevels w.calls := by
  obtain ⟨ts0, h1, h2⟩ := (simulation_time H hN hn hn' h0 h).1
  unfold Timestep.State.new at h1
  rw [if_neg (by omega)] at h1
  obtain rfl := Option.some.inj h1
  have h3 := congrArg Prod.snd h2
  dsimp only at h3
  rw [h3, (Timestep.cycles_spec maxTimestep numLevels hn w.calls).2]
  unfold clockAfter Timestep.asFactor
  rw [one_div, inv_pow, ← div_eq_mul_inv]

theorem Simulated.next (H : Ready eps' periodic W G) (hN : 0 < W.particles.length) (hn : 0 < numLevels) (hn' : numLevels < 32)
    (h0 : firstState maxTimestep numLevels W.particles.length G chem = some w0) {w : Whole R C}
    (h : Simulated L.physics w0 w) : ∃ w', Call L.physics w w' := by
  obtain ⟨levels, -, hne, hterm, -, hnext⟩ := simulation_goes_on H hN hn hn' h0 h
  obtain ⟨w1, e1, hok⟩ := firstState_ok (R := R) (maxTimestep := maxTimestep) (chem := chem) H hn hn'
  rw [h0] at e1
  obtain rfl := Option.some.inj e1
  obtain ⟨lev, A, -⟩ := (h.ok H hok).levels
  obtain ⟨E, hE⟩ := Sweep.exists_fair_overlap (P := sequence L.physics w levels) (wellFormed H A)
    (List.length_pos_of_ne_nil hne) w.cells
  obtain ⟨m, hm⟩ := hterm E hE
  obtain ⟨w', hc, -⟩ := hnext (E.st m) (E.reach m) hm
  exact ⟨w', hc⟩

/-- **The loop never gets stuck.**  As long as it runs, the next frame is possible, and no frame panics. -/
theorem loop_goes_on (H : Ready eps' periodic W G) (hN : 0 < W.particles.length) (hn : 0 < numLevels) (hn' : numLevels < 32)
    (h0 : firstState maxTimestep numLevels W.particles.length G chem = some w0) {a : App R C} {rs : List (Report R C)}
    (h : Frames L (L.start w0) a rs) : (∃ a' r, Frame L a (some (a', r))) ∧ ¬ Frame L a none := by
  have hc0 := (firstState_calls h0).1
  have I := going hc0 h
  constructor
  · have hex : ∃ o, Frame L a o := by
      cases hf : a.isFirst with
      | true => exact ⟨_, .first hf⟩
      | false =>
        obtain ⟨w, hw⟩ := I.sim.next H hN hn hn' h0
        exact ⟨_, .sweep w hf hw⟩
    obtain ⟨o, ho⟩ := hex
    obtain ⟨a', r, rfl, -⟩ := I.frame hc0 ho
    exact ⟨a', r, ho⟩
  · intro hf
    obtain ⟨a', r, e, -⟩ := I.frame hc0 hf
    cases e

/-- **What the frames see.**  Frame `k` sees the state after `k` time steps, the first one the initial conditions. -/
theorem loop_states (H : Ready eps' periodic W G) (hN : 0 < W.particles.length) (hn : 0 < numLevels) (hn' : numLevels < 32)
    (h0 : firstState maxTimestep numLevels W.particles.length G chem = some w0) {rs : List (Report R C)}
    (h : Observed L (L.start w0) rs) {k : ℕ} {r : Report R C} (hr : rs[k]? = some r) :
    Simulated L.physics w0 r.sim ∧ r.sim.calls = k ∧ r.sim.time = clockAfter maxTimestep numLevels k ∧ (k = 0 → r.sim = w0) ∧
      ∀ r', rs[k + 1]? = some r' → Call L.physics r.sim r'.sim := by
  have HH := observed (firstState_calls h0).1 h
  obtain ⟨h1, h2⟩ := HH.sim k r hr
  refine ⟨h1, h2, ?_, ?_, fun r' hr' => (HH.next k r r' hr hr').1⟩
  · rw [h1.clock H hN hn hn' h0, h2]
  · rintro rfl
    exact (HH.zero r hr).1

/-- **The loop ends** if there is a final time, after a number of frames which is known in advance. -/
theorem loop_ends (H : Ready eps' periodic W G) (hN : 0 < W.particles.length) (hn : 0 < numLevels) (hn' : numLevels < 32)
    (hm : 0 < maxTimestep) (h0 : firstState maxTimestep numLevels W.particles.length G chem = some w0) {t : ℝ}
    (ht : L.finalTime = some t) {a : App R C} {rs : List (Report R C)} (h : Frames L (L.start w0) a rs) :
    rs.length ≤ numLevels + ⌈t / maxTimestep⌉₊ + 1 := by
  have hc0 := (firstState_calls h0).1
  have I := going hc0 h
  by_contra hlong
  push Not at hlong
  obtain ⟨n, hl⟩ : ∃ n, rs.length = n + 2 := ⟨rs.length - 2, by omega⟩
  obtain ⟨r, hr⟩ : ∃ r, rs[n]? = some r := ⟨_, List.getElem?_eq_getElem (by omega)⟩
  obtain ⟨r', hr'⟩ : ∃ r, rs[n + 1]? = some r := ⟨_, List.getElem?_eq_getElem (by omega)⟩
  have h1 := (I.history.next n r r' hr hr').2.2
  rw [I.noExit r' (List.mem_of_getElem? hr')] at h1
  unfold Loop.stops at h1
  rw [ht] at h1
  have h2 := of_decide_eq_false h1.symm
  rw [(I.history.sim n r hr).1.clock H hN hn hn' h0, (I.history.sim n r hr).2] at h2
  push Not at h2
  unfold clockAfter at h2
  have hnN : numLevels ≤ n := by omega
  rw [if_neg (by omega)] at h2
  have h3 : maxTimestep * (n - numLevels + 1) < t := by
    split at h2
    · obtain rfl : n = numLevels := by omega
      simpa using h2
    · exact h2
  have h4 : ((n - numLevels + 1 : ℕ) : ℝ) < t / maxTimestep := by
    rw [lt_div_iff₀ hm]
    push_cast [hnN]
    linarith
  have h5 := Nat.lt_ceil.2 h4
  omega

/-- Such a run exists. -/
theorem loop_has_end (H : Ready eps' periodic W G) (hN : 0 < W.particles.length) (hn : 0 < numLevels) (hn' : numLevels < 32)
    (hm : 0 < maxTimestep) (h0 : firstState maxTimestep numLevels W.particles.length G chem = some w0) {t : ℝ}
    (ht : L.finalTime = some t) : ∃ rs, Ended L (L.start w0) rs := by
  by_contra hno
  have hall : ∀ n, ∃ a rs, Frames L (L.start w0) a rs ∧ rs.length = n := by
    intro n
    induction n with
    | zero => exact ⟨_, [], .nil, rfl⟩
    | succ n ih =>
      obtain ⟨a, rs, h, rfl⟩ := ih
      obtain ⟨a', r, hf⟩ := (loop_goes_on H hN hn hn' h0 h).1
      cases hex : r.exit with
      | true => exact absurd ⟨_, a, rs, a', r, h, hf, hex, rfl⟩ hno
      | false => exact ⟨a', rs ++ [r], .snoc a a' rs r h hf hex, by simp⟩
  obtain ⟨a, rs, h, hl⟩ := hall (numLevels + ⌈t / maxTimestep⌉₊ + 2)
  have := loop_ends H hN hn hn' hm h0 ht h
  omega

/-- **The end of the loop.**  It ends only if there is a final time.  If the final time is not positive, it ends with the initial
conditions; otherwise it ends one time step after the first one which reaches the final time.  A snapshot of the last state is
written. -/
theorem loop_final (H : Ready eps' periodic W G) (hN : 0 < W.particles.length) (hn : 0 < numLevels) (hn' : numLevels < 32)
    (hm : 0 < maxTimestep) (h0 : firstState maxTimestep numLevels W.particles.length G chem = some w0) {rs : List (Report R C)}
    (h : Ended L (L.start w0) rs) :
    ∃ t r, L.finalTime = some t ∧ rs.getLast? = some r ∧ (∃ s, r.snapshot = some s ∧ s.writesDynamic = true) ∧
      (t ≤ 0 → rs.length = 1 ∧ r.sim = w0) ∧
      (0 < t → ∃ n, rs.length = n + 3 ∧ clockAfter maxTimestep numLevels n < t ∧ t ≤ clockAfter maxTimestep numLevels (n + 1) ∧
        r.sim.time = clockAfter maxTimestep numLevels (n + 2) ∧ r.sim.time < t + 2 * maxTimestep) := by
  have hc0 := (firstState_calls h0).1
  have HH := observed hc0 (Or.inr h)
  obtain ⟨a, rs', a', r, hfr, hf, hex, rfl⟩ := h
  have I := going hc0 hfr
  have hlast : (rs' ++ [r])[rs'.length]? = some r := List.getElem?_concat_length
  obtain ⟨a1, r1, e, hstop, -⟩ := I.frame hc0 hf
  obtain ⟨rfl, rfl⟩ := Prod.mk.inj (Option.some.inj e)
  rw [hex] at hstop
  have hstops : ∀ w : Whole R C, L.stops w = true ↔ ∃ t, L.finalTime = some t ∧ t ≤ w.time := by
    intro w
    unfold Loop.stops
    split
    · rename_i t ht
      rw [decide_eq_true_eq]
      constructor
      · exact fun h => ⟨t, ht, h⟩
      · rintro ⟨t', h1, h2⟩
        rw [ht] at h1
        obtain rfl := Option.some.inj h1
        exact h2
    · rename_i ht
      simp [ht]
  obtain ⟨t, ht, hle⟩ := (hstops _).1 hstop.symm
  obtain ⟨hs1, hs2⟩ := HH.sim _ r hlast
  have hclk := fun (w : Whole R C) (hw : Simulated L.physics w0 w) => hw.clock H hN hn hn' h0
  refine ⟨t, r, ht, by simp, ?_, fun ht0 => ?_, fun ht0 => ?_⟩
  · have hin : ((rs' ++ [r]).map Report.input)[rs'.length]? = some r.input := by rw [List.getElem?_map, hlast]; rfl
    have := (SnapshotTimer.snapshot_step L.output _ _ _ hin _ rfl).1 (Or.inl hex)
    rw [← HH.snapshots, List.getElem?_map, hlast] at this
    exact ⟨_, Option.some.inj this, rfl⟩
  · cases rs' with
    | nil => exact ⟨rfl, (HH.zero r rfl).1⟩
    | cons x xs =>
      have := (HH.zero x rfl).2.2
      rw [I.noExit x List.mem_cons_self] at this
      have h2 := (hstops w0).2 ⟨t, ht, by rw [(firstState_calls h0).2]; exact ht0⟩
      rw [h2] at this
      cases this
  · rw [hclk _ I.sim, I.calls] at hle
    have hlen : 2 ≤ rs'.length := by
      by_contra hc
      rw [show rs'.length - 1 = 0 by omega] at hle
      unfold clockAfter at hle
      rw [if_pos rfl] at hle
      linarith
    obtain ⟨n, hn2⟩ : ∃ n, rs'.length = n + 2 := ⟨rs'.length - 2, by omega⟩
    obtain ⟨x, hx⟩ : ∃ r, rs'[n]? = some r := ⟨_, List.getElem?_eq_getElem (by omega)⟩
    obtain ⟨x', hx'⟩ : ∃ r, rs'[n + 1]? = some r := ⟨_, List.getElem?_eq_getElem (by omega)⟩
    have h1 := (I.history.next n x x' hx hx').2.2
    rw [I.noExit x' (List.mem_of_getElem? hx')] at h1
    have h2 : ¬ t ≤ x.sim.time := fun hc => by
      have := (hstops x.sim).2 ⟨t, ht, hc⟩
      rw [← h1] at this
      cases this
    rw [hclk _ (I.history.sim n x hx).1, (I.history.sim n x hx).2] at h2
    push Not at h2
    have hrt : r.sim.time = clockAfter maxTimestep numLevels (n + 2) := by rw [hclk _ hs1, hs2, hn2]
    refine ⟨n, by simp [hn2], h2, by rw [hn2] at hle; exact hle, hrt, ?_⟩
    rw [hrt]
    have s1 := (clockAfter_step (N := numLevels) hn hm n).2
    have s2 := (clockAfter_step (N := numLevels) hn hm (n + 1)).2
    linarith

/-- **The snapshots.**  They are numbered in order; frame `k`, before which `n` snapshots have been written, writes one if the
time is due or the loop ends, and then with all dynamic datasets, the static ones only the first time. -/
theorem loop_snapshots (H : Ready eps' periodic W G) (hN : 0 < W.particles.length) (hn : 0 < numLevels) (hn' : numLevels < 32)
    (h0 : firstState maxTimestep numLevels W.particles.length G chem = some w0) {rs : List (Report R C)}
    (h : Observed L (L.start w0) rs) {k : ℕ} {r : Report R C} (hr : rs[k]? = some r) :
    ∃ n, n = ((rs.take k).filterMap Report.snapshot).length ∧ r.snapshot =
      if r.exit = true ∨ L.output.timeFirstSnapshot.getD 0 + n * L.output.timeBetweenSnapshots ≤ clockAfter maxTimestep numLevels k
      then some ⟨n, decide (n = 0), true⟩ else none := by
  have HH := observed (firstState_calls h0).1 h
  have hin : (rs.map Report.input)[k]? = some r.input := by rw [List.getElem?_map, hr]; rfl
  obtain ⟨h1, h2⟩ := SnapshotTimer.snapshot_step L.output _ _ _ hin _ rfl
  have hw : SnapshotTimer.written ((SnapshotTimer.simulate L.output (rs.map Report.input)).take k) =
      (rs.take k).filterMap Report.snapshot := by
    rw [← HH.snapshots, ← List.map_take]
    unfold SnapshotTimer.written
    rw [List.filterMap_map]
    rfl
  rw [hw, ← HH.snapshots, List.getElem?_map, hr] at h1 h2
  refine ⟨_, rfl, ?_⟩
  have ht : r.input.time = clockAfter maxTimestep numLevels k := (loop_states H hN hn hn' h0 h hr).2.2.1
  rw [ht] at h1 h2
  unfold SnapshotTimer.dueTime at h1 h2
  split
  · rename_i hc
    exact Option.some.inj (h1 hc)
  · rename_i hc
    exact Option.some.inj (h2 hc)

/-- **The ionization time** of a particle is the time after the first time step at whose end more than half of its hydrogen was
ionized, and infinite if there was none. -/
theorem ionization_time (H : Ready eps' periodic W G) (hN : 0 < W.particles.length) (hn : 0 < numLevels) (hn' : numLevels < 32)
    (h0 : firstState maxTimestep numLevels W.particles.length G chem = some w0) {rs : List (Report R C)}
    (h : Observed L (L.start w0) rs) {k : ℕ} {r : Report R C} (hr : rs[k]? = some r) (u : Sweep.Id) :
    ((∀ j r', 1 ≤ j → j ≤ k → rs[j]? = some r' → L.fraction (r'.sim.cells.chem u) ≤ 1 / 2) → r.ionized u = ⊤) ∧
    ∀ j r', 1 ≤ j → j ≤ k → rs[j]? = some r' → 1 / 2 < L.fraction (r'.sim.cells.chem u) →
      (∀ i r'', 1 ≤ i → i < j → rs[i]? = some r'' → L.fraction (r''.sim.cells.chem u) ≤ 1 / 2) →
      r.ionized u = ((clockAfter maxTimestep numLevels j : ℝ) : WithTop ℝ) := by
  have HH := observed (firstState_calls h0).1 h
  induction k generalizing r with
  | zero =>
    refine ⟨fun _ => by rw [(HH.zero r hr).2.1], fun j r' h1 h2 => by omega⟩
  | succ k ih =>
    have hk : k < rs.length := by
      have := (List.getElem?_eq_some_iff.1 hr).1
      omega
    obtain ⟨x, hx⟩ : ∃ r, rs[k]? = some r := ⟨_, List.getElem?_eq_getElem hk⟩
    obtain ⟨i1, i2⟩ := ih hx
    have hrec := congrFun (HH.next k x r hx hr).2.1 u
    unfold Loop.recordIonization at hrec
    have hhalf : (0.5 : ℝ) = 1 / 2 := by norm_num
    rw [hhalf] at hrec
    refine ⟨fun hall => ?_, fun j r' h1 h2 hj hf hbefore => ?_⟩
    · rw [hrec, if_neg (fun hc => not_lt.2 (hall (k + 1) r (by omega) le_rfl hr) hc.1)]
      exact i1 fun j r' h1 h2 => hall j r' h1 (by omega)
    · rcases Nat.lt_or_ge j (k + 1) with hlt | hge
      · have := i2 j r' h1 (by omega) hj hf hbefore
        rw [hrec, if_neg (fun hc => by rw [this] at hc; exact WithTop.coe_ne_top hc.2), this]
      · obtain rfl : j = k + 1 := by omega
        rw [hr] at hj
        obtain rfl := Option.some.inj hj
        have := i1 fun i r'' h3 h4 => hbefore i r'' h3 (by omega)
        rw [hrec, if_pos ⟨hf, this⟩, (loop_states H hN hn hn' h0 h hr).2.2.1]

end

end Verif.Sim
