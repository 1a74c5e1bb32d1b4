import Verif.Chemistry.Spec

/-!
# Sub-stepping: helper lemmas
-/

namespace Verif.Chemistry

variable {K : Type} [Field K] [LinearOrder K] [IsStrictOrderedRing K]

omit [IsStrictOrderedRing K] in
theorem f64Clamp_spec (x lo hi : K) (h : lo ≤ hi) : ∃ y, f64Clamp x lo hi = some y ∧ lo ≤ y ∧ y ≤ hi ∧
    (x < y → y = lo) ∧ (y < x → y = hi) := by
  unfold f64Clamp
  rw [if_pos h]
  by_cases h1 : x < lo
  · rw [if_pos h1]
    exact ⟨lo, rfl, le_refl _, h, fun _ => rfl, fun h' => absurd h1 (not_lt.2 h'.le)⟩
  · rw [if_neg h1]
    by_cases h2 : x > hi
    · rw [if_pos h2]
      exact ⟨hi, rfl, h, le_refl _, fun h' => absurd h2 (not_lt.2 h'.le), fun _ => rfl⟩
    · rw [if_neg h2]
      exact ⟨x, rfl, not_lt.1 h1, not_lt.1 h2, fun h' => absurd h' (lt_irrefl _),
        fun h' => absurd h' (lt_irrefl _)⟩

omit [IsStrictOrderedRing K] in
theorem clamp_spec (s : Solver K) (h : lowerLimit s.floor ≤ 1 - 1 / 10 ^ 10) :
    ∃ s', clamp s = some s' ∧ Clamped s s' := by
  obtain ⟨y, hy, h1, h2, h3, h4⟩ := f64Clamp_spec s.ionizedHydrogenFraction (lowerLimit s.floor)
    (1 - 1 / 10 ^ 10) h
  obtain ⟨x, T, rho, V, L, R, a, floor⟩ := s
  cases floor with
  | none =>
    refine ⟨⟨y, T, rho, V, L, R, a, none⟩, ?_, ⟨⟨rfl, rfl, rfl, rfl, rfl, rfl⟩, ⟨h1, h2, ?_⟩, h3, h4,
      Or.inl rfl⟩⟩
    · unfold clamp
      dsimp only [lowerLimit, epsilon] at hy ⊢
      rw [hy]
      rfl
    · intro f hf
      cases hf
  | some f =>
    obtain ⟨tf, xf⟩ := f
    by_cases ht : T < tf
    · refine ⟨⟨y, tf, rho, V, L, R, a, some (tf, xf)⟩, ?_, ⟨⟨rfl, rfl, rfl, rfl, rfl, rfl⟩,
        ⟨h1, h2, ?_⟩, h3, h4, Or.inr ⟨(tf, xf), rfl, ht, rfl⟩⟩⟩
      · unfold clamp
        dsimp only [lowerLimit, epsilon] at hy ⊢
        rw [hy]
        exact if_pos ht
      · intro f hf
        cases hf
        exact le_refl _
    · refine ⟨⟨y, T, rho, V, L, R, a, some (tf, xf)⟩, ?_, ⟨⟨rfl, rfl, rfl, rfl, rfl, rfl⟩,
        ⟨h1, h2, ?_⟩, h3, h4, Or.inl rfl⟩⟩
      · unfold clamp
        dsimp only [lowerLimit, epsilon] at hy ⊢
        rw [hy]
        exact if_neg ht
      · intro f hf
        cases hf
        exact not_lt.1 ht

omit [IsStrictOrderedRing K] in
theorem clamp_none (s : Solver K) (h : ¬ lowerLimit s.floor ≤ 1 - 1 / 10 ^ 10) : clamp s = none := by
  unfold clamp
  have : ∀ x : K, f64Clamp x (lowerLimit s.floor) (1 - 1 / 10 ^ 10) = none := by
    intro x
    unfold f64Clamp
    rw [if_neg h]
  show (f64Clamp s.ionizedHydrogenFraction _ _).bind _ = none
  have h' := this s.ionizedHydrogenFraction
  cases hf : s.floor with
  | none =>
    rw [hf] at h'
    dsimp only [lowerLimit, epsilon] at h' ⊢
    rw [h']
    rfl
  | some f =>
    rw [hf] at h'
    dsimp only [lowerLimit, epsilon] at h' ⊢
    rw [h']
    rfl

omit [Field K] [LinearOrder K] [IsStrictOrderedRing K] in
theorem SameCell.refl (s : Solver K) : SameCell s s := ⟨rfl, rfl, rfl, rfl, rfl, rfl⟩

omit [Field K] [LinearOrder K] [IsStrictOrderedRing K] in
theorem SameCell.trans {a b c : Solver K} (h1 : SameCell a b) (h2 : SameCell b c) : SameCell a c :=
  ⟨h2.1.trans h1.1, h2.2.trans h1.2, h2.3.trans h1.3, h2.4.trans h1.4, h2.5.trans h1.5,
    h2.6.trans h1.6⟩

omit [IsStrictOrderedRing K] in
/-- Clamping does not change a state in range. -/
theorem Clamped.eq_of_range {s s' : Solver K} (h : Clamped s s') (hr : InRange s) : s' = s := by
  have hx : s'.ionizedHydrogenFraction = s.ionizedHydrogenFraction := by
    rcases lt_trichotomy s'.ionizedHydrogenFraction s.ionizedHydrogenFraction with h1 | h1 | h1
    · have := h.fraction_down h1
      rw [this] at h1
      exact absurd hr.2.1 (not_le.2 h1)
    · exact h1
    · have := h.fraction_up h1
      rw [this] at h1
      exact absurd hr.1 (not_le.2 h1)
  have hT : s'.temperature = s.temperature := by
    rcases h.temperature with h1 | ⟨f, hf, hlt, _⟩
    · exact h1
    · exact absurd (hr.2.2 f hf) (not_le.2 hlt)
  ext
  · exact hx
  · exact hT
  · exact h.cell.density
  · exact h.cell.volume
  · exact h.cell.length
  · exact h.cell.rate
  · exact h.cell.scaleFactor
  · rw [h.cell.floor]

omit [IsStrictOrderedRing K] in
theorem clamped_self {s : Solver K} (hr : InRange s) : Clamped s s :=
  ⟨SameCell.refl s, hr, fun h => absurd h (lt_irrefl _), fun h => absurd h (lt_irrefl _), Or.inl rfl⟩

theorem small_of_not_gt {change : Option K} {value safety : K} (hs : safety < 2 ^ 52)
    (h : ¬ relativeChange change value > safety) : ∃ c, change = some c ∧ Small c value safety := by
  unfold relativeChange maxRelativeChange at h
  cases change with
  | none => exact absurd hs h
  | some c =>
    dsimp only at h
    by_cases hv : value = 0
    · rw [if_pos hv] at h
      exact absurd hs h
    · rw [if_neg hv] at h
      refine ⟨c, rfl, hv, ?_⟩
      have h1 : |c / value| ≤ safety := by
        rcases le_total |c / value| (2 ^ 52) with h2 | h2
        · rw [min_eq_left h2] at h
          exact not_lt.1 h
        · rw [min_eq_right h2] at h
          exact absurd hs h
      rw [abs_div, div_le_iff₀ (abs_pos.2 hv)] at h1
      exact h1

/-- What `update` does. -/
theorem update_spec (value : K) (change : Option K) (safety timestep : K) (hs : safety < 2 ^ 52) :
    (update value change safety timestep = some (value, none) ∧
      relativeChange change value > safety) ∨
    ∃ c t, change = some c ∧ Small c value safety ∧
      update value change safety timestep = some (value + c, some t) ∧
      t = (if relativeChange change value = 0 then ⊤
        else ((timestep * (safety / relativeChange change value) : K) : WithTop K)) ∧
      relativeChange change value ≤ safety := by
  unfold update
  by_cases h : relativeChange change value > safety
  · rw [if_pos h]
    exact Or.inl ⟨rfl, h⟩
  · rw [if_neg h]
    obtain ⟨c, rfl, hc⟩ := small_of_not_gt hs h
    exact Or.inr ⟨c, _, rfl, hc, rfl, rfl, not_lt.1 h⟩

/-- The shape of `try_timestep_update` on a clamped state. -/
theorem try_spec (tc ic : Change K) (s : Solver K) (timestep safety : K) (hs : safety < 2 ^ 52)
    (hf : lowerLimit s.floor ≤ 1 - 1 / 10 ^ 10) (hr : InRange s) :
    (∃ s', tryTimestepUpdate tc ic s timestep safety = some (s', none) ∧ SameCell s s') ∨
    ∃ s' t, tryTimestepUpdate tc ic s timestep safety = some (s', some t) ∧ SameCell s s' ∧ InRange s' ∧
      ∃ dT dx start middle, Accepted tc ic safety timestep s s' dT dx start middle := by
  unfold tryTimestepUpdate
  rcases update_spec s.temperature (tc s timestep) safety timestep hs with ⟨h1, _⟩ | ⟨dT, t1, hT, hsm, h1, _⟩
  · left
    rw [h1]
    exact ⟨_, rfl, ⟨rfl, rfl, rfl, rfl, rfl, rfl⟩⟩
  · rw [h1]
    dsimp only [Option.bind_some, bind]
    rcases update_spec s.ionizedHydrogenFraction
      (ic { s with temperature := s.temperature + dT } timestep) safety timestep hs with
      ⟨h2, _⟩ | ⟨dx, t2, hx, hsm2, h2, _⟩
    · left
      rw [h2]
      exact ⟨_, rfl, ⟨rfl, rfl, rfl, rfl, rfl, rfl⟩⟩
    · right
      rw [h2]
      obtain ⟨s', hc, hcl⟩ := clamp_spec
        ({ s with
            temperature := s.temperature + dT
            ionizedHydrogenFraction := s.ionizedHydrogenFraction + dx } : Solver K) hf
      dsimp only [Option.bind_some]
      rw [hc]
      exact ⟨s', _, rfl, ⟨hcl.cell.1, hcl.cell.2, hcl.cell.3, hcl.cell.4, hcl.cell.5, hcl.cell.6⟩,
        hcl.range, dT, dx, s, _, ⟨clamped_self hr, hT, hsm, rfl, hx, hsm2, hcl⟩⟩

omit [IsStrictOrderedRing K] in
theorem Accepted.of_clamped {tc ic : Change K} {safety d : K} {s c s' : Solver K} (hc : Clamped s c)
    (h : ∃ dT dx start middle, Accepted tc ic safety d c s' dT dx start middle) :
    ∃ dT dx start middle, Accepted tc ic safety d s s' dT dx start middle := by
  obtain ⟨dT, dx, start, middle, h⟩ := h
  have := h.clamped_start.eq_of_range hc.range
  subst this
  exact ⟨dT, dx, start, middle, ⟨hc, h.2, h.3, h.4, h.5, h.6, h.7⟩⟩

omit [IsStrictOrderedRing K] in
theorem Steps.append {tc ic : Change K} {safety : K} {l1 l2 : List K} {s1 s2 s3 : Solver K}
    (h1 : Steps tc ic safety l1 s1 s2) (h2 : Steps tc ic safety l2 s2 s3) :
    Steps tc ic safety (l1 ++ l2) s1 s3 := by
  induction h1 with
  | nil s => exact h2
  | cons h _ ih => exact Steps.cons h (ih h2)

omit [IsStrictOrderedRing K] in
theorem Steps.of_clamped {tc ic : Change K} {safety : K} {l : List K} {s c s' : Solver K}
    (hl : l ≠ []) (hc : Clamped s c) (h : Steps tc ic safety l c s') : Steps tc ic safety l s s' := by
  cases h with
  | nil => exact absurd rfl hl
  | cons h hs => exact Steps.cons (Accepted.of_clamped hc h) hs

/-- Everything about the recursion. -/
theorem internal_spec (tc ic : Change K) (safety : K) (hs : safety < 2 ^ 52) :
    ∀ (n : ℕ) (s : Solver K) (dt : K), 0 < dt → lowerLimit s.floor ≤ 1 - 1 / 10 ^ 10 →
    (∃ s' t ds, performTimestepInternal tc ic safety n s dt = some (s', some t) ∧ SameCell s s' ∧
      InRange s' ∧ ds ≠ [] ∧ ds.sum = dt ∧ Steps tc ic safety ds s s' ∧
      (∀ d ∈ ds, ∃ k, k < n ∧ d = dt / 2 ^ k)) ∨
    (∃ s' s1 ds, performTimestepInternal tc ic safety n s dt = some (s', none) ∧ SameCell s s' ∧
      InRange s' ∧ ds.sum < dt ∧ Steps tc ic safety ds s s1 ∧ Clamped s1 s' ∧
      (∀ d ∈ ds, ∃ k, k < n ∧ d = dt / 2 ^ k)) := by
  intro n
  induction n with
  | zero =>
    intro s dt hdt hf
    right
    obtain ⟨c, hc, hcl⟩ := clamp_spec s hf
    refine ⟨c, s, [], ?_, hcl.cell, hcl.range, by simpa using hdt, Steps.nil s, hcl, by simp⟩
    unfold performTimestepInternal
    rw [hc]
    rfl
  | succ n ih =>
    intro s dt hdt hf
    obtain ⟨c, hc, hcl⟩ := clamp_spec s hf
    have hfc : lowerLimit c.floor ≤ 1 - 1 / 10 ^ 10 := by rw [hcl.cell.floor]; exact hf
    have hhalf : (0 : K) < dt / 2 := by linarith
    have hpow : ∀ ds : List K, (∀ d ∈ ds, ∃ k, k < n ∧ d = dt / 2 / 2 ^ k) →
        ∀ d ∈ ds, ∃ k, k < n + 1 ∧ d = dt / 2 ^ k := by
      intro ds h d hd
      obtain ⟨k, hk, rfl⟩ := h d hd
      refine ⟨k + 1, by omega, ?_⟩
      rw [div_div, pow_succ, mul_comm]
    unfold performTimestepInternal
    rw [hc]
    dsimp only [Option.bind_some, bind]
    rcases try_spec tc ic c dt safety hs hfc hcl.range with ⟨s1, h1, hsame⟩ | ⟨s1, t, h1, hsame, hr1, hacc⟩
    · rw [h1]
      dsimp only [Option.bind_some]
      have hrest : ({ s1 with
          temperature := c.temperature
          ionizedHydrogenFraction := c.ionizedHydrogenFraction } : Solver K) = c := by
        ext
        · rfl
        · rfl
        · exact hsame.density
        · exact hsame.volume
        · exact hsame.length
        · exact hsame.rate
        · exact hsame.scaleFactor
        · rw [hsame.floor]
      rw [hrest]
      rcases ih c (dt / 2) hhalf hfc with
        ⟨s2, t2, ds, h2, hsame2, hr2, hne, hsum, hst, hk⟩ | ⟨s2, s3, ds, h2, hsame2, hr2, hsum, hst, hcl3, hk⟩
      · rw [h2]
        dsimp only [Option.bind_some]
        have hf2 : lowerLimit s2.floor ≤ 1 - 1 / 10 ^ 10 := by rw [hsame2.floor]; exact hfc
        have hst' := Steps.of_clamped hne hcl hst
        rcases ih s2 (dt / 2) hhalf hf2 with
          ⟨s4, t4, ds4, h4, hsame4, hr4, hne4, hsum4, hst4, hk4⟩ |
          ⟨s4, s5, ds4, h4, hsame4, hr4, hsum4, hst4, hcl4, hk4⟩
        · left
          refine ⟨s4, t4, ds ++ ds4, h4, hcl.cell.trans (hsame2.trans hsame4), hr4, by simp [hne], ?_,
            hst'.append hst4, ?_⟩
          · rw [List.sum_append, hsum, hsum4]
            ring
          · apply hpow
            intro d hd
            rcases List.mem_append.1 hd with hd | hd
            · exact hk d hd
            · exact hk4 d hd
        · right
          refine ⟨s4, s5, ds ++ ds4, h4, hcl.cell.trans (hsame2.trans hsame4), hr4, ?_,
            hst'.append hst4, hcl4, ?_⟩
          · rw [List.sum_append, hsum]
            linarith
          · apply hpow
            intro d hd
            rcases List.mem_append.1 hd with hd | hd
            · exact hk d hd
            · exact hk4 d hd
      · right
        rw [h2]
        dsimp only [Option.bind_some]
        by_cases hne : ds = []
        · subst hne
          cases hst
          have : s2 = c := hcl3.eq_of_range hcl.range
          subst this
          exact ⟨s2, s, [], rfl, hcl.cell, hr2, by simpa using hdt, Steps.nil s, hcl, by simp⟩
        · refine ⟨s2, s3, ds, rfl, hcl.cell.trans hsame2, hr2, by linarith, Steps.of_clamped hne hcl hst,
            hcl3, hpow ds hk⟩
    · left
      rw [h1]
      refine ⟨s1, t, [dt], rfl, hcl.cell.trans hsame, hr1, by simp, by simp,
        Steps.cons (Accepted.of_clamped hcl hacc) (Steps.nil _), ?_⟩
      intro d hd
      rw [List.mem_singleton] at hd
      exact ⟨0, by omega, by rw [hd]; simp⟩

end Verif.Chemistry
