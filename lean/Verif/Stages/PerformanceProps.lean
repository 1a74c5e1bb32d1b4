import Verif.Stages.PerformanceModel
import Mathlib.Tactic.Linarith
import Mathlib.Data.List.Induction
import Mathlib.Tactic.NormNum

/-!
# The performance file

What the file says about any sequence of calls, and which sequences panic.
-/

namespace Verif.StageTimers

variable {N : Type} [LinearOrder N]

/-! ## Specification -/

/-- Call `i` is `c`, at time `t`. -/
def At (calls : List (ℚ × Call N)) (i : ℕ) (t : ℚ) (c : Call N) : Prop := calls[i]? = some (t, c)

/-- From call `j` to call `i` a timer ran under the name `n`, for the duration `d`. -/
def Session (calls : List (ℚ × Call N)) (n : N) (j i : ℕ) (d : ℚ) : Prop :=
  j < i ∧ (∃ t₀ t₁, At calls j t₀ (.start n) ∧ At calls i t₁ (.stop n) ∧ d = t₁ - t₀) ∧
    ∀ k t, j < k → k < i → ¬ At calls k t (.start n) ∧ ¬ At calls k t (.stop n)

/-- Numbers of the calls of `stop` with the name `n`. -/
def stopsOf (calls : List (ℚ × Call N)) (n : N) : List ℕ :=
  (List.range calls.length).filter fun i => (calls[i]?.map Prod.snd) = some (.stop n)

/-- Somebody has recorded a number under the name `n` before call `i`. -/
def RecordedBefore (calls : List (ℚ × Call N)) (n : N) (i : ℕ) : Prop := ∃ k t v, k < i ∧ At calls k t (.record n v)

/-- The number `v` is the last one which was recorded under the name `n`. -/
def LastNumber (calls : List (ℚ × Call N)) (n : N) (v : ℤ) : Prop :=
  ∃ j t, At calls j t (.record n v) ∧ ∀ k t' v', j < k → ¬ At calls k t' (.record n v')

/-- A timer was started under the name `n` at time `t` and is still running. -/
def Running (calls : List (ℚ × Call N)) (n : N) (t : ℚ) : Prop :=
  ∃ j, At calls j t (.start n) ∧ ∀ k t', j < k → ¬ At calls k t' (.start n) ∧ ¬ At calls k t' (.stop n)

/-- The durations of all sessions under the name `n`, in order. -/
def Durations (calls : List (ℚ × Call N)) (n : N) (ds : List ℚ) : Prop :=
  List.Forall₂ (fun i d => ∃ j, Session calls n j i d) (stopsOf calls n) ds

/-- The call with number `i` is wrong. -/
def Wrong (calls : List (ℚ × Call N)) (i : ℕ) : Prop :=
  (∃ t n, At calls i t (.stop n) ∧ ((¬ ∃ j d, Session calls n j i d) ∨ RecordedBefore calls n i)) ∨
    ∃ t n v, At calls i t (.record n v) ∧ ¬ (-2 ^ 31 ≤ v ∧ v < 2 ^ 31)

/-! ## Lemmas -/

section lemmas

variable {calls : List (ℚ × Call N)} {e : ℚ × Call N} {n m : N} {i j k : ℕ} {t : ℚ} {c : Call N} {d : ℚ} {v : ℤ}

theorem At.lt (h : At calls i t c) : i < calls.length := by
  unfold At at h
  exact (List.getElem?_eq_some_iff.1 h).1

theorem at_append_of_lt (h : i < calls.length) : At (calls ++ [e]) i t c ↔ At calls i t c := by
  unfold At; rw [List.getElem?_append_left h]

theorem at_last : At (calls ++ [e]) calls.length t c ↔ e = (t, c) := by
  unfold At; simp

theorem at_append : At (calls ++ [e]) i t c ↔ At calls i t c ∨ i = calls.length ∧ e = (t, c) := by
  constructor
  · intro h
    have := h.lt
    rw [List.length_append, List.length_singleton] at this
    rcases Nat.lt_succ_iff_lt_or_eq.1 this with h1 | h1
    · exact Or.inl ((at_append_of_lt h1).1 h)
    · subst h1; exact Or.inr ⟨rfl, at_last.1 h⟩
  · rintro (h | ⟨rfl, h⟩)
    · exact (at_append_of_lt h.lt).2 h
    · exact at_last.2 h

theorem session_append_of_lt (h : i < calls.length) : Session (calls ++ [e]) n j i d ↔ Session calls n j i d := by
  unfold Session
  refine and_congr_right fun hj => ?_
  refine and_congr ?_ ?_
  · simp only [at_append_of_lt h, at_append_of_lt (hj.trans h)]
  · refine forall_congr' fun k => forall_congr' fun t => forall_congr' fun _ => forall_congr' fun hk => ?_
    simp only [at_append_of_lt (hk.trans h)]

theorem session_last {t₁ : ℚ} (t₀ : ℚ) : (∃ j, Session (calls ++ [(t₁, .stop n)]) n j calls.length (t₁ - t₀)) ↔ Running calls n t₀ := by
  constructor
  · rintro ⟨j, hj, ⟨a, b, ha, hb, hd⟩, hq⟩
    rw [at_last] at hb
    obtain ⟨rfl, -⟩ := Prod.mk.inj hb
    have : a = t₀ := by linarith
    subst this
    refine ⟨j, (at_append_of_lt hj).1 ha, fun k t' hk => ?_⟩
    by_cases hl : k < calls.length
    · have := hq k t' hk hl
      rwa [at_append_of_lt hl, at_append_of_lt hl] at this
    · exact ⟨fun h => hl h.lt, fun h => hl h.lt⟩
  · rintro ⟨j, hj, hq⟩
    refine ⟨j, hj.lt, ⟨t₀, t₁, (at_append_of_lt hj.lt).2 hj, at_last.2 rfl, rfl⟩, fun k t' hk hl => ?_⟩
    rw [at_append_of_lt hl, at_append_of_lt hl]
    exact hq k t' hk

theorem stopsOf_append : stopsOf (calls ++ [e]) n = stopsOf calls n ++ if e.2 = .stop n then [calls.length] else [] := by
  unfold stopsOf
  rw [List.length_append, List.length_singleton, List.range_succ, List.filter_append]
  congr 1
  · refine List.filter_congr fun i hi => ?_
    rw [List.getElem?_append_left (List.mem_range.1 hi)]
  · by_cases h : e.2 = .stop n <;> simp [h]

theorem mem_stopsOf : i ∈ stopsOf calls n ↔ ∃ t, At calls i t (.stop n) := by
  unfold stopsOf At
  simp only [List.mem_filter, List.mem_range, decide_eq_true_eq, Option.map_eq_some_iff, Prod.exists]
  constructor
  · rintro ⟨-, a, b, h, rfl⟩; exact ⟨a, h⟩
  · rintro ⟨t, h⟩; exact ⟨(List.getElem?_eq_some_iff.1 h).1, t, _, h, rfl⟩

theorem durations_append_other {ds : List ℚ} (h : e.2 ≠ .stop n) : Durations (calls ++ [e]) n ds ↔ Durations calls n ds := by
  unfold Durations
  rw [stopsOf_append, if_neg h, List.append_nil]
  have key : ∀ (l : List ℕ) (ds : List ℚ), (∀ i ∈ l, i < calls.length) →
      (List.Forall₂ (fun i d => ∃ j, Session (calls ++ [e]) n j i d) l ds ↔
        List.Forall₂ (fun i d => ∃ j, Session calls n j i d) l ds) := by
    intro l
    induction l with
    | nil => intro ds _; cases ds <;> simp
    | cons a l ih =>
      intro ds hl
      cases ds with
      | nil => simp
      | cons d ds =>
        simp only [List.forall₂_cons]
        rw [ih ds fun i hi => hl i (List.mem_cons_of_mem _ hi)]
        simp only [session_append_of_lt (hl a List.mem_cons_self)]
  refine key _ _ fun i hi => ?_
  obtain ⟨t, ht⟩ := mem_stopsOf.1 hi
  exact ht.lt

theorem durations_append_stop {ds : List ℚ} {t₀ t₁ : ℚ} (h : Durations calls n ds) (hr : Running calls n t₀) :
    Durations (calls ++ [(t₁, .stop n)]) n (ds ++ [t₁ - t₀]) := by
  unfold Durations
  rw [stopsOf_append, if_pos rfl]
  refine List.rel_append ?_ ?_
  · have key : ∀ (l : List ℕ) (ds : List ℚ), (∀ i ∈ l, i < calls.length) →
      List.Forall₂ (fun i d => ∃ j, Session calls n j i d) l ds →
      List.Forall₂ (fun i d => ∃ j, Session (calls ++ [(t₁, .stop n)]) n j i d) l ds := by
      intro l ds hl hf
      induction hf with
      | nil => exact .nil
      | cons hab _ ih =>
        refine .cons ?_ (ih fun i hi => hl i (List.mem_cons_of_mem _ hi))
        simpa only [session_append_of_lt (hl _ List.mem_cons_self)] using hab
    refine key _ _ (fun i hi => ?_) h
    obtain ⟨t, ht⟩ := mem_stopsOf.1 hi
    exact ht.lt
  · exact .cons ((session_last t₀).2 hr) .nil

theorem running_append {t₀ : ℚ} : Running (calls ++ [e]) n t₀ ↔
    e = (t₀, .start n) ∨ (e.2 ≠ .start n ∧ e.2 ≠ .stop n ∧ Running calls n t₀) := by
  constructor
  · rintro ⟨j, hj, hq⟩
    rcases at_append.1 hj with h | ⟨rfl, h⟩
    · right
      have := hq calls.length e.1 h.lt
      rw [at_last, at_last] at this
      refine ⟨fun he => this.1 (by rw [← he]), fun he => this.2 (by rw [← he]), j, h, fun k t' hk => ?_⟩
      have := hq k t' hk
      exact ⟨fun h => this.1 (at_append.2 (Or.inl h)), fun h => this.2 (at_append.2 (Or.inl h))⟩
    · exact Or.inl h
  · rintro (rfl | ⟨h1, h2, j, hj, hq⟩)
    · refine ⟨calls.length, at_last.2 rfl, fun k t' hk => ?_⟩
      have : ¬ k < (calls ++ [(t₀, Call.start n)]).length := by simp; omega
      exact ⟨fun h => this h.lt, fun h => this h.lt⟩
    · refine ⟨j, at_append.2 (Or.inl hj), fun k t' hk => ⟨fun h => ?_, fun h => ?_⟩⟩
      · rcases at_append.1 h with h | ⟨-, h⟩
        · exact (hq k t' hk).1 h
        · exact h1 (by rw [h])
      · rcases at_append.1 h with h | ⟨-, h⟩
        · exact (hq k t' hk).2 h
        · exact h2 (by rw [h])

theorem running_unique {t₀ t₁ : ℚ} (h₀ : Running calls n t₀) (h₁ : Running calls n t₁) : t₀ = t₁ := by
  obtain ⟨j, hj, hq⟩ := h₀
  obtain ⟨k, hk, hq'⟩ := h₁
  rcases lt_trichotomy j k with h | rfl | h
  · exact absurd hk (hq k t₁ h).1
  · unfold At at hj hk
    rw [hj] at hk
    exact (Prod.mk.inj (Option.some.inj hk)).1
  · exact absurd hj (hq' j t₀ h).1

theorem lastNumber_append : LastNumber (calls ++ [e]) n v ↔
    e.2 = .record n v ∨ ((∀ v', e.2 ≠ .record n v') ∧ LastNumber calls n v) := by
  constructor
  · rintro ⟨j, t, hj, hq⟩
    rcases at_append.1 hj with h | ⟨rfl, h⟩
    · right
      refine ⟨fun v' he => hq calls.length e.1 v' h.lt (at_last.2 (by rw [← he])), j, t, h, fun k t' v' hk hk' => ?_⟩
      exact hq k t' v' hk (at_append.2 (Or.inl hk'))
    · left; rw [h]
  · rintro (h | ⟨h, j, t, hj, hq⟩)
    · refine ⟨calls.length, e.1, at_last.2 (by rw [← h]), fun k t' v' hk hk' => ?_⟩
      have := hk'.lt
      simp at this; omega
    · refine ⟨j, t, at_append.2 (Or.inl hj), fun k t' v' hk hk' => ?_⟩
      rcases at_append.1 hk' with h' | ⟨-, h'⟩
      · exact hq k t' v' hk h'
      · exact h v' (by rw [h'])

theorem recordedBefore_append (h : i ≤ calls.length) : RecordedBefore (calls ++ [e]) n i ↔ RecordedBefore calls n i := by
  unfold RecordedBefore
  refine exists_congr fun k => exists_congr fun t => exists_congr fun v => and_congr_right fun hk => ?_
  rw [at_append_of_lt (by omega)]

theorem recordedBefore_length : RecordedBefore calls n calls.length ↔ ∃ v, LastNumber calls n v := by
  induction calls using List.reverseRecOn with
  | nil => constructor
           · rintro ⟨k, t, v, hk, -⟩; simp at hk
           · rintro ⟨v, j, t, hj, -⟩; simp [At] at hj
  | append_singleton l e ih =>
    have h1 : RecordedBefore (l ++ [e]) n (l ++ [e]).length ↔ RecordedBefore l n l.length ∨ ∃ v, e.2 = .record n v := by
      constructor
      · rintro ⟨k, t, v, -, hk⟩
        rcases at_append.1 hk with h | ⟨-, h⟩
        · exact Or.inl ⟨k, t, v, h.lt, h⟩
        · exact Or.inr ⟨v, by rw [h]⟩
      · rintro (⟨k, t, v, hk, h⟩ | ⟨v, h⟩)
        · exact ⟨k, t, v, by simp; omega, at_append.2 (Or.inl h)⟩
        · exact ⟨l.length, e.1, v, by simp, at_last.2 (by rw [← h])⟩
    rw [h1, ih]
    simp only [lastNumber_append]
    constructor
    · rintro (⟨v, h⟩ | ⟨v, h⟩)
      · by_cases he : ∃ v', e.2 = .record n v'
        · obtain ⟨v', he⟩ := he
          exact ⟨v', Or.inl he⟩
        · exact ⟨v, Or.inr ⟨fun v' h' => he ⟨v', h'⟩, h⟩⟩
      · exact ⟨v, Or.inl h⟩
    · rintro ⟨v, h | ⟨-, h⟩⟩
      · exact Or.inr ⟨v, h⟩
      · exact Or.inl ⟨v, h⟩

theorem wrong_append : (∃ i, Wrong (calls ++ [e]) i) ↔ (∃ i, Wrong calls i) ∨ Wrong (calls ++ [e]) calls.length := by
  have hlt : ∀ i < calls.length, Wrong (calls ++ [e]) i ↔ Wrong calls i := by
    intro i hi
    unfold Wrong
    simp only [at_append_of_lt hi, session_append_of_lt hi, recordedBefore_append hi.le]
  have hl : ∀ {l : List (ℚ × Call N)} {i}, Wrong l i → i < l.length := by
    rintro l i (⟨t, n, h, -⟩ | ⟨t, n, v, h, -⟩) <;> exact h.lt
  constructor
  · rintro ⟨i, hi⟩
    have := hl hi
    rw [List.length_append, List.length_singleton] at this
    rcases Nat.lt_succ_iff_lt_or_eq.1 this with h1 | rfl
    · exact Or.inl ⟨i, (hlt i h1).1 hi⟩
    · exact Or.inr hi
  · rintro (⟨i, hi⟩ | h)
    · exact ⟨i, (hlt i (hl hi)).2 hi⟩
    · exact ⟨_, h⟩

end lemmas

/-- What the performance data know after some calls. -/
structure Knows (calls : List (ℚ × Call N)) (p : Performance N ℚ) : Prop where
  timers : ∀ n t, p.timers n = some t ↔ Running calls n t
  numbers : ∀ n v, p.results n = some (.number v) ↔ LastNumber calls n v
  times : ∀ n ds, p.results n = some (.runTimes ds) → Durations calls n ds ∧ ds ≠ []
  nothing : ∀ n, p.results n = none → stopsOf calls n = []

theorem set_same {B : Type} (f : N → B) (n : N) (b : B) : set f n b n = b := by simp [set]

theorem set_other {B : Type} (f : N → B) {n m : N} (b : B) (h : m ≠ n) : set f n b m = f m := by simp [set, h]

theorem run_append (calls : List (ℚ × Call N)) (e : ℚ × Call N) :
    Performance.run (calls ++ [e]) = (Performance.run calls).bind fun p => p.call e := by
  unfold Performance.run
  rw [List.foldlM_append]
  simp [List.foldlM]

theorem run_knows (calls : List (ℚ × Call N)) :
    (∀ p, Performance.run calls = some p → Knows calls p) ∧ (Performance.run calls = none ↔ ∃ i, Wrong calls i) := by
  induction calls using List.reverseRecOn with
  | nil =>
    constructor
    · intro p hp
      obtain rfl : (⟨fun _ => none, fun _ => none⟩ : Performance N ℚ) = p := Option.some.inj hp
      refine ⟨fun n t => ?_, fun n v => ?_, fun n ds h => by simp at h, fun n _ => rfl⟩
      · simp only [reduceCtorEq, false_iff]; rintro ⟨j, hj, -⟩; simp [At] at hj
      · simp only [reduceCtorEq, false_iff]; rintro ⟨j, t, hj, -⟩; simp [At] at hj
    · constructor
      · intro h; cases h
      · rintro ⟨i, ⟨t, n, h, -⟩ | ⟨t, n, v, h, -⟩⟩ <;> simp [At] at h
  | append_singleton calls e ih =>
    rw [run_append, wrong_append, ← ih.2]
    cases hrun : Performance.run calls with
    | none => simp
    | some p =>
      have K := ih.1 p hrun
      simp only [Option.bind_some, reduceCtorEq, false_or]
      obtain ⟨now, c⟩ := e
      cases c with
      | start n =>
        simp only [Performance.call]
        refine ⟨fun q hq => ?_, ?_⟩
        · obtain rfl := Option.some.inj hq
          refine ⟨fun m t => ?_, fun m v => ?_, fun m ds h => ?_, fun m h => ?_⟩
          · rw [running_append, ← K.timers]
            simp only [Performance.start]
            by_cases hm : m = n
            · subst hm; rw [set_same]; simp
            · rw [set_other _ _ hm]
              have : n ≠ m := fun h => hm h.symm
              simp [this]
          · rw [lastNumber_append, ← K.numbers]; simp [Performance.start]
          · have := K.times m ds h
            exact ⟨(durations_append_other (by simp)).2 this.1, this.2⟩
          · rw [stopsOf_append, K.nothing m h]; simp
        · simp only [reduceCtorEq, false_iff]
          rintro (⟨t, m, h, -⟩ | ⟨t, m, v, h, -⟩) <;> rw [at_last] at h <;> simp at h
      | stop n =>
        have hw : Wrong (calls ++ [(now, .stop n)]) calls.length ↔
            (p.timers n = none ∨ ∃ v, p.results n = some (.number v)) := by
          have h1 : (∃ j d, Session (calls ++ [(now, .stop n)]) n j calls.length d) ↔ ∃ t, p.timers n = some t := by
            constructor
            · rintro ⟨j, d, h⟩
              refine ⟨now - d, (K.timers _ _).2 ((session_last (t₁ := now) _).1 ⟨j, ?_⟩)⟩
              simpa using h
            · rintro ⟨t, h⟩
              obtain ⟨j, hj⟩ := (session_last (t₁ := now) t).2 ((K.timers _ _).1 h)
              exact ⟨j, _, hj⟩
          have h2 : RecordedBefore (calls ++ [(now, .stop n)]) n calls.length ↔ ∃ v, p.results n = some (.number v) := by
            rw [recordedBefore_append le_rfl, recordedBefore_length]
            simp only [K.numbers]
          constructor
          · rintro (⟨t, m, h, h'⟩ | ⟨t, m, v, h, -⟩)
            · rw [at_last] at h
              obtain ⟨-, hm⟩ := Prod.mk.inj h
              obtain rfl := Call.stop.inj hm
              rw [h1, h2] at h'
              refine h'.imp_left fun h => ?_
              cases hp : p.timers n with
              | none => rfl
              | some t => exact absurd ⟨t, hp⟩ h
            · rw [at_last] at h; simp at h
          · intro h
            refine Or.inl ⟨now, n, at_last.2 rfl, ?_⟩
            rw [h1, h2]
            refine h.imp_left fun h => ?_
            rw [h]; simp
        rw [hw]
        simp only [Performance.call, Performance.stop]
        cases hp : p.timers n with
        | none => simp
        | some t₀ =>
          have hr := (K.timers n t₀).1 hp
          cases hres : p.results n with
          | some r =>
            cases r with
            | number v => simp
            | runTimes ds =>
              refine ⟨fun q hq => ?_, by simp⟩
              simp only [Option.getD_some, Option.some.injEq] at hq
              subst hq
              refine ⟨fun m t => ?_, fun m v => ?_, fun m ds' h => ?_, fun m h => ?_⟩
              · rw [running_append, ← K.timers]; dsimp only
                by_cases hm : m = n
                · subst hm; rw [set_same]; simp
                · rw [set_other _ _ hm]
                  have : n ≠ m := fun h => hm h.symm
                  simp [this]
              · rw [lastNumber_append, ← K.numbers]; dsimp only
                by_cases hm : m = n
                · subst hm; rw [set_same, hres]; simp
                · rw [set_other _ _ hm]; simp
              · by_cases hm : m = n
                · subst hm
                  simp only [set_same] at h
                  simp only [Option.some.injEq, Result.runTimes.injEq] at h
                  subst h
                  exact ⟨durations_append_stop (K.times _ _ hres).1 hr, by simp⟩
                · simp only [set_other _ _ hm] at h
                  have := K.times m ds' h
                  exact ⟨(durations_append_other (by simpa using fun h => hm h.symm)).2 this.1, this.2⟩
              · by_cases hm : m = n
                · subst hm; simp [set_same] at h
                · simp only [set_other _ _ hm] at h
                  rw [stopsOf_append, K.nothing m h, if_neg (by simpa using fun h => hm h.symm)]; rfl
          | none =>
            refine ⟨fun q hq => ?_, by simp⟩
            simp only [Option.getD_none, Option.some.injEq, List.nil_append] at hq
            subst hq
            refine ⟨fun m t => ?_, fun m v => ?_, fun m ds' h => ?_, fun m h => ?_⟩
            · rw [running_append, ← K.timers]; dsimp only
              by_cases hm : m = n
              · subst hm; rw [set_same]; simp
              · rw [set_other _ _ hm]
                have : n ≠ m := fun h => hm h.symm
                simp [this]
            · rw [lastNumber_append, ← K.numbers]; dsimp only
              by_cases hm : m = n
              · subst hm; rw [set_same, hres]; simp
              · rw [set_other _ _ hm]; simp
            · by_cases hm : m = n
              · subst hm
                simp only [set_same] at h
                simp only [Option.some.injEq, Result.runTimes.injEq] at h
                subst h
                have h0 : Durations calls m [] := by unfold Durations; rw [K.nothing m hres]; exact .nil
                exact ⟨durations_append_stop h0 hr, by simp⟩
              · simp only [set_other _ _ hm] at h
                have := K.times m ds' h
                exact ⟨(durations_append_other (by simpa using fun h => hm h.symm)).2 this.1, this.2⟩
            · by_cases hm : m = n
              · subst hm; simp [set_same] at h
              · simp only [set_other _ _ hm] at h
                rw [stopsOf_append, K.nothing m h, if_neg (by simpa using fun h => hm h.symm)]; rfl
      | record n v =>
        have hw : Wrong (calls ++ [(now, .record n v)]) calls.length ↔ ¬ (-2 ^ 31 ≤ v ∧ v < 2 ^ 31) := by
          constructor
          · rintro (⟨t, m, h, -⟩ | ⟨t, m, v', h, h'⟩)
            · rw [at_last] at h; simp at h
            · rw [at_last] at h
              obtain ⟨-, hm⟩ := Prod.mk.inj h
              obtain ⟨rfl, rfl⟩ := Call.record.inj hm
              exact h'
          · exact fun h => Or.inr ⟨now, n, v, at_last.2 rfl, h⟩
        rw [hw]
        simp only [Performance.call, Performance.recordNumber]
        by_cases hv : -2 ^ 31 ≤ v ∧ v < 2 ^ 31
        · rw [if_pos hv]
          refine ⟨fun q hq => ?_, ⟨fun h => (by cases h), fun h => absurd hv h⟩⟩
          obtain rfl := Option.some.inj hq
          refine ⟨fun m t => ?_, fun m v' => ?_, fun m ds' h => ?_, fun m h => ?_⟩
          · rw [running_append, ← K.timers]; simp
          · rw [lastNumber_append, ← K.numbers]
            by_cases hm : m = n
            · subst hm; simp [set_same, eq_comm]
            · have : n ≠ m := fun h => hm h.symm
              simp [set_other _ _ hm, this]
          · by_cases hm : m = n
            · subst hm; simp [set_same] at h
            · simp only [set_other _ _ hm] at h
              have := K.times m ds' h
              exact ⟨(durations_append_other (by simp)).2 this.1, this.2⟩
          · by_cases hm : m = n
            · subst hm; simp [set_same] at h
            · simp only [set_other _ _ hm] at h
              rw [stopsOf_append, K.nothing m h]; simp
        · rw [if_neg hv]
          exact ⟨fun q hq => (by cases hq), ⟨fun _ => hv, fun _ => rfl⟩⟩

theorem session_unique {calls : List (ℚ × Call N)} {n : N} {i j j' : ℕ} {d d' : ℚ} (h : Session calls n j i d)
    (h' : Session calls n j' i d') : d = d' := by
  obtain ⟨hj, ⟨a, b, ha, hb, rfl⟩, hq⟩ := h
  obtain ⟨hj', ⟨a', b', ha', hb', rfl⟩, hq'⟩ := h'
  have hbb : b = b' := by unfold At at hb hb'; rw [hb] at hb'; exact (Prod.mk.inj (Option.some.inj hb')).1
  rcases lt_trichotomy j j' with h | rfl | h
  · exact absurd ha' (hq j' a' h hj').1
  · unfold At at ha ha'
    rw [ha] at ha'
    rw [hbb, (Prod.mk.inj (Option.some.inj ha')).1]
  · exact absurd ha (hq' j a h hj).1

theorem durations_unique {calls : List (ℚ × Call N)} {n : N} {ds ds' : List ℚ} (h : Durations calls n ds)
    (h' : Durations calls n ds') : ds = ds' := by
  unfold Durations at h h'
  generalize stopsOf calls n = l at h h'
  induction h generalizing ds' with
  | nil => cases h'; rfl
  | cons hab _ ih =>
    cases h' with
    | cons hab' hl' =>
      obtain ⟨j, hj⟩ := hab
      obtain ⟨j', hj'⟩ := hab'
      rw [session_unique hj hj', ih hl']

theorem results_iff {calls : List (ℚ × Call N)} {p : Performance N ℚ} (K : Knows calls p) (n : N) (ds : List ℚ) :
    p.results n = some (.runTimes ds) ↔ (¬ ∃ v, LastNumber calls n v) ∧ ds ≠ [] ∧ Durations calls n ds := by
  constructor
  · intro h
    refine ⟨?_, (K.times n ds h).2, (K.times n ds h).1⟩
    rintro ⟨v, hv⟩
    rw [(K.numbers n v).2 hv] at h
    cases h
  · rintro ⟨h1, h2, h3⟩
    cases hr : p.results n with
    | none =>
      unfold Durations at h3
      rw [K.nothing n hr] at h3
      cases h3
      exact absurd rfl h2
    | some r =>
      cases r with
      | number v => exact absurd ⟨v, (K.numbers n v).1 hr⟩ h1
      | runTimes ds' => rw [durations_unique (K.times n ds' hr).1 h3]

theorem linked_fold (p : Performance N ℚ) (l : List N) (acc : List (N × Value)) (hl : l.Nodup) (hd : ∀ e ∈ acc, e.1 ∉ l) :
    l.foldl (fun l n => match p.results n with
      | some r => linkedInsert l n r.asValue
      | none => l) acc = acc ++ l.filterMap (fun n => (p.results n).map fun r => (n, r.asValue)) := by
  induction l generalizing acc with
  | nil => simp
  | cons a l ih =>
    obtain ⟨ha, hl'⟩ := List.nodup_cons.1 hl
    rw [List.foldl_cons]
    cases hr : p.results a with
    | none =>
      simp only
      rw [ih acc hl' fun e he h => hd e he (List.mem_cons_of_mem _ h)]
      simp [hr]
    | some r =>
      simp only
      have hf : acc.filter (fun e => e.1 ≠ a) = acc := by
        rw [List.filter_eq_self]
        intro e he
        have := hd e he
        simp only [List.mem_cons, not_or] at this
        simpa using this.1
      rw [linkedInsert, hf, ih]
      · simp [hr]
      · exact hl'
      · intro e he h
        rcases List.mem_append.1 he with h1 | h1
        · exact hd e h1 (List.mem_cons_of_mem _ h)
        · rw [List.mem_singleton] at h1
          subst h1
          exact ha h

theorem sorted_names {names : List N} (h : names.Nodup) : (names.insertionSort (· ≤ ·)).Pairwise (· < ·) := by
  have h1 : (names.insertionSort (· ≤ ·)).Pairwise (· ≤ ·) := List.pairwise_insertionSort _ _
  have h2 : (names.insertionSort (· ≤ ·)).Nodup := (List.perm_insertionSort _ names).nodup_iff.2 h
  exact h1.imp₂ (fun a b h h' => lt_of_le_of_ne h h') h2

/-! ## Theorems -/

/-- **C120.**  The calls of the methods of `Performance` panic if and only if a timer is stopped which is not running, a timer is stopped
under a name with a recorded number, or a number does not fit into 32 bits. -/
theorem performance_panics (calls : List (ℚ × Call N)) : Performance.run calls = none ↔ ∃ i, Wrong calls i :=
  (run_knows calls).2

/-- What the file has to say about the name `n`: the last number which was recorded, or else the sum, the mean and the
number of the durations of all sessions, if there was one. -/
def Entry (calls : List (ℚ × Call N)) (n : N) (v : Value) : Prop :=
  (∃ k, LastNumber calls n k ∧ v = .number k) ∨
    (¬ ∃ k, LastNumber calls n k) ∧ ∃ ds, ds ≠ [] ∧ Durations calls n ds ∧
      v = .statistics (some ⟨ds.sum / ds.length, ds.sum, ds.length⟩)

/-- **C120.**  For all sequences of calls which do not panic and all orders in which the hash map gives its keys, the performance file
contains the entries of all names, sorted by name.  The entry of the total run time comes last while its timer is running, and gives
the time since its start instead of its other sessions. -/
theorem performance_file (totalName : N) (calls : List (ℚ × Call N)) (p : Performance N ℚ)
    (hp : Performance.run calls = some p) (names : List N) (hnd : names.Nodup)
    (hn : ∀ n, n ∈ names ↔ p.results n ≠ none) (now : ℚ) :
    ∃ entries : List (N × Value), (entries.map Prod.fst).Pairwise (· < ·) ∧
      (∀ n v, (n, v) ∈ entries ↔ Entry calls n v) ∧
      ((¬ ∃ t, Running calls totalName t) → p.asOutput totalName names now = entries) ∧
      (∀ t, Running calls totalName t → p.asOutput totalName names now =
        entries.filter (fun e => e.1 ≠ totalName) ++ [(totalName, .statistics (some ⟨now - t, now - t, 1⟩))]) := by
  have K := (run_knows calls).1 p hp
  have hs := sorted_names hnd
  have hfold := linked_fold p (names.insertionSort (· ≤ ·)) [] (hs.imp fun h => ne_of_lt h) (by simp)
  rw [List.nil_append] at hfold
  refine ⟨(names.insertionSort (· ≤ ·)).filterMap (fun n => (p.results n).map fun r => (n, r.asValue)), ?_, ?_, ?_, ?_⟩
  · rw [List.pairwise_map, List.pairwise_filterMap]
    refine hs.imp fun {a b} hab => ?_
    intro x hx y hy
    rw [Option.map_eq_some_iff] at hx hy
    obtain ⟨r, -, rfl⟩ := hx
    obtain ⟨r', -, rfl⟩ := hy
    exact hab
  · intro n v
    rw [List.mem_filterMap]
    have : (∃ a, a ∈ names.insertionSort (· ≤ ·) ∧ (p.results a).map (fun r => (a, r.asValue)) = some (n, v)) ↔
        ∃ r, p.results n = some r ∧ v = r.asValue := by
      constructor
      · rintro ⟨a, -, h⟩
        rw [Option.map_eq_some_iff] at h
        obtain ⟨r, hr, h⟩ := h
        obtain ⟨rfl, rfl⟩ := Prod.mk.inj h
        exact ⟨r, hr, rfl⟩
      · rintro ⟨r, hr, rfl⟩
        refine ⟨n, (List.perm_insertionSort _ names).mem_iff.2 ((hn n).2 (by rw [hr]; simp)), by rw [hr]; rfl⟩
    rw [this]
    constructor
    · rintro ⟨r, hr, rfl⟩
      cases r with
      | number k => exact Or.inl ⟨k, (K.numbers n k).1 hr, rfl⟩
      | runTimes ds =>
        obtain ⟨h1, h2, h3⟩ := (results_iff K n ds).1 hr
        refine Or.inr ⟨h1, ds, h2, h3, ?_⟩
        have : ds.length ≠ 0 := fun h => h2 (List.length_eq_zero_iff.1 h)
        simp [Result.asValue, Statistics.new, h2]
    · rintro (⟨k, hk, rfl⟩ | ⟨h1, ds, h2, h3, rfl⟩)
      · exact ⟨_, (K.numbers n k).2 hk, rfl⟩
      · refine ⟨_, (results_iff K n ds).2 ⟨h1, h2, h3⟩, ?_⟩
        simp [Result.asValue, Statistics.new, h2]
  · intro h
    have : p.timers totalName = none := by
      cases ht : p.timers totalName with
      | none => rfl
      | some t => exact absurd ⟨t, (K.timers _ _).1 ht⟩ h
    unfold Performance.asOutput
    simp only [this]
    exact hfold
  · intro t ht
    unfold Performance.asOutput
    simp only [(K.timers _ _).2 ht]
    refine (congrArg (fun l => linkedInsert l totalName (Result.asValue (.runTimes [now - t]))) hfold).trans ?_
    simp [linkedInsert, Result.asValue, Statistics.new]

/-- **C120.**  `Performance::total` gives the sum of the durations of all sessions, and panics without a session or with a
recorded number. -/
theorem performance_total (calls : List (ℚ × Call N)) (p : Performance N ℚ) (hp : Performance.run calls = some p) (n : N)
    (x : ℚ) : p.total n = some x ↔
      (¬ ∃ k, LastNumber calls n k) ∧ ∃ ds, ds ≠ [] ∧ Durations calls n ds ∧ x = ds.sum := by
  have K := (run_knows calls).1 p hp
  have : p.total n = some x ↔ ∃ ds, p.results n = some (.runTimes ds) ∧ x = ds.sum := by
    unfold Performance.total
    cases p.results n with
    | none => simp
    | some r => cases r <;> simp [eq_comm]
  rw [this]
  simp only [results_iff K]
  constructor
  · rintro ⟨ds, ⟨h1, h2, h3⟩, h4⟩; exact ⟨h1, ds, h2, h3, h4⟩
  · rintro ⟨h1, ds, h2, h3, h4⟩; exact ⟨ds, ⟨h1, h2, h3⟩, h4⟩

/-- **C120.**  Guards never panic, unless a number was recorded under their name; also the timers of other calls under the same name
do not disturb them. -/
theorem timer_guard (calls : List (ℚ × Call N)) (hc : Performance.run calls ≠ none) (n : N)
    (hn : ¬ ∃ v, LastNumber calls n v) (b e : ℚ) (ds : List ℚ) (hds : Durations calls n ds) :
    Performance.run (calls ++ timed n b e) ≠ none ∧ Durations (calls ++ timed n b e) n (ds ++ [e - b]) := by
  have hsplit : calls ++ timed n b e = (calls ++ [(b, .start n)]) ++ [(e, .stop n)] := by simp [timed]
  have hr : Running (calls ++ [(b, .start n)]) n b := running_append.2 (Or.inl rfl)
  have hd := durations_append_stop (t₁ := e) ((durations_append_other (e := (b, .start n)) (by simp)).2 hds) hr
  refine ⟨?_, hsplit ▸ hd⟩
  rw [hsplit, Ne, performance_panics, wrong_append]
  have h1 : ¬ ∃ i, Wrong (calls ++ [(b, Call.start n)]) i := by
    rw [← performance_panics, run_append]
    cases h : Performance.run calls with
    | none => exact absurd h hc
    | some p => simp [Performance.call]
  rintro (h | ⟨t, m, h, h'⟩ | ⟨t, m, v, h, -⟩)
  · exact h1 h
  · rw [at_last] at h
    obtain ⟨-, hm⟩ := Prod.mk.inj h
    obtain rfl := Call.stop.inj hm
    rcases h' with h' | h'
    · obtain ⟨j, hj⟩ := (session_last (t₁ := e) b).2 hr
      exact h' ⟨j, _, hj⟩
    · rw [recordedBefore_append le_rfl, recordedBefore_length] at h'
      obtain ⟨v, hv⟩ := h'
      rw [lastNumber_append] at hv
      rcases hv with hv | ⟨-, hv⟩
      · simp at hv
      · exact hn ⟨v, hv⟩
  · rw [at_last] at h; simp at h

/-- Two guards, a number and the running total: nothing panics. -/
example : Performance.run ([(0, .start 9), (1, .record 5 3)] ++ timed 4 1 2 ++ timed 4 5 8 : List (ℚ × Call ℕ)) ≠ none := by
  decide +kernel

/-- The file of these calls. -/
example : ((Performance.run ([(0, .start 9), (1, .record 5 3)] ++ timed 4 1 2 ++ timed 4 5 8 : List (ℚ × Call ℕ))).map
    fun p => p.asOutput 9 [5, 4] 10) =
    some [(4, .statistics (some ⟨2, 4, 2⟩)), (5, .number 3), (9, .statistics (some ⟨10, 10, 1⟩))] := by
  decide +kernel

/-- More than `2^31 - 1` particles cannot be recorded: `spawn_entities_system` (io/input/mod.rs line 335) panics. -/
example : Performance.run ([(0, .record 7 (2 ^ 31))] : List (ℚ × Call ℕ)) = none := by decide +kernel

/-- A number hides the run times of the same name, and the next `stop` panics. -/
example : (Performance.run (timed 4 1 2 ++ [(3, .record 4 7)] : List (ℚ × Call ℕ))).map (fun p => p.asOutput 9 [4] 10) =
    some [(4, .number 7)] ∧ Performance.run (timed 4 1 2 ++ [(3, .record 4 7)] ++ timed 4 5 6 : List (ℚ × Call ℕ)) = none := by
  decide +kernel

end Verif.StageTimers
