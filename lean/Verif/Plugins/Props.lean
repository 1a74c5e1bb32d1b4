import Verif.Plugins.Model
import Mathlib.Data.List.Count
import Mathlib.Data.List.Nodup
import Mathlib.Tactic.Common

/-!
# C61: plugins are built once
-/

namespace Verif.Plugins

variable {P W N : Type} [DecidableEq N]

/-- The hooks documented as "called once per plugin type". -/
def Hook.IsOnce : Hook → Prop
  | .alwaysOnce | .onceEverywhere | .onceOnMainRank | .onceOnOtherRanks => True
  | .everywhere | .onMainRank | .onOtherRanks => False

/-- How often hook `k` of name `n` may still be called by what is on the stack. -/
def owed (prog : Program P W N) (n : N) (k : Hook) : Task P W → ℕ
  | .statement _ => 0
  | .call p h => if prog.name p = n ∧ h = k then 1 else 0
  | .decide p already =>
    if prog.name p = n ∧ already = false ∧ (k = .onceEverywhere ∨ k = .onceOnMainRank ∨ k = .onceOnOtherRanks)
      then 1 else 0
  | .byRank p once =>
    if prog.name p = n ∧ once = true ∧ (k = .onceOnMainRank ∨ k = .onceOnOtherRanks) then 1 else 0

/-- Calls of hook `k` of name `n` made or still owed. -/
def total (prog : Program P W N) (n : N) (k : Hook) (m : Machine P W N) : ℕ :=
  m.log.count (n, k) + (m.stack.map (owed prog n k)).sum

theorem owed_statements (prog : Program P W N) (n : N) (k : Hook) (l : List (Statement P W)) :
    ((l.map Task.statement).map (owed prog n k)).sum = 0 := by
  induction l with
  | nil => rfl
  | cons a l ih => rw [List.map_cons, List.map_cons, List.sum_cons, ih]; rfl

/-- Invariant: an unlabelled name has no calls at all, a labelled one at most one. -/
def Inv (prog : Program P W N) (m : Machine P W N) : Prop :=
  ∀ n k, k.IsOnce → total prog n k m ≤ 1 ∧ (n ∉ m.labels → total prog n k m = 0)

theorem inv_step (prog : Program P W N) (m m' : Machine P W N) (hi : Inv prog m)
    (hs : step prog m = some m') : Inv prog m' := by
  obtain ⟨labels, world, stack, log⟩ := m
  cases stack with
  | nil =>
    unfold step at hs
    cases hs
    exact hi
  | cons t rest =>
    intro n k hk
    have h := hi n k hk
    unfold total at h
    rw [List.map_cons, List.sum_cons] at h
    dsimp only at h
    cases t with
    | statement s =>
      cases s with
      | change f =>
        cases hs
        unfold total
        dsimp only [owed] at h ⊢
        rw [Nat.zero_add] at h
        exact h
      | addPlugin p =>
        unfold step at hs
        dsimp only at hs
        rw [Option.some.injEq] at hs
        subst hs
        dsimp only [owed] at h
        rw [Nat.zero_add] at h
        unfold total
        dsimp only
        by_cases hp : prog.name p ∈ labels
        · rw [decide_eq_true hp]
          simp only [if_true, List.nil_append, List.map_cons, List.sum_cons, owed]
          simpa using h
        · rw [decide_eq_false hp]
          simp only [Bool.false_eq_true, if_false, List.cons_append, List.nil_append, List.map_cons,
            List.sum_cons, owed]
          by_cases hn : prog.name p = n
          · subst hn
            have h0 := h.2 hp
            refine ⟨?_, fun hc => absurd List.mem_cons_self hc⟩
            have e1 : log.count (prog.name p, k) = 0 := by omega
            have e2 : (rest.map (owed prog (prog.name p) k)).sum = 0 := by omega
            rw [e1, e2]
            cases k <;> simp
          · simp only [hn, false_and, if_false, Nat.zero_add]
            refine ⟨h.1, fun hc => h.2 fun hc' => hc (List.mem_cons_of_mem _ hc')⟩
    | call p hook =>
      unfold step at hs
      dsimp only at hs
      rw [Option.some.injEq] at hs
      subst hs
      have e : total prog n k ⟨labels, world, (prog.body p hook).map .statement ++ rest,
          (prog.name p, hook) :: log⟩
          = log.count (n, k) + (owed prog n k (.call p hook) + (rest.map (owed prog n k)).sum) := by
        unfold total
        dsimp only [owed]
        rw [List.map_append, List.sum_append, owed_statements, List.count_cons]
        by_cases hc : prog.name p = n ∧ hook = k
        · obtain ⟨rfl, rfl⟩ := hc
          simp
          omega
        · rw [if_neg hc, if_neg]
          · omega
          · intro hc'
            simp only [beq_iff_eq, Prod.mk.injEq] at hc'
            exact hc hc'
      rw [e]
      exact h
    | decide p already =>
      unfold step at hs
      dsimp only at hs
      have e : ((((if already = true then ([] : List (Task P W)) else
            [.call p .onceEverywhere, .byRank p true]) ++ .call p .everywhere :: .byRank p false :: rest).map
            (owed prog n k)).sum) ≤ owed prog n k (.decide p already) + (rest.map (owed prog n k)).sum := by
        cases already <;> cases k <;> simp [Hook.IsOnce, owed] at hk ⊢
      by_cases h1 : (!prog.shouldBuild p world) = true
      · rw [if_pos h1] at hs
        cases hs
        unfold total
        dsimp only
        refine ⟨by omega, fun hc => ?_⟩
        have := h.2 hc
        omega
      · rw [if_neg h1] at hs
        by_cases h2 : (!prog.allowAddingTwice p && already) = true
        · rw [if_pos h2] at hs
          cases hs
        · rw [if_neg h2, Option.some.injEq] at hs
          subst hs
          unfold total
          dsimp only
          refine ⟨by omega, fun hc => ?_⟩
          have := h.2 hc
          omega
    | byRank p once =>
      unfold step at hs
      dsimp only at hs
      have e : ∀ stack', (stack' = rest ∨ stack' = .call p (if once then .onceOnMainRank else .onMainRank) :: rest
          ∨ stack' = .call p (if once then .onceOnOtherRanks else .onOtherRanks) :: rest) →
          (stack'.map (owed prog n k)).sum ≤ owed prog n k (.byRank p once) + (rest.map (owed prog n k)).sum := by
        rintro stack' (rfl | rfl | rfl)
        · omega
        · cases once <;> cases k <;> simp [Hook.IsOnce, owed] at hk ⊢
        · cases once <;> cases k <;> simp [Hook.IsOnce, owed] at hk ⊢
      have fin : ∀ stack', (stack'.map (owed prog n k)).sum
          ≤ owed prog n k (.byRank p once) + (rest.map (owed prog n k)).sum →
          total prog n k ⟨labels, world, stack', log⟩ ≤ 1 ∧
          (n ∉ labels → total prog n k ⟨labels, world, stack', log⟩ = 0) := by
        intro stack' hle
        unfold total
        dsimp only
        refine ⟨by omega, fun hc => ?_⟩
        have := h.2 hc
        omega
      cases hr : prog.mainRank world with
      | none =>
        rw [hr] at hs
        cases hs
        exact fin _ (e _ (Or.inl rfl))
      | some b =>
        rw [hr] at hs
        cases b
        · cases hs
          exact fin _ (e _ (Or.inr (Or.inr rfl)))
        · cases hs
          exact fin _ (e _ (Or.inr (Or.inl rfl)))

theorem inv_initial (prog : Program P W N) (world : W) (main : List (Statement P W)) :
    Inv prog (initial world main) := by
  intro n k _
  have : total prog n k (initial world main) = 0 := by
    unfold total initial
    dsimp only
    rw [owed_statements]
    rfl
  rw [this]
  exact ⟨Nat.zero_le _, fun _ => rfl⟩

/-- **C61 (once).** However plugins are added, nested or repeated, each of the hooks documented to run once per
plugin type has been called at most once for every name, at every moment. -/
theorem once_hooks_run_at_most_once (prog : Program P W N) (world : W) (main : List (Statement P W))
    (m : Machine P W N) (hm : Reachable prog world main m) (n : N) (k : Hook) (hk : k.IsOnce) :
    m.log.count (n, k) ≤ 1 := by
  have hi : Inv prog m := by
    induction hm with
    | refl => exact inv_initial prog world main
    | tail _ hs ih => exact inv_step prog _ _ ih hs
  have := (hi n k hk).1
  unfold total at this
  omega

/-- **C61 (rejection).** A step panics exactly when a plugin which does not allow it is added a second time
under the same name, in a world in which it should be built. -/
theorem added_twice_panics (prog : Program P W N) (m : Machine P W N) :
    step prog m = none ↔ ∃ p rest, m.stack = .decide p true :: rest ∧ prog.shouldBuild p m.world = true ∧
      prog.allowAddingTwice p = false := by
  obtain ⟨labels, world, stack, log⟩ := m
  cases stack with
  | nil =>
    constructor
    · intro h
      cases h
    · rintro ⟨p, rest, h, _⟩
      cases h
  | cons t rest =>
    constructor
    · intro h
      unfold step at h
      cases t with
      | statement s => cases s <;> cases h
      | call p hook => cases h
      | byRank p once =>
        dsimp only at h
        split at h <;> cases h
      | decide p already =>
        dsimp only at h
        split_ifs at h with h1 h2
        · simp only [Bool.not_eq_true', Bool.not_eq_false, Bool.and_eq_true] at h1 h2
          exact ⟨p, rest, by rw [h2.2], h1, h2.1⟩
    · rintro ⟨p, rest', h, h1, h2⟩
      cases h
      unfold step
      simp [h1, h2]

/-- ... and the second addition is the one of a name seen before: the flag on the stack says whether the name
had been added when the addition began. -/
theorem second_addition_flagged (prog : Program P W N) (labels : List N) (world : W) (p : P)
    (rest : List (Task P W)) (log : List (N × Hook)) :
    (prog.name p ∈ labels → step prog ⟨labels, world, .statement (.addPlugin p) :: rest, log⟩
      = some ⟨labels, world, .decide p true :: rest, log⟩) ∧
    (prog.name p ∉ labels → step prog ⟨labels, world, .statement (.addPlugin p) :: rest, log⟩
      = some ⟨prog.name p :: labels, world, .call p .alwaysOnce :: .decide p false :: rest, log⟩) := by
  constructor
  · intro h
    unfold step
    simp [h]
  · intro h
    unfold step
    simp [h]

/-- **C61 (rank).** Hooks of the main rank are never called where the world is of another rank, and vice
versa, as long as hooks do not change the rank. -/
theorem rank_hooks_match_rank (prog : Program P W N) (world : W) (main : List (Statement P W)) (b : Bool)
    (hb : prog.mainRank world = some b)
    (hfix : ∀ (w : W), prog.mainRank w = some b → (∀ p k f, .change f ∈ prog.body p k →
      prog.mainRank (f w) = some b) ∧ ∀ f, .change f ∈ main → prog.mainRank (f w) = some b)
    (m : Machine P W N) (hm : Reachable prog world main m) (n : N) :
    ((n, Hook.onceOnMainRank) ∈ m.log ∨ (n, Hook.onMainRank) ∈ m.log → b = true) ∧
    ((n, Hook.onceOnOtherRanks) ∈ m.log ∨ (n, Hook.onOtherRanks) ∈ m.log → b = false) := by
  -- allowed hooks
  let ok : Hook → Prop := fun k => match k with
    | .onceOnMainRank | .onMainRank => b = true
    | .onceOnOtherRanks | .onOtherRanks => b = false
    | _ => True
  have key : prog.mainRank m.world = some b ∧ (∀ n k, (n, k) ∈ m.log → ok k) ∧
      (∀ t ∈ m.stack, match t with
        | .statement (.change f) => ∀ w, prog.mainRank w = some b → prog.mainRank (f w) = some b
        | .call _ k => ok k
        | _ => True) := by
    induction hm with
    | refl =>
      refine ⟨hb, fun n k h => absurd h (List.not_mem_nil), ?_⟩
      intro t ht
      unfold initial at ht
      rw [List.mem_map] at ht
      obtain ⟨s, hs, rfl⟩ := ht
      cases s with
      | change f => exact fun w hw => (hfix w hw).2 f hs
      | addPlugin p => trivial
    | @tail m m' _ hs ih =>
      obtain ⟨labels, wo, stack, log⟩ := m
      obtain ⟨hw, hlog, hst⟩ := ih
      cases stack with
      | nil =>
        cases hs
        exact ⟨hw, hlog, hst⟩
      | cons t rest =>
        have ht := hst t List.mem_cons_self
        have hrest := fun t' h' => hst t' (List.mem_cons_of_mem _ h')
        cases t with
        | statement s =>
          cases s with
          | change f =>
            cases hs
            exact ⟨ht wo hw, hlog, hrest⟩
          | addPlugin p =>
            unfold step at hs
            dsimp only at hs
            rw [Option.some.injEq] at hs
            subst hs
            refine ⟨hw, hlog, ?_⟩
            intro t' h'
            rw [List.mem_append] at h'
            rcases h' with h' | h'
            · split_ifs at h'
              · cases h'
              · rw [List.mem_singleton] at h'
                subst h'
                trivial
            · rcases List.mem_cons.1 h' with rfl | h'
              · trivial
              · exact hrest t' h'
        | call p hook =>
          unfold step at hs
          dsimp only at hs
          rw [Option.some.injEq] at hs
          subst hs
          refine ⟨hw, ?_, ?_⟩
          · intro n' k' h'
            rcases List.mem_cons.1 h' with h' | h'
            · cases h'
              exact ht
            · exact hlog n' k' h'
          · intro t' h'
            rw [List.mem_append, List.mem_map] at h'
            rcases h' with ⟨s, hs, rfl⟩ | h'
            · cases s with
              | change f => exact fun w hw => (hfix w hw).1 p hook f hs
              | addPlugin p => trivial
            · exact hrest t' h'
        | decide p already =>
          unfold step at hs
          dsimp only at hs
          by_cases h1 : (!prog.shouldBuild p wo) = true
          · rw [if_pos h1] at hs
            cases hs
            exact ⟨hw, hlog, hrest⟩
          · rw [if_neg h1] at hs
            by_cases h2 : (!prog.allowAddingTwice p && already) = true
            · rw [if_pos h2] at hs
              cases hs
            · rw [if_neg h2, Option.some.injEq] at hs
              subst hs
              refine ⟨hw, hlog, ?_⟩
              intro t' h'
              rw [List.mem_append] at h'
              rcases h' with h' | h'
              · cases already
                · rcases List.mem_cons.1 h' with rfl | h'
                  · trivial
                  · rw [List.mem_singleton] at h'
                    subst h'
                    trivial
                · cases h'
              · rcases List.mem_cons.1 h' with rfl | h'
                · trivial
                · rcases List.mem_cons.1 h' with rfl | h'
                  · trivial
                  · exact hrest t' h'
        | byRank p once =>
          unfold step at hs
          dsimp only at hs hw
          rw [hw] at hs
          cases b
          · cases hs
            refine ⟨hw, hlog, ?_⟩
            intro t' h'
            rcases List.mem_cons.1 h' with rfl | h'
            · cases once <;> rfl
            · exact hrest t' h'
          · cases hs
            refine ⟨hw, hlog, ?_⟩
            intro t' h'
            rcases List.mem_cons.1 h' with rfl | h'
            · cases once <;> rfl
            · exact hrest t' h'
  obtain ⟨_, hlog, _⟩ := key
  constructor
  · rintro (h | h)
    · exact hlog _ _ h
    · exact hlog _ _ h
  · rintro (h | h)
    · exact hlog _ _ h
    · exact hlog _ _ h

/-! ### What the documentation promises beyond that is false -/

/-- A plugin whose build depends on the world, as the output plugin does on `write_output`: the world is that
flag, and the plugin is number zero. -/
def outputProgram : Program ℕ Bool ℕ where
  name := id
  shouldBuild _ w := w
  allowAddingTwice _ := true
  body _ _ := []
  mainRank _ := some true

/-- Run a number of steps. -/
def runSteps (prog : Program P W N) : ℕ → Machine P W N → Option (Machine P W N)
  | 0, m => some m
  | n + 1, m => (step prog m).bind (runSteps prog n)

theorem runSteps_reachable (prog : Program P W N) (world : W) (main : List (Statement P W)) (n : ℕ)
    (m m' : Machine P W N) (hm : Reachable prog world main m) (h : runSteps prog n m = some m') :
    Reachable prog world main m' := by
  induction n generalizing m with
  | zero =>
    cases h
    exact hm
  | succ n ih =>
    unfold runSteps at h
    cases hs : step prog m with
    | none =>
      rw [hs] at h
      cases h
    | some m1 =>
      rw [hs] at h
      exact ih m1 (hm.tail hs) h

/-- **C61 (disagreement).** "Called on every rank once per plugin type" does not hold: if a plugin is first
added while it should not be built (output switched off) and again when it should (output switched on), it is
built without its once-part ever being called. -/
theorem once_part_can_be_skipped : ∃ m : Machine ℕ Bool ℕ,
    Reachable outputProgram false
      [.addPlugin 0, .change (fun _ => true), .addPlugin 0] m ∧
    m.stack = [] ∧ (0, Hook.everywhere) ∈ m.log ∧ (0, Hook.onceEverywhere) ∉ m.log := by
  refine ⟨⟨[0], true, [], [(0, .onMainRank), (0, .everywhere), (0, .alwaysOnce)]⟩, ?_, rfl, by decide, by decide⟩
  refine runSteps_reachable outputProgram false _ 9 _ _ Relation.ReflTransGen.refl ?_
  rfl

/-! ### If a plugin should always be built, the once-part comes first -/

/-- A task which is about a plugin named `n`. -/
def About (prog : Program P W N) (n : N) : Task P W → Prop
  | .statement _ => False
  | .call p _ | .decide p _ | .byRank p _ => prog.name p = n

/-- The stack leads straight to the once-part of `n`: nothing but changes of the world in between. -/
inductive Leads (prog : Program P W N) (n : N) : List (Task P W) → Prop
  | always (p : P) (rest) : prog.name p = n → Leads prog n (.call p .alwaysOnce :: .decide p false :: rest)
  | decide (p : P) (rest) : prog.name p = n → Leads prog n (.decide p false :: rest)
  | once (p : P) (rest) : prog.name p = n → Leads prog n (.call p .onceEverywhere :: rest)
  | change (f) (stack) : Leads prog n stack → Leads prog n (.statement (.change f) :: stack)

/-- In the log (latest first), every build of `n` has its once-part before it. -/
def OnceFirst (n : N) (log : List (N × Hook)) : Prop :=
  ∀ newer older, log = newer ++ (n, Hook.everywhere) :: older → (n, Hook.onceEverywhere) ∈ older

def OrderInv (prog : Program P W N) (n : N) (m : Machine P W N) : Prop :=
  OnceFirst n m.log ∧
  ((n, Hook.onceEverywhere) ∈ m.log ∨ (n ∈ m.labels ∧ Leads prog n m.stack) ∨
    (n ∉ m.labels ∧ ∀ t ∈ m.stack, ¬ About prog n t))

theorem onceFirst_cons (n : N) (log : List (N × Hook)) (e : N × Hook) (h : OnceFirst n log)
    (he : e = (n, Hook.everywhere) → (n, Hook.onceEverywhere) ∈ log) : OnceFirst n (e :: log) := by
  intro newer older hl
  cases newer with
  | nil =>
    rw [List.nil_append, List.cons.injEq] at hl
    rw [← hl.2]
    exact he hl.1
  | cons a newer =>
    rw [List.cons_append, List.cons.injEq] at hl
    exact h newer older hl.2

theorem leads_changes (prog : Program P W N) (n : N) (l : List (Statement P W)) (stack : List (Task P W))
    (hl : ∀ s ∈ l, ∃ f, s = .change f) (h : Leads prog n stack) :
    Leads prog n (l.map .statement ++ stack) := by
  induction l with
  | nil => exact h
  | cons a l ih =>
    obtain ⟨f, rfl⟩ := hl a List.mem_cons_self
    exact Leads.change f _ (ih fun s hs => hl s (List.mem_cons_of_mem _ hs))

theorem order_step (prog : Program P W N) (n : N) (hbuild : ∀ p w, prog.name p = n → prog.shouldBuild p w = true)
    (halways : ∀ p, ∀ s ∈ prog.body p .alwaysOnce, ∃ f, s = .change f)
    (m m' : Machine P W N) (hi : OrderInv prog n m) (hs : step prog m = some m') : OrderInv prog n m' := by
  obtain ⟨labels, world, stack, log⟩ := m
  obtain ⟨hof, hcase⟩ := hi
  dsimp only at hof hcase
  cases stack with
  | nil =>
    cases hs
    exact ⟨hof, hcase⟩
  | cons t rest =>
    cases t with
    | statement s =>
      cases s with
      | change f =>
        cases hs
        refine ⟨hof, ?_⟩
        rcases hcase with h | ⟨hl, h⟩ | ⟨hl, h⟩
        · exact Or.inl h
        · cases h with
          | change _ _ h => exact Or.inr (Or.inl ⟨hl, h⟩)
        · exact Or.inr (Or.inr ⟨hl, fun t ht => h t (List.mem_cons_of_mem _ ht)⟩)
      | addPlugin p =>
        unfold step at hs
        dsimp only at hs
        rw [Option.some.injEq] at hs
        subst hs
        refine ⟨hof, ?_⟩
        rcases hcase with h | ⟨hl, h⟩ | ⟨hl, h⟩
        · exact Or.inl h
        · cases h
        · by_cases hp : prog.name p = n
          · refine Or.inr (Or.inl ?_)
            have : prog.name p ∉ labels := by rw [hp]; exact hl
            rw [decide_eq_false this]
            refine ⟨?_, Leads.always p rest hp⟩
            dsimp only [Bool.false_eq_true, if_false]
            rw [← hp]
            exact List.mem_cons_self
          · refine Or.inr (Or.inr ⟨?_, ?_⟩)
            · dsimp only
              split_ifs
              · exact hl
              · intro hc
                rcases List.mem_cons.1 hc with hc | hc
                · exact hp hc.symm
                · exact hl hc
            · intro t ht
              dsimp only at ht
              rw [List.mem_append] at ht
              rcases ht with ht | ht
              · split_ifs at ht
                · cases ht
                · rw [List.mem_singleton] at ht
                  subst ht
                  exact hp
              · rcases List.mem_cons.1 ht with rfl | ht
                · exact hp
                · exact h t (List.mem_cons_of_mem _ ht)
    | call p hook =>
      unfold step at hs
      dsimp only at hs
      rw [Option.some.injEq] at hs
      subst hs
      rcases hcase with h | ⟨hl, h⟩ | ⟨hl, h⟩
      · exact ⟨onceFirst_cons n log _ hof fun _ => h, Or.inl (List.mem_cons_of_mem _ h)⟩
      · cases h with
        | always _ rest hp =>
          refine ⟨onceFirst_cons n log _ hof fun he => (by cases he), Or.inr (Or.inl ⟨hl, ?_⟩)⟩
          exact leads_changes prog n _ _ (halways p) (Leads.decide p rest hp)
        | once _ _ hp =>
          refine ⟨onceFirst_cons n log _ hof fun he => (by cases he), Or.inl ?_⟩
          dsimp only
          rw [hp]
          exact List.mem_cons_self
      · have hp : prog.name p ≠ n := h (.call p hook) List.mem_cons_self
        refine ⟨onceFirst_cons n log _ hof fun he => ?_, Or.inr (Or.inr ⟨hl, ?_⟩)⟩
        · cases he
          exact absurd rfl hp
        · intro t ht
          dsimp only at ht
          rw [List.mem_append, List.mem_map] at ht
          rcases ht with ⟨s, _, rfl⟩ | ht
          · exact fun hc => hc
          · exact h t (List.mem_cons_of_mem _ ht)
    | decide p already =>
      unfold step at hs
      dsimp only at hs
      by_cases h1 : (!prog.shouldBuild p world) = true
      · rw [if_pos h1] at hs
        cases hs
        refine ⟨hof, ?_⟩
        rcases hcase with h | ⟨hl, h⟩ | ⟨hl, h⟩
        · exact Or.inl h
        · exfalso
          cases h with
          | decide _ _ hp =>
            rw [hbuild p world hp] at h1
            cases h1
        · exact Or.inr (Or.inr ⟨hl, fun t ht => h t (List.mem_cons_of_mem _ ht)⟩)
      · rw [if_neg h1] at hs
        by_cases h2 : (!prog.allowAddingTwice p && already) = true
        · rw [if_pos h2] at hs
          cases hs
        · rw [if_neg h2, Option.some.injEq] at hs
          subst hs
          refine ⟨hof, ?_⟩
          rcases hcase with h | ⟨hl, h⟩ | ⟨hl, h⟩
          · exact Or.inl h
          · cases h with
            | decide _ _ hp => exact Or.inr (Or.inl ⟨hl, Leads.once p _ hp⟩)
          · have hp : prog.name p ≠ n := h (.decide p already) List.mem_cons_self
            refine Or.inr (Or.inr ⟨hl, ?_⟩)
            intro t ht
            dsimp only at ht
            rw [List.mem_append] at ht
            rcases ht with ht | ht
            · cases already
              · rcases List.mem_cons.1 ht with rfl | ht
                · exact hp
                · rw [List.mem_singleton] at ht
                  subst ht
                  exact hp
              · cases ht
            · rcases List.mem_cons.1 ht with rfl | ht
              · exact hp
              · rcases List.mem_cons.1 ht with rfl | ht
                · exact hp
                · exact h t (List.mem_cons_of_mem _ ht)
    | byRank p once =>
      unfold step at hs
      dsimp only at hs
      rcases hcase with h | ⟨hl, h⟩ | ⟨hl, h⟩
      · cases hr : prog.mainRank world with
        | none =>
          rw [hr] at hs
          cases hs
          exact ⟨hof, Or.inl h⟩
        | some b =>
          rw [hr] at hs
          cases b <;> (cases hs; exact ⟨hof, Or.inl h⟩)
      · cases h
      · have hp : prog.name p ≠ n := h (.byRank p once) List.mem_cons_self
        have hrest : ∀ t ∈ rest, ¬ About prog n t := fun t ht => h t (List.mem_cons_of_mem _ ht)
        cases hr : prog.mainRank world with
        | none =>
          rw [hr] at hs
          cases hs
          exact ⟨hof, Or.inr (Or.inr ⟨hl, hrest⟩)⟩
        | some b =>
          rw [hr] at hs
          cases b
          · cases hs
            refine ⟨hof, Or.inr (Or.inr ⟨hl, ?_⟩)⟩
            intro t ht
            rcases List.mem_cons.1 ht with rfl | ht
            · exact hp
            · exact hrest t ht
          · cases hs
            refine ⟨hof, Or.inr (Or.inr ⟨hl, ?_⟩)⟩
            intro t ht
            rcases List.mem_cons.1 ht with rfl | ht
            · exact hp
            · exact hrest t ht

/-- **C61 (once-part first).** If plugins of a name are always to be built, and `build_always_once` hooks add no
plugins (no plugin of the code has one), then no plugin of that name is ever built before the once-part of the
name has run. -/
theorem once_part_comes_first (prog : Program P W N) (n : N)
    (hbuild : ∀ p w, prog.name p = n → prog.shouldBuild p w = true)
    (halways : ∀ p, ∀ s ∈ prog.body p .alwaysOnce, ∃ f, s = .change f)
    (world : W) (main : List (Statement P W)) (m : Machine P W N) (hm : Reachable prog world main m)
    (newer older : List (N × Hook)) (hlog : m.log = newer ++ (n, Hook.everywhere) :: older) :
    older.count (n, Hook.onceEverywhere) = 1 := by
  have hi : OrderInv prog n m := by
    clear hlog
    induction hm with
    | refl =>
      refine ⟨?_, Or.inr (Or.inr ⟨List.not_mem_nil, ?_⟩)⟩
      · intro newer older h
        cases newer <;> cases h
      · intro t ht
        unfold initial at ht
        rw [List.mem_map] at ht
        obtain ⟨s, _, rfl⟩ := ht
        exact fun hc => hc
    | tail _ hs ih => exact order_step prog n hbuild halways _ _ ih hs
  have h1 := List.count_pos_iff.2 (hi.1 newer older hlog)
  have h2 := once_hooks_run_at_most_once prog world main m hm n .onceEverywhere trivial
  rw [hlog, List.count_append, List.count_cons] at h2
  omega

/-! ## Parameter sections and ordered systems -/

/-- **C61 (parameters).** A run is accepted exactly if every section of the parameter file is registered, or
the only other one, appearing once, is the one called `visualization`. -/
theorem unused_sections_rejected {S : Type} [DecidableEq S] (visualization : S)
    (inFile registered : List S) (hnodup : inFile.Nodup) :
    validate visualization inFile registered = true ↔
      (∀ s ∈ inFile, s ∈ registered ∨ s = visualization) := by
  unfold validate
  dsimp only
  constructor
  · intro h s hs
    by_cases hr : s ∈ registered
    · exact Or.inl hr
    · right
      have hmem : s ∈ inFile.filter (fun s => decide (s ∉ registered)) :=
        List.mem_filter.2 ⟨hs, decide_eq_true hr⟩
      split_ifs at h with hc
      · obtain ⟨a, ha⟩ := List.length_eq_one_iff.1 hc.1
        rw [ha] at hmem hc
        rw [List.mem_singleton] at hmem
        rw [hmem]
        have := hc.2
        simpa using this
      · rw [List.isEmpty_iff] at h
        rw [h] at hmem
        cases hmem
  · intro h
    have hall : ∀ s ∈ inFile.filter (fun s => decide (s ∉ registered)), s = visualization := by
      intro s hs
      obtain ⟨h1, h2⟩ := List.mem_filter.1 hs
      rcases h s h1 with h' | h'
      · exact absurd h' (of_decide_eq_true h2)
      · exact h'
    have hnd := hnodup.filter (fun s => decide (s ∉ registered))
    generalize inFile.filter (fun s => decide (s ∉ registered)) = unused at *
    match unused, hall, hnd with
    | [], _, _ => simp
    | [a], hall, _ =>
      rw [if_pos]
      exact ⟨rfl, by rw [hall a List.mem_cons_self]; rfl⟩
    | a :: b :: l, hall, hnd =>
      exfalso
      have h1 := hall a List.mem_cons_self
      have h2 := hall b (List.mem_cons_of_mem _ List.mem_cons_self)
      rw [h1, h2] at hnd
      exact (List.nodup_cons.1 hnd).1 List.mem_cons_self

/-- All ordered systems added one after the other. -/
def addAll {L : Type} (labels : List L) : List L × List (SystemDescriptor L) :=
  labels.foldl addWellOrdered ([], [])

/-- An execution order of a stage: every system once, none before a system it has to run after. -/
structure Execution {L : Type} (systems : List (SystemDescriptor L)) (order : List L) : Prop where
  complete : order.Perm (systems.map (·.label))
  respects : ∀ s ∈ systems, ∀ l ∈ s.after, ∀ before after, order = before ++ s.label :: after → l ∉ after

theorem addAll_labels {L : Type} (labels : List L) (start : List L × List (SystemDescriptor L)) :
    (labels.foldl addWellOrdered start).1 = start.1 ++ labels ∧
    (labels.foldl addWellOrdered start).2.map (·.label) = start.2.map (·.label) ++ labels ∧
    (∀ s ∈ start.2, s ∈ (labels.foldl addWellOrdered start).2) ∧
    ∀ pre l post, labels = pre ++ l :: post → ∃ s ∈ (labels.foldl addWellOrdered start).2, s.label = l ∧
      ∀ l', l' ∈ start.1 ∨ l' ∈ pre → l' ∈ s.after := by
  induction labels generalizing start with
  | nil =>
    refine ⟨by simp, by simp, fun s hs => hs, ?_⟩
    intro pre l post h
    cases pre <;> cases h
  | cons a labels ih =>
    rw [List.foldl_cons]
    obtain ⟨h1, h2, h3, h4⟩ := ih (addWellOrdered start a)
    have e1 : (addWellOrdered start a).1 = start.1 ++ [a] := by
      obtain ⟨ls, sys⟩ := start
      cases ls <;> rfl
    have e2 : ∃ s, (addWellOrdered start a).2 = start.2 ++ [s] ∧ s.label = a ∧ ∀ l' ∈ start.1, l' ∈ s.after := by
      obtain ⟨ls, sys⟩ := start
      cases ls with
      | nil => exact ⟨⟨a, []⟩, rfl, rfl, fun l' h => by cases h⟩
      | cons b ls => exact ⟨⟨a, b :: b :: ls⟩, rfl, rfl, fun l' h => List.mem_cons_of_mem _ h⟩
    obtain ⟨s, e2, e3, e4⟩ := e2
    refine ⟨by rw [h1, e1]; simp, by rw [h2, e2]; simp [e3], ?_, ?_⟩
    · intro s' hs'
      exact h3 s' (by rw [e2]; exact List.mem_append_left _ hs')
    · intro pre l post hp
      cases pre with
      | nil =>
        rw [List.nil_append, List.cons.injEq] at hp
        refine ⟨s, h3 s (by rw [e2]; simp), e3.trans hp.1, ?_⟩
        rintro l' (h | h)
        · exact e4 l' h
        · cases h
      | cons b pre =>
        rw [List.cons_append, List.cons.injEq] at hp
        obtain ⟨s', hs', hl', ha'⟩ := h4 pre l post hp.2
        refine ⟨s', hs', hl', ?_⟩
        intro l' h
        apply ha'
        rw [e1]
        rcases h with h | h
        · exact Or.inl (List.mem_append_left _ h)
        · rcases List.mem_cons.1 h with rfl | h
          · left
            rw [hp.1]
            simp
          · exact Or.inr h

/-- **C61 (ordered systems).** Systems added in order, under distinct labels, run in exactly that order in
every execution of the stage. -/
theorem well_ordered_systems_run_in_order {L : Type} (labels order : List L) (hnodup : labels.Nodup)
    (h : Execution (addAll labels).2 order) : order = labels := by
  obtain ⟨_, h2, _, h4⟩ := addAll_labels labels ([], [])
  have hperm : order.Perm labels := by
    have := h.complete
    unfold addAll at this
    rw [h2] at this
    exact this
  -- an earlier label comes earlier in the execution
  have hpw : order.Pairwise (fun a b => ∀ pre post, labels = pre ++ a :: post → b ∉ pre) := by
    rw [List.pairwise_iff_getElem]
    intro i j hi hj hij pre post hl hb
    obtain ⟨s, hs, hsl, hafter⟩ := h4 pre order[i] post hl
    refine h.respects s hs order[j] (hafter _ (Or.inr hb)) (order.take i) (order.drop (i + 1)) ?_ ?_
    · rw [hsl]
      exact (List.take_append_drop i order).symm.trans (by rw [List.drop_eq_getElem_cons hi])
    · rw [List.mem_drop_iff_getElem]
      exact ⟨j - (i + 1), by omega, by congr 1; omega⟩
  have hself : labels.Pairwise (fun a b => ∀ pre post, labels = pre ++ a :: post → b ∉ pre) := by
    rw [List.pairwise_iff_getElem]
    intro i j hi hj hij pre post hl hb
    obtain ⟨k, hk, hkb⟩ := List.getElem_of_mem hb
    have e : labels[k]'(by rw [hl, List.length_append]; omega) = labels[j] := by
      rw [← hkb]
      conv_lhs => rw [List.getElem_of_eq hl]
      rw [List.getElem_append_left hk]
    have hkj := (List.Nodup.getElem_inj_iff hnodup).1 e
    have e' : labels[pre.length]'(by rw [hl, List.length_append, List.length_cons]; omega) = labels[i] := by
      conv_lhs => rw [List.getElem_of_eq hl]
      rw [List.getElem_append_right (Nat.le_refl _)]
      simp
    have hpi := (List.Nodup.getElem_inj_iff hnodup).1 e'
    omega
  refine hperm.eq_of_pairwise ?_ hpw hself
  intro a b ha hb h1 h2
  by_contra hne
  rw [hperm.mem_iff] at ha
  obtain ⟨pa, qa, hla⟩ := List.append_of_mem ha
  obtain ⟨pb, qb, hlb⟩ := List.append_of_mem hb
  have n1 := h1 pa qa hla
  have n2 := h2 pb qb hlb
  have hb' : b ∈ pa ++ a :: qa := hla ▸ hb
  rw [List.mem_append, List.mem_cons] at hb'
  rcases hb' with h' | h' | h'
  · exact n1 h'
  · exact hne h'.symm
  · have : a ∈ pb := by
      obtain ⟨q1, q2, hq⟩ := List.append_of_mem h'
      have e : labels = (pa ++ a :: q1) ++ b :: q2 := by rw [hla, hq]; simp
      have hn1 : pb = pa ++ a :: q1 := by
        rw [hlb] at e hnodup
        have hnb : b ∉ pb := by
          intro hc
          rw [List.nodup_append] at hnodup
          exact hnodup.2.2 b hc b List.mem_cons_self rfl
        have hnb' : b ∉ qb := by
          rw [List.nodup_append] at hnodup
          exact (List.nodup_cons.1 hnodup.2.1).1
        exact ((List.append_cons_inj_of_notMem hnb hnb').1 e).1
      rw [hn1]
      simp
    exact n2 this

/-! ### The hypotheses are met -/

/-- A plugin of two instances sharing a name, always built. -/
def twoInstances : Program ℕ Bool ℕ where
  name _ := 0
  shouldBuild _ _ := true
  allowAddingTwice _ := true
  body p k := if p = 1 ∧ k = .onceEverywhere then [.addPlugin 2] else []
  mainRank _ := some true

example : (∀ p w, twoInstances.name p = 0 → twoInstances.shouldBuild p w = true) ∧
    (∀ p, ∀ s ∈ twoInstances.body p .alwaysOnce, ∃ f, s = .change f) ∧
    ∃ m : Machine ℕ Bool ℕ, Reachable twoInstances true [.addPlugin 1] m ∧ m.stack = [] ∧
      m.log.count (0, Hook.everywhere) = 2 ∧ m.log.count (0, Hook.onceEverywhere) = 1 := by
  refine ⟨fun _ _ _ => rfl, ?_, ?_⟩
  · intro p s hs
    simp [twoInstances] at hs
  · have : ∃ m : Machine ℕ Bool ℕ, runSteps twoInstances 14 (initial true [.addPlugin 1]) = some m ∧
        m.stack = [] ∧ m.log.count (0, Hook.everywhere) = 2 ∧ m.log.count (0, Hook.onceEverywhere) = 1 :=
      ⟨_, rfl, rfl, rfl, rfl⟩
    obtain ⟨m, hm, h⟩ := this
    exact ⟨m, runSteps_reachable twoInstances true _ 14 _ _ Relation.ReflTransGen.refl hm, h⟩

example : Execution (addAll [3, 1, 2]).2 [3, 1, 2] := by
  have e : (addAll [3, 1, 2]).2 = [⟨3, []⟩, ⟨1, [3, 3]⟩, ⟨2, [3, 3, 1]⟩] := rfl
  rw [e]
  refine ⟨List.Perm.refl _, ?_⟩
  intro s hs l hl before after ho
  simp only [List.mem_cons, List.not_mem_nil, or_false] at hs
  rcases hs with rfl | rfl | rfl
  · cases hl
  · simp only [List.mem_cons, List.not_mem_nil, or_false, or_self] at hl
    subst hl
    intro hc
    have hcount : ([3, 1, 2] : List ℕ).count 3 = 1 := rfl
    match before, ho with
    | [], ho => cases ho
    | [_], ho =>
      simp only [List.cons_append, List.nil_append, List.cons.injEq] at ho
      rw [← ho.2.2] at hc
      simp at hc
    | [_, _], ho => simp at ho
    | _ :: _ :: _ :: _, ho => simp at ho
  · simp only [List.mem_cons, List.not_mem_nil, or_false] at hl
    intro hc
    match before, ho with
    | [], ho => cases ho
    | [_], ho => simp at ho
    | [_, _], ho =>
      simp only [List.cons_append, List.nil_append, List.cons.injEq] at ho
      rw [← ho.2.2.2] at hc
      cases hc
    | _ :: _ :: _ :: _, ho => simp at ho

end Verif.Plugins
