import Verif.Sweep.OverlapLemmas

/-!
# Executions of several sweeps as executions of the single sweeps
-/

namespace Verif.Sweep

variable {K R C : Type} [Field K] [LinearOrder K] [IsStrictOrderedRing K] [AddCommGroup R] [Module K R]

variable {P : Sequence K R C} {b : Rates R C}

omit [IsStrictOrderedRing K] in
theorem Rel.start {π : Nat → Rates R C} (h0 : π 0 = b) : Rel P π (P.start b) (fun k => P.init k (π k)) := by
  refine ⟨fun _ => .refl, fun r k hk => absurd hk (Nat.not_lt_zero _), fun r => ?_, fun id => ?_, fun _ _ _ => Same.rfl',
    fun _ _ _ _ => rfl, fun _ _ => ?_, fun _ _ => rfl, fun _ _ _ => Same.rfl', fun r k hk => absurd hk (Nat.not_lt_zero _)⟩
  · show Same r (P.init 0 b) (P.init 0 (π 0))
    rw [h0]
    exact Same.rfl'
  · show b.chem id = (π 0).chem id
    rw [h0]
  · rfl

namespace OExecution

variable (E : OExecution P b)

open Classical in
omit [IsStrictOrderedRing K] in
theorem sweep_step (n r : Nat) : (E.st (n + 1)).sweep r =
    if E.lab n = some (r, .next) then (E.st n).sweep r + 1 else (E.st n).sweep r := by
  cases hl : E.lab n with
  | none =>
    rw [E.idle n hl]
    simp
  | some x =>
    obtain ⟨r', a⟩ := x
    have hs := E.move n r' a hl
    generalize E.st (n + 1) = O' at hs
    cases hs with
    | inner _ s' _ a hst => simp
    | next _ _ hr hpc hnum =>
      show (if r = r' then _ else _) = _
      by_cases h : r = r'
      · rw [h]
        simp
      · rw [if_neg h, if_neg]
        simp only [Option.some.injEq, Prod.mk.injEq, and_true]
        exact fun e => h e.symm

omit [IsStrictOrderedRing K] in
theorem sweep_mono (r : Nat) {n m : Nat} (h : n ≤ m) : (E.st n).sweep r ≤ (E.st m).sweep r := by
  induction m, h using Nat.le_induction with
  | base => exact le_rfl
  | succ m _ ih =>
    rw [E.sweep_step]
    split <;> omega

omit [IsStrictOrderedRing K] in
theorem sweep_lt (h0 : 0 < P.num) (n r : Nat) : (E.st n).sweep r < P.num := by
  induction n with
  | zero =>
    rw [E.start]
    exact h0
  | succ n ih =>
    rw [E.sweep_step]
    split
    · next hl =>
      have hs := E.move n r _ hl
      generalize E.st (n + 1) = O' at hs
      cases hs with
      | next _ _ hr hpc hnum => exact hnum
    · exact ih

/-- The step of sweep `k` at time `n`. -/
def proj (k n : Nat) : Option (Nat × Act) :=
  match E.lab n with
  | some (r, .inner a) => if (E.st n).sweep r = k then some (r, a) else none
  | _ => none

omit [IsStrictOrderedRing K] in
theorem proj_eq {k n r : Nat} {a : Act} : E.proj k n = some (r, a) ↔
    E.lab n = some (r, .inner a) ∧ (E.st n).sweep r = k := by
  unfold proj
  cases hl : E.lab n with
  | none => simp
  | some x =>
    obtain ⟨r', a'⟩ := x
    cases a' with
    | next => simp
    | inner a' =>
      dsimp only
      by_cases h : (E.st n).sweep r' = k
      · rw [if_pos h]
        simp only [Option.some.injEq, Prod.mk.injEq, OAct.inner.injEq]
        constructor
        · rintro ⟨rfl, rfl⟩
          exact ⟨⟨rfl, rfl⟩, h⟩
        · exact fun h => h.1
      · rw [if_neg h]
        simp only [Option.some.injEq, Prod.mk.injEq, OAct.inner.injEq]
        constructor
        · intro h
          exact absurd h (by simp)
        · rintro ⟨⟨rfl, -⟩, h'⟩
          exact absurd h' h

/-- When rank `r` begins sweep `k`. -/
def Begins (r k n : Nat) : Prop := E.lab n = some (r, .next) ∧ (E.st n).sweep r + 1 = k

omit [IsStrictOrderedRing K] in
theorem begins_unique {r k n m : Nat} (h : E.Begins r k n) (h' : E.Begins r k m) : n = m := by
  have key : ∀ {n m : Nat}, E.Begins r k n → E.Begins r k m → ¬ n < m := by
    intro n m h h' hlt
    have h1 := E.sweep_step n r
    rw [if_pos h.1, h.2] at h1
    have h2 := E.sweep_mono r (show n + 1 ≤ m from hlt)
    have h3 := h'.2
    omega
  have := key h h'
  have := key h' h
  omega

open Classical in
/-- What is in the cells when their ranks begin sweep `k`. -/
noncomputable def begun : Nat → Rates R C
  | 0 => b
  | k + 1 =>
    { miss := fun id => if h : ∃ n, E.Begins id.rank (k + 1) n then (E.st h.choose).s.miss id else b.miss id
      inc := fun id => if h : ∃ n, E.Begins id.rank (k + 1) n then (E.st h.choose).s.inc id else b.inc id
      out := fun id => if h : ∃ n, E.Begins id.rank (k + 1) n then (E.st h.choose).s.out id else b.out id
      per := fun id => if h : ∃ n, E.Begins id.rank (k + 1) n then (E.st h.choose).s.per id else b.per id
      chem := fun id => if h : ∃ n, E.Begins id.rank (k + 1) n then
        P.evolve k id.rank (E.st h.choose).s (E.st h.choose).chem id else b.chem id }

omit [IsStrictOrderedRing K] in
theorem begun_next {n r : Nat} (h : E.lab n = some (r, .next)) {id : Id} (hid : id.rank = r) :
    (E.begun ((E.st n).sweep r + 1)).miss id = (E.st n).s.miss id ∧
    (E.begun ((E.st n).sweep r + 1)).inc id = (E.st n).s.inc id ∧
    (E.begun ((E.st n).sweep r + 1)).out id = (E.st n).s.out id ∧
    (E.begun ((E.st n).sweep r + 1)).per id = (E.st n).s.per id ∧
    (E.begun ((E.st n).sweep r + 1)).chem id = P.evolve ((E.st n).sweep r) r (E.st n).s (E.st n).chem id := by
  subst hid
  have hex : ∃ m, E.Begins id.rank ((E.st n).sweep id.rank + 1) m := ⟨n, h, rfl⟩
  have hn : hex.choose = n := E.begins_unique hex.choose_spec ⟨h, rfl⟩
  refine ⟨?_, ?_, ?_, ?_, ?_⟩ <;> unfold begun <;> dsimp only <;> rw [dif_pos hex, hn]

omit [IsStrictOrderedRing K] in
theorem begins_rank {r k n : Nat} (h : E.Begins r k n) : r < P.base.numRanks := by
  have hs := E.move n r _ h.1
  generalize E.st (n + 1) = O' at hs
  cases hs with
  | next _ _ hr hpc hnum => exact hr

omit [IsStrictOrderedRing K] in
theorem begun_outside (k : Nat) {id : Id} (hid : P.base.numRanks ≤ id.rank) :
    (E.begun k).miss id = b.miss id ∧ (E.begun k).inc id = b.inc id ∧ (E.begun k).out id = b.out id ∧
    (E.begun k).per id = b.per id ∧ (E.begun k).chem id = b.chem id := by
  cases k with
  | zero => exact ⟨rfl, rfl, rfl, rfl, rfl⟩
  | succ k =>
    have hex : ¬ ∃ m, E.Begins id.rank (k + 1) m := by
      rintro ⟨m, hm⟩
      have := E.begins_rank hm
      omega
    refine ⟨?_, ?_, ?_, ?_, ?_⟩ <;> unfold begun <;> dsimp only <;> rw [dif_neg hex]

/-- An execution of several sweeps is made of an execution of every sweep. -/
theorem split (hP : WF P.base) : ∃ S : Nat → Nat → State R, (∀ k, S 0 k = P.init k (E.begun k)) ∧
    (∀ n, Rel P E.begun (E.st n) (S n)) ∧
    (∀ n k r a, E.proj k n = some (r, a) → Step (P.grid k (E.begun k).chem) r a (S n k) (S (n + 1) k)) ∧
    (∀ n k, E.proj k n = none → S (n + 1) k = S n k) := by
  have key : ∀ n (S : {S : Nat → State R // Rel P E.begun (E.st n) S}), ∃ S' : {S : Nat → State R //
      Rel P E.begun (E.st (n + 1)) S},
      (∀ k r a, E.proj k n = some (r, a) → Step (P.grid k (E.begun k).chem) r a (S.1 k) (S'.1 k)) ∧
      (∀ k, E.proj k n = none → S'.1 k = S.1 k) := by
    rintro n ⟨S, hS⟩
    cases hl : E.lab n with
    | none =>
      refine ⟨⟨S, by rw [E.idle n hl]; exact hS⟩, ?_, fun _ _ => rfl⟩
      intro k r a h
      rw [E.proj_eq, hl] at h
      simp at h
    | some x =>
      obtain ⟨r, a⟩ := x
      have hs := E.move n r a hl
      have hnext := @begun_next _ _ _ _ _ _ _ _ _ E n r
      generalize hO : E.st (n + 1) = O' at hs
      cases hs with
      | inner _ s' _ a hst =>
        obtain ⟨t', h1, h2⟩ := hS.inner hP hst
        refine ⟨⟨_, h2⟩, ?_, ?_⟩
        · intro k r' a' h
          rw [E.proj_eq, hl] at h
          obtain ⟨h, hk⟩ := h
          simp only [Option.some.injEq, Prod.mk.injEq, OAct.inner.injEq] at h
          obtain ⟨rfl, rfl⟩ := h
          subst hk
          show Step _ _ _ _ (if _ then _ else _)
          rw [if_pos rfl]
          exact h1
        · intro k h
          show (if _ then _ else _) = _
          rw [if_neg]
          intro hk
          have := E.proj_eq.2 ⟨hl, hk.symm⟩
          rw [h] at this
          simp at this
      | next _ _ hr hpc hnum =>
        refine ⟨⟨S, hS.next hP hr hpc fun id hid => hnext hl hid⟩, ?_, fun _ _ => rfl⟩
        intro k r' a' h
        rw [E.proj_eq, hl] at h
        simp at h
  choose f h1 h2 using key
  let S : ∀ n, {S : Nat → State R // Rel P E.begun (E.st n) S} := fun n =>
    Nat.rec ⟨fun k => P.init k (E.begun k), by rw [E.start]; exact Rel.start rfl⟩ (fun n s => f n s) n
  exact ⟨fun n => (S n).1, fun _ => rfl, fun n => (S n).2, fun n k r a h => h1 n (S n) k r a h, fun n k h => h2 n (S n) k h⟩

end OExecution

end Verif.Sweep
