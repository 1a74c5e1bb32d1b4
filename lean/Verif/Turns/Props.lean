import Verif.Turns.Model
import Mathlib.Tactic.Linarith
import Mathlib.Data.List.Flatten
import Mathlib.Data.List.Range
import Mathlib.Algebra.BigOperators.Group.Finset.Basic
import Mathlib.Algebra.BigOperators.Fin
import Mathlib.Algebra.Order.BigOperators.Group.Finset

/-!
# Debug output in turns

For all schedules the lines of `barrierdbg!` come in the order of the ranks, nothing blocks, and all lines appear, provided that the
expressions do not communicate themselves.
-/

namespace Verif.Turns

variable {M : Type} {size : ℕ}

/-! ## Specification -/

/-- The output of all uses of `barrierdbg!`, one use after the other, in the order of the ranks. -/
def expected (size calls : ℕ) (lines : ℕ → Fin size → List M) : List (Fin size × M) :=
  (List.range calls).flatMap fun k => (List.finRange size).flatMap fun r => (lines k r).map fun m => (r, m)

/-! ## Phases -/

/-- What the rank whose turn it is prints in phase `p`, with ranks of type `Fin (n + 1)`. -/
def phaseLines (n : ℕ) (lines : ℕ → Fin (n + 1) → List M) (p : ℕ) : List (Fin (n + 1) × M) :=
  (lines (p / (n + 1)) (Fin.ofNat (n + 1) p)).map fun m => (Fin.ofNat (n + 1) p, m)

/-- What rank `r` does in phase `p` before the barrier. -/
def turn (n : ℕ) (lines : ℕ → Fin (n + 1) → List M) (r : Fin (n + 1)) (p : ℕ) : List (Op M) :=
  if Fin.ofNat (n + 1) p = r then (lines (p / (n + 1)) r).map .emit else []

/-- What rank `r` does from phase `p` on, with `j` barriers left. -/
def rest (n : ℕ) (lines : ℕ → Fin (n + 1) → List M) (r : Fin (n + 1)) : ℕ → ℕ → List (Op M)
  | _, 0 => []
  | p, j + 1 => turn n lines r p ++ .collective .barrier :: rest n lines r (p + 1) j

theorem startBarrier_eq (r : ℕ) : startBarrier (M := M) r = List.replicate r (.collective .barrier) := by
  unfold startBarrier
  induction r with
  | zero => rfl
  | succ r ih => rw [List.range_succ, List.flatMap_append, ih, List.replicate_succ']; rfl

theorem endBarrier_eq (r s : ℕ) : endBarrier (M := M) r s = List.replicate (s - r) (.collective .barrier) := by
  unfold endBarrier
  generalize s - r = k
  induction k generalizing r with
  | zero => rfl
  | succ k ih => rw [List.range'_succ, List.flatMap_cons, ih, List.replicate_succ]; rfl

theorem rest_append (n : ℕ) (lines : ℕ → Fin (n + 1) → List M) (r : Fin (n + 1)) (p i j : ℕ) :
    rest n lines r p (i + j) = rest n lines r p i ++ rest n lines r (p + i) j := by
  induction i generalizing p with
  | zero => simp [rest]
  | succ i ih =>
    rw [show i + 1 + j = (i + j) + 1 by omega, rest, rest, ih]
    simp [Nat.add_assoc, Nat.add_comm 1 i]

theorem rest_quiet (n : ℕ) (lines : ℕ → Fin (n + 1) → List M) (r : Fin (n + 1)) (p j : ℕ)
    (h : ∀ q, p ≤ q → q < p + j → Fin.ofNat (n + 1) q ≠ r) :
    rest n lines r p j = List.replicate j (.collective .barrier) := by
  induction j generalizing p with
  | zero => rfl
  | succ j ih =>
    rw [rest, turn, if_neg (h p le_rfl (by omega)), List.nil_append, List.replicate_succ, ih]
    intro q h1 h2
    exact h q (by omega) (by omega)

theorem ofNat_eq_iff (n k q : ℕ) (r : Fin (n + 1)) (h1 : k * (n + 1) ≤ q) (h2 : q < (k + 1) * (n + 1)) :
    Fin.ofNat (n + 1) q = r ↔ q = k * (n + 1) + r := by
  rw [Fin.ext_iff]
  simp only [Fin.ofNat_eq_cast, Fin.val_natCast]
  have hr := r.isLt
  obtain ⟨c, rfl⟩ := Nat.exists_eq_add_of_le h1
  have hc : c < n + 1 := by
    have : (k + 1) * (n + 1) = k * (n + 1) + (n + 1) := by rw [Nat.add_mul, Nat.one_mul]
    omega
  rw [Nat.mul_comm k, Nat.mul_add_mod, Nat.mod_eq_of_lt hc]
  omega

theorem program_eq (n calls : ℕ) (lines : ℕ → Fin (n + 1) → List M) (r : Fin (n + 1)) :
    program (n + 1) calls (fun k r => (lines k r).map .emit) r = rest n lines r 0 (calls * (n + 1)) := by
  induction calls with
  | zero => simp [program, rest]
  | succ k ih =>
    have hr := r.isLt
    have e1 : (k + 1) * (n + 1) = k * (n + 1) + (n + 1) := by rw [Nat.add_mul, Nat.one_mul]
    rw [show (k + 1) * (n + 1) = k * (n + 1) + ((r : ℕ) + ((n - r) + 1)) by omega, rest_append, rest_append, ← ih]
    unfold program
    rw [List.range_succ, List.flatMap_append]
    congr 1
    rw [List.flatMap_singleton, barrierDbg, startBarrier_eq, endBarrier_eq, List.append_assoc]
    congr 1
    · refine (rest_quiet _ _ _ _ _ fun q h1 h2 h => ?_).symm
      rw [ofNat_eq_iff n k q r (by omega) (by omega)] at h
      omega
    · rw [rest]
      have : turn n lines r (0 + k * (n + 1) + r) = (lines k r).map .emit := by
        have hd : (0 + k * (n + 1) + (r : ℕ)) / (n + 1) = k := by
          rw [Nat.zero_add, Nat.mul_comm, Nat.mul_add_div (by omega), Nat.div_eq_of_lt hr, Nat.add_zero]
        rw [turn, if_pos ((ofNat_eq_iff n k _ r (by omega) (by omega)).2 (by omega)), hd]
      rw [this, rest_quiet]
      · rw [show n + 1 - (r : ℕ) = (n - r) + 1 by omega, List.replicate_succ]
      · intro q h1 h2 h
        rw [ofNat_eq_iff n k q r (by omega) (by omega)] at h
        omega

theorem expected_eq (n calls : ℕ) (lines : ℕ → Fin (n + 1) → List M) :
    expected (n + 1) calls lines = (List.range (calls * (n + 1))).flatMap (phaseLines n lines) := by
  unfold expected
  induction calls with
  | zero => simp
  | succ k ih =>
    have e1 : (k + 1) * (n + 1) = k * (n + 1) + (n + 1) := by rw [Nat.add_mul, Nat.one_mul]
    rw [List.range_succ, List.flatMap_append, ih, e1, List.range_add (n := k * (n + 1)), List.flatMap_append]
    congr 1
    rw [List.flatMap_singleton, List.flatMap_map, ← List.map_coe_finRange_eq_range, List.flatMap_map]
    refine List.flatMap_congr fun r _ => ?_
    have hr := r.isLt
    have h1 : Fin.ofNat (n + 1) (k * (n + 1) + (r : ℕ)) = r := (ofNat_eq_iff n k _ r (by omega) (by omega)).2 rfl
    have hd : (k * (n + 1) + (r : ℕ)) / (n + 1) = k := by
      rw [Nat.mul_comm, Nat.mul_add_div (by omega), Nat.div_eq_of_lt hr, Nat.add_zero]
    simp only [phaseLines, Function.comp, hd, h1]

/-! ## Invariant -/

/-- Where all ranks are: phase `p` of `N` is the first one whose barrier some rank has not entered; `done` was printed in this
phase and `todo` is left. -/
structure Inv (n N : ℕ) (lines : ℕ → Fin (n + 1) → List M) (s : State (n + 1) M) (p : ℕ)
    (done todo : List (Fin (n + 1) × M)) : Prop where
  le : p ≤ N
  split : p < N → done ++ todo = phaseLines n lines p
  last : p = N → done = []
  out : s.output = (List.range p).flatMap (phaseLines n lines) ++ done
  kinds : ∀ r, s.entered r = List.replicate (s.entered r).length .barrier
  first : ∃ r, (s.entered r).length = p
  ranks : ∀ r,
    ((s.entered r).length = p + 1 ∧ p < N ∧ s.waiting r = true ∧
      s.rem r = .collective .barrier :: rest n lines r (p + 1) (N - (p + 1)) ∧ (Fin.ofNat (n + 1) p = r → todo = [])) ∨
    ((s.entered r).length = p ∧ 0 < p ∧ s.waiting r = true ∧ s.rem r = .collective .barrier :: rest n lines r p (N - p) ∧
      (Fin.ofNat (n + 1) p = r → done = [])) ∨
    ((s.entered r).length = p ∧ s.waiting r = false ∧
      ((p = N ∧ s.rem r = []) ∨
       (p < N ∧ Fin.ofNat (n + 1) p ≠ r ∧ s.rem r = .collective .barrier :: rest n lines r (p + 1) (N - (p + 1))) ∨
       (p < N ∧ Fin.ofNat (n + 1) p = r ∧
          s.rem r = todo.map (fun x => .emit x.2) ++ .collective .barrier :: rest n lines r (p + 1) (N - (p + 1)))))

theorem phaseLines_owner {n : ℕ} {lines : ℕ → Fin (n + 1) → List M} {p : ℕ} {x : Fin (n + 1) × M}
    (h : x ∈ phaseLines n lines p) : x.1 = Fin.ofNat (n + 1) p := by
  unfold phaseLines at h
  obtain ⟨m, -, rfl⟩ := List.mem_map.1 h
  rfl

theorem turn_owner {n : ℕ} {lines : ℕ → Fin (n + 1) → List M} {p : ℕ} {r : Fin (n + 1)} (h : Fin.ofNat (n + 1) p = r) :
    turn n lines r p = (phaseLines n lines p).map fun x => .emit x.2 := by
  subst h
  unfold turn phaseLines
  rw [if_pos rfl, List.map_map]
  rfl

/-- What a rank which has arrived in phase `p` has in front of it, if nothing of the phase has been printed. -/
theorem rest_cases (n N : ℕ) (lines : ℕ → Fin (n + 1) → List M) (r : Fin (n + 1)) (p : ℕ) (h : p ≤ N)
    (todo : List (Fin (n + 1) × M)) (ht : p < N → Fin.ofNat (n + 1) p = r → todo = phaseLines n lines p) :
    (p = N ∧ rest n lines r p (N - p) = []) ∨
       (p < N ∧ Fin.ofNat (n + 1) p ≠ r ∧
          rest n lines r p (N - p) = .collective .barrier :: rest n lines r (p + 1) (N - (p + 1))) ∨
       (p < N ∧ Fin.ofNat (n + 1) p = r ∧ rest n lines r p (N - p) =
          todo.map (fun x => .emit x.2) ++ .collective .barrier :: rest n lines r (p + 1) (N - (p + 1))) := by
  rcases h.lt_or_eq with h | h
  · right
    have e : N - p = (N - (p + 1)) + 1 := by omega
    by_cases ho : Fin.ofNat (n + 1) p = r
    · right
      refine ⟨h, ho, ?_⟩
      rw [e, rest, turn_owner ho, ht h ho]
    · left
      refine ⟨h, ho, ?_⟩
      rw [e, rest, turn, if_neg ho, List.nil_append]
  · left
    subst h
    simp [rest]

theorem inv_init (n N : ℕ) (lines : ℕ → Fin (n + 1) → List M) :
    ∃ done todo, Inv n N lines (State.init (n + 1) fun r => rest n lines r 0 N) 0 done todo := by
  refine ⟨[], phaseLines n lines 0, ⟨Nat.zero_le _, fun _ => rfl, fun _ => rfl, rfl, fun r => rfl, ⟨0, rfl⟩, fun r => ?_⟩⟩
  refine Or.inr (Or.inr ⟨rfl, rfl, ?_⟩)
  exact rest_cases n N lines r 0 (Nat.zero_le _) _ fun _ _ => rfl

theorem inv_step {n N : ℕ} {lines : ℕ → Fin (n + 1) → List M} {s t : State (n + 1) M} {p : ℕ}
    {done todo : List (Fin (n + 1) × M)} (I : Inv n N lines s p done todo) (h : Step s t) :
    ∃ p' done' todo', Inv n N lines t p' done' todo' := by
  cases h with
  | emit r m l hw hr =>
    rcases I.ranks r with ⟨-, -, hw', -⟩ | ⟨-, -, hw', -⟩ | ⟨he, -, hc⟩
    · rw [hw] at hw'; cases hw'
    · rw [hw] at hw'; cases hw'
    · rcases hc with ⟨-, hc⟩ | ⟨-, -, hc⟩ | ⟨hp, ho, hc⟩
      · rw [hr] at hc; cases hc
      · rw [hr] at hc; cases hc
      · rw [hr] at hc
        cases todo with
        | nil => cases hc
        | cons x todo =>
          rw [List.map_cons, List.cons_append] at hc
          obtain ⟨hm, hl⟩ := List.cons.inj hc
          obtain rfl := Op.emit.inj hm
          have hx : x.1 = r := by
            rw [← ho]
            refine phaseLines_owner (lines := lines) ?_
            rw [← I.split hp]; simp
          refine ⟨p, done ++ [x], todo, ⟨I.le, fun h => ?_, fun h => ?_, ?_, I.kinds, I.first, fun q => ?_⟩⟩
          · rw [List.append_assoc]; exact I.split h
          · omega
          · show s.output ++ [(r, x.2)] = _
            rw [I.out, List.append_assoc, ← hx]
          · by_cases hq : q = r
            · subst hq
              refine Or.inr (Or.inr ⟨he, hw, Or.inr (Or.inr ⟨hp, ho, ?_⟩)⟩)
              simpa using hl
            · have hq' : Fin.ofNat (n + 1) p ≠ q := fun h => hq (h.symm.trans ho)
              have := I.ranks q
              simp only [Function.update_of_ne hq]
              rcases this with ⟨a, b, c, d, e⟩ | ⟨a, b, c, d, e⟩ | ⟨a, b, c⟩
              · exact Or.inl ⟨a, b, c, d, fun h => absurd h hq'⟩
              · exact Or.inr (Or.inl ⟨a, b, c, d, fun h => absurd h hq'⟩)
              · refine Or.inr (Or.inr ⟨a, b, ?_⟩)
                rcases c with c | c | ⟨-, c, -⟩
                · exact Or.inl c
                · exact Or.inr (Or.inl c)
                · exact absurd c hq'
  | enter r k l hw hr =>
    rcases I.ranks r with ⟨-, -, hw', -⟩ | ⟨-, -, hw', -⟩ | ⟨he, -, hc⟩
    · rw [hw] at hw'; cases hw'
    · rw [hw] at hw'; cases hw'
    · have hk : p < N ∧ k = .barrier ∧ s.rem r = .collective .barrier :: rest n lines r (p + 1) (N - (p + 1)) ∧
          (Fin.ofNat (n + 1) p = r → todo = []) := by
        rcases hc with ⟨-, hc⟩ | ⟨hp, ho, hc⟩ | ⟨hp, ho, hc⟩
        · rw [hr] at hc; cases hc
        · have := hc
          rw [hr] at this
          exact ⟨hp, Op.collective.inj (List.cons.inj this).1, hc, fun h => absurd h ho⟩
        · have := hc
          rw [hr] at this
          cases todo with
          | nil =>
            exact ⟨hp, Op.collective.inj (List.cons.inj this).1, by rw [hc]; rfl, fun _ => rfl⟩
          | cons x todo => cases this
      obtain ⟨hp, rfl, hrem, hto⟩ := hk
      have hlen : ∀ q, ((Function.update s.entered r (s.entered r ++ [Kind.barrier])) q).length =
          if q = r then p + 1 else (s.entered q).length := by
        intro q
        by_cases hq : q = r
        · subst hq; simp [he]
        · simp [hq]
      have hkinds : ∀ q, (Function.update s.entered r (s.entered r ++ [Kind.barrier])) q =
          List.replicate ((Function.update s.entered r (s.entered r ++ [Kind.barrier])) q).length .barrier := by
        intro q
        by_cases hq : q = r
        · subst hq
          rw [Function.update_self, List.length_append, List.length_singleton, List.replicate_succ', ← I.kinds q]
        · rw [Function.update_of_ne hq]; exact I.kinds q
      by_cases hall : ∃ q, q ≠ r ∧ (s.entered q).length = p
      · refine ⟨p, done, todo, ⟨I.le, I.split, I.last, I.out, hkinds, ?_, fun q => ?_⟩⟩
        · obtain ⟨q, hq, hq'⟩ := hall
          refine ⟨q, ?_⟩
          show ((Function.update s.entered r (s.entered r ++ [Kind.barrier])) q).length = p
          rw [hlen, if_neg hq, hq']
        · show (((Function.update s.entered r (s.entered r ++ [Kind.barrier])) q).length = p + 1 ∧ _) ∨ _
          dsimp only
          rw [hlen]
          by_cases hq : q = r
          · subst hq
            rw [if_pos rfl, Function.update_self]
            exact Or.inl ⟨rfl, hp, rfl, hrem, hto⟩
          · rw [if_neg hq, Function.update_of_ne hq]
            exact I.ranks q
      · have hothers : ∀ q, q ≠ r → (s.entered q).length = p + 1 ∧ s.waiting q = true ∧
            s.rem q = .collective .barrier :: rest n lines q (p + 1) (N - (p + 1)) ∧ (Fin.ofNat (n + 1) p = q → todo = []) := by
          intro q hq
          rcases I.ranks q with ⟨a, b, c, d, e⟩ | ⟨a, -⟩ | ⟨a, -⟩
          · exact ⟨a, c, d, e⟩
          · exact absurd ⟨q, hq, a⟩ hall
          · exact absurd ⟨q, hq, a⟩ hall
        have htodo : todo = [] := by
          by_cases h : Fin.ofNat (n + 1) p = r
          · exact hto h
          · exact (hothers _ h).2.2.2 rfl
        have hdone : done = phaseLines n lines p := by
          have := I.split hp
          rw [htodo, List.append_nil] at this
          exact this
        refine ⟨p + 1, [], phaseLines n lines (p + 1), ⟨hp, fun _ => rfl, fun _ => rfl, ?_, hkinds, ⟨r, ?_⟩, fun q => ?_⟩⟩
        · show s.output = _
          rw [I.out, hdone, List.range_succ, List.flatMap_append]
          simp
        · show ((Function.update s.entered r (s.entered r ++ [Kind.barrier])) r).length = p + 1
          rw [hlen, if_pos rfl]
        · right; left
          dsimp only
          rw [hlen]
          by_cases hq : q = r
          · subst hq
            rw [if_pos rfl, Function.update_self]
            exact ⟨rfl, by omega, rfl, hrem, fun _ => rfl⟩
          · rw [if_neg hq, Function.update_of_ne hq]
            obtain ⟨a, b, c, -⟩ := hothers q hq
            exact ⟨a, by omega, b, c, fun _ => rfl⟩
  | leave r k l hw hr hall =>
    rcases I.ranks r with ⟨he, -, -, -⟩ | ⟨he, hp, -, hrem, hd⟩ | ⟨-, hw', -⟩
    · exfalso
      obtain ⟨q, hq⟩ := I.first
      have := hall q
      rw [he, Nat.add_sub_cancel, List.getElem?_eq_none (by omega)] at this
      cases this
    · have hl : l = rest n lines r p (N - p) := by
        rw [hr] at hrem
        exact (List.cons.inj hrem).2
      refine ⟨p, done, todo, ⟨I.le, I.split, I.last, I.out, I.kinds, I.first, fun q => ?_⟩⟩
      by_cases hq : q = r
      · subst hq
        simp only [Function.update_self]
        refine Or.inr (Or.inr ⟨he, trivial, ?_⟩)
        rw [hl]
        refine rest_cases n N lines q p I.le todo fun h1 h2 => ?_
        have := I.split h1
        rwa [hd h2, List.nil_append] at this
      · simp only [Function.update_of_ne hq]
        exact I.ranks q
    · rw [hw] at hw'; cases hw'

theorem inv_reach {n N : ℕ} {lines : ℕ → Fin (n + 1) → List M} {s : State (n + 1) M}
    (h : Reach (State.init (n + 1) fun r => rest n lines r 0 N) s) : ∃ p done todo, Inv n N lines s p done todo := by
  induction h with
  | refl => exact ⟨0, inv_init n N lines⟩
  | tail _ hs ih =>
    obtain ⟨p, d, t, I⟩ := ih
    exact inv_step I hs

/-- Work which is left. -/
def work (s : State size M) : ℕ := ∑ r, (2 * (s.rem r).length - if s.waiting r then 1 else 0)

/-! ## Theorems -/

/-- **C121.**  For all world sizes, all numbers of uses of `barrierdbg!` and all schedules: what has been printed so far is a beginning of
the output of all uses in order, and of each use in the order of the ranks.  No rank is blocked for ever: as long as not all
ranks have finished there is a possible step, and when they have all lines have been printed. -/
theorem barrierdbg_turns (size calls : ℕ) (hsize : 0 < size) (lines : ℕ → Fin size → List M) (s : State size M)
    (h : Reach (State.init size (program size calls fun k r => (lines k r).map .emit)) s) :
    s.output <+: expected size calls lines ∧
      ((∃ t, Step s t) ∨ (∀ r, s.rem r = []) ∧ s.output = expected size calls lines) := by
  obtain ⟨n, rfl⟩ : ∃ n, size = n + 1 := ⟨size - 1, by omega⟩
  have hprog : (program (n + 1) calls fun k r => (lines k r).map Op.emit) = fun r => rest n lines r 0 (calls * (n + 1)) :=
    funext fun r => program_eq n calls lines r
  rw [hprog] at h
  obtain ⟨p, done, todo, I⟩ := inv_reach h
  generalize hN : calls * (n + 1) = N at *
  have hexp : expected (n + 1) calls lines = (List.range N).flatMap (phaseLines n lines) := by rw [expected_eq, hN]
  rw [hexp]
  constructor
  · rw [I.out]
    rcases I.le.lt_or_eq with hlt | heq
    · obtain ⟨c, rfl⟩ := Nat.exists_eq_add_of_lt hlt
      refine ⟨todo ++ (List.range c).flatMap (fun i => phaseLines n lines (p + 1 + i)), ?_⟩
      rw [show p + c + 1 = (p + 1) + c by omega, List.range_add (n := p + 1), List.flatMap_append, List.range_succ,
        List.flatMap_append, List.flatMap_singleton, ← I.split hlt, List.flatMap_map]
      simp only [List.append_assoc]
    · rw [I.last heq, heq, List.append_nil]
  · by_cases hwt : ∃ r, (s.entered r).length = p ∧ s.waiting r = true
    · obtain ⟨r, he, hw⟩ := hwt
      left
      rcases I.ranks r with ⟨he', -⟩ | ⟨-, hp, -, hrem, -⟩ | ⟨-, hw', -⟩
      · omega
      · refine ⟨_, Step.leave s r .barrier _ hw hrem fun q => ?_⟩
        have hq : p ≤ (s.entered q).length := by
          rcases I.ranks q with ⟨a, -⟩ | ⟨a, -⟩ | ⟨a, -⟩ <;> omega
        rw [I.kinds q, he, List.getElem?_replicate, if_pos (by omega)]
      · rw [hw] at hw'; cases hw'
    · obtain ⟨r, he⟩ := I.first
      rcases I.ranks r with ⟨he', -⟩ | ⟨-, -, hw, -⟩ | ⟨-, hw, hc⟩
      · omega
      · exact absurd ⟨r, he, hw⟩ hwt
      · rcases hc with ⟨hp, -⟩ | ⟨-, -, hc⟩ | ⟨hp, ho, hc⟩
        · right
          constructor
          · intro q
            rcases I.ranks q with ⟨-, h, -⟩ | ⟨a, -, b, -⟩ | ⟨-, -, c⟩
            · omega
            · exact absurd ⟨q, a, b⟩ hwt
            · rcases c with ⟨-, c⟩ | ⟨c, -⟩ | ⟨c, -⟩
              · exact c
              · omega
              · omega
          · rw [I.out, I.last hp, hp, List.append_nil]
        · exact Or.inl ⟨_, Step.enter s r _ _ hw hc⟩
        · left
          cases todo with
          | nil => exact ⟨_, Step.enter s r _ _ hw hc⟩
          | cons x todo => exact ⟨_, Step.emit s r _ _ hw hc⟩

/-- **C121.**  All executions end: every step reduces the work which is left. -/
theorem steps_end (s t : State size M) (h : Step s t) (hs : ∀ r, s.waiting r = true → s.rem r ≠ []) :
    work t < work s ∧ ∀ r, t.waiting r = true → t.rem r ≠ [] := by
  have key : ∀ r : Fin size, (∀ q, q ≠ r → t.rem q = s.rem q ∧ t.waiting q = s.waiting q) →
      (2 * (t.rem r).length - (if t.waiting r then 1 else 0) < 2 * (s.rem r).length - (if s.waiting r then 1 else 0)) →
      work t < work s := by
    intro r hq hr
    refine Finset.sum_lt_sum (fun q _ => ?_) ⟨r, Finset.mem_univ _, hr⟩
    by_cases h : q = r
    · subst h; exact hr.le
    · rw [(hq q h).1, (hq q h).2]
  cases h with
  | emit r m l hw hr =>
    refine ⟨key r (fun q hq => by simp [hq]) ?_, fun q hq => ?_⟩
    · simp [hw, hr]
    · by_cases h : q = r
      · subst h; rw [hw] at hq; cases hq
      · simpa [h] using hs q hq
  | enter r k l hw hr =>
    refine ⟨key r (fun q hq => by simp [hq]) ?_, fun q hq => ?_⟩
    · simp [hw, hr]
    · by_cases h : q = r
      · subst h; simp [hr]
      · exact hs q (by simpa [h] using hq)
  | leave r k l hw hr _ =>
    refine ⟨key r (fun q hq => by simp [hq]) ?_, fun q hq => ?_⟩
    · simp [hw, hr]; omega
    · by_cases h : q = r
      · subst h; simp at hq
      · simpa [h] using hs q (by simpa [h] using hq)

/-- **C121.**  If the expression communicates, for example by an `all_gather`, nothing is ever printed on more than one rank:
the first rank waits in its own collective operation while the others wait in a barrier. -/
theorem communicating_expression_blocks (size calls : ℕ) (hsize : 1 < size) (body : ℕ → Fin size → List (Op M))
    (hb : ∀ r, ∃ l, body 0 r = .collective .other :: l) (s : State size M)
    (h : Reach (State.init size (program size (calls + 1) body)) s) : s.output = [] := by
  have hfirst : ∀ r : Fin size, ∃ l, program size (calls + 1) body r =
      .collective (if (r : ℕ) = 0 then .other else .barrier) :: l := by
    intro r
    unfold program
    rw [List.range_succ_eq_map, List.flatMap_cons, barrierDbg, startBarrier_eq]
    obtain ⟨l, hl⟩ := hb r
    by_cases h0 : (r : ℕ) = 0
    · rw [if_pos h0, hl, h0]
      exact ⟨_, rfl⟩
    · rw [if_neg h0]
      obtain ⟨k, hk⟩ := Nat.exists_eq_succ_of_ne_zero h0
      rw [hk, List.replicate_succ]
      exact ⟨_, rfl⟩
  have key : s.output = [] ∧ s.rem = program size (calls + 1) body ∧
      ∀ r, (s.waiting r = false ∧ s.entered r = []) ∨
        (s.waiting r = true ∧ s.entered r = [if (r : ℕ) = 0 then Kind.other else .barrier]) := by
    induction h with
    | refl => exact ⟨rfl, rfl, fun r => Or.inl ⟨rfl, rfl⟩⟩
    | tail _ hs ih =>
      obtain ⟨h1, h2, h3⟩ := ih
      cases hs with
      | emit r m l hw hr =>
        obtain ⟨l', hl'⟩ := hfirst r
        rw [h2, hl'] at hr
        cases hr
      | enter r k l hw hr =>
        obtain ⟨l', hl'⟩ := hfirst r
        rw [h2, hl'] at hr
        obtain ⟨hk, -⟩ := List.cons.inj hr
        obtain rfl := Op.collective.inj hk
        refine ⟨h1, h2, fun q => ?_⟩
        by_cases hq : q = r
        · subst hq
          right
          rcases h3 q with ⟨-, h⟩ | ⟨h, -⟩
          · simp [h]
          · rw [hw] at h; cases h
        · simpa [hq] using h3 q
      | leave r k l hw hr hall =>
        exfalso
        rcases h3 r with ⟨h, -⟩ | ⟨-, h⟩
        · rw [hw] at h; cases h
        · have hz : ∀ q : Fin size, (if (q : ℕ) = 0 then Kind.other else Kind.barrier) = k := by
            intro q
            have := hall q
            rw [h] at this
            rcases h3 q with ⟨-, hq⟩ | ⟨-, hq⟩
            · rw [hq] at this; cases this
            · rw [hq] at this
              simpa using this
          have h0 := hz ⟨0, by omega⟩
          have h1' := hz ⟨1, hsize⟩
          simp at h0 h1'
          rw [← h0] at h1'
          cases h1'
  exact key.1

/-- Two uses on three ranks, the second with two lines on rank 1. -/
example : expected 3 2 (fun k r => if k = 1 ∧ r = 1 then ["b", "c"] else ["a"]) =
    [(0, "a"), (1, "a"), (2, "a"), (0, "a"), (1, "b"), (1, "c"), (2, "a")] := by decide

/-- The programs of two ranks. -/
example : program 2 1 (fun _ _ => [Op.emit "a"]) = fun r => if r = 0 then
    [.emit "a", .collective .barrier, .collective .barrier] else
    [.collective .barrier, .emit "a", .collective .barrier] := by decide

/-- The initial state meets the hypothesis of `steps_end`, and the hypothesis of `communicating_expression_blocks` is
met by an expression which gathers something. -/
example : (∀ r, (State.init 2 (program 2 1 fun _ _ => [Op.emit "a"])).waiting r = true →
    (State.init 2 (program 2 1 fun _ _ => [Op.emit "a"])).rem r ≠ []) ∧
    ∀ r : Fin 2, ∃ l, (fun (_ : ℕ) (_ : Fin 2) => [Op.collective .other, .emit "a"]) 0 r = .collective .other :: l :=
  ⟨fun r h => (by cases h), fun _ => ⟨_, rfl⟩⟩

end Verif.Turns
