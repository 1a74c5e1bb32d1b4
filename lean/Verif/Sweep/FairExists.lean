import Verif.Sweep.Props

/-! # There are fair executions

The ranks take turns, messages arrive when they are probed for and all requests are completed when they are tested. -/

namespace Verif.Sweep

variable {K R : Type} [Field K] [LinearOrder K] [IsStrictOrderedRing K] [AddCommGroup R] [Module K R]

/-- The step is one of the machine in which messages and requests are not delayed. -/
def Prompt (s : State R) (r : Nat) : Act → Prop
  | .probe q => s.chan q r = []
  | .send c => ∀ q, c q = true
  | _ => True

theorem prompt_step {G : Grid K R} (hG : WF G) {miss : Id → Nat → Nat} {inc out per : Id → Nat → R} {s : State R}
    (h : Reach G (initState G miss inc out per) s) {r : Nat} (hr : r < G.numRanks) (hd : s.pc r ≠ .done) :
    ∃ a s', Step G r a s s' ∧ Prompt s r a := by
  obtain ⟨-, h2, h3⟩ := never_stuck hG h hr
  cases hpc : s.pc r with
  | head =>
    by_cases hc : loopCond G s r
    · by_cases ht : s.todo r = 0
      · exact ⟨_, _, .enterRecv s r hr hpc hc ht, trivial⟩
      · exact ⟨_, _, .enterWork s r hr hpc hc ht, trivial⟩
    · exact ⟨_, _, .exit s r hr hpc hc, trivial⟩
  | recv qs =>
    cases qs with
    | nil => exact ⟨_, _, .recvDone s r hr hpc, trivial⟩
    | cons q qs =>
      by_cases h0 : s.recvCount r q = 0
      · exact ⟨_, _, .skip s r q qs hr hpc h0, trivial⟩
      · cases hm : s.chan q r with
        | nil => exact ⟨_, _, .probe s r q qs hr hpc (Nat.pos_of_ne_zero h0), hm⟩
        | cons msg rest =>
          obtain ⟨s', hs⟩ := h3 q qs msg rest hpc h0 hm
          exact ⟨_, s', hs, trivial⟩
  | work k =>
    by_cases ht : s.todo r = 0
    · exact ⟨_, _, .workDone s r k hr hpc ht, trivial⟩
    · obtain ⟨t, ht⟩ := Multiset.exists_mem_of_ne_zero ht
      obtain ⟨s', hs⟩ := h2 k t hpc ht
      exact ⟨_, s', hs, trivial⟩
  | send => exact ⟨_, _, .send s r (fun _ => true) hr hpc, fun _ => rfl⟩
  | done => exact absurd hpc hd

/-- What happens at time `n`: rank `n % numRanks` makes a step if it has not finished. -/
theorem prompt_turn {G : Grid K R} (hG : WF G) {miss : Id → Nat → Nat} {inc out per : Id → Nat → R} (n : Nat)
    (s : {s : State R // Reach G (initState G miss inc out per) s}) :
    ∃ x : Option (Nat × Act) × {s : State R // Reach G (initState G miss inc out per) s},
      (∀ r a, x.1 = some (r, a) → Step G r a s.1 x.2.1 ∧ Prompt s.1 r a) ∧ (x.1 = none → x.2 = s) ∧
      (n % G.numRanks < G.numRanks → s.1.pc (n % G.numRanks) ≠ .done → ∃ a, x.1 = some (n % G.numRanks, a)) := by
  by_cases h : n % G.numRanks < G.numRanks ∧ s.1.pc (n % G.numRanks) ≠ .done
  · obtain ⟨a, s', hs, hp⟩ := prompt_step hG s.2 h.1 h.2
    refine ⟨(some (n % G.numRanks, a), ⟨s', .step _ _ _ _ s.2 hs⟩), ?_, fun h => by simp at h, fun _ _ => ⟨a, rfl⟩⟩
    intro r a' e
    obtain ⟨rfl, rfl⟩ := Prod.mk.inj (Option.some.inj e)
    exact ⟨hs, hp⟩
  · exact ⟨(none, s), fun _ _ h => by simp at h, fun _ => rfl, fun h1 h2 => absurd ⟨h1, h2⟩ h⟩

/-- The assumptions on the machine can be met: there is a fair execution. -/
theorem exists_fair_execution {G : Grid K R} (hG : WF G) (miss : Id → Nat → Nat) (inc out per : Id → Nat → R) :
    ∃ E : Execution G (initState G miss inc out per), E.Fair := by
  choose f h1 h2 h3 using prompt_turn hG (miss := miss) (inc := inc) (out := out) (per := per)
  let st : Nat → {s : State R // Reach G (initState G miss inc out per) s} :=
    fun n => Nat.rec ⟨_, .refl⟩ (fun n s => (f n s).2) n
  have hst : ∀ n, st (n + 1) = (f n (st n)).2 := fun _ => rfl
  refine ⟨⟨fun n => (st n).1, fun n => (f n (st n)).1, rfl, ?_, ?_⟩, ?_, ?_, ?_⟩
  · intro n r a h
    rw [hst]
    exact (h1 n _ r a h).1
  · intro n h
    rw [hst, h2 n _ h]
  · intro r hr n hd
    by_contra hno
    have hnone : ∀ m, n ≤ m → ∀ a, (f m (st m)).1 ≠ some (r, a) := fun m hm a e => hno ⟨m, hm, a, e⟩
    have hstay : ∀ j, ((st (n + j)).1).pc r ≠ .done := by
      intro j
      induction j with
      | zero => exact hd
      | succ j ih =>
        show ((st (n + j + 1)).1).pc r ≠ .done
        rw [hst]
        cases e : (f (n + j) (st (n + j))).1 with
        | none =>
          rw [h2 _ _ e]
          exact ih
        | some x =>
          obtain ⟨r', a⟩ := x
          have hr' : r' ≠ r := by
            rintro rfl
            exact hnone _ (by omega) a e
          have := (h1 _ _ r' a e).1
          rw [step_pc hG ((Good.init hG miss inc out per).reach hG (st (n + j)).2) this hr'.symm]
          exact ih
    have hm : ∃ j, (n + j) % G.numRanks = r := by
      refine ⟨G.numRanks - n % G.numRanks + r, ?_⟩
      have hlt := Nat.mod_lt n (show 0 < G.numRanks by omega)
      have hd := Nat.div_add_mod n G.numRanks
      have : n + (G.numRanks - n % G.numRanks + r) = r + G.numRanks * (n / G.numRanks + 1) := by
        rw [Nat.mul_add, Nat.mul_one]
        omega
      rw [this, Nat.add_mul_mod_self_left, Nat.mod_eq_of_lt hr]
    obtain ⟨j, hj⟩ := hm
    obtain ⟨a, ha⟩ := h3 (n + j) (st (n + j)) (by rw [hj]; exact hr) (by rw [hj]; exact hstay j)
    rw [hj] at ha
    exact hnone _ (by omega) a ha
  · intro r q h n
    obtain ⟨m, -, e, hne⟩ := h n
    exact absurd (h1 m _ r _ e).2 hne
  · intro r q h n
    obtain ⟨m, hm, c, e, hreq, -⟩ := h n
    exact ⟨m, hm, c, e, hreq, (h1 m _ r _ e).2 q⟩

/-- Every sweep on an acyclic grid can be finished. -/
theorem exists_finished {G : Grid K R} (hG : WF G) (hA : Acyclic G) (miss : Id → Nat → Nat) (inc out per : Id → Nat → R) :
    ∃ acts s, Run G (initState G miss inc out per) acts s ∧ Finished G s := by
  obtain ⟨E, hE⟩ := exists_fair_execution hG miss inc out per
  obtain ⟨n, hn⟩ := fair_sweep_terminates hG hA E hE
  have hrun : ∀ m, ∃ acts, Run G (initState G miss inc out per) acts (E.st m) := by
    intro m
    induction m with
    | zero => exact ⟨[], by rw [E.start]; exact .nil⟩
    | succ m ih =>
      obtain ⟨acts, ih⟩ := ih
      cases e : E.lab m with
      | none => exact ⟨acts, by rw [E.idle m e]; exact ih⟩
      | some x => exact ⟨acts ++ [(x.1, x.2)], .snoc _ _ _ _ _ ih (E.move m x.1 x.2 e)⟩
  obtain ⟨acts, h⟩ := hrun n
  exact ⟨acts, _, h, hn⟩

end Verif.Sweep
