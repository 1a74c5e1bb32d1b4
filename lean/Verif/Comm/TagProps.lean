import Verif.Comm.TagModel
import Mathlib.Tactic.Linarith

/-!
# Theorems about tags
-/

namespace Verif.Tags

variable {K P : Type} [DecidableEq K] [DecidableEq P]

/-! ### Specification -/

/-- Specification: every kind of message has a queue of its own. -/
def queueStep (queues : K → List P) : Event K P → Option (K → List P)
  | .send k p => some fun j => if j = k then queues j ++ [p] else queues j
  | .receive k k' p =>
    match queues k with
    | [] => none
    | q :: qs => if k' = k ∧ p = q then some fun j => if j = k then qs else queues j else none

/-- Specification: a sequence of events is possible with separate queues. -/
def Separate (events : List (Event K P)) : Prop := (events.foldlM queueStep fun _ => ([] : List P)).isSome

/-! ### Lemmas -/

/-- The messages of a kind. -/
def ofKind (wire : List (K × P)) (k : K) : List P := (wire.filter fun m => m.1 = k).map Prod.snd

theorem takeTag_kind {tagOf : K → ℤ} (h : Function.Injective tagOf) (k : K) (wire : List (K × P)) :
    match takeTag tagOf (tagOf k) wire with
    | none => ofKind wire k = []
    | some (m, ms) => m.1 = k ∧ ofKind wire k = m.2 :: ofKind ms k ∧ ∀ j, j ≠ k → ofKind ms j = ofKind wire j := by
  induction wire with
  | nil => simp [takeTag, ofKind]
  | cons m ms ih =>
    unfold takeTag
    by_cases hm : m.1 = k
    · rw [if_pos (by rw [hm])]
      refine ⟨hm, by simp [ofKind, hm], fun j hj => ?_⟩
      have : m.1 ≠ j := fun e => hj (e.symm.trans hm)
      simp [ofKind, this]
    · rw [if_neg fun e => hm (h e)]
      cases ht : takeTag tagOf (tagOf k) ms with
      | none =>
        rw [ht] at ih
        simpa [ofKind, hm] using ih
      | some r =>
        rw [ht] at ih
        obtain ⟨h1, h2, h3⟩ := ih
        refine ⟨h1, ?_, fun j hj => ?_⟩
        · simpa [ofKind, hm] using h2
        · have := h3 j hj
          by_cases hj' : m.1 = j <;> simp_all [ofKind]

theorem step_kind {tagOf : K → ℤ} (h : Function.Injective tagOf) (wire : List (K × P)) (e : Event K P) :
    (wireStep tagOf wire e).map ofKind = queueStep (ofKind wire) e := by
  cases e with
  | send k p =>
    simp only [wireStep, queueStep, Option.map_some, Option.some.injEq]
    funext j
    by_cases hj : j = k
    · subst hj; simp [ofKind]
    · have : k ≠ j := fun e => hj e.symm
      simp [ofKind, hj, this]
  | receive k k' p =>
    have := takeTag_kind h k wire
    unfold wireStep queueStep
    cases ht : takeTag tagOf (tagOf k) wire with
    | none =>
      rw [ht] at this
      simp only at this
      simp [this, ht]
    | some r =>
      obtain ⟨⟨a, b⟩, ms⟩ := r
      rw [ht] at this
      obtain ⟨h1, h2, h3⟩ := this
      simp only at h1 h2 h3
      subst h1
      simp only [h2, ht]
      by_cases hp : (a, b) = (k', p)
      · obtain ⟨rfl, rfl⟩ := Prod.mk.injEq _ _ _ _ ▸ hp
        simp only [if_true, Option.map_some, and_self, Option.some.injEq]
        funext j
        by_cases hj : j = a
        · subst hj; simp
        · simp [hj, h3 j hj]
      · rw [if_neg hp, if_neg]
        · rfl
        · rintro ⟨rfl, rfl⟩
          exact hp rfl

theorem run_kind {tagOf : K → ℤ} (h : Function.Injective tagOf) (events : List (Event K P)) (wire : List (K × P)) :
    (events.foldlM (wireStep tagOf) wire).map ofKind = events.foldlM queueStep (ofKind wire) := by
  induction events generalizing wire with
  | nil => simp
  | cons e events ih =>
    rw [List.foldlM_cons, List.foldlM_cons, ← step_kind h]
    cases hs : wireStep tagOf wire e with
    | none => rfl
    | some w => exact ih w

/-! ## C108 -/

/-- **C108 (separate channels).** If different kinds of messages have different tags, exactly those sequences of events are possible
which are possible if every kind of message has a queue of its own: a rank gets the messages of each kind in the order in which
they were sent, whatever else is on its way, and never one of another kind. -/
theorem tags_separate {tagOf : K → ℤ} (h : Function.Injective tagOf) (events : List (Event K P)) :
    Possible tagOf events ↔ Separate events := by
  unfold Possible Separate
  have := run_kind h events []
  rw [show ofKind ([] : List (K × P)) = fun _ => [] from rfl] at this
  rw [← this, Option.isSome_map]

/-- **C108 (mixed up).** If two kinds of messages have the same tag, a message of one kind is received as one of the other. -/
theorem tags_mixed_up {tagOf : K → ℤ} {k k' : K} (hk : k ≠ k') (h : tagOf k = tagOf k') (p : P) :
    Possible tagOf [.send k p, .receive k' k p] ∧ ¬ Separate [.send k p, .receive k' k p] := by
  constructor
  · simp [Possible, wireStep, takeTag, h]
  · simp [Separate, queueStep, hk.symm]

/-- **C108 (tags of types).** The tag of a type is between 0 and 32767, which all MPI implementations allow; the one exception are
hashes with lower bits 0x8000, for which it overflows. -/
theorem tag_range (hash : ℕ) :
    (tagForHash hash = none ↔ hash % 2 ^ 16 = 2 ^ 15) ∧ ∀ t, tagForHash hash = some t → 0 ≤ t ∧ t ≤ 32767 := by
  have hlt : hash % 2 ^ 16 < 2 ^ 16 := Nat.mod_lt _ (by norm_num)
  unfold tagForHash asI16
  dsimp only
  constructor
  · split_ifs <;> simp_all <;> omega
  · intro t ht
    split_ifs at ht with h1 h2 h2
    · have := Option.some.inj ht
      rw [← this]
      omega
    · have := Option.some.inj ht
      rw [← this]
      omega

/-- **C108 (equal tags).** Two types have the same tag if and only if the lower 16 bits of their hashes are equal or add up to 2^16. -/
theorem tag_collision (hash hash' : ℕ) (t t' : ℤ) (h : tagForHash hash = some t) (h' : tagForHash hash' = some t') :
    t = t' ↔ hash % 2 ^ 16 = hash' % 2 ^ 16 ∨ hash % 2 ^ 16 + hash' % 2 ^ 16 = 2 ^ 16 := by
  have hlt : hash % 2 ^ 16 < 2 ^ 16 := Nat.mod_lt _ (by norm_num)
  have hlt' : hash' % 2 ^ 16 < 2 ^ 16 := Nat.mod_lt _ (by norm_num)
  unfold tagForHash asI16 at h h'
  dsimp only at h h'
  generalize hash % 2 ^ 16 = a at *
  generalize hash' % 2 ^ 16 = b at *
  split_ifs at h h' with h1 h2 h3 h4 h5 h6
  all_goals
    have e := Option.some.inj h
    have e' := Option.some.inj h'
    subst e e'
    omega

/-- **C108 (custom tags).** The custom tags differ from each other, and three of them from the tags of all types. -/
theorem custom_tags : customTags.Nodup ∧
    ∀ tag ∈ customTags, tag ≠ 9000 → tag ≠ 9001 → ∀ hash, tagForHash hash ≠ some tag := by
  refine ⟨by decide, ?_⟩
  intro tag htag h0 h1 hash h
  have := ((tag_range hash).2 tag h).2
  simp only [customTags, List.mem_cons, List.not_mem_nil, or_false] at htag
  rcases htag with rfl | rfl | rfl | rfl | rfl <;> omega

/-- **C108, limit.** The other two can be the tags of types, and different types can have the same tag. -/
theorem tags_coincide : tagForHash 9000 = some 9000 ∧ tagForHash 9001 = some 9001 ∧ tagForHash 1 = tagForHash 0xffff ∧
    tagForHash 0x8000 = none := by decide

/-! ### The hypotheses are met -/

/-- Two kinds of messages. -/
def exampleTag : Bool → ℤ := fun b => if b then 17 else 91100

example : Function.Injective exampleTag := by unfold Function.Injective exampleTag; decide

/-- A message of the second kind overtakes one of the first kind. -/
example : Possible exampleTag [.send true 1, .send true 2, .send false 3, .receive false false 3, .receive true true 1] ∧
    ¬ Possible exampleTag [.send true 1, .send true 2, .receive true true 2] := by
  constructor <;> unfold Possible <;> decide

example : tagForHash 70000 = some 4464 ∧ tagForHash 0xfffe = some 2 := by decide

end Verif.Tags
