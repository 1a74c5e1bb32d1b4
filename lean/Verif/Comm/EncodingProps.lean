import Verif.Comm.Encoding

/-! # C59: wire encodings round trip -/

namespace Verif.Encoding

open Verif.Geometry (WrapType)

/-- The exact encodings of the wrap types. -/
theorem wrap_round_trip (v : ℤ) (w : WrapType) :
    wrapFromInt v = some w ↔ v = wrapToInt w := by
  unfold wrapFromInt
  constructor
  · intro h
    split_ifs at h with h1 h2 h3 <;> cases h
    · exact h1
    · exact h2
    · exact h3
  · rintro rfl
    cases w <;> simp [wrapToInt]

/-- Decoding panics exactly for the integers which encode nothing. -/
theorem wrap_decode_panics (v : ℤ) : wrapFromInt v = none ↔ v < -1 ∨ 1 < v := by
  unfold wrapFromInt
  split_ifs with h1 h2 h3
  · subst h1; simp
  · subst h2; simp
  · subst h3; simp
  · simp only [true_iff]
    omega

/-- Searches survive the encoding, and different ones have different encodings. -/
theorem search_data_round_trip {F : Type} :
    (∀ d : SearchData2 F, SearchData2.decode d.encode = d) ∧
    (∀ d : SearchData3 F, SearchData3.decode d.encode = d) ∧
    (∀ d d' : SearchData2 F, d.encode = d'.encode → d = d') ∧
    (∀ d d' : SearchData3 F, d.encode = d'.encode → d = d') := by
  have h2 : ∀ d : SearchData2 F, SearchData2.decode d.encode = d := fun _ => rfl
  have h3 : ∀ d : SearchData3 F, SearchData3.decode d.encode = d := fun _ => rfl
  refine ⟨h2, h3, fun d d' h => ?_, fun d d' h => ?_⟩
  · rw [← h2 d, h, h2]
  · rw [← h3 d, h, h3]

/-- Results of a search survive the encoding without a panic, and different ones have different encodings. -/
theorem search_result_round_trip {F Id : Type} :
    (∀ d : SearchResult2 F Id, SearchResult2.decode d.encode = some d) ∧
    (∀ d : SearchResult3 F Id, SearchResult3.decode d.encode = some d) ∧
    (∀ d d' : SearchResult2 F Id, d.encode = d'.encode → d = d') ∧
    (∀ d d' : SearchResult3 F Id, d.encode = d'.encode → d = d') := by
  have hw : ∀ w, wrapFromInt (wrapToInt w) = some w := fun w => (wrap_round_trip _ w).2 rfl
  have h2 : ∀ d : SearchResult2 F Id, SearchResult2.decode d.encode = some d := by
    intro d
    unfold SearchResult2.decode SearchResult2.encode
    simp [hw]
  have h3 : ∀ d : SearchResult3 F Id, SearchResult3.decode d.encode = some d := by
    intro d
    unfold SearchResult3.decode SearchResult3.encode
    simp [hw]
  refine ⟨h2, h3, fun d d' h => ?_, fun d d' h => ?_⟩
  · have := h2 d
    rw [h, h2] at this
    exact (Option.some.inj this).symm
  · have := h3 d
    rw [h, h3] at this
    exact (Option.some.inj this).symm

/-- Optional values survive the encoding, whatever is in the uninitialised memory of an absent value (so it
is never observed), and different ones have different encodings. -/
theorem option_round_trip {T : Type} (junk junk' : T) (o o' : Option T) :
    (CommunicatedOption.ofOption junk o).toOption = o ∧
    (CommunicatedOption.ofOption junk o = CommunicatedOption.ofOption junk' o' → o = o') := by
  have h : ∀ j (o : Option T), (CommunicatedOption.ofOption j o).toOption = o := by
    intro j o
    cases o <;> rfl
  refine ⟨h _ _, fun he => ?_⟩
  rw [← h junk o, he, h]

/-- The key of an entity is a 64-bit number from which the entity is recovered, every 64-bit number is the key
of an entity, and different entities have different keys. -/
theorem entity_round_trip :
    (∀ e : Entity, e.toBits < 2 ^ 64 ∧ Entity.fromBits e.toBits = e) ∧
    (∀ k, k < 2 ^ 64 → (Entity.fromBits k).toBits = k) ∧
    (∀ e e' : Entity, e.toBits = e'.toBits → e = e') := by
  have h : ∀ e : Entity, e.toBits < 2 ^ 64 ∧ Entity.fromBits e.toBits = e := by
    rintro ⟨⟨g, hg⟩, ⟨i, hi⟩⟩
    unfold Entity.fromBits Entity.toBits
    dsimp only
    refine ⟨by omega, ?_⟩
    rw [Entity.mk.injEq, Fin.mk.injEq, Fin.mk.injEq]
    omega
  refine ⟨h, ?_, ?_⟩
  · intro k hk
    unfold Entity.fromBits Entity.toBits
    dsimp only
    omega
  · intro e e' he
    rw [← (h e).2, he, (h e').2]

/-- An identified value keeps its entity and its data. -/
theorem identified_round_trip {T : Type} (e e' : Entity) (d d' : T) :
    (Identified.new e d).entity = e ∧ (Identified.new e d).data = d ∧
    (Identified.new e d = Identified.new e' d' → e = e' ∧ d = d') := by
  refine ⟨(entity_round_trip.1 e).2, rfl, fun h => ?_⟩
  unfold Identified.new at h
  rw [Identified.mk.injEq] at h
  exact ⟨entity_round_trip.2.2 e e' h.1, h.2⟩

/-- Node indices survive the encoding exactly if they are the node itself or one of its children; the child
number `2 ^ d`, which no node has, would become the node itself. -/
theorem node_index_round_trip (d : ℕ) (i : NodeIndex) :
    NodeIndex.decode d (i.encode d) = i ↔ i ≠ .child (2 ^ d) := by
  cases i with
  | thisNode => simp [NodeIndex.encode, NodeIndex.decode]
  | child n =>
    unfold NodeIndex.encode NodeIndex.decode
    dsimp only
    by_cases h : n = 2 ^ d
    · subst h
      simp
    · rw [if_neg h]
      simp [h]

/-- A particle of generation 3 with index 5. -/
example : (Entity.mk 3 5).toBits = 3 * 2 ^ 32 + 5 := by decide

/-- A result with wrap types in both directions. -/
example : SearchResult2.decode (SearchResult2.encode ⟨1, 2, 'a', .minus, .plus⟩ : SearchResult2Send ℕ Char) =
    some ⟨1, 2, 'a', .minus, .plus⟩ := by rfl

example : NodeIndex.decode 3 (NodeIndex.encode 3 (.child 7)) = .child 7 := by decide

end Verif.Encoding
