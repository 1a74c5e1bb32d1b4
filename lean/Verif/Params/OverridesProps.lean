import Verif.Params.OverridesModel
import Mathlib.Tactic.Basic

/-!
# C06: parameter overrides act like nested assignments
-/

namespace Verif.Overrides

/-- Specification: the value found by following a key path. -/
def Value.get : Value → List String → Option Value
  | v, [] => some v
  | .leaf _, _ :: _ => none
  | .mapping m, k :: ks => (lookupKey k m).bind (fun v => v.get ks)

/-- Specification: neither path is a prefix of the other. -/
def Diverge (p q : List String) : Prop := ¬ p <+: q ∧ ¬ q <+: p

theorem lookupKey_replaceKey_self (k : String) (v : Value) :
    ∀ m, (lookupKey k m).isSome → lookupKey k (replaceKey k v m) = some v
  | [], h => by simp [lookupKey] at h
  | (k', v') :: rest, h => by
    by_cases hk : k' = k
    · simp [replaceKey, lookupKey, hk]
    · simp only [lookupKey, hk, if_false] at h
      simp [replaceKey, lookupKey, hk, lookupKey_replaceKey_self k v rest h]

theorem lookupKey_replaceKey_ne (k l : String) (v : Value) (hne : l ≠ k) :
    ∀ m, lookupKey l (replaceKey k v m) = lookupKey l m
  | [] => rfl
  | (k', v') :: rest => by
    by_cases hk : k' = k
    · simp [replaceKey, lookupKey, hk, Ne.symm hne]
    · simp only [replaceKey, hk, if_false, lookupKey, lookupKey_replaceKey_ne k l v hne rest]

theorem lookupKey_append (l : String) (m n : List (String × Value)) :
    lookupKey l (m ++ n) = (lookupKey l m).or (lookupKey l n) := by
  induction m with
  | nil => rfl
  | cons e m ih =>
    obtain ⟨k', v'⟩ := e
    by_cases hk : k' = l
    · simp [lookupKey, hk]
    · simp [lookupKey, hk, ih]

theorem get_construct (ks q : List String) (v : Value) :
    (constructSubMapping ks v).get (ks ++ q) = v.get q := by
  induction ks with
  | nil => rfl
  | cons k ks ih => simp [constructSubMapping, Value.get, lookupKey, ih]

theorem get_construct_diverge : ∀ (ks p : List String) (v : Value), Diverge ks p →
    (constructSubMapping ks v).get p = none
  | [], p, v, h => absurd (List.nil_prefix) h.1
  | k :: ks, [], v, h => absurd (List.nil_prefix) h.2
  | k :: ks, l :: p, v, h => by
    by_cases hk : k = l
    · subst hk
      have : Diverge ks p := by
        simpa [Diverge, List.cons_prefix_cons] using h
      simp [constructSubMapping, Value.get, lookupKey, get_construct_diverge ks p v this]
    · simp [constructSubMapping, Value.get, lookupKey, hk]

/-- **C06 (read back).** After an override succeeds, every path below the overridden path reads the
corresponding part of the new value; in particular the path itself reads the new value. -/
theorem override_read_back (v target v' : Value) (ks q : List String)
    (h : setSublevelValueByKeys v ks target = some v') : v'.get (ks ++ q) = target.get q := by
  induction ks generalizing v v' with
  | nil =>
    cases v <;> simp only [setSublevelValueByKeys, Option.some.injEq] at h <;> subst h <;> rfl
  | cons k ks ih =>
    cases v with
    | leaf s => simp [setSublevelValueByKeys] at h
    | mapping m =>
      cases hl : lookupKey k m with
      | none =>
        simp only [setSublevelValueByKeys, hl, Option.some.injEq] at h
        subst h
        simp [Value.get, lookupKey_append, hl, lookupKey, get_construct]
      | some w =>
        simp only [setSublevelValueByKeys, hl, Option.map_eq_some_iff] at h
        obtain ⟨w', hw, rfl⟩ := h
        simp [Value.get, lookupKey_replaceKey_self k w' m (by simp [hl]), ih w w' hw]

/-- **C06 (frame).** After an override succeeds, every diverging path reads as before. -/
theorem override_frame (v target v' : Value) (ks p : List String) (hd : Diverge ks p)
    (h : setSublevelValueByKeys v ks target = some v') : v'.get p = v.get p := by
  induction ks generalizing v v' p with
  | nil => exact absurd (List.nil_prefix) hd.1
  | cons k ks ih =>
    cases p with
    | nil => exact absurd (List.nil_prefix) hd.2
    | cons l p =>
      cases v with
      | leaf s => simp [setSublevelValueByKeys] at h
      | mapping m =>
        by_cases hk : l = k
        · subst hk
          have hd' : Diverge ks p := by simpa [Diverge, List.cons_prefix_cons] using hd
          cases hl : lookupKey l m with
          | none =>
            simp only [setSublevelValueByKeys, hl, Option.some.injEq] at h
            subst h
            simp [Value.get, lookupKey_append, hl, lookupKey, get_construct_diverge ks p _ hd']
          | some w =>
            simp only [setSublevelValueByKeys, hl, Option.map_eq_some_iff] at h
            obtain ⟨w', hw, rfl⟩ := h
            simp [Value.get, lookupKey_replaceKey_self l w' m (by simp [hl]), hl, ih w w' p hd' hw]
        · cases hl : lookupKey k m with
          | none =>
            simp only [setSublevelValueByKeys, hl, Option.some.injEq] at h
            subst h
            simp [Value.get, lookupKey_append, lookupKey, Ne.symm hk]
          | some w =>
            simp only [setSublevelValueByKeys, hl, Option.map_eq_some_iff] at h
            obtain ⟨w', hw, rfl⟩ := h
            simp [Value.get, lookupKey_replaceKey_ne k l w' hk]

/-- **C06 (when it works).** The override succeeds iff every value found at a proper prefix of the
path is a mapping; missing levels are created. -/
theorem override_succeeds_iff (v target : Value) (ks : List String) :
    (setSublevelValueByKeys v ks target).isSome ↔
      ∀ p, p <+: ks → p ≠ ks → ∀ w, v.get p = some w → ∃ m, w = .mapping m := by
  induction ks generalizing v with
  | nil =>
    have : (setSublevelValueByKeys v [] target).isSome := by cases v <;> rfl
    simp only [this, true_iff]
    intro p hp hne
    exact absurd (List.prefix_nil.mp hp) hne
  | cons k ks ih =>
    cases v with
    | leaf s =>
      constructor
      · intro h; simp [setSublevelValueByKeys] at h
      · intro h
        obtain ⟨m, hm⟩ := h [] List.nil_prefix (by simp) (.leaf s) rfl
        cases hm
    | mapping m =>
      cases hl : lookupKey k m with
      | none =>
        simp only [setSublevelValueByKeys, hl, Option.isSome_some, true_iff]
        intro p hp hne w hw
        cases p with
        | nil =>
          simp only [Value.get, Option.some.injEq] at hw
          exact ⟨m, hw.symm⟩
        | cons l p =>
          obtain ⟨rfl, -⟩ := List.cons_prefix_cons.mp hp
          simp [Value.get, hl] at hw
      | some u =>
        simp only [setSublevelValueByKeys, hl, Option.isSome_map, ih u]
        constructor
        · intro h p hp hne w hw
          cases p with
          | nil =>
            simp only [Value.get, Option.some.injEq] at hw
            exact ⟨m, hw.symm⟩
          | cons l p =>
            obtain ⟨rfl, hp'⟩ := List.cons_prefix_cons.mp hp
            refine h p hp' (fun e => hne (by rw [e])) w ?_
            simpa [Value.get, hl] using hw
        · intro h p hp hne w hw
          refine h (k :: p) (List.cons_prefix_cons.mpr ⟨rfl, hp⟩) (fun e => hne ?_) w ?_
          · simpa using e
          · simpa [Value.get, hl] using hw

/-- **C06 (lists of overrides).** Overrides that do not replace the entire section are applied in
order. -/
theorem overrides_in_order (v : Value) (os₁ os₂ : List Override)
    (h : ∀ o ∈ os₁, o.keys ≠ []) :
    insertOverrides v (os₁ ++ os₂) = (insertOverrides v os₁).bind (fun v' => insertOverrides v' os₂) := by
  induction os₁ generalizing v with
  | nil => simp [insertOverrides]
  | cons o os ih =>
    have ho : o.keys ≠ [] := h o (by simp)
    have : o.keys.isEmpty = false := by simpa using ho
    simp only [List.cons_append, insertOverrides, this, Bool.false_eq_true, if_false]
    cases setSublevelValueByKeys v o.keys o.value with
    | none => rfl
    | some v' => exact ih v' (fun o ho => h o (by simp [ho]))

/-- A list of sub-level overrides leaves every path unchanged that diverges from all their
paths. -/
theorem overrides_frame (v v' : Value) (os : List Override) (p : List String)
    (hkeys : ∀ o ∈ os, o.keys ≠ []) (hd : ∀ o ∈ os, Diverge o.keys p)
    (h : insertOverrides v os = some v') : v'.get p = v.get p := by
  induction os generalizing v with
  | nil => simp only [insertOverrides, Option.some.injEq] at h; rw [h]
  | cons o os ih =>
    have : o.keys.isEmpty = false := by simpa using hkeys o (by simp)
    simp only [insertOverrides, this, Bool.false_eq_true, if_false] at h
    cases hs : setSublevelValueByKeys v o.keys o.value with
    | none => rw [hs] at h; simp at h
    | some u =>
      rw [hs] at h
      rw [ih u (fun o ho => hkeys o (by simp [ho])) (fun o ho => hd o (by simp [ho])) h]
      exact override_frame v o.value u o.keys p (hd o (by simp)) hs

/-- **C06 (last one wins), partial.** After a list of sub-level overrides, the path of an override
reads its value if all later overrides concern diverging paths. Missing with respect to the full
claim: an override of the whole section (empty key list) makes the code ignore all later overrides,
see `section_override_ignores_later`. -/
theorem overrides_read_back_partial (v v' : Value) (os₁ os₂ : List Override) (o : Override)
    (hkeys : ∀ x ∈ os₁ ++ o :: os₂, x.keys ≠ []) (hd : ∀ x ∈ os₂, Diverge x.keys o.keys)
    (h : insertOverrides v (os₁ ++ o :: os₂) = some v') : v'.get o.keys = some o.value := by
  rw [overrides_in_order v os₁ _ (fun x hx => hkeys x (by simp [hx]))] at h
  obtain ⟨u, -, hu⟩ := Option.bind_eq_some_iff.mp h
  have : o.keys.isEmpty = false := by simpa using hkeys o (by simp)
  simp only [insertOverrides, this, Bool.false_eq_true, if_false] at hu
  cases hs : setSublevelValueByKeys u o.keys o.value with
  | none => rw [hs] at hu; simp at hu
  | some w =>
    rw [hs] at hu
    rw [overrides_frame w v' os₂ o.keys (fun x hx => hkeys x (by simp [hx])) hd hu]
    have := override_read_back u o.value w o.keys [] hs
    simpa [Value.get] using this

/-- **Disagreement.** The claim "a list of overrides behaves as applying them in order" is false for
overrides of an entire section: whatever follows is ignored. -/
theorem section_override_ignores_later :
    ∃ (v v' : Value) (o₁ o₂ : Override),
      insertOverrides v [o₁, o₂] = some v' ∧ o₂.keys = ["a"] ∧ o₂.value = .leaf "2" ∧
        (insertOverrides v [o₁]).bind (fun u => insertOverrides u [o₂]) = some (.mapping [("a", .leaf "2")])
        ∧ v'.get o₂.keys = some (.leaf "1") :=
  ⟨.mapping [], .mapping [("a", .leaf "1")], ⟨"s", [], .mapping [("a", .leaf "1")]⟩,
    ⟨"s", ["a"], .leaf "2"⟩, rfl, rfl, rfl, rfl, rfl⟩

/-- **Disagreement.** When the section is missing in the file and decoding the overridden mapping
fails, the section is decoded from `Null` and the overrides are silently dropped. -/
theorem missing_section_drops_overrides :
    ∃ (decode : Value → Option Nat) (os : List Override),
      os ≠ [] ∧ insertOverrides (.mapping []) os = some (.mapping [("a", .leaf "x")]) ∧
      decode (.mapping [("a", .leaf "x")]) = none ∧
      extractParameterStruct decode none "s" os = some 0 :=
  ⟨fun v => match v with | .leaf _ => some 0 | .mapping _ => none,
    [⟨"s", ["a"], .leaf "x"⟩], by simp, rfl, rfl, rfl⟩

/-- **C06 (missing section).** When the section is missing in the file and the overrides applied to an empty
section can be decoded, the section has exactly these values. -/
theorem missing_section_uses_overrides {T : Type} (decode : Value → Option T) (name : String)
    (os : List Override) (hos : ∀ o ∈ os, o.sectionName = name) (v : Value) (t : T)
    (hv : insertOverrides (.mapping []) os = some v) (ht : decode v = some t) :
    extractParameterStruct decode none name os = some t := by
  have : os.filter (fun o => o.sectionName = name) = os :=
    List.filter_eq_self.2 fun o ho => decide_eq_true (hos o ho)
  simp only [extractParameterStruct, this, extractFromDefault, hv, ht, Option.some_or]

/-- non-vacuity: the decoder accepts the mapping and `Null` alike -/
example : (∀ o ∈ [(⟨"s", ["a"], .leaf "x"⟩ : Override)], o.sectionName = "s") ∧
    insertOverrides (.mapping []) [⟨"s", ["a"], .leaf "x"⟩] = some (.mapping [("a", .leaf "x")]) ∧
    (fun v : Value => match v with | .leaf _ => some 0 | .mapping _ => some 1)
      (.mapping [("a", .leaf "x")]) = some 1 := by
  refine ⟨by simp, rfl, rfl⟩

/-- **C06 (section in the file).** -/
theorem section_override_applied {T : Type} (decode : Value → Option T) (name : String)
    (sec : Value) (os : List Override) (hos : ∀ o ∈ os, o.sectionName = name) :
    extractParameterStruct decode (some sec) name os = (insertOverrides sec os).bind decode := by
  have : os.filter (fun o => o.sectionName = name) = os :=
    List.filter_eq_self.2 fun o ho => decide_eq_true (hos o ho)
  simp only [extractParameterStruct, this]

/-- **C06 (other sections).** Overrides of other sections have no influence on a section. -/
theorem other_sections_irrelevant {T : Type} (decode : Value → Option T) (sec : Option Value)
    (name : String) (os : List Override) :
    extractParameterStruct decode sec name os
      = extractParameterStruct decode sec name (os.filter (fun o => o.sectionName = name)) := by
  simp [extractParameterStruct, List.filter_filter]

/-- non-vacuity: setting `a.c` in `{a: {b: 1}}` -/
example : setSublevelValueByKeys (.mapping [("a", .mapping [("b", .leaf "1")])]) ["a", "c"]
      (.leaf "5")
    = some (.mapping [("a", .mapping [("b", .leaf "1"), ("c", .leaf "5")])]) := by rfl

example : Diverge ["a", "c"] ["a", "b"] := by
  constructor <;> decide

/-- non-vacuity of the list statements -/
example : (insertOverrides (.mapping [("a", .leaf "1")])
    ([⟨"s", ["a"], .leaf "2"⟩] ++ ⟨"s", ["a"], .leaf "3"⟩ :: [⟨"s", ["b", "c"], .leaf "4"⟩])).isSome
    ∧ Diverge ["b", "c"] ["a"] := by
  refine ⟨by rfl, ?_⟩
  constructor <;> decide

end Verif.Overrides
