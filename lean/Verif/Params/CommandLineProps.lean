import Verif.Params.CommandLineModel
import Mathlib.Data.List.Perm.Basic
import Mathlib.Data.List.Nodup

/-!
# C115: overrides on the command line and the file with the used parameters
-/

namespace Verif.Overrides

/-! ### Specification -/

/-- How an override is written: `section/key/key:value`. -/
def render (name : List Char) (keys : List (List Char)) (text : List Char) : List Char :=
  ['/'].intercalate (name :: keys) ++ ':' :: text

/-- No name contains a slash, and the only colon is that before the value. -/
structure Plain (name : List Char) (keys : List (List Char)) (text : List Char) : Prop where
  slash : ∀ k ∈ name :: keys, '/' ∉ k
  colon : ∀ k ∈ name :: keys, ':' ∉ k
  text : ':' ∉ text

/-! ### The command line -/

theorem not_mem_splitOn {c : Char} (s l : List Char) (hl : l ∈ s.splitOn c) : c ∉ l := by
  induction s generalizing l with
  | nil =>
    rw [List.splitOn_nil, List.mem_singleton] at hl
    subst hl
    simp
  | cons x s ih =>
    rw [List.splitOn_cons_eq_if_modifyHead] at hl
    split at hl
    · rw [List.mem_cons] at hl
      rcases hl with rfl | hl
      · simp
      · exact ih l hl
    · rename_i hx
      cases hs : s.splitOn c with
      | nil => exact absurd hs (List.splitOn_ne_nil c s)
      | cons y ys =>
        rw [hs] at hl
        simp only [List.modifyHead_cons, List.mem_cons] at hl
        rcases hl with rfl | hl
        · have := ih y (by rw [hs]; simp)
          simp only [List.mem_cons, not_or]
          exact ⟨fun h => hx (by simp [h]), this⟩
        · exact ih l (by rw [hs]; simp [hl])

theorem not_mem_intercalate (c d : Char) (hcd : c ≠ d) (ls : List (List Char)) (h : ∀ l ∈ ls, c ∉ l) :
    c ∉ [d].intercalate ls := by
  induction ls with
  | nil => simp [List.intercalate]
  | cons l ls ih =>
    cases ls with
    | nil => simpa [List.intercalate] using h l (by simp)
    | cons m ls =>
      have h1 : [d].intercalate (l :: m :: ls) = l ++ [d] ++ [d].intercalate (m :: ls) := by
        simp [List.intercalate]
      rw [h1]
      simp only [List.mem_append, List.mem_singleton, not_or]
      exact ⟨⟨h l (by simp), hcd⟩, ih fun x hx => h x (by simp [List.mem_cons.1 hx])⟩

theorem splitOn_once (a b : List Char) (ha : ':' ∉ a) (hb : ':' ∉ b) : (a ++ ':' :: b).splitOn ':' = [a, b] := by
  have := List.splitOn_intercalate (ls := [a, b]) ':' (by simp [ha, hb]) (by simp)
  simpa [List.intercalate] using this

/-- **C115.** The text `section/key/.../key:value` gives the override with this section, these keys and this value. -/
theorem override_parsed (yaml : List Char → Option Value) (name : List Char) (keys : List (List Char)) (text : List Char)
    (v : Value) (h : Plain name keys text) (hv : yaml text = some v) :
    parseOverride yaml (render name keys text) = .ok ⟨String.ofList name, keys.map String.ofList, v⟩ := by
  unfold parseOverride render
  rw [splitOn_once _ _ (not_mem_intercalate ':' '/' (by decide) _ h.colon) h.text]
  dsimp only
  rw [List.splitOn_intercalate '/' h.slash (by simp)]
  simp only [hv]

/-- **C115.** And no other text gives this override. -/
theorem override_only (yaml : List Char → Option Value) (s : List Char) (o : Override)
    (h : parseOverride yaml s = .ok o) :
    ∃ name keys text, s = render name keys text ∧ Plain name keys text ∧
      o.sectionName = String.ofList name ∧ o.keys = keys.map String.ofList ∧ yaml text = some o.value := by
  unfold parseOverride at h
  split at h
  · rename_i path text hs
    split at h
    · rename_i name keys hp
      split at h
      · rename_i v hv
        simp only [Parsed.ok.injEq] at h
        subst h
        have h1 : [':'].intercalate (s.splitOn ':') = s := List.intercalate_splitOn ':'
        have h2 : ['/'].intercalate (path.splitOn '/') = path := List.intercalate_splitOn '/'
        rw [hs] at h1
        rw [hp] at h2
        have hpath : ':' ∉ path := not_mem_splitOn s path (by rw [hs]; simp)
        refine ⟨name, keys, text, ?_, ⟨?_, ?_, ?_⟩, rfl, rfl, hv⟩
        · unfold render
          rw [h2, ← h1]
          simp [List.intercalate]
        · intro k hk
          exact not_mem_splitOn path k (by rw [hp]; exact hk)
        · intro k hk hc
          apply hpath
          rw [← h2]
          clear h2 hp
          have : ∀ ls : List (List Char), k ∈ ls → ':' ∈ ['/'].intercalate ls := by
            intro ls
            induction ls with
            | nil => simp
            | cons l ls ih =>
              intro hkl
              cases ls with
              | nil =>
                rw [List.mem_singleton] at hkl
                subst hkl
                simpa [List.intercalate] using hc
              | cons m ls =>
                have h1 : ['/'].intercalate (l :: m :: ls) = l ++ ['/'] ++ ['/'].intercalate (m :: ls) := by
                  simp [List.intercalate]
                rw [h1]
                rw [List.mem_cons] at hkl
                rcases hkl with rfl | hkl
                · simp [hc]
                · have := ih hkl
                  simp [this]
          exact this _ hk
        · exact not_mem_splitOn s text (by rw [hs]; simp)
      · simp at h
    · simp at h
  · simp at h

/-- **C115.** A text without a colon or with more than one is rejected, so a value with a colon in it cannot be given. -/
theorem colons_rejected (yaml : List Char → Option Value) (s : List Char) (h : s.count ':' ≠ 1) :
    parseOverride yaml s = .error := by
  unfold parseOverride
  split
  · rename_i path text hs
    exfalso
    apply h
    have h1 : [':'].intercalate (s.splitOn ':') = s := List.intercalate_splitOn ':'
    have h2 := not_mem_splitOn s path (by rw [hs]; simp)
    have h3 := not_mem_splitOn s text (by rw [hs]; simp)
    rw [hs] at h1
    rw [← h1]
    simp [List.intercalate, List.count_append, List.count_eq_zero_of_not_mem h2, List.count_eq_zero_of_not_mem h3]
  · rfl

/-! ### The used parameters -/

variable {T : Type}

/-- what one extraction does -/
theorem extract_spec (decode : String → Value → Option T) (encode : T → Value) (c c' : Contents) (name : String) (t : T)
    (henc : ∀ t, decode name (encode t) = some t) (h : c.extract decode encode name = some (t, c')) :
    c'.overrides = c.overrides ∧ (∃ v, c'.sections name = some v ∧ decode name v = some t) ∧
      ∀ s, s ≠ name → c'.sections s = c.sections s := by
  unfold Contents.extract at h
  dsimp only at h
  split at h
  · rename_i v hv
    rw [Option.bind_eq_bind, Option.bind_eq_some_iff] at h
    obtain ⟨v', _, h⟩ := h
    rw [Option.bind_eq_bind, Option.bind_eq_some_iff] at h
    obtain ⟨t', ht', h⟩ := h
    simp only [Option.some.injEq, Prod.mk.injEq] at h
    obtain ⟨rfl, rfl⟩ := h
    exact ⟨rfl, ⟨v', by simp, ht'⟩, fun s hs => by simp [hs]⟩
  · rw [Option.bind_eq_bind, Option.bind_eq_some_iff] at h
    obtain ⟨t', _, h⟩ := h
    simp only [Option.some.injEq, Prod.mk.injEq] at h
    obtain ⟨rfl, rfl⟩ := h
    exact ⟨rfl, ⟨encode t', by simp, henc t'⟩, fun s hs => by simp [hs]⟩

theorem extractAll_spec (decode : String → Value → Option T) (encode : T → Value) (names : List String)
    (hnd : names.Nodup) (henc : ∀ name ∈ names, ∀ t, decode name (encode t) = some t) (c c' : Contents)
    (ts : List (String × T)) (h : extractAll decode encode c names = some (ts, c')) :
    ts.map Prod.fst = names ∧ c'.overrides = c.overrides ∧
    (∀ name t, (name, t) ∈ ts → ∃ v, c'.sections name = some v ∧ decode name v = some t) ∧
    ∀ s, s ∉ names → c'.sections s = c.sections s := by
  induction names generalizing c ts with
  | nil =>
    simp only [extractAll, Option.some.injEq, Prod.mk.injEq] at h
    obtain ⟨rfl, rfl⟩ := h
    exact ⟨rfl, rfl, fun _ _ h => by simp at h, fun _ _ => rfl⟩
  | cons name names ih =>
    rw [extractAll, Option.bind_eq_bind, Option.bind_eq_some_iff] at h
    obtain ⟨⟨t, c1⟩, h1, h⟩ := h
    dsimp only at h
    rw [Option.bind_eq_bind, Option.bind_eq_some_iff] at h
    obtain ⟨⟨ts', c2⟩, h2, h⟩ := h
    simp only [Option.some.injEq, Prod.mk.injEq] at h
    obtain ⟨rfl, rfl⟩ := h
    obtain ⟨hn, hnd'⟩ := List.nodup_cons.1 hnd
    obtain ⟨a1, a2, a3⟩ := extract_spec decode encode c c1 name t (henc name (by simp)) h1
    obtain ⟨b1, b2, b3, b4⟩ := ih hnd' (fun n hn => henc n (by simp [hn])) c1 ts' h2
    refine ⟨by simp [b1], by rw [b2, a1], ?_, ?_⟩
    · intro n' t' hm
      rw [List.mem_cons] at hm
      rcases hm with hm | hm
      · cases hm
        rw [b4 name hn]
        exact a2
      · exact b3 n' t' hm
    · intro s hs
      simp only [List.mem_cons, not_or] at hs
      rw [b4 s hs.2, a3 s hs.1]

theorem extract_value (decode : String → Value → Option T) (encode : T → Value) (c : Contents) (name : String) :
    (c.extract decode encode name).map Prod.fst
      = extractParameterStruct (decode name) (c.sections name) name c.overrides := by
  unfold Contents.extract extractParameterStruct
  dsimp only
  cases c.sections name with
  | some v =>
    dsimp only
    cases insertOverrides v (c.overrides.filter fun o => o.sectionName = name) with
    | none => rfl
    | some v' =>
      simp only [Option.bind_eq_bind, Option.bind_some]
      cases decode name v' with
      | none => rfl
      | some t => rfl
  | none =>
    dsimp only
    cases extractFromDefault (decode name) (c.overrides.filter fun o => o.sectionName = name) with
    | none => rfl
    | some t => rfl

/-- **C115.** Every parameter of a program is that of its section in the file with the overrides of this section, as in C06;
sections do not influence each other. -/
theorem parameters_of_sections (decode : String → Value → Option T) (encode : T → Value) (names : List String)
    (hnd : names.Nodup) (henc : ∀ name ∈ names, ∀ t, decode name (encode t) = some t) (c c' : Contents)
    (ts : List (String × T)) (h : extractAll decode encode c names = some (ts, c')) :
    ts.map Prod.fst = names ∧
    ∀ name t, (name, t) ∈ ts → extractParameterStruct (decode name) (c.sections name) name c.overrides = some t := by
  refine ⟨(extractAll_spec decode encode names hnd henc c c' ts h).1, ?_⟩
  induction names generalizing c ts with
  | nil =>
    simp only [extractAll, Option.some.injEq, Prod.mk.injEq] at h
    obtain ⟨rfl, rfl⟩ := h
    simp
  | cons name names ih =>
    rw [extractAll, Option.bind_eq_bind, Option.bind_eq_some_iff] at h
    obtain ⟨⟨t, c1⟩, h1, h⟩ := h
    dsimp only at h
    rw [Option.bind_eq_bind, Option.bind_eq_some_iff] at h
    obtain ⟨⟨ts', c2⟩, h2, h⟩ := h
    simp only [Option.some.injEq, Prod.mk.injEq] at h
    obtain ⟨rfl, rfl⟩ := h
    obtain ⟨hn, hnd'⟩ := List.nodup_cons.1 hnd
    obtain ⟨a1, _, a3⟩ := extract_spec decode encode c c1 name t (henc name (by simp)) h1
    have b := (extractAll_spec decode encode names hnd' (fun n hn => henc n (by simp [hn])) c1 _ ts' h2).1
    intro n' t' hm
    rw [List.mem_cons] at hm
    rcases hm with hm | hm
    · cases hm
      rw [← extract_value decode encode c name, h1]
      rfl
    · have hne : n' ≠ name := by
        intro he
        apply hn
        rw [← he, ← b]
        exact List.mem_map_of_mem (f := Prod.fst) hm
      have := ih hnd' (fun n hn => henc n (by simp [hn])) c1 ts' h2 n' t' hm
      rwa [a3 n' hne, a1] at this

theorem insertOverrides_nil (v : Value) : insertOverrides v [] = some v := rfl

/-- **C115.** A new run with the file of the used parameters, and without the overrides, has the same parameters, in whatever
order its plugins ask for them, and writes the same file again. -/
theorem used_parameters_reproduce (decode : String → Value → Option T) (encode : T → Value) (names : List String)
    (hnd : names.Nodup) (henc : ∀ name ∈ names, ∀ t, decode name (encode t) = some t) (c c' : Contents)
    (ts : List (String × T)) (h : extractAll decode encode c names = some (ts, c'))
    (names' : List String) (hperm : names'.Perm names) :
    ∃ ts' c'', extractAll decode encode c'.reread names' = some (ts', c'') ∧ ts'.Perm ts ∧
      c''.reread = c'.reread := by
  obtain ⟨h1, _, h3, _⟩ := extractAll_spec decode encode names hnd henc c c' ts h
  -- every section which is asked for is there
  have key : ∀ names' : List String, (∀ n ∈ names', n ∈ names) → ∃ ts',
      extractAll decode encode c'.reread names' = some (ts', c'.reread) ∧ ts'.map Prod.fst = names' ∧
      ∀ x ∈ ts', x ∈ ts := by
    intro names'
    induction names' with
    | nil => exact fun _ => ⟨[], rfl, rfl, by simp⟩
    | cons name names' ih =>
      intro hsub
      obtain ⟨ts', e1, e2, e3⟩ := ih fun n hn => hsub n (by simp [hn])
      have hm := hsub name (by simp)
      rw [← h1, List.mem_map] at hm
      obtain ⟨⟨n, t⟩, hm, hn⟩ := hm
      dsimp only at hn
      subst hn
      obtain ⟨v, hv, hd⟩ := h3 n t hm
      refine ⟨(n, t) :: ts', ?_, by simp [e2], ?_⟩
      · have hex : c'.reread.extract decode encode n = some (t, c'.reread) := by
          unfold Contents.extract Contents.reread
          simp only [List.filter_nil, hv, insertOverrides_nil, Option.bind_eq_bind, Option.bind_some, hd,
            Option.some.injEq, Prod.mk.injEq, true_and]
          congr 1
          funext s
          split
          · rename_i hs
            rw [hs, hv]
          · rfl
        rw [extractAll, hex]
        simp only [Option.bind_eq_bind, Option.bind_some, e1]
      · intro x hx
        rw [List.mem_cons] at hx
        rcases hx with rfl | hx
        · exact hm
        · exact e3 x hx
  obtain ⟨ts', e1, e2, e3⟩ := key names' fun n hn => hperm.mem_iff.1 hn
  refine ⟨ts', _, e1, ?_, rfl⟩
  have hnd1 : ts.Nodup := List.Nodup.of_map Prod.fst (by rw [h1]; exact hnd)
  have hnd2 : ts'.Nodup := List.Nodup.of_map Prod.fst (by rw [e2]; exact hperm.nodup_iff.2 hnd)
  have hlen : ts'.length = ts.length := by
    have a := congrArg List.length e2
    have b := congrArg List.length h1
    rw [List.length_map] at a b
    rw [a, b, hperm.length_eq]
  exact (List.subperm_of_subset hnd2 e3).perm_of_length_le (by omega)

/-- **C115.** The parameters do not depend on overrides of sections which are not asked for: they are ignored without an
error. -/
theorem unknown_overrides_ignored (decode : String → Value → Option T) (encode : T → Value) (names : List String)
    (sections : String → Option Value) (os : List Override) :
    (extractAll decode encode ⟨sections, os⟩ names).map Prod.fst =
      (extractAll decode encode ⟨sections, os.filter fun o => o.sectionName ∈ names⟩ names).map Prod.fst := by
  have key : ∀ (l : List String) (sections : String → Option Value), (∀ n ∈ l, n ∈ names) →
      (extractAll decode encode ⟨sections, os⟩ l).map Prod.fst =
      (extractAll decode encode ⟨sections, os.filter fun o => o.sectionName ∈ names⟩ l).map Prod.fst := by
    intro l
    induction l with
    | nil => intro _ _; rfl
    | cons name l ih =>
      intro sections hl
      have hf : (os.filter fun o => o.sectionName ∈ names).filter (fun o => o.sectionName = name)
          = os.filter (fun o => o.sectionName = name) := by
        rw [List.filter_filter]
        apply List.filter_congr
        intro o _
        by_cases ho : o.sectionName = name
        · simp [ho, hl name (by simp)]
        · simp [ho]
      have hl' : ∀ n ∈ l, n ∈ names := fun n hn => hl n (by simp [hn])
      rw [extractAll, extractAll]
      unfold Contents.extract
      dsimp only
      rw [hf]
      cases sections name with
      | some v =>
        dsimp only
        cases insertOverrides v (os.filter fun o => o.sectionName = name) with
        | none => rfl
        | some v' =>
          cases hd : decode name v' with
          | none => simp [hd]
          | some t =>
            simp only [Option.bind_eq_bind, Option.bind_some, hd]
            have := ih (fun s => if s = name then some v' else sections s) hl'
            cases h1 : extractAll decode encode ⟨fun s => if s = name then some v' else sections s, os⟩ l with
            | none =>
              rw [h1] at this
              cases h2 : extractAll decode encode ⟨fun s => if s = name then some v' else sections s,
                os.filter fun o => o.sectionName ∈ names⟩ l with
              | none => rfl
              | some y => rw [h2] at this; simp at this
            | some x =>
              rw [h1] at this
              cases h2 : extractAll decode encode ⟨fun s => if s = name then some v' else sections s,
                os.filter fun o => o.sectionName ∈ names⟩ l with
              | none => rw [h2] at this; simp at this
              | some y =>
                rw [h2] at this
                simp at this
                simp [this]
      | none =>
        dsimp only
        cases extractFromDefault (decode name) (os.filter fun o => o.sectionName = name) with
        | none => rfl
        | some t =>
          simp only [Option.bind_eq_bind, Option.bind_some]
          have := ih (fun s => if s = name then some (encode t) else sections s) hl'
          cases h1 : extractAll decode encode ⟨fun s => if s = name then some (encode t) else sections s, os⟩ l with
          | none =>
            rw [h1] at this
            cases h2 : extractAll decode encode ⟨fun s => if s = name then some (encode t) else sections s,
              os.filter fun o => o.sectionName ∈ names⟩ l with
            | none => rfl
            | some y => rw [h2] at this; simp at this
          | some x =>
            rw [h1] at this
            cases h2 : extractAll decode encode ⟨fun s => if s = name then some (encode t) else sections s,
              os.filter fun o => o.sectionName ∈ names⟩ l with
            | none => rw [h2] at this; simp at this
            | some y =>
              rw [h2] at this
              simp at this
              simp [this]
  exact key names sections fun _ h => h

/-- **C115.** A file with a section nobody asks for makes the program stop, unless the only one is for visualization. -/
theorem unused_sections (names used : List String) (hnd : names.Nodup) :
    validate names used = true ↔
      (∀ name ∈ names, name ∈ used) ∨ ∀ name ∈ names, name ∉ used ↔ name = "visualization" := by
  have hdef : validate names used = true ↔
      (names.filter fun param => !used.contains param) = ["visualization"] ∨
      (names.filter fun param => !used.contains param) = [] := by
    unfold validate
    dsimp only
    generalize (names.filter fun param => !used.contains param) = u
    match u with
    | [] => simp
    | [x] => simp
    | x :: y :: u => simp
  have hmem : ∀ n, n ∈ (names.filter fun param => !used.contains param) ↔ n ∈ names ∧ n ∉ used := by
    intro n
    simp
  have hnd' : (names.filter fun param => !used.contains param).Nodup := hnd.filter _
  rw [hdef]
  generalize (names.filter fun param => !used.contains param) = u at hmem hnd'
  constructor
  · rintro (rfl | rfl)
    · right
      intro n hn
      have := hmem n
      simp only [List.mem_singleton, hn, true_and] at this
      exact this.symm
    · left
      intro n hn
      have := hmem n
      simp only [List.not_mem_nil, hn, true_and, false_iff, not_not] at this
      exact this
  · rintro (h | h)
    · right
      rw [List.eq_nil_iff_forall_not_mem]
      intro n hn
      have := (hmem n).1 hn
      exact this.2 (h n this.1)
    · have hall : ∀ n ∈ u, n = "visualization" := fun n hn => (h n ((hmem n).1 hn).1).1 ((hmem n).1 hn).2
      match u, hall, hnd' with
      | [], _, _ => right; rfl
      | [x], hall, _ => left; rw [hall x (by simp)]
      | x :: y :: u, hall, hnd' =>
        exfalso
        have h1 := hall x (by simp)
        have h2 := hall y (by simp)
        rw [h1, h2] at hnd'
        simp at hnd'

/-- A file which is not YAML at all is read without an error, and every parameter has the value of an absent section: this is a
disagreement of the program with what its user expects (DESIGN.md, 55). -/
theorem invalid_file_ignored (decode : String → Value → Option T) (encode : T → Value) (names : List String)
    (hnd : names.Nodup) (dflt : String → T)
    (hd : ∀ name ∈ names, decode name (.mapping []) = some (dflt name)) :
    ∃ c c', Contents.new none = some c ∧
      extractAll decode encode c names = some (names.map fun name => (name, dflt name), c') := by
  suffices h : ∀ c : Contents, c.overrides = [] → (∀ n ∈ names, c.sections n = none) →
      ∃ c', extractAll decode encode c names = some (names.map fun name => (name, dflt name), c') by
    obtain ⟨c', hc'⟩ := h ⟨fun _ => none, []⟩ rfl fun _ _ => rfl
    exact ⟨_, c', rfl, hc'⟩
  induction names with
  | nil => exact fun c _ _ => ⟨c, rfl⟩
  | cons name names ih =>
    intro c ho hs
    obtain ⟨hn, hnd'⟩ := List.nodup_cons.1 hnd
    have hex : c.extract decode encode name = some (dflt name,
        { c with sections := fun s => if s = name then some (encode (dflt name)) else c.sections s }) := by
      unfold Contents.extract
      rw [hs name (by simp), ho]
      simp [extractFromDefault, insertOverrides, hd name (by simp)]
    obtain ⟨c', hc'⟩ := ih hnd' (fun n hn => hd n (by simp [hn]))
      { c with sections := fun s => if s = name then some (encode (dflt name)) else c.sections s } ho
      (fun n hn' => by
        have : n ≠ name := fun h => hn (h ▸ hn')
        simpa [this] using hs n (by simp [hn']))
    exact ⟨c', by rw [extractAll, hex]; simp [hc']⟩

/-- An empty file, on the other hand, is the YAML value null, for which the program panics. -/
theorem empty_file_panics : Contents.new (some Value.null) = none := rfl

/-! ### A program which meets the hypotheses -/

/-- a section of two numbers as text, with defaults -/
def decodeSample (_ : String) : Value → Option (String × String)
  | .leaf _ => none
  | .mapping m =>
    match lookupKey "a" m, lookupKey "b" m with
    | some (.leaf a), some (.leaf b) => some (a, b)
    | some (.leaf a), none => some (a, "2")
    | none, some (.leaf b) => some ("1", b)
    | none, none => some ("1", "2")
    | _, _ => none

/-- and back -/
def encodeSample (t : String × String) : Value := .mapping [("a", .leaf t.1), ("b", .leaf t.2)]

/-- The program with two sections of which only the first is in the file, and two overrides. -/
def sampleContents : Contents :=
  ⟨sectionsOf [("sweep", .mapping [("a", .leaf "5")])],
    [⟨"sweep", ["b"], .leaf "7"⟩, ⟨"output", ["a"], .leaf "8"⟩, ⟨"nobody", [], .leaf "9"⟩]⟩

example : (extractAll decodeSample encodeSample sampleContents ["sweep", "output"]).map Prod.fst =
    some [("sweep", ("5", "7")), ("output", ("8", "2"))] := by decide +kernel

example : ["sweep", "output"].Nodup ∧
    (∀ name ∈ ["sweep", "output"], ∀ t, decodeSample name (encodeSample t) = some t) ∧
    (extractAll decodeSample encodeSample sampleContents ["sweep", "output"]).isSome ∧
    ["output", "sweep"].Perm ["sweep", "output"] :=
  ⟨by decide, fun _ _ t => by simp [decodeSample, encodeSample, lookupKey], by decide +kernel, by decide⟩

example : Plain "sweep".toList ["chemistry".toList, "rate".toList] "1.0 m".toList :=
  ⟨by decide +kernel, by decide +kernel, by decide +kernel⟩

example : String.ofList (render "sweep".toList ["rate".toList] "1.0 m".toList) = "sweep/rate:1.0 m" := by decide +kernel

example : ("input/path:C:data".toList).count ':' ≠ 1 := by decide +kernel

example : validate ["sweep", "visualization"] ["sweep", "output"] = true ∧
    validate ["sweep", "sweeep"] ["sweep", "output"] = false ∧
    validate ["sweeep", "visualization"] ["sweep", "output"] = false := by decide +kernel

example : ∀ name ∈ ["sweep", "output"], decodeSample name (.mapping []) = some ((fun _ => ("1", "2")) name) := by
  decide +kernel

/-- The overrides must not be given again with the file of the used parameters: this can make the second run panic. -/
theorem overrides_again_can_panic : ∃ (os : List Override) (v v' : Value),
    insertOverrides v os = some v' ∧ insertOverrides v' os = none :=
  ⟨[⟨"s", ["a", "b"], .leaf "1"⟩, ⟨"s", ["a"], .leaf "2"⟩], .mapping [], .mapping [("a", .leaf "2")], by
    simp [insertOverrides, setSublevelValueByKeys, lookupKey, constructSubMapping, replaceKey]⟩

end Verif.Overrides
