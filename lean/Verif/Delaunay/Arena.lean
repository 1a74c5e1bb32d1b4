import Mathlib.Data.List.Nodup
import Mathlib.Algebra.BigOperators.Group.List.Basic
import Mathlib.Data.List.Basic

/-!
# Generational arena

Model of `IndexedArena` (`/repo/src/voronoi/indexed_arena.rs` lines 8-80), which wraps the crate
`generational_arena`.  The crate is modelled by its contract: `insert` returns an index which was never
handed out before (the real index is a slot together with a generation number), `remove` returns the element
if the index is live.  Wrap-around of the 64-bit generation counter is not modelled.
-/

namespace Verif.Delaunay

/-- `IndexedArena`, indexed_arena.rs lines 11-15. -/
structure Arena (α : Type) where
  entries : List (ℕ × α)
  next : ℕ

namespace Arena

variable {α : Type}

/-- `IndexedArena::default`, lines 17-24. -/
def empty : Arena α := ⟨[], 0⟩

/-- `IndexedArena::get`, lines 27-29. -/
def get (a : Arena α) (i : ℕ) : Option α := (a.entries.find? (fun e => e.1 == i)).map Prod.snd

/-- `IndexedArena::insert`, lines 31-33: the second component is the new index. -/
def insert (a : Arena α) (x : α) : Arena α × ℕ := (⟨a.entries ++ [(a.next, x)], a.next + 1⟩, a.next)

/-- `IndexedArena::remove`, lines 35-37, followed by `unwrap`. -/
def remove (a : Arena α) (i : ℕ) : Option (α × Arena α) :=
  (a.get i).map fun x => (x, ⟨a.entries.filter (fun e => e.1 != i), a.next⟩)

/-- Writing through `IndexMut`, lines 76-80: panics for a dead index. -/
def set (a : Arena α) (i : ℕ) (x : α) : Option (Arena α) :=
  (a.get i).map fun _ => ⟨a.entries.map (fun e => if e.1 == i then (i, x) else e), a.next⟩

/-- `IndexedArena::contains`, lines 43-45. -/
def contains (a : Arena α) (i : ℕ) : Bool := (a.get i).isSome

/-- `IndexedArena::len`, lines 47-49. -/
def len (a : Arena α) : ℕ := a.entries.length

/-! ### Lemmas -/

/-- The indices are distinct and were handed out. -/
structure Ok (a : Arena α) : Prop where
  nodup : (a.entries.map Prod.fst).Nodup
  lt : ∀ e ∈ a.entries, e.1 < a.next

theorem ok_empty : (empty : Arena α).Ok := ⟨List.nodup_nil, by simp [empty]⟩

theorem Ok.mem_iff {a : Arena α} (h : a.Ok) (i : ℕ) (x : α) :
    (i, x) ∈ a.entries ↔ a.get i = some x := by
  obtain ⟨l, n⟩ := a
  have hn := h.nodup
  clear h
  unfold get
  dsimp only at *
  induction l with
  | nil => simp
  | cons e l ih =>
    rw [List.map_cons, List.nodup_cons] at hn
    rw [List.find?_cons]
    by_cases he : e.1 = i
    · subst he
      simp only [beq_self_eq_true, Option.map_some, Option.some.injEq, List.mem_cons]
      constructor
      · rintro (h | h)
        · rw [← h]
        · exact absurd (List.mem_map_of_mem (f := Prod.fst) h) hn.1
      · intro h
        left
        rw [← h]
    · have : (e.1 == i) = false := by simpa using he
      rw [this]
      simp only [List.mem_cons]
      refine Iff.trans ?_ (ih hn.2)
      constructor
      · rintro (h | h)
        · exact absurd (by rw [← h]) he
        · exact h
      · exact Or.inr

theorem Ok.get_lt {a : Arena α} (h : a.Ok) {i : ℕ} {x : α} (hi : a.get i = some x) : i < a.next :=
  h.lt _ ((h.mem_iff i x).2 hi)

theorem Ok.get_none {a : Arena α} (h : a.Ok) {i : ℕ} (hi : a.next ≤ i) : a.get i = none := by
  cases hg : a.get i with
  | none => rfl
  | some x => exact absurd (h.get_lt hg) (Nat.not_lt.2 hi)

theorem get_eq_none_of_not_mem {a : Arena α} {i : ℕ} (h : i ∉ a.entries.map Prod.fst) : a.get i = none := by
  unfold get
  rw [Option.map_eq_none_iff, List.find?_eq_none]
  intro e he hc
  exact h (by rw [← eq_of_beq hc]; exact List.mem_map_of_mem he)

theorem insert_next (a : Arena α) (x : α) : (a.insert x).1.next = a.next + 1 := rfl

theorem insert_ok {a : Arena α} (h : a.Ok) (x : α) : (a.insert x).1.Ok := by
  constructor
  · show ((a.entries ++ [(a.next, x)]).map Prod.fst).Nodup
    rw [List.map_append, List.nodup_append]
    refine ⟨h.nodup, by simp, ?_⟩
    intro i hi j hj
    obtain ⟨e, he, rfl⟩ := List.mem_map.1 hi
    simp only [List.map_cons, List.map_nil, List.mem_singleton] at hj
    have := h.lt e he
    omega
  · intro e he
    show e.1 < a.next + 1
    rcases List.mem_append.1 he with h' | h'
    · exact Nat.lt_succ_of_lt (h.lt e h')
    · rw [List.mem_singleton.1 h']
      exact Nat.lt_succ_self _

theorem get_insert {a : Arena α} (h : a.Ok) (x : α) (i : ℕ) :
    (a.insert x).1.get i = if i = a.next then some x else a.get i := by
  by_cases hi : i = a.next
  · subst hi
    rw [if_pos rfl, ← (insert_ok h x).mem_iff]
    simp [insert]
  · rw [if_neg hi]
    unfold get insert
    dsimp only
    rw [List.find?_append]
    have : ([(a.next, x)].find? fun e => e.1 == i) = none := by
      simp [Ne.symm hi]
    rw [this, Option.or_none]

theorem len_insert (a : Arena α) (x : α) : (a.insert x).1.len = a.len + 1 := by
  simp [len, insert]

theorem remove_ok {a a' : Arena α} (h : a.Ok) {i : ℕ} {x : α} (hr : a.remove i = some (x, a')) :
    a'.Ok := by
  unfold remove at hr
  obtain ⟨y, _, e⟩ := Option.map_eq_some_iff.1 hr
  cases e
  constructor
  · exact h.nodup.sublist (List.filter_sublist.map _)
  · intro e he
    exact h.lt e (List.mem_filter.1 he).1

theorem remove_next {a a' : Arena α} {i : ℕ} {x : α} (hr : a.remove i = some (x, a')) :
    a'.next = a.next := by
  unfold remove at hr
  obtain ⟨y, _, e⟩ := Option.map_eq_some_iff.1 hr
  cases e
  rfl

theorem remove_get {a a' : Arena α} {i : ℕ} {x : α} (hr : a.remove i = some (x, a')) :
    a.get i = some x := by
  unfold remove at hr
  obtain ⟨y, hy, e⟩ := Option.map_eq_some_iff.1 hr
  cases e
  exact hy

theorem find?_congr {p q : α → Bool} {l : List α} (h : ∀ x ∈ l, p x = q x) : l.find? p = l.find? q := by
  induction l with
  | nil => rfl
  | cons a l ih =>
    rw [List.find?_cons, List.find?_cons, h a (by simp), ih fun x hx => h x (by simp [hx])]

theorem get_remove {a a' : Arena α} {i : ℕ} {x : α} (hr : a.remove i = some (x, a')) (j : ℕ) :
    a'.get j = if j = i then none else a.get j := by
  unfold remove at hr
  obtain ⟨y, _, e⟩ := Option.map_eq_some_iff.1 hr
  cases e
  unfold get
  dsimp only
  by_cases hj : j = i
  · subst hj
    rw [if_pos rfl, Option.map_eq_none_iff, List.find?_eq_none]
    intro e he
    have := (List.mem_filter.1 he).2
    simpa using this
  · rw [if_neg hj, List.find?_filter]
    congr 1
    apply find?_congr
    intro e _
    by_cases he : e.1 = j
    · simp [he, hj]
    · simp [he]

theorem exists_remove {a : Arena α} {i : ℕ} {x : α} (h : a.get i = some x) :
    ∃ a', a.remove i = some (x, a') := by
  unfold remove
  rw [h]
  exact ⟨_, rfl⟩

theorem remove_none {a : Arena α} {i : ℕ} (h : a.get i = none) : a.remove i = none := by
  unfold remove
  rw [h]
  rfl

/-- Removing an entry takes its term out of every sum over the entries. -/
theorem remove_perm {a a' : Arena α} (h : a.Ok) {i : ℕ} {x : α} (hr : a.remove i = some (x, a')) :
    a.entries.Perm ((i, x) :: a'.entries) := by
  classical
  have hx := (h.mem_iff i x).2 (remove_get hr)
  unfold remove at hr
  obtain ⟨y, _, e⟩ := Option.map_eq_some_iff.1 hr
  cases e
  dsimp only
  have hp := List.perm_cons_erase hx
  refine hp.trans (List.Perm.cons _ ?_)
  rw [List.Nodup.erase_eq_filter (List.Nodup.of_map _ h.nodup)]
  apply List.Perm.of_eq
  apply List.filter_congr
  intro e he
  by_cases hi : e.1 = i
  · have : e = (i, x) := by
      have h1 : (i, e.2) ∈ a.entries := by rw [← hi]; exact he
      have h2 := (h.mem_iff i e.2).1 h1
      have h3 := (h.mem_iff i x).1 hx
      rw [h2] at h3
      cases h3
      rw [← hi]
    rw [this]
    simp [bne]
  · have : e ≠ (i, x) := fun h => hi (by rw [h])
    exact (bne_iff_ne.2 this).trans (bne_iff_ne.2 hi).symm

theorem len_remove {a a' : Arena α} (h : a.Ok) {i : ℕ} {x : α} (hr : a.remove i = some (x, a')) :
    a.len = a'.len + 1 := by
  have := (remove_perm h hr).length_eq
  simpa [len] using this

theorem exists_set {a : Arena α} {i : ℕ} {x : α} (h : a.get i = some x) (y : α) :
    ∃ a', a.set i y = some a' := by
  unfold set
  rw [h]
  exact ⟨_, rfl⟩

theorem set_keys {a a' : Arena α} {i : ℕ} {y : α} (hs : a.set i y = some a') :
    a'.entries.map Prod.fst = a.entries.map Prod.fst := by
  unfold set at hs
  obtain ⟨_, _, e⟩ := Option.map_eq_some_iff.1 hs
  cases e
  dsimp only
  rw [List.map_map]
  apply List.map_congr_left
  intro e _
  dsimp only [Function.comp]
  split_ifs with h
  · exact (eq_of_beq h).symm
  · rfl

theorem set_next {a a' : Arena α} {i : ℕ} {y : α} (hs : a.set i y = some a') : a'.next = a.next := by
  unfold set at hs
  obtain ⟨_, _, e⟩ := Option.map_eq_some_iff.1 hs
  cases e
  rfl

theorem set_ok {a a' : Arena α} (h : a.Ok) {i : ℕ} {y : α} (hs : a.set i y = some a') : a'.Ok := by
  constructor
  · rw [set_keys hs]
    exact h.nodup
  · intro e he
    rw [set_next hs]
    have : e.1 ∈ a'.entries.map Prod.fst := List.mem_map_of_mem he
    rw [set_keys hs] at this
    obtain ⟨e', he', h'⟩ := List.mem_map.1 this
    rw [← h']
    exact h.lt e' he'

theorem get_set {a a' : Arena α} (h : a.Ok) {i : ℕ} {y : α} (hs : a.set i y = some a') (j : ℕ) :
    a'.get j = if j = i then some y else a.get j := by
  have ho := set_ok h hs
  unfold set at hs
  obtain ⟨x, hx, e⟩ := Option.map_eq_some_iff.1 hs
  by_cases hj : j = i
  · subst hj
    rw [if_pos rfl, ← ho.mem_iff, ← e]
    dsimp only
    have hm := (h.mem_iff j x).2 hx
    refine List.mem_map.2 ⟨_, hm, ?_⟩
    simp
  · rw [if_neg hj]
    cases e
    cases hg : a.get j with
    | some z =>
      rw [← ho.mem_iff]
      dsimp only
      refine List.mem_map.2 ⟨_, (h.mem_iff j z).2 hg, ?_⟩
      simp [hj]
    | none =>
      apply get_eq_none_of_not_mem
      dsimp only
      rw [List.map_map]
      intro hm
      obtain ⟨e, he, h'⟩ := List.mem_map.1 hm
      dsimp only [Function.comp] at h'
      split_ifs at h' with hc
      · exact hj h'.symm
      · have := (h.mem_iff e.1 e.2).1 he
        rw [h', hg] at this
        cases this

theorem len_set {a a' : Arena α} {i : ℕ} {y : α} (hs : a.set i y = some a') : a'.len = a.len := by
  have := congrArg List.length (set_keys hs)
  simpa [len] using this

/-- A quantity which does not change with the new value keeps its list of values. -/
theorem map_set {β : Type} {a a' : Arena α} (h : a.Ok) {i : ℕ} {x y : α} (hg : a.get i = some x)
    (hs : a.set i y = some a') (f : α → β) (hf : f y = f x) :
    a'.entries.map (fun e => f e.2) = a.entries.map (fun e => f e.2) := by
  unfold set at hs
  obtain ⟨_, _, e⟩ := Option.map_eq_some_iff.1 hs
  cases e
  dsimp only
  rw [List.map_map]
  apply List.map_congr_left
  intro e he
  dsimp only [Function.comp]
  split_ifs with hc
  · have h1 : (i, e.2) ∈ a.entries := by rw [← eq_of_beq hc]; exact he
    have h2 := (h.mem_iff i e.2).1 h1
    rw [hg] at h2
    cases h2
    exact hf
  · rfl

end Arena

end Verif.Delaunay
