import Verif.Timestep.ActiveListModel
import Mathlib.Data.List.Nodup

/-!
# C28: the list of active cells agrees with the levels
-/

namespace Verif.ActiveList

variable {T : Type}

/-! ### Bins -/

/-- The positions (counted from `i`) at which `ls` has the value `l`. -/
def sel (l : Nat) : List Nat → Nat → List Nat
  | [], _ => []
  | x :: xs, i => if x = l then i :: sel l xs (i + 1) else sel l xs (i + 1)

theorem mem_sel (l : Nat) (ls : List Nat) (i j : Nat) :
    j ∈ sel l ls i ↔ i ≤ j ∧ ls[j - i]? = some l := by
  induction ls generalizing i with
  | nil => simp [sel]
  | cons x xs ih =>
    unfold sel
    by_cases hj : j = i
    · subst hj
      split <;> rename_i hx <;> simp [hx, ih]
      omega
    · have key : j ∈ sel l xs (i + 1) ↔ i ≤ j ∧ (x :: xs)[j - i]? = some l := by
        rw [ih]
        constructor
        · rintro ⟨h1, h2⟩
          refine ⟨by omega, ?_⟩
          rw [show j - i = (j - (i + 1)) + 1 by omega, List.getElem?_cons_succ]
          exact h2
        · rintro ⟨h1, h2⟩
          refine ⟨by omega, ?_⟩
          rw [show j - i = (j - (i + 1)) + 1 by omega, List.getElem?_cons_succ] at h2
          exact h2
      split
      · rw [List.mem_cons, ← key]; simp [hj]
      · exact key

theorem nodup_sel (l : Nat) (ls : List Nat) (i : Nat) : (sel l ls i).Nodup := by
  induction ls generalizing i with
  | nil => simp [sel]
  | cons x xs ih =>
    unfold sel
    split
    · rw [List.nodup_cons]
      refine ⟨?_, ih _⟩
      rw [mem_sel]
      omega
    · exact ih _

theorem fillBins_none (ls : List Nat) (i : Nat) (bins : List (List Nat)) :
    fillBins ls i bins ≠ none ↔ ∀ l ∈ ls, l < bins.length := by
  induction ls generalizing i bins with
  | nil => simp [fillBins]
  | cons x xs ih =>
    unfold fillBins pushBin
    by_cases hx : x < bins.length
    · rw [List.getElem?_eq_getElem hx]
      simp only
      rw [ih]
      simp [hx]
    · rw [List.getElem?_eq_none (by omega)]
      simp [hx]

theorem fillBins_spec (ls : List Nat) (i : Nat) (bins bins' : List (List Nat))
    (h : fillBins ls i bins = some bins') :
    ∀ l, bins'[l]? = (bins[l]?).map (fun b => b ++ sel l ls i) := by
  induction ls generalizing i bins with
  | nil =>
    simp only [fillBins, Option.some.injEq] at h
    subst h
    intro l
    simp [sel]
  | cons x xs ih =>
    unfold fillBins pushBin at h
    by_cases hx : x < bins.length
    · rw [List.getElem?_eq_getElem hx] at h
      simp only at h
      intro l
      rw [ih _ _ h l, List.getElem?_set]
      have hsel : sel l (x :: xs) i
          = if x = l then i :: sel l xs (i + 1) else sel l xs (i + 1) := rfl
      rw [hsel]
      by_cases hl : x = l
      · subst hl
        simp [hx]
      · simp [hl]
    · rw [List.getElem?_eq_none (by omega)] at h
      simp at h

/-- What holds of every list between two operations. -/
structure Inv (a : AL T) : Prop where
  len : a.levels.length = a.items.length
  binsLen : a.valid = true → a.bins.length = a.maxNumLevels
  bins : a.valid = true → ∀ l, l < a.maxNumLevels → a.bins[l]? = some (sel l a.levels 0)
  bound : a.valid = true → ∀ l ∈ a.levels, l < a.maxNumLevels

theorem inv_updateBins (a a' : AL T) (hlen : a.levels.length = a.items.length)
    (h : updateBins a = some a') : Inv a' ∧ a'.valid = true ∧
      a'.items = a.items ∧ a'.levels = a.levels ∧ a'.rank = a.rank ∧
      a'.maxNumLevels = a.maxNumLevels := by
  unfold updateBins at h
  cases hb : fillBins a.levels 0 (List.replicate a.maxNumLevels []) with
  | none => rw [hb] at h; simp at h
  | some bins =>
    rw [hb] at h
    simp only [Option.some.injEq] at h
    subst h
    have hspec := fillBins_spec _ _ _ _ hb
    refine ⟨⟨hlen, ?_, ?_, ?_⟩, rfl, rfl, rfl, rfl, rfl⟩
    · intro _
      simp only
      apply Nat.le_antisymm
      · by_contra hc
        have h1 := hspec a.maxNumLevels
        rw [List.getElem?_eq_getElem (by omega)] at h1
        simp at h1
      · by_contra hc
        have h1 := hspec bins.length
        rw [List.getElem?_eq_none (Nat.le_refl _), List.getElem?_replicate,
          if_pos (by omega)] at h1
        simp at h1
    · intro _ l hl
      simp only
      rw [hspec l, List.getElem?_replicate, if_pos hl]
      simp
    · intro _
      have := (fillBins_none a.levels 0 (List.replicate a.maxNumLevels [])).mp (by rw [hb]; simp)
      simpa using this

theorem inv_step (a a' : AL T) (op : Op T) (hi : Inv a) (h : step a op = some a') : Inv a' := by
  cases op with
  | setLevel id l =>
    simp only [step, setLevel] at h
    split at h
    · split at h
      · simp only [Option.some.injEq] at h
        subst h
        exact ⟨by simpa using hi.len, by simp, by simp, by simp⟩
      · simp at h
    · simp at h
  | updateLevels f =>
    simp only [step, updateLevels, Option.some.injEq] at h
    subst h
    refine ⟨?_, by simp, by simp, by simp⟩
    simp [hi.len]
  | modifyItem id f =>
    simp only [step, modifyItem] at h
    split at h
    · split at h
      · simp at h
      · simp only [Option.some.injEq] at h
        subst h
        exact ⟨by simpa using hi.len, hi.binsLen, hi.bins, hi.bound⟩
    · simp at h
  | updateBins => exact (inv_updateBins a a' hi.len h).1

theorem inv_run (ops : List (Op T)) (a a' : AL T) (hi : Inv a) (h : run a ops = some a') :
    Inv a' := by
  induction ops generalizing a with
  | nil =>
    simp only [run, Option.some.injEq] at h
    subst h; exact hi
  | cons op ops ih =>
    unfold run at h
    cases hs : step a op with
    | none => rw [hs] at h; simp at h
    | some b =>
      rw [hs] at h
      exact ih b (inv_step a b op hi hs) h

/-! ### Construction -/

theorem removeKey_spec (id : Id) (map : List (Id × T)) (hnd : (map.map Prod.fst).Nodup) :
    (removeKey id map = none ∧ id ∉ map.map Prod.fst) ∨
    ∃ t rest, removeKey id map = some (t, rest) ∧ (id, t) ∈ map ∧
      map.Perm ((id, t) :: rest) := by
  induction map with
  | nil => left; simp [removeKey]
  | cons e es ih =>
    have hnd' : e.1 ∉ es.map Prod.fst ∧ (es.map Prod.fst).Nodup := List.nodup_cons.mp hnd
    unfold removeKey
    by_cases he : e.1 = id
    · right
      rw [if_pos he]
      exact ⟨e.2, es, rfl, by rw [← he]; simp, by rw [← he]⟩
    · rw [if_neg he]
      rcases ih hnd'.2 with ⟨h1, h2⟩ | ⟨t, rest, h1, h2, h3⟩
      · left
        rw [h1]
        refine ⟨rfl, ?_⟩
        rw [List.map_cons, List.mem_cons]
        rintro (h | h)
        · exact he h.symm
        · exact h2 h
      · right
        rw [h1]
        exact ⟨t, e :: rest, rfl, List.mem_cons_of_mem _ h2,
          (List.Perm.cons e h3).trans (List.Perm.swap _ _ _)⟩

theorem collectItems_some (rank n index : Nat) (map : List (Id × T)) (items : List T)
    (hnd : (map.map Prod.fst).Nodup) (out : List T) (rest : List (Id × T))
    (h : collectItems rank n index map items = some (out, rest)) :
    ∃ new, out = items ++ new ∧ new.length = n ∧
      map.Perm (new.mapIdx (fun i t => ((⟨rank, index + i⟩ : Id), t)) ++ rest) := by
  induction n generalizing index map items with
  | zero =>
    simp only [collectItems, Option.some.injEq, Prod.mk.injEq] at h
    obtain ⟨rfl, rfl⟩ := h
    exact ⟨[], by simp, rfl, by simp⟩
  | succ n ih =>
    unfold collectItems at h
    rcases removeKey_spec ⟨rank, index⟩ map hnd with ⟨h1, _⟩ | ⟨t, r, h1, h2, h3⟩
    · rw [h1] at h; simp at h
    · rw [h1] at h
      simp only at h
      have hnd' : (r.map Prod.fst).Nodup := by
        have := (h3.map Prod.fst).nodup_iff.mp hnd
        rw [List.map_cons, List.nodup_cons] at this
        exact this.2
      obtain ⟨new, e1, e2, e3⟩ := ih (index + 1) r (items ++ [t]) hnd' h
      refine ⟨t :: new, by rw [e1]; simp, by simp [e2], ?_⟩
      rw [List.mapIdx_cons, List.cons_append]
      refine h3.trans ?_
      simp only [Nat.add_zero]
      refine List.Perm.cons _ ?_
      refine e3.trans ?_
      rw [show (fun i t => ((⟨rank, index + 1 + i⟩ : Id), t))
          = (fun i (t : T) => ((⟨rank, index + (i + 1)⟩ : Id), t)) from by
        funext i t; rw [Nat.add_assoc, Nat.add_comm 1 i]]

/-- **C28 (construction).** Whenever `new` succeeds on a map (entries with distinct keys in any
order), the list holds exactly the entries of the map, all at the initial level, with usable bins. -/
theorem new_spec (map : List (Id × T)) (hnd : (map.map Prod.fst).Nodup) (maxLevels initial : Nat)
    (a : AL T) (h : new map maxLevels initial = some a) :
    Inv a ∧ a.valid = true ∧ a.maxNumLevels = maxLevels ∧
    (∀ id t, get a id = some t ↔ (id, t) ∈ map) ∧
    (∀ id, (get a id).isSome → getLevel a id = some initial) := by
  unfold new at h
  cases map with
  | nil => simp at h
  | cons e es =>
    simp only at h
    split at h
    · cases hc : collectItems e.1.rank (e :: es).length 0 (e :: es) [] with
      | none => rw [hc] at h; simp at h
      | some r =>
        obtain ⟨items, rest⟩ := r
        rw [hc] at h
        simp only at h
        split at h
        · rename_i hrest
          have hrest : rest = [] := List.eq_nil_of_length_eq_zero hrest
          subst hrest
          obtain ⟨new, e1, e2, e3⟩ := collectItems_some _ _ _ _ _ hnd _ _ hc
          rw [List.nil_append] at e1
          subst e1
          rw [List.append_nil] at e3
          obtain ⟨hi, hv, h1, h2, h3, h4⟩ := inv_updateBins _ a (by simp) h
          refine ⟨hi, hv, h4, ?_, ?_⟩
          · intro id t
            rw [e3.mem_iff, List.mem_mapIdx]
            unfold get
            rw [h1, h3]
            simp only
            constructor
            · intro hg
              split at hg
              · rename_i hr
                obtain ⟨hlt, hget⟩ := List.getElem?_eq_some_iff.mp hg
                exact ⟨id.index, hlt, by rw [hget, Nat.zero_add, ← hr]⟩
              · simp at hg
            · rintro ⟨i, hlt, hget⟩
              simp only [Prod.mk.injEq] at hget
              obtain ⟨hid, ht⟩ := hget
              rw [← hid]
              simp only [if_true, Nat.zero_add]
              rw [List.getElem?_eq_getElem hlt, ht]
          · intro id hs
            unfold get at hs
            unfold getLevel
            rw [h1, h3] at hs
            rw [h2, h3]
            simp only at hs ⊢
            split at hs
            · rename_i hr
              rw [if_pos hr]
              have hlt : id.index < items.length := by
                by_contra hc
                rw [List.getElem?_eq_none (by omega)] at hs
                simp at hs
              simp [hlt]
            · simp at hs
        · simp at h
    · simp at h

/-! ### Enumeration -/

theorem mem_active_indices (a : AL T) (hi : Inv a) (hv : a.valid = true) (c j : Nat) :
    j ∈ ((a.bins.take a.maxNumLevels).drop c).flatten ↔ ∃ l, c ≤ l ∧ a.levels[j]? = some l := by
  rw [List.mem_flatten]
  have hbl := hi.binsLen hv
  constructor
  · rintro ⟨b, hb, hj⟩
    obtain ⟨k, hk⟩ := List.mem_iff_getElem?.mp hb
    rw [List.getElem?_drop, List.getElem?_take] at hk
    split at hk
    · rename_i hlt
      rw [hi.bins hv _ hlt] at hk
      simp only [Option.some.injEq] at hk
      subst hk
      rw [mem_sel] at hj
      exact ⟨c + k, by omega, by simpa using hj.2⟩
    · simp at hk
  · rintro ⟨l, hcl, hl⟩
    have hlt : l < a.maxNumLevels := hi.bound hv l (List.mem_of_getElem? hl)
    refine ⟨sel l a.levels 0, ?_, by rw [mem_sel]; simpa using hl⟩
    apply List.mem_iff_getElem?.mpr
    refine ⟨l - c, ?_⟩
    rw [List.getElem?_drop, show c + (l - c) = l by omega, List.getElem?_take, if_pos hlt]
    exact hi.bins hv l hlt

theorem nodup_active_indices (a : AL T) (hi : Inv a) (hv : a.valid = true) (c : Nat) :
    (((a.bins.take a.maxNumLevels).drop c).flatten).Nodup := by
  have hbl := hi.binsLen hv
  rw [List.nodup_flatten]
  have hget : ∀ k b, ((a.bins.take a.maxNumLevels).drop c)[k]? = some b →
      b = sel (c + k) a.levels 0 := by
    intro k b hk
    rw [List.getElem?_drop, List.getElem?_take] at hk
    split at hk
    · rename_i hlt
      rw [hi.bins hv _ hlt] at hk
      simpa using hk.symm
    · simp at hk
  constructor
  · intro b hb
    obtain ⟨k, hk⟩ := List.mem_iff_getElem?.mp hb
    rw [hget k b hk]
    exact nodup_sel _ _ _
  · rw [List.pairwise_iff_getElem]
    intro i j hi' hj' hij
    rw [hget i _ (List.getElem?_eq_getElem hi'), hget j _ (List.getElem?_eq_getElem hj')]
    intro x hx hy
    rw [mem_sel] at hx hy
    rw [hx.2] at hy
    have := hy.2
    simp at this
    omega

theorem mapM_some_of_forall {α β : Type} (f : α → Option β) (xs : List α)
    (h : ∀ x ∈ xs, ∃ y, f x = some y) :
    ∃ ys, xs.mapM f = some ys := by
  induction xs with
  | nil => exact ⟨[], by simp⟩
  | cons x xs ih =>
    obtain ⟨y, hy⟩ := h x (by simp)
    obtain ⟨ys, hys⟩ := ih (fun z hz => h z (by simp [hz]))
    exact ⟨y :: ys, by simp [List.mapM_cons, hy, hys]⟩

theorem mapM_forall2 {α β : Type} (f : α → Option β) (xs : List α) (ys : List β)
    (h : xs.mapM f = some ys) : List.Forall₂ (fun x y => f x = some y) xs ys := by
  induction xs generalizing ys with
  | nil => simp at h; subst h; exact List.Forall₂.nil
  | cons x xs ih =>
    rw [List.mapM_cons] at h
    cases hx : f x with
    | none => rw [hx] at h; simp at h
    | some y =>
      cases hxs : xs.mapM f with
      | none => rw [hx, hxs] at h; simp at h
      | some ys' =>
        rw [hx, hxs] at h
        simp at h
        subst h
        exact List.Forall₂.cons hx (ih _ hxs)

theorem forall2_entry_map (a : AL T) (xs : List Nat) (ys : List (Id × T))
    (h : List.Forall₂ (fun x y => entry a x = some y) xs ys) :
    ys.map Prod.fst = xs.map (fun i => (⟨a.rank, i⟩ : Id)) ∧
    ∀ id t, (id, t) ∈ ys ↔ id.rank = a.rank ∧ id.index ∈ xs ∧ a.items[id.index]? = some t := by
  induction h with
  | nil => simp
  | @cons x y xs ys hxy h ih =>
    unfold entry at hxy
    cases hx : a.items[x]? with
    | none => rw [hx] at hxy; simp at hxy
    | some t0 =>
      rw [hx] at hxy
      simp only [Option.some.injEq] at hxy
      subst hxy
      refine ⟨by simp [ih.1], ?_⟩
      intro id t
      rw [List.mem_cons, ih.2, List.mem_cons]
      constructor
      · rintro (h | ⟨h1, h2, h3⟩)
        · simp only [Prod.mk.injEq] at h
          obtain ⟨rfl, rfl⟩ := h
          exact ⟨rfl, Or.inl rfl, hx⟩
        · exact ⟨h1, Or.inr h2, h3⟩
      · rintro ⟨h1, h2 | h2, h3⟩
        · left
          rw [h2, hx] at h3
          simp only [Option.some.injEq] at h3
          subst h3
          obtain ⟨r, i⟩ := id
          simp only at h1 h2
          simp [h1, h2]
        · exact Or.inr ⟨h1, h2, h3⟩

/-- **C28 (safety for every history).** Start from a freshly built list and perform any history of
level changes, item changes and bin updates.  Whenever enumerating the active cells of level `c`
succeeds, it yields each cell once and exactly those cells whose *current* level is at least `c`,
with their current contents.  In particular stale bins never produce a result. -/
theorem enumerate_active_exact (map : List (Id × T)) (hnd : (map.map Prod.fst).Nodup)
    (maxLevels initial : Nat) (a0 : AL T) (h0 : new map maxLevels initial = some a0)
    (ops : List (Op T)) (a : AL T) (h : run a0 ops = some a) (c : Nat) (out : List (Id × T))
    (hout : enumerateActive a c = some out) :
    (out.map Prod.fst).Nodup ∧
    ∀ id t, (id, t) ∈ out ↔ get a id = some t ∧ ∃ l, getLevel a id = some l ∧ c ≤ l := by
  have hi : Inv a := inv_run ops a0 a (new_spec map hnd maxLevels initial a0 h0).1 h
  unfold enumerateActive at hout
  split at hout
  · rename_i hv
    split at hout
    · have hf := mapM_forall2 _ _ _ hout
      obtain ⟨h1, h2⟩ := forall2_entry_map a _ _ hf
      constructor
      · rw [h1]
        apply List.Nodup.map
        · intro i j hij
          simpa using hij
        · exact nodup_active_indices a hi hv c
      · intro id t
        rw [h2, mem_active_indices a hi hv]
        unfold get getLevel
        constructor
        · rintro ⟨hr, ⟨l, hl1, hl2⟩, ht⟩
          rw [if_pos hr]
          exact ⟨ht, l, by rw [if_pos hr]; exact hl2, hl1⟩
        · rintro ⟨hg, l, hl1, hl2⟩
          split at hg
          · rename_i hr
            rw [if_pos hr] at hl1
            exact ⟨hr, ⟨l, hl2, hl1⟩, hg⟩
          · simp at hg
    · simp at hout
  · simp at hout

/-- **C28 (stale bins are detected).** After a level change not followed by a bin update, enumerating
panics for every level. -/
theorem stale_enumerate_panics (a a' : AL T) (op : Op T) (ops : List (Op T))
    (hop : (∃ id l, op = .setLevel id l) ∨ (∃ f, op = .updateLevels f))
    (hops : ∀ o ∈ ops, o ≠ .updateBins) (h : run a (op :: ops) = some a') (c : Nat) :
    enumerateActive a' c = none := by
  have hstay : ∀ (ops : List (Op T)) (b b' : AL T), (∀ o ∈ ops, o ≠ .updateBins) →
      b.valid = false → run b ops = some b' → b'.valid = false := by
    intro ops
    induction ops with
    | nil => intro b b' _ hb h; simp only [run, Option.some.injEq] at h; subst h; exact hb
    | cons o os ih =>
      intro b b' hos hb h
      unfold run at h
      cases hs : step b o with
      | none => rw [hs] at h; simp at h
      | some b1 =>
        rw [hs] at h
        refine ih b1 b' (fun x hx => hos x (by simp [hx])) ?_ h
        cases o with
        | updateBins => exact absurd rfl (hos .updateBins (by simp))
        | setLevel id l =>
          simp only [step, setLevel] at hs
          split at hs
          · split at hs
            · simp only [Option.some.injEq] at hs; subst hs; rfl
            · simp at hs
          · simp at hs
        | updateLevels f => simp only [step, updateLevels, Option.some.injEq] at hs; subst hs; rfl
        | modifyItem id f =>
          simp only [step, modifyItem] at hs
          split at hs
          · split at hs
            · simp at hs
            · simp only [Option.some.injEq] at hs; subst hs; exact hb
          · simp at hs
  unfold run at h
  cases hs : step a op with
  | none => rw [hs] at h; simp at h
  | some b =>
    rw [hs] at h
    have hb : b.valid = false := by
      rcases hop with ⟨id, l, rfl⟩ | ⟨f, rfl⟩
      · simp only [step, setLevel] at hs
        split at hs
        · split at hs
          · simp only [Option.some.injEq] at hs; subst hs; rfl
          · simp at hs
        · simp at hs
      · simp only [step, updateLevels, Option.some.injEq] at hs; subst hs; rfl
    have := hstay ops b a' hops hb h
    unfold enumerateActive
    simp [this]

/-- **C28 (a bin update makes the list usable).** If all levels are below the number of levels, a bin
update succeeds after any history, keeps items and levels, and enumerating then succeeds for every
level. -/
theorem update_bins_usable (map : List (Id × T)) (hnd : (map.map Prod.fst).Nodup)
    (maxLevels initial : Nat) (a0 : AL T) (h0 : new map maxLevels initial = some a0)
    (ops : List (Op T)) (a : AL T) (h : run a0 ops = some a)
    (hl : ∀ id l, getLevel a id = some l → l < a.maxNumLevels) :
    ∃ a', updateBins a = some a' ∧ (∀ id, get a' id = get a id) ∧
      (∀ id, getLevel a' id = getLevel a id) ∧
      ∀ c, c ≤ a.maxNumLevels → ∃ out, enumerateActive a' c = some out := by
  have hi : Inv a := inv_run ops a0 a (new_spec map hnd maxLevels initial a0 h0).1 h
  have hb : fillBins a.levels 0 (List.replicate a.maxNumLevels []) ≠ none := by
    rw [fillBins_none]
    intro l hmem
    obtain ⟨j, hj⟩ := List.mem_iff_getElem?.mp hmem
    have := hl ⟨a.rank, j⟩ l (by unfold getLevel; rw [if_pos rfl]; exact hj)
    simpa using this
  have hu : ∃ a', updateBins a = some a' := by
    unfold updateBins
    cases hf : fillBins a.levels 0 (List.replicate a.maxNumLevels []) with
    | none => exact absurd hf hb
    | some bins => exact ⟨_, rfl⟩
  obtain ⟨a', ha'⟩ := hu
  obtain ⟨hi', hv, h1, h2, h3, h4⟩ := inv_updateBins a a' hi.len ha'
  refine ⟨a', ha', ?_, ?_, ?_⟩
  · intro id; unfold get; rw [h1, h3]
  · intro id; unfold getLevel; rw [h2, h3]
  · intro c hc
    unfold enumerateActive
    rw [if_pos hv, if_pos ⟨by omega, Nat.le_of_eq (hi'.binsLen hv).symm⟩]
    apply mapM_some_of_forall
    intro j hj
    rw [mem_active_indices a' hi' hv] at hj
    obtain ⟨l, _, hl'⟩ := hj
    have hlt := (List.getElem?_eq_some_iff.mp hl').1
    rw [hi'.len] at hlt
    unfold entry
    rw [List.getElem?_eq_getElem hlt]
    exact ⟨_, rfl⟩

/-- A cell is reported as active exactly when its level is at least the current one, also with stale
bins. -/
theorem active_state_exact (a : AL T) (id : Id) (c : Nat) :
    activeState a id c = some true ↔ ∃ l, getLevel a id = some l ∧ c ≤ l := by
  unfold activeState
  cases getLevel a id <;> simp

/-- non-vacuity: three cells, one of them changed to level 2 -/
example :
    let map := [((⟨3, 1⟩ : Id), "b"), (⟨3, 0⟩, "a"), (⟨3, 2⟩, "c")]
    ((new map 4 1).bind (fun a => run a [.setLevel ⟨3, 1⟩ 2, .updateBins])).bind
      (fun a => enumerateActive a 2) = some [(⟨3, 1⟩, "b")] ∧
    ((new map 4 1).bind (fun a => run a [.setLevel ⟨3, 1⟩ 2, .updateBins])).bind
      (fun a => enumerateActive a 1) = some [(⟨3, 0⟩, "a"), (⟨3, 2⟩, "c"), (⟨3, 1⟩, "b")] ∧
    ((new map 4 1).bind (fun a => run a [.setLevel ⟨3, 1⟩ 2])).bind
      (fun a => enumerateActive a 1) = none := by decide +kernel

end Verif.ActiveList
