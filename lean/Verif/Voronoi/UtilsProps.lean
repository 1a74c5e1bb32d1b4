import Verif.Voronoi.UtilsLemmas
import Mathlib.Tactic.IntervalCases

/-! # C57: cyclic arrangement and periodic windows -/

namespace Verif.Voronoi

variable {α : Type}

/-- The windows of `n ≥ 2` values are `(0, 1), (1, 2), …, (n - 1, 0)`; of fewer values there are none. -/
theorem windows_spec (values : List α) :
    (2 ≤ values.length → periodicWindows2 values =
      .done ((List.range values.length).map fun i => (i, (i + 1) % values.length))) ∧
    (values.length < 2 → periodicWindows2 values = .done []) := by
  constructor
  · intro h
    have := windows_collect h values.length (Nat.le_refl _)
    rw [Nat.sub_self] at this
    rw [periodicWindows2, this, List.range_eq_range']
  · intro h
    refine collect_finished ?_ _
    unfold windowsNext
    rw [if_pos h]

/-- The windows of five values. -/
example : periodicWindows2 ['a', 'b', 'c', 'd', 'e'] = .done [(0, 1), (1, 2), (2, 3), (3, 4), (4, 0)] := by
  decide

private theorem relatedAt_iff {items : List α} {related : α → α → Bool} {i j : ℕ} :
    relatedAt items related i j = true ↔ ∃ x y, items[i]? = some x ∧ items[j]? = some y ∧ related x y = true := by
  unfold relatedAt
  cases items[i]? with
  | none => simp
  | some x =>
    cases items[j]? with
    | none => simp
    | some y => simp

/-- Whatever the relation: if the arrangement does not panic, it returns as many pairs as there are items; it
starts with the first item, every pair continues where the one before ended and the last one ends with the
first item; every item is exactly once the first and exactly once the second of a pair; the items of a pair are
different and related.  It always comes to an end. -/
theorem arrange_sound (items : List α) (related : α → α → Bool) :
    (items.length < 2 → arrangeCyclicBy items related = .done []) ∧
    arrangeCyclicBy items related ≠ .running ∧
    ∀ l, arrangeCyclicBy items related = .done l → 2 ≤ items.length →
      l.length = items.length ∧
      (l.map Prod.fst).Perm (List.range items.length) ∧ (l.map Prod.snd).Perm (List.range items.length) ∧
      (∃ e ∈ l.head?, e.1 = 0) ∧ l.map Prod.snd = (l.map Prod.fst).rotate 1 ∧
      ∀ e ∈ l, e.1 ≠ e.2 ∧ ∃ x y, items[e.1]? = some x ∧ items[e.2]? = some y ∧ related x y = true := by
  have hsmall : items.length < 2 → arrangeCyclicBy items related = .done [] := by
    intro h
    refine collect_finished ?_ _
    unfold cyclicNext
    rw [if_pos (Or.inl h)]
  refine ⟨hsmall, ?_⟩
  by_cases hn : items.length < 2
  · rw [hsmall hn]
    exact ⟨fun h => (by cases h), fun l _ h => absurd hn (by omega)⟩
  · have hn' : 2 ≤ items.length := by omega
    rcases cyclic_sound (rel := relatedAt items related) hn' items.length [] 0 (by simp) (by omega) (by simp)
      (by simp; omega) with h | ⟨c, h1, h2, h3, h4, h5⟩
    · rw [arrangeCyclicBy, h]
      exact ⟨fun h => (by cases h), fun l h => (by cases h)⟩
    · rw [arrangeCyclicBy, h1]
      refine ⟨fun h => (by cases h), fun l h _ => ?_⟩
      cases h
      rw [List.append_nil] at h2
      have hfst : ((0 :: c).zip (c ++ [0])).map Prod.fst = 0 :: c := List.map_fst_zip (by simp)
      have hsnd : ((0 :: c).zip (c ++ [0])).map Prod.snd = c ++ [0] := List.map_snd_zip (by simp)
      have hperm : (0 :: c).Perm (List.range items.length) := by
        refine (List.subperm_of_subset h2 ?_).perm_of_length_le (by simp; omega)
        intro i hi
        rw [List.mem_range]
        rcases List.mem_cons.1 hi with rfl | hi
        · omega
        · exact h3 i hi
      refine ⟨by simp; omega, by rw [hfst]; exact hperm, ?_, ?_, ?_, ?_⟩
      · rw [hsnd]
        exact (List.perm_append_singleton 0 c).trans hperm
      · cases c <;> simp
      · rw [hfst, hsnd]
        simp
      · intro e he
        obtain ⟨k, hk⟩ := List.mem_iff_getElem?.1 he
        rw [List.getElem?_zip_eq_some] at hk
        obtain ⟨hk1, hk2⟩ := hk
        have hkc : k < c.length + 1 := by
          have := (List.getElem?_eq_some_iff.1 hk1).1
          simpa using this
        have hrel : relatedAt items related e.1 e.2 = true := by
          have hch := List.isChain_iff_getElem.1 h5 k (by simp; omega)
          have e1 : (0 :: (c ++ [0]))[k]? = some e.1 := by
            rw [← List.cons_append, List.getElem?_append_left (by simpa using hkc)]
            exact hk1
          have e2 : (0 :: (c ++ [0]))[k + 1]? = some e.2 := by
            rw [List.getElem?_cons_succ]
            exact hk2
          obtain ⟨_, g1⟩ := List.getElem?_eq_some_iff.1 e1
          obtain ⟨_, g2⟩ := List.getElem?_eq_some_iff.1 e2
          rw [g1, g2] at hch
          exact hch
        refine ⟨?_, relatedAt_iff.1 hrel⟩
        intro heq
        rw [← heq] at hk2
        by_cases hkl : k < c.length
        · rw [List.getElem?_append_left hkl] at hk2
          have : (0 :: c)[k]? = (0 :: c)[k + 1]? := by rw [hk1, List.getElem?_cons_succ, hk2]
          have := (List.getElem?_inj (by simp; omega) h2).1 this
          omega
        · have hke : k = c.length := by omega
          subst hke
          rw [List.getElem?_append_right (Nat.le_refl _)] at hk2
          simp at hk2
          rw [← hk2] at hk1
          have : (0 :: c)[c.length]? = (0 :: c)[0]? := by rw [hk1]; rfl
          have := (List.getElem?_inj (by simp) h2).1 this
          omega

/-- The order `c` of the items is the only cycle: two different items are related exactly if they are
neighbours in this order, where the last one is a neighbour of the first one. -/
structure SingleCycle (items : List α) (related : α → α → Bool) (c : List ℕ) : Prop where
  perm : c.Perm (List.range items.length)
  iff : ∀ (a b i j : ℕ) (x y : α), c[a]? = some i → c[b]? = some j → items[i]? = some x → items[j]? = some y →
    a ≠ b → (related x y = true ↔ (a + 1) % items.length = b ∨ (b + 1) % items.length = a)

private theorem mod_two {n a b c d : ℕ} (hb : b < n) (hc : c < n) (hd : d < n)
    (h1 : (a + 1) % n = b ∨ (b + 1) % n = a) (h2 : (a + 1) % n = c ∨ (c + 1) % n = a)
    (h3 : (a + 1) % n = d ∨ (d + 1) % n = a) : b = c ∨ b = d ∨ c = d := by
  have key : ∀ x y, x < n → y < n → (x + 1) % n = a → (y + 1) % n = a → x = y := by
    intro x y hx hy h h'
    rcases Nat.lt_or_ge (x + 1) n with hx' | hx' <;> rcases Nat.lt_or_ge (y + 1) n with hy' | hy'
    · rw [Nat.mod_eq_of_lt hx'] at h
      rw [Nat.mod_eq_of_lt hy'] at h'
      omega
    · rw [Nat.mod_eq_of_lt hx'] at h
      have : y + 1 = n := by omega
      rw [this, Nat.mod_self] at h'
      omega
    · rw [Nat.mod_eq_of_lt hy'] at h'
      have : x + 1 = n := by omega
      rw [this, Nat.mod_self] at h
      omega
    · omega
  rcases h1 with h1 | h1 <;> rcases h2 with h2 | h2 <;> rcases h3 with h3 | h3
  · exact Or.inl (h1.symm.trans h2)
  · exact Or.inl (h1.symm.trans h2)
  · exact Or.inr (Or.inl (h1.symm.trans h3))
  · exact Or.inr (Or.inr (key c d hc hd h2 h3))
  · exact Or.inr (Or.inr (h2.symm.trans h3))
  · exact Or.inr (Or.inl (key b d hb hd h1 h3))
  · exact Or.inl (key b c hb hc h1 h2)
  · exact Or.inl (key b c hb hc h1 h2)

/-- If the relation forms a single cycle through all items, the arrangement does not panic and follows the
cycle, in one of the two directions. -/
theorem arrange_follows_cycle {items : List α} {related : α → α → Bool} {c : List ℕ} (hn : 2 ≤ items.length)
    (h : SingleCycle items related c) :
    ∃ l, arrangeCyclicBy items related = .done l ∧
      (l.map Prod.fst ~r c ∨ l.map Prod.fst ~r c.reverse) := by
  have hnd : c.Nodup := h.perm.nodup_iff.2 List.nodup_range
  have hlen : c.length = items.length := by simpa using h.perm.length_eq
  have hpos : ∀ i, i < items.length → ∃ a, a < items.length ∧ c[a]? = some i := by
    intro i hi
    obtain ⟨a, ha⟩ := List.mem_iff_getElem?.1 (h.perm.mem_iff.2 (List.mem_range.2 hi))
    exact ⟨a, by rw [← hlen]; exact (List.getElem?_eq_some_iff.1 ha).1, ha⟩
  have hiff : ∀ a b i j : ℕ, c[a]? = some i → c[b]? = some j → a ≠ b →
      (relatedAt items related i j = true ↔ (a + 1) % items.length = b ∨ (b + 1) % items.length = a) := by
    intro a b i j ha hb hab
    have hi : i < items.length := List.mem_range.1 (h.perm.mem_iff.1 (List.mem_of_getElem? ha))
    have hj : j < items.length := List.mem_range.1 (h.perm.mem_iff.1 (List.mem_of_getElem? hb))
    rw [← h.iff a b i j items[i] items[j] ha hb (List.getElem?_eq_getElem hi) (List.getElem?_eq_getElem hj) hab]
    unfold relatedAt
    rw [List.getElem?_eq_getElem hi, List.getElem?_eq_getElem hj]
  have hinj : ∀ {a b i j : ℕ}, c[a]? = some i → c[b]? = some j → i ≠ j → a ≠ b := by
    rintro a b i j ha hb hij rfl
    rw [ha] at hb
    exact hij (Option.some.inj hb)
  have hs : ∀ a b, a < items.length → b < items.length → a ≠ b → relatedAt items related a b = true →
      relatedAt items related b a = true := by
    intro i j hi hj hij hr
    obtain ⟨a, _, ha⟩ := hpos i hi
    obtain ⟨b, _, hb⟩ := hpos j hj
    have hab := hinj ha hb hij
    rw [hiff b a j i hb ha (Ne.symm hab), Or.comm]
    exact (hiff a b i j ha hb hab).1 hr
  have hd : ∀ a b c d, a < items.length → b < items.length → c < items.length → d < items.length → a ≠ b →
      a ≠ c → a ≠ d → relatedAt items related a b = true → relatedAt items related a c = true →
      relatedAt items related a d = true → b = c ∨ b = d ∨ c = d := by
    intro i j k l hi hj hk hl hij hik hil h1 h2 h3
    obtain ⟨a, _, ha⟩ := hpos i hi
    obtain ⟨b, hb', hb⟩ := hpos j hj
    obtain ⟨d, hd', hd⟩ := hpos k hk
    obtain ⟨e, he', he⟩ := hpos l hl
    have g1 := (hiff a b i j ha hb (hinj ha hb hij)).1 h1
    have g2 := (hiff a d i k ha hd (hinj ha hd hik)).1 h2
    have g3 := (hiff a e i l ha he (hinj ha he hil)).1 h3
    rcases mod_two hb' hd' he' g1 g2 g3 with rfl | rfl | rfl
    · rw [hb] at hd
      exact Or.inl (Option.some.inj hd)
    · rw [hb] at he
      exact Or.inr (Or.inl (Option.some.inj he))
    · rw [hd] at he
      exact Or.inr (Or.inr (Option.some.inj he))
  -- the cycle starting at the first item
  obtain ⟨m, hm, hm0⟩ := hpos 0 (by omega)
  obtain ⟨c', hc'⟩ : ∃ c', c.rotate m = 0 :: c' := by
    cases hr : c.rotate m with
    | nil =>
      have := congrArg List.length hr
      rw [List.length_rotate] at this
      simp at this
      rw [this] at hlen
      simp at hlen
      omega
    | cons x c' =>
      have h0 : (c.rotate m)[0]? = c[m]? := by
        rw [List.getElem?_rotate (by omega), Nat.zero_add, Nat.mod_eq_of_lt (by omega)]
      rw [hr, hm0] at h0
      simp at h0
      exact ⟨c', by rw [h0]⟩
  have hclen : c'.length + 1 = items.length := by
    have := congrArg List.length hc'
    rw [List.length_rotate] at this
    simp at this
    omega
  have hperm' : (0 :: c').Perm (List.range items.length) := by
    rw [← hc']
    exact (List.rotate_perm c m).trans h.perm
  have hget : ∀ k, k < items.length → (0 :: (c' ++ [0]))[k]? = c[(k + m) % items.length]? := by
    intro k hk
    rw [← List.cons_append, List.getElem?_append_left (by simp; omega), ← hc',
      List.getElem?_rotate (by omega), hlen]
  have hgets : ∀ k, k < items.length → (0 :: (c' ++ [0]))[k + 1]? = c[(k + 1 + m) % items.length]? := by
    intro k hk
    by_cases hk' : k + 1 < items.length
    · exact hget (k + 1) hk'
    · have : k + 1 = items.length := by omega
      rw [this, Nat.add_mod_left, Nat.mod_eq_of_lt hm, hm0, ← List.cons_append,
        List.getElem?_append_right (by simp; omega)]
      simp [hclen]
  have hchain : (0 :: (c' ++ [0])).IsChain (fun a b => relatedAt items related a b = true) := by
    rw [List.isChain_iff_getElem]
    intro k hk
    have hk' : k < items.length := by simp at hk; omega
    have h1 := hget k hk'
    have h2 := hgets k hk'
    rw [List.getElem?_eq_getElem (by omega)] at h1
    rw [List.getElem?_eq_getElem hk] at h2
    refine (hiff _ _ _ _ h1.symm h2.symm ?_).2 (Or.inl ?_)
    · intro he
      rw [show k + 1 + m = k + m + 1 by omega] at he
      have h3 := Nat.mod_lt (k + m) (show 0 < items.length by omega)
      rw [Nat.add_mod (k + m) 1, Nat.mod_eq_of_lt (show 1 < items.length by omega)] at he
      rcases Nat.lt_or_ge ((k + m) % items.length + 1) items.length with h4 | h4
      · rw [Nat.mod_eq_of_lt h4] at he
        omega
      · rw [show (k + m) % items.length + 1 = items.length by omega, Nat.mod_self] at he
        omega
    · rw [Nat.mod_add_mod, show k + m + 1 = k + 1 + m by omega]
  have hrot : (0 :: c') ~r c := by
    rw [← hc']
    exact (List.IsRotated.forall c m)
  -- the reversed cycle
  have hrevchain : (0 :: (c'.reverse ++ [0])).IsChain (fun a b => relatedAt items related a b = true) := by
    have h1 : ((0 :: (c' ++ [0])).reverse).IsChain (fun a b => relatedAt items related a b = true) := by
      rw [List.isChain_reverse]
      rw [List.isChain_iff_getElem] at hchain ⊢
      intro k hk
      have hlt : ∀ k (hk : k < (0 :: (c' ++ [0])).length), (0 :: (c' ++ [0]))[k] < items.length := by
        intro k hk
        have hmem := List.getElem_mem hk
        have : (0 :: (c' ++ [0]))[k] ∈ 0 :: c' := by
          rw [List.mem_cons, List.mem_append, List.mem_singleton] at hmem
          rw [List.mem_cons]
          tauto
        exact List.mem_range.1 (hperm'.mem_iff.1 this)
      refine hs _ _ (hlt k (by omega)) (hlt (k + 1) hk) ?_ (hchain k hk)
      have hk' : k < items.length := by simp at hk; omega
      intro heq
      have h1 := hget k hk'
      have h2 := hgets k hk'
      rw [List.getElem?_eq_getElem (by omega)] at h1
      rw [List.getElem?_eq_getElem hk] at h2
      rw [heq, h2] at h1
      have h3 := Nat.mod_lt (k + m) (show 0 < items.length by omega)
      have he := (List.getElem?_inj (by rw [hlen]; exact Nat.mod_lt _ (by omega)) hnd).1 h1
      rw [show k + 1 + m = k + m + 1 by omega] at he
      rw [Nat.add_mod (k + m) 1, Nat.mod_eq_of_lt (show 1 < items.length by omega)] at he
      rcases Nat.lt_or_ge ((k + m) % items.length + 1) items.length with h4 | h4
      · rw [Nat.mod_eq_of_lt h4] at he
        omega
      · rw [show (k + m) % items.length + 1 = items.length by omega, Nat.mod_self] at he
        omega
    simpa using h1
  have hrotrev : (0 :: c'.reverse) ~r c.reverse := by
    have h1 : (0 :: c').reverse ~r c.reverse := hrot.reverse
    have h2 : (0 :: c'.reverse) ~r (c'.reverse ++ [0]) := ⟨1, by simp⟩
    rw [List.reverse_cons] at h1
    exact h2.trans h1
  -- the first step
  suffices hgoal : ∀ d, d.length = c'.length → (0 :: d).Perm (List.range items.length) →
      (0 :: (d ++ [0])).IsChain (fun a b => relatedAt items related a b = true) →
      (List.range items.length).find? (fun i => decide (i ≠ 0) && !([] : List ℕ).contains i &&
        relatedAt items related 0 i) = d.head? → arrangeCyclicBy items related = .done ((0 :: d).zip (d ++ [0])) by
    have hmap : ∀ d : List ℕ, ((0 :: d).zip (d ++ [0])).map Prod.fst = 0 :: d := fun d =>
      List.map_fst_zip (by simp)
    have hpr : (0 :: c'.reverse).Perm (List.range items.length) :=
      ((List.reverse_perm c').cons 0).trans hperm'
    obtain ⟨y, hy⟩ : ∃ y, (List.range items.length).find? (fun i => decide (i ≠ 0) && !([] : List ℕ).contains i &&
        relatedAt items related 0 i) = some y := by
      cases hf : (List.range items.length).find? (fun i => decide (i ≠ 0) && !([] : List ℕ).contains i &&
        relatedAt items related 0 i) with
      | some y => exact ⟨y, rfl⟩
      | none =>
        exfalso
        cases hcc : c' with
        | nil => rw [hcc] at hclen; simp at hclen; omega
        | cons z p =>
          rw [hcc] at hchain hperm'
          rw [List.cons_append, List.isChain_cons_cons] at hchain
          have hzn : z < items.length := List.mem_range.1 (hperm'.mem_iff.1 (by simp))
          have hz0 : z ≠ 0 := by
            rintro rfl
            have := hperm'.nodup_iff.2 List.nodup_range
            simp at this
          have := List.find?_eq_none.1 hf z (List.mem_range.2 hzn)
          simp [hz0, hchain.1] at this
    have hyp := List.find?_some hy
    have hyn : y < items.length := List.mem_range.1 (List.mem_of_find?_eq_some hy)
    simp only [Bool.and_eq_true, decide_eq_true_eq] at hyp
    -- the neighbours of the first item are the ends of `c'`
    have hends : c'.head? = some y ∨ c'.reverse.head? = some y := by
      cases hcc : c' with
      | nil => rw [hcc] at hclen; simp at hclen; omega
      | cons z p =>
        cases hcr : (z :: p).reverse with
        | nil => simp at hcr
        | cons w q =>
          rw [hcc] at hchain hperm' hrevchain hpr
          rw [hcr] at hrevchain hpr
          rw [List.cons_append, List.isChain_cons_cons] at hchain hrevchain
          have hzn : z < items.length := List.mem_range.1 (hperm'.mem_iff.1 (by simp))
          have hwn : w < items.length := List.mem_range.1 (hpr.mem_iff.1 (by simp))
          have hz0 : z ≠ 0 := by
            rintro rfl
            have := hperm'.nodup_iff.2 List.nodup_range
            simp at this
          have hw0 : w ≠ 0 := by
            rintro rfl
            have := hpr.nodup_iff.2 List.nodup_range
            simp at this
          by_cases hzw : z = w
          · -- one further item only
            left
            have hp : p = [] := by
              by_contra hne
              have hrr : z :: p = q.reverse ++ [w] := by
                rw [← List.reverse_reverse (z :: p), hcr, List.reverse_cons]
              cases hq : q.reverse with
              | nil =>
                rw [hq, List.nil_append, List.cons.injEq] at hrr
                exact hne hrr.2
              | cons a q' =>
                rw [hq, List.cons_append, List.cons.injEq] at hrr
                have : z ∈ p := by
                  rw [hrr.2, hzw]
                  exact List.mem_append.2 (Or.inr (List.mem_singleton.2 rfl))
                have hnd' := hperm'.nodup_iff.2 List.nodup_range
                exact (List.nodup_cons.1 (List.nodup_cons.1 hnd').2).1 this
            rw [hp] at hperm'
            have := hperm'.mem_iff.2 (List.mem_range.2 hyn)
            simp [hyp.1.1] at this
            rw [this]
            rfl
          · rcases hd 0 z w y (by omega) hzn hwn hyn (Ne.symm hz0) (Ne.symm hw0) (Ne.symm hyp.1.1) hchain.1
              hrevchain.1 hyp.2 with h | h | h
            · exact absurd h hzw
            · left
              rw [h]
              rfl
            · right
              rw [h]
              rfl
    rcases hends with he | he
    · refine ⟨_, hgoal c' rfl hperm' hchain (by rw [hy, he]), Or.inl ?_⟩
      rw [hmap]
      exact hrot
    · refine ⟨_, hgoal c'.reverse (by simp) hpr hrevchain (by rw [hy, he]), Or.inr ?_⟩
      rw [hmap]
      exact hrotrev
  intro d hdl hpd hcd hf
  cases d with
  | nil => simp at hdl; omega
  | cons y p =>
    have hstep : cyclicNext items.length (relatedAt items related) ⟨[], 0⟩ = .item (0, y) ⟨[0], y⟩ := by
      unfold cyclicNext
      dsimp only
      rw [if_neg (by rw [List.length_nil]; omega), if_neg (by rw [List.length_nil]; omega), hf]
      rfl
    rw [List.cons_append, List.isChain_cons_cons] at hcd
    have hlen' : items.length = p.length + 1 + 1 := by rw [List.length_cons] at hdl; omega
    unfold arrangeCyclicBy
    rw [hlen', collect_item (by rw [← hlen']; exact hstep), ← hlen']
    rw [cyclic_follows hn hs hd p [0] 0 y (by simp) ?_ hcd.1 hcd.2]
    · rfl
    · have : (y :: p ++ [0]).Perm (0 :: y :: p) := List.perm_append_singleton 0 (y :: p)
      exact this.trans hpd

/-- The ring of the numbers `0, …, 6` in which neighbours are related, in the order used by the unit test. -/
example : SingleCycle [3, 1, 4, 2, 5, 0, 6] (fun x y => decide ((x + 1) % 7 = y ∨ (y + 1) % 7 = x))
    [5, 1, 3, 0, 2, 4, 6] := by
  refine ⟨by decide, ?_⟩
  intro a b i j x y ha hb hx hy hab
  have ha' := (List.getElem?_eq_some_iff.1 ha).1
  have hb' := (List.getElem?_eq_some_iff.1 hb).1
  simp at ha' hb'
  interval_cases a <;> interval_cases b <;>
    (simp at ha hb; subst ha; subst hb; simp at hx hy; subst hx; subst hy; simp_all)

example : arrangeCyclicBy [3, 1, 4, 2, 5, 0, 6] (fun x y => decide ((x + 1) % 7 = y ∨ (y + 1) % 7 = x)) =
    .done [(0, 2), (2, 4), (4, 6), (6, 5), (5, 1), (1, 3), (3, 0)] := by
  decide +kernel

/-- The condition in the documentation, that every item is related to two other items, is not sufficient: two
separate triangles make the arrangement panic. -/
theorem two_cycles_panic : ∃ (items : List ℕ) (related : ℕ → ℕ → Bool),
    (∀ x y, related x y = related y x) ∧
    (∀ x ∈ items, ∃ y ∈ items, ∃ z ∈ items, x ≠ y ∧ x ≠ z ∧ y ≠ z ∧ related x y = true ∧ related x z = true) ∧
    arrangeCyclicBy items related = .panic :=
  ⟨[0, 1, 2, 3, 4, 5], fun x y => decide (x / 3 = y / 3), fun x y => by simp [eq_comm], by decide, by decide +kernel⟩

end Verif.Voronoi
