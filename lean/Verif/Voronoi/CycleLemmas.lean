import Verif.Voronoi.Cell
import Verif.Voronoi.CellSpec
import Verif.Voronoi.UtilsProps

/-! # Closed lists: lemmas -/

namespace Verif.Voronoi

variable {α : Type}

theorem sidesOf_rotate (l : List α) (k : ℕ) : sidesOf (l.rotate k) = (sidesOf l).rotate k := by
  unfold sidesOf
  rw [List.rotate_rotate, Nat.add_comm, ← List.rotate_rotate, List.zip_eq_zipWith, List.zip_eq_zipWith,
    List.zipWith_rotate_distrib _ _ _ _ (by simp)]

theorem sidesOf_map {α β : Type} (f : α → β) (l : List α) :
    sidesOf (l.map f) = (sidesOf l).map fun e => (f e.1, f e.2) := by
  unfold sidesOf
  rw [← List.map_rotate, List.zip_map]
  rfl

theorem sidesOf_cons (x : α) (c : List α) : sidesOf (x :: c) = (x :: c).zip (c ++ [x]) := by
  unfold sidesOf
  rw [List.rotate_cons_succ, List.rotate_zero]

theorem chain_iff_zip {R : α → α → Prop} : ∀ (l : List α) (a : α),
    (a :: l).IsChain R ↔ ∀ e ∈ (a :: l).zip l, R e.1 e.2
  | [], a => by simp
  | b :: l, a => by
    rw [List.isChain_cons_cons, chain_iff_zip l b]
    simp

theorem zip_append_self {β : Type} : ∀ (l : List α) (m : List β) (k : List α), m.length ≤ l.length → (l ++ k).zip m = l.zip m
  | [], [], k, _ => by simp
  | [], _ :: _, _, h => by simp at h
  | a :: l, [], k, _ => by simp
  | a :: l, b :: m, k, h => by
    simp only [List.cons_append, List.zip_cons_cons]
    rw [zip_append_self l m k (by simpa using h)]

theorem sides_iff_chain {R : α → α → Prop} (x : α) (c : List α) :
    (∀ e ∈ sidesOf (x :: c), R e.1 e.2) ↔ (x :: (c ++ [x])).IsChain R := by
  rw [sidesOf_cons, chain_iff_zip, ← List.cons_append, zip_append_self _ _ _ (by simp)]

/-- Every member of a closed list can be made the first one. -/
theorem rotate_to_front {l : List α} {x : α} (h : x ∈ l) : ∃ k c, l.rotate k = x :: c := by
  obtain ⟨k, hk, rfl⟩ := List.getElem_of_mem h
  cases hr : l.rotate k with
  | nil =>
    have := congrArg List.length hr
    rw [List.length_rotate, List.length_nil] at this
    omega
  | cons y c =>
    refine ⟨k, c, ?_⟩
    have h0 : (l.rotate k)[0]? = l[k]? := by
      rw [List.getElem?_rotate (by omega), Nat.zero_add, Nat.mod_eq_of_lt hk]
    rw [hr, List.getElem?_cons_zero, List.getElem?_eq_getElem hk, Option.some.injEq] at h0
    rw [hr, h0]

theorem mem_sidesOf_rotate {l : List α} {k : ℕ} {e : α × α} : e ∈ sidesOf (l.rotate k) ↔ e ∈ sidesOf l := by
  rw [sidesOf_rotate, List.mem_rotate]

theorem mem_sidesOf {l : List α} {e : α × α} (h : e ∈ sidesOf l) : e.1 ∈ l ∧ e.2 ∈ l := by
  obtain ⟨h1, h2⟩ := List.of_mem_zip (a := e.1) (b := e.2) h
  exact ⟨h1, List.mem_rotate.1 h2⟩

/-- The two ends of a closed list without repetition. -/
theorem ends {x : α} {c : List α} (hn : (x :: c).Nodup) (hc : c ≠ []) :
    ∃ s r, (x, s) ∈ sidesOf (x :: c) ∧ (r, x) ∈ sidesOf (x :: c) ∧ (s = r → c = [s]) := by
  cases c with
  | nil => exact absurd rfl hc
  | cons s c =>
    have hlast : ∃ d r, s :: c = d ++ [r] := ⟨_, _, (List.dropLast_append_getLast (List.cons_ne_nil s c)).symm⟩
    obtain ⟨d, r, hd⟩ := hlast
    refine ⟨s, r, ?_, ?_, ?_⟩
    · rw [sidesOf_cons]
      simp
    · rw [sidesOf_cons, hd, ← List.cons_append, List.zip_append (by simp)]
      simp
    · intro hsr
      subst hsr
      cases d with
      | nil =>
        rw [List.nil_append] at hd
        exact hd
      | cons y d =>
        rw [List.cons_append, List.cons.injEq] at hd
        have h2 := (List.nodup_cons.1 (List.nodup_cons.1 hn).2).1
        rw [hd.2] at h2
        simp at h2

/-- In a closed list of at least three items no item is both the next one and the one before. -/
theorem no_return {l : List α} (hn : l.Nodup) (h3 : 3 ≤ l.length) {a b : α} (h1 : (a, b) ∈ sidesOf l)
    (h2 : (b, a) ∈ sidesOf l) : False := by
  obtain ⟨k, c, hk⟩ := rotate_to_front (mem_sidesOf h1).1
  dsimp only at hk
  rw [← mem_sidesOf_rotate (k := k), hk, sidesOf_cons] at h1 h2
  have hn' : (a :: c).Nodup := by rw [← hk, List.nodup_rotate]; exact hn
  have hl : c.length + 1 = l.length := by
    have := congrArg List.length hk
    rw [List.length_rotate, List.length_cons] at this
    omega
  cases c with
  | nil => simp at hl; omega
  | cons y c =>
    obtain ⟨i, hi⟩ := List.mem_iff_getElem?.1 h1
    obtain ⟨j, hj⟩ := List.mem_iff_getElem?.1 h2
    rw [List.getElem?_zip_eq_some] at hi hj
    have hil := (List.getElem?_eq_some_iff.1 hi.1).1
    have hi0 : i = 0 := (List.getElem?_inj hil hn').1 (by rw [hi.1]; rfl)
    rw [hi0] at hi
    have hy : y = b := by simpa using hi.2
    subst hy
    have hjl := (List.getElem?_eq_some_iff.1 hj.1).1
    have hj1 : j = 1 := (List.getElem?_inj hjl hn').1 (by rw [hj.1]; rfl)
    rw [hj1] at hj
    cases c with
    | nil => simp at hl; omega
    | cons z c =>
      have hz : z = a := by simpa using hj.2
      subst hz
      simp at hn'

/-- In a closed list of at least two items consecutive items are different. -/
theorem side_ne {l : List α} (hn : l.Nodup) (h2 : 2 ≤ l.length) {e : α × α} (he : e ∈ sidesOf l) : e.1 ≠ e.2 := by
  obtain ⟨k, d, hk⟩ := rotate_to_front (mem_sidesOf he).1
  have he' : e ∈ sidesOf (e.1 :: d) := by rw [← hk, mem_sidesOf_rotate]; exact he
  have hn' : (e.1 :: d).Nodup := by rw [← hk, List.nodup_rotate]; exact hn
  have hl : d.length + 1 = l.length := by
    have := congrArg List.length hk
    rw [List.length_rotate, List.length_cons] at this
    omega
  rw [sidesOf_cons] at he'
  cases d with
  | nil => simp at hl; omega
  | cons y d =>
    obtain ⟨i, hi⟩ := List.mem_iff_getElem?.1 he'
    rw [List.getElem?_zip_eq_some] at hi
    have hil := (List.getElem?_eq_some_iff.1 hi.1).1
    have hi0 : i = 0 := (List.getElem?_inj hil hn').1 (by rw [hi.1]; rfl)
    rw [hi0] at hi
    have hy : y = e.2 := by simpa using hi.2
    intro heq
    rw [← hy] at heq
    rw [heq] at hn'
    simp at hn'

/-- Nothing is twice in the list of sides. -/
theorem sidesOf_nodup {l : List α} (hn : l.Nodup) : (sidesOf l).Nodup := by
  refine List.Nodup.of_map Prod.fst ?_
  unfold sidesOf
  rw [List.map_fst_zip (by simp)]
  exact hn

/-- In a graph without vertices of degree three a closed path through all vertices uses all edges. -/
theorem edge_in_cycle {R : α → α → Prop} (hd : Deg2 R) {l : List α} (hn : l.Nodup)
    (hl : ∀ e ∈ sidesOf l, R e.1 e.2) (hs : ∀ a b, R a b → R b a) {t u : α} (ht : t ∈ l) (hu : u ∈ l) (htu : t ≠ u)
    (hR : R t u) : (t, u) ∈ sidesOf l ∨ (u, t) ∈ sidesOf l := by
  obtain ⟨k, c, hk⟩ := rotate_to_front ht
  have hmem : ∀ e, e ∈ sidesOf (t :: c) ↔ e ∈ sidesOf l := fun e => by rw [← hk, mem_sidesOf_rotate]
  rw [← hmem, ← hmem]
  have hu' : u ∈ t :: c := by rw [← hk, List.mem_rotate]; exact hu
  have hn' : (t :: c).Nodup := by rw [← hk, List.nodup_rotate]; exact hn
  have hc : c ≠ [] := by
    rintro rfl
    exact htu (List.mem_singleton.1 hu').symm
  obtain ⟨s, r, h1, h2, h3⟩ := ends hn' hc
  rcases hd t s r u (hl _ ((hmem _).1 h1)) (hs _ _ (hl _ ((hmem _).1 h2))) hR with h | h | h
  · have := h3 h
    rw [this] at hu'
    simp only [List.mem_cons, List.not_mem_nil, or_false] at hu'
    rcases hu' with hu' | hu'
    · exact absurd hu'.symm htu
    · rw [hu']
      exact Or.inl h1
  · rw [← h]
    exact Or.inl h1
  · rw [← h]
    exact Or.inr h2

/-- In a graph without vertices of degree three there is at most one closed path through all vertices. -/
theorem cycles_same {R : α → α → Prop} (hd : Deg2 R) (hs : ∀ a b, R a b → R b a) {l m : List α} (hn : l.Nodup)
    (hp : m.Perm l) (hl : ∀ e ∈ sidesOf l, R e.1 e.2) (hm : ∀ e ∈ sidesOf m, R e.1 e.2) : SamePolygon l m := by
  cases m with
  | nil =>
    rw [List.nil_perm.1 hp]
    exact Or.inl (List.IsRotated.refl _)
  | cons x d =>
    obtain ⟨k, c, hk⟩ := rotate_to_front (hp.mem_iff.1 (List.mem_cons_self (a := x) (l := d)))
    have hperm : (x :: d).Perm (x :: c) := by
      rw [← hk]
      exact hp.trans (List.rotate_perm l k).symm
    have hl' : ∀ e ∈ sidesOf (x :: c), R e.1 e.2 := fun e he => by
      rw [← hk, mem_sidesOf_rotate] at he
      exact hl e he
    have hn' : (x :: c).Nodup := by rw [← hk, List.nodup_rotate]; exact hn
    have hdc : d.Perm c := hperm.cons_inv
    have hrot : (x :: c) ~r l := by rw [← hk]; exact List.IsRotated.forall l k
    rcases cycle_unique hs hd hdc.length_eq.symm (fun a ha => hdc.mem_iff.1 ha) hn' (hperm.nodup_iff.2 hn')
      ((sides_iff_chain x c).1 hl') ((sides_iff_chain x d).1 hm) with h | h
    · left
      rw [h]
      exact hrot
    · right
      have h1 : (x :: c).reverse ~r l.reverse := hrot.reverse
      have h2 : (x :: c.reverse) ~r (c.reverse ++ [x]) := ⟨1, by simp⟩
      rw [List.reverse_cons] at h1
      rw [h]
      exact h2.trans h1

theorem mapM_eq_some_iff_getElem {β : Type} {f : α → Option β} : ∀ {l : List α} {r : List β},
    l.mapM f = some r → l.length = r.length ∧ ∀ (i : ℕ) (a : α), l[i]? = some a → ∃ b, f a = some b ∧ r[i]? = some b
  | [], r, h => by
    rw [List.mapM_nil] at h
    cases h
    exact ⟨rfl, fun i a h => by simp at h⟩
  | a :: l, r, h => by
    rw [List.mapM_cons] at h
    cases hf : f a with
    | none => rw [hf] at h; cases h
    | some b =>
      cases hl : l.mapM f with
      | none => rw [hf, hl] at h; cases h
      | some r' =>
        rw [hf, hl] at h
        cases h
        obtain ⟨h1, h2⟩ := mapM_eq_some_iff_getElem hl
        refine ⟨by simp [h1], ?_⟩
        intro i x hx
        cases i with
        | zero =>
          simp at hx
          exact ⟨b, by rw [← hx]; exact hf, rfl⟩
        | succ i => exact h2 i x (by simpa using hx)

theorem mapM_iff_map {β : Type} {f : α → Option β} : ∀ {l : List α} {r : List β},
    l.mapM f = some r ↔ l.map f = r.map some
  | [], r => by
    rw [List.mapM_nil]
    cases r with
    | nil => simp
    | cons => simp
  | a :: l, r => by
    rw [List.mapM_cons]
    cases hf : f a with
    | none =>
      cases r with
      | nil => simp
      | cons => simp [hf]
    | some b =>
      cases r with
      | nil => cases hl : l.mapM f <;> simp [hl]
      | cons b' r =>
        have ih := mapM_iff_map (f := f) (l := l) (r := r)
        cases hl : l.mapM f with
        | none =>
          rw [hl] at ih
          simp only [List.map_cons, hf, List.cons.injEq, Option.some.injEq]
          constructor
          · intro h
            cases h
          · rintro ⟨_, h⟩
            exact absurd (ih.2 h) (by simp)
        | some r' =>
          rw [hl, Option.some.injEq] at ih
          simp only [List.map_cons, hf, List.cons.injEq, Option.some.injEq, ← ih]
          constructor
          · intro h
            simp only [bind, Option.bind_some, pure, Option.some.injEq, List.cons.injEq] at h
            exact h
          · rintro ⟨rfl, rfl⟩
            rfl

theorem mapM_rotate {β : Type} {f : α → Option β} {l : List α} {r : List β} (h : l.mapM f = some r) (k : ℕ) :
    (l.rotate k).mapM f = some (r.rotate k) := by
  rw [mapM_iff_map] at h ⊢
  rw [List.map_rotate, h, List.map_rotate]

theorem mapM_reverse {β : Type} {f : α → Option β} {l : List α} {r : List β} (h : l.mapM f = some r) :
    l.reverse.mapM f = some r.reverse := by
  rw [mapM_iff_map] at h ⊢
  rw [List.map_reverse, h, List.map_reverse]

theorem mapM_samePolygon {β : Type} {f : α → Option β} {l l' : List α} {r r' : List β} (hs : SamePolygon l l')
    (h : l.mapM f = some r) (h' : l'.mapM f = some r') : SamePolygon r r' := by
  rcases hs with hs | hs
  · obtain ⟨k, hk⟩ := hs.symm
    have := mapM_rotate h k
    rw [hk, h', Option.some.injEq] at this
    left
    rw [this]
    exact List.IsRotated.forall r k
  · obtain ⟨k, hk⟩ := hs.symm
    have := mapM_rotate (mapM_reverse h) k
    rw [hk, h', Option.some.injEq] at this
    right
    rw [this]
    exact List.IsRotated.forall r.reverse k

theorem mem_of_mapM {β : Type} {f : α → Option β} {l : List α} {r : List β} (h : l.mapM f = some r) {b : β} :
    b ∈ r ↔ ∃ a ∈ l, f a = some b := by
  obtain ⟨h1, h2⟩ := mapM_eq_some_iff_getElem h
  constructor
  · intro hb
    obtain ⟨i, hi, rfl⟩ := List.getElem_of_mem hb
    obtain ⟨b, h3, h4⟩ := h2 i l[i] (List.getElem?_eq_getElem (by omega))
    rw [List.getElem?_eq_getElem hi, Option.some.injEq] at h4
    exact ⟨l[i], List.getElem_mem (by omega), by rw [h4]; exact h3⟩
  · rintro ⟨a, ha, hf⟩
    obtain ⟨i, hi, rfl⟩ := List.getElem_of_mem ha
    obtain ⟨b', h3, h4⟩ := h2 i l[i] (List.getElem?_eq_getElem hi)
    rw [hf] at h3
    cases h3
    exact List.mem_of_getElem? h4

/-- What the arrangement returns. -/
theorem arranged_spec {items : List ℕ} {related : ℕ → ℕ → Bool} {l : List (ℕ × ℕ)}
    (h : arranged items related = some l) : (items.length < 2 → l = []) ∧ (2 ≤ items.length →
      ∃ c : List ℕ, l = sidesOf c ∧ c.Perm items ∧ ∀ e ∈ sidesOf c, related e.1 e.2 = true) := by
  unfold arranged at h
  cases hr : arrangeCyclicBy items related with
  | panic => rw [hr] at h; cases h
  | running => rw [hr] at h; cases h
  | done idx =>
    rw [hr] at h
    dsimp only at h
    constructor
    · intro hlt
      rw [(arrange_sound items related).1 hlt] at hr
      cases hr
      cases h
      rfl
    · intro hle
      obtain ⟨h1, h2, h3, h4, h5, h6⟩ := (arrange_sound items related).2.2 idx hr hle
      obtain ⟨g1, g2⟩ := mapM_eq_some_iff_getElem h
      -- the items in the order of the arrangement
      have hfst : ∀ (i : ℕ) (e : ℕ × ℕ), idx[i]? = some e → ∃ a b, items[e.1]? = some a ∧ items[e.2]? = some b ∧
          l[i]? = some (a, b) := by
        intro i e he
        obtain ⟨b, hb, hli⟩ := g2 i e he
        cases ha : items[e.1]? with
        | none => rw [ha] at hb; cases hb
        | some x =>
          cases hc : items[e.2]? with
          | none => rw [ha, hc] at hb; cases hb
          | some y =>
            rw [ha, hc] at hb
            cases hb
            exact ⟨x, y, rfl, rfl, hli⟩
      have hmap1 : (idx.map Prod.fst).map (fun i => items[i]?) = (l.map Prod.fst).map some := by
        rw [List.map_map, List.map_map]
        refine List.ext_getElem? ?_
        intro i
        rw [List.getElem?_map, List.getElem?_map]
        cases he : idx[i]? with
        | none =>
          have : l[i]? = none := by
            rw [List.getElem?_eq_none_iff] at he ⊢
            omega
          rw [this]
          rfl
        | some e =>
          obtain ⟨a, b, e1, e2, e3⟩ := hfst i e he
          rw [e3]
          simp [e1]
      have hmap2 : (idx.map Prod.snd).map (fun i => items[i]?) = (l.map Prod.snd).map some := by
        rw [List.map_map, List.map_map]
        refine List.ext_getElem? ?_
        intro i
        rw [List.getElem?_map, List.getElem?_map]
        cases he : idx[i]? with
        | none =>
          have : l[i]? = none := by
            rw [List.getElem?_eq_none_iff] at he ⊢
            omega
          rw [this]
          rfl
        | some e =>
          obtain ⟨a, b, e1, e2, e3⟩ := hfst i e he
          rw [e3]
          simp [e2]
      have hinj : Function.Injective (List.map (some : ℕ → Option ℕ)) :=
        List.map_injective_iff.2 (fun a b h => Option.some.inj h)
      have hl2 : l.map Prod.snd = (l.map Prod.fst).rotate 1 := by
        apply hinj
        rw [← hmap2, h5, List.map_rotate, hmap1, List.map_rotate]
      have hside : l = sidesOf (l.map Prod.fst) := by
        unfold sidesOf
        rw [← hl2]
        exact List.zip_of_prod rfl rfl
      refine ⟨l.map Prod.fst, hside, ?_, ?_⟩
      · have hp := h2.map (fun i => items[i]?)
        rw [hmap1] at hp
        have : (List.range items.length).map (fun i => items[i]?) = items.map some := by
          refine List.ext_getElem? ?_
          intro i
          rw [List.getElem?_map, List.getElem?_map]
          by_cases hi : i < items.length
          · rw [List.getElem?_range hi, List.getElem?_eq_getElem hi]
            simp [List.getElem?_eq_getElem hi]
          · rw [List.getElem?_eq_none (by simpa using hi), List.getElem?_eq_none (by simpa using hi)]
            rfl
        rw [this] at hp
        exact (List.map_perm_map_iff (fun a b h => Option.some.inj h)).1 hp
      · rw [← hside]
        intro e he
        obtain ⟨i, hi, rfl⟩ := List.getElem_of_mem he
        obtain ⟨a, b, e1, e2, e3⟩ := hfst i idx[i] (List.getElem?_eq_getElem (by omega))
        obtain ⟨_, x, y, f1, f2, f3⟩ := h6 idx[i] (List.getElem_mem (by omega))
        rw [f1] at e1
        rw [f2] at e2
        cases e1
        cases e2
        rw [List.getElem?_eq_getElem hi, Option.some.injEq] at e3
        rw [e3]
        exact f3

end Verif.Voronoi
