import Verif.Voronoi.CycleLemmas
import Mathlib.Dynamics.PeriodicPts.Lemmas

/-! # Closed lists from a successor relation: lemmas -/

namespace Verif.Voronoi

theorem getElem_sidesOf {α : Type} {l : List α} {a b : α} : (a, b) ∈ sidesOf l ↔
    ∃ i, ∃ h : i < l.length, l[i] = a ∧ l[(i + 1) % l.length]'(Nat.mod_lt _ (by omega)) = b := by
  unfold sidesOf
  rw [List.mem_iff_getElem]
  constructor
  · rintro ⟨i, h, e⟩
    rw [List.getElem_zip, Prod.mk.injEq] at e
    rw [List.length_zip, List.length_rotate, Nat.min_self] at h
    refine ⟨i, h, e.1, ?_⟩
    rw [← e.2, List.getElem_rotate]
  · rintro ⟨i, h, e1, e2⟩
    refine ⟨i, by rw [List.length_zip, List.length_rotate, Nat.min_self]; exact h, ?_⟩
    rw [List.getElem_zip, List.getElem_rotate, e1, e2]

theorem mem_sidesOf_reverse {α : Type} {l : List α} {a b : α} : (a, b) ∈ sidesOf l.reverse ↔ (b, a) ∈ sidesOf l := by
  have key : ∀ {l : List α} {a b : α}, (a, b) ∈ sidesOf l.reverse → (b, a) ∈ sidesOf l := by
    intro l a b h
    obtain ⟨i, hi, e1, e2⟩ := getElem_sidesOf.1 h
    rw [List.getElem_reverse] at e1 e2
    rw [List.length_reverse] at hi
    have hm : (i + 1) % l.length < l.length := Nat.mod_lt _ (by omega)
    refine getElem_sidesOf.2 ⟨l.length - 1 - (i + 1) % l.length, by omega, ?_, ?_⟩
    · rw [← e2]
      congr 1
      rw [List.length_reverse]
    · rw [← e1]
      congr 1
      rcases Nat.lt_or_ge (i + 1) l.length with h1 | h1
      · rw [Nat.mod_eq_of_lt h1, Nat.mod_eq_of_lt (by omega)]
        omega
      · have h2 : i + 1 = l.length := by omega
        rw [h2, Nat.mod_self, Nat.sub_zero, Nat.sub_add_cancel (by omega), Nat.mod_self]
        omega
  refine ⟨key, fun h => key ?_⟩
  rw [List.reverse_reverse]
  exact h

/-- A relation in which every item has one successor and at most one predecessor, and in which all items hang
together, is a cycle. -/
theorem cycle_of_next {α : Type} {items : List α} (hn : items.Nodup) {R : α → α → Prop}
    (htot : ∀ t ∈ items, ∃ u ∈ items, R t u) (hfun : ∀ t u v, R t u → R t v → u = v)
    (hinj : ∀ t u v, R t v → R u v → t = u) {t0 : α} (h0 : t0 ∈ items)
    (hconn : ∀ S : Set α, t0 ∈ S → (∀ t ∈ S, t ∈ items) → (∀ t ∈ S, ∀ u ∈ items, R t u → u ∈ S) →
      (∀ t ∈ S, ∀ u ∈ items, R u t → u ∈ S) → ∀ t ∈ items, t ∈ S) :
    ∃ c : List α, c.Perm items ∧ ∀ t u, (t, u) ∈ sidesOf c ↔ t ∈ items ∧ R t u := by
  classical
  choose! f hf1 hf2 using htot
  have : Finite {t // t ∈ items} := (List.finite_toSet items).to_subtype
  let g : {t // t ∈ items} → {t // t ∈ items} := fun t => ⟨f t.1, hf1 t.1 t.2⟩
  have ginj : Function.Injective g := by
    intro a b h
    have h' : f a.1 = f b.1 := congrArg Subtype.val h
    apply Subtype.ext
    exact hinj _ _ (f a.1) (hf2 a.1 a.2) (by rw [h']; exact hf2 b.1 b.2)
  let i0 : {t // t ∈ items} := ⟨t0, h0⟩
  set n := Function.minimalPeriod g i0 with hnd
  have hnpos : 0 < n := Function.minimalPeriod_pos_of_mem_periodicPts (ginj.mem_periodicPts i0)
  have hper : g^[n] i0 = i0 := Function.iterate_minimalPeriod
  let c : List α := (List.range n).map fun k => (g^[k] i0).1
  have hlen : c.length = n := by simp [c]
  have hcn : c.Nodup := by
    apply List.Nodup.map_on _ List.nodup_range
    intro a ha b hb h
    rw [List.mem_range] at ha hb
    exact Function.iterate_injOn_Iio_minimalPeriod ha hb (Subtype.ext h)
  have hmemc : ∀ k, (g^[k] i0).1 ∈ c := by
    intro k
    refine List.mem_map.2 ⟨k % n, List.mem_range.2 (Nat.mod_lt _ hnpos), ?_⟩
    rw [Function.iterate_mod_minimalPeriod_eq]
  have hall : ∀ t ∈ items, t ∈ c := by
    apply hconn {t | t ∈ c}
    · exact hmemc 0
    · rintro t ht
      obtain ⟨k, _, rfl⟩ := List.mem_map.1 ht
      exact (g^[k] i0).2
    · rintro t ht u _ hR
      obtain ⟨k, _, rfl⟩ := List.mem_map.1 ht
      have : u = (g^[k + 1] i0).1 := by
        rw [Function.iterate_succ_apply']
        exact hfun _ _ _ hR (hf2 _ (g^[k] i0).2)
      rw [this]
      exact hmemc _
    · rintro t ht u hu hR
      obtain ⟨k, _, rfl⟩ := List.mem_map.1 ht
      have hk : (g^[k] i0) = g (g^[k + n - 1] i0) := by
        rw [← Function.iterate_succ_apply' g, Nat.succ_eq_add_one, Nat.sub_add_cancel (by omega),
          Function.iterate_add_apply, hper]
      have : u = (g^[k + n - 1] i0).1 := by
        refine hinj _ _ (g^[k] i0).1 hR ?_
        rw [hk]
        exact hf2 _ (g^[k + n - 1] i0).2
      rw [this]
      exact hmemc _
  have hperm : c.Perm items := by
    rw [List.perm_ext_iff_of_nodup hcn hn]
    intro t
    refine ⟨fun ht => ?_, hall t⟩
    obtain ⟨k, _, rfl⟩ := List.mem_map.1 ht
    exact (g^[k] i0).2
  have hside : ∀ t u, (t, u) ∈ sidesOf c → R t u := by
    intro t u h
    obtain ⟨i, hi, e1, e2⟩ := getElem_sidesOf.1 h
    simp only [c, List.getElem_map, List.getElem_range] at e1 e2
    have e3 : (g^[(i + 1) % c.length] i0) = g^[i + 1] i0 := by
      rw [hlen, Function.iterate_mod_minimalPeriod_eq]
    have e2' : (g^[(i + 1) % c.length] i0).1 = u := e2
    rw [e3, Function.iterate_succ_apply'] at e2'
    rw [← e1, ← e2']
    exact hf2 _ (g^[i] i0).2
  refine ⟨c, hperm, fun t u => ⟨fun h => ⟨hperm.mem_iff.1 (mem_sidesOf h).1, hside t u h⟩, ?_⟩⟩
  rintro ⟨ht, hR⟩
  obtain ⟨i, hi, e⟩ := List.mem_iff_getElem.1 (hall t ht)
  have hi' : (i + 1) % c.length < c.length := Nat.mod_lt _ (by omega)
  have hs : (t, c[(i + 1) % c.length]) ∈ sidesOf c := getElem_sidesOf.2 ⟨i, hi, e, rfl⟩
  rw [hfun _ _ _ hR (hside _ _ hs)]
  exact hs

/-- The arrangement of a cycle succeeds. -/
theorem arranged_of_cycle {items c : List ℕ} {related : ℕ → ℕ → Bool} (hn : items.Nodup) (h2 : 2 ≤ items.length)
    (hp : c.Perm items) (hr : ∀ t ∈ items, ∀ u ∈ items, t ≠ u →
      (related t u = true ↔ (t, u) ∈ sidesOf c ∨ (u, t) ∈ sidesOf c)) :
    ∃ l, arranged items related = some l := by
  have hlen : c.length = items.length := hp.length_eq
  have hcn : c.Nodup := hp.nodup_iff.2 hn
  have hidx : ∀ t ∈ items, items[items.idxOf t]? = some t := by
    intro t ht
    rw [List.getElem?_eq_getElem (List.idxOf_lt_length_iff.2 ht)]
    simp
  have hcyc : SingleCycle items related (c.map items.idxOf) := by
    constructor
    · have h1 := hp.map items.idxOf
      refine h1.trans ?_
      rw [List.perm_ext_iff_of_nodup]
      · intro i
        rw [List.mem_map, List.mem_range]
        constructor
        · rintro ⟨t, ht, rfl⟩
          exact List.idxOf_lt_length_iff.2 ht
        · intro hi
          exact ⟨items[i], List.getElem_mem hi, hn.idxOf_getElem i hi⟩
      · apply List.Nodup.map_on _ hn
        intro a ha b hb h
        exact (List.idxOf_inj ha).1 h
      · exact List.nodup_range
    · intro a b i j t u ha hb hi hj hab
      rw [List.getElem?_map] at ha hb
      obtain ⟨t', ha', rfl⟩ := Option.map_eq_some_iff.1 ha
      obtain ⟨u', hb', rfl⟩ := Option.map_eq_some_iff.1 hb
      obtain ⟨la, ea⟩ := List.getElem?_eq_some_iff.1 ha'
      obtain ⟨lb, eb⟩ := List.getElem?_eq_some_iff.1 hb'
      have ht' : t' ∈ items := hp.mem_iff.1 (ea ▸ List.getElem_mem la)
      have hu' : u' ∈ items := hp.mem_iff.1 (eb ▸ List.getElem_mem lb)
      rw [hidx t' ht', Option.some.injEq] at hi
      rw [hidx u' hu', Option.some.injEq] at hj
      subst hi hj
      have hne : t' ≠ u' := by
        rw [← ea, ← eb]
        exact fun e => hab (hcn.getElem_inj_iff.1 e)
      rw [hr t' ht' u' hu' hne, getElem_sidesOf, getElem_sidesOf]
      have key : ∀ {a b : ℕ} {t u : ℕ} (la : a < c.length) (lb : b < c.length), c[a] = t → c[b] = u →
          ((∃ i, ∃ h : i < c.length, c[i] = t ∧ c[(i + 1) % c.length]'(Nat.mod_lt _ (by omega)) = u) ↔
            (a + 1) % items.length = b) := by
        intro a b t u la lb ea eb
        constructor
        · rintro ⟨i, h, e1, e2⟩
          rw [← ea, hcn.getElem_inj_iff] at e1
          subst e1
          rw [← eb, hcn.getElem_inj_iff, hlen] at e2
          exact e2
        · intro h
          refine ⟨a, la, ea, ?_⟩
          rw [← eb]
          congr 1
          rw [hlen]
          exact h
      rw [key la lb ea eb, key lb la eb ea]
  obtain ⟨l, hl, _⟩ := arrange_follows_cycle h2 hcyc
  unfold arranged
  rw [hl]
  dsimp only
  have hs := (arrange_sound items related).2.2 l hl h2
  obtain ⟨h1, h3, h4, h5, h6, h7⟩ := hs
  have : ∀ e ∈ l, ∃ b, ((items[e.1]?).bind fun a => (items[e.2]?).map fun b => (a, b)) = some b := by
    intro e he
    obtain ⟨_, x, y, f1, f2, _⟩ := h7 e he
    exact ⟨(x, y), by rw [f1, f2]; rfl⟩
  clear * - this
  induction l with
  | nil => exact ⟨[], rfl⟩
  | cons e l ih =>
    obtain ⟨r, hr⟩ := ih fun e he => this e (List.mem_cons_of_mem _ he)
    obtain ⟨b, hb⟩ := this e List.mem_cons_self
    exact ⟨b :: r, by rw [List.mapM_cons, hb, hr]; rfl⟩

end Verif.Voronoi
