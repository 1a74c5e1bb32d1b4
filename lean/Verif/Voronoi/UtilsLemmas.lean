import Verif.Voronoi.Utils
import Mathlib.Data.List.Rotate
import Mathlib.Data.List.Perm.Subperm
import Mathlib.Data.List.Nodup
import Mathlib.Data.List.Range
import Mathlib.Data.List.Chain

/-! # Cyclic arrangement: lemmas -/

namespace Verif.Voronoi

theorem collect_finished {σ β : Type} {next : σ → Next σ β} {s : σ} (h : next s = .finished) (k : ℕ) :
    collect next k s = .done [] := by
  cases k <;> (unfold collect; rw [h])

theorem collect_panic {σ β : Type} {next : σ → Next σ β} {s : σ} (h : next s = .panic) (k : ℕ) :
    collect next k s = .panic := by
  cases k <;> (unfold collect; rw [h])

theorem collect_item {σ β : Type} {next : σ → Next σ β} {s s' : σ} {b : β} (h : next s = .item b s') (k : ℕ) :
    collect next (k + 1) s = (collect next k s').cons b := by
  rw [collect, h]

/-! ### Windows -/

theorem windows_collect {n : ℕ} (hn : 2 ≤ n) (k : ℕ) (hk : k ≤ n) :
    collect (windowsNext n) k (n - k) = .done ((List.range' (n - k) k).map fun i => (i, (i + 1) % n)) := by
  induction k with
  | zero =>
    refine collect_finished ?_ 0
    unfold windowsNext
    rw [if_neg (by omega), if_pos (by omega)]
  | succ k ih =>
    have he : n - (k + 1) + 1 = n - k := by omega
    have h : windowsNext n (n - (k + 1)) = .item (n - (k + 1), (n - (k + 1) + 1) % n) (n - (k + 1) + 1) := by
      unfold windowsNext
      rw [if_neg (by omega), if_neg (by omega)]
      by_cases h : n - (k + 1) = n - 1
      · rw [if_pos h, h, Nat.sub_add_cancel (by omega), Nat.mod_self]
      · rw [if_neg h, Nat.mod_eq_of_lt (by omega)]
    rw [collect_item h, he, ih (by omega)]
    simp only [Collected.cons, List.range'_succ, List.map_cons]
    rw [he]

/-! ### Paths in a graph in which every vertex has at most two neighbours -/

/-- No item has three related items. -/
def Deg2 {α : Type} (R : α → α → Prop) : Prop :=
  ∀ a b c d, R a b → R a c → R a d → b = c ∨ b = d ∨ c = d

theorem path_unique {α : Type} {R : α → α → Prop} (hs : ∀ a b, R a b → R b a) (hd : Deg2 R) (p q : List α) :
    ∀ a b, p.length = q.length → (a :: b :: p).Nodup → (a :: b :: q).Nodup → (a :: b :: p).IsChain R →
      (a :: b :: q).IsChain R → p = q := by
  induction p generalizing q with
  | nil =>
    intro a b hl _ _ _ _
    exact (List.length_eq_zero_iff.1 hl.symm).symm
  | cons z p ih =>
    intro a b hl hnp hnq hcp hcq
    cases q with
    | nil => cases hl
    | cons w q =>
      simp only [List.isChain_cons_cons] at hcp hcq
      have hzw : z = w := by
        rcases hd b a z w (hs _ _ hcp.1) hcp.2.1 hcq.2.1 with h | h | h
        · subst h
          simp at hnp
        · subst h
          simp at hnq
        · exact h
      subst hzw
      rw [ih q b z (by simpa using hl) (List.nodup_cons.1 hnp).2 (List.nodup_cons.1 hnq).2
        (by simp only [List.isChain_cons_cons]; exact hcp.2) (by simp only [List.isChain_cons_cons]; exact hcq.2)]

/-- Two closed paths through the same items are the same up to the starting point and the direction. -/
theorem cycle_unique {α : Type} {R : α → α → Prop} (hs : ∀ a b, R a b → R b a) (hd : Deg2 R) {x : α} {c d : List α}
    (hl : c.length = d.length) (hsub : ∀ a ∈ d, a ∈ c) (hc : (x :: c).Nodup) (hdn : (x :: d).Nodup) (hcc : (x :: (c ++ [x])).IsChain R)
    (hcd : (x :: (d ++ [x])).IsChain R) : d = c ∨ d = c.reverse := by
  cases d with
  | nil => left; exact (List.length_eq_zero_iff.1 hl).symm
  | cons y d =>
    cases c with
    | nil => cases hl
    | cons c0 c =>
      have hRy : R x y := by
        rw [List.cons_append, List.isChain_cons_cons] at hcd
        exact hcd.1
      have hR0 : R x c0 := by
        rw [List.cons_append, List.isChain_cons_cons] at hcc
        exact hcc.1
      have hcd' : (x :: y :: d).IsChain R := by
        rw [← List.cons_append] at hcd
        exact hcd.left_of_append
      by_cases h0 : y = c0
      · left
        subst h0
        have hcc' : (x :: y :: c).IsChain R := by
          rw [← List.cons_append] at hcc
          exact hcc.left_of_append
        rw [path_unique hs hd d c x y (by simpa using hl.symm) hdn hc hcd' hcc']
      · right
        have hrev : ((x :: (c0 :: c ++ [x])).reverse).IsChain R := by
          rw [List.isChain_reverse]
          exact hcc.imp fun a b h => hs a b h
        rw [show (x :: (c0 :: c ++ [x])).reverse = x :: ((c0 :: c).reverse ++ [x]) by simp] at hrev
        cases hr : (c0 :: c).reverse with
        | nil => simp at hr
        | cons w r =>
          rw [hr] at hrev
          have hRw : R x w := by
            rw [List.cons_append, List.isChain_cons_cons] at hrev
            exact hrev.1
          have hlr : (c0 :: c).length = (w :: r).length := by rw [← hr, List.length_reverse]
          have hnr : (x :: w :: r).Nodup := by
            rw [← hr, List.nodup_cons, List.mem_reverse, List.nodup_reverse]
            exact List.nodup_cons.1 hc
          have hyw : y = w := by
            rcases hd x c0 y w hR0 hRy hRw with h | h | h
            · exact absurd h.symm h0
            · -- the first and the last item coincide, so there is only one
              exfalso
              have hrr : c0 :: c = r.reverse ++ [w] := by
                rw [← List.reverse_reverse (c0 :: c), hr, List.reverse_cons]
              cases hr2 : r.reverse with
              | nil =>
                rw [hr2, List.nil_append, List.cons.injEq] at hrr
                have := hsub y List.mem_cons_self
                rw [hrr.2] at this
                exact h0 (List.mem_singleton.1 this)
              | cons a r' =>
                rw [hr2, List.cons_append, List.cons.injEq] at hrr
                have : c0 ∈ c := by
                  rw [hrr.2, h]
                  exact List.mem_append.2 (Or.inr (List.mem_singleton.2 rfl))
                exact (List.nodup_cons.1 (List.nodup_cons.1 hc).2).1 this
            · exact h
          subst hyw
          have hrev' : (x :: y :: r).IsChain R := by
            rw [← List.cons_append] at hrev
            exact hrev.left_of_append
          rw [path_unique hs hd d r x y (by simp at hl hlr; omega) hdn hnr hcd' hrev']

/-! ### The arrangement -/

/-- What an arrangement starting at `x` does which has visited `v`. -/
theorem cyclic_sound {n : ℕ} {rel : ℕ → ℕ → Bool} (hn : 2 ≤ n) (k : ℕ) :
    ∀ (v : List ℕ) (x : ℕ), v.length + k = n → 0 < k → (x :: v).Nodup → (∀ i ∈ x :: v, i < n) →
    collect (cyclicNext n rel) k ⟨v, x⟩ = .panic ∨ ∃ c, collect (cyclicNext n rel) k ⟨v, x⟩ =
        .done ((x :: c).zip (c ++ [0])) ∧ (x :: c ++ v).Nodup ∧ (∀ i ∈ c, i < n) ∧ c.length + 1 = k ∧
        (x :: (c ++ [0])).IsChain (fun a b => rel a b = true) := by
  induction k with
  | zero => exact fun _ _ _ h => absurd h (Nat.lt_irrefl 0)
  | succ k ih =>
    intro v x hl _ hnd hlt
    by_cases hlast : v.length = n - 1
    · have hk : k = 0 := by omega
      subst hk
      by_cases hr : rel x 0 = true
      · right
        have h : cyclicNext n rel ⟨v, x⟩ = .item (x, 0) ⟨x :: v, x⟩ := by
          unfold cyclicNext
          dsimp only
          rw [if_neg (by omega), if_pos hlast, if_pos hr]
        have h' : cyclicNext n rel ⟨x :: v, x⟩ = .finished := by
          unfold cyclicNext
          dsimp only
          rw [if_pos (by rw [List.length_cons]; omega)]
        refine ⟨[], ?_, by simpa using hnd, by simp, rfl, by simpa using hr⟩
        rw [collect_item h, collect_finished h']
        rfl
      · left
        refine collect_panic ?_ _
        unfold cyclicNext
        dsimp only
        rw [if_neg (by omega), if_pos hlast, if_neg hr]
    · cases hf : (List.range n).find? fun i => decide (i ≠ x) && !v.contains i && rel x i with
      | none =>
        left
        refine collect_panic ?_ _
        unfold cyclicNext
        dsimp only
        rw [if_neg (by omega), if_neg hlast, hf]
      | some i =>
        have h : cyclicNext n rel ⟨v, x⟩ = .item (x, i) ⟨x :: v, i⟩ := by
          unfold cyclicNext
          dsimp only
          rw [if_neg (by omega), if_neg hlast, hf]
        have hi := List.find?_some hf
        have hin : i < n := List.mem_range.1 (List.mem_of_find?_eq_some hf)
        simp only [Bool.and_eq_true, decide_eq_true_eq, Bool.not_eq_true', List.contains_eq_mem,
          decide_eq_false_iff_not] at hi
        have hnd' : (i :: x :: v).Nodup := by
          rw [List.nodup_cons]
          refine ⟨?_, hnd⟩
          rw [List.mem_cons]
          rintro (h | h)
          · exact hi.1.1 h
          · exact hi.1.2 h
        have hlt' : ∀ j ∈ i :: x :: v, j < n := by
          intro j hj
          rcases List.mem_cons.1 hj with rfl | hj
          · exact hin
          · exact hlt j hj
        rw [collect_item h]
        rcases ih (x :: v) i (by rw [List.length_cons]; omega) (by omega) hnd' hlt' with h1 | ⟨c, h1, h2, h3, h4, h5⟩
        · left
          rw [h1]
          rfl
        · right
          refine ⟨i :: c, ?_, ?_, ?_, ?_, ?_⟩
          · rw [h1]
            rfl
          · have : (i :: c ++ x :: v).Perm (x :: (i :: c) ++ v) := List.perm_middle
            exact this.nodup_iff.1 h2
          · intro j hj
            rcases List.mem_cons.1 hj with rfl | hj
            · exact hin
            · exact h3 j hj
          · rw [List.length_cons, h4]
          · rw [List.cons_append, List.isChain_cons_cons]
            exact ⟨hi.2, h5⟩

/-- The arrangement follows a path once it has taken the first step. -/
theorem cyclic_follows {n : ℕ} {rel : ℕ → ℕ → Bool} (hn : 2 ≤ n)
    (hs : ∀ a b, a < n → b < n → a ≠ b → rel a b = true → rel b a = true)
    (hd : ∀ a b c d, a < n → b < n → c < n → d < n → a ≠ b → a ≠ c → a ≠ d → rel a b = true → rel a c = true →
      rel a d = true → b = c ∨ b = d ∨ c = d) (p : List ℕ) :
    ∀ (v : List ℕ) (a x : ℕ), a ∈ v → (x :: p ++ v).Perm (List.range n) → rel a x = true →
    (x :: (p ++ [0])).IsChain (fun a b => rel a b = true) →
    collect (cyclicNext n rel) (p.length + 1) ⟨v, x⟩ = .done ((x :: p).zip (p ++ [0])) := by
  induction p with
  | nil =>
    intro v a x ha hp hax hch
    have hlen : v.length + 1 = n := by
      have := hp.length_eq
      simpa using this
    have h : cyclicNext n rel ⟨v, x⟩ = .item (x, 0) ⟨x :: v, x⟩ := by
      unfold cyclicNext
      dsimp only
      rw [if_neg (by omega), if_pos (by omega), if_pos (by simpa using hch)]
    have h' : cyclicNext n rel ⟨x :: v, x⟩ = .finished := by
      unfold cyclicNext
      dsimp only
      rw [if_pos (by rw [List.length_cons]; omega)]
    rw [List.length_nil, collect_item h, collect_finished h']
    rfl
  | cons z p ih =>
    intro v a x ha hp hax hch
    have hlen : v.length + p.length + 2 = n := by
      have := hp.length_eq
      simp at this
      omega
    have hnd : (x :: (z :: p) ++ v).Nodup := hp.nodup_iff.2 List.nodup_range
    have hmem : ∀ i, i ∈ x :: (z :: p) ++ v ↔ i < n := fun i => by rw [hp.mem_iff, List.mem_range]
    rw [List.cons_append, List.isChain_cons_cons] at hch
    have hax' : a ≠ x := by
      rintro rfl
      rw [List.cons_append, List.nodup_cons] at hnd
      exact hnd.1 (List.mem_append.2 (Or.inr ha))
    have hz : z ≠ x ∧ z ∉ v := by
      constructor
      · rintro rfl
        simp at hnd
      · intro h
        rw [List.cons_append, List.nodup_cons, List.cons_append, List.nodup_cons] at hnd
        exact hnd.2.1 (List.mem_append.2 (Or.inr h))
    have hxn : x < n := (hmem x).1 (by simp)
    have hzn : z < n := (hmem z).1 (by simp)
    have han : a < n := (hmem a).1 (List.mem_append.2 (Or.inr ha))
    have hf : (List.range n).find? (fun i => decide (i ≠ x) && !v.contains i && rel x i) = some z := by
      cases hf : (List.range n).find? (fun i => decide (i ≠ x) && !v.contains i && rel x i) with
      | none =>
        have := List.find?_eq_none.1 hf z (List.mem_range.2 hzn)
        simp [hz.1, hz.2, hch.1] at this
      | some i =>
        have hi := List.find?_some hf
        have hin : i < n := List.mem_range.1 (List.mem_of_find?_eq_some hf)
        simp only [Bool.and_eq_true, decide_eq_true_eq, Bool.not_eq_true', List.contains_eq_mem,
          decide_eq_false_iff_not] at hi
        rcases hd x a z i hxn han hzn hin (Ne.symm hax') (Ne.symm hz.1) (Ne.symm hi.1.1)
          (hs a x han hxn hax' hax) hch.1 hi.2 with h | h | h
        · rw [← h] at hz
          exact absurd ha hz.2
        · rw [← h] at hi
          exact absurd ha hi.1.2
        · rw [h]
    have h : cyclicNext n rel ⟨v, x⟩ = .item (x, z) ⟨x :: v, z⟩ := by
      unfold cyclicNext
      dsimp only
      rw [if_neg (by omega), if_neg (by omega), hf]
    rw [List.length_cons, collect_item h, ih (x :: v) x z List.mem_cons_self ?_ hch.1 hch.2]
    · rfl
    · have : (z :: p ++ x :: v).Perm (x :: (z :: p) ++ v) := List.perm_middle
      exact this.trans hp

end Verif.Voronoi
