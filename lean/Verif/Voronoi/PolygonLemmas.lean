import Verif.Voronoi.Cell
import Verif.Voronoi.UtilsProps
import Mathlib.Algebra.BigOperators.Group.List.Basic
import Mathlib.Algebra.Order.BigOperators.Group.List
import Mathlib.Tactic.Ring
import Mathlib.Tactic.Linarith

/-! # Polygons: lemmas -/

namespace Verif.Voronoi

variable {α β : Type}

theorem mapM_getElem {l : List ℕ} {f : ℕ → Option β} {r : List β} (hl : l.length = r.length)
    (h : ∀ (i n : ℕ), l[i]? = some n → f n = r[i]?) : l.mapM f = some r := by
  induction l generalizing r with
  | nil =>
    cases r with
    | nil => rfl
    | cons => cases hl
  | cons a l ih =>
    cases r with
    | nil => cases hl
    | cons b r =>
      rw [List.mapM_cons, h 0 a rfl, ih (r := r) (by simpa using hl) fun i n hn => h (i + 1) n (by simpa using hn)]
      rfl

theorem mapWindows_eq (points : List α) (f : α → α → β) :
    mapWindows points f = some (if points.length < 2 then [] else points.zipWith f (points.rotate 1)) := by
  by_cases h : points.length < 2
  · rw [if_pos h, mapWindows, (windows_spec points).2 h]
    rfl
  · rw [if_neg h, mapWindows, (windows_spec points).1 (by omega)]
    dsimp only
    rw [List.mapM_map]
    refine mapM_getElem (by simp) ?_
    intro i n hn
    have hi : i < points.length := by
      have := (List.getElem?_eq_some_iff.1 hn).1
      simpa using this
    rw [List.getElem?_range hi] at hn
    cases hn
    have hm : (i + 1) % points.length < points.length := Nat.mod_lt _ (by omega)
    rw [Function.comp_apply, List.getElem?_zipWith, List.getElem?_rotate hi, List.getElem?_eq_getElem hi,
      List.getElem?_eq_getElem hm]
    rfl

/-- The sum of a function over the neighbouring items of a closed list. -/
def cyclicSum [AddMonoid β] (f : α → α → β) (l : List α) : β := (l.zipWith f (l.rotate 1)).sum

theorem cyclicSum_rotate [AddCommMonoid β] (f : α → α → β) (l : List α) (n : ℕ) :
    cyclicSum f (l.rotate n) = cyclicSum f l := by
  unfold cyclicSum
  rw [List.rotate_rotate, Nat.add_comm, ← List.rotate_rotate, ← List.zipWith_rotate_distrib _ _ _ _ (by simp)]
  exact (List.rotate_perm _ _).sum_eq

theorem zipWith_reverse {γ δ : Type} (f : α → γ → δ) : ∀ (l : List α) (m : List γ), l.length = m.length →
    l.reverse.zipWith f m.reverse = (l.zipWith f m).reverse := by
  intro l
  induction l with
  | nil => intro m _; simp
  | cons a l ih =>
    intro m h
    cases m with
    | nil => cases h
    | cons b m =>
      have hl : l.length = m.length := by simpa using h
      rw [List.reverse_cons, List.reverse_cons, List.zipWith_append (by simpa using hl), ih m hl]
      simp

theorem cyclicSum_reverse [AddCommMonoid β] (f : α → α → β) (l : List α) :
    cyclicSum f l.reverse = cyclicSum (fun a b => f b a) l := by
  cases hl : l with
  | nil => rfl
  | cons a m =>
    rw [← hl]
    have hpos : 0 < l.length := by rw [hl]; simp
    unfold cyclicSum
    rw [List.rotate_reverse, zipWith_reverse _ _ _ (by simp), List.sum_reverse]
    have h1 : (l.zipWith f (l.rotate (l.length - 1 % l.length))).sum =
        ((l.zipWith f (l.rotate (l.length - 1 % l.length))).rotate 1).sum :=
      (List.rotate_perm _ _).sum_eq.symm
    rw [h1, List.zipWith_rotate_distrib _ _ _ _ (by simp), List.rotate_rotate]
    have h2 : l.rotate (l.length - 1 % l.length + 1) = l := by
      by_cases h : l.length = 1
      · rw [List.length_eq_one_iff] at h
        obtain ⟨b, rfl⟩ := h
        simp
      · rw [Nat.mod_eq_of_lt (by omega), Nat.sub_add_cancel hpos, List.rotate_length]
    rw [h2, List.zipWith_comm]

theorem cyclicSum_add [AddCommMonoid β] (f g : α → α → β) (l : List α) :
    cyclicSum (fun a b => f a b + g a b) l = cyclicSum f l + cyclicSum g l := by
  unfold cyclicSum
  generalize l.rotate 1 = m
  induction l generalizing m with
  | nil => simp
  | cons a l ih =>
    cases m with
    | nil => simp
    | cons b m =>
      simp only [List.zipWith_cons_cons, List.sum_cons, ih]
      exact add_add_add_comm _ _ _ _

theorem zipWith_fst {γ δ : Type} (g : α → δ) : ∀ (l : List α) (m : List γ), l.length = m.length →
    l.zipWith (fun a _ => g a) m = l.map g := by
  intro l
  induction l with
  | nil => intro m _; simp
  | cons a l ih =>
    intro m h
    cases m with
    | nil => cases h
    | cons b m => simp [ih m (by simpa using h)]

theorem cyclicSum_telescope [AddCommGroup β] (g : α → β) (l : List α) :
    cyclicSum (fun a b => g b - g a) l = 0 := by
  have h := cyclicSum_add (fun a b => g b - g a) (fun a _ => g a) l
  simp only [sub_add_cancel] at h
  have h1 : cyclicSum (fun a _ => g a) l = (l.map g).sum := by
    unfold cyclicSum
    rw [zipWith_fst g _ _ (by simp)]
  have h2 : cyclicSum (fun _ b => g b) l = (l.map g).sum := by
    unfold cyclicSum
    rw [List.zipWith_comm, zipWith_fst g _ _ (by simp), List.map_rotate]
    exact (List.rotate_perm _ _).sum_eq
  rw [h1, h2] at h
  exact right_eq_add.1 h

theorem cyclicSum_small [AddCommMonoid β] {f : α → α → β} (hf : ∀ a, f a a = 0) {l : List α} (h : l.length < 2) :
    cyclicSum f l = 0 := by
  match l, h with
  | [], _ => rfl
  | [a], _ => simp [cyclicSum, hf]
  | _ :: _ :: _, h => simp at h

theorem mapWindows_sum [AddCommMonoid β] {f : α → α → β} (hf : ∀ a, f a a = 0) (l : List α) :
    (mapWindows l f).map List.sum = some (cyclicSum f l) := by
  rw [mapWindows_eq]
  by_cases h : l.length < 2
  · rw [if_pos h, cyclicSum_small hf h]
    rfl
  · rw [if_neg h]
    rfl

end Verif.Voronoi
