import Verif.Quadtree.Model
import Mathlib.Data.List.Perm.Basic

/-!
# Helper lemmas on tree construction
-/

namespace Verif.Quadtree

open Verif.Geometry

variable {n : ℕ} {E V L : Type}

/-- All particles stored in the leaves, in depth first order. -/
def QTree.stored (t : QTree n E L) : List L := t.leaves.flatMap (fun l => l.2)

/-- What the construction needs of the geometry. -/
structure Geom.Sound (g : Geom n E V) (ok : E → Prop) (mem : E → V → Prop) : Prop where
  cover : ∀ e v, ok e → mem e v → mem (g.quadrants e (g.index e v)) v
  ok_quadrant : ∀ e i, ok e → ok (g.quadrants e i)

theorem flatMap_update_perm (p : L) {is : List (Fin n)} (hnd : is.Nodup) (j : Fin n) (hj : j ∈ is)
    (f f' : Fin n → List L) (h : (f' j).Perm (p :: f j)) (h' : ∀ i, i ≠ j → f' i = f i) :
    (is.flatMap f').Perm (p :: is.flatMap f) := by
  induction is with
  | nil => simp at hj
  | cons a as ih =>
    rw [List.nodup_cons] at hnd
    rw [List.flatMap_cons, List.flatMap_cons]
    by_cases ha : a = j
    · subst ha
      have : as.flatMap f' = as.flatMap f := by
        rw [List.flatMap_def, List.flatMap_def]
        congr 1
        apply List.map_congr_left
        intro i hi
        exact h' i (fun e => hnd.1 (e ▸ hi))
      rw [this]
      exact h.append_right _
    · rw [h' a ha]
      have hj' : j ∈ as := by
        rcases List.mem_cons.1 hj with e | e
        · exact absurd e.symm ha
        · exact e
      exact ((ih hnd.2 hj').append_left (f a)).trans List.perm_middle

namespace QTree

@[simp] theorem stored_leaf (w : ℕ) (e : E) (ps : List L) :
    (leaf w e ps : QTree n E L).stored = ps := by simp [stored, leaves]

theorem stored_tree (w : ℕ) (e : E) (ch : Fin n → QTree n E L) :
    (tree w e ch).stored = (List.finRange n).flatMap fun i => (ch i).stored := by
  unfold stored
  rw [leaves, List.flatMap_assoc]

@[simp] theorem stored_updateWork (t : QTree n E L) : t.updateWork.stored = t.stored := by
  cases t <;> simp [updateWork, stored_tree]

@[simp] theorem extent_updateWork (t : QTree n E L) : t.updateWork.extent = t.extent := by
  cases t <;> rfl

@[simp] theorem work_updateWork (t : QTree n E L) : t.updateWork.work = t.work + 1 := by
  cases t <;> rfl

/-- The invariant of a node with `rem` levels below the depth limit, except for its own counter. -/
def Inner (g : Geom n E V) (pos : L → V) (ok : E → Prop) (mem : E → V → Prop) (maxLeaf : ℕ) :
    ℕ → QTree n E L → Prop
  | rem, leaf _ e ps => ok e ∧ (∀ p ∈ ps, mem e (pos p)) ∧ (0 < rem → ps.length ≤ maxLeaf + 1)
  | rem, tree _ e ch => ok e ∧ 0 < rem ∧ ∀ i, (ch i).extent = g.quadrants e i ∧
      (ch i).work = (ch i).stored.length ∧ Inner g pos ok mem maxLeaf (rem - 1) (ch i)

variable {g : Geom n E V} {pos : L → V} {ok : E → Prop} {mem : E → V → Prop} {maxLeaf : ℕ}

theorem Inner.updateWork {rem : ℕ} {t : QTree n E L} (h : Inner g pos ok mem maxLeaf rem t) :
    Inner g pos ok mem maxLeaf rem t.updateWork := by
  cases t <;> exact h

theorem Inner.extent_ok {rem : ℕ} {t : QTree n E L} (h : Inner g pos ok mem maxLeaf rem t) :
    ok t.extent := by
  cases t <;> exact h.1

/-- What one insertion does. -/
structure Inserted (g : Geom n E V) (pos : L → V) (ok : E → Prop) (mem : E → V → Prop)
    (maxLeaf rem : ℕ) (p : L) (t t' : QTree n E L) : Prop where
  inner : Inner g pos ok mem maxLeaf rem t'
  stored : t'.stored.Perm (p :: t.stored)
  extent : t'.extent = t.extent
  work : t'.work = t.work

theorem descend_inserted (hg : g.Sound ok mem) (rem : ℕ)
    (ih : ∀ (p : L) (t : QTree n E L), Inner g pos ok mem maxLeaf rem t → mem t.extent (pos p) →
      Inserted g pos ok mem maxLeaf rem p t (insert g pos maxLeaf rem p t))
    (p : L) (w : ℕ) (e : E) (ch : Fin n → QTree n E L)
    (hin : Inner g pos ok mem maxLeaf (rem + 1) (tree w e ch)) (hp : mem e (pos p)) :
    Inserted g pos ok mem maxLeaf (rem + 1) p (tree w e ch)
      (descend g pos (insert g pos maxLeaf rem) p (tree w e ch)) ∧
    ∃ ch', descend g pos (insert g pos maxLeaf rem) p (tree w e ch) = tree w e ch' := by
  obtain ⟨hok, hpos, hch⟩ := hin
  set j := g.index e (pos p) with hj
  have hchj := hch j
  have hI := ih p (ch j).updateWork hchj.2.2.updateWork (by
    rw [extent_updateWork, hchj.1]; exact hg.cover e _ hok hp)
  refine ⟨⟨?_, ?_, rfl, rfl⟩, ⟨_, rfl⟩⟩
  · show Inner g pos ok mem maxLeaf (rem + 1) (tree w e _)
    refine ⟨hok, hpos, ?_⟩
    intro i
    by_cases hij : i = j
    · subst hij
      rw [← hj, Function.update_self]
      refine ⟨?_, ?_, hI.inner⟩
      · rw [hI.extent, extent_updateWork]; exact hchj.1
      · rw [hI.work, work_updateWork, hI.stored.length_eq, List.length_cons, stored_updateWork,
          hchj.2.1]
    · rw [← hj, Function.update_of_ne hij]
      exact hch i
  · show (tree w e _).stored.Perm _
    rw [stored_tree, stored_tree]
    apply flatMap_update_perm p (List.nodup_finRange n) j (List.mem_finRange j)
    · show (Function.update ch (g.index e (pos p)) _ j).stored.Perm _
      rw [← hj, Function.update_self]
      exact hI.stored.trans (by rw [stored_updateWork])
    · intro i hij
      show (Function.update ch (g.index e (pos p)) _ i).stored = _
      rw [← hj, Function.update_of_ne hij]

theorem subdivide_inserted (hg : g.Sound ok mem) (rem : ℕ)
    (ih : ∀ (p : L) (t : QTree n E L), Inner g pos ok mem maxLeaf rem t → mem t.extent (pos p) →
      Inserted g pos ok mem maxLeaf rem p t (insert g pos maxLeaf rem p t))
    (ps : List L) : ∀ (w : ℕ) (e : E) (ch : Fin n → QTree n E L),
    Inner g pos ok mem maxLeaf (rem + 1) (tree w e ch) → (∀ p ∈ ps, mem e (pos p)) →
    ∃ ch', ps.foldl (fun t q => descend g pos (insert g pos maxLeaf rem) q t) (tree w e ch)
        = tree w e ch' ∧ Inner g pos ok mem maxLeaf (rem + 1) (tree w e ch') ∧
      (tree w e ch').stored.Perm (ps ++ (tree w e ch).stored) := by
  induction ps with
  | nil => intro w e ch h _; exact ⟨ch, rfl, h, List.Perm.refl _⟩
  | cons p ps ihp =>
    intro w e ch h hps
    obtain ⟨hI, ch1, h1⟩ := descend_inserted hg rem ih p w e ch h (hps p (by simp))
    rw [List.foldl_cons, h1]
    rw [h1] at hI
    obtain ⟨ch2, e2, i2, s2⟩ := ihp w e ch1 hI.inner (fun q hq => hps q (List.mem_cons_of_mem _ hq))
    refine ⟨ch2, e2, i2, s2.trans ?_⟩
    exact (hI.stored.append_left ps).trans List.perm_middle

theorem emptyTree_inner (hg : g.Sound ok mem) (rem w : ℕ) (e : E) (he : ok e) :
    Inner g pos ok mem maxLeaf (rem + 1)
      (tree w e (fun i => (emptyLeaf (g.quadrants e i) : QTree n E L))) := by
  refine ⟨he, Nat.succ_pos _, fun i => ⟨rfl, by simp [emptyLeaf, work], ?_⟩⟩
  exact ⟨hg.ok_quadrant e i he, by simp, by simp⟩

theorem insert_inserted (hg : g.Sound ok mem) : ∀ (rem : ℕ) (p : L) (t : QTree n E L),
    Inner g pos ok mem maxLeaf rem t → mem t.extent (pos p) →
    Inserted g pos ok mem maxLeaf rem p t (insert g pos maxLeaf rem p t) := by
  intro rem
  induction rem with
  | zero =>
    intro p t ht hp
    cases t with
    | leaf w e ps =>
      refine ⟨⟨ht.1, ?_, by simp⟩, ?_, rfl, rfl⟩
      · intro q hq
        rcases List.mem_append.1 hq with h | h
        · exact ht.2.1 q h
        · rw [List.mem_singleton.1 h]; exact hp
      · show (leaf w e (ps ++ [p]) : QTree n E L).stored.Perm _
        rw [stored_leaf, stored_leaf]
        exact List.perm_append_singleton p ps
    | tree w e ch => exact absurd ht.2.1 (lt_irrefl _)
  | succ rem ih =>
    intro p t ht hp
    cases t with
    | leaf w e ps =>
      unfold insert
      split
      · have h0 : Inner g pos ok mem maxLeaf (rem + 1)
            (tree w e (fun i => (emptyLeaf (g.quadrants e i) : QTree n E L))) :=
          emptyTree_inner hg rem w e ht.1
        obtain ⟨ch1, e1, i1, s1⟩ := subdivide_inserted hg rem ih ps w e _ h0 ht.2.1
        simp only
        rw [e1]
        obtain ⟨hI, _⟩ := descend_inserted hg rem ih p w e ch1 i1 hp
        refine ⟨hI.inner, ?_, hI.extent, hI.work⟩
        refine hI.stored.trans (List.Perm.cons p ?_)
        have hnil : (tree w e (fun i => (emptyLeaf (g.quadrants e i) : QTree n E L))).stored
            = [] := by
          rw [stored_tree]
          simp [emptyLeaf]
        rw [hnil, List.append_nil] at s1
        rw [stored_leaf]; exact s1
      · rename_i hlen
        refine ⟨⟨ht.1, ?_, ?_⟩, ?_, rfl, rfl⟩
        · intro q hq
          rcases List.mem_append.1 hq with h | h
          · exact ht.2.1 q h
          · rw [List.mem_singleton.1 h]; exact hp
        · intro _
          simp only [List.length_append, List.length_singleton]
          omega
        · rw [stored_leaf, stored_leaf]
          exact List.perm_append_singleton p ps
    | tree w e ch =>
      exact (descend_inserted hg rem ih p w e ch ht hp).1

/-- The invariant of the whole tree. -/
theorem new_spec (hg : g.Sound ok mem) (cfg : Config) (ps : List L) (e : E) (he : ok e)
    (hps : ∀ p ∈ ps, mem e (pos p)) :
    Inner g pos ok mem cfg.maxLeaf cfg.maxDepth (new g pos cfg ps e) ∧
    (new g pos cfg ps e).stored.Perm ps ∧ (new g pos cfg ps e).extent = e ∧
    (new g pos cfg ps e).work = ps.length := by
  have key : ∀ (qs : List L) (t : QTree n E L),
      Inner g pos ok mem cfg.maxLeaf cfg.maxDepth t → t.extent = e →
      (∀ p ∈ qs, mem e (pos p)) →
      let t' := qs.foldl (fun t p => insertNew g pos cfg.maxLeaf cfg.maxDepth p t) t
      Inner g pos ok mem cfg.maxLeaf cfg.maxDepth t' ∧ t'.stored.Perm (qs ++ t.stored) ∧
        t'.extent = e ∧ t'.work = qs.length + t.work := by
    intro qs
    induction qs with
    | nil => intro t h he _; exact ⟨h, List.Perm.refl _, he, by simp⟩
    | cons q qs ih =>
      intro t h hte hq
      have hI := insert_inserted hg cfg.maxDepth q t.updateWork h.updateWork
        (by rw [extent_updateWork, hte]; exact hq q (by simp))
      obtain ⟨a, b, c, f⟩ := ih (insertNew g pos cfg.maxLeaf cfg.maxDepth q t) hI.inner
        (by unfold insertNew; rw [hI.extent, extent_updateWork, hte])
        (fun p hp => hq p (List.mem_cons_of_mem _ hp))
      refine ⟨a, ?_, c, ?_⟩
      · refine b.trans ?_
        have hs : (insertNew g pos cfg.maxLeaf cfg.maxDepth q t).stored.Perm (q :: t.stored) := by
          have := hI.stored
          rwa [stored_updateWork] at this
        exact (hs.append_left qs).trans List.perm_middle
      · have : (insertNew g pos cfg.maxLeaf cfg.maxDepth q t).work = t.work + 1 := by
          unfold insertNew; rw [hI.work, work_updateWork]
        simp only [List.foldl_cons, List.length_cons] at f ⊢
        omega
  have h0 : Inner g pos ok mem cfg.maxLeaf cfg.maxDepth (emptyLeaf e : QTree n E L) :=
    ⟨he, by simp, by simp⟩
  have := key ps (emptyLeaf e) h0 rfl hps
  simpa [new, emptyLeaf, work] using this

end QTree

end Verif.Quadtree
