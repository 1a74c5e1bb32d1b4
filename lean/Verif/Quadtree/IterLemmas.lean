import Verif.Quadtree.BuildLemmas

/-!
# Helper lemmas on the tree iterator
-/

namespace Verif.Quadtree

variable {n : ℕ} {E V L : Type}

/-- The particles in visited leaves (below visited nodes) that are included, in depth first order. -/
def QTree.reached (c : Criterion n E L) : QTree n E L → List L
  | .leaf w e ps => if c.visit (.leaf w e ps) then ps.filter c.included else []
  | .tree w e ch => if c.visit (.tree w e ch) then
      (List.finRange n).flatMap fun i => (ch i).reached c else []

/-- What remains to be produced after a loop pass. -/
def After (c : Criterion n E L) (o : Outcome n E L) (out : List L) : Prop :=
  match o with
  | .done => out = []
  | .again s => Yields c s out
  | .found _ _ => False
  | .panic => False

theorem After.yields {c : Criterion n E L} {s : TreeIter n E L} {out : List L} {o : Outcome n E L}
    (hs : s.step c = o) (h : After c o out) : Yields c s out := by
  cases o with
  | done => cases h; exact .done hs
  | again s' => exact .again hs h
  | found _ _ => exact h.elim
  | panic => exact h.elim

theorem leaf_yields (c : Criterion n E L) (w : ℕ) (e : E) (ps : List L) (k : ℕ)
    (below : List (StackItem n E L)) (out : List L) (hafter : After c (goUp c 0 k below) out) :
    ∀ (m j : ℕ), ps.length - j = m →
    Yields c ⟨⟨.leaf w e ps, k, true⟩ :: below, j⟩ ((ps.drop j).filter c.included ++ out) := by
  intro m
  induction m with
  | zero =>
    intro j hj
    have hlen : ps.length ≤ j := by omega
    rw [List.drop_eq_nil_of_le hlen]
    refine After.yields ?_ hafter
    have hn : ps[j]? = none := List.getElem?_eq_none hlen
    unfold TreeIter.step
    simp only [hn]
    rfl
  | succ m ih =>
    intro j hj
    have hlt : j < ps.length := by omega
    have hs : ps[j]? = some ps[j] := List.getElem?_eq_getElem hlt
    have ih := ih (j + 1) (by omega)
    rw [List.drop_eq_getElem_cons hlt]
    by_cases hi : c.included ps[j]
    · rw [List.filter_cons_of_pos hi, List.cons_append]
      refine .found ?_ ih
      unfold TreeIter.step
      simp only [hs, hi, if_true]
    · rw [List.filter_cons_of_neg hi]
      refine .again ?_ ih
      unfold TreeIter.step
      simp only [hs, hi]
      rfl

theorem node_yields (hn : 0 < n) (c : Criterion n E L) (t : QTree n E L) :
    ∀ (k : ℕ) (below : List (StackItem n E L)) (out : List L),
    After c (goUp c 0 k below) out →
    Yields c ⟨stackItem c t k :: below, 0⟩ (t.reached c ++ out) := by
  induction t with
  | leaf w e ps =>
    intro k below out hafter
    unfold stackItem QTree.reached
    by_cases hv : c.visit (.leaf w e ps)
    · rw [if_pos hv, hv]
      have := leaf_yields c w e ps k below out hafter _ 0 rfl
      simpa using this
    · rw [if_neg hv]
      have hv' : c.visit (.leaf w e ps) = false := by simpa using hv
      rw [hv']
      exact After.yields rfl hafter
  | tree w e ch ih =>
    intro k below out hafter
    by_cases hv : c.visit (.tree w e ch)
    swap
    · have hv' : c.visit (.tree w e ch) = false := by simpa using hv
      unfold stackItem QTree.reached
      rw [if_neg hv, hv']
      exact After.yields rfl hafter
    have hchild : ∀ (m j : ℕ) (hj : j < n), n - j = m →
        Yields c ⟨stackItem c (ch ⟨j, hj⟩) j :: ⟨.tree w e ch, k, false⟩ :: below, 0⟩
          (((List.finRange n).drop j).flatMap (fun i => (ch i).reached c) ++ out) := by
      intro m
      induction m with
      | zero => intro j hj h; omega
      | succ m ihm =>
        intro j hj hm
        have hl : j < (List.finRange n).length := by simpa using hj
        rw [List.drop_eq_getElem_cons hl, List.flatMap_cons, List.append_assoc]
        have hget : (List.finRange n)[j] = ⟨j, hj⟩ := by simp
        rw [hget]
        apply ih
        by_cases hj1 : j + 1 < n
        · have e1 : goUp c 0 j (⟨.tree w e ch, k, false⟩ :: below) =
              .again ⟨stackItem c (ch ⟨j + 1, hj1⟩) (j + 1) :: ⟨.tree w e ch, k, false⟩ :: below,
                0⟩ := by
            unfold goUp
            simp only [hj1, dif_pos]
          rw [e1]
          exact ihm (j + 1) hj1 (by omega)
        · have e1 : goUp c 0 j (⟨.tree w e ch, k, false⟩ :: below) =
              .again ⟨⟨.tree w e ch, k, false⟩ :: below, 0⟩ := by
            unfold goUp
            simp only [hj1, dif_neg, not_false_iff]
          rw [e1]
          have hd : (List.finRange n).drop (j + 1) = [] := by
            apply List.drop_eq_nil_of_le; simp; omega
          rw [hd]
          exact After.yields rfl hafter
    have h0 := hchild n 0 hn (by omega)
    rw [List.drop_zero] at h0
    unfold QTree.reached
    rw [if_pos hv]
    refine .again ?_ h0
    unfold stackItem
    rw [hv]
    unfold TreeIter.step gotoNextNode
    simp only [hn, dif_pos]
    rfl

theorem new_yields (hn : 0 < n) (c : Criterion n E L) (t : QTree n E L) :
    Yields c (TreeIter.new c t) (t.reached c) := by
  have := node_yields hn c t 0 [] [] rfl
  simpa [TreeIter.new] using this

theorem Yields.unique {c : Criterion n E L} {s : TreeIter n E L} {a b : List L}
    (ha : Yields c s a) (hb : Yields c s b) : a = b := by
  induction ha generalizing b with
  | done h =>
    cases hb with
    | done h' => rfl
    | again h' _ => rw [h] at h'; cases h'
    | found h' _ => rw [h] at h'; cases h'
  | again h _ ih =>
    cases hb with
    | done h' => rw [h] at h'; cases h'
    | again h' hb' => rw [h] at h'; cases h'; exact ih hb'
    | found h' _ => rw [h] at h'; cases h'
  | found h _ ih =>
    cases hb with
    | done h' => rw [h] at h'; cases h'
    | again h' _ => rw [h] at h'; cases h'
    | found h' hb' => rw [h] at h'; cases h'; rw [ih hb']

/-- If a skipped node contains no included particle, the iterator gives all included particles. -/
theorem reached_eq (c : Criterion n E L) (t : QTree n E L)
    (P : QTree n E L → Prop) (hP : ∀ w e ch, P (.tree w e ch) → ∀ i, P (ch i))
    (hskip : ∀ s, P s → c.visit s = false → ∀ p ∈ s.stored, c.included p = false) (ht : P t) :
    t.reached c = t.stored.filter c.included := by
  induction t with
  | leaf w e ps =>
    unfold QTree.reached
    rw [QTree.stored_leaf]
    by_cases hv : c.visit (.leaf w e ps)
    · rw [if_pos hv]
    · rw [if_neg hv]
      symm
      rw [List.filter_eq_nil_iff]
      intro p hp
      have := hskip _ ht (by simpa using hv) p (by rw [QTree.stored_leaf]; exact hp)
      simp [this]
  | tree w e ch ih =>
    unfold QTree.reached
    by_cases hv : c.visit (.tree w e ch)
    · rw [if_pos hv, QTree.stored_tree, List.filter_flatMap]
      rw [List.flatMap_def, List.flatMap_def]
      congr 1
      apply List.map_congr_left
      intro i _
      exact ih i (hP _ _ _ ht i)
    · rw [if_neg hv]
      symm
      rw [List.filter_eq_nil_iff]
      intro p hp
      have := hskip _ ht (by simpa using hv) p hp
      simp [this]

end Verif.Quadtree
