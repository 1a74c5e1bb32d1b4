import Verif.Geometry.Model

/-!
# The quad tree: model of `/repo/src/quadtree/mod.rs` and `/repo/src/quadtree/radius_search.rs`

The tree is generic in the number `n` of children (4 or 8), the type of extents and the two functions
of extents the construction uses; `Geom` bundles them, `geom2` and `geom3` are the two versions of
the code (`Verif.Geometry`).  Node data is the counter of `/repo/src/domain/quadtree.rs` lines 17-31
(`Work` is a float there, a natural number here).
-/

namespace Verif.Quadtree

open Verif.Geometry

/-- The functions of `Extent` the tree uses: `get_quadrant_index` and `get_quadrants`. -/
structure Geom (n : ℕ) (E V : Type) where
  index : E → V → Fin n
  quadrants : E → Fin n → E

/-- Two dimensions (`TWO_TO_NUM_DIMENSIONS = 4`), quadtree/mod.rs lines 11-16. -/
def geom2 {K : Type} [Field K] [LinearOrder K] : Geom 4 (Extent 2 K) (Vec 2 K) :=
  ⟨quadrantIndex2, quadrants2⟩

/-- Three dimensions (`TWO_TO_NUM_DIMENSIONS = 8`), quadtree/mod.rs lines 13-16. -/
def geom3 {K : Type} [Field K] [LinearOrder K] : Geom 8 (Extent 3 K) (Vec 3 K) :=
  ⟨quadrantIndex3, quadrants3⟩

/-- `struct QuadTreeConfig`, quadtree/config.rs lines 5-17. -/
structure Config where
  maxDepth : ℕ
  maxLeaf : ℕ

/-- `struct QuadTree` with `enum Node`, quadtree/mod.rs lines 29-33 and 54-59. -/
inductive QTree (n : ℕ) (E L : Type) where
  | leaf (work : ℕ) (extent : E) (particles : List L)
  | tree (work : ℕ) (extent : E) (children : Fin n → QTree n E L)

namespace QTree
variable {n : ℕ} {E V L : Type}

/-- The field `data`. -/
def work : QTree n E L → ℕ
  | leaf w _ _ => w
  | tree w _ _ => w

/-- The field `extent`. -/
def extent : QTree n E L → E
  | leaf _ e _ => e
  | tree _ e _ => e

/-- `self.data.update_with(..)`, domain/quadtree.rs lines 27-31. -/
def updateWork : QTree n E L → QTree n E L
  | leaf w e ps => leaf (w + 1) e ps
  | tree w e ch => tree (w + 1) e ch

/-- `make_empty_leaf_from_extent`, quadtree/mod.rs lines 100-106. -/
def emptyLeaf (e : E) : QTree n E L := leaf 0 e []

/-- The second half of `insert`, quadtree/mod.rs lines 84-87: nothing for a leaf, otherwise
`insert_new` into the child of the quadrant.  `ins` is `insert` at depth plus one. -/
def descend (g : Geom n E V) (pos : L → V) (ins : L → QTree n E L → QTree n E L) (p : L) :
    QTree n E L → QTree n E L
  | leaf w e ps => leaf w e ps
  | tree w e ch =>
    tree w e (Function.update ch (g.index e (pos p))
      (ins p (ch (g.index e (pos p))).updateWork))

/-- `insert_new` when `depth ≥ max_depth`: no leaf is subdivided, quadtree/mod.rs lines 70-88. -/
def insertNewAtLimit (g : Geom n E V) (pos : L → V) (p : L) : QTree n E L → QTree n E L
  | leaf w e ps => leaf (w + 1) e (ps ++ [p])
  | tree w e ch =>
    tree (w + 1) e (Function.update ch (g.index e (pos p))
      (insertNewAtLimit g pos p (ch (g.index e (pos p)))))

/-- `insert`, quadtree/mod.rs lines 75-88, with `subdivide`, lines 90-98, in place.  The first
argument is `max_depth - depth` (zero if `depth ≥ max_depth`), which decreases in every recursive
call, so that the definition is total.  `subdivide` replaces the leaf by a tree node with empty
leaves and calls `insert` for each old particle, which for a tree node is `descend`; then the new
particle is inserted in the same way. -/
def insert (g : Geom n E V) (pos : L → V) (maxLeaf : ℕ) :
    ℕ → L → QTree n E L → QTree n E L
  | 0, p, leaf w e ps => leaf w e (ps ++ [p])
  | 0, p, tree w e ch =>
    tree w e (Function.update ch (g.index e (pos p))
      (insertNewAtLimit g pos p (ch (g.index e (pos p)))))
  | rem + 1, p, leaf w e ps =>
    if ps.length > maxLeaf then
      let subdivided := ps.foldl (fun t q => descend g pos (insert g pos maxLeaf rem) q t)
        (tree w e (fun i => emptyLeaf (g.quadrants e i)))
      descend g pos (insert g pos maxLeaf rem) p subdivided
    else leaf w e (ps ++ [p])
  | rem + 1, p, tree w e ch => descend g pos (insert g pos maxLeaf rem) p (tree w e ch)

/-- `insert_new`, quadtree/mod.rs lines 70-73. -/
def insertNew (g : Geom n E V) (pos : L → V) (maxLeaf rem : ℕ) (p : L) (t : QTree n E L) :
    QTree n E L :=
  insert g pos maxLeaf rem p t.updateWork

/-- `QuadTree::new`, quadtree/mod.rs lines 62-68. -/
def new (g : Geom n E V) (pos : L → V) (cfg : Config) (particles : List L) (e : E) :
    QTree n E L :=
  particles.foldl (fun t p => insertNew g pos cfg.maxLeaf cfg.maxDepth p t) (emptyLeaf e)

/-- `depth_first_map_leaf`, quadtree/mod.rs lines 108-119: the arguments of the calls of the closure,
in order. -/
def leaves : QTree n E L → List (E × List L)
  | leaf _ e ps => [(e, ps)]
  | tree _ _ ch => (List.finRange n).flatMap fun i => (ch i).leaves

end QTree

/-! ## The iterator -/

variable {n : ℕ} {E V L : Type}

/-- `struct StackItem`, radius_search.rs lines 64-68. -/
structure StackItem (n : ℕ) (E L : Type) where
  tree : QTree n E L
  posInParent : ℕ
  shouldBeVisited : Bool

/-- `trait SearchCriterion`, radius_search.rs lines 172-175. -/
structure Criterion (n : ℕ) (E L : Type) where
  visit : QTree n E L → Bool
  included : L → Bool

/-- `struct TreeIter`, radius_search.rs lines 80-84; the top of the stack is the head of the list. -/
structure TreeIter (n : ℕ) (E L : Type) where
  stack : List (StackItem n E L)
  leafPos : ℕ

/-- `get_stack_item_for_new_tree`, radius_search.rs lines 98-109. -/
def stackItem (c : Criterion n E L) (t : QTree n E L) (posInParent : ℕ) : StackItem n E L :=
  { tree := t, posInParent := posInParent, shouldBeVisited := c.visit t }

/-- `TreeIter::new`, radius_search.rs lines 87-96. -/
def TreeIter.new (c : Criterion n E L) (t : QTree n E L) : TreeIter n E L :=
  { stack := [stackItem c t 0], leafPos := 0 }

/-- Result of one pass through the loop in `next`. -/
inductive Outcome (n : ℕ) (E L : Type) where
  /-- `next` returns `None`. -/
  | done
  /-- `next` returns `Some(l)`. -/
  | found (l : L) (s : TreeIter n E L)
  /-- The loop continues. -/
  | again (s : TreeIter n E L)
  /-- `unwrap_tree` on a leaf, or an index out of range. -/
  | panic

/-- The end of `goto_next_node`, radius_search.rs lines 130-140: the top item, which was child number
`posInParent`, has been popped and `below` is the remaining stack; go to the next child on this
level, or up one level. -/
def goUp (c : Criterion n E L) (leafPos posInParent : ℕ) (below : List (StackItem n E L)) :
    Outcome n E L :=
  match below with
  | [] => .done
  | parent :: _ =>
    if h : posInParent + 1 < n then
      match parent.tree with
      | .tree _ _ ch =>
        .again {
          stack := stackItem c (ch ⟨posInParent + 1, h⟩) (posInParent + 1) :: below
          leafPos := leafPos }
      | .leaf _ _ _ => .panic
    else .again { stack := below, leafPos := leafPos }

/-- `goto_next_node`, radius_search.rs lines 115-141. -/
def gotoNextNode (c : Criterion n E L) (s : TreeIter n E L) : Outcome n E L :=
  match s.stack with
  | [] => .done
  | last :: below =>
    match last.shouldBeVisited, last.tree with
    | true, .tree _ _ ch =>
      if h : 0 < n then
        .again { s with
          stack := stackItem c (ch ⟨0, h⟩) 0 :: { last with shouldBeVisited := false } :: below }
      else .panic
    | _, _ => goUp c s.leafPos last.posInParent below

/-- One pass through the loop of `TreeIter::next`, radius_search.rs lines 152-169. -/
def TreeIter.step (c : Criterion n E L) (s : TreeIter n E L) : Outcome n E L :=
  match s.stack with
  | ⟨.leaf _ _ ps, _, true⟩ :: _ =>
    match ps[s.leafPos]? with
    | some l =>
      if c.included l then .found l { s with leafPos := s.leafPos + 1 }
      else .again { s with leafPos := s.leafPos + 1 }
    | none => gotoNextNode c { s with leafPos := 0 }
  | _ => gotoNextNode c s

/-- The iterator, started in state `s`, ends after finitely many loop passes without panicking and
has produced the items of the list. -/
inductive Yields (c : Criterion n E L) : TreeIter n E L → List L → Prop where
  | done {s} : s.step c = .done → Yields c s []
  | again {s s' out} : s.step c = .again s' → Yields c s' out → Yields c s out
  | found {s s' l out} : s.step c = .found l s' → Yields c s' out → Yields c s (l :: out)

/-- `EntireTree`, radius_search.rs lines 177-187. -/
def entireTree : Criterion n E L := { visit := fun _ => true, included := fun _ => true }

open Classical in
/-- `PeriodicRadiusSearch`, radius_search.rs lines 196-220. -/
noncomputable def radiusSearch {d : ℕ} (loc : L → Vec d ℝ) (box : Extent d ℝ) (q : Vec d ℝ)
    (radius : ℝ) : Criterion n (Extent d ℝ) L :=
  { visit := fun t => decide (boundingBoxesOverlapPeriodic box t.extent.center
      t.extent.sideLengths q (fun _ => 1 * radius))
    included := fun l => decide (withinRadiusPeriodic box q (loc l) radius) }

end Verif.Quadtree
