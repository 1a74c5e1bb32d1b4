import Verif.Quadtree.IterLemmas
import Verif.Geometry.BoxProps

/-!
# The quad tree: properties
-/

namespace Verif.Quadtree

open Verif.Geometry

/-! ## Specification -/

section Spec
variable {n d : ℕ} {E L K : Type} [Field K] [LinearOrder K]

/-- `NodeAt t k s`: the tree `t` has the node `s` at depth `k`. -/
inductive NodeAt : QTree n E L → ℕ → QTree n E L → Prop where
  | root (t) : NodeAt t 0 t
  | child {w e ch i k s} : NodeAt (ch i) k s → NodeAt (.tree w e ch) (k + 1) s

/-- All particles in the leaves of a tree, as seen through `depth_first_map_leaf`. -/
def contents (t : QTree n E L) : List L := t.leaves.flatMap (fun l => l.2)

/-- What a correctly built tree satisfies. -/
structure CorrectTree (pos : L → Vec d K) (cfg : Config) (ps : List L) (e : Extent d K)
    (t : QTree n (Extent d K) L) : Prop where
  /-- Every particle is in exactly one leaf, and nothing else is. -/
  contents : (contents t).Perm ps
  /-- The particles of a leaf are in the box of the leaf. -/
  inside : ∀ l ∈ t.leaves, ∀ p ∈ l.2, l.1.contains (pos p)
  /-- The box of every node is part of the box of the tree. -/
  nested : ∀ k s, NodeAt t k s → ∀ v, s.extent.contains v → e.contains v
  /-- The counter of every node is the number of particles below. -/
  counts : ∀ k s, NodeAt t k s → s.work = (Quadtree.contents s).length
  /-- The depth limit is respected. -/
  depth : ∀ k s, NodeAt t k s → k ≤ cfg.maxDepth
  /-- Leaves above the depth limit hold at most one particle more than the configured maximum. -/
  leafSize : ∀ k w e qs, NodeAt t k (.leaf w e qs) → k < cfg.maxDepth → qs.length ≤ cfg.maxLeaf + 1

end Spec

/-! ## C20: construction -/

section Construction
variable {n d : ℕ} {L K : Type} [Field K] [LinearOrder K] [IsStrictOrderedRing K]

/-- A box whose centre is its midpoint. -/
private def Proper (e : Extent d K) : Prop :=
  ∀ i, e.min i ≤ e.max i ∧ e.center i = (e.min i + e.max i) / 2

private theorem Proper.between {e : Extent d K} (h : Proper e) (i : Fin d) :
    e.min i ≤ e.center i ∧ e.center i ≤ e.max i := by
  obtain ⟨h1, h2⟩ := h i
  rw [h2]; constructor <;> linarith

private theorem proper_fromMinMax {lo hi : Vec d K} (h : ∀ i, lo i ≤ hi i) :
    Proper (fromMinMax lo hi) := fun i => ⟨h i, rfl⟩

private theorem sound3 : (geom3 (K := K)).Sound Proper Extent.contains where
  cover := fun e v he hv => (quadrants3_cover e he.between v hv).1
  ok_quadrant := by
    intro e k he i
    have h0 := he.between 0; have h1 := he.between 1; have h2 := he.between 2
    fin_cases k <;> fin_cases i <;> simp [geom3, quadrants3, fromMinMax] <;> linarith

private theorem sound2 : (geom2 (K := K)).Sound Proper Extent.contains where
  cover := fun e v he hv => (quadrants2_cover e he.between v hv).1
  ok_quadrant := by
    intro e k he i
    have h0 := he.between 0; have h1 := he.between 1
    fin_cases k <;> fin_cases i <;> simp [geom2, quadrants2, fromMinMax] <;> linarith

private theorem correct_of_inner (g : Geom n (Extent d K) (Vec d K))
    (hg : g.Sound Proper Extent.contains)
    (hsub : ∀ e : Extent d K, Proper e → ∀ k q, (g.quadrants e k).contains q → e.contains q)
    (pos : L → Vec d K) (cfg : Config) (ps : List L) (e : Extent d K) (he : Proper e)
    (hps : ∀ p ∈ ps, e.contains (pos p)) :
    CorrectTree pos cfg ps e (QTree.new g pos cfg ps e) := by
  obtain ⟨hin, hst, hex, hw⟩ := QTree.new_spec (pos := pos) hg cfg ps e he hps
  have hinside : ∀ (t : QTree n (Extent d K) L) rem,
      QTree.Inner g pos Proper Extent.contains cfg.maxLeaf rem t →
      ∀ l ∈ t.leaves, ∀ p ∈ l.2, l.1.contains (pos p) := by
    intro t
    induction t with
    | leaf w e qs =>
      intro rem h l hl p hp
      simp only [QTree.leaves, List.mem_singleton] at hl
      subst hl
      exact h.2.1 p hp
    | tree w e ch ih =>
      intro rem h l hl p hp
      simp only [QTree.leaves, List.mem_flatMap] at hl
      obtain ⟨i, _, hl⟩ := hl
      exact ih i (rem - 1) (h.2.2 i).2.2 l hl p hp
  have hnode : ∀ t k s, NodeAt t k s → ∀ rem,
      QTree.Inner g pos Proper Extent.contains cfg.maxLeaf rem t →
      t.work = (contents t).length →
      k ≤ rem ∧ QTree.Inner g pos Proper Extent.contains cfg.maxLeaf (rem - k) s ∧
        s.work = (contents s).length ∧ (∀ v, s.extent.contains v → t.extent.contains v) := by
    intro t k s h
    induction h with
    | root t => intro rem hi hw; exact ⟨Nat.zero_le _, hi, hw, fun v hv => hv⟩
    | @child w e ch i k s _ ih =>
      intro rem hi hw
      obtain ⟨he, hpos, hch⟩ := hi
      obtain ⟨a, b, c, f⟩ := ih (rem - 1) (hch i).2.2 (hch i).2.1
      refine ⟨by omega, ?_, c, ?_⟩
      · rw [show rem - (k + 1) = rem - 1 - k by omega]; exact b
      · intro v hv
        have := f v hv
        rw [(hch i).1] at this
        exact hsub e he i v this
  have hw' : (QTree.new g pos cfg ps e).work = (contents (QTree.new g pos cfg ps e)).length := by
    rw [hw]; exact hst.length_eq.symm
  refine ⟨hst, hinside _ _ hin, ?_, ?_, ?_, ?_⟩
  · intro k s h v hv
    have := (hnode _ k s h _ hin hw').2.2.2 v hv
    rwa [hex] at this
  · intro k s h
    exact (hnode _ k s h _ hin hw').2.2.1
  · intro k s h
    exact (hnode _ k s h _ hin hw').1
  · intro k w e' qs h hk
    exact (hnode _ k _ h _ hin hw').2.1.2.2 (by omega)

/-- **C20** (3d).  `QuadTree::new` for particles inside the given box. -/
theorem octree_construction_correct (pos : L → Vec 3 K) (cfg : Config) (ps : List L)
    (lo hi : Vec 3 K) (hbox : ∀ i, lo i ≤ hi i) (hps : ∀ p ∈ ps, InBox lo hi (pos p)) :
    CorrectTree pos cfg ps (fromMinMax lo hi)
      (QTree.new geom3 pos cfg ps (fromMinMax lo hi)) :=
  correct_of_inner geom3 sound3
    (fun e he k q hq =>
      (quadrants3_cover e he.between e.center (fun i => he.between i)).2 k q hq)
    pos cfg ps _ (proper_fromMinMax hbox) hps

/-- **C20** (2d). -/
theorem quadtree_construction_correct (pos : L → Vec 2 K) (cfg : Config) (ps : List L)
    (lo hi : Vec 2 K) (hbox : ∀ i, lo i ≤ hi i) (hps : ∀ p ∈ ps, InBox lo hi (pos p)) :
    CorrectTree pos cfg ps (fromMinMax lo hi)
      (QTree.new geom2 pos cfg ps (fromMinMax lo hi)) :=
  correct_of_inner geom2 sound2
    (fun e he k q hq =>
      (quadrants2_cover e he.between e.center (fun i => he.between i)).2 k q hq)
    pos cfg ps _ (proper_fromMinMax hbox) hps

end Construction

/-- **C20** (limit).  The bound `maxLeaf + 1` is attained: with `max_num_particles_per_leaf = 1` and a
depth limit of 20, two particles stay in one leaf at depth zero, one more than the configuration
documents. -/
theorem leaf_exceeds_documented_maximum :
    ∃ w e qs, NodeAt (QTree.new geom2 id ⟨20, 1⟩ [![1/4, 1/4], ![3/4, 3/4]]
        (fromMinMax ![0, 0] ![1, 1] : Extent 2 ℚ)) 0 (.leaf w e qs) ∧ 1 < qs.length :=
  ⟨2, fromMinMax ![0, 0] ![1, 1], [![1/4, 1/4], ![3/4, 3/4]], .root _, by decide⟩

/-- Five particles, two of them equal, with one particle per leaf: the tree has four levels, the
hypotheses of the construction theorem hold. -/
example : (∀ i, (![0, 0] : Vec 2 ℚ) i ≤ ![1, 1] i) ∧
    (∀ p ∈ ([![1/4, 1/4], ![3/4, 3/4], ![3/4, 3/4], ![1, 1], ![1/2, 0]] : List (Vec 2 ℚ)),
      ∀ i, (![0, 0] : Vec 2 ℚ) i ≤ p i ∧ p i ≤ (![1, 1] : Vec 2 ℚ) i) ∧
    ((QTree.new geom2 id ⟨3, 1⟩ [![1/4, 1/4], ![3/4, 3/4], ![3/4, 3/4], ![1, 1], ![1/2, 0]]
        (fromMinMax ![0, 0] ![1, 1] : Extent 2 ℚ)).leaves.map fun l => l.2.length)
      = [1, 1, 0, 0, 0, 0, 2, 0, 0, 1] := by
  decide +kernel

/-! ## C21: radius search -/

section Search
variable {L : Type}

/-- **C21** (plain iteration).  `iter` visits all particles exactly once in depth first order, and
ends. -/
theorem iter_visits_everything {n : ℕ} (hn : 0 < n) {E : Type} (t : QTree n E L) (out : List L) :
    Yields entireTree (TreeIter.new entireTree t) out ↔ out = contents t := by
  have hr : t.reached entireTree = contents t := by
    rw [reached_eq entireTree t (fun _ => True) (fun _ _ _ _ _ => trivial)
      (fun s _ h => by simp [entireTree] at h) trivial]
    show List.filter (fun _ => true) _ = _
    rw [List.filter_true]; rfl
  have h := new_yields hn entireTree t
  rw [hr] at h
  constructor
  · intro h'; exact h'.unique h
  · intro h'; rw [h']; exact h

private theorem prune_sound {n d : ℕ} (g : Geom n (Extent d ℝ) (Vec d ℝ))
    (hsub : ∀ e : Extent d ℝ, Proper e → ∀ k q, (g.quadrants e k).contains q → e.contains q)
    (pos : L → Vec d ℝ)
    (maxLeaf : ℕ) (box : Extent d ℝ) (hbox : ∀ i, box.min i < box.max i) (q : Vec d ℝ) (r : ℝ)
    (s : QTree n (Extent d ℝ) L) (rem : ℕ)
    (hs : QTree.Inner g pos Proper Extent.contains maxLeaf rem s)
    (hv : (radiusSearch pos box q r).visit s = false) :
    ∀ p ∈ s.stored, (radiusSearch (n := n) pos box q r).included p = false := by
  have hinside : ∀ (t : QTree n (Extent d ℝ) L) rem,
      QTree.Inner g pos Proper Extent.contains maxLeaf rem t →
      ∀ p ∈ t.stored, t.extent.contains (pos p) := by
    intro t
    induction t with
    | leaf w e qs => intro rem h p hp; rw [QTree.stored_leaf] at hp; exact h.2.1 p hp
    | tree w e ch ih =>
      intro rem h p hp
      rw [QTree.stored_tree, List.mem_flatMap] at hp
      obtain ⟨i, _, hp⟩ := hp
      have := ih i (rem - 1) (h.2.2 i).2.2 p hp
      rw [(h.2.2 i).1] at this
      exact hsub e h.1 i _ this
  intro p hp
  have hpe := hinside s rem hs p hp
  have hprop : Proper s.extent := hs.extent_ok
  simp only [radiusSearch, decide_eq_false_iff_not] at hv ⊢
  intro hin
  apply hv
  intro i
  have hL : 0 < box.sideLengths i := by
    have := hbox i; unfold Extent.sideLengths; linarith
  have hc : |minimizeComponent (q i - pos p i) (box.sideLengths i)| < r :=
    lt_of_le_of_lt (component_le_length (periodicDistanceVec box q (pos p)) i) hin
  rw [← abs_neg, ← minimize_neg _ _ hL, neg_sub] at hc
  obtain ⟨w, hw⟩ := minimize_eq (pos p i - q i) (box.sideLengths i)
  have hle := minimize_le (s.extent.center i - q i) (box.sideLengths i) hL w
  rw [hw] at hc
  have hc := abs_lt.1 hc
  have hpi := hpe i
  have hce := (hprop i).2
  refine hle.trans (abs_le.2 ?_)
  show -((s.extent.max i - s.extent.min i) + 1 * r) ≤ _ ∧
    _ ≤ (s.extent.max i - s.extent.min i) + 1 * r
  rw [hce]
  constructor <;> linarith

open Classical in
private theorem search_perm {n d : ℕ} (hn : 0 < n) (g : Geom n (Extent d ℝ) (Vec d ℝ))
    (hg : g.Sound Proper Extent.contains)
    (hsub : ∀ e : Extent d ℝ, Proper e → ∀ k q, (g.quadrants e k).contains q → e.contains q)
    (pos : L → Vec d ℝ) (cfg : Config) (ps : List L) (e : Extent d ℝ) (he : Proper e)
    (hps : ∀ p ∈ ps, e.contains (pos p)) (box : Extent d ℝ) (hbox : ∀ i, box.min i < box.max i)
    (q : Vec d ℝ) (r : ℝ) :
    ∃ out, Yields (radiusSearch pos box q r)
        (TreeIter.new (radiusSearch pos box q r) (QTree.new g pos cfg ps e)) out ∧
      out.Perm (ps.filter fun p => decide (periodicDistance box q (pos p) < r)) := by
  obtain ⟨hin, hst, _, _⟩ := QTree.new_spec (pos := pos) hg cfg ps e he hps
  refine ⟨_, new_yields hn _ _, ?_⟩
  rw [reached_eq (radiusSearch pos box q r) (QTree.new g pos cfg ps e)
    (fun s => ∃ rem, QTree.Inner g pos Proper Extent.contains cfg.maxLeaf rem s)]
  · exact hst.filter _
  · rintro w e ch ⟨rem, h⟩ i
    exact ⟨rem - 1, (h.2.2 i).2.2⟩
  · rintro s ⟨rem, h⟩ hv
    exact prune_sound g hsub pos cfg.maxLeaf box hbox q r s rem h hv
  · exact ⟨_, hin⟩

open Classical in
/-- **C21** (3d).  For every particle list inside the box of the tree, every search centre (also
outside of the box) and every radius, the search ends and its results are, up to order, exactly the
particles with periodic distance strictly below the radius, each as often as it is in the list. -/
theorem radius_search_exact_3d (pos : L → Vec 3 ℝ) (cfg : Config) (ps : List L) (lo hi : Vec 3 ℝ)
    (htree : ∀ i, lo i ≤ hi i) (hps : ∀ p ∈ ps, InBox lo hi (pos p))
    (box : Extent 3 ℝ) (hbox : ∀ i, box.min i < box.max i) (q : Vec 3 ℝ) (r : ℝ) :
    ∃ out, (∀ out', Yields (radiusSearch pos box q r) (TreeIter.new (radiusSearch pos box q r)
        (QTree.new geom3 pos cfg ps (fromMinMax lo hi))) out' ↔ out' = out) ∧
      out.Perm (ps.filter fun p => decide (periodicDistance box q (pos p) < r)) := by
  obtain ⟨out, h1, h2⟩ := search_perm (by norm_num) geom3 sound3
    (fun e he k q hq => (quadrants3_cover e he.between e.center (fun i => he.between i)).2 k q hq)
    pos cfg ps _ (proper_fromMinMax htree) hps box hbox q r
  exact ⟨out, fun out' => ⟨fun h => h.unique h1, fun h => h ▸ h1⟩, h2⟩

open Classical in
/-- **C21** (2d). -/
theorem radius_search_exact_2d (pos : L → Vec 2 ℝ) (cfg : Config) (ps : List L) (lo hi : Vec 2 ℝ)
    (htree : ∀ i, lo i ≤ hi i) (hps : ∀ p ∈ ps, InBox lo hi (pos p))
    (box : Extent 2 ℝ) (hbox : ∀ i, box.min i < box.max i) (q : Vec 2 ℝ) (r : ℝ) :
    ∃ out, (∀ out', Yields (radiusSearch pos box q r) (TreeIter.new (radiusSearch pos box q r)
        (QTree.new geom2 pos cfg ps (fromMinMax lo hi))) out' ↔ out' = out) ∧
      out.Perm (ps.filter fun p => decide (periodicDistance box q (pos p) < r)) := by
  obtain ⟨out, h1, h2⟩ := search_perm (by norm_num) geom2 sound2
    (fun e he k q hq => (quadrants2_cover e he.between e.center (fun i => he.between i)).2 k q hq)
    pos cfg ps _ (proper_fromMinMax htree) hps box hbox q r
  exact ⟨out, fun out' => ⟨fun h => h.unique h1, fun h => h ▸ h1⟩, h2⟩

/-- **C21** (in words of images).  With tree, particles and centre in the periodic box the results are
exactly the particles of which some periodic image, however far, is strictly within the radius. -/
theorem radius_search_finds_images (pos : L → Vec 3 ℝ) (cfg : Config) (ps : List L)
    (lo hi : Vec 3 ℝ) (hbox : ∀ i, lo i < hi i) (hps : ∀ p ∈ ps, InBox lo hi (pos p))
    (q : Vec 3 ℝ) (hq : InBox lo hi q) (r : ℝ) (out : List L)
    (hout : Yields (radiusSearch pos (fromMinMax lo hi) q r)
      (TreeIter.new (radiusSearch pos (fromMinMax lo hi) q r)
        (QTree.new geom3 pos cfg ps (fromMinMax lo hi))) out) (p : L) :
    p ∈ out ↔ p ∈ ps ∧ ∃ k : Fin 3 → ℤ,
      distance q (fun i => pos p i + k i * (hi i - lo i)) < r := by
  classical
  obtain ⟨out', h1, h2⟩ := radius_search_exact_3d pos cfg ps lo hi (fun i => (hbox i).le) hps
    (fromMinMax lo hi) hbox q r
  rw [(h1 out).1 hout, h2.mem_iff, List.mem_filter]
  constructor
  · rintro ⟨hp, hd⟩
    refine ⟨hp, ?_⟩
    obtain ⟨k, hk⟩ := (periodic_distance_is_minimal (fromMinMax lo hi) hbox q (pos p) hq
      (hps p hp)).2
    refine ⟨k, ?_⟩
    have : periodicDistance (fromMinMax lo hi) q (pos p) < r := by simpa using hd
    rw [hk] at this
    exact this
  · rintro ⟨hp, k, hk⟩
    refine ⟨hp, ?_⟩
    have := (periodic_distance_is_minimal (fromMinMax lo hi) hbox q (pos p) hq (hps p hp)).1 k
    simpa using lt_of_le_of_lt this hk

end Search

/-- The hypotheses of the search theorems hold for a unit box with one particle. -/
example : ∃ (lo hi : Vec 3 ℝ) (ps : List (Vec 3 ℝ)) (q : Vec 3 ℝ), (∀ i, lo i < hi i) ∧
    (∀ p ∈ ps, InBox lo hi p) ∧ InBox lo hi q ∧ ps ≠ [] := by
  refine ⟨fun _ => 0, fun _ => 1, [fun _ => 1 / 2], fun _ => 0, ?_, ?_, ?_, by simp⟩
  · intro i; norm_num
  · intro p hp i; rw [List.mem_singleton.1 hp]; norm_num
  · intro i; norm_num

end Verif.Quadtree
