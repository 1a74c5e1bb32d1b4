import Verif.Rounding.SearchLemmas

/-!
# C118: the radius search with `f64` rounding
-/

namespace Verif.Rounding

open Verif.Geometry Verif.Quadtree

/-- The box of the simulation for trees with at most `depth` levels: `f64` coordinates of absolute value at most `M`, with sides that
are not extremely short compared with `M`; `M` is far away from the smallest and the largest `f64`. -/
structure SearchBox (M : ℚ) (depth : ℕ) (lo hi : Vec 3 ℚ) : Prop where
  notTiny : 1 / 2 ^ 200 ≤ M
  notHuge : M ≤ 2 ^ 400
  exact : ∀ i, IsF64 (lo i) ∧ IsF64 (hi i)
  bounds : ∀ i, -M ≤ lo i ∧ hi i ≤ M
  sides : ∀ i, M * 2 ^ depth ≤ 2 ^ 40 * (hi i - lo i)

/-! ### One component of the test of a node -/

theorem SearchBox.pos {M : ℚ} {depth : ℕ} {lo hi : Vec 3 ℚ} (h : SearchBox M depth lo hi) : 0 < M :=
  lt_of_lt_of_le (by positivity) h.notTiny

theorem SearchBox.sides' {M : ℚ} {depth : ℕ} {lo hi : Vec 3 ℚ} (h : SearchBox M depth lo hi) (i : Fin 3) :
    M / 2 ^ 40 ≤ hi i - lo i := by
  have h1 := h.sides i
  have h2 : (1 : ℚ) ≤ 2 ^ depth := one_le_pow₀ (by norm_num)
  rw [div_le_iff₀ (by positivity)]
  nlinarith [h.pos]

theorem center_err {M a b : ℚ} (hM : 1 / 2 ^ 200 ≤ M) (ha : -M ≤ a) (hab : a ≤ b) (hb : b ≤ M) :
    |(a ⊞ b) ⊘ 2 - (a + b) / 2| ≤ 3 * (M / 2 ^ 53) := by
  have hM0 : 0 < M := lt_of_lt_of_le (by positivity) hM
  have h1 := fl_err_M hM (x := a + b) (k := 2) (abs_le.2 ⟨by linarith, by linarith⟩)
  have h1' := abs_le.1 h1
  have h2 := fl_err_M hM (x := (a ⊞ b) / 2) (k := 11 / 10) (by
    unfold fadd
    exact abs_le.2 ⟨by linarith, by linarith⟩)
  have h2' := abs_le.1 h2
  have e0 : 0 < M / 2 ^ 53 := by positivity
  unfold fdiv
  have e1 : fl (a + b) = a ⊞ b := rfl
  rw [e1] at h1'
  exact abs_le.2 ⟨by linarith, by linarith⟩

/-- A node containing a particle that is found by the comparison of distances is visited: one component. -/
theorem prune_component {M a b p q L r : ℚ} (hM : 1 / 2 ^ 200 ≤ M) (ha : -M ≤ a) (hb : b ≤ M) (hap : a ≤ p) (hpb : p ≤ b)
    (hq : |q| ≤ M) (hL : IsF64 L) (hL0 : 1 / 2 ^ 1000 ≤ L) (hr : IsF64 r) (hs : M / 2 ^ 41 ≤ b - a)
    (hin : sqrtF (minimizeF (q ⊟ p) L ⊠ minimizeF (q ⊟ p) L) < r) :
    |minimizeF ((a ⊞ b) ⊘ 2 ⊟ q) L| ≤ (b ⊟ a) ⊞ (1 ⊠ r) := by
  have hM0 : 0 < M := lt_of_lt_of_le (by positivity) hM
  have hLp : 0 ≤ L := le_trans (by positivity) hL0
  obtain ⟨e, he⟩ : ∃ e, e = M / 2 ^ 53 := ⟨_, rfl⟩
  have e0 : 0 < e := he ▸ by positivity
  have eM : M = 2 ^ 53 * e := by rw [he]; field_simp
  have err : ∀ {x k : ℚ}, |x| ≤ k * M → |fl x - x| ≤ (k + 1 / 64) * e := fun h => he ▸ fl_err_M hM h
  have hq' := abs_le.1 hq
  have hc := abs_le.1 (center_err hM ha (hap.trans hpb) hb)
  rw [← he] at hc
  rw [show 1 ⊠ r = r by unfold fmul; rw [one_mul]; exact hr]
  generalize (a ⊞ b) ⊘ 2 = c at *
  rw [minimizeF_eq (v := c ⊟ q) (isF64_fl _) hL hL0]
  rw [minimizeF_eq (v := q ⊟ p) (isF64_fl _) hL hL0] at hin
  obtain ⟨v, hv⟩ : ∃ v, v = q ⊟ p := ⟨_, rfl⟩
  obtain ⟨w, hw⟩ : ∃ w, w = c ⊟ q := ⟨_, rfl⟩
  rw [← hv] at hin
  rw [← hw]
  have h1 := abs_le.1 (err (x := q - p) (k := 2) (abs_le.2 ⟨by linarith, by linarith⟩))
  have h2 := abs_le.1 (err (x := c - q) (k := 21 / 10) (abs_le.2 ⟨by linarith, by linarith⟩))
  change _ ≤ q ⊟ p - _ ∧ q ⊟ p - _ ≤ _ at h1
  change _ ≤ c ⊟ q - _ ∧ c ⊟ q - _ ≤ _ at h2
  rw [← hv] at h1
  rw [← hw] at h2
  have hvM : |v| ≤ 21 / 10 * M := abs_le.2 ⟨by linarith, by linarith⟩
  have hwM : |w| ≤ 22 / 10 * M := abs_le.2 ⟨by linarith, by linarith⟩
  have hmv := (minimize_abs_le v L hLp).trans hvM
  have hmw := (minimize_abs_le w L hLp).trans hwM
  have lip : |minimizeComponent w L| ≤ |minimizeComponent v L| + ((b - a) / 2 + 8 * e) := by
    have := minimize_lip w (-v) L L hLp hLp
    rw [minimize_even v L hLp, sub_self, abs_zero, add_zero, sub_neg_eq_add] at this
    have h3 : |w + v| ≤ (b - a) / 2 + 8 * e := abs_le.2 ⟨by linarith, by linarith⟩
    linarith
  have a1 := abs_le.1 (err hmv)
  have a2 := abs_le.1 (err hmw)
  have t1 : |minimizeComponent v L| ≤ |fl (minimizeComponent v L)| + 3 * e := by
    have := abs_add_le (fl (minimizeComponent v L)) (minimizeComponent v L - fl (minimizeComponent v L))
    rw [add_sub_cancel] at this
    have h3 : |minimizeComponent v L - fl (minimizeComponent v L)| ≤ 3 * e := abs_le.2 ⟨by linarith, by linarith⟩
    linarith
  have t2 : |fl (minimizeComponent w L)| ≤ |minimizeComponent w L| + 3 * e := by
    have := abs_add_le (minimizeComponent w L) (fl (minimizeComponent w L) - minimizeComponent w L)
    rw [add_sub_cancel] at this
    have h3 : |fl (minimizeComponent w L) - minimizeComponent w L| ≤ 3 * e := abs_le.2 ⟨by linarith, by linarith⟩
    linarith
  have t3 : |fl (minimizeComponent v L)| ≤ 22 / 10 * M := by
    have := abs_add_le (minimizeComponent v L) (fl (minimizeComponent v L) - minimizeComponent v L)
    rw [add_sub_cancel] at this
    have h3 : |fl (minimizeComponent v L) - minimizeComponent v L| ≤ 3 * e := abs_le.2 ⟨by linarith, by linarith⟩
    linarith
  generalize fl (minimizeComponent v L) = d at *
  generalize fl (minimizeComponent w L) = d' at *
  have s1 := abs_le.1 (err (x := b - a) (k := 2) (abs_le.2 ⟨by linarith, by linarith⟩))
  change _ ≤ b ⊟ a - _ ∧ b ⊟ a - _ ≤ _ at s1
  have s0 : 0 ≤ b ⊟ a := fl_nonneg (by linarith)
  generalize b ⊟ a = s at *
  rcases le_or_gt (4 * M) r with hbig | hsmall
  · have : r ≤ s ⊞ r := le_fadd_right s0 hr
    linarith
  · have hr0 : 0 < r := by
      refine lt_of_le_of_lt ?_ hin
      have := le_sqrtF (fl_sq_nonneg d) (R := 0) (by simpa using fl_sq_nonneg d)
      rwa [fl_zero] at this
    have hd : |d| ≤ r + 9 * e := by
      rcases le_or_gt (1 / 2 ^ 250) |d| with h | h
      · have h4 := (abs_le_sqrtF h).trans hin.le
        have h5 : |d| * (3 / 2 ^ 53) ≤ 22 / 10 * M * (3 / 2 ^ 53) := mul_le_mul_of_nonneg_right t3 (by positivity)
        rw [eM] at h5
        linarith
      · have : (1 : ℚ) / 2 ^ 250 ≤ 8 * e := by
          rw [he]
          have : (1 : ℚ) / 2 ^ 250 = 8 * (1 / 2 ^ 200 / 2 ^ 53) := by norm_num
          rw [this]
          have := div_le_div_of_nonneg_right hM (show (0 : ℚ) ≤ 2 ^ 53 by positivity)
          linarith
        linarith
    have s2 := abs_le.1 (err (x := s + r) (k := 7) (abs_le.2 ⟨by linarith, by linarith⟩))
    change _ ≤ s ⊞ r - _ ∧ s ⊞ r - _ ≤ _ at s2
    have : M / 2 ^ 41 = 4096 * e := by rw [eM]; ring
    linarith

/-! ### The nodes of the tree -/

theorem isF64_double {a : ℚ} (h : IsF64 a) : IsF64 (a * 2) := by
  have := fl_mul_two_pow 1 h
  rwa [pow_one] at this

/-- The computed centre lies in the box. -/
theorem center_between {a b : ℚ} (ha : IsF64 a) (hb : IsF64 b) (h : a ≤ b) : a ≤ (a ⊞ b) ⊘ 2 ∧ (a ⊞ b) ⊘ 2 ≤ b := by
  constructor
  · apply le_fl ha
    have : a * 2 ≤ a ⊞ b := le_fl (isF64_double ha) (by linarith)
    linarith
  · apply fl_le hb
    have : a ⊞ b ≤ b * 2 := fl_le (isF64_double hb) (by linarith)
    linarith

/-- The extents of nodes. -/
def NodeBox (M : ℚ) (e : Extent 3 ℚ) : Prop :=
  ∀ i, IsF64 (e.min i) ∧ IsF64 (e.max i) ∧ e.min i ≤ e.max i ∧ e.center i = (e.min i ⊞ e.max i) ⊘ 2 ∧ -M ≤ e.min i ∧ e.max i ≤ M

theorem NodeBox.between {M : ℚ} {e : Extent 3 ℚ} (h : NodeBox M e) (i : Fin 3) : e.min i ≤ e.center i ∧ e.center i ≤ e.max i := by
  obtain ⟨h1, h2, h3, h4, -⟩ := h i
  rw [h4]
  exact center_between h1 h2 h3

theorem quadrant_sides (e : Extent 3 ℚ) (k : Fin 8) (i : Fin 3) :
    (((quadrantsF3 e k).min i = e.min i ∧ (quadrantsF3 e k).max i = e.center i) ∨
      ((quadrantsF3 e k).min i = e.center i ∧ (quadrantsF3 e k).max i = e.max i)) ∧
    (quadrantsF3 e k).center i = ((quadrantsF3 e k).min i ⊞ (quadrantsF3 e k).max i) ⊘ 2 ∧
    (quadrantsF3 e k).min i = (quadrants3 e k).min i ∧ (quadrantsF3 e k).max i = (quadrants3 e k).max i := by
  fin_cases k <;> fin_cases i <;> simp [quadrantsF3, quadrants3, fromMinMaxF, fromMinMax]

theorem quadrant_contains (e : Extent 3 ℚ) (k : Fin 8) (v : Vec 3 ℚ) : (quadrantsF3 e k).contains v ↔ (quadrants3 e k).contains v := by
  unfold Extent.contains
  constructor
  · intro h i
    rw [← (quadrant_sides e k i).2.2.1, ← (quadrant_sides e k i).2.2.2]
    exact h i
  · intro h i
    rw [(quadrant_sides e k i).2.2.1, (quadrant_sides e k i).2.2.2]
    exact h i

theorem quadrant_nodeBox {M : ℚ} {e : Extent 3 ℚ} (h : NodeBox M e) (k : Fin 8) : NodeBox M (quadrantsF3 e k) := by
  intro i
  obtain ⟨h1, h2, h3, h4, h5, h6⟩ := h i
  obtain ⟨b1, b2⟩ := h.between i
  have hc : IsF64 (e.center i) := by rw [h4]; exact isF64_fl _
  obtain ⟨hm, hcen, -⟩ := quadrant_sides e k i
  rw [hcen]
  rcases hm with ⟨a, b⟩ | ⟨a, b⟩ <;> rw [a, b]
  · exact ⟨h1, hc, b1, rfl, h5, b2.trans h6⟩
  · exact ⟨hc, h2, b2, rfl, h5.trans b1, h6⟩

theorem soundF (M : ℚ) : geomF3.Sound (NodeBox M) Extent.contains where
  cover := fun e v he hv => (quadrant_contains e _ v).2 (quadrants3_cover e he.between v hv).1
  ok_quadrant := fun e k he => quadrant_nodeBox he k

/-- The sides of a node with `rem` levels to go. -/
def Wide (M : ℚ) (rem : ℕ) (e : Extent 3 ℚ) : Prop := ∀ i, M * 2 ^ rem / 2 ^ 40 - 6 * (M / 2 ^ 53) ≤ e.max i - e.min i

theorem quadrant_wide {M : ℚ} (hM : 1 / 2 ^ 200 ≤ M) {rem : ℕ} {e : Extent 3 ℚ} (he : NodeBox M e) (h : Wide M (rem + 1) e) (k : Fin 8) :
    Wide M rem (quadrantsF3 e k) := by
  intro i
  obtain ⟨h1, h2, h3, h4, h5, h6⟩ := he i
  have hw := h i
  have hc := abs_le.1 (center_err hM h5 h3 h6)
  rw [← h4] at hc
  have e1 : M * 2 ^ (rem + 1) / 2 ^ 40 = 2 * (M * 2 ^ rem / 2 ^ 40) := by rw [pow_succ]; ring
  rw [e1] at hw
  obtain ⟨hm, -⟩ := quadrant_sides e k i
  rcases hm with ⟨a, b⟩ | ⟨a, b⟩ <;> rw [a, b] <;> linarith

theorem Wide.ge {M : ℚ} (hM : 0 < M) {rem : ℕ} {e : Extent 3 ℚ} (h : Wide M rem e) (i : Fin 3) : M / 2 ^ 41 ≤ e.max i - e.min i := by
  refine le_trans ?_ (h i)
  have : M * 1 / 2 ^ 40 ≤ M * 2 ^ rem / 2 ^ 40 :=
    div_le_div_of_nonneg_right (mul_le_mul_of_nonneg_left (one_le_pow₀ (by norm_num)) hM.le) (by positivity)
  have e : M / 2 ^ 41 = 4096 * (M / 2 ^ 53) := by ring
  have e2 : M * 1 / 2 ^ 40 = 8192 * (M / 2 ^ 53) := by ring
  have : 0 < M / 2 ^ 53 := by positivity
  linarith

/-! ### The search -/

section Search
variable {L : Type}

theorem inside {M : ℚ} {pos : L → Vec 3 ℚ} {maxLeaf : ℕ} (t : QTree 8 (Extent 3 ℚ) L) :
    ∀ rem, QTree.Inner geomF3 pos (NodeBox M) Extent.contains maxLeaf rem t → ∀ p ∈ t.stored, t.extent.contains (pos p) := by
  induction t with
  | leaf w e qs => intro rem h p hp; rw [QTree.stored_leaf] at hp; exact h.2.1 p hp
  | tree w e ch ih =>
    intro rem h p hp
    rw [QTree.stored_tree, List.mem_flatMap] at hp
    obtain ⟨i, _, hp⟩ := hp
    have := ih i (rem - 1) (h.2.2 i).2.2 p hp
    rw [(h.2.2 i).1] at this
    exact (quadrants3_cover e h.1.between e.center (fun j => h.1.between j)).2 i _ ((quadrant_contains e i _).1 this)

theorem side_ok {M : ℚ} {depth : ℕ} {lo hi : Vec 3 ℚ} (h : SearchBox M depth lo hi) (i : Fin 3) : 1 / 2 ^ 1000 ≤ hi i ⊟ lo i := by
  have h1 := h.sides' i
  have h2 : (1 : ℚ) / 2 ^ 240 ≤ hi i - lo i := by
    refine le_trans ?_ h1
    have := div_le_div_of_nonneg_right h.notTiny (show (0 : ℚ) ≤ 2 ^ 40 by positivity)
    refine le_trans (le_of_eq ?_) this
    rw [div_div, ← pow_add]
  have h3 : IsF64 (1 / 2 ^ 240) := by
    have := fl_two_zpow (k := -240) (by norm_num)
    rw [zpow_neg] at this
    rw [one_div]
    exact this
  refine le_trans ?_ (le_fl h3 h2)
  exact one_div_le_one_div_of_le (by positivity) (pow_le_pow_right₀ (by norm_num) (by norm_num))

/-- A skipped node contains no particle that would be included. -/
theorem prune_sound_rounded {M : ℚ} {depth : ℕ} {lo hi : Vec 3 ℚ} (hbox : SearchBox M depth lo hi) (pos : L → Vec 3 ℚ) (maxLeaf : ℕ)
    (q : Vec 3 ℚ) (hq : ∀ i, |q i| ≤ M) {r : ℚ} (hr : IsF64 r) (s : QTree 8 (Extent 3 ℚ) L) (rem : ℕ)
    (hs : QTree.Inner geomF3 pos (NodeBox M) Extent.contains maxLeaf rem s) (hw : Wide M rem s.extent)
    (hv : (radiusSearchF pos (fromMinMaxF lo hi) q r).visit s = false) :
    ∀ p ∈ s.stored, (radiusSearchF pos (fromMinMaxF lo hi) q r).included p = false := by
  intro p hp
  have hpe := inside s rem hs p hp
  have hok := hs.extent_ok
  simp only [radiusSearchF, decide_eq_false_iff_not] at hv ⊢
  intro hin
  apply hv
  intro i
  obtain ⟨h1, h2, h3, h4, h5, h6⟩ := hok i
  have hc := lt_of_le_of_lt (component_le (periodicDistanceVecF (fromMinMaxF lo hi) q (pos p)) i) hin
  show |minimizeF (s.extent.center i ⊟ q i) _| ≤ _
  rw [h4]
  exact prune_component hbox.notTiny h5 h6 (hpe i).1 (hpe i).2 (hq i) (isF64_fl _) (side_ok hbox i) hr (hw.ge hbox.pos i) hc

open Classical in
/-- **C118.** With rounding in all computations — the centres and side lengths of the nodes, the distances along the axes, the
periodic images, the comparison of a node with the sphere, the distance of a particle — the search ends and gives, up to the order,
exactly the particles whose computed distance is below the radius: the tree never hides one of them. -/
theorem radius_search_rounded (pos : L → Vec 3 ℚ) (cfg : Config) (ps : List L) {M : ℚ} {lo hi : Vec 3 ℚ}
    (hbox : SearchBox M cfg.maxDepth lo hi) (hps : ∀ p ∈ ps, ∀ i, lo i ≤ pos p i ∧ pos p i ≤ hi i)
    (q : Vec 3 ℚ) (hq : ∀ i, |q i| ≤ M) {r : ℚ} (hr : IsF64 r) :
    ∃ out, (∀ out', Yields (radiusSearchF pos (fromMinMaxF lo hi) q r) (TreeIter.new (radiusSearchF pos (fromMinMaxF lo hi) q r)
        (QTree.new geomF3 pos cfg ps (fromMinMaxF lo hi))) out' ↔ out' = out) ∧
      out.Perm (ps.filter fun p => decide (periodicDistanceF (fromMinMaxF lo hi) q (pos p) < r)) := by
  have hroot : NodeBox M (fromMinMaxF lo hi) := by
    intro i
    refine ⟨(hbox.exact i).1, (hbox.exact i).2, ?_, rfl, (hbox.bounds i).1, (hbox.bounds i).2⟩
    have h1 := hbox.sides' i
    have : 0 < M / 2 ^ 40 := div_pos hbox.pos (by positivity)
    show lo i ≤ hi i
    linarith
  have hwide : Wide M cfg.maxDepth (fromMinMaxF lo hi) := by
    intro i
    have h1 := hbox.sides i
    have h2 : 0 < M / 2 ^ 53 := div_pos hbox.pos (by positivity)
    have h3 : M * 2 ^ cfg.maxDepth / 2 ^ 40 ≤ hi i - lo i := by
      rw [div_le_iff₀ (by positivity)]
      linarith
    show _ ≤ hi i - lo i
    linarith
  obtain ⟨hin, hst, hex, -⟩ := QTree.new_spec (pos := pos) (soundF M) cfg ps (fromMinMaxF lo hi) hroot hps
  have key : ∃ out, Yields (radiusSearchF pos (fromMinMaxF lo hi) q r) (TreeIter.new (radiusSearchF pos (fromMinMaxF lo hi) q r)
        (QTree.new geomF3 pos cfg ps (fromMinMaxF lo hi))) out ∧
      out.Perm (ps.filter fun p => decide (periodicDistanceF (fromMinMaxF lo hi) q (pos p) < r)) := by
    refine ⟨_, new_yields (by norm_num) _ _, ?_⟩
    rw [reached_eq (radiusSearchF pos (fromMinMaxF lo hi) q r) (QTree.new geomF3 pos cfg ps (fromMinMaxF lo hi))
      (fun s => ∃ rem, QTree.Inner geomF3 pos (NodeBox M) Extent.contains cfg.maxLeaf rem s ∧ Wide M rem s.extent)]
    · exact hst.filter _
    · rintro w e ch ⟨rem, h, hw⟩ i
      obtain ⟨he, hrem, hch⟩ := h
      refine ⟨rem - 1, (hch i).2.2, ?_⟩
      rw [(hch i).1]
      refine quadrant_wide hbox.notTiny he ?_ i
      rwa [Nat.sub_add_cancel hrem]
    · rintro s ⟨rem, h, hw⟩ hv
      exact prune_sound_rounded hbox pos cfg.maxLeaf q hq hr s rem h hw hv
    · exact ⟨_, hin, by rw [hex]; exact hwide⟩
  obtain ⟨out, h1, h2⟩ := key
  exact ⟨out, fun out' => ⟨fun h => h.unique h1, fun h => h ▸ h1⟩, h2⟩

end Search

end Verif.Rounding
