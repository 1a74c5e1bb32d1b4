import Verif.Rounding.FaceProps
import Verif.Sweep.CycleProps
import Verif.Sweep.Examples
import Verif.Direction.TableModel

/-!
# C116: what rounding of the normals means for the sweep
-/

namespace Verif.Rounding

open Verif.Predicates Verif.Sweep

/-! ### Without nearly parallel faces the sweep ends -/

/-- The directions of all tables meet the assumptions on directions below: their components are moderate and they are unit vectors up
to a relative error of a thousandth. -/
theorem table_directions_fit : ∀ v ∈ Direction.directionBins16 ++ Direction.directionBins21 ++ Direction.directionBins32 ++
    Direction.directionBins64 ++ Direction.directionBins84,
    Moderate3 (tableDirection v.x v.y v.z) ∧ norm2 (tableDirection v.x v.y v.z) ≤ 1001 / 1000 := by
  decide +kernel

/-- **C116.** A grid in which every face found downwind has a computed product of at least six units of roundoff has no cycle, so that
its sweep can be completed: `pos` are the positions of the cells and `dirs` the directions as `f64`. -/
theorem no_small_products_finish {R : Type} [AddCommGroup R] [Module ℚ R] {G : Sweep.Grid ℚ R} (hG : WF G)
    {pos : Id → P3 ℚ} {dirs : ℕ → P3 ℚ}
    (hpos : ∀ id, Moderate3 (pos id)) (hdirs : ∀ d, Moderate3 (dirs d) ∧ norm2 (dirs d) ≤ 1001 / 1000)
    (hface : ∀ d < G.numDirs, ∀ a ∈ G.cells, ∀ e ∈ G.nbrs a, ∀ b, (e.2 = .loc b ∨ e.2 = .remote b) → downwind e.1 (G.dir d) →
      ∃ n, IsNormal (pos a) (pos b) n ∧ 6 / 2 ^ 53 ≤ dotF n (dirs d))
    (miss : Id → ℕ → ℕ) (inc out per : Id → ℕ → R) :
    Acyclic G ∧ ∃ acts s, Run G (initState G miss inc out per) acts s ∧ Finished G s := by
  have hac : Acyclic G := by
    refine ⟨fun d a => (G.act.filter fun b => 0 < along (dirs d) (pos b) (pos a)).card, fun d hd a ha b hb hf => ?_⟩
    obtain ⟨e, he, hdown, hnb⟩ := hf
    obtain ⟨n, hn, hbig⟩ := hface d hd a (Finset.mem_filter.1 ha).1 e he b hnb hdown
    have hab := large_product_order (hpos a) (hpos b) (hdirs d).1 (hdirs d).2 hn hbig
    refine Finset.card_lt_card (Finset.ssubset_iff_of_subset ?_ |>.2 ⟨a, ?_, ?_⟩)
    · intro c hc
      rw [Finset.mem_filter] at hc ⊢
      refine ⟨hc.1, ?_⟩
      have := hc.2
      unfold along at *
      linarith
    · exact Finset.mem_filter.2 ⟨ha, hab⟩
    · rw [Finset.mem_filter]
      rintro ⟨-, h⟩
      unfold along at h
      simp at h
  exact ⟨hac, (finishes_iff_acyclic hG miss inc out per).2 hac⟩

/-! ### A cycle through rounding -/

/-- Direction 7 of 16, healpix.rs line 8, as `f64`. -/
def direction7 : P3 ℚ := tableDirection 0.567715 0.614688 0.547594

theorem direction7_mem : ⟨0.567715, 0.614688, 0.547594⟩ ∈ Direction.directionBins16 := by decide +kernel

/-- Three points in the unit cube. -/
def cycleA : P3 ℚ := ⟨247 / 1024, 221 / 512, 6542242954274029 / 2 ^ 53⟩
@[inherit_doc cycleA] def cycleB : P3 ℚ := ⟨23 / 32, 99 / 1024, 5469630687299821 / 2 ^ 53⟩
@[inherit_doc cycleA] def cycleC : P3 ℚ := ⟨345 / 512, 443 / 1024, 2492519230633555 / 2 ^ 53⟩

/-- Builds a normal from the length and two numbers around the exact length. -/
theorem isNormal_of {p1 p2 : P3 ℚ} (len lo hi : ℚ) (h : 0 < len ∧ 0 ≤ lo ∧ 0 ≤ hi ∧
    lo ^ 2 ≤ dotF (subF p2 p1) (subF p2 p1) ∧ dotF (subF p2 p1) (subF p2 p1) ≤ hi ^ 2 ∧ fl lo = len ∧ fl hi = len) :
    IsNormal p1 p2 (normalizeWith (subF p2 p1) len) :=
  ⟨len, h.1, ⟨lo, hi, h.2.1, h.2.2.1, h.2.2.2.1, h.2.2.2.2.1, h.2.2.2.2.2.1, h.2.2.2.2.2.2⟩, rfl⟩

theorem normalAB : IsNormal cycleA cycleB
    ⟨3612497119833981 / 2 ^ 52, -1266959623827255 / 2 ^ 51, -7206785288141111 / 2 ^ 55⟩ := by
  have h := isNormal_of (p1 := cycleA) (p2 := cycleB) (2681148952117071 / 2 ^ 52)
    (849690019613123316071527463084690398363310035 / 2 ^ 150) (849690019613123316071527463084690398363310036 / 2 ^ 150)
    (by decide +kernel)
  have e : normalizeWith (subF cycleB cycleA) (2681148952117071 / 2 ^ 52) =
    ⟨3612497119833981 / 2 ^ 52, -1266959623827255 / 2 ^ 51, -7206785288141111 / 2 ^ 55⟩ := by decide +kernel
  rwa [e] at h

theorem normalBC : IsNormal cycleB cycleC
    ⟨-427344439356333 / 2 ^ 52, 3195793198664751 / 2 ^ 52, -393038884947529 / 2 ^ 49⟩ := by
  have h := isNormal_of (p1 := cycleB) (p2 := cycleC) (4264119454959453 / 2 ^ 53)
    (675676698315527612449590036266776188933720633 / 2 ^ 150) (675676698315527612449590036266776188933720634 / 2 ^ 150)
    (by decide +kernel)
  have e : normalizeWith (subF cycleC cycleB) (4264119454959453 / 2 ^ 53) =
    ⟨-427344439356333 / 2 ^ 52, 3195793198664751 / 2 ^ 52, -393038884947529 / 2 ^ 49⟩ := by decide +kernel
  rwa [e] at h

theorem normalCA : IsNormal cycleC cycleA
    ⟨-6245212164919727 / 2 ^ 53, -902242840981631 / 2 ^ 59, 1622628359502483 / 2 ^ 51⟩ := by
  have h := isNormal_of (p1 := cycleC) (p2 := cycleA) (87812459036045 / 2 ^ 47)
    (890524131236474059518380586992650778903610159 / 2 ^ 150) (890524131236474059518380586992650778903610160 / 2 ^ 150)
    (by decide +kernel)
  have e : normalizeWith (subF cycleA cycleC) (87812459036045 / 2 ^ 47) =
    ⟨-6245212164919727 / 2 ^ 53, -902242840981631 / 2 ^ 59, 1622628359502483 / 2 ^ 51⟩ := by decide +kernel
  rwa [e] at h

/-- **C116.** Rounding can produce a cycle: three points in the unit cube and a direction of the table with 16 directions for which
every one of the three faces is found downwind, although no three points can lie further and further along a direction in a circle. -/
theorem rounding_cycle :
    Moderate3 cycleA ∧ Moderate3 cycleB ∧ Moderate3 cycleC ∧
    ∃ ab bc ca, IsNormal cycleA cycleB ab ∧ IsNormal cycleB cycleC bc ∧ IsNormal cycleC cycleA ca ∧
      downwindF ab direction7 ∧ downwindF bc direction7 ∧ downwindF ca direction7 :=
  ⟨by decide +kernel, by decide +kernel, by decide +kernel, _, _, _, normalAB, normalBC, normalCA,
    by unfold downwindF; decide +kernel, by unfold downwindF; decide +kernel, by unfold downwindF; decide +kernel⟩

/-- The computed products of the three normals with the direction. -/
def prodAB : ℚ := dotF ⟨3612497119833981 / 2 ^ 52, -1266959623827255 / 2 ^ 51, -7206785288141111 / 2 ^ 55⟩ direction7
@[inherit_doc prodAB] def prodBC : ℚ := dotF ⟨-427344439356333 / 2 ^ 52, 3195793198664751 / 2 ^ 52, -393038884947529 / 2 ^ 49⟩ direction7
@[inherit_doc prodAB] def prodCA : ℚ := dotF ⟨-6245212164919727 / 2 ^ 53, -902242840981631 / 2 ^ 59, 1622628359502483 / 2 ^ 51⟩ direction7

/-- The three cells on one rank.  A face carries the computed product as the first component of its normal and the direction is the
first axis: the sweep uses normals and directions in such products only. -/
def cycleGrid : Sweep.Grid ℚ ℚ where
  numRanks := 1
  numDirs := 1
  cells := {⟨0, 0⟩, ⟨0, 1⟩, ⟨0, 2⟩}
  nbrs := fun id =>
    if id = ⟨0, 0⟩ then [(⟨1, ⟨prodAB, 0, 0⟩⟩, .loc ⟨0, 1⟩), (⟨1, ⟨-prodCA, 0, 0⟩⟩, .loc ⟨0, 2⟩)]
    else if id = ⟨0, 1⟩ then [(⟨1, ⟨prodBC, 0, 0⟩⟩, .loc ⟨0, 2⟩), (⟨1, ⟨-prodAB, 0, 0⟩⟩, .loc ⟨0, 0⟩)]
    else [(⟨1, ⟨prodCA, 0, 0⟩⟩, .loc ⟨0, 0⟩), (⟨1, ⟨-prodBC, 0, 0⟩⟩, .loc ⟨0, 1⟩)]
  dir := fun _ => ⟨1, 0, 0⟩
  level := fun _ => 0
  haloLevel := fun _ _ => 0
  current := 0
  absorb := fun _ x => x
  source := fun _ => 1
  makePositive := fun x => max x 0
  batch := 10

theorem cycleGrid_wf : WF cycleGrid := by
  refine WF.of_check ?_ ?_ ?_ <;> decide +kernel

theorem cycleGrid_feeds : Feeds cycleGrid 0 ⟨0, 0⟩ ⟨0, 1⟩ ∧ Feeds cycleGrid 0 ⟨0, 1⟩ ⟨0, 2⟩ ∧ Feeds cycleGrid 0 ⟨0, 2⟩ ⟨0, 0⟩ := by
  unfold Feeds
  decide +kernel

/-- **C116, disagreement with C30.** The sweep over the three cells never ends: no cell is ever solved, whatever happens. -/
theorem rounding_deadlock (miss : Id → ℕ → ℕ) (inc out per : Id → ℕ → ℚ) {acts : List (ℕ × Act)} {s : Sweep.State ℚ}
    (h : Run cycleGrid (initState cycleGrid miss inc out per) acts s) :
    (∀ id ∈ cycleGrid.cells, (⟨id, 0⟩ : Task) ∉ solved acts) ∧ ¬ Finished cycleGrid s := by
  have key : ∀ i, (⟨(⟨0, i % 3⟩ : Id), 0⟩ : Task) ∉ solved acts := by
    refine cycle_never_solved cycleGrid_wf miss inc out per (n := 3) (by norm_num) (c := fun i => ⟨0, i % 3⟩) ?_ ?_ ?_ h
    · intro i
      refine ⟨?_, le_rfl⟩
      have : i % 3 = 0 ∨ i % 3 = 1 ∨ i % 3 = 2 := by omega
      rcases this with e | e | e <;> simp only [e] <;> decide
    · intro i
      simp
    · intro i
      obtain ⟨h1, h2, h3⟩ := cycleGrid_feeds
      have : i % 3 = 0 ∧ (i + 1) % 3 = 1 ∨ i % 3 = 1 ∧ (i + 1) % 3 = 2 ∨ i % 3 = 2 ∧ (i + 1) % 3 = 0 := by omega
      rcases this with ⟨e, e'⟩ | ⟨e, e'⟩ | ⟨e, e'⟩ <;> simp only [e, e'] <;> assumption
  constructor
  · intro id hid
    have hid : id = ⟨0, 0⟩ ∨ id = ⟨0, 1⟩ ∨ id = ⟨0, 2⟩ := by simpa [cycleGrid] using hid
    rcases hid with rfl | rfl | rfl
    · exact key 0
    · exact key 1
    · exact key 2
  · intro hf
    have := finished_rank_solved_all cycleGrid_wf h (hf 0 (by decide)) ⟨0, 0⟩ (by decide) rfl le_rfl 0 (by decide)
    exact key 0 (List.count_pos_iff.1 (by rw [this]; norm_num))

/-! ### The hypotheses are met -/

/-- `sides_agree`: both sides of one face have a normal. -/
example : ∃ n n', IsNormal cycleA cycleB n ∧ IsNormal cycleB cycleA n' ∧ downwindF n direction7 ∧ n' ≠ n := by
  refine ⟨_, _, normalAB, isNormal_of (2681148952117071 / 2 ^ 52)
    (849690019613123316071527463084690398363310035 / 2 ^ 150) (849690019613123316071527463084690398363310036 / 2 ^ 150)
    (by decide +kernel), by unfold downwindF; decide +kernel, by decide +kernel⟩

/-- `large_product_order` and `clear_face_decided`: a face with a large product. -/
example : ∃ n, IsNormal ⟨0, 0, 0⟩ ⟨3, 0, 4⟩ n ∧ Moderate3 ⟨3, 0, 4⟩ ∧ Moderate3 direction7 ∧ norm2 direction7 ≤ 1001 / 1000 ∧
    6 / 2 ^ 53 ≤ dotF n direction7 ∧
    (7 / 2 ^ 53) ^ 2 * dist2 ⟨0, 0, 0⟩ ⟨3, 0, 4⟩ ≤ along direction7 ⟨0, 0, 0⟩ ⟨3, 0, 4⟩ ^ 2 :=
  ⟨_, isNormal_of 5 5 5 (by decide +kernel), by decide +kernel, by decide +kernel, by decide +kernel, by decide +kernel,
    by decide +kernel⟩

/-- `cycle_has_small_product`: the three points above. -/
example : ∃ c m : ℕ → P3 ℚ, (∀ i, Moderate3 (c i)) ∧ c 3 = c 0 ∧ ∀ i < 3, IsNormal (c i) (c (i + 1)) (m i) := by
  have hA : Moderate3 cycleA := by decide +kernel
  have hB : Moderate3 cycleB := by decide +kernel
  have hC : Moderate3 cycleC := by decide +kernel
  obtain ⟨n1, h1⟩ : ∃ n, IsNormal cycleA cycleB n := ⟨_, normalAB⟩
  obtain ⟨n2, h2⟩ : ∃ n, IsNormal cycleB cycleC n := ⟨_, normalBC⟩
  obtain ⟨n3, h3⟩ : ∃ n, IsNormal cycleC cycleA n := ⟨_, normalCA⟩
  refine ⟨fun i => if i % 3 = 0 then cycleA else if i % 3 = 1 then cycleB else cycleC,
    fun i => if i = 0 then n1 else if i = 1 then n2 else n3, fun i => ?_, rfl, fun i hi => ?_⟩
  · dsimp only
    split_ifs <;> assumption
  · have : i = 0 ∨ i = 1 ∨ i = 2 := by omega
    rcases this with rfl | rfl | rfl
    · exact h1
    · exact h2
    · exact h3

/-- Three cells in a row along the first axis. -/
def rowGrid : Sweep.Grid ℚ ℚ where
  numRanks := 2
  numDirs := 1
  cells := {⟨0, 0⟩, ⟨0, 1⟩, ⟨1, 2⟩}
  nbrs := fun id =>
    if id = ⟨0, 0⟩ then [(⟨1, ⟨1, 0, 0⟩⟩, .loc ⟨0, 1⟩)]
    else if id = ⟨0, 1⟩ then [(⟨1, ⟨1, 0, 0⟩⟩, .remote ⟨1, 2⟩), (⟨1, ⟨-1, 0, 0⟩⟩, .loc ⟨0, 0⟩)]
    else [(⟨1, ⟨-1, 0, 0⟩⟩, .remote ⟨0, 1⟩)]
  dir := fun _ => ⟨1, 0, 0⟩
  level := fun _ => 0
  haloLevel := fun _ _ => 0
  current := 0
  absorb := fun _ x => x
  source := fun _ => 1
  makePositive := fun x => max x 0
  batch := 10

/-- `no_small_products_finish`: the row. -/
example : WF rowGrid ∧ ∃ pos : Id → P3 ℚ, ∃ dirs : ℕ → P3 ℚ, (∀ id, Moderate3 (pos id)) ∧
    (∀ d, Moderate3 (dirs d) ∧ norm2 (dirs d) ≤ 1001 / 1000) ∧
    ∀ d < rowGrid.numDirs, ∀ a ∈ rowGrid.cells, ∀ e ∈ rowGrid.nbrs a, ∀ b, (e.2 = .loc b ∨ e.2 = .remote b) →
      downwind e.1 (rowGrid.dir d) → ∃ n, IsNormal (pos a) (pos b) n ∧ 6 / 2 ^ 53 ≤ dotF n (dirs d) := by
  refine ⟨by refine WF.of_check ?_ ?_ ?_ <;> decide +kernel,
    fun id => ⟨if id.idx = 0 then 0 else if id.idx = 1 then 1 else 2, 0, 0⟩, fun _ => ⟨1, 0, 0⟩, ?_, fun _ => by dsimp only; decide +kernel, ?_⟩
  · intro id
    dsimp only
    split_ifs <;> decide +kernel
  · intro d hd a ha e he b hb hdown
    dsimp only
    have ha : a = ⟨0, 0⟩ ∨ a = ⟨0, 1⟩ ∨ a = ⟨1, 2⟩ := by simpa [rowGrid] using ha
    rcases ha with rfl | rfl | rfl
    · have he : e = (⟨1, ⟨1, 0, 0⟩⟩, .loc ⟨0, 1⟩) := by simpa [rowGrid] using he
      subst he
      have hb : b = ⟨0, 1⟩ := by simpa [eq_comm] using hb
      subst hb
      exact ⟨_, isNormal_of 1 1 1 (by decide +kernel), by clear hd hdown; decide +revert +kernel⟩
    · have he : e = (⟨1, ⟨1, 0, 0⟩⟩, .remote ⟨1, 2⟩) ∨ e = (⟨1, ⟨-1, 0, 0⟩⟩, .loc ⟨0, 0⟩) := by simpa [rowGrid] using he
      rcases he with rfl | rfl
      · have hb : b = ⟨1, 2⟩ := by simpa [eq_comm] using hb
        subst hb
        exact ⟨_, isNormal_of 1 1 1 (by decide +kernel), by clear hd hdown; decide +revert +kernel⟩
      · exact absurd hdown (by unfold downwind V3.dot rowGrid; norm_num)
    · have he : e = (⟨1, ⟨-1, 0, 0⟩⟩, .remote ⟨0, 1⟩) := by simpa [rowGrid] using he
      subst he
      exact absurd hdown (by unfold downwind V3.dot rowGrid; norm_num)

/-- `finishes_iff_acyclic` and `cycle_never_solved` apply to the cycle. -/
example : ¬ Acyclic cycleGrid := by
  rw [← finishes_iff_acyclic cycleGrid_wf (fun _ _ => 0) (fun _ _ => 0) (fun _ _ => 0) (fun _ _ => 0)]
  rintro ⟨acts, s, h, hf⟩
  exact (rounding_deadlock _ _ _ _ h).2 hf

end Verif.Rounding
