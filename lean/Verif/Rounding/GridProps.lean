import Verif.Rounding.GridLemmas
import Mathlib.Tactic.NormNum

/-!
# C147: the cartesian grid in `f64`

`step`, `opp`, `target`, `OnBoundary`, `boundaryWrap` and `EntryFor` are the specification of `Verif/Cartesian/Spec.lean`.
-/

namespace Verif.Rounding.Mesh

open Verif.Cartesian Verif.Predicates Verif.Rounding

/-! ## Specification -/

/-- A box of sides which are far from underflow and overflow, a positive cell size and at least one rank. -/
def Valid (c : ConfigF) : Prop :=
  (1 / 2 ^ 400 ≤ c.side.x ∧ c.side.x ≤ 2 ^ 400) ∧ (1 / 2 ^ 400 ≤ c.side.y ∧ c.side.y ≤ 2 ^ 400) ∧
  (1 / 2 ^ 400 ≤ c.side.z ∧ c.side.z ≤ 2 ^ 400) ∧ 0 < c.cellSize ∧ 0 < c.worldSize ∧ c.worldSize < 2 ^ 31

/-- The vector is the unit vector of the `k`-th step: two components are exactly zero, the third is off by at most eight units. -/
def NearUnit (k : Fin 6) (n : P3 ℚ) : Prop :=
  match k with
  | 0 => |n.x + 1| ≤ 8 / 2 ^ 53 ∧ n.y = 0 ∧ n.z = 0
  | 1 => |n.x - 1| ≤ 8 / 2 ^ 53 ∧ n.y = 0 ∧ n.z = 0
  | 2 => n.x = 0 ∧ |n.y + 1| ≤ 8 / 2 ^ 53 ∧ n.z = 0
  | 3 => n.x = 0 ∧ |n.y - 1| ≤ 8 / 2 ^ 53 ∧ n.z = 0
  | 4 => n.x = 0 ∧ n.y = 0 ∧ |n.z + 1| ≤ 8 / 2 ^ 53
  | 5 => n.x = 0 ∧ n.y = 0 ∧ |n.z - 1| ≤ 8 / 2 ^ 53

/-- Opposite vectors up to 16 units of rounding. -/
def Opposite (n n' : P3 ℚ) : Prop := |n.x + n'.x| ≤ 16 / 2 ^ 53 ∧ |n.y + n'.y| ≤ 16 / 2 ^ 53 ∧ |n.z + n'.z| ≤ 16 / 2 ^ 53

/-! ### Lemmas -/

theorem sum_le {a b : ℚ} (h : |a + 1| ≤ 8 / 2 ^ 53) (h' : |b - 1| ≤ 8 / 2 ^ 53) : |a + b| ≤ 16 / 2 ^ 53 ∧ |b + a| ≤ 16 / 2 ^ 53 := by
  have e : a + b = (a + 1) + (b - 1) := by ring
  have : |a + b| ≤ 16 / 2 ^ 53 := by
    rw [e]
    refine (abs_add_le _ _).trans ((add_le_add h h').trans ?_)
    norm_num
  exact ⟨this, by rw [add_comm]; exact this⟩

theorem opposite {k : Fin 6} {n n' : P3 ℚ} (h : NearUnit k n) (h' : NearUnit (opp k) n') : Opposite n n' := by
  have z : |(0 : ℚ) + 0| ≤ 16 / 2 ^ 53 := by norm_num
  unfold Opposite
  match k with
  | 0 => exact ⟨(sum_le h.1 h'.1).1, by rw [h.2.1, h'.2.1]; exact z, by rw [h.2.2, h'.2.2]; exact z⟩
  | 1 => exact ⟨(sum_le h'.1 h.1).2, by rw [h.2.1, h'.2.1]; exact z, by rw [h.2.2, h'.2.2]; exact z⟩
  | 2 => exact ⟨by rw [h.1, h'.1]; exact z, (sum_le h.2.1 h'.2.1).1, by rw [h.2.2, h'.2.2]; exact z⟩
  | 3 => exact ⟨by rw [h.1, h'.1]; exact z, (sum_le h'.2.1 h.2.1).2, by rw [h.2.2, h'.2.2]; exact z⟩
  | 4 => exact ⟨by rw [h.1, h'.1]; exact z, by rw [h.2.1, h'.2.1]; exact z, (sum_le h.2.2 h'.2.2).1⟩
  | 5 => exact ⟨by rw [h.1, h'.1]; exact z, by rw [h.2.1, h'.2.1]; exact z, (sum_le h'.2.2 h.2.2).2⟩

theorem boundaryWrap_ne (k : Fin 6) : (boundaryWrap k) ≠ ⟨.noWrap, .noWrap, .noWrap⟩ := by
  fin_cases k <;> simp [boundaryWrap]

theorem step_opp (k : Fin 6) (p : IPos) : step (opp k) (step k p) = p := by
  fin_cases k <;> simp [step, opp]

theorem numCells_lt (c : ConfigF) : c.numCells.x < 2 ^ 31 ∧ c.numCells.y < 2 ^ 31 ∧ c.numCells.z < 2 ^ 31 :=
  ⟨toI32_lt _, toI32_lt _, toI32_lt _⟩

theorem toPos_eq (c : ConfigF) (p : IPos) :
    c.toPos p = ⟨coord c.side.x c.numCells.x p.x, coord c.side.y c.numCells.y p.y, coord c.side.z c.numCells.z p.z⟩ := rfl

/-- All normals. -/
theorem normal_spec (c : ConfigF) (hc : Valid c) (p : IPos) (hp : p.contained c.numCells = true) (k : Fin 6) :
    ∃ n, normalF (c.toPos p) (c.toPos (step k p)) = some n ∧ NearUnit k n := by
  obtain ⟨⟨x1, x2⟩, ⟨y1, y2⟩, ⟨z1, z2⟩, _⟩ := hc
  rw [contained_iff] at hp
  obtain ⟨⟨px, qx⟩, ⟨py, qy⟩, ⟨pz, qz⟩⟩ := hp
  obtain ⟨nx, ny, nz⟩ := numCells_lt c
  rw [toPos_eq, toPos_eq]
  match k with
  | 0 => exact ⟨_, normalF_x (unit_down x1 x2 nx px qx).1, (unit_down x1 x2 nx px qx).2, rfl, rfl⟩
  | 1 => exact ⟨_, normalF_x (unit_up x1 x2 nx px qx).1, (unit_up x1 x2 nx px qx).2, rfl, rfl⟩
  | 2 => exact ⟨_, normalF_y (unit_down y1 y2 ny py qy).1, rfl, (unit_down y1 y2 ny py qy).2, rfl⟩
  | 3 => exact ⟨_, normalF_y (unit_up y1 y2 ny py qy).1, rfl, (unit_up y1 y2 ny py qy).2, rfl⟩
  | 4 => exact ⟨_, normalF_z (unit_down z1 z2 nz pz qz).1, rfl, rfl, (unit_down z1 z2 nz pz qz).2⟩
  | 5 => exact ⟨_, normalF_z (unit_up z1 z2 nz pz qz).1, rfl, rfl, (unit_up z1 z2 nz pz qz).2⟩

theorem getRank_range (c : ConfigF) (hc : Valid c) (p : IPos) (hp : p.contained c.numCells = true) :
    0 ≤ c.getRank p ∧ c.getRank p < c.worldSize := by
  obtain ⟨⟨x1, -⟩, -, -, -, w0, w1⟩ := hc
  rw [contained_iff] at hp
  obtain ⟨⟨px, qx⟩, -, -⟩ := hp
  obtain ⟨h0, h1⟩ := rankCoord_range x1 (numCells_lt c).1 px qx w0
  have w1' : (c.worldSize : ℚ) < 2 ^ 31 := by exact_mod_cast w1
  have e : c.getRank p = ⌊rankCoord c.side.x c.numCells.x c.worldSize p.x⌋ := toI32_eq h0 (h1.trans w1')
  rw [e]
  refine ⟨Int.floor_nonneg.2 h0, ?_⟩
  rw [Int.floor_lt]
  exact_mod_cast h1

/-! ## C147 -/

/-- **C147 (number).** Per side there are as many cells as fit; one more if only rounding makes it fit. -/
theorem num_cells_f64 (L s : ℚ) (hL : 0 ≤ L) (hs : 0 < s) (h : L / s ≤ 2 ^ 31 - 1) :
    ⌊L / s⌋ ≤ toI32 (L ⊘ s) ∧ toI32 (L ⊘ s) ≤ ⌊L / s⌋ + 1 ∧
    (toI32 (L ⊘ s) = ⌊L / s⌋ + 1 → (toI32 (L ⊘ s) : ℚ) - L / s ≤ L / s / 2 ^ 53 + 1 / 2 ^ 1074) := by
  have q0 : 0 ≤ L / s := div_nonneg hL hs.le
  generalize hq : L / s = q at *
  have e : L ⊘ s = fl q := by rw [← hq]; rfl
  rw [e]
  have f0 : 0 ≤ ⌊q⌋ := Int.floor_nonneg.2 q0
  have f1 : ⌊q⌋ ≤ 2 ^ 31 - 1 := by
    have := Int.floor_le_floor h
    have e : ⌊(2 : ℚ) ^ 31 - 1⌋ = 2 ^ 31 - 1 := by norm_num
    omega
  have g1 : (⌊q⌋ : ℚ) ≤ fl q := by
    have := fl_mono (Int.floor_le q)
    rwa [fl_int (by rw [abs_of_nonneg f0]; omega)] at this
  have g2 : fl q ≤ ((⌊q⌋ + 1 : ℤ) : ℚ) := by
    have h1 : q ≤ ((⌊q⌋ + 1 : ℤ) : ℚ) := by push_cast; exact (Int.lt_floor_add_one q).le
    have := fl_mono h1
    rwa [fl_int (by rw [abs_of_nonneg (by omega)]; omega)] at this
  have g3 : fl q ≤ 2 ^ 31 - 1 := by
    have h1 : q ≤ ((2 ^ 31 - 1 : ℤ) : ℚ) := by norm_num at h ⊢; exact h
    have := fl_mono h1
    rw [fl_int (by norm_num)] at this
    norm_num at this ⊢
    exact this
  rw [toI32_eq (fl_nonneg q0) (by linarith)]
  refine ⟨Int.le_floor.2 g1, ?_, ?_⟩
  · have := Int.floor_le_floor g2
    rwa [Int.floor_intCast] at this
  · intro _
    have h2 := (abs_le.1 (fl_abs_err q)).2
    rw [abs_of_nonneg q0] at h2
    have := Int.floor_le (fl q)
    linarith

/-- **C147 (completeness).** The construction never panics and makes exactly one cell for each integer position. -/
theorem grid_complete_f64 (c : ConfigF) :
    ∃ cells, c.constructNeighbours = some cells ∧ (cells.map Prod.fst).Nodup ∧
      ∀ p : IPos, p ∈ cells.map Prod.fst ↔
        (0 ≤ p.x ∧ p.x < toI32 (c.side.x ⊘ c.cellSize)) ∧ (0 ≤ p.y ∧ p.y < toI32 (c.side.y ⊘ c.cellSize)) ∧
          (0 ≤ p.z ∧ p.z < toI32 (c.side.z ⊘ c.cellSize)) := by
  obtain ⟨cells, h1, h2, _⟩ := constructNeighbours_spec c
  refine ⟨cells, h1, ?_, ?_⟩
  · rw [h2]
    exact nodup_iterAll _
  · intro p
    rw [h2, mem_iterAll, contained_iff]
    rfl

/-- **C147 (positions).** The positions of cells in the list, in every coordinate, are those of an evenly spaced grid up to
`3/2^53` of the side of the box, and neighbouring positions are never computed to be the same. -/
theorem positions_accurate_f64 (c : ConfigF) (hc : Valid c) (p : IPos) (hp : p.contained c.numCells = true) :
    |((c.toPos p).x : ℝ) - c.side.x * p.x / c.numCells.x| ≤ 3 / 2 ^ 53 * c.side.x ∧
    |((c.toPos p).y : ℝ) - c.side.y * p.y / c.numCells.y| ≤ 3 / 2 ^ 53 * c.side.y ∧
    |((c.toPos p).z : ℝ) - c.side.z * p.z / c.numCells.z| ≤ 3 / 2 ^ 53 * c.side.z ∧
    ∀ k, c.toPos (step k p) ≠ c.toPos p := by
  have hall := normal_spec c hc p hp
  obtain ⟨⟨x1, -⟩, ⟨y1, -⟩, ⟨z1, -⟩, -⟩ := hc
  rw [contained_iff] at hp
  obtain ⟨⟨px, qx⟩, ⟨py, qy⟩, ⟨pz, qz⟩⟩ := hp
  obtain ⟨nx, ny, nz⟩ := numCells_lt c
  refine ⟨coord_near x1 nx (by omega) (by omega) (by omega), coord_near y1 ny (by omega) (by omega) (by omega),
    coord_near z1 nz (by omega) (by omega) (by omega), ?_⟩
  intro k h
  obtain ⟨n, hn, -⟩ := hall k
  rw [h] at hn
  unfold normalF at hn
  have e : subF (c.toPos p) (c.toPos p) = ⟨0, 0, 0⟩ := by
    unfold subF
    rw [sub_self', sub_self', sub_self']
  have z : sqrtF ((0 : ℚ) ⊠ 0) = 0 := by
    rw [zero_fmul]
    have h1 := sqrtF_le (x := 0) (R := 0) le_rfl le_rfl (by norm_num)
    have h2 := le_sqrtF (x := 0) (R := 0) le_rfl (by norm_num)
    rw [fl_zero] at h1 h2
    exact le_antisymm h1 h2
  rw [e, length_x, z, if_pos rfl] at hn
  exact absurd hn (by simp)

/-- **C147 (entries).** Every cell has exactly six faces.  The `k`-th one has an axis-parallel outward normal of length one up to
rounding (two of its components are exactly zero) and refers to the next cell in that direction, modulo the size of the grid, with an
entry of the right kind. -/
theorem neighbour_entries_f64 (c : ConfigF) (hc : Valid c) (cells : List (IPos × CellG))
    (hcells : c.constructNeighbours = some cells) (p : IPos) (cell : CellG) (hp : (p, cell) ∈ cells) :
    cell.neighbours.length = 6 ∧ ∀ k : Fin 6, ∃ own id f t n,
      c.lookupId p = some own ∧
      (∃ cell', (target k p c.numCells, cell') ∈ cells) ∧
      c.lookupId (target k p c.numCells) = some id ∧
      cell.neighbours[(k : ℕ)]? = some (f, t) ∧ f.normal = some n ∧ NearUnit k n ∧
      EntryFor c.periodic own.rank id (OnBoundary k p c.numCells) (boundaryWrap k) t := by
  obtain ⟨cells', h1, _, h3⟩ := constructNeighbours_spec c
  rw [hcells] at h1
  cases h1
  obtain ⟨hpc, hcell⟩ := (h3 p cell).1 hp
  obtain ⟨t, ht, hk⟩ := constructCell_spec c p hpc
  rw [hcell] at ht
  cases ht
  obtain ⟨own, ho, hor⟩ := c.lookupId_spec p hpc
  refine ⟨by simp, fun k => ?_⟩
  obtain ⟨id, hid, he⟩ := hk k
  have htc := target_contained k p _ hpc
  obtain ⟨t', ht', _⟩ := constructCell_spec c _ htc
  obtain ⟨n, hn, hnu⟩ := normal_spec c hc p hpc k
  refine ⟨own, id, ⟨c.faceArea, normalF (c.toPos p) (c.toPos (step k p))⟩, t k, n, ho, ⟨_, (h3 _ _).2 ⟨htc, ht'⟩⟩, hid, ?_, hn, hnu, ?_⟩
  · dsimp only
    rw [List.getElem?_map, List.getElem?_eq_getElem (by simp)]
    simp
  · rw [hor]
    exact he

/-- **C147 (areas and volumes).** Areas and volumes are those of cubes of the cell size, up to two and three units of rounding. -/
theorem areas_accurate_f64 (c : ConfigF) (hs : 1 / 2 ^ 300 ≤ c.cellSize) (cells : List (IPos × CellG))
    (hcells : c.constructNeighbours = some cells) (p : IPos) (cell : CellG) (hp : (p, cell) ∈ cells) :
    (∀ e ∈ cell.neighbours, |(e.1.area : ℝ) - c.cellSize ^ 2| ≤ 2 / 2 ^ 53 * c.cellSize ^ 2) ∧
    |(cell.volume : ℝ) - c.cellSize ^ 3| ≤ 3 / 2 ^ 53 * c.cellSize ^ 3 ∧ cell.size = c.cellSize := by
  obtain ⟨cells', h1, _, h3⟩ := constructNeighbours_spec c
  rw [hcells] at h1
  cases h1
  obtain ⟨hpc, hcell⟩ := (h3 p cell).1 hp
  obtain ⟨t, ht, hk⟩ := constructCell_spec c p hpc
  rw [hcell] at ht
  cases ht
  have l : LowBy 300 (c.cellSize : ℝ) := low_cast hs
  have r1 : Rounds 1 ((c.cellSize : ℝ) * c.cellSize) ((c.cellSize ⊠ c.cellSize : ℚ) : ℝ) :=
    (Rounds.refl _).fmul (Rounds.refl _) l.pos l.pos (by norm_num) ((l.mul l).weaken (by norm_num))
  have r2 : Rounds 2 ((c.cellSize : ℝ) * c.cellSize * c.cellSize) ((c.cellSize ⊠ c.cellSize ⊠ c.cellSize : ℚ) : ℝ) :=
    r1.fmul (Rounds.refl _) (l.mul l).pos l.pos (by norm_num) (((l.mul l).mul l).weaken (by norm_num))
  have e1 := r1.error (by norm_num) (l.mul l).pos
  have e2 := r2.error (by norm_num) ((l.mul l).mul l).pos
  have p2 : (c.cellSize : ℝ) ^ 2 = c.cellSize * c.cellSize := sq _
  have p3 : (c.cellSize : ℝ) ^ 3 = c.cellSize * c.cellSize * c.cellSize := by ring
  refine ⟨?_, ?_, rfl⟩
  · intro e he
    obtain ⟨k, -, rfl⟩ := List.mem_map.1 he
    rw [p2]
    refine e1.trans (le_of_eq ?_)
    norm_num
  · rw [p3]
    refine e2.trans (le_of_eq ?_)
    norm_num

/-- **C147 (pairs).** Faces come in matching pairs: if cell `a` has an entry for cell `b`, then `b` has an entry for
`a`, with the same area, the opposite wrap, and local exactly when the first one is.  The normals are opposite up to 16 units of
rounding, and exactly opposite inside of the box. -/
theorem faces_come_in_pairs_f64 (c : ConfigF) (hc : Valid c) (cells : List (IPos × CellG))
    (hcells : c.constructNeighbours = some cells) (a : IPos) (cellA : CellG) (ha : (a, cellA) ∈ cells)
    (f : FaceG) (t : PType) (hft : (f, t) ∈ cellA.neighbours) (hb : t ≠ .boundary) :
    ∃ b cellB f' t', (b, cellB) ∈ cells ∧ c.lookupId b = t.unwrapId ∧
      (f', t') ∈ cellB.neighbours ∧ c.lookupId a = t'.unwrapId ∧ t' ≠ .boundary ∧
      f'.area = f.area ∧
      (∃ n n', f.normal = some n ∧ f'.normal = some n' ∧ Opposite n n' ∧
        (t.wrap = ⟨.noWrap, .noWrap, .noWrap⟩ → n' = ⟨-n.x, -n.y, -n.z⟩)) ∧
      t'.wrap = oppWrap t.wrap ∧
      ((∃ id w, t = .loc id ∨ t = .localPeriodic id w) ↔
        (∃ id w, t' = .loc id ∨ t' = .localPeriodic id w)) := by
  obtain ⟨cells', h1, _, h3⟩ := constructNeighbours_spec c
  rw [hcells] at h1
  cases h1
  obtain ⟨hac, hcell⟩ := (h3 a cellA).1 ha
  obtain ⟨ta, hta, hka⟩ := constructCell_spec c a hac
  rw [hcell] at hta
  cases hta
  obtain ⟨k, _, hk⟩ := List.mem_map.1 hft
  rw [Prod.mk.injEq] at hk
  obtain ⟨rfl, rfl⟩ := hk
  have hbc := target_contained k a _ hac
  obtain ⟨hopp, hbo⟩ := target_opp k a _ hac
  obtain ⟨tb, htb, hkb⟩ := constructCell_spec c _ hbc
  obtain ⟨idb, hidb, heb⟩ := hka k
  obtain ⟨ida, hida, hea⟩ := hkb (opp k)
  rw [hopp] at hida
  obtain ⟨ida', hida', hra⟩ := c.lookupId_spec a hac
  rw [hida] at hida'
  cases hida'
  obtain ⟨idb', hidb', hrb⟩ := c.lookupId_spec _ hbc
  rw [hidb] at hidb'
  cases hidb'
  have hw : boundaryWrap (opp k) = oppWrap (boundaryWrap k) := by fin_cases k <;> rfl
  have main : (ta k).unwrapId = some idb ∧ (tb (opp k)).unwrapId = some ida ∧
      tb (opp k) ≠ .boundary ∧ (tb (opp k)).wrap = oppWrap (ta k).wrap ∧
      ((∃ id w, ta k = .loc id ∨ ta k = .localPeriodic id w) ↔
        (∃ id w, tb (opp k) = .loc id ∨ tb (opp k) = .localPeriodic id w)) := by
    rw [← hrb] at hea
    rw [← hra] at heb
    generalize ta k = x at *
    generalize tb (opp k) = y at *
    rw [hw] at hea
    cases heb with
    | boundary => exact absurd rfl hb
    | loc hB hr =>
      cases hea with
      | loc => simp [PType.unwrapId, PType.wrap, oppWrap, oppWrapType]
      | remote _ hr' => exact absurd hr.symm hr'
      | localPeriodic hB' => exact absurd (hbo.1 hB') hB
      | remotePeriodic hB' => exact absurd (hbo.1 hB') hB
      | boundary hB' => exact absurd (hbo.1 hB') hB
    | remote hB hr =>
      cases hea with
      | loc _ hr' => exact absurd hr'.symm hr
      | remote _ hr' => simp [PType.unwrapId, PType.wrap, oppWrap, oppWrapType]
      | localPeriodic hB' => exact absurd (hbo.1 hB') hB
      | remotePeriodic hB' => exact absurd (hbo.1 hB') hB
      | boundary hB' => exact absurd (hbo.1 hB') hB
    | localPeriodic hB hper hr =>
      cases hea with
      | loc hB' => exact absurd (hbo.2 hB) hB'
      | remote hB' => exact absurd (hbo.2 hB) hB'
      | localPeriodic => simp [PType.unwrapId, PType.wrap]
      | remotePeriodic _ _ hr' => exact absurd hr.symm hr'
      | boundary _ hper' => rw [hper] at hper'; exact absurd hper' (by decide)
    | remotePeriodic hB hper hr =>
      cases hea with
      | loc hB' => exact absurd (hbo.2 hB) hB'
      | remote hB' => exact absurd (hbo.2 hB) hB'
      | localPeriodic _ _ hr' => exact absurd hr'.symm hr
      | remotePeriodic _ _ hr' => simp [PType.unwrapId, PType.wrap]
      | boundary _ hper' => rw [hper] at hper'; exact absurd hper' (by decide)
  obtain ⟨m1, m2, m3, m4, m5⟩ := main
  refine ⟨_, _, ⟨c.faceArea, normalF (c.toPos (target k a c.numCells)) (c.toPos (step (opp k) (target k a c.numCells)))⟩,
    tb (opp k), (h3 _ _).2 ⟨hbc, htb⟩, ?_, ?_, ?_, m3, rfl, ?_, m4, m5⟩
  · rw [hidb, m1]
  · exact List.mem_map.2 ⟨opp k, List.mem_finRange _, rfl⟩
  · rw [hida, m2]
  · obtain ⟨n, hn, hnu⟩ := normal_spec c hc a hac k
    obtain ⟨n', hn', hnu'⟩ := normal_spec c hc _ hbc (opp k)
    refine ⟨n, n', hn, hn', opposite hnu hnu', ?_⟩
    intro hwrap
    have hin : ¬ OnBoundary k a c.numCells := by
      intro hB
      generalize ta k = x at *
      cases heb with
      | boundary => exact absurd rfl hb
      | loc h => exact h hB
      | remote h => exact h hB
      | localPeriodic => exact boundaryWrap_ne k hwrap
      | remotePeriodic => exact boundaryWrap_ne k hwrap
    have hst : target k a c.numCells = step k a := by
      have hcon : (step k a).contained c.numCells = true := by
        by_contra h
        exact hin ((not_contained_step k a c.numCells hac).1 h)
      rw [← wrapped_eq_target k a c.numCells hac, (wrapped_step k a _ hac).2.2.2 hcon]
    rw [hst, step_opp, normalF_neg, hn] at hn'
    exact (Option.some.inj hn').symm

/-- **C147 (ids).** Different cells have different ids, and the rank of an id is one of the ranks. -/
theorem ids_unique_f64 (c : ConfigF) (hc : Valid c) (cells : List (IPos × CellG))
    (hcells : c.constructNeighbours = some cells) (p q : IPos)
    (hp : p ∈ cells.map Prod.fst) (hq : q ∈ cells.map Prod.fst) :
    (∃ id, c.lookupId p = some id ∧ 0 ≤ id.rank ∧ id.rank < c.worldSize) ∧
      (c.lookupId p = c.lookupId q → p = q) := by
  obtain ⟨cells', h1, h2, _⟩ := constructNeighbours_spec c
  rw [hcells] at h1
  cases h1
  rw [h2, mem_iterAll] at hp hq
  obtain ⟨id, hid, hr⟩ := c.lookupId_spec p hp
  have := getRank_range c hc p hp
  exact ⟨⟨id, hid, by omega, by omega⟩, c.lookupId_inj p q hp hq⟩

/-- **C147 (ranks).** Every cell is local on exactly the rank of its id; a rank holds as halo cells exactly the cells of
other ranks which are a neighbour of one of its own cells, marked with the rank owning them. -/
theorem local_and_halo_cells_f64 (c : ConfigF) (hc : Valid c) (cells : List (IPos × CellG))
    (hcells : c.constructNeighbours = some cells) (p : IPos) (cell : CellG) (hp : (p, cell) ∈ cells)
    (own : PId) (hown : c.lookupId p = some own) (self r : ℤ) :
    (c.spawn self p cell = .localCell ↔ own.rank = self) ∧
    (c.spawn self p cell = .halo r ↔ r = own.rank ∧ own.rank ≠ self ∧
      ∃ q cell' id' f t, (q, cell') ∈ cells ∧ c.lookupId q = some id' ∧ id'.rank = self ∧
        (f, t) ∈ cell'.neighbours ∧ t.unwrapId = some own) := by
  obtain ⟨cells', h1, _, h3⟩ := constructNeighbours_spec c
  have h1' := hcells
  rw [h1] at h1'
  cases h1'
  obtain ⟨hpc, hcell⟩ := (h3 p cell).1 hp
  obtain ⟨own', ho, hor⟩ := c.lookupId_spec p hpc
  rw [hown] at ho
  cases ho
  -- an entry of `p` refers to rank `self` iff a cell on rank `self` has an entry for `p`
  have key : own.rank ≠ self → ((cell.neighbours.any fun n => n.2.refersTo self) = true ↔
      ∃ q cell' id' f t, (q, cell') ∈ cells ∧ c.lookupId q = some id' ∧ id'.rank = self ∧
        (f, t) ∈ cell'.neighbours ∧ t.unwrapId = some own) := by
    intro hne
    obtain ⟨tp, htp, hkp⟩ := constructCell_spec c p hpc
    rw [hcell] at htp
    cases htp
    rw [List.any_eq_true]
    constructor
    · rintro ⟨⟨f, t⟩, hft, href⟩
      have htb : t ≠ .boundary := by
        rintro rfl
        simp [PType.refersTo] at href
      obtain ⟨b, cellB, f', t', hbm, hbid, hft', haid, _⟩ :=
        faces_come_in_pairs_f64 c hc cells h1 p _ hp f t hft htb
      obtain ⟨k, _, hk⟩ := List.mem_map.1 hft
      rw [Prod.mk.injEq] at hk
      obtain ⟨rfl, rfl⟩ := hk
      obtain ⟨idb, hidb, he⟩ := hkp k
      rw [hown] at haid
      have : ∃ id', (tp k).unwrapId = some id' ∧ id'.rank = self := by
        revert href he
        generalize tp k = x
        intro href he
        cases he with
        | remote => exact ⟨idb, rfl, by simpa [PType.refersTo] using href⟩
        | remotePeriodic => exact ⟨idb, rfl, by simpa [PType.refersTo] using href⟩
        | loc => simp [PType.refersTo] at href
        | localPeriodic => simp [PType.refersTo] at href
        | boundary => simp [PType.refersTo] at href
      obtain ⟨id', hi1, hi2⟩ := this
      exact ⟨b, cellB, id', f', t', hbm, by rw [hbid, hi1], hi2, hft', haid.symm⟩
    · rintro ⟨q, cell', id', f, t, hq, hqid, hqr, hft, htid⟩
      have htb : t ≠ .boundary := by
        rintro rfl
        simp [PType.unwrapId] at htid
      obtain ⟨b, cellB, f', t', hbm, hbid, hft', haid, htb', _⟩ :=
        faces_come_in_pairs_f64 c hc cells h1 q _ hq f t hft htb
      rw [htid, ← hown] at hbid
      obtain ⟨hbc, hbcell⟩ := (h3 b cellB).1 hbm
      have hbp := c.lookupId_inj b p hbc hpc hbid
      subst hbp
      rw [hcell] at hbcell
      have hcb := Option.some.inj hbcell
      subst hcb
      refine ⟨(f', t'), hft', ?_⟩
      obtain ⟨k, _, hk⟩ := List.mem_map.1 hft'
      rw [Prod.mk.injEq] at hk
      obtain ⟨rfl, rfl⟩ := hk
      obtain ⟨idk, hidk, he⟩ := hkp k
      rw [hqid] at haid
      revert haid he htb'
      generalize tp k = x
      intro haid htb' he
      cases he with
      | remote _ hr =>
        cases haid
        simpa [PType.refersTo] using hqr
      | remotePeriodic _ _ hr =>
        cases haid
        simpa [PType.refersTo] using hqr
      | loc _ hr =>
        cases haid
        exact absurd (by rw [hor, ← hr, hqr]) hne
      | localPeriodic _ _ hr =>
        cases haid
        exact absurd (by rw [hor, ← hr, hqr]) hne
      | boundary => exact absurd rfl htb'
  unfold ConfigF.spawn
  dsimp only
  rw [← hor]
  by_cases h : own.rank = self
  · rw [if_pos h]
    refine ⟨⟨fun _ => h, fun _ => rfl⟩, ⟨fun h' => ?_, fun h' => absurd h h'.2.1⟩⟩
    cases h'
  · rw [if_neg h]
    have hk := key h
    by_cases ha : (cell.neighbours.any fun n => n.2.refersTo self) = true
    · rw [if_pos ha]
      refine ⟨⟨fun h' => (by cases h'), fun h' => absurd h' h⟩, ?_⟩
      constructor
      · intro h'
        cases h'
        exact ⟨rfl, h, hk.1 ha⟩
      · rintro ⟨rfl, _, _⟩
        rfl
    · rw [if_neg ha]
      refine ⟨⟨fun h' => (by cases h'), fun h' => absurd h' h⟩, ?_⟩
      constructor
      · intro h'
        cases h'
      · rintro ⟨_, _, h'⟩
        exact absurd (hk.2 h') ha

/-- **C147 (slabs).** Ranks increase along the first axis: every rank holds a slab of the box. -/
theorem ranks_are_slabs_f64 (c : ConfigF) (hc : Valid c) (p q : IPos) (hp : p.contained c.numCells = true) (h : p.x ≤ q.x) :
    c.getRank p ≤ c.getRank q := by
  have s0 : (0 : ℚ) < c.side.x := lt_of_lt_of_le (by positivity) hc.1.1
  rw [contained_iff] at hp
  exact toI32_mono (rankCoord_mono s0 (by omega) c.worldSize h)

/-- **C147 (disagreement 81).** A box of side 0.3 has two, not three cells of size 0.1 per side: the cells hold 0.008 of the volume
0.027. -/
theorem cells_lost_f64 : ∃ c : ConfigF, c.side = ⟨fl (3 / 10), fl (3 / 10), fl (3 / 10)⟩ ∧ c.cellSize = fl (1 / 10) ∧
    c.numCells = ⟨2, 2, 2⟩ :=
  ⟨⟨⟨fl (3 / 10), fl (3 / 10), fl (3 / 10)⟩, fl (1 / 10), 1, true⟩, rfl, rfl, by decide +kernel⟩

/-! ## The hypotheses are met -/

/-- A periodic box of 10 by 5 by 1 cells of size 0.1 on two ranks. -/
def exampleConfig : ConfigF := ⟨⟨1, fl (1 / 2), fl (1 / 10)⟩, fl (1 / 10), 2, true⟩

example : Valid exampleConfig := by
  unfold Valid exampleConfig
  decide +kernel

example : exampleConfig.numCells = ⟨10, 5, 1⟩ ∧ exampleConfig.getRank ⟨9, 0, 0⟩ = 1 ∧ exampleConfig.getRank ⟨4, 2, 0⟩ = 0 ∧
    (⟨9, 0, 0⟩ : IPos).contained exampleConfig.numCells = true := by decide +kernel

end Verif.Rounding.Mesh
