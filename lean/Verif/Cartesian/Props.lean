import Verif.Cartesian.EntryLemmas
import Mathlib.Tactic.NormNum

/-!
# C37: the cartesian grid is a consistent mesh

`Config.Valid` says that the box and the cell size are positive and that there is a rank.
`step`, `opp`, `unit`, `target`, `OnBoundary`, `boundaryWrap` and `EntryFor` are the specification of
`Verif/Cartesian/Spec.lean`.
-/

namespace Verif.Cartesian

open Verif.Geometry (WrapType)

/-- The construction never panics and makes exactly one cell for each of the
`⌊L_x / s⌋ · ⌊L_y / s⌋ · ⌊L_z / s⌋` integer positions. -/
theorem construction_complete (c : Config) (hc : c.Valid) :
    ∃ cells, c.constructNeighbours = some cells ∧ (cells.map Prod.fst).Nodup ∧
      ∀ p : IPos, p ∈ cells.map Prod.fst ↔
        (0 ≤ p.x ∧ p.x < ⌊c.side.x / c.cellSize⌋) ∧ (0 ≤ p.y ∧ p.y < ⌊c.side.y / c.cellSize⌋) ∧
          (0 ≤ p.z ∧ p.z < ⌊c.side.z / c.cellSize⌋) := by
  obtain ⟨cells, h1, h2, _⟩ := constructNeighbours_spec c hc
  refine ⟨cells, h1, ?_, ?_⟩
  · rw [h2]
    exact nodup_iterAll _
  · intro p
    rw [h2, mem_iterAll, contained_iff]
    rfl

/-- Every cell has exactly six faces, one per axis and direction, with axis-parallel outward unit
normals and the area of a cube face. -/
theorem six_faces (c : Config) (hc : c.Valid) (cells : List (IPos × Cell))
    (hcells : c.constructNeighbours = some cells) (p : IPos) (cell : Cell) (hp : (p, cell) ∈ cells) :
    cell.neighbours.map (fun e => e.1.normal)
      = [⟨-1, 0, 0⟩, ⟨1, 0, 0⟩, ⟨0, -1, 0⟩, ⟨0, 1, 0⟩, ⟨0, 0, -1⟩, ⟨0, 0, 1⟩] ∧
    (∀ e ∈ cell.neighbours, e.1.area = c.cellSize * c.cellSize) ∧
    cell.volume = c.cellSize * c.cellSize * c.cellSize := by
  obtain ⟨cells', h1, _, h3⟩ := constructNeighbours_spec c hc
  rw [hcells] at h1
  cases h1
  obtain ⟨hpc, hcell⟩ := (h3 p cell).1 hp
  obtain ⟨t, ht, _⟩ := constructCell_spec c hc p hpc
  rw [hcell] at ht
  cases ht
  refine ⟨?_, ?_, by show c.cellSize ^ 3 = _; ring⟩
  · rw [List.map_map]
    rfl
  · intro e he
    obtain ⟨k, _, rfl⟩ := List.mem_map.1 he
    show c.cellSize ^ 2 = _
    ring

/-- The `k`-th entry of a cell refers to the next cell in that direction, modulo the size of the
grid: it is a local entry exactly when both cells are on the same rank, it names the rank owning the
neighbour otherwise, it is a periodic entry (with the wrap of that side of the box) exactly when the
face is on the boundary of a periodic box, and it is `Boundary` exactly when the face is on the
boundary of a box which is not periodic. -/
theorem neighbour_entries (c : Config) (hc : c.Valid) (cells : List (IPos × Cell))
    (hcells : c.constructNeighbours = some cells) (p : IPos) (cell : Cell) (hp : (p, cell) ∈ cells)
    (k : Fin 6) : ∃ own id f t,
      c.lookupId p = some own ∧
      (∃ cell', (target k p c.numCells, cell') ∈ cells) ∧
      c.lookupId (target k p c.numCells) = some id ∧
      cell.neighbours[(k : ℕ)]? = some (f, t) ∧ f.normal = unit k ∧
      EntryFor c.periodic own.rank id (OnBoundary k p c.numCells) (boundaryWrap k) t := by
  obtain ⟨cells', h1, _, h3⟩ := constructNeighbours_spec c hc
  rw [hcells] at h1
  cases h1
  obtain ⟨hpc, hcell⟩ := (h3 p cell).1 hp
  obtain ⟨t, ht, hk⟩ := constructCell_spec c hc p hpc
  rw [hcell] at ht
  cases ht
  obtain ⟨own, ho, hor⟩ := c.lookupId_spec p hpc
  obtain ⟨id, hid, he⟩ := hk k
  have htc := target_contained k p _ hpc
  obtain ⟨t', ht', _⟩ := constructCell_spec c hc _ htc
  refine ⟨own, id, ⟨c.cellSize ^ 2, unit k⟩, t k, ho, ⟨_, (h3 _ _).2 ⟨htc, ht'⟩⟩, hid, ?_, rfl, ?_⟩
  · dsimp only
    rw [List.getElem?_map, List.getElem?_eq_getElem (by simp)]
    simp
  · rw [hor]
    exact he

/-- Faces come in matching pairs: if cell `a` has an entry for cell `b`, then `b` has an entry for
`a`, with the same area, the opposite normal, the opposite wrap, and local exactly when the first one
is. -/
theorem faces_come_in_pairs (c : Config) (hc : c.Valid) (cells : List (IPos × Cell))
    (hcells : c.constructNeighbours = some cells) (a : IPos) (cellA : Cell) (ha : (a, cellA) ∈ cells)
    (f : Face) (t : PType) (hft : (f, t) ∈ cellA.neighbours) (hb : t ≠ .boundary) :
    ∃ b cellB f' t', (b, cellB) ∈ cells ∧ c.lookupId b = t.unwrapId ∧
      (f', t') ∈ cellB.neighbours ∧ c.lookupId a = t'.unwrapId ∧ t' ≠ .boundary ∧
      f'.area = f.area ∧ f'.normal = ⟨-f.normal.x, -f.normal.y, -f.normal.z⟩ ∧
      t'.wrap = oppWrap t.wrap ∧
      ((∃ id w, t = .loc id ∨ t = .localPeriodic id w) ↔
        (∃ id w, t' = .loc id ∨ t' = .localPeriodic id w)) := by
  obtain ⟨cells', h1, _, h3⟩ := constructNeighbours_spec c hc
  rw [hcells] at h1
  cases h1
  obtain ⟨hac, hcell⟩ := (h3 a cellA).1 ha
  obtain ⟨ta, hta, hka⟩ := constructCell_spec c hc a hac
  rw [hcell] at hta
  cases hta
  obtain ⟨k, _, hk⟩ := List.mem_map.1 hft
  rw [Prod.mk.injEq] at hk
  obtain ⟨rfl, rfl⟩ := hk
  have hbc := target_contained k a _ hac
  obtain ⟨hopp, hbo⟩ := target_opp k a _ hac
  obtain ⟨tb, htb, hkb⟩ := constructCell_spec c hc _ hbc
  obtain ⟨idb, hidb, heb⟩ := hka k
  obtain ⟨ida, hida, hea⟩ := hkb (opp k)
  rw [hopp] at hida
  obtain ⟨ida', hida', hra⟩ := c.lookupId_spec a hac
  rw [hida] at hida'
  cases hida'
  obtain ⟨idb', hidb', hrb⟩ := c.lookupId_spec _ hbc
  rw [hidb] at hidb'
  cases hidb'
  have hw : boundaryWrap (opp k) = oppWrap (boundaryWrap k) := by fin_cases k <;> rfl
  have hu : unit (opp k) = ⟨-(unit k).x, -(unit k).y, -(unit k).z⟩ := by
    fin_cases k <;> simp [unit, opp]
  have main : (ta k).unwrapId = some idb ∧ (tb (opp k)).unwrapId = some ida ∧
      tb (opp k) ≠ .boundary ∧ (tb (opp k)).wrap = oppWrap (ta k).wrap ∧
      ((∃ id w, ta k = .loc id ∨ ta k = .localPeriodic id w) ↔
        (∃ id w, tb (opp k) = .loc id ∨ tb (opp k) = .localPeriodic id w)) := by
    rw [← hrb] at hea
    rw [← hra] at heb
    generalize ta k = x at *
    generalize tb (opp k) = y at *
    rw [hw] at hea
    cases heb with
    | boundary => exact absurd rfl hb
    | loc hB hr =>
      cases hea with
      | loc => simp [PType.unwrapId, PType.wrap, oppWrap, oppWrapType]
      | remote _ hr' => exact absurd hr.symm hr'
      | localPeriodic hB' => exact absurd (hbo.1 hB') hB
      | remotePeriodic hB' => exact absurd (hbo.1 hB') hB
      | boundary hB' => exact absurd (hbo.1 hB') hB
    | remote hB hr =>
      cases hea with
      | loc _ hr' => exact absurd hr'.symm hr
      | remote _ hr' => simp [PType.unwrapId, PType.wrap, oppWrap, oppWrapType]
      | localPeriodic hB' => exact absurd (hbo.1 hB') hB
      | remotePeriodic hB' => exact absurd (hbo.1 hB') hB
      | boundary hB' => exact absurd (hbo.1 hB') hB
    | localPeriodic hB hper hr =>
      cases hea with
      | loc hB' => exact absurd (hbo.2 hB) hB'
      | remote hB' => exact absurd (hbo.2 hB) hB'
      | localPeriodic => simp [PType.unwrapId, PType.wrap]
      | remotePeriodic _ _ hr' => exact absurd hr.symm hr'
      | boundary _ hper' => rw [hper] at hper'; exact absurd hper' (by decide)
    | remotePeriodic hB hper hr =>
      cases hea with
      | loc hB' => exact absurd (hbo.2 hB) hB'
      | remote hB' => exact absurd (hbo.2 hB) hB'
      | localPeriodic _ _ hr' => exact absurd hr'.symm hr
      | remotePeriodic _ _ hr' => simp [PType.unwrapId, PType.wrap]
      | boundary _ hper' => rw [hper] at hper'; exact absurd hper' (by decide)
  obtain ⟨m1, m2, m3, m4, m5⟩ := main
  refine ⟨_, _, ⟨c.cellSize ^ 2, unit (opp k)⟩, tb (opp k), (h3 _ _).2 ⟨hbc, htb⟩, ?_, ?_, ?_, m3, rfl,
    hu, m4, m5⟩
  · rw [hidb, m1]
  · exact List.mem_map.2 ⟨opp k, List.mem_finRange _, rfl⟩
  · rw [hida, m2]

/-- Different cells have different ids, and the rank of an id is one of the ranks. -/
theorem ids_unique (c : Config) (hc : c.Valid) (cells : List (IPos × Cell))
    (hcells : c.constructNeighbours = some cells) (p q : IPos)
    (hp : p ∈ cells.map Prod.fst) (hq : q ∈ cells.map Prod.fst) :
    (∃ id, c.lookupId p = some id ∧ 0 ≤ id.rank ∧ id.rank < c.worldSize) ∧
      (c.lookupId p = c.lookupId q → p = q) := by
  obtain ⟨cells', h1, h2, _⟩ := constructNeighbours_spec c hc
  rw [hcells] at h1
  cases h1
  rw [h2, mem_iterAll] at hp hq
  obtain ⟨id, hid, hr⟩ := c.lookupId_spec p hp
  have := getRank_range c hc p hp
  exact ⟨⟨id, hid, by omega, by omega⟩, c.lookupId_inj p q hp hq⟩

/-- Every cell is local on exactly the rank of its id; a rank holds as halo cells exactly the cells of
other ranks which are a neighbour of one of its own cells, marked with the rank owning them. -/
theorem local_and_halo_cells (c : Config) (hc : c.Valid) (cells : List (IPos × Cell))
    (hcells : c.constructNeighbours = some cells) (p : IPos) (cell : Cell) (hp : (p, cell) ∈ cells)
    (own : PId) (hown : c.lookupId p = some own) (self r : ℤ) :
    (c.spawn self p cell = .localCell ↔ own.rank = self) ∧
    (c.spawn self p cell = .halo r ↔ r = own.rank ∧ own.rank ≠ self ∧
      ∃ q cell' id' f t, (q, cell') ∈ cells ∧ c.lookupId q = some id' ∧ id'.rank = self ∧
        (f, t) ∈ cell'.neighbours ∧ t.unwrapId = some own) := by
  obtain ⟨cells', h1, _, h3⟩ := constructNeighbours_spec c hc
  have h1' := hcells
  rw [h1] at h1'
  cases h1'
  obtain ⟨hpc, hcell⟩ := (h3 p cell).1 hp
  obtain ⟨own', ho, hor⟩ := c.lookupId_spec p hpc
  rw [hown] at ho
  cases ho
  -- an entry of `p` refers to rank `self` iff a cell on rank `self` has an entry for `p`
  have key : own.rank ≠ self → ((cell.neighbours.any fun n => n.2.refersTo self) = true ↔
      ∃ q cell' id' f t, (q, cell') ∈ cells ∧ c.lookupId q = some id' ∧ id'.rank = self ∧
        (f, t) ∈ cell'.neighbours ∧ t.unwrapId = some own) := by
    intro hne
    obtain ⟨tp, htp, hkp⟩ := constructCell_spec c hc p hpc
    rw [hcell] at htp
    cases htp
    rw [List.any_eq_true]
    constructor
    · rintro ⟨⟨f, t⟩, hft, href⟩
      have htb : t ≠ .boundary := by
        rintro rfl
        simp [PType.refersTo] at href
      obtain ⟨b, cellB, f', t', hbm, hbid, hft', haid, _⟩ :=
        faces_come_in_pairs c hc cells h1 p _ hp f t hft htb
      obtain ⟨k, _, hk⟩ := List.mem_map.1 hft
      rw [Prod.mk.injEq] at hk
      obtain ⟨rfl, rfl⟩ := hk
      obtain ⟨idb, hidb, he⟩ := hkp k
      rw [hown] at haid
      have : ∃ id', (tp k).unwrapId = some id' ∧ id'.rank = self := by
        revert href he
        generalize tp k = x
        intro href he
        cases he with
        | remote => exact ⟨idb, rfl, by simpa [PType.refersTo] using href⟩
        | remotePeriodic => exact ⟨idb, rfl, by simpa [PType.refersTo] using href⟩
        | loc => simp [PType.refersTo] at href
        | localPeriodic => simp [PType.refersTo] at href
        | boundary => simp [PType.refersTo] at href
      obtain ⟨id', hi1, hi2⟩ := this
      exact ⟨b, cellB, id', f', t', hbm, by rw [hbid, hi1], hi2, hft', haid.symm⟩
    · rintro ⟨q, cell', id', f, t, hq, hqid, hqr, hft, htid⟩
      have htb : t ≠ .boundary := by
        rintro rfl
        simp [PType.unwrapId] at htid
      obtain ⟨b, cellB, f', t', hbm, hbid, hft', haid, htb', _⟩ :=
        faces_come_in_pairs c hc cells h1 q _ hq f t hft htb
      rw [htid, ← hown] at hbid
      obtain ⟨hbc, hbcell⟩ := (h3 b cellB).1 hbm
      have hbp := c.lookupId_inj b p hbc hpc hbid
      subst hbp
      rw [hcell] at hbcell
      have hcb := Option.some.inj hbcell
      subst hcb
      refine ⟨(f', t'), hft', ?_⟩
      obtain ⟨k, _, hk⟩ := List.mem_map.1 hft'
      rw [Prod.mk.injEq] at hk
      obtain ⟨rfl, rfl⟩ := hk
      obtain ⟨idk, hidk, he⟩ := hkp k
      rw [hqid] at haid
      revert haid he htb'
      generalize tp k = x
      intro haid htb' he
      cases he with
      | remote _ hr =>
        cases haid
        simpa [PType.refersTo] using hqr
      | remotePeriodic _ _ hr =>
        cases haid
        simpa [PType.refersTo] using hqr
      | loc _ hr =>
        cases haid
        exact absurd (by rw [hor, ← hr, hqr]) hne
      | localPeriodic _ _ hr =>
        cases haid
        exact absurd (by rw [hor, ← hr, hqr]) hne
      | boundary => exact absurd rfl htb'
  unfold Config.spawn
  dsimp only
  rw [← hor]
  by_cases h : own.rank = self
  · rw [if_pos h]
    refine ⟨⟨fun _ => h, fun _ => rfl⟩, ⟨fun h' => ?_, fun h' => absurd h h'.2.1⟩⟩
    cases h'
  · rw [if_neg h]
    have hk := key h
    by_cases ha : (cell.neighbours.any fun n => n.2.refersTo self) = true
    · rw [if_pos ha]
      refine ⟨⟨fun h' => (by cases h'), fun h' => absurd h' h⟩, ?_⟩
      constructor
      · intro h'
        cases h'
        exact ⟨rfl, h, hk.1 ha⟩
      · rintro ⟨rfl, _, _⟩
        rfl
    · rw [if_neg ha]
      refine ⟨⟨fun h' => (by cases h'), fun h' => absurd h' h⟩, ?_⟩
      constructor
      · intro h'
        cases h'
      · rintro ⟨_, _, h'⟩
        exact absurd (hk.2 h') ha

/-! ## Volumes -/

theorem sum_volumes (cells : List (IPos × Cell)) (v : ℝ) (h : ∀ x ∈ cells, x.2.volume = v) :
    (cells.map fun x => x.2.volume).sum = cells.length * v := by
  induction cells with
  | nil => simp
  | cons x xs ih =>
    rw [List.map_cons, List.sum_cons, ih (fun y hy => h y (by simp [hy])), h x (by simp)]
    push_cast [List.length_cons]
    ring

theorem length_iterAll (n : IPos) :
    n.iterAllContained.length = n.x.toNat * n.y.toNat * n.z.toNat := by
  have const : ∀ (l : List ℤ) (m : ℕ), (l.map fun _ => m).sum = l.length * m := by
    intro l m
    induction l with
    | nil => simp
    | cons a l ih =>
      rw [List.map_cons, List.sum_cons, ih, List.length_cons]
      ring
  have len : ∀ m : ℤ, (rangeZ m).length = m.toNat := by
    intro m
    simp [rangeZ]
  simp only [IPos.iterAllContained, List.length_flatMap, List.length_map, const, len]
  ring

/-- If the cell size divides the sides of the box, the volumes of the cells add up to the volume of
the box. -/
theorem volumes_fill_box_when_divisible (c : Config) (hc : c.Valid) (cells : List (IPos × Cell))
    (hcells : c.constructNeighbours = some cells) (nx ny nz : ℕ) (hx : c.side.x = nx * c.cellSize)
    (hy : c.side.y = ny * c.cellSize) (hz : c.side.z = nz * c.cellSize) :
    (cells.map fun x => x.2.volume).sum = c.side.x * c.side.y * c.side.z := by
  have hvol : ∀ x ∈ cells, x.2.volume = c.cellSize * c.cellSize * c.cellSize :=
    fun x hx => (six_faces c hc cells hcells x.1 x.2 hx).2.2
  rw [sum_volumes cells _ hvol]
  obtain ⟨cells', h1, h2, _⟩ := constructNeighbours_spec c hc
  rw [hcells] at h1
  cases h1
  have hs : c.cellSize ≠ 0 := hc.2.2.2.1.ne'
  have hl : cells.length = c.numCells.iterAllContained.length := by rw [← h2, List.length_map]
  have hn : c.numCells = ⟨nx, ny, nz⟩ := by
    simp only [Config.numCells, fromPositionAndSideLength, hx, hy, hz, mul_div_assoc, div_self hs,
      mul_one, Int.floor_natCast]
  rw [hl, length_iterAll, hn, hx, hy, hz]
  simp
  ring

/-- They do not in general: the number of cells per side is rounded down, the positions are spread
over the whole box, but areas and volumes are those of the unrounded cell size.  A box of side 10 with
cell size 3 has 27 cells of volume 27, which is 729 of the 1000. -/
theorem volumes_do_not_fill_box : ∃ c : Config, c.Valid ∧ ∃ cells,
    c.constructNeighbours = some cells ∧
      (cells.map fun x => x.2.volume).sum = 729 ∧ c.side.x * c.side.y * c.side.z = 1000 := by
  let c : Config := ⟨⟨10, 10, 10⟩, 3, 1, true⟩
  have hc : c.Valid := by
    refine ⟨?_, ?_, ?_, ?_, ?_⟩ <;> norm_num [c]
  obtain ⟨cells, h1, h2, _⟩ := constructNeighbours_spec c hc
  refine ⟨c, hc, cells, h1, ?_, by norm_num [c]⟩
  have hvol : ∀ x ∈ cells, x.2.volume = c.cellSize * c.cellSize * c.cellSize :=
    fun x hx => (six_faces c hc cells h1 x.1 x.2 hx).2.2
  rw [sum_volumes cells _ hvol]
  have hl : cells.length = c.numCells.iterAllContained.length := by rw [← h2, List.length_map]
  have hn : c.numCells = ⟨3, 3, 3⟩ := by
    simp only [Config.numCells, fromPositionAndSideLength, c, IPos.mk.injEq]
    have : ⌊(10 : ℝ) / 3⌋ = 3 := by
      rw [Int.floor_eq_iff]
      norm_num
    exact ⟨this, this, this⟩
  have h27 : (⟨3, 3, 3⟩ : IPos).iterAllContained.length = 27 := by
    rw [length_iterAll]
    rfl
  rw [hl, hn, h27]
  norm_num [c]

/-! ## The hypotheses are met -/

/-- A periodic box of two by one by one cells on two ranks. -/
noncomputable def exampleConfig : Config := ⟨⟨2, 1, 1⟩, 1, 2, true⟩

theorem exampleConfig_valid : exampleConfig.Valid := by
  refine ⟨?_, ?_, ?_, ?_, ?_⟩ <;> norm_num [exampleConfig]

example : ∃ cells, exampleConfig.constructNeighbours = some cells ∧ cells.length = 2 ∧
    (⟨1, 0, 0⟩ : IPos) ∈ cells.map Prod.fst ∧ exampleConfig.getRank ⟨1, 0, 0⟩ = 1 ∧
    exampleConfig.getRank ⟨0, 0, 0⟩ = 0 := by
  obtain ⟨cells, h1, h2, _⟩ := constructNeighbours_spec exampleConfig exampleConfig_valid
  have hn : exampleConfig.numCells = ⟨2, 1, 1⟩ := by
    simp only [Config.numCells, fromPositionAndSideLength, exampleConfig, IPos.mk.injEq]
    norm_num
  refine ⟨cells, h1, ?_, ?_, ?_, ?_⟩
  · rw [← List.length_map (f := Prod.fst), h2, hn, length_iterAll]
    rfl
  · rw [h2, hn]
    decide
  · simp only [Config.getRank, Config.rankFunction, Config.toPos, IPos.toPos, hn]
    norm_num [exampleConfig]
  · simp only [Config.getRank, Config.rankFunction, Config.toPos, IPos.toPos, hn]
    norm_num [exampleConfig]

end Verif.Cartesian
