import Verif.Startup.Props
import Verif.Startup.RunSpec
import Verif.Sim.RanksProps
import Verif.Sim.Props
import Verif.Parallel.DistributionProps
import Verif.IO.FileDistributionProps

/-! # Lemmas about whole runs -/

namespace Verif.Startup

open Verif.Geometry Verif.ExchangeData Verif.FileDist Verif.Parallel Verif.Sim

variable {V R C : Type} {S : Setup V} {m N N' : ℕ} {files files' : List (List (Row V))} {rows rows' : List (List (Comps V))}
  {cfg cfg' : Quadtree.Config} {eps' : ℝ} {G G' : ℕ → List (Name Sweep.Id × Cell)}

theorem Started.perm [Inhabited V] (hm : 0 < m) (h : Started S m N files rows) :
    rows.flatten.Perm (files.flatten.map (comps m)) ∧ rows.length = N := by
  obtain ⟨world, h1, h2⟩ := h
  obtain ⟨a1, a2, -⟩ := startup_keeps_rows hm h1
  refine ⟨List.Perm.trans ?_ a2, by rw [← a1, h2.length_eq]⟩
  clear a1 a2 h1
  induction h2 with
  | nil => simp
  | cons hp _ ih =>
    rw [List.flatten_cons, List.flatten_cons, List.map_append]
    exact hp.append ih

/-- The particle with id `u` has the components `a`. -/
def At (rows : List (List (Comps V))) (u : Sweep.Id) (a : Comps V) : Prop := (rows.getD u.rank [])[u.idx]? = some a

theorem At.row {u : Sweep.Id} {a : Comps V} (h : At rows u a) : rowOf rows u = a := by
  unfold rowOf
  rw [List.getD_eq_getElem?_getD, h, Option.getD_some]

theorem At.mem {u : Sweep.Id} {a : Comps V} (h : At rows u a) : a ∈ rows.flatten := by
  have h1 := List.mem_of_getElem? h
  rw [List.getD_eq_getElem?_getD] at h1
  cases he : rows[u.rank]? with
  | none => rw [he] at h1; simp at h1
  | some l =>
    rw [he] at h1
    exact List.mem_flatten.2 ⟨l, List.mem_of_getElem? he, h1⟩

theorem exists_at {a : Comps V} (h : a ∈ rows.flatten) : ∃ u, At rows u a := by
  obtain ⟨l, hl, ha⟩ := List.mem_flatten.1 h
  obtain ⟨r, hr⟩ := List.getElem?_of_mem hl
  obtain ⟨i, hi⟩ := List.getElem?_of_mem ha
  refine ⟨⟨r, i⟩, ?_⟩
  unfold At
  rw [List.getD_eq_getElem?_getD, hr, Option.getD_some]
  exact hi

/-- The position, with a default. -/
def spot (S : Setup V) (a : Comps V) : Vec 3 ℝ := (S.position a).getD 0

theorem mem_world {r : ℕ} {p : Sweep.Id × Vec 3 ℝ} :
    p ∈ (S.world cfg rows).ofRank r ↔ p.1.rank = r ∧ ∃ a, At rows p.1 a ∧ p.2 = spot S a := by
  have key := (ids_count_particles S.lo S.hi cfg (rows.map fun l => l.map fun a => (S.position a).getD 0)).1
  have hg : ∀ r i : ℕ, ((rows.map fun l => l.map fun a => (S.position a).getD 0).getD r [])[i]? =
      ((rows.getD r [])[i]?).map (spot S) := by
    intro r i
    rw [List.getD_eq_getElem?_getD, List.getD_eq_getElem?_getD, List.getElem?_map]
    cases rows[r]? with
    | none => simp
    | some l => simp; rfl
  constructor
  · intro h
    obtain ⟨i, hi⟩ := List.getElem?_of_mem h
    have := key r i
    unfold Setup.world at hi
    rw [hi, hg] at this
    cases ha : (rows.getD r [])[i]? with
    | none => rw [ha] at this; simp at this
    | some a =>
      rw [ha] at this
      simp only [Option.map_some, Option.some.injEq] at this
      subst this
      exact ⟨rfl, a, ha, rfl⟩
  · rintro ⟨rfl, a, ha, hp⟩
    have := key p.1.rank p.1.idx
    rw [hg, ha] at this
    simp only [Option.map_some] at this
    have hm := List.mem_of_getElem? this
    rw [show p = (⟨p.1.rank, p.1.idx⟩, spot S a) from Prod.ext rfl hp]
    exact hm

theorem At.world {u : Sweep.Id} {a : Comps V} (h : At rows u a) : (u, spot S a) ∈ (S.world cfg rows).ofRank u.rank :=
  mem_world.2 ⟨rfl, a, h, rfl⟩

theorem At.unique (H : Ready eps' false (S.world cfg rows) G) {u v : Sweep.Id} {a : Comps V} (h : At rows u a) (h' : At rows v a) :
    u = v :=
  congrArg Prod.fst (H.place (h.world (S := S) (cfg := cfg)) (h'.world (S := S) (cfg := cfg)) rfl).2

theorem sameParticles (hp : rows'.flatten.Perm rows.flatten) : SameParticles (S.world cfg rows) (S.world cfg' rows') := by
  refine ⟨rfl, rfl, fun x => ⟨?_, ?_⟩⟩
  · rintro ⟨r, p, h, rfl⟩
    obtain ⟨-, a, ha, e⟩ := mem_world.1 h
    obtain ⟨u, hu⟩ := exists_at (hp.mem_iff.2 ha.mem)
    exact ⟨_, _, hu.world, e.symm⟩
  · rintro ⟨r, p, h, rfl⟩
    obtain ⟨-, a, ha, e⟩ := mem_world.1 h
    obtain ⟨u, hu⟩ := exists_at (hp.mem_iff.1 ha.mem)
    exact ⟨_, _, hu.world, e.symm⟩

/-- Particles at the same place have the same components. -/
theorem samePlace_row (H' : Ready eps' false (S.world cfg' rows') G') (hp : rows'.flatten.Perm rows.flatten)
    {u u' : Sweep.Id} (h : SamePlace (S.world cfg rows) (S.world cfg' rows') u u') :
    ∃ a, At rows u a ∧ At rows' u' a := by
  obtain ⟨r, p, h1, r', p', h2, rfl, rfl, e⟩ := h
  obtain ⟨-, a, ha, ep⟩ := mem_world.1 h1
  obtain ⟨v, hv⟩ := exists_at (hp.mem_iff.2 ha.mem)
  have h3 := hv.world (S := S) (cfg := cfg')
  have := (H'.place h2 h3 (by rw [e, ep])).2
  exact ⟨a, ha, by rw [this]; exact hv⟩

theorem samePlace_of {u u' : Sweep.Id} {a : Comps V} (h : At rows u a) (h' : At rows' u' a) :
    SamePlace (S.world cfg rows) (S.world cfg' rows') u u' :=
  ⟨_, _, h.world, _, _, h'.world, rfl, rfl, rfl⟩

theorem mem_of_lookup {α β : Type} [BEq α] [LawfulBEq α] {l : List (α × β)} {a : α} {b : β} (h : l.lookup a = some b) : (a, b) ∈ l := by
  induction l with
  | nil => simp at h
  | cons x xs ih =>
    obtain ⟨x1, x2⟩ := x
    rw [List.lookup_cons] at h
    split at h
    · rename_i he
      rw [beq_iff_eq] at he
      simp_all
    · exact List.mem_cons_of_mem _ (ih h)

theorem lookup_some {α β : Type} [BEq α] [LawfulBEq α] {l : List (α × β)} {a : α} {b : β} (h : (a, b) ∈ l) :
    ∃ b', l.lookup a = some b' := by
  induction l with
  | nil => simp at h
  | cons x xs ih =>
    obtain ⟨x1, x2⟩ := x
    rw [List.lookup_cons]
    split
    · exact ⟨_, rfl⟩
    · rename_i he
      rcases List.mem_cons.1 h with h | h
      · obtain ⟨rfl, rfl⟩ := Prod.mk.inj h
        simp at he
      · exact ih h

/-- Cells at the same place have the same sizes. -/
theorem samePlace_sizes (H : Ready eps' false (S.world cfg rows) G) (H' : Ready eps' false (S.world cfg' rows') G')
    (hp : rows'.flatten.Perm rows.flatten) {u u' : Sweep.Id} (h : SamePlace (S.world cfg rows) (S.world cfg' rows') u u') :
    sizesOf G' u' = sizesOf G u := by
  obtain ⟨r, p, h1, r', p', h2, rfl, rfl, e⟩ := h
  obtain ⟨c, hc⟩ := H.cell h1
  obtain ⟨c', hc'⟩ := H'.cell h2
  obtain rfl := H.id_rank h1
  obtain rfl := H'.id_rank h2
  obtain ⟨b, hb⟩ := lookup_some hc
  obtain ⟨b', hb'⟩ := lookup_some hc'
  have := distribution_volume H.valid H'.valid H.cube (sameParticles hp) (H.built _ (ofRank_lt h1)) (H'.built _ (ofRank_lt h2))
    h1 (mem_of_lookup hb) h2 (mem_of_lookup hb') e
  unfold sizesOf
  rw [hb, hb']
  simp [this.1, this.2]

/-- The files hold what the ranks have written. -/
theorem files_flatten {B : Type} {data : List (List B)} {numFiles : ℕ} (hf : 0 < numFiles) {order : List ℕ}
    (horder : order.Perm (List.range data.length)) {store : Store B} {out : List (List B)}
    (h : writeSnapshot data numFiles order = some store) (ho : store.files = some out) : out.flatten = data.flatten := by
  obtain ⟨s, fs, parts, h1, h2, -, h4, h5⟩ := snapshot_round_trip data numFiles hf order horder 1 one_pos 1 one_pos
  rw [h] at h1
  obtain rfl := Option.some.inj h1
  rw [ho] at h2
  obtain rfl := Option.some.inj h2
  obtain ⟨parts', a1, a2, -, a4⟩ := read_parts out 1 one_pos
  match parts', a1 with
  | [p], _ =>
    have := (a4 B id 0 p rfl).1
    simp only [List.map_id_fun, id_eq, List.map_id_fun'] at this
    have h6 : parts = [p] := by
      have : (List.range 1).mapM (fun r => readDataset out 1 r) = some [p] := by
        simp [List.range_one, this]
      rw [h4] at this
      exact Option.some.inj this
    rw [← h5, h6, ← a2]

open Classical in
/-- The data as a function of the components. -/
theorem output_flatten {B : Type} (numDirs : ℕ) (field : Comps V → ℝ × ℝ → C → List R → B) (H : Ready eps' false (S.world cfg rows) G)
    (w : Whole R C) : ∃ g : Comps V → Option B, ((outputData numDirs field rows G w).flatten.map some = rows.flatten.map g) ∧
      ∀ u a, At rows u a → g a = some (field a (sizesOf G u) (w.cells.chem u) ((List.range numDirs).map (w.cells.inc u))) := by
  let val : Sweep.Id → Comps V → B := fun u a => field a (sizesOf G u) (w.cells.chem u) ((List.range numDirs).map (w.cells.inc u))
  let g : Comps V → Option B := fun a => if h : ∃ u, At rows u a then some (val h.choose a) else none
  have hg : ∀ u a, At rows u a → g a = some (val u a) := by
    intro u a h
    have he : ∃ u, At rows u a := ⟨u, h⟩
    show (if h : ∃ u, At rows u a then some (val h.choose a) else none) = _
    rw [dif_pos he, At.unique H he.choose_spec h]
  refine ⟨g, ?_, hg⟩
  unfold outputData
  rw [List.map_flatten, List.map_flatten]
  congr 1
  apply List.ext_getElem?
  intro r
  simp only [List.getElem?_map, List.getElem?_zipIdx, Option.map_map]
  cases hr : rows[r]? with
  | none => rfl
  | some l =>
    simp only [Option.map_some, Function.comp, Option.some.injEq, zero_add]
    apply List.ext_getElem?
    intro i
    simp only [List.getElem?_map, List.getElem?_zipIdx, Option.map_map]
    cases hi : l[i]? with
    | none => rfl
    | some a =>
      simp only [Option.map_some, Function.comp, Option.some.injEq, zero_add]
      refine (hg ⟨r, i⟩ a ?_).symm
      unfold At
      rw [List.getD_eq_getElem?_getD, hr, Option.getD_some]
      exact hi

end Verif.Startup
