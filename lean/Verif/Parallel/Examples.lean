import Verif.Parallel.Lattice

/-! # Examples: the hypotheses of the theorems in `Props` and `TotalProps` are met

1728 ranks with one particle each, close to the centres of the unit cubes of a box of side length 12, and in general
position (`Lattice`). -/

namespace Verif.Parallel

open Verif.Geometry Verif.Halo Verif.Delaunay
open Verif.Predicates (P3 orient3 distSq3)

variable {f : ℕ → P3 ℝ}

theorem lattice_cube (i : Fin 3) : (latticeWorld id f).hi i - (latticeWorld id f).lo i = (latticeWorld id f).hi 0 - (latticeWorld id f).lo 0 :=
  rfl

theorem lattice_order : (List.range 1728).Perm (List.range (latticeWorld id f).particles.length) := by rw [lattice_length]

theorem lattice_particle {own : ℕ} (h : own < 1728) : (own, dim3.toVec (f own)) ∈ (latticeWorld id f).ofRank own :=
  lattice_ofRank.2 ⟨h, rfl⟩

theorem lattice_local (H : Lattice f) (periodic : Bool) {own : ℕ} (h : own < 1728) :
    ∃ G, Built 1 periodic (latticeWorld id f) own G ∧ ∃ c, (own, c) ∈ localCells G := by
  obtain ⟨n, g, G, h1, h2, h3⟩ := lattice_built (name := id) H periodic own h
  obtain ⟨G', hG', hperm⟩ := grid_complete one_pos one_pos (lattice_valid H) lattice_cube lattice_order h1 periodic
  rw [h2] at hG'
  obtain rfl := Option.some.inj hG'
  have : own ∈ (localCells G).map Prod.fst := hperm.mem_iff.2 (List.mem_map.2 ⟨_, lattice_particle h, rfl⟩)
  obtain ⟨⟨a, c⟩, hc, rfl⟩ := List.mem_map.1 this
  exact ⟨G, h3, c, hc⟩

theorem forall₂_mem_left {α β : Type} {R : α → β → Prop} {l : List α} {l' : List β} (h : List.Forall₂ R l l') {a : α}
    (ha : a ∈ l) : ∃ b ∈ l', R a b := by
  induction h with
  | nil => simp at ha
  | cons h1 _ ih =>
    rcases List.mem_cons.1 ha with rfl | ha
    · exact ⟨_, List.mem_cons_self, h1⟩
    · obtain ⟨b, hb, hr⟩ := ih ha
      exact ⟨b, List.mem_cons_of_mem _ hb, hr⟩

/-- Hypotheses of `construct_ends`: the cells reach less than 0.89, so that the particles up to 5.7 away matter. -/
example : ∃ f, (latticeWorld id f).particles.length = 1728 ∧ (latticeWorld id f).Valid ∧
    (∀ own p, p ∈ (latticeWorld id f).ofRank own → (latticeWorld id f).CellWithin p (89 / 100)) ∧
    (∀ own, (latticeWorld id f).General own (2 * (57 / 20))) ∧ (32 : ℝ) / 10 * (89 / 100) ≤ 57 / 20 := by
  obtain ⟨f, H⟩ := lattice_exists
  refine ⟨f, lattice_length, lattice_valid H, fun _ p _ => lattice_cell H p, fun own => ?_, by norm_num⟩
  have := lattice_general (name := id) H own
  norm_num at this ⊢
  exact this

/-- `construct_ends` and `grid_complete`: the grids of all ranks have one cell for the particle of the rank. -/
example (periodic : Bool) : ∃ f, ∀ own, own < 1728 → ∃ (n : ℕ) (g : Grid3 ℕ) (G : List (Name ℕ × SweepCell ℕ)),
    constructRank 1 1 (fun _ => 0) popHead_ok 3126 1 (List.range 1728) (latticeWorld id f) own n = some g ∧
    g.sweepGrid 1 periodic = some G ∧ ((localCells G).map Prod.fst).Perm (((latticeWorld id f).ofRank own).map Prod.fst) := by
  obtain ⟨f, H⟩ := lattice_exists
  refine ⟨f, fun own h => ?_⟩
  obtain ⟨n, g, G, h1, -, -⟩ := lattice_built (name := id) H periodic own h
  obtain ⟨G, h2, h3⟩ := grid_complete one_pos one_pos (lattice_valid H) lattice_cube lattice_order h1 periodic
  exact ⟨n, g, G, h1, h2, h3⟩

/-- `rank_cell_contains`. -/
example : ∃ f, ∀ own, own < 1728 → ∃ (n : ℕ) (g : Grid3 ℕ) (i : ℕ) (F : List Voronoi.Face3),
    constructRank 1 1 (fun _ => 0) popHead_ok 3126 1 (List.range 1728) (latticeWorld id f) own n = some g ∧
    g.faces 1 i = some F ∧ ∀ y, Voronoi.contains3 F (dim3.ofVec y) = some true ↔
      (latticeWorld id f).Region own (own, dim3.toVec (f own)) y := by
  obtain ⟨f, H⟩ := lattice_exists
  refine ⟨f, fun own h => ?_⟩
  obtain ⟨n, g, G, h1, -, -⟩ := lattice_built (name := id) H true own h
  obtain ⟨i, F, -, hF, hy⟩ := rank_cell_contains one_pos one_pos (lattice_valid H) lattice_cube lattice_order h1 _
    (lattice_particle h)
  exact ⟨n, g, i, F, h1, hF, hy⟩

/-- `grid_neighbours`, `grid_volume`, `grid_volume_in_box` and `grid_cell_closed`. -/
example (periodic : Bool) : ∃ f, ∀ own, own < 1728 → ∃ G c, Built 1 periodic (latticeWorld id f) own G ∧ (own, c) ∈ localCells G ∧
    (∃ adj : List (ℕ × (ℕ × Vec 3 ℝ) × (Fin 3 → ℤ)), adj.Nodup ∧
      (∀ s q k, (s, q, k) ∈ adj ↔ (latticeWorld id f).Adjacent own (own, dim3.toVec (f own)) s q k) ∧
      c.neighbours.length = adj.length) ∧
    MeasureTheory.volume {y : Vec 3 ℝ | (latticeWorld id f).Region own (own, dim3.toVec (f own)) y} = ENNReal.ofReal c.volume ∧
    ∃ nb ∈ c.neighbours, 0 < Predicates.dot nb.2.1 ⟨1, 0, 0⟩ := by
  obtain ⟨f, H⟩ := lattice_exists
  refine ⟨f, fun own h => ?_⟩
  obtain ⟨G, B, c, hc⟩ := lattice_local H periodic h
  obtain ⟨adj, a1, a2, a3⟩ := grid_neighbours (lattice_valid H) lattice_cube (lattice_open H) B (lattice_particle h) hc
  exact ⟨G, c, B, hc, ⟨adj, a1, a2, a3.length_eq⟩, (grid_volume (lattice_valid H) lattice_cube B (lattice_particle h) hc).2.1,
    (grid_cell_closed (lattice_valid H) lattice_cube B (lattice_particle h) hc ⟨1, 0, 0⟩).2 (by simp)⟩

/-- `grid_volumes_total`: the volumes of the 1728 cells add up to 12³. -/
example (periodic : Bool) : ∃ f, ∃ G : ℕ → List (Name ℕ × SweepCell ℕ),
    (∀ r, r < (latticeWorld id f).particles.length → Built 1 periodic (latticeWorld id f) r (G r)) ∧
    ((List.range (latticeWorld id f).particles.length).map fun r => ((localCells (G r)).map fun e => e.2.volume).sum).sum = 1728 := by
  obtain ⟨f, H⟩ := lattice_exists
  have h : ∀ r, ∃ G, r < (latticeWorld id f).particles.length → Built 1 periodic (latticeWorld id f) r G := by
    intro r
    by_cases hr : r < 1728
    · obtain ⟨G, B, -⟩ := lattice_local H periodic hr
      exact ⟨G, fun _ => B⟩
    · exact ⟨[], fun h => absurd (lattice_length (name := id) (f := f) ▸ h) hr⟩
  choose G hG using h
  refine ⟨f, G, hG, ?_⟩
  rw [grid_volumes_total (lattice_valid H) lattice_cube (by
    intro e
    have := lattice_length (name := id) (f := f)
    rw [e] at this
    simp at this) hG, Fin.prod_univ_three]
  show ((12 : ℝ) - 0) * (12 - 0) * (12 - 0) = 1728
  norm_num

/-- `grid_faces_agree`: there is a face between cells of two ranks (or between a cell and its own image). -/
example : ∃ f, ∀ own, own < 1728 → ∃ G c own' G' c' area normal name name' k, Built 1 true (latticeWorld id f) own G ∧
    Built 1 true (latticeWorld id f) own' G' ∧ (own, c) ∈ localCells G ∧ (own', c') ∈ localCells G' ∧
    (area, normal, name) ∈ c.neighbours ∧ Name.Is own true own' own' k name ∧
    (area, (⟨-normal.x, -normal.y, -normal.z⟩ : P3 ℝ), name') ∈ c'.neighbours ∧ Name.Is own' true own own (-k) name' := by
  obtain ⟨f, H⟩ := lattice_exists
  refine ⟨f, fun own h => ?_⟩
  obtain ⟨G, B, c, hc⟩ := lattice_local H true h
  obtain ⟨⟨area, normal, name⟩, hnb, -⟩ := (grid_cell_closed (lattice_valid H) lattice_cube B (lattice_particle h) hc ⟨1, 0, 0⟩).2
    (by simp)
  obtain ⟨adj, -, a2, a3⟩ := grid_neighbours (lattice_valid H) lattice_cube (lattice_open H) B (lattice_particle h) hc
  obtain ⟨⟨s, q, k⟩, ha, hname, -⟩ := forall₂_mem_left a3 hnb
  have hadj := (a2 s q k).1 ha
  obtain ⟨hs, rfl⟩ := lattice_ofRank.1 hadj.1
  obtain ⟨G', B', c', hc'⟩ := lattice_local H true hs
  obtain ⟨name', h1, h2⟩ := grid_faces_agree (lattice_valid H) lattice_cube (lattice_open H) B B' (lattice_particle h) hc
    (lattice_particle hs) hc' hnb (by rintro rfl; exact absurd hname.1 (by decide)) hname
  exact ⟨G, c, s, G', c', area, normal, name, name', k, B, B', hc, hc', hnb, hname, h1, h2⟩

/-- `grid_halo_particles`, `grid_halo_neighbours` and `grid_halo_once`. -/
example : ∃ f, ∀ own, own < 1728 → ∃ G, Built 1 false (latticeWorld id f) own G ∧ (haloParticles G).Nodup ∧
    ∀ s id, (s, id) ∈ haloParticles G ↔ ∃ e ∈ localCells G, ∃ nb ∈ e.2.neighbours,
      nb.2.2 = .halo (.remote id s) ∨ ∃ w, nb.2.2 = .halo (.remotePeriodic id s w) := by
  obtain ⟨f, H⟩ := lattice_exists
  refine ⟨f, fun own h => ?_⟩
  obtain ⟨G, B, c, hc⟩ := lattice_local H false h
  exact ⟨G, B, grid_halo_once (lattice_valid H) lattice_cube (lattice_open H) B,
    grid_halo_neighbours (lattice_valid H) lattice_cube (lattice_open H) B⟩

end Verif.Parallel
