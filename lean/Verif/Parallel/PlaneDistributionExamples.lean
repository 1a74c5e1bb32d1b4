import Verif.Parallel.PlaneDistributionProps
import Verif.Parallel.PlaneExamples

/-! # Examples: the hypotheses of the theorems in `PlaneDistributionProps` are met

The particles of `PlaneLattice` on 144 ranks, and the same particles with the ranks in the opposite order. -/

namespace Verif.Parallel.Plane

open Verif.Geometry Verif.Halo Verif.Delaunay
open Verif.Predicates (P2 Triangle2 orient2 distSq2)

variable {f : ℕ → P2 ℝ}

/-- The particle of the last rank is now on the first one, and so on. -/
noncomputable def turnedWorld (f : ℕ → P2 ℝ) : World 2 ℕ :=
  { latticeWorld id f with particles := (latticeWorld id f).particles.reverse }

/-- The rank on which a particle was. -/
def turned (s : ℕ) : ℕ := if s < 144 then 143 - s else s

theorem turned_turned (s : ℕ) : turned (turned s) = s := by
  unfold turned
  split_ifs <;> omega

theorem turned_length : (turnedWorld f).particles.length = 144 := by
  show ((latticeWorld id f).particles.reverse).length = 144
  rw [List.length_reverse, lattice_length]

theorem turned_ofRank (s : ℕ) : (turnedWorld f).ofRank s = (latticeWorld id f).ofRank (turned s) := by
  unfold World.ofRank
  show (latticeWorld id f).particles.reverse.getD s [] = _
  have hl := lattice_length (name := id) (f := f)
  rw [List.getD_eq_getElem?_getD, List.getD_eq_getElem?_getD]
  unfold turned
  split_ifs with h
  · rw [List.getElem?_reverse (by rw [hl]; exact h), hl]
  · rw [List.getElem?_eq_none (by rw [List.length_reverse, hl]; omega), List.getElem?_eq_none (by rw [hl]; omega)]

theorem turned_near {own : ℕ} {R : ℝ} {s : ℕ} {q : ℕ × Vec 2 ℝ} {k : Fin 2 → ℤ} :
    Near (turnedWorld f) own R s q k ↔ Near (latticeWorld id f) (turned own) R (turned s) q k := by
  unfold Near
  rw [turned_ofRank, turned_ofRank]
  exact Iff.rfl

theorem turned_valid (H : Lattice f) : (turnedWorld f).Valid where
  box := (lattice_valid (name := id) H).box
  inside r p hp i := (lattice_valid (name := id) H).inside (turned r) p (by rw [← turned_ofRank]; exact hp) i
  nonempty l hl := (lattice_valid (name := id) H).nonempty l (List.mem_reverse.1 hl)
  ids r := by
    rw [turned_ofRank]
    exact (lattice_valid (name := id) H).ids (turned r)

theorem turned_cell (H : Lattice f) (p : ℕ × Vec 2 ℝ) : CellWithin (turnedWorld f) p (89 / 100) := fun y hy =>
  lattice_cell (name := id) H p y fun s q k hq => hy (turned s) q k (by rw [turned_ofRank, turned_turned]; exact hq)

theorem turned_general (H : Lattice f) (own : ℕ) : General (turnedWorld f) own (57 / 10) := by
  have G := lattice_general (name := id) H (turned own)
  refine ⟨fun s q k s' q' k' h h' e => ?_, ?_⟩
  · have := G.distinct _ q k _ q' k' (turned_near.1 h) (turned_near.1 h') e
    simp only [Prod.mk.injEq] at this
    obtain ⟨e1, e2, e3⟩ := this
    rw [← turned_turned s, ← turned_turned s', e1, e2, e3]
  · have : Candidate (turnedWorld f) own (57 / 10) = Candidate (latticeWorld id f) (turned own) (57 / 10) := by
      funext z
      refine propext (or_congr Iff.rfl (or_congr Iff.rfl (or_congr Iff.rfl ⟨?_, ?_⟩)))
      · rintro ⟨s, q, k, h, e⟩
        exact ⟨turned s, q, k, turned_near.1 h, e⟩
      · rintro ⟨s, q, k, h, e⟩
        exact ⟨turned s, q, k, turned_near.2 (by rw [turned_turned]; exact h), e⟩
    rw [this]
    exact G.general

theorem turned_local (H : Lattice f) (periodic : Bool) {own : ℕ} (h : own < 144) :
    ∃ G, Built periodic (turnedWorld f) own G ∧ ∀ p ∈ (turnedWorld f).ofRank own, ∃ c, (p.1, c) ∈ localCells G := by
  have hc : ∀ i, (turnedWorld f).hi i - (turnedWorld f).lo i = (turnedWorld f).hi 0 - (turnedWorld f).lo 0 := fun i => rfl
  have ho : (List.range 144).Perm (List.range (turnedWorld f).particles.length) := by rw [turned_length]
  have hL : (turnedWorld f).hi 0 - (turnedWorld f).lo 0 = 12 := by
    show (12 : ℝ) - 0 = 12
    norm_num
  obtain ⟨n, g, hg⟩ := construct_ends (fun _ => 0) popHead_ok (fuel := 13) (len := 1)
    (turned_valid H) hc ho (own := own) (by
      have : ((latticeWorld id f).ofRank (turned own)).length = 1 := by
        unfold World.ofRank latticeWorld
        dsimp only
        rw [List.getD_eq_getElem?_getD, List.getElem?_map, List.getElem?_range (by unfold turned; split_ifs; omega)]
        rfl
      rw [turned_ofRank, this]) (h := 89 / 100) (M := 57 / 20) (by norm_num) one_pos (by norm_num) (by norm_num)
    (by rw [hL]; norm_num) (fun p _ => turned_cell H p) (by
      have := turned_general H own
      norm_num at this ⊢
      exact this)
  obtain ⟨G, hG, hperm⟩ := grid_complete (turned_valid H) hc ho hg periodic
  refine ⟨G, ⟨fun _ => 0, popHead, popHead_ok, 13, 1, List.range 144, n, g, ho, hg, hG⟩, fun p hp => ?_⟩
  have : p.1 ∈ (localCells G).map Prod.fst := hperm.mem_iff.2 (List.mem_map.2 ⟨_, hp, rfl⟩)
  obtain ⟨⟨a, c⟩, hm, rfl⟩ := List.mem_map.1 this
  exact ⟨c, hm⟩

theorem turned_same : SameParticles (latticeWorld id f) (turnedWorld f) where
  lo := rfl
  hi := rfl
  places x := by
    constructor
    · rintro ⟨r, p, hp, e⟩
      exact ⟨turned r, p, by rw [turned_ofRank, turned_turned]; exact hp, e⟩
    · rintro ⟨r, p, hp, e⟩
      exact ⟨turned r, p, by rw [← turned_ofRank]; exact hp, e⟩

/-- `distribution_volume` and `distribution_faces`: the cell of the particle of rank 5 is now on rank 138. -/
example (periodic : Bool) : ∃ f G G' c c', Built periodic (latticeWorld id f) 5 G ∧ Built periodic (turnedWorld f) 138 G' ∧
    (5, c) ∈ localCells G ∧ (5, c') ∈ localCells G' ∧ c'.volume = c.volume ∧
    ∃ L, L.Perm c'.neighbours ∧ List.Forall₂ (SameFace periodic (latticeWorld id f) (turnedWorld f) 5 138) c.neighbours L := by
  obtain ⟨f, H⟩ := lattice_exists
  obtain ⟨G, B, c, hc⟩ := lattice_local H periodic (own := 5) (by norm_num)
  obtain ⟨G', B', hall⟩ := turned_local H periodic (own := 138) (by norm_num)
  have hp : (5, dim2.toVec (f 5)) ∈ (latticeWorld id f).ofRank 5 := lattice_particle (by norm_num)
  have hp' : (5, dim2.toVec (f 5)) ∈ (turnedWorld f).ofRank 138 := by
    rw [turned_ofRank]
    exact hp
  obtain ⟨c', hc'⟩ := hall _ hp'
  exact ⟨f, G, G', c, c', B, B', hc, hc',
    (distribution_volume (lattice_valid H) (turned_valid H) lattice_cube turned_same B B' hp hc hp' hc' rfl).1,
    distribution_faces (lattice_valid H) (turned_valid H) lattice_cube (lattice_open H) turned_same B B' hp hc hp' hc' rfl⟩

end Verif.Parallel.Plane
