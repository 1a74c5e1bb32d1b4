import Verif.Parallel.SpaceNames

/-! # The neighbours of the particles of a rank: lemmas -/

namespace Verif.Parallel

open Verif.Geometry Verif.Halo Verif.Delaunay
open Verif.Predicates (P3 orient3 distSq3)

variable {Id : Type}

theorem eq_iff3 {y a b : Vec 3 ℝ} :
    distance y a = distance y b ↔ distSq3 (dim3.ofVec y) (dim3.ofVec a) = distSq3 (dim3.ofVec y) (dim3.ofVec b) := by
  rw [le_antisymm_iff, le_antisymm_iff, le_iff3, le_iff3]

variable [DecidableEq Id] {order : List ℕ} {W : World 3 Id} {own : ℕ} {g : Grid3 Id} {idx : List (Id × ℕ)}
  {l : List (ℕ × Image Id (Fin 3 → WrapType) (P3 ℝ))}

namespace RankData

theorem named_own (R : RankData order W own g idx l) {p : Id × Vec 3 ℝ} (hp : p ∈ W.ofRank own) {i : ℕ} (hi : (p.1, i) ∈ idx) :
    Named W own idx l i own p 0 := ⟨hp, Or.inl ⟨rfl, rfl, hi⟩⟩

theorem idx_four (R : RankData order W own g idx l) {e : Id × ℕ} (he : e ∈ idx) :
    4 ≤ e.2 ∧ e.2 < g.tri.state.mesh.numPoints := by
  have := R.idx_lt he
  rw [R.num]
  omega

/-- The neighbours of a local point are not vertices of the initial tetrahedron. -/
theorem connected_four (R : RankData order W own g idx l) (V : W.Valid) (hc : ∀ i, W.hi i - W.lo i = W.hi 0 - W.lo 0)
    (hh : ∀ r, ∀ p ∈ W.ofRank r, ∀ i, p.2 i < W.hi i)
    {p : Id × Vec 3 ℝ} (hp : p ∈ W.ofRank own) {i : ℕ} (hi : (p.1, i) ∈ idx) (hpos : g.position i = dim3.ofVec p.2)
    {j : ℕ} (hj : j ∈ Voronoi.connectedPoints g.tri.state.mesh i) : 4 ≤ j ∧ j < g.tri.state.mesh.numPoints := by
  obtain ⟨-, t, T, hT, hiT, hjT⟩ := (Voronoi.mem_connectedPoints R.space.ok.cons).1 hj
  obtain ⟨o, h1, -⟩ := R.tetra_sphere V hc hh hp hi hpos hT hiT
  exact ⟨(h1 j hjT).1, R.space.ok.cons.points_lt t T hT j hjT⟩

/-- The particles and images whose regions have a common face with the one of a local particle are the neighbours of its
point. -/
theorem adjacent_iff (R : RankData order W own g idx l) (V : W.Valid) (hc : ∀ i, W.hi i - W.lo i = W.hi 0 - W.lo 0)
    (hh : ∀ r, ∀ p ∈ W.ofRank r, ∀ i, p.2 i < W.hi i)
    {p : Id × Vec 3 ℝ} (hp : p ∈ W.ofRank own) {i : ℕ} (hi : (p.1, i) ∈ idx) (hpos : g.position i = dim3.ofVec p.2)
    {s : ℕ} {q : Id × Vec 3 ℝ} {k : Fin 3 → ℤ} : W.Adjacent own p s q k ↔
      ∃ j ∈ Voronoi.connectedPoints g.tri.state.mesh i, Named W own idx l j s q k := by
  have P := R.space
  have hN := R.named_own hp hi
  obtain ⟨i1, i2⟩ := R.idx_four hi
  dsimp only at i1 i2
  constructor
  · rintro ⟨hq, hne, y, h1, h2⟩
    have hsite : ∀ s' q' k', q' ∈ W.ofRank s' → distance y p.2 ≤ distance y (Geometry.image W.box k' q'.2) := by
      intro s' q' k' hq'
      by_cases e1 : (s', q', k') = (own, p, 0)
      · obtain ⟨rfl, rfl, rfl⟩ : s' = own ∧ q' = p ∧ k' = 0 := by simpa using e1
        rw [image_zero]
      by_cases e2 : (s', q', k') = (s, q, k)
      · obtain ⟨rfl, rfl, rfl⟩ : s' = s ∧ q' = q ∧ k' = k := by simpa using e2
        exact h1.le
      exact (h2 s' q' k' hq' e1 e2).le
    have hhalf : ∀ a, |y a - p.2 a| ≤ (W.hi a - W.lo a) / 2 := by
      refine half_box_le V.box fun w hw => ?_
      rw [image_eq]
      exact hsite own p _ hp
    have hnear : ∀ w, w < g.tri.state.mesh.numPoints →
        distSq3 (dim3.ofVec y) (g.position i) ≤ distSq3 (dim3.ofVec y) (g.position w) := by
      intro w hw
      rcases lt_or_ge w 4 with h4 | h4
      · exact (R.corner_far V hc hp hpos hhalf h4).le
      · obtain ⟨s', q', k', hw'⟩ := R.named_exists h4 hw
        rw [R.named_pos V hw', hpos, ← le_iff3]
        exact hsite s' q' k' hw'.1
    rcases R.tie V hh hp hi hpos hnear hq hne with h3 | ⟨j, hji, hj⟩
    · rw [hpos, ← lt_iff3] at h3
      exact absurd h1 h3.ne
    · refine ⟨j, ?_, hj⟩
      obtain ⟨j1, j2⟩ := R.named_lt hj
      refine (Voronoi.connected_iff_touch P i1 i2 j2 hji).2 ⟨dim3.ofVec y, ?_, fun w hw hwi hwj => ?_⟩
      · rw [hpos, R.named_pos V hj, ← eq_iff3]
        exact h1
      · rcases lt_or_ge w 4 with h4 | h4
        · exact R.corner_far V hc hp hpos hhalf h4
        · obtain ⟨s', q', k', hw'⟩ := R.named_exists h4 hw
          rw [R.named_pos V hw', hpos, ← lt_iff3]
          refine h2 s' q' k' hw'.1 (fun e => hwi ?_) fun e => hwj ?_
          · obtain ⟨rfl, rfl, rfl⟩ : s' = own ∧ q' = p ∧ k' = 0 := by simpa using e
            exact R.named_inj V hw' hN
          · obtain ⟨rfl, rfl, rfl⟩ : s' = s ∧ q' = q ∧ k' = k := by simpa using e
            exact R.named_inj V hw' hj
  · rintro ⟨j, hjc, hj⟩
    obtain ⟨j1, j2⟩ := R.named_lt hj
    have hji : j ≠ i := ((Voronoi.mem_connectedPoints P.ok.cons).1 hjc).1
    obtain ⟨y', h1, h2⟩ := (Voronoi.connected_iff_touch P i1 i2 j2 hji).1 hjc
    obtain ⟨y, rfl⟩ : ∃ y, dim3.ofVec y = y' := ⟨dim3.toVec y', rfl⟩
    have hnear : ∀ w, w < g.tri.state.mesh.numPoints →
        distSq3 (dim3.ofVec y) (g.position i) ≤ distSq3 (dim3.ofVec y) (g.position w) := by
      intro w hw
      by_cases e1 : w = i
      · rw [e1]
      by_cases e2 : w = j
      · rw [e2, h1]
      exact (h2 w hw e1 e2).le
    refine ⟨hj.1, fun e => ?_, y, ?_, fun s' q' k' hq' n1 n2 => ?_⟩
    · obtain ⟨rfl, rfl, rfl⟩ : s = own ∧ q = p ∧ k = 0 := by simpa using e
      exact hji (R.named_inj V hj hN)
    · rw [eq_iff3, ← hpos, ← R.named_pos V hj]
      exact h1
    · rw [lt_iff3, ← hpos]
      rcases R.tie V hh hp hi hpos hnear hq' n1 with h3 | ⟨w, hwi, hw⟩
      · exact h3
      · rw [← R.named_pos V hw]
        refine h2 w (R.named_lt hw).2 hwi fun e => n2 ?_
        subst e
        obtain ⟨rfl, rfl, rfl⟩ := R.named_fun V hw hj
        rfl

end RankData

end Verif.Parallel
