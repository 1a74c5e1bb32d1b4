import Verif.Parallel.PlaneNames

/-! # The neighbours of the particles of a rank in two dimensions: lemmas -/

namespace Verif.Parallel.Plane

open Verif.Geometry Verif.Halo Verif.Delaunay
open Verif.Predicates (P2 distSq2)

variable {Id : Type}

theorem eq_iff2 {y a b : Vec 2 ℝ} :
    distance y a = distance y b ↔ distSq2 (dim2.ofVec y) (dim2.ofVec a) = distSq2 (dim2.ofVec y) (dim2.ofVec b) := by
  rw [le_antisymm_iff, le_antisymm_iff, le_iff2, le_iff2]

variable [DecidableEq Id] {order : List ℕ} {W : World 2 Id} {own : ℕ} {g : Grid Id} {idx : List (Id × ℕ)}
  {l : List (ℕ × Image Id (Fin 2 → WrapType) (P2 ℝ))}

namespace RankData

theorem named_own (R : RankData order W own g idx l) {p : Id × Vec 2 ℝ} (hp : p ∈ W.ofRank own) {i : ℕ} (hi : (p.1, i) ∈ idx) :
    Named W own idx l i own p 0 := ⟨hp, Or.inl ⟨rfl, rfl, hi⟩⟩

theorem idx_three (R : RankData order W own g idx l) {e : Id × ℕ} (he : e ∈ idx) :
    3 ≤ e.2 ∧ e.2 < g.tri.state.mesh.numPoints := by
  have := R.idx_lt he
  rw [R.num]
  omega

/-- The neighbours of a local point are not vertices of the initial triangle. -/
theorem connected_three (R : RankData order W own g idx l) (V : W.Valid) (hc : ∀ i, W.hi i - W.lo i = W.hi 0 - W.lo 0)
    {p : Id × Vec 2 ℝ} (hp : p ∈ W.ofRank own) {i : ℕ} (hi : (p.1, i) ∈ idx) (hpos : g.position i = dim2.ofVec p.2)
    {j : ℕ} (hj : ∃ c, g.tri.state.mesh.HasTriangle i j c) : 3 ≤ j ∧ j < g.tri.state.mesh.numPoints := by
  obtain ⟨c, t, h⟩ := hj
  have h : At g.tri.state.mesh t i j c := h
  exact ⟨(R.triangle_three V hc hp hi hpos h).1, R.plane.valid.lt (R.plane.valid.cyc h)⟩

/-- Two inserted points share a triangle in both directions. -/
theorem joined_symm (R : RankData order W own g idx l) {i j : ℕ} (hj : 3 ≤ j)
    (h : ∃ c, g.tri.state.mesh.HasTriangle i j c) : ∃ c, g.tri.state.mesh.HasTriangle j i c := by
  obtain ⟨c, t, h⟩ := h
  have h : At g.tri.state.mesh t i j c := h
  obtain ⟨u, d, h'⟩ := R.plane.next hj (R.plane.valid.cyc h)
  exact ⟨d, u, h'⟩

/-- The particles and images whose regions have a common face with the one of a local particle are the neighbours of its
point. -/
theorem adjacent_iff (R : RankData order W own g idx l) (V : W.Valid) (hc : ∀ i, W.hi i - W.lo i = W.hi 0 - W.lo 0)
    (hh : ∀ r, ∀ p ∈ W.ofRank r, ∀ i, p.2 i < W.hi i)
    {p : Id × Vec 2 ℝ} (hp : p ∈ W.ofRank own) {i : ℕ} (hi : (p.1, i) ∈ idx) (hpos : g.position i = dim2.ofVec p.2)
    {s : ℕ} {q : Id × Vec 2 ℝ} {k : Fin 2 → ℤ} : W.Adjacent own p s q k ↔
      ∃ j, (∃ c, g.tri.state.mesh.HasTriangle i j c) ∧ Named W own idx l j s q k := by
  have P := R.plane
  have hN := R.named_own hp hi
  obtain ⟨i1, i2⟩ := R.idx_three hi
  dsimp only at i1 i2
  constructor
  · rintro ⟨hq, hne, y, h1, h2⟩
    have hsite : ∀ s' q' k', q' ∈ W.ofRank s' → distance y p.2 ≤ distance y (Geometry.image W.box k' q'.2) := by
      intro s' q' k' hq'
      by_cases e1 : (s', q', k') = (own, p, 0)
      · obtain ⟨rfl, rfl, rfl⟩ : s' = own ∧ q' = p ∧ k' = 0 := by simpa using e1
        rw [image_zero]
      by_cases e2 : (s', q', k') = (s, q, k)
      · obtain ⟨rfl, rfl, rfl⟩ : s' = s ∧ q' = q ∧ k' = k := by simpa using e2
        exact h1.le
      exact (h2 s' q' k' hq' e1 e2).le
    have hhalf : ∀ a, |y a - p.2 a| ≤ (W.hi a - W.lo a) / 2 := by
      refine half_box_le V.box fun w hw => ?_
      rw [image_eq]
      exact hsite own p _ hp
    have hnear : ∀ w, w < g.tri.state.mesh.numPoints →
        distSq2 (dim2.ofVec y) (g.position i) ≤ distSq2 (dim2.ofVec y) (g.position w) := by
      intro w hw
      rcases lt_or_ge w 3 with h4 | h4
      · exact (R.corner_far V hc hp hpos hhalf h4).le
      · obtain ⟨s', q', k', hw'⟩ := R.named_exists h4 hw
        rw [R.named_pos V hw', hpos, ← le_iff2]
        exact hsite s' q' k' hw'.1
    rcases R.tie V hh hp hi hpos hnear hq hne with h3 | ⟨j, hji, hj⟩
    · rw [hpos, ← lt_iff2] at h3
      exact absurd h1 h3.ne
    · refine ⟨j, ?_, hj⟩
      obtain ⟨j1, j2⟩ := R.named_lt hj
      refine (Voronoi.joined_iff_touch P i1 i2 j2 hji).2 ⟨dim2.ofVec y, ?_, fun w hw hwi hwj => ?_⟩
      · rw [hpos, R.named_pos V hj, ← eq_iff2]
        exact h1
      · rcases lt_or_ge w 3 with h4 | h4
        · exact R.corner_far V hc hp hpos hhalf h4
        · obtain ⟨s', q', k', hw'⟩ := R.named_exists h4 hw
          rw [R.named_pos V hw', hpos, ← lt_iff2]
          refine h2 s' q' k' hw'.1 (fun e => hwi ?_) fun e => hwj ?_
          · obtain ⟨rfl, rfl, rfl⟩ : s' = own ∧ q' = p ∧ k' = 0 := by simpa using e
            exact R.named_inj V hw' hN
          · obtain ⟨rfl, rfl, rfl⟩ : s' = s ∧ q' = q ∧ k' = k := by simpa using e
            exact R.named_inj V hw' hj
  · rintro ⟨j, hjc, hj⟩
    obtain ⟨j1, j2⟩ := R.named_lt hj
    have hji : j ≠ i := by
      obtain ⟨c, t, h⟩ := hjc
      have h : At g.tri.state.mesh t i j c := h
      exact (P.valid.ne' h).1.symm
    obtain ⟨y', h1, h2⟩ := (Voronoi.joined_iff_touch P i1 i2 j2 hji).1 hjc
    obtain ⟨y, rfl⟩ : ∃ y, dim2.ofVec y = y' := ⟨dim2.toVec y', rfl⟩
    have hnear : ∀ w, w < g.tri.state.mesh.numPoints →
        distSq2 (dim2.ofVec y) (g.position i) ≤ distSq2 (dim2.ofVec y) (g.position w) := by
      intro w hw
      by_cases e1 : w = i
      · rw [e1]
      by_cases e2 : w = j
      · rw [e2, h1]
      exact (h2 w hw e1 e2).le
    refine ⟨hj.1, fun e => ?_, y, ?_, fun s' q' k' hq' n1 n2 => ?_⟩
    · obtain ⟨rfl, rfl, rfl⟩ : s = own ∧ q = p ∧ k = 0 := by simpa using e
      exact hji (R.named_inj V hj hN)
    · rw [eq_iff2, ← hpos, ← R.named_pos V hj]
      exact h1
    · rw [lt_iff2, ← hpos]
      rcases R.tie V hh hp hi hpos hnear hq' n1 with h3 | ⟨w, hwi, hw⟩
      · exact h3
      · rw [← R.named_pos V hw]
        refine h2 w (R.named_lt hw).2 hwi fun e => n2 ?_
        subst e
        obtain ⟨rfl, rfl, rfl⟩ := R.named_fun V hw hj
        rfl

end RankData

end Verif.Parallel.Plane
