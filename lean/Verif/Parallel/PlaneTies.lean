import Verif.Parallel.PlaneRegion
import Verif.Parallel.SpaceTies

/-! # The triangles at the particles of a rank are those of the periodic Delaunay mesh: lemmas -/

namespace Verif.Parallel.Plane

open Verif.Geometry Verif.Halo Verif.Delaunay
open Verif.Predicates (P2 distSq2)

variable {Id : Type}

theorem le_iff2 {y a b : Vec 2 ℝ} :
    distance y a ≤ distance y b ↔ distSq2 (dim2.ofVec y) (dim2.ofVec a) ≤ distSq2 (dim2.ofVec y) (dim2.ofVec b) := by
  rw [distance_le_iff, Fin.sum_univ_two, Fin.sum_univ_two]
  rfl

theorem toVec_ofVec (v : Vec 2 ℝ) : dim2.toVec (dim2.ofVec v) = v := by
  funext i
  match i with
  | 0 => rfl
  | 1 => rfl

theorem ofVec_inj {v w : Vec 2 ℝ} (h : dim2.ofVec v = dim2.ofVec w) : v = w := by
  rw [← toVec_ofVec v, h, toVec_ofVec]

variable [DecidableEq Id] {order : List ℕ} {W : World 2 Id} {own : ℕ} {g : Grid Id} {idx : List (Id × ℕ)}
  {l : List (ℕ × Image Id (Fin 2 → WrapType) (P2 ℝ))}

/-- Point `j` is image `k` of particle `q` of rank `s`. -/
def Named (W : World 2 Id) (own : ℕ) (idx : List (Id × ℕ)) (l : List (ℕ × Image Id (Fin 2 → WrapType) (P2 ℝ)))
    (j s : ℕ) (q : Id × Vec 2 ℝ) (k : Fin 2 → ℤ) : Prop :=
  q ∈ W.ofRank s ∧ ((s = own ∧ k = 0 ∧ (q.1, j) ∈ idx) ∨
    ∃ m w, 3 + (W.ofRank own).length + m = j ∧ l[m]? = some (s, ⟨q.1, w, dim2.ofVec (W.image w q.2)⟩) ∧
      k = (fun i => shift (w i)) ∧ (s ≠ own ∨ isPeriodic w))

namespace RankData

theorem named_pos (R : RankData order W own g idx l) (V : W.Valid) {j s : ℕ} {q : Id × Vec 2 ℝ} {k : Fin 2 → ℤ}
    (h : Named W own idx l j s q k) : g.position j = dim2.ofVec (Geometry.image W.box k q.2) := by
  obtain ⟨hq, ⟨rfl, rfl, h⟩ | ⟨m, w, rfl, h, rfl, -⟩⟩ := h
  · obtain ⟨p, hp, h1, h2⟩ := R.particle h
    rw [eq_of_id (V.ids s) hp hq h1] at h2
    rw [image_zero]
    exact h2
  · obtain ⟨hm, e⟩ := List.getElem?_eq_some_iff.1 h
    rw [R.halo m hm, e, ← image_eq]

theorem named_lt (R : RankData order W own g idx l) {j s : ℕ} {q : Id × Vec 2 ℝ} {k : Fin 2 → ℤ}
    (h : Named W own idx l j s q k) : 3 ≤ j ∧ j < g.tri.state.mesh.numPoints := by
  obtain ⟨hq, ⟨rfl, rfl, h⟩ | ⟨m, w, rfl, h, -⟩⟩ := h
  · have := R.idx_lt h
    dsimp only at this
    rw [R.num]
    omega
  · obtain ⟨hm, e⟩ := List.getElem?_eq_some_iff.1 h
    rw [R.num]
    omega

theorem named_exists (R : RankData order W own g idx l) {j : ℕ} (h4 : 3 ≤ j) (hj : j < g.tri.state.mesh.numPoints) :
    ∃ s q k, Named W own idx l j s q k := by
  rcases lt_or_ge j (3 + (W.ofRank own).length) with h5 | h5
  · obtain ⟨id, he⟩ := R.idx_of h4 h5
    obtain ⟨q, hq, eq1, eq2⟩ := R.particle he
    dsimp only at eq1 eq2
    exact ⟨own, q, 0, hq, Or.inl ⟨rfl, rfl, by rw [eq1]; exact he⟩⟩
  · have hj' : j - (3 + (W.ofRank own).length) < l.length := by rw [R.num] at hj; omega
    obtain ⟨a1, a2, q, hq, e1, e2⟩ := R.image _ (List.getElem_mem hj')
    refine ⟨_, q, _, hq, Or.inr ⟨j - (3 + (W.ofRank own).length), l[j - (3 + (W.ofRank own).length)].2.wrap, by omega, ?_, rfl, a2⟩⟩
    rw [List.getElem?_eq_getElem hj', ← e2, ← e1]

theorem named_inj (R : RankData order W own g idx l) (V : W.Valid) {j j' s : ℕ} {q : Id × Vec 2 ℝ} {k : Fin 2 → ℤ}
    (h : Named W own idx l j s q k) (h' : Named W own idx l j' s q k) : j = j' :=
  R.plane.injective (R.named_lt h).2 (R.named_lt h').2 ((R.named_pos V h).trans (R.named_pos V h').symm)

theorem named_fun (R : RankData order W own g idx l) (V : W.Valid) {j s s' : ℕ} {q q' : Id × Vec 2 ℝ} {k k' : Fin 2 → ℤ}
    (h : Named W own idx l j s q k) (h' : Named W own idx l j s' q' k') : s = s' ∧ q = q' ∧ k = k' := by
  obtain ⟨hq, h⟩ := h
  obtain ⟨hq', h'⟩ := h'
  rcases h with ⟨rfl, rfl, h⟩ | ⟨m, w, rfl, h, rfl, -⟩ <;> rcases h' with ⟨e1, rfl, h'⟩ | ⟨m', w', e, h', rfl, -⟩
  · subst e1
    have := List.inj_on_of_nodup_map R.idx_nodup h h' rfl
    exact ⟨rfl, eq_of_id (V.ids s') hq hq' (Prod.mk.inj this).1, rfl⟩
  · have := R.idx_lt h
    dsimp only at this
    omega
  · have := R.idx_lt h'
    dsimp only at this
    omega
  · obtain rfl : m' = m := by omega
    rw [h] at h'
    obtain ⟨rfl, e2⟩ := Prod.mk.inj (Option.some.inj h')
    obtain ⟨e3, rfl, -⟩ := Image.mk.inj e2
    exact ⟨rfl, eq_of_id (V.ids s) hq hq' e3, rfl⟩

/-- If no point of the mesh is closer to `y` than the local point `i`, all images which are not in the mesh are further
away. -/
theorem tie_wrap (R : RankData order W own g idx l) (V : W.Valid)
    {p : Id × Vec 2 ℝ} (hp : p ∈ W.ofRank own) {i : ℕ} (hi : (p.1, i) ∈ idx)
    {y : P2 ℝ} (h : ∀ w, w < g.tri.state.mesh.numPoints → distSq2 y (g.position i) ≤ distSq2 y (g.position w))
    {s : ℕ} {q : Id × Vec 2 ℝ} (hq : q ∈ W.ofRank s) {w : Fin 2 → WrapType} (hw : s ≠ own ∨ q ≠ p ∨ isPeriodic w) :
    distSq2 y (g.position i) < distSq2 y (dim2.ofVec (W.image w q.2)) ∨
      ∃ j, j ≠ i ∧ Named W own idx l j s q fun i => shift (w i) := by
  have P := R.plane
  obtain ⟨i1, i2⟩ := R.idx_lt hi
  dsimp only at i1 i2
  have hin : i < g.tri.state.mesh.numPoints := by rw [R.num]; omega
  by_cases hwant : s ≠ own ∨ isPeriodic w
  · by_cases hl : ((s, ⟨q.1, w, dim2.ofVec (W.image w q.2)⟩) : ℕ × Image Id (Fin 2 → WrapType) (P2 ℝ)) ∈ l
    · obtain ⟨j, hj, ej⟩ := List.mem_iff_getElem.1 hl
      refine Or.inr ⟨3 + (W.ofRank own).length + j, by omega, hq, Or.inr ⟨j, w, rfl, ?_, rfl, hwant⟩⟩
      rw [List.getElem?_eq_getElem hj, ej]
    · refine Or.inl (P.nearest_outside i1 hin ?_ ?_)
      · intro t b c hat
        exact ⟨h b (P.valid.lt (P.valid.cyc hat)), h c (P.valid.lt (P.valid.cyc' hat))⟩
      · intro t b c hat
        exact (R.outside t i b c hat i1 i2 s (ofRank_lt hq) q hq w hwant).resolve_left hl
  · push Not at hwant
    obtain ⟨rfl, hnp⟩ := hwant
    have hqp : q ≠ p := by
      rcases hw with hw | hw | hw
      · exact absurd rfl hw
      · exact hw
      · exact absurd hw hnp
    obtain ⟨j, hj, ej⟩ := R.point hq
    refine Or.inr ⟨j, fun e => hqp ?_, hq, Or.inl ⟨rfl, ?_, hj⟩⟩
    swap
    · funext a
      exact shift_eq_zero.2 (by_contra fun ha => hnp ⟨a, ha⟩)
    subst e
    have := List.inj_on_of_nodup_map R.idx_nodup hj hi rfl
    exact eq_of_id (V.ids s) hq hp (Prod.mk.inj this).1

/-- A place which is closest to a local point is at most half a box length away from it. -/
theorem tie_half (R : RankData order W own g idx l) (V : W.Valid)
    {p : Id × Vec 2 ℝ} (hp : p ∈ W.ofRank own) {i : ℕ} (hi : (p.1, i) ∈ idx) (hpos : g.position i = dim2.ofVec p.2)
    {y : Vec 2 ℝ} (h : ∀ w, w < g.tri.state.mesh.numPoints →
      distSq2 (dim2.ofVec y) (g.position i) ≤ distSq2 (dim2.ofVec y) (g.position w)) (a : Fin 2) :
    |y a - p.2 a| ≤ (W.hi a - W.lo a) / 2 := by
  refine half_box_le V.box (fun w hw => ?_) a
  rw [le_iff2, ← hpos]
  rcases R.tie_wrap V hp hi h hp (w := w) (Or.inr (Or.inr hw)) with h1 | ⟨j, -, h2⟩
  · exact h1.le
  · rw [image_eq, ← R.named_pos V h2]
    exact h j (R.named_lt h2).2

/-- The same for all images. -/
theorem tie (R : RankData order W own g idx l) (V : W.Valid) (hh : ∀ r, ∀ p ∈ W.ofRank r, ∀ i, p.2 i < W.hi i)
    {p : Id × Vec 2 ℝ} (hp : p ∈ W.ofRank own) {i : ℕ} (hi : (p.1, i) ∈ idx) (hpos : g.position i = dim2.ofVec p.2)
    {y : Vec 2 ℝ} (h : ∀ w, w < g.tri.state.mesh.numPoints →
      distSq2 (dim2.ofVec y) (g.position i) ≤ distSq2 (dim2.ofVec y) (g.position w))
    {s : ℕ} {q : Id × Vec 2 ℝ} (hq : q ∈ W.ofRank s) {k : Fin 2 → ℤ} (hne : (s, q, k) ≠ (own, p, 0)) :
    distSq2 (dim2.ofVec y) (g.position i) < distSq2 (dim2.ofVec y) (dim2.ofVec (Geometry.image W.box k q.2)) ∨
      ∃ j, j ≠ i ∧ Named W own idx l j s q k := by
  have hhalf := R.tie_half V hp hi hpos h
  choose w hw using fun i => exists_shift (k := max (-1) (min 1 (k i))) (by omega) (by omega)
  by_cases hk : ∀ a, max (-1) (min 1 (k a)) = k a
  · have e : (fun a => shift (w a)) = k := by
      funext a
      rw [hw, hk]
    rw [← e, ← image_eq]
    refine R.tie_wrap V hp hi h hq ?_
    by_contra hcon
    push Not at hcon
    obtain ⟨rfl, rfl, hcon⟩ := hcon
    apply hne
    rw [← e]
    have : (fun a => shift (w a)) = 0 := by
      funext a
      exact shift_eq_zero.2 (by_contra fun ha => hcon ⟨a, ha⟩)
    rw [this]
  · left
    have h1 : distSq2 (dim2.ofVec y) (g.position i) ≤ distSq2 (dim2.ofVec y) (dim2.ofVec (W.image w q.2)) := by
      by_cases hc : s ≠ own ∨ q ≠ p ∨ isPeriodic w
      · rcases R.tie_wrap V hp hi h hq hc with h1 | ⟨j, -, h2⟩
        · exact h1.le
        · rw [image_eq, ← R.named_pos V h2]
          exact h j (R.named_lt h2).2
      · push Not at hc
        obtain ⟨rfl, rfl, hc⟩ := hc
        rw [image_none W hc, hpos]
    refine lt_of_le_of_lt h1 (lt_iff2.1 (distance_lt_iff.2 ?_))
    have e : ∀ k : Fin 2 → ℤ, ∀ a, y a - Geometry.image W.box k q.2 a = y a - q.2 a - k a * (W.hi a - W.lo a) := by
      intro k a
      simp only [Geometry.image, World.box, fromMinMax]
      ring
    have hL : ∀ a, 0 < W.hi a - W.lo a := fun a => sub_pos.2 (V.box a)
    have hv : ∀ a, |y a - q.2 a| < 3 / 2 * (W.hi a - W.lo a) := by
      intro a
      have h1 := abs_le.1 (hhalf a)
      have h2 := V.inside own p hp a
      have h3 := V.inside s q hq a
      have h4 := hh own p hp a
      have h5 := hh s q hq a
      rw [abs_lt]
      constructor <;> linarith
    refine Finset.sum_lt_sum (fun a _ => ?_) ?_
    · rw [image_eq, e, e, sq_le_sq, hw]
      exact clamp_le (hL a) (hv a).le (k a)
    · push Not at hk
      obtain ⟨a, ha⟩ := hk
      refine ⟨a, Finset.mem_univ a, ?_⟩
      rw [image_eq, e, e, sq_lt_sq, hw]
      exact clamp_lt (hL a) (hv a) ha

/-- A place which is closest to a local point is closer to it than to the vertices of the initial triangle. -/
theorem corner_far (R : RankData order W own g idx l) (V : W.Valid) (hc : ∀ i, W.hi i - W.lo i = W.hi 0 - W.lo 0)
    {p : Id × Vec 2 ℝ} (hp : p ∈ W.ofRank own) {i : ℕ} (hpos : g.position i = dim2.ofVec p.2)
    {y : Vec 2 ℝ} (h : ∀ a, |y a - p.2 a| ≤ (W.hi a - W.lo a) / 2) {w : ℕ} (h4 : w < 3) :
    distSq2 (dim2.ofVec y) (g.position i) < distSq2 (dim2.ofVec y) (g.position w) := by
  obtain ⟨f1, f2, f3⟩ := corners_far V.box hc (V.inside own p hp) h
  obtain ⟨z0, z1, z2⟩ := R.corner
  rw [hpos]
  obtain rfl | rfl | rfl : w = 0 ∨ w = 1 ∨ w = 2 := by omega
  · rw [z0]; exact f1
  · rw [z1]; exact f2
  · rw [z2]; exact f3

/-- The points of the mesh which are not vertices of the initial triangle are particles and images. -/
theorem site (R : RankData order W own g idx l) (V : W.Valid) {j : ℕ} (h4 : 3 ≤ j) (hj : j < g.tri.state.mesh.numPoints) :
    W.Site (dim2.toVec (g.position j)) := by
  obtain ⟨s, q, k, h⟩ := R.named_exists h4 hj
  exact ⟨s, q, ofRank_lt h.1, h.1, k, by rw [R.named_pos V h, toVec_ofVec]⟩

/-- The vertices of a triangle at a local point are particles and images. -/
theorem triangle_three (R : RankData order W own g idx l) (V : W.Valid) (hc : ∀ i, W.hi i - W.lo i = W.hi 0 - W.lo 0)
    {p : Id × Vec 2 ℝ} (hp : p ∈ W.ofRank own) {i : ℕ} (hi : (p.1, i) ∈ idx) (hpos : g.position i = dim2.ofVec p.2)
    {t b c : ℕ} (hat : At g.tri.state.mesh t i b c) : 3 ≤ b ∧ 3 ≤ c := by
  have P := R.plane
  obtain ⟨o', -, h1, h2, h3⟩ := Voronoi.centre_at P hat
  obtain ⟨o, rfl⟩ : ∃ o, dim2.ofVec o = o' := ⟨dim2.toVec o', rfl⟩
  have hnear : ∀ w, w < g.tri.state.mesh.numPoints →
      distSq2 (dim2.ofVec o) (g.position i) ≤ distSq2 (dim2.ofVec o) (g.position w) := by
    intro w hw
    by_cases e1 : w = i
    · rw [e1]
    by_cases e2 : w = b
    · rw [e2, h1]
    by_cases e3 : w = c
    · rw [e3, h2]
    exact (h3 w hw e1 e2 e3).le
  have hhalf := R.tie_half V hp hi hpos hnear
  constructor
  · by_contra h4
    exact absurd h1.symm (R.corner_far V hc hp hpos hhalf (by omega)).ne
  · by_contra h4
    exact absurd h2.symm (R.corner_far V hc hp hpos hhalf (by omega)).ne

/-- Not further away than all points of the mesh is not further away than all particles and images. -/
theorem closest (R : RankData order W own g idx l) (V : W.Valid) (hc : ∀ i, W.hi i - W.lo i = W.hi 0 - W.lo 0)
    {p : Id × Vec 2 ℝ} (hp : p ∈ W.ofRank own) {i : ℕ} (hi : (p.1, i) ∈ idx) (hpos : g.position i = dim2.ofVec p.2)
    (y : Vec 2 ℝ) : (∀ w, w < g.tri.state.mesh.numPoints →
      distSq2 (dim2.ofVec y) (g.position i) ≤ distSq2 (dim2.ofVec y) (g.position w)) ↔ ∀ z, W.Site z → distance y p.2 ≤ distance y z := by
  constructor
  · rintro h z ⟨s, q, hs, hq, k, rfl⟩
    have hhalf := R.tie_half V hp hi hpos h
    choose w hw using fun i => exists_shift (k := max (-1) (min 1 (k i))) (by omega) (by omega)
    have h1 : distance y p.2 ≤ distance y (W.image w q.2) := by
      rw [le_iff2, ← hpos]
      by_cases hc : s ≠ own ∨ q ≠ p ∨ isPeriodic w
      · rcases R.tie_wrap V hp hi h hq hc with h1 | ⟨j, -, h2⟩
        · exact h1.le
        · rw [image_eq, ← R.named_pos V h2]
          exact h j (R.named_lt h2).2
      · push Not at hc
        obtain ⟨rfl, rfl, hc⟩ := hc
        rw [image_none W hc, hpos]
    refine h1.trans (distance_le_of fun a => ?_)
    have e : ∀ k : Fin 2 → ℤ, y a - Geometry.image W.box k q.2 a = y a - q.2 a - k a * (W.hi a - W.lo a) := by
      intro k
      simp only [Geometry.image, World.box, fromMinMax]
      ring
    have hL : 0 < W.hi a - W.lo a := sub_pos.2 (V.box a)
    have h1 := abs_le.1 (hhalf a)
    have h2 := V.inside own p hp a
    have h3 := V.inside s q hq a
    rw [image_eq, e, e, hw]
    exact clamp_le hL (by rw [abs_le]; constructor <;> linarith) (k a)
  · intro h w hw
    have hhalf : ∀ a, |y a - p.2 a| ≤ (W.hi a - W.lo a) / 2 := by
      refine half_box_le V.box fun w hw => ?_
      exact h _ ⟨own, p, ofRank_lt hp, hp, _, image_eq W w p.2⟩
    rcases lt_or_ge w 3 with h4 | h4
    · exact (R.corner_far V hc hp hpos hhalf h4).le
    · have := h _ (R.site V h4 hw)
      rw [le_iff2, ofVec_toVec] at this
      rw [hpos]
      exact this

end RankData

end Verif.Parallel.Plane
