import Verif.Parallel.PlaneRun
import Verif.Parallel.RegionLemmas

/-! # The cells of a rank are the regions of its particles, in two dimensions: lemmas -/

namespace Verif.Parallel.Plane

open Verif.Geometry Verif.Halo Verif.Delaunay
open Verif.Predicates (P2 Triangle2 distSq2)

variable {Id : Type}

theorem lt_iff2 {y a b : Vec 2 ℝ} :
    distance y a < distance y b ↔ distSq2 (dim2.ofVec y) (dim2.ofVec a) < distSq2 (dim2.ofVec y) (dim2.ofVec b) := by
  rw [distance_lt_iff, Fin.sum_univ_two, Fin.sum_univ_two]
  rfl

theorem ofVec_toVec (p : P2 ℝ) : dim2.ofVec (dim2.toVec p) = p := rfl

/-- The vertices of the initial triangle are far away. -/
theorem corners_far {W : World 2 Id} (hb : ∀ i, W.lo i < W.hi i) (hc : ∀ i, W.hi i - W.lo i = W.hi 0 - W.lo 0)
    {p y : Vec 2 ℝ} (hp : ∀ i, W.lo i ≤ p i ∧ p i ≤ W.hi i) (hy : ∀ i, |y i - p i| ≤ (W.hi i - W.lo i) / 2) :
    let t := Triangle2.allEncompassing W.enlarged2.1 W.enlarged2.2
    distSq2 (dim2.ofVec y) (dim2.ofVec p) < distSq2 (dim2.ofVec y) t.p1 ∧
    distSq2 (dim2.ofVec y) (dim2.ofVec p) < distSq2 (dim2.ofVec y) t.p2 ∧
    distSq2 (dim2.ofVec y) (dim2.ofVec p) < distSq2 (dim2.ofVec y) t.p3 := by
  obtain ⟨w, hw⟩ : ∃ w, w = W.hi 0 - W.lo 0 := ⟨_, rfl⟩
  have w0 : 0 < w := by rw [hw]; exact sub_pos.2 (hb 0)
  have e : ∀ i, W.hi i = W.lo i + w := fun i => by rw [hw]; linarith [hc i]
  have hy' : ∀ i, W.lo i - w / 2 ≤ y i ∧ y i ≤ W.lo i + w + w / 2 ∧ (y i - p i) * (y i - p i) ≤ w / 2 * (w / 2) := by
    intro i
    have h1 := hy i
    have h2 := hp i
    rw [e] at h1 h2
    have h3 := abs_le.1 h1
    refine ⟨by linarith, by linarith, ?_⟩
    nlinarith
  have near : ∀ i, 2 * (w / 2 * (w / 2)) < (y i - (W.lo i - w - 3 * w * 1)) * (y i - (W.lo i - w - 3 * w * 1)) := by
    intro i
    have := hy' i
    nlinarith
  have far : ∀ i, 2 * (w / 2 * (w / 2)) < (y i - (W.lo i + w + w + 3 * w * (1 + 1))) *
      (y i - (W.lo i + w + w + 3 * w * (1 + 1))) := by
    intro i
    have := hy' i
    nlinarith
  have n0 := near 0
  have n1 := near 1
  have f0 := far 0
  have f1 := far 1
  have s1 : ∀ v : ℝ, 0 ≤ v * v := mul_self_nonneg
  have d : ∀ l : ℝ, l + w + w - (l - w) = 3 * w := fun l => by ring
  have d' : ∀ l : ℝ, l + w - l = w := fun l => by ring
  have q0 := (hy' 0).2.2
  have q1 := (hy' 1).2.2
  unfold World.enlarged2 World.corners2 Triangle2.allEncompassing distSq2 dim2
  dsimp only
  rw [e 0, e 1, d', d', d, d]
  simp only [pow_two]
  refine ⟨?_, ?_, ?_⟩
  · linarith [s1 (y 0 - (W.lo 0 - w))]
  · linarith [mul_pos w0 w0]
  · linarith [s1 (y 1 - (W.lo 1 - w))]

theorem image_none (W : World 2 Id) {w : Fin 2 → WrapType} (h : ¬isPeriodic w) (p : Vec 2 ℝ) : W.image w p = p := by
  have hw : ∀ i, w i = .noWrap := fun i => by
    by_contra hi
    exact h ⟨i, hi⟩
  funext i
  simp [World.image, asTranslation, hw i, WrapType.asSign]

variable [DecidableEq Id] {order : List ℕ} {W : World 2 Id} {own : ℕ} {g : Grid Id} {idx : List (Id × ℕ)}
  {l : List (ℕ × Image Id (Fin 2 → WrapType) (P2 ℝ))}

namespace RankData

theorem idx_lt (R : RankData order W own g idx l) {e : Id × ℕ} (he : e ∈ idx) :
    3 ≤ e.2 ∧ e.2 < 3 + (W.ofRank own).length := by
  have : e.2 ∈ idx.map Prod.snd := List.mem_map.2 ⟨e, he, rfl⟩
  rw [R.range] at this
  obtain ⟨j, hj, e'⟩ := List.mem_map.1 this
  rw [List.mem_range] at hj
  omega

theorem idx_of (R : RankData order W own g idx l) {i : ℕ} (h : 3 ≤ i) (h' : i < 3 + (W.ofRank own).length) :
    ∃ id, (id, i) ∈ idx := by
  have : i ∈ idx.map Prod.snd := by
    rw [R.range]
    exact List.mem_map.2 ⟨i - 3, by rw [List.mem_range]; omega, by omega⟩
  obtain ⟨e, he, rfl⟩ := List.mem_map.1 this
  exact ⟨e.1, he⟩

theorem idx_nodup (R : RankData order W own g idx l) : (idx.map Prod.snd).Nodup := by
  rw [R.range]
  exact List.nodup_range.map fun a b h => by simpa using h

theorem particle (R : RankData order W own g idx l) {e : Id × ℕ} (he : e ∈ idx) :
    ∃ p ∈ W.ofRank own, p.1 = e.1 ∧ g.position e.2 = dim2.ofVec p.2 := by
  have := R.local_.mem_iff.1 (List.mem_map.2 ⟨e, he, rfl⟩)
  obtain ⟨p, hp, ep⟩ := List.mem_map.1 this
  obtain ⟨h1, h2⟩ := Prod.mk.injEq _ _ _ _ ▸ ep
  exact ⟨p, hp, h1, h2.symm⟩

theorem point (R : RankData order W own g idx l) {p : Id × Vec 2 ℝ} (hp : p ∈ W.ofRank own) :
    ∃ i, (p.1, i) ∈ idx ∧ g.position i = dim2.ofVec p.2 := by
  have := R.local_.mem_iff.2 (List.mem_map.2 ⟨p, hp, rfl⟩)
  obtain ⟨e, he, ee⟩ := List.mem_map.1 this
  obtain ⟨h1, h2⟩ := Prod.mk.injEq _ _ _ _ ▸ ee
  exact ⟨e.2, h1 ▸ he, h2⟩

/-- Closest among all points of the mesh is closest among all particles and images. -/
theorem region (R : RankData order W own g idx l) (V : W.Valid) (hc : ∀ i, W.hi i - W.lo i = W.hi 0 - W.lo 0)
    {p : Id × Vec 2 ℝ} (hp : p ∈ W.ofRank own) {i : ℕ} (hi : (p.1, i) ∈ idx) (hpos : g.position i = dim2.ofVec p.2)
    (y : Vec 2 ℝ) : (∀ w, w < g.tri.state.mesh.numPoints → w ≠ i →
      distSq2 (dim2.ofVec y) (g.position i) < distSq2 (dim2.ofVec y) (g.position w)) ↔ W.Region own p y := by
  have P := R.plane
  have hown : own < W.particles.length := by
    by_contra h
    unfold World.ofRank at hp
    rw [List.getD_eq_getElem?_getD, List.getElem?_eq_none (by omega)] at hp
    cases hp
  obtain ⟨i1, i2⟩ := R.idx_lt hi
  dsimp only at i1 i2
  have hin : i < g.tri.state.mesh.numPoints := by rw [R.num]; omega
  rw [region_iff V hown hp]
  constructor
  · intro h s q hs hq w hw
    rw [lt_iff2, ← hpos]
    by_cases hwant : s ≠ own ∨ isPeriodic w
    · by_cases hl : ((s, ⟨q.1, w, dim2.ofVec (W.image w q.2)⟩) : ℕ × Image Id (Fin 2 → WrapType) (P2 ℝ)) ∈ l
      · obtain ⟨j, hj, ej⟩ := List.mem_iff_getElem.1 hl
        have := h (3 + (W.ofRank own).length + j) (by rw [R.num]; omega) (by omega)
        rw [R.halo j hj, ej] at this
        exact this
      · refine P.nearest_outside i1 hin ?_ ?_
        · intro t b c hat
          obtain ⟨n1, -, n3⟩ := P.valid.ne' hat
          exact ⟨(h b (P.valid.lt (P.valid.cyc hat)) n1.symm).le, (h c (P.valid.lt (P.valid.cyc' hat)) n3).le⟩
        · intro t b c hat
          exact (R.outside t i b c hat i1 i2 s hs q hq w hwant).resolve_left hl
    · push Not at hwant
      obtain ⟨rfl, hnp⟩ := hwant
      have hqp : q ≠ p := by
        rcases hw with hw | hw | hw
        · exact absurd rfl hw
        · exact hw
        · exact absurd hw hnp
      obtain ⟨j, hj, ej⟩ := R.point hq
      rw [image_none W hnp, ← ej]
      refine h j (by have := (R.idx_lt hj).2; rw [R.num]; dsimp only at this; omega) fun e => hqp ?_
      subst e
      have := List.inj_on_of_nodup_map R.idx_nodup hj hi rfl
      exact eq_of_id (V.ids s) hq hp (Prod.mk.inj this).1
  · intro h w hw hne
    have hhalf := half_box V.box fun w hw => h own p hown hp w (Or.inr (Or.inr hw))
    rcases lt_or_ge w 3 with h4 | h4
    · obtain ⟨f1, f2, f3⟩ := corners_far V.box hc (V.inside own p hp) fun i => (hhalf i).le
      obtain ⟨z0, z1, z2⟩ := R.corner
      rw [hpos]
      obtain rfl | rfl | rfl : w = 0 ∨ w = 1 ∨ w = 2 := by omega
      · rw [z0]; exact f1
      · rw [z1]; exact f2
      · rw [z2]; exact f3
    · rcases lt_or_ge w (3 + (W.ofRank own).length) with h5 | h5
      · obtain ⟨id, he⟩ := R.idx_of h4 h5
        obtain ⟨q, hq, eq1, eq2⟩ := R.particle he
        dsimp only at eq1 eq2
        have hqp : q ≠ p := by
          rintro rfl
          exact hne (P.injective hw hin (eq2.trans hpos.symm))
        have hn : ¬isPeriodic (fun _ : Fin 2 => WrapType.noWrap) := fun ⟨_, h⟩ => h rfl
        have := h own q hown hq (fun _ => .noWrap) (Or.inr (Or.inl hqp))
        rw [image_none W hn, lt_iff2] at this
        rw [hpos, eq2]
        exact this
      · have hj : w - (3 + (W.ofRank own).length) < l.length := by rw [R.num] at hw; omega
        obtain ⟨a1, a2, q, hq, e1, e2⟩ := R.image _ (List.getElem_mem hj)
        have := h _ q a1 hq _ (a2.imp id Or.inr)
        rw [lt_iff2, ← e2, ← R.halo _ hj] at this
        rw [hpos]
        have e : 3 + (W.ofRank own).length + (w - (3 + (W.ofRank own).length)) = w := by omega
        rw [e] at this
        exact this

end RankData

end Verif.Parallel.Plane
