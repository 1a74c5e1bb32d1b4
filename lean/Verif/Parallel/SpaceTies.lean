import Verif.Parallel.SpaceRegion
import Verif.Delaunay.SpaceProps
import Verif.Voronoi.SpaceCellVolume

/-! # The tetrahedra at the particles of a rank are those of the periodic Delaunay mesh: lemmas -/

namespace Verif.Parallel

open Verif.Geometry Verif.Halo Verif.Delaunay
open Verif.Predicates (P3 orient3 distSq3)

variable {Id : Type}

theorem le_iff3 {y a b : Vec 3 ℝ} :
    distance y a ≤ distance y b ↔ distSq3 (dim3.ofVec y) (dim3.ofVec a) ≤ distSq3 (dim3.ofVec y) (dim3.ofVec b) := by
  rw [distance_le_iff, Fin.sum_univ_three, Fin.sum_univ_three]
  rfl

theorem ofRank_lt {d : ℕ} {W : World d Id} {r : ℕ} {p : Id × Vec d ℝ} (hp : p ∈ W.ofRank r) : r < W.particles.length := by
  by_contra h
  unfold World.ofRank at hp
  rw [List.getD_eq_getElem?_getD, List.getElem?_eq_none (by omega)] at hp
  cases hp

theorem toVec_ofVec (v : Vec 3 ℝ) : dim3.toVec (dim3.ofVec v) = v := by
  funext i
  match i with
  | 0 => rfl
  | 1 => rfl
  | 2 => rfl

theorem vol_four (x : ℕ → P3 ℝ) (a b c d : ℕ) : vol (x ∘ ![a, b, c, d]) = orient3 ⟨x a, x b, x c, x d⟩ := rfl

theorem ofVec_inj {v w : Vec 3 ℝ} (h : dim3.ofVec v = dim3.ofVec w) : v = w := by
  rw [← toVec_ofVec v, h, toVec_ofVec]

variable [DecidableEq Id] {order : List ℕ} {W : World 3 Id} {own : ℕ} {g : Grid3 Id} {idx : List (Id × ℕ)}
  {l : List (ℕ × Image Id (Fin 3 → WrapType) (P3 ℝ))}

/-- Point `j` is image `k` of particle `q` of rank `s`. -/
def Named (W : World 3 Id) (own : ℕ) (idx : List (Id × ℕ)) (l : List (ℕ × Image Id (Fin 3 → WrapType) (P3 ℝ)))
    (j s : ℕ) (q : Id × Vec 3 ℝ) (k : Fin 3 → ℤ) : Prop :=
  q ∈ W.ofRank s ∧ ((s = own ∧ k = 0 ∧ (q.1, j) ∈ idx) ∨
    ∃ m w, 4 + (W.ofRank own).length + m = j ∧ l[m]? = some (s, ⟨q.1, w, dim3.ofVec (W.image w q.2)⟩) ∧
      k = (fun i => shift (w i)) ∧ (s ≠ own ∨ isPeriodic w))

namespace RankData

theorem named_pos (R : RankData order W own g idx l) (V : W.Valid) {j s : ℕ} {q : Id × Vec 3 ℝ} {k : Fin 3 → ℤ}
    (h : Named W own idx l j s q k) : g.position j = dim3.ofVec (Geometry.image W.box k q.2) := by
  obtain ⟨hq, ⟨rfl, rfl, h⟩ | ⟨m, w, rfl, h, rfl, -⟩⟩ := h
  · obtain ⟨p, hp, h1, h2⟩ := R.particle h
    rw [eq_of_id (V.ids s) hp hq h1] at h2
    rw [image_zero]
    exact h2
  · obtain ⟨hm, e⟩ := List.getElem?_eq_some_iff.1 h
    rw [R.halo m hm, e, ← image_eq]

theorem named_lt (R : RankData order W own g idx l) {j s : ℕ} {q : Id × Vec 3 ℝ} {k : Fin 3 → ℤ}
    (h : Named W own idx l j s q k) : 4 ≤ j ∧ j < g.tri.state.mesh.numPoints := by
  obtain ⟨hq, ⟨rfl, rfl, h⟩ | ⟨m, w, rfl, h, -⟩⟩ := h
  · have := R.idx_lt h
    dsimp only at this
    rw [R.num]
    omega
  · obtain ⟨hm, e⟩ := List.getElem?_eq_some_iff.1 h
    rw [R.num]
    omega

theorem named_exists (R : RankData order W own g idx l) {j : ℕ} (h4 : 4 ≤ j) (hj : j < g.tri.state.mesh.numPoints) :
    ∃ s q k, Named W own idx l j s q k := by
  rcases lt_or_ge j (4 + (W.ofRank own).length) with h5 | h5
  · obtain ⟨id, he⟩ := R.idx_of h4 h5
    obtain ⟨q, hq, eq1, eq2⟩ := R.particle he
    dsimp only at eq1 eq2
    exact ⟨own, q, 0, hq, Or.inl ⟨rfl, rfl, by rw [eq1]; exact he⟩⟩
  · have hj' : j - (4 + (W.ofRank own).length) < l.length := by rw [R.num] at hj; omega
    obtain ⟨a1, a2, q, hq, e1, e2⟩ := R.image _ (List.getElem_mem hj')
    refine ⟨_, q, _, hq, Or.inr ⟨j - (4 + (W.ofRank own).length), l[j - (4 + (W.ofRank own).length)].2.wrap, by omega, ?_, rfl, a2⟩⟩
    rw [List.getElem?_eq_getElem hj', ← e2, ← e1]

theorem named_inj (R : RankData order W own g idx l) (V : W.Valid) {j j' s : ℕ} {q : Id × Vec 3 ℝ} {k : Fin 3 → ℤ}
    (h : Named W own idx l j s q k) (h' : Named W own idx l j' s q k) : j = j' :=
  R.space.injective (R.named_lt h).2 (R.named_lt h').2 ((R.named_pos V h).trans (R.named_pos V h').symm)

theorem named_fun (R : RankData order W own g idx l) (V : W.Valid) {j s s' : ℕ} {q q' : Id × Vec 3 ℝ} {k k' : Fin 3 → ℤ}
    (h : Named W own idx l j s q k) (h' : Named W own idx l j s' q' k') : s = s' ∧ q = q' ∧ k = k' := by
  obtain ⟨hq, h⟩ := h
  obtain ⟨hq', h'⟩ := h'
  rcases h with ⟨rfl, rfl, h⟩ | ⟨m, w, rfl, h, rfl, -⟩ <;> rcases h' with ⟨e1, rfl, h'⟩ | ⟨m', w', e, h', rfl, -⟩
  · subst e1
    have := List.inj_on_of_nodup_map R.idx_nodup h h' rfl
    exact ⟨rfl, eq_of_id (V.ids s') hq hq' (Prod.mk.inj this).1, rfl⟩
  · have := R.idx_lt h
    dsimp only at this
    omega
  · have := R.idx_lt h'
    dsimp only at this
    omega
  · obtain rfl : m' = m := by omega
    rw [h] at h'
    obtain ⟨rfl, e2⟩ := Prod.mk.inj (Option.some.inj h')
    obtain ⟨e3, rfl, -⟩ := Image.mk.inj e2
    exact ⟨rfl, eq_of_id (V.ids s) hq hq' e3, rfl⟩

/-- If no point of the mesh is closer to `y` than the local point `i`, all images which are not in the mesh are further
away. -/
theorem tie_wrap (R : RankData order W own g idx l) (V : W.Valid)
    {p : Id × Vec 3 ℝ} (hp : p ∈ W.ofRank own) {i : ℕ} (hi : (p.1, i) ∈ idx)
    {y : P3 ℝ} (h : ∀ w, w < g.tri.state.mesh.numPoints → distSq3 y (g.position i) ≤ distSq3 y (g.position w))
    {s : ℕ} {q : Id × Vec 3 ℝ} (hq : q ∈ W.ofRank s) {w : Fin 3 → WrapType} (hw : s ≠ own ∨ q ≠ p ∨ isPeriodic w) :
    distSq3 y (g.position i) < distSq3 y (dim3.ofVec (W.image w q.2)) ∨
      ∃ j, j ≠ i ∧ Named W own idx l j s q fun i => shift (w i) := by
  have P := R.space
  obtain ⟨i1, i2⟩ := R.idx_lt hi
  dsimp only at i1 i2
  have hin : i < g.tri.state.mesh.numPoints := by rw [R.num]; omega
  by_cases hwant : s ≠ own ∨ isPeriodic w
  · by_cases hl : ((s, ⟨q.1, w, dim3.ofVec (W.image w q.2)⟩) : ℕ × Image Id (Fin 3 → WrapType) (P3 ℝ)) ∈ l
    · obtain ⟨j, hj, ej⟩ := List.mem_iff_getElem.1 hl
      refine Or.inr ⟨4 + (W.ofRank own).length + j, by omega, hq, Or.inr ⟨j, w, rfl, ?_, rfl, hwant⟩⟩
      rw [List.getElem?_eq_getElem hj, ej]
    · refine Or.inl (P.nearest_outside i1 hin ?_ ?_)
      · intro t σ k m hat e hne
        exact h _ (P.lt hat m)
      · intro t σ k hat e
        exact (R.outside t σ k hat (e ▸ i1) (e ▸ i2) s (ofRank_lt hq) q hq w hwant).resolve_left hl
  · push Not at hwant
    obtain ⟨rfl, hnp⟩ := hwant
    have hqp : q ≠ p := by
      rcases hw with hw | hw | hw
      · exact absurd rfl hw
      · exact hw
      · exact absurd hw hnp
    obtain ⟨j, hj, ej⟩ := R.point hq
    refine Or.inr ⟨j, fun e => hqp ?_, hq, Or.inl ⟨rfl, ?_, hj⟩⟩
    swap
    · funext a
      exact shift_eq_zero.2 (by_contra fun ha => hnp ⟨a, ha⟩)
    subst e
    have := List.inj_on_of_nodup_map R.idx_nodup hj hi rfl
    exact eq_of_id (V.ids s) hq hp (Prod.mk.inj this).1

/-- A place which is closest to a local point is at most half a box length away from it. -/
theorem tie_half (R : RankData order W own g idx l) (V : W.Valid)
    {p : Id × Vec 3 ℝ} (hp : p ∈ W.ofRank own) {i : ℕ} (hi : (p.1, i) ∈ idx) (hpos : g.position i = dim3.ofVec p.2)
    {y : Vec 3 ℝ} (h : ∀ w, w < g.tri.state.mesh.numPoints →
      distSq3 (dim3.ofVec y) (g.position i) ≤ distSq3 (dim3.ofVec y) (g.position w)) (a : Fin 3) :
    |y a - p.2 a| ≤ (W.hi a - W.lo a) / 2 := by
  refine half_box_le V.box (fun w hw => ?_) a
  rw [le_iff3, ← hpos]
  rcases R.tie_wrap V hp hi h hp (w := w) (Or.inr (Or.inr hw)) with h1 | ⟨j, -, h2⟩
  · exact h1.le
  · rw [image_eq, ← R.named_pos V h2]
    exact h j (R.named_lt h2).2

/-- The same for all images. -/
theorem tie (R : RankData order W own g idx l) (V : W.Valid) (hh : ∀ r, ∀ p ∈ W.ofRank r, ∀ i, p.2 i < W.hi i)
    {p : Id × Vec 3 ℝ} (hp : p ∈ W.ofRank own) {i : ℕ} (hi : (p.1, i) ∈ idx) (hpos : g.position i = dim3.ofVec p.2)
    {y : Vec 3 ℝ} (h : ∀ w, w < g.tri.state.mesh.numPoints →
      distSq3 (dim3.ofVec y) (g.position i) ≤ distSq3 (dim3.ofVec y) (g.position w))
    {s : ℕ} {q : Id × Vec 3 ℝ} (hq : q ∈ W.ofRank s) {k : Fin 3 → ℤ} (hne : (s, q, k) ≠ (own, p, 0)) :
    distSq3 (dim3.ofVec y) (g.position i) < distSq3 (dim3.ofVec y) (dim3.ofVec (Geometry.image W.box k q.2)) ∨
      ∃ j, j ≠ i ∧ Named W own idx l j s q k := by
  have hhalf := R.tie_half V hp hi hpos h
  choose w hw using fun i => exists_shift (k := max (-1) (min 1 (k i))) (by omega) (by omega)
  by_cases hk : ∀ a, max (-1) (min 1 (k a)) = k a
  · have e : (fun a => shift (w a)) = k := by
      funext a
      rw [hw, hk]
    rw [← e, ← image_eq]
    refine R.tie_wrap V hp hi h hq ?_
    by_contra hcon
    push Not at hcon
    obtain ⟨rfl, rfl, hcon⟩ := hcon
    apply hne
    rw [← e]
    have : (fun a => shift (w a)) = 0 := by
      funext a
      exact shift_eq_zero.2 (by_contra fun ha => hcon ⟨a, ha⟩)
    rw [this]
  · left
    have h1 : distSq3 (dim3.ofVec y) (g.position i) ≤ distSq3 (dim3.ofVec y) (dim3.ofVec (W.image w q.2)) := by
      by_cases hc : s ≠ own ∨ q ≠ p ∨ isPeriodic w
      · rcases R.tie_wrap V hp hi h hq hc with h1 | ⟨j, -, h2⟩
        · exact h1.le
        · rw [image_eq, ← R.named_pos V h2]
          exact h j (R.named_lt h2).2
      · push Not at hc
        obtain ⟨rfl, rfl, hc⟩ := hc
        rw [image_none W hc, hpos]
    refine lt_of_le_of_lt h1 (lt_iff3.1 (distance_lt_iff.2 ?_))
    have e : ∀ k : Fin 3 → ℤ, ∀ a, y a - Geometry.image W.box k q.2 a = y a - q.2 a - k a * (W.hi a - W.lo a) := by
      intro k a
      simp only [Geometry.image, World.box, fromMinMax]
      ring
    have hL : ∀ a, 0 < W.hi a - W.lo a := fun a => sub_pos.2 (V.box a)
    have hv : ∀ a, |y a - q.2 a| < 3 / 2 * (W.hi a - W.lo a) := by
      intro a
      have h1 := abs_le.1 (hhalf a)
      have h2 := V.inside own p hp a
      have h3 := V.inside s q hq a
      have h4 := hh own p hp a
      have h5 := hh s q hq a
      rw [abs_lt]
      constructor <;> linarith
    refine Finset.sum_lt_sum (fun a _ => ?_) ?_
    · rw [image_eq, e, e, sq_le_sq, hw]
      exact clamp_le (hL a) (hv a).le (k a)
    · push Not at hk
      obtain ⟨a, ha⟩ := hk
      refine ⟨a, Finset.mem_univ a, ?_⟩
      rw [image_eq, e, e, sq_lt_sq, hw]
      exact clamp_lt (hL a) (hv a) ha

/-- A place which is closest to a local point is closer to it than to the vertices of the initial tetrahedron. -/
theorem corner_far (R : RankData order W own g idx l) (V : W.Valid) (hc : ∀ i, W.hi i - W.lo i = W.hi 0 - W.lo 0)
    {p : Id × Vec 3 ℝ} (hp : p ∈ W.ofRank own) {i : ℕ} (hpos : g.position i = dim3.ofVec p.2)
    {y : Vec 3 ℝ} (h : ∀ a, |y a - p.2 a| ≤ (W.hi a - W.lo a) / 2) {w : ℕ} (h4 : w < 4) :
    distSq3 (dim3.ofVec y) (g.position i) < distSq3 (dim3.ofVec y) (g.position w) := by
  obtain ⟨f1, f2, f3, f4⟩ := corners_far V.box hc (V.inside own p hp) h
  obtain ⟨z0, z1, z2, z3⟩ := R.corner
  rw [hpos]
  obtain rfl | rfl | rfl | rfl : w = 0 ∨ w = 1 ∨ w = 2 ∨ w = 3 := by omega
  · rw [z0]; exact f1
  · rw [z1]; exact f2
  · rw [z2]; exact f3
  · rw [z3]; exact f4

/-- The points of the mesh which are not vertices of the initial tetrahedron are particles and images. -/
theorem site (R : RankData order W own g idx l) (V : W.Valid) {j : ℕ} (h4 : 4 ≤ j) (hj : j < g.tri.state.mesh.numPoints) :
    W.Site (dim3.toVec (g.position j)) := by
  obtain ⟨s, q, k, h⟩ := R.named_exists h4 hj
  exact ⟨s, q, ofRank_lt h.1, h.1, k, by rw [R.named_pos V h, toVec_ofVec]⟩

/-- The centre of a tetrahedron at a local point: the vertices are particles and images at the same distance, the other
particles and images are further away. -/
theorem tetra_sphere (R : RankData order W own g idx l) (V : W.Valid) (hc : ∀ i, W.hi i - W.lo i = W.hi 0 - W.lo 0)
    (hh : ∀ r, ∀ p ∈ W.ofRank r, ∀ i, p.2 i < W.hi i)
    {p : Id × Vec 3 ℝ} (hp : p ∈ W.ofRank own) {i : ℕ} (hi : (p.1, i) ∈ idx) (hpos : g.position i = dim3.ofVec p.2)
    {t : ℕ} {T : Tetra} (hT : g.tri.state.mesh.tetras.get t = some T) (hiT : i ∈ T.points) :
    ∃ o : Vec 3 ℝ, (∀ j ∈ T.points, 4 ≤ j ∧ distSq3 (dim3.ofVec o) (g.position j) = distSq3 (dim3.ofVec o) (g.position i)) ∧
      ∀ z, W.Site z → (∀ j ∈ T.points, dim3.ofVec z ≠ g.position j) →
        distSq3 (dim3.ofVec o) (g.position i) < distSq3 (dim3.ofVec o) (dim3.ofVec z) := by
  have P := R.space
  obtain ⟨o', -, h1, h2⟩ := Voronoi.centre_at3 one_pos P hT
  obtain ⟨o, rfl⟩ : ∃ o, dim3.ofVec o = o' := ⟨dim3.toVec o', rfl⟩
  have hnear : ∀ w, w < g.tri.state.mesh.numPoints →
      distSq3 (dim3.ofVec o) (g.position i) ≤ distSq3 (dim3.ofVec o) (g.position w) := by
    intro w hw
    by_cases hwT : w ∈ T.points
    · exact (h1 i hiT w hwT).le
    · exact (h2 i hiT w hw hwT).le
  have hhalf := R.tie_half V hp hi hpos hnear
  refine ⟨o, fun j hj => ⟨?_, h1 j hj i hiT⟩, ?_⟩
  · by_contra h4
    exact absurd (h1 i hiT j hj) (R.corner_far V hc hp hpos hhalf (by omega)).ne
  · rintro z ⟨s, q, hs, hq, k, rfl⟩ hz
    by_cases he : (s, q, k) = (own, p, 0)
    · obtain ⟨rfl, rfl, rfl⟩ : s = own ∧ q = p ∧ k = 0 := by simpa using he
      exact absurd (by rw [image_zero, hpos]) (hz i hiT)
    · rcases R.tie V hh hp hi hpos hnear hq he with h3 | ⟨j, -, h4⟩
      · exact h3
      · rw [← R.named_pos V h4]
        exact h2 i hiT j (R.named_lt h4).2 fun hjT => hz j hjT (R.named_pos V h4).symm

/-- **The tetrahedra at a local point are those of the Delaunay mesh of all particles and images.** -/
theorem tetra_iff (R : RankData order W own g idx l) (V : W.Valid) (hc : ∀ i, W.hi i - W.lo i = W.hi 0 - W.lo 0)
    (hh : ∀ r, ∀ p ∈ W.ofRank r, ∀ i, p.2 i < W.hi i)
    {p : Id × Vec 3 ℝ} (hp : p ∈ W.ofRank own) {i : ℕ} (hi : (p.1, i) ∈ idx) (hpos : g.position i = dim3.ofVec p.2)
    (a b c : P3 ℝ) :
    (∃ t j k m, At3 g.tri.state.mesh t ![i, j, k, m] ∧ (4 ≤ j ∧ 4 ≤ k ∧ 4 ≤ m) ∧ g.position j = a ∧ g.position k = b ∧ g.position m = c) ↔
      DelaunayTetra (fun z => W.Site (dim3.toVec z)) (g.position i) a b c := by
  have P := R.space
  obtain ⟨i1, i2⟩ := R.idx_lt hi
  dsimp only at i1 i2
  have hin : i < g.tri.state.mesh.numPoints := by rw [R.num]; omega
  constructor
  · rintro ⟨t, j, k, m, hat, ⟨j4, k4, m4⟩, rfl, rfl, rfl⟩
    obtain ⟨T, hT, hinj, hm⟩ := id hat
    obtain ⟨o, h1, h2⟩ := R.tetra_sphere V hc hh hp hi hpos hT (hm 0)
    have hlt := P.lt hat
    have hd : ∀ n ∈ T.points, distSq3 (g.position n) (dim3.ofVec o) = distSq3 (g.position i) (dim3.ofVec o) := by
      intro n hn
      rw [Voronoi.distSq3_comm', (h1 n hn).2, Voronoi.distSq3_comm']
    have m1 : j ∈ T.points := hm 1
    have m2 : k ∈ T.points := hm 2
    have m3 : m ∈ T.points := hm 3
    have l0 : i < g.tri.state.mesh.numPoints := hlt 0
    have l1 : j < g.tri.state.mesh.numPoints := hlt 1
    have l2 : k < g.tri.state.mesh.numPoints := hlt 2
    have l3 : m < g.tri.state.mesh.numPoints := hlt 3
    have hv : orient3 ⟨g.position i, g.position j, g.position k, g.position m⟩ ≠ 0 := by
      rw [← vol_four]
      exact P.space.solid.nondeg hat
    refine ⟨R.site V i1 l0, R.site V j4 l1, R.site V k4 l2, R.site V m4 l3, hv, dim3.ofVec o,
      distSq3 (g.position i) (dim3.ofVec o), rfl, hd j m1, hd k m2, hd m m3, ?_⟩
    · intro z hz n1 n2 n3 n4
      have := h2 _ hz fun n hn => by
        obtain ⟨l, rfl⟩ := (hat.mem_iff P.ok.cons hT n).1 hn
        match l with
        | 0 => exact n1
        | 1 => exact n2
        | 2 => exact n3
        | 3 => exact n4
      rw [Voronoi.distSq3_comm' (id z)]
      rw [Voronoi.distSq3_comm'] at this
      exact this
  · rintro ⟨s0, s1, s2, s3, hvol, o', rho, e0, e1, e2, e3, hE⟩
    dsimp only [id] at e0 e1 e2 e3 hE hvol
    obtain ⟨o, rfl⟩ : ∃ o, dim3.ofVec o = o' := ⟨dim3.toVec o', rfl⟩
    have hall : ∀ z, W.Site z → rho ≤ distSq3 (dim3.ofVec o) (dim3.ofVec z) := by
      intro z hz
      rw [Voronoi.distSq3_comm']
      by_cases z0 : dim3.ofVec z = g.position i
      · rw [z0, e0]
      by_cases z1 : dim3.ofVec z = a
      · rw [z1, e1]
      by_cases z2 : dim3.ofVec z = b
      · rw [z2, e2]
      by_cases z3 : dim3.ofVec z = c
      · rw [z3, e3]
      exact (hE _ (by rw [toVec_ofVec]; exact hz) z0 z1 z2 z3).le
    rw [Voronoi.distSq3_comm'] at e0 e1 e2 e3
    have hhalf : ∀ a, |o a - p.2 a| ≤ (W.hi a - W.lo a) / 2 := by
      refine half_box_le V.box fun w hw => ?_
      rw [le_iff3, ← hpos, e0]
      exact hall _ ⟨own, p, ofRank_lt hp, hp, _, image_eq W w p.2⟩
    have hnear : ∀ w, w < g.tri.state.mesh.numPoints →
        distSq3 (dim3.ofVec o) (g.position i) ≤ distSq3 (dim3.ofVec o) (g.position w) := by
      intro w hw
      rcases lt_or_ge w 4 with h4 | h4
      · exact (R.corner_far V hc hp hpos hhalf h4).le
      · rw [e0]
        exact hall _ (R.site V h4 hw)
    have hv : ∀ z, W.Site (dim3.toVec z) → z ≠ g.position i → distSq3 (dim3.ofVec o) z = rho →
        ∃ j, j < g.tri.state.mesh.numPoints ∧ 4 ≤ j ∧ g.position j = z := by
      rintro z ⟨s, q, hs, hq, k, ez⟩ hz hr
      have ez' : z = dim3.ofVec (Geometry.image W.box k q.2) := by rw [← ez]; rfl
      rw [ez'] at hz hr ⊢
      have hne : (s, q, k) ≠ (own, p, 0) := by
        intro he
        obtain ⟨rfl, rfl, rfl⟩ : s = own ∧ q = p ∧ k = 0 := by simpa using he
        exact hz (by rw [image_zero, hpos])
      rcases R.tie V hh hp hi hpos hnear hq hne with h3 | ⟨j, -, h4⟩
      · rw [hr, e0] at h3
        exact absurd h3 (lt_irrefl _)
      · exact ⟨j, (R.named_lt h4).2, (R.named_lt h4).1, R.named_pos V h4⟩
    have hinj : Function.Injective ![g.position i, a, b, c] := vol_injective hvol
    have hne : ∀ k : Fin 4, k ≠ 0 → ![g.position i, a, b, c] k ≠ g.position i := fun k hk e => hk (hinj e)
    obtain ⟨j, hj, j4, rfl⟩ := hv a s1 (hne 1 (by decide)) e1
    obtain ⟨k, hk, k4, rfl⟩ := hv b s2 (hne 2 (by decide)) e2
    obtain ⟨m, hm, m4, rfl⟩ := hv c s3 (hne 3 (by decide)) e3
    have hvol' : vol (g.position ∘ ![i, j, k, m]) ≠ 0 := by rw [vol_four]; exact hvol
    obtain ⟨t, ht⟩ := P.tetra_of_empty (σ := ![i, j, k, m]) (forall_fin_four.2 ⟨hin, hj, hk, hm⟩) hvol' (by
      intro w hw hwn
      rw [pw3_sphere hvol' (o := dim3.ofVec o) (rho := rho) (forall_fin_four.2
        ⟨by rw [Voronoi.distSq3_comm']; exact e0, by rw [Voronoi.distSq3_comm']; exact e1,
          by rw [Voronoi.distSq3_comm']; exact e2, by rw [Voronoi.distSq3_comm']; exact e3⟩), sub_pos]
      rcases lt_or_ge w 4 with h4 | h4
      · have := R.corner_far V hc hp hpos hhalf h4
        rw [e0, Voronoi.distSq3_comm' _ (g.position w)] at this
        exact this
      · exact hE _ (R.site V h4 hw) (fun e => hwn 0 (P.injective hw hin e)) (fun e => hwn 1 (P.injective hw hj e))
          (fun e => hwn 2 (P.injective hw hk e)) (fun e => hwn 3 (P.injective hw hm e)))
    exact ⟨t, j, k, m, ht, ⟨j4, k4, m4⟩, rfl, rfl, rfl⟩

end RankData

end Verif.Parallel
