import Verif.Delaunay.PlaneGeo
import Mathlib.Data.Set.Finite.Lattice
import Mathlib.Data.Set.Finite.List

/-!
# Triangulations of the plane: lemmas

A triangulation is described by a relation `R i a b c`: the triangle with index `i` has the vertices `a, b, c`
in counterclockwise order.
-/

namespace Verif.Delaunay

open Verif.Predicates (P2 Triangle2 orient2 distSq2)

variable {K : Type} [Field K] [LinearOrder K] [IsStrictOrderedRing K]

/-- The power of a point with respect to the circumcircle of a triangle. -/
def pw (a b c y : P2 K) : K :=
  power (Triangle2.circumcentre ⟨a, b, c⟩) (distSq2 a (Triangle2.circumcentre ⟨a, b, c⟩)) y

theorem pw_vertices {a b c : P2 K} (h : area a b c ≠ 0) : pw a b c a = 0 ∧ pw a b c b = 0 ∧ pw a b c c = 0 := by
  obtain ⟨h1, h2⟩ := Predicates.circumcentre2_equidistant (⟨a, b, c⟩ : Triangle2 K) h
  dsimp only at h1 h2
  unfold pw power
  refine ⟨sub_self _, ?_, ?_⟩
  · rw [← h1, sub_self]
  · rw [← h2, sub_self]

theorem pw_unique {a b c o : P2 K} {rho : K} (h : area a b c ≠ 0) (ha : power o rho a = 0)
    (hb : power o rho b = 0) (hc : power o rho c = 0) (y : P2 K) : power o rho y = pw a b c y := by
  obtain ⟨h1, h2, h3⟩ := pw_vertices h
  have := power_diff o (Triangle2.circumcentre ⟨a, b, c⟩) rho (distSq2 a (Triangle2.circumcentre ⟨a, b, c⟩)) a b c y
  change area b c y * (power o rho a - pw a b c a) - area a c y * (power o rho b - pw a b c b) +
    area a b y * (power o rho c - pw a b c c) = area a b c * (power o rho y - pw a b c y) at this
  rw [ha, hb, hc, h1, h2, h3] at this
  have h4 : area a b c * (power o rho y - pw a b c y) = 0 := by linarith
  exact sub_eq_zero.1 ((mul_eq_zero.1 h4).resolve_left h)

theorem pw_cyc {a b c : P2 K} (h : area a b c ≠ 0) (y : P2 K) : pw b c a y = pw a b c y := by
  obtain ⟨h1, h2, h3⟩ := pw_vertices (show area b c a ≠ 0 by rw [area_cyc]; exact h)
  exact pw_unique h h3 h1 h2 y

theorem pw_inside {a b c y : P2 K} (h : 0 < area a b c) (hy : Inside a b c y) : pw a b c y < 0 := by
  obtain ⟨h1, h2, h3⟩ := pw_vertices h.ne'
  exact power_inside h h1 h2 h3 hy

theorem pw_within {a b c y : P2 K} (h : 0 < area a b c) (hy : Within a b c y) : pw a b c y ≤ 0 := by
  obtain ⟨h1, h2, h3⟩ := pw_vertices h.ne'
  exact power_within h h1 h2 h3 hy

theorem pw_cross {a b c d y : P2 K} (h : 0 < area a b c) (h' : 0 < area b a d) (hd : 0 < pw a b c d)
    (hy : area a b y < 0) : pw b a d y < pw a b c y := by
  obtain ⟨h1, h2, _⟩ := pw_vertices h.ne'
  obtain ⟨g1, g2, g3⟩ := pw_vertices h'.ne'
  exact power_cross h1 h2 g2 g1 g3 hd h' hy

/-- The local Delaunay condition is symmetric. -/
theorem pw_symm {a b c d : P2 K} (h : 0 < area a b c) (h' : 0 < area b a d) :
    area a b c * pw a b c d = area b a d * pw b a d c := by
  obtain ⟨h1, h2, h3⟩ := pw_vertices h.ne'
  obtain ⟨g1, g2, g3⟩ := pw_vertices h'.ne'
  have := power_diff (Triangle2.circumcentre ⟨a, b, c⟩) (Triangle2.circumcentre ⟨b, a, d⟩)
    (distSq2 a (Triangle2.circumcentre ⟨a, b, c⟩)) (distSq2 b (Triangle2.circumcentre ⟨b, a, d⟩)) a b d c
  change area b d c * (pw a b c a - pw b a d a) - area a d c * (pw a b c b - pw b a d b) +
    area a b c * (pw a b c d - pw b a d d) = area a b d * (pw a b c c - pw b a d c) at this
  rw [h1, h2, h3, g1, g2, g3] at this
  rw [area_swap a b d]
  linarith

theorem pw_symm_pos {a b c d : P2 K} (h : 0 < area a b c) (h' : 0 < area b a d) (hd : 0 < pw a b c d) :
    0 < pw b a d c := by
  have h1 := pw_symm h h'
  have h2 : 0 < area b a d * pw b a d c := by rw [← h1]; exact mul_pos h hd
  exact (mul_pos_iff_of_pos_left h').1 h2

theorem pw_symm_neg {a b c d : P2 K} (h : 0 < area a b c) (h' : 0 < area b a d) (hd : pw a b c d < 0) :
    pw b a d c < 0 := by
  have h1 := pw_symm h h'
  have h2 : area b a d * pw b a d c < 0 := by rw [← h1]; exact mul_neg_of_pos_of_neg h hd
  exact neg_of_mul_neg_right h2 h'.le

/-! ### Valid triangulations -/

/-- `u, v, w` is a rotation of `a, b, c`. -/
def Cyc3 (a b c u v w : ℕ) : Prop :=
  (u = a ∧ v = b ∧ w = c) ∨ (u = b ∧ v = c ∧ w = a) ∨ (u = c ∧ v = a ∧ w = b)

/-- A triangulation of a convex region with vertices below `n`. -/
structure Valid (x : ℕ → P2 K) (R : ℕ → ℕ → ℕ → ℕ → Prop) (n : ℕ) : Prop where
  cyc : ∀ {i a b c}, R i a b c → R i b c a
  uniq : ∀ {i a b c u v w}, R i a b c → R i u v w → Cyc3 a b c u v w
  lt : ∀ {i a b c}, R i a b c → a < n
  pos : ∀ {i a b c}, R i a b c → 0 < area (x a) (x b) (x c)
  disjoint : ∀ {i j a b c u v w}, R i a b c → R j u v w → i ≠ j → ∀ y,
    Inside (x a) (x b) (x c) y → Inside (x u) (x v) (x w) y → False
  /-- at every edge there is another triangle, or all vertices are on the same side -/
  edge : ∀ {i a b c}, R i a b c → (∃ j q, R j b a q) ∨ ∀ w, w < n → 0 ≤ area (x a) (x b) (x w)
  /-- no vertex lies in another triangle -/
  clean : ∀ {i a b c}, R i a b c → ∀ w, w < n → Within (x a) (x b) (x c) (x w) → w = a ∨ w = b ∨ w = c
  fin : {t : ℕ × ℕ × ℕ × ℕ | R t.1 t.2.1 t.2.2.1 t.2.2.2}.Finite
  nonempty : ∃ i a b c, R i a b c

variable {x : ℕ → P2 K} {R R' : ℕ → ℕ → ℕ → ℕ → Prop} {n n' : ℕ}

omit [IsStrictOrderedRing K] in
theorem Valid.cyc' (V : Valid x R n) {i a b c : ℕ} (h : R i a b c) : R i c a b := V.cyc (V.cyc h)

/-- Two triangles with the same directed edge are the same. -/
theorem Valid.same (V : Valid x R n) {i j a b c d : ℕ} (h : R i a b c) (h' : R j a b d) : i = j := by
  by_contra hne
  obtain ⟨z, h1, h2⟩ := overlap (V.pos h) (V.pos h')
  exact V.disjoint h h' hne z h1 h2

omit [IsStrictOrderedRing K] in
theorem Valid.same_third (V : Valid x R n) {i a b c d : ℕ} (h : R i a b c) (h' : R i a b d) : c = d := by
  have hp := V.pos h
  have hp' := V.pos h'
  rcases V.uniq h h' with ⟨_, _, e⟩ | ⟨e1, e2, e3⟩ | ⟨e1, e2, e3⟩
  · exact e.symm
  · subst e1
    rw [(area_self _ _).2.2] at hp
    exact absurd hp (lt_irrefl _)
  · subst e2
    rw [(area_self _ _).2.2] at hp
    exact absurd hp (lt_irrefl _)

/-- A point inside one triangle is not within another one. -/
theorem Valid.not_within (V : Valid x R n) {i j a b c u v w : ℕ} (h : R i a b c) (h' : R j u v w) (hne : i ≠ j)
    {y : P2 K} (hy : Inside (x a) (x b) (x c) y) : ¬Within (x u) (x v) (x w) y := by
  intro hw
  obtain ⟨z, h1, h2⟩ := inside_both hy (V.pos h') hw
  exact V.disjoint h h' hne z h1 h2

omit [IsStrictOrderedRing K] in
theorem Valid.ne (V : Valid x R n) {i a b c : ℕ} (h : R i a b c) : x a ≠ x b := by
  intro e
  have := V.pos h
  rw [e, (area_self _ _).2.2] at this
  exact lt_irrefl _ this

omit [IsStrictOrderedRing K] in
theorem Valid.ne' (V : Valid x R n) {i a b c : ℕ} (h : R i a b c) : a ≠ b ∧ b ≠ c ∧ c ≠ a :=
  ⟨fun e => V.ne h (congrArg x e), fun e => V.ne (V.cyc h) (congrArg x e),
    fun e => V.ne (V.cyc' h) (congrArg x e)⟩

/-- Walking towards a point `y` from any set of triangles closed under neighbours leads to a triangle which
contains `y`; it is the one for which the power of `y` is smallest. -/
theorem Valid.walk (V : Valid x R n)
    (L : ∀ {i a b c j q}, R i a b c → R j b a q → 0 < pw (x a) (x b) (x c) (x q)) (y : P2 K) (S : Set ℕ)
    (hS : ∃ i ∈ S, ∃ a b c, R i a b c)
    (hcl : ∀ i ∈ S, ∀ a b c j q, R i a b c → R j b a q → area (x a) (x b) y < 0 → j ∈ S)
    (hy : ∀ i ∈ S, ∀ a b c, R i a b c → (∀ w, w < n → 0 ≤ area (x a) (x b) (x w)) → 0 ≤ area (x a) (x b) y) :
    ∃ m, (∃ i ∈ S, ∃ a b c, R i a b c ∧ pw (x a) (x b) (x c) y = m) ∧
      (∀ i ∈ S, ∀ a b c, R i a b c → m ≤ pw (x a) (x b) (x c) y) ∧
      (∀ i ∈ S, ∀ a b c, R i a b c → pw (x a) (x b) (x c) y = m → Within (x a) (x b) (x c) y) := by
  obtain ⟨i0, hi0, a0, b0, c0, h0⟩ := hS
  have hfin : {t : ℕ × ℕ × ℕ × ℕ | t.1 ∈ S ∧ R t.1 t.2.1 t.2.2.1 t.2.2.2}.Finite :=
    V.fin.subset fun t ht => ht.2
  obtain ⟨⟨i, a, b, c⟩, ⟨hi, h⟩, hmin⟩ := Set.exists_min_image _
    (fun t : ℕ × ℕ × ℕ × ℕ => pw (x t.2.1) (x t.2.2.1) (x t.2.2.2) y) hfin ⟨(i0, a0, b0, c0), hi0, h0⟩
  refine ⟨_, ⟨i, hi, a, b, c, h, rfl⟩, fun j hj u v w hr => hmin (j, u, v, w) ⟨hj, hr⟩, ?_⟩
  have edge : ∀ j ∈ S, ∀ u v w, R j u v w → pw (x u) (x v) (x w) y = pw (x a) (x b) (x c) y →
      0 ≤ area (x u) (x v) y := by
    intro j hj u v w hr he
    rcases V.edge hr with ⟨k, q, hk⟩ | hh
    · by_contra hneg
      have hneg := not_le.1 hneg
      have h1 := pw_cross (V.pos hr) (V.pos hk) (L hr hk) hneg
      have h2 := hmin (k, v, u, q) ⟨hcl j hj u v w k q hr hk hneg, hk⟩
      dsimp only at h2
      linarith
    · exact hy j hj u v w hr hh
  intro j hj u v w hr he
  have hp := (V.pos hr).ne'
  refine ⟨edge j hj u v w hr he, edge j hj v w u (V.cyc hr) ?_, edge j hj w u v (V.cyc' hr) ?_⟩
  · rw [pw_cyc hp, he]
  · rw [← pw_cyc (by rw [area_cyc']; exact hp), he]

/-- The local Delaunay condition implies the global one. -/
theorem Valid.global (V : Valid x R n)
    (L : ∀ {i a b c j q}, R i a b c → R j b a q → 0 < pw (x a) (x b) (x c) (x q)) {i a b c : ℕ} (h : R i a b c)
    {w : ℕ} (hw : w < n) (ha : w ≠ a) (hb : w ≠ b) (hc : w ≠ c) : 0 < pw (x a) (x b) (x c) (x w) := by
  obtain ⟨i0, a0, b0, c0, h0⟩ := V.nonempty
  obtain ⟨m, ⟨j, _, u, v, t, hr, he⟩, hmin, hwi⟩ := V.walk L (x w) Set.univ ⟨i0, trivial, a0, b0, c0, h0⟩
    (fun _ _ _ _ _ _ _ _ _ _ => trivial) (fun _ _ _ _ _ _ hh => hh w hw)
  have hm : m = 0 := by
    rw [← he]
    obtain ⟨e1, e2, e3⟩ := pw_vertices (V.pos hr).ne'
    rcases V.clean hr w hw (hwi j trivial u v t hr he) with rfl | rfl | rfl <;> assumption
  have h1 := hmin i trivial a b c h
  rcases lt_or_eq_of_le h1 with h2 | h2
  · rwa [hm] at h2
  · rcases V.clean h w hw (hwi i trivial a b c h h2.symm) with e | e | e
    · exact absurd e ha
    · exact absurd e hb
    · exact absurd e hc

/-! ### Replacing triangles -/

theorem Cyc3.rot {a b c u v w : ℕ} (h : Cyc3 a b c u v w) : Cyc3 a b c v w u := by
  rcases h with ⟨rfl, rfl, rfl⟩ | ⟨rfl, rfl, rfl⟩ | ⟨rfl, rfl, rfl⟩
  · exact Or.inr (Or.inl ⟨rfl, rfl, rfl⟩)
  · exact Or.inr (Or.inr ⟨rfl, rfl, rfl⟩)
  · exact Or.inl ⟨rfl, rfl, rfl⟩

theorem Cyc3.trans {a b c u v w u' v' w' : ℕ} (h : Cyc3 a b c u v w) (h' : Cyc3 a b c u' v' w') :
    Cyc3 u v w u' v' w' := by
  rcases h with ⟨rfl, rfl, rfl⟩ | ⟨rfl, rfl, rfl⟩ | ⟨rfl, rfl, rfl⟩ <;>
    rcases h' with ⟨rfl, rfl, rfl⟩ | ⟨rfl, rfl, rfl⟩ | ⟨rfl, rfl, rfl⟩ <;> simp [Cyc3]

omit [IsStrictOrderedRing K] in
theorem Cyc3.inside {a b c u v w : ℕ} (h : Cyc3 a b c u v w) {y : P2 K} (hy : Inside (x u) (x v) (x w) y) :
    Inside (x a) (x b) (x c) y := by
  rcases h with ⟨rfl, rfl, rfl⟩ | ⟨rfl, rfl, rfl⟩ | ⟨rfl, rfl, rfl⟩
  · exact hy
  · exact hy.cyc.cyc
  · exact hy.cyc

omit [IsStrictOrderedRing K] in
theorem Cyc3.within {a b c u v w : ℕ} (h : Cyc3 a b c u v w) {y : P2 K} (hy : Within (x u) (x v) (x w) y) :
    Within (x a) (x b) (x c) y := by
  rcases h with ⟨rfl, rfl, rfl⟩ | ⟨rfl, rfl, rfl⟩ | ⟨rfl, rfl, rfl⟩
  · exact hy
  · exact hy.cyc.cyc
  · exact hy.cyc

/-- The relation after the triangles `olds` were replaced by the triangles `N`. -/
def ReplacedBy (R R' : ℕ → ℕ → ℕ → ℕ → Prop) (olds : List ℕ) (N : List (ℕ × ℕ × ℕ × ℕ)) : Prop :=
  ∀ i u v w, R' i u v w ↔ (i ∉ olds ∧ R i u v w) ∨ ∃ t ∈ N, i = t.1 ∧ Cyc3 t.2.1 t.2.2.1 t.2.2.2 u v w

theorem Valid.replace (V : Valid x R n) {olds : List ℕ} {N : List (ℕ × ℕ × ℕ × ℕ)}
    (hR : ReplacedBy R R' olds N) (hn : n ≤ n') (hne : N ≠ [])
    (hfresh : ∀ t ∈ N, ∀ u v w, ¬R t.1 u v w)
    (huniq : ∀ t ∈ N, ∀ t' ∈ N, t.1 = t'.1 → t = t')
    (hlt : ∀ t ∈ N, t.2.1 < n' ∧ t.2.2.1 < n' ∧ t.2.2.2 < n')
    (hpos : ∀ t ∈ N, 0 < area (x t.2.1) (x t.2.2.1) (x t.2.2.2))
    (hdisj : ∀ t ∈ N, ∀ t' ∈ N, t.1 ≠ t'.1 → ∀ y, Inside (x t.2.1) (x t.2.2.1) (x t.2.2.2) y →
      Inside (x t'.2.1) (x t'.2.2.1) (x t'.2.2.2) y → False)
    (hcover : ∀ t ∈ N, ∀ y, Within (x t.2.1) (x t.2.2.1) (x t.2.2.2) y →
      ∃ o ∈ olds, ∃ u v w, R o u v w ∧ Within (x u) (x v) (x w) y)
    (hhull : ∀ i a b c, R i a b c → (∀ w, w < n → 0 ≤ area (x a) (x b) (x w)) →
      ∀ w, w < n' → 0 ≤ area (x a) (x b) (x w))
    (hnedge : ∀ t ∈ N, ∀ a b c, Cyc3 t.2.1 t.2.2.1 t.2.2.2 a b c →
      (∃ j q, R' j b a q) ∨ ∃ o ∈ olds, ∃ q, R o a b q ∧ ∀ o' ∈ olds, ∀ q', ¬R o' b a q')
    (hoedge : ∀ o ∈ olds, ∀ a b c, R o a b c → (∃ j q, R' j a b q) ∨ ∃ o' ∈ olds, ∃ q, R o' b a q)
    (hnclean : ∀ t ∈ N, ∀ w, w < n' → Within (x t.2.1) (x t.2.2.1) (x t.2.2.2) (x w) →
      w = t.2.1 ∨ w = t.2.2.1 ∨ w = t.2.2.2)
    (hoclean : ∀ i a b c, i ∉ olds → R i a b c → ∀ w, n ≤ w → w < n' → ¬Within (x a) (x b) (x c) (x w)) :
    Valid x R' n' := by
  constructor
  · intro i a b c h
    rw [hR] at h ⊢
    rcases h with ⟨h1, h2⟩ | ⟨t, ht, rfl, h2⟩
    · exact Or.inl ⟨h1, V.cyc h2⟩
    · exact Or.inr ⟨t, ht, rfl, h2.rot⟩
  · intro i a b c u v w h h'
    rw [hR] at h h'
    rcases h with ⟨h1, h2⟩ | ⟨t, ht, rfl, h2⟩ <;> rcases h' with ⟨g1, g2⟩ | ⟨t', ht', e, g2⟩
    · exact V.uniq h2 g2
    · subst e; exact absurd h2 (hfresh t' ht' _ _ _)
    · exact absurd g2 (hfresh t ht _ _ _)
    · have := huniq t ht t' ht' e
      subst this
      exact h2.trans g2
  · intro i a b c h
    rw [hR] at h
    rcases h with ⟨h1, h2⟩ | ⟨t, ht, rfl, h2⟩
    · exact lt_of_lt_of_le (V.lt h2) hn
    · obtain ⟨l1, l2, l3⟩ := hlt t ht
      rcases h2 with ⟨rfl, rfl, rfl⟩ | ⟨rfl, rfl, rfl⟩ | ⟨rfl, rfl, rfl⟩ <;> assumption
  · intro i a b c h
    rw [hR] at h
    rcases h with ⟨h1, h2⟩ | ⟨t, ht, rfl, h2⟩
    · exact V.pos h2
    · have := hpos t ht
      rcases h2 with ⟨rfl, rfl, rfl⟩ | ⟨rfl, rfl, rfl⟩ | ⟨rfl, rfl, rfl⟩
      · exact this
      · rw [area_cyc]; exact this
      · rw [area_cyc']; exact this
  · intro i j a b c u v w h h' hij y hy hy'
    rw [hR] at h h'
    rcases h with ⟨h1, h2⟩ | ⟨t, ht, rfl, h2⟩ <;> rcases h' with ⟨g1, g2⟩ | ⟨t', ht', rfl, g2⟩
    · exact V.disjoint h2 g2 hij y hy hy'
    · obtain ⟨o, ho, u', v', w', hr, hw⟩ := hcover t' ht' y (g2.inside hy').within
      exact V.not_within h2 hr (fun e => h1 (e ▸ ho)) hy hw
    · obtain ⟨o, ho, u', v', w', hr, hw⟩ := hcover t ht y (h2.inside hy).within
      exact V.not_within g2 hr (fun e => g1 (e ▸ ho)) hy' hw
    · exact hdisj t ht t' ht' hij y (h2.inside hy) (g2.inside hy')
  · -- every edge has a neighbour or belongs to the hull
    have key : ∀ i a b c, R i a b c → (∃ j q, R j b a q ∧ j ∉ olds) → ∃ j q, R' j b a q := by
      rintro i a b c _ ⟨j, q, hj, hjo⟩
      exact ⟨j, q, (hR _ _ _ _).2 (Or.inl ⟨hjo, hj⟩)⟩
    intro i a b c h
    rcases (hR i a b c).1 h with ⟨h1, h2⟩ | ⟨t, ht, rfl, h2⟩
    · rcases V.edge h2 with ⟨j, q, hj⟩ | hh
      · by_cases hjo : j ∈ olds
        · rcases hoedge j hjo b a q hj with h3 | ⟨o', ho', q', h3⟩
          · exact Or.inl h3
          · exact absurd (V.same h2 h3) (fun e => h1 (e ▸ ho'))
        · exact Or.inl (key i a b c h2 ⟨j, q, hj, hjo⟩)
      · exact Or.inr (hhull i a b c h2 hh)
    · rcases hnedge t ht a b c h2 with h3 | ⟨o, ho, q, h3, h4⟩
      · exact Or.inl h3
      · rcases V.edge h3 with ⟨j, q', hj⟩ | hh
        · exact Or.inl (key o a b q h3 ⟨j, q', hj, fun hjo => h4 j hjo q' hj⟩)
        · exact Or.inr (hhull o a b q h3 hh)
  · intro i a b c h w hw hwi
    rw [hR] at h
    rcases h with ⟨h1, h2⟩ | ⟨t, ht, rfl, h2⟩
    · by_cases hwn : w < n
      · exact V.clean h2 w hwn hwi
      · exact absurd hwi (hoclean i a b c h1 h2 w (Nat.le_of_not_lt hwn) hw)
    · have := hnclean t ht w hw (h2.within hwi)
      rcases h2 with ⟨rfl, rfl, rfl⟩ | ⟨rfl, rfl, rfl⟩ | ⟨rfl, rfl, rfl⟩
      · exact this
      · tauto
      · tauto
  · have hfin2 : {t : ℕ × ℕ × ℕ × ℕ | ∃ s ∈ N, t.1 = s.1 ∧ Cyc3 s.2.1 s.2.2.1 s.2.2.2 t.2.1 t.2.2.1 t.2.2.2}.Finite := by
      have : {t : ℕ × ℕ × ℕ × ℕ | ∃ s ∈ N, t.1 = s.1 ∧ Cyc3 s.2.1 s.2.2.1 s.2.2.2 t.2.1 t.2.2.1 t.2.2.2} ⊆
          ⋃ s ∈ {s | s ∈ N}, {s, (s.1, s.2.2.1, s.2.2.2, s.2.1), (s.1, s.2.2.2, s.2.1, s.2.2.1)} := by
        rintro ⟨i, u, v, w⟩ ⟨s, hs, e, h⟩
        dsimp only at e h
        subst e
        refine Set.mem_biUnion hs ?_
        rcases h with ⟨rfl, rfl, rfl⟩ | ⟨rfl, rfl, rfl⟩ | ⟨rfl, rfl, rfl⟩
        · exact Or.inl rfl
        · exact Or.inr (Or.inl rfl)
        · exact Or.inr (Or.inr rfl)
      refine Set.Finite.subset (Set.Finite.biUnion (List.finite_toSet N) ?_) this
      intro s _
      exact Set.toFinite _
    refine (V.fin.union hfin2).subset ?_
    rintro ⟨i, u, v, w⟩ ht
    rcases (hR i u v w).1 ht with ⟨_, h2⟩ | ⟨s, hs, e, h2⟩
    · exact Or.inl h2
    · exact Or.inr ⟨s, hs, e, h2⟩
  · obtain ⟨t, ht⟩ := List.exists_mem_of_ne_nil _ hne
    exact ⟨t.1, _, _, _, (hR _ _ _ _).2 (Or.inr ⟨t, ht, rfl, Or.inl ⟨rfl, rfl, rfl⟩⟩)⟩

end Verif.Delaunay
