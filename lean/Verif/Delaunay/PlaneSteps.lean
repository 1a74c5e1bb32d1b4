import Verif.Delaunay.PlaneMesh

/-! # Splitting and flipping triangles of the plane: lemmas -/

namespace Verif.Delaunay

open Verif.Predicates (P2 Triangle2 orient2 distSq2)

variable {K : Type} [Field K] [LinearOrder K] [IsStrictOrderedRing K]
variable {x : ℕ → P2 K} {R R' : ℕ → ℕ → ℕ → ℕ → Prop} {n : ℕ}

/-- The circumcircles contain no other vertices. -/
def Empty2 (x : ℕ → P2 K) (R : ℕ → ℕ → ℕ → ℕ → Prop) (n : ℕ) : Prop :=
  ∀ {i a b c}, R i a b c → ∀ w, w < n → w ≠ a → w ≠ b → w ≠ c → 0 < pw (x a) (x b) (x c) (x w)

/-- The new triangles of a split. -/
def splitN (k a b c p : ℕ) : List (ℕ × ℕ × ℕ × ℕ) := [(k, b, c, p), (k + 1, c, a, p), (k + 2, a, b, p)]

/-- The new triangles of a flip. -/
def flipN (k p q a b : ℕ) : List (ℕ × ℕ × ℕ × ℕ) := [(k, p, a, q), (k + 1, b, p, q)]

theorem Valid.split (V : Valid x R n) {t a b c k : ℕ} (hR : ReplacedBy R R' [t] (splitN k a b c n))
    (h : R t a b c) (hk : ∀ i u v w, R i u v w → i < k) (hp : Inside (x a) (x b) (x c) (x n)) :
    Valid x R' (n + 1) := by
  have hpos := V.pos h
  have hfresh : ∀ j, k ≤ j → ∀ u v w, ¬R j u v w := fun j hj u v w hr =>
    absurd (hk j u v w hr) (Nat.not_lt.2 hj)
  have p1 : 0 < area (x b) (x c) (x n) := hp.2.1
  have p2 : 0 < area (x c) (x a) (x n) := hp.2.2
  have p3 : 0 < area (x a) (x b) (x n) := hp.1
  have w1 : ∀ y, Within (x b) (x c) (x n) y → Within (x a) (x b) (x c) y := fun y hy => within_split hp hpos hy
  have w2 : ∀ y, Within (x c) (x a) (x n) y → Within (x a) (x b) (x c) y := fun y hy =>
    (within_split hp.cyc (by rw [area_cyc]; exact hpos) hy).cyc.cyc
  have w3 : ∀ y, Within (x a) (x b) (x n) y → Within (x a) (x b) (x c) y := fun y hy =>
    (within_split hp.cyc.cyc (by rw [area_cyc']; exact hpos) hy).cyc
  have m1 : R' k b c n := (hR _ _ _ _).2 (Or.inr ⟨_, List.mem_cons_self, rfl, Or.inl ⟨rfl, rfl, rfl⟩⟩)
  have m2 : R' (k + 1) c a n := (hR _ _ _ _).2
    (Or.inr ⟨(k + 1, c, a, n), by simp [splitN], rfl, Or.inl ⟨rfl, rfl, rfl⟩⟩)
  have m3 : R' (k + 2) a b n := (hR _ _ _ _).2
    (Or.inr ⟨(k + 2, a, b, n), by simp [splitN], rfl, Or.inl ⟨rfl, rfl, rfl⟩⟩)
  have cyc : ∀ {i u v w}, R' i u v w → R' i v w u := by
    intro i u v w hr
    rw [hR] at hr ⊢
    rcases hr with ⟨h1, h2⟩ | ⟨s, hs, e, h2⟩
    · exact Or.inl ⟨h1, V.cyc h2⟩
    · exact Or.inr ⟨s, hs, e, h2.rot⟩
  have noself : ∀ u v w q, R t u v w → ¬R t v u q := by
    intro u v w q h1 h2
    have e1 := V.pos h1
    have e2 := V.pos h2
    have := V.ne' h1
    rcases V.uniq h1 h2 with ⟨e, _, _⟩ | ⟨_, e, _⟩ | ⟨e, e', _⟩
    · exact this.1 e.symm
    · exact this.2.2 e.symm
    · exact this.2.1 e
  refine V.replace hR (Nat.le_succ n) (by simp [splitN]) ?_ ?_ ?_ ?_ ?_ ?_ ?_ ?_ ?_ ?_ ?_
  · intro s hs u v w
    simp only [splitN, List.mem_cons, List.not_mem_nil, or_false] at hs
    rcases hs with rfl | rfl | rfl <;> exact hfresh _ (by dsimp only; omega) u v w
  · intro s hs s' hs' e
    simp only [splitN, List.mem_cons, List.not_mem_nil, or_false] at hs hs'
    rcases hs with rfl | rfl | rfl <;> rcases hs' with rfl | rfl | rfl <;> first | rfl | (dsimp only at e; omega)
  · have l1 := V.lt h
    have l2 := V.lt (V.cyc h)
    have l3 := V.lt (V.cyc' h)
    intro s hs
    simp only [splitN, List.mem_cons, List.not_mem_nil, or_false] at hs
    rcases hs with rfl | rfl | rfl <;> dsimp only <;> omega
  · intro s hs
    simp only [splitN, List.mem_cons, List.not_mem_nil, or_false] at hs
    rcases hs with rfl | rfl | rfl <;> assumption
  · intro s hs s' hs' hne y hy hy'
    have sw : ∀ u v : P2 K, 0 < area u v y → 0 < area v u y → False := by
      intro u v h1 h2
      rw [area_swap] at h2
      linarith
    simp only [splitN, List.mem_cons, List.not_mem_nil, or_false] at hs hs'
    rcases hs with rfl | rfl | rfl <;> rcases hs' with rfl | rfl | rfl <;> first
      | exact absurd rfl hne
      | exact sw _ _ hy.2.1 hy'.2.2
      | exact sw _ _ hy.2.2 hy'.2.1
  · intro s hs y hy
    refine ⟨t, List.mem_singleton.2 rfl, a, b, c, h, ?_⟩
    simp only [splitN, List.mem_cons, List.not_mem_nil, or_false] at hs
    rcases hs with rfl | rfl | rfl
    · exact w1 y hy
    · exact w2 y hy
    · exact w3 y hy
  · intro i u v w hr hh z hz
    rcases Nat.lt_succ_iff_lt_or_eq.1 hz with h1 | rfl
    · exact hh z h1
    · exact (area_pos_of_inside hpos hp (V.ne hr) (hh a (V.lt h)) (hh b (V.lt (V.cyc h)))
        (hh c (V.lt (V.cyc' h)))).le
  · intro s hs u v w hc
    simp only [splitN, List.mem_cons, List.not_mem_nil, or_false] at hs
    have old : ∀ u v w, R t u v w → ∃ o ∈ [t], ∃ q, R o u v q ∧ ∀ o' ∈ [t], ∀ q', ¬R o' v u q' :=
      fun u v w hr => ⟨t, List.mem_singleton.2 rfl, w, hr, fun o' ho' q' hr' =>
        noself u v w q' hr ((List.mem_singleton.1 ho') ▸ hr')⟩
    rcases hs with rfl | rfl | rfl <;> rcases hc with ⟨rfl, rfl, rfl⟩ | ⟨rfl, rfl, rfl⟩ | ⟨rfl, rfl, rfl⟩
    · exact Or.inr (old _ _ _ (V.cyc h))
    · exact Or.inl ⟨_, _, cyc (cyc m2)⟩
    · exact Or.inl ⟨_, _, cyc m3⟩
    · exact Or.inr (old _ _ _ (V.cyc' h))
    · exact Or.inl ⟨_, _, cyc (cyc m3)⟩
    · exact Or.inl ⟨_, _, cyc m1⟩
    · exact Or.inr (old _ _ _ h)
    · exact Or.inl ⟨_, _, cyc (cyc m1)⟩
    · exact Or.inl ⟨_, _, cyc m2⟩
  · intro o ho u v w hr
    rw [List.mem_singleton.1 ho] at hr
    left
    rcases V.uniq h hr with ⟨rfl, rfl, rfl⟩ | ⟨rfl, rfl, rfl⟩ | ⟨rfl, rfl, rfl⟩
    · exact ⟨_, _, m3⟩
    · exact ⟨_, _, m1⟩
    · exact ⟨_, _, m2⟩
  · intro s hs z hz hw
    -- a vertex of the triangle which is not one of the part
    have out : ∀ u v w : ℕ, 0 < area (x u) (x v) (x n) → ¬Within (x v) (x w) (x n) (x u) := by
      intro u v w h1 h2
      have h3 := h2.2.2
      have h4 : area (x n) (x v) (x u) = -area (x u) (x v) (x n) := by simp only [area_def]; ring
      linarith
    have hz' : z = n ∨ z = a ∨ z = b ∨ z = c := by
      rcases Nat.lt_succ_iff_lt_or_eq.1 hz with h1 | h1
      · right
        apply V.clean h z h1
        simp only [splitN, List.mem_cons, List.not_mem_nil, or_false] at hs
        rcases hs with rfl | rfl | rfl
        · exact w1 _ hw
        · exact w2 _ hw
        · exact w3 _ hw
      · exact Or.inl h1
    simp only [splitN, List.mem_cons, List.not_mem_nil, or_false] at hs
    rcases hs with rfl | rfl | rfl <;> dsimp only at hw ⊢ <;> rcases hz' with rfl | rfl | rfl | rfl <;> first
      | (simp; done)
      | exact absurd hw (out _ _ _ p3)
      | exact absurd hw (out _ _ _ p1)
      | exact absurd hw (out _ _ _ p2)
  · intro i u v w hi hr z hz hz'
    have : z = n := by omega
    subst this
    exact V.not_within h hr (fun e => hi (e ▸ List.mem_singleton.2 rfl)) hp

theorem Valid.flip (V : Valid x R n) {t u p q a b k : ℕ} (hR : ReplacedBy R R' [t, u] (flipN k p q a b))
    (h : R t p a b) (h' : R u q b a) (hk : ∀ i u v w, R i u v w → i < k)
    (h1 : 0 < area (x p) (x a) (x q)) (h2 : 0 < area (x b) (x p) (x q)) : Valid x R' n := by
  have hpos := V.pos h
  have hpos' : 0 < area (x b) (x a) (x q) := V.pos (V.cyc h')
  have hfresh : ∀ j, k ≤ j → ∀ u v w, ¬R j u v w := fun j hj u v w hr =>
    absurd (hk j u v w hr) (Nat.not_lt.2 hj)
  have w1 : ∀ y, Within (x p) (x a) (x q) y → Within (x p) (x a) (x b) y ∨ Within (x q) (x b) (x a) y :=
    fun y hy => within_flip hpos hpos' h1 h2 hy
  have w2 : ∀ y, Within (x b) (x p) (x q) y → Within (x p) (x a) (x b) y ∨ Within (x q) (x b) (x a) y := by
    intro y hy
    -- the same quadrilateral, read from `q`
    have := within_flip (p := x q) (a := x b) (b := x a) (q := x p) (y := y) (V.pos h')
      (by rw [area_cyc]; exact hpos) (by rw [area_cyc']; exact h2) (by rw [area_cyc]; exact h1) hy.cyc.cyc
    exact this.symm
  have m1 : R' k p a q := (hR _ _ _ _).2 (Or.inr ⟨_, List.mem_cons_self, rfl, Or.inl ⟨rfl, rfl, rfl⟩⟩)
  have m2 : R' (k + 1) b p q := (hR _ _ _ _).2
    (Or.inr ⟨(k + 1, b, p, q), by simp [flipN], rfl, Or.inl ⟨rfl, rfl, rfl⟩⟩)
  have cyc : ∀ {i u v w}, R' i u v w → R' i v w u := by
    intro i u v w hr
    rw [hR] at hr ⊢
    rcases hr with ⟨h1, h2⟩ | ⟨s, hs, e, h2⟩
    · exact Or.inl ⟨h1, V.cyc h2⟩
    · exact Or.inr ⟨s, hs, e, h2.rot⟩
  have npq : p ≠ q := by
    rintro rfl
    rw [(area_self _ _).1] at h1
    exact lt_irrefl _ h1
  obtain ⟨npa, nab, nbp⟩ := V.ne' h
  obtain ⟨nqb, _, naq⟩ := V.ne' h'
  refine V.replace hR le_rfl (by simp [flipN]) ?_ ?_ ?_ ?_ ?_ ?_ ?_ ?_ ?_ ?_ ?_
  · intro s hs u v w
    simp only [flipN, List.mem_cons, List.not_mem_nil, or_false] at hs
    rcases hs with rfl | rfl <;> exact hfresh _ (by dsimp only; omega) u v w
  · intro s hs s' hs' e
    simp only [flipN, List.mem_cons, List.not_mem_nil, or_false] at hs hs'
    rcases hs with rfl | rfl <;> rcases hs' with rfl | rfl <;> first | rfl | (dsimp only at e; omega)
  · have l1 := V.lt h
    have l2 := V.lt (V.cyc h)
    have l3 := V.lt (V.cyc' h)
    have l4 := V.lt h'
    intro s hs
    simp only [flipN, List.mem_cons, List.not_mem_nil, or_false] at hs
    rcases hs with rfl | rfl <;> dsimp only <;> omega
  · intro s hs
    simp only [flipN, List.mem_cons, List.not_mem_nil, or_false] at hs
    rcases hs with rfl | rfl <;> assumption
  · intro s hs s' hs' hne y hy hy'
    have sw : ∀ u v : P2 K, 0 < area u v y → 0 < area v u y → False := by
      intro u v h1 h2
      rw [area_swap] at h2
      linarith
    simp only [flipN, List.mem_cons, List.not_mem_nil, or_false] at hs hs'
    rcases hs with rfl | rfl <;> rcases hs' with rfl | rfl <;> first
      | exact absurd rfl hne
      | exact sw _ _ hy.2.2 hy'.2.1
      | exact sw _ _ hy.2.1 hy'.2.2
  · intro s hs y hy
    have : Within (x p) (x a) (x b) y ∨ Within (x q) (x b) (x a) y := by
      simp only [flipN, List.mem_cons, List.not_mem_nil, or_false] at hs
      rcases hs with rfl | rfl
      · exact w1 y hy
      · exact w2 y hy
    rcases this with hw | hw
    · exact ⟨t, by simp, _, _, _, h, hw⟩
    · exact ⟨u, by simp, _, _, _, h', hw⟩
  · intro i u v w hr hh
    exact hh
  · intro s hs e f g hc
    simp only [flipN, List.mem_cons, List.not_mem_nil, or_false] at hs
    -- the outer edges belong to one of the old triangles only
    have no : ∀ e f, ¬(e = a ∧ f = b) → ¬(e = b ∧ f = a) → ∀ i ∈ [t, u], ∀ g, R i e f g →
        ∀ o' ∈ [t, u], ∀ q', ¬R o' f e q' := by
      intro e f n1 n2 i hi g hr o' ho' q' hr'
      simp only [List.mem_cons, List.not_mem_nil, or_false] at hi ho'
      rcases hi with rfl | rfl <;> rcases ho' with rfl | rfl
      · rcases V.uniq h hr with ⟨rfl, rfl, rfl⟩ | ⟨rfl, rfl, rfl⟩ | ⟨rfl, rfl, rfl⟩ <;>
          rcases V.uniq h hr' with ⟨e1, e2, e3⟩ | ⟨e1, e2, e3⟩ | ⟨e1, e2, e3⟩ <;> omega
      · rcases V.uniq h hr with ⟨rfl, rfl, rfl⟩ | ⟨rfl, rfl, rfl⟩ | ⟨rfl, rfl, rfl⟩ <;>
          rcases V.uniq h' hr' with ⟨e1, e2, e3⟩ | ⟨e1, e2, e3⟩ | ⟨e1, e2, e3⟩ <;> omega
      · rcases V.uniq h' hr with ⟨rfl, rfl, rfl⟩ | ⟨rfl, rfl, rfl⟩ | ⟨rfl, rfl, rfl⟩ <;>
          rcases V.uniq h hr' with ⟨e1, e2, e3⟩ | ⟨e1, e2, e3⟩ | ⟨e1, e2, e3⟩ <;> omega
      · rcases V.uniq h' hr with ⟨rfl, rfl, rfl⟩ | ⟨rfl, rfl, rfl⟩ | ⟨rfl, rfl, rfl⟩ <;>
          rcases V.uniq h' hr' with ⟨e1, e2, e3⟩ | ⟨e1, e2, e3⟩ | ⟨e1, e2, e3⟩ <;> omega
    rcases hs with rfl | rfl <;> rcases hc with ⟨rfl, rfl, rfl⟩ | ⟨rfl, rfl, rfl⟩ | ⟨rfl, rfl, rfl⟩
    · exact Or.inr ⟨t, by simp, _, h, no _ _ (by omega) (by omega) t (by simp) _ h⟩
    · exact Or.inr ⟨u, by simp, _, V.cyc' h', no _ _ (by omega) (by omega) u (by simp) _ (V.cyc' h')⟩
    · exact Or.inl ⟨_, _, cyc m2⟩
    · exact Or.inr ⟨t, by simp, _, V.cyc' h, no _ _ (by omega) (by omega) t (by simp) _ (V.cyc' h)⟩
    · exact Or.inl ⟨_, _, cyc (cyc m1)⟩
    · exact Or.inr ⟨u, by simp, _, h', no _ _ (by omega) (by omega) u (by simp) _ h'⟩
  · intro o ho e f g hr
    simp only [List.mem_cons, List.not_mem_nil, or_false] at ho
    rcases ho with rfl | rfl
    · rcases V.uniq h hr with ⟨rfl, rfl, rfl⟩ | ⟨rfl, rfl, rfl⟩ | ⟨rfl, rfl, rfl⟩
      · exact Or.inl ⟨_, _, m1⟩
      · exact Or.inr ⟨u, by simp, _, V.cyc h'⟩
      · exact Or.inl ⟨_, _, m2⟩
    · rcases V.uniq h' hr with ⟨rfl, rfl, rfl⟩ | ⟨rfl, rfl, rfl⟩ | ⟨rfl, rfl, rfl⟩
      · exact Or.inl ⟨_, _, cyc (cyc m2)⟩
      · exact Or.inr ⟨t, by simp, _, V.cyc h⟩
      · exact Or.inl ⟨_, _, cyc m1⟩
  · intro s hs z hz hw
    have hz' : z = p ∨ z = q ∨ z = a ∨ z = b := by
      have : Within (x p) (x a) (x b) (x z) ∨ Within (x q) (x b) (x a) (x z) := by
        simp only [flipN, List.mem_cons, List.not_mem_nil, or_false] at hs
        rcases hs with rfl | rfl
        · exact w1 _ hw
        · exact w2 _ hw
      rcases this with h3 | h3
      · have := V.clean h z hz h3
        tauto
      · have := V.clean h' z hz h3
        tauto
    simp only [flipN, List.mem_cons, List.not_mem_nil, or_false] at hs
    rcases hs with rfl | rfl <;> dsimp only at hw ⊢ <;> rcases hz' with rfl | rfl | rfl | rfl
    · exact Or.inl rfl
    · exact Or.inr (Or.inr rfl)
    · exact Or.inr (Or.inl rfl)
    · exfalso
      have h3 := hw.2.2
      have h4 : area (x q) (x p) (x z) = -area (x z) (x p) (x q) := by simp only [area_def]; ring
      linarith
    · exact Or.inr (Or.inl rfl)
    · exact Or.inr (Or.inr rfl)
    · exfalso
      have h3 := hw.2.1
      have h4 : area (x p) (x q) (x z) = -area (x p) (x z) (x q) := by simp only [area_def]; ring
      linarith
    · exact Or.inl rfl
  · intro i u v w _ _ z hz hz'
    omega

/-! ### The invariant of the flip loop -/

/-- A circle through `v` which contains the new point `p` and none of the older ones. -/
def Witness (x : ℕ → P2 K) (p v : ℕ) : Prop :=
  ∃ o rho, power o rho (x v) = 0 ∧ power o rho (x p) < 0 ∧ ∀ w, w < p → 0 ≤ power o rho (x w)

/-- The invariant while the triangles around the new point `p` are checked; `Q` are the triangles which still
have to be checked. -/
structure Star (x : ℕ → P2 K) (R : ℕ → ℕ → ℕ → ℕ → Prop) (p : ℕ) (Q : List ℕ) : Prop where
  valid : Valid x R (p + 1)
  /-- triangles without `p` have an empty circumcircle, apart from `p` -/
  old : ∀ {i a b c}, R i a b c → p ≠ a → p ≠ b → p ≠ c →
    ∀ w, w < p → w ≠ a → w ≠ b → w ≠ c → 0 < pw (x a) (x b) (x c) (x w)
  wit : ∀ {i a b}, R i p a b → Witness x p a ∧ Witness x p b
  /-- the edges opposite to `p` are locally Delaunay, if they were checked -/
  link : ∀ {i a b j q}, R i p a b → R j b a q → i ∈ Q ∨ 0 < pw (x p) (x a) (x b) (x q)

theorem Star.start (V : Valid x R n) (E : Empty2 x R n) {t a b c k : ℕ}
    (hR : ReplacedBy R R' [t] (splitN k a b c n)) (h : R t a b c) (hk : ∀ i u v w, R i u v w → i < k)
    (hp : Inside (x a) (x b) (x c) (x n)) : Star x R' n [k, k + 1, k + 2] := by
  have hwit : ∀ v, v = a ∨ v = b ∨ v = c → Witness x n v := by
    intro v hv
    obtain ⟨e1, e2, e3⟩ := pw_vertices (V.pos h).ne'
    refine ⟨_, _, ?_, pw_inside (V.pos h) hp, fun w hw => ?_⟩
    · rcases hv with rfl | rfl | rfl
      · exact e1
      · exact e2
      · exact e3
    · change 0 ≤ pw (x a) (x b) (x c) (x w)
      by_cases ha : w = a
      · rw [ha, e1]
      by_cases hb : w = b
      · rw [hb, e2]
      by_cases hc : w = c
      · rw [hc, e3]
      exact (E h w hw ha hb hc).le
  refine ⟨V.split hR h hk hp, ?_, ?_, ?_⟩
  · intro i u v w hr h1 h2 h3 z hz n1 n2 n3
    rcases (hR _ _ _ _).1 hr with ⟨_, h4⟩ | ⟨s, hs, rfl, h4⟩
    · exact E h4 z hz n1 n2 n3
    · exfalso
      simp only [splitN, List.mem_cons, List.not_mem_nil, or_false] at hs
      rcases hs with rfl | rfl | rfl <;> unfold Cyc3 at h4 <;> dsimp only at h4 <;> omega
  · intro i u v hr
    rcases (hR _ _ _ _).1 hr with ⟨_, h4⟩ | ⟨s, hs, rfl, h4⟩
    · exact absurd (V.lt h4) (lt_irrefl _)
    · have l1 := V.lt h
      have l2 := V.lt (V.cyc h)
      have l3 := V.lt (V.cyc' h)
      simp only [splitN, List.mem_cons, List.not_mem_nil, or_false] at hs
      rcases hs with rfl | rfl | rfl <;> unfold Cyc3 at h4 <;> dsimp only at h4 <;>
        exact ⟨hwit _ (by omega), hwit _ (by omega)⟩
  · intro i u v j q hr _
    rcases (hR _ _ _ _).1 hr with ⟨_, h4⟩ | ⟨s, hs, rfl, h4⟩
    · exact absurd (V.lt h4) (lt_irrefl _)
    · left
      simp only [splitN, List.mem_cons, List.not_mem_nil, or_false] at hs
      rcases hs with rfl | rfl | rfl <;> simp

omit [IsStrictOrderedRing K] in
/-- The triangle at the front of the queue is no longer there. -/
theorem Star.dead {p t : ℕ} {Q : List ℕ} (S : Star x R p (t :: Q)) (h : ∀ a b c, ¬R t a b c) : Star x R p Q := by
  refine ⟨S.valid, S.old, S.wit, fun {i a b j q} hr hr' => ?_⟩
  rcases S.link hr hr' with h1 | h1
  · rcases List.mem_cons.1 h1 with rfl | h1
    · exact absurd hr (h _ _ _)
    · exact Or.inl h1
  · exact Or.inr h1

/-- The edge of the triangle at the front of the queue is locally Delaunay. -/
theorem Star.checked {p t : ℕ} {Q : List ℕ} (S : Star x R p (t :: Q))
    (h : ∀ a b j q, R t p a b → R j b a q → 0 < pw (x p) (x a) (x b) (x q)) : Star x R p Q := by
  refine ⟨S.valid, S.old, S.wit, fun {i a b j q} hr hr' => ?_⟩
  rcases S.link hr hr' with h1 | h1
  · rcases List.mem_cons.1 h1 with rfl | h1
    · exact Or.inr (h a b j q hr hr')
    · exact Or.inl h1
  · exact Or.inr h1

/-- The edge of the triangle at the front of the queue is flipped. -/
theorem Star.flip {p t u q a b k : ℕ} {Q : List ℕ} (S : Star x R p (t :: Q))
    (hR : ReplacedBy R R' [t, u] (flipN k p q a b)) (h : R t p a b) (h' : R u q b a)
    (hk : ∀ i u v w, R i u v w → i < k) (hin : pw (x p) (x a) (x b) (x q) < 0) :
    Star x R' p (Q ++ [k, k + 1]) := by
  have V := S.valid
  have hpos := V.pos h
  have hpos' : 0 < area (x b) (x a) (x q) := V.pos (V.cyc h')
  obtain ⟨e1, e2, e3⟩ := pw_vertices hpos.ne'
  obtain ⟨c1, c2⟩ := convex_of_inside hpos e1 e2 e3 hpos' hin
  have V' := V.flip hR h h' hk c1 c2
  obtain ⟨npa, nab, nbp⟩ := V.ne' h
  obtain ⟨nqb, _, naq⟩ := V.ne' h'
  have npq : p ≠ q := by
    rintro rfl
    rw [(area_self _ _).1] at c1
    exact lt_irrefl _ c1
  have hq : Witness x p q := by
    have hpos2 := V.pos h'
    obtain ⟨g1, g2, g3⟩ := pw_vertices hpos2.ne'
    refine ⟨_, _, g1, ?_, fun w hw => ?_⟩
    · change pw (x q) (x b) (x a) (x p) < 0
      rw [← pw_cyc hpos2.ne']
      refine pw_symm_neg (a := x a) (b := x b) (c := x p) (d := x q) (by rw [area_cyc]; exact hpos) hpos' ?_
      rw [pw_cyc hpos.ne']
      exact hin
    · change 0 ≤ pw (x q) (x b) (x a) (x w)
      by_cases hq : w = q
      · rw [hq, g1]
      by_cases hb : w = b
      · rw [hb, g2]
      by_cases ha : w = a
      · rw [ha, g3]
      exact (S.old h' npq nbp.symm npa w hw hq hb ha).le
  obtain ⟨wa, wb⟩ := S.wit h
  refine ⟨V', ?_, ?_, ?_⟩
  · intro i e f g hr h1 h2 h3 z hz n1 n2 n3
    rcases (hR _ _ _ _).1 hr with ⟨_, h4⟩ | ⟨s, hs, rfl, h4⟩
    · exact S.old h4 h1 h2 h3 z hz n1 n2 n3
    · exfalso
      simp only [flipN, List.mem_cons, List.not_mem_nil, or_false] at hs
      rcases hs with rfl | rfl <;> unfold Cyc3 at h4 <;> dsimp only at h4 <;> omega
  · intro i e f hr
    rcases (hR _ _ _ _).1 hr with ⟨_, h4⟩ | ⟨s, hs, rfl, h4⟩
    · exact S.wit h4
    · simp only [flipN, List.mem_cons, List.not_mem_nil, or_false] at hs
      rcases hs with rfl | rfl <;> rcases h4 with ⟨g1, g2, g3⟩ | ⟨g1, g2, g3⟩ | ⟨g1, g2, g3⟩ <;>
        dsimp only at g1 g2 g3 <;> first
        | (exfalso; omega)
        | (rw [g2, g3]; constructor <;> assumption)
  · intro i e f j g hr hr'
    rcases (hR _ _ _ _).1 hr with ⟨i1, h4⟩ | ⟨s, hs, rfl, h4⟩
    · have i1' : i ≠ t := fun e => i1 (by simp [e])
      have hw1 : R' j f e p → False := fun h5 => by
        have p1 := V'.pos hr
        have p2 := V'.pos h5
        have p3 : area (x f) (x e) (x p) = -area (x p) (x e) (x f) := by simp only [area_def]; ring
        linarith
      rcases (hR _ _ _ _).1 hr' with ⟨j1, h5⟩ | ⟨s, hs, rfl, h5⟩
      · rcases S.link h4 h5 with h6 | h6
        · rcases List.mem_cons.1 h6 with h7 | h7
          · exact absurd h7 i1'
          · exact Or.inl (List.mem_append.2 (Or.inl h7))
        · exact Or.inr h6
      · exfalso
        have nn := V'.ne' hr
        have : g = p := by
          simp only [flipN, List.mem_cons, List.not_mem_nil, or_false] at hs
          rcases hs with rfl | rfl <;> rcases h5 with ⟨g1, g2, g3⟩ | ⟨g1, g2, g3⟩ | ⟨g1, g2, g3⟩ <;>
            dsimp only at g1 g2 g3 <;> omega
        subst this
        exact hw1 hr'
    · left
      simp only [flipN, List.mem_cons, List.not_mem_nil, or_false] at hs
      rcases hs with rfl | rfl <;> simp

/-- When all triangles were checked, all edges are locally Delaunay. -/
theorem Star.local {p : ℕ} (S : Star x R p []) {i a b c j q : ℕ} (h : R i a b c) (h' : R j b a q) :
    0 < pw (x a) (x b) (x c) (x q) := by
  have V := S.valid
  have hpos := V.pos h
  have hpos' := V.pos h'
  obtain ⟨nab, nbc, nca⟩ := V.ne' h
  obtain ⟨_, naq, nqb⟩ := V.ne' h'
  have ncq : c ≠ q := by
    rintro rfl
    rw [area_swap] at hpos'
    linarith
  have link : ∀ {i a b j q}, R i p a b → R j b a q → 0 < pw (x p) (x a) (x b) (x q) := by
    intro i a b j q h1 h2
    rcases S.link h1 h2 with h3 | h3
    · exact absurd h3 List.not_mem_nil
    · exact h3
  -- an edge with the end point `p`
  have spoke : ∀ {i j v w w'}, R i p v w → R j v p w' → 0 < pw (x p) (x v) (x w) (x w') := by
    intro i j v w w' h1 h2
    obtain ⟨⟨o, rho, e1, e2, e3⟩, _⟩ := S.wit h1
    obtain ⟨o', rho', g1, g2, g3⟩ := power_shrink e1 e2
    obtain ⟨n1, n2, n3⟩ := V.ne' h1
    obtain ⟨n4, n5, n6⟩ := V.ne' h2
    have lw : w < p := by
      have := V.lt (V.cyc' h1)
      omega
    have lw' : w' < p := by
      have := V.lt (V.cyc' h2)
      omega
    obtain ⟨f1, f2, f3⟩ := pw_vertices (V.pos h1).ne'
    exact power_spoke g2 g1 (g3 _ (V.ne (V.cyc h1)).symm (e3 w lw)) (g3 _ (V.ne (V.cyc' h2)) (e3 w' lw'))
      f1 f2 f3 (V.pos h1) (V.pos h2)
  by_cases hc : p = c
  · subst hc
    rw [← pw_cyc hpos.ne', ← pw_cyc (by rw [area_cyc]; exact hpos.ne')]
    exact link (V.cyc' h) h'
  by_cases ha : p = a
  · subst ha
    exact spoke h h'
  by_cases hb : p = b
  · subst hb
    exact pw_symm_pos hpos' hpos (spoke h' h)
  by_cases hq : p = q
  · subst hq
    have h1 := link (V.cyc' h') h
    rw [← pw_cyc (by rw [area_cyc']; exact hpos'.ne')] at h1
    exact pw_symm_pos hpos' hpos h1
  · have := V.lt (V.cyc' h')
    exact S.old h ha hb hc q (by omega) naq.symm (by omega) (Ne.symm ncq)

theorem Star.done {p : ℕ} (S : Star x R p []) : Empty2 x R (p + 1) := fun h _ hw ha hb hc =>
  S.valid.global S.local h hw ha hb hc

end Verif.Delaunay
