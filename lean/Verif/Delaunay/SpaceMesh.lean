import Verif.Delaunay.SpaceGeo
import Mathlib.Data.Set.Finite.Basic
import Mathlib.Data.Set.Finite.Lattice
import Mathlib.Order.Preorder.Finite

/-!
# Meshes of tetrahedra and their Delaunay property: lemmas

`R i σ` means that the tetrahedron `i` has the vertices `σ 0, …, σ 3` (in any order).  A point `p` is inserted by
removing the tetrahedra whose circumsphere contains `p` and connecting `p` with the faces of the hole.  This is done
in small steps (the flips): in each of them one tetrahedron `σ` is added to the hole.
-/

namespace Verif.Delaunay

open Verif.Predicates (P3)

variable {K : Type} [Field K] [LinearOrder K] [IsStrictOrderedRing K]

/-- A set of tetrahedra with disjoint interiors. -/
structure Solid (x : ℕ → P3 K) (R : ℕ → (Fin 4 → ℕ) → Prop) : Prop where
  perm : ∀ {i σ}, R i σ → ∀ e : Equiv.Perm (Fin 4), R i (σ ∘ e)
  same : ∀ {i σ τ}, R i σ → R i τ → ∃ e : Equiv.Perm (Fin 4), τ = σ ∘ e
  nondeg : ∀ {i σ}, R i σ → vol (x ∘ σ) ≠ 0
  disjoint : ∀ {i j σ τ}, R i σ → R j τ → i ≠ j → ∀ y, Inside3 (x ∘ σ) y → ¬Inside3 (x ∘ τ) y

/-- Every face has a tetrahedron on its other side or belongs to the boundary. -/
def Closed3 (x : ℕ → P3 K) (R : ℕ → (Fin 4 → ℕ) → Prop) (n : ℕ) : Prop :=
  ∀ i σ, R i σ → ∀ k, (∀ w, w < n → 0 ≤ co (x ∘ σ) k (x w)) ∨
    ∃ j q, R j (Function.update σ k q) ∧ co (x ∘ σ) k (x q) < 0

/-- All other points are outside of the circumspheres. -/
def Empty3 (x : ℕ → P3 K) (R : ℕ → (Fin 4 → ℕ) → Prop) (n : ℕ) : Prop :=
  ∀ i σ, R i σ → ∀ w, w < n → (∀ k, w ≠ σ k) → 0 < pw3 (x ∘ σ) (x w)

variable {x : ℕ → P3 K} {R R' : ℕ → (Fin 4 → ℕ) → Prop}

theorem comp_upd (x : ℕ → P3 K) (σ : Fin 4 → ℕ) (k : Fin 4) (q : ℕ) :
    x ∘ Function.update σ k q = Function.update (x ∘ σ) k (x q) := Function.comp_update x σ k q

omit [LinearOrder K] [IsStrictOrderedRing K] in
theorem vol_injective {v : Fin 4 → P3 K} (h : vol v ≠ 0) : Function.Injective v := by
  intro i j hij
  by_contra hne
  have h1 := co_self h i
  rw [hij, co_other v (Ne.symm hne)] at h1
  exact zero_ne_one h1

theorem Solid.injective (S : Solid x R) {i : ℕ} {σ : Fin 4 → ℕ} (h : R i σ) : Function.Injective σ := by
  intro a b hab
  exact vol_injective (S.nondeg h) (congrArg x hab)

theorem Solid.same_of_inside (S : Solid x R) {i j : ℕ} {σ τ : Fin 4 → ℕ} (h : R i σ) (h' : R j τ) {y : P3 K}
    (hy : Inside3 (x ∘ σ) y) (hy' : Within3 (x ∘ τ) y) : i = j := by
  by_contra hne
  obtain ⟨z, h1, h2⟩ := inside3_both (S.nondeg h') hy hy'
  exact S.disjoint h h' hne z h1 h2

/-- There is only one tetrahedron on each side of a face. -/
theorem Solid.unique (S : Solid x R) {i j : ℕ} {σ : Fin 4 → ℕ} (h : R i σ) {k : Fin 4} {q : ℕ}
    (h' : R j (Function.update σ k q)) (hq : 0 < co (x ∘ σ) k (x q)) : i = j := by
  by_contra hne
  obtain ⟨y, h1, h2⟩ := overlap3 (S.nondeg h) hq
  refine S.disjoint h h' hne y h1 ?_
  rw [comp_upd]
  exact h2

theorem Solid.unique' (S : Solid x R) {i j : ℕ} {σ : Fin 4 → ℕ} (h : R i σ) (h' : R j σ) : i = j := by
  by_contra hne
  obtain ⟨y, hy⟩ := inside3_nonempty (S.nondeg h)
  exact S.disjoint h h' hne y hy hy

/-- The coordinate of the old vertex after a replacement. -/
theorem co_back {v : Fin 4 → P3 K} (h : vol v ≠ 0) {k : Fin 4} {q : P3 K} :
    co (Function.update v k q) k (v k) = 1 / co v k q := by
  rw [co_update_self h, co_self h]

/-- Adding the tetrahedron `σ` (with index `i0`) to the hole around `p`: the tetrahedra between `p` and the faces of
`σ` on the near side and `σ` itself are removed, those between `p` and the faces on the far side are added. -/
structure Absorbed (x : ℕ → P3 K) (R R' : ℕ → (Fin 4 → ℕ) → Prop) (i0 : ℕ) (σ : Fin 4 → ℕ) (p : ℕ)
    (idx : Fin 4 → ℕ) : Prop where
  iff : ∀ j τ, R' j τ ↔ (R j τ ∧ j ≠ i0 ∧ ¬∃ k, co (x ∘ σ) k (x p) < 0 ∧ R j (Function.update σ k p)) ∨
    ∃ k, 0 < co (x ∘ σ) k (x p) ∧ j = idx k ∧ ∃ e : Equiv.Perm (Fin 4), τ = Function.update σ k p ∘ e
  old : R i0 σ
  coords : ∀ k, co (x ∘ σ) k (x p) ≠ 0
  near : ∀ k, co (x ∘ σ) k (x p) < 0 → ∃ j, R j (Function.update σ k p)
  fresh : ∀ k j τ, R j τ → j ≠ idx k
  idx_inj : ∀ k l, 0 < co (x ∘ σ) k (x p) → 0 < co (x ∘ σ) l (x p) → idx k = idx l → k = l

theorem Absorbed.new {i0 p : ℕ} {σ : Fin 4 → ℕ} {idx : Fin 4 → ℕ} (A : Absorbed x R R' i0 σ p idx) {k : Fin 4}
    (hk : 0 < co (x ∘ σ) k (x p)) : R' (idx k) (Function.update σ k p) :=
  (A.iff _ _).2 (Or.inr ⟨k, hk, rfl, 1, rfl⟩)

theorem Solid.absorb (S : Solid x R) {i0 p : ℕ} {σ : Fin 4 → ℕ} {idx : Fin 4 → ℕ}
    (A : Absorbed x R R' i0 σ p idx) : Solid x R' := by
  have h0 := S.nondeg A.old
  have hnew : ∀ k, 0 < co (x ∘ σ) k (x p) → vol (x ∘ Function.update σ k p) ≠ 0 := by
    intro k hk
    rw [comp_upd]
    exact vol_update_ne h0 hk.ne'
  -- a new tetrahedron does not meet an old one
  have hsep : ∀ j τ k, R j τ → j ≠ i0 → (¬∃ k, co (x ∘ σ) k (x p) < 0 ∧ R j (Function.update σ k p)) →
      0 < co (x ∘ σ) k (x p) → ∀ y, Inside3 (x ∘ τ) y → ¬Inside3 (x ∘ Function.update σ k p) y := by
    intro j τ k hj hne hno hk y hy hy'
    rw [comp_upd] at hy'
    rcases cover_star h0 A.coords hk hy'.within with hw | ⟨l, hl, hw⟩
    · exact hne (S.same_of_inside hj A.old hy hw)
    · obtain ⟨j', hj'⟩ := A.near l hl
      rw [← comp_upd] at hw
      have := S.same_of_inside hj hj' hy hw
      subst this
      exact hno ⟨l, hl, hj'⟩
  refine ⟨?_, ?_, ?_, ?_⟩
  · intro i τ h e
    rcases (A.iff _ _).1 h with ⟨h1, h2, h3⟩ | ⟨k, hk, hi, e', rfl⟩
    · exact (A.iff _ _).2 (Or.inl ⟨S.perm h1 e, h2, h3⟩)
    · exact (A.iff _ _).2 (Or.inr ⟨k, hk, hi, e' * e, rfl⟩)
  · intro i τ τ' h h'
    rcases (A.iff _ _).1 h with ⟨h1, h2, h3⟩ | ⟨k, hk, hi, e, rfl⟩
    · rcases (A.iff _ _).1 h' with ⟨h1', _, _⟩ | ⟨k, hk, hi, e, rfl⟩
      · exact S.same h1 h1'
      · exact absurd hi (A.fresh k i τ h1)
    · rcases (A.iff _ _).1 h' with ⟨h1', _, _⟩ | ⟨k', hk', hi', e', rfl⟩
      · exact absurd hi (A.fresh k i τ' h1')
      · have := A.idx_inj k k' hk hk' (hi.symm.trans hi')
        subst this
        refine ⟨e⁻¹ * e', ?_⟩
        funext a
        simp
  · intro i τ h
    rcases (A.iff _ _).1 h with ⟨h1, _, _⟩ | ⟨k, hk, _, e, rfl⟩
    · exact S.nondeg h1
    · rw [← Function.comp_assoc]
      exact vol_perm_ne e (hnew k hk)
  · intro i j τ τ' h h' hne y hy hy'
    rcases (A.iff _ _).1 h with ⟨h1, h2, h3⟩ | ⟨k, hk, hi, e, rfl⟩
    · rcases (A.iff _ _).1 h' with ⟨h1', h2', h3'⟩ | ⟨k, hk, hi, e, rfl⟩
      · exact S.disjoint h1 h1' hne y hy hy'
      · rw [← Function.comp_assoc, inside3_perm] at hy'
        exact hsep i τ k h1 h2 h3 hk y hy hy'
    · rw [← Function.comp_assoc, inside3_perm] at hy
      rcases (A.iff _ _).1 h' with ⟨h1', h2', h3'⟩ | ⟨k', hk', hi', e', rfl⟩
      · exact hsep j τ' k h1' h2' h3' hk y hy' hy
      · rw [← Function.comp_assoc, inside3_perm] at hy'
        rw [comp_upd] at hy hy'
        refine disjoint_star h0 ?_ hk hk' y hy hy'
        rintro rfl
        exact hne (hi.trans hi'.symm)

/-- A tetrahedron of the old Delaunay mesh which contains `p` in its circumsphere, with `p` on the inner side of the
face opposite to the vertex `k`. -/
structure Ghost (x : ℕ → P3 K) (p : ℕ) (g : Fin 4 → ℕ) (k : Fin 4) : Prop where
  nondeg : vol (x ∘ g) ≠ 0
  inner : 0 < co (x ∘ g) k (x p)
  conflict : pw3 (x ∘ g) (x p) < 0
  lt : ∀ i, g i < p
  empty : ∀ w, w < p → (∀ i, w ≠ g i) → 0 < pw3 (x ∘ g) (x w)

/-- The state while the point `p` is inserted: the tetrahedra without `p` are those of the old mesh, the others belong
to faces of removed ones. -/
structure Cavity (x : ℕ → P3 K) (R : ℕ → (Fin 4 → ℕ) → Prop) (p : ℕ) : Prop where
  old : ∀ i σ, R i σ → (∀ k, σ k ≠ p) → ∀ w, w < p → (∀ k, w ≠ σ k) → 0 < pw3 (x ∘ σ) (x w)
  ghost : ∀ i τ, R i τ → ∀ k, τ k = p → ∃ d, Ghost x p (Function.update τ k d) k

/-- The point `p` is not in a tetrahedron of the old mesh. -/
def Outside3 (x : ℕ → P3 K) (R : ℕ → (Fin 4 → ℕ) → Prop) (p : ℕ) : Prop :=
  ∀ i σ, R i σ → (∀ k, σ k ≠ p) → ∃ k, co (x ∘ σ) k (x p) < 0

/-- The tetrahedra which still have to be removed have a face in the queue `q`, once all their faces on the side
of `p` belong to the hole. -/
def Pending (x : ℕ → P3 K) (R : ℕ → (Fin 4 → ℕ) → Prop) (p : ℕ) (q : List ℕ) : Prop :=
  ∀ i σ, R i σ → (∀ k, σ k ≠ p) → pw3 (x ∘ σ) (x p) ≤ 0 →
    (∀ k, co (x ∘ σ) k (x p) < 0 → ∃ j, R j (Function.update σ k p)) →
    ∃ j ∈ q, ∃ k, co (x ∘ σ) k (x p) < 0 ∧ R j (Function.update σ k p)

theorem update_perm (σ : Fin 4 → ℕ) (k : Fin 4) (p : ℕ) (e : Equiv.Perm (Fin 4)) (j : Fin 4) (d : ℕ) (hj : e j = k) :
    Function.update (Function.update σ k p ∘ e) j d = Function.update σ k d ∘ e := by
  funext a
  by_cases ha : a = j
  · subst ha
    simp [hj]
  · have : e a ≠ k := fun h => ha (e.injective (h.trans hj.symm))
    simp [ha, this]

theorem Ghost.perm {p : ℕ} {g : Fin 4 → ℕ} {k : Fin 4} (G : Ghost x p g k) (e : Equiv.Perm (Fin 4)) {j : Fin 4}
    (hj : e j = k) : Ghost x p (g ∘ e) j := by
  refine ⟨?_, ?_, ?_, fun i => G.lt _, fun w hw hne => ?_⟩
  · rw [← Function.comp_assoc]
    exact vol_perm_ne e G.nondeg
  · rw [← Function.comp_assoc, co_perm, hj]
    exact G.inner
  · rw [← Function.comp_assoc, pw3_perm]
    exact G.conflict
  · rw [← Function.comp_assoc, pw3_perm]
    exact G.empty w hw fun i => by simpa using hne (e.symm i)

theorem Cavity.absorb (S : Solid x R) {i0 p : ℕ} {σ : Fin 4 → ℕ} {idx : Fin 4 → ℕ}
    (A : Absorbed x R R' i0 σ p idx) (C : Cavity x R p) (hσ : ∀ k, σ k < p) (hc : pw3 (x ∘ σ) (x p) < 0) :
    Cavity x R' p := by
  have hne : ∀ k, σ k ≠ p := fun k => (hσ k).ne
  refine ⟨?_, ?_⟩
  · intro i τ h hn
    rcases (A.iff _ _).1 h with ⟨h1, _, _⟩ | ⟨k, hk, _, e, rfl⟩
    · exact C.old i τ h1 hn
    · have := hn (e.symm k)
      simp at this
  · intro i τ h j hj
    rcases (A.iff _ _).1 h with ⟨h1, _, _⟩ | ⟨k, hk, _, e, rfl⟩
    · exact C.ghost i τ h1 j hj
    · have hek : e j = k := by
        by_contra hek
        rw [Function.comp_apply, Function.update_of_ne hek] at hj
        exact hne _ hj
      refine ⟨σ k, ?_⟩
      rw [update_perm σ k p e j _ hek, Function.update_eq_self]
      refine Ghost.perm (k := k) ⟨S.nondeg A.old, hk, hc, hσ, C.old i0 σ A.old hne⟩ e hek

omit [IsStrictOrderedRing K] in
theorem Outside3.absorb {i0 p : ℕ} {σ : Fin 4 → ℕ} {idx : Fin 4 → ℕ} (A : Absorbed x R R' i0 σ p idx)
    (O : Outside3 x R p) : Outside3 x R' p := by
  intro i τ h hn
  rcases (A.iff _ _).1 h with ⟨h1, _, _⟩ | ⟨k, hk, _, e, rfl⟩
  · exact O i τ h1 hn
  · have := hn (e.symm k)
    simp at this

/-- The first step: the tetrahedron which contains the point. -/
theorem Outside3.start (S : Solid x R) {i0 p : ℕ} {σ : Fin 4 → ℕ} {idx : Fin 4 → ℕ} (A : Absorbed x R R' i0 σ p idx)
    (hin : Inside3 (x ∘ σ) (x p)) : Outside3 x R' p := by
  intro i τ h hn
  rcases (A.iff _ _).1 h with ⟨h1, h2, _⟩ | ⟨k, hk, _, e, rfl⟩
  · by_contra hc
    push Not at hc
    exact h2 (S.same_of_inside A.old h1 hin hc).symm
  · have := hn (e.symm k)
    simp at this

theorem Pending.absorb (S : Solid x R) {i0 p : ℕ} {σ : Fin 4 → ℕ} {idx : Fin 4 → ℕ} (A : Absorbed x R R' i0 σ p idx)
    {t : ℕ} {q news : List ℕ} {k0 : Fin 4} (hk0 : co (x ∘ σ) k0 (x p) < 0) (ht : R t (Function.update σ k0 p))
    (P : Pending x R p (t :: q)) (hnews : ∀ k, 0 < co (x ∘ σ) k (x p) → idx k ∈ news) : Pending x R' p (q ++ news) := by
  intro i τ h hn hpw hvis
  have hR : R i τ := by
    rcases (A.iff _ _).1 h with ⟨h1, _, _⟩ | ⟨k, hk, _, e, rfl⟩
    · exact h1
    · have := hn (e.symm k)
      simp at this
  have hnew : ∀ k j, co (x ∘ τ) k (x p) < 0 → R' j (Function.update τ k p) → ¬R j (Function.update τ k p) →
      ∃ j ∈ q ++ news, ∃ k, co (x ∘ τ) k (x p) < 0 ∧ R' j (Function.update τ k p) := by
    intro k j hk hj hj'
    rcases (A.iff _ _).1 hj with ⟨h1, _, _⟩ | ⟨l, hl, rfl, e, he⟩
    · exact absurd h1 hj'
    · exact ⟨idx l, List.mem_append.2 (Or.inr (hnews l hl)), k, hk, hj⟩
  by_cases hall : ∀ k, co (x ∘ τ) k (x p) < 0 → ∃ j, R j (Function.update τ k p)
  · obtain ⟨j, hj, k, hk, hjR⟩ := P i τ hR hn hpw hall
    obtain ⟨j', hj'⟩ := hvis k hk
    by_cases hold : R j' (Function.update τ k p)
    · have e := S.unique' hjR hold
      subst e
      rcases (A.iff _ _).1 hj' with ⟨_, _, h3⟩ | ⟨l, hl, hi, _⟩
      · have hjt : j ≠ t := by
          rintro rfl
          exact h3 ⟨k0, hk0, ht⟩
        have hjq : j ∈ q := by
          rcases List.mem_cons.1 hj with e | e
          · exact absurd e hjt
          · exact e
        exact ⟨j, List.mem_append.2 (Or.inl hjq), k, hk, hj'⟩
      · exact absurd hi (A.fresh l j _ hold)
    · exact hnew k j' hk hj' hold
  · push Not at hall
    obtain ⟨k, hk, hno⟩ := hall
    obtain ⟨j', hj'⟩ := hvis k hk
    exact hnew k j' hk hj' (hno j')

omit [IsStrictOrderedRing K] in
/-- All tetrahedra with the new vertex are in the queue. -/
theorem Pending.start {p : ℕ} {q : List ℕ} (O : Outside3 x R p) (hq : ∀ j τ k, R j τ → τ k = p → j ∈ q) :
    Pending x R p q := by
  intro i σ h hn _ hvis
  obtain ⟨k, hk⟩ := O i σ h hn
  obtain ⟨j, hj⟩ := hvis k hk
  exact ⟨j, hq j _ k hj (by simp), k, hk, hj⟩

omit [IsStrictOrderedRing K] in
/-- The power of a point with respect to the tetrahedron `i`. -/
theorem Solid.value (S : Solid x R) (y : P3 K) : ∃ f : ℕ → K, ∀ i σ, R i σ → f i = pw3 (x ∘ σ) y := by
  classical
  refine ⟨fun i => if h : ∃ σ, R i σ then pw3 (x ∘ h.choose) y else 0, fun i σ h => ?_⟩
  have he : ∃ σ, R i σ := ⟨σ, h⟩
  dsimp only
  rw [dif_pos he]
  obtain ⟨e, he'⟩ := S.same he.choose_spec h
  rw [he', ← Function.comp_assoc, pw3_perm]

/-- Going through a face makes the power of a point on the other side smaller. -/
theorem pw3_decreases {σ : Fin 4 → ℕ} (h : vol (x ∘ σ) ≠ 0) {k : Fin 4} {q : ℕ} (hq : co (x ∘ σ) k (x q) < 0)
    (hpos : 0 < pw3 (x ∘ Function.update σ k q) (x (σ k))) {y : P3 K} (hy : co (x ∘ σ) k y < 0) :
    pw3 (x ∘ Function.update σ k q) y < pw3 (x ∘ σ) y := by
  rw [comp_upd] at hpos ⊢
  have h1 := pw3_across h hq.ne y
  have h2 : co (x ∘ σ) k y * pw3 (Function.update (x ∘ σ) k (x q)) ((x ∘ σ) k) < 0 := mul_neg_of_neg_of_pos hy hpos
  linarith

theorem fresh_vertex {σ : Fin 4 → ℕ} (h : vol (x ∘ σ) ≠ 0) {k : Fin 4} {q : ℕ} (hq : co (x ∘ σ) k (x q) < 0)
    (i : Fin 4) : σ k ≠ Function.update σ k q i := by
  by_cases hi : i = k
  · subst hi
    rw [Function.update_self]
    intro e
    have := co_self h i
    rw [Function.comp_apply, e] at this
    linarith
  · rw [Function.update_of_ne hi]
    intro e
    exact hi (vol_injective h (congrArg x e)).symm

/-- If nothing is pending, no circumsphere of the old mesh contains `p`. -/
theorem Pending.done (S : Solid x R) {p : ℕ} (hlt : ∀ i σ, R i σ → ∀ k, σ k < p + 1)
    (hfin : {i | ∃ σ, R i σ}.Finite) (hcl : Closed3 x R (p + 1)) (C : Cavity x R p) (P : Pending x R p []) :
    ∀ i σ, R i σ → (∀ k, σ k ≠ p) → 0 < pw3 (x ∘ σ) (x p) := by
  obtain ⟨f, hf⟩ := S.value (x p)
  by_contra hc
  push Not at hc
  obtain ⟨i1, σ1, h1, n1, c1⟩ := hc
  obtain ⟨i, ⟨σ, h, hn, hle⟩, hmin⟩ := Set.exists_min_image
    {i | ∃ σ, R i σ ∧ (∀ k, σ k ≠ p) ∧ pw3 (x ∘ σ) (x p) ≤ 0} f (hfin.subset fun i ⟨σ, h, _⟩ => ⟨σ, h⟩)
    ⟨i1, σ1, h1, n1, c1⟩
  refine absurd (P i σ h hn hle fun k hk => ?_) (by simp)
  rcases hcl i σ h k with hh | ⟨j, q, hj, hq⟩
  · exact absurd (hh p (Nat.lt_succ_self p)) (not_le.2 hk)
  · by_cases hqp : q = p
    · subst hqp
      exact ⟨j, hj⟩
    · exfalso
      have hn' : ∀ i, Function.update σ k q i ≠ p := by
        intro i
        by_cases e : i = k
        · subst e
          rwa [Function.update_self]
        · rw [Function.update_of_ne e]
          exact hn i
      have hlt' : σ k < p := lt_of_le_of_ne (Nat.lt_succ_iff.1 (hlt i σ h k)) (hn k)
      have hpos := C.old j _ hj hn' (σ k) hlt' (fresh_vertex (S.nondeg h) hq)
      have hdec := pw3_decreases (S.nondeg h) hq hpos hk
      have := hmin j ⟨_, hj, hn', by linarith⟩
      rw [hf i σ h, hf j _ hj] at this
      linarith

/-- If nothing is pending, the mesh is Delaunay again. -/
theorem Cavity.done (S : Solid x R) {p : ℕ} (hlt : ∀ i σ, R i σ → ∀ k, σ k < p + 1)
    (hfin : {i | ∃ σ, R i σ}.Finite) (hcl : Closed3 x R (p + 1)) (C : Cavity x R p) (P : Pending x R p []) :
    Empty3 x R (p + 1) := by
  have hdone := P.done S hlt hfin hcl C
  intro i τ h w hw hne
  by_cases hn : ∀ k, τ k ≠ p
  · rcases Nat.lt_succ_iff_lt_or_eq.1 hw with hw | rfl
    · exact C.old i τ h hn w hw hne
    · exact hdone i τ h hn
  push Not at hn
  obtain ⟨k, hk⟩ := hn
  have hwp : w < p := lt_of_le_of_ne (Nat.lt_succ_iff.1 hw) fun e => hne k (e.trans hk.symm)
  obtain ⟨d, G⟩ := C.ghost i τ h k hk
  have h0 := S.nondeg h
  -- the position of the ghost vertex
  have hvd := G.nondeg
  rw [comp_upd] at hvd
  have hd0 : co (x ∘ τ) k (x d) ≠ 0 := by
    intro e
    rw [vol_update h0, e, zero_mul] at hvd
    exact hvd rfl
  have hdpos : 0 < co (x ∘ τ) k (x d) := by
    have h1 := G.inner
    rw [comp_upd, ← hk] at h1
    have h2 := co_back h0 (k := k) (q := x d)
    rw [Function.comp_apply] at h2
    rw [h2] at h1
    exact one_div_pos.1 h1
  have hα := G.conflict
  rw [comp_upd, ← hk] at hα
  have hg := pw3_across h0 hd0 (x w)
  rw [Function.comp_apply] at hg
  have hgw : 0 ≤ pw3 (Function.update (x ∘ τ) k (x d)) (x w) := by
    by_cases hwd : w = d
    · have := pw3_vertex hvd k
      rw [Function.update_self] at this
      rw [hwd, this]
    · have := G.empty w hwp fun j => ?_
      · rw [comp_upd] at this
        exact this.le
      · by_cases hj : j = k
        · subst hj
          rwa [Function.update_self]
        · rw [Function.update_of_ne hj]
          exact hne j
  have hgw' : w ≠ d → 0 < pw3 (Function.update (x ∘ τ) k (x d)) (x w) := by
    intro hwd
    have := G.empty w hwp fun j => ?_
    · rwa [comp_upd] at this
    · by_cases hj : j = k
      · subst hj
        rwa [Function.update_self]
      · rw [Function.update_of_ne hj]
        exact hne j
  rcases hcl i τ h k with hh | ⟨j, q, hj, hq⟩
  · have h1 := hh w (by omega)
    by_cases hwd : w = d
    · subst hwd
      have := mul_neg_of_pos_of_neg hdpos hα
      linarith
    · have := hgw' hwd
      have := mul_nonpos_of_nonneg_of_nonpos h1 hα.le
      linarith
  · have hqp : q ≠ p := by
      rintro rfl
      have := co_self h0 k
      rw [Function.comp_apply, hk] at this
      linarith
    have hinj := S.injective h
    have hn' : ∀ i, Function.update τ k q i ≠ p := by
      intro i
      by_cases e : i = k
      · subst e
        rwa [Function.update_self]
      · rw [Function.update_of_ne e]
        exact fun e' => e (hinj (e'.trans hk.symm))
    have hβ := hdone j _ hj hn'
    have hvq := S.nondeg hj
    rw [comp_upd, ← hk] at hβ
    rw [comp_upd] at hvq
    have hs := pw3_across h0 hq.ne (x w)
    rw [Function.comp_apply] at hs
    have hsw : 0 ≤ pw3 (Function.update (x ∘ τ) k (x q)) (x w) := by
      by_cases hwq : w = q
      · have := pw3_vertex hvq k
        rw [Function.update_self] at this
        rw [hwq, this]
      · have := C.old j _ hj hn' w hwp fun j => ?_
        · rw [comp_upd] at this
          exact this.le
        · by_cases hj : j = k
          · subst hj
            rwa [Function.update_self]
          · rw [Function.update_of_ne hj]
            exact hne j
    generalize pw3 (Function.update (x ∘ τ) k (x d)) (x (τ k)) = α at *
    generalize pw3 (Function.update (x ∘ τ) k (x q)) (x (τ k)) = β at *
    have hsum : pw3 (x ∘ τ) (x w) * (β - α) = β * pw3 (Function.update (x ∘ τ) k (x d)) (x w) -
        α * pw3 (Function.update (x ∘ τ) k (x q)) (x w) := by
      rw [hg, hs]
      ring
    have hba : 0 < β - α := by linarith
    refine pos_of_mul_pos_left (b := β - α) ?_ hba.le
    rw [hsum]
    by_cases hwd : w = d
    · -- then `w` is not the outer vertex
      have hwq : w ≠ q := by
        rintro rfl
        rw [hwd] at hq
        linarith
      have : 0 < pw3 (Function.update (x ∘ τ) k (x q)) (x w) := by
        have := C.old j _ hj hn' w hwp fun j => ?_
        · rwa [comp_upd] at this
        · by_cases hj : j = k
          · subst hj
            rwa [Function.update_self]
          · rw [Function.update_of_ne hj]
            exact hne j
      have h1 := mul_neg_of_neg_of_pos hα this
      have h2 := mul_nonneg hβ.le hgw
      linarith
    · have h1 := mul_pos hβ (hgw' hwd)
      have h2 := mul_nonpos_of_nonpos_of_nonneg hα.le hsw
      linarith

/-- A set of tetrahedra which contains the neighbours of its elements has one which contains a given point. -/
theorem Solid.find (S : Solid x R) {n : ℕ} (hlt : ∀ i σ, R i σ → ∀ k, σ k < n) (hfin : {i | ∃ σ, R i σ}.Finite)
    (hcl : Closed3 x R n) (E : Empty3 x R n) {y : P3 K}
    (hy : ∀ i σ, R i σ → ∀ k, (∀ w, w < n → 0 ≤ co (x ∘ σ) k (x w)) → 0 ≤ co (x ∘ σ) k y) (A : Set ℕ)
    (hA : ∃ i ∈ A, ∃ σ, R i σ)
    (hcA : ∀ i ∈ A, ∀ σ, R i σ → ∀ k j q, R j (Function.update σ k q) → co (x ∘ σ) k (x q) < 0 → j ∈ A) :
    ∃ i ∈ A, ∃ σ, R i σ ∧ Within3 (x ∘ σ) y := by
  obtain ⟨f, hf⟩ := S.value y
  obtain ⟨i1, a1, σ1, h1⟩ := hA
  obtain ⟨i, ⟨hi, σ, h⟩, hmin⟩ := Set.exists_min_image {i | i ∈ A ∧ ∃ σ, R i σ} f
    (hfin.subset fun i h => h.2) ⟨i1, a1, σ1, h1⟩
  refine ⟨i, hi, σ, h, fun k => ?_⟩
  by_contra hk
  rw [not_le] at hk
  rcases hcl i σ h k with hh | ⟨j, q, hj, hq⟩
  · exact absurd (hy i σ h k hh) (not_le.2 hk)
  · have hpos := E j _ hj (σ k) (hlt i σ h k) (fresh_vertex (S.nondeg h) hq)
    have hdec := pw3_decreases (S.nondeg h) hq hpos hk
    have := hmin j ⟨hcA i hi σ h k j q hj hq, _, hj⟩
    rw [hf i σ h, hf j _ hj] at this
    linarith

end Verif.Delaunay
