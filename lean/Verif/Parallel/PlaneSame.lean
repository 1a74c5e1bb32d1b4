import Verif.Parallel.PlaneProps
import Verif.Parallel.PlaneSameSpec
import Verif.Parallel.SameGrid

/-! # The same particles on other ranks, in two dimensions: lemmas -/

namespace Verif.Parallel.Plane

open Verif.Geometry Verif.Halo Verif.Delaunay
open Verif.Predicates (P2 Triangle2 distSq2)

variable {Id Id' : Type} {W : World 2 Id} {W' : World 2 Id'} [DecidableEq Id] [DecidableEq Id'] {order order' : List ℕ} {own own' : ℕ}
  {g : Grid Id} {g' : Grid Id'} {idx : List (Id × ℕ)} {idx' : List (Id' × ℕ)}
  {l : List (ℕ × Image Id (Fin 2 → WrapType) (P2 ℝ))} {l' : List (ℕ × Image Id' (Fin 2 → WrapType) (P2 ℝ))}

theorem eq_dist {y a b : Vec 2 ℝ} (h : ¬distSq2 (dim2.ofVec y) (dim2.ofVec a) < distSq2 (dim2.ofVec y) (dim2.ofVec b)) :
    distance y b ≤ distance y a := le_iff2.2 (not_lt.1 h)

/-- If a particle or image is not further away from a place than a particle of this rank, no other one is at the same place. -/
theorem RankData.alone (R : RankData order W own g idx l) (V : W.Valid) (hc : ∀ i, W.hi i - W.lo i = W.hi 0 - W.lo 0)
    (hh : ∀ r, ∀ p ∈ W.ofRank r, ∀ i, p.2 i < W.hi i)
    {p : Id × Vec 2 ℝ} (hp : p ∈ W.ofRank own) {i : ℕ} (hi : (p.1, i) ∈ idx) (hpos : g.position i = dim2.ofVec p.2)
    {y : Vec 2 ℝ} (hy : ∀ z, W.Site z → distance y p.2 ≤ distance y z) {s s' : ℕ} {q q' : Id × Vec 2 ℝ} {k k' : Fin 2 → ℤ}
    (hq : q ∈ W.ofRank s) (hq' : q' ∈ W.ofRank s') (e : Geometry.image W.box k q.2 = Geometry.image W.box k' q'.2)
    (hd : distance y (Geometry.image W.box k q.2) ≤ distance y p.2) : (s, q, k) = (s', q', k') := by
  have hw := (R.closest V hc hp hi hpos y).2 hy
  have h : ∀ {s : ℕ} {q : Id × Vec 2 ℝ} {k : Fin 2 → ℤ}, q ∈ W.ofRank s → distance y (Geometry.image W.box k q.2) ≤ distance y p.2 →
      (s, q, k) = (own, p, 0) ∨ ∃ j, j ≠ i ∧ Named W own idx l j s q k := by
    intro s q k hq hd
    by_cases hne : (s, q, k) = (own, p, 0)
    · exact Or.inl hne
    · refine Or.inr ((R.tie V hh hp hi hpos hw hq hne).resolve_left fun hlt => ?_)
      rw [hpos] at hlt
      exact absurd (le_iff2.1 hd) (not_le.2 hlt)
  have hin := (R.idx_three hi).2
  dsimp only at hin
  rcases h hq hd with h1 | ⟨j, hji, hN⟩ <;> rcases h hq' (e ▸ hd) with h2 | ⟨j', hji', hN'⟩
  · rw [h1, h2]
  · exfalso
    obtain ⟨rfl, rfl, rfl⟩ : s = own ∧ q = p ∧ k = 0 := by simpa only [Prod.mk.injEq] using h1
    refine hji' (R.plane.injective (R.named_lt hN').2 hin ?_)
    rw [R.named_pos V hN', ← e, image_zero, hpos]
  · exfalso
    obtain ⟨rfl, rfl, rfl⟩ : s' = own ∧ q' = p ∧ k' = 0 := by simpa only [Prod.mk.injEq] using h2
    refine hji (R.plane.injective (R.named_lt hN).2 hin ?_)
    rw [R.named_pos V hN, e, image_zero, hpos]
  · have hj : j = j' := R.plane.injective (R.named_lt hN).2 (R.named_lt hN').2 (by
      rw [R.named_pos V hN, R.named_pos V hN', e])
    subst hj
    obtain ⟨rfl, rfl, rfl⟩ := R.named_fun V hN hN'
    rfl

/-- Cells which have a common face have one in the other distribution too. -/
theorem adjacent_same (R : RankData order W own g idx l) (R' : RankData order' W' own' g' idx' l') (V : W.Valid) (V' : W'.Valid)
    (hc : ∀ i, W.hi i - W.lo i = W.hi 0 - W.lo 0) (hc' : ∀ i, W'.hi i - W'.lo i = W'.hi 0 - W'.lo 0)
    (hh : ∀ r, ∀ p ∈ W.ofRank r, ∀ i, p.2 i < W.hi i) (hh' : ∀ r, ∀ p ∈ W'.ofRank r, ∀ i, p.2 i < W'.hi i)
    (E : SameParticles W W')
    {p : Id × Vec 2 ℝ} (hp : p ∈ W.ofRank own) {i : ℕ} (hi : (p.1, i) ∈ idx) (hpos : g.position i = dim2.ofVec p.2)
    {p' : Id' × Vec 2 ℝ} (hp' : p' ∈ W'.ofRank own') {i' : ℕ} (hi' : (p'.1, i') ∈ idx')
    (hpos' : g'.position i' = dim2.ofVec p'.2) (hpp : p'.2 = p.2) {s s' : ℕ} {q : Id × Vec 2 ℝ} {q' : Id' × Vec 2 ℝ}
    {k : Fin 2 → ℤ} (hq' : q' ∈ W'.ofRank s') (hqq : q'.2 = q.2) (h : W.Adjacent own p s q k) : W'.Adjacent own' p' s' q' k := by
  obtain ⟨hq, hne, y, h1, h2⟩ := h
  have hy : ∀ z, W.Site z → distance y p.2 ≤ distance y z := by
    rintro z ⟨s1, q1, -, hq1, k1, rfl⟩
    by_cases e1 : (s1, q1, k1) = (own, p, 0)
    · obtain ⟨rfl, rfl, rfl⟩ : s1 = own ∧ q1 = p ∧ k1 = 0 := by simpa only [Prod.mk.injEq] using e1
      rw [image_zero]
    by_cases e2 : (s1, q1, k1) = (s, q, k)
    · obtain ⟨rfl, rfl, rfl⟩ : s1 = s ∧ q1 = q ∧ k1 = k := by simpa only [Prod.mk.injEq] using e2
      exact h1.le
    · exact (h2 s1 q1 k1 hq1 e1 e2).le
  have hy' : ∀ z, W'.Site z → distance y p'.2 ≤ distance y z := fun z hz => by
    rw [hpp]
    exact hy z ((E.site z).2 hz)
  have h1' : distance y p'.2 = distance y (image W'.box k q'.2) := by rw [hpp, hqq, E.box]; exact h1
  refine ⟨hq', fun e => hne ?_, y, h1', fun s2 q2 k2 hq2 n1 n2 => ?_⟩
  · obtain ⟨rfl, rfl, rfl⟩ : s' = own' ∧ q' = p' ∧ k = 0 := by simpa only [Prod.mk.injEq] using e
    refine R.alone V hc hh hp hi hpos hy hq hp ?_ h1.ge
    rw [image_zero, image_zero, ← hqq, hpp]
  · by_contra hlt
    rw [not_lt] at hlt
    obtain ⟨s3, q3, hs3, hq3, k3, e3⟩ := (E.site _).2 (⟨s2, q2, ofRank_lt hq2, hq2, k2, rfl⟩ : W'.Site (image W'.box k2 q2.2))
    by_cases m1 : (s3, q3, k3) = (own, p, 0)
    · obtain ⟨rfl, rfl, rfl⟩ : s3 = own ∧ q3 = p ∧ k3 = 0 := by simpa only [Prod.mk.injEq] using m1
      refine n1 (R'.alone V' hc' hh' hp' hi' hpos' hy' hq2 hp' ?_ hlt)
      rw [e3, image_zero, image_zero, hpp]
    by_cases m2 : (s3, q3, k3) = (s, q, k)
    · obtain ⟨rfl, rfl, rfl⟩ : s3 = s ∧ q3 = q ∧ k3 = k := by simpa only [Prod.mk.injEq] using m2
      refine n2 (R'.alone V' hc' hh' hp' hi' hpos' hy' hq2 hq' ?_ hlt)
      rw [e3, hqq, E.box]
    · have := h2 s3 q3 k3 hq3 m1 m2
      rw [← e3, ← hpp] at this
      exact absurd hlt (not_le.2 this)

omit [DecidableEq Id] [DecidableEq Id'] in
theorem face_same (E : SameParticles W W') (a b : Vec 2 ℝ) : face W' a b = face W a b := by
  unfold face
  ext y
  refine and_congr_right fun _ => forall_congr' fun z => ?_
  rw [E.site]

theorem forall₂_join {α β γ : Type} {R : α → β → Prop} {S : β → γ → Prop} {T : α → γ → Prop} {a : List α} {b : List β} {c : List γ}
    (h : List.Forall₂ R a b) (h' : List.Forall₂ S b c) (hT : ∀ x y z, y ∈ b → R x y → S y z → T x z) : List.Forall₂ T a c := by
  induction h generalizing c with
  | nil =>
    cases h'
    exact List.Forall₂.nil
  | cons h1 _ ih =>
    cases h' with
    | cons g1 g2 =>
      exact List.Forall₂.cons (hT _ _ _ List.mem_cons_self h1 g1)
        (ih g2 fun x y z hy => hT x y z (List.mem_cons_of_mem _ hy))

end Verif.Parallel.Plane
