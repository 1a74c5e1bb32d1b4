import Verif.Parallel.TotalStep

/-! # C88: the construction of the grid of a rank ends without panics

`Examples` shows a world with 1728 ranks which meets the hypotheses. -/

namespace Verif.Parallel

open Verif.Geometry Verif.Halo Verif.Delaunay
open Verif.Predicates (P3)

variable {Id : Type} [DecidableEq Id]

/-- **The grid of a rank is built.**  Let the box be a cube, let no place in the cell of a particle of this rank be further
away than `h` from the particle, and let `M` be at most half of the box, at least `3.2 h` and at least the initial search
radius.  If the particles and images closer than `2 M` to a particle of this rank are in general position together with the
vertices of the initial tetrahedron, then after some number of iterations this rank is done: neither a search nor an
insertion panics and no tetra remains undecided. -/
theorem construct_ends {eps eps' : ℝ} (heps : 0 < eps) (heps' : 0 < eps') (key : P3 ℝ → ℕ)
    {pop : Heaps} (hp : HeapsOk pop) {fuel : ℕ} {len : ℝ} {order : List ℕ} {W : World 3 Id} {own : ℕ}
    (V : W.Valid) (hc : ∀ i, W.hi i - W.lo i = W.hi 0 - W.lo 0) (ho : order.Perm (List.range W.particles.length))
    (hf : 5 * (4 + (W.ofRank own).length) ^ 4 + 1 ≤ fuel) {h M : ℝ} (hh : 0 < h) (hl : 0 < len) (hlM : len ≤ M)
    (hM : 32 / 10 * h ≤ M) (hL : 2 * M ≤ W.hi 0 - W.lo 0) (hcell : ∀ p ∈ W.ofRank own, W.CellWithin p h)
    (hG : W.General own (2 * M)) :
    ∃ n g, constructRank eps eps' key hp fuel len order W own n = some g := by
  obtain ⟨hlx, hly, hlz⟩ := enlarged_lt V
  obtain ⟨hcy, hcz⟩ := enlarged_cube hc
  have hord : order.Nodup := ho.nodup_iff.2 List.nodup_range
  have hR : 0 < 2 * M := by linarith
  have B : Bounds W own len h M := ⟨hh, hlM, hM, hL, hcell⟩
  have hnear : ∀ p ∈ W.ofRank own, W.Near own (2 * M) own p 0 := fun p hp =>
    ⟨hp, p, hp, by rw [image_zero, distance_self']; exact hR⟩
  obtain ⟨r, hr⟩ : ∃ r, construct3 eps key pop fuel W.enlarged.1 W.enlarged.2
      ((W.ofRank own).map fun p => (p.1, dim3.ofVec p.2)) = .done r := by
    refine construct3_succeeds_cube heps hp hlx hcy hcz ?_ ?_ ?_ (by rw [List.length_map]; exact hf)
    · intro e he
      obtain ⟨p, hpm, rfl⟩ := List.mem_map.1 he
      have := image_inBox V hpm (fun _ => WrapType.noWrap)
      have h0 : (fun i : Fin 3 => shift ((fun _ => WrapType.noWrap) i)) = 0 := rfl
      rw [h0, image_zero] at this
      exact this
    · rw [List.map_map]
      refine (List.nodup_map_iff_inj_on (List.Nodup.of_map _ (V.ids own))).2 ?_
      intro p hpm q hqm e
      have := hG.distinct own p 0 own q 0 (hnear p hpm) (hnear q hqm) (by rw [image_zero, image_zero]; exact ofVec_inj e)
      exact (Prod.mk.inj (Prod.mk.inj this).2).1
    · exact ⟨fun p q z t a b c d => hG.general.1 p q z t (candidate_of_site hR a) (candidate_of_site hR b)
          (candidate_of_site hR c) (candidate_of_site hR d),
        fun p q z t y a b c d e => hG.general.2 p q z t y (candidate_of_site hR a) (candidate_of_site hR b)
          (candidate_of_site hR c) (candidate_of_site hR d) (candidate_of_site hR e)⟩
  have D := local_data heps hp V hc hr (construct3_stateOk hp hr)
  obtain ⟨F, hF⟩ := found_finite (ready3 V) order own
  obtain ⟨n, st, h1, h2⟩ := iterateN_total (env_ok dim3 W hord own)
    (triangulation_ok (parts3 eps W.enlarged hp) (sphereRadius eps') (sphereCentre eps')) hl F hF
    (localState r (construct3_stateOk hp hr))
    (Quiet W own (2 * M) (env dim3 W order own) (tri3 eps eps' W.enlarged hp) (localState r (construct3_stateOk hp hr)))
    ⟨[], ⟨D.space, by simp [initial], by simp, List.nodup_nil⟩, rfl, by
      intro u hu ra hra
      unfold initial at hu
      dsimp only at hu
      obtain ⟨t, -, rfl⟩ := List.mem_map.1 hu
      cases hra⟩
    (fun st I hq => quiet_step heps heps' hp V hc ho D B hG hq I)
  refine ⟨n, Option.isSome_iff_exists.1 ?_⟩
  unfold constructRank
  split
  · rename_i r' hr'
    rw [hr] at hr'
    cases hr'
    have h1' : iterateN (env dim3 W order own) (tri3 eps eps' W.enlarged hp) len n
      (initial (tri3 eps eps' W.enlarged hp) (localState r (construct3_stateOk hp hr))) = .ok st := h1
    rw [h1']
    dsimp only
    rw [h2]
    rfl
  · rename_i hr'
    rw [hr] at hr'
    cases hr'
  · rename_i hr'
    rw [hr] at hr'
    cases hr'

end Verif.Parallel
