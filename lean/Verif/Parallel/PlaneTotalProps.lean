import Verif.Parallel.PlaneTotalStep

/-! # C133: the construction of the grid of a rank in two dimensions ends without panics

`PlaneExamples` shows a world with 144 ranks which meets the hypotheses. -/

namespace Verif.Parallel.Plane

open Verif.Geometry Verif.Halo Verif.Delaunay
open Verif.Predicates (P2 Triangle2)

variable {Id : Type} [DecidableEq Id]

/-- **The grid of a rank is built.**  Let the box be a square, let no place in the cell of a particle of this rank be further
away than `h` from the particle, and let `M` be at most half of the box, at least `3.2 h` and at least the initial search
radius.  If the particles and images closer than `2 M` to a particle of this rank are in general position together with the
vertices of the initial triangle, then after some number of iterations this rank is done: neither a search nor an
insertion panics and no triangle remains undecided. -/
theorem construct_ends (key : P2 ℝ → ℕ)
    {pop : Heaps} (hp : HeapsOk pop) {fuel : ℕ} {len : ℝ} {order : List ℕ} {W : World 2 Id} {own : ℕ}
    (V : W.Valid) (hc : ∀ i, W.hi i - W.lo i = W.hi 0 - W.lo 0) (ho : order.Perm (List.range W.particles.length))
    (hf : 8 * (W.ofRank own).length + 5 ≤ fuel) {h M : ℝ} (hh : 0 < h) (hl : 0 < len) (hlM : len ≤ M)
    (hM : 32 / 10 * h ≤ M) (hL : 2 * M ≤ W.hi 0 - W.lo 0) (hcell : ∀ p ∈ W.ofRank own, CellWithin W p h)
    (hG : General W own (2 * M)) :
    ∃ n g, constructRank key hp fuel len order W own n = some g := by
  obtain ⟨hlx, hly⟩ := enlarged_lt V
  have hcy := enlarged_square hc
  have hord : order.Nodup := ho.nodup_iff.2 List.nodup_range
  have hR : 0 < 2 * M := by linarith
  have B : Bounds W own len h M := ⟨hh, hlM, hM, hL, hcell⟩
  have hnear : ∀ p ∈ W.ofRank own, Near W own (2 * M) own p 0 := fun p hp =>
    ⟨hp, p, hp, by rw [image_zero, distance_self']; exact hR⟩
  obtain ⟨r, hr⟩ : ∃ r, construct2 key pop fuel W.enlarged2.1 W.enlarged2.2
      ((W.ofRank own).map fun p => (p.1, dim2.ofVec p.2)) = .done r := by
    refine construct2_succeeds_square hp hlx hcy ?_ ?_ ?_ (by rw [List.length_map]; exact hf)
    · intro e he
      obtain ⟨p, hpm, rfl⟩ := List.mem_map.1 he
      have := image_inBox V hpm (fun _ => WrapType.noWrap)
      have h0 : (fun i : Fin 2 => shift ((fun _ => WrapType.noWrap) i)) = 0 := rfl
      rw [h0, image_zero] at this
      exact this
    · rw [List.map_map]
      refine (List.nodup_map_iff_inj_on (List.Nodup.of_map _ (V.ids own))).2 ?_
      intro p hpm q hqm e
      have := hG.distinct own p 0 own q 0 (hnear p hpm) (hnear q hqm) (by rw [image_zero, image_zero]; exact ofVec_inj e)
      exact (Prod.mk.inj (Prod.mk.inj this).2).1
    · exact ⟨fun p q z a b c => hG.general.1 p q z (candidate_of_site hR a) (candidate_of_site hR b) (candidate_of_site hR c),
        fun p q z t a b c d => hG.general.2 p q z t (candidate_of_site hR a) (candidate_of_site hR b) (candidate_of_site hR c)
          (candidate_of_site hR d)⟩
  have D := local_data hp V hc hr (construct2_stateOk hp hr)
  obtain ⟨F, hF⟩ := found_finite (ready2 V) order own
  obtain ⟨n, st, h1, h2⟩ := iterateN_total (env_ok dim2 W hord own)
    (triangulation_ok (parts W.enlarged2 hp) circleRadius circleCentre) hl F hF
    (localState r (construct2_stateOk hp hr))
    (Quiet W own (2 * M) (env dim2 W order own) (tri W.enlarged2 hp) (localState r (construct2_stateOk hp hr)))
    ⟨[], ⟨D.plane, by simp [initial], by simp, List.nodup_nil⟩, rfl, by
      intro u hu ra hra
      unfold initial at hu
      dsimp only at hu
      obtain ⟨t, -, rfl⟩ := List.mem_map.1 hu
      cases hra⟩
    (fun st I hq => quiet_step hp V hc ho D B hG hq I)
  refine ⟨n, Option.isSome_iff_exists.1 ?_⟩
  unfold constructRank
  split
  · rename_i r' hr'
    rw [hr] at hr'
    cases hr'
    have h1' : iterateN (env dim2 W order own) (tri W.enlarged2 hp) len n
      (initial (tri W.enlarged2 hp) (localState r (construct2_stateOk hp hr))) = .ok st := h1
    rw [h1']
    dsimp only
    rw [h2]
    rfl
  · rename_i hr'
    rw [hr] at hr'
    cases hr'
  · rename_i hr'
    rw [hr] at hr'
    cases hr'

end Verif.Parallel.Plane
