import Verif.Parallel.EnvLemmas
import Verif.Halo.Trace

/-! # The images which are in the triangulation of a rank at the end: lemmas -/

namespace Verif.Parallel

open Verif.Geometry Verif.Quadtree Verif.Halo

variable {d n : ℕ} {C Id S : Type} [DecidableEq Id]

theorem eq_of_id {l : List (Id × Vec d ℝ)} (h : (l.map Prod.fst).Nodup) {p q : Id × Vec d ℝ} (hp : p ∈ l) (hq : q ∈ l)
    (e : p.1 = q.1) : p = q := List.inj_on_of_nodup_map h hp hq e

/-- The images which the iteration of rank `own` has inserted when it ends. -/
theorem run_images {D : Dim d n C} {W : World d Id} (R : Ready D W) (hids : ∀ r, ((W.ofRank r).map Prod.fst).Nodup)
    {order : List ℕ} (ho : order.Nodup) (ho' : ∀ r, r ∈ order ↔ r < W.particles.length) {own : ℕ} {T : Tri S C ℝ}
    {next : S → ℕ} (hT : TriOk T next) {len : ℝ} {m : ℕ} {s : S} {st : St S Id (Fin d → WrapType) ℝ}
    (h : iterateN (env D W order own) T len m (initial T s) = .ok st) (hend : st.undecided = []) :
    ∃ l : List (ℕ × Image Id (Fin d → WrapType) C),
      insertSeq T s (l.map fun x => x.2.pos) = some st.tri ∧
      st.haloes = (l.map fun x => ptype (env D W order own) x.1 x.2).reverse ∧ st.haloes.Nodup ∧
      (∀ x ∈ l, x.1 < W.particles.length ∧ (x.1 ≠ own ∨ isPeriodic x.2.wrap) ∧
        ∃ p ∈ W.ofRank x.1, x.2.id = p.1 ∧ x.2.pos = D.ofVec (W.image x.2.wrap p.2)) ∧
      ∀ t ∈ T.tetras st.tri, (T.inner st.tri t).isSome → ∀ r, r < W.particles.length → ∀ p ∈ W.ofRank r, ∀ w,
        (r ≠ own ∨ isPeriodic w) →
        distance (D.toVec (T.centre st.tri t)) (W.image w p.2) < T.radius st.tri t * (1001 / 1000) →
        (r, ⟨p.1, w, D.ofVec (W.image w p.2)⟩) ∈ l := by
  have hE := env_ok D W ho own
  obtain ⟨l, h1, h2, h3⟩ := iterateN_trace h
  have h2' : st.haloes = (l.map fun x => ptype (env D W order own) x.1 x.2).reverse := by
    rw [h2]
    exact List.append_nil _
  have hwant : ∀ (r : ℕ) (i : Image Id (Fin d → WrapType) C), Wanted (env D W order own) r i ↔
      (r ≠ own ∨ isPeriodic i.wrap) := by
    intro r i
    unfold Wanted env
    simp
  have hl : ∀ x ∈ l, x.1 < W.particles.length ∧ (x.1 ≠ own ∨ isPeriodic x.2.wrap) ∧
      ∃ p ∈ W.ofRank x.1, x.2.id = p.1 ∧ x.2.pos = D.ofVec (W.image x.2.wrap p.2) := by
    intro x hx
    obtain ⟨a1, a2, e, a3, a4⟩ := h3 x hx
    have hr := (ho' _).1 a1
    obtain ⟨p, hp, e1, e2, _⟩ := (mem_find R hr a3 _).1 a4
    exact ⟨hr, (hwant _ _).1 a2, p, hp, e1, e2⟩
  refine ⟨l, h1, h2', (haloes_needed hE hT h).1, hl, fun t ht hin r hr p hp w hw hd => ?_⟩
  have hok := circumspheres_search_ok hE hT h hend ht hin
  have hmem := circumspheres_searched hE hT h hend ht hin ((ho' r).2 hr)
    (i := ⟨p.1, w, D.ofVec (W.image w p.2)⟩) ((mem_find R hr hok _).2 ⟨p, hp, rfl, rfl, hd⟩) ((hwant _ _).2 hw)
  rw [h2', List.mem_reverse] at hmem
  obtain ⟨x, hx, e⟩ := List.mem_map.1 hmem
  obtain ⟨b1, b2, q, hq, e1, e2⟩ := hl x hx
  obtain ⟨c1, c2, c3⟩ := ptype_inj hE ((hwant _ _).2 b2) ((hwant _ _).2 hw) e
  obtain ⟨r', i⟩ := x
  obtain ⟨id, w', pos⟩ := i
  dsimp only at *
  subst c1 c2 c3
  obtain rfl := eq_of_id (hids _) hp hq e1
  subst e2
  exact hx

end Verif.Parallel
