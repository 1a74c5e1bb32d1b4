import Verif.Startup.RunLemmas

/-!
# C103: the output of the program depends only on the particles in the input files
-/

namespace Verif.Startup

open Verif.Geometry Verif.ExchangeData Verif.FileDist Verif.Parallel Verif.Sim

variable {V R C : Type} [AddCommGroup R] [Module ℝ R] {S : Setup V} {m N N' : ℕ} {files files' : List (List (Row V))}
  {rows rows' : List (List (Comps V))} {cfg cfg' : Quadtree.Config} {eps' : ℝ} {G G' : ℕ → List (Name Sweep.Id × Cell)}
  {M : Chemistry V R C} {batch batch' : ℕ} {source source' : Sweep.Id → R} {maxTimestep : ℝ} {w0 w w0' w' : Whole R C}

/-- **The whole program.**  Two runs read files with the same rows, which are distributed to the files in different ways and
orders, on `N` and on `N'` ranks; they exchange the particles, build their grids without periodic boundaries, and simulate with
one time step for all particles, with any schedules.  If the sources are at the same particles, then after the same number of
calls both runs are at the same time, and the snapshots which they write, to any numbers of files, have the same rows, apart
from their order. -/
theorem program_output [Inhabited V] (hm : 0 < m) (hfiles : files'.flatten.Perm files.flatten)
    (hs : Started S m N files rows) (hs' : Started S m N' files' rows')
    (H : Ready eps' false (S.world cfg rows) G) (H' : Ready eps' false (S.world cfg' rows') G') (hN : 0 < N)
    (hsource : ∀ u u', SamePlace (S.world cfg rows) (S.world cfg' rows') u u' → source' u' = source u)
    (h0 : firstState maxTimestep 1 N G (fun u => M.init (rowOf rows u) (sizesOf G u)) = some w0)
    (h0' : firstState maxTimestep 1 N' G' (fun u => M.init (rowOf rows' u) (sizesOf G' u)) = some w0')
    (h : Simulated (M.physics batch source rows G) w0 w) (h' : Simulated (M.physics batch' source' rows' G') w0' w')
    (hcalls : w'.calls = w.calls) :
    w'.time = w.time ∧
    ∀ (B : Type) (field : Comps V → ℝ × ℝ → C → List R → B) (numFiles numFiles' : ℕ) (order order' : List ℕ),
      0 < numFiles → 0 < numFiles' → order.Perm (List.range N) → order'.Perm (List.range N') →
      ∃ store store' out out', writeSnapshot (outputData M.numDirs field rows G w) numFiles order = some store ∧
        writeSnapshot (outputData M.numDirs field rows' G' w') numFiles' order' = some store' ∧
        store.files = some out ∧ store'.files = some out' ∧
        out.flatten.length = files.flatten.length ∧ out'.flatten.Perm out.flatten := by
  obtain ⟨hp1, hl1⟩ := hs.perm hm
  obtain ⟨hp2, hl2⟩ := hs'.perm hm
  have hp : rows'.flatten.Perm rows.flatten := hp2.trans ((hfiles.map _).trans hp1.symm)
  have E := sameParticles (S := S) (cfg := cfg) (cfg' := cfg') hp
  have hrow : ∀ u u', SamePlace (S.world cfg rows) (S.world cfg' rows') u u' → rowOf rows' u' = rowOf rows u := by
    intro u u' hu
    obtain ⟨a, ha, ha'⟩ := samePlace_row H' hp hu
    rw [ha.row, ha'.row]
  have hsize : ∀ u u', SamePlace (S.world cfg rows) (S.world cfg' rows') u u' → sizesOf G' u' = sizesOf G u :=
    fun u u' hu => samePlace_sizes H H' hp hu
  have hlen : (S.world cfg rows).particles.length = N := by simp [Setup.world, numbered, hl1]
  have hlen' : (S.world cfg' rows').particles.length = N' := by simp [Setup.world, numbered, hl2]
  have key := simulation_distribution_single (Ph := M.physics batch source rows G) (Ph' := M.physics batch' source' rows' G')
    (maxTimestep := maxTimestep) H H' (by rw [hlen]; exact hN) E
    { numDirs := rfl, dir := rfl, rotate := rfl, makePositive := rfl, timescale := rfl, safety := rfl
      source := hsource
      absorb := fun u u' hu c => by
        show M.absorb c (rowOf rows' u') (sizesOf G' u') = M.absorb c (rowOf rows u) (sizesOf G u)
        rw [hrow u u' hu, hsize u u' hu]
      react := fun u u' hu dt => by
        show M.react dt (rowOf rows' u') (sizesOf G' u') = M.react dt (rowOf rows u) (sizesOf G u)
        rw [hrow u u' hu, hsize u u' hu] }
    (chem := fun u => M.init (rowOf rows u) (sizesOf G u)) (chem' := fun u => M.init (rowOf rows' u) (sizesOf G' u))
    (fun u u' hu => by rw [hrow u u' hu, hsize u u' hu]) (by rw [hlen]; exact h0) (by rw [hlen']; exact h0') h h' hcalls
  refine ⟨key.1, fun B field numFiles numFiles' order order' hf hf' ho ho' => ?_⟩
  have hdl : (outputData M.numDirs field rows G w).length = N := by simp [outputData, hl1]
  have hdl' : (outputData M.numDirs field rows' G' w').length = N' := by simp [outputData, hl2]
  obtain ⟨store, out, -, s1, s2, -⟩ := snapshot_round_trip (outputData M.numDirs field rows G w) numFiles hf order
    (by rw [hdl]; exact ho) 1 one_pos 1 one_pos
  obtain ⟨store', out', -, s1', s2', -⟩ := snapshot_round_trip (outputData M.numDirs field rows' G' w') numFiles' hf' order'
    (by rw [hdl']; exact ho') 1 one_pos 1 one_pos
  have hout := files_flatten hf (by rw [hdl]; exact ho) s1 s2
  have hout' := files_flatten hf' (by rw [hdl']; exact ho') s1' s2'
  obtain ⟨g, g1, g2⟩ := output_flatten M.numDirs field H w
  obtain ⟨g', g1', g2'⟩ := output_flatten M.numDirs field H' w'
  refine ⟨store, store', out, out', s1, s1', s2, s2', ?_, ?_⟩
  · rw [hout]
    have := congrArg List.length g1
    rw [List.length_map, List.length_map] at this
    rw [this, hp1.length_eq, List.length_map]
  · rw [hout, hout']
    refine (List.map_perm_map_iff (Option.some_injective B)).1 ?_
    rw [g1, g1']
    have hgg : rows'.flatten.map g' = rows'.flatten.map g := by
      refine List.map_congr_left fun a ha => ?_
      obtain ⟨u', hu'⟩ := exists_at ha
      obtain ⟨u, hu⟩ := exists_at (hp.mem_iff.1 ha)
      have hsp : SamePlace (S.world cfg rows) (S.world cfg' rows') u u' := samePlace_of hu hu'
      obtain ⟨-, k2, k3⟩ := key.2 u u' hsp
      rw [g2 u a hu, g2' u' a hu', hsize u u' hsp, k3]
      congr 2
      exact List.map_congr_left fun d hd => (k2 d (List.mem_range.1 hd)).1
    rw [hgg]
    exact hp.map g

end Verif.Startup
