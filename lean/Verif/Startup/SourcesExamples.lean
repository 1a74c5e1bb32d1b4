import Verif.Startup.Examples
import Verif.Startup.SourcesProps

/-! # Sources in a run of the program: examples -/

namespace Verif.Startup

open Verif.Geometry Verif.ExchangeData Verif.FileDist Verif.Parallel Verif.Sim Verif.Sources

/-- There is a search for the nearest point. -/
theorem nearest_exists : ∃ nearest, NearestContract squared nearest := by
  classical
  have key : ∀ (ps : List (Vec 3 ℝ)) (p : Vec 3 ℝ), ps ≠ [] → ∃ (i : ℕ) (x : Vec 3 ℝ), ps[i]? = some x ∧
      ∀ y ∈ ps, squared p x ≤ squared p y := by
    intro ps p hne
    have h1 : ∃ x ∈ ps, ∀ y ∈ ps, squared p x ≤ squared p y := by
      obtain ⟨x, hx, hmin⟩ := ps.toFinset.exists_min_image (squared p) (by simpa using hne)
      exact ⟨x, by simpa using hx, fun y hy => hmin y (by simpa using hy)⟩
    obtain ⟨x, hx, hmin⟩ := h1
    obtain ⟨i, hi⟩ := List.getElem?_of_mem hx
    exact ⟨i, x, hi, hmin⟩
  refine ⟨fun ps p => if h : ps = [] then none else some (key ps p h).choose, fun p => by simp, fun ps p hne => ?_⟩
  obtain ⟨x, h1, h2⟩ := (key ps p hne).choose_spec
  exact ⟨_, x, by rw [dif_neg hne], h1, h2⟩

/-- Positions and numbers are vectors, the rate is the mass. -/
def exampleStars : Stars (Vec 3 ℝ) ℝ := ⟨id, fun v => v 0, fun _ _ mass => mass⟩

/-- A star at the position of every second particle; the others are wind. -/
noncomputable def starRow (f : ℕ → Predicates.P3 ℝ) (j : ℕ) : Row (Vec 3 ℝ) := fun c =>
  if c = 0 then dim3.toVec (f j) else if c = 2 then fun _ => if j % 2 = 0 then 1 / 2 else -1 else fun _ => j

/-- The stars are read on three ranks; there are two of the three rows. -/
example (f : ℕ → Predicates.P3 ℝ) : ∃ sources, exampleStars.sources 3 (starColumns [[starRow f 0], [starRow f 1, starRow f 2]]) =
    some sources ∧ sources.flatten.length = 2 := by
  obtain ⟨sources, h1, -, h3⟩ := stars_read (N := 3) exampleStars (by norm_num) [[starRow f 0], [starRow f 1, starRow f 2]]
  refine ⟨sources, h1, ?_⟩
  rw [h3]
  have e0 : (0 : ℝ) < exampleStars.number (starRow f 0 2) := by simp [exampleStars, starRow]
  have e1 : ¬ (0 : ℝ) < exampleStars.number (starRow f 1 2) := by norm_num [exampleStars, starRow]
  have e2 : (0 : ℝ) < exampleStars.number (starRow f 2 2) := by simp [exampleStars, starRow]
  simp [starSources, e0, e1, e2]

/-- C104: the runs of C103, with stars at half of the particles, on 8 and on 16 ranks. -/
example : ∃ (f : ℕ → Predicates.P3 ℝ) (rows rows' : List (List (Comps (Vec 3 ℝ)))) (G G' : ℕ → List (Name Sweep.Id × Cell))
    (sources sources' : List (List (Source (Vec 3 ℝ) ℝ))) (terms terms' : List (List ℝ)) (w0 w w0' w' : Whole ℝ (ℝ × ℝ)),
    Started latticeSetup 2 8 (latticeFiles f [List.range 32768]) rows ∧
    Started latticeSetup 2 16 (latticeFiles f [(List.range 32768).reverse.take 20000, (List.range 32768).reverse.drop 20000]) rows' ∧
    exampleStars.sources 8 (starColumns [(List.range 32768).map (starRow f)]) = some sources ∧
    exampleStars.sources 16 (starColumns [[], ((List.range 32768).map (starRow f)).reverse]) = some sources' ∧
    Simulated (exampleChemistry.physics 10 (termOf terms) rows G) w0 w ∧
    Simulated (exampleChemistry.physics 3 (termOf terms') rows' G') w0' w' ∧
    w.calls = 5 ∧ w'.calls = 5 ∧ w'.time = w.time ∧ (terms.map List.sum).sum = ((starSources exampleStars
      ((List.range 32768).map (starRow f))).map Source.rate).sum ∧
    let field := fun (a : Comps (Vec 3 ℝ)) (s : ℝ × ℝ) (c : ℝ × ℝ) (r : List ℝ) => (a 1, s, c, r)
    ∃ store store' out out', writeSnapshot (outputData 2 field rows G w) 3 (List.range 8) = some store ∧
      writeSnapshot (outputData 2 field rows' G' w') 2 (List.range 16).reverse = some store' ∧
      store.files = some out ∧ store'.files = some out' ∧ out.flatten.length = 32768 ∧ out'.flatten.Perm out.flatten := by
  obtain ⟨f, H⟩ := cubes_exist
  obtain ⟨nearest, hn⟩ := nearest_exists
  have o1 : ([List.range 32768] : List (List ℕ)).flatten.Perm (List.range 32768) := by
    generalize List.range 32768 = l
    simp
  have o2 : ([(List.range 32768).reverse.take 20000, (List.range 32768).reverse.drop 20000] : List (List ℕ)).flatten.Perm
      (List.range 32768) := by
    generalize List.range 32768 = l
    generalize 20000 = n
    simp only [List.flatten_cons, List.flatten_nil, List.append_nil, List.take_append_drop]
    exact List.reverse_perm l
  have hfiles : (latticeFiles f [(List.range 32768).reverse.take 20000, (List.range 32768).reverse.drop 20000]).flatten.Perm
      (latticeFiles f [List.range 32768]).flatten := by
    rw [latticeFiles_flatten, latticeFiles_flatten]
    exact (o2.trans o1.symm).map _
  obtain ⟨rows, G, hs, R⟩ := lattice_started8 H o1
  obtain ⟨rows', G', hs', R'⟩ := lattice_started16 H o2
  have hl := (hs.perm (by norm_num)).2
  have hl' := (hs'.perm (by norm_num)).2
  have hN : (latticeSetup.world ⟨5, 5⟩ rows).particles.length = 8 := by simp [Setup.world, numbered, hl]
  have hN' : (latticeSetup.world ⟨5, 5⟩ rows').particles.length = 16 := by simp [Setup.world, numbered, hl']
  have st1 : [(List.range 32768).map (starRow f)].flatten = (List.range 32768).map (starRow f) := by
    generalize (List.range 32768).map (starRow f) = l
    simp
  have st2 : [[], ((List.range 32768).map (starRow f)).reverse].flatten = ((List.range 32768).map (starRow f)).reverse := by
    generalize ((List.range 32768).map (starRow f)).reverse = l
    simp
  -- every source is at a particle
  have hat : ∀ s ∈ starSources exampleStars ((List.range 32768).map (starRow f)), ∃ j < 32768, s.pos = dim3.toVec (f j) := by
    intro s hs
    obtain ⟨row, hrow, rfl⟩ := List.mem_map.1 hs
    obtain ⟨j, hj, rfl⟩ := List.mem_map.1 (List.mem_filter.1 hrow).1
    exact ⟨j, List.mem_range.1 hj, rfl⟩
  have hrow : ∀ {order : List (List ℕ)} {rows : List (List (Comps (Vec 3 ℝ)))} {N : ℕ}, order.flatten.Perm (List.range 32768) →
      Started latticeSetup 2 N (latticeFiles f order) rows → ∀ j < 32768, comps 2 (latticeRow f j) ∈ rows.flatten := by
    intro order rows N ho hs j hj
    rw [(hs.perm (by norm_num)).1.mem_iff, latticeFiles_flatten]
    exact List.mem_map.2 ⟨_, List.mem_map.2 ⟨j, ho.mem_iff.2 (List.mem_range.2 hj), rfl⟩, rfl⟩
  obtain ⟨sources, hsrc, -, hsf⟩ := stars_read (N := 8) exampleStars (by norm_num) [(List.range 32768).map (starRow f)]
  obtain ⟨sources', hsrc', -, hsf'⟩ := stars_read (N := 16) exampleStars (by norm_num) [[], ((List.range 32768).map (starRow f)).reverse]
  have hstars : [[], ((List.range 32768).map (starRow f)).reverse].flatten.Perm [(List.range 32768).map (starRow f)].flatten := by
    rw [st1, st2]
    exact List.reverse_perm _
  obtain ⟨p1, p2, p3, p4, -⟩ := lattice_hyps H o1
  obtain ⟨p1', p2', p3', p4', -⟩ := lattice_hyps H o2
  have hk : ∀ {order : List (List ℕ)}, order.flatten.Perm (List.range 32768) →
      ∀ s ∈ starSources exampleStars ((List.range 32768).map (starRow f)), ∃ row ∈ (latticeFiles f order).flatten, ∃ k k',
        key latticeSetup.lo latticeSetup.hi s.pos = some k ∧
        key latticeSetup.lo latticeSetup.hi (latticeSetup.place (row 0)) = some k' ∧ k ≤ k' := by
    intro order ho s hs
    obtain ⟨j, hj, e⟩ := hat s hs
    obtain ⟨k, hk, -⟩ := key_some latticeSetup.lo latticeSetup.hi (dim3.toVec (f j))
    refine ⟨latticeRow f j, ?_, k, k, by rw [e]; exact hk, hk, le_refl k⟩
    rw [latticeFiles_flatten]
    exact List.mem_map.2 ⟨j, ho.mem_iff.2 (List.mem_range.2 hj), rfl⟩
  obtain ⟨read, cuts, terms, hd, ht, hsum⟩ := luminosity_kept Decomp.firstMatch_contract (by norm_num) hs p2 p4 (ready_nonempty R) hn hsrc
    (by rw [st1]; exact hk o1)
  obtain ⟨read', cuts', terms', hd', ht', -⟩ := luminosity_kept Decomp.firstMatch_contract (by norm_num) hs' p2' p4' (ready_nonempty R') hn
    hsrc' (by
      rw [st2]
      intro s hs
      refine hk o2 s ?_
      unfold starSources at hs ⊢
      exact (((List.reverse_perm _).filter _).map _).mem_iff.1 hs)
  obtain ⟨w0, h0⟩ := simulation_starts (R := ℝ) (numLevels := 1) R (by norm_num) (by norm_num) 1
    (fun u => exampleChemistry.init (rowOf rows u) (sizesOf G u))
  obtain ⟨w, hw, hc⟩ := simulation_exists (Ph := exampleChemistry.physics 10 (termOf terms) rows G) R (by omega) (by norm_num) (by norm_num) h0 5
  obtain ⟨w0', h0'⟩ := simulation_starts (R := ℝ) (numLevels := 1) R' (by norm_num) (by norm_num) 1
    (fun u => exampleChemistry.init (rowOf rows' u) (sizesOf G' u))
  obtain ⟨w', hw', hc'⟩ := simulation_exists (Ph := exampleChemistry.physics 3 (termOf terms') rows' G') R' (by omega) (by norm_num)
    (by norm_num) h0' 5
  rw [hN] at h0
  rw [hN'] at h0'
  obtain ⟨q0, q⟩ := program_output_sources (by norm_num) hfiles hs hs' R R' (by norm_num) (by norm_num) hstars hn hn hsrc hsrc' hd hd'
    (by
      rw [st1]
      intro s hs2
      obtain ⟨j, hj, e⟩ := hat s hs2
      exact ⟨⟨_, settled_at_particle (by norm_num) hs hd (hrow o1 hs j hj) (by rw [position_lattice, e])⟩,
        ⟨_, settled_at_particle (by norm_num) hs' hd' (hrow o2 hs' j hj) (by rw [position_lattice, e])⟩⟩)
    ht ht' h0 h0' hw hw' (hc'.trans hc.symm)
  refine ⟨f, rows, rows', G, G', sources, sources', terms, terms', w0, w, w0', w', hs, hs', hsrc, hsrc', hw, hw', hc, hc', q0, ?_, ?_⟩
  · rw [hsum, st1]
  · obtain ⟨store, store', out, out', q1, q2, q3, q4, q5, q6⟩ := q _ (fun a s c r => (a 1, s, c, r)) 3 2 (List.range 8)
      (List.range 16).reverse (by norm_num) (by norm_num) (List.Perm.refl _) (List.reverse_perm _)
    refine ⟨store, store', out, out', q1, q2, q3, q4, ?_, q6⟩
    rw [q5]
    exact p1

/-- **C104, limit.**  A source which is not settled: it is between two particles, closer to the one which has the larger key.
On one rank that particle gets its rate, on two ranks the other one. -/
theorem source_cell_depends_on_ranks :
    Sources.deposit bruteNearest (fun _ => 0) [[⟨4, (30 : Int)⟩]] [([0, 5], [0, 0])] = some [[0, 30]] ∧
    Sources.deposit bruteNearest (fun p => if p < 5 then 0 else 1) [[⟨4, (30 : Int)⟩], []] [([0], [0]), ([5], [0])] =
      some [[30], [0]] := by decide

end Verif.Startup
