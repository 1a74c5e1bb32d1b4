# Formal model of subsweep: design

Target: `/repo` (Rust, Tehforsch/subsweep at the pinned commit). The Lean project is
`/verif/lean`; one directory per area under `lean/Verif/`, all imported from `lean/Verif.lean`.
`properties.jsonl` states the properties, `MANIFEST.json` names the theorems which prove them,
`seeded/LOG.jsonl` records the bugs which were seeded into copies of the model to test the theorems.

## Conventions

* Every area has model files (definitions citing file and lines of `/repo/src`), helper lemmas
  (`*Lemmas.lean`), where needed a specification file (`*Spec.lean`), and property files
  (`*Props.lean`) with the theorems listed in `MANIFEST.json` and `example`s which meet their hypotheses.
* Property statements use only the model's entry points plus small separate specifications
  written with core/Mathlib notions (`List`, `Finset.sum`, `Matrix.det`, ...).
* `f64` is modelled by an ordered field (ℚ, ℝ, or an arbitrary linearly ordered field). Rounding is outside
  the model, except in C99-C101, where every operation is rounded to binary64 (`Verif/Rounding/Binary64.lean`). NaN and infinities are outside the model except where a theorem is about them: there they are
  explicit values (`none`, `⊤`). `u64/u128/usize` are `Nat`; where an overflow or an underflow matters it is
  an explicit error value or an explicit theorem.
* Panics (`unwrap`, `assert!`, index out of bounds, arithmetic underflow, `todo!()`) are `none` /
  `Except.error` / a constructor `panic` of an outcome type.
* Loops which need not terminate take fuel; running out of fuel is a separate outcome (`running`),
  and termination is a theorem that some fuel suffices.
* MPI is modelled as one FIFO queue per ordered pair of ranks and communicator, with a
  nondeterministic scheduler; collectives are functions of the tuple of all ranks' arguments.
* Hash maps/sets are modelled as functions or duplicate-free lists; theorems never depend on
  iteration order unless the order is quantified over.

## Trusted base

* Lean 4.33 kernel and Mathlib as installed.
* The axioms `propext`, `Classical.choice`, `Quot.sound`. `lean/Verif/Audit.lean` prints the axioms of every
  theorem in the manifest during the build. No own axioms, no `sorry`, no `native_decide`, no `bv_decide`;
  finite facts are checked by `decide`/`decide +kernel`, i.e. by the kernel.
* The reading of the Rust source which the comments of the model definitions document. There is no mechanical
  connection between the Rust source and the model.
* Contracts of libraries, which are assumed and not proved:
  * MPI: messages between two ranks on one communicator are not lost, duplicated or reordered; collectives
    deliver what the standard says; standard-mode sends of empty messages are buffered (C10; the theorem
    `unbuffered_exchange_deadlocks` shows what happens without it).
  * Fairness (C30 only): every rank keeps running, messages are found eventually, completed sends are reported
    eventually.
  * `generational_arena`: `insert` returns an index never handed out before (C51–C56, C58).
  * `BinaryHeap`/`pop`: returns some element of the heap, which one is quantified over (C53, C54).
  * `kiddo` k-d tree: returns a nearest stored point (C39; the tree of C19 only as "some cell").
  * `slice::binary_search_by`: documented contract (C60).
  * bevy: `Entity` bits round trip, stages run in the declared order, queries visit every entity once.
  * `diman`: quantities are numbers with a dimension; `is_positive`/`is_negative` are strict comparisons
    with zero.
* For each contract which is a hypothesis of a theorem an `example` shows an implementation which meets it.

## Per property

| Property | Status | Modelled | Method | Limits |
|---|---|---|---|---|
| C01 Input entries are partitioned between ranks | proved | `get_regions_from` loop, rank assignment, input wrapper, with panics | induction over the loop; refinement to the flat list of all (file, row) pairs | — |
| C02 Output regions tile the output files and match the created datasets | proved | output wrapper, created datasets | composition with C01 | — |
| C03 Snapshot write/read round trip over any numbers of files and ranks | proved | `write_dataset_to_files`, `read_region_chunked`, `get_chunk_sizes` on arrays of rows | composition of C01/C02 with slice lemmas | File I/O is a map from (file,row) to value; HDF5 encoding, unit conversion and the unordered read_dir listing are not modelled. |
| C04 Serial snapshot output is mutually exclusive and cannot deadlock | proved | per-rank programs as lists of barrier/open/close actions with a barrier semantics | invariant over all interleavings, decreasing measure | Files are abstract open/write/close actions; Bevy's stage order is taken from the before/after constraints. |
| C05 Snapshot timer | proved | `Timer` as a state machine driven by (time, stop) inputs | invariant over histories | Exact arithmetic for times. |
| C06 Parameter overrides act like nested assignments | partial | yaml `Value` trees with ordered mappings; override functions | induction on key paths (lens laws) | The claim that a list of overrides acts like applying them in order is false when one of them replaces the whole section (later ones are ignored, section_override_ignores_later); it is proved for all other lists. |
| C07 Globally equal number of exchange chunks | proved | chunk arithmetic of the exchange communicators | list arithmetic | — |
| C08 Gather of variable-length data | proved | displacement prefix sums of `all_gather_varcount` | list arithmetic | MPI i32 count overflow (2^31 elements) not modelled. |
| C09 Data-by-rank container behaves as a map over the other ranks | proved | `Vec<Option<T>>` container | refinement to a partial function, over operation lists | — |
| C10 All-to-all exchange delivers exactly what was sent | proved | ranks × FIFO channels, programs of `exchange_all` | induction over schedules, deadlock freedom, termination measure | Under the MPI assumption that empty standard-mode sends are buffered; without it the exchange deadlocks (unbuffered_exchange_deadlocks). |
| C11 Two-dimensional Hilbert key is a bijection | proved | 2d key function bit by bit, tables verbatim | state automaton on the top bits, table facts by `decide`, induction on bits | — |
| C12 Three-dimensional Hilbert key is a bijection | proved | 3d key function bit by bit, tables verbatim | the same | — |
| C13 Hilbert curve continuity | proved | both key functions | the same automaton, induction on bits for neighbouring keys | — |
| C14 Every particle is assigned to an existing rank | proved | `binary_search`, `find_cut`, `find_segments`, `get_owning_rank` | bisection invariant; sortedness of cuts | for distinct keys and no empty rank; what happens otherwise is proved as a witness |
| C15 All ranks compute the same decomposition | proved | all ranks' calls with collectives | equality of the results by induction over the steps | — |
| C16 Load balance of the decomposition | proved | counters and `find_cut` | bisection invariant with the tolerance | — |
| C17 Domain exchange conserves particles and numbers them uniquely | proved | outgoing entity sets, exchange, ids | multiset/permutation reasoning | — |
| C18 Bounding extents | proved | extents, centre, contains, split, hull | order arithmetic over an ordered field | exact arithmetic |
| C19 Every photon source is deposited exactly once | proved | deposit loop on all ranks | exactly one rank matches; witness beyond the last cut | rates as elements of a commutative monoid; the k-d tree only through its contract |
| C20 Tree construction stores every particle exactly once in the right place | proved | tree insertion, subdivision | structural induction | exact arithmetic |
| C21 Radius search is exact | proved | `TreeIter`, distance of box and point, radius search on all ranks | structural induction; pruning never loses a hit | exact arithmetic |
| C22 Periodic wrapping | proved | `periodic_wrap`, `iter_periodic_images` | `Int.floor` lemmas | exact arithmetic |
| C23 Periodic distance is the minimal image distance | proved | minimal image | case analysis over shifts | exact arithmetic |
| C24 Periodic image of a found neighbour is found again | proved | search with wrap types, inverse wraps | the same | exact arithmetic; a radius above half the box length can make the assertion fail |
| C25 Hierarchical time step schedule | proved | bit schedule of active levels | induction on number of levels; counting lemma | Times are real numbers instead of f64. |
| C26 Chosen level respects the desired time step | proved | level choice | logarithm lemmas over ℝ | log2/ceil over the reals; f64 rounding of log2 not modelled. |
| C27 Allowed levels grow consistently with elapsed time | proved | state advance | arithmetic on the step counter | — |
| C28 Active cell list agrees with the levels | proved | active list bins | invariant over operation histories | — |
| C29 Every active cell is solved exactly once per direction and after its upwind neighbours | proved | distributed sweep transition system (all ranks, queues, tasks) | invariant over all interleavings | all ranks as interleaved processes, arbitrary choice among ready tasks |
| C30 Sweeps terminate on acyclic grids | proved | the same system with fairness | decreasing measure, well-founded upwind order | termination of every fair execution; fairness = ranks keep running, messages are found eventually, completed sends are reported eventually |
| C31 Sweep result does not depend on the schedule | proved | the same system | confluence: the flux of a site is a function of the upwind ones | exact arithmetic; for grids without periodic connections, with a counterexample for periodic ones |
| C32 Expected and sent message counts agree | proved | expected and sent counts of the same system | counting invariant | — |
| C33 Photon conservation in redistribution | proved | weights of `solve_task` | finite sums | exact arithmetic |
| C34 Incremental updates equal full recomputation | proved | rates kept between steps, active levels | simulation argument; counterexample on two ranks | exact arithmetic; the counterexample shows that it fails on several ranks with inactive cells |
| C35 Sweep message buffers lose nothing | proved | buffered sweep communicator with pending sends | invariant over operation histories | MPI channels modelled as FIFO queues |
| C36 Direction rotation | partial | rotation matrix, kernel, `remap` | `ring` identities; the remap claim is false, negation + partial | Rotations keep lengths and angles (proved). The remapping half is false of the code: remap overwrites instead of accumulating, so rates are lost (proved negation); what it does do is proved. |
| C37 Cartesian grid neighbour relations | proved | integer positions, neighbour function, faces, volumes | `Int.emod` lemmas | Three-dimensional build, exact arithmetic. Also: cell volumes do not fill the box when the cell size does not divide it. |
| C38 Grid read from file | proved | id cache exchange, connection filter on all ranks | set reasoning | All ranks, any chunking; reading the datasets from HDF5 is not modelled. Periodic connections panic in a periodic simulation (todo!()), proved. |
| C39 Remapping uses the globally nearest particle | proved | nearest-reply merge over all ranks, in chunks | minimum over lists | The k-d tree is a parameter with the contract NearestContract (shown satisfiable by a linear scan). Distances are Euclidean without periodicity, as in the code. Exact field arithmetic. |
| C40 Absorption never creates photons | proved | absorption with the real exponential | real analysis | Real arithmetic with the real exponential. |
| C41 Chemistry sub-stepping integrates exactly the requested time | proved | recursive sub-stepping | induction on depth | The single-step change functions are arbitrary parameters, exact field arithmetic. Also: a convergence failure leaves the state advanced part of the way. |
| C42 Ionised fraction stays in its valid range | proved | clamps and updates of the ionised fraction | order arithmetic | The clamp panics when the floor exceeds 1-1e-10, which is explicit in the statement. Also: with cooling prevented a fully neutral cell never evolves. |
| C43 Time scale bookkeeping | proved | time scale minimum | lattice lemmas | Times are an ordered field with a top element for infinity. |
| C44 Scale factor search | proved | bisection for the scale factor, NaN explicit | bisection invariant | Exact arithmetic; NaN explicit. Also: runs past scale factor one and universes without dark energy panic. |
| C45 Temperature and internal energy conversions are mutually inverse | proved | conversions | field arithmetic | Real arithmetic. |
| C46 Hand-written determinants | proved | determinants written out in the code | `ring`, equality with `Matrix.det` | Equality with Mathlib's Matrix.det over any commutative ring. |
| C47 Linear system solvers | proved | Gaussian elimination of any size | row operation invariants | Any size M over any ordered field (exact for the rational path; f64 rounding not modelled). Additionally: singular systems divide by zero. |
| C48 In-circle and in-sphere predicates | proved | in-circle/in-sphere, circumcentres, error bound and exact path | `ring`/`linear_combination` | Over any ordered field; f64 rounding not modelled. |
| C49 Point-in-simplex tests | proved | containment and line intersection | Cramer's rule, barycentric coordinates | Over any ordered field, the exact (rational) path; boundary cases panic. |
| C50 Initial simplex contains all points | proved | initial simplices | order arithmetic | For every extent with positive side lengths. |
| C51 Two-dimensional triangulation stays a consistent mesh | proved | triangulation as finite maps with the code's split/flip (2d) | local-surgery invariants over all operation histories | All histories of splits and flips; Consistent (Delaunay/Spec.lean) spells out the mesh conditions. |
| C52 Three-dimensional triangulation stays a consistent mesh | proved | triangulation as finite maps with the code's split/flips (3d) | the same | All histories of 1-to-4 splits, 2-to-3 and 3-to-2 flips, whatever the geometric tests decide. |
| C53 Insertion bookkeeping never follows a dangling index | proved | complete insertion loop with panics | loop invariant, potential function for termination | The complete insertion loop (point location, split, flip checks) for any geometry and heap order; the remembered tetra exists, panics only for the listed geometric reasons, termination bound. |
| C54 Point location is sound and complete | proved | best-first search with arbitrary priorities, scan | loop invariant | Any mesh with live links, any containment test, any heap order. The heap ordered by distances is C123. |
| C55 Each halo is sent once | proved | halo cache over a sequence of searches | invariant over histories | For every sequence of searches: what is sent to a rank has no repeated (id, wrap), is exactly what was found, and the cache remembers it. |
| C56 Halo search grows to the full circumsphere and stops | proved | halo iteration on one rank against an environment | closed form of radii, induction over rounds | Closed form of the search radius, termination, completeness at the end; instantiated with the model of the Delaunay triangulation.  The positions found by another rank's radius search are a parameter of these theorems (C84 to C87 instantiate it); a search which panics (C23) makes the iteration panic. |
| C57 Cyclic arrangement and periodic windows | proved | `periodic_windows_*`, `arrange_cyclic_by` | list induction | Any list and relation. The documented precondition (every item related to two others) is refuted as insufficient by two_cycles_panic. |
| C58 Voronoi cells of neighbours agree | proved | cells, faces, polygons, volumes, on any consistent mesh | cycles of simplices around a point/edge are unique; bisector identities | Any consistent mesh whose simplices have different vertices, any cells which are constructed without a panic. polygon_area_depends_on_start refutes the independence for polygons which are not convex. |
| C59 Wire encodings round trip | proved | MPI encodings of wrap types, options, entities, node indices | case analysis | node_index_round_trip also states exactly which node index does not survive. |
| C60 Stellar source table lookup | proved | lookup on sorted bins + the real bins | interval lemmas | The binary search of the standard library is a parameter with its documented contract (shown satisfiable). Exact arithmetic. |
| C61 Plugins are built once | proved | `add_plugin` with arbitrary hooks | invariant over sequences | Hooks are arbitrary code on the world which may add plugins. Also: a plugin first added while it should not be built never gets its once-part. |
| C62 Searches reach every rank that can answer them | proved | search requests to other ranks, extents of ranks | geometry of intervals | exact arithmetic; needs every rank to have particles, with a counterexample otherwise |
| C63 Every absorbed photon ionises one atom | proved | absorbed and ionising photons of `solve_task` and the rate | finite sums | Real arithmetic; equality when no direction is cut off by the rate threshold, inequality in general. |
| C64 Hand-written derivatives of the rate coefficients are exact | proved | rate coefficients and their hand-written derivatives | `HasDerivAt` | Real arithmetic. |
| C65 The implicit chemistry update moves in the right direction | proved | implicit update formulas | order arithmetic | Real arithmetic. |
| C66 Datasets keep their physical values across reading and writing | proved | dimension exponents and scale factors of datasets | real powers | Real arithmetic, unbounded exponents; HDF5 attribute access itself is not modelled. Also: datasets with cosmological scaling written by the code cannot be read back. |
| C67 The triangulation of the plane is the Delaunay triangulation | proved | `construct` in the plane: sorting, initial triangle, `remap_point`, insertion loop, exact predicates | invariant of the flip loop (valid triangulation, all edges locally Delaunay except at the new point), local Delaunay implies global by a walk with decreasing power, uniqueness by comparing powers | Exact arithmetic. long_box_not_delaunay shows a box of sides 4 and 1 in which the result is not the Delaunay triangulation of the given coordinates. |
| C68 The triangles tile the initial triangle and are connected | proved | the same | invariant `Valid`: every edge is shared or on the hull, walking towards a point | Exact arithmetic, plane. |
| C69 Points in general position are always triangulated | proved | the same | every panic implies three collinear or four cocircular points | Exact arithmetic, plane; 8n+5 rounds suffice for every loop. |
| C70 The triangulation does not depend on the order of the points | proved | the same | corollary of C67 | Exact arithmetic, plane. |
| C71 Plane Voronoi cells are the regions of nearest points | proved | the construction of C67 followed by the cells of C57/C58 | the triangles around a point form one cycle (geometric fan argument), consecutive circumcentres lie on the bisector of the common neighbour, a point nearer than all neighbours is nearer than all points (walk through the triangulation); the initial vertices are further from the box than its diagonal | Real arithmetic, plane, square box (other boxes: Verif.Delaunay.long_box_not_delaunay). |
| C72 Plane Voronoi faces lead exactly to the Delaunay neighbours | proved | the same | the cycle of triangles around a point is found by the arrangement, so that nothing panics; connections by C58 | Real arithmetic, plane, square box. |
| C73 The mesh of tetrahedra is the Delaunay mesh | proved | complete insertion loop in space with exact predicates, 2-to-3 and 3-to-2 flips | invariant of the flip loop: valid mesh, the union of the tetrahedra at the new point is a star-shaped cavity bounded by faces of the old mesh, tetrahedra outside have empty spheres, every face of the cavity which is not locally Delaunay is still on the stack; when a flip is not possible another pending face can be flipped (power of the new point, edges of the star); local Delaunay implies global by walking | Exact arithmetic; intersect3 uses the exact test of the code with its tolerance parameter eps > 0. long_box_not_delaunay3 shows a box of sides 4, 1, 1 in which the result is not the Delaunay mesh of the given coordinates. |
| C74 The tetrahedra tile the initial tetrahedron and are connected | proved | the same | invariant `Space`: every face is shared or on the hull; walking towards a point | Exact arithmetic, space. |
| C75 Points in space in general position are always triangulated | proved | the same | every panic implies four coplanar or five cospherical points or a point outside; termination by C53 | Exact arithmetic, space; 5(n+4)^4+1 rounds suffice for every loop. |
| C76 The mesh of tetrahedra does not depend on the order of the points | proved | the same | corollary of C73 | Exact arithmetic, space. |
| C77 Voronoi cells in space are the regions of nearest points | proved | the construction of C73 followed by the cells of C58; the box including the periodic images | the tetrahedra around an edge form one cycle (walk around the edge), a place nearer than all neighbours is nearer than all points (walk through the mesh); the initial vertices are further from the box of the simulation than its diagonal | Real arithmetic, space, cubic box (other boxes: Verif.Delaunay.long_box_not_delaunay3). corner_not_covered shows that the claim about the box is false without including_periodic_images. |
| C78 Voronoi faces in space lead exactly to the Delaunay neighbours | proved | the same | the cycle of tetrahedra around an edge is found by the arrangement, so that nothing panics; connections by C58 | Real arithmetic, space, cubic box. |
| C79 The volume of a plane Voronoi cell is the area of the region of nearest points | proved | the same | the convex polygon is cut into triangles at the given point, the area of a triangle from the volume of the standard simplex and affine maps, boundaries are null sets | Real arithmetic, plane, square box; Lebesgue measure of Mathlib. |
| C80 The volume of a Voronoi cell in space is the volume of the region of nearest points | proved | the same in space | the convex polyhedron is cut into tetrahedra with the given point, a point in the middle of each face and the sides of the faces; volume of a tetrahedron from the standard simplex and affine maps; the pieces of a face add up to the pyramid of the code | Real arithmetic, space, cubic box; Lebesgue measure of Mathlib. |
| C81 Neighbouring cells of a construction agree on their common face | proved | the constructions followed by the cells | combinatorial agreement of C57/C58; the polygons are traversed in different directions from different starting points, the area of a convex polygon does not depend on this | Real arithmetic, square or cubic box. |
| C82 The surface of a Voronoi cell is closed | proved | the same; `total_effective_area` of the sweep | the vector area of a face is the sum over its sides, every side occurs in two faces with opposite directions; downwind faces from the tetrahedra around a point covering all directions | Real arithmetic, square or cubic box. |
| C83 The size of a cell is the radius of a ball with the volume of the region of nearest points | proved | `size` of a cell | C79, C80 | Real arithmetic, square or cubic box; Lebesgue measure of Mathlib. |
| C84 The cells built by several ranks are the regions of nearest particles of all ranks and their periodic images | proved | `construct_from_iter` on one rank of any number of ranks (local construction, halo iteration with the searches answered by the quadtrees of all ranks, names), `sweep_grid`, the cells added by `construct_grid_system` | the final mesh is the Delaunay mesh of the points inserted (C73); by C56 the circumsphere of every tetrahedron at an own particle was searched completely, so that it contains no particle and no image of any rank; images more than one box length away and the vertices of the initial tetrahedron cannot be closer (box is a cube); common faces from the tetrahedra around an edge | Real arithmetic, space, cubic box; the theorems speak about every rank on which the construction ends (that it ends: C88). The searches of all ranks are those of the quadtree, the decomposition and the halo caches. |
| C85 The volumes of the cells of all ranks add up to the volume of the box | proved | the same; `volume`, `size` | C80 for the mesh of the rank; tiling of the periodic space: translates of the regions are disjoint, cover everything up to bisector planes (null sets), and are cut along the images of the box | Real arithmetic, space, cubic box; the theorems speak about every rank on which the construction ends (that it ends: C88). The searches of all ranks are those of the quadtree, the decomposition and the halo caches. |
| C86 Two ranks agree on the face between their cells | proved | the same on two ranks | the tetrahedra around an edge between an own particle and an image are determined by the particles of all ranks (no tie-breaking: a completed run has no five cospherical points there), so that both meshes contain translates of the same tetrahedra; area and normal are invariant under translation | Real arithmetic, space, cubic box; the theorems speak about every rank on which the construction ends (that it ends: C88). The searches of all ranks are those of the quadtree, the decomposition and the halo caches. |
| C87 Halo particles are the remote neighbours | proved | the branches of `construct_grid_system` with `add_halo` | a point is connected to a local point exactly if the regions have a common face (C84), symmetric in the mesh | Real arithmetic, space, cubic box; the theorems speak about every rank on which the construction ends (that it ends: C88). The searches of all ranks are those of the quadtree, the decomposition and the halo caches. |
| C88 The parallel construction of the grid ends | proved | the same; one rank, with the searches answered by all ranks | the circumsphere of a tetra of an own particle which has been searched lies within the cell bound, so that the search radius never exceeds M; a search finds every particle in its sphere; every step decides a tetra or inserts one of finitely many particles and images, which are in general position; at most finitely many insertions, after the last one all tetras are decided | Real arithmetic, space, cubic box. General position is a hypothesis; it fails if the domain of a rank is so large that a particle and two of its images on one line are needed (three periodic images and a fourth point are in a plane), which happens for a single rank with few particles. |
| C89 Levels known across ranks | proved | ids, start of the sweep from the grid of every rank, `get_level`, `update_timestep_levels`, `communicate_levels` on all ranks | every neighbour relation is symmetric (C84, C87), so that a rank which sees a cell gets its level from the owner; invariant over the updates | Real arithmetic, space, cubic box with no particle on its upper faces; the choice of levels from the time scales is arbitrary here (C25-C27). Particle indices are not bounded by u32. |
| C90 Sweep on the constructed grid | proved | the grid of C84-C88 put into the transition system of C29-C32 | well-formedness of the sweep grid from C84 and C86; the position along a direction orders the cells, so that there are no cycles; then C29-C33 | Composition of C84-C89 with C29-C34; one sweep at one level. Real arithmetic, space, cubic box. |
| C91 Deadlock check | proved | `check_deadlock` on all ranks with its collective calls | set reasoning; the minimal cell along a direction is an initial task | The collective calls of the check are modelled as lists which have to match between ranks. |
| C92 Consecutive sweeps without a barrier | proved | loop of `run_sweeps` with `single_sweep` and `update_chemistry` on all ranks, each in its own sweep, one network | one state per sweep such that the network is the concatenation of the networks of the sweeps and every rank is in the state of its sweep; messages which a rank takes belong to its sweep since it stops receiving when it has got all of them; then C29-C32 for every sweep, termination by induction over the sweeps | The level updates at the end of run_sweeps are collective and not part of the loop; the deadlock check is off. |
| C93 Whole simulation | proved | `run_sweep_system` and `run_sweeps` called repeatedly on the grid of C84-C88, with the counts of cells, the sweeps of C92, the schedule of C25-C27, the levels of C89 and the rotation of directions as a function of the rates of a cell | invariant over the calls; the counts are positive exactly for levels with an active cell; the sweeps by C92; the number of updates of a cell by induction over the sweeps, the time by C25; uniqueness by induction over the calls | Real arithmetic, space, cubic box. The chemistry, the rotation and the time scales are arbitrary functions of the cell. The uniqueness needs a grid without periodic boundaries (a periodic sweep depends on the schedule, see C31). |
| C94 Main loop and final time | proved | the stages of one frame (start, sweep, output, exit) with `stop_simulation_system`, `exit_system`, the snapshot timer of C05 and the first call of `run_sweep_system`, around the simulation of C93 | invariant over the frames; the times by C25-C27, the end by the growth of the time | One frame is the sequence of stages of stages.rs; the writing of the files is C01-C05. Disagreement: one further time step is made after the final time is reached. |
| C95 Ionization time | proved | the loop over all particles at the end of `run_sweep_system` | induction over the frames | Real arithmetic; the fraction is any function of the state of the cell. |
| C96 Time series | proved | `compute_time_series_system` and `num_particles_at_timestep_levels_system` on the components of the particles of all ranks | sums over ranks as sums over the concatenated list; convexity; the volume of the box by C86; the counts by the invariant of the active lists (C28) in every state of C93 | Real arithmetic (the sums do not depend on their order). Disagreements: the counts are cumulative, the rates are silently zero if the component is absent. |
| C97 Grid independent of the distribution | proved | two worlds with the same particles and their grids (C84); the faces are compared with the particle and the image behind them | Delaunay tetrahedra at a particle depend on the set of sites only (as in C84), hence the wedges and faces (as in C86); regions as sets | Real arithmetic, space, cubic box, particles not on its upper faces. |
| C98 Simulation independent of the distribution | proved | two simulations of C93 on two worlds of C97; witness: two cells on one and on two ranks | the shares of the photons agree by C97, both overlapping executions are waiting ones (C92) whose sweeps solve the same equations (C31), induction over the calls; the witness is evaluated | Real arithmetic, so that sums do not depend on the order in which contributions arrive. Disagreement with what one would expect: with several levels the results depend on the ranks. |
| C99 Containment in f64 | proved | `contains` of a tetrahedron, `Sign::try_from_val`, `remap_point`, with every operation rounded to binary64 (`fl`, round half to even, 53 bits, gradual underflow) | differences of coordinates in [1,2] are exact; the normal and the dot product are off by at most 14/2^54 < 1e-15 in absolute terms, so that an accepted sign is the exact one; `fl` is monotone | binary64 with round to nearest, ties to even, and gradual underflow; the numbers here are far from overflow. The compiler is assumed not to fuse or reorder operations, which Rust guarantees. |
| C100 In-sphere test in f64 | partial | `circumcircle_contains_float` with all its roundings, and the fallback whose matrix is rounded before it is lifted | forward error analysis: 11 roundings on the longest path, bounded by ((1+u)^n - 1) times the sum of absolute products, against 1e-14 times a lower bound of that sum; witness by evaluation of the rounded model in the kernel | The f64 test is right whenever it is conclusive (inSphere_float_correct). The second half is false of the code: the last column of the matrix is computed in f64 before it is lifted to rational numbers (in_sphere_wrong). in_sphere_right_partial says how far from the sphere a point has to be for the answer to be right. Missing: points closer to the sphere, where the answer can be wrong. |
| C101 Plane tests and intersections in f64 | partial | `determinant3x3_sign`, `circumcircle_contains` of a triangle, `contains` of a triangle and `get_line_intersection_type` with all roundings | forward error analysis for the determinants; witnesses by evaluation of the rounded model in the kernel | False of the code in general, with witnesses for each of the four tests. Proved: the determinant and the in-circle test are right unless the determinant is tiny compared with its products (8/2^53 and 14/2^53 of their sum); the other two are right if the f64 attempt reports a precision error. A bound for conclusive answers of the solver is C122. |
| C102 From the input files to the ranks | proved | reading of all datasets on all ranks, the check of the box, the keys of positions, the decomposition and the exchange, composed in the order of the stages | composition of the theorems on regions of files (C05), keys (C11, C13), the decomposition (C14-C16) and the exchange (C17); for the balance: cubes of the grid of the keys are blocks of keys, so every window of keys lies in two cubes | Exact arithmetic for the keys of positions. All datasets have the same number of rows in each file; rows_of_files_mixed shows that otherwise rows of different files are combined without an error. |
| C103 Whole runs | proved | C102 followed by the numbering of the particles, the construction of the grid, the simulation and the writing of snapshots | the worlds of both runs have the same particles (C102), so the grids (C97) and the states (C98) agree; the rows of the snapshots are those of the particles (C06) | Real arithmetic. That the grids can be built is a hypothesis on both runs (Ready, see C88); the sources are functions of the particles. One timestep level, since with several levels the claim is false (C98). |
| C104 Sources of a run | proved | `read_sources`, explicit sources, `set_source_terms_system` on all ranks after the startup of C102 | every rank reads its part of the stars, the parts follow each other (C01); the term of a particle is the sum over the sources closest to it; a particle at the position of the source has the same key and hence the same rank | Exact arithmetic; the rate of a star is a function of its formation scale factor, metallicity and mass (C60). The nearest neighbour search only through its contract. |
| C105 Physical state at the start | proved | the systems of main.rs which set components of a particle, stage by stage, with deferred commands, in any order allowed by the before/after constraints | all allowed orders of each stage are enumerated (at most six) for symbolic values; the temperature by C45, the mass by C85 | Real arithmetic. The scheduler may run the systems of a stage in any order which obeys the declared constraints; commands are applied at the end of the stage. |
| C106 Time series files | proved | the double buffered event queue (`send`, `update`, reader with its counter), the logging system, frames with events before and after it | invariant: between frames the unread events are the last ones of the newer buffer; induction over frames; times by C94 | Model of Bevy's double buffered events as documented; the serialization of the entries and the buffering of the file are not part of it. |
| C107 Written chemistry rates | proved | `get_solver`, `get_rate`, the four `from_solver` functions on the solver of C63-C65 | the time step cancels (C63); limits of the implicit update for time steps to zero; energy densities by C45 | Real arithmetic. Note the units: the photoionization rate is per neutral atom, the other two rates are per hydrogen atom. |
| C108 Messages of different kinds are not mixed up | proved | `get_tag_for_type` on a hash, the custom tags, messages between two ranks as a list from which a receive takes the first with its tag | filtering by kind commutes with every event; arithmetic of the lower bits | The hash of a type identifier is a parameter (it changes with the compiler), so whether the tags of the program differ is a hypothesis; MPI's matching of messages as documented. |
| C109 Directions of the sweep | proved | `from_num` in two and three dimensions with the tables of healpix.rs as rational numbers, `From` for explicit directions, any list of rotations | moments of the tables are evaluated exactly; all unit vectors by bilinearity, a direction close to each by (a+1)(a-c) <= 0; rotations by their transpose; two dimensions by roots of unity | Real arithmetic on the decimal numbers of the tables. |
| C110 Keys of positions in f64 | proved | `from_point_and_min_max` and `get_integer_position_*` with `fl` after every operation, then the keys of C11 and C12 | error bounds relative to the side of the box, linear in the distance from the origin; multiplication by a power of two is exact; injectivity by C11 and C12; the limit is evaluated | Binary64 without overflow. The limit far_box is outside of the hypotheses of the property. |
| C111 Simulation time in f64 | proved | `current_max_timestep` and the sum of the time steps with `fl` after every operation, with the levels of C27 | halving is exact; induction over the calls with the relative error of one rounding; monotone rounding for the bound | Binary64 without overflow; powers of one half are exact. The main loop around it is C94. |
| C112 Contents of snapshots | proved | the systems which `OutputPlugin::build` adds for each field, with their stages, run criteria and before/after constraints; open, write, close and the snapshot timer as steps on the files; one order per rank and stage | the constraints fix the order of the systems that matter (a permutation with prescribed indices is unique); an invariant over the systems of a stage and the ranks; the store of C02 for the datasets | The datasets of all ranks have as many rows as the rank has particles; names of fields differ. Ranks write to a file in turns (C02); HDF5 as in C01. no_fields_can_panic is the limit of the hypothesis that there is at least one field, which the program always meets. |
| C113 Stage timers | proved | `add_timers`, the windows of `add_stage_timers_for_stages`, `Performance::start` and `stop`; timer stages run their systems in any order, other stages are any function which leaves the timers of stages alone | induction over the schedule with one pending timer; the two systems of a timer stage commute | Exact times; the systems of the timer stages take no time themselves. The statistics in the performance file are not modelled. |
| C114 Names and directories of the output | proved | zero padded decimal numbers, the names of files, `make_output_dirs` and the operations of every rank on a file system (a map from paths to entries), in any interleaving after the barrier; listings as lists in any order | value of a list of digits, lexicographic order for equal lengths; an invariant over the operations, with directories made before the files in them; C01 for the listings | A file system without permissions, links and other processes; paths are relative and the directory for snapshots is not called logs. The exact logarithm for the number of digits. Parameters, performance data and time series files are left out. |
| C115 Overrides on the command line and the file with the used parameters | proved | `Override::from_str` on lists of characters, `ParameterFileContents` with the sections it keeps, the extraction of all parameter types in order, the written file, `validate` | lemmas on splitting and joining lists; every extracted section stays in the contents in a form which decodes to the value, by induction over the plugins | Parsing and printing of YAML is a parameter; serialization of a parameter type followed by deserialization is assumed to give the same value. Splitting of the command line by structopt is not modelled. |
| C116 Rounding of face normals and cycles of cells | proved | the distributed sweep of C29-C31; `get_normal` with correctly rounded difference, scalar product, square root, reciprocal and product, `points_upwind`, `points_downwind` | the order of solving gives the converse of C30; rounding commutes with the sign, so both sides agree; forward error analysis of the product with the bounds of the square root; the cycle by evaluation of a concrete case and the theorem on cycles | Three dimensions. Overflow is excluded by the bounds on the coordinates. The tests is_negative and is_positive of the library of units are taken to be comparisons with zero, the sign of zero is not modelled. That the three cells of the example touch is not part of the theorem. |
| C117 Rounding of face normals at periodic boundaries | proved | as C116 with the rounded periodic images | exact images give the same difference; concrete cases of disagreement by evaluation; an invariant (nothing is ever sent) for the sweep which hangs | Three dimensions; as C116. |
| C118 Radius search with rounding in f64 | proved | the tree and iterator of C20 and C21 over extents with rounded centres, `minimize_component`, `periodic_distance` with a correctly rounded square root (shown to exist), the comparison of nodes with the sphere | the generic theorems on construction and iteration; forward error analysis of one component: the slack of half a side in the comparison exceeds all rounding errors as long as nodes are not too small; error of sum and square root for the accuracy | Three dimensions. Overflow is excluded by the bounds on the coordinates; the square root of f64 is correctly rounded (IEEE 754). The bound on the depth of the tree relative to the size of the box is part of the hypotheses; it holds for the default configuration in a cube. |
| C119 Photon rates with rounding in f64 | proved | effective areas, their sum, shares, corrections, `make_positive`, `get_rate` with rounding; the incoming rate of a cell under arbitrary sequences of corrections and solutions | invariant over event lists with the bound growing by one correction; Bernoulli's inequality for the sum of areas; concrete cases by evaluation, the rate that remains by induction over all later events | The model is the incoming rate of one cell in one direction with all events that concern it, in any order; that the events come from the distributed sweep (each correction arrives exactly once, those of one upwind cell in order) is C29-C35. Corrections for inactive cells of other ranks, which the code drops, are not events here. The shares are constant during a run of events. |
| C120 The performance file | proved | `start`, `stop`, `record_number`, `total`, `as_output`, `Statistics::new` and the timer guard as functions on the maps of results and timers | invariant over lists of calls, which says for every name what the maps know; sessions are pairs of positions in the list; sorting by the lemmas on insertion sort | Times are exact rational numbers. The YAML text is not modelled; the order of the entries is that of LinkedHashMap, whose insert is part of the model. |
| C121 Debug output in turns | proved | `start_barrier`, `end_barrier` and `barrierdbg!` as lists of operations; ranks enter and leave collective operations one by one | invariant with the number of the phase, which rank has entered its barrier, and what the owner of the phase has printed; a measure for termination | That lines of different ranks reach the terminal in the order in which they are printed is not part of the model. Collective operations of different kinds which meet never return in the model; MPI leaves this undefined. |
| C122 Backward stability of the solver in f64 | proved | `solve_system_of_equations`, `backward_substitution`, `contains` of a triangle and `get_line_intersection_type` with all roundings | backward error analysis: induction over the elimination (growth of entries, errors carried back through each step) and over the substitution; changes of columns are movements of points; perturbation of determinants | Overflow is not modelled. What the code does after a division by zero is not modelled; the theorems say when there is none. |
| C123 The point location is guided by distances | proved | `closest_point`, `distance_to_point` (triangle in the plane, triangle in space, tetrahedron), `find_breadth_first` with its heap of distances, insertions with it | optimality by three scalar products, the regions of the corners exclude each other; the way out of a tetrahedron passes a face; the heap with distances refines a heap in any order (the heap of `insertMany` may depend on the mesh, so that every point location has its own order) | Exact real numbers. Triangles of the mesh in the plane are counterclockwise by C67; for a clockwise triangle the sign would be wrong (triangle_distance_clockwise). |
| C124 A run continues from the snapshots of a previous one | proved | `get_highest_or_lowest_snapshot_dir` with the parsing of `usize`, opening of the files, `read_remap_data`, `remap_abundances_and_energies_system` as a whole; the files created for snapshots are now only those with particles | composition of the output systems (C112), the file system (C114), the distribution of rows over files and ranks (C02) and the remap (C39); the rows of a file of the first snapshot belong to the same particles as those of the same file of the last one because all datasets are split alike | Composes C112 (what is written), C114 (names and directories), C39 (nearest particle). The k-d tree is a contract. That all ranks list the files of the first and last snapshot in one order is a hypothesis: the program does not sort them, and without it the values are mixed up (order_of_files_matters). Snapshots of the older run must not be left over (stale_snapshots), and the snapshots need a directory of their own (logs_in_the_way). |
| C125 Snapshots are on time in f64 | proved | `update_system` with a rounded sum, the frames of the main loop with the clock of C111 and the final time | relative error of the due times by induction; a frame is never more than one interval ahead, so among the snapshots exactly those are written which are due | Binary64 without overflow, clock of C111. The f64 version of C05. Rounding can delay a snapshot by a time step (late_snapshot). The theorems on frames need an interval which is longer than the time step by a relative 2^-29. |
| C126 Levels of time steps in f64 | proved | `from_max_timestep_and_desired_timestep`, `to_timestep`, `get_desired_level_from_desired_timestep` with rounded quotient and a contract for `log2`; NaN, infinite and negative quotients explicit | powers of two separate the levels: monotone rounding for the lower side, Bernoulli's inequality for the upper side | The f64 version of C26. log2 is a contract (monotone, exact for powers of two, accurate to 2^-47 between 1 and 2^32), shown to be satisfiable. The bound of C26 does not hold exactly (desired_exceeded). |
| C127 Periodic wrapping in f64 | proved | `%`, `rem_euclid`, `periodic_wrap` with rounded sum | the remainder is a multiple of the smaller unit in the last place and not larger than both operands, hence of type f64; monotone rounding | The f64 version of C22 for boxes which begin at zero, as in all runs. That the remainder needs no rounding is proved. |
| C128 Chemistry in f64: temperatures stay positive | proved | `clamp`, `update`, `try_timestep_update`, `perform_timestep_internal`, `perform_timestep`, `update_abundances` with every operation rounded, changes as parameters | induction over the depth; sums of numbers of type f64 are multiples of the smallest one, so a positive sum does not round to zero; halving is exact | Binary64 without overflow. The f64 version of C41 and C42; the changes are parameters. A safety factor of one, which is not rejected, lets a cell reach temperature zero (cold_cell). |
| C129 In two dimensions the cells built by several ranks are the regions of nearest particles | proved | `construct_from_iter` with the triangulation of impl_2d.rs on one rank of any number of ranks (local construction, halo iteration, names), `sweep_grid`, `construct_grid_system` | as C84 with C67 and C69: the final mesh is the Delaunay mesh of the points inserted, the circumcircle of every triangle at an own particle was searched completely; a point is connected exactly if some place is closest to both and to nothing else; the corners of a cell at both ends of a connection span the common side | Real arithmetic, plane, square box; the theorems speak about every rank on which the construction ends (that it ends: C133). The searches of all ranks are those of the quadtree, the decomposition and the halo caches. |
| C130 In two dimensions the areas of the cells of all ranks add up to the area of the box | proved | the same; `volume`, `size` | C79 for the mesh of the rank; tiling of the periodic plane: translates of the regions are disjoint and cover everything up to bisector lines (null sets) | Real arithmetic, plane, square box; the theorems speak about every rank on which the construction ends (that it ends: C133). The searches of all ranks are those of the quadtree, the decomposition and the halo caches. |
| C131 In two dimensions two ranks agree on the face between their cells | proved | the same on two ranks | areas and normals are determined by the places which are closest to both particles (C129), which are translates of each other on the two ranks | Real arithmetic, plane, square box; the theorems speak about every rank on which the construction ends (that it ends: C133). The searches of all ranks are those of the quadtree, the decomposition and the halo caches. |
| C132 In two dimensions halo particles are the remote neighbours | proved | the branches of `construct_grid_system` with `add_halo` | a point is connected to a local point exactly if the regions have a common side (C129), symmetric in the mesh | Real arithmetic, plane, square box; the theorems speak about every rank on which the construction ends (that it ends: C133). The searches of all ranks are those of the quadtree, the decomposition and the halo caches. |
| C133 In two dimensions the parallel construction of the grid ends | proved | the same; one rank, with the searches answered by all ranks | as C88: circumcircles of searched triangles lie within the cell bound, every step decides a triangle or inserts one of finitely many particles and images in general position; after the last insertion all triangles are decided | Real arithmetic, plane, square box. General position is a hypothesis; it fails if the domain of a rank is so large that a particle and two of its images on one line are needed. |
| C134 In two dimensions the grid is independent of the distribution | proved | two worlds with the same particles and their grids (C129) | having a common side is a statement about the places of all sites; sites not further than the closest one have only one label on each side (C131); length and normal from C129 | Real arithmetic, plane, square box, particles not on its upper sides. |
| C135 Search for the scale factor in f64 | proved | `binary_search`, `depth_limited_binary_search` with rounded guesses, the searched function as a parameter | the boundaries after d steps are neighbouring multiples of 2^-d, whose mean is exact for d below 53; the sign of a computed value above the threshold is right; Lipschitz bound of the time from C44 | Binary64 without overflow. The f64 version of the search of C44; the errors of the computed time differences are a parameter. |
| C136 Absorption in f64 | proved | `get_outgoing_rate`, `num_newly_ionized_hydrogen_atoms` with every operation rounded, `exp` as a parameter | monotony of rounding; relative errors of the factors of the optical depth; errors relative to the incoming rate where the outgoing one may underflow | Binary64 without overflow. The f64 version of C40 and C63; the exponential function of the standard library is a parameter (ExpOk; exp_exists shows that there is one). |
| C137 Rates of stellar populations in f64 | proved | `bpass_lookup`, `linear_interpolate` with every operation rounded | relative error of differences, weights which sum to one up to rounding, errors relative to the largest entry; kernel evaluation for the entries of the code's tables | Binary64 without overflow. The f64 version of C60. |
| C138 Time series in f64 | proved | `compute_time_series_system`, `compute_global_sum`, `all_gather_sum` with every operation rounded | relative error of a sum of nonnegative f64 is at most one unit per addition, also for subnormal numbers; Bernoulli bounds; the range of the fractions by monotony of rounding | Binary64 without overflow. The f64 version of the averages of C96. |
| C139 Scale factor and redshift of snapshots | proved | `set_initial_cosmology_attributes_system`, `set_cosmological_time_variables_system` in the main loop of C98, with `TimeSpec::new` and the search of C44 | induction over the frames: the attributes of frame k are made from the time of frame k-1; monotony and continuity of the cosmic time for the range of scale factors | Exact arithmetic. The attributes lag one time step behind the time, see disagreements 74 and 75. |
| C140 Voronoi vertices and the spheres searched for haloes, in f64 | proved | `get_center_of_circumcircle` with the float path, the solver and the exact fallback, `get_original_tetra_circumcircle`, the radius of `SearchData::new` and the search of C118 | backward error of the elimination: residual of each original equation; Cramer's rule for the distance from the exact centre; the error of the length and of the search; a flat tetrahedron evaluated in the kernel as witness | Rounded to nearest, without overflow and NaN; three dimensions. The conversion of the exact fallback to f64 is taken to round to nearest. flat_sphere_not_searched is the witness for flat tetrahedra, disagreement 76. |
| C141 Areas, normals and volumes of Voronoi cells, in f64 | proved | `Polygon3d::area`, `pyramid_volume`, `get_normal`, `get_face_polygon_perpendicular_to_line`, `Cell<ThreeD>::get_faces` and `Cell<ThreeD>::volume` in f64, on the mesh of the construction | forward error analysis of cross products, lengths, heights and sums; the bound of C140 for the vertices and the theorem on exact volumes (C80) for the measure; both points of a face collect the tetrahedra in the same order; a quadrilateral evaluated in the kernel as witness | Rounded to nearest, without overflow and NaN; three dimensions. construct3_cell_volume_f64 is about the triangulation of the points as they are; that the code decides the triangulation from coordinates which are rescaled in f64 is not part of it. area_depends_on_start_f64 is the witness of disagreement 77. |
| C142 The triangulation of coordinates which are rescaled in f64 | proved | `all_encompassing`, `remap_point` and `construct` in three dimensions with corners and rescaled coordinates in f64; decisions are exact functions of the rescaled coordinates | forward error analysis of the corners and of the rescaling; perturbation of determinants for the initial tetrahedron; the exact theorems on the construction (C73 to C75) over the rationals, and scaling the empty spheres back; constructions evaluated in the kernel as examples and witness | Rounded to nearest, without overflow and NaN; three dimensions. The decisions are exact functions of the rescaled coordinates; that is shown for the test whether a tetrahedron contains a point (C99), while the test for flips is partly decided in f64 (C100). close_points_panic_f64 is the witness of disagreement 78. |
| C143 Units and temperatures in f64 | proved | the conversions of temperatures, `insert_missing_components_system`, the scale factors of datasets and their conversion, in f64 | counting rounding errors: a relation which is kept by products and quotients; monotonicity of rounding; the constants are evaluated in the kernel | Rounded to nearest, without overflow and NaN. powi is an arbitrary function (its precision is not specified). temperature_round_trip_inexact_f64 is the witness of disagreement 79. |
| C144 Units of Arepo datasets in f64 | proved | `ArepoUnitReader`, `get_factor` and the conversion of values, in f64 | counting rounding errors as in C143, through powers of the rounded decimal constants; the exact reader of C66 as specification | Rounded to nearest, without overflow and NaN. powi is an arbitrary function with a bounded relative error. |
| C145 Remapping from a snapshot in f64 | proved | the computed numbers of remap.rs in f64: distances from points and extents, scaled positions; communication and merging as in C39 | rounding is monotone, so the computed distance from an extent bounds the computed distances from its points; then as C39; counting rounding errors for the true distances | Rounded to nearest, without overflow and NaN. The k-d tree is an external crate and is represented by its contract, with computed distances added from left to right. remap_misses_nearest_f64 is the witness of disagreement 80. |
| C146 Rotated directions in f64 | proved | from_num, get_random_rotation_matrix and multiply_by_matrix of direction/mod.rs in f64; sine and cosine by contract | a calculus of absolute errors for the entries of the matrix; exact rotations keep distances, so that the errors of all rotations only add up (induction over the rotations) | Rounded to nearest, without overflow and NaN. Sine and cosine are represented by their error bound, arc cosine may be any function. The random numbers are inputs. |
| C147 Cartesian grids in f64 | proved | cartesian.rs of the three-dimensional build in f64: number of cells, positions, ranks, ids, neighbours, faces, local and halo cells | the bookkeeping as for C37, with the rank as an arbitrary function of the position; relative errors of coordinates bound differences of neighbouring ones away from zero; symmetry of rounding makes opposite normals exact | Rounded to nearest, without overflow and NaN other than that of a vanishing normal. The number of cells may be one less per side than the decimal numbers of the parameter file suggest, see disagreement 81. |
| C148 Searches for haloes between ranks in f64 | proved | find_wrapped_point, get_outgoing_searches, get_haloes_from_search, rank_owns_part_of_search_radius, cube_around_sphere and iter_periodic_images in f64 | each computed component is compared with the exact difference to the same image; the error of lengths is that of C118; the test of ranks has a slack of half of both boxes | Rounded to nearest, without overflow and NaN, three dimensions. Within 2^-46 of the radius the program can panic, see disagreement 82. |
| C149 Photon sources deposited in f64 | proved | set_source_terms_system and the event TotalLuminosity in f64 | induction over the sources; the sum over the grid is compared rank by rank with the exact deposition of C19 into the same cells | Rounded to nearest, without overflow and NaN; the k-d tree is given by its contract. The order of the sources matters, see disagreement 83. |
| C150 Physical state at the start in f64 | proved | the systems of main.rs which compute ionized fraction, temperature and mass, and remap_from, in f64 | relative errors go through maximum and minimum; the temperature is that of C143 | Rounded to nearest, without overflow and NaN. The order of the systems is that of C105. A parameter outside of the range is not limited, see disagreement 84. |
| C151 Implicit update of the chemistry in f64 | proved | temperature_change and ionized_fraction_change with the rates they use, in f64 | signs go through rounding because it is monotone; the only error of the net rate which matters is that of the sum of gain and loss | Rounded to nearest, without overflow; the fits of the coefficients and the exponential function are parameters. |

## Disagreements between code and expected property

Each item was found while modelling. Where a theorem is named, it is a machine-checked witness.

Sweep and time steps
1. Sites of remote neighbours are not refreshed while the neighbour is inactive, so on several ranks
   incremental updates differ from full recomputation (`remote_inactive_cells_go_stale`, C34).
2. With periodic connections the result of a sweep depends on the schedule (`periodic_result_depends_on_schedule`, C31).
3. `Directions::remap` overwrites instead of accumulating and so loses rates when two directions are mapped to one
   (`remap_loses_rates`, C36).
4. Dropping the sweep communicator does not wait for pending sends (`drop_misses_pending_sends`, C35).
5. `check_some_initial_task_exists` returns before a collective call if a rank has nothing to solve, so that the
   ranks can disagree about the number of collectives (see 37).

Domain, search, geometry
6. A rank without particles makes the decomposition panic, and shifts the extents used for searches
   (`empty_rank_panics`, `empty_rank_shifts_extents`; C14, C62).
7. The decomposition cannot separate equal keys and can panic on them (C14, C16 witnesses).
8. A source whose key lies beyond the last cut is deposited on no rank; the nearest cell is searched only locally (C19 witnesses).
9. A quadtree leaf may hold more particles than the documented maximum (`leaf_exceeds_documented_maximum`, C20).
10. The periodic distance is not minimal for points outside the box (`periodic_distance_not_minimal_outside`, C23).
11. A search radius above half the box finds two images of one particle, which the importing rank rejects by a
    panic (`large_radius_finds_two_images`, C24).
12. The child index 2^d of a tree node has the same encoding as the node itself (`node_index_round_trip`, C59).
13. `arrange_cyclic_by` panics on inputs which satisfy its documented precondition (`two_cycles_panic`, C57).
14. `Polygon3d::area` depends on the starting vertex for polygons which are not convex
    (`polygon_area_depends_on_start`, C58).
15. Points on an edge or vertex of the triangulation and cocircular points panic (`PanicReason` in C53).
16. For boxes which are not cubes `remap_point` divides every axis by its own side length, so the
    triangulation is Delaunay only in the stretched coordinates (`construct2_delaunay_in_box_units`,
    `long_box_not_delaunay`, C67, and in space `long_box_not_delaunay3`, C73), while circumcentres use the original ones.
17. Cell volumes of a cartesian grid do not fill the box if the cell size does not divide it
    (`volumes_do_not_fill_box`, C37).

Chemistry and cosmology
18. With cooling prevented a fully neutral cell never evolves (`neutral_cell_never_evolves`, C42).
19. A rate of zero gives the shortest time scale instead of the longest (`zero_rate_gives_shortest_timescale`, C43).
20. A convergence failure leaves the state advanced part of the way (`failure_keeps_partial_progress`, C41).
21. Photons of a direction below the rate threshold vanish without ionising (C63 is an inequality in general).
22. `RYDBERG_CONSTANT` is 13.65693 eV in the code; the physical value is 13.605693 eV.
23. Runs past scale factor one and universes without dark energy panic (`panics_beyond_scale_factor_one`,
    `panics_without_dark_energy`, C44).
24. Datasets with cosmological scaling written by the code cannot be read back (`cosmological_dataset_rejected`, C66).
25. Remapping panics for simulations which are not cosmological, and uses distances without periodicity
    (`remap_data_rescaled`, C39).

Input, output, communication
26. Later overrides of a section are ignored after one which replaces the section
    (`section_override_ignores_later`, C06).
27. The exchange relies on MPI buffering of empty blocking sends (`unbuffered_exchange_deadlocks`, C10).
28. A rank without data panics in the gather of extents (`rank_without_data_panics`).
29. A plugin first added while it should not be built never gets its once-part (`once_part_can_be_skipped`, C61).
30. A periodic connection read from file panics in a periodic simulation (`periodic_connection_panics`, C38).
31. NaN masses panic in the table lookup (`nan_panics`, C60).
32. The snapshot timer writes one snapshot per step and does not catch up after a long step (C05).
33. `read_dir` order is not defined. If two ranks list the input files in different orders, rows are read twice or not at all
    (`different_listings`, C114).
34. MPI tags are `(hash as i16).abs()`, which collides and overflows for `i16::MIN` (see 48).
35. Components which are not registered with `ExchangeDataPlugin` are lost for particles which change rank
    (C17 is about registered components).

Voronoi cells in space
36. A triangulation built for the box itself (`construct_from_iter_custom_extent` without
    `including_periodic_images`) cuts off the cells at the lower corner, because a vertex of the initial tetrahedron is
    only 1% of the side outside of the box (`corner_not_covered`, C77). The production path enlarges the box first and
    is not affected.

Deadlock check
37. `check_some_initial_task_exists` returns early on a rank without active cells and leaves out the `all_gather_sum` in
    which the other ranks wait, so that the check itself deadlocks as soon as the active cells are not on all ranks
    (`check_hangs`, `check_on_grid`, C91). It is off by default.

Main loop and time series
38. `stop_simulation_system` looks at the time at the start of a frame, so that one more time step is made after the final
    time is reached; the last snapshot is that of the second time not before the final time (`loop_final`, C94).
39. The averages of the photoionization rate are zero if the rate is not one of the fields of the snapshots, since then no
    particle has the component (`series_rate_missing`, C96).
40. `NumParticlesAtTimestepLevels` has the number of particles with at least the level, not on the level
    (`series_counts`, `series_counts_at_start`, C96).
41. With more than one timestep level the results depend on the number of ranks and on the distribution of the particles: a cell
    which is not active in a sweep gets the changed photons of an active neighbour on its own rank, but not of one on another
    rank (`inactive_cells_depend_on_ranks`, C98; the drop itself is `remote_inactive_cells_go_stale`, C34).

Rounding
42. The in-sphere test falls back to rational numbers if f64 is not conclusive, but the squared norms in the matrix are computed
    in f64 before the matrix is lifted (tetrahedron.rs lines 205-211). The answer can be wrong for points close to the sphere
    (`in_sphere_wrong`, C100). The theorems about triangulations (C51-C54, C67-C70, C73-C88, C129-C134) are about exact tests.
43. The in-circle test lifts a matrix of rounded numbers too (`in_circle_wrong`, C101).
44. `determinant3x3_sign` accepts a value in f64 if it is not small compared with the entries of the matrix; the rounding error
    is proportional to the products of the entries instead (`determinant_sign_wrong`, C101).
45. The coordinates of a point in a triangle are computed by Gaussian elimination in f64 and compared with 1e-15; their error
    grows without bound for thin triangles. The containment test in the plane and the classification of intersections in space
    give wrong answers in both directions (`triangle_contains_wrong`, `triangle_contains_misses`, `line_intersection_wrong`,
    `line_intersection_misses`, C101). A wrong classification leads to a flip of a pair of tetrahedra which is not convex.

Startup
46. The number of rows is compared over all files together. If the datasets of single files have different numbers of rows,
    but the sums agree, values of different rows are combined to one particle without an error (`rows_of_files_mixed`, C102).
47. A source belongs to the particle which is closest among those of the rank which has its key. Which one that is depends on
    the number of ranks (`source_cell_depends_on_ranks`, C104).
48. The tag of a message is the absolute value of 16 bits of a hash of its type, so different types can have the same tag and then a
    message of one is received as one of the other (C108, `tags_mixed_up`, `tags_coincide`). For a hash with lower bits 0x8000 the
    absolute value overflows. Both depend on the compiler.
49. If the box is more than about 2^42 side lengths away from the origin, the padding of the box is lost in rounding and the key of its
    upper end is wrong: an overflow in the plane, the key of the opposite end in space (C110, `far_box`).
50. If no field at all were written, nothing would order the opening and closing of the files, and closing first panics (C112,
    `no_fields_can_panic`). The program always writes the attribute for the time, so it does not happen.
51. The documentation of the parameter `fields` says `all` (parameters.rs, README), but the enum is `serde(untagged)` with a unit
    variant, which is read from null only: `fields: all` is rejected, leaving the parameter out works. (From the documentation of
    serde, not checked by machine.)
52. When overwriting an old run with fewer files per snapshot, old files stay in the directories of new snapshots
    (`overwriting_mixes`, C114). The documentation only mentions snapshots with higher numbers.
53. The output directory is made, and an existing one is deleted or makes the program stop, also if `write_output` is off: it is
    needed for the logs (simulation_builder.rs lines 165-168; C114 does not depend on `write_output`).
54. With more than 10^`snapshot_padding` snapshots the names are no longer in the order of the numbers
    (`snapshot_names_not_ordered`, C114).
55. A parameter file which is not valid YAML is treated like one without sections: all parameters get their defaults without an
    error (`unwrap_or_default` in `ParameterFileContents::new`; `invalid_file_ignored`, C115). An empty file panics.
56. Unused sections of the file are an error, but overrides of sections which do not exist are ignored
    (`unknown_overrides_ignored`, C115), so a mistyped section on the command line has no effect.
57. Rounding can make a cycle of cells: three faces nearly parallel to the direction are all found downwind, and the sweep waits
    forever (C116, `rounding_cycle`, `rounding_deadlock`). Every such cycle contains a product below 6 units of roundoff.
58. The two cells at a periodic face compute its normal from differently rounded images and can disagree about the direction of the
    flow (C117, `both_downwind`, `both_upwind`); on two ranks the sweep can then wait forever (`periodic_rounding_hangs`).
59. A particle strictly within the radius can be missed by the radius search because its distance is rounded up to the radius
    (C118, `boundary_particle_missed`); only particles within 2^-48 of the size of the box of the boundary are affected.
60. With rounding the corrections do not cancel: a cell keeps a tiny positive rate after its upwind cell has become dark (C119,
    `ghost_rate`), and the result of a sweep depends on the order of the corrections (`order_of_corrections_matters`), which C31
    excludes for exact arithmetic only.
61. `make_positive` is applied to `incoming_total_rate` but not to `periodic_source`, so rates can be negative in spite of the comment
    in `get_outgoing_rate` (C119, `negative_periodic_rate`).
62. `record_number` panics for numbers outside of 32 bits, so a run with more than 2147483647 particles stops in
    `spawn_entities_system` only because the performance data cannot hold the number (example beside C120).
63. `barrierdbg!` evaluates its expression in the turn of the rank: an expression which communicates blocks all ranks (C121,
    `communicating_expression_blocks`). The form without an expression does not compile if used.
64. `distance_to_point` of a triangle in the plane is not the distance: it is the largest signed distance to the
    lines through the sides, which is too small behind a corner (`triangle_distance_too_small`) and has the wrong
    sign for a clockwise triangle (`triangle_distance_clockwise`). It is only used to order the heap of the point
    location, all triangles of a mesh are counterclockwise, and the order does not change the result (C123).
    `closest_point` of a triangle without area can be NaN (`closest_point_degenerate`); this does not happen for
    the faces of the tetrahedra of a mesh. The distance of a tetrahedron panics if the point is in the plane of a
    face, and it is computed for simplices which are never tested, so that a point location can panic although
    every simplex it tests is in general position (`dist3_panics`).
65. The remap reads positions from the first snapshot and everything else from the last one, and combines them by row. The
    files of both directories are used in the order in which `read_dir` returns them, and nothing sorts them. If
    the order is different in the two directories, temperatures and fractions are given to the positions of other
    particles, without an error (`order_of_files_matters`).
66. If the previous run was told to overwrite an output directory with more snapshots than its own, the snapshots of the older
    run remain and the remap takes the last snapshot from the older run and (if its numbers overlap) the first one
    from the newer run (`stale_snapshots`). If `snapshots_dir` is the output directory itself, the directory `logs`
    stops the remap (`logs_in_the_way`).
67. Rounding delays snapshots: with time steps of 0.1 and a snapshot every 0.8 the time after eight steps is
    0.7999999999999999, and snapshot 1 is written at 0.9 (C125, `late_snapshot`).
68. The time step of a cell can exceed the desired one: the logarithm of 16 (1 + 2⁻⁵²) is 4 in f64 (C126, `desired_exceeded`).
    A cell with a negative desired time step gets level 0, the longest time step (`level_degenerate`).
69. A position just below zero is wrapped to the upper side of the box, which is outside of the half-open box, so that wrapping
    is not idempotent (C127, `wrapF_reaches_upper`). In a box which does not begin at zero positions inside can
    be moved (`wrapF_moves_inside`).
70. The safety factor of the chemistry is not checked. With a factor of one a cell can lose all its temperature in one accepted
    step. From temperature zero every step is rejected, so the cell stays as it is for the rest of the run (C128, `cold_cell`).
71. A cell with an optical depth below 2^-54 absorbs no photons in f64, because the transmitted fraction rounds to one. Neutral atoms of
    such a cell are never ionised by photons, however large the rate is (C136, `thin_cell`).
72. The interpolation in the table of stellar populations adds a difference of entries to an entry. Between entries of very different size
    the smaller one is lost: for populations older than the table at metallicity 1e-3 the result differs by more than 2900 units of
    roundoff from the interpolated rate (C137, `steep_table`).
73. The averages in the time series depend on the number of ranks in their last digits (C138, `series_depends_f64`).
74. Scale factor and redshift are updated in the stage `Initial`, before the time of the frame is advanced in the stage `Sweep`, and are
    written after it. A snapshot therefore has the time after the time step and the scale factor before it. The time series computes
    the scale factor in the stage `Output` and does not have this lag (C139, `snapshot_epoch_late`).
75. Positions do not change during a run, they are those at the initial scale factor. A continued run scales them by the scale factor
    of the first snapshot it finds. If this was written later than the start, the positions are too small (C139,
    `continued_positions`).
76. The pivots of the solver for circumcentres are compared with the absolute number 1e-8. In coordinates with large numbers (the code
    uses metres) every pivot passes, also if it consists of rounding errors only, and the exact computation is not used. For a flat
    tetrahedron, as in a rotated lattice, the computed sphere is then wrong by a large part of its radius, and a particle in the exact
    sphere can be outside of the ball which is searched for haloes, in spite of the safety factor (C140, `flat_sphere_not_searched`).
77. The area of a face depends on the vertex from which its polygon is listed, in the last digits. The two cells of one rank list it from
    the same vertex; two ranks which both know the face need not (C141, `area_depends_on_start_f64`).
78. Two different points whose rescaled coordinates round to the same numbers make the construction panic, although it would be completed in
    exact arithmetic (C142, `close_points_panic_f64`). Points which differ by more than 2^-47 side lengths are safe (`rescaled_ne_f64`).
79. In f64 the conversions between temperatures and internal energies are not mutually inverse (C143, `temperature_round_trip_inexact_f64`):
    ten thousand Kelvin come back as a different number. In exact arithmetic they are (C45), in f64 up to ten units of the last digit.
80. In f64 a particle can be remapped from a data point which is not the nearest one, if the computed distances are equal (C145,
    `remap_misses_nearest_f64`). The true squared distance is the smallest one up to thirteen units of the last digit.
81. The number of cells per side of a cartesian grid is the floor of the computed quotient: a box of side 0.3 has two, not three cells of
    size 0.1 per side, so that the cells hold less than a third of the volume (C147, `cells_lost_f64`).
82. The distance used to find a particle in the tree and the distance to its periodic images are rounded differently: a particle can be
    found although all of its images are computed to be outside of the sphere, and `find_wrapped_point` panics on `unwrap` (C148,
    `halo_search_panics_f64`). This needs a distance within a relative 2^-46 of the radius.
83. In `f64` the source term of a cell and the total luminosity depend on the order of the sources (C149, `order_of_sources_matters_f64`),
    so that the independence of the order of the rows in the files (C104) holds only up to rounding. The announced total luminosity is not
    bitwise the sum of the source terms (`announced_luminosity_differs_f64`); both differ by at most three units of roundoff per source.
84. The ionized fraction from the electron abundance is limited to the range from 1e-10 to 1 - 1e-10, but the parameter
    `initial_fraction_ionized_hydrogen` is not: with 1 there is no neutral hydrogen in the first sweep (C150,
    `parameter_not_limited_f64`).

## Not modelled

* Floating point rounding, except in the geometric predicates of C99-C101, the keys of C110, the clock of C111, the face normals of C116 and C117, the radius search of C118, the photon rates of C119, the solver of C122, the snapshot times of C125, the levels of C126, the wrapping of C127, the sub-steps of C128, the search of C135, the absorption of C136, the stellar rates of C137, the time series of C138, the circumcentres of C140, the areas and volumes of cells of C141, the rescaled coordinates of C142, the units and temperatures of C143, the units of Arepo datasets of C144, the remapping of C145, the rotations of C146, the cartesian grid of C147, the searches for haloes of C148, the photon sources of C149, the state at the start of C150 and the implicit update of C151. All other theorems are about exact arithmetic.
* HDF5 and YAML text formats, logging, splitting of the command line by `structopt`, build information, the
  visualizer, memory layout, `unsafe` MPI datatypes, progress of the MPI library.
* Bevy's scheduler beyond the declared before/after constraints.
* `communication/sync_communicator.rs`: there is no `mod sync_communicator`, so the file is not compiled.
* Wrap-around of 64-bit counters, 2^31 limits of MPI counts.
* The sweep with the Cargo feature `2d`: sweep/direction/mod.rs uses the third component of a vector, so this does not compile. Only the
  construction of the grid is stated in two dimensions.
