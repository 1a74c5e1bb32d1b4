import Verif.Startup.LatticeKeys
import Verif.Startup.RunProps
import Verif.Sim.WholeExamples

/-! # The startup and whole runs: examples

The 32768 particles of `Lattice` are in the input files in any order; the program runs on 8 or 16 ranks. -/

namespace Verif.Startup

open Verif.Geometry Verif.ExchangeData Verif.FileDist Verif.Parallel Verif.Sim

variable {f : ℕ → Predicates.P3 ℝ}

/-- The box of the lattice. -/
def latticeSetup : Setup (Vec 3 ℝ) := ⟨fun _ => 0, fun _ => 32, id, Decomp.firstMatch⟩

/-- Two datasets: the positions and the numbers of the particles. -/
noncomputable def latticeRow (f : ℕ → Predicates.P3 ℝ) (j : ℕ) : Row (Vec 3 ℝ) :=
  fun c => if c = 0 then dim3.toVec (f j) else fun _ => j

/-- The number of a particle. -/
noncomputable def numberOf (a : Comps (Vec 3 ℝ)) : ℕ := ⌊((a 1).getD 0) 0⌋₊

theorem numberOf_comps (j : ℕ) : numberOf (comps 2 (latticeRow f j)) = j := by
  simp [numberOf, comps, latticeRow]

theorem position_lattice (j : ℕ) : latticeSetup.position (comps 2 (latticeRow f j)) = some (dim3.toVec (f j)) := by
  rw [position_comps (by norm_num)]
  rfl

theorem lattice_apart (H : Cubes f) {i j : ℕ} (hi : i < 32768) (hj : j < 32768) (h : i ≠ j) :
    ∃ n, 99 / 100 ≤ |dim3.toVec (f i) n - dim3.toVec (f j) n| := by
  obtain ⟨⟨x1, x2⟩, ⟨y1, y2⟩, z1, z2⟩ := dealt_coord H hi
  obtain ⟨⟨u1, u2⟩, ⟨v1, v2⟩, w1, w2⟩ := dealt_coord H hj
  have key : ∀ {a b : ℕ} {x y : ℝ}, a ≠ b → (a : ℝ) + 1 / 2 < x → x < (a : ℝ) + 51 / 100 → (b : ℝ) + 1 / 2 < y → y < (b : ℝ) + 51 / 100 →
      99 / 100 ≤ |x - y| := by
    intro a b x y hab p1 p2 q1 q2
    rcases Nat.lt_or_gt_of_ne hab with h | h
    · have h : (a : ℝ) + 1 ≤ b := by exact_mod_cast h
      rw [abs_of_neg (by linarith)]
      linarith
    · have h : (b : ℝ) + 1 ≤ a := by exact_mod_cast h
      rw [abs_of_pos (by linarith)]
      linarith
  by_cases h0 : i % 32 = j % 32
  · by_cases h1 : i / 32 % 32 = j / 32 % 32
    · exact ⟨2, key (show i / 1024 ≠ j / 1024 by omega) z1 z2 w1 w2⟩
    · exact ⟨1, key h1 y1 y2 v1 v2⟩
  · exact ⟨0, key h0 x1 x2 u1 u2⟩

theorem countP_le_one {α : Type} {p : α → Bool} {l : List α} (h : l.Pairwise fun a b => ¬ (p a = true ∧ p b = true)) : l.countP p ≤ 1 := by
  induction l with
  | nil => simp
  | cons a l ih =>
    rw [List.pairwise_cons] at h
    rw [List.countP_cons]
    split
    · rename_i ha
      have : l.countP p = 0 := List.countP_eq_zero.2 fun b hb hpb => h.1 b hb ⟨ha, hpb⟩
      omega
    · have := ih h.2
      omega

/-- The files of a list of numbers of particles for every file. -/
noncomputable def latticeFiles (f : ℕ → Predicates.P3 ℝ) (order : List (List ℕ)) : List (List (Row (Vec 3 ℝ))) :=
  order.map fun l => l.map (latticeRow f)

theorem latticeFiles_flatten (order : List (List ℕ)) : (latticeFiles f order).flatten = order.flatten.map (latticeRow f) := by
  unfold latticeFiles
  rw [List.map_flatten]

/-- The hypotheses of `startup_balanced`. -/
theorem lattice_hyps (H : Cubes f) {order : List (List ℕ)} (ho : order.flatten.Perm (List.range 32768)) :
    (latticeFiles f order).flatten.length = 32768 ∧ (∀ i, latticeSetup.lo i < latticeSetup.hi i) ∧
    (∀ row ∈ (latticeFiles f order).flatten, latticeSetup.Contains (latticeSetup.place (row 0))) ∧
    ((latticeFiles f order).flatten.Pairwise fun a b => latticeSetup.Apart (latticeSetup.place (a 0)) (latticeSetup.place (b 0))) ∧
    ∀ corner : Vec 3 ℝ, (latticeFiles f order).flatten.countP (fun row => @decide (∀ i, corner i ≤ latticeSetup.place (row 0) i ∧
      latticeSetup.place (row 0) i < corner i + 1.002 * (latticeSetup.hi i - latticeSetup.lo i) / 2 ^ 13) (Classical.propDecidable _)) ≤ 1 := by
  rw [latticeFiles_flatten]
  have hlt : ∀ j ∈ order.flatten, j < 32768 := fun j hj => List.mem_range.1 (ho.mem_iff.1 hj)
  have hap : order.flatten.Pairwise fun i j => ∃ n, 99 / 100 ≤ |dim3.toVec (f i) n - dim3.toVec (f j) n| := by
    have hnd : order.flatten.Nodup := ho.nodup_iff.2 List.nodup_range
    exact hnd.imp_of_mem fun {a b} ha hb hab => lattice_apart H (hlt a ha) (hlt b hb) hab
  refine ⟨?_, ?_, ?_, ?_, ?_⟩
  · rw [List.length_map, ho.length_eq, List.length_range]
  · intro i
    show (0 : ℝ) < 32
    norm_num
  · intro row hrow
    obtain ⟨j, hj, rfl⟩ := List.mem_map.1 hrow
    intro i
    exact ⟨(dealt_inside H (hlt j hj) i).1.le, (dealt_inside H (hlt j hj) i).2.le⟩
  · rw [List.pairwise_map]
    refine hap.imp fun {i j} ⟨n, hn⟩ => ⟨n, ?_⟩
    refine le_trans ?_ hn
    show 1.002 * ((32 : ℝ) - 0) / 2 ^ 42 ≤ _
    norm_num
  · intro corner
    apply countP_le_one
    rw [List.pairwise_map]
    refine hap.imp fun {i j} ⟨n, hn⟩ ⟨h1, h2⟩ => ?_
    rw [@decide_eq_true_eq _ (_)] at h1 h2
    obtain ⟨a1, a2⟩ := h1 n
    obtain ⟨b1, b2⟩ := h2 n
    have e : 1.002 * (latticeSetup.hi n - latticeSetup.lo n) / 2 ^ 13 < 99 / 100 := by
      show 1.002 * ((32 : ℝ) - 0) / 2 ^ 13 < _
      norm_num
    have hn : 99 / 100 ≤ |latticeSetup.place (latticeRow f i 0) n - latticeSetup.place (latticeRow f j 0) n| := hn
    rcases le_abs.1 hn with h | h <;> linarith

/-- C102: the startup on 8 ranks, whatever the order of the rows in the files is; each rank has between 4094 and 4098 particles,
apart from the last one. -/
example : ∃ f, Cubes f ∧ ∀ order : List (List ℕ), order.flatten.Perm (List.range 32768) →
    ∃ world, latticeSetup.startup 8 (columns 2 (latticeFiles f order)) = some world ∧
      (∀ (r : ℕ) (ps : Particles (Vec 3 ℝ)), world[r]? = some ps → r < 7 → 4094 ≤ ps.length ∧ ps.length ≤ 4098) ∧
      (world.flatten.map Prod.snd).Perm ((latticeFiles f order).flatten.map (comps 2)) := by
  obtain ⟨f, H⟩ := cubes_exist
  refine ⟨f, H, fun order ho => ?_⟩
  obtain ⟨h1, h2, h3, h4, h5⟩ := lattice_hyps H ho
  obtain ⟨world, e1, e2⟩ := startup_balanced (N := 8) (m := 2) Decomp.firstMatch_contract (by norm_num) (by norm_num) 1
    (by rw [h1]; norm_num) h2 h3 h4 (fun corner => by convert h5 corner)
  refine ⟨world, e1, fun r ps hr hr7 => ?_, (startup_keeps_rows (by norm_num) e1).2.1⟩
  have := (e2 r ps hr).1 (by omega)
  rw [h1] at this
  omega

/-- C102: two rows on three ranks, and a row outside of the box. -/
example : latticeSetup.startup 3 (columns 1 [[fun _ _ => 1], [fun _ _ => 2]]) = none ∧
    latticeSetup.startup 1 (columns 1 [[fun _ _ => 1], [fun _ _ => -2]]) = none :=
  ⟨startup_panics_with_few_rows (by norm_num) (by simp), startup_panics_outside (row := fun _ _ => -2) (by norm_num) (by simp) fun h => by
    have := (h 0).1
    change (0 : ℝ) ≤ -2 at this
    norm_num at this⟩

theorem indices_unique {α : Type} {deal : List (List α)} (h : deal.flatten.Nodup) {s i s' i' : ℕ} {j : α}
    (h1 : (deal.getD s [])[i]? = some j) (h2 : (deal.getD s' [])[i']? = some j) : s = s' ∧ i = i' := by
  rw [List.nodup_flatten] at h
  obtain ⟨k1, k2⟩ := h
  have hget : ∀ {s i : ℕ}, (deal.getD s [])[i]? = some j → ∃ l, deal[s]? = some l ∧ l[i]? = some j := by
    intro s i hs
    rw [List.getD_eq_getElem?_getD] at hs
    cases he : deal[s]? with
    | none => rw [he] at hs; simp at hs
    | some l => rw [he] at hs; exact ⟨l, rfl, hs⟩
  obtain ⟨l, hl, hi⟩ := hget h1
  obtain ⟨l', hl', hi'⟩ := hget h2
  obtain ⟨b1, rfl⟩ := List.getElem?_eq_some_iff.1 hl
  obtain ⟨b2, rfl⟩ := List.getElem?_eq_some_iff.1 hl'
  have hs : s = s' := by
    rcases Nat.lt_trichotomy s s' with hlt | he | hlt
    · exact absurd (List.mem_of_getElem? hi') (List.pairwise_iff_getElem.1 k2 s s' b1 b2 hlt (List.mem_of_getElem? hi))
    · exact he
    · exact absurd (List.mem_of_getElem? hi) (List.pairwise_iff_getElem.1 k2 s' s b2 b1 hlt (List.mem_of_getElem? hi'))
  subst hs
  refine ⟨rfl, ?_⟩
  have hn := k1 _ (List.getElem_mem b1)
  obtain ⟨c1, e1⟩ := List.getElem?_eq_some_iff.1 hi
  obtain ⟨c2, e2⟩ := List.getElem?_eq_some_iff.1 hi'
  exact (List.Nodup.getElem_inj_iff hn).1 (e1.trans e2.symm)

/-- The startup deals out the particles so that the grids can be built. -/
theorem lattice_started (H : Cubes f) {order : List (List ℕ)} (ho : order.flatten.Perm (List.range 32768)) {N t : ℕ} (hN : 0 < N)
    (ht : t * N = 32768) (hNt : N * 2 < t) {a b : ℕ → ℕ} {c : ℕ → ℕ × ℕ × ℕ} (hcomp : ∀ r < N, Compact (a r) (b r) (c r) = true)
    (ha : ∀ r < N, 8 * a r ≤ r * t - r * 2) (hb : ∀ r, r + 1 < N → (r + 1) * (t + 2) ≤ 8 * b r) (hb' : 32768 ≤ 8 * b (N - 1)) :
    ∃ rows deal, Started latticeSetup 2 N (latticeFiles f order) rows ∧ Deal deal ∧ deal.length = N ∧
      latticeSetup.world ⟨5, 5⟩ rows = dealtWorld deal f := by
  obtain ⟨h1, h2, h3, h4, h5⟩ := lattice_hyps H ho
  have hdiv : (latticeFiles f order).flatten.length / N = t := by
    rw [h1, ← ht, Nat.mul_div_cancel _ hN]
  obtain ⟨world, e1, e2⟩ := startup_balanced (N := N) (m := 2) Decomp.firstMatch_contract (by norm_num) hN 1
    (by rw [hdiv]; omega) h2 h3 h4 (fun corner => by convert h5 corner)
  have hNle : N ≤ (latticeFiles f order).flatten.length := by rw [h1]; nlinarith
  obtain ⟨w1, e3, e4⟩ := startup_distributes (N := N) (m := 2) Decomp.firstMatch_contract (by norm_num) hN hNle h2 h3 h4
  rw [e1] at e3
  obtain rfl := Option.some.inj e3
  obtain ⟨k1, k2, -⟩ := startup_keeps_rows (by norm_num) e1
  have hcomps : ∀ ps ∈ world, ∀ p ∈ ps, p.2 = comps 2 (latticeRow f (numberOf p.2)) ∧ numberOf p.2 < 32768 := by
    intro ps hps p hp
    have : p.2 ∈ world.flatten.map Prod.snd := List.mem_map.2 ⟨p, List.mem_flatten.2 ⟨ps, hps, hp⟩, rfl⟩
    rw [k2.mem_iff, latticeFiles_flatten, List.map_map] at this
    obtain ⟨j, hj, e⟩ := List.mem_map.1 this
    rw [← e]
    dsimp only [Function.comp]
    rw [numberOf_comps]
    exact ⟨rfl, List.mem_range.1 (ho.mem_iff.1 hj)⟩
  have hflat : (world.map fun ps => ps.map fun p => numberOf p.2).flatten.Perm (List.range 32768) := by
    refine List.Perm.trans ?_ ho
    have e5 : (world.map fun ps => ps.map fun p => numberOf p.2).flatten = (world.flatten.map Prod.snd).map numberOf := by
      rw [List.map_map, List.map_flatten]
      rfl
    rw [e5]
    refine (k2.map numberOf).trans ?_
    rw [latticeFiles_flatten, List.map_map, List.map_map]
    refine List.Perm.of_eq ?_
    conv_rhs => rw [← List.map_id order.flatten]
    exact List.map_congr_left fun j _ => numberOf_comps j
  generalize hdeal : (world.map fun ps => ps.map fun p => numberOf p.2) = deal at hflat
  have hget : ∀ (r : ℕ) (l : List ℕ), deal[r]? = some l → ∃ ps, world[r]? = some ps ∧ l = ps.map fun p => numberOf p.2 := by
    intro r l hl
    rw [← hdeal, List.getElem?_map] at hl
    obtain ⟨ps, h, e⟩ := Option.map_eq_some_iff.1 hl
    exact ⟨ps, h, e.symm⟩
  have hlen : deal.length = N := by rw [← hdeal, List.length_map, k1]
  have hloads : ∀ (r : ℕ) (l : List ℕ), deal[r]? = some l → r + 1 < N → t ≤ l.length + 2 ∧ l.length ≤ t + 2 := by
    intro r l hl hr
    obtain ⟨ps, hps, rfl⟩ := hget r l hl
    have := (e2 r ps hps).1 hr
    rw [hdiv] at this
    rw [List.length_map]
    omega
  have hmono : ∀ (r r' : ℕ) (l l' : List ℕ), deal[r]? = some l → deal[r']? = some l' → ∀ i ∈ l, ∀ j ∈ l', place i ≤ place j → r ≤ r' := by
    intro r r' l l' hl hl' i hi j hj hij
    obtain ⟨ps, hps, rfl⟩ := hget r l hl
    obtain ⟨ps', hps', rfl⟩ := hget r' l' hl'
    obtain ⟨p, hp, rfl⟩ := List.mem_map.1 hi
    obtain ⟨p', hp', rfl⟩ := List.mem_map.1 hj
    obtain ⟨c1, c2⟩ := hcomps ps (List.mem_of_getElem? hps) p hp
    obtain ⟨c1', c2'⟩ := hcomps ps' (List.mem_of_getElem? hps') p' hp'
    obtain ⟨k, hk, -⟩ := key_some (fun _ => 0) (fun _ => 32) (dim3.toVec (f (numberOf p.2)))
    obtain ⟨k', hk', -⟩ := key_some (fun _ => 0) (fun _ => 32) (dim3.toVec (f (numberOf p'.2)))
    have d1 : latticeSetup.keyOf p.2 = some k := by
      rw [c1, keyOf_comps (by norm_num)]
      exact hk
    have d2 : latticeSetup.keyOf p'.2 = some k' := by
      rw [c1', keyOf_comps (by norm_num)]
      exact hk'
    refine e4 r r' ps ps' hps hps' p hp p' hp' k k' d1 d2 ?_
    have q1 := key_lattice H c2 hk
    have q2 := key_lattice H c2' hk'
    rcases Nat.lt_or_ge (place (numberOf p.2)) (place (numberOf p'.2)) with h | h
    · rw [← q1, ← q2] at h
      exact (lt_of_not_ge fun hge => absurd (Nat.div_le_div_right (c := 8 ^ 37) hge) (Nat.not_le.2 h)).le
    · have := place_inj c2 c2' (by omega)
      rw [← this, hk] at hk'
      exact (Option.some.inj hk').le
  have hnd : deal.flatten.Nodup := hflat.nodup_iff.2 List.nodup_range
  have hgetD : ∀ {s i j : ℕ}, (deal.getD s [])[i]? = some j → ∃ l, deal[s]? = some l ∧ j ∈ l := by
    intro s i j hs
    rw [List.getD_eq_getElem?_getD] at hs
    cases he : deal[s]? with
    | none => rw [he] at hs; simp at hs
    | some l => rw [he] at hs; exact ⟨l, rfl, List.mem_of_getElem? hs⟩
  refine ⟨world.map fun ps => ps.map Prod.snd, deal, ⟨world, e1, ?_⟩, ?_, hlen, ?_⟩
  · rw [List.forall₂_map_right_iff]
    exact List.forall₂_same.2 fun _ _ => List.Perm.refl _
  · refine ⟨?_, ?_, ?_, ?_⟩
    · intro l hl
      obtain ⟨r, hr⟩ := List.getElem?_of_mem hl
      obtain ⟨ps, hps, rfl⟩ := hget r l hr
      rw [ne_eq, List.map_eq_nil_iff]
      exact (e2 r ps hps).2
    · intro j
      rw [← List.mem_range, ← hflat.mem_iff]
      constructor
      · intro hj
        obtain ⟨l, hl, hjl⟩ := List.mem_flatten.1 hj
        obtain ⟨s, hs⟩ := List.getElem?_of_mem hl
        obtain ⟨i, hi⟩ := List.getElem?_of_mem hjl
        refine ⟨s, i, ?_⟩
        rw [List.getD_eq_getElem?_getD, hs]
        exact hi
      · rintro ⟨s, i, h⟩
        obtain ⟨l, hl, hj⟩ := hgetD h
        exact List.mem_flatten.2 ⟨l, List.mem_of_getElem? hl, hj⟩
    · exact fun s i s' i' j h h' => indices_unique hnd h h'
    · intro s i i' x y h h'
      obtain ⟨l, hl, hx⟩ := hgetD h
      obtain ⟨l', hl', hy⟩ := hgetD h'
      rw [hl] at hl'
      obtain rfl := Option.some.inj hl'
      have hsN : s < N := by rw [← hlen]; exact (List.getElem?_eq_some_iff.1 hl).1
      have hlt : ∀ {x}, x ∈ l → x < 32768 := fun hx =>
        List.mem_range.1 (hflat.mem_iff.1 (List.mem_flatten.2 ⟨l, List.mem_of_getElem? hl, hx⟩))
      have hbounds : ∀ {x}, x ∈ l → 8 * a s ≤ place x ∧ place x < 8 * b s := by
        intro x hx
        obtain ⟨p1, p2⟩ := place_bounds hlen hflat hloads hmono hl hx
        have := ha s hsN
        refine ⟨by omega, ?_⟩
        by_cases hs1 : s + 1 < N
        · exact lt_of_lt_of_le (p2 hs1) (hb s hs1)
        · obtain rfl : s = N - 1 := by omega
          exact lt_of_lt_of_le (place_lt x) hb'
      exact compact_near (hcomp s hsN) (hlt hx) (hlt hy) (hbounds hx).1 (hbounds hx).2 (hbounds hy).1 (hbounds hy).2
  · unfold Setup.world dealtWorld
    show numbered (fun _ => 0) (fun _ => 32) _ _ = _
    congr 1
    rw [← hdeal, List.map_map, List.map_map]
    refine List.map_congr_left fun ps hps => ?_
    dsimp only [Function.comp]
    rw [List.map_map, List.map_map]
    refine List.map_congr_left fun p hp => ?_
    dsimp only [Function.comp]
    rw [(hcomps ps hps p hp).1, position_lattice, numberOf_comps]
    rfl

theorem lattice_started8 (H : Cubes f) {order : List (List ℕ)} (ho : order.flatten.Perm (List.range 32768)) :
    ∃ rows G, Started latticeSetup 2 8 (latticeFiles f order) rows ∧ Ready 1 false (latticeSetup.world ⟨5, 5⟩ rows) G := by
  obtain ⟨rows, deal, h1, h2, h3, h4⟩ := lattice_started H ho (N := 8) (t := 4096) (by norm_num) (by norm_num) (by norm_num) compact8
    (fun r hr => by omega) (fun r hr => by omega) (by norm_num)
  obtain ⟨G, hG⟩ := dealt_ready h2 H false
  exact ⟨rows, G, h1, by rw [h4]; exact hG⟩

theorem lattice_started16 (H : Cubes f) {order : List (List ℕ)} (ho : order.flatten.Perm (List.range 32768)) :
    ∃ rows G, Started latticeSetup 2 16 (latticeFiles f order) rows ∧ Ready 1 false (latticeSetup.world ⟨5, 5⟩ rows) G := by
  obtain ⟨rows, deal, h1, h2, h3, h4⟩ := lattice_started H ho (N := 16) (t := 2048) (by norm_num) (by norm_num) (by norm_num) compact16
    (fun r hr => by omega) (fun r hr => by omega) (by norm_num)
  obtain ⟨G, hG⟩ := dealt_ready h2 H false
  exact ⟨rows, G, h1, by rw [h4]; exact hG⟩

/-- A cell absorbs more if it is large and counts the time; the number of the particle is its temperature. -/
noncomputable def exampleChemistry : Chemistry (Vec 3 ℝ) ℝ (ℝ × ℝ) where
  numDirs := 2
  dir := fun n d => if (n + d) % 2 = 0 then ⟨1, 0, 0⟩ else ⟨-1, 0, 0⟩
  rotate := fun _ l => l.reverse
  makePositive := fun x => max x 0
  init := fun a _ => (0, ((a 1).getD 0) 0)
  absorb := fun _ _ s x => x / (1 + s.1)
  react := fun dt _ _ c _ _ => (c.1 + dt, c.2)
  timescale := fun _ => ⊤
  safety := 1 / 10

/-- C103: one run reads one file on 8 ranks, the other one two files with the reversed rows on 16 ranks; after five calls the
first writes three files, the second two, with the numbers of the particles, the volumes, the temperatures and the rates. -/
example : ∃ (f : ℕ → Predicates.P3 ℝ) (rows rows' : List (List (Comps (Vec 3 ℝ)))) (G G' : ℕ → List (Name Sweep.Id × Cell))
    (w0 w w0' w' : Whole ℝ (ℝ × ℝ)),
    Started latticeSetup 2 8 (latticeFiles f [List.range 32768]) rows ∧
    Started latticeSetup 2 16 (latticeFiles f [(List.range 32768).reverse.take 20000, (List.range 32768).reverse.drop 20000]) rows' ∧
    Ready 1 false (latticeSetup.world ⟨5, 5⟩ rows) G ∧ Ready 1 false (latticeSetup.world ⟨5, 5⟩ rows') G' ∧
    Simulated (exampleChemistry.physics 10 (fun _ => 1) rows G) w0 w ∧ Simulated (exampleChemistry.physics 3 (fun _ => 1) rows' G') w0' w' ∧
    w.calls = 5 ∧ w'.calls = 5 ∧ w'.time = w.time ∧
    let field := fun (a : Comps (Vec 3 ℝ)) (s : ℝ × ℝ) (c : ℝ × ℝ) (r : List ℝ) => (a 1, s, c, r)
    ∃ store store' out out', writeSnapshot (outputData 2 field rows G w) 3 (List.range 8) = some store ∧
      writeSnapshot (outputData 2 field rows' G' w') 2 (List.range 16).reverse = some store' ∧
      store.files = some out ∧ store'.files = some out' ∧ out.flatten.length = 32768 ∧ out'.flatten.Perm out.flatten := by
  obtain ⟨f, H⟩ := cubes_exist
  have o1 : ([List.range 32768] : List (List ℕ)).flatten.Perm (List.range 32768) := by
    generalize List.range 32768 = l
    simp
  have o2 : ([(List.range 32768).reverse.take 20000, (List.range 32768).reverse.drop 20000] : List (List ℕ)).flatten.Perm
      (List.range 32768) := by
    generalize List.range 32768 = l
    generalize 20000 = n
    simp only [List.flatten_cons, List.flatten_nil, List.append_nil, List.take_append_drop]
    exact List.reverse_perm l
  have hfiles : (latticeFiles f [(List.range 32768).reverse.take 20000, (List.range 32768).reverse.drop 20000]).flatten.Perm
      (latticeFiles f [List.range 32768]).flatten := by
    rw [latticeFiles_flatten, latticeFiles_flatten]
    exact (o2.trans o1.symm).map _
  obtain ⟨rows, G, hs, R⟩ := lattice_started8 H o1
  obtain ⟨rows', G', hs', R'⟩ := lattice_started16 H o2
  have hl := (hs.perm (by norm_num)).2
  have hl' := (hs'.perm (by norm_num)).2
  have hN : (latticeSetup.world ⟨5, 5⟩ rows).particles.length = 8 := by simp [Setup.world, numbered, hl]
  have hN' : (latticeSetup.world ⟨5, 5⟩ rows').particles.length = 16 := by simp [Setup.world, numbered, hl']
  obtain ⟨w0, h0⟩ := simulation_starts (R := ℝ) (numLevels := 1) R (by norm_num) (by norm_num) 1
    (fun u => exampleChemistry.init (rowOf rows u) (sizesOf G u))
  obtain ⟨w, hw, hc⟩ := simulation_exists (Ph := exampleChemistry.physics 10 (fun _ => 1) rows G) R (by omega) (by norm_num) (by norm_num) h0 5
  obtain ⟨w0', h0'⟩ := simulation_starts (R := ℝ) (numLevels := 1) R' (by norm_num) (by norm_num) 1
    (fun u => exampleChemistry.init (rowOf rows' u) (sizesOf G' u))
  obtain ⟨w', hw', hc'⟩ := simulation_exists (Ph := exampleChemistry.physics 3 (fun _ => 1) rows' G') R' (by omega) (by norm_num) (by norm_num) h0' 5
  rw [hN] at h0
  rw [hN'] at h0'
  obtain ⟨p1, p2⟩ := program_output (by norm_num) hfiles hs hs' R R' (by norm_num) (fun _ _ _ => rfl) h0 h0' hw hw' (hc'.trans hc.symm)
  refine ⟨f, rows, rows', G, G', w0, w, w0', w', hs, hs', R, R', hw, hw', hc, hc', p1, ?_⟩
  obtain ⟨store, store', out, out', q1, q2, q3, q4, q5, q6⟩ := p2 _ (fun a s c r => (a 1, s, c, r)) 3 2 (List.range 8) (List.range 16).reverse
    (by norm_num) (by norm_num) (List.Perm.refl _) (List.reverse_perm _)
  refine ⟨store, store', out, out', q1, q2, q3, q4, ?_, q6⟩
  rw [q5]
  exact (lattice_hyps H o1).1

/-! ### Rows of different files -/

/-- **C102, limit.**  If the datasets of a file have different numbers of rows, but the datasets of all files together have the
same, this is not noticed: here the first dataset has rows 1 and 2 in the first and row 3 in the second file, the other dataset row
10 in the first and rows 20 and 30 in the second file, and one particle gets row 2 of the first and row 20 of the second file. -/
theorem rows_of_files_mixed :
    (readRank [[[1, 2], [3]], [[10], [20, 30]]] 1 0).map (fun ps => ps.map fun p => (p.1, p.2 0, p.2 1)) =
      some [(0, some 1, some 10), (1, some 2, some 20), (2, some 3, some 30)] := by decide +kernel

end Verif.Startup
