import Verif.Parallel.Generic
import Verif.Sim.Props
import Verif.Parallel.SameSpec

/-! # Particles on the ranks which the startup chooses, for the examples

The cubic box of side length 32 contains 32768 particles close to the centres of the unit cubes and in general position.  They
are dealt out to ranks in any way in which the coordinates of the particles of a rank differ by less than 20. -/

namespace Verif.Startup

open Verif.Sim

open Verif.Parallel Verif.Geometry Verif.Halo Verif.Delaunay
open Verif.Predicates (P3 orient3 distSq3)

/-- The centre of unit cube `j`. -/
noncomputable def cubePoint (j : ℕ) : P3 ℝ := ⟨(j % 32 : ℕ) + 1 / 2, (j / 32 % 32 : ℕ) + 1 / 2, (j / 1024 : ℕ) + 1 / 2⟩

/-- The world with particles at `f`: rank `r` has those with the numbers `deal[r]`. -/
noncomputable def dealtWorld (deal : List (List ℕ)) (f : ℕ → P3 ℝ) : World 3 Sweep.Id :=
  numbered (fun _ => 0) (fun _ => 32) ⟨5, 5⟩ (deal.map fun l => l.map fun j => dim3.toVec (f j))

/-- Every particle is on one rank, no rank is empty, and the particles of a rank are not far apart. -/
structure Deal (deal : List (List ℕ)) : Prop where
  nonempty : ∀ l ∈ deal, l ≠ []
  all : ∀ j, j < 32768 ↔ ∃ s i : ℕ, (deal.getD s [])[i]? = some j
  once : ∀ s i s' i' j : ℕ, (deal.getD s [])[i]? = some j → (deal.getD s' [])[i']? = some j → s = s' ∧ i = i'
  together : ∀ s i i' a b : ℕ, (deal.getD s [])[i]? = some a → (deal.getD s [])[i']? = some b →
    a % 32 < b % 32 + 20 ∧ a / 32 % 32 < b / 32 % 32 + 20 ∧ a / 1024 < b / 1024 + 20

/-- The vertices of the initial tetrahedron. -/
noncomputable def cubeCorner : ℕ → P3 ℝ
  | 0 => (Predicates.Tetra.allEncompassing (⟨-32, -32, -32⟩ : P3 ℝ) ⟨64, 64, 64⟩).p1
  | 1 => (Predicates.Tetra.allEncompassing (⟨-32, -32, -32⟩ : P3 ℝ) ⟨64, 64, 64⟩).p2
  | 2 => (Predicates.Tetra.allEncompassing (⟨-32, -32, -32⟩ : P3 ℝ) ⟨64, 64, 64⟩).p3
  | _ => (Predicates.Tetra.allEncompassing (⟨-32, -32, -32⟩ : P3 ℝ) ⟨64, 64, 64⟩).p4

/-- The periodic translations. -/
noncomputable def cubeShifts : List (P3 ℝ) :=
  allWraps3.map fun w => ⟨shift (w 0) * 32, shift (w 1) * 32, shift (w 2) * 32⟩

/-- What the positions satisfy. -/
structure Cubes (f : ℕ → P3 ℝ) : Prop where
  close : ∀ j, j < 32768 → ∃ t : ℝ, 0 < t ∧ t < 1 ∧ f j = curve (cubePoint j) (1 / 100) t
  gen : Gen (sites cubeCorner cubeShifts f 32768)

theorem cubes_exist : ∃ f, Cubes f := by
  obtain ⟨f, h1, h2⟩ := exists_generic cubeCorner (by
      rw [Predicates.orient3_eq]
      simp only [cubeCorner, Predicates.Tetra.allEncompassing, Predicates.P3.sub]
      norm_num) cubeShifts cubePoint (u := 1 / 100) (by norm_num) 32768
  exact ⟨f, h1, h2⟩

variable {deal : List (List ℕ)} {f : ℕ → P3 ℝ}

theorem dealt_ofRank {s : ℕ} {q : Sweep.Id × Vec 3 ℝ} : q ∈ (dealtWorld deal f).ofRank s ↔
    ∃ i j : ℕ, (deal.getD s [])[i]? = some j ∧ q = (⟨s, i⟩, dim3.toVec (f j)) := by
  have hg : (deal.map fun l => l.map fun j => dim3.toVec (f j)).getD s [] = (deal.getD s []).map fun j => dim3.toVec (f j) := by
    rw [List.getD_eq_getElem?_getD, List.getD_eq_getElem?_getD, List.getElem?_map]
    cases deal[s]? <;> rfl
  rw [List.mem_iff_getElem?]
  unfold dealtWorld
  simp only [(ids_count_particles _ _ _ _).1, hg, List.getElem?_map, Option.map_map, Option.map_eq_some_iff, Function.comp]
  exact exists_congr fun i => exists_congr fun j => and_congr_right fun _ => eq_comm

theorem dealt_coord (H : Cubes f) {j : ℕ} (hj : j < 32768) :
    (((j % 32 : ℕ) : ℝ) + 1 / 2 < (f j).x ∧ (f j).x < ((j % 32 : ℕ) : ℝ) + 51 / 100) ∧
    (((j / 32 % 32 : ℕ) : ℝ) + 1 / 2 < (f j).y ∧ (f j).y < ((j / 32 % 32 : ℕ) : ℝ) + 51 / 100) ∧
    (((j / 1024 : ℕ) : ℝ) + 1 / 2 < (f j).z ∧ (f j).z < ((j / 1024 : ℕ) : ℝ) + 51 / 100) := by
  obtain ⟨t, h0, h1, e⟩ := H.close j hj
  rw [e]
  unfold curve cubePoint
  dsimp only
  have t2 : 0 < t ^ 2 := by positivity
  have t3 : 0 < t ^ 3 := by positivity
  have s2 : t ^ 2 < 1 := pow_lt_one₀ h0.le h1 (by norm_num)
  have s3 : t ^ 3 < 1 := pow_lt_one₀ h0.le h1 (by norm_num)
  refine ⟨⟨?_, ?_⟩, ⟨?_, ?_⟩, ⟨?_, ?_⟩⟩ <;> linarith

theorem dealt_inside (H : Cubes f) {j : ℕ} (hj : j < 32768) (i : Fin 3) :
    0 < dim3.toVec (f j) i ∧ dim3.toVec (f j) i < 32 := by
  obtain ⟨⟨x1, x2⟩, ⟨y1, y2⟩, z1, z2⟩ := dealt_coord H hj
  have a1 : ((j % 32 : ℕ) : ℝ) ≤ 31 := by
    have : j % 32 ≤ 31 := by omega
    exact_mod_cast this
  have a2 : ((j / 32 % 32 : ℕ) : ℝ) ≤ 31 := by
    have : j / 32 % 32 ≤ 31 := by omega
    exact_mod_cast this
  have a3 : ((j / 1024 : ℕ) : ℝ) ≤ 31 := by
    have : j / 1024 ≤ 31 := by omega
    exact_mod_cast this
  have b1 : (0 : ℝ) ≤ ((j % 32 : ℕ) : ℝ) := Nat.cast_nonneg _
  have b2 : (0 : ℝ) ≤ ((j / 32 % 32 : ℕ) : ℝ) := Nat.cast_nonneg _
  have b3 : (0 : ℝ) ≤ ((j / 1024 : ℕ) : ℝ) := Nat.cast_nonneg _
  match i with
  | 0 => exact ⟨show 0 < (f j).x by linarith, show (f j).x < 32 by linarith⟩
  | 1 => exact ⟨show 0 < (f j).y by linarith, show (f j).y < 32 by linarith⟩
  | 2 => exact ⟨show 0 < (f j).z by linarith, show (f j).z < 32 by linarith⟩

theorem dealt_open (D : Deal deal) (H : Cubes f) : ∀ r, ∀ p ∈ (dealtWorld deal f).ofRank r, ∀ i, p.2 i < (dealtWorld deal f).hi i := by
  intro r p hp i
  obtain ⟨n, j, hj, rfl⟩ := dealt_ofRank.1 hp
  exact (dealt_inside H ((D.all j).2 ⟨r, n, hj⟩) i).2

theorem dealt_length : (dealtWorld deal f).particles.length = deal.length := by
  unfold dealtWorld numbered
  rw [List.length_map, List.length_zipIdx, List.length_map]

theorem dealt_numbered : Numbered (dealtWorld deal f) := (ids_count_particles _ _ _ _).2.2

theorem dealt_rank_length (s : ℕ) : ((dealtWorld deal f).ofRank s).length = (deal.getD s []).length := by
  have hg : (deal.map fun l => l.map fun j => dim3.toVec (f j)).getD s [] = (deal.getD s []).map fun j => dim3.toVec (f j) := by
    rw [List.getD_eq_getElem?_getD, List.getD_eq_getElem?_getD, List.getElem?_map]
    cases deal[s]? <;> rfl
  have h : ∀ i : ℕ, i < ((dealtWorld deal f).ofRank s).length ↔ i < (deal.getD s []).length := by
    intro i
    have := (ids_count_particles (fun _ => 0) (fun _ => 32) ⟨5, 5⟩ (deal.map fun l => l.map fun j => dim3.toVec (f j))).1 s i
    rw [hg, List.getElem?_map, Option.map_map] at this
    rw [← not_iff_not, not_lt, not_lt, ← List.getElem?_eq_none_iff, ← List.getElem?_eq_none_iff]
    unfold dealtWorld
    rw [this, Option.map_eq_none_iff]
  have h1 := h ((dealtWorld deal f).ofRank s).length
  have h2 := h (deal.getD s []).length
  omega

theorem dealt_valid (D : Deal deal) (H : Cubes f) : (dealtWorld deal f).Valid where
  box i := by
    show (0 : ℝ) < 32
    norm_num
  inside r p hp i := by
    obtain ⟨n, j, hj, rfl⟩ := dealt_ofRank.1 hp
    have hj := (D.all j).2 ⟨r, n, hj⟩
    exact ⟨(dealt_inside H hj i).1.le, (dealt_inside H hj i).2.le⟩
  nonempty l hl := by
    obtain ⟨r, hr, e⟩ := List.mem_iff_getElem.1 hl
    have h1 : (dealtWorld deal f).ofRank r = l := by
      unfold World.ofRank
      rw [List.getD_eq_getElem?_getD, List.getElem?_eq_getElem hr, e]
      rfl
    have hr' : r < deal.length := by rw [← dealt_length (f := f)]; exact hr
    have h2 := dealt_rank_length (deal := deal) (f := f) r
    rw [h1, List.getD_eq_getElem?_getD, List.getElem?_eq_getElem hr', Option.getD_some] at h2
    have h3 := List.length_pos_of_ne_nil (D.nonempty _ (List.getElem_mem hr'))
    exact List.ne_nil_of_length_pos (by omega)
  ids r := by
    rw [dealt_numbered r]
    refine List.Nodup.map (fun a b e => ?_) List.nodup_range
    cases e
    rfl

theorem dealt_image (k : Fin 3 → ℤ) (v : Vec 3 ℝ) (i : Fin 3) :
    image (dealtWorld deal f).box k v i = v i + k i * 32 := by
  show v i + k i * ((32 : ℝ) - 0) = _
  ring

theorem dealt_cell (D : Deal deal) (H : Cubes f) (p : Sweep.Id × Vec 3 ℝ) : (dealtWorld deal f).CellWithin p (89 / 100) := by
  intro y hy
  obtain ⟨m, hm⟩ : ∃ m : Fin 3 → ℤ, ∀ i, (m i : ℝ) ≤ y i ∧ y i < m i + 1 :=
    ⟨fun i => ⌊y i⌋, fun i => ⟨Int.floor_le _, Int.lt_floor_add_one _⟩⟩
  obtain ⟨a, ha⟩ : ∃ a : Fin 3 → ℕ, ∀ i, (a i : ℤ) = m i % 32 ∧ a i < 32 := by
    refine ⟨fun i => (m i % 32).toNat, fun i => ?_⟩
    have h1 := Int.emod_nonneg (m i) (show (32 : ℤ) ≠ 0 by norm_num)
    have h2 := Int.emod_lt_of_pos (m i) (show (0 : ℤ) < 32 by norm_num)
    dsimp only
    omega
  have l0 := (ha 0).2
  have l1 := (ha 1).2
  have l2 := (ha 2).2
  obtain ⟨j, hj⟩ : ∃ j, j = a 0 + 32 * a 1 + 1024 * a 2 := ⟨_, rfl⟩
  have hlt : j < 32768 := by omega
  have e0 : j % 32 = a 0 := by omega
  have e1 : j / 32 % 32 = a 1 := by omega
  have e2 : j / 1024 = a 2 := by omega
  obtain ⟨s, n, hsn⟩ := (D.all j).1 hlt
  have h1 := hy s (⟨s, n⟩, dim3.toVec (f j)) (fun i => m i / 32) (dealt_ofRank.2 ⟨n, j, hsn, rfl⟩)
  refine h1.trans_lt ?_
  have hco : ∀ i, |y i - image (dealtWorld deal f).box (fun i => m i / 32) (dim3.toVec (f j)) i| ≤ 51 / 100 := by
    have hdec : ∀ i, (m i : ℝ) = a i + ((m i / 32 : ℤ) : ℝ) * 32 := by
      intro i
      have : m i = a i + (m i / 32) * 32 := by
        have := (ha i).1
        omega
      exact_mod_cast this
    obtain ⟨⟨x1, x2⟩, ⟨y1, y2⟩, z1, z2⟩ := dealt_coord H hlt
    rw [e0] at x1 x2
    rw [e1] at y1 y2
    rw [e2] at z1 z2
    intro i
    rw [dealt_image, abs_le]
    obtain ⟨c1, c2⟩ := hm i
    have c3 := hdec i
    match i with
    | 0 =>
      show _ ≤ y 0 - ((f j).x + _) ∧ y 0 - ((f j).x + _) ≤ _
      constructor <;> linarith
    | 1 =>
      show _ ≤ y 1 - ((f j).y + _) ∧ y 1 - ((f j).y + _) ≤ _
      constructor <;> linarith
    | 2 =>
      show _ ≤ y 2 - ((f j).z + _) ∧ y 2 - ((f j).z + _) ≤ _
      constructor <;> linarith
  unfold distance Geometry.length
  rw [Real.sqrt_lt' (by norm_num), Fin.sum_univ_three]
  dsimp only at hco ⊢
  have g0 := sq_le_sq' (abs_le.1 (hco 0)).1 (abs_le.1 (hco 0)).2
  have g1 := sq_le_sq' (abs_le.1 (hco 1)).1 (abs_le.1 (hco 1)).2
  have g2 := sq_le_sq' (abs_le.1 (hco 2)).1 (abs_le.1 (hco 2)).2
  norm_num at g0 g1 g2 ⊢
  linarith

/-- The particles of a rank are not far apart. -/
theorem dealt_near (H : Cubes f) {a b : ℕ} (ha : a < 32768) (hb : b < 32768)
    (h : a % 32 < b % 32 + 20 ∧ a / 32 % 32 < b / 32 % 32 + 20 ∧ a / 1024 < b / 1024 + 20) (i : Fin 3) :
    dim3.toVec (f a) i - dim3.toVec (f b) i < 20 := by
  obtain ⟨⟨x1, x2⟩, ⟨y1, y2⟩, z1, z2⟩ := dealt_coord H ha
  obtain ⟨⟨u1, u2⟩, ⟨v1, v2⟩, w1, w2⟩ := dealt_coord H hb
  obtain ⟨e1, e2, e3⟩ := h
  have e1 : ((a % 32 : ℕ) : ℝ) + 1 ≤ (b % 32 : ℕ) + 20 := by exact_mod_cast e1
  have e2 : ((a / 32 % 32 : ℕ) : ℝ) + 1 ≤ (b / 32 % 32 : ℕ) + 20 := by exact_mod_cast e2
  have e3 : ((a / 1024 : ℕ) : ℝ) + 1 ≤ (b / 1024 : ℕ) + 20 := by exact_mod_cast e3
  match i with
  | 0 => show (f a).x - (f b).x < 20; linarith
  | 1 => show (f a).y - (f b).y < 20; linarith
  | 2 => show (f a).z - (f b).z < 20; linarith

/-- Only one image of a particle is close to the particles of a rank. -/
theorem dealt_once (D : Deal deal) (H : Cubes f) {own s s' n n' j : ℕ} {k k' : Fin 3 → ℤ}
    (h : (dealtWorld deal f).Near own (57 / 10) s (⟨s, n⟩, dim3.toVec (f j)) k)
    (h' : (dealtWorld deal f).Near own (57 / 10) s' (⟨s', n'⟩, dim3.toVec (f j)) k') : k = k' := by
  obtain ⟨-, p, hp, h2⟩ := h
  obtain ⟨-, p', hp', h2'⟩ := h'
  obtain ⟨m, a, ha, rfl⟩ := dealt_ofRank.1 hp
  obtain ⟨m', a', ha', rfl⟩ := dealt_ofRank.1 hp'
  have hn := fun i => dealt_near H ((D.all a).2 ⟨_, _, ha⟩) ((D.all a').2 ⟨_, _, ha'⟩) (D.together _ _ _ _ _ ha ha') i
  have hn' := fun i => dealt_near H ((D.all a').2 ⟨_, _, ha'⟩) ((D.all a).2 ⟨_, _, ha⟩) (D.together _ _ _ _ _ ha' ha) i
  funext i
  dsimp only at h2 h2'
  have c1 := component_le_length (fun i => dim3.toVec (f a) i - image (dealtWorld deal f).box k (dim3.toVec (f j)) i) i
  have c2 := component_le_length (fun i => dim3.toVec (f a') i - image (dealtWorld deal f).box k' (dim3.toVec (f j)) i) i
  have hlt : |image (dealtWorld deal f).box k (dim3.toVec (f j)) i - image (dealtWorld deal f).box k' (dim3.toVec (f j)) i| < 32 := by
    unfold distance at h2 h2'
    have d1 := abs_lt.1 (lt_of_le_of_lt c1 h2)
    have d2 := abs_lt.1 (lt_of_le_of_lt c2 h2')
    have n1 := hn i
    have n2 := hn' i
    rw [abs_lt]
    constructor <;> linarith [d1.1, d1.2, d2.1, d2.2]
  rw [dealt_image, dealt_image] at hlt
  have e : dim3.toVec (f j) i + k i * 32 - (dim3.toVec (f j) i + k' i * 32) = ((k i - k' i : ℤ) : ℝ) * 32 := by
    push_cast
    ring
  rw [e, abs_lt] at hlt
  have a1 : ((k i - k' i : ℤ) : ℝ) < 1 := by linarith
  have a2 : (-1 : ℝ) < ((k i - k' i : ℤ) : ℝ) := by linarith
  have b1 : k i - k' i < 1 := by exact_mod_cast a1
  have b2 : -1 < k i - k' i := by exact_mod_cast a2
  omega

theorem dealt_enlarged : (dealtWorld deal f).enlarged = (⟨-32, -32, -32⟩, ⟨64, 64, 64⟩) := by
  unfold World.enlarged withPeriodicImages World.corners dealtWorld numbered dim3
  norm_num

/-- The site of a point which a rank may triangulate. -/
theorem dealt_site (D : Deal deal) (H : Cubes f) {own : ℕ} {z : P3 ℝ} (h : (dealtWorld deal f).Candidate own (57 / 10) z) :
    ∃ a ∈ sites cubeCorner cubeShifts f 32768, a.2 = z ∧
      (a.1 < 4 ∨ ∃ s n j k, a.1 = 4 + j ∧ (dealtWorld deal f).Near own (57 / 10) s (⟨s, n⟩, dim3.toVec (f j)) k ∧
        z = dim3.ofVec (image (dealtWorld deal f).box k (dim3.toVec (f j)))) := by
  unfold World.Candidate at h
  rw [dealt_enlarged] at h
  rcases h with rfl | rfl | rfl | rfl | ⟨s, q, k, hn, rfl⟩
  · exact ⟨(0, _), Or.inl ⟨by norm_num, rfl⟩, rfl, Or.inl (by norm_num)⟩
  · exact ⟨(1, _), Or.inl ⟨by norm_num, rfl⟩, rfl, Or.inl (by norm_num)⟩
  · exact ⟨(2, _), Or.inl ⟨by norm_num, rfl⟩, rfl, Or.inl (by norm_num)⟩
  · exact ⟨(3, _), Or.inl ⟨by norm_num, rfl⟩, rfl, Or.inl (by norm_num)⟩
  · obtain ⟨h1, p, hp, h2⟩ := id hn
    obtain ⟨w, rfl⟩ := near_shift (dealt_valid D H) (L := 32) (fun i => by show (32 : ℝ) - 0 = 32; norm_num) hp h1
      (h2.trans (by norm_num))
    obtain ⟨n, j, hj, rfl⟩ := dealt_ofRank.1 h1
    refine ⟨(4 + j, _), Or.inr ⟨j, (D.all j).2 ⟨s, n, hj⟩, ⟨shift (w 0) * 32, shift (w 1) * 32, shift (w 2) * 32⟩,
      List.mem_map.2 ⟨w, mem_allWraps3 w, rfl⟩, rfl⟩, ?_, Or.inr ⟨s, n, j, _, rfl, hn, rfl⟩⟩
    refine P3.ext ?_ ?_ ?_
    · show (f j).x + (shift (w 0) : ℝ) * 32 = image (dealtWorld deal f).box (fun i => shift (w i)) (dim3.toVec (f j)) 0
      rw [dealt_image]
      rfl
    · show (f j).y + (shift (w 1) : ℝ) * 32 = image (dealtWorld deal f).box (fun i => shift (w i)) (dim3.toVec (f j)) 1
      rw [dealt_image]
      rfl
    · show (f j).z + (shift (w 2) : ℝ) * 32 = image (dealtWorld deal f).box (fun i => shift (w i)) (dim3.toVec (f j)) 2
      rw [dealt_image]
      rfl

theorem corner_site {a b : ℕ × P3 ℝ} (ha : a ∈ sites cubeCorner cubeShifts f 32768)
    (hb : b ∈ sites cubeCorner cubeShifts f 32768) (h4 : a.1 < 4) (e : a.1 = b.1) : a.2 = b.2 := by
  rcases ha with ⟨-, h1⟩ | ⟨j, -, v, -, rfl⟩
  · rcases hb with ⟨-, h2⟩ | ⟨j, -, v, -, rfl⟩
    · rw [h1, h2, e]
    · dsimp only at e
      omega
  · dsimp only at h4
    omega

theorem dealt_general (D : Deal deal) (H : Cubes f) (own : ℕ) : (dealtWorld deal f).General own (57 / 10) := by
  have hlab : ∀ {z z' : P3 ℝ} {a a' : ℕ × P3 ℝ}, a ∈ sites cubeCorner cubeShifts f 32768 →
      a' ∈ sites cubeCorner cubeShifts f 32768 → a.2 = z → a'.2 = z' →
      (a.1 < 4 ∨ ∃ s n j k, a.1 = 4 + j ∧ (dealtWorld deal f).Near own (57 / 10) s (⟨s, n⟩, dim3.toVec (f j)) k ∧
        z = dim3.ofVec (image (dealtWorld deal f).box k (dim3.toVec (f j)))) →
      (a'.1 < 4 ∨ ∃ s n j k, a'.1 = 4 + j ∧ (dealtWorld deal f).Near own (57 / 10) s (⟨s, n⟩, dim3.toVec (f j)) k ∧
        z' = dim3.ofVec (image (dealtWorld deal f).box k (dim3.toVec (f j)))) → z ≠ z' → a.1 ≠ a'.1 := by
    intro z z' a a' ha ha' e e' h h' hne hl
    refine hne ?_
    rcases h with h | ⟨s, n, j, k, e1, hn, rfl⟩
    · rw [← e, ← e', corner_site ha ha' h hl]
    · rcases h' with h' | ⟨s', n', j', k', e1', hn', rfl⟩
      · rw [← e, ← e', corner_site ha' ha h' hl.symm]
      · obtain rfl : j = j' := by omega
        rw [dealt_once D H hn hn']
  refine ⟨?_, ?_, ?_⟩
  · intro s q k s' q' k' hn hn' e
    obtain ⟨n, j, hj, rfl⟩ := dealt_ofRank.1 hn.1
    obtain ⟨n', j', hj', rfl⟩ := dealt_ofRank.1 hn'.1
    by_cases hs : j = j'
    · subst hs
      rw [dealt_once D H hn hn', (D.once _ _ _ _ _ hj hj').1, (D.once _ _ _ _ _ hj hj').2]
    · exfalso
      obtain ⟨w, hw⟩ : ∃ w : Fin 3 → WrapType, k = fun i => shift (w i) := by
        obtain ⟨m1, p, hp, m2⟩ := hn
        exact near_shift (dealt_valid D H) (L := 32) (fun i => by show (32 : ℝ) - 0 = 32; norm_num) hp m1
          (m2.trans (by norm_num))
      obtain ⟨w', hw'⟩ : ∃ w : Fin 3 → WrapType, k' = fun i => shift (w i) := by
        obtain ⟨m1, p, hp, m2⟩ := hn'
        exact near_shift (dealt_valid D H) (L := 32) (fun i => by show (32 : ℝ) - 0 = 32; norm_num) hp m1
          (m2.trans (by norm_num))
      have hs1 := (D.all j).2 ⟨_, _, hj⟩
      have hs2 := (D.all j').2 ⟨_, _, hj'⟩
      have hsite : ∀ (t : ℕ) (w : Fin 3 → WrapType), t < 32768 → (4 + t, dim3.ofVec (image (dealtWorld deal f).box (fun i => shift (w i)) (dim3.toVec (f t)))) ∈
          sites cubeCorner cubeShifts f 32768 := by
        intro t w ht
        refine Or.inr ⟨t, ht, ⟨shift (w 0) * 32, shift (w 1) * 32, shift (w 2) * 32⟩,
          List.mem_map.2 ⟨w, mem_allWraps3 w, rfl⟩, ?_⟩
        congr 1
        refine P3.ext ?_ ?_ ?_
        · show image (dealtWorld deal f).box (fun i => shift (w i)) (dim3.toVec (f t)) 0 = (f t).x + (shift (w 0) : ℝ) * 32
          rw [dealt_image]
          rfl
        · show image (dealtWorld deal f).box (fun i => shift (w i)) (dim3.toVec (f t)) 1 = (f t).y + (shift (w 1) : ℝ) * 32
          rw [dealt_image]
          rfl
        · show image (dealtWorld deal f).box (fun i => shift (w i)) (dim3.toVec (f t)) 2 = (f t).z + (shift (w 2) : ℝ) * 32
          rw [dealt_image]
          rfl
      have hc : ∀ i, i < 4 → (i, cubeCorner i) ∈ sites cubeCorner cubeShifts f 32768 := fun i hi => Or.inl ⟨hi, rfl⟩
      have hfl := H.gen.plane _ (hsite j w hs1) _ (hsite j' w' hs2) _ (hc 0 (by norm_num)) _ (hc 1 (by norm_num)) (by
        simp only [List.nodup_cons, List.mem_cons, List.not_mem_nil, or_false, not_or, not_false_eq_true,
          List.nodup_nil, and_true]
        omega)
      dsimp only at hfl e
      rw [← hw, ← hw', ← e, Predicates.orient3_eq] at hfl
      exact hfl (by dsimp only; ring)
  · intro p q r t hp hq hr ht hnd
    obtain ⟨a, ha, ea, la⟩ := dealt_site D H hp
    obtain ⟨b, hb, eb, lb⟩ := dealt_site D H hq
    obtain ⟨c, hc, ec, lc⟩ := dealt_site D H hr
    obtain ⟨d, hd, ed, ld⟩ := dealt_site D H ht
    simp only [List.nodup_cons, List.mem_cons, List.not_mem_nil, or_false, not_or, not_false_eq_true,
      List.nodup_nil, and_true] at hnd
    obtain ⟨⟨n1, n2, n3⟩, ⟨n4, n5⟩, n6⟩ := hnd
    have := H.gen.plane a ha b hb c hc d hd (by
      simp only [List.nodup_cons, List.mem_cons, List.not_mem_nil, or_false, not_or, not_false_eq_true,
        List.nodup_nil, and_true]
      exact ⟨⟨hlab ha hb ea eb la lb n1, hlab ha hc ea ec la lc n2, hlab ha hd ea ed la ld n3⟩,
        ⟨hlab hb hc eb ec lb lc n4, hlab hb hd eb ed lb ld n5⟩, hlab hc hd ec ed lc ld n6⟩)
    rw [ea, eb, ec, ed] at this
    exact this
  · intro p q r t z hp hq hr ht hz hnd o ho
    obtain ⟨a, ha, ea, la⟩ := dealt_site D H hp
    obtain ⟨b, hb, eb, lb⟩ := dealt_site D H hq
    obtain ⟨c, hc, ec, lc⟩ := dealt_site D H hr
    obtain ⟨d, hd, ed, ld⟩ := dealt_site D H ht
    obtain ⟨e, he, ee, le⟩ := dealt_site D H hz
    simp only [List.nodup_cons, List.mem_cons, List.not_mem_nil, or_false, not_or, not_false_eq_true,
      List.nodup_nil, and_true] at hnd
    obtain ⟨⟨n1, n2, n3, n7⟩, ⟨n4, n5, n8⟩, ⟨n6, n9⟩, n10⟩ := hnd
    obtain ⟨o1, o2, o3, o4⟩ := ho
    refine H.gen.sphere a ha b hb c hc d hd e he ?_ o (distSq3 p o) ?_
    · simp only [List.nodup_cons, List.mem_cons, List.not_mem_nil, or_false, not_or, not_false_eq_true,
        List.nodup_nil, and_true]
      exact ⟨⟨hlab ha hb ea eb la lb n1, hlab ha hc ea ec la lc n2, hlab ha hd ea ed la ld n3, hlab ha he ea ee la le n7⟩,
        ⟨hlab hb hc eb ec lb lc n4, hlab hb hd eb ed lb ld n5, hlab hb he eb ee lb le n8⟩,
        ⟨hlab hc hd ec ed lc ld n6, hlab hc he ec ee lc le n9⟩, hlab hd he ed ee ld le n10⟩
    · rw [ea, eb, ec, ed, ee]
      exact ⟨rfl, o1.symm, o2.symm, o3.symm, o4.symm⟩

/-- All ranks build their grid. -/
theorem dealt_built (D : Deal deal) (H : Cubes f) (periodic : Bool) (own : ℕ) :
    ∃ G, Built 1 periodic (dealtWorld deal f) own G := by
  have hc : ∀ i, (dealtWorld deal f).hi i - (dealtWorld deal f).lo i = (dealtWorld deal f).hi 0 - (dealtWorld deal f).lo 0 := fun i => rfl
  have ho : (List.range deal.length).Perm (List.range (dealtWorld deal f).particles.length) := by rw [dealt_length]
  have hL : (dealtWorld deal f).hi 0 - (dealtWorld deal f).lo 0 = 32 := by
    show (32 : ℝ) - 0 = 32
    norm_num
  obtain ⟨n, g, h⟩ := construct_ends (eps := 1) (eps' := 1) one_pos one_pos (fun _ => 0) popHead_ok (fuel := 5 * (4 + ((dealtWorld deal f).ofRank own).length) ^ 4 + 1) (len := 1)
    (dealt_valid D H) hc ho (own := own) le_rfl (h := 89 / 100) (M := 57 / 20) (by norm_num) one_pos (by norm_num) (by norm_num) (by rw [hL]; norm_num)
    (fun p _ => dealt_cell D H p) (by
      have := dealt_general (deal := deal) D H own
      norm_num at this ⊢
      exact this)
  obtain ⟨G, hG, -⟩ := grid_complete one_pos one_pos (dealt_valid D H) hc ho h periodic
  exact ⟨G, one_pos, 1, fun _ => 0, popHead, popHead_ok, 5 * (4 + ((dealtWorld deal f).ofRank own).length) ^ 4 + 1, 1, List.range deal.length, n, g, one_pos, ho, h, hG⟩

theorem dealt_ready (D : Deal deal) (H : Cubes f) (periodic : Bool) : ∃ G, Ready 1 periodic (dealtWorld deal f) G := by
  have hb : ∀ r, ∃ G, r < (dealtWorld deal f).particles.length → Built 1 periodic (dealtWorld deal f) r G := by
    intro r
    by_cases hr : r < deal.length
    · obtain ⟨G, B⟩ := dealt_built D H periodic r
      exact ⟨G, fun _ => B⟩
    · exact ⟨[], fun h => absurd (dealt_length (deal := deal) (f := f) ▸ h) hr⟩
  choose G hG using hb
  exact ⟨G, dealt_valid D H, fun _ => rfl, dealt_open D H, dealt_numbered, hG⟩

end Verif.Startup
