import Verif.Parallel.Generic
import Verif.Parallel.Props

/-! # A world in which all ranks build their grid, for the examples

The cubic box of side length 12 contains one particle on each of 1728 ranks, close to the centres of the unit cubes and in
general position. -/

namespace Verif.Parallel

open Verif.Geometry Verif.Halo Verif.Delaunay
open Verif.Predicates (P3 orient3 distSq3)

/-- The centre of unit cube `j`. -/
noncomputable def latticePoint (j : ℕ) : P3 ℝ := ⟨(j % 12 : ℕ) + 1 / 2, (j / 12 % 12 : ℕ) + 1 / 2, (j / 144 : ℕ) + 1 / 2⟩

/-- The world with particles at `f`, named by `name`. -/
noncomputable def latticeWorld {Id : Type} (name : ℕ → Id) (f : ℕ → P3 ℝ) : World 3 Id :=
  ⟨fun _ => 0, fun _ => 12, ⟨5, 5⟩, (List.range 1728).map fun j => [(name j, dim3.toVec (f j))]⟩

/-- The vertices of the initial tetrahedron. -/
noncomputable def latticeCorner : ℕ → P3 ℝ
  | 0 => (Predicates.Tetra.allEncompassing (⟨-12, -12, -12⟩ : P3 ℝ) ⟨24, 24, 24⟩).p1
  | 1 => (Predicates.Tetra.allEncompassing (⟨-12, -12, -12⟩ : P3 ℝ) ⟨24, 24, 24⟩).p2
  | 2 => (Predicates.Tetra.allEncompassing (⟨-12, -12, -12⟩ : P3 ℝ) ⟨24, 24, 24⟩).p3
  | _ => (Predicates.Tetra.allEncompassing (⟨-12, -12, -12⟩ : P3 ℝ) ⟨24, 24, 24⟩).p4

/-- The periodic translations. -/
noncomputable def latticeShifts : List (P3 ℝ) :=
  allWraps3.map fun w => ⟨shift (w 0) * 12, shift (w 1) * 12, shift (w 2) * 12⟩

/-- What the positions satisfy. -/
structure Lattice (f : ℕ → P3 ℝ) : Prop where
  close : ∀ j, j < 1728 → ∃ t : ℝ, 0 < t ∧ t < 1 ∧ f j = curve (latticePoint j) (1 / 100) t
  gen : Gen (sites latticeCorner latticeShifts f 1728)

theorem lattice_exists : ∃ f, Lattice f := by
  obtain ⟨f, h1, h2⟩ := exists_generic latticeCorner (by
      rw [Predicates.orient3_eq]
      simp only [latticeCorner, Predicates.Tetra.allEncompassing, Predicates.P3.sub]
      norm_num) latticeShifts latticePoint (u := 1 / 100) (by norm_num) 1728
  exact ⟨f, h1, h2⟩

variable {Id : Type} {name : ℕ → Id} {f : ℕ → P3 ℝ}

theorem lattice_ofRank {s : ℕ} {q : Id × Vec 3 ℝ} :
    q ∈ (latticeWorld name f).ofRank s ↔ s < 1728 ∧ q = (name s, dim3.toVec (f s)) := by
  unfold World.ofRank latticeWorld
  dsimp only
  rw [List.getD_eq_getElem?_getD, List.getElem?_map]
  by_cases hs : s < 1728
  · rw [List.getElem?_range hs]
    simp [hs]
  · rw [List.getElem?_eq_none (by rw [List.length_range]; omega)]
    simp [hs]

theorem lattice_coord (H : Lattice f) {j : ℕ} (hj : j < 1728) :
    (((j % 12 : ℕ) : ℝ) + 1 / 2 < (f j).x ∧ (f j).x < ((j % 12 : ℕ) : ℝ) + 51 / 100) ∧
    (((j / 12 % 12 : ℕ) : ℝ) + 1 / 2 < (f j).y ∧ (f j).y < ((j / 12 % 12 : ℕ) : ℝ) + 51 / 100) ∧
    (((j / 144 : ℕ) : ℝ) + 1 / 2 < (f j).z ∧ (f j).z < ((j / 144 : ℕ) : ℝ) + 51 / 100) := by
  obtain ⟨t, h0, h1, e⟩ := H.close j hj
  rw [e]
  unfold curve latticePoint
  dsimp only
  have t2 : 0 < t ^ 2 := by positivity
  have t3 : 0 < t ^ 3 := by positivity
  have s2 : t ^ 2 < 1 := pow_lt_one₀ h0.le h1 (by norm_num)
  have s3 : t ^ 3 < 1 := pow_lt_one₀ h0.le h1 (by norm_num)
  refine ⟨⟨?_, ?_⟩, ⟨?_, ?_⟩, ⟨?_, ?_⟩⟩ <;> linarith

theorem lattice_inside (H : Lattice f) {j : ℕ} (hj : j < 1728) (i : Fin 3) :
    0 < dim3.toVec (f j) i ∧ dim3.toVec (f j) i < 12 := by
  obtain ⟨⟨x1, x2⟩, ⟨y1, y2⟩, z1, z2⟩ := lattice_coord H hj
  have a1 : ((j % 12 : ℕ) : ℝ) ≤ 11 := by
    have : j % 12 ≤ 11 := by omega
    exact_mod_cast this
  have a2 : ((j / 12 % 12 : ℕ) : ℝ) ≤ 11 := by
    have : j / 12 % 12 ≤ 11 := by omega
    exact_mod_cast this
  have a3 : ((j / 144 : ℕ) : ℝ) ≤ 11 := by
    have : j / 144 ≤ 11 := by omega
    exact_mod_cast this
  have b1 : (0 : ℝ) ≤ ((j % 12 : ℕ) : ℝ) := Nat.cast_nonneg _
  have b2 : (0 : ℝ) ≤ ((j / 12 % 12 : ℕ) : ℝ) := Nat.cast_nonneg _
  have b3 : (0 : ℝ) ≤ ((j / 144 : ℕ) : ℝ) := Nat.cast_nonneg _
  match i with
  | 0 => exact ⟨show 0 < (f j).x by linarith, show (f j).x < 12 by linarith⟩
  | 1 => exact ⟨show 0 < (f j).y by linarith, show (f j).y < 12 by linarith⟩
  | 2 => exact ⟨show 0 < (f j).z by linarith, show (f j).z < 12 by linarith⟩

theorem lattice_open (H : Lattice f) : ∀ r, ∀ p ∈ (latticeWorld name f).ofRank r, ∀ i, p.2 i < (latticeWorld name f).hi i := by
  intro r p hp i
  obtain ⟨hr, rfl⟩ := lattice_ofRank.1 hp
  exact (lattice_inside H hr i).2

theorem lattice_length : (latticeWorld name f).particles.length = 1728 := by
  unfold latticeWorld
  rw [List.length_map, List.length_range]

theorem lattice_valid (H : Lattice f) : (latticeWorld name f).Valid where
  box i := by
    show (0 : ℝ) < 12
    norm_num
  inside r p hp i := by
    obtain ⟨hr, rfl⟩ := lattice_ofRank.1 hp
    exact ⟨(lattice_inside H hr i).1.le, (lattice_inside H hr i).2.le⟩
  nonempty l hl := by
    unfold latticeWorld at hl
    dsimp only at hl
    generalize List.range 1728 = r at hl
    obtain ⟨j, -, rfl⟩ := List.mem_map.1 hl
    exact List.cons_ne_nil _ _
  ids r := by
    unfold World.ofRank latticeWorld
    dsimp only
    rw [List.getD_eq_getElem?_getD, List.getElem?_map]
    by_cases hs : r < 1728
    · rw [List.getElem?_range hs]
      simp
    · rw [List.getElem?_eq_none (by rw [List.length_range]; omega)]
      simp

theorem lattice_image (k : Fin 3 → ℤ) (v : Vec 3 ℝ) (i : Fin 3) :
    image (latticeWorld name f).box k v i = v i + k i * 12 := by
  show v i + k i * ((12 : ℝ) - 0) = _
  ring

theorem lattice_cell (H : Lattice f) (p : Id × Vec 3 ℝ) : (latticeWorld name f).CellWithin p (89 / 100) := by
  intro y hy
  obtain ⟨m, hm⟩ : ∃ m : Fin 3 → ℤ, ∀ i, (m i : ℝ) ≤ y i ∧ y i < m i + 1 :=
    ⟨fun i => ⌊y i⌋, fun i => ⟨Int.floor_le _, Int.lt_floor_add_one _⟩⟩
  obtain ⟨a, ha⟩ : ∃ a : Fin 3 → ℕ, ∀ i, (a i : ℤ) = m i % 12 ∧ a i < 12 := by
    refine ⟨fun i => (m i % 12).toNat, fun i => ?_⟩
    have h1 := Int.emod_nonneg (m i) (show (12 : ℤ) ≠ 0 by norm_num)
    have h2 := Int.emod_lt_of_pos (m i) (show (0 : ℤ) < 12 by norm_num)
    dsimp only
    omega
  have l0 := (ha 0).2
  have l1 := (ha 1).2
  have l2 := (ha 2).2
  obtain ⟨j, hj⟩ : ∃ j, j = a 0 + 12 * a 1 + 144 * a 2 := ⟨_, rfl⟩
  have hlt : j < 1728 := by omega
  have e0 : j % 12 = a 0 := by omega
  have e1 : j / 12 % 12 = a 1 := by omega
  have e2 : j / 144 = a 2 := by omega
  have h1 := hy j (name j, dim3.toVec (f j)) (fun i => m i / 12) (lattice_ofRank.2 ⟨hlt, rfl⟩)
  refine h1.trans_lt ?_
  have hco : ∀ i, |y i - image (latticeWorld name f).box (fun i => m i / 12) (dim3.toVec (f j)) i| ≤ 51 / 100 := by
    have hdec : ∀ i, (m i : ℝ) = a i + ((m i / 12 : ℤ) : ℝ) * 12 := by
      intro i
      have : m i = a i + (m i / 12) * 12 := by
        have := (ha i).1
        omega
      exact_mod_cast this
    obtain ⟨⟨x1, x2⟩, ⟨y1, y2⟩, z1, z2⟩ := lattice_coord H hlt
    rw [e0] at x1 x2
    rw [e1] at y1 y2
    rw [e2] at z1 z2
    intro i
    rw [lattice_image, abs_le]
    obtain ⟨c1, c2⟩ := hm i
    have c3 := hdec i
    match i with
    | 0 =>
      show _ ≤ y 0 - ((f j).x + _) ∧ y 0 - ((f j).x + _) ≤ _
      constructor <;> linarith
    | 1 =>
      show _ ≤ y 1 - ((f j).y + _) ∧ y 1 - ((f j).y + _) ≤ _
      constructor <;> linarith
    | 2 =>
      show _ ≤ y 2 - ((f j).z + _) ∧ y 2 - ((f j).z + _) ≤ _
      constructor <;> linarith
  unfold distance Geometry.length
  rw [Real.sqrt_lt' (by norm_num), Fin.sum_univ_three]
  dsimp only at hco ⊢
  have g0 := sq_le_sq' (abs_le.1 (hco 0)).1 (abs_le.1 (hco 0)).2
  have g1 := sq_le_sq' (abs_le.1 (hco 1)).1 (abs_le.1 (hco 1)).2
  have g2 := sq_le_sq' (abs_le.1 (hco 2)).1 (abs_le.1 (hco 2)).2
  norm_num at g0 g1 g2 ⊢
  linarith

/-- Only one image of a particle is close to the particle of a rank. -/
theorem lattice_once {own s : ℕ} {q q' : Id × Vec 3 ℝ} {k k' : Fin 3 → ℤ} (h : (latticeWorld name f).Near own (57 / 10) s q k)
    (h' : (latticeWorld name f).Near own (57 / 10) s q' k') : q = q' ∧ k = k' := by
  obtain ⟨h1, p, hp, h2⟩ := h
  obtain ⟨h1', p', hp', h2'⟩ := h'
  obtain ⟨-, rfl⟩ := lattice_ofRank.1 hp
  obtain ⟨-, rfl⟩ := lattice_ofRank.1 hp'
  obtain ⟨-, rfl⟩ := lattice_ofRank.1 h1
  obtain ⟨-, rfl⟩ := lattice_ofRank.1 h1'
  refine ⟨rfl, ?_⟩
  funext i
  dsimp only at h2 h2'
  have t := distance_triangle (image (latticeWorld name f).box k (dim3.toVec (f s))) (dim3.toVec (f own))
    (image (latticeWorld name f).box k' (dim3.toVec (f s)))
  rw [distance_comm' _ (dim3.toVec (f own))] at t
  have hc := component_le_length (fun i => image (latticeWorld name f).box k (dim3.toVec (f s)) i -
    image (latticeWorld name f).box k' (dim3.toVec (f s)) i) i
  have hlt : |image (latticeWorld name f).box k (dim3.toVec (f s)) i - image (latticeWorld name f).box k' (dim3.toVec (f s)) i| < 12 := by
    refine lt_of_le_of_lt hc ?_
    unfold distance at t h2 h2'
    linarith
  rw [lattice_image, lattice_image] at hlt
  have e : dim3.toVec (f s) i + k i * 12 - (dim3.toVec (f s) i + k' i * 12) = ((k i - k' i : ℤ) : ℝ) * 12 := by
    push_cast
    ring
  rw [e, abs_lt] at hlt
  have a1 : ((k i - k' i : ℤ) : ℝ) < 1 := by linarith
  have a2 : (-1 : ℝ) < ((k i - k' i : ℤ) : ℝ) := by linarith
  have b1 : k i - k' i < 1 := by exact_mod_cast a1
  have b2 : -1 < k i - k' i := by exact_mod_cast a2
  omega

theorem lattice_enlarged : (latticeWorld name f).enlarged = (⟨-12, -12, -12⟩, ⟨24, 24, 24⟩) := by
  unfold World.enlarged withPeriodicImages World.corners latticeWorld dim3
  norm_num

/-- The site of a point which a rank may triangulate. -/
theorem lattice_site (H : Lattice f) {own : ℕ} {z : P3 ℝ} (h : (latticeWorld name f).Candidate own (57 / 10) z) :
    ∃ a ∈ sites latticeCorner latticeShifts f 1728, a.2 = z ∧
      (a.1 < 4 ∨ ∃ s q k, a.1 = 4 + s ∧ (latticeWorld name f).Near own (57 / 10) s q k ∧
        z = dim3.ofVec (image (latticeWorld name f).box k q.2)) := by
  unfold World.Candidate at h
  rw [lattice_enlarged] at h
  rcases h with rfl | rfl | rfl | rfl | ⟨s, q, k, hn, rfl⟩
  · exact ⟨(0, _), Or.inl ⟨by norm_num, rfl⟩, rfl, Or.inl (by norm_num)⟩
  · exact ⟨(1, _), Or.inl ⟨by norm_num, rfl⟩, rfl, Or.inl (by norm_num)⟩
  · exact ⟨(2, _), Or.inl ⟨by norm_num, rfl⟩, rfl, Or.inl (by norm_num)⟩
  · exact ⟨(3, _), Or.inl ⟨by norm_num, rfl⟩, rfl, Or.inl (by norm_num)⟩
  · obtain ⟨h1, p, hp, h2⟩ := id hn
    obtain ⟨w, rfl⟩ := near_shift (lattice_valid H) (L := 12) (fun i => by show (12 : ℝ) - 0 = 12; norm_num) hp h1
      (h2.trans (by norm_num))
    obtain ⟨hs, rfl⟩ := lattice_ofRank.1 h1
    refine ⟨(4 + s, _), Or.inr ⟨s, hs, ⟨shift (w 0) * 12, shift (w 1) * 12, shift (w 2) * 12⟩,
      List.mem_map.2 ⟨w, mem_allWraps3 w, rfl⟩, rfl⟩, ?_, Or.inr ⟨s, _, _, rfl, hn, rfl⟩⟩
    refine P3.ext ?_ ?_ ?_
    · show (f s).x + (shift (w 0) : ℝ) * 12 = image (latticeWorld name f).box (fun i => shift (w i)) (dim3.toVec (f s)) 0
      rw [lattice_image]
      rfl
    · show (f s).y + (shift (w 1) : ℝ) * 12 = image (latticeWorld name f).box (fun i => shift (w i)) (dim3.toVec (f s)) 1
      rw [lattice_image]
      rfl
    · show (f s).z + (shift (w 2) : ℝ) * 12 = image (latticeWorld name f).box (fun i => shift (w i)) (dim3.toVec (f s)) 2
      rw [lattice_image]
      rfl

theorem corner_site {a b : ℕ × P3 ℝ} (ha : a ∈ sites latticeCorner latticeShifts f 1728)
    (hb : b ∈ sites latticeCorner latticeShifts f 1728) (h4 : a.1 < 4) (e : a.1 = b.1) : a.2 = b.2 := by
  rcases ha with ⟨-, h1⟩ | ⟨j, -, v, -, rfl⟩
  · rcases hb with ⟨-, h2⟩ | ⟨j, -, v, -, rfl⟩
    · rw [h1, h2, e]
    · dsimp only at e
      omega
  · dsimp only at h4
    omega

theorem lattice_general (H : Lattice f) (own : ℕ) : (latticeWorld name f).General own (57 / 10) := by
  have hlab : ∀ {z z' : P3 ℝ} {a a' : ℕ × P3 ℝ}, a ∈ sites latticeCorner latticeShifts f 1728 →
      a' ∈ sites latticeCorner latticeShifts f 1728 → a.2 = z → a'.2 = z' →
      (a.1 < 4 ∨ ∃ s q k, a.1 = 4 + s ∧ (latticeWorld name f).Near own (57 / 10) s q k ∧
        z = dim3.ofVec (image (latticeWorld name f).box k q.2)) →
      (a'.1 < 4 ∨ ∃ s q k, a'.1 = 4 + s ∧ (latticeWorld name f).Near own (57 / 10) s q k ∧
        z' = dim3.ofVec (image (latticeWorld name f).box k q.2)) → z ≠ z' → a.1 ≠ a'.1 := by
    intro z z' a a' ha ha' e e' h h' hne hl
    refine hne ?_
    rcases h with h | ⟨s, q, k, e1, hn, rfl⟩
    · rw [← e, ← e', corner_site ha ha' h hl]
    · rcases h' with h' | ⟨s', q', k', e1', hn', rfl⟩
      · rw [← e, ← e', corner_site ha' ha h' hl.symm]
      · obtain rfl : s = s' := by omega
        obtain ⟨rfl, rfl⟩ := lattice_once hn hn'
        rfl
  refine ⟨?_, ?_, ?_⟩
  · intro s q k s' q' k' hn hn' e
    by_cases hs : s = s'
    · subst hs
      obtain ⟨rfl, rfl⟩ := lattice_once hn hn'
      rfl
    · exfalso
      have h1 : (latticeWorld name f).Candidate own (57 / 10) (dim3.ofVec (image (latticeWorld name f).box k q.2)) :=
        Or.inr (Or.inr (Or.inr (Or.inr ⟨s, q, k, hn, rfl⟩)))
      obtain ⟨w, hw⟩ : ∃ w : Fin 3 → WrapType, k = fun i => shift (w i) := by
        obtain ⟨m1, p, hp, m2⟩ := hn
        exact near_shift (lattice_valid H) (L := 12) (fun i => by show (12 : ℝ) - 0 = 12; norm_num) hp m1
          (m2.trans (by norm_num))
      obtain ⟨w', hw'⟩ : ∃ w : Fin 3 → WrapType, k' = fun i => shift (w i) := by
        obtain ⟨m1, p, hp, m2⟩ := hn'
        exact near_shift (lattice_valid H) (L := 12) (fun i => by show (12 : ℝ) - 0 = 12; norm_num) hp m1
          (m2.trans (by norm_num))
      obtain ⟨hs1, rfl⟩ := lattice_ofRank.1 hn.1
      obtain ⟨hs2, rfl⟩ := lattice_ofRank.1 hn'.1
      have hsite : ∀ (t : ℕ) (w : Fin 3 → WrapType), t < 1728 → (4 + t, dim3.ofVec (image (latticeWorld name f).box (fun i => shift (w i)) (dim3.toVec (f t)))) ∈
          sites latticeCorner latticeShifts f 1728 := by
        intro t w ht
        refine Or.inr ⟨t, ht, ⟨shift (w 0) * 12, shift (w 1) * 12, shift (w 2) * 12⟩,
          List.mem_map.2 ⟨w, mem_allWraps3 w, rfl⟩, ?_⟩
        congr 1
        refine P3.ext ?_ ?_ ?_
        · show image (latticeWorld name f).box (fun i => shift (w i)) (dim3.toVec (f t)) 0 = (f t).x + (shift (w 0) : ℝ) * 12
          rw [lattice_image]
          rfl
        · show image (latticeWorld name f).box (fun i => shift (w i)) (dim3.toVec (f t)) 1 = (f t).y + (shift (w 1) : ℝ) * 12
          rw [lattice_image]
          rfl
        · show image (latticeWorld name f).box (fun i => shift (w i)) (dim3.toVec (f t)) 2 = (f t).z + (shift (w 2) : ℝ) * 12
          rw [lattice_image]
          rfl
      have hc : ∀ i, i < 4 → (i, latticeCorner i) ∈ sites latticeCorner latticeShifts f 1728 := fun i hi => Or.inl ⟨hi, rfl⟩
      have hfl := H.gen.plane _ (hsite s w hs1) _ (hsite s' w' hs2) _ (hc 0 (by norm_num)) _ (hc 1 (by norm_num)) (by
        simp only [List.nodup_cons, List.mem_cons, List.not_mem_nil, or_false, not_or, not_false_eq_true,
          List.nodup_nil, and_true]
        omega)
      dsimp only at hfl e
      rw [← hw, ← hw', ← e, Predicates.orient3_eq] at hfl
      exact hfl (by dsimp only; ring)
  · intro p q r t hp hq hr ht hnd
    obtain ⟨a, ha, ea, la⟩ := lattice_site H hp
    obtain ⟨b, hb, eb, lb⟩ := lattice_site H hq
    obtain ⟨c, hc, ec, lc⟩ := lattice_site H hr
    obtain ⟨d, hd, ed, ld⟩ := lattice_site H ht
    simp only [List.nodup_cons, List.mem_cons, List.not_mem_nil, or_false, not_or, not_false_eq_true,
      List.nodup_nil, and_true] at hnd
    obtain ⟨⟨n1, n2, n3⟩, ⟨n4, n5⟩, n6⟩ := hnd
    have := H.gen.plane a ha b hb c hc d hd (by
      simp only [List.nodup_cons, List.mem_cons, List.not_mem_nil, or_false, not_or, not_false_eq_true,
        List.nodup_nil, and_true]
      exact ⟨⟨hlab ha hb ea eb la lb n1, hlab ha hc ea ec la lc n2, hlab ha hd ea ed la ld n3⟩,
        ⟨hlab hb hc eb ec lb lc n4, hlab hb hd eb ed lb ld n5⟩, hlab hc hd ec ed lc ld n6⟩)
    rw [ea, eb, ec, ed] at this
    exact this
  · intro p q r t z hp hq hr ht hz hnd o ho
    obtain ⟨a, ha, ea, la⟩ := lattice_site H hp
    obtain ⟨b, hb, eb, lb⟩ := lattice_site H hq
    obtain ⟨c, hc, ec, lc⟩ := lattice_site H hr
    obtain ⟨d, hd, ed, ld⟩ := lattice_site H ht
    obtain ⟨e, he, ee, le⟩ := lattice_site H hz
    simp only [List.nodup_cons, List.mem_cons, List.not_mem_nil, or_false, not_or, not_false_eq_true,
      List.nodup_nil, and_true] at hnd
    obtain ⟨⟨n1, n2, n3, n7⟩, ⟨n4, n5, n8⟩, ⟨n6, n9⟩, n10⟩ := hnd
    obtain ⟨o1, o2, o3, o4⟩ := ho
    refine H.gen.sphere a ha b hb c hc d hd e he ?_ o (distSq3 p o) ?_
    · simp only [List.nodup_cons, List.mem_cons, List.not_mem_nil, or_false, not_or, not_false_eq_true,
        List.nodup_nil, and_true]
      exact ⟨⟨hlab ha hb ea eb la lb n1, hlab ha hc ea ec la lc n2, hlab ha hd ea ed la ld n3, hlab ha he ea ee la le n7⟩,
        ⟨hlab hb hc eb ec lb lc n4, hlab hb hd eb ed lb ld n5, hlab hb he eb ee lb le n8⟩,
        ⟨hlab hc hd ec ed lc ld n6, hlab hc he ec ee lc le n9⟩, hlab hd he ed ee ld le n10⟩
    · rw [ea, eb, ec, ed, ee]
      exact ⟨rfl, o1.symm, o2.symm, o3.symm, o4.symm⟩

/-- All ranks build their grid. -/
theorem lattice_built [DecidableEq Id] (H : Lattice f) (periodic : Bool) : ∀ own, own < 1728 → ∃ (n : ℕ) (g : Grid3 Id) (G : List (Name Id × SweepCell Id)),
    constructRank 1 1 (fun _ => 0) popHead_ok 3126 1 (List.range 1728) (latticeWorld name f) own n = some g ∧
    g.sweepGrid 1 periodic = some G ∧ Built 1 periodic (latticeWorld name f) own G := by
  intro own hown
  have hc : ∀ i, (latticeWorld name f).hi i - (latticeWorld name f).lo i = (latticeWorld name f).hi 0 - (latticeWorld name f).lo 0 := fun i => rfl
  have ho : (List.range 1728).Perm (List.range (latticeWorld name f).particles.length) := by rw [lattice_length]
  have hL : (latticeWorld name f).hi 0 - (latticeWorld name f).lo 0 = 12 := by
    show (12 : ℝ) - 0 = 12
    norm_num
  obtain ⟨n, g, h⟩ := construct_ends (eps := 1) (eps' := 1) one_pos one_pos (fun _ => 0) popHead_ok (fuel := 3126) (len := 1)
    (lattice_valid H) hc ho (own := own) (by
      have : ((latticeWorld name f).ofRank own).length = 1 := by
        unfold World.ofRank latticeWorld
        dsimp only
        rw [List.getD_eq_getElem?_getD, List.getElem?_map, List.getElem?_range hown]
        rfl
      rw [this]
      norm_num) (h := 89 / 100) (M := 57 / 20) (by norm_num) one_pos (by norm_num) (by norm_num) (by rw [hL]; norm_num)
    (fun p _ => lattice_cell H p) (by
      have := lattice_general (name := name) H own
      norm_num at this ⊢
      exact this)
  obtain ⟨G, hG, -⟩ := grid_complete one_pos one_pos (lattice_valid H) hc ho h periodic
  exact ⟨n, g, G, h, hG, one_pos, 1, fun _ => 0, popHead, popHead_ok, 3126, 1, List.range 1728, n, g, one_pos, ho, h, hG⟩

end Verif.Parallel
