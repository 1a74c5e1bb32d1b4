import Verif.Parallel.PlaneGeneric
import Verif.Parallel.PlaneProps

/-! # A world in which all ranks build their grid, for the examples

The square box of side length 12 contains one particle on each of 144 ranks, close to the centres of the unit squares and in
general position. -/

namespace Verif.Parallel.Plane

open Verif.Geometry Verif.Halo Verif.Delaunay
open Verif.Predicates (P2 Triangle2 orient2 distSq2)

/-- The centre of unit square `j`. -/
noncomputable def latticePoint (j : ℕ) : P2 ℝ := ⟨(j % 12 : ℕ) + 1 / 2, (j / 12 : ℕ) + 1 / 2⟩

/-- The world with particles at `f`, named by `name`. -/
noncomputable def latticeWorld {Id : Type} (name : ℕ → Id) (f : ℕ → P2 ℝ) : World 2 Id :=
  ⟨fun _ => 0, fun _ => 12, ⟨5, 5⟩, (List.range 144).map fun j => [(name j, dim2.toVec (f j))]⟩

/-- The vertices of the initial triangle. -/
noncomputable def latticeCorner : ℕ → P2 ℝ
  | 0 => (Triangle2.allEncompassing (⟨-12, -12⟩ : P2 ℝ) ⟨24, 24⟩).p1
  | 1 => (Triangle2.allEncompassing (⟨-12, -12⟩ : P2 ℝ) ⟨24, 24⟩).p2
  | _ => (Triangle2.allEncompassing (⟨-12, -12⟩ : P2 ℝ) ⟨24, 24⟩).p3

/-- The periodic translations. -/
noncomputable def latticeShifts : List (P2 ℝ) :=
  allWraps2.map fun w => ⟨shift (w 0) * 12, shift (w 1) * 12⟩

/-- What the positions satisfy. -/
structure Lattice (f : ℕ → P2 ℝ) : Prop where
  close : ∀ j, j < 144 → ∃ t : ℝ, 0 < t ∧ t < 1 ∧ f j = curve (latticePoint j) (1 / 100) t
  gen : Gen (sites latticeCorner latticeShifts f 144)

theorem lattice_exists : ∃ f, Lattice f := by
  obtain ⟨f, h1, h2⟩ := exists_generic latticeCorner (by
      simp only [latticeCorner, Triangle2.allEncompassing, orient2]
      norm_num) latticeShifts latticePoint (u := 1 / 100) (by norm_num) 144
  exact ⟨f, h1, h2⟩

variable {Id : Type} {name : ℕ → Id} {f : ℕ → P2 ℝ}

theorem lattice_ofRank {s : ℕ} {q : Id × Vec 2 ℝ} :
    q ∈ (latticeWorld name f).ofRank s ↔ s < 144 ∧ q = (name s, dim2.toVec (f s)) := by
  unfold World.ofRank latticeWorld
  dsimp only
  rw [List.getD_eq_getElem?_getD, List.getElem?_map]
  by_cases hs : s < 144
  · rw [List.getElem?_range hs]
    simp [hs]
  · rw [List.getElem?_eq_none (by rw [List.length_range]; omega)]
    simp [hs]

theorem lattice_coord (H : Lattice f) {j : ℕ} (hj : j < 144) :
    (((j % 12 : ℕ) : ℝ) + 1 / 2 < (f j).x ∧ (f j).x < ((j % 12 : ℕ) : ℝ) + 51 / 100) ∧
    (((j / 12 : ℕ) : ℝ) + 1 / 2 < (f j).y ∧ (f j).y < ((j / 12 : ℕ) : ℝ) + 51 / 100) := by
  obtain ⟨t, h0, h1, e⟩ := H.close j hj
  rw [e]
  unfold curve latticePoint
  dsimp only
  have t3 : 0 < t ^ 3 := by positivity
  have s3 : t ^ 3 < 1 := pow_lt_one₀ h0.le h1 (by norm_num)
  refine ⟨⟨?_, ?_⟩, ⟨?_, ?_⟩⟩ <;> linarith

theorem lattice_inside (H : Lattice f) {j : ℕ} (hj : j < 144) (i : Fin 2) :
    0 < dim2.toVec (f j) i ∧ dim2.toVec (f j) i < 12 := by
  obtain ⟨⟨x1, x2⟩, y1, y2⟩ := lattice_coord H hj
  have a1 : ((j % 12 : ℕ) : ℝ) ≤ 11 := by
    have : j % 12 ≤ 11 := by omega
    exact_mod_cast this
  have a2 : ((j / 12 : ℕ) : ℝ) ≤ 11 := by
    have : j / 12 ≤ 11 := by omega
    exact_mod_cast this
  have b1 : (0 : ℝ) ≤ ((j % 12 : ℕ) : ℝ) := Nat.cast_nonneg _
  have b2 : (0 : ℝ) ≤ ((j / 12 : ℕ) : ℝ) := Nat.cast_nonneg _
  match i with
  | 0 => exact ⟨show 0 < (f j).x by linarith, show (f j).x < 12 by linarith⟩
  | 1 => exact ⟨show 0 < (f j).y by linarith, show (f j).y < 12 by linarith⟩

theorem lattice_open (H : Lattice f) : ∀ r, ∀ p ∈ (latticeWorld name f).ofRank r, ∀ i, p.2 i < (latticeWorld name f).hi i := by
  intro r p hp i
  obtain ⟨hr, rfl⟩ := lattice_ofRank.1 hp
  exact (lattice_inside H hr i).2

theorem lattice_length : (latticeWorld name f).particles.length = 144 := by
  unfold latticeWorld
  rw [List.length_map, List.length_range]

theorem lattice_valid (H : Lattice f) : (latticeWorld name f).Valid where
  box i := by
    show (0 : ℝ) < 12
    norm_num
  inside r p hp i := by
    obtain ⟨hr, rfl⟩ := lattice_ofRank.1 hp
    exact ⟨(lattice_inside H hr i).1.le, (lattice_inside H hr i).2.le⟩
  nonempty l hl := by
    unfold latticeWorld at hl
    dsimp only at hl
    generalize List.range 144 = r at hl
    obtain ⟨j, -, rfl⟩ := List.mem_map.1 hl
    exact List.cons_ne_nil _ _
  ids r := by
    unfold World.ofRank latticeWorld
    dsimp only
    rw [List.getD_eq_getElem?_getD, List.getElem?_map]
    by_cases hs : r < 144
    · rw [List.getElem?_range hs]
      simp
    · rw [List.getElem?_eq_none (by rw [List.length_range]; omega)]
      simp

theorem lattice_image (k : Fin 2 → ℤ) (v : Vec 2 ℝ) (i : Fin 2) :
    image (latticeWorld name f).box k v i = v i + k i * 12 := by
  show v i + k i * ((12 : ℝ) - 0) = _
  ring

theorem lattice_cell (H : Lattice f) (p : Id × Vec 2 ℝ) : CellWithin (latticeWorld name f) p (89 / 100) := by
  intro y hy
  obtain ⟨m, hm⟩ : ∃ m : Fin 2 → ℤ, ∀ i, (m i : ℝ) ≤ y i ∧ y i < m i + 1 :=
    ⟨fun i => ⌊y i⌋, fun i => ⟨Int.floor_le _, Int.lt_floor_add_one _⟩⟩
  obtain ⟨a, ha⟩ : ∃ a : Fin 2 → ℕ, ∀ i, (a i : ℤ) = m i % 12 ∧ a i < 12 := by
    refine ⟨fun i => (m i % 12).toNat, fun i => ?_⟩
    have h1 := Int.emod_nonneg (m i) (show (12 : ℤ) ≠ 0 by norm_num)
    have h2 := Int.emod_lt_of_pos (m i) (show (0 : ℤ) < 12 by norm_num)
    dsimp only
    omega
  have l0 := (ha 0).2
  have l1 := (ha 1).2
  obtain ⟨j, hj⟩ : ∃ j, j = a 0 + 12 * a 1 := ⟨_, rfl⟩
  have hlt : j < 144 := by omega
  have e0 : j % 12 = a 0 := by omega
  have e1 : j / 12 = a 1 := by omega
  have h1 := hy j (name j, dim2.toVec (f j)) (fun i => m i / 12) (lattice_ofRank.2 ⟨hlt, rfl⟩)
  refine h1.trans_lt ?_
  have hco : ∀ i, |y i - image (latticeWorld name f).box (fun i => m i / 12) (dim2.toVec (f j)) i| ≤ 51 / 100 := by
    have hdec : ∀ i, (m i : ℝ) = a i + ((m i / 12 : ℤ) : ℝ) * 12 := by
      intro i
      have : m i = a i + (m i / 12) * 12 := by
        have := (ha i).1
        omega
      exact_mod_cast this
    obtain ⟨⟨x1, x2⟩, y1, y2⟩ := lattice_coord H hlt
    rw [e0] at x1 x2
    rw [e1] at y1 y2
    intro i
    rw [lattice_image, abs_le]
    obtain ⟨c1, c2⟩ := hm i
    have c3 := hdec i
    match i with
    | 0 =>
      show _ ≤ y 0 - ((f j).x + _) ∧ y 0 - ((f j).x + _) ≤ _
      constructor <;> linarith
    | 1 =>
      show _ ≤ y 1 - ((f j).y + _) ∧ y 1 - ((f j).y + _) ≤ _
      constructor <;> linarith
  unfold distance Geometry.length
  rw [Real.sqrt_lt' (by norm_num), Fin.sum_univ_two]
  dsimp only at hco ⊢
  have g0 := sq_le_sq' (abs_le.1 (hco 0)).1 (abs_le.1 (hco 0)).2
  have g1 := sq_le_sq' (abs_le.1 (hco 1)).1 (abs_le.1 (hco 1)).2
  norm_num at g0 g1 ⊢
  linarith

/-- Only one image of a particle is close to the particle of a rank. -/
theorem lattice_once {own s : ℕ} {q q' : Id × Vec 2 ℝ} {k k' : Fin 2 → ℤ} (h : Near (latticeWorld name f) own (57 / 10) s q k)
    (h' : Near (latticeWorld name f) own (57 / 10) s q' k') : q = q' ∧ k = k' := by
  obtain ⟨h1, p, hp, h2⟩ := h
  obtain ⟨h1', p', hp', h2'⟩ := h'
  obtain ⟨-, rfl⟩ := lattice_ofRank.1 hp
  obtain ⟨-, rfl⟩ := lattice_ofRank.1 hp'
  obtain ⟨-, rfl⟩ := lattice_ofRank.1 h1
  obtain ⟨-, rfl⟩ := lattice_ofRank.1 h1'
  refine ⟨rfl, ?_⟩
  funext i
  dsimp only at h2 h2'
  have t := distance_triangle (image (latticeWorld name f).box k (dim2.toVec (f s))) (dim2.toVec (f own))
    (image (latticeWorld name f).box k' (dim2.toVec (f s)))
  rw [distance_comm' _ (dim2.toVec (f own))] at t
  have hc := component_le_length (fun i => image (latticeWorld name f).box k (dim2.toVec (f s)) i -
    image (latticeWorld name f).box k' (dim2.toVec (f s)) i) i
  have hlt : |image (latticeWorld name f).box k (dim2.toVec (f s)) i - image (latticeWorld name f).box k' (dim2.toVec (f s)) i| < 12 := by
    refine lt_of_le_of_lt hc ?_
    unfold distance at t h2 h2'
    linarith
  rw [lattice_image, lattice_image] at hlt
  have e : dim2.toVec (f s) i + k i * 12 - (dim2.toVec (f s) i + k' i * 12) = ((k i - k' i : ℤ) : ℝ) * 12 := by
    push_cast
    ring
  rw [e, abs_lt] at hlt
  have a1 : ((k i - k' i : ℤ) : ℝ) < 1 := by linarith
  have a2 : (-1 : ℝ) < ((k i - k' i : ℤ) : ℝ) := by linarith
  have b1 : k i - k' i < 1 := by exact_mod_cast a1
  have b2 : -1 < k i - k' i := by exact_mod_cast a2
  omega

theorem lattice_enlarged2 : (latticeWorld name f).enlarged2 = (⟨-12, -12⟩, ⟨24, 24⟩) := by
  unfold World.enlarged2 World.corners2 latticeWorld dim2
  norm_num

/-- The site of a point which a rank may triangulate. -/
theorem lattice_site (H : Lattice f) {own : ℕ} {z : P2 ℝ} (h : Candidate (latticeWorld name f) own (57 / 10) z) :
    ∃ a ∈ sites latticeCorner latticeShifts f 144, a.2 = z ∧
      (a.1 < 3 ∨ ∃ s q k, a.1 = 3 + s ∧ Near (latticeWorld name f) own (57 / 10) s q k ∧
        z = dim2.ofVec (image (latticeWorld name f).box k q.2)) := by
  unfold Candidate at h
  rw [lattice_enlarged2] at h
  rcases h with rfl | rfl | rfl | ⟨s, q, k, hn, rfl⟩
  · exact ⟨(0, _), Or.inl ⟨by norm_num, rfl⟩, rfl, Or.inl (by norm_num)⟩
  · exact ⟨(1, _), Or.inl ⟨by norm_num, rfl⟩, rfl, Or.inl (by norm_num)⟩
  · exact ⟨(2, _), Or.inl ⟨by norm_num, rfl⟩, rfl, Or.inl (by norm_num)⟩
  · obtain ⟨h1, p, hp, h2⟩ := id hn
    obtain ⟨w, rfl⟩ := near_shift (lattice_valid H) (L := 12) (fun i => by show (12 : ℝ) - 0 = 12; norm_num) hp h1
      (h2.trans (by norm_num))
    obtain ⟨hs, rfl⟩ := lattice_ofRank.1 h1
    refine ⟨(3 + s, _), Or.inr ⟨s, hs, ⟨shift (w 0) * 12, shift (w 1) * 12⟩,
      List.mem_map.2 ⟨w, mem_allWraps2 w, rfl⟩, rfl⟩, ?_, Or.inr ⟨s, _, _, rfl, hn, rfl⟩⟩
    refine P2.ext ?_ ?_
    · show (f s).x + (shift (w 0) : ℝ) * 12 = image (latticeWorld name f).box (fun i => shift (w i)) (dim2.toVec (f s)) 0
      rw [lattice_image]
      rfl
    · show (f s).y + (shift (w 1) : ℝ) * 12 = image (latticeWorld name f).box (fun i => shift (w i)) (dim2.toVec (f s)) 1
      rw [lattice_image]
      rfl

theorem corner_site {a b : ℕ × P2 ℝ} (ha : a ∈ sites latticeCorner latticeShifts f 144)
    (hb : b ∈ sites latticeCorner latticeShifts f 144) (h4 : a.1 < 3) (e : a.1 = b.1) : a.2 = b.2 := by
  rcases ha with ⟨-, h1⟩ | ⟨j, -, v, -, rfl⟩
  · rcases hb with ⟨-, h2⟩ | ⟨j, -, v, -, rfl⟩
    · rw [h1, h2, e]
    · dsimp only at e
      omega
  · dsimp only at h4
    omega

theorem lattice_general (H : Lattice f) (own : ℕ) : General (latticeWorld name f) own (57 / 10) := by
  have hlab : ∀ {z z' : P2 ℝ} {a a' : ℕ × P2 ℝ}, a ∈ sites latticeCorner latticeShifts f 144 →
      a' ∈ sites latticeCorner latticeShifts f 144 → a.2 = z → a'.2 = z' →
      (a.1 < 3 ∨ ∃ s q k, a.1 = 3 + s ∧ Near (latticeWorld name f) own (57 / 10) s q k ∧
        z = dim2.ofVec (image (latticeWorld name f).box k q.2)) →
      (a'.1 < 3 ∨ ∃ s q k, a'.1 = 3 + s ∧ Near (latticeWorld name f) own (57 / 10) s q k ∧
        z' = dim2.ofVec (image (latticeWorld name f).box k q.2)) → z ≠ z' → a.1 ≠ a'.1 := by
    intro z z' a a' ha ha' e e' h h' hne hl
    refine hne ?_
    rcases h with h | ⟨s, q, k, e1, hn, rfl⟩
    · rw [← e, ← e', corner_site ha ha' h hl]
    · rcases h' with h' | ⟨s', q', k', e1', hn', rfl⟩
      · rw [← e, ← e', corner_site ha' ha h' hl.symm]
      · obtain rfl : s = s' := by omega
        obtain ⟨rfl, rfl⟩ := lattice_once hn hn'
        rfl
  refine ⟨?_, ?_, ?_⟩
  · intro s q k s' q' k' hn hn' e
    by_cases hs : s = s'
    · subst hs
      obtain ⟨rfl, rfl⟩ := lattice_once hn hn'
      rfl
    · exfalso
      have h1 : Candidate (latticeWorld name f) own (57 / 10) (dim2.ofVec (image (latticeWorld name f).box k q.2)) :=
        Or.inr (Or.inr (Or.inr ⟨s, q, k, hn, rfl⟩))
      obtain ⟨w, hw⟩ : ∃ w : Fin 2 → WrapType, k = fun i => shift (w i) := by
        obtain ⟨m1, p, hp, m2⟩ := hn
        exact near_shift (lattice_valid H) (L := 12) (fun i => by show (12 : ℝ) - 0 = 12; norm_num) hp m1
          (m2.trans (by norm_num))
      obtain ⟨w', hw'⟩ : ∃ w : Fin 2 → WrapType, k' = fun i => shift (w i) := by
        obtain ⟨m1, p, hp, m2⟩ := hn'
        exact near_shift (lattice_valid H) (L := 12) (fun i => by show (12 : ℝ) - 0 = 12; norm_num) hp m1
          (m2.trans (by norm_num))
      obtain ⟨hs1, rfl⟩ := lattice_ofRank.1 hn.1
      obtain ⟨hs2, rfl⟩ := lattice_ofRank.1 hn'.1
      have hsite : ∀ (t : ℕ) (w : Fin 2 → WrapType), t < 144 → (3 + t, dim2.ofVec (image (latticeWorld name f).box (fun i => shift (w i)) (dim2.toVec (f t)))) ∈
          sites latticeCorner latticeShifts f 144 := by
        intro t w ht
        refine Or.inr ⟨t, ht, ⟨shift (w 0) * 12, shift (w 1) * 12⟩,
          List.mem_map.2 ⟨w, mem_allWraps2 w, rfl⟩, ?_⟩
        congr 1
        refine P2.ext ?_ ?_
        · show image (latticeWorld name f).box (fun i => shift (w i)) (dim2.toVec (f t)) 0 = (f t).x + (shift (w 0) : ℝ) * 12
          rw [lattice_image]
          rfl
        · show image (latticeWorld name f).box (fun i => shift (w i)) (dim2.toVec (f t)) 1 = (f t).y + (shift (w 1) : ℝ) * 12
          rw [lattice_image]
          rfl
      have hc : ∀ i, i < 3 → (i, latticeCorner i) ∈ sites latticeCorner latticeShifts f 144 := fun i hi => Or.inl ⟨hi, rfl⟩
      have hfl := H.gen.line _ (hsite s w hs1) _ (hsite s' w' hs2) _ (hc 0 (by norm_num)) (by
        simp only [List.nodup_cons, List.mem_cons, List.not_mem_nil, or_false, not_or, not_false_eq_true,
          List.nodup_nil, and_true]
        omega)
      dsimp only at hfl e
      rw [← hw, ← hw', ← e] at hfl
      unfold orient2 at hfl
      exact hfl (by dsimp only; ring)
  · intro p q r hp hq hr n1 n2 n3
    obtain ⟨a, ha, ea, la⟩ := lattice_site H hp
    obtain ⟨b, hb, eb, lb⟩ := lattice_site H hq
    obtain ⟨c, hc, ec, lc⟩ := lattice_site H hr
    have := H.gen.line a ha b hb c hc (by
      simp only [List.nodup_cons, List.mem_cons, List.not_mem_nil, or_false, not_or, not_false_eq_true,
        List.nodup_nil, and_true]
      exact ⟨⟨hlab ha hb ea eb la lb n1, hlab ha hc ea ec la lc n2⟩, hlab hb hc eb ec lb lc n3⟩)
    rw [ea, eb, ec] at this
    exact this
  · intro p q r t hp hq hr ht n1 n2 n3 n4 n5 n6 o ho
    obtain ⟨a, ha, ea, la⟩ := lattice_site H hp
    obtain ⟨b, hb, eb, lb⟩ := lattice_site H hq
    obtain ⟨c, hc, ec, lc⟩ := lattice_site H hr
    obtain ⟨d, hd, ed, ld⟩ := lattice_site H ht
    obtain ⟨o1, o2, o3⟩ := ho
    refine H.gen.circle a ha b hb c hc d hd ?_ o (distSq2 p o) ?_
    · simp only [List.nodup_cons, List.mem_cons, List.not_mem_nil, or_false, not_or, not_false_eq_true,
        List.nodup_nil, and_true]
      exact ⟨⟨hlab ha hb ea eb la lb n1, hlab ha hc ea ec la lc n2, hlab ha hd ea ed la ld n3⟩,
        ⟨hlab hb hc eb ec lb lc n4, hlab hb hd eb ed lb ld n5⟩, hlab hc hd ec ed lc ld n6⟩
    · rw [ea, eb, ec, ed]
      exact ⟨rfl, o1.symm, o2.symm, o3.symm⟩

/-- All ranks build their grid. -/
theorem lattice_built [DecidableEq Id] (H : Lattice f) (periodic : Bool) : ∀ own, own < 144 → ∃ (n : ℕ) (g : Grid Id) (G : List (Name Id × SweepCell Id)),
    constructRank (fun _ => 0) popHead_ok 13 1 (List.range 144) (latticeWorld name f) own n = some g ∧
    g.sweepGrid periodic = some G ∧ Built periodic (latticeWorld name f) own G := by
  intro own hown
  have hc : ∀ i, (latticeWorld name f).hi i - (latticeWorld name f).lo i = (latticeWorld name f).hi 0 - (latticeWorld name f).lo 0 := fun i => rfl
  have ho : (List.range 144).Perm (List.range (latticeWorld name f).particles.length) := by rw [lattice_length]
  have hL : (latticeWorld name f).hi 0 - (latticeWorld name f).lo 0 = 12 := by
    show (12 : ℝ) - 0 = 12
    norm_num
  obtain ⟨n, g, h⟩ := construct_ends (fun _ => 0) popHead_ok (fuel := 13) (len := 1)
    (lattice_valid H) hc ho (own := own) (by
      have : ((latticeWorld name f).ofRank own).length = 1 := by
        unfold World.ofRank latticeWorld
        dsimp only
        rw [List.getD_eq_getElem?_getD, List.getElem?_map, List.getElem?_range hown]
        rfl
      rw [this]) (h := 89 / 100) (M := 57 / 20) (by norm_num) one_pos (by norm_num) (by norm_num) (by rw [hL]; norm_num)
    (fun p _ => lattice_cell H p) (by
      have := lattice_general (name := name) H own
      norm_num at this ⊢
      exact this)
  obtain ⟨G, hG, -⟩ := grid_complete (lattice_valid H) hc ho h periodic
  exact ⟨n, g, G, h, hG, fun _ => 0, popHead, popHead_ok, 13, 1, List.range 144, n, g, ho, h, hG⟩

end Verif.Parallel.Plane
