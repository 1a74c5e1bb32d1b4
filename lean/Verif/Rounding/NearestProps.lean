import Verif.Rounding.NearestLemmas
import Verif.Rounding.UnitProps
import Verif.Remap.Props

/-! # C145: remapping from a snapshot in `f64` -/

namespace Verif.Rounding.Nearest

open Verif.Rounding Verif.Remap
open Verif.Geometry (Vec Extent fromPositions)
open Verif.Collective (divideIntoChunks)

/-- **C145** (nearest): if every rank holds data after the exchange, remapping succeeds on all ranks, and every particle
of every rank gets the values of a data point whose computed distance is the smallest among the data of all ranks, unless
its own are larger.  So the rounding of the distances from extents never hides a closer point of another rank. -/
theorem remap_uses_nearest_f64 (nearest : Nearest ℚ) (hn : NearestContractF nearest) (W : ℕ) (hW : 0 < W)
    (owner : Vec 3 ℚ → ℕ) (data : ℕ → List (Full ℚ)) (particles : ℕ → List (Particle ℚ))
    (hd : ∀ r < W, exchangeAccordingToDomainDecomposition W owner data r ≠ [])
    (hids : ∀ r < W, ((particles r).map fun p => p.entity).Nodup) :
    ∃ result, remapSystemF nearest W owner data particles = some result ∧ result.length = W ∧
      ∀ r < W, ∃ ps, result[r]? = some ps ∧ ps.length = (particles r).length ∧
        ∀ (i : ℕ) (p : Particle ℚ), (particles r)[i]? = some p →
          ∃ p', ps[i]? = some p' ∧ RemappedF (allData W data) p p' := by
  unfold remapSystemF
  set data' := exchangeAccordingToDomainDecomposition W owner data with hdata'
  have hperm : ∀ x, x ∈ allData W data' ↔ x ∈ allData W data :=
    fun x => (Verif.Remap.exchange_keeps_all_data W owner data).mem_iff
  obtain ⟨res, n, h1, h2, _, h4, _, _⟩ := Verif.Collective.chunks_same_number
    ((List.range W).map fun r => (particles r).map fun p => (p.entity, p.pos)) (by
      intro h
      rw [List.map_eq_nil_iff, List.range_eq_nil] at h
      omega) 1000000 (by norm_num)
  rw [List.length_map, List.length_range] at h2
  have hchunks : ∀ r < W, ∃ cs, res[r]? = some cs ∧
      cs.flatten = (particles r).map fun p => (p.entity, p.pos) := by
    intro r hr
    have := congrArg (fun l => l[r]?) h4
    rw [List.getElem?_map, List.getElem?_map, List.getElem?_range hr, Option.map_some,
      Option.map_eq_some_iff] at this
    exact this
  have hrank : ∀ r < W, ∃ g, ((res[r]?).bind fun chunks =>
        chunks.foldlM (exchangeRequestChunkF nearest W data' r) (particles r))
        = some ((particles r).map g) ∧
      ∀ p ∈ particles r, RemappedF (allData W data) p (g p) := by
    intro r hr
    obtain ⟨cs, hcs, hflat⟩ := hchunks r hr
    have hkeys : cs.flatten.map Prod.fst = (particles r).map fun p => p.entity := by
      rw [hflat, List.map_map]
      rfl
    obtain ⟨g, hg, hstep⟩ := chunks_fold_f64 nearest hn W data' hd r hr cs (particles r)
      (by rw [hkeys]; exact hids r hr) (by rw [hkeys]; exact fun e he => he)
    refine ⟨g, by rw [hcs]; exact hg, fun p hp => ?_⟩
    obtain ⟨x, hx, hmin, hrest⟩ := hstep.mine p (by rw [hflat]; exact List.mem_map.2 ⟨p, hp, rfl⟩)
    exact ⟨x, (hperm x).1 hx, fun y hy => hmin y ((hperm y).2 hy), hrest⟩
  haveI : Nonempty (Particle ℚ → Particle ℚ) := ⟨id⟩
  choose! g hg hgm using hrank
  refine ⟨(List.range W).map fun r => (particles r).map (g r), ?_, by simp, ?_⟩
  · unfold remapF
    rw [h1]
    show ((List.range W).mapM fun r => _) = _
    apply Verif.ExchangeData.mapM_some
    intro r hr
    exact hg r (List.mem_range.1 hr)
  · intro r hr
    refine ⟨(particles r).map (g r), ?_, by simp, ?_⟩
    · rw [List.getElem?_map, List.getElem?_range hr]
      rfl
    · intro i p hp
      refine ⟨g r p, by rw [List.getElem?_map, hp]; rfl, hgm r hr p (List.mem_of_getElem? hp)⟩

/-! ## True distances -/

private theorem rounds_zero : Rounds 3 (0 : ℝ) 0 := ⟨by rw [zero_mul], by rw [zero_mul]⟩

private theorem Rounds.add' {n : ℕ} {x y a b : ℝ} (h : Rounds n x a) (h' : Rounds n y b) : Rounds n (x + y) (a + b) := by
  constructor
  · rw [add_mul]
    exact add_le_add h.1 h'.1
  · rw [add_mul]
    exact add_le_add h.2 h'.2

/-- Zero or not too small. -/
private def Sized (x : ℝ) : Prop := x = 0 ∨ (1 : ℝ) / 2 ^ 900 ≤ x

private theorem Sized.nonneg {x : ℝ} (h : Sized x) : 0 ≤ x := by
  rcases h with h | h
  · exact h.ge
  · exact le_trans (by positivity) h

private theorem Sized.add {x y : ℝ} (h : Sized x) (h' : Sized y) : Sized (x + y) := by
  rcases h with rfl | h
  · rw [zero_add]
    exact h'
  · exact Or.inr (by linarith [h'.nonneg])

private theorem fadd_rounds {n : ℕ} {x y : ℝ} {a b : ℚ} (hn : n ≤ 50) (h : Rounds n x a) (h' : Rounds n y b) (sx : Sized x)
    (sy : Sized y) : Rounds (n + 1) (x + y) ((a ⊞ b : ℚ) : ℝ) := by
  have k := Rounds.add' h h'
  have e : ((a + b : ℚ) : ℝ) = a + b := by push_cast; rfl
  rw [← e] at k
  rcases sx.add sy with s | s
  · have z : (a + b : ℚ) = 0 := by
      have l1 := k.1
      have l2 := k.2
      rw [s] at l1 l2
      rw [zero_mul] at l2
      have p : (0 : ℝ) < (1 - 1 / 2 ^ 53) ^ n := pow_pos (by norm_num) n
      have : ((a + b : ℚ) : ℝ) ≤ 0 := by
        by_contra hc
        push Not at hc
        have := mul_pos hc p
        linarith
      have : ((a + b : ℚ) : ℝ) = 0 := le_antisymm this l2
      exact_mod_cast this
    unfold fadd
    rw [z, s, show fl 0 = 0 by decide +kernel, Rat.cast_zero]
    exact ⟨by rw [zero_mul], by rw [zero_mul]⟩
  · have low : (1 : ℝ) / 2 ^ 901 ≤ ((a + b : ℚ) : ℝ) := by
      have x0 : 0 < x + y := lt_of_lt_of_le (by positivity) s
      have er := k.error (by omega) x0
      have hn' : (n : ℝ) ≤ 50 := by exact_mod_cast hn
      have t : ((n : ℝ) + 1) / 2 ^ 53 ≤ 1 / 2 := by
        rw [div_le_iff₀ (by positivity)]
        norm_num
        linarith
      have t2 := mul_le_mul_of_nonneg_right t x0.le
      rw [abs_le] at er
      rw [pow_succ, ← div_div]
      linarith [er.1]
    exact k.trans (rounds_fl ((one_div_le_one_div_of_le (by positivity) (pow_le_pow_right₀ one_le_two (by decide))).trans low))

private theorem square_rounds {p q : ℚ} (h : p = q ∨ 1 / 2 ^ 400 ≤ |p - q|) :
    Sized (((p - q) ^ 2 : ℚ) : ℝ) ∧ Rounds 3 (((p - q) ^ 2 : ℚ) : ℝ) (((p ⊟ q) ⊠ (p ⊟ q) : ℚ) : ℝ) := by
  have pos : ∀ d : ℚ, 1 / 2 ^ 400 ≤ d → Sized ((d ^ 2 : ℚ) : ℝ) ∧ Rounds 3 ((d ^ 2 : ℚ) : ℝ) ((fl d ⊠ fl d : ℚ) : ℝ) := by
    intro d hd
    have l : LowBy 400 (d : ℝ) := by
      have := (Rat.cast_le (K := ℝ)).2 hd
      push_cast at this
      exact this
    have r := rounds_fl (x := d) ((one_div_le_one_div_of_le (by positivity) (pow_le_pow_right₀ one_le_two (by decide))).trans l)
    have l2 := l.mul l
    have r2 := r.fmul r l.pos l.pos (by norm_num) (l2.weaken (by norm_num))
    have e : ((d ^ 2 : ℚ) : ℝ) = d * d := by push_cast; ring
    rw [e]
    refine ⟨Or.inr ?_, r2⟩
    exact (one_div_le_one_div_of_le (by positivity) (pow_le_pow_right₀ one_le_two (by decide))).trans l2
  rcases h with rfl | h
  · have z : (p ⊟ p) ⊠ (p ⊟ p) = 0 := by
      unfold fsub
      rw [sub_self]
      decide +kernel
    rw [z, sub_self]
    norm_num
    exact ⟨Or.inl rfl, rounds_zero⟩
  · rcases abs_choice (p - q) with e | e
    · rw [e] at h
      exact pos _ h
    · rw [e] at h
      have k := pos _ h
      have m : fl (-(p - q)) ⊠ fl (-(p - q)) = (p ⊟ q) ⊠ (p ⊟ q) := by
        rw [fl_neg]
        unfold fmul fsub
        rw [neg_mul_neg]
      rw [m, neg_sq] at k
      exact k

/-- Positions whose coordinates are equal or differ by a number which is not absurdly small (2^-400 metres). -/
def Separated (p q : Vec 3 ℚ) : Prop := ∀ i, p i = q i ∨ 1 / 2 ^ 400 ≤ |p i - q i|

private theorem sqDist_rounds {p q : Vec 3 ℚ} (h : Separated p q) :
    Rounds 6 ((sqDist p q : ℚ) : ℝ) ((sqDistF p q : ℚ) : ℝ) := by
  obtain ⟨s0, r0⟩ := square_rounds (h 0)
  obtain ⟨s1, r1⟩ := square_rounds (h 1)
  obtain ⟨s2, r2⟩ := square_rounds (h 2)
  have z : (0 : ℚ) ⊞ (p 0 ⊟ q 0) ⊠ (p 0 ⊟ q 0) = (p 0 ⊟ q 0) ⊠ (p 0 ⊟ q 0) := by
    unfold fadd
    rw [zero_add]
    exact fl_fl _
  have up : ∀ {n m : ℕ} {x y : ℝ}, Sized x → n ≤ m → Rounds n x y → Rounds m x y := by
    intro n m x y s hnm r
    rcases s with rfl | s
    · have p : (0 : ℝ) < (1 - 1 / 2 ^ 53) ^ n := pow_pos (by norm_num) n
      have l2 := r.2
      rw [zero_mul] at l2
      have : y ≤ 0 := by
        by_contra hc
        push Not at hc
        have := mul_pos hc p
        linarith [r.1]
      have : y = 0 := le_antisymm this l2
      rw [this]
      exact ⟨by rw [zero_mul], by rw [zero_mul]⟩
    · exact r.mono (lt_of_lt_of_le (by positivity) s) hnm
  have r01 := fadd_rounds (by norm_num) r0 r1 s0 s1
  have r012 := fadd_rounds (by norm_num) r01 (up s2 (by norm_num) r2) (s0.add s1) s2
  have e : ((sqDist p q : ℚ) : ℝ) = (((p 0 - q 0) ^ 2 : ℚ) : ℝ) + (((p 1 - q 1) ^ 2 : ℚ) : ℝ) + (((p 2 - q 2) ^ 2 : ℚ) : ℝ) := by
    unfold sqDist
    rw [Fin.sum_univ_three]
    push_cast
    ring
  rw [e]
  unfold sqDistF
  rw [z]
  exact up ((s0.add s1).add s2) (by norm_num) r012

/-- A point whose computed squared distance is the smaller one is the closer one up to thirteen rounding errors. -/
theorem nearly_nearest {x y q : Vec 3 ℚ} (hx : Separated x q) (hy : Separated y q) (h : sqDistF x q ≤ sqDistF y q) :
    sqDist x q ≤ (1 + 13 / 2 ^ 53) * sqDist y q := by
  have rx := sqDist_rounds hx
  have ry := sqDist_rounds hy
  have m : ((sqDistF x q : ℚ) : ℝ) ≤ ((sqDistF y q : ℚ) : ℝ) := by exact_mod_cast h
  have q0 : (0 : ℝ) < (1 - 1 / 2 ^ 53) ^ 6 := by norm_num
  have k : ((sqDist x q : ℚ) : ℝ) * ((1 - 1 / 2 ^ 53) ^ 6 * (1 - 1 / 2 ^ 53) ^ 6) ≤ ((sqDist y q : ℚ) : ℝ) := by
    rw [← mul_assoc]
    exact (mul_le_mul_of_nonneg_right (rx.2.trans m) q0.le).trans ry.1
  have one : (1 : ℝ) ≤ (1 + 13 / 2 ^ 53) * ((1 - 1 / 2 ^ 53) ^ 6 * (1 - 1 / 2 ^ 53) ^ 6) := by norm_num
  have x0 : (0 : ℝ) ≤ ((sqDist x q : ℚ) : ℝ) := by
    have : 0 ≤ sqDist x q := Finset.sum_nonneg fun i _ => sq_nonneg _
    exact_mod_cast this
  have g : ((sqDist x q : ℚ) : ℝ) ≤ (1 + 13 / 2 ^ 53) * ((sqDist y q : ℚ) : ℝ) := by
    calc ((sqDist x q : ℚ) : ℝ)
        ≤ ((sqDist x q : ℚ) : ℝ) * ((1 + 13 / 2 ^ 53) * ((1 - 1 / 2 ^ 53) ^ 6 * (1 - 1 / 2 ^ 53) ^ 6)) :=
          le_mul_of_one_le_right x0 one
      _ = (1 + 13 / 2 ^ 53) * (((sqDist x q : ℚ) : ℝ) * ((1 - 1 / 2 ^ 53) ^ 6 * (1 - 1 / 2 ^ 53) ^ 6)) := by ring
      _ ≤ _ := mul_le_mul_of_nonneg_left k (by positivity)
  refine (Rat.cast_le (K := ℝ)).1 ?_
  push_cast
  exact g

/-- **C145** (true distances): the data point from which a particle is remapped is the nearest one up to thirteen
rounding errors of the squared distance: every data point which is closer by more than this would have been taken. -/
theorem remapped_from_nearly_nearest_f64 {all : List (Full ℚ)} {p p' : Particle ℚ} (h : RemappedF all p p')
    (hs : ∀ x ∈ all, Separated x.pos p.pos) :
    ∃ x ∈ all, (∀ y ∈ all, sqDist x.pos p.pos ≤ (1 + 13 / 2 ^ 53) * sqDist y.pos p.pos) ∧
      p'.entity = p.entity ∧ p'.pos = p.pos ∧
      p'.temperature = max p.temperature x.temperature ∧
      p'.ionizedHydrogenFraction = max p.ionizedHydrogenFraction x.ionizedHydrogenFraction := by
  obtain ⟨x, hx, hmin, rest⟩ := h
  exact ⟨x, hx, fun y hy => nearly_nearest (hs x hx) (hs y hy) (hmin y hy), rest⟩

/-- **C145** (scale factor): in a run which starts at the scale factor of the snapshot the positions of the data are
bitwise those of the snapshot. -/
theorem remap_positions_unchanged_f64 {a : ℚ} (ha : a ≠ 0) (rows : List (Full ℚ)) (hr : ∀ d ∈ rows, ∀ i, IsF64 (d.pos i)) :
    readRemapDataF a a rows = rows := by
  have e : a ⊘ a = 1 := by
    unfold fdiv
    rw [div_self ha]
    decide +kernel
  unfold readRemapDataF
  rw [e]
  refine (List.map_congr_left fun d hd => ?_).trans (List.map_id rows)
  have : (fun i => d.pos i ⊠ 1) = d.pos := by
    funext i
    unfold fmul
    rw [mul_one]
    exact hr d hd i
  rw [this]
  rfl

/-- **C145** (scale factor): otherwise they are scaled with the precision of `f64`. -/
theorem remap_positions_accurate_f64 {a b : ℚ} (ha : 1 / 2 ^ 100 ≤ a) (hb : 1 / 2 ^ 100 ≤ b) (hb' : b ≤ 2 ^ 100)
    (rows : List (Full ℚ)) (hr : ∀ d ∈ rows, ∀ i, d.pos i = 0 ∨ 1 / 2 ^ 400 ≤ |d.pos i|) :
    List.Forall₂ (fun d d' : Full ℚ => d'.temperature = d.temperature ∧ d'.ionizedHydrogenFraction = d.ionizedHydrogenFraction ∧
      ∀ i, |d'.pos i - a / b * d.pos i| ≤ 3 / 2 ^ 53 * |a / b * d.pos i|) rows (readRemapDataF a b rows) := by
  have cast : ∀ {q : ℚ} {k : ℕ}, 1 / 2 ^ k ≤ q → LowBy k (q : ℝ) := by
    intro q k h
    have h1 := (Rat.cast_le (K := ℝ)).2 h
    push_cast at h1
    exact h1
  have la := cast ha
  have lb := cast hb
  have ub : (b : ℝ) ≤ 2 ^ 100 := by
    have := (Rat.cast_le (K := ℝ)).2 hb'
    push_cast at this
    exact this
  have l1 := la.div lb.pos ub
  have r1 := (Rounds.refl (a : ℝ)).fdiv (Rounds.refl (b : ℝ)) la.pos lb.pos (by norm_num) (l1.weaken (by norm_num))
  have f0 : 0 < a / b := by
    have : (0 : ℝ) < a / b := l1.pos
    exact_mod_cast this
  have pos : ∀ x : ℚ, 1 / 2 ^ 400 ≤ x → |x ⊠ (a ⊘ b) - a / b * x| ≤ 3 / 2 ^ 53 * (a / b * x) := by
    intro x h
    have lx := cast h
    have l2 := lx.mul l1
    have r2 := (Rounds.refl (x : ℝ)).fmul r1 lx.pos l1.pos (by norm_num) (l2.weaken (by norm_num))
    have e := r2.error (by norm_num) l2.pos
    refine (Rat.cast_le (K := ℝ)).1 ?_
    push_cast
    rw [mul_comm ((a : ℝ) / b)]
    norm_num at e ⊢
    exact e
  unfold readRemapDataF
  rw [List.forall₂_map_right_iff, List.forall₂_same]
  refine fun d hd => ⟨rfl, rfl, fun i => ?_⟩
  dsimp only
  rcases hr d hd i with h | h
  · have z : (0 : ℚ) ⊠ (a ⊘ b) = 0 := by
      unfold fmul
      rw [zero_mul]
      decide +kernel
    rw [h, z]
    simp
  · rw [abs_mul, abs_of_pos f0]
    rcases abs_choice (d.pos i) with e | e
    · rw [e] at h ⊢
      exact pos _ h
    · rw [e] at h ⊢
      have := pos _ h
      have n : (-d.pos i) ⊠ (a ⊘ b) = -(d.pos i ⊠ (a ⊘ b)) := by
        unfold fmul
        rw [neg_mul, fl_neg]
      rw [n] at this
      rw [← abs_neg]
      convert this using 2
      ring

/-! ## The hypotheses are satisfiable -/

/-- A linear search with computed distances. -/
def scanF : Nearest ℚ
  | [], _ => (0, 0)
  | [p], q => (sqDistF p q, 0)
  | p :: p' :: ps, q =>
    if sqDistF p q ≤ (scanF (p' :: ps) q).1 then (sqDistF p q, 0)
    else ((scanF (p' :: ps) q).1, (scanF (p' :: ps) q).2 + 1)

/-- The contract of the k-d tree can be met. -/
theorem scanF_contract : NearestContractF scanF := by
  intro ps q
  induction ps with
  | nil => exact fun h => absurd rfl h
  | cons p ps ih =>
    intro _
    cases ps with
    | nil => exact ⟨p, rfl, rfl, by simp⟩
    | cons p1 ps =>
      obtain ⟨x, h1, h2, h3⟩ := ih (by simp)
      unfold scanF
      by_cases hc : sqDistF p q ≤ (scanF (p1 :: ps) q).1
      · rw [if_pos hc]
        refine ⟨p, rfl, rfl, fun p' hp' => ?_⟩
        rcases List.mem_cons.1 hp' with rfl | hp'
        · exact le_refl _
        · exact le_trans hc (h2 ▸ h3 p' hp')
      · rw [if_neg hc]
        refine ⟨x, by simpa using h1, h2, fun p' hp' => ?_⟩
        rcases List.mem_cons.1 hp' with rfl | hp'
        · rw [← h2]
          exact le_of_lt (not_le.1 hc)
        · exact h3 p' hp'

/-- Two data points; the second one is closer to the origin, but the computed distances are equal. -/
def tieData : ℕ → List (Full ℚ)
  | 0 => [⟨![1, 1 / 2 ^ 27, 0], 10, 1⟩, ⟨![1, 0, 0], 20, 1⟩]
  | _ => []

/-- A particle at the origin. -/
def tieParticles : ℕ → List (Particle ℚ)
  | 0 => [⟨3, ![0, 0, 0], 0, 0⟩]
  | _ => []

/-- The nearest data point itself is not always taken: with a tree which keeps its contract a particle gets the
temperature of a data point although another one is closer. -/
theorem remap_misses_nearest_f64 : ∃ nearest, NearestContractF nearest ∧
    (remapSystemF nearest 1 (fun _ => 0) tieData tieParticles).map (fun l => l.map fun ps => ps.map fun p => p.temperature) =
      some [[10]] ∧
    ∀ x ∈ allData 1 tieData, x.temperature = 10 →
      ∃ y ∈ allData 1 tieData, y.temperature = 20 ∧ sqDist y.pos ![0, 0, 0] < sqDist x.pos ![0, 0, 0] :=
  ⟨scanF, scanF_contract, by decide +kernel, by
    intro x hx ht
    have hx : x = ⟨![1, 1 / 2 ^ 27, 0], 10, 1⟩ ∨ x = ⟨![1, 0, 0], 20, 1⟩ := by
      simpa [allData, tieData] using hx
    rcases hx with rfl | rfl
    · exact ⟨⟨![1, 0, 0], 20, 1⟩, by simp [allData, tieData], rfl, by decide +kernel⟩
    · norm_num at ht⟩

/-- The second particle of rank 0 gets the fraction of a data point on rank 1. -/
example : (remapSystemF scanF 2 exampleOwner exampleData exampleParticles).map
    (fun l => l.map fun ps => ps.map fun p => (p.temperature, p.ionizedHydrogenFraction))
    = some [[(30, 1 / 4), (25, 1 / 2)], [(100, 1 / 4)]] := by
  decide +kernel

example : (0 < 2) ∧ NearestContractF scanF ∧
    (∀ r < 2, exchangeAccordingToDomainDecomposition 2 exampleOwner exampleData r ≠ []) ∧
    (∀ r < 2, ((exampleParticles r).map fun p => p.entity).Nodup) ∧
    (∀ x ∈ allData 2 exampleData, Separated x.pos ![fl (49 / 10), 0, 0]) := by
  refine ⟨by decide, scanF_contract, ?_, by decide, ?_⟩
  · have h : ∀ r < 2, (exchangeAccordingToDomainDecomposition 2 exampleOwner exampleData r).length ≠ 0 := by
      decide +kernel
    intro r hr h'
    exact h r hr (by rw [h']; rfl)
  · unfold Separated
    decide +kernel

/-- Scale factors and positions. -/
example : (1 : ℚ) / 2 ^ 100 ≤ fl (1 / 7) ∧ fl (1 / 7) ≤ 2 ^ 100 ∧ fl (1 / 7) ≠ 0 ∧
    ∀ x ∈ allData 2 exampleData, ∀ i, (IsF64 (x.pos i)) ∧ (x.pos i = 0 ∨ 1 / 2 ^ 400 ≤ |x.pos i|) := by decide +kernel

end Verif.Rounding.Nearest
