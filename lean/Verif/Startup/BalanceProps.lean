import Verif.Startup.Props
import Verif.Domain.BalanceProps
import Verif.Peano.BlockProps

/-!
# C102: the ranks have about the same number of particles
-/

namespace Verif.Startup

open Verif.Geometry Verif.ExchangeData Verif.FileDist Verif.DataByRank

variable {V : Type} {S : Setup V} {m N : ℕ} {files : List (List (Row V))}

theorem integerPos_cube {lo hi x : ℝ} (h : lo < hi) (h1 : lo ≤ x) {j : ℕ} (hj : integerPos lo hi x / 2 ^ 29 = j) :
    lo - (hi - lo) * 0.001 + j * (1.002 * (hi - lo) / 2 ^ 13) ≤ x ∧
      x < lo - (hi - lo) * 0.001 + j * (1.002 * (hi - lo) / 2 ^ 13) + 1.002 * (hi - lo) / 2 ^ 13 := by
  rw [integerPos_eq] at hj
  have hw : 0 < 1.002 * (hi - lo) := by linarith
  have h0 : 0 ≤ x - (lo - (hi - lo) * 0.001) := by linarith
  generalize hu : x - (lo - (hi - lo) * 0.001) = u at hj h0
  have hx : x = lo - (hi - lo) * 0.001 + u := by linarith
  generalize 1.002 * (hi - lo) = W at *
  have hd1 : j * 2 ^ 29 ≤ ⌊u / W * 2 ^ 42⌋₊ := by rw [← hj]; exact Nat.div_mul_le_self _ _
  have hd2 : ⌊u / W * 2 ^ 42⌋₊ < (j + 1) * 2 ^ 29 := by
    rw [← hj]
    omega
  rw [Nat.le_floor_iff (by positivity)] at hd1
  rw [Nat.floor_lt (by positivity)] at hd2
  push_cast at hd1 hd2
  have e : u / W * 2 ^ 42 = u / (W / 2 ^ 13) * 2 ^ 29 := by field_simp
  rw [e] at hd1 hd2
  have hq : (0 : ℝ) < W / 2 ^ 13 := by positivity
  have k1 : (j : ℝ) ≤ u / (W / 2 ^ 13) := by norm_num at hd1 ⊢; linarith
  have k2 : u / (W / 2 ^ 13) < j + 1 := by norm_num at hd2 ⊢; linarith
  rw [le_div_iff₀ hq] at k1
  rw [div_lt_iff₀ hq] at k2
  rw [hx]
  constructor <;> linarith

/-- Positions with keys in the same block of `8 ^ 29` keys are in a cube. -/
theorem block_cube {lo hi x y : Vec 3 ℝ} (h : ∀ i, lo i < hi i) (hx : ∀ i, lo i ≤ x i ∧ x i ≤ hi i) (hy : ∀ i, lo i ≤ y i ∧ y i ≤ hi i)
    {k k' : ℕ} (hk : key lo hi x = some k) (hk' : key lo hi y = some k') (hb : k / 8 ^ 29 = k' / 8 ^ 29) (i : Fin 3) :
    lo i - (hi i - lo i) * 0.001 + (integerPos (lo i) (hi i) (x i) / 2 ^ 29 : ℕ) * (1.002 * (hi i - lo i) / 2 ^ 13) ≤ y i ∧
      y i < lo i - (hi i - lo i) * 0.001 + (integerPos (lo i) (hi i) (x i) / 2 ^ 29 : ℕ) * (1.002 * (hi i - lo i) / 2 ^ 13) +
        1.002 * (hi i - lo i) / 2 ^ 13 := by
  have hl := fun i => integerPos_lt (h i) (hx i).1 (hx i).2
  have hl' := fun i => integerPos_lt (h i) (hy i).1 (hy i).2
  obtain ⟨e0, e1, e2⟩ := (Peano.key3d_cube_is_block 29 (by norm_num) (hl 0) (hl 1) (hl 2) (hl' 0) (hl' 1) (hl' 2) hk hk').1 hb
  refine integerPos_cube (h i) (hy i).1 ?_
  fin_cases i
  · exact e0.symm
  · exact e1.symm
  · exact e2.symm

open Classical in
/-- At most `2 c` keys are in an interval which is not longer than a block. -/
theorem window_count (hbox : ∀ i, S.lo i < S.hi i) {rows : List (Row V)} (hin : ∀ row ∈ rows, S.Contains (S.place (row 0)))
    {c : ℕ} (hcube : ∀ corner : Vec 3 ℝ, rows.countP (fun row => decide (∀ i, corner i ≤ S.place (row 0) i ∧
      S.place (row 0) i < corner i + 1.002 * (S.hi i - S.lo i) / 2 ^ 13)) ≤ c) {keyFn : Row V → ℕ}
    (hkey : ∀ row, key S.lo S.hi (S.place (row 0)) = some (keyFn row) ∧ keyFn row < 2 ^ 126) (a : ℕ) :
    (rows.map keyFn).countP (fun k => decide (a ≤ k ∧ k < a + 2 ^ 84 + 2)) ≤ 2 * c := by
  have hblock : ∀ q : ℕ, rows.countP (fun row => decide (keyFn row / 8 ^ 29 = q)) ≤ c := by
    intro q
    by_cases he : ∃ row ∈ rows, keyFn row / 8 ^ 29 = q
    · obtain ⟨row0, h0, rfl⟩ := he
      refine le_trans ?_ (hcube fun i => S.lo i - (S.hi i - S.lo i) * 0.001 +
        (integerPos (S.lo i) (S.hi i) (S.place (row0 0) i) / 2 ^ 29 : ℕ) * (1.002 * (S.hi i - S.lo i) / 2 ^ 13))
      refine List.countP_mono_left fun row hrow hq => ?_
      rw [decide_eq_true_eq] at hq
      rw [@decide_eq_true_eq _ (_)]
      exact fun i => block_cube hbox (hin row0 h0) (hin row hrow) (hkey row0).1 (hkey row).1 hq.symm i
    · rw [List.countP_eq_zero.2]
      · exact Nat.zero_le _
      · intro row hrow hq
        rw [decide_eq_true_eq] at hq
        exact he ⟨row, hrow, hq⟩
  rw [List.countP_map]
  have hsum : ∀ (l : List (Row V)), l.countP ((fun k => decide (a ≤ k ∧ k < a + 2 ^ 84 + 2)) ∘ keyFn) ≤
      l.countP (fun row => decide (keyFn row / 8 ^ 29 = a / 8 ^ 29)) +
      l.countP (fun row => decide (keyFn row / 8 ^ 29 = a / 8 ^ 29 + 1)) := by
    intro l
    induction l with
    | nil => simp
    | cons row l ih =>
      rw [List.countP_cons, List.countP_cons, List.countP_cons]
      have : (a ≤ keyFn row ∧ keyFn row < a + 2 ^ 84 + 2) →
          keyFn row / 8 ^ 29 = a / 8 ^ 29 ∨ keyFn row / 8 ^ 29 = a / 8 ^ 29 + 1 := by
        intro h
        rw [show (8 : ℕ) ^ 29 = 2 ^ 87 by norm_num]
        omega
      simp only [Function.comp, decide_eq_true_eq]
      split <;> split <;> split <;> simp_all <;> omega
  have := hsum rows
  have h1 := hblock (a / 8 ^ 29)
  have h2 := hblock (a / 8 ^ 29 + 1)
  omega

open Classical in
/-- **The ranks are balanced.**  Let every cube with an edge of the `2 ^ 13`th part of the padded box have at most `c` particles, no
two particles be in the same cell of the grid of the keys, and the average number of particles of the ranks be larger than
`2 * c * N`.  Then the startup does not panic, every rank but the last has the average number of particles up to `2 * c`, and no
rank is empty. -/
theorem startup_balanced [Inhabited V] (hs : Decomp.SearchContract S.search) (hm : 0 < m) (hN : 0 < N) (c : ℕ)
    (hrows : N * (2 * c) < files.flatten.length / N) (hbox : ∀ i, S.lo i < S.hi i)
    (hin : ∀ row ∈ files.flatten, S.Contains (S.place (row 0)))
    (hap : files.flatten.Pairwise fun a b => S.Apart (S.place (a 0)) (S.place (b 0)))
    (hcube : ∀ corner : Vec 3 ℝ, files.flatten.countP (fun row => decide (∀ i, corner i ≤ S.place (row 0) i ∧
      S.place (row 0) i < corner i + 1.002 * (S.hi i - S.lo i) / 2 ^ 13)) ≤ c) :
    ∃ world, S.startup N (columns m files) = some world ∧ ∀ (r : ℕ) (ps : Particles V), world[r]? = some ps →
      (r + 1 < N → files.flatten.length / N ≤ ps.length + 2 * c ∧ ps.length ≤ files.flatten.length / N + 2 * c) ∧ ps ≠ [] := by
  obtain ⟨parts, h1, h2, h3, keyFn, hkey, h4, h5⟩ := startup_eq (S := S) (files := files) hm hN
  have hflat : (parts.map fun p => p.map keyFn).flatten = files.flatten.map keyFn := by
    rw [← List.map_flatten, h2]
  have hq : 0 < files.flatten.length / N := by omega
  have hne : ∀ ks ∈ parts.map (fun p => p.map keyFn), ks ≠ [] := by
    intro ks hks he
    obtain ⟨p, hp, rfl⟩ := List.mem_map.1 hks
    have hp0 : p.length = 0 := by simpa using congrArg List.length he
    obtain ⟨r, hr⟩ := List.getElem?_of_mem hp
    have hl := h3 r p hr
    rw [hp0] at hl
    have hmul : files.flatten.length / N * N ≤ files.flatten.length := Nat.div_mul_le_self _ _
    split at hl
    · omega
    · have : files.flatten.length / N * (N - 1) + files.flatten.length / N = files.flatten.length / N * N := by
        rw [← Nat.mul_succ, Nat.succ_eq_add_one, Nat.sub_add_cancel hN]
      omega
  have hne0 : parts.map (fun p => p.map keyFn) ≠ [] := by
    rw [ne_eq, List.map_eq_nil_iff]
    rintro rfl
    simp at h1
    omega
  have hnd : (parts.map fun p => p.map keyFn).flatten.Nodup := by rw [hflat]; exact pairwise_keys hbox hin hap hkey
  have hlim : ∀ k ∈ (parts.map fun p => p.map keyFn).flatten, k < 2 ^ 126 := by
    rw [hflat]
    intro k hk
    obtain ⟨row, -, rfl⟩ := List.mem_map.1 hk
    exact (hkey row).2
  obtain ⟨cuts, loads, e1, e2, e3, e4, -⟩ := Decomp.decomposition_assigns_existing_rank hs (2 ^ 128 - 1) 42
    (parts.map fun p => p.map keyFn) hne0 hne hnd (fun k hk => lt_trans (hlim k hk) (by norm_num))
  obtain ⟨cuts', loads', f1, f2, f3⟩ := Decomp.load_balanced_coarse hs (2 ^ 128 - 1) 42 (2 ^ 84) (2 * c)
    (parts.map fun p => p.map keyFn) hne0 hne hnd (fun k hk => lt_trans (hlim k hk) (by norm_num))
    (fun k hk k' _ => by
      have := hlim k hk
      norm_num at this ⊢
      omega)
    (by rw [hflat]; exact window_count hbox hin hcube hkey)
    (by rw [hflat, List.length_map, List.length_map, h1]; exact hrows)
  rw [e1] at f1
  obtain ⟨rfl, rfl⟩ := Prod.mk.inj (Option.some.inj f1)
  rw [hflat] at f2 f3
  simp only [List.length_map, h1, List.countP_map] at f2 f3
  have howner : ∀ row, S.owner cuts (comps m row) = Decomp.owningRank S.search cuts (keyFn row) := by
    intro row
    unfold Setup.owner
    rw [keyOf_comps hm, (hkey row).1, Option.getD_some]
  obtain ⟨a1, a2, a3⟩ := entities_ok m parts
  have hown : ∀ ps ∈ parts.map (entities m), ∀ p ∈ ps, S.owner cuts p.2 < (parts.map (entities m)).length := by
    intro ps hps e he
    obtain ⟨p, hp, rfl⟩ := List.mem_map.1 hps
    have hc : e.2 ∈ (entities m p).map Prod.snd := List.mem_map.2 ⟨e, he, rfl⟩
    rw [entities_comps] at hc
    obtain ⟨row, hr, hec⟩ := List.mem_map.1 hc
    rw [← hec, howner]
    have := e3 (keyFn row) (by rw [hflat, ← h2]; exact List.mem_map.2 ⟨row, List.mem_flatten.2 ⟨p, hp, hr⟩, rfl⟩)
    simpa using this
  obtain ⟨world, c1, c2, c3⟩ := exchange_moves_particles_to_owners m (S.owner cuts)
    (fun r => ((parts.map (entities m)).getD r []).length) (parts.map (entities m)) hown a1 a2 a3
  refine ⟨world, by rw [h4 hin, e1]; exact c1, fun r ps hps => ?_⟩
  have hr : r < N := by
    have := (List.getElem?_eq_some_iff.1 hps).1
    rwa [c2, List.length_map, h1] at this
  have hlen : ps.length = files.flatten.countP ((fun k => decide (Decomp.owningRank S.search cuts k = r)) ∘ keyFn) := by
    have := (c3 r ps hps).1.length_eq
    rw [List.length_map, entities_flatten, h2, ← List.countP_eq_length_filter, List.countP_map] at this
    rw [this]
    refine List.countP_congr fun row _ => ?_
    simp only [Function.comp, howner]
  rw [hlen]
  refine ⟨fun h => f2 r h, fun he => ?_⟩
  have hz : files.flatten.countP ((fun k => decide (Decomp.owningRank S.search cuts k = r)) ∘ keyFn) = 0 := by
    rw [← hlen, he, List.length_nil]
  by_cases hlast : r + 1 < N
  · have := (f2 r hlast).1
    have : 2 * c ≤ N * (2 * c) := Nat.le_mul_of_pos_left _ hN
    omega
  · obtain rfl : r = N - 1 := by omega
    rw [hz] at f3
    have : (N - 1) * (2 * c) ≤ N * (2 * c) := Nat.mul_le_mul_right _ (by omega)
    omega

end Verif.Startup
