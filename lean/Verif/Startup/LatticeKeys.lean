import Verif.Startup.Lattice
import Verif.Startup.BalanceProps

/-! # The keys of the particles of the lattice and the ranks which own them -/

namespace Verif.Startup

open Verif.Geometry Verif.ExchangeData Verif.Parallel

/-- The number of particle `j` along the space-filling curve. -/
def place (j : ℕ) : ℕ := Peano.enc3 5 0 (j % 32) (j / 32 % 32) (j / 1024)

theorem place_lt (j : ℕ) : place j < 32768 := Peano.enc3_lt 5 0 _ _ _ (by norm_num)

theorem place_inj {i j : ℕ} (hi : i < 32768) (hj : j < 32768) (h : place i = place j) : i = j := by
  have d1 := Peano.dec3_enc3 5 0 (i % 32) (i / 32 % 32) (i / 1024) (by norm_num) (by omega) (by omega) (by omega)
  have d2 := Peano.dec3_enc3 5 0 (j % 32) (j / 32 % 32) (j / 1024) (by norm_num) (by omega) (by omega) (by omega)
  unfold place at h
  rw [h, d2] at d1
  simp only [Prod.mk.injEq] at d1
  omega

/-- The cube of 8 particles around particle `j`. -/
theorem place_div (j : ℕ) (hj : j < 32768) : Peano.dec3 4 0 (place j / 8) = (j % 32 / 2, j / 32 % 32 / 2, j / 1024 / 2) := by
  have h := Peano.enc3_div 4 1 0 (j % 32) (j / 32 % 32) (j / 1024) (by norm_num)
  unfold place
  norm_num at h
  rw [h]
  exact Peano.dec3_enc3 4 0 _ _ _ (by norm_num) (by omega) (by omega) (by omega)

/-- The piece of the curve between the numbers `8 a` and `8 b` is in a cube of side 20 at `2 c`. -/
def Compact (a b : ℕ) (c : ℕ × ℕ × ℕ) : Bool :=
  (List.range (b - a)).all fun i =>
    let p := Peano.dec3 4 0 (a + i)
    decide (c.1 ≤ p.1 ∧ p.1 ≤ c.1 + 9 ∧ c.2.1 ≤ p.2.1 ∧ p.2.1 ≤ c.2.1 + 9 ∧ c.2.2 ≤ p.2.2 ∧ p.2.2 ≤ c.2.2 + 9)

def corners8 : List (ℕ × ℕ × ℕ) := [(0, 0, 0), (0, 7, 0), (7, 6, 0), (8, 0, 0), (8, 0, 7), (7, 6, 8), (0, 7, 8), (0, 0, 8)]

def corners16 : List (ℕ × ℕ × ℕ) := [(0, 0, 0), (0, 2, 0), (0, 7, 0), (2, 8, 0), (7, 8, 0), (10, 6, 0), (8, 0, 0), (8, 0, 2), (8, 0, 7),
  (8, 0, 10), (10, 6, 8), (7, 8, 8), (2, 8, 8), (0, 7, 8), (0, 2, 8), (0, 0, 8)]

theorem compact8 : ∀ r < 8, Compact (512 * r - 2) (min 4096 (512 * (r + 1) + 2)) (corners8.getD r (0, 0, 0)) = true := by
  decide +kernel

theorem compact16 : ∀ r < 16, Compact (256 * r - 4) (min 4096 (256 * (r + 1) + 4)) (corners16.getD r (0, 0, 0)) = true := by
  decide +kernel

theorem compact_near {a b i j : ℕ} {c : ℕ × ℕ × ℕ} (h : Compact a b c = true) (hi : i < 32768) (hj : j < 32768) (ha : 8 * a ≤ place i)
    (hb : place i < 8 * b) (ha' : 8 * a ≤ place j) (hb' : place j < 8 * b) :
    i % 32 < j % 32 + 20 ∧ i / 32 % 32 < j / 32 % 32 + 20 ∧ i / 1024 < j / 1024 + 20 := by
  unfold Compact at h
  simp only [List.all_eq_true, List.mem_range, decide_eq_true_eq] at h
  have h1 := h (place i / 8 - a) (by omega)
  have h2 := h (place j / 8 - a) (by omega)
  rw [show a + (place i / 8 - a) = place i / 8 by omega, place_div i hi] at h1
  rw [show a + (place j / 8 - a) = place j / 8 by omega, place_div j hj] at h2
  dsimp only at h1 h2
  omega

theorem integerPos_lattice {x : ℝ} {a : ℕ} (ha : a < 32) (h1 : (a : ℝ) + 1 / 2 < x) (h2 : x < (a : ℝ) + 51 / 100) :
    integerPos 0 32 x / 2 ^ 37 = a := by
  have ha' : (a : ℝ) ≤ 31 := by
    have : a ≤ 31 := by omega
    exact_mod_cast this
  have ha0 : (0 : ℝ) ≤ a := Nat.cast_nonneg a
  rw [integerPos_eq]
  have e : (x - (0 - (32 - 0) * 0.001)) / (1.002 * (32 - 0)) * 2 ^ 42 = (x + 0.032) / 1.002 * 2 ^ 37 := by ring
  rw [e]
  have k1 : a * 2 ^ 37 ≤ ⌊(x + 0.032) / 1.002 * 2 ^ 37⌋₊ := by
    apply Nat.le_floor
    push_cast
    have : (a : ℝ) ≤ (x + 0.032) / 1.002 := by
      rw [le_div_iff₀ (by norm_num)]
      linarith
    nlinarith
  have k2 : ⌊(x + 0.032) / 1.002 * 2 ^ 37⌋₊ < (a + 1) * 2 ^ 37 := by
    rw [Nat.floor_lt' (by positivity)]
    push_cast
    have : (x + 0.032) / 1.002 < (a : ℝ) + 1 := by
      rw [div_lt_iff₀ (by norm_num)]
      linarith
    nlinarith
  omega

variable {f : ℕ → Predicates.P3 ℝ}

/-- The keys are ordered like the numbers along the curve. -/
theorem key_lattice (H : Cubes f) {j k : ℕ} (hj : j < 32768) (hk : key (fun _ => 0) (fun _ => 32) (dim3.toVec (f j)) = some k) :
    k / 8 ^ 37 = place j := by
  obtain ⟨⟨x1, x2⟩, ⟨y1, y2⟩, z1, z2⟩ := dealt_coord H hj
  unfold key at hk
  rw [Peano.fromIntegerPos3d_eq] at hk
  rw [← Option.some.inj hk, show (42 : ℕ) = 5 + 37 from rfl, Peano.enc3_div 5 37 0 _ _ _ (by norm_num)]
  unfold place
  have e1 : integerPos 0 32 (dim3.toVec (f j) 0) / 2 ^ 37 = j % 32 := integerPos_lattice (by omega) x1 x2
  have e2 : integerPos 0 32 (dim3.toVec (f j) 1) / 2 ^ 37 = j / 32 % 32 := integerPos_lattice (by omega) y1 y2
  have e3 : integerPos 0 32 (dim3.toVec (f j) 2) / 2 ^ 37 = j / 1024 := integerPos_lattice (by omega) z1 z2
  rw [e1, e2, e3]

/-! ### Counting -/

theorem take_flatten_length {α : Type} {deal : List (List α)} {t e N : ℕ} (hl : deal.length = N)
    (h : ∀ (r : ℕ) (l : List α), deal[r]? = some l → r + 1 < N → t ≤ l.length + e ∧ l.length ≤ t + e) (r : ℕ) (hr : r < N) :
    r * t ≤ (deal.take r).flatten.length + r * e ∧ (deal.take r).flatten.length ≤ r * (t + e) := by
  induction r with
  | zero => simp
  | succ r ih =>
    obtain ⟨i1, i2⟩ := ih (by omega)
    have hg : deal[r]? = some (deal[r]'(by omega)) := List.getElem?_eq_getElem _
    obtain ⟨h1, h2⟩ := h r _ hg hr
    rw [List.take_add_one, hg]
    simp only [Option.toList_some, List.flatten_append, List.length_append, List.flatten_cons,
      List.flatten_nil, List.append_nil]
    constructor
    · have : (r + 1) * t = r * t + t := by ring
      have : (r + 1) * e = r * e + e := by ring
      omega
    · have : (r + 1) * (t + e) = r * (t + e) + (t + e) := by ring
      omega

theorem mem_take_flatten {α : Type} {deal : List (List α)} {r : ℕ} {a : α} :
    a ∈ (deal.take r).flatten ↔ ∃ (s : ℕ) (l : List α), s < r ∧ deal[s]? = some l ∧ a ∈ l := by
  rw [List.mem_flatten]
  constructor
  · rintro ⟨l, hl, ha⟩
    obtain ⟨s, hs⟩ := List.getElem?_of_mem hl
    rw [List.getElem?_take] at hs
    split at hs
    · exact ⟨s, l, by assumption, hs, ha⟩
    · simp at hs
  · rintro ⟨s, l, hs, hl, ha⟩
    refine ⟨l, ?_, ha⟩
    refine List.mem_of_getElem? (i := s) ?_
    rw [List.getElem?_take, if_pos hs]
    exact hl

/-- Which particles along the curve a rank has, if the ranks are ordered like the curve. -/
theorem place_bounds {deal : List (List ℕ)} {t e N : ℕ} (hl : deal.length = N) (hp : deal.flatten.Perm (List.range 32768))
    (h : ∀ (r : ℕ) (l : List ℕ), deal[r]? = some l → r + 1 < N → t ≤ l.length + e ∧ l.length ≤ t + e)
    (hmono : ∀ (r r' : ℕ) (l l' : List ℕ), deal[r]? = some l → deal[r']? = some l' → ∀ i ∈ l, ∀ j ∈ l', place i ≤ place j → r ≤ r')
    {r j : ℕ} {l : List ℕ} (hr : deal[r]? = some l) (hj : j ∈ l) :
    r * t ≤ place j + r * e ∧ (r + 1 < N → place j < (r + 1) * (t + e)) := by
  have hnd : deal.flatten.Nodup := hp.nodup_iff.2 List.nodup_range
  have hlt : ∀ i ∈ deal.flatten, i < 32768 := fun i hi => List.mem_range.1 (hp.mem_iff.1 hi)
  have hrN : r < N := by rw [← hl]; exact (List.getElem?_eq_some_iff.1 hr).1
  have hsub : ∀ s : ℕ, (deal.take s).flatten.Sublist deal.flatten := fun s => by
    conv_rhs => rw [← List.take_append_drop s deal, List.flatten_append]
    exact List.sublist_append_left _ _
  have hmapnd : ∀ s : ℕ, ((deal.take s).flatten.map place).Nodup := fun s => by
    refine List.Nodup.map_on (fun i hi k hk e => ?_) ((hsub s).nodup hnd)
    exact place_inj (hlt i ((hsub s).subset hi)) (hlt k ((hsub s).subset hk)) e
  constructor
  · have hle : (deal.take r).flatten.length ≤ place j := by
      have : ((deal.take r).flatten.map place) ⊆ List.range (place j) := by
        intro x hx
        obtain ⟨i, hi, rfl⟩ := List.mem_map.1 hx
        obtain ⟨s, l', hs, hl', hil⟩ := mem_take_flatten.1 hi
        rw [List.mem_range]
        by_contra hcon
        have := hmono r s l l' hr hl' j hj i hil (by omega)
        omega
      have := ((hmapnd r).subperm this).length_le
      rwa [List.length_map, List.length_range] at this
    have := (take_flatten_length hl h r hrN).1
    omega
  · intro hr1
    have hle : place j + 1 ≤ (deal.take (r + 1)).flatten.length := by
      have : List.range (place j + 1) ⊆ (deal.take (r + 1)).flatten.map place := by
        intro x hx
        rw [List.mem_range] at hx
        have hx' : x < 32768 := lt_of_lt_of_le hx (place_lt j)
        -- every number is the place of a particle
        have hall : x ∈ deal.flatten.map place := by
          have hnd2 : (deal.flatten.map place).Nodup := List.Nodup.map_on
            (fun i hi k hk e => place_inj (hlt i hi) (hlt k hk) e) hnd
          have hs2 : deal.flatten.map place ⊆ List.range 32768 := by
            intro y hy
            obtain ⟨i, -, rfl⟩ := List.mem_map.1 hy
            exact List.mem_range.2 (place_lt i)
          have := (hnd2.subperm hs2).perm_of_length_le (by
            rw [List.length_map, hp.length_eq])
          exact this.mem_iff.2 (List.mem_range.2 hx')
        obtain ⟨i, hi, rfl⟩ := List.mem_map.1 hall
        obtain ⟨l', hl', hil⟩ := List.mem_flatten.1 hi
        obtain ⟨s, hs⟩ := List.getElem?_of_mem hl'
        refine List.mem_map.2 ⟨i, mem_take_flatten.2 ⟨s, l', ?_, hs, hil⟩, rfl⟩
        have := hmono s r l' l hs hr i hil j hj (by omega)
        omega
      have := (List.nodup_range.subperm this).length_le
      rwa [List.length_map, List.length_range] at this
    have := (take_flatten_length hl h (r + 1) hr1).2
    omega

end Verif.Startup
