import Verif.Rounding.FaceModel
import Verif.Rounding.ErrorLemmas

/-!
# C116: the two sides of a face and the order of the cells with `f64` rounding
-/

namespace Verif.Rounding

open Verif.Predicates

/-- A coordinate: an `f64` that is zero or not extremely small, and not extremely large. -/
def Moderate (x : ℚ) : Prop := IsF64 x ∧ (x = 0 ∨ (2 : ℚ) ^ (-140 : ℤ) ≤ |x|) ∧ |x| ≤ 2 ^ 99

/-- All coordinates are moderate. -/
def Moderate3 (p : P3 ℚ) : Prop := Moderate p.x ∧ Moderate p.y ∧ Moderate p.z

instance (x : ℚ) : Decidable (Moderate x) := inferInstanceAs (Decidable (_ ∧ _ ∧ _))
instance (p : P3 ℚ) : Decidable (Moderate3 p) := inferInstanceAs (Decidable (_ ∧ _ ∧ _))

/-- The exact scalar product of a direction with the difference of two points. -/
def along (d p1 p2 : P3 ℚ) : ℚ := d.x * (p2.x - p1.x) + d.y * (p2.y - p1.y) + d.z * (p2.z - p1.z)

/-- The exact square of the distance of two points. -/
def dist2 (p1 p2 : P3 ℚ) : ℚ := (p2.x - p1.x) ^ 2 + (p2.y - p1.y) ^ 2 + (p2.z - p1.z) ^ 2

/-- The exact square of the length of a direction. -/
def norm2 (d : P3 ℚ) : ℚ := d.x ^ 2 + d.y ^ 2 + d.z ^ 2

/-- The opposite vector. -/
def negP (v : P3 ℚ) : P3 ℚ := ⟨-v.x, -v.y, -v.z⟩

/-! ### Both sides of a face -/

theorem le_of_sq_le {a b : ℚ} (h : a ^ 2 ≤ b ^ 2) (hb : 0 ≤ b) : a ≤ b := by nlinarith


/-- The correctly rounded square root is unique. -/
theorem SqrtRounded.unique {x y y' : ℚ} : SqrtRounded x y → SqrtRounded x y' → y = y' := by
  rintro ⟨lo, hi, h1, h2, h3, h4, h5, h6⟩ ⟨lo', hi', h1', h2', h3', h4', h5', h6'⟩
  have a : lo ≤ hi' := le_of_sq_le (h3.trans h4') h2'
  have b : lo' ≤ hi := le_of_sq_le (h3'.trans h4) h2
  have a' := fl_mono a
  have b' := fl_mono b
  rw [h5, h6'] at a'
  rw [h5', h6] at b'
  exact le_antisymm a' b'

theorem subF_neg (a b : P3 ℚ) : subF a b = negP (subF b a) := by
  unfold subF negP fsub
  simp only [← fl_neg, neg_sub]

theorem dotF_neg_neg (v : P3 ℚ) : dotF (negP v) (negP v) = dotF v v := by
  unfold dotF negP fmul fadd
  simp only [neg_mul_neg]

theorem dotF_neg (v d : P3 ℚ) : dotF (negP v) d = -dotF v d := by
  unfold dotF negP fmul fadd
  simp only [neg_mul, fl_neg, ← neg_add]

theorem scaleF_neg (v : P3 ℚ) (r : ℚ) : scaleF (negP v) r = negP (scaleF v r) := by
  unfold scaleF negP fmul
  simp only [neg_mul, fl_neg]

/-- **C116.** The two sides of a face: the normals computed from the two cells are exactly opposite, also with rounding, so that
exactly when one side finds the face downwind the other one finds it upwind.  (The position of a cell is the same number on all
ranks: halo particles are copies.) -/
theorem sides_agree {p1 p2 n n' : P3 ℚ} (h : IsNormal p1 p2 n) (h' : IsNormal p2 p1 n') (d : P3 ℚ) :
    n' = negP n ∧ (downwindF n d ↔ upwindF n' d) ∧ (upwindF n d ↔ downwindF n' d) := by
  have e : n' = negP n := by
    obtain ⟨len, h1, h2, rfl⟩ := h
    obtain ⟨len', h1', h2', rfl⟩ := h'
    rw [subF_neg p1 p2, dotF_neg_neg] at h2'
    rw [h2'.unique h2, subF_neg p1 p2]
    unfold normalizeWith
    rw [scaleF_neg]
  subst e
  unfold downwindF upwindF
  rw [dotF_neg]
  exact ⟨rfl, by rw [neg_lt_zero], by rw [neg_pos]⟩

/-! ### The error of the product -/

theorem grid_of_large {x : ℚ} {k : ℕ} (hx : IsF64 x) (h : x = 0 ∨ (2 : ℚ) ^ (-(k : ℤ)) ≤ |x|) : Grid (k + 52) x := by
  rcases eq_or_ne x 0 with rfl | h0
  · exact ⟨0, by simp⟩
  have h := h.resolve_left h0
  have he := le_expo h0 h
  obtain ⟨m, _, hm⟩ := fl_form x
  rw [show fl x = x from hx] at hm
  obtain ⟨j, hj⟩ := Int.eq_ofNat_of_zero_le (show 0 ≤ scale x - 52 + ((k + 52 : ℕ) : ℤ) by
    have : expo x ≤ scale x := le_max_left _ _
    push_cast
    omega)
  refine ⟨m * 2 ^ j, ?_⟩
  push_cast at hj ⊢
  rw [mul_assoc, ← zpow_natCast, ← two_zpow_add]
  rw [show (j : ℤ) + -((k : ℤ) + 52) = scale x - 52 by omega]
  exact hm

theorem Moderate.grid {x : ℚ} (h : Moderate x) : Grid 192 x := grid_of_large (k := 140) h.1 h.2.1

theorem isF64_two_pow (k : ℕ) : IsF64 ((2 : ℚ) ^ k) := by
  have := fl_two_zpow (k := k) (by omega)
  rwa [zpow_natCast] at this

theorem abs_fl_le {x : ℚ} {k : ℕ} (h : |x| ≤ 2 ^ k) : |fl x| ≤ 2 ^ k := by
  rw [abs_le] at h ⊢
  refine ⟨?_, fl_le (isF64_two_pow k) h.2⟩
  have := fl_mono h.1
  rwa [fl_neg, isF64_two_pow k] at this

/-- The difference of two coordinates. -/
theorem diff_app {a b : ℚ} (ha : Moderate a) (hb : Moderate b) :
    App 1 192 (a ⊟ b) (a - b) |a - b| ∧ |a ⊟ b| ≤ 2 ^ 100 := by
  refine ⟨(App.exact (ha.grid.sub hb.grid)).round (by norm_num), abs_fl_le ?_⟩
  have h1 := ha.2.2
  have h2 := hb.2.2
  have : |a - b| ≤ |a| + |b| := abs_sub _ _
  have e : (2 : ℚ) ^ 100 = 2 ^ 99 + 2 ^ 99 := by norm_num
  rw [e]
  linarith

/-- The square of a computed difference. -/
theorem sq_app {j : ℕ} {v' v : ℚ} (h : App 1 j v' v |v|) (hj : j + j ≤ 1022) :
    App 3 (j + j) (v' ⊠ v') (v ^ 2) (v ^ 2) := by
  have := h.fmul h hj
  rwa [abs_mul_abs_self, ← pow_two] at this

theorem five : (1 + u) ^ 5 - 1 ≤ 51 / 10 * u := by unfold u; norm_num

/-- The computed square of the distance. -/
theorem len2_app {p1 p2 : P3 ℚ} (h1 : Moderate3 p1) (h2 : Moderate3 p2) :
    App 5 384 (dotF (subF p2 p1) (subF p2 p1)) (dist2 p1 p2) (dist2 p1 p2) ∧ dotF (subF p2 p1) (subF p2 p1) ≤ 2 ^ 202 := by
  obtain ⟨ax, bx⟩ := diff_app h2.1 h1.1
  obtain ⟨ay, yb⟩ := diff_app h2.2.1 h1.2.1
  obtain ⟨az, bz⟩ := diff_app h2.2.2 h1.2.2
  constructor
  · exact ((sq_app ax (by norm_num)).fadd (sq_app ay (by norm_num)) (by norm_num)).fadd
      ((sq_app az (by norm_num)).mono (by norm_num) le_rfl) (by norm_num)
  · have sq : ∀ v : ℚ, |v| ≤ 2 ^ 100 → |v ⊠ v| ≤ 2 ^ 200 := by
      intro v hv
      refine abs_fl_le ?_
      rw [abs_mul]
      calc |v| * |v| ≤ 2 ^ 100 * 2 ^ 100 := mul_le_mul hv hv (abs_nonneg _) (by positivity)
        _ = _ := by norm_num
    have add : ∀ a b : ℚ, ∀ k : ℕ, |a| ≤ 2 ^ k → |b| ≤ 2 ^ k → |a ⊞ b| ≤ 2 ^ (k + 1) := by
      intro a b k ha hb
      refine abs_fl_le ((abs_add_le _ _).trans ?_)
      rw [pow_succ]
      linarith
    have := add _ _ 201 (add _ _ 200 (sq _ bx) (sq _ yb)) ((sq _ bz).trans (by norm_num))
    exact (le_abs_self _).trans this

/-- The factor by which the difference of the points is multiplied. -/
theorem recip_bounds {x D len : ℚ} (ha : App 5 384 x D D) (hx : x ≤ 2 ^ 202) (h : SqrtRounded x len) (hl : 0 < len) :
    0 < 1 ⊘ len ∧ Grid 153 (1 ⊘ len) ∧ (1 ⊘ len) ^ 2 * D ≤ 1001 / 1000 ∧ 999 / 1000 ≤ (1 ⊘ len) ^ 2 * D := by
  obtain ⟨lo, hi, h1, h2, h3, h4, h5, h6⟩ := h
  have hu : u = 1 / 2 ^ 53 := rfl
  have hup := u_pos
  -- the square is not tiny
  have hx0 : 0 < x := by
    by_contra hc
    have : lo = 0 := by nlinarith
    rw [this, fl_zero] at h5
    exact hl.ne h5
  have hx1 : (1 / 2 ^ 192 : ℚ) ^ 2 ≤ x := by
    obtain ⟨m, hm⟩ := ha.grid
    have hm0 : 0 < m := by
      have : (0 : ℚ) < m := by
        rw [hm] at hx0
        exact pos_of_mul_pos_left hx0 (two_zpow_pos _).le
      exact_mod_cast this
    have hm1 : (1 : ℚ) ≤ m := by exact_mod_cast hm0
    rw [hm]
    calc (1 / 2 ^ 192 : ℚ) ^ 2 = 1 * (2 : ℚ) ^ (-((384 : ℕ) : ℤ)) := by
          rw [show (-((384 : ℕ) : ℤ)) = -192 + -192 by norm_num, two_zpow_add]; norm_num
      _ ≤ _ := mul_le_mul_of_nonneg_right hm1 (two_zpow_pos _).le
  have hhi : (1 : ℚ) / 2 ^ 192 ≤ hi := le_of_sq_le (hx1.trans h4) h2
  have p192 : IsF64 (1 / 2 ^ 192) := by
    have := fl_two_zpow (k := -192) (by norm_num)
    rw [show (2 : ℚ) ^ (-192 : ℤ) = 1 / 2 ^ 192 by norm_num] at this
    exact this
  have p193 : IsF64 (1 / 2 ^ 193) := by
    have := fl_two_zpow (k := -193) (by norm_num)
    rw [show (2 : ℚ) ^ (-193 : ℤ) = 1 / 2 ^ 193 by norm_num] at this
    exact this
  have hlen : (1 : ℚ) / 2 ^ 192 ≤ len := h6 ▸ le_fl p192 hhi
  have hlo : (1 : ℚ) / 2 ^ 193 ≤ lo := by
    by_contra hc
    have := fl_le p193 (not_le.1 hc).le
    rw [h5] at this
    have : (1 : ℚ) / 2 ^ 193 < 1 / 2 ^ 192 := by norm_num
    linarith
  have bound : ∀ y : ℚ, (1 : ℚ) / 2 ^ 250 ≤ y → (1 - u) * y ≤ fl y ∧ fl y ≤ (1 + u) * y := by
    intro y hy
    have hy0 : 0 < y := lt_of_lt_of_le (by positivity) hy
    have := fl_rel (x := y) (by
      rw [abs_of_pos hy0]
      refine le_trans ?_ hy
      rw [show (1 : ℚ) / 2 ^ 250 = (2 : ℚ) ^ (-250 : ℤ) by norm_num]
      exact two_zpow_le (by norm_num))
    rw [u_eq, abs_of_pos hy0, abs_le] at this
    constructor <;> linarith
  have b1 := (bound hi (le_trans (by norm_num) hhi)).1
  have b2 := (bound lo (le_trans (by norm_num) hlo)).2
  rw [h6] at b1
  rw [h5] at b2
  -- the length is not huge
  have hlo' : lo ≤ 2 ^ 101 := le_of_sq_le (h3.trans (hx.trans (by norm_num))) (by positivity)
  have hlen' : len ≤ 2 ^ 101 := h5 ▸ fl_le (isF64_two_pow 101) hlo'
  have hr1 : (1 : ℚ) / 2 ^ 101 ≤ 1 / len := one_div_le_one_div_of_le hl hlen'
  have p101 : IsF64 (1 / 2 ^ 101) := by
    have := fl_two_zpow (k := -101) (by norm_num)
    rw [show (2 : ℚ) ^ (-101 : ℤ) = 1 / 2 ^ 101 by norm_num] at this
    exact this
  have hr : (1 : ℚ) / 2 ^ 101 ≤ 1 ⊘ len := le_fl p101 hr1
  have hr0 : 0 < 1 ⊘ len := lt_of_lt_of_le (by positivity) hr
  obtain ⟨c1, c2⟩ := bound (1 / len) (le_trans (by norm_num) hr1)
  change (1 - u) * (1 / len) ≤ 1 ⊘ len at c1
  change 1 ⊘ len ≤ (1 + u) * (1 / len) at c2
  refine ⟨hr0, grid_of_large (k := 101) (isF64_fl _) (Or.inr ?_), ?_, ?_⟩
  · rw [abs_of_pos hr0]
    refine le_trans (le_of_eq ?_) hr
    norm_num
  · -- from above
    generalize 1 ⊘ len = r at *
    have e1 : r * len ≤ 1 + u := by
      have := mul_le_mul_of_nonneg_right c2 hl.le
      rwa [mul_assoc, one_div_mul_cancel hl.ne', mul_one] at this
    have e2 : (1 - u) ^ 2 * x ≤ len ^ 2 := by
      calc (1 - u) ^ 2 * x ≤ (1 - u) ^ 2 * hi ^ 2 := mul_le_mul_of_nonneg_left h4 (sq_nonneg _)
        _ = ((1 - u) * hi) ^ 2 := by ring
        _ ≤ len ^ 2 := pow_le_pow_left₀ (mul_nonneg (by linarith [u_lt]) h2) b1 2
    have e3 : (1 - u) ^ 2 * (r ^ 2 * x) ≤ (1 + u) ^ 2 := by
      calc (1 - u) ^ 2 * (r ^ 2 * x) = r ^ 2 * ((1 - u) ^ 2 * x) := by ring
        _ ≤ r ^ 2 * len ^ 2 := mul_le_mul_of_nonneg_left e2 (sq_nonneg _)
        _ = (r * len) ^ 2 := by ring
        _ ≤ (1 + u) ^ 2 := pow_le_pow_left₀ (mul_nonneg hr0.le hl.le) e1 2
    have e4 : (1 - 51 / 10 * u) * D ≤ x := by
      have := (abs_le.1 ha.err).1
      have := mul_le_mul_of_nonneg_right five ha.nonneg
      linarith
    have e5 : (1 - u) ^ 2 * (1 - 51 / 10 * u) * (r ^ 2 * D) ≤ (1 + u) ^ 2 := by
      refine le_trans ?_ e3
      have := mul_le_mul_of_nonneg_left e4 (mul_nonneg (sq_nonneg (1 - u)) (sq_nonneg r))
      linarith
    have e6 : (1 + u) ^ 2 ≤ (1 - u) ^ 2 * (1 - 51 / 10 * u) * (1001 / 1000) := by unfold u; norm_num
    have e7 : 0 < (1 - u) ^ 2 * (1 - 51 / 10 * u) := by unfold u; norm_num
    exact le_of_mul_le_mul_left (e5.trans e6) e7
  · generalize 1 ⊘ len = r at *
    have e1 : 1 - u ≤ r * len := by
      have := mul_le_mul_of_nonneg_right c1 hl.le
      rwa [mul_assoc, one_div_mul_cancel hl.ne', mul_one] at this
    have e2 : len ^ 2 ≤ (1 + u) ^ 2 * x := by
      calc len ^ 2 ≤ ((1 + u) * lo) ^ 2 := pow_le_pow_left₀ hl.le b2 2
        _ = (1 + u) ^ 2 * lo ^ 2 := by ring
        _ ≤ _ := mul_le_mul_of_nonneg_left h3 (sq_nonneg _)
    have e3 : (1 - u) ^ 2 ≤ (1 + u) ^ 2 * (r ^ 2 * x) := by
      calc (1 - u) ^ 2 ≤ (r * len) ^ 2 := pow_le_pow_left₀ (by linarith [u_lt]) e1 2
        _ = r ^ 2 * len ^ 2 := by ring
        _ ≤ r ^ 2 * ((1 + u) ^ 2 * x) := mul_le_mul_of_nonneg_left e2 (sq_nonneg _)
        _ = _ := by ring
    have e4 : x ≤ (1 + 51 / 10 * u) * D := by
      have := (abs_le.1 ha.err).2
      have := mul_le_mul_of_nonneg_right five ha.nonneg
      linarith
    have e5 : (1 - u) ^ 2 ≤ (1 + u) ^ 2 * (1 + 51 / 10 * u) * (r ^ 2 * D) := by
      refine e3.trans ?_
      have := mul_le_mul_of_nonneg_left e4 (mul_nonneg (sq_nonneg (1 + u)) (sq_nonneg r))
      linarith
    have e6 : (1 + u) ^ 2 * (1 + 51 / 10 * u) * (999 / 1000) ≤ (1 - u) ^ 2 := by unfold u; norm_num
    have e7 : 0 < (1 + u) ^ 2 * (1 + 51 / 10 * u) := by unfold u; norm_num
    exact le_of_mul_le_mul_left (e6.trans e5) e7

/-- The computed product differs from the exact one, divided by the length up to a relative error of a thousandth, by less than six
units. -/
theorem product_error {p1 p2 d n : P3 ℚ} (h1 : Moderate3 p1) (h2 : Moderate3 p2) (hd : Moderate3 d)
    (hd1 : norm2 d ≤ 1001 / 1000) (hn : IsNormal p1 p2 n) :
    ∃ r : ℚ, 0 < r ∧ r ^ 2 * dist2 p1 p2 ≤ 1001 / 1000 ∧ 999 / 1000 ≤ r ^ 2 * dist2 p1 p2 ∧
      |dotF n d - r * along d p1 p2| < 6 * u := by
  obtain ⟨len, hl, hs, rfl⟩ := hn
  obtain ⟨ha, hx⟩ := len2_app h1 h2
  obtain ⟨r0, rg, r1, r2⟩ := recip_bounds ha hx hs hl
  obtain ⟨ax, _⟩ := diff_app h2.1 h1.1
  obtain ⟨ay, _⟩ := diff_app h2.2.1 h1.2.1
  obtain ⟨az, _⟩ := diff_app h2.2.2 h1.2.2
  refine ⟨1 ⊘ len, r0, r1, r2, ?_⟩
  have hx := ((ax.fmul (App.exact rg) (by norm_num)).fmul (App.exact hd.1.grid) (by norm_num))
  have hy := ((ay.fmul (App.exact rg) (by norm_num)).fmul (App.exact hd.2.1.grid) (by norm_num))
  have hz := ((az.fmul (App.exact rg) (by norm_num)).fmul (App.exact hd.2.2.grid) (by norm_num))
  have hs := ((hx.fadd hy (by norm_num)).fadd (hz.mono (Nat.le_succ _) le_rfl) (by norm_num)).err
  change |dotF (normalizeWith (subF p2 p1) len) d - _| ≤ _ at hs
  generalize 1 ⊘ len = r at *
  have e : r * along d p1 p2 = (p2.x - p1.x) * r * d.x + (p2.y - p1.y) * r * d.y + (p2.z - p1.z) * r * d.z := by
    unfold along; ring
  rw [e]
  refine lt_of_le_of_lt hs ?_
  have hS0 : 0 ≤ |p2.x - p1.x| * |r| * |d.x| + |p2.y - p1.y| * |r| * |d.y| + |p2.z - p1.z| * |r| * |d.z| := by positivity
  have hS : |p2.x - p1.x| * |r| * |d.x| + |p2.y - p1.y| * |r| * |d.y| + |p2.z - p1.z| * |r| * |d.z| ≤ 101 / 100 := by
    refine le_of_sq_le ?_ (by norm_num)
    rw [abs_of_pos r0]
    have hD : dist2 p1 p2 = |p2.x - p1.x| ^ 2 + |p2.y - p1.y| ^ 2 + |p2.z - p1.z| ^ 2 := by
      unfold dist2; simp only [sq_abs]
    have hN : norm2 d = |d.x| ^ 2 + |d.y| ^ 2 + |d.z| ^ 2 := by unfold norm2; simp only [sq_abs]
    rw [hD] at r1
    rw [hN] at hd1
    generalize |p2.x - p1.x| = a at *
    generalize |p2.y - p1.y| = b at *
    generalize |p2.z - p1.z| = c at *
    generalize |d.x| = x at *
    generalize |d.y| = y at *
    generalize |d.z| = z at *
    have cs : (a * r * x + b * r * y + c * r * z) ^ 2 ≤ (r ^ 2 * (a ^ 2 + b ^ 2 + c ^ 2)) * (x ^ 2 + y ^ 2 + z ^ 2) := by
      have e : (r ^ 2 * (a ^ 2 + b ^ 2 + c ^ 2)) * (x ^ 2 + y ^ 2 + z ^ 2) - (a * r * x + b * r * y + c * r * z) ^ 2 =
          r ^ 2 * ((a * y - b * x) ^ 2 + (a * z - c * x) ^ 2 + (b * z - c * y) ^ 2) := by ring
      have : 0 ≤ r ^ 2 * ((a * y - b * x) ^ 2 + (a * z - c * x) ^ 2 + (b * z - c * y) ^ 2) := by positivity
      linarith
    refine cs.trans ?_
    calc _ ≤ (1001 / 1000 : ℚ) * (1001 / 1000) := mul_le_mul r1 hd1 (by positivity) (by norm_num)
      _ ≤ _ := by norm_num
  have h5 : (1 + u) ^ (1 + 0 + 1 + 0 + 1 + 1 + 1) - 1 ≤ 51 / 10 * u := five
  have := mul_le_mul h5 hS hS0 (by have := u_pos; linarith)
  have := u_pos
  refine lt_of_le_of_lt ‹_ * _ ≤ _› ?_
  linarith

/-- **C116.** If the computed product of the normal of a face and the direction is at least six units of roundoff then the second point
really lies further along the direction than the first one. -/
theorem large_product_order {p1 p2 d n : P3 ℚ} (h1 : Moderate3 p1) (h2 : Moderate3 p2) (hd : Moderate3 d)
    (hd1 : norm2 d ≤ 1001 / 1000) (hn : IsNormal p1 p2 n) (h : 6 / 2 ^ 53 ≤ dotF n d) : 0 < along d p1 p2 := by
  obtain ⟨r, hr, _, _, he⟩ := product_error h1 h2 hd hd1 hn
  have hu : u = 1 / 2 ^ 53 := rfl
  have := (abs_lt.1 he).2
  rw [hu] at this
  exact pos_of_mul_pos_right (by linarith) hr.le

/-- **C116.** A face that is not nearly parallel to the direction is classified correctly: if the exact cosine of the angle between the
connection of the points and the direction is at least seven units of roundoff, then the first cell finds the face downwind. -/
theorem clear_face_decided {p1 p2 d n : P3 ℚ} (h1 : Moderate3 p1) (h2 : Moderate3 p2) (hd : Moderate3 d)
    (hd1 : norm2 d ≤ 1001 / 1000) (hn : IsNormal p1 p2 n) (h0 : 0 ≤ along d p1 p2)
    (h : (7 / 2 ^ 53) ^ 2 * dist2 p1 p2 ≤ along d p1 p2 ^ 2) : downwindF n d := by
  obtain ⟨r, hr, _, hr1, he⟩ := product_error h1 h2 hd hd1 hn
  have hu : u = 1 / 2 ^ 53 := rfl
  have hup := u_pos
  have h7 : 6 * u ≤ r * along d p1 p2 := by
    refine le_of_sq_le ?_ (mul_nonneg hr.le h0)
    have e1 := mul_le_mul_of_nonneg_left h (sq_nonneg r)
    have e2 := mul_le_mul_of_nonneg_left hr1 (sq_nonneg (7 * u))
    have e3 : (7 / 2 ^ 53 : ℚ) = 7 * u := by rw [hu]; norm_num
    rw [e3] at e1
    have e4 : 0 ≤ u ^ 2 := sq_nonneg u
    nlinarith
  have := (abs_lt.1 he).1
  unfold downwindF
  linarith

/-- **C116.** Every cycle of points with computed normals contains a face whose computed product with the direction is less than six
units of roundoff: without nearly parallel faces there is no cycle. -/
theorem cycle_has_small_product {d : P3 ℚ} (hd : Moderate3 d) (hd1 : norm2 d ≤ 1001 / 1000) {k : ℕ} (hk : 0 < k) {c m : ℕ → P3 ℚ}
    (hc : ∀ i, Moderate3 (c i)) (hper : c k = c 0) (hm : ∀ i < k, IsNormal (c i) (c (i + 1)) (m i)) :
    ∃ i < k, dotF (m i) d < 6 / 2 ^ 53 := by
  by_contra hcon
  push Not at hcon
  have step : ∀ i < k, 0 < along d (c i) (c (i + 1)) := fun i hi =>
    large_product_order (hc i) (hc (i + 1)) hd hd1 (hm i hi) (hcon i hi)
  have up : ∀ i ≤ k, 0 < i → 0 < along d (c 0) (c i) := by
    intro i
    induction i with
    | zero => intro _ h; omega
    | succ i ih =>
      intro hi _
      have h1 := step i (by omega)
      rcases Nat.eq_zero_or_pos i with rfl | h0
      · exact h1
      · have h2 := ih (by omega) h0
        unfold along at *
        linarith
  have := up k le_rfl hk
  rw [hper] at this
  unfold along at this
  simp at this

end Verif.Rounding
