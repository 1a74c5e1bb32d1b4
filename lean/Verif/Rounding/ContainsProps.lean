import Verif.Rounding.Model
import Verif.Rounding.RoundLemmas

/-!
# C99: containment in a tetrahedron is decided without rounding errors
-/

namespace Verif.Rounding

open Verif.Predicates

/-- A coordinate as `remap_point` returns it: a binary64 number between one and two. -/
def Coord (x : ℚ) : Prop := IsF64 x ∧ 1 ≤ x ∧ x ≤ 2

instance (x : ℚ) : Decidable (Coord x) := inferInstanceAs (Decidable (_ ∧ _ ∧ _))

/-- A point as `remap_point` returns it. -/
def InCube (p : P3 ℚ) : Prop := Coord p.x ∧ Coord p.y ∧ Coord p.z

instance (p : P3 ℚ) : Decidable (InCube p) := inferInstanceAs (Decidable (_ ∧ _ ∧ _))

theorem Coord.grid {x : ℚ} (h : Coord x) : Grid 52 x := by
  obtain ⟨hf, h1, h2⟩ := h
  obtain ⟨m, hm, e⟩ := fl_form x
  have hx : x ≠ 0 := by linarith
  have hs : 0 ≤ scale x := by
    have := le_expo (k := 0) hx (by rw [abs_of_nonneg (by linarith)]; simpa using h1)
    unfold scale
    omega
  obtain ⟨n, hn⟩ := Int.eq_ofNat_of_zero_le hs
  rw [hf] at e
  refine ⟨m * 2 ^ n, ?_⟩
  rw [e, hn]
  push_cast
  rw [mul_assoc, ← zpow_natCast, ← two_zpow_add]
  congr 2

theorem Coord.sub_le {x y : ℚ} (hx : Coord x) (hy : Coord y) : |x - y| ≤ 1 := by
  obtain ⟨_, h1, h2⟩ := hx
  obtain ⟨_, h3, h4⟩ := hy
  rw [abs_le]
  constructor <;> linarith

/-- Differences of coordinates between one and two are not rounded. -/
theorem Coord.sub {x y : ℚ} (hx : Coord x) (hy : Coord y) : fsub x y = x - y := by
  refine (hx.grid.sub hy.grid).fl_self (by norm_num) ?_
  refine (hx.sub_le hy).trans_lt ?_
  norm_num

/-- A number in the middle between a power of two and the next number is rounded down. -/
theorem fl_tie {k : ℤ} (hk : -1022 ≤ k) : fl ((2 : ℚ) ^ k + (2 : ℚ) ^ (k - 53)) = (2 : ℚ) ^ k := by
  have p1 := two_zpow_pos k
  have p2 := two_zpow_pos (k - 53)
  have hlt : (2 : ℚ) ^ (k - 53) < (2 : ℚ) ^ k :=
    (zpow_lt_zpow_iff_right₀ (by norm_num : (1 : ℚ) < 2)).mpr (by omega)
  have hx : (2 : ℚ) ^ k + (2 : ℚ) ^ (k - 53) ≠ 0 := by linarith
  have ha : |(2 : ℚ) ^ k + (2 : ℚ) ^ (k - 53)| = (2 : ℚ) ^ k + (2 : ℚ) ^ (k - 53) :=
    abs_of_pos (by linarith)
  have e1 := le_expo (k := k) hx (by rw [ha]; linarith)
  have e2 := expo_lt (k := k + 1) hx (by rw [ha, two_zpow_add k 1, zpow_one]; linarith)
  have hs : scale ((2 : ℚ) ^ k + (2 : ℚ) ^ (k - 53)) = k := by
    unfold scale
    omega
  have e : ((2 : ℚ) ^ k + (2 : ℚ) ^ (k - 53)) * (2 : ℚ) ^ (52 - k) = 4503599627370496 + 1 / 2 := by
    rw [add_mul, ← two_zpow_add, ← two_zpow_add, show k + (52 - k) = 52 by ring,
      show k - 53 + (52 - k) = -1 by ring]
    norm_num
  have hn : nearest (4503599627370496 + 1 / 2) = 4503599627370496 := by decide +kernel
  unfold fl
  rw [hs, e, hn, show (2 : ℚ) ^ k = (2 : ℚ) ^ (52 + (k - 52)) by congr 1; ring, two_zpow_add]
  norm_num

/-- The rounding of a number close to one that is at most `2 ^ k`. -/
theorem round_near {k : ℤ} {s t d : ℚ} (hk : -1000 ≤ k) (ht : |t| ≤ (2 : ℚ) ^ k) (hs : |s - t| ≤ d)
    (hd : d ≤ (2 : ℚ) ^ (k - 53)) : |fl s| ≤ (2 : ℚ) ^ k ∧ |fl s - t| ≤ d + (2 : ℚ) ^ (k - 54) := by
  have hp := two_zpow_pos (k - 54)
  have hf : IsF64 ((2 : ℚ) ^ k) := fl_two_zpow (by omega)
  have tie : fl ((2 : ℚ) ^ k + (2 : ℚ) ^ (k - 53)) ≤ (2 : ℚ) ^ k := by
    refine le_of_eq (fl_tie (by omega))
  have up : ∀ s t : ℚ, |t| ≤ (2 : ℚ) ^ k → |s - t| ≤ d → fl s ≤ (2 : ℚ) ^ k := by
    intro s t ht hs
    refine (fl_mono ?_).trans tie
    rw [abs_le] at ht hs
    linarith
  have hb : |fl s| ≤ (2 : ℚ) ^ k := by
    rw [abs_le]
    refine ⟨?_, up s t ht hs⟩
    have := up (-s) (-t) (by rwa [abs_neg]) (by rw [← abs_neg]; convert hs using 2; ring)
    rw [fl_neg] at this
    linarith
  refine ⟨hb, ?_⟩
  rcases le_or_gt |s| ((2 : ℚ) ^ k) with h | h
  · have := fl_err h (by omega)
    calc |fl s - t| = |(s - t) + (fl s - s)| := by congr 1; ring
      _ ≤ |s - t| + |fl s - s| := abs_add_le _ _
      _ ≤ _ := add_le_add hs this
  · rw [abs_le] at ht hs hb
    rcases lt_abs.mp h with h | h
    · have h1 : (2 : ℚ) ^ k ≤ fl s := le_fl hf h.le
      rw [abs_le]
      constructor <;> linarith
    · have h1 : (2 : ℚ) ^ k ≤ fl (-s) := le_fl hf h.le
      rw [fl_neg] at h1
      rw [abs_le]
      constructor <;> linarith

/-- A product of two numbers that are at most one. -/
theorem mul_near {a b : ℚ} (ha : |a| ≤ 1) (hb : |b| ≤ 1) :
    |fmul a b| ≤ 1 ∧ |fmul a b - a * b| ≤ (2 : ℚ) ^ (-54 : ℤ) := by
  have hab : |a * b| ≤ (2 : ℚ) ^ (0 : ℤ) := by
    rw [abs_mul, zpow_zero]
    exact mul_le_one₀ ha (abs_nonneg b) hb
  have := round_near (k := 0) (s := a * b) (t := a * b) (d := 0) (by norm_num) hab (by simp)
    (two_zpow_pos _).le
  simpa [fmul] using this

private theorem affine_le {f0 f1 x : ℚ} (hx0 : 0 ≤ x) (hx1 : x ≤ 1) (h0 : f0 ≤ 1) (h1 : f1 ≤ 1) :
    (1 - x) * f0 + x * f1 ≤ 1 := by nlinarith

private theorem prods_le {a b c d : ℚ} (ha : 0 ≤ a ∧ a ≤ 1) (hb : 0 ≤ b ∧ b ≤ 1) (hc : 0 ≤ c ∧ c ≤ 1)
    (hd : 0 ≤ d ∧ d ≤ 1) : a * b - c * d ≤ 1 := by
  have := mul_nonneg hc.1 hd.1
  have := mul_le_one₀ ha.2 hb.1 hb.2
  linarith

/-- Twice the area of a triangle in the unit square is at most one. -/
theorem area_le {a1 a2 b1 b2 c1 c2 : ℚ} (ha1 : 0 ≤ a1 ∧ a1 ≤ 1) (ha2 : 0 ≤ a2 ∧ a2 ≤ 1)
    (hb1 : 0 ≤ b1 ∧ b1 ≤ 1) (hb2 : 0 ≤ b2 ∧ b2 ≤ 1) (hc1 : 0 ≤ c1 ∧ c1 ≤ 1) (hc2 : 0 ≤ c2 ∧ c2 ≤ 1) :
    (b1 - a1) * (c2 - a2) - (c1 - a1) * (b2 - a2) ≤ 1 := by
  have neg : ∀ {x : ℚ}, (0 ≤ x ∧ x ≤ 1) → (0 ≤ 1 - x ∧ 1 - x ≤ 1) := by
    rintro x ⟨h1, h2⟩
    exact ⟨by linarith, by linarith⟩
  have f00 := prods_le hb1 hc2 hc1 hb2
  have f10 := prods_le hb2 (neg hc1) hc2 (neg hb1)
  have f01 := prods_le hc1 (neg hb2) hb1 (neg hc2)
  have f11 := prods_le (neg hb1) (neg hc2) (neg hc1) (neg hb2)
  have g0 := affine_le ha1.1 ha1.2 f00 f10
  have g1 := affine_le ha1.1 ha1.2 f01 f11
  have g := affine_le ha2.1 ha2.2 g0 g1
  refine le_of_eq_of_le ?_ g
  ring

theorem area_abs_le {a1 a2 b1 b2 c1 c2 : ℚ} (ha1 : Coord a1) (ha2 : Coord a2) (hb1 : Coord b1)
    (hb2 : Coord b2) (hc1 : Coord c1) (hc2 : Coord c2) :
    |(b1 - a1) * (c2 - a2) - (c1 - a1) * (b2 - a2)| ≤ 1 := by
  have h : ∀ {x : ℚ}, Coord x → (0 ≤ x - 1 ∧ x - 1 ≤ 1) := by
    rintro x ⟨_, h1, h2⟩
    exact ⟨by linarith, by linarith⟩
  have g1 := area_le (h ha1) (h ha2) (h hb1) (h hb2) (h hc1) (h hc2)
  have g2 := area_le (h ha1) (h ha2) (h hc1) (h hc2) (h hb1) (h hb2)
  rw [abs_le]
  constructor
  · refine le_of_sub_nonneg ?_
    have : (b1 - a1) * (c2 - a2) - (c1 - a1) * (b2 - a2) - -1
      = 1 - ((c1 - 1 - (a1 - 1)) * (b2 - 1 - (a2 - 1)) - (b1 - 1 - (a1 - 1)) * (c2 - 1 - (a2 - 1))) := by ring
    rw [this]
    linarith
  · refine le_of_eq_of_le ?_ g1
    ring

/-- A component of the normal. -/
theorem normal_near {a1 a2 b1 b2 c1 c2 : ℚ} (ha1 : Coord a1) (ha2 : Coord a2) (hb1 : Coord b1)
    (hb2 : Coord b2) (hc1 : Coord c1) (hc2 : Coord c2) :
    |fsub (fmul (fsub b1 a1) (fsub c2 a2)) (fmul (fsub c1 a1) (fsub b2 a2))| ≤ 1 ∧
    |fsub (fmul (fsub b1 a1) (fsub c2 a2)) (fmul (fsub c1 a1) (fsub b2 a2))
      - ((b1 - a1) * (c2 - a2) - (c1 - a1) * (b2 - a2))| ≤ 3 * (2 : ℚ) ^ (-54 : ℤ) := by
  rw [hb1.sub ha1, hc2.sub ha2, hc1.sub ha1, hb2.sub ha2]
  obtain ⟨_, h1⟩ := mul_near (hb1.sub_le ha1) (hc2.sub_le ha2)
  obtain ⟨_, h2⟩ := mul_near (hc1.sub_le ha1) (hb2.sub_le ha2)
  have h3 := area_abs_le ha1 ha2 hb1 hb2 hc1 hc2
  have hs : |fmul (b1 - a1) (c2 - a2) - fmul (c1 - a1) (b2 - a2)
      - ((b1 - a1) * (c2 - a2) - (c1 - a1) * (b2 - a2))| ≤ 2 * (2 : ℚ) ^ (-54 : ℤ) := by
    rw [abs_le] at h1 h2 ⊢
    constructor <;> linarith
  have := round_near (k := 0) (by norm_num) (by simpa using h3) hs (by norm_num)
  refine ⟨by simpa [fsub] using this.1, ?_⟩
  unfold fsub
  refine this.2.trans_eq ?_
  norm_num

/-- The product of a component of the normal with a difference of coordinates. -/
theorem term_near {u n n' : ℚ} (hu : |u| ≤ 1) (hn : |n'| ≤ 1) (h : |n' - n| ≤ 3 * (2 : ℚ) ^ (-54 : ℤ)) :
    |fmul u n'| ≤ 1 ∧ |fmul u n' - u * n| ≤ 4 * (2 : ℚ) ^ (-54 : ℤ) := by
  obtain ⟨h1, h2⟩ := mul_near hu hn
  refine ⟨h1, ?_⟩
  have h3 : |u * n' - u * n| ≤ 3 * (2 : ℚ) ^ (-54 : ℤ) := by
    rw [← mul_sub, abs_mul]
    calc _ ≤ 1 * |n' - n| := mul_le_mul_of_nonneg_right hu (abs_nonneg _)
      _ ≤ _ := by rw [one_mul]; exact h
  rw [abs_le] at h2 h3 ⊢
  constructor <;> linarith

/-- The position of a point relative to the plane of a triangle, computed in `f64`, before the last
rounding. -/
theorem side_near {p a b c : P3 ℚ} (hp : InCube p) (ha : InCube a) (hb : InCube b) (hc : InCube c) :
    ∃ s, dotF (subF p a) (crossF (subF b a) (subF c a)) = fl s ∧
      |s - dot (p.sub a) (cross (b.sub a) (c.sub a))| ≤ 14 * (2 : ℚ) ^ (-54 : ℤ) := by
  obtain ⟨hpx, hpy, hpz⟩ := hp
  obtain ⟨hax, hay, haz⟩ := ha
  obtain ⟨hbx, hby, hbz⟩ := hb
  obtain ⟨hcx, hcy, hcz⟩ := hc
  obtain ⟨m1, n1⟩ := normal_near hay haz hby hbz hcy hcz
  obtain ⟨m2, n2⟩ := normal_near haz hax hbz hbx hcz hcx
  obtain ⟨m3, n3⟩ := normal_near hax hay hbx hby hcx hcy
  obtain ⟨k1, t1⟩ := term_near (hpx.sub_le hax) m1 n1
  obtain ⟨k2, t2⟩ := term_near (hpy.sub_le hay) m2 n2
  obtain ⟨k3, t3⟩ := term_near (hpz.sub_le haz) m3 n3
  refine ⟨_, rfl, ?_⟩
  dsimp only [subF, crossF, P3.sub, cross, dot]
  rw [hpx.sub hax, hpy.sub hay, hpz.sub haz]
  generalize hA : fmul (p.x - a.x) _ = A at *
  generalize hB : fmul (p.y - a.y) _ = B at *
  generalize hC : fmul (p.z - a.z) _ = C at *
  have hs : |fadd A B - (A + B)| ≤ 2 * (2 : ℚ) ^ (-54 : ℤ) := by
    have := fl_err (x := A + B) (k := 1) (by
      refine (abs_add_le _ _).trans ?_
      norm_num
      linarith) (by norm_num)
    refine this.trans_eq ?_
    norm_num
  rw [abs_le] at hs t1 t2 t3 ⊢
  constructor <;> linarith

theorem eps15_pos : (14 : ℚ) * (2 : ℚ) ^ (-54 : ℤ) < eps15 := by decide +kernel

/-- The sign of a number that is known up to an error is right if it is not too close to zero. -/
theorem sign_of_near {s t : ℚ} (h : |s - t| ≤ 14 * (2 : ℚ) ^ (-54 : ℤ)) {sg : Sign}
    (hs : trySign (fl s) eps15 = some sg) : sg = Sign.of t := by
  have hf : IsF64 (14 * (2 : ℚ) ^ (-54 : ℤ)) := by decide +kernel
  have he := eps15_pos
  have up : ∀ s t : ℚ, |s - t| ≤ 14 * (2 : ℚ) ^ (-54 : ℤ) → eps15 ≤ fl s → 0 < t := by
    intro s t h1 h2
    by_contra h3
    have : s ≤ 14 * (2 : ℚ) ^ (-54 : ℤ) := by
      rw [abs_le] at h1
      linarith
    have := fl_le hf this
    linarith
  unfold trySign at hs
  split at hs
  · exact absurd hs (by simp)
  · next hge =>
    have hge := not_lt.mp hge
    have hsg : Sign.of (fl s) = sg := by simpa using hs
    have hp : (0 : ℚ) < eps15 := lt_trans (mul_pos (by norm_num) (two_zpow_pos _)) he
    rcases le_abs.mp hge with h1 | h1
    · have ht := up s t h h1
      rw [← hsg]
      unfold Sign.of
      rw [if_neg (by linarith), if_neg (by linarith), if_neg (by linarith), if_neg (by linarith)]
    · have ht := up (-s) (-t) (by rw [← abs_neg]; convert h using 2; ring) (by rw [fl_neg]; exact h1)
      rw [← hsg]
      unfold Sign.of
      rw [if_pos (by linarith), if_pos (by linarith)]

theorem onSameSide_exact {p q a b c : P3 ℚ} (hp : InCube p) (hq : InCube q) (ha : InCube a)
    (hb : InCube b) (hc : InCube c) {r : Option Bool} (h : onSameSideF p q a b c = some r) :
    r = onSameSide p q a b c := by
  obtain ⟨s1, e1, n1⟩ := side_near hp ha hb hc
  obtain ⟨s2, e2, n2⟩ := side_near hq ha hb hc
  unfold onSameSideF at h
  dsimp only at h
  rw [e1, e2] at h
  split at h
  · exact absurd h (by simp)
  · next g1 h1 =>
    split at h
    · exact absurd h (by simp)
    · next g2 h2 =>
      rw [sign_of_near n1 h1, sign_of_near n2 h2] at h
      exact (Option.some.inj h).symm

theorem andThen_exact {a b : Option (Option Bool)} {a' b' : Option Bool}
    (ha : ∀ r, a = some r → r = a') (hb : ∀ r, b = some r → r = b') {r : Option Bool}
    (h : andThenF a b = some r) : r = andThen a' b' := by
  rcases a with _ | _ | _ | _
  · exact absurd h (by simp [andThenF])
  · rw [← ha _ rfl]
    simpa [andThenF, andThen, eq_comm] using h
  · rw [← ha _ rfl]
    simpa [andThenF, andThen, eq_comm] using h
  · rw [← ha _ rfl]
    exact hb _ h

/-- **C99**: for points as `remap_point` returns them, the test whether a tetrahedron contains a
point, first in `f64` with a fixed tolerance and with rational arithmetic if that is not conclusive,
has the result (and the panics) of exact arithmetic. -/
theorem tetra_contains_exact (t : Tetra ℚ) (p : P3 ℚ) (h1 : InCube t.p1) (h2 : InCube t.p2)
    (h3 : InCube t.p3) (h4 : InCube t.p4) (hp : InCube p) : tetraContains t p = t.contains p := by
  unfold tetraContains
  split
  · next r h =>
    refine andThen_exact (fun r hr => onSameSide_exact hp h1 h2 h3 h4 hr) (fun r hr => ?_) h
    refine andThen_exact (fun r hr => onSameSide_exact hp h2 h1 h3 h4 hr) (fun r hr => ?_) hr
    refine andThen_exact (fun r hr => onSameSide_exact hp h3 h1 h2 h4 hr) (fun r hr => ?_) hr
    exact onSameSide_exact hp h4 h1 h2 h3 hr
  · rfl

end Verif.Rounding
